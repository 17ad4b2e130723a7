import Verif.Unit.DeclDoneFirst

/-!
# Every declaration gets the slot it asks for
-/

namespace Redscript
open DeclM

set_option synthInstance.maxSize 2000
set_option synthInstance.maxHeartbeats 400000

theorem Frame1.methodOf {p p' : ConstantPool} (h : Frame1 p p') {cls f : Idx} (hm : MethodOf p cls f) : MethodOf p' cls f := by
  obtain ⟨c, h1, h2⟩ := hm
  obtain ⟨fs, h3⟩ := h.asClass h1
  exact ⟨_, h3, List.mem_append_left _ h2⟩

theorem Frame1.annNames {p p' : ConstantPool} (h : Frame1 p p') {a : Annotation} {cls : Idx} (hm : a.Names p cls) : a.Names p' cls := by
  obtain ⟨x, h1, h2⟩ := hm
  exact ⟨x, h1, h.nameEnds h2⟩

/-- What is needed of a later pool for a place to stay right. -/
theorem PutAt.mono {p0 p p' : ConstantPool} {path : ModulePath} {f : FunctionSource} {at_ : Placed} (h : PutAt p0 p path f at_)
    (hn : ∀ i t, p.defName i = some t → p'.defName i = some t)
    (hm : ∀ cls c, p.definitionBy AnyDefinition.asClass cls = some c →
      ∃ c', p'.definitionBy AnyDefinition.asClass cls = some c' ∧ c'.base = c.base ∧ ∀ g ∈ c.functions, g ∈ c'.functions) :
    PutAt p0 p' path f at_ := by
  have hN : ∀ {a : Annotation} {cls : Idx}, a.Names p cls → a.Names p' cls := fun ⟨x, h1, t, h2, h3⟩ => ⟨x, h1, t, hn _ _ h2, h3⟩
  have hM : ∀ {cls g : Idx}, MethodOf p cls g → MethodOf p' cls g := fun ⟨c, h1, h2⟩ => by
    obtain ⟨c', h3, _, h4⟩ := hm _ c h1
    exact ⟨c', h3, h4 _ h2⟩
  obtain ⟨h1, h2⟩ := h
  refine ⟨h1, ?_⟩
  cases hp : f.placing with
  | none => rw [hp] at h2; exact h2
  | some a =>
    rw [hp] at h2
    simp only at h2 ⊢
    split at h2
    · exact ⟨h2.1, hN h2.2.1, hM h2.2.2.1, h2.2.2.2⟩
    · exact ⟨h2.1, hN h2.2.1, hM h2.2.2.1, h2.2.2.2⟩
    · exact h2
    · obtain ⟨k1, k2, k3, k4, k5, k6, k7, k8⟩ := h2
      refine ⟨k1, k2, hN k3, hM k4, k5, k6, fun b hb => ?_, k8⟩
      obtain ⟨k9, c, k10, k11⟩ := k7 b hb
      obtain ⟨c', k12, k13, _⟩ := hm _ c k10
      exact ⟨hn _ _ k9, c', k12, by rw [k13]; exact hM k11⟩

theorem PutAt.frame1 {p0 p p' : ConstantPool} {path : ModulePath} {f : FunctionSource} {at_ : Placed} (h : PutAt p0 p path f at_)
    (k : Frame1 p p') : PutAt p0 p' path f at_ :=
  h.mono (fun _ _ ht => k.defName ht) fun cls c hc => by
    obtain ⟨fs, h3⟩ := k.asClass hc
    exact ⟨_, h3, rfl, fun g hg => List.mem_append_left _ hg⟩

/-- A slot for an entry of a module. -/
def Slot.For (p0 p : ConstantPool) (path : ModulePath) (e : SourceEntry) (x : Slot) : Prop :=
  match e, x with
  | .Class c, .Class i c' v => p0.definitions.length ≤ i.toNat ∧ c' = c ∧ v = visibilityOf c.declaration.qualifiers ∧
      p.defName i = some (path.withChild c.declaration.name).render
  | .Struct c, .Struct i c' v => p0.definitions.length ≤ i.toNat ∧ c' = c ∧ v = visibilityOf c.declaration.qualifiers ∧
      p.defName i = some (path.withChild c.declaration.name).render
  | .Enum e, .Enum i e' => p0.definitions.length ≤ i.toNat ∧ e' = e ∧ p.defName i = some (path.withChild e.declaration.name).render
  | .GlobalLet f, .Field i f' v => p0.definitions.length ≤ i.toNat ∧ f' = f ∧ v = visibilityOf f.declaration.qualifiers ∧
      p.defName i = some f.declaration.name
  | .Function f, .Function i parent base wrapped rep f' v => f' = f ∧ ∃ t, p.defName i = some t ∧
      PutAt p0 p path f ⟨i, parent, t, v, !rep && f.declaration.has .Native, base, wrapped⟩
  | _, _ => False

theorem Slot.For.frame1 {p0 p p' : ConstantPool} {path : ModulePath} {e : SourceEntry} {x : Slot} (h : x.For p0 p path e) (k : Frame1 p p') :
    x.For p0 p' path e := by
  cases e <;> cases x <;> first | exact h.elim | skip
  · exact ⟨h.1, h.2.1, h.2.2.1, k.defName h.2.2.2⟩
  · exact ⟨h.1, h.2.1, h.2.2.1, k.defName h.2.2.2⟩
  · obtain ⟨h1, t, h2, h3⟩ := h
    exact ⟨h1, t, k.defName h2, h3.frame1 k⟩
  · exact ⟨h.1, h.2.1, h.2.2.1, k.defName h.2.2.2⟩
  · exact ⟨h.1, h.2.1, k.defName h.2.2⟩

theorem Slot.Ready.frame1 {s s' : DeclState} {x : Slot} (h : x.Ready s) (k : Frame1 s.pool s'.pool) : x.Ready s' := by
  obtain ⟨⟨t, h1⟩, h2, h3⟩ := h
  exact ⟨⟨t, k.defName h1⟩, h2.frame1 k, fun i f v e => k.defName (h3 i f v e)⟩

/-- The definitions of the slots that are not for functions. -/
def takenBy (xs : List Slot) : List Idx := (xs.filter Slot.classLike).map Slot.index

/-- The slots made since there were `n` definitions, where those in `X` had been taken. -/
structure Laid (X : List Idx) (n : Nat) (s : DeclState) (xs : List Slot) : Prop where
  first : s.First (X ++ takenBy xs)
  ready : ∀ x ∈ xs, x.Ready s
  new : ∀ x ∈ xs, x.classLike = true → n ≤ x.index.toNat
  free : ∀ x ∈ xs, x.classLike = false → x.index ∉ X
  apart : xs.Pairwise Slot.Apart

theorem mem_takenBy {xs : List Slot} {x : Slot} (h : x ∈ xs) (hc : x.classLike = true) : x.index ∈ takenBy xs :=
  List.mem_map.2 ⟨x, List.mem_filter.2 ⟨h, hc⟩, rfl⟩

theorem Laid.nil {X : List Idx} {s : DeclState} (h : s.First X) {n : Nat} : Laid X n s [] :=
  ⟨by simpa [takenBy] using h, by simp, by simp, by simp, .nil⟩

theorem Laid.append {X : List Idx} {n : Nat} {s s' : DeclState} {xs ys : List Slot} (h : Laid X n s xs) (k : Frame1 s.pool s'.pool)
    (hn : n ≤ s.len) (h' : Laid (X ++ takenBy xs) s.len s' ys) : Laid X n s' (xs ++ ys) where
  first := by
    have := h'.first
    simp only [takenBy, List.filter_append, List.map_append, List.append_assoc] at this ⊢
    exact this
  ready := fun x hx => (List.mem_append.1 hx).elim (fun hx => (h.ready x hx).frame1 k) (h'.ready x)
  new := fun x hx hc => (List.mem_append.1 hx).elim (fun hx => h.new x hx hc) fun hx => Nat.le_trans hn (h'.new x hx hc)
  free := fun x hx hc => (List.mem_append.1 hx).elim (fun hx => h.free x hx hc)
    fun hx hmem => h'.free x hx hc (List.mem_append_left _ hmem)
  apart := by
    refine List.pairwise_append.2 ⟨h.apart, h'.apart, fun x hx y hy hc he => ?_⟩
    obtain ⟨t, ht⟩ := (h.ready x hx).1
    have hlt : x.index.toNat < s.len := defName_lt ht
    cases hy' : y.classLike with
    | true =>
      have := h'.new y hy hy'
      rw [← he] at this
      omega
    | false =>
      rw [hy'] at hc
      have hx' : x.classLike = true := hc.resolve_right (by simp)
      exact h'.free y hy hy' (by rw [← he]; exact List.mem_append_right _ (mem_takenBy hx hx'))

theorem Each2.append {R : α → β → Prop} {as as' : List α} {bs bs' : List β} (h : Each2 R as bs) (h' : Each2 R as' bs') :
    Each2 R (as ++ as') (bs ++ bs') := by
  induction h with
  | nil => exact h'
  | cons h _ ih => exact .cons h ih

theorem Each2.map_left {R : γ → β → Prop} {f : α → γ} {as : List α} {bs : List β} (h : Each2 (fun a b => R (f a) b) as bs) :
    Each2 R (as.map f) bs := by
  induction h with
  | nil => exact .nil
  | cons h _ ih => exact .cons h ih

theorem Each2.map_right {R : α → γ → Prop} {f : β → γ} {as : List α} {bs : List β} (h : Each2 (fun a b => R a (f b)) as bs) :
    Each2 R as (bs.map f) := by
  induction h with
  | nil => exact .nil
  | cons h _ ih => exact .cons h ih

theorem Each2.mono_mem {R R' : α → β → Prop} {as : List α} {bs : List β} (h : Each2 R as bs) (hr : ∀ a, ∀ b ∈ bs, R a b → R' a b) :
    Each2 R' as bs := by
  induction h with
  | nil => exact .nil
  | cons h _ ih => exact .cons (hr _ _ List.mem_cons_self h) (ih fun a b hb => hr a b (List.mem_cons_of_mem _ hb))

namespace Moves
variable {s : DeclState} {X : List Idx} {p0 : ConstantPool} {path : ModulePath}

/-- What is to be shown of the slot of a function. -/
abbrev FunctionSlot (X : List Idx) (p0 : ConstantPool) (path : ModulePath) (f : FunctionSource) (s' : DeclState) (x : Slot) : Prop :=
  s'.First X ∧ x.classLike = false ∧ FreeAt X s'.pool x.index ∧ x.For p0 s'.pool path (.Function f)

theorem locateWrap {a : Annotation} {f : FunctionSource} (h : s.First X) (h0 : p0.definitions.length ≤ s.len) (hp : f.placing = some a)
    (hk : a.kind = .WrapMethod) :
    Moves s (Redscript.locateWrap a f (visibilityOf f.declaration.qualifiers)) (FunctionSlot X p0 path f) := by
  unfold Redscript.locateWrap
  refine bind (Q := fun s' _ => s' = s) (when (fun _ => fail) fun _ => rfl) fun s1 _ _ _ e => ?_
  subst e
  refine bind (targetClass h) fun s2 cls _ _ ⟨e, hx⟩ => ?_
  subst e
  refine bind targetMethod fun s3 _ _ _ ⟨e, _⟩ => ?_
  subst e
  refine bind (declareWrap h) fun s4 w _ k ⟨h1, h2, h3, ⟨t, h4⟩, h5⟩ => pure ⟨h1, rfl, h3, rfl, t, h4, rfl, ?_⟩
  rw [hp]
  simp only [hk]
  exact ⟨Nat.le_trans h0 h2, k.annNames hx, h5, by simp, rfl⟩

theorem locateReplace {a : Annotation} {f : FunctionSource} (h : s.First X) (h0 : Frame1 p0 s.pool) (hp : f.placing = some a)
    (hk : a.kind = .ReplaceMethod) :
    Moves s (Redscript.locateReplace a f (visibilityOf f.declaration.qualifiers)) (FunctionSlot X p0 path f) := by
  unfold Redscript.locateReplace
  refine bind (targetClass h) fun s2 cls _ _ ⟨e, hx⟩ => ?_
  subst e
  refine bind targetMethod fun s3 i _ _ ⟨e, h1, c, h2, h3⟩ => ?_
  subst e
  refine bind (Q := fun s' base => s' = s3 ∧ base = (s3.pool.function i).bind (·.baseMethod)) (read ⟨rfl, rfl⟩) fun s4 base _ _ ⟨e, hb⟩ => ?_
  subst e
  refine pure ⟨h, rfl, h.members cls c h2 i h3, rfl, f.sig, h1, rfl, ?_⟩
  rw [hp]
  simp only [hk]
  exact ⟨trivial, hx, ⟨c, h2, h3⟩, by simp, fun hl => by rw [hb, h0.function hl], trivial⟩

theorem locateGlobal {a : Annotation} {f : FunctionSource} (h : s.First X) (hp : f.placing = some a) (hk : a.kind = .ReplaceGlobal) :
    Moves s (Redscript.locateGlobal f (visibilityOf f.declaration.qualifiers)) (FunctionSlot X p0 path f) := by
  unfold Redscript.locateGlobal
  refine bind (Q := fun s' fs => s' = s ∧ ∀ i ∈ fs, FreeAt X s.pool i) (readOr fun fs hfs => ⟨rfl, ?_⟩) fun s1 fs _ _ ⟨e, hfs⟩ => ?_
  · unfold Scope.resolveFunction at hfs
    split at hfs
    · next gs hg =>
      cases hfs
      exact fun i hi => (h.scope _ _ hg i hi).1 rfl
    · cases hfs
  subst e
  refine bind (Q := fun s' i => s' = s1 ∧ FreeAt X s1.pool i ∧ s1.pool.defName i = some f.sig) (readOr fun i hi => ?_) fun s2 i _ _ ⟨e, h1, h2⟩ => ?_
  · obtain ⟨h1, h2⟩ := byId_mem hi
    exact ⟨rfl, hfs i h1, h2⟩
  subst e
  refine pure ⟨h, rfl, h1, rfl, f.sig, h2, rfl, ?_⟩
  rw [hp]
  simp only [hk]
  exact ⟨trivial, trivial, by simp, trivial⟩

theorem baseMethodIn_spec {p : ConstantPool} {sig : Text} : ∀ {fs : List Idx} {o : Option Idx}, baseMethodIn p sig fs = some o →
    (∀ b, o = some b → b ∈ fs ∧ p.defName b = some sig) ∧ ∀ b ∈ fs, p.defName b = some sig → o.isSome = true
  | [], o, h => by cases h; exact ⟨fun b hb => (by cases hb), fun b hb => (by cases hb)⟩
  | g :: fs, o, h => by
    unfold baseMethodIn at h
    rw [Option.bind_eq_some_iff] at h
    obtain ⟨n, hn, h⟩ := h
    split at h
    · next e =>
      cases h
      exact ⟨fun b hb => by cases hb; exact ⟨List.mem_cons_self, by rw [hn, e]⟩, fun _ _ _ => rfl⟩
    · next e =>
      obtain ⟨h1, h2⟩ := baseMethodIn_spec h
      refine ⟨fun b hb => ⟨List.mem_cons_of_mem _ (h1 b hb).1, (h1 b hb).2⟩, fun b hb hs => ?_⟩
      rcases List.mem_cons.1 hb with rfl | hb
      · rw [hn] at hs; cases hs; exact absurd rfl e
      · exact h2 b hb hs

theorem addedBase {c : ClassDef} {sig : Text} : Moves s (Redscript.addedBase c sig) fun s' o => s' = s ∧
    (∀ b, o = some b → s.pool.defName b = some sig ∧ MethodOf s.pool c.base b) ∧
    (c.base ≠ 0 → ∀ b, MethodOf s.pool c.base b → s.pool.defName b = some sig → o.isSome = true) := by
  unfold Redscript.addedBase
  split
  · refine bind classAt fun s1 d _ _ ⟨e, hd⟩ => ?_
    subst e
    refine readOr fun o ho => ?_
    obtain ⟨h1, h2⟩ := baseMethodIn_spec ho
    refine ⟨rfl, fun b hb => ⟨(h1 b hb).2, d, hd, (h1 b hb).1⟩, fun _ b ⟨d', hd', hb⟩ hs => ?_⟩
    rw [hd] at hd'; cases hd'
    exact h2 b hb hs
  · next hb => exact pure ⟨rfl, fun b hb => (by cases hb), fun h => absurd h hb⟩

theorem locateAdd {a : Annotation} {f : FunctionSource} (h : s.First X) (h0 : Frame1 p0 s.pool) (hp : f.placing = some a)
    (hk : a.kind = .AddMethod) :
    Moves s (Redscript.locateAdd a f (visibilityOf f.declaration.qualifiers)) (FunctionSlot X p0 path f) := by
  unfold Redscript.locateAdd
  refine bind (targetClass h) fun s2 cls _ _ ⟨e, hx⟩ => ?_
  subst e
  refine bind (Q := fun s' _ => s' = s2) (read rfl) fun s3 o _ _ e => ?_
  subst e
  refine bind (Q := fun s' _ => s' = s3) (when (fun _ => diagnose) fun _ => rfl) fun s4 _ _ _ e => ?_
  subst e
  refine bind classAt fun s5 c _ _ ⟨e, hc⟩ => ?_
  subst e
  refine bind addedBase fun s6 base _ _ ⟨e, hb, hb'⟩ => ?_
  subst e
  refine bind (addName h) fun s7 n _ k7 ⟨h7, hn, _⟩ => ?_
  refine bind (stub h7 hn) fun s8 i _ k8 ⟨h8, _, hi, _, hi', hfree⟩ => ?_
  refine bind (onClass h8 hfree) fun s9 _ _ k9 ⟨h9, _, hm⟩ => pure ⟨h9, rfl, hfree.frame k9, rfl, f.sig, k9.defName hi', rfl, ?_⟩
  have k := (k7.trans k8).trans k9
  rw [hp]
  simp only [hk]
  refine ⟨?_, trivial, k.annNames hx, hm, by simp, trivial, fun b h1 => ?_, fun c' b h1 h2 h3 h4 => ?_⟩
  · rw [hi]
    exact Nat.le_trans (h0.trans k7).size (Nat.le_refl _)
  · obtain ⟨h2, h3⟩ := hb b h1
    obtain ⟨fs, h4⟩ := k.asClass hc
    exact ⟨k.defName h2, _, h4, k.methodOf h3⟩
  · obtain ⟨fs, h5⟩ := h0.asClass h1
    rw [hc] at h5; cases h5
    exact hb' h2 b (h0.methodOf h3) (h0.defName h4)

theorem locatePlain {f : FunctionSource} (h : s.First X) (h0 : Frame1 p0 s.pool) (hp : f.placing = none) :
    Moves s (Redscript.locatePlain f path (visibilityOf f.declaration.qualifiers)) (FunctionSlot X p0 path f) := by
  unfold Redscript.locatePlain
  refine bind (addName h) fun s7 n _ k7 ⟨h7, hn, _⟩ => ?_
  refine bind (stub h7 hn) fun s8 i _ k8 ⟨h8, _, hi, _, hi', hfree⟩ => ?_
  refine bind (Q := fun s' _ => s'.pool = s8.pool ∧ s'.scope = s8.scope ∧
      s'.symbols = s8.symbols.add (path.withChild f.declaration.name) (.Functions [(i, visibilityOf f.declaration.qualifiers)]))
    (update rfl ⟨rfl, rfl, rfl⟩) fun s9 _ _ k9 ⟨e9, c9, m9⟩ => ?_
  have hsy : SymbolsFit (FirstPath X s8.pool) s9.symbols := by
    rw [m9]
    refine h8.symbols.add fun j hj => ?_
    have : j = i := by simpa [Symbol.indexes] using hj
    subst this
    exact ⟨fun _ => hfree, fun hb => by cases hb⟩
  have hwf : s9.symbols.Wf := by rw [m9]; exact SymbolMap.add_wf h8.wf (by simp [ModulePath.withChild]) _
  refine bind (Q := fun s' _ => s'.First X ∧ s'.pool = s8.pool) (when (fun hp => update rfl ⟨?_, e9⟩) fun hp => ⟨?_, e9⟩) fun s10 _ _ k10 ⟨h10, e10⟩ => ?_
  · have hp : path = [] := by simpa using hp
    show Redscript.First X s9.pool s9.symbols (s9.scope.addSymbol f.declaration.name (.Functions [(i, visibilityOf f.declaration.qualifiers)]))
    rw [e9, c9]
    refine ⟨h8.names, h8.new, h8.members, hsy, h8.scope.addSymbol fun j hj => ?_, h8.table.of_types (addSymbol_types _ _ _), h8.shape, hwf, ?_⟩
    · have : j = i := by simpa [Symbol.indexes] using hj
      subst this
      exact ⟨fun _ => hfree, fun hb => by cases hb⟩
    · rw [m9, hp]; exact h8.global.add h8.wf _ _
  · have hp : path ≠ [] := by intro e; rw [e] at hp; cases hp
    show Redscript.First X s9.pool s9.symbols s9.scope
    rw [e9, c9]
    exact ⟨h8.names, h8.new, h8.members, hsy, h8.scope, h8.table, h8.shape, hwf, by rw [m9]; exact h8.global.other h8.wf hp _ _⟩
  refine pure ⟨h10, rfl, by rw [e10]; exact hfree, rfl, _, by rw [e10]; exact hi', rfl, ?_⟩
  rw [hp]
  simp only
  exact ⟨by rw [hi]; exact (h0.trans k7).size, trivial, trivial, by simp, trivial, trivial⟩

theorem locateFunction {f : FunctionSource} (h : s.First X) (h0 : Frame1 p0 s.pool) :
    Moves s (Redscript.locateFunction f path) (FunctionSlot X p0 path f) := by
  unfold Redscript.locateFunction
  cases hp : f.placing with
  | none => 
    unfold FunctionSource.placing at hp
    rw [hp]
    exact locatePlain h h0 hp
  | some a =>
    have hp' := hp
    have hk := List.find?_some hp
    unfold FunctionSource.placing at hp
    rw [hp]
    simp only [decide_eq_true_eq] at hk
    rcases hk with hk | hk | hk | hk
    · simp only [hk]; exact locateWrap h h0.size hp' hk
    · simp only [hk]; exact locateReplace h h0 hp' hk
    · simp only [hk]; exact locateGlobal h hp' hk
    · simp only [hk]; exact locateAdd h h0 hp' hk

/-- A class, struct or enum gets a new definition under its path. -/
theorem defineNamed {name : Text} {sym : Idx → Symbol} (hs : ∀ i, (sym i).indexes = [i] ∧ (sym i).isFunctions = false) (h : s.First X) :
    Moves s (Redscript.defineNamed path name sym) fun s' i => s'.First (X ++ [i]) ∧ s.len ≤ i.toNat ∧
      s'.pool.defName i = some (path.withChild name).render ∧ FunctionAt s'.pool i := by
  unfold Redscript.defineNamed
  refine bind (addName h) fun s7 n _ k7 ⟨h7, hn, e7⟩ => ?_
  refine bind (stub h7 hn) fun s8 i _ k8 ⟨_, h8, hi, _, hi', hfree⟩ => ?_
  refine bind (Q := fun s' _ => s'.pool = s8.pool ∧ s'.scope = s8.scope ∧ s'.symbols = s8.symbols.insert (path.withChild name) (sym i))
    (update rfl ⟨rfl, rfl, rfl⟩) fun s9 _ _ k9 ⟨e9, c9, m9⟩ => ?_
  have hsy : SymbolsFit (FirstPath (X ++ [i]) s8.pool) s9.symbols := by
    rw [m9]
    refine h8.symbols.insert fun j hj => ?_
    rw [(hs i).1, List.mem_singleton] at hj
    subst hj
    exact ⟨fun hb => (by rw [(hs j).2] at hb; cases hb), fun _ => ⟨_, hi', .inr rfl⟩⟩
  have hwf : s9.symbols.Wf := by rw [m9]; exact SymbolMap.insert_wf h8.wf (by simp [ModulePath.withChild]) _
  refine bind (Q := fun s' _ => s'.First (X ++ [i]) ∧ s'.pool = s8.pool) (when (fun hp => update rfl ⟨?_, e9⟩) fun hp => ⟨?_, e9⟩) fun s10 _ _ k10 ⟨h10, e10⟩ => ?_
  · have hp : path = [] := by simpa using hp
    show Redscript.First (X ++ [i]) s9.pool s9.symbols (s9.scope.addSymbol _ _)
    rw [e9, c9]
    refine ⟨h8.names, h8.new, h8.members, hsy, h8.scope.addSymbol fun j hj => ?_, h8.table.of_types (addSymbol_types _ _ _), h8.shape, hwf, ?_⟩
    · rw [(hs i).1, List.mem_singleton] at hj
      subst hj
      exact ⟨fun hb => (by rw [(hs j).2] at hb; cases hb), fun _ => ⟨_, hi', .inr ⟨path, rfl⟩⟩⟩
    · rw [m9, hp, insert_eq_add (hs i).2]; exact h8.global.add h8.wf _ _
  · have hp : path ≠ [] := by intro e; rw [e] at hp; cases hp
    show Redscript.First (X ++ [i]) s9.pool s9.symbols s9.scope
    rw [e9, c9]
    exact ⟨h8.names, h8.new, h8.members, hsy, h8.scope, h8.table, h8.shape, hwf,
      by rw [m9, insert_eq_add (hs i).2]; exact h8.global.other h8.wf hp _ _⟩
  refine pure ⟨h10, ?_, by rw [e10]; exact hi', by rw [e10]; exact hfree.2.2⟩
  rw [hi]
  exact k7.size

theorem checkRedefinition {cx : DeclCtx} : Moves s (Redscript.checkRedefinition cx path) fun s' _ => s' = s := by
  unfold Redscript.checkRedefinition
  refine bind (Q := fun s' _ => s' = s) (read rfl) fun s1 o _ _ e => ?_
  subst e
  exact when (fun _ => fail) fun _ => rfl

theorem laid_one {x : Slot} {s' : DeclState} (hc : x.classLike = true) (hf : s'.First (X ++ [x.index])) (hn : s.len ≤ x.index.toNat)
    (hr : x.Ready s') : Laid X s.len s' [x] := by
  refine ⟨by simpa [takenBy, hc] using hf, fun y hy => ?_, fun y hy _ => ?_, fun y hy hc' => ?_, by simp⟩
  · rw [List.mem_singleton] at hy; subst hy; exact hr
  · rw [List.mem_singleton] at hy; subst hy; exact hn
  · rw [List.mem_singleton] at hy; subst hy; rw [hc] at hc'; cases hc'

/-- A declaration gets its slot. -/
theorem defineSymbol {cx : DeclCtx} {e : SourceEntry} (h : s.First X) (h0 : Frame1 p0 s.pool) :
    Moves s (Redscript.defineSymbol cx path e) fun s' x => Laid X s.len s' [x] ∧ x.For p0 s'.pool path e := by
  cases e with
  | Class c =>
    unfold Redscript.defineSymbol
    refine bind checkRedefinition fun s1 _ _ _ e => ?_
    subst e
    refine bind (defineNamed (fun i => ⟨rfl, rfl⟩) h) fun s2 i _ k ⟨h1, h2, h3, h4⟩ => pure ⟨laid_one rfl h1 h2 ?_, ?_⟩
    · exact ⟨⟨_, h3⟩, h4, fun _ _ _ e => by cases e⟩
    · exact ⟨Nat.le_trans h0.size h2, rfl, rfl, h3⟩
  | Struct c =>
    unfold Redscript.defineSymbol
    refine bind checkRedefinition fun s1 _ _ _ e => ?_
    subst e
    refine bind (defineNamed (fun i => ⟨rfl, rfl⟩) h) fun s2 i _ k ⟨h1, h2, h3, h4⟩ => pure ⟨laid_one rfl h1 h2 ?_, ?_⟩
    · exact ⟨⟨_, h3⟩, h4, fun _ _ _ e => by cases e⟩
    · exact ⟨Nat.le_trans h0.size h2, rfl, rfl, h3⟩
  | Function f =>
    unfold Redscript.defineSymbol
    refine (locateFunction h h0).mono fun s' x k ⟨h1, h2, h3, h4⟩ => ⟨?_, h4⟩
    obtain ⟨t, ht⟩ : ∃ t, s'.pool.defName x.index = some t := by
      cases x <;> first | exact h4.elim | skip
      obtain ⟨_, t, ht, _⟩ := h4
      exact ⟨t, ht⟩
    refine ⟨by simpa [takenBy, h2] using h1, fun y hy => ?_, fun y hy hc => ?_, fun y hy _ => ?_, by simp⟩
    · rw [List.mem_singleton] at hy; subst hy; exact ⟨⟨t, ht⟩, h3.2.2, fun _ _ _ e => by rw [e] at h2; cases h2⟩
    · rw [List.mem_singleton] at hy; subst hy; rw [h2] at hc; cases hc
    · rw [List.mem_singleton] at hy; subst hy; exact h3.2.1
  | GlobalLet f =>
    unfold Redscript.defineSymbol
    refine bind (addName h) fun s7 n _ k7 ⟨h7, hn, e7⟩ => ?_
    refine bind (stub h7 hn) fun s8 i _ k8 ⟨_, h8, hi, _, hi', hfree⟩ => pure ⟨laid_one rfl h8 ?_ ?_, ?_⟩
    · show s.len ≤ i.toNat
      rw [hi]; exact k7.size
    · exact ⟨⟨_, hi'⟩, hfree.2.2, fun _ _ _ e => by cases e; exact hi'⟩
    · exact ⟨by rw [hi]; exact (h0.trans k7).size, rfl, rfl, hi'⟩
  | Enum e =>
    unfold Redscript.defineSymbol
    refine bind (defineNamed (fun i => ⟨rfl, rfl⟩) h) fun s2 i _ k ⟨h1, h2, h3, h4⟩ => pure ⟨laid_one rfl h1 h2 ?_, ?_⟩
    · exact ⟨⟨_, h3⟩, h4, fun _ _ _ e => by cases e⟩
    · exact ⟨Nat.le_trans h0.size h2, rfl, h3⟩

theorem conditions {cx : DeclCtx} {d : DeclSource} : Moves s (Redscript.conditions cx d.annotations) fun s' on => s' = s ∧ d.Enabled cx.modules = on :=
  readOr fun a h => ⟨rfl, by unfold DeclSource.Enabled; rw [h]; cases a <;> rfl⟩

theorem defineEntries {cx : DeclCtx} : ∀ {es : List SourceEntry} {s : DeclState} {X : List Idx}, s.First X → Frame1 p0 s.pool →
    Moves s (Redscript.defineEntries cx path es) fun s' xs => Laid X s.len s' xs ∧
      Each2 (fun e x => Slot.For p0 s'.pool path e x) (es.filter fun e => e.declaration.Enabled cx.modules) xs
  | [], s, X, h, h0 => pure ⟨.nil h, .nil⟩
  | e :: es, s, X, h, h0 => by
    unfold Redscript.defineEntries
    refine bind conditions fun s1 on _ _ ⟨e1, hon⟩ => ?_
    subst e1
    cases on with
    | false =>
      rw [List.filter_cons_of_neg (by rw [hon]; simp)]
      simp only [Bool.false_eq_true, if_false]
      exact defineEntries h h0
    | true =>
      rw [List.filter_cons_of_pos (p := fun e : SourceEntry => DeclSource.Enabled cx.modules e.declaration) (a := e) hon]
      simp only [if_true]
      refine bind (reporting (defineSymbol (p0 := p0) (path := path) h h0)) fun s2 o _ k2 ⟨x, ex, h2, h3⟩ => ?_
      subst ex
      refine bind (defineEntries h2.first (h0.trans k2)) fun s3 xs _ k3 ⟨h4, h5⟩ => pure ⟨h2.append k3 k2.size h4, .cons (h3.frame1 k3) h5⟩

theorem defineModules {cx : DeclCtx} : ∀ {ms : List SourceModule} {s : DeclState} {X : List Idx}, s.First X → Frame1 p0 s.pool →
    Moves s (Redscript.defineModules cx ms) fun s' qs => Laid X s.len s' (qs.flatMap (·.slots)) ∧
      Each2 (fun (e : SourceModule × SourceEntry) x => Slot.For p0 s'.pool (e.1.path.getD []) e.2 x ∧
        ∃ q ∈ qs, x ∈ q.slots ∧ q.path = e.1.path.getD [] ∧ q.imports = e.1.imports) (ms.flatMap (·.enabled cx.modules)) (qs.flatMap (·.slots))
  | [], s, X, h, h0 => pure ⟨.nil h, .nil⟩
  | m :: ms, s, X, h, h0 => by
    unfold Redscript.defineModules
    refine bind (defineEntries h h0) fun s2 xs _ k2 ⟨h2, h3⟩ => ?_
    refine bind (defineModules h2.first (h0.trans k2)) fun s3 qs _ k3 ⟨h4, h5⟩ => pure ⟨?_, ?_⟩
    · rw [List.flatMap_cons]; exact h2.append k3 k2.size h4
    · rw [List.flatMap_cons, List.flatMap_cons]
      refine Each2.append ?_ (h5.mono fun e x ⟨hx, q, hq, hr⟩ => ⟨hx, q, List.mem_cons_of_mem _ hq, hr⟩)
      unfold SourceModule.enabled
      exact Each2.map_left (h3.mono_mem fun e x hxs hx => ⟨hx.frame1 k3, _, List.mem_cons_self, hxs, rfl, rfl⟩)

end Moves
end Redscript
