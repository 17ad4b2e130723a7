import Verif.Unit.WrapSecond
import Verif.Unit.WrapTheorems

/-!
# The wrappers that the first loop declares
-/

namespace Redscript
open DeclM

set_option synthInstance.maxSize 2000
set_option synthInstance.maxHeartbeats 400000

/-- The slot of a wrapper. -/
def Slot.isWrapper : Slot → Bool
  | .Function _ _ _ wrapped _ _ _ => wrapped.isSome
  | _ => false

/-- The slot is that of the wrapper, which is around a method with the signature of the source. -/
def Slot.Around (p : ConstantPool) (x : Slot) (w : WrapSlot) : Prop :=
  ∃ base f v, x = .Function w.index w.parent base (some w.wrapped) true f v ∧ p.defName w.target = some f.sig ∧
    MethodOf p w.parent w.target

/-- What is known of wrappers after the slots `xs`: `ws` are the wrappers among them. -/
structure Wrapping (p0 : ConstantPool) (s : DeclState) (xs : List Slot) (ws : List WrapSlot) : Prop where
  declared : Declared ⟨p0, .empty, .empty⟩ ws ⟨s.pool, s.wrappers, s.proxies⟩
  listed : ∀ i f, MethodOf s.pool i f → MethodOf p0 i f ∨ ∃ x ∈ xs, x.classLike = false ∧ x.index = f ∧
    ∃ t, s.pool.defName f = some t ∧ ('$' ∈ t → ∃ w ∈ ws, f = w.index)
  inUse : ∀ x ∈ xs, x.index.toNat < s.len
  apart : ∀ x ∈ xs, ∀ g, s.proxies.get g ≠ some x.index
  wraps : Each2 (Slot.Around s.pool) (xs.filter Slot.isWrapper) ws

theorem Slot.Around.frame1 {p p' : ConstantPool} {x : Slot} {w : WrapSlot} (h : x.Around p w) (k : Frame1 p p') : x.Around p' w := by
  obtain ⟨base, f, v, h1, h2, h3⟩ := h
  exact ⟨base, f, v, h1, k.defName h2, k.methodOf h3⟩

/-- Methods added to classes and new definitions do not disturb the wrappers. -/
theorem otherWork_frame1 {p0 : ConstantPool} {ws : List WrapSlot} {st : Wraps} {p : ConstantPool} (h : WrapInv p0 ws st)
    (k : Frame1 st.pool p) (hn : p.names.Reachable Strings.cnameDefault) : OtherWork st p where
  size := k.size
  table := hn
  slots := fun f r hr => by
    have h1 := (h.reserved f r hr).2
    obtain ⟨d', h2, h3⟩ := k.defs r _ h1
    rcases h3 with rfl | ⟨c, fs, h4, _⟩
    · rw [h1, h2]
    · cases h4
  names := fun i t ht => k.defName ht
  classes := fun i d c hd hc => by
    obtain ⟨d', h2, h3⟩ := k.defs i d hd
    rcases h3 with rfl | ⟨c', fs, h4, rfl⟩
    · exact ⟨d', c, h2, hc, rfl, fun _ hf => hf⟩
    · rw [hc] at h4; cases h4
      exact ⟨_, _, h2, rfl, rfl, fun _ hf => List.mem_append_left _ hf⟩

/-- A slot that is not for a wrapper. -/
theorem Wrapping.slot {p0 : ConstantPool} (h0 : p0.names.Reachable Strings.cnameDefault) {s s' : DeclState} {xs : List Slot} {ws : List WrapSlot}
    (h : Wrapping p0 s xs ws) (k : Frame1 s.pool s'.pool) (hn : s'.pool.names.Reachable Strings.cnameDefault) (hw : s'.wrappers = s.wrappers)
    (hp : s'.proxies = s.proxies) {x : Slot}
    (hl : ∀ i f, MethodOf s'.pool i f → MethodOf s.pool i f ∨ (f = x.index ∧ x.classLike = false ∧ ∃ t, s'.pool.defName f = some t ∧ '$' ∉ t))
    (hu : x.index.toNat < s'.len) (hx : ∀ g, s.proxies.get g ≠ some x.index) (hnw : x.isWrapper = false) : Wrapping p0 s' (xs ++ [x]) ws where
  declared := by
    rw [hw, hp]
    exact .other h.declared (otherWork_frame1 (Declared.inv h0 rfl h.declared) k hn)
  listed := fun i f hf => by
    rcases hl i f hf with hf | ⟨h1, h2, t, h3, h4⟩
    · rcases h.listed i f hf with hf | ⟨y, h1, h2, h3, t, h4, h5⟩
      · exact .inl hf
      · exact .inr ⟨y, List.mem_append_left _ h1, h2, h3, t, k.defName h4, h5⟩
    · exact .inr ⟨x, by simp, h2, h1.symm, t, h3, fun hd => absurd hd h4⟩
  inUse := fun y hy => by
    rcases List.mem_append.1 hy with hy | hy
    · exact Nat.lt_of_lt_of_le (h.inUse y hy) k.size
    · rw [List.mem_singleton] at hy; rw [hy]; exact hu
  apart := fun y hy g => by
    rw [hp]
    rcases List.mem_append.1 hy with hy | hy
    · exact h.apart y hy g
    · rw [List.mem_singleton] at hy; rw [hy]; exact hx g
  wraps := by
    rw [List.filter_append, List.filter_cons_of_neg (by rw [hnw]; simp), List.filter_nil, List.append_nil]
    exact h.wraps.mono fun _ _ hx => hx.frame1 k

theorem Wrapping.reserved_lt {p0 : ConstantPool} (h0 : p0.names.Reachable Strings.cnameDefault) {s : DeclState} {xs : List Slot} {ws : List WrapSlot}
    (h : Wrapping p0 s xs ws) {g r : Idx} (hg : s.proxies.get g = some r) : r.toNat < s.len ∧ s.pool.defName r = some "None".toList := by
  have h1 := ((Declared.inv h0 rfl h.declared).reserved g r hg).2
  refine ⟨definition_lt h1, ?_⟩
  have h1 : s.pool.definition r = some .default := h1
  unfold ConstantPool.defName
  rw [h1]
  simp [Definition.default, Strings.get, Strings.cnameDefault]

theorem Wrapping.not_reserved_new {p0 : ConstantPool} (h0 : p0.names.Reachable Strings.cnameDefault) {s : DeclState} {xs : List Slot} {ws : List WrapSlot}
    (h : Wrapping p0 s xs ws) {i : Idx} (hi : s.len ≤ i.toNat) (g : Idx) : s.proxies.get g ≠ some i := fun hg => by
  have := (h.reserved_lt h0 hg).1
  omega

theorem Wrapping.not_reserved_named {p0 : ConstantPool} (h0 : p0.names.Reachable Strings.cnameDefault) {s : DeclState} {xs : List Slot} {ws : List WrapSlot}
    (h : Wrapping p0 s xs ws) {i : Idx} {t : Text} (hi : s.pool.defName i = some t) (ht : t ≠ "None".toList) (g : Idx) :
    s.proxies.get g ≠ some i := fun hg => by
  have h1 := (h.reserved_lt h0 hg).2
  rw [hi] at h1
  cases h1
  exact ht rfl

/-- The method that is wrapped is one of the class, and only the wrapper becomes a new method. -/
theorem declare_methods {st st' : Wraps} {ident sig : Text} {cls : Idx} {w : WrapSlot} (h : st.declare ident sig cls = .ok (w, st')) :
    MethodOf st.pool cls w.target ∧ ∀ i f, MethodOf st'.pool i f → MethodOf st.pool i f ∨ f = w.index := by
  constructor
  · unfold Wraps.declare at h
    cases hf : (directMethods st.pool ident cls).bind (byId st.pool sig) with
    | none => rw [hf] at h; cases h
    | some f =>
      rw [hf] at h
      simp only at h
      split at h
      · cases h
      · simp only [Except.ok.injEq, Prod.mk.injEq] at h
        obtain ⟨rfl, rfl⟩ := h
        rw [Option.bind_eq_some_iff] at hf
        obtain ⟨fs, h1, h2⟩ := hf
        obtain ⟨h3, _⟩ := byId_mem h2
        obtain ⟨c, h4, h5⟩ := directMethods_mem h1
        exact ⟨c, h4, h5 _ h3⟩
  · obtain ⟨wrapped, pool, proxies, pool1, pool2, nm, _, h2, _, _, h5, _, h7, h8, _⟩ := declare_spec h
    have hpool : ∀ {i c}, pool.definitionBy AnyDefinition.asClass i = some c → st.pool.definitionBy AnyDefinition.asClass i = some c := by
      intro i c hc
      unfold Wraps.wrappedIdx at h2
      cases hw : st.wrappers.get w.target with
      | some v => simp only [hw, Prod.mk.injEq] at h2; rw [h2.2.1]; exact hc
      | none =>
        simp only [hw, Prod.mk.injEq] at h2
        rw [← h2.2.1] at hc
        exact First.asClass_addDefinition (d := .default) rfl hc
    have hp2 : pool2 = (pool1.stubDefinition nm).2 := congrArg Prod.snd h7
    have hback : ∀ {i c}, pool2.definitionBy AnyDefinition.asClass i = some c → st.pool.definitionBy AnyDefinition.asClass i = some c := by
      intro i c hc
      rw [hp2] at hc
      have := First.asClass_addDefinition (d := { name := nm, parent := 0, unk1 := 0, unk2 := 0, unk3 := 0, value := .Type .Prim }) rfl hc
      rw [h5] at this
      exact hpool this
    obtain ⟨_, _, _, k4, c, k5, k6⟩ := Frame1.push h8
    rintro i f ⟨c', h9, h10⟩
    by_cases hi : i = cls
    · subst hi
      rw [k6] at h9; cases h9
      rcases List.mem_append.1 h10 with h10 | h10
      · exact .inl ⟨c, hback k5, h10⟩
      · rw [List.mem_singleton] at h10; exact .inr h10
    · rw [k4 i hi] at h9
      exact .inl ⟨c', hback h9, h10⟩

namespace FewClasses
variable {T : Idx → Prop} {n : Nat}

instance symbols (f : DeclState → SymbolMap) : FewClasses T n (DeclM.update fun s => { s with symbols := f s }) := ⟨fun _ _ _ => .same rfl rfl rfl rfl⟩
instance scope (f : DeclState → Scope) : FewClasses T n (DeclM.update fun s => { s with scope := f s }) := ⟨fun _ _ _ => .same rfl rfl rfl rfl⟩

instance targetClass (a : Annotation) : FewClasses T n (targetClass a) := by
  unfold Redscript.targetClass
  refine @bind' _ _ _ _ _ _ inferInstance (fun x => @bind' _ _ _ _ _ _ inferInstance (fun sym => ?_) inferInstance (fun sym => by split <;> infer_instance))
    inferInstance (fun x => @AddsDefs.bind' _ _ _ _ inferInstance fun sym => by split <;> infer_instance)
  split <;> infer_instance

instance targetMethod (cls : Idx) (name sig : Text) : FewClasses T n (targetMethod cls name sig) := ⟨fun s _ _ => by
  unfold Redscript.targetMethod
  split
  · exact .refl
  · split <;> exact .refl⟩

instance locateReplace (a : Annotation) (f : FunctionSource) (v : Visibility) : FewClasses T n (locateReplace a f v) := by
  unfold Redscript.locateReplace
  infer_instance

instance locateGlobal (f : FunctionSource) (v : Visibility) : FewClasses T n (locateGlobal f v) := by
  unfold Redscript.locateGlobal
  infer_instance

instance locatePlain (f : FunctionSource) (path : ModulePath) (v : Visibility) : FewClasses T n (locatePlain f path v) := by
  unfold Redscript.locatePlain
  infer_instance

instance addedBase (c : ClassDef) (sig : Text) : FewClasses T n (addedBase c sig) := by
  unfold Redscript.addedBase
  infer_instance

instance defineNamed (path : ModulePath) (name : Text) (sym : Idx → Symbol) : FewClasses T n (defineNamed path name sym) := by
  unfold Redscript.defineNamed
  infer_instance

instance checkRedefinition (cx : DeclCtx) (path : ModulePath) : FewClasses T n (checkRedefinition cx path) := by
  unfold Redscript.checkRedefinition
  infer_instance

end FewClasses

/-- Nothing is done to wrappers, and no method is added to a class but `x`. -/
structure Calm (s s' : DeclState) (x : Option Idx) : Prop where
  wrappers : s'.wrappers = s.wrappers
  proxies : s'.proxies = s.proxies
  listed : ∀ i f, MethodOf s'.pool i f → MethodOf s.pool i f ∨ some f = x

theorem Few.calm {s s' : DeclState} (h : Few (fun _ => False) 0 s s') (x : Option Idx) : Calm s s' x := by
  refine ⟨h.wrappers, h.proxies, fun i f ⟨c, h1, h2⟩ => ?_⟩
  rcases h.back i c h1 with hf | ⟨c0, h3, h4⟩
  · exact hf.elim
  · exact .inl ⟨c0, h3, by rw [← h4]; exact h2⟩

theorem Calm.trans {s s' s'' : DeclState} {x : Option Idx} (h : Calm s s' x) (k : Calm s' s'' x) : Calm s s'' x := by
  refine ⟨k.wrappers.trans h.wrappers, k.proxies.trans h.proxies, fun i f hf => ?_⟩
  rcases k.listed i f hf with hf | hf
  · exact h.listed i f hf
  · exact .inr hf

namespace Moves
variable {s : DeclState} {X : List Idx} {p0 : ConstantPool} {path : ModulePath}

theorem and {m : DeclM α} {Q R : DeclState → α → Prop} (h : Moves s m Q) (k : Moves s m R) : Moves s m fun s' a => Q s' a ∧ R s' a :=
  fun a s' hm hf => ⟨(h a s' hm hf).1, (h a s' hm hf).2, (k a s' hm hf).2⟩

theorem few {m : DeclM α} {Q : DeclState → α → Prop} (h : Moves s m Q) [hf : FewClasses (fun _ => False) 0 m] :
    Moves s m fun s' a => Q s' a ∧ ∀ x, Calm s s' x := by
  intro a s' hm hfine
  refine ⟨(h a s' hm hfine).1, (h a s' hm hfine).2, fun x => ?_⟩
  have := hf.few s (Nat.zero_le _) (by rw [hm]; exact hfine.defs)
  rw [hm] at this
  exact this.calm x

/-- A method is added to a class. -/
theorem onClass_calm {cls f : Idx} {Q : DeclState → Unit → Prop} (h : Moves s (DeclM.onClass cls fun c => { c with functions := c.functions ++ [f] }) Q) :
    Moves s (DeclM.onClass cls fun c => { c with functions := c.functions ++ [f] }) fun s' a => Q s' a ∧ Calm s s' (some f) := by
  intro b s' hb hfine
  refine ⟨(h b s' hb hfine).1, (h b s' hb hfine).2, ?_⟩
  unfold DeclM.onClass at hb
  cases hp : s.pool.modifyValue (AnyDefinition.onClass fun c => { c with functions := c.functions ++ [f] }) cls with
  | none => rw [hp] at hb; cases hb
  | some p =>
    rw [hp] at hb; cases hb
    obtain ⟨_, _, _, k4, c, k5, k6⟩ := Frame1.push hp
    refine ⟨rfl, rfl, ?_⟩
    rintro i g ⟨c', h9, h10⟩
    by_cases hi : i = cls
    · subst hi
      have h9 : p.definitionBy AnyDefinition.asClass i = some c' := h9
      rw [k6] at h9; cases h9
      rcases List.mem_append.1 h10 with h10 | h10
      · exact .inl ⟨c, k5, h10⟩
      · rw [List.mem_singleton] at h10; exact .inr (by rw [h10])
    · have h9 : p.definitionBy AnyDefinition.asClass i = some c' := h9
      rw [k4 i hi] at h9
      exact .inl ⟨c', h9, h10⟩

theorem locateAdd_calm {a : Annotation} {f : FunctionSource} {v : Visibility} (h : s.First X) :
    Moves s (Redscript.locateAdd a f v) fun s' x => Calm s s' (some x.index) := by
  unfold Redscript.locateAdd
  refine bind (targetClass h) fun s2 cls _ _ ⟨e, hx⟩ => ?_
  subst e
  refine bind (Q := fun s' _ => s' = s2) (read rfl) fun s3 o _ _ e => ?_
  subst e
  refine bind (Q := fun s' _ => s' = s3) (when (fun _ => diagnose) fun _ => rfl) fun s4 _ _ _ e => ?_
  subst e
  refine bind classAt fun s5 c _ _ ⟨e, hc⟩ => ?_
  subst e
  refine bind addedBase fun s6 base _ _ ⟨e, hb, hb'⟩ => ?_
  subst e
  refine bind (addName h).few fun s7 n _ k7 ⟨⟨h7, hn, _⟩, q7⟩ => ?_
  refine bind (stub h7 hn).few fun s8 i _ k8 ⟨⟨h8, _, hi, _, hi', hfree⟩, q8⟩ => ?_
  exact bind (onClass_calm (onClass h8 hfree)) fun s9 _ _ k9 ⟨_, q9⟩ => pure (((q7 _).trans (q8 _)).trans q9)

/-- The first loop at a slot that is not for a wrapper. -/
theorem plainSlot {xs : List Slot} {ws : List WrapSlot} {m : DeclM Slot} (h0 : p0.names.Reachable Strings.cnameDefault) (hw : Wrapping p0 s xs ws)
    (hm : Moves s m fun s' x => s'.pool.names.Reachable Strings.cnameDefault ∧ x.index.toNat < s'.len ∧
      (s.len ≤ x.index.toNat ∨ ∃ t, s'.pool.defName x.index = some t ∧ t ≠ "None".toList) ∧ x.isWrapper = false ∧
      ∃ o, Calm s s' o ∧ ∀ j, o = some j → j = x.index ∧ x.classLike = false ∧ ∃ t, s'.pool.defName j = some t ∧ '$' ∉ t) :
    Moves s m fun s' x => Wrapping p0 s' (xs ++ [x]) ws := by
  refine hm.mono fun s' x k ⟨h1, hu, h2, h3, o, h4, h5⟩ => hw.slot h0 k h1 h4.wrappers h4.proxies (fun i f hf => ?_) hu (fun g hg => ?_) h3
  · rcases h4.listed i f hf with hf | hf
    · exact .inl hf
    · obtain ⟨k1, k2, k3⟩ := h5 f hf.symm
      exact .inr ⟨k1, k2, k3⟩
  · rcases h2 with h2 | ⟨t, h2, h6⟩
    · exact hw.not_reserved_new h0 h2 g hg
    · have := k.defName (hw.reserved_lt h0 hg).2
      rw [h2] at this; cases this
      exact h6 rfl

/-- The first loop at the slot of a wrapper. -/
theorem wrapSlot {xs : List Slot} {ws : List WrapSlot} {a : Annotation} {f : FunctionSource} {v : Visibility} (h0 : p0.names.Reachable Strings.cnameDefault) (h : s.First X)
    (hw : Wrapping p0 s xs ws) (hd : '$' ∉ f.sig) (hnone : f.sig ≠ "None".toList) :
    Moves s (Redscript.locateWrap a f v) fun s' x => ∃ w, Wrapping p0 s' (xs ++ [x]) (ws ++ [w]) := by
  unfold Redscript.locateWrap
  refine bind (Q := fun s' _ => s' = s) (when (fun _ => fail) fun _ => rfl) fun s1 _ _ _ e => ?_
  subst e
  refine bind (targetClass h) fun s2 cls _ _ ⟨e, hx⟩ => ?_
  subst e
  refine bind targetMethod fun s3 _ _ _ ⟨e, _⟩ => ?_
  subst e
  have key : Moves s3 (Redscript.declareWrap cls f.declaration.name f.sig) fun s' w => ∀ base, 
      Wrapping p0 s' (xs ++ [.Function w.index cls base (some w.wrapped) true f v]) (ws ++ [w]) := by
    intro w s' hb hfine
    have hk := declareWrap h w s' hb hfine
    refine ⟨hk.1, fun base => ?_⟩
    have hlater := (AddsDefs.declareWrap cls f.declaration.name f.sig).later s3
    rw [hb] at hlater
    have hf0 := hlater.fine hfine
    unfold Redscript.declareWrap at hb
    cases hdec : Wraps.declare ⟨s3.pool, s3.wrappers, s3.proxies⟩ f.declaration.name f.sig cls with
    | error e => rw [hdec] at hb; cases hb
    | ok r =>
      obtain ⟨w', st⟩ := r
      rw [hdec] at hb; cases hb
      obtain ⟨hk, _, hk2, _, ⟨t, hk3⟩, hk4⟩ := hk
      have hspec := declare_spec hdec
      obtain ⟨_, _, _, _, _, _, n1, n2, _, n4, _, _, _, _, n9, n10⟩ := hspec
      obtain ⟨m1, m2⟩ := declare_methods hdec
      have hl : s3.pool.definitions.length ≤ w.index.toNat := hk2
      have hdecl : Declared ⟨p0, .empty, .empty⟩ (ws ++ [w]) st := .wrap hw.declared hdec hd hnone hfine.defs hf0.names
      have hinv := Declared.inv h0 rfl hdecl
      refine ⟨hdecl, fun i g hg => ?_, fun y hy => ?_, fun y hy g hg => ?_, ?_⟩
      · rcases m2 i g hg with hg | rfl
        · rcases hw.listed i g hg with hg | ⟨y, k1, k2, k3, t', k4, k5⟩
          · exact .inl hg
          · exact .inr ⟨y, List.mem_append_left _ k1, k2, k3, t', hk.defName k4, fun hd => by
              obtain ⟨w', k6, k7⟩ := k5 hd
              exact ⟨w', List.mem_append_left _ k6, k7⟩⟩
        · exact .inr ⟨_, List.mem_append_right _ (List.mem_singleton.2 rfl), rfl, rfl, t, hk3, fun _ => ⟨w, by simp, rfl⟩⟩
      · rcases List.mem_append.1 hy with hy | hy
        · exact Nat.lt_of_lt_of_le (hw.inUse y hy) hk.size
        · rw [List.mem_singleton] at hy; rw [hy]; exact defName_lt hk3
      · rcases List.mem_append.1 hy with hy | hy
        · have hl0 : s3.pool.definitions.length < 2 ^ 32 := by
            have h1 : st.pool.definitions.length ≤ 2 ^ 32 := hfine.defs
            have h2 : w.index.toNat < st.pool.definitions.length := defName_lt hk3
            omega
          have hg : st.proxies.get g = some y.index := hg
          rw [n10] at hg
          rcases (wrappedIdx_spec (Declared.inv h0 rfl hw.declared) hl0 n2).2.2.2.2.2.2.1 g _ hg with hg | hg
          · exact hw.apart y hy g hg
          · have h1 := hw.inUse y hy
            have hg : y.index.toNat = s3.len := hg
            omega
        · rw [List.mem_singleton] at hy
          rw [hy] at hg
          exact (hinv.new w (by simp)).2.2.1 g hg
      · rw [List.filter_append]
        refine Each2.append (hw.wraps.mono fun _ _ hx => hx.frame1 hk) (.cons ?_ .nil)
        exact ⟨base, f, v, by rw [n4], hk.defName n1, by rw [n4]; exact hk.methodOf m1⟩
  exact bind key fun s4 w _ k hw' => pure ⟨w, hw' _⟩

end Moves

/-- Names of functions as they can be written. -/
def SourceEntry.Plain : SourceEntry → Prop
  | .Function f => '$' ∉ f.sig ∧ f.sig ≠ "None".toList
  | .Class c | .Struct c => ∀ f, .Function f ∈ c.members → '$' ∉ f.sig
  | _ => True

namespace Moves
variable {s : DeclState} {X : List Idx} {p0 : ConstantPool} {path : ModulePath}

/-- The first loop at a slot. -/
theorem symbolSlot {cx : DeclCtx} {e : SourceEntry} {xs : List Slot} {ws : List WrapSlot} (h0 : p0.names.Reachable Strings.cnameDefault) (h : s.First X)
    (hw : Wrapping p0 s xs ws) (he : e.Plain) :
    Moves s (Redscript.defineSymbol cx path e) fun s' x => ∃ ws', Wrapping p0 s' (xs ++ [x]) (ws ++ ws') := by
  have hbase := defineSymbol (cx := cx) (path := path) (e := e) h (.refl s.pool)
  have hplain : Moves s (Redscript.defineSymbol cx path e) (fun s' x => Wrapping p0 s' (xs ++ [x]) ws) →
      Moves s (Redscript.defineSymbol cx path e) fun s' x => ∃ ws', Wrapping p0 s' (xs ++ [x]) (ws ++ ws') :=
    fun h => h.mono fun s' x _ h => ⟨[], by rw [List.append_nil]; exact h⟩
  have hone : ∀ {s' : DeclState} {x : Slot}, Laid X s.len s' [x] → s'.pool.names.Reachable Strings.cnameDefault ∧ x.index.toNat < s'.len := by
    intro s' x hl
    obtain ⟨t, ht⟩ := (hl.ready x (by simp)).1
    exact ⟨hl.first.names, defName_lt ht⟩
  cases e with
  | Class c =>
    have : FewClasses (fun _ => False) 0 (Redscript.defineSymbol cx path (.Class c)) := by unfold Redscript.defineSymbol; infer_instance
    refine hplain (plainSlot h0 hw (hbase.few.mono fun s' x k ⟨⟨h1, h2⟩, h3⟩ => ⟨(hone h1).1, (hone h1).2, ?_, ?_, none, h3 _, fun _ h => by cases h⟩))
    all_goals cases x <;> first | exact h2.elim | skip
    · exact .inl h2.1
    · rfl
  | Struct c =>
    have : FewClasses (fun _ => False) 0 (Redscript.defineSymbol cx path (.Struct c)) := by unfold Redscript.defineSymbol; infer_instance
    refine hplain (plainSlot h0 hw (hbase.few.mono fun s' x k ⟨⟨h1, h2⟩, h3⟩ => ⟨(hone h1).1, (hone h1).2, ?_, ?_, none, h3 _, fun _ h => by cases h⟩))
    all_goals cases x <;> first | exact h2.elim | skip
    · exact .inl h2.1
    · rfl
  | Enum c =>
    have : FewClasses (fun _ => False) 0 (Redscript.defineSymbol cx path (.Enum c)) := by unfold Redscript.defineSymbol; infer_instance
    refine hplain (plainSlot h0 hw (hbase.few.mono fun s' x k ⟨⟨h1, h2⟩, h3⟩ => ⟨(hone h1).1, (hone h1).2, ?_, ?_, none, h3 _, fun _ h => by cases h⟩))
    all_goals cases x <;> first | exact h2.elim | skip
    · exact .inl h2.1
    · rfl
  | GlobalLet c =>
    have : FewClasses (fun _ => False) 0 (Redscript.defineSymbol cx path (.GlobalLet c)) := by unfold Redscript.defineSymbol; infer_instance
    refine hplain (plainSlot h0 hw (hbase.few.mono fun s' x k ⟨⟨h1, h2⟩, h3⟩ => ⟨(hone h1).1, (hone h1).2, ?_, ?_, none, h3 _, fun _ h => by cases h⟩))
    all_goals cases x <;> first | exact h2.elim | skip
    · exact .inl h2.1
    · rfl
  | Function f =>
    obtain ⟨hd, hnone⟩ := he
    have e : Redscript.defineSymbol cx path (.Function f) = Redscript.locateFunction f path := rfl
    rw [e] at hbase hplain ⊢
    unfold Redscript.locateFunction at hbase hplain ⊢
    cases hp : f.placing with
    | none =>
      have hp' := hp
      unfold FunctionSource.placing at hp
      rw [hp] at hbase hplain ⊢
      refine hplain (plainSlot h0 hw (hbase.few.mono fun s' x k ⟨⟨h1, h2⟩, h3⟩ => ⟨(hone h1).1, (hone h1).2, ?_, ?_, none, h3 _, fun _ h => by cases h⟩))
      all_goals
        cases x <;> first | exact h2.elim | skip
        obtain ⟨rfl, t, h4, _, h5⟩ := h2
        rw [hp'] at h5
        simp only at h5
      · exact .inl h5.1
      · show Option.isSome _ = false
        rw [h5.2.2.2.2.2]; rfl
    | some a =>
      have hp' := hp
      have hk := List.find?_some hp
      unfold FunctionSource.placing at hp
      rw [hp] at hbase hplain ⊢
      simp only [decide_eq_true_eq] at hk
      rcases hk with hk | hk | hk | hk
      · simp only [hk] at hbase hplain ⊢
        exact (wrapSlot h0 h hw hd hnone).mono fun s' x _ ⟨w, h⟩ => ⟨[w], h⟩
      · simp only [hk] at hbase hplain ⊢
        refine hplain (plainSlot h0 hw (hbase.few.mono fun s' x k ⟨⟨h1, h2⟩, h3⟩ => ⟨(hone h1).1, (hone h1).2, ?_, ?_, none, h3 _, fun _ h => by cases h⟩))
        all_goals
          cases x <;> first | exact h2.elim | skip
          obtain ⟨rfl, t, h4, _, h5⟩ := h2
          rw [hp'] at h5
          simp only [hk] at h5
        · exact .inr ⟨t, h4, by rw [h5.1]; exact hnone⟩
        · show Option.isSome _ = false
          rw [h5.2.2.2.2.2]; rfl
      · simp only [hk] at hbase hplain ⊢
        refine hplain (plainSlot h0 hw (hbase.few.mono fun s' x k ⟨⟨h1, h2⟩, h3⟩ => ⟨(hone h1).1, (hone h1).2, ?_, ?_, none, h3 _, fun _ h => by cases h⟩))
        all_goals
          cases x <;> first | exact h2.elim | skip
          obtain ⟨rfl, t, h4, _, h5⟩ := h2
          rw [hp'] at h5
          simp only [hk] at h5
        · exact .inr ⟨t, h4, by rw [h5.1]; exact hnone⟩
        · show Option.isSome _ = false
          rw [h5.2.2.2]; rfl
      · simp only [hk] at hbase hplain ⊢
        refine hplain (plainSlot h0 hw ((hbase.and (locateAdd_calm h)).mono fun s' x k ⟨⟨h1, h2⟩, h3⟩ => ⟨(hone h1).1, (hone h1).2, ?_, ?_, _, h3, fun j h => ?_⟩))
        all_goals
          cases x <;> first | exact h2.elim | skip
          obtain ⟨rfl, t, h4, _, h5⟩ := h2
          rw [hp'] at h5
          simp only [hk] at h5
        · exact .inl h5.1
        · show Option.isSome _ = false
          rw [h5.2.2.2.2.2.1]; rfl
        · cases h
          exact ⟨rfl, rfl, t, h4, by rw [h5.2.1]; exact hd⟩

theorem entrySlots {cx : DeclCtx} (h0 : p0.names.Reachable Strings.cnameDefault) : ∀ {es : List SourceEntry} {s : DeclState} {X : List Idx} {xs : List Slot} {ws : List WrapSlot}, s.First X →
    Wrapping p0 s xs ws → (∀ e ∈ es, e.Plain) →
    Moves s (Redscript.defineEntries cx path es) fun s' xs' => ∃ ws', Wrapping p0 s' (xs ++ xs') (ws ++ ws')
  | [], s, X, xs, ws, h, hw, _ => pure ⟨[], by simpa using hw⟩
  | e :: es, s, X, xs, ws, h, hw, hp => by
    unfold Redscript.defineEntries
    refine bind conditions fun s1 on _ _ ⟨e1, hon⟩ => ?_
    subst e1
    cases on with
    | false =>
      simp only [Bool.false_eq_true, if_false]
      exact entrySlots h0 h hw fun e he => hp e (List.mem_cons_of_mem _ he)
    | true =>
      simp only [if_true]
      refine bind (reporting ((defineSymbol (p0 := s1.pool) (path := path) h (.refl _)).and (symbolSlot h0 h hw (hp e List.mem_cons_self))))
        fun s2 o _ k2 ⟨x, ex, ⟨h2, _⟩, ws1, h3⟩ => ?_
      subst ex
      refine bind (entrySlots h0 h2.first h3 fun e he => hp e (List.mem_cons_of_mem _ he)) fun s3 xs' _ k3 ⟨ws2, h4⟩ => pure ⟨ws1 ++ ws2, ?_⟩
      simpa using h4

theorem moduleSlots {cx : DeclCtx} (h0 : p0.names.Reachable Strings.cnameDefault) : ∀ {ms : List SourceModule} {s : DeclState} {X : List Idx} {xs : List Slot} {ws : List WrapSlot}, s.First X →
    Wrapping p0 s xs ws → (∀ m ∈ ms, ∀ e ∈ m.entries, e.Plain) →
    Moves s (Redscript.defineModules cx ms) fun s' qs => ∃ ws', Wrapping p0 s' (xs ++ qs.flatMap (·.slots)) (ws ++ ws')
  | [], s, X, xs, ws, h, hw, _ => pure ⟨[], by simpa using hw⟩
  | m :: ms, s, X, xs, ws, h, hw, hp => by
    unfold Redscript.defineModules
    refine bind ((defineEntries (p0 := s.pool) h (.refl _)).and (entrySlots h0 h hw (hp m List.mem_cons_self))) fun s2 xs1 _ k2 ⟨⟨h2, _⟩, ws1, h3⟩ => ?_
    refine bind (moduleSlots h0 h2.first h3 fun m hm => hp m (List.mem_cons_of_mem _ hm)) fun s3 qs _ k3 ⟨ws2, h4⟩ => pure ⟨ws1 ++ ws2, ?_⟩
    simpa using h4

end Moves
end Redscript
