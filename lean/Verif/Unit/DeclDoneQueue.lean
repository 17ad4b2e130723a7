import Verif.Unit.DeclNames

/-!
# The second loop defines what the slots stand for
-/

namespace Redscript
open DeclM

set_option synthInstance.maxSize 2000
set_option synthInstance.maxHeartbeats 400000

/-- The definition a slot is for. -/
def Slot.index : Slot → Idx
  | .Function i _ _ _ _ _ _ | .Class i _ _ | .Struct i _ _ | .Field i _ _ | .Enum i _ => i

/-- The slot is not for a function. -/
def Slot.classLike : Slot → Bool
  | .Function _ _ _ _ _ _ _ => false
  | _ => true

/-- Two slots that are not for the same definition, unless they are both for functions. -/
def Slot.Apart (x y : Slot) : Prop := x.classLike = true ∨ y.classLike = true → x.index ≠ y.index

/-- A function, or a definition without contents. -/
def FunctionAt (p : ConstantPool) (f : Idx) : Prop :=
  ∃ d, p.definition f = some d ∧ ((∃ g, d.value = .Function g) ∨ d.value = .Type .Prim)

theorem FunctionAt.notClass {p : ConstantPool} {f : Idx} (h : FunctionAt p f) : p.definitionBy AnyDefinition.asClass f = none := by
  obtain ⟨d, h1, h2⟩ := h
  have h1 : p.definitions[f.toNat]? = some d := h1
  unfold ConstantPool.definitionBy
  rw [h1, Option.bind_some]
  rcases h2 with ⟨g, h2⟩ | h2 <;> rw [h2] <;> rfl

/-- What the first loop has prepared for a slot. -/
def Slot.Ready (s : DeclState) (x : Slot) : Prop :=
  (∃ t, s.pool.defName x.index = some t) ∧ FunctionAt s.pool x.index ∧
    ∀ i f v, x = .Field i f v → s.pool.defName i = some f.declaration.name

/-- What a slot is for is in the pool. `s1` is the state at the start of the second loop. -/
def Slot.Done (mods : List ModulePath) (N : Scope → Prop) (s1 s : DeclState) : Slot → Prop
  | .Function i parent base wrapped rep f v => ∀ t, s1.pool.defName i = some t →
    MadeFunction s1.len s N ⟨i, parent, t, v, !rep && f.declaration.has .Native, base, wrapped⟩ f
  | .Class i c v => ∀ t, s1.pool.defName i = some t → MadeClass s1.len s N mods i t v c false
  | .Struct i c v => ∀ t, s1.pool.defName i = some t → MadeClass s1.len s N mods i t v c true
  | .Enum i e => ∀ t, s1.pool.defName i = some t → MadeEnum s1.len s i t e
  | .Field i f v => ∃ a cls x, f.declaration.annotations.find? (fun a => decide (a.kind = .AddField)) = some a ∧
    a.target = some x ∧ NameEnds s.pool cls x ∧ IsField s N i cls v f ∧
    ∃ c, s.pool.definitionBy AnyDefinition.asClass cls = some c ∧ i ∈ c.fields

/-- The path of what a symbol stands for. -/
abbrev EndsPath (p : ConstantPool) : ModulePath → Bool → Idx → Prop := fun path b i =>
  b = false → ∃ t, p.defName i = some t ∧ (ModulePath.parse t = path ∨ t = path.render)

theorem endsPath_leads (p : ConstantPool) : Leads (EndsPath p) (fun x b i => b = false → NameEnds p i x) := by
  intro path x b i hx h hb
  obtain ⟨t, h1, h2⟩ := h hb
  refine ⟨t, h1, ?_⟩
  rcases h2 with h2 | h2
  · exact .inl (by rw [h2]; exact hx)
  · obtain ⟨ys, rfl⟩ := List.getLast?_eq_some_iff.1 hx
    exact .inr ⟨ys, h2⟩

/-- The state in the second loop. `sees` says which scopes fit what is compiled for a definition. -/
structure Second (mods : List ModulePath) (sees : Idx → Scope → Prop) (s1 : DeclState) (done rest : List Slot) (seen : List Idx) (s : DeclState) : Prop where
  names : s.pool.names.Reachable Strings.cnameDefault
  keeps : Keeps (fun i => ∃ x ∈ done, x.index = i) s1 s
  posts : ∀ x ∈ done, x.Done mods (sees x.index) s1 s
  seen : ∀ x ∈ done, x.classLike = false → x.index ∈ seen
  ready : ∀ x ∈ rest, x.Ready s1
  apart : (done ++ rest).Pairwise Slot.Apart
  distinct : (done.map Slot.index).Nodup
  inUse : ∀ x ∈ done, x.index.toNat < s1.len
  symbols : SymbolsFit (EndsPath s.pool) s.symbols
  scope : ScopeEnds s.pool s.scope
  table : TypesNamed s.scope s.pool
  shape : TypeShape s.pool
  same : s.symbols = s1.symbols ∧ s.scope = s1.scope

theorem asClass_frame {T : Idx → Prop} {p p' : ConstantPool} (h : DeclFrame T p p') {i : Idx} (hi : ¬ T i) {c' : ClassDef}
    (hlt : i.toNat < p.definitions.length) (hc : p'.definitionBy AnyDefinition.asClass i = some c') :
    ∃ c gs, p.definitionBy AnyDefinition.asClass i = some c ∧ c' = { c with fields := c.fields ++ gs } := by
  obtain ⟨d, hd⟩ := definition_of_lt hlt
  obtain ⟨d', h1, _, h3⟩ := h.defs i d hd
  obtain ⟨d'', k1, k2⟩ := asClass_value hc
  rw [h1] at k1; cases k1
  rcases h3 hi with rfl | ⟨c, gs, hv, rfl⟩
  · exact ⟨c', [], value_asClass hd k2, by simp⟩
  · cases k2
    exact ⟨c, gs, value_asClass hd hv, rfl⟩

theorem asClass_function {p : ConstantPool} {i : Idx} {g : FunctionDef} (h : p.function i = some g) :
    p.definitionBy AnyDefinition.asClass i = none := by
  unfold ConstantPool.function ConstantPool.definitionBy at h
  unfold ConstantPool.definitionBy
  rw [Option.bind_eq_some_iff] at h
  obtain ⟨d, hd, hg⟩ := h
  rw [hd, Option.bind_some]
  unfold AnyDefinition.asFunction at hg
  split at hg
  · next f hf => rw [hf]; rfl
  · cases hg

theorem MadeFunction.le {N : Scope → Prop} {n m : Nat} {s : DeclState} {at_ : Placed} {f : FunctionSource} (h : MadeFunction m s N at_ f)
    (hn : n ≤ m) : MadeFunction n s N at_ f := ⟨h.1, fun g hg j hj => Nat.le_trans hn (h.2 g hg j hj)⟩

theorem MadeClass.le {N : Scope → Prop} {n m : Nat} {s : DeclState} {mods : List ModulePath} {i : Idx} {t : Text} {v : Visibility} {c : ClassSource} {b : Bool}
    (h : MadeClass m s N mods i t v c b) (hn : n ≤ m) : MadeClass n s N mods i t v c b := by
  obtain ⟨g, own, added, h1, h2, h3, h4, h5, h6, h7⟩ := h
  exact ⟨g, own, added, h1, h2, h3, h4.mono fun _ _ q => ⟨Nat.le_trans hn q.1, q.2.le hn⟩, h5,
    h6.mono fun _ _ q => ⟨Nat.le_trans hn q.1, q.2⟩, h7⟩

theorem MadeEnum.le {n m : Nat} {s : DeclState} {i : Idx} {t : Text} {e : EnumSource} (h : MadeEnum m s i t e) (hn : n ≤ m) :
    MadeEnum n s i t e := by
  obtain ⟨g, h1, h2⟩ := h
  exact ⟨g, h1, h2.mono fun _ _ q => ⟨Nat.le_trans hn q.1, q.2⟩⟩

section
variable {mods : List ModulePath} {sees : Idx → Scope → Prop} {s1 s s' : DeclState} {done rest : List Slot} {seen seen' : List Idx} {x : Slot}

/-- What a slot is for is not a class, as long as nothing has been defined in its place. -/
theorem Second.notClass (h : Second mods sees s1 done (x :: rest) seen s) {z : Slot} (hz : z ∈ x :: rest) (hx : ∀ y ∈ done, y.index ≠ z.index) :
    s.pool.definitionBy AnyDefinition.asClass z.index = none := by
  obtain ⟨⟨t, ht⟩, h2, _⟩ := h.ready z hz
  cases hcl : s.pool.definitionBy AnyDefinition.asClass z.index with
  | none => rfl
  | some c =>
    obtain ⟨c0, _, h3, _⟩ := asClass_frame h.keeps.frame (i := z.index) (fun ⟨y, hy, he⟩ => hx y hy he) (defName_lt ht) hcl
    rw [h2.notClass] at h3; cases h3

/-- A class stays a class with the same fields and maybe more. -/
theorem DeclFrame.fields {T : Idx → Prop} {p p' : ConstantPool} (h : DeclFrame T p p') {i : Idx} (hi : ¬ T i) {c : ClassDef}
    (hc : p.definitionBy AnyDefinition.asClass i = some c) :
    ∃ gs, p'.definitionBy AnyDefinition.asClass i = some { c with fields := c.fields ++ gs } := by
  obtain ⟨d, hd, hv⟩ := asClass_value hc
  obtain ⟨d', h1, _, h3⟩ := h.defs i d hd
  rcases h3 hi with rfl | ⟨c', gs, hv', rfl⟩
  · exact ⟨[], by simpa using value_asClass h1 hv⟩
  · rw [hv] at hv'; cases hv'
    exact ⟨gs, value_asClass h1 rfl⟩

/-- What is done stays done. -/
theorem Slot.Done.keep (h : Second mods sees s1 done (x :: rest) seen s) (hx : ∀ y ∈ done, y.index ≠ x.index)
    (hlt : x.index.toNat < s1.len) (k : Keeps (fun i => i = x.index) s s') {y : Slot} (hy : y ∈ done) :
    y.Done mods (sees y.index) s1 s' := by
  have hd := h.posts y hy
  have hne := hx y hy
  have hn : ∀ j : Idx, j = x.index → j.toNat < s1.len := fun j hj => by rw [hj]; exact hlt
  cases y with
  | Function i parent base wrapped rep f v => exact fun t ht => k.function hne hn (hd t ht)
  | Class i c v => exact fun t ht => k.class hne hn (hd t ht)
  | Struct i c v => exact fun t ht => k.class hne hn (hd t ht)
  | Enum i e => exact fun t ht => k.enum hne hn (hd t ht)
  | Field i f v =>
    obtain ⟨a, cls, n, h1, h2, h3, h4, c, h5, h6⟩ := hd
    have hcls : cls ≠ x.index := fun e => by rw [e, h.notClass List.mem_cons_self hx] at h5; cases h5
    obtain ⟨gs, h7⟩ := k.frame.fields hcls h5
    exact ⟨a, cls, n, h1, h2, k.frame.nameEnds h3, k.field hne h4, _, h7, List.mem_append_left _ h6⟩

/-- The next slot. -/
theorem Second.next (h : Second mods sees s1 done (x :: rest) seen s) (hx : ∀ y ∈ done, y.index ≠ x.index)
    (hlt : x.index.toNat < s1.len) (k : KeepStep (fun i => i = x.index) s s') (hnames : s'.pool.names.Reachable Strings.cnameDefault)
    (hshape : TypeShape s'.pool) (hpost : x.Done mods (sees x.index) s1 s')
    (hseen : ∀ i, i ∈ seen → i ∈ seen') (hseen' : x.classLike = false → x.index ∈ seen') :
    Second mods sees s1 (done ++ [x]) rest seen' s' where
  names := hnames
  keeps := ⟨(h.keeps.frame.weaken fun i ⟨y, h1, h2⟩ => ⟨y, List.mem_append_left _ h1, h2⟩).trans
      (k.frame.weaken fun i hi => ⟨x, by simp, hi.symm⟩),
    fun b hb => k.bodies b (h.keeps.bodies b hb), fun b hb => k.defaults b (h.keeps.defaults b hb), fun b hb => k.files b (h.keeps.files b hb)⟩
  posts := by
    intro y hy
    rcases List.mem_append.1 hy with hy | hy
    · exact Slot.Done.keep h hx hlt k.toKeeps hy
    · rw [List.mem_singleton] at hy; subst hy; exact hpost
  seen := by
    intro y hy hc
    rcases List.mem_append.1 hy with hy | hy
    · exact hseen _ (h.seen y hy hc)
    · rw [List.mem_singleton] at hy; subst hy; exact hseen' hc
  ready := fun y hy => h.ready y (List.mem_cons_of_mem _ hy)
  apart := by rw [List.append_assoc]; exact h.apart
  distinct := by
    rw [List.map_append, List.nodup_append]
    refine ⟨h.distinct, by simp, fun a ha b hb => ?_⟩
    obtain ⟨y, hy, rfl⟩ := List.mem_map.1 ha
    rw [List.map_singleton, List.mem_singleton] at hb
    rw [hb]
    exact hx y hy
  inUse := by
    intro y hy
    rcases List.mem_append.1 hy with hy | hy
    · exact h.inUse y hy
    · rw [List.mem_singleton] at hy; subst hy; exact hlt
  symbols := by
    rw [k.symbols]
    intro e he i hi hb
    obtain ⟨t, h1, h2⟩ := h.symbols e he i hi hb
    exact ⟨t, k.frame.defName h1, h2⟩
  scope := by
    rw [k.scope]
    intro n sym hn i hi hb
    exact k.frame.nameEnds (h.scope n sym hn i hi hb)
  table := by rw [k.scope]; exact h.table.mono k.frame.stay
  shape := hshape
  same := ⟨k.symbols.trans h.same.1, k.scope.trans h.same.2⟩

/-- No slot is for a definition another slot has been for already, unless both are for functions. -/
theorem Second.apart_done (h : Second mods sees s1 done (x :: rest) seen s) {y : Slot} (hy : y ∈ done) {z : Slot} (hz : z ∈ x :: rest)
    (hc : y.classLike = true ∨ z.classLike = true) : y.index ≠ z.index :=
  (List.pairwise_append.1 h.apart).2.2 y hy z hz hc

theorem After.defineSlot_second {cx : DeclCtx} (h : Second cx.modules sees s1 done (x :: rest) seen s) (hsd : s.Sound)
    (hN : Knows (sees x.index) s) (hm : defineSlot cx seen x s = (.ok seen', s')) (hf : s'.Fine) :
    Second cx.modules sees s1 (done ++ [x]) rest seen' s' ∧ s'.Sound ∧ s'.moduleScope.symbols = s.moduleScope.symbols ∧
      KeepStep (fun i => i = x.index) s s' := by
  have hsc := hsd.scope
  obtain ⟨⟨t, ht⟩, hr2, hr3⟩ := h.ready x List.mem_cons_self
  have hlt : x.index.toNat < s1.len := defName_lt ht
  have ht' : s.pool.defName x.index = some t := h.keeps.frame.defName ht
  have hlen : s1.len ≤ s.len := h.keeps.frame.size
  have hnames : s'.pool.names.Reachable Strings.cnameDefault := by
    have := (AddsDefs.defineSlot cx seen x).later s
    rw [hm] at this
    exact this.names.reachable h.names hf.names
  have hT : ∀ i : Idx, i = x.index → i.toNat < s.len := fun i hi => by rw [hi]; omega
  suffices hs : After s (fun i => i = x.index) (defineSlot cx seen x) fun s' seen' => x.Done cx.modules (sees x.index) s1 s' ∧
      (∀ y ∈ done, y.index ≠ x.index) ∧ 
      (∀ i, i ∈ seen → i ∈ seen') ∧ (x.classLike = false → x.index ∈ seen') by
    obtain ⟨h1, h2, h3, h5, h6⟩ := hs hsd seen' s' hm hf
    exact ⟨h.next h3 hlt h1 hnames (h1.typed hsd.typed).shape h2 h5 h6, hsd.later h1 hnames, h1.module, h1⟩
  have hcl : x.classLike = true → ∀ y ∈ done, y.index ≠ x.index := fun hc y hy => h.apart_done hy List.mem_cons_self (.inr hc)
  cases x with
  | Function i parent base wrapped rep f v =>
    unfold Redscript.defineSlot
    refine bind (Q := fun s' _ => s' = s ∧ seen.contains i = false) (when (fun _ => diagnose) fun hc => ⟨rfl, hc⟩)
      fun s2 _ _ _ _ ⟨e, hseen⟩ => ?_
    subst e
    refine bind (Q := fun s' _ => s' = s2) ?_ fun s3 flags _ _ _ e => ?_
    · unfold parentFlags
      split
      · exact bind classAt fun s' c _ _ _ ⟨e, _⟩ => by subst e; exact pure rfl
      · exact pure rfl
    subst e
    refine bind defineSourceRef fun s4 ref _ _ st4 hw4 => ?_
    have hs4 : s3.len ≤ s4.len := st4.frame.size
    refine bind (reporting (defineFunction (x := t) (st4.frame.defName ht') rfl (fun j hj => by have := hT j hj; omega) (hN.later st4) hw4))
      fun s5 _ _ _ st5 ⟨_, _, h5⟩ => pure ⟨?_, ?_, fun _ h => List.mem_cons_of_mem _ h, fun _ => List.mem_cons_self⟩
    · intro u hu
      have hu : s1.pool.defName i = some u := hu
      have ht : s1.pool.defName i = some t := ht
      rw [ht] at hu; cases hu
      exact h5.le (by omega)
    · intro y hy he
      cases hc : y.classLike with
      | true => exact h.apart_done hy List.mem_cons_self (.inl hc) he
      | false =>
        have := h.seen y hy hc
        rw [he] at this
        have h6 : i ∉ seen := by simpa using hseen
        exact h6 this
  | Class i c v =>
    unfold Redscript.defineSlot
    refine bind (reporting (defineClass hsc ht' rfl hT hN)) fun s5 _ _ _ st5 ⟨_, _, h5⟩ =>
      pure ⟨?_, hcl rfl, fun _ h => h, fun h => by cases h⟩
    intro u hu
    have hu : s1.pool.defName i = some u := hu
    have ht : s1.pool.defName i = some t := ht
    rw [ht] at hu; cases hu
    exact h5.le hlen
  | Struct i c v =>
    unfold Redscript.defineSlot
    refine bind (reporting (defineClass hsc ht' rfl hT hN)) fun s5 _ _ _ st5 ⟨_, _, h5⟩ =>
      pure ⟨?_, hcl rfl, fun _ h => h, fun h => by cases h⟩
    intro u hu
    have hu : s1.pool.defName i = some u := hu
    have ht : s1.pool.defName i = some t := ht
    rw [ht] at hu; cases hu
    exact h5.le hlen
  | Enum i e =>
    unfold Redscript.defineSlot
    refine bind (reporting (defineEnum ht' rfl hT)) fun s5 _ _ _ st5 ⟨_, _, h5⟩ =>
      pure ⟨?_, hcl rfl, fun _ h => h, fun h => by cases h⟩
    intro u hu
    have hu : s1.pool.defName i = some u := hu
    have ht : s1.pool.defName i = some t := ht
    rw [ht] at hu; cases hu
    exact h5.le hlen
  | Field i f v =>
    unfold Redscript.defineSlot
    have hname : s.pool.defName i = some f.declaration.name := h.keeps.frame.defName (hr3 i f v rfl)
    refine bind (reporting (defineGlobalLet hsc hname rfl hN)) fun s5 _ _ _ st5 ⟨_, _, a, cls, n, h1, h2, h3, h4, h5, c, h6, h7⟩ =>
      pure ⟨⟨a, cls, n, h1, h2, h3, h4, c, h6, h7⟩, hcl rfl, fun _ h => h, fun h => by cases h⟩

theorem defineSlots_second {cx : DeclCtx} {after : List Slot} : ∀ {ss : List Slot} {done : List Slot} {seen seen' : List Idx} {s s' : DeclState},
    Second cx.modules sees s1 done (ss ++ after) seen s → s.Sound →
    (∀ x ∈ ss, Knows (sees x.index) s) → defineSlots cx ss seen s = (.ok seen', s') → s'.Fine →
    Second cx.modules sees s1 (done ++ ss) after seen' s'
  | [], done, seen, seen', s, s', h, _, _, hm, _ => by cases hm; simpa using h
  | x :: ss, done, seen, seen', s, s', h, hsc, hN, hm, hf => by
    have hm : DeclM.bind (defineSlot cx seen x) (fun seen => defineSlots cx ss seen) s = (.ok seen', s') := by
      unfold defineSlots at hm; exact hm
    unfold DeclM.bind at hm
    cases hx : defineSlot cx seen x s with
    | mk r s2 =>
      rw [hx] at hm
      cases r with
      | error e => cases hm
      | ok seen2 =>
        have hm : defineSlots cx ss seen2 s2 = (.ok seen', s') := hm
        have hl := (AddsDefs.defineSlots cx ss seen2).later s2
        rw [hm] at hl
        obtain ⟨h1, h2, h3, _⟩ := After.defineSlot_second h hsc (hN x List.mem_cons_self) hx (hl.fine hf)
        have := defineSlots_second h1 h2 (fun y hy sc hsc => hN y (List.mem_cons_of_mem _ hy) sc (hsc.trans h3)) hm hf
        rwa [List.append_assoc] at this

/-! ## Imports -/

theorem ownSymbols_ends {path : ModulePath} (hs : SymbolsFit (EndsPath s.pool) s.symbols) (hsc : ScopeEnds s.pool s.moduleScope)
    {u : Unit} (hm : ownSymbols path s = (.ok u, s')) : ∃ sc, s' = { s with moduleScope := sc } ∧ ScopeEnds s.pool sc ∧ sc.types = s.moduleScope.types := by
  unfold ownSymbols at hm
  split at hm
  · cases hm; exact ⟨_, rfl, hsc, rfl⟩
  · cases hp : s.symbols.populateImport (.All path) .priv s.moduleScope with
    | ok sc =>
      have : s' = { s with moduleScope := sc } := by
        have := congrArg Prod.snd hm
        simp only [DeclM.update, hp] at this
        exact this.symm
      exact ⟨sc, this, hsc.import (endsPath_leads _) hs hp, populateImport_types hp⟩
    | error e =>
      have : s' = s := by
        have := congrArg Prod.snd hm
        simp only [DeclM.update, hp] at this
        exact this.symm
      exact ⟨s.moduleScope, this, hsc, rfl⟩

theorem importAll_ends {cx : DeclCtx} : ∀ {is : List (Import × List Annotation)} {s s' : DeclState} {u : Unit},
    SymbolsFit (EndsPath s.pool) s.symbols → ScopeEnds s.pool s.moduleScope → importAll cx is s = (.ok u, s') → s'.Fine →
    ∃ sc, s' = { s with moduleScope := sc } ∧ ScopeEnds s.pool sc ∧ sc.types = s.moduleScope.types
  | [], s, s', u, _, hsc, hm, _ => by cases hm; exact ⟨_, rfl, hsc, rfl⟩
  | (imp, anns) :: is, s, s', u, hs, hsc, hm, hf => by
    have hm : DeclM.bind (conditions cx anns) (fun on => DeclM.bind (DeclM.when on (importOne imp)) fun _ => importAll cx is) s = (.ok u, s') := by
      unfold importAll at hm; exact hm
    unfold DeclM.bind at hm
    unfold conditions DeclM.readOr at hm
    cases he : evalConditions cx.modules anns with
    | none => rw [he] at hm; cases hm
    | some on =>
      rw [he] at hm
      simp only at hm
      cases on with
      | false =>
        have hm : importAll cx is s = (.ok u, s') := hm
        exact importAll_ends hs hsc hm hf
      | true =>
        simp only [DeclM.when, if_true] at hm
        cases hi : s.symbols.populateImport imp .pub s.moduleScope with
        | ok sc =>
          have h1 : importOne imp s = (.ok (), { s with moduleScope := sc }) := by
            unfold importOne; rw [hi]
          rw [h1] at hm
          obtain ⟨sc', h2, h3, h4⟩ := importAll_ends (s := { s with moduleScope := sc }) hs (hsc.import (endsPath_leads _) hs hi) hm hf
          exact ⟨sc', h2, h3, h4.trans (populateImport_types hi)⟩
        | error e =>
          exfalso
          have hb : ∀ (r : Except DeclErr Unit) (s2 : DeclState), importOne imp s = (r, s2) →
              (r ≠ .ok () ∨ s2.diagnostics ≠ []) := by
            intro r s2 h
            unfold importOne at h
            rw [hi] at h
            simp only at h
            cases e with
            | unresolvedImport p => cases h; exact .inr (by simp)
            | unresolvedModule p => cases h; exact .inr (by simp)
            | panic => cases h; exact .inl (by simp)
          cases h1 : importOne imp s with
          | mk r s2 =>
            rw [h1] at hm
            cases r with
            | error e => cases hm
            | ok a =>
              rcases hb _ _ h1 with h | h
              · exact h rfl
              · have hl := (AddsDefs.importAll cx is).later s2
                have hm : importAll cx is s2 = (.ok u, s') := hm
                rw [hm] at hl
                exact h (hl.diags hf.diags)

theorem Second.withModule (h : Second mods sees s1 done rest seen s) (sc : Scope) : Second mods sees s1 done rest seen { s with moduleScope := sc } where
  names := h.names
  keeps := ⟨h.keeps.frame, h.keeps.bodies, h.keeps.defaults, h.keeps.files⟩
  posts := fun x hx => by
    have := h.posts x hx
    cases x <;> exact this
  seen := h.seen
  ready := h.ready
  apart := h.apart
  distinct := h.distinct
  inUse := h.inUse
  symbols := h.symbols
  scope := h.scope
  table := h.table
  shape := h.shape
  same := h.same

theorem defineQueue_second {cx : DeclCtx} (hwf : s1.symbols.Wf) (hg : GlobalNames s1.symbols s1.scope) : ∀ {qs : List Queued} {done : List Slot} {seen : List Idx} {s s' : DeclState} {u : Unit},
    Second cx.modules sees s1 done (qs.flatMap (·.slots)) seen s →
    (∀ q ∈ qs, ∀ x ∈ q.slots, ∀ sc, SeesNames s1.symbols cx.modules q.path q.imports sc → sees x.index sc) → defineQueue cx qs seen s = (.ok u, s') → s'.Fine →
    ∃ seen', Second cx.modules sees s1 (done ++ qs.flatMap (·.slots)) [] seen' s'
  | [], done, seen, s, s', u, h, _, hm, _ => by cases hm; exact ⟨seen, by simpa using h⟩
  | q :: qs, done, seen, s, s', u, h, hq, hm, hf => by
    have hm : DeclM.bind (DeclM.update fun s => { s with moduleScope := s.scope }) (fun _ => DeclM.bind (ownSymbols q.path) fun _ =>
        DeclM.bind (importAll cx q.imports) fun _ => DeclM.bind (defineSlots cx q.slots seen) fun seen => defineQueue cx qs seen) s = (.ok u, s') := by
      unfold defineQueue at hm; exact hm
    unfold DeclM.bind DeclM.update at hm
    simp only at hm
    cases h1 : ownSymbols q.path { s with moduleScope := s.scope } with
    | mk r s2 =>
      rw [h1] at hm
      cases r with
      | error e => cases hm
      | ok a =>
        simp only at hm
        cases h2 : importAll cx q.imports s2 with
        | mk r s3 =>
          rw [h2] at hm
          cases r with
          | error e => cases hm
          | ok b =>
            simp only at hm
            cases h3 : defineSlots cx q.slots seen s3 with
            | mk r s4 =>
              rw [h3] at hm
              cases r with
              | error e => cases hm
              | ok seen2 =>
                have hm : defineQueue cx qs seen2 s4 = (.ok u, s') := hm
                have f4 : s4.Fine := by
                  have := (AddsDefs.defineQueue cx qs seen2).later s4
                  rw [hm] at this; exact this.fine hf
                have f3 : s3.Fine := by
                  have := (AddsDefs.defineSlots cx q.slots seen).later s3
                  rw [h3] at this; exact this.fine f4
                obtain ⟨sc2, e2, k2, y2⟩ := ownSymbols_ends (s := { s with moduleScope := s.scope }) h.symbols h.scope h1
                subst e2
                obtain ⟨sc3, e3, k3, y3⟩ := importAll_ends (s := { s with moduleScope := sc2 }) h.symbols k2 h2 f3
                subst e3
                have h' := h.withModule sc3
                have hs : SeesNames s.symbols cx.modules q.path q.imports sc3 := module_sees (s := s) (by rw [h.same.1]; exact hwf)
                  (by rw [h.same.1, h.same.2]; exact hg) h1 rfl h2 f3
                rw [h.same.1] at hs
                rw [List.flatMap_cons] at h' ⊢
                have h4 := defineSlots_second h' ⟨h.names, k3, h.table.of_types (y3.trans y2), h.shape⟩
                  (fun x hx sc e => hq q List.mem_cons_self x hx sc (hs.congr e)) h3 f4
                obtain ⟨seen3, h5⟩ := defineQueue_second hwf hg h4 (fun q h => hq q (List.mem_cons_of_mem _ h)) hm hf
                exact ⟨seen3, by rwa [List.append_assoc] at h5⟩

end
end Redscript
