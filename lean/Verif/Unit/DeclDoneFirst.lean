import Verif.Unit.DeclDoneQueue

/-!
# The first loop finds a place for every declaration
-/

namespace Redscript
open DeclM

set_option synthInstance.maxSize 2000
set_option synthInstance.maxHeartbeats 400000

/-! ## Frames -/

/-- The definition, or the class with more methods. -/
def OnlyMethods (d d' : Definition) : Prop :=
  d' = d ∨ ∃ c fs, d.value = .Class c ∧ d' = { d with value := .Class { c with functions := c.functions ++ fs } }

theorem OnlyMethods.trans {d d' d'' : Definition} (h : OnlyMethods d d') (k : OnlyMethods d' d'') : OnlyMethods d d'' := by
  rcases h with rfl | ⟨c, gs, h1, rfl⟩
  · exact k
  · rcases k with rfl | ⟨c', gs', k1, rfl⟩
    · exact .inr ⟨c, gs, h1, rfl⟩
    · cases k1
      exact .inr ⟨c, gs ++ gs', h1, by simp⟩

/-- Definitions stay, up to added methods. -/
structure Frame1 (p p' : ConstantPool) : Prop where
  size : p.definitions.length ≤ p'.definitions.length
  names : ∀ k t, p.names.get Strings.cnameDefault k = some t → p'.names.get Strings.cnameDefault k = some t
  defs : ∀ i d, p.definition i = some d → ∃ d', p'.definition i = some d' ∧ OnlyMethods d d'

namespace Frame1
variable {p p' p'' : ConstantPool}

theorem refl (p : ConstantPool) : Frame1 p p := ⟨Nat.le_refl _, fun _ _ h => h, fun _ d h => ⟨d, h, .inl rfl⟩⟩

theorem trans (h : Frame1 p p') (k : Frame1 p' p'') : Frame1 p p'' := by
  refine ⟨Nat.le_trans h.size k.size, fun i t ht => k.names i t (h.names i t ht), fun i d hd => ?_⟩
  obtain ⟨d', h1, h2⟩ := h.defs i d hd
  obtain ⟨d'', k1, k2⟩ := k.defs i d' h1
  exact ⟨d'', k1, h2.trans k2⟩

theorem defName (h : Frame1 p p') {i : Idx} {t : Text} (ht : p.defName i = some t) : p'.defName i = some t := by
  unfold ConstantPool.defName at ht ⊢
  cases hd : p.definition i with
  | none => rw [hd] at ht; cases ht
  | some d =>
    rw [hd] at ht
    obtain ⟨d', h1, h2⟩ := h.defs i d hd
    have h2 : d'.name = d.name := by rcases h2 with rfl | ⟨_, _, _, rfl⟩ <;> rfl
    rw [h1]
    simp only [Option.bind_some, Option.map_eq_some_iff] at ht ⊢
    obtain ⟨u, h3, h4⟩ := ht
    exact ⟨u, by rw [h2]; exact h.names _ _ h3, h4⟩

theorem stay (h : Frame1 p p') : NamesStay p p' := fun _ _ => h.defName

theorem nameEnds (h : Frame1 p p') {i : Idx} {x : Text} (hx : NameEnds p i x) : NameEnds p' i x := by
  obtain ⟨t, h1, h2⟩ := hx
  exact ⟨t, h.defName h1, h2⟩

theorem asClass (h : Frame1 p p') {i : Idx} {c : ClassDef} (hc : p.definitionBy AnyDefinition.asClass i = some c) :
    ∃ fs, p'.definitionBy AnyDefinition.asClass i = some { c with functions := c.functions ++ fs } := by
  obtain ⟨d, hd, hv⟩ := asClass_value hc
  obtain ⟨d', h1, h2⟩ := h.defs i d hd
  rcases h2 with rfl | ⟨c', fs, h3, rfl⟩
  · exact ⟨[], by simpa using value_asClass h1 hv⟩
  · rw [hv] at h3; cases h3
    exact ⟨fs, value_asClass h1 rfl⟩

/-- A class was a class. -/
theorem asClass_back (h : Frame1 p p') {i : Idx} {c' : ClassDef} (hi : i.toNat < p.definitions.length)
    (hc : p'.definitionBy AnyDefinition.asClass i = some c') :
    ∃ c fs, p.definitionBy AnyDefinition.asClass i = some c ∧ c' = { c with functions := c.functions ++ fs } := by
  obtain ⟨d, hd⟩ := definition_of_lt hi
  obtain ⟨d', h1, h2⟩ := h.defs i d hd
  obtain ⟨d'', k1, k2⟩ := asClass_value hc
  rw [h1] at k1; cases k1
  rcases h2 with rfl | ⟨c, gs, hv, rfl⟩
  · exact ⟨c', [], value_asClass hd k2, by simp⟩
  · cases k2
    exact ⟨c, gs, value_asClass hd hv, rfl⟩

theorem notClass (h : Frame1 p p') {i : Idx} (hi : i.toNat < p.definitions.length)
    (hc : p.definitionBy AnyDefinition.asClass i = none) : p'.definitionBy AnyDefinition.asClass i = none := by
  cases hc' : p'.definitionBy AnyDefinition.asClass i with
  | none => rfl
  | some c => obtain ⟨c0, _, h1, _⟩ := h.asClass_back hi hc'; rw [hc] at h1; cases h1

theorem function (h : Frame1 p p') {i : Idx} (hi : i.toNat < p.definitions.length) : p'.function i = p.function i := by
  obtain ⟨d, hd⟩ := definition_of_lt hi
  obtain ⟨d', h1, h2⟩ := h.defs i d hd
  have hd : p.definitions[i.toNat]? = some d := hd
  have h1 : p'.definitions[i.toNat]? = some d' := h1
  unfold ConstantPool.function ConstantPool.definitionBy
  rw [hd, h1]
  rcases h2 with rfl | ⟨c, gs, hv, rfl⟩
  · rfl
  · simp only [Option.bind_some, hv, AnyDefinition.asFunction]

theorem append {ds : List Definition} (hd : p'.definitions = p.definitions ++ ds)
    (hn : ∀ k t, p.names.get Strings.cnameDefault k = some t → p'.names.get Strings.cnameDefault k = some t) : Frame1 p p' := by
  refine ⟨by rw [hd, List.length_append]; exact Nat.le_add_right _ _, hn, fun i d h => ⟨d, ?_, .inl rfl⟩⟩
  have h : p.definitions[i.toNat]? = some d := h
  show p'.definitions[i.toNat]? = some d
  rw [hd, List.getElem?_append_left (List.getElem?_eq_some_iff.1 h).1]
  exact h

/-- A method is added to a class. -/
theorem push {cls f : Idx} (h : p.pushFunction cls f = some p') : Frame1 p p' ∧ p'.definitions.length = p.definitions.length ∧
    p'.names = p.names ∧ (∀ j, j ≠ cls → p'.definitionBy AnyDefinition.asClass j = p.definitionBy AnyDefinition.asClass j) ∧
    ∃ c, p.definitionBy AnyDefinition.asClass cls = some c ∧
      p'.definitionBy AnyDefinition.asClass cls = some { c with functions := c.functions ++ [f] } := by
  unfold ConstantPool.pushFunction at h
  obtain ⟨h1, h2⟩ := modifyValue_sizes h
  unfold ConstantPool.modifyValue at h
  cases hd : p.definitions[cls.toNat]? with
  | none => rw [hd] at h; cases h
  | some d =>
    rw [hd] at h
    simp only [Option.bind_some, Option.map_eq_some_iff] at h
    obtain ⟨v, hv, rfl⟩ := h
    unfold AnyDefinition.onClass at hv
    split at hv
    · next c hc =>
      cases hv
      have hlt := (List.getElem?_eq_some_iff.1 hd).1
      refine ⟨⟨by rw [h1]; exact Nat.le_refl _, fun _ _ h => h, fun j e hj => ?_⟩, h1, h2, fun j hj => ?_, c, value_asClass hd hc, ?_⟩
      · have hj : p.definitions[j.toNat]? = some e := hj
        by_cases hij : cls = j
        · subst hij
          rw [hd] at hj; cases hj
          refine ⟨{ d with value := .Class { c with functions := c.functions ++ [f] } }, ?_, .inr ⟨c, [f], hc, rfl⟩⟩
          show (p.definitions.set cls.toNat _)[cls.toNat]? = _
          rw [List.getElem?_set_self hlt]
        · refine ⟨e, ?_, .inl rfl⟩
          show (p.definitions.set cls.toNat _)[j.toNat]? = some e
          rw [List.getElem?_set_ne (fun h => hij (BitVec.eq_of_toNat_eq h))]
          exact hj
      · unfold ConstantPool.definitionBy
        show ((p.definitions.set cls.toNat _)[j.toNat]?).bind _ = _
        rw [List.getElem?_set_ne (fun h => hj (BitVec.eq_of_toNat_eq h.symm))]
      · refine value_asClass (d := { d with value := .Class { c with functions := c.functions ++ [f] } }) ?_ rfl
        show (p.definitions.set cls.toNat _)[cls.toNat]? = _
        rw [List.getElem?_set_self hlt]
    · cases hv

end Frame1

/-! ## The invariant -/

/-- A function or empty definition that is not one of `X`. -/
def FreeAt (X : List Idx) (p : ConstantPool) (f : Idx) : Prop :=
  f.toNat < p.definitions.length ∧ f ∉ X ∧ FunctionAt p f

theorem FunctionAt.frame1 {p p' : ConstantPool} {f : Idx} (h : FunctionAt p f) (k : Frame1 p p') : FunctionAt p' f := by
  obtain ⟨d, h1, h2⟩ := h
  obtain ⟨d', k1, k2⟩ := k.defs f d h1
  rcases k2 with rfl | ⟨c, _, k3, _⟩
  · exact ⟨d', k1, h2⟩
  · rw [k3] at h2
    rcases h2 with ⟨_, h2⟩ | h2 <;> cases h2

/-- What a symbol stands for: an index in use, free if it is a function, otherwise named after the path. -/
abbrev FirstPath (X : List Idx) (p : ConstantPool) : ModulePath → Bool → Idx → Prop := fun path b i =>
  (b = true → FreeAt X p i) ∧ EndsPath p path b i

/-- What a name stands for. -/
abbrev FirstName (X : List Idx) (p : ConstantPool) : Text → Bool → Idx → Prop := fun x b i =>
  (b = true → FreeAt X p i) ∧ (b = false → NameEnds p i x)

theorem firstPath_leads (X : List Idx) (p : ConstantPool) : Leads (FirstPath X p) (FirstName X p) :=
  fun path x b i hx ⟨h1, h3⟩ => ⟨h1, endsPath_leads p path x b i hx h3⟩

/-- The state in the first loop. `X` are the definitions of the slots that are not for functions. -/
structure First (X : List Idx) (p : ConstantPool) (m : SymbolMap) (sc : Scope) : Prop where
  names : p.names.Reachable Strings.cnameDefault
  new : ∀ i ∈ X, i.toNat < p.definitions.length
  members : ∀ j c, p.definitionBy AnyDefinition.asClass j = some c → ∀ f ∈ c.functions, FreeAt X p f
  symbols : SymbolsFit (FirstPath X p) m
  scope : ScopeFits (FirstName X p) sc
  table : TypesNamed sc p
  shape : TypeShape p
  wf : m.Wf
  global : GlobalNames m sc

abbrev DeclState.First (X : List Idx) (s : DeclState) : Prop := Redscript.First X s.pool s.symbols s.scope

theorem FreeAt.frame {X : List Idx} {p p' : ConstantPool} {f : Idx} (h : FreeAt X p f) (k : Frame1 p p') : FreeAt X p' f :=
  ⟨Nat.lt_of_lt_of_le h.1 k.size, h.2.1, h.2.2.frame1 k⟩

/-- Adding a method does not touch the types. -/
theorem TypeShape.push {p p' : ConstantPool} (h : TypeShape p) {cls f : Idx} (hp : p.pushFunction cls f = some p') : TypeShape p' := by
  have hk := (Frame1.push hp).1
  refine h.same hk.stay fun j d hd => ?_
  have hlt := definition_lt hd
  rw [(Frame1.push hp).2.1] at hlt
  obtain ⟨e, he⟩ := definition_of_lt hlt
  obtain ⟨d', h1, h2⟩ := hk.defs j e he
  rw [hd] at h1; cases h1
  rcases h2 with rfl | ⟨c, fs, _, rfl⟩
  · exact .inr ⟨_, he, rfl⟩
  · exact .inl rfl

namespace First
variable {X : List Idx} {p p' : ConstantPool} {m : SymbolMap} {sc : Scope}

theorem frame (h : First X p m sc) (k : Frame1 p p') (hn : p'.names.Reachable Strings.cnameDefault)
    (hm : ∀ j c, p'.definitionBy AnyDefinition.asClass j = some c → ∀ f ∈ c.functions, FreeAt X p' f) (hs : TypeShape p') :
    First X p' m sc where
  names := hn
  new := fun i hi => Nat.lt_of_lt_of_le (h.new i hi) k.size
  members := hm
  symbols := fun e he i hi => by
    obtain ⟨h2, h3⟩ := h.symbols e he i hi
    refine ⟨fun hb => (h2 hb).frame k, fun hb => ?_⟩
    obtain ⟨t, h4, h5⟩ := h3 hb
    exact ⟨t, k.defName h4, h5⟩
  scope := fun x sym hx i hi => by
    obtain ⟨h2, h3⟩ := h.scope x sym hx i hi
    exact ⟨fun hb => (h2 hb).frame k, fun hb => k.nameEnds (h3 hb)⟩
  table := h.table.mono k.stay
  shape := hs
  wf := h.wf
  global := h.global

/-- A name is added. -/
theorem addName (h : First X p m sc) (t : String)
    (hl : (p.names.add Strings.cnameDefault t).2.strings.length + 1 < 2 ^ 32) :
    First X { p with names := (p.names.add Strings.cnameDefault t).2 } m sc :=
  h.frame (Frame1.append (ds := []) (by simp) fun k u hu => C11_add_keeps _ _ _ _ _ hu)
    (.add _ h.names (by have := Strings.add_le p.names t; omega)) h.members
    (h.shape.same (Frame1.stay (Frame1.append (ds := []) (by simp) fun k u hu => C11_add_keeps _ _ _ _ _ hu)) fun j d hd => .inr ⟨d, hd, rfl⟩)

theorem asClass_addDefinition {d : Definition} (hd : d.value.asClass = none) {j : Idx} {c : ClassDef}
    (hc : (p.addDefinition d).2.definitionBy AnyDefinition.asClass j = some c) : p.definitionBy AnyDefinition.asClass j = some c := by
  unfold ConstantPool.definitionBy at hc ⊢
  have hc : ((p.definitions ++ [d])[j.toNat]?).bind (fun d => d.value.asClass) = some c := hc
  by_cases hj : j.toNat < p.definitions.length
  · rwa [List.getElem?_append_left hj] at hc
  · exfalso
    rw [List.getElem?_append_right (Nat.not_lt.1 hj)] at hc
    cases hn : j.toNat - p.definitions.length with
    | zero =>
      rw [hn] at hc
      simp only [List.getElem?_cons_zero, Option.bind_some] at hc
      rw [hd] at hc; cases hc
    | succ n => rw [hn] at hc; simp at hc

/-- A definition that is not a class is added. -/
theorem addDefinition (h : First X p m sc) {d : Definition} (hd : d.value.asClass = none) (hw : d.value.wraps = none) : First X (p.addDefinition d).2 m sc := by
  have hk : Frame1 p (p.addDefinition d).2 := Frame1.append (ds := [d]) rfl fun _ _ h => h
  exact h.frame hk h.names (fun j c hc f hf => (h.members j c (asClass_addDefinition hd hc) f hf).frame hk)
    (h.shape.add hk.stay rfl fun _ _ _ _ hg => by rw [hw] at hg; cases hg)

/-- A definition nothing refers to yet is not a function. -/
theorem claim (h : First X p m sc) {d : Definition} (hd : d.value.asClass = none) (hw : d.value.wraps = none) {i : Idx} (hi : i.toNat = p.definitions.length) :
    First (X ++ [i]) (p.addDefinition d).2 m sc := by
  have h' := h.addDefinition hd hw
  have hk : Frame1 p (p.addDefinition d).2 := Frame1.append (ds := [d]) rfl fun _ _ h => h
  have hlen : (p.addDefinition d).2.definitions.length = p.definitions.length + 1 := by
    show (p.definitions ++ [d]).length = _
    simp
  have key : ∀ {f}, FreeAt X p f → FreeAt (X ++ [i]) (p.addDefinition d).2 f := by
    intro f hf
    refine ⟨(hf.frame hk).1, fun hmem => ?_, (hf.frame hk).2.2⟩
    rcases List.mem_append.1 hmem with hmem | hmem
    · exact hf.2.1 hmem
    · rw [List.mem_singleton] at hmem
      have := hf.1
      rw [hmem] at this
      omega
  refine ⟨h'.names, fun j hj => ?_, fun j c hc f hf => key (h.members j c (asClass_addDefinition hd hc) f hf),
    fun e he j hj => ⟨fun hb => key ((h.symbols e he j hj).1 hb), (h'.symbols e he j hj).2⟩,
    fun x sym hx j hj => ⟨fun hb => key ((h.scope x sym hx j hj).1 hb), (h'.scope x sym hx j hj).2⟩, h'.table, h'.shape, h.wf, h.global⟩
  rcases List.mem_append.1 hj with hj | hj
  · exact h'.new j hj
  · rw [List.mem_singleton] at hj; rw [hj]; omega

/-- A method is added to a class. -/
theorem push (h : First X p m sc) {cls f : Idx} (hp : p.pushFunction cls f = some p') (hf : FreeAt X p f) : First X p' m sc := by
  obtain ⟨h1, h2, h3, h4, c0, h5, h6⟩ := Frame1.push hp
  refine h.frame h1 (by rw [h3]; exact h.names) (fun j c hc g hg => ?_) (TypeShape.push h.shape hp)
  refine FreeAt.frame ?_ h1
  by_cases hj : j = cls
  · rw [hj, h6] at hc; cases hc
    rcases List.mem_append.1 hg with hg | hg
    · exact h.members cls c0 h5 g hg
    · rw [List.mem_singleton] at hg; subst hg; exact hf
  · rw [h4 j hj] at hc
    exact h.members j c hc g hg

end First

/-! ## Steps -/

/-- The step, when it succeeds without reports, leaves definitions as they are up to added methods and establishes `Q`. -/
def Moves (s : DeclState) (m : DeclM α) (Q : DeclState → α → Prop) : Prop :=
  ∀ a s', m s = (.ok a, s') → s'.Fine → Frame1 s.pool s'.pool ∧ Q s' a

namespace Moves
variable {s : DeclState} {X : List Idx}

theorem mono {m : DeclM α} {Q R : DeclState → α → Prop} (h : Moves s m Q) (hq : ∀ s' a, Frame1 s.pool s'.pool → Q s' a → R s' a) : Moves s m R :=
  fun a s' hm hf => ⟨(h a s' hm hf).1, hq s' a (h a s' hm hf).1 (h a s' hm hf).2⟩

theorem pure {a : α} {Q : DeclState → α → Prop} (h : Q s a) : Moves s (Pure.pure a : DeclM α) Q :=
  fun b s' hb _ => by cases hb; exact ⟨.refl _, h⟩

theorem bind {m : DeclM α} {f : α → DeclM β} {Q : DeclState → α → Prop} {R : DeclState → β → Prop} [hgf : ∀ a, AddsDefs (f a)]
    (hm : Moves s m Q) (hf : ∀ s1 a, s1.Fine → Frame1 s.pool s1.pool → Q s1 a → Moves s1 (f a) R) : Moves s (m >>= f) R := by
  intro b s' hb hfine
  have hb : DeclM.bind m f s = (.ok b, s') := hb
  unfold DeclM.bind at hb
  cases h : m s with
  | mk r s1 =>
    rw [h] at hb
    cases r with
    | error e => cases hb
    | ok a =>
      have hl2 := (hgf a).later s1
      have hb : f a s1 = (.ok b, s') := hb
      rw [hb] at hl2
      have h1 := hl2.fine hfine
      obtain ⟨k1, k2⟩ := hm a s1 h h1
      obtain ⟨k3, k4⟩ := hf s1 a h1 k1 k2 b s' hb hfine
      exact ⟨k1.trans k3, k4⟩

theorem fail {e : DeclErr} {Q : DeclState → α → Prop} : Moves s (DeclM.fail e : DeclM α) Q := fun b s' hb _ => by cases hb

theorem read {f : DeclState → α} {Q : DeclState → α → Prop} (h : Q s (f s)) : Moves s (DeclM.read f) Q :=
  fun b s' hb _ => by cases hb; exact ⟨.refl _, h⟩

theorem readOr {e : DeclErr} {f : DeclState → Option α} {Q : DeclState → α → Prop} (h : ∀ a, f s = some a → Q s a) :
    Moves s (DeclM.readOr e f) Q := by
  intro b s' hb _
  unfold DeclM.readOr at hb
  cases hf : f s with
  | none => rw [hf] at hb; cases hb
  | some a => rw [hf] at hb; cases hb; exact ⟨.refl _, h _ hf⟩

theorem diagnose {d : DeclDiag} {Q : DeclState → Unit → Prop} : Moves s (DeclM.diagnose d) Q := by
  intro b s' hb hfine
  cases hb
  exact absurd hfine.diags (by simp)

theorem reporting {m : DeclM α} {Q : DeclState → α → Prop} (h : Moves s m Q) :
    Moves s (DeclM.reporting m) fun s' o => ∃ a, o = some a ∧ Q s' a := by
  intro b s' hb hfine
  unfold DeclM.reporting at hb
  cases hm : m s with
  | mk r s1 =>
    rw [hm] at hb
    cases r with
    | ok a => cases hb; exact ⟨(h _ _ hm hfine).1, _, rfl, (h _ _ hm hfine).2⟩
    | error e =>
      exfalso
      cases e with
      | compile c => cases hb; exact absurd hfine.diags (by simp)
      | cte => cases hb; exact absurd hfine.diags (by simp)
      | pool => cases hb
      | panic => cases hb

theorem when {c : Bool} {m : DeclM Unit} {Q : DeclState → Unit → Prop} (h : c = true → Moves s m Q) (h' : c = false → Q s ()) :
    Moves s (DeclM.when c m) Q := by
  unfold DeclM.when
  cases c with
  | true => exact h rfl
  | false => exact pure (h' rfl)

theorem update {f : DeclState → DeclState} {Q : DeclState → Unit → Prop} (hs : (f s).pool = s.pool) (h : Q (f s) ()) :
    Moves s (DeclM.update f) Q := fun b s' hb _ => by cases hb; exact ⟨by rw [hs]; exact .refl _, h⟩

theorem addName (h : s.First X) {t : Text} : Moves s (DeclM.addName t) fun s' i => s'.First X ∧
    s'.pool.names.get Strings.cnameDefault i = some (String.ofList t) ∧ s'.pool.definitions = s.pool.definitions := by
  intro b s' hb hfine
  cases hb
  have hl : (s.pool.names.add Strings.cnameDefault (String.ofList t)).2.strings.length + 1 < 2 ^ 32 := hfine.names
  have hl' : s.pool.names.strings.length + 1 < 2 ^ 32 := by
    have h1 := Strings.add_le s.pool.names (String.ofList t)
    omega
  exact ⟨Frame1.append (ds := []) (by simp) fun k u hu => C11_add_keeps _ _ _ _ _ hu, h.addName _ hl,
    C11_add_reads_back _ _ h.names hl' _, rfl⟩

/-- A new definition under a name. -/
theorem stub (h : s.First X) {n : Idx} {t : Text} (hn : s.pool.names.get Strings.cnameDefault n = some (String.ofList t)) :
    Moves s (DeclM.stub n) fun s' i => s'.First X ∧ s'.First (X ++ [i]) ∧ i.toNat = s.len ∧ s'.len = s.len + 1 ∧
      s'.pool.defName i = some t ∧ FreeAt X s'.pool i := by
  intro b s' hb hfine
  cases hb
  have hl : (s.pool.definitions ++ [Definition.mk' n 0 (.Type .Prim)]).length ≤ 2 ^ 32 := hfine.defs
  rw [List.length_append, List.length_singleton] at hl
  have hi : (BitVec.ofNat 32 s.pool.definitions.length).toNat = s.pool.definitions.length := by
    rw [BitVec.toNat_ofNat, Nat.mod_eq_of_lt (by omega)]
  have hd : (s.pool.definitions ++ [Definition.mk' n 0 (.Type .Prim)])[(BitVec.ofNat 32 s.pool.definitions.length).toNat]? =
      some (Definition.mk' n 0 (.Type .Prim)) := by rw [hi]; simp
  refine ⟨Frame1.append (ds := [_]) rfl fun _ _ h => h, h.addDefinition rfl rfl, h.claim rfl rfl hi, hi, ?_, After.defName_of hd hn, defName_lt (After.defName_of hd hn),
    fun hmem => ?_, ?_⟩
  · show (s.pool.definitions ++ [_]).length = _
    simp [DeclState.len]
  · exact absurd (h.new _ hmem) (by show ¬ (BitVec.ofNat 32 s.pool.definitions.length).toNat < _; omega)
  · exact ⟨_, hd, .inr rfl⟩

theorem classAt {i : Idx} : Moves s (DeclM.classAt i) fun s' c => s' = s ∧ s.pool.definitionBy AnyDefinition.asClass i = some c :=
  readOr fun _ h => ⟨rfl, h⟩

/-- A method is added to a class. -/
theorem onClass (h : s.First X) {cls f : Idx} (hf : FreeAt X s.pool f) :
    Moves s (DeclM.onClass cls fun c => { c with functions := c.functions ++ [f] }) fun s' _ => s'.First X ∧ s'.len = s.len ∧
      ∃ c, s'.pool.definitionBy AnyDefinition.asClass cls = some c ∧ f ∈ c.functions := by
  intro b s' hb _
  unfold DeclM.onClass at hb
  cases hp : s.pool.modifyValue (AnyDefinition.onClass fun c => { c with functions := c.functions ++ [f] }) cls with
  | none => rw [hp] at hb; cases hb
  | some p =>
    rw [hp] at hb; cases hb
    obtain ⟨h1, h2, _, _, c, _, h6⟩ := Frame1.push hp
    exact ⟨h1, h.push hp hf, h2, _, h6, List.mem_append_right _ List.mem_cons_self⟩

/-! ## Locating functions -/

theorem targetClass (h : s.First X) {a : Annotation} : Moves s (targetClass a) fun s' cls => s' = s ∧ ∃ x, a.target = some x ∧ NameEnds s.pool cls x := by
  unfold Redscript.targetClass
  refine bind (hgf := fun x => @AddsDefs.bind' _ _ _ _ inferInstance fun sym => by split <;> infer_instance)
    (Q := fun s' x => s' = s ∧ a.target = some x) (readOr fun _ h => ⟨rfl, h⟩) fun s1 x _ _ ⟨e, hax⟩ => ?_
  subst e
  refine bind (hgf := fun sym => by split <;> infer_instance) (Q := fun s' sym => s' = s1 ∧ s1.scope.symbols.get x = some sym)
    (readOr fun _ h => ⟨rfl, h⟩) fun s2 sym _ _ ⟨e, hsym⟩ => ?_
  subst e
  cases sym with
  | Class i v => exact pure ⟨rfl, x, hax, (h.scope x _ hsym i (by simp [Symbol.indexes])).2 rfl⟩
  | Struct i v => exact pure ⟨rfl, x, hax, (h.scope x _ hsym i (by simp [Symbol.indexes])).2 rfl⟩
  | Enum _ => exact fail
  | Functions _ => exact fail

theorem targetMethod {cls : Idx} {name sig : Text} : Moves s (targetMethod cls name sig) fun s' f => s' = s ∧
    s.pool.defName f = some sig ∧ ∃ c, s.pool.definitionBy AnyDefinition.asClass cls = some c ∧ f ∈ c.functions := by
  intro b s' hb _
  unfold Redscript.targetMethod at hb
  cases hd : directMethods s.pool name cls with
  | none => rw [hd] at hb; cases hb
  | some fs =>
    rw [hd] at hb
    simp only at hb
    cases hi : byId s.pool sig fs with
    | none => rw [hi] at hb; cases hb
    | some f =>
      rw [hi] at hb; cases hb
      obtain ⟨h1, h2⟩ := byId_mem hi
      obtain ⟨c, h3, h4⟩ := directMethods_mem hd
      exact ⟨.refl _, rfl, h2, c, h3, h4 _ h1⟩

/-- What a new wrapper looks like. -/
theorem declareWrap (h : s.First X) {cls : Idx} {name sig : Text} : Moves s (declareWrap cls name sig) fun s' w => s'.First X ∧
    s.len ≤ w.index.toNat ∧ FreeAt X s'.pool w.index ∧ (∃ t, s'.pool.defName w.index = some t) ∧
    ∃ c, s'.pool.definitionBy AnyDefinition.asClass cls = some c ∧ w.index ∈ c.functions := by
  intro b s' hb hfine
  unfold Redscript.declareWrap at hb
  cases hd : Wraps.declare ⟨s.pool, s.wrappers, s.proxies⟩ name sig cls with
  | error e => rw [hd] at hb; cases hb
  | ok r =>
    obtain ⟨w, st⟩ := r
    rw [hd] at hb; cases hb
    have hld : st.pool.definitions.length ≤ 2 ^ 32 := hfine.defs
    have hln : st.pool.names.strings.length + 1 < 2 ^ 32 := hfine.names
    obtain ⟨wrapped, pool, proxies, pool1, pool2, nm, _, h2, _, _, h5, h6, h7, h8, _⟩ := declare_spec hd
    have hp : Frame1 s.pool pool ∧ First X pool s.symbols s.scope := by
      unfold Wraps.wrappedIdx at h2
      cases hw : s.wrappers.get b.target with
      | some v => simp only [hw, Prod.mk.injEq] at h2; rw [← h2.2.1]; exact ⟨.refl _, h⟩
      | none =>
        simp only [hw, Prod.mk.injEq] at h2
        rw [← h2.2.1]
        exact ⟨Frame1.append (ds := [.default]) rfl fun _ _ h => h, h.addDefinition rfl rfl⟩
    have hp2 : pool2 = (pool1.stubDefinition nm).2 := congrArg Prod.snd h7
    have hi : b.index = (pool1.stubDefinition nm).1 := congrArg Prod.fst h7
    obtain ⟨k1, k2, k3, _, c, _, k6⟩ := Frame1.push h8
    have hn1 : (pool.names.add Strings.cnameDefault (indexName "wrapper$" wrapped)).2.strings.length + 1 < 2 ^ 32 := by
      rw [k3, hp2, h5] at hln; exact hln
    have f1 : First X pool1 s.symbols s.scope := by rw [h5]; exact hp.2.addName _ hn1
    have fr1 : Frame1 pool pool1 := by
      rw [h5]; exact Frame1.append (ds := []) (by simp) fun k u hu => C11_add_keeps _ _ _ _ _ hu
    have f2 : First X pool2 s.symbols s.scope := by rw [hp2]; exact f1.addDefinition rfl rfl
    have fr2 : Frame1 pool1 pool2 := by rw [hp2]; exact Frame1.append (ds := [_]) rfl fun _ _ h => h
    have hl2 : pool2.definitions.length = pool1.definitions.length + 1 := by
      rw [hp2]
      show (pool1.definitions ++ [_]).length = _
      simp
    have hidx : b.index.toNat = pool1.definitions.length := by
      rw [hi]
      show (BitVec.ofNat 32 pool1.definitions.length).toNat = _
      rw [BitVec.toNat_ofNat, Nat.mod_eq_of_lt (by omega)]
    have hdef : pool2.definition b.index = some { name := nm, parent := 0, unk1 := 0, unk2 := 0, unk3 := 0, value := .Type .Prim } := by
      rw [hp2]
      show (pool1.definitions ++ [_])[b.index.toNat]? = _
      rw [hidx]; simp
    have hfree : FreeAt X pool2 b.index := by
      exact ⟨by omega, fun hmem => by have := f1.new _ hmem; omega, _, hdef, .inr rfl⟩
    have hsz := hp.1.size
    have hsz1 := fr1.size
    refine ⟨(hp.1.trans fr1).trans (fr2.trans k1), f2.push h8 hfree, ?_, hfree.frame k1, ⟨indexName "wrapper$" wrapped |>.toList, k1.defName ?_⟩, _, k6,
      List.mem_append_right _ List.mem_cons_self⟩
    · show s.pool.definitions.length ≤ _
      omega
    · refine After.defName_of hdef ?_
      rw [hp2]
      show pool1.names.get Strings.cnameDefault nm = _
      rw [h5, h6, String.ofList_toList]
      exact C11_add_reads_back _ _ hp.2.names (by have := Strings.add_le pool.names (indexName "wrapper$" wrapped); omega) _

end Moves
end Redscript
