import Verif.Unit.ClashSteps
import Verif.Unit.ClashSpec

/-!
# Members that are added to classes
-/

namespace Redscript
open DeclM

set_option synthInstance.maxSize 2000
set_option synthInstance.maxHeartbeats 400000

/-- The fields `gs` added to class `i`. -/
structure NewFields (p0 : ConstantPool) (depth : Nat) (p : ConstantPool) (i : Idx) (gs : List Idx) : Prop where
  fresh : ∀ g ∈ gs, p0.definitions.length ≤ g.toNat
  apart : NamedApart p gs
  above : ∀ g ∈ gs, ∀ t, p.defName g = some t → ¬ FieldAbove p0 depth i t

/-- The methods `fs` added to a class that had `old`, if no clash has been reported. -/
structure NewMethods (p0 p : ConstantPool) (clash : Prop) (old fs : List Idx) : Prop where
  fresh : ∀ f ∈ fs, p0.definitions.length ≤ f.toNat
  named : ∀ f ∈ fs, ∃ t, p.defName f = some t
  apart : clash ∨ fs.Pairwise fun f g => ∀ t, p.defName f = some t → p.defName g = some t → ForWrapper t
  new : clash ∨ ∀ f ∈ fs, ∀ g ∈ old, ∀ t, p.defName f = some t → p0.defName g = some t → ForWrapper t

theorem named_stays {p p' : ConstantPool} (k : NamesStay p p') {i : Idx} {t u : Text} (h : p.defName i = some t) (h' : p'.defName i = some u) :
    p.defName i = some u := by
  rw [h]; exact (k i t h).symm.trans h'

theorem NewFields.mono {p0 p p' : ConstantPool} {depth : Nat} {i : Idx} {gs : List Idx} (h : NewFields p0 depth p i gs) (k : NamesStay p p') :
    NewFields p0 depth p' i gs where
  fresh := h.fresh
  apart := by
    refine ⟨fun g hg => ?_, h.apart.2.imp_of_mem fun {f g} hf hg hne he => hne ?_⟩
    · obtain ⟨t, ht⟩ := h.apart.1 g hg
      exact ⟨t, k _ _ ht⟩
    · obtain ⟨t, ht⟩ := h.apart.1 f hf
      obtain ⟨u, hu⟩ := h.apart.1 g hg
      rw [k _ _ ht, k _ _ hu] at he
      rw [ht, hu, he]
  above := fun g hg t ht => by
    obtain ⟨u, hu⟩ := h.apart.1 g hg
    exact h.above g hg t (named_stays k hu ht)

theorem NewMethods.mono {p0 p p' : ConstantPool} {clash clash' : Prop} {old fs : List Idx} (h : NewMethods p0 p clash old fs) (k : NamesStay p p')
    (hc : clash → clash') : NewMethods p0 p' clash' old fs where
  fresh := h.fresh
  named := fun f hf => by
    obtain ⟨t, ht⟩ := h.named f hf
    exact ⟨t, k _ _ ht⟩
  apart := h.apart.imp hc fun ha => ha.imp_of_mem fun {f g} hf hg hw t ht hu => by
    obtain ⟨_, h1⟩ := h.named f hf
    obtain ⟨_, h2⟩ := h.named g hg
    exact hw t (named_stays k h1 ht) (named_stays k h2 hu)
  new := h.new.imp hc fun hn f hf g hg t ht hu => by
    obtain ⟨_, h1⟩ := h.named f hf
    exact hn f hf g hg t (named_stays k h1 ht) hu

/-- What is known of the state. `first` is true in the first loop. -/
structure Clean (p0 : ConstantPool) (depth : Nat) (first : Bool) (s : DeclState) : Prop where
  reach : s.pool.names.Reachable Strings.cnameDefault
  kept : ∀ k t, p0.names.get Strings.cnameDefault k = some t → s.pool.names.get Strings.cnameDefault k = some t
  size : p0.definitions.length ≤ s.len
  named : ∀ i d, p0.definition i = some d → ∃ d', s.pool.definition i = some d' ∧ d'.name = d.name
  notClass : ∀ i, i.toNat < p0.definitions.length → p0.definitionBy AnyDefinition.asClass i = none →
    s.pool.definitionBy AnyDefinition.asClass i = none
  classes : ∀ i c, p0.definitionBy AnyDefinition.asClass i = some c → ∃ fs gs,
    s.pool.definitionBy AnyDefinition.asClass i = some { c with functions := c.functions ++ fs, fields := c.fields ++ gs } ∧
    NewFields p0 depth s.pool i gs ∧ NewMethods p0 s.pool (DeclDiag.addMethodConflict ∈ s.diagnostics) c.functions fs
  scope : ScopeFits (fun _ b i => b = true → i.toNat < p0.definitions.length → p0.definitionBy AnyDefinition.asClass i = none) s.scope
  fresh : first = true → ∀ i c, p0.definitions.length ≤ i.toNat → s.pool.definitionBy AnyDefinition.asClass i ≠ some c

theorem asClass_lt {p : ConstantPool} {i : Idx} {c : ClassDef} (h : p.definitionBy AnyDefinition.asClass i = some c) :
    i.toNat < p.definitions.length := by
  obtain ⟨d, hd, _⟩ := asClass_value h
  exact definition_lt hd

theorem asClass_none {p : ConstantPool} {i : Idx} {d : Definition} (hd : p.definition i = some d) :
    p.definitionBy AnyDefinition.asClass i = d.value.asClass := by
  unfold ConstantPool.definitionBy
  have hd : p.definitions[i.toNat]? = some d := hd
  rw [hd]; rfl

namespace Clean
variable {p0 : ConstantPool} {depth : Nat} {first : Bool} {s s' : DeclState}

theorem stay (h : Clean p0 depth first s) : NamesStay p0 s.pool := by
  intro i t ht
  unfold ConstantPool.defName at ht ⊢
  cases hd : p0.definition i with
  | none => rw [hd] at ht; cases ht
  | some d =>
    rw [hd] at ht
    obtain ⟨d', h1, h2⟩ := h.named i d hd
    rw [h1]
    simp only [Option.bind_some, Option.map_eq_some_iff] at ht ⊢
    obtain ⟨u, h3, h4⟩ := ht
    exact ⟨u, by rw [h2]; exact h.kept _ _ h3, h4⟩

theorem _root_.Redscript.Quiet.class_iff {n : Nat} (q : Quiet n s s') {i : Idx} (hi : i.toNat < n) (hn : n ≤ s.len) :
    s'.pool.definitionBy AnyDefinition.asClass i = s.pool.definitionBy AnyDefinition.asClass i := by
  obtain ⟨d, hd⟩ := definition_of_lt (p := s.pool) (i := i) (by unfold DeclState.len at hn; omega)
  obtain ⟨d', h1, _, h3⟩ := q.defs i d hd
  rw [asClass_none h1, asClass_none hd]
  rcases h3 hi with rfl | ⟨h3, h4⟩
  · rfl
  · rw [h3, h4]

theorem quiet (h : Clean p0 depth first s) (q : Quiet p0.definitions.length s s') (hr : s'.pool.names.Reachable Strings.cnameDefault)
    (hf : first = true → ∀ i c, p0.definitions.length ≤ i.toNat → s'.pool.definitionBy AnyDefinition.asClass i ≠ some c) :
    Clean p0 depth first s' where
  reach := hr
  kept := fun k t ht => q.names k t (h.kept k t ht)
  size := Nat.le_trans h.size q.size
  named := fun i d hd => by
    obtain ⟨d', h1, h2⟩ := h.named i d hd
    obtain ⟨d'', h3, h4, _⟩ := q.defs i d' h1
    exact ⟨d'', h3, h4.trans h2⟩
  notClass := fun i hi hc => by rw [q.class_iff hi h.size]; exact h.notClass i hi hc
  classes := fun i c hc => by
    obtain ⟨fs, gs, h1, h2, h3⟩ := h.classes i c hc
    exact ⟨fs, gs, q.class_same (asClass_lt hc) h1, h2.mono q.stay, h3.mono q.stay fun k => q.diags _ k⟩
  scope := by rw [q.scope]; exact h.scope
  fresh := hf

/-- The second loop. -/
theorem second (h : Clean p0 depth first s) : Clean p0 depth false s := { h with fresh := fun hf => by cases hf }

/-- A class of the bundle now. -/
theorem class_now (h : Clean p0 depth first s) {i : Idx} (hi : i.toNat < p0.definitions.length) {c : ClassDef}
    (hc : s.pool.definitionBy AnyDefinition.asClass i = some c) : ∃ c0 fs gs, p0.definitionBy AnyDefinition.asClass i = some c0 ∧
      c = { c0 with functions := c0.functions ++ fs, fields := c0.fields ++ gs } ∧ NewFields p0 depth s.pool i gs ∧
      NewMethods p0 s.pool (DeclDiag.addMethodConflict ∈ s.diagnostics) c0.functions fs := by
  cases h0 : p0.definitionBy AnyDefinition.asClass i with
  | none => rw [h.notClass i hi h0] at hc; cases hc
  | some c0 =>
    obtain ⟨fs, gs, h1, h2, h3⟩ := h.classes i c0 h0
    rw [h1] at hc; cases hc
    exact ⟨c0, fs, gs, rfl, rfl, h2, h3⟩

/-- Members of the classes of the bundle have names. -/
theorem members (h : Clean p0 depth first s) (hm : MembersNamed p0) {i : Idx} (hi : i.toNat < p0.definitions.length) {c : ClassDef}
    (hc : s.pool.definitionBy AnyDefinition.asClass i = some c) : ∀ j, j ∈ c.functions ∨ j ∈ c.fields → ∃ t, s.pool.defName j = some t := by
  obtain ⟨c0, fs, gs, h0, rfl, h2, h3⟩ := h.class_now hi hc
  intro j hj
  simp only [List.mem_append] at hj
  rcases hj with (hj | hj) | (hj | hj)
  · obtain ⟨t, ht⟩ := hm i c0 h0 j (.inl hj)
    exact ⟨t, h.stay _ _ ht⟩
  · exact h3.named j hj
  · obtain ⟨t, ht⟩ := hm i c0 h0 j (.inr hj)
    exact ⟨t, h.stay _ _ ht⟩
  · exact h2.apart.1 j hj

end Clean

/-- No class of the bundle reached from `i` has a field called `t` now. -/
def NoField (p0 : ConstantPool) (depth : Nat) (p : ConstantPool) (i : Idx) (t : Text) : Prop :=
  ∀ k j c, k < depth → Above p0 k i j → j.toNat < p0.definitions.length → p.definitionBy AnyDefinition.asClass j = some c →
    ∀ f ∈ c.fields, ∃ u, p.defName f = some u ∧ u ≠ t

/-- The class has no method called `t` now. -/
def NoMethod (p : ConstantPool) (i : Idx) (t : Text) : Prop :=
  ∀ c, p.definitionBy AnyDefinition.asClass i = some c → ∀ f ∈ c.functions, ∃ u, p.defName f = some u ∧ u ≠ t

theorem NoField.quiet {p0 : ConstantPool} {depth : Nat} {s s' : DeclState} {i : Idx} {t : Text} (h : NoField p0 depth s.pool i t)
    (q : Quiet p0.definitions.length s s') (hn : p0.definitions.length ≤ s.len) : NoField p0 depth s'.pool i t := by
  intro k j c hk ha hj hc f hf
  rw [q.class_iff hj hn] at hc
  obtain ⟨u, h1, h2⟩ := h k j c hk ha hj hc f hf
  exact ⟨u, q.stay _ _ h1, h2⟩

theorem NoMethod.quiet {n : Nat} {s s' : DeclState} {i : Idx} {t : Text} (h : NoMethod s.pool i t) (q : Quiet n s s') (hn : n ≤ s.len)
    (hi : i.toNat < n) : NoMethod s'.pool i t := by
  intro c hc f hf
  rw [q.class_iff hi hn] at hc
  obtain ⟨u, h1, h2⟩ := h c hc f hf
  exact ⟨u, q.stay _ _ h1, h2⟩

theorem fieldNamed_none {p : ConstantPool} {t : Text} : ∀ {l : List Idx}, fieldNamed p t l = some none → ∀ f ∈ l, ∃ u, p.defName f = some u ∧ u ≠ t
  | [], _, f, hf => by cases hf
  | g :: l, h, f, hf => by
    unfold fieldNamed at h
    cases hg : p.defName g with
    | none => rw [hg] at h; cases h
    | some u =>
      rw [hg] at h
      simp only [Option.bind_some] at h
      split at h
      · cases h
      · next hne =>
        rcases List.mem_cons.1 hf with rfl | hf
        · exact ⟨u, hg, hne⟩
        · exact fieldNamed_none h f hf

theorem fieldNamed_total {p : ConstantPool} {t : Text} : ∀ {l : List Idx}, (∀ f ∈ l, ∃ u, p.defName f = some u) → fieldNamed p t l ≠ none
  | [], _, h => by cases h
  | g :: l, hl, h => by
    unfold fieldNamed at h
    obtain ⟨u, hg⟩ := hl g List.mem_cons_self
    rw [hg] at h
    simp only [Option.bind_some] at h
    split at h
    · cases h
    · exact fieldNamed_total (fun f hf => hl f (List.mem_cons_of_mem _ hf)) h

/-- A field that is not found is not there. -/
theorem Clean.noField {p0 : ConstantPool} {depth : Nat} {first : Bool} {s : DeclState} (h : Clean p0 depth first s) (hm : MembersNamed p0) {t : Text} :
    ∀ {n : Nat} {i : Idx}, resolveFieldIn s.pool t n i = none → NoField p0 n s.pool i t
  | 0, _, _ => fun _ _ _ hk => absurd hk (Nat.not_lt_zero _)
  | n + 1, i, hr => by
    intro k j c hk ha hj hc
    unfold resolveFieldIn at hr
    cases ha with
    | here =>
      rw [hc] at hr
      simp only [Option.bind_some] at hr
      cases hf : fieldNamed s.pool t c.fields with
      | none => exact absurd hf (fieldNamed_total fun f hf => h.members hm hj hc f (.inr hf))
      | some o =>
        rw [hf] at hr
        cases o with
        | some f => cases hr
        | none => exact fieldNamed_none hf
    | @up k _ _ c0 h0 hb ha =>
      obtain ⟨fs, gs, h1, _, _⟩ := h.classes i c0 h0
      rw [h1] at hr
      simp only [Option.bind_some] at hr
      cases hf : fieldNamed s.pool t (c0.fields ++ gs) with
      | none => exact absurd hf (fieldNamed_total fun f hf => h.members hm (asClass_lt h0) h1 f (.inr hf))
      | some o =>
        rw [hf] at hr
        cases o with
        | some f => cases hr
        | none =>
          simp only [Option.bind_some, ne_eq, hb, not_false_eq_true, if_true] at hr
          exact h.noField hm hr k j c (by omega) ha hj hc

theorem mapM_named {p : ConstantPool} : ∀ {l : List Idx}, (∀ f ∈ l, ∃ u, p.defName f = some u) →
    ∃ named, l.mapM (fun f => (p.defName f).map fun name => (f, name)) = some named ∧ ∀ f ∈ l, ∀ u, p.defName f = some u → (f, u) ∈ named
  | [], _ => ⟨[], rfl, by simp⟩
  | f :: l, h => by
    obtain ⟨u, hu⟩ := h f List.mem_cons_self
    obtain ⟨named, h1, h2⟩ := mapM_named fun g hg => h g (List.mem_cons_of_mem _ hg)
    refine ⟨(f, u) :: named, ?_, fun g hg v hv => ?_⟩
    · rw [List.mapM_cons, hu, h1]; rfl
    · rcases List.mem_cons.1 hg with rfl | hg
      · rw [hu] at hv; cases hv; exact List.mem_cons_self
      · exact List.mem_cons_of_mem _ (h2 g hg v hv)

/-- A method that is not found is not there. -/
theorem noMethod {p : ConstantPool} {i : Idx} {name sig : Text} (hs : signatureName sig = name)
    (hm : ∀ c, p.definitionBy AnyDefinition.asClass i = some c → ∀ f ∈ c.functions, ∃ u, p.defName f = some u)
    (hn : (directMethods p name i).bind (byId p sig) = none) : NoMethod p i sig := by
  intro c hc f hf
  obtain ⟨u, hu⟩ := hm c hc f hf
  refine ⟨u, hu, fun he => ?_⟩
  subst he
  obtain ⟨named, h1, h2⟩ := mapM_named (hm c hc)
  have hmem : f ∈ (named.filter fun x => decide (signatureName x.2 = name)).map (·.1) :=
    List.mem_map.2 ⟨(f, u), List.mem_filter.2 ⟨h2 f hf u hu, by simpa using hs⟩, rfl⟩
  unfold directMethods at hn
  rw [hc] at hn
  simp only [Option.bind_some, h1] at hn
  split at hn
  · next he => rw [List.isEmpty_iff.1 he] at hmem; cases hmem
  · simp only [Option.bind_some] at hn
    unfold byId at hn
    have := List.find?_eq_none.1 hn f hmem
    simp [hu] at this

/-! ## Adding members -/

theorem modify_class {p p' : ConstantPool} {g : ClassDef → ClassDef} {i : Idx} (h : p.modifyValue (AnyDefinition.onClass g) i = some p') :
    ∃ d c, p.definition i = some d ∧ d.value = .Class c ∧ p'.definition i = some { d with value := .Class (g c) } ∧
      (∀ j, j ≠ i → p'.definition j = p.definition j) ∧ p'.names = p.names ∧ p'.definitions.length = p.definitions.length := by
  unfold ConstantPool.modifyValue at h
  cases hd : p.definitions[i.toNat]? with
  | none => rw [hd] at h; cases h
  | some d =>
    rw [hd] at h
    simp only [Option.bind_some, Option.map_eq_some_iff] at h
    obtain ⟨v, hv, rfl⟩ := h
    obtain ⟨c, h1, rfl⟩ := onClass_some hv
    have hlt := (List.getElem?_eq_some_iff.1 hd).1
    refine ⟨d, c, hd, h1, ?_, fun j hj => ?_, rfl, by simp⟩
    · show (p.definitions.set i.toNat _)[i.toNat]? = _
      rw [List.getElem?_set_self hlt]
    · show (p.definitions.set i.toNat _)[j.toNat]? = p.definitions[j.toNat]?
      rw [List.getElem?_set_ne (fun h => hj (BitVec.eq_of_toNat_eq h).symm)]

theorem modify_names {p p' : ConstantPool} {g : ClassDef → ClassDef} {i : Idx} (h : p.modifyValue (AnyDefinition.onClass g) i = some p') (j : Idx) :
    p'.defName j = p.defName j := by
  obtain ⟨d, c, h1, _, h3, h4, h5, _⟩ := modify_class h
  unfold ConstantPool.defName
  rw [h5]
  by_cases hj : j = i
  · subst hj; rw [h1, h3]; rfl
  · rw [h4 j hj]

theorem class_other {p p' : ConstantPool} {j : Idx} (h : p'.definition j = p.definition j) :
    p'.definitionBy AnyDefinition.asClass j = p.definitionBy AnyDefinition.asClass j := by
  have h : p'.definitions[j.toNat]? = p.definitions[j.toNat]? := h
  unfold ConstantPool.definitionBy
  rw [h]

/-- Adding members to a class. -/
theorem Clean.modify {p0 : ConstantPool} {depth : Nat} {first : Bool} {s : DeclState} (h : Clean p0 depth first s) {i : Idx} {fs' gs' : List Idx}
    {p' : ConstantPool}
    (hp : s.pool.modifyValue (AnyDefinition.onClass fun c => { c with functions := c.functions ++ fs', fields := c.fields ++ gs' }) i = some p')
    (hc : ∀ c fs gs, p0.definitionBy AnyDefinition.asClass i = some c →
      s.pool.definitionBy AnyDefinition.asClass i = some { c with functions := c.functions ++ fs, fields := c.fields ++ gs } →
      NewFields p0 depth s.pool i gs → NewMethods p0 s.pool (DeclDiag.addMethodConflict ∈ s.diagnostics) c.functions fs →
      NewFields p0 depth s.pool i (gs ++ gs') ∧ NewMethods p0 s.pool (DeclDiag.addMethodConflict ∈ s.diagnostics) c.functions (fs ++ fs')) :
    Clean p0 depth first { s with pool := p' } := by
  obtain ⟨d, c, h1, h2, h3, h4, h5, h6⟩ := modify_class hp
  have hst : NamesStay s.pool p' := fun j t ht => by rw [modify_names hp]; exact ht
  have hci : s.pool.definitionBy AnyDefinition.asClass i = some c := value_asClass h1 h2
  refine ⟨by show p'.names.Reachable _; rw [h5]; exact h.reach, fun k t ht => by show p'.names.get _ _ = _; rw [h5]; exact h.kept k t ht,
    by show _ ≤ p'.definitions.length; rw [h6]; exact h.size, fun j e he => ?_, fun j hj hc' => ?_, fun j c' hc' => ?_, h.scope, fun hf j c' hj hc' => ?_⟩
  · obtain ⟨e', k1, k2⟩ := h.named j e he
    by_cases hji : j = i
    · subst hji
      rw [k1] at h1; cases h1
      exact ⟨_, h3, k2⟩
    · exact ⟨e', by show p'.definition j = _; rw [h4 j hji]; exact k1, k2⟩
  · have := h.notClass j hj hc'
    by_cases hji : j = i
    · subst hji; rw [hci] at this; cases this
    · show p'.definitionBy AnyDefinition.asClass j = none
      rw [class_other (h4 j hji)]; exact this
  · obtain ⟨fs, gs, k1, k2, k3⟩ := h.classes j c' hc'
    by_cases hji : j = i
    · subst hji
      obtain ⟨m1, m2⟩ := hc c' fs gs hc' k1 k2 k3
      rw [hci] at k1; cases k1
      refine ⟨fs ++ fs', gs ++ gs', ?_, m1.mono hst, m2.mono hst id⟩
      rw [← List.append_assoc, ← List.append_assoc]
      exact value_asClass h3 rfl
    · exact ⟨fs, gs, by show p'.definitionBy AnyDefinition.asClass j = _; rw [class_other (h4 j hji)]; exact k1, k2.mono hst, k3.mono hst id⟩
  · by_cases hji : j = i
    · subst hji; exact h.fresh hf j c hj hci
    · have hc' : p'.definitionBy AnyDefinition.asClass j = some c' := hc'
      rw [class_other (h4 j hji)] at hc'
      exact h.fresh hf j c' hj hc'

/-- Adding a field that is not there. -/
theorem Clean.addField {p0 : ConstantPool} {depth : Nat} {first : Bool} {s : DeclState} (h : Clean p0 depth first s) {i g : Idx} {t : Text}
    (hg : p0.definitions.length ≤ g.toNat) (ht : s.pool.defName g = some t) (hn : NoField p0 depth s.pool i t) (hd : 0 < depth) {p' : ConstantPool}
    (hp : s.pool.modifyValue (AnyDefinition.onClass fun c => { c with fields := c.fields ++ [g] }) i = some p') :
    Clean p0 depth first { s with pool := p' } := by
  refine h.modify (fs' := []) (gs' := [g]) (by simpa using hp) fun c fs gs hc hc' hF hM => ⟨?_, by simpa using hM⟩
  refine ⟨?_, ⟨?_, ?_⟩, ?_⟩
  · intro x hx
    rcases List.mem_append.1 hx with hx | hx
    · exact hF.fresh x hx
    · rw [List.mem_singleton] at hx; subst hx; exact hg
  · intro x hx
    rcases List.mem_append.1 hx with hx | hx
    · exact hF.apart.1 x hx
    · rw [List.mem_singleton] at hx; subst hx; exact ⟨t, ht⟩
  · refine List.pairwise_append.2 ⟨hF.apart.2, List.pairwise_singleton _ _, fun x hx y hy he => ?_⟩
    rw [List.mem_singleton] at hy; subst hy
    obtain ⟨u, h1, h2⟩ := hn 0 i _ hd .here (asClass_lt hc) hc' x (List.mem_append_right _ hx)
    rw [h1, ht] at he; cases he; exact h2 rfl
  · intro x hx u hu
    rcases List.mem_append.1 hx with hx | hx
    · exact hF.above x hx u hu
    · rw [List.mem_singleton] at hx; subst hx
      rw [ht] at hu; cases hu
      intro ⟨k, j, cj, f, h1, h2, h3, h4, h5⟩
      obtain ⟨fs', gs', h6, _, _⟩ := h.classes j cj h3
      obtain ⟨u, h7, h8⟩ := hn k j _ h1 h2 (asClass_lt h3) h6 f (List.mem_append_left _ h4)
      rw [h.stay _ _ h5] at h7; cases h7; exact h8 rfl

/-- Adding a method that is not there, or of which it has been said that it is. -/
theorem Clean.addMethod {p0 : ConstantPool} {depth : Nat} {first : Bool} {s : DeclState} (h : Clean p0 depth first s) {i f : Idx} {t : Text}
    (hf : p0.definitions.length ≤ f.toNat) (ht : s.pool.defName f = some t)
    (hn : DeclDiag.addMethodConflict ∈ s.diagnostics ∨ ForWrapper t ∨ NoMethod s.pool i t) {p' : ConstantPool}
    (hp : s.pool.modifyValue (AnyDefinition.onClass fun c => { c with functions := c.functions ++ [f] }) i = some p') :
    Clean p0 depth first { s with pool := p' } := by
  refine h.modify (fs' := [f]) (gs' := []) (by simpa using hp) fun c fs gs hc hc' hF hM => ⟨by simpa using hF, ?_⟩
  refine ⟨?_, ?_, ?_, ?_⟩
  · intro x hx
    rcases List.mem_append.1 hx with hx | hx
    · exact hM.fresh x hx
    · rw [List.mem_singleton] at hx; subst hx; exact hf
  · intro x hx
    rcases List.mem_append.1 hx with hx | hx
    · exact hM.named x hx
    · rw [List.mem_singleton] at hx; subst hx; exact ⟨t, ht⟩
  · rcases hn with hn | hn
    · exact .inl hn
    · refine hM.apart.imp id fun ha => List.pairwise_append.2 ⟨ha, List.pairwise_singleton _ _, fun x hx y hy u hu hv => ?_⟩
      rw [List.mem_singleton] at hy; subst hy
      rw [ht] at hv; cases hv
      rcases hn with hn | hn
      · exact hn
      · obtain ⟨w, h1, h2⟩ := hn _ hc' x (List.mem_append_right _ hx)
        rw [hu] at h1; cases h1; exact absurd rfl h2
  · rcases hn with hn | hn
    · exact .inl hn
    · refine hM.new.imp id fun ha x hx y hy u hu hv => ?_
      rcases List.mem_append.1 hx with hx | hx
      · exact ha x hx y hy u hu hv
      · rw [List.mem_singleton] at hx; subst hx
        rw [ht] at hu; cases hu
        rcases hn with hn | hn
        · exact hn
        · obtain ⟨w, h1, h2⟩ := hn _ hc' y (List.mem_append_left _ hy)
          rw [h.stay _ _ hv] at h1; cases h1; exact absurd rfl h2

end Redscript
