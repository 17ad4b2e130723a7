import Verif.Unit.DeclDoneSpec
import Verif.Unit.DeclTypes

/-!
# What the steps of the declaration phase put into the pool
-/

namespace Redscript
open DeclM

set_option synthInstance.maxSize 2000
set_option synthInstance.maxHeartbeats 400000

/-! ## Frames -/

/-- The definition, or the class with more fields. -/
def OnlyFields (d d' : Definition) : Prop :=
  d' = d ∨ ∃ c gs, d.value = .Class c ∧ d' = { d with value := .Class { c with fields := c.fields ++ gs } }

theorem OnlyFields.trans {d d' d'' : Definition} (h : OnlyFields d d') (k : OnlyFields d' d'') : OnlyFields d d'' := by
  rcases h with rfl | ⟨c, gs, h1, rfl⟩
  · exact k
  · rcases k with rfl | ⟨c', gs', k1, rfl⟩
    · exact .inr ⟨c, gs, h1, rfl⟩
    · cases k1
      exact .inr ⟨c, gs ++ gs', h1, by simp⟩

/-- Definitions outside `T` stay, up to added fields; all keep their names. -/
structure DeclFrame (T : Idx → Prop) (p p' : ConstantPool) : Prop where
  size : p.definitions.length ≤ p'.definitions.length
  names : ∀ k t, p.names.get Strings.cnameDefault k = some t → p'.names.get Strings.cnameDefault k = some t
  defs : ∀ i d, p.definition i = some d → ∃ d', p'.definition i = some d' ∧ d'.name = d.name ∧ (¬ T i → OnlyFields d d')

namespace DeclFrame
variable {T T' : Idx → Prop} {p p' p'' : ConstantPool}

theorem refl (T : Idx → Prop) (p : ConstantPool) : DeclFrame T p p :=
  ⟨Nat.le_refl _, fun _ _ h => h, fun _ d h => ⟨d, h, rfl, fun _ => .inl rfl⟩⟩

theorem trans (h : DeclFrame T p p') (k : DeclFrame T p' p'') : DeclFrame T p p'' := by
  refine ⟨Nat.le_trans h.size k.size, fun i t ht => k.names i t (h.names i t ht), fun i d hd => ?_⟩
  obtain ⟨d', h1, h2, h3⟩ := h.defs i d hd
  obtain ⟨d'', k1, k2, k3⟩ := k.defs i d' h1
  exact ⟨d'', k1, k2.trans h2, fun hT => (h3 hT).trans (k3 hT)⟩

theorem weaken (h : DeclFrame T p p') (hT : ∀ i, T i → T' i) : DeclFrame T' p p' :=
  ⟨h.size, h.names, fun i d hd => by
    obtain ⟨d', h1, h2, h3⟩ := h.defs i d hd
    exact ⟨d', h1, h2, fun hn => h3 fun ht => hn (hT i ht)⟩⟩

/-- What was not there before need not be mentioned. -/
theorem drop (h : DeclFrame T' p p') (hT : ∀ i, T' i → T i ∨ p.definitions.length ≤ i.toNat) : DeclFrame T p p' :=
  ⟨h.size, h.names, fun i d hd => by
    obtain ⟨d', h1, h2, h3⟩ := h.defs i d hd
    refine ⟨d', h1, h2, fun hn => h3 fun ht => ?_⟩
    rcases hT i ht with h | h
    · exact hn h
    · exact absurd (definition_lt hd) (by omega)⟩

theorem defName (h : DeclFrame T p p') {i : Idx} {t : Text} (ht : p.defName i = some t) : p'.defName i = some t := by
  unfold ConstantPool.defName at ht ⊢
  cases hd : p.definition i with
  | none => rw [hd] at ht; cases ht
  | some d =>
    rw [hd] at ht
    obtain ⟨d', h1, h2, _⟩ := h.defs i d hd
    rw [h1]
    simp only [Option.bind_some, Option.map_eq_some_iff] at ht ⊢
    obtain ⟨u, h3, h4⟩ := ht
    exact ⟨u, by rw [h2]; exact h.names _ _ h3, h4⟩

theorem stay (h : DeclFrame T p p') : NamesStay p p' := fun _ _ => h.defName

theorem nameEnds (h : DeclFrame T p p') {i : Idx} {x : Text} (hx : NameEnds p i x) : NameEnds p' i x := by
  obtain ⟨t, h1, h2⟩ := hx
  exact ⟨t, h.defName h1, h2⟩

theorem definedAs (h : DeclFrame T p p') {i parent : Idx} {x : Text} {v : AnyDefinition} (hd : DefinedAs p i parent x v)
    (hT : ¬ T i) (hv : v.asClass = none) : DefinedAs p' i parent x v := by
  obtain ⟨h1, d, h2, h3, h4⟩ := hd
  obtain ⟨d', k1, _, k3⟩ := h.defs i d h2
  refine ⟨h.defName h1, d', k1, ?_⟩
  rcases k3 hT with rfl | ⟨c, gs, hc, _⟩
  · exact ⟨h3, h4⟩
  · rw [h4] at hc; rw [hc] at hv; cases hv

theorem definedClass (h : DeclFrame T p p') {i parent : Idx} {x : Text} {c : ClassDef} (hd : DefinedAs p i parent x (.Class c))
    (hT : ¬ T i) : ∃ gs, DefinedAs p' i parent x (.Class { c with fields := c.fields ++ gs }) := by
  obtain ⟨h1, d, h2, h3, h4⟩ := hd
  obtain ⟨d', k1, _, k3⟩ := h.defs i d h2
  rcases k3 hT with rfl | ⟨c', gs, hc, rfl⟩
  · exact ⟨[], h.defName h1, _, k1, h3, by simpa using h4⟩
  · rw [h4] at hc; cases hc
    exact ⟨gs, h.defName h1, _, k1, h3, rfl⟩

/-- Definitions at the end. -/
theorem append {ds : List Definition} (hd : p'.definitions = p.definitions ++ ds)
    (hn : ∀ k t, p.names.get Strings.cnameDefault k = some t → p'.names.get Strings.cnameDefault k = some t) : DeclFrame T p p' := by
  refine ⟨by rw [hd, List.length_append]; exact Nat.le_add_right _ _, hn, fun i d h => ⟨d, ?_, rfl, fun _ => .inl rfl⟩⟩
  have h : p.definitions[i.toNat]? = some d := h
  show p'.definitions[i.toNat]? = some d
  rw [hd, List.getElem?_append_left (List.getElem?_eq_some_iff.1 h).1]
  exact h

end DeclFrame

/-! ## Steps -/

/-- Nothing has been reported and the indexes have not run out. -/
structure DeclState.Fine (s : DeclState) : Prop where
  diags : s.diagnostics = []
  defs : s.len ≤ 2 ^ 32
  names : s.pool.names.strings.length + 1 < 2 ^ 32

theorem DeclState.Later.fine {s s' : DeclState} (h : s.Later s') (k : s'.Fine) : s.Fine :=
  ⟨h.diags k.diags, Nat.le_trans h.defs k.defs, by have := h.names.length; have := k.names; omega⟩

/-- What a later state keeps. -/
structure Keeps (T : Idx → Prop) (s s' : DeclState) : Prop where
  frame : DeclFrame T s.pool s'.pool
  bodies : ∀ b ∈ s.bodies, b ∈ s'.bodies
  defaults : ∀ b ∈ s.defaults, b ∈ s'.defaults
  files : ∀ e ∈ s.files, e ∈ s'.files

/-- The types of the module scope and of the pool have the names they should have. -/
structure DeclState.Typed (s : DeclState) : Prop where
  table : TypesNamed s.moduleScope s.pool
  shape : TypeShape s.pool

/-- What is needed to look up types. -/
structure DeclState.Sound (s : DeclState) : Prop where
  names : s.pool.names.Reachable Strings.cnameDefault
  scope : ScopeEnds s.pool s.moduleScope
  typed : s.Typed

/-- A state later in the treatment of a slot. -/
structure KeepStep (T : Idx → Prop) (s s' : DeclState) : Prop extends Keeps T s s' where
  typed : s.Typed → s'.Typed
  module : s'.moduleScope.symbols = s.moduleScope.symbols
  scope : s'.scope = s.scope
  symbols : s'.symbols = s.symbols

theorem KeepStep.refl (T : Idx → Prop) (s : DeclState) : KeepStep T s s := ⟨⟨.refl T _, fun _ h => h, fun _ h => h, fun _ h => h⟩, id, rfl, rfl, rfl⟩

theorem KeepStep.trans {T : Idx → Prop} {s s' s'' : DeclState} (h : KeepStep T s s') (k : KeepStep T s' s'') : KeepStep T s s'' :=
  ⟨⟨h.frame.trans k.frame, fun b hb => k.bodies b (h.bodies b hb), fun b hb => k.defaults b (h.defaults b hb), fun b hb => k.files b (h.files b hb)⟩, fun ht => k.typed (h.typed ht), k.module.trans h.module, k.scope.trans h.scope, k.symbols.trans h.symbols⟩

/-- Only the pool changes. -/
theorem KeepStep.pool {T : Idx → Prop} {s : DeclState} {p : ConstantPool} (h : DeclFrame T s.pool p) (ht : TypeShape s.pool → TypeShape p) :
    KeepStep T s { s with pool := p } :=
  ⟨⟨h, fun _ h => h, fun _ h => h, fun _ h => h⟩, fun k => ⟨k.table.mono h.stay, ht k.shape⟩, rfl, rfl, rfl⟩

theorem DeclState.Sound.later {T : Idx → Prop} {s s' : DeclState} (h : s.Sound) (k : KeepStep T s s')
    (hn : s'.pool.names.Reachable Strings.cnameDefault) : s'.Sound :=
  ⟨hn, fun x sym hx i hi hb => by rw [k.module] at hx; exact k.frame.nameEnds (h.scope x sym hx i hi hb), k.typed h.typed⟩

/-- The step, when it succeeds without reports, changes only what it may and establishes `Q`. -/
def After (s : DeclState) (T : Idx → Prop) (m : DeclM α) (Q : DeclState → α → Prop) : Prop :=
  s.Sound → ∀ a s', m s = (.ok a, s') → s'.Fine → KeepStep T s s' ∧ Q s' a

namespace After
variable {s : DeclState} {T T' : Idx → Prop}

theorem mono {m : DeclM α} {Q R : DeclState → α → Prop} (h : After s T m Q) (hq : ∀ s' a, KeepStep T s s' → Q s' a → R s' a) :
    After s T m R := fun hr a s' hm hf => ⟨(h hr a s' hm hf).1, hq s' a (h hr a s' hm hf).1 (h hr a s' hm hf).2⟩

theorem weaken {m : DeclM α} {Q : DeclState → α → Prop} (h : After s T m Q) (hT : ∀ i, T i → T' i) :
    After s T' m fun s' a => KeepStep T s s' ∧ Q s' a := fun hr a s' hm hf => by
  obtain ⟨h1, h2⟩ := h hr a s' hm hf
  exact ⟨⟨⟨h1.frame.weaken hT, h1.bodies, h1.defaults, h1.files⟩, h1.typed, h1.module, h1.scope, h1.symbols⟩, h1, h2⟩

/-- Indexes that were not in use need not be mentioned. -/
theorem drop {m : DeclM α} {Q : DeclState → α → Prop} (h : After s T' m Q) (hT : ∀ i, T' i → T i ∨ s.len ≤ i.toNat) :
    After s T m Q := fun hr a s' hm hf => by
  obtain ⟨h1, h2⟩ := h hr a s' hm hf
  exact ⟨⟨⟨h1.frame.drop hT, h1.bodies, h1.defaults, h1.files⟩, h1.typed, h1.module, h1.scope, h1.symbols⟩, h2⟩

theorem pure {a : α} {Q : DeclState → α → Prop} (h : Q s a) : After s T (Pure.pure a : DeclM α) Q :=
  fun _ b s' hb _ => by cases hb; exact ⟨.refl T s, h⟩

theorem bind {m : DeclM α} {f : α → DeclM β} {Q : DeclState → α → Prop} {R : DeclState → β → Prop}
    [hg : AddsDefs m] [hgf : ∀ a, AddsDefs (f a)]
    (hm : After s T m Q) (hf : ∀ s1 a, s.Later s1 → s1.Fine → KeepStep T s s1 → Q s1 a → After s1 T (f a) R) : After s T (m >>= f) R := by
  intro hr b s' hb hfine
  have hb : DeclM.bind m f s = (.ok b, s') := hb
  unfold DeclM.bind at hb
  have hl := hg.later s
  cases h : m s with
  | mk r s1 =>
    rw [h] at hb hl
    cases r with
    | error e => cases hb
    | ok a =>
      have hl2 := (hgf a).later s1
      have hb : f a s1 = (.ok b, s') := hb
      rw [hb] at hl2
      have h1 := hl2.fine hfine
      obtain ⟨k1, k2⟩ := hm hr a s1 h h1
      obtain ⟨k3, k4⟩ := hf s1 a hl h1 k1 k2 (hr.later k1 (hl.names.reachable hr.names h1.names)) b s' hb hfine
      exact ⟨k1.trans k3, k4⟩

theorem fail {e : DeclErr} {Q : DeclState → α → Prop} : After s T (DeclM.fail e : DeclM α) Q := fun _ b s' hb _ => by cases hb

theorem read {f : DeclState → α} {Q : DeclState → α → Prop} (h : Q s (f s)) : After s T (DeclM.read f) Q :=
  fun _ b s' hb _ => by cases hb; exact ⟨.refl T s, h⟩

theorem readOr {e : DeclErr} {f : DeclState → Option α} {Q : DeclState → α → Prop} (h : ∀ a, f s = some a → Q s a) :
    After s T (DeclM.readOr e f) Q := by
  intro _ b s' hb _
  unfold DeclM.readOr at hb
  cases hf : f s with
  | none => rw [hf] at hb; cases hb
  | some a => rw [hf] at hb; cases hb; exact ⟨.refl T s, h _ hf⟩

/-- A report ends the story. -/
theorem report {e : DeclErr} {Q : DeclState → Unit → Prop} : After s T (DeclM.report e) Q := by
  intro _ b s' hb hfine
  unfold DeclM.report at hb
  have key : ∀ d : DeclDiag, s.diagnostics ++ [d] ≠ [] := fun d => by simp
  cases e with
  | compile c => cases hb; exact absurd hfine.diags (key _)
  | cte => cases hb; exact absurd hfine.diags (key _)
  | pool => cases hb
  | panic => cases hb

theorem diagnose {d : DeclDiag} {Q : DeclState → Unit → Prop} : After s T (DeclM.diagnose d) Q := by
  intro _ b s' hb hfine
  cases hb
  exact absurd hfine.diags (by simp)

theorem reporting {m : DeclM α} {Q : DeclState → α → Prop} (h : After s T m Q) :
    After s T (DeclM.reporting m) fun s' o => ∃ a, o = some a ∧ Q s' a := by
  intro hr b s' hb hfine
  unfold DeclM.reporting at hb
  cases hm : m s with
  | mk r s1 =>
    rw [hm] at hb
    cases r with
    | ok a => cases hb; exact ⟨(h hr _ _ hm hfine).1, _, rfl, (h hr _ _ hm hfine).2⟩
    | error e =>
      exfalso
      cases e with
      | compile c => cases hb; exact absurd hfine.diags (by simp)
      | cte => cases hb; exact absurd hfine.diags (by simp)
      | pool => cases hb
      | panic => cases hb

theorem when {c : Bool} {m : DeclM Unit} {Q : DeclState → Unit → Prop} (h : c = true → After s T m Q) (h' : c = false → Q s ()) :
    After s T (DeclM.when c m) Q := by
  unfold DeclM.when
  cases c with
  | true => exact h rfl
  | false => exact pure (h' rfl)

theorem update {f : DeclState → DeclState} {Q : DeclState → Unit → Prop} (hs : KeepStep T s (f s)) (h : Q (f s) ()) :
    After s T (DeclM.update f) Q := fun _ b s' hb _ => by cases hb; exact ⟨hs, h⟩

theorem pushRef {i : SourceRef} {Q : DeclState → Unit → Prop} (h : Q { s with refs := s.refs ++ [i] } ()) :
    After s T (DeclM.pushRef i) Q := update ⟨⟨.refl T _, fun _ h => h, fun _ h => h, fun _ h => h⟩, fun k => ⟨k.table, k.shape⟩, rfl, rfl, rfl⟩ h

theorem addName {t : Text} : After s T (DeclM.addName t) fun s' i =>
    s'.pool.names.get Strings.cnameDefault i = some (String.ofList t) ∧ s'.pool.definitions = s.pool.definitions := by
  intro hr b s' hb hfine
  cases hb
  have hk : ∀ k u, s.pool.names.get Strings.cnameDefault k = some u →
      (s.pool.names.add Strings.cnameDefault (String.ofList t)).2.get Strings.cnameDefault k = some u :=
    fun k u hu => C11_add_keeps _ _ _ _ _ hu
  have hl : s.pool.names.strings.length + 1 < 2 ^ 32 := by
    have h1 := Strings.add_le s.pool.names (String.ofList t)
    have h2 : (s.pool.names.add Strings.cnameDefault (String.ofList t)).2.strings.length + 1 < 2 ^ 32 := hfine.names
    omega
  have hf : DeclFrame T s.pool { s.pool with names := (s.pool.names.add Strings.cnameDefault (String.ofList t)).2 } := DeclFrame.append (ds := []) (by simp) hk
  exact ⟨.pool hf fun hs => hs.same hf.stay fun j d hd => .inr ⟨d, hd, rfl⟩, C11_add_reads_back _ _ hr.names hl _, rfl⟩

theorem addDefinition {d : Definition} (hw : d.value.wraps = none) : After s T (DeclM.addDefinition d) fun s' i =>
    i.toNat = s.len ∧ s'.pool.definition i = some d ∧ s'.pool.names = s.pool.names ∧ s'.len = s.len + 1 := by
  intro _ b s' hb hfine
  cases hb
  have hl : (s.pool.definitions ++ [d]).length ≤ 2 ^ 32 := hfine.defs
  rw [List.length_append, List.length_singleton] at hl
  have hi : (BitVec.ofNat 32 s.pool.definitions.length).toNat = s.pool.definitions.length := by
    rw [BitVec.toNat_ofNat, Nat.mod_eq_of_lt (by omega)]
  have hf : DeclFrame T s.pool (s.pool.addDefinition d).2 := DeclFrame.append (ds := [d]) rfl fun _ _ h => h
  refine ⟨.pool hf fun hs => hs.add hf.stay rfl (fun j k g _ hg => by rw [hw] at hg; cases hg), hi, ?_, rfl, ?_⟩
  · show (s.pool.definitions ++ [d])[(BitVec.ofNat 32 s.pool.definitions.length).toNat]? = some d
    rw [hi]; simp
  · show (s.pool.definitions ++ [d]).length = _
    simp [DeclState.len]

theorem nameOf {i : Idx} : After s T (DeclM.nameOf i) fun s' n => s' = s ∧ (s.pool.definition i).map (·.name) = some n :=
  readOr fun _ h => ⟨rfl, h⟩

theorem classAt {i : Idx} : After s T (DeclM.classAt i) fun s' c => s' = s ∧ s.pool.definitionBy AnyDefinition.asClass i = some c :=
  readOr fun _ h => ⟨rfl, h⟩

theorem put {i : Idx} {d : Definition} (hT : T i) (hw : d.value.wraps = none) (hd : (s.pool.definition i).map (·.name) = some d.name) :
    After s T (DeclM.put i d) fun s' _ => s'.pool.definition i = some d ∧ s'.pool.names = s.pool.names ∧ s'.len = s.len := by
  intro _ b s' hb _
  unfold DeclM.put ConstantPool.putDefinition at hb
  by_cases hi : i.toNat < s.pool.definitions.length
  · rw [if_pos hi] at hb
    cases hb
    have hf : DeclFrame T s.pool { s.pool with definitions := s.pool.definitions.set i.toNat d } := by
      refine ⟨?_, fun _ _ h => h, fun j e hj => ?_⟩
      · show _ ≤ (s.pool.definitions.set i.toNat d).length
        rw [List.length_set]; exact Nat.le_refl _
      · have hj : s.pool.definitions[j.toNat]? = some e := hj
        by_cases hij : i = j
        · subst hij
          refine ⟨d, ?_, ?_, fun h => absurd hT h⟩
          · show (s.pool.definitions.set i.toNat d)[i.toNat]? = some d
            rw [List.getElem?_set_self hi]
          · have hd : (s.pool.definitions[i.toNat]?).map (·.name) = some d.name := hd
            rw [hj] at hd; exact (Option.some.inj hd).symm
        · refine ⟨e, ?_, rfl, fun _ => .inl rfl⟩
          show (s.pool.definitions.set i.toNat d)[j.toNat]? = some e
          rw [List.getElem?_set_ne (fun h => hij (BitVec.eq_of_toNat_eq h))]
          exact hj
    refine ⟨.pool hf fun hs => hs.same hf.stay fun j e hj => ?_, ?_, rfl, ?_⟩
    · have hj : (s.pool.definitions.set i.toNat d)[j.toNat]? = some e := hj
      by_cases hij : i = j
      · subst hij
        rw [List.getElem?_set_self hi] at hj
        cases hj
        exact .inl hw
      · rw [List.getElem?_set_ne (fun h => hij (BitVec.eq_of_toNat_eq h))] at hj
        exact .inr ⟨e, hj, rfl⟩
    · show (s.pool.definitions.set i.toNat d)[i.toNat]? = some d
      rw [List.getElem?_set_self hi]
    · show (s.pool.definitions.set i.toNat d).length = _
      rw [List.length_set]
  · rw [if_neg hi] at hb; cases hb

theorem typeIndex {t : TypeId} : After s T (typeIndex t) fun s' i => ∀ n, t.repr s.pool = some n → s'.pool.defName i = some n := by
  intro hr b s' hb hfine
  unfold Redscript.typeIndex at hb
  cases h : getTypeIndex s.moduleScope s.pool t with
  | error e => rw [h] at hb; cases e <;> cases hb
  | ok r =>
    obtain ⟨i, sc, p⟩ := r
    rw [h] at hb; cases hb
    obtain ⟨⟨h1, ds, h2, _⟩, h3⟩ := getTypeIndex_adds t h
    have key := fun (ht : s.Typed) n hn => getTypeIndex_named t (name := n) hr.names ht.table ht.shape hn h hfine.defs hfine.names
    refine ⟨⟨⟨DeclFrame.append h2 fun k u hu => h1.keeps hu, fun _ h => h, fun _ h => h, fun _ h => h⟩, fun ht => ?_, h3, rfl, rfl⟩,
      fun n hn => (key hr.typed n hn).1⟩
    obtain ⟨n, hn⟩ := getTypeIndex_repr h
    exact ⟨(key ht n hn).2.1, (key ht n hn).2.2⟩

theorem tryResolveType {depth : Nat} {t : TypeName} : After s T (tryResolveType depth t) fun s' ty => s' = s ∧
    ∃ n, ty.repr s.pool = some n ∧ TypeCalled s.pool t.repr n := by
  intro hr b s' hb hfine
  unfold Redscript.tryResolveType at hb
  cases h : s.moduleScope.resolveType s.pool depth t with
  | some ty => rw [h] at hb; cases hb; exact ⟨.refl T s, rfl, resolveType_called hr.scope hr.typed.table hr.typed.shape t h⟩
  | none =>
    rw [h] at hb; cases hb
    exact absurd hfine.diags (by simp)

theorem onClassFields {i : Idx} {gs : List Idx} : After s T (DeclM.onClass i fun c => { c with fields := c.fields ++ gs }) fun s' _ =>
    s'.pool.names = s.pool.names ∧ s'.len = s.len ∧ ∃ d c, s.pool.definition i = some d ∧ d.value = .Class c ∧
      s'.pool.definition i = some { d with value := .Class { c with fields := c.fields ++ gs } } := by
  intro _ b s' hb _
  unfold DeclM.onClass at hb
  cases h : s.pool.modifyValue (AnyDefinition.onClass fun c => { c with fields := c.fields ++ gs }) i with
  | none => rw [h] at hb; cases hb
  | some p =>
    rw [h] at hb; cases hb
    obtain ⟨h1, h2⟩ := modifyValue_sizes h
    unfold ConstantPool.modifyValue at h
    cases hd : s.pool.definitions[i.toNat]? with
    | none => rw [hd] at h; cases h
    | some d =>
      rw [hd] at h
      simp only [Option.bind_some, Option.map_eq_some_iff] at h
      obtain ⟨v, hv, rfl⟩ := h
      unfold AnyDefinition.onClass at hv
      split at hv
      · next c hc =>
        cases hv
        have hlt := (List.getElem?_eq_some_iff.1 hd).1
        have hf : DeclFrame T s.pool { s.pool with definitions := s.pool.definitions.set i.toNat { d with value := .Class { c with fields := c.fields ++ gs } } } := by
          refine ⟨?_, fun _ _ h => h, fun j e hj => ?_⟩
          · show _ ≤ (s.pool.definitions.set i.toNat _).length
            rw [List.length_set]; exact Nat.le_refl _
          · have hj : s.pool.definitions[j.toNat]? = some e := hj
            by_cases hij : i = j
            · subst hij
              rw [hd] at hj; cases hj
              refine ⟨{ d with value := .Class { c with fields := c.fields ++ gs } }, ?_, rfl, fun _ => .inr ⟨c, gs, hc, rfl⟩⟩
              show (s.pool.definitions.set i.toNat _)[i.toNat]? = _
              rw [List.getElem?_set_self hlt]
            · refine ⟨e, ?_, rfl, fun _ => .inl rfl⟩
              show (s.pool.definitions.set i.toNat _)[j.toNat]? = some e
              rw [List.getElem?_set_ne (fun h => hij (BitVec.eq_of_toNat_eq h))]
              exact hj
        refine ⟨.pool hf fun hs => hs.same hf.stay fun j e hj => ?_, rfl, ?_, d, c, hd, hc, ?_⟩
        · have hj : (s.pool.definitions.set i.toNat { d with value := .Class { c with fields := c.fields ++ gs } })[j.toNat]? = some e := hj
          by_cases hij : i = j
          · subst hij
            rw [List.getElem?_set_self hlt] at hj
            cases hj
            exact .inl rfl
          · rw [List.getElem?_set_ne (fun h => hij (BitVec.eq_of_toNat_eq h))] at hj
            exact .inr ⟨e, hj, rfl⟩
        · show (s.pool.definitions.set i.toNat _).length = _
          rw [List.length_set]
        · show (s.pool.definitions.set i.toNat _)[i.toNat]? = _
          rw [List.getElem?_set_self hlt]
      · cases hv

end After
end Redscript
