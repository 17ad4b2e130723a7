import Verif.Unit.DeclDoneTheorems

/-!
# Steps that leave the members of classes alone
-/

namespace Redscript
open DeclM

set_option synthInstance.maxSize 2000
set_option synthInstance.maxHeartbeats 400000

/-- The indexes of definitions and names have not run out. -/
structure DeclState.Room (s : DeclState) : Prop where
  defs : s.len ≤ 2 ^ 32
  names : s.pool.names.strings.length + 1 < 2 ^ 32

theorem DeclState.Later.room {s s' : DeclState} (h : s.Later s') (k : s'.Room) : s.Room :=
  ⟨Nat.le_trans h.defs k.defs, by have := h.names.length; have := k.names; omega⟩

/-- Names stay, and below `n` classes stay as they are and nothing becomes a class. -/
structure Quiet (n : Nat) (s s' : DeclState) : Prop where
  size : s.len ≤ s'.len
  names : ∀ k t, s.pool.names.get Strings.cnameDefault k = some t → s'.pool.names.get Strings.cnameDefault k = some t
  defs : ∀ i d, s.pool.definition i = some d → ∃ d', s'.pool.definition i = some d' ∧ d'.name = d.name ∧
    (i.toNat < n → d' = d ∨ (d.value.asClass = none ∧ d'.value.asClass = none))
  diags : ∀ d ∈ s.diagnostics, d ∈ s'.diagnostics
  scope : s'.scope = s.scope

namespace Quiet
variable {n : Nat} {s s' s'' : DeclState}

theorem refl (n : Nat) (s : DeclState) : Quiet n s s :=
  ⟨Nat.le_refl _, fun _ _ h => h, fun _ d h => ⟨d, h, rfl, fun _ => .inl rfl⟩, fun _ h => h, rfl⟩

theorem trans (h : Quiet n s s') (k : Quiet n s' s'') : Quiet n s s'' := by
  refine ⟨Nat.le_trans h.size k.size, fun i t ht => k.names i t (h.names i t ht), fun i d hd => ?_, fun d hd => k.diags d (h.diags d hd),
    k.scope.trans h.scope⟩
  obtain ⟨d', h1, h2, h3⟩ := h.defs i d hd
  obtain ⟨d'', k1, k2, k3⟩ := k.defs i d' h1
  refine ⟨d'', k1, k2.trans h2, fun hi => ?_⟩
  rcases h3 hi with h5 | ⟨h5, h6⟩
  · subst h5; exact k3 hi
  · rcases k3 hi with k5 | ⟨_, k5⟩
    · subst k5; exact .inr ⟨h5, h6⟩
    · exact .inr ⟨h5, k5⟩

theorem stay (h : Quiet n s s') : NamesStay s.pool s'.pool := by
  intro i t ht
  unfold ConstantPool.defName at ht ⊢
  cases hd : s.pool.definition i with
  | none => rw [hd] at ht; cases ht
  | some d =>
    rw [hd] at ht
    obtain ⟨d', h1, h2, _⟩ := h.defs i d hd
    rw [h1]
    simp only [Option.bind_some, Option.map_eq_some_iff] at ht ⊢
    obtain ⟨u, h3, h4⟩ := ht
    exact ⟨u, by rw [h2]; exact h.names _ _ h3, h4⟩

/-- Classes below `n` are what they were. -/
theorem class_same (h : Quiet n s s') {i : Idx} (hi : i.toNat < n) {c : ClassDef} (hc : s.pool.definitionBy AnyDefinition.asClass i = some c) :
    s'.pool.definitionBy AnyDefinition.asClass i = some c := by
  obtain ⟨d, hd, hv⟩ := asClass_value hc
  obtain ⟨d', h1, _, h3⟩ := h.defs i d hd
  rcases h3 hi with rfl | ⟨h3, _⟩
  · exact value_asClass h1 hv
  · rw [hv] at h3; cases h3

/-- Further definitions and names. -/
theorem append {p : ConstantPool} {ds : List Definition} (hd : p.definitions = s.pool.definitions ++ ds)
    (hn : ∀ k t, s.pool.names.get Strings.cnameDefault k = some t → p.names.get Strings.cnameDefault k = some t) (sc : Scope) :
    Quiet n s { s with pool := p, moduleScope := sc } := by
  refine ⟨?_, hn, fun i d h => ⟨d, ?_, rfl, fun _ => .inl rfl⟩, fun _ h => h, rfl⟩
  · show _ ≤ p.definitions.length
    rw [hd, List.length_append]; exact Nat.le_add_right _ _
  · have h : s.pool.definitions[i.toNat]? = some d := h
    show p.definitions[i.toNat]? = some d
    rw [hd, List.getElem?_append_left (List.getElem?_eq_some_iff.1 h).1]
    exact h

end Quiet

/-- The step is quiet, as long as indexes do not run out, and establishes `Q` when it succeeds. -/
def Hush (n : Nat) (s : DeclState) (m : DeclM α) (Q : DeclState → α → Prop) : Prop :=
  s.pool.names.Reachable Strings.cnameDefault → (m s).2.Room → Quiet n s (m s).2 ∧ ∀ a s', m s = (.ok a, s') → Q s' a

namespace Hush
variable {n : Nat} {s : DeclState}

theorem mono {m : DeclM α} {Q R : DeclState → α → Prop} (h : Hush n s m Q) (hq : ∀ s' a, Quiet n s s' → Q s' a → R s' a) : Hush n s m R :=
  fun hr hl => ⟨(h hr hl).1, fun a s' hm => hq s' a (by have := (h hr hl).1; rw [hm] at this; exact this) ((h hr hl).2 a s' hm)⟩

theorem pure {a : α} {Q : DeclState → α → Prop} (h : Q s a) : Hush n s (Pure.pure a : DeclM α) Q :=
  fun _ _ => ⟨.refl n s, fun b s' hb => by cases hb; exact h⟩

theorem bind {m : DeclM α} {f : α → DeclM β} {Q : DeclState → α → Prop} {R : DeclState → β → Prop} [hg : AddsDefs m] [hgf : ∀ a, AddsDefs (f a)]
    (hm : Hush n s m Q) (hf : ∀ s1 a, Quiet n s s1 → s.Later s1 → Q s1 a → Hush n s1 (f a) R) : Hush n s (m >>= f) R := by
  intro hr hl
  have hb : (m >>= f) s = DeclM.bind m f s := rfl
  rw [hb] at hl ⊢
  unfold DeclM.bind at hl ⊢
  have hm := hm hr
  have hlat := hg.later s
  cases h : m s with
  | mk r s1 =>
    rw [h] at hl hm hlat
    cases r with
    | error e => exact ⟨(hm hl).1, fun a s' ha => by cases ha⟩
    | ok a =>
      have hl' : s1.Room := ((hgf a).later s1).room hl
      have hm := hm hl'
      have h2 := hf s1 a hm.1 hlat (hm.2 a s1 rfl) (hlat.names.reachable hr hl'.names) hl
      exact ⟨hm.1.trans h2.1, h2.2⟩

theorem fail {e : DeclErr} {Q : DeclState → α → Prop} : Hush n s (DeclM.fail e : DeclM α) Q := fun _ _ => ⟨.refl n s, fun b s' hb => by cases hb⟩

theorem read {f : DeclState → α} {Q : DeclState → α → Prop} (h : Q s (f s)) : Hush n s (DeclM.read f) Q :=
  fun _ _ => ⟨.refl n s, fun b s' hb => by cases hb; exact h⟩

theorem readOr {e : DeclErr} {f : DeclState → Option α} {Q : DeclState → α → Prop} (h : ∀ a, f s = some a → Q s a) :
    Hush n s (DeclM.readOr e f) Q := by
  intro _ _
  unfold DeclM.readOr
  cases hf : f s with
  | none => exact ⟨.refl n s, fun b s' hb => by cases hb⟩
  | some a => exact ⟨.refl n s, fun b s' hb => by cases hb; exact h _ hf⟩

/-- Only the diagnostics change. -/
theorem diags (ds : List DeclDiag) : Quiet n s { s with diagnostics := s.diagnostics ++ ds } :=
  ⟨Nat.le_refl _, fun _ _ h => h, fun _ d h => ⟨d, h, rfl, fun _ => .inl rfl⟩, fun _ h => List.mem_append_left _ h, rfl⟩

theorem report {e : DeclErr} : Hush n s (DeclM.report e) fun _ _ => True := by
  intro _ _
  unfold DeclM.report
  cases e with
  | compile c => exact ⟨diags _, fun _ _ _ => trivial⟩
  | cte => exact ⟨diags _, fun _ _ _ => trivial⟩
  | pool => exact ⟨.refl n s, fun _ _ _ => trivial⟩
  | panic => exact ⟨.refl n s, fun _ _ _ => trivial⟩

theorem diagnose {d : DeclDiag} : Hush n s (DeclM.diagnose d) fun s' _ => d ∈ s'.diagnostics :=
  fun _ _ => ⟨diags [d], fun _ _ hb => by cases hb; simp⟩

theorem reporting {m : DeclM α} {Q : DeclState → α → Prop} (hm : Hush n s m Q) :
    Hush n s (DeclM.reporting m) fun s' o => ∀ a, o = some a → Q s' a := by
  intro hr hl
  unfold DeclM.reporting at hl ⊢
  have hm := hm hr
  cases h : m s with
  | mk r s1 =>
    rw [h] at hl hm
    cases r with
    | ok a => exact ⟨(hm hl).1, fun b s' hb c hc => by cases hb; cases hc; exact (hm hl).2 _ _ rfl⟩
    | error e =>
      cases e with
      | compile c => exact ⟨(hm ⟨hl.defs, hl.names⟩).1.trans (diags _), fun b s' hb c hc => by cases hb; cases hc⟩
      | cte => exact ⟨(hm ⟨hl.defs, hl.names⟩).1.trans (diags _), fun b s' hb c hc => by cases hb; cases hc⟩
      | pool => exact ⟨(hm hl).1, fun b s' hb => by cases hb⟩
      | panic => exact ⟨(hm hl).1, fun b s' hb => by cases hb⟩

theorem when {c : Bool} {m : DeclM Unit} {Q : DeclState → Unit → Prop} (h : c = true → Hush n s m Q) (h' : c = false → Q s ()) :
    Hush n s (DeclM.when c m) Q := by
  unfold DeclM.when
  cases c with
  | true => exact h rfl
  | false => exact pure (h' rfl)

theorem whenever {c : Bool} {m : DeclM Unit} (h : Hush n s m fun _ _ => True) : Hush n s (DeclM.when c m) fun _ _ => True :=
  when (fun _ => h) fun _ => trivial

theorem ite {c : Prop} [Decidable c] {m m' : DeclM α} {Q : DeclState → α → Prop} (h : c → Hush n s m Q) (h' : ¬c → Hush n s m' Q) :
    Hush n s (if c then m else m') Q := by
  by_cases hc : c
  · rw [if_pos hc]; exact h hc
  · rw [if_neg hc]; exact h' hc

theorem update {f : DeclState → DeclState} {Q : DeclState → Unit → Prop} (hs : Quiet n s (f s)) (h : Q (f s) ()) :
    Hush n s (DeclM.update f) Q := fun _ _ => ⟨hs, fun b s' hb => by cases hb; exact h⟩

/-- The same pool, diagnostics and scope. -/
theorem _root_.Redscript.Quiet.other {s' : DeclState} (h : s'.pool = s.pool) (h' : s'.diagnostics = s.diagnostics) (h'' : s'.scope = s.scope) : Quiet n s s' :=
  ⟨by unfold DeclState.len; rw [h]; exact Nat.le_refl _, fun _ _ k => by rw [h]; exact k, fun _ d k => ⟨d, by rw [h]; exact k, rfl, fun _ => .inl rfl⟩,
    fun _ k => by rw [h']; exact k, h''⟩

theorem pushRef {i : SourceRef} : Hush n s (DeclM.pushRef i) fun _ _ => True := update (.other rfl rfl rfl) trivial

theorem addName {t : Text} : Hush n s (DeclM.addName t) fun s' i =>
    s'.pool.names.get Strings.cnameDefault i = some (String.ofList t) ∧ s'.pool.definitions = s.pool.definitions := by
  intro hr hl
  have hk : ∀ k u, s.pool.names.get Strings.cnameDefault k = some u →
      (s.pool.names.add Strings.cnameDefault (String.ofList t)).2.get Strings.cnameDefault k = some u :=
    fun k u hu => C11_add_keeps _ _ _ _ _ hu
  have hlen : s.pool.names.strings.length + 1 < 2 ^ 32 := by
    have h1 := Strings.add_le s.pool.names (String.ofList t)
    have h2 : (s.pool.names.add Strings.cnameDefault (String.ofList t)).2.strings.length + 1 < 2 ^ 32 := hl.names
    omega
  refine ⟨Quiet.append (p := { s.pool with names := (s.pool.names.add Strings.cnameDefault (String.ofList t)).2 }) (ds := []) (by simp) hk _, fun a s' ha => ?_⟩
  cases ha
  exact ⟨C11_add_reads_back _ _ hr hlen _, rfl⟩

theorem addDefinition {d : Definition} : Hush n s (DeclM.addDefinition d) fun s' i =>
    i.toNat = s.len ∧ s'.pool.definition i = some d ∧ s'.pool.names = s.pool.names := by
  intro _ hl
  refine ⟨Quiet.append (p := (s.pool.addDefinition d).2) (ds := [d]) rfl (fun _ _ h => h) _, fun a s' ha => ?_⟩
  cases ha
  have hl : (s.pool.definitions ++ [d]).length ≤ 2 ^ 32 := hl.defs
  rw [List.length_append, List.length_singleton] at hl
  have hi : (BitVec.ofNat 32 s.pool.definitions.length).toNat = s.pool.definitions.length := by
    rw [BitVec.toNat_ofNat, Nat.mod_eq_of_lt (by omega)]
  refine ⟨hi, ?_, rfl⟩
  show (s.pool.definitions ++ [d])[(BitVec.ofNat 32 s.pool.definitions.length).toNat]? = some d
  rw [hi]; simp

/-- A new definition with a name. -/
theorem named {t : Text} : Hush n s (DeclM.addName t >>= fun k => DeclM.stub k) fun s' i => s.len ≤ i.toNat ∧ s'.pool.defName i = some t := by
  refine bind addName fun s1 k q1 _ ⟨h1, h2⟩ => mono (R := fun s' i => s.len ≤ i.toNat ∧ s'.pool.defName i = some t) addDefinition
    fun s' i _ ⟨k1, k2, k3⟩ => ⟨?_, ?_⟩
  · rw [k1]; exact q1.size
  · unfold ConstantPool.defName
    rw [k2]
    show Option.map String.toList (s'.pool.names.get Strings.cnameDefault k) = some t
    rw [k3, h1]; simp

theorem nameOf {i : Idx} : Hush n s (DeclM.nameOf i) fun s' k => s' = s ∧ (s.pool.definition i).map (·.name) = some k :=
  readOr fun _ h => ⟨rfl, h⟩

theorem classAt {i : Idx} : Hush n s (DeclM.classAt i) fun s' c => s' = s ∧ s.pool.definitionBy AnyDefinition.asClass i = some c :=
  readOr fun _ h => ⟨rfl, h⟩

theorem put {i : Idx} {d : Definition} (hi : n ≤ i.toNat ∨ ((∀ e, s.pool.definition i = some e → e.value.asClass = none) ∧ d.value.asClass = none))
    (hd : (s.pool.definition i).map (·.name) = some d.name) : Hush n s (DeclM.put i d) fun _ _ => True := by
  intro _ _
  unfold DeclM.put ConstantPool.putDefinition
  by_cases h : i.toNat < s.pool.definitions.length
  · rw [if_pos h]
    refine ⟨⟨?_, fun _ _ h => h, fun j e hj => ?_, fun _ h => h, rfl⟩, fun _ _ _ => trivial⟩
    · show _ ≤ (s.pool.definitions.set i.toNat d).length
      rw [List.length_set]; exact Nat.le_refl _
    · have hj : s.pool.definitions[j.toNat]? = some e := hj
      by_cases hij : i = j
      · subst hij
        refine ⟨d, ?_, ?_, fun hlt => ?_⟩
        · show (s.pool.definitions.set i.toNat d)[i.toNat]? = some d
          rw [List.getElem?_set_self h]
        · have hd : (s.pool.definitions[i.toNat]?).map (·.name) = some d.name := hd
          rw [hj] at hd; exact (Option.some.inj hd).symm
        · rcases hi with hi | ⟨h1, h2⟩
          · omega
          · exact .inr ⟨h1 e hj, h2⟩
      · refine ⟨e, ?_, rfl, fun _ => .inl rfl⟩
        show (s.pool.definitions.set i.toNat d)[j.toNat]? = some e
        rw [List.getElem?_set_ne (fun h => hij (BitVec.eq_of_toNat_eq h))]
        exact hj
  · rw [if_neg h]; exact ⟨.refl n s, fun _ _ _ => trivial⟩

theorem typeIndex {t : TypeId} : Hush n s (typeIndex t) fun _ _ => True := by
  intro hr hl
  unfold Redscript.typeIndex
  cases h : getTypeIndex s.moduleScope s.pool t with
  | error e => cases e <;> exact ⟨.refl n s, fun _ _ _ => trivial⟩
  | ok r =>
    obtain ⟨i, sc, p⟩ := r
    obtain ⟨⟨h1, ds, h2, _⟩, _⟩ := getTypeIndex_adds t h
    exact ⟨Quiet.append h2 (fun k u hu => h1.keeps hu) sc, fun _ _ _ => trivial⟩

theorem tryResolveType {depth : Nat} {t : TypeName} : Hush n s (tryResolveType depth t) fun _ _ => True := by
  intro hr hl
  unfold Redscript.tryResolveType at hl ⊢
  cases h : s.moduleScope.resolveType s.pool depth t with
  | some ty => exact ⟨.refl n s, fun _ _ _ => trivial⟩
  | none =>
    rw [h] at hl
    have hb : Hush n s (DeclM.report (.compile .unresolvedType) >>= fun _ => Pure.pure TypeId.Null) fun _ _ => True :=
      bind report fun _ _ _ _ _ => pure trivial
    exact hb hr hl

theorem defineParams {depth : Nat} {i : Idx} : ∀ {ps : List ParamSource} {s : DeclState}, Hush n s (defineParams depth i ps) fun _ _ => True
  | [], _ => pure trivial
  | p :: ps, s => by
    unfold Redscript.defineParams
    exact bind tryResolveType fun _ _ _ _ _ => bind typeIndex fun _ _ _ _ _ => bind addName fun _ _ _ _ _ =>
      bind addDefinition fun _ _ _ _ _ => bind defineParams fun _ _ _ _ _ => pure trivial

theorem defineReturn {depth : Nat} {t : Option TypeName} : Hush n s (defineReturn depth t) fun _ _ => True := by
  unfold Redscript.defineReturn
  cases t with
  | none => exact pure trivial
  | some t =>
    simp only
    split
    · exact pure trivial
    · exact bind tryResolveType fun _ _ _ _ _ => bind typeIndex fun _ _ _ _ _ => pure trivial

theorem checkFunction {spec : FunctionSpec} : Hush n s (checkFunction spec) fun _ _ => True := by
  unfold Redscript.checkFunction
  exact bind (whenever report) fun _ _ _ _ _ => bind (whenever report) fun _ _ _ _ _ => whenever report

theorem pushBody {spec : FunctionSpec} : Hush n s (pushBody spec) fun s' _ => s'.pool = s.pool := by
  unfold Redscript.pushBody
  cases spec.source.body with
  | none => exact pure rfl
  | some _ => exact update (.other rfl rfl rfl) rfl

theorem pushDefault {i cls : Idx} {f : FieldSource} : Hush n s (pushDefault i cls f) fun s' _ => s'.pool = s.pool := by
  unfold Redscript.pushDefault
  cases f.default with
  | none => exact pure rfl
  | some _ => exact update (.other rfl rfl rfl) rfl

/-- Nothing below `n` that is written is a class. -/
def _root_.Redscript.DeclState.Free (s : DeclState) (n : Nat) (i : Idx) : Prop :=
  n ≤ i.toNat ∨ ∀ e, s.pool.definition i = some e → e.value.asClass = none

theorem _root_.Redscript.DeclState.Free.later {s s' : DeclState} {n : Nat} {i : Idx} (h : s.Free n i) (hn : n ≤ s.len) (q : Quiet n s s') : s'.Free n i := by
  rcases h with h | h
  · exact .inl h
  · by_cases hlt : n ≤ i.toNat
    · exact .inl hlt
    refine .inr fun e he => ?_
    obtain ⟨d, hd⟩ := definition_of_lt (p := s.pool) (i := i) (by unfold DeclState.len at hn; omega)
    obtain ⟨d', h1, _, h2⟩ := q.defs i d hd
    rw [h1] at he; cases he
    rcases h2 (by omega) with rfl | ⟨_, h2⟩
    · exact h _ hd
    · exact h2

theorem defineFunction {depth : Nat} {spec : FunctionSpec} (hi : s.Free n spec.funIdx) (hn : n ≤ s.len) :
    Hush n s (defineFunction depth spec) fun _ _ => True := by
  unfold Redscript.defineFunction
  refine bind checkFunction fun s1 _ q1 _ _ => bind defineReturn fun s2 ret q2 _ _ => bind defineParams fun s3 params q3 _ _ =>
    bind nameOf fun s4 k q4 _ ⟨e, hk⟩ => bind pushBody fun s5 _ q5 _ hp => bind (put ?_ ?_) fun _ _ _ _ _ => pushRef
  · subst e
    have hf := hi.later hn ((q1.trans q2).trans q3)
    unfold DeclState.Free at hf
    rw [hp]
    rcases hf with hf | hf
    · exact .inl hf
    · exact .inr ⟨hf, rfl⟩
  · subst e
    rw [hp]; exact hk

theorem defineField {depth : Nat} {i cls : Idx} {fl : ClassFlags} {v : Visibility} {f : FieldSource} (hi : n ≤ i.toNat) :
    Hush n s (defineField depth i cls fl v f) fun _ _ => True := by
  unfold Redscript.defineField
  refine bind (whenever report) fun _ _ _ _ _ => bind (whenever report) fun _ _ _ _ _ => bind tryResolveType fun _ _ _ _ _ =>
    bind typeIndex fun _ _ _ _ _ => bind (Q := fun _ _ => True) (readOr fun _ _ => trivial) fun _ _ _ _ _ => bind nameOf fun s4 k q4 _ ⟨e, hk⟩ =>
      bind pushDefault fun s5 _ q5 _ hp => bind (put (.inl hi) ?_) fun _ _ _ _ _ => pushRef
  subst e
  rw [hp]; exact hk

theorem defineSourceRef {loc : Option (String × BitVec 32)} : Hush n s (defineSourceRef loc) fun _ _ => True := by
  unfold Redscript.defineSourceRef
  cases loc with
  | none => exact pure trivial
  | some l =>
    obtain ⟨path, line⟩ := l
    intro _ _
    simp only
    cases s.files.find? (fun e => decide (e.1 = path)) with
    | some e => exact ⟨.refl n s, fun _ _ _ => trivial⟩
    | none =>
      refine ⟨⟨?_, fun _ _ h => h, fun i d h => ⟨d, ?_, rfl, fun _ => .inl rfl⟩, fun _ h => h, rfl⟩, fun _ _ _ => trivial⟩
      · show _ ≤ (s.pool.definitions ++ [_]).length
        rw [List.length_append]; exact Nat.le_add_right _ _
      · have h : s.pool.definitions[i.toNat]? = some d := h
        show (s.pool.definitions ++ [_])[i.toNat]? = some d
        rw [List.getElem?_append_left (List.getElem?_eq_some_iff.1 h).1]
        exact h

theorem conditions {cx : DeclCtx} {anns : List Annotation} :
    Hush n s (conditions cx anns) fun s' b => s' = s ∧ evalConditions cx.modules anns = some b := readOr fun _ h => ⟨rfl, h⟩

theorem defineMembers {cx : DeclCtx} {cls : Idx} {fl : ClassFlags} {v : Visibility} {b : Bool} : ∀ {l : List MemberSource} {s : DeclState},
    n ≤ s.len → Hush n s (defineMembers cx cls fl v b l) fun _ _ => True
  | [], _, _ => pure trivial
  | .Function f :: l, s, hn => by
    unfold Redscript.defineMembers
    refine bind conditions fun s1 _ q1 _ _ => ite (fun _ => bind (whenever report) fun s2 _ q2 _ _ => bind addName fun s3 k q3 _ _ =>
      bind (Q := fun s' i => i.toNat = s3.len ∧ _ ∧ _) addDefinition fun s4 i q4 _ ⟨hi, hd, _⟩ => bind defineSourceRef fun s5 _ q5 _ _ =>
        bind (defineFunction ?_ ?_) fun s6 _ q6 _ _ => bind (defineMembers ?_) fun _ _ _ _ _ => pure trivial) fun _ => defineMembers ?_
    · have h1 := q1.size; have h2 := q2.size; have h3 := q3.size
      exact .inl (by show n ≤ i.toNat; omega)
    · have h1 := q1.size; have h2 := q2.size; have h3 := q3.size; have h4 := q4.size; have h5 := q5.size
      omega
    · have h1 := q1.size; have h2 := q2.size; have h3 := q3.size; have h4 := q4.size; have h5 := q5.size; have h6 := q6.size
      omega
    · have h1 := q1.size; omega
  | .Field f :: l, s, hn => by
    unfold Redscript.defineMembers
    refine bind conditions fun s1 _ q1 _ _ => ite (fun _ => bind addName fun s3 k q3 _ _ =>
      bind (Q := fun s' i => i.toNat = s3.len ∧ _ ∧ _) addDefinition fun s4 i q4 _ ⟨hi, hd, _⟩ =>
        bind (defineField ?_) fun s6 _ q6 _ _ => bind (defineMembers ?_) fun _ _ _ _ _ => pure trivial) fun _ => defineMembers ?_
    · have h1 := q1.size; have h3 := q3.size
      omega
    · have h1 := q1.size; have h3 := q3.size; have h4 := q4.size; have h6 := q6.size
      omega
    · have h1 := q1.size; omega

theorem defineBase {c : ClassSource} {b : Bool} : Hush n s (defineBase c b) fun _ _ => True := by
  unfold Redscript.defineBase
  refine ite (fun _ => pure trivial) fun _ => ?_
  cases c.base with
  | none => exact read trivial
  | some base =>
    refine @bind _ _ _ _ _ _ (fun _ _ => True) _ _ (fun a => by split <;> infer_instance) (read trivial) fun s1 a _ _ _ => ?_
    cases a with
    | none => exact bind report fun _ _ _ _ _ => pure trivial
    | some i => exact pure trivial

theorem defineClass {cx : DeclCtx} {i : Idx} {v : Visibility} {c : ClassSource} {b : Bool} (hi : n ≤ i.toNat) (hn : n ≤ s.len) :
    Hush n s (defineClass cx i v c b) fun _ _ => True := by
  unfold Redscript.defineClass
  refine bind (defineMembers hn) fun _ _ _ _ _ => bind defineBase fun _ _ _ _ _ => bind nameOf fun s4 k q4 _ ⟨e, hk⟩ =>
    bind (put (.inl hi) ?_) fun _ _ _ _ _ => pushRef
  subst e; exact hk

theorem defineEnumMembers {i : Idx} : ∀ {l : List (Text × BitVec 64)} {s : DeclState}, Hush n s (defineEnumMembers i l) fun _ _ => True
  | [], _ => pure trivial
  | (x, v) :: l, _ => by
    unfold Redscript.defineEnumMembers
    exact bind addName fun _ _ _ _ _ => bind addDefinition fun _ _ _ _ _ => bind defineEnumMembers fun _ _ _ _ _ => pure trivial

theorem defineEnum {i : Idx} {e : EnumSource} (hi : n ≤ i.toNat) : Hush n s (defineEnum i e) fun _ _ => True := by
  unfold Redscript.defineEnum
  refine bind defineEnumMembers fun _ _ _ _ _ => bind nameOf fun s4 k q4 _ ⟨e, hk⟩ => bind (put (.inl hi) ?_) fun _ _ _ _ _ => pushRef
  subst e; exact hk

theorem annTarget {a : Annotation} : Hush n s (annTarget a) fun s' x => s' = s ∧ a.target = some x := readOr fun _ h => ⟨rfl, h⟩

theorem targetClass {a : Annotation} : Hush n s (targetClass a) fun s' _ => s' = s := by
  unfold Redscript.targetClass
  refine @bind _ _ _ _ _ _ _ _ _ (fun x => @AddsDefs.bind' _ _ _ _ inferInstance fun sym => by split <;> infer_instance) annTarget fun s1 x _ _ ⟨e, _⟩ =>
    @bind _ _ _ _ _ _ (fun s' _ => s' = s1) _ _
      (fun sym => by split <;> infer_instance) (readOr fun sym hsym => rfl) fun s2 sym _ _ e2 => ?_
  subst e; subst e2
  cases sym with
  | Class cls w => exact pure rfl
  | Struct cls w => exact pure rfl
  | Enum _ => exact fail
  | Functions _ => exact fail

theorem targetMethod {cls : Idx} {name sig : Text} : Hush n s (targetMethod cls name sig) fun s' f => s' = s ∧ s.pool.defName f = some sig ∧
    ∃ c, s.pool.definitionBy AnyDefinition.asClass cls = some c ∧ f ∈ c.functions := by
  intro _ _
  unfold Redscript.targetMethod
  cases hd : directMethods s.pool name cls with
  | none => exact ⟨.refl n s, fun a s' ha => by cases ha⟩
  | some fs =>
    simp only
    cases hb : byId s.pool sig fs with
    | none => exact ⟨.refl n s, fun a s' ha => by cases ha⟩
    | some f =>
      refine ⟨.refl n s, fun a s' ha => ?_⟩
      cases ha
      obtain ⟨h1, h2⟩ := byId_mem hb
      obtain ⟨c, h3, h4⟩ := directMethods_mem hd
      exact ⟨rfl, h2, c, h3, h4 f h1⟩

theorem addedBase {c : ClassDef} {sig : Text} : Hush n s (addedBase c sig) fun s' _ => s' = s := by
  unfold Redscript.addedBase
  exact ite (fun _ => bind classAt fun _ _ _ _ ⟨e, _⟩ => readOr fun _ _ => e) fun _ => pure rfl

theorem ownSymbols {path : ModulePath} : Hush n s (ownSymbols path) fun _ _ => True := by
  unfold Redscript.ownSymbols
  refine ite (fun _ => pure trivial) fun _ => update ?_ trivial
  cases h : s.symbols.populateImport (.All path) .priv s.moduleScope with
  | error e => exact .refl n s
  | ok sc => exact .other rfl rfl rfl

theorem importOne {imp : Import} : Hush n s (importOne imp) fun _ _ => True := by
  intro hr hl
  unfold Redscript.importOne at hl ⊢
  cases h : s.symbols.populateImport imp .pub s.moduleScope with
  | ok sc => exact ⟨.other rfl rfl rfl, fun _ _ _ => trivial⟩
  | error e =>
    rw [h] at hl
    obtain ⟨h1, h2⟩ := report (n := n) (s := { s with moduleScope := s.symbols.importKept .pub s.moduleScope imp }) (e := e.toDecl) hr hl
    exact ⟨Quiet.trans (s' := { s with moduleScope := s.symbols.importKept .pub s.moduleScope imp }) (.other rfl rfl rfl) h1, h2⟩

theorem importAll {cx : DeclCtx} : ∀ {is : List (Import × List Annotation)} {s : DeclState}, Hush n s (importAll cx is) fun _ _ => True
  | [], _ => pure trivial
  | (imp, anns) :: is, _ => by
    unfold Redscript.importAll
    exact bind conditions fun _ _ _ _ _ => bind (whenever importOne) fun _ _ _ _ _ => importAll

theorem parentFlags {i : Idx} : Hush n s (parentFlags i) fun _ _ => True := by
  unfold Redscript.parentFlags
  exact ite (fun _ => bind classAt fun _ _ _ _ _ => pure trivial) fun _ => pure trivial

end Hush
end Redscript
