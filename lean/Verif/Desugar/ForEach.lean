import Verif.Desugar.BelowProps

/-!
# C30: a loop over an array visits its elements, whatever the body
-/

namespace Redscript

section
variable {V S A : Type} {W : DsWorld V S A} {zero : Literal → Text} {p : Idx → Bool}

/-- These variables have the same content. -/
def SameIn (p : Idx → Bool) (σ σ' : Idx → V) : Prop := ∀ l : Idx, p l = true → σ l = σ' l

/-- The same ending but for the variables outside `p`. -/
inductive SameEnd (p : Idx → Bool) : Ending (CellVal V) (S × (Idx → V)) A → Ending (CellVal V) (S × (Idx → V)) A → Prop
  | normal {s : S} {σ σ' : Idx → V} : SameIn p σ σ' → SameEnd p (.normal (s, σ)) (.normal (s, σ'))
  | broke {s : S} {σ σ' : Idx → V} : SameIn p σ σ' → SameEnd p (.broke (s, σ)) (.broke (s, σ'))
  | returned {x : Option (CellVal V)} {s : S} {σ σ' : Idx → V} : SameIn p σ σ' → SameEnd p (.returned x (s, σ)) (.returned x (s, σ'))
  | aborted {a : A} : SameEnd p (.aborted a) (.aborted a)

/-- Each ending on one side is one on the other but for the variables outside `p`. -/
def SameEnds (p : Idx → Bool) (R R' : Ending (CellVal V) (S × (Idx → V)) A → Prop) : Prop :=
  (∀ o, R o → ∃ o', R' o' ∧ SameEnd p o o') ∧ ∀ o', R' o' → ∃ o, R o ∧ SameEnd p o o'

/-- What a loop over an array is to do: the array is evaluated once; then for each element it has then, in
order, the element is assigned to the variable and the body is run. -/
def ForEach (W : DsWorld V S A) (zero : Literal → Text) (x : Idx) (array : TypedExpr) (body : List TypedExpr) (t : S × (Idx → V))
    (o : Ending (CellVal V) (S × (Idx → V)) A) : Prop :=
  Using (evalE W.env W.J array t)
    (fun v t o => Visit (fun y => Then (fun t o => Effected (assignLocal W.J x y t) o) (ExecAll W.env zero W.J body))
      ((W.U.items (W.U.load (v.read t.2) t.1)).map .val) t o) o

theorem SameIn.merge {σ σ' : Idx → V} (h : SameIn p σ σ') : mergeCells p σ σ' = σ' := by
  funext l
  unfold mergeCells
  split
  · exact h l (by assumption)
  · rfl

theorem SameIn.symm {σ σ' : Idx → V} (h : SameIn p σ σ') : SameIn p σ' σ := fun l hl => (h l hl).symm

theorem SameEnd.symm {o o' : Ending (CellVal V) (S × (Idx → V)) A} (h : SameEnd p o o') : SameEnd p o' o := by
  cases h with
  | normal h => exact .normal h.symm
  | broke h => exact .broke h.symm
  | returned h => exact .returned h.symm
  | aborted => exact .aborted

theorem SameEnd.catchBreak {o o' : Ending (CellVal V) (S × (Idx → V)) A} (h : SameEnd p o o') : SameEnd p o.catchBreak o'.catchBreak := by
  cases h with
  | normal h => exact .normal h
  | broke h => exact .normal h
  | returned h => exact .returned h
  | aborted => exact .aborted

theorem SameEnd.not_normal {o o' : Ending (CellVal V) (S × (Idx → V)) A} (h : SameEnd p o o') (hn : ∀ t, o ≠ .normal t) :
    ∀ t, o' ≠ .normal t := by
  cases h with
  | normal h => exact absurd rfl (hn _)
  | broke h => nofun
  | returned h => nofun
  | aborted => nofun

/-- The ending of a body in states that agree on the variables in `p`; the others are not changed. -/
theorem body_same {body : List TypedExpr} (hb : Expr.allIn p body = true) {s : S} {σ σ' : Idx → V} (h : SameIn p σ σ')
    {o : Ending (CellVal V) (S × (Idx → V)) A} (ho : ExecAll W.env zero W.J body (s, σ) o) :
    ∃ o', ExecAll W.env zero W.J body (s, σ') o' ∧ SameEnd p o o' ∧ (∀ t, o = .normal t → HighSame p σ t.2) ∧ ∀ t, o' = .normal t → HighSame p σ' t.2 := by
  obtain ⟨o', h1, h2⟩ := execAll_blind (p := p) σ' ho hb
  dsimp only at h1 h2
  rw [h.merge] at h1
  refine ⟨o', h1, ?_, ?_, ?_⟩
  · cases h2 with
    | normal h2 => exact .normal fun l hl => (mergeCells_low hl).symm
    | broke h2 => exact .broke fun l hl => (mergeCells_low hl).symm
    | returned _ h2 => exact .returned fun l hl => (mergeCells_low hl).symm
    | aborted => exact .aborted
  · rintro t rfl
    cases h2 with
    | normal h2 => exact h2
  · rintro t rfl
    cases h2 with
    | normal h2 => exact fun l hl => mergeCells_high hl

variable {a m b : Nat} {arr cnt x : Idx} {ty : TypeId}

/-- What follows the assignment of an element; both sides. -/
theorem forEach_assign (hW : W.Laws) (hv : LoopVars W a m b arr cnt ty) (hx : x.toNat < W.start) {v0 y : V} {s0 : S} {k : Nat} {s : S} {σ σ2 : Idx → V}
    (h1 : σ arr = W.U.load v0 s0) (h2 : σ cnt = W.M.const (.I32 (BitVec.ofNat 32 k)))
    (hy : (W.U.items (W.U.load v0 s0))[k]? = some y) :
    ∃ r : Except A (V × S), (∀ o, Exec W.env zero W.J (.Assign (useLocal x) (.ArrayElem (useLocal arr) (useLocal cnt))) (s, σ) o ↔
        (∃ v s1, r = .ok (v, s1) ∧ o = .normal (s1, σ)) ∨ ∃ c, r = .error c ∧ o = .aborted c) ∧
      ∀ o : Ending (CellVal V) (S × (Idx → V)) A, Effected (assignLocal W.J x (.val y) (s, σ2)) o ↔
        (∃ v s1, r = .ok (v, s1) ∧ o = .normal (s1, σ2)) ∨ ∃ c, r = .error c ∧ o = .aborted c := by
  have n1 := hv.start; have n2 := hv.le; have n3 := hv.first; have n4 := hv.second
  obtain ⟨p, hp1, _, hp2⟩ := evalE_local_old hW hx
  have he : evalE W.env W.J (.ArrayElem (useLocal arr) (useLocal cnt)) (s, σ) =
      .ok (.elem arr (W.M.const (.I32 (BitVec.ofNat 32 k))) y, (s, σ)) := by
    rw [evalE.eq_def]
    dsimp only
    rw [hv.ty]
    dsimp only
    rw [evalE_local_new (by omega)]
    dsimp only [Res.bind]
    rw [evalE_local_new (by omega)]
    show Res.ofExcept (match W.I.prim (.element ty) [σ arr, σ cnt] s with
      | .ok (v, s) => .ok (CellVal.elem arr (σ cnt) v, (s, σ))
      | .error a => .error a) = _
    rw [h1, h2, hW.get _ _ _ _ _ _ hy]
    rfl
  refine ⟨W.I.prim .assign [p, y] s, fun o => ?_, fun o => ?_⟩
  · have : evalE W.env W.J (.Assign (useLocal x) (.ArrayElem (useLocal arr) (useLocal cnt))) (s, σ) =
        Res.ofExcept (liftCell σ (W.I.prim .assign [p, y] s)) := by
      rw [evalE, hp1]
      dsimp only [Res.bind]
      rw [he]
      rfl
    rw [exec_expr_using rfl, this]
    cases W.I.prim .assign [p, y] s with
    | ok r =>
      constructor
      · rintro (⟨_, _, h, rfl⟩ | ⟨_, h, _⟩) <;> cases h
        exact .inl ⟨_, _, rfl, rfl⟩
      · rintro (⟨_, _, h, rfl⟩ | ⟨_, h, _⟩) <;> cases h
        exact .inl ⟨_, _, rfl, rfl⟩
    | error c =>
      constructor
      · rintro (⟨_, _, h, rfl⟩ | ⟨_, h, rfl⟩) <;> cases h
        exact .inr ⟨_, rfl, rfl⟩
      · rintro (⟨_, _, h, rfl⟩ | ⟨_, h, rfl⟩) <;> cases h
        exact .inr ⟨_, rfl, rfl⟩
  · have : assignLocal W.J x (.val y) (s, σ2) = (Res.ofExcept (liftCell σ2 (W.I.prim .assign [p, y] s))).bind fun (_, s) => .ok s := by
      have h := hp1 (s, σ2)
      rw [evalE] at h
      rw [assignLocal, h]
      rfl
    rw [this]
    cases W.I.prim .assign [p, y] s with
    | ok r =>
      constructor
      · rintro (⟨_, h, rfl⟩ | ⟨_, h, _⟩) <;> cases h
        exact .inl ⟨_, _, rfl, rfl⟩
      · rintro (⟨_, _, h, rfl⟩ | ⟨_, h, _⟩) <;> cases h
        exact .inl ⟨_, rfl, rfl⟩
    | error c =>
      constructor
      · rintro (⟨_, h, rfl⟩ | ⟨_, h, rfl⟩) <;> cases h
        exact .inr ⟨_, rfl, rfl⟩
      · rintro (⟨_, _, h, rfl⟩ | ⟨_, h, rfl⟩) <;> cases h
        exact .inr ⟨_, rfl, rfl⟩

/-- The rest of the loop does the rest of the visits. -/
theorem forEach_loop (hW : W.Laws) (hv : LoopVars W a m b arr cnt ty) (hx : x.toNat < W.start) {less add : Idx} (hless : W.D.less = .ok less)
    (hadd : W.D.assignAdd = .ok add) {intTy : TypeId} {body : List TypedExpr} (hb : Expr.allIn (fun l => decide (l.toNat < m)) body = true) {v0 : V} {s0 : S} :
    ∀ (r k : Nat), k + r = (W.U.items (W.U.load v0 s0)).length → ∀ s σ σ2, σ arr = W.U.load v0 s0 →
      σ cnt = W.M.const (.I32 (BitVec.ofNat 32 k)) → SameIn (fun l => decide (l.toNat < m)) σ σ2 →
      SameEnds (fun l => decide (l.toNat < m)) (Exec W.env zero W.J (forInLoop x arr cnt intTy add less body) (s, σ))
        (Visit (fun y => Then (fun t o => Effected (assignLocal W.J x y t) o) (ExecAll W.env zero W.J body))
          (((W.U.items (W.U.load v0 s0)).drop k).map .val) (s, σ2)) := by
  have n1 := hv.start; have n2 := hv.le; have n3 := hv.first; have n4 := hv.second; have n5 := hv.last
  have hne : arr ≠ cnt := by rintro rfl; omega
  have hfew := hW.few v0 s0
  intro r
  induction r with
  | zero =>
    intro k hk s σ σ2 h1 h2 hs
    obtain ⟨v, he, ht⟩ := forIn_cond hW hv hless intTy (s := s) (by omega) h1 h2
    rw [decide_eq_false (by omega)] at ht
    have conv : ∀ o, Exec W.env zero W.J (forInLoop x arr cnt intTy add less body) (s, σ) o ↔ o = .normal (s, σ) := by
      intro o
      rw [forInLoop, exec_while_iff, loop_iff, he]
      constructor
      · rintro (⟨_, _, h, ⟨h', _⟩ | ⟨_, h'⟩⟩ | ⟨_, h, _⟩)
        · cases h
          exact absurd (show W.I.truth v s = true from h') (by rw [ht]; simp)
        · cases h; exact h'
        · cases h
      · intro h
        exact .inl ⟨_, _, rfl, .inr ⟨ht, h⟩⟩
    rw [List.drop_eq_nil_of_le (by omega)]
    refine ⟨fun o ho => ?_, fun o ho => ?_⟩
    · rw [conv] at ho
      cases ho
      exact ⟨_, rfl, .normal hs⟩
    · cases ho
      exact ⟨_, (conv _).2 rfl, .normal hs⟩
  | succ r ih =>
    intro k hk s σ σ2 h1 h2 hs
    obtain ⟨v, he, ht⟩ := forIn_cond hW hv hless intTy (s := s) (by omega) h1 h2
    rw [decide_eq_true (by omega)] at ht
    have hkl : k < (W.U.items (W.U.load v0 s0)).length := by omega
    have hy : (W.U.items (W.U.load v0 s0))[k]? = some (W.U.items (W.U.load v0 s0))[k] := List.getElem?_eq_getElem hkl
    generalize hyy : (W.U.items (W.U.load v0 s0))[k] = y at hy
    have hdrop : (W.U.items (W.U.load v0 s0)).drop k = y :: (W.U.items (W.U.load v0 s0)).drop (k + 1) := by
      rw [List.drop_eq_getElem_cons hkl, hyy]
    rw [hdrop, List.map_cons]
    obtain ⟨q, q1, q2⟩ := forEach_assign (zero := zero) (σ2 := σ2) hW hv hx h1 h2 hy (s := s)
    -- the body with the assignment and without counting
    have hstep1 : ∀ o, ExecAll W.env zero W.J (.Assign (useLocal x) (.ArrayElem (useLocal arr) (useLocal cnt)) :: body) (s, σ) o →
        ∃ o', Then (fun t o => Effected (assignLocal W.J x (.val y) t) o) (ExecAll W.env zero W.J body) (s, σ2) o' ∧ SameEnd (fun l => decide (l.toNat < m)) o o' ∧
          ∀ t, o = .normal t → HighSame (fun l => decide (l.toNat < m)) σ t.2 := by
      intro o ho
      rw [execAll_cons_iff] at ho
      rcases ho with ⟨t, h3, h4⟩ | ⟨h3, h4⟩
      · rcases (q1 _).1 h3 with ⟨w, s1, hq, h5⟩ | ⟨c, hq, h5⟩
        · cases h5
          obtain ⟨o', h6, h7, h8, _⟩ := body_same hb hs h4
          exact ⟨o', .inl ⟨_, (q2 _).2 (.inl ⟨_, _, hq, rfl⟩), h6⟩, h7, h8⟩
        · cases h5
      · rcases (q1 _).1 h3 with ⟨w, s1, hq, h5⟩ | ⟨c, hq, h5⟩
        · exact absurd h5 (h4 _)
        · cases h5
          exact ⟨_, .inr ⟨(q2 _).2 (.inr ⟨_, hq, rfl⟩), nofun⟩, .aborted, nofun⟩
    have hstep2 : ∀ o', Then (fun t o => Effected (assignLocal W.J x (.val y) t) o) (ExecAll W.env zero W.J body) (s, σ2) o' →
        ∃ o, ExecAll W.env zero W.J (.Assign (useLocal x) (.ArrayElem (useLocal arr) (useLocal cnt)) :: body) (s, σ) o ∧ SameEnd (fun l => decide (l.toNat < m)) o o' ∧
          ∀ t, o = .normal t → HighSame (fun l => decide (l.toNat < m)) σ t.2 := by
      intro o' ho
      rcases ho with ⟨t, h3, h4⟩ | ⟨h3, h4⟩
      · rcases (q2 _).1 h3 with ⟨w, s1, hq, h5⟩ | ⟨c, hq, h5⟩
        · cases h5
          obtain ⟨o, h6, h7, _, h8⟩ := body_same hb hs.symm h4
          exact ⟨o, execAll_cons_iff.2 (.inl ⟨_, (q1 _).2 (.inl ⟨_, _, hq, rfl⟩), h6⟩), h7.symm, h8⟩
        · cases h5
      · rcases (q2 _).1 h3 with ⟨w, s1, hq, h5⟩ | ⟨c, hq, h5⟩
        · exact absurd h5 (h4 _)
        · cases h5
          exact ⟨_, execAll_cons_iff.2 (.inr ⟨(q1 _).2 (.inr ⟨_, hq, rfl⟩), nofun⟩), .aborted, nofun⟩
    -- with counting
    have hfull : ∀ o', ExecAll W.env zero W.J (.Assign (useLocal x) (.ArrayElem (useLocal arr) (useLocal cnt)) ::
        (body ++ [.Call (.Function add) [] [useLocal cnt, .Constant (.I32 1)]])) (s, σ) o' ↔
          Then (ExecAll W.env zero W.J (.Assign (useLocal x) (.ArrayElem (useLocal arr) (useLocal cnt)) :: body))
            (ExecAll W.env zero W.J [.Call (.Function add) [] [useLocal cnt, .Constant (.I32 1)]]) (s, σ) o' := by
      intro o'
      rw [← execAll_append_then]
      rfl
    have hkeep : ∀ σ1, HighSame (fun l => decide (l.toNat < m)) σ σ1 → σ1 arr = W.U.load v0 s0 ∧ σ1 cnt = W.M.const (.I32 (BitVec.ofNat 32 k)) := fun σ1 hf =>
      ⟨(hf arr (decide_eq_false (by omega))).trans h1, (hf cnt (decide_eq_false (by omega))).trans h2⟩
    have hih : ∀ s1 σ1 σ2, HighSame (fun l => decide (l.toNat < m)) σ σ1 → SameIn (fun l => decide (l.toNat < m)) σ1 σ2 → _ := fun s1 σ1 σ2 hf hs' =>
      ih (k + 1) (by omega) s1 (setCell σ1 cnt (W.M.const (.I32 (BitVec.ofNat 32 (k + 1))))) σ2
        ((setCell_other hne).trans (hkeep σ1 hf).1) (setCell_same _ _ _)
        (fun l hl => by have hl' := of_decide_eq_true hl; rw [setCell_other (by rintro rfl; omega)]; exact hs' l hl)
    have conv : ∀ o', Exec W.env zero W.J (forInLoop x arr cnt intTy add less body) (s, σ) o' ↔ _ := fun o' => by
      rw [forInLoop, exec_while_iff, loop_iff, he]
    refine ⟨fun o ho => ?_, fun o' ho => ?_⟩
    · rw [conv] at ho
      rcases ho with ⟨_, _, h, ⟨_, ⟨t, hB, hL⟩ | ⟨o1, hB, hn, rfl⟩⟩ | ⟨h', _⟩⟩ | ⟨_, h, _⟩
      · cases h
        rcases (hfull _).1 hB with ⟨⟨s1, σ1⟩, hB1, hB2⟩ | ⟨_, hn⟩
        · obtain ⟨o', ho, ha, hh⟩ := hstep1 _ hB1
          cases ha with
          | @normal _ _ σ3 hs' =>
            have hf := hh _ rfl
            rw [forIn_next hW hv hadd (hkeep σ1 hf).2] at hB2
            cases hB2
            obtain ⟨o', ho2, ha2⟩ := (hih s1 σ1 σ3 hf hs').1 o (by rw [forInLoop, exec_while_iff]; exact hL)
            exact ⟨o', .inl ⟨_, ho, ho2⟩, ha2⟩
        · exact absurd rfl (hn _)
      · cases h
        rcases (hfull _).1 hB with ⟨⟨s1, σ1⟩, hB1, hB2⟩ | ⟨hB1, _⟩
        · obtain ⟨o', ho, ha, hh⟩ := hstep1 _ hB1
          have hf := hh _ rfl
          rw [forIn_next hW hv hadd (hkeep σ1 hf).2] at hB2
          exact absurd hB2 (hn _)
        · obtain ⟨o', ho, ha, _⟩ := hstep1 _ hB1
          exact ⟨o'.catchBreak, .inr ⟨o', ho, ha.not_normal hn, rfl⟩, ha.catchBreak⟩
      · cases h
        exact absurd (show W.I.truth v s = false from h') (by rw [ht]; simp)
      · cases h
    · rcases ho with ⟨⟨s1, σ3⟩, h3, h4⟩ | ⟨o1, h3, hn, rfl⟩
      · obtain ⟨o, h5, ha, hh⟩ := hstep2 _ h3
        cases ha with
        | @normal _ σ1 _ hs' =>
          have hf := hh _ rfl
          obtain ⟨o, h6, ha2⟩ := (hih s1 σ1 σ3 hf hs').2 o' h4
          rw [forInLoop, exec_while_iff] at h6
          refine ⟨o, (conv o).2 (.inl ⟨_, _, rfl, .inl ⟨ht, .inl ⟨_, (hfull _).2 (.inl ⟨_, h5, ?_⟩), h6⟩⟩⟩), ha2⟩
          rw [forIn_next hW hv hadd (hkeep σ1 hf).2]
      · obtain ⟨o, h5, ha, _⟩ := hstep2 _ h3
        have hn' := ha.symm.not_normal hn
        exact ⟨o.catchBreak, (conv _).2 (.inl ⟨_, _, rfl, .inl ⟨ht, .inr ⟨o, (hfull _).2 (.inr ⟨h5, hn'⟩), hn', rfl⟩⟩⟩), ha.catchBreak⟩

/-- The set-up of the loop, and the loop. -/
theorem forEach_setup (hW : W.Laws) (ha : W.start ≤ arr.toNat) (hc : W.start ≤ cnt.toNat) {array loop : TypedExpr} {t : S × (Idx → V)}
    {o : Ending (CellVal V) (S × (Idx → V)) A} :
    ExecAll W.env zero W.J (forInSetup arr cnt array ++ [loop]) t o ↔ Using (evalE W.env W.J array t)
      (fun z t o => Exec W.env zero W.J loop (t.1, setCell (setCell t.2 arr (W.U.load (z.read t.2) t.1)) cnt (W.M.const (.I32 0))) o) o := by
  show ExecAll W.env zero W.J (_ :: _ :: [_]) t o ↔ _
  rw [execAll_cons_iff]
  simp only [exec_set ha]
  have h2 : ∀ t o, ExecAll W.env zero W.J [.Assign (useLocal cnt) (.Constant (.I32 0)), loop] t o ↔
      Exec W.env zero W.J loop (t.1, setCell t.2 cnt (W.M.const (.I32 0))) o := by
    intro t o
    rw [execAll_cons_iff]
    simp only [exec_set hc, execAll_one, evalE_const hW]
    constructor
    · rintro (⟨_, ⟨_, _, h, h'⟩ | ⟨_, h, _⟩, h2⟩ | ⟨⟨_, _, h, h'⟩ | ⟨_, h, h'⟩, h2⟩)
      · cases h; cases h'
        rw [CellVal.read, hW.loadConst] at h2
        exact h2
      · cases h
      · exact absurd h' (h2 _)
      · cases h
    · intro h
      refine .inl ⟨_, .inl ⟨_, _, rfl, rfl⟩, ?_⟩
      rw [CellVal.read, hW.loadConst]
      exact h
  simp only [h2]
  constructor
  · rintro (⟨_, ⟨v, t1, h, h'⟩ | ⟨_, h, h'⟩, h2⟩ | ⟨⟨_, _, h, h'⟩ | ⟨c, h, h'⟩, h2⟩)
    · cases h'
      exact .inl ⟨v, t1, h, h2⟩
    · cases h'
    · exact absurd h' (h2 _)
    · exact .inr ⟨c, h, h'⟩
  · rintro (⟨v, t1, h, h'⟩ | ⟨c, h, rfl⟩)
    · exact .inl ⟨_, .inl ⟨v, t1, h, rfl⟩, h'⟩
    · exact .inr ⟨.inr ⟨c, h, rfl⟩, nofun⟩

/-- **C30**: the code for `for x in array { body }` is one set-up and one loop. It runs the set-up of the array
expression and then does as `ForEach` says with the desugared array and body: the array is evaluated once, and
for each element it has then, in order, the element is assigned to `x` and the body is run; a `break` leaves the
loop. The endings are the same but for the variables added last. The body is any body of the source. -/
theorem C30_for_in_visits_every_element_once_in_order (hW : W.Laws) {array : TypedExpr} {body : List TypedExpr} {loop : TypedExpr} {st st' : DsState}
    (hx : x.toNat < W.start) (hb : Expr.allIn (fun l => decide (l.toNat < W.start)) body = true) (hst : W.start ≤ st.next) (hp : st.pending = []) (ht : Typed W.Q st')
    (hd : dsExpr W.D (.ForIn x array body) st = .ok (loop, st')) :
    ∃ array' body' st1 st2, dsSeq W.D body st = .ok (body', st1) ∧ dsExpr W.D array st1 = .ok (array', st2) ∧
      ∀ s σ, SameEnds (fun l => decide (l.toNat < st1.next)) (ExecAll W.env zero W.J (st'.pending ++ [loop]) (s, σ))
        (Then (ExecAll W.env zero W.J st2.pending) (ForEach W zero x array' body') (s, σ)) := by
  rw [dsExpr] at hd
  obtain ⟨⟨b', st1⟩, d1, hd⟩ := except_bind_ok hd
  obtain ⟨⟨a', st2⟩, d2, hd⟩ := except_bind_ok hd
  dsimp only at d2 hd
  split at hd
  · cases hd
  rename_i ty hty
  obtain ⟨⟨arr, st3⟩, d3, hd⟩ := except_bind_ok hd
  obtain ⟨int, d4, hd⟩ := except_bind_ok hd
  obtain ⟨⟨cnt, st4⟩, d5, hd⟩ := except_bind_ok hd
  obtain ⟨add, d6, hd⟩ := except_bind_ok hd
  obtain ⟨less, d7, hd⟩ := except_bind_ok hd
  cases hd
  dsimp only at d5 ⊢
  refine ⟨a', b', st1, st2, d1, d2, fun s σ => ?_⟩
  have ht4 : Typed W.Q st4 := ht
  have ht3 := ht4.mono (fresh_grows hW.grows d5)
  have n1 : st.next ≤ st1.next := (dsSeq_grows hW.grows body d1).next
  have n2 : st1.next ≤ st2.next := (dsExpr_grows hW.grows array d2).next
  obtain ⟨a1, a2, a3, _⟩ := dsFresh_ok hW.grows d3
  obtain ⟨c1, c2, c3, _⟩ := dsFresh_ok hW.grows d5
  have hv : LoopVars W st.next st1.next st4.next arr cnt ty :=
    ⟨hst, n1, by omega, by omega, by omega, by rw [hW.types]; exact ht3.fresh hW.grows d3⟩
  have hbb := (dsSeq_in (p := fun l => decide (l.toNat < st1.next)) hW.grows body
    (allIn_mono (fun l hl => by have := of_decide_eq_true hl; exact decide_eq_true (by omega)) body hb)
    (by rw [hp]; rfl) (fun l _ h => decide_eq_true h) d1).1
  rw [c3, a3, List.append_assoc]
  have hne : arr ≠ cnt := by rintro rfl; omega
  have main : ∀ (z : CellVal V) (t : S × (Idx → V)), SameEnds (fun l => decide (l.toNat < st1.next))
      (Exec W.env zero W.J (forInLoop x arr cnt int add less b')
        (t.1, setCell (setCell t.2 arr (W.U.load (z.read t.2) t.1)) cnt (W.M.const (.I32 0))))
      (Visit (fun y => Then (fun t o => Effected (assignLocal W.J x y t) o) (ExecAll W.env zero W.J b'))
        ((W.U.items (W.U.load (z.read t.2) t.1)).map .val) t) := by
    intro z t
    refine forEach_loop hW hv hx d7 d6 hbb _ 0 (Nat.zero_add _) t.1 _ t.2 ?_ (setCell_same _ _ _) ?_
    · rw [setCell_other hne, setCell_same]
    · intro l hl
      have hl := of_decide_eq_true hl
      rw [setCell_other (by rintro rfl; omega), setCell_other (by rintro rfl; omega)]
  have same : ∀ o : Ending (CellVal V) (S × (Idx → V)) A, SameEnd (fun l => decide (l.toNat < st1.next)) o o := by
    intro o
    cases o with
    | normal t => exact .normal fun _ _ => rfl
    | broke t => exact .broke fun _ _ => rfl
    | returned v t => exact .returned fun _ _ => rfl
    | aborted c => exact .aborted
  have part : ∀ t, SameEnds (fun l => decide (l.toNat < st1.next)) (ExecAll W.env zero W.J (forInSetup arr cnt a' ++ [forInLoop x arr cnt int add less b']) t)
      (ForEach W zero x a' b' t) := by
    intro t
    refine ⟨fun o ho => ?_, fun o' ho => ?_⟩
    · rw [forEach_setup hW (by omega) (by omega)] at ho
      rcases ho with ⟨z, t1, h1, h2⟩ | ⟨c, h1, rfl⟩
      · obtain ⟨o', h3, h4⟩ := (main z t1).1 o h2
        exact ⟨o', .inl ⟨z, t1, h1, h3⟩, h4⟩
      · exact ⟨_, .inr ⟨c, h1, rfl⟩, .aborted⟩
    · rcases ho with ⟨z, t1, h1, h2⟩ | ⟨c, h1, rfl⟩
      · obtain ⟨o, h3, h4⟩ := (main z t1).2 o' h2
        exact ⟨o, (forEach_setup hW (by omega) (by omega)).2 (.inl ⟨z, t1, h1, h3⟩), h4⟩
      · exact ⟨_, (forEach_setup hW (by omega) (by omega)).2 (.inr ⟨c, h1, rfl⟩), .aborted⟩
  refine ⟨fun o ho => ?_, fun o' ho => ?_⟩
  · rw [execAll_append_then] at ho
    rcases ho with ⟨t, h1, h2⟩ | ⟨h1, h2⟩
    · obtain ⟨o', h3, h4⟩ := (part t).1 o h2
      exact ⟨o', .inl ⟨t, h1, h3⟩, h4⟩
    · exact ⟨o, .inr ⟨h1, h2⟩, same o⟩
  · rcases ho with ⟨t, h1, h2⟩ | ⟨h1, h2⟩
    · obtain ⟨o, h3, h4⟩ := (part t).2 o' h2
      exact ⟨o, execAll_append_then.2 (.inl ⟨t, h1, h3⟩), h4⟩
    · exact ⟨o', execAll_append_then.2 (.inr ⟨h1, h2⟩), same o'⟩

end

end Redscript
