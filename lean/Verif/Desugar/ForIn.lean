import Verif.Desugar.Stmts

/-!
# Desugared loops over arrays
-/

namespace Redscript

section
variable {V S A : Type} {W : DsWorld V S A} {zero : Literal → Text}

/-- The variables of a loop over an array. -/
structure LoopVars (W : DsWorld V S A) (a m b : Nat) (arr cnt : Idx) (ty : TypeId) : Prop where
  start : W.start ≤ a
  le : a ≤ m
  first : m ≤ arr.toNat
  second : arr.toNat < cnt.toNat
  last : cnt.toNat < b
  ty : W.env.typeOf (useLocal arr) = .ok ty

theorem setCell_same (σ : Idx → V) (l : Idx) (v : V) : setCell σ l v l = v := if_pos rfl

theorem setCell_other {σ : Idx → V} {l l' : Idx} {v : V} (h : l' ≠ l) : setCell σ l v l' = σ l' := if_neg h

/-- Assigning to an added variable. -/
theorem exec_set {l : Idx} (hl : W.start ≤ l.toNat) {e : TypedExpr} {t : S × (Idx → V)} {o : Ending (CellVal V) (S × (Idx → V)) A} :
    Exec W.env zero W.J (.Assign (useLocal l) e) t o ↔
      Using (evalE W.env W.J e t) (fun x t o => o = .normal (t.1, setCell t.2 l (W.U.load (x.read t.2) t.1))) o := by
  have h : evalE W.env W.J (.Assign (useLocal l) e) t =
      (evalE W.env W.J e t).bind fun x => .ok (.val (x.1.read x.2.2), (x.2.1, setCell x.2.2 l (W.U.load (x.1.read x.2.2) x.2.1))) := by
    rw [evalE, evalE_local_new hl]
    rfl
  rw [exec_expr_using rfl, h]
  cases evalE W.env W.J e t with
  | ok x =>
    constructor
    · rintro (⟨_, _, h, rfl⟩ | ⟨_, h, rfl⟩) <;> cases h
      exact .inl ⟨_, _, rfl, rfl⟩
    · rintro (⟨_, _, h, rfl⟩ | ⟨_, h, rfl⟩) <;> cases h
      exact .inl ⟨_, _, rfl, rfl⟩
  | abort c =>
    constructor
    · rintro (⟨_, _, h, rfl⟩ | ⟨_, h, rfl⟩) <;> cases h
      exact .inr ⟨_, rfl, rfl⟩
    · rintro (⟨_, _, h, rfl⟩ | ⟨_, h, rfl⟩) <;> cases h
      exact .inr ⟨_, rfl, rfl⟩
  | stuck =>
    constructor
    · rintro (⟨_, _, h, rfl⟩ | ⟨_, h, rfl⟩) <;> cases h
    · rintro (⟨_, _, h, rfl⟩ | ⟨_, h, rfl⟩) <;> cases h

theorem slt_ofNat {k n : Nat} (hk : k < 2 ^ 31) (hn : n < 2 ^ 31) : (BitVec.ofNat 32 k).slt (BitVec.ofNat 32 n) = decide (k < n) := by
  rw [BitVec.slt_eq_decide, BitVec.toInt_eq_toNat_of_lt (by rw [BitVec.toNat_ofNat]; omega), BitVec.toInt_eq_toNat_of_lt (by rw [BitVec.toNat_ofNat]; omega),
    BitVec.toNat_ofNat, BitVec.toNat_ofNat]
  simp only [Nat.mod_eq_of_lt (show k < 2 ^ 32 by omega), Nat.mod_eq_of_lt (show n < 2 ^ 32 by omega), Int.ofNat_lt]

variable {a m b : Nat} {arr cnt x : Idx} {ty : TypeId}

/-- The condition of the loop. -/
theorem forIn_cond (hW : W.Laws) (hv : LoopVars W a m b arr cnt ty) {less : Idx} (hl : W.D.less = .ok less) (intTy : TypeId) {v0 : V} {s0 : S}
    {k : Nat} (hk : k < 2 ^ 31) {s : S} {σ : Idx → V} (h1 : σ arr = W.U.load v0 s0) (h2 : σ cnt = W.M.const (.I32 (BitVec.ofNat 32 k))) :
    ∃ v, evalE W.env W.J (.Call (.Function less) [] [useLocal cnt, .Call (.Intrinsic .ArraySize intTy) [] [useLocal arr]]) (s, σ) = .ok (.val v, (s, σ)) ∧
      W.I.truth v s = decide (k < (W.U.items (W.U.load v0 s0)).length) := by
  obtain ⟨info, p, q, hf, hpq, hp, hq, hne, hless⟩ := hW.less less hl
  have n1 := hv.start; have n2 := hv.le; have n3 := hv.first; have n4 := hv.second
  obtain ⟨v, hv1, hv2⟩ := hless (BitVec.ofNat 32 k) (BitVec.ofNat 32 (W.U.items (W.U.load v0 s0)).length) s
  refine ⟨v, ?_, by rw [hv2, slt_ofNat hk (hW.few _ _)]⟩
  rw [evalE_call2 _ hf hpq hp hq, evalE_local_new (by omega)]
  dsimp only [Res.bind]
  rw [evalE_intrinsic1 _ hv.ty (show _ = some (.intrinsic .ArraySize ty) from rfl), evalE_local_new (by omega)]
  have hs := hW.size ty v0 s0 s
  have hp : Res.ofExcept (W.J.prim (.intrinsic .ArraySize ty) [.var arr] (s, σ)) =
      .ok (.val (W.M.const (.I32 (BitVec.ofNat 32 (W.U.items (W.U.load v0 s0)).length))), (s, σ)) := by
    show Res.ofExcept (liftCell σ (W.I.prim (.intrinsic .ArraySize ty) [σ arr] s)) = _
    rw [h1, hs]
    rfl
  dsimp only [Res.bind]
  rw [hp]
  have hb : (calleeOf info false less == W.asg) = false := by simp [hne]
  show Res.ofExcept (cellCall W.I W.M W.asg (calleeOf info false less) none _ (s, σ)) = _
  unfold cellCall
  rw [hb]
  show Res.ofExcept (liftCell σ (W.I.call (calleeOf info false less) none [some (σ cnt), some _] s)) = _
  rw [h2]
  show Res.ofExcept (liftCell σ (W.I.call (calleeOf info false less) none [some _, some _] s)) = _
  simp only [CellVal.read]
  rw [hv1]
  rfl

/-- Counting. -/
theorem forIn_next (hW : W.Laws) (hv : LoopVars W a m b arr cnt ty) {add : Idx} (hl : W.D.assignAdd = .ok add) {k : Nat} {s : S} {σ : Idx → V}
    (h2 : σ cnt = W.M.const (.I32 (BitVec.ofNat 32 k))) {o : Ending (CellVal V) (S × (Idx → V)) A} :
    ExecAll W.env zero W.J [.Call (.Function add) [] [useLocal cnt, .Constant (.I32 1)]] (s, σ) o ↔
      o = .normal (s, setCell σ cnt (W.M.const (.I32 (BitVec.ofNat 32 (k + 1))))) := by
  obtain ⟨info, p, q, hf, hpq, hp, hq, hc⟩ := hW.assignAdd add hl
  have n1 := hv.start; have n2 := hv.le; have n3 := hv.first; have n4 := hv.second
  rw [execAll_one, exec_expr_using rfl, evalE_call2 _ hf hpq hp hq, evalE_local_new (by omega)]
  dsimp only [Res.bind]
  rw [evalE_const hW]
  dsimp only [Res.bind]
  have : Res.ofExcept (W.J.call (calleeOf info false add) none [some (.var cnt), some (.val (W.M.const (.I32 1)))] (s, σ)) =
      .ok (.val (W.M.const (.I32 (BitVec.ofNat 32 (k + 1)))), (s, setCell σ cnt (W.M.const (.I32 (BitVec.ofNat 32 (k + 1)))))) := by
    show Res.ofExcept (cellCall W.I W.M W.asg (calleeOf info false add) none _ (s, σ)) = _
    unfold cellCall
    rw [hc, beq_self_eq_true]
    dsimp only [CellVal.read]
    rw [h2, hW.add, show BitVec.ofNat 32 k + 1 = BitVec.ofNat 32 (k + 1) by rw [BitVec.ofNat_add]; rfl]
    rfl
  rw [this]
  constructor
  · rintro (⟨_, _, h, rfl⟩ | ⟨_, h, rfl⟩) <;> cases h
    rfl
  · rintro rfl
    exact .inl ⟨_, _, rfl, rfl⟩

/-- Assigning the element to the variable of the loop. -/
theorem forIn_assign (hW : W.Laws) (hv : LoopVars W a m b arr cnt ty) (hx : x.toNat < W.start) {v0 y : V} {s0 : S} {k : Nat} {s : S} {σ : Idx → V}
    (h1 : σ arr = W.U.load v0 s0) (h2 : σ cnt = W.M.const (.I32 (BitVec.ofNat 32 k)))
    (hy : (W.U.items (W.U.load v0 s0))[k]? = some y) {c d : Nat} :
    BiSim c d σ (Exec W.env zero W.J (.Assign (useLocal x) (.ArrayElem (useLocal arr) (useLocal cnt))) (s, σ))
      (fun o => Effected (assignLocal W.I x y s) o) := by
  have n1 := hv.start; have n2 := hv.le; have n3 := hv.first; have n4 := hv.second
  obtain ⟨p, hp1, _, hp2⟩ := evalE_local_old hW hx
  have he : evalE W.env W.J (.ArrayElem (useLocal arr) (useLocal cnt)) (s, σ) =
      .ok (.elem arr (W.M.const (.I32 (BitVec.ofNat 32 k))) y, (s, σ)) := by
    rw [evalE.eq_def]
    dsimp only
    rw [hv.ty]
    dsimp only
    rw [evalE_local_new (by omega)]
    dsimp only [Res.bind]
    rw [evalE_local_new (by omega)]
    show Res.ofExcept (match W.I.prim (.element ty) [σ arr, σ cnt] s with
      | .ok (v, s) => .ok (CellVal.elem arr (σ cnt) v, (s, σ))
      | .error a => .error a) = _
    rw [h1, h2, hW.get _ _ _ _ _ _ hy]
    rfl
  have hs := prim_same (W := W) .assign (σ := σ) (xs := [.val p, .elem arr (W.M.const (.I32 (BitVec.ofNat 32 k))) y]) (vs := [p, y]) (s := s)
    rfl (fun l h => nomatch h) (fun _ => trivial) (fun ty h => nomatch h)
  refine BiSim.congr (R' := Using (Res.ofExcept (W.J.prim .assign [.val p, .elem arr (W.M.const (.I32 (BitVec.ofNat 32 k))) y] (s, σ)))
    (fun _ s o => o = .normal s)) (R := Using (Res.ofExcept (W.I.prim .assign [p, y] s)) (fun _ s o => o = .normal s)) ?_ (fun o => ?_) (fun o => ?_)
  · exact BiSim.using_ hs fun _ _ s1 _ => BiSim.single (.normal (.refl _ _ _))
  · rw [exec_expr_using rfl, evalE, hp1]
    dsimp only [Res.bind]
    rw [he]
  · rw [← effect_using, assignLocal, hp2]
    rfl

/-- The rest of the loop does the rest of the visits. -/
theorem forIn_loop (hW : W.Laws) (hv : LoopVars W a m b arr cnt ty) (hx : x.toNat < W.start) {less add : Idx} (hless : W.D.less = .ok less)
    (hadd : W.D.assignAdd = .ok add) {intTy : TypeId} {body' body : List TypedExpr} {v0 : V} {s0 : S}
    (hb : ∀ s σ, BiSim a m σ (ExecAll W.env zero W.J body' (s, σ)) (RunsAll W.env zero W.I W.U body s)) :
    ∀ (n k : Nat), k + n = (W.U.items (W.U.load v0 s0)).length → ∀ s σ, σ arr = W.U.load v0 s0 →
      σ cnt = W.M.const (.I32 (BitVec.ofNat 32 k)) →
      BiSim a b σ (Exec W.env zero W.J (forInLoop x arr cnt intTy add less body') (s, σ))
        (Visit (fun y => Then (fun s o => Effected (assignLocal W.I x y s) o) (RunsAll W.env zero W.I W.U body))
          ((W.U.items (W.U.load v0 s0)).drop k) s) := by
  have n1 := hv.start; have n2 := hv.le; have n3 := hv.first; have n4 := hv.second; have n5 := hv.last
  have hne : arr ≠ cnt := by rintro rfl; omega
  have hfew := hW.few v0 s0
  intro n
  induction n with
  | zero =>
    intro k hk s σ h1 h2
    obtain ⟨v, he, ht⟩ := forIn_cond hW hv hless intTy (s := s) (by omega) h1 h2
    rw [decide_eq_false (by omega)] at ht
    refine (BiSim.single (.normal (s := s) (.refl _ _ σ))).congr (fun o => ?_) (fun o => ?_)
    · rw [forInLoop, exec_while_iff, loop_iff, he]
      constructor
      · rintro (⟨_, _, h, ⟨h', _⟩ | ⟨_, h'⟩⟩ | ⟨_, h, _⟩)
        · cases h
          exact absurd (show W.I.truth v s = true from h') (by rw [ht]; simp)
        · cases h; exact h'
        · cases h
      · intro h
        exact .inl ⟨_, _, rfl, .inr ⟨ht, h⟩⟩
    · rw [List.drop_eq_nil_of_le (by omega), Visit]
  | succ n ih =>
    intro k hk s σ h1 h2
    obtain ⟨v, he, ht⟩ := forIn_cond hW hv hless intTy (s := s) (by omega) h1 h2
    rw [decide_eq_true (by omega)] at ht
    have hkl : k < (W.U.items (W.U.load v0 s0)).length := by omega
    have hy : (W.U.items (W.U.load v0 s0))[k]? = some (W.U.items (W.U.load v0 s0))[k] := List.getElem?_eq_getElem hkl
    generalize hyy : (W.U.items (W.U.load v0 s0))[k] = y at hy
    have hdrop : (W.U.items (W.U.load v0 s0)).drop k = y :: (W.U.items (W.U.load v0 s0)).drop (k + 1) := by
      rw [List.drop_eq_getElem_cons hkl, hyy]
    rw [hdrop]
    -- the body without counting
    have hstep : BiSim a m σ (ExecAll W.env zero W.J (.Assign (useLocal x) (.ArrayElem (useLocal arr) (useLocal cnt)) :: body') (s, σ))
        (Then (fun s o => Effected (assignLocal W.I x y s) o) (RunsAll W.env zero W.I W.U body) s) := by
      refine (BiSim.then_ (B' := Exec W.env zero W.J (.Assign (useLocal x) (.ArrayElem (useLocal arr) (useLocal cnt))))
        (C' := ExecAll W.env zero W.J body') (forIn_assign hW hv hx h1 h2 hy) fun s1 σ1 _ => hb s1 σ1).congr
        (fun o => execAll_cons_iff) (fun o => Iff.rfl)
    have hkeep : ∀ σ1, Frame a m σ σ1 → σ1 arr = W.U.load v0 s0 ∧ σ1 cnt = W.M.const (.I32 (BitVec.ofNat 32 k)) := fun σ1 hf =>
      ⟨(hf arr (.inr n3)).trans h1, (hf cnt (.inr (by omega))).trans h2⟩
    -- with counting
    have hfull : ∀ o', ExecAll W.env zero W.J (.Assign (useLocal x) (.ArrayElem (useLocal arr) (useLocal cnt)) ::
        (body' ++ [.Call (.Function add) [] [useLocal cnt, .Constant (.I32 1)]])) (s, σ) o' ↔
          Then (ExecAll W.env zero W.J (.Assign (useLocal x) (.ArrayElem (useLocal arr) (useLocal cnt)) :: body'))
            (ExecAll W.env zero W.J [.Call (.Function add) [] [useLocal cnt, .Constant (.I32 1)]]) (s, σ) o' := by
      intro o'
      rw [← execAll_append_then]
      rfl
    have hframe : ∀ σ1, Frame a m σ σ1 → Frame a b σ (setCell σ1 cnt (W.M.const (.I32 (BitVec.ofNat 32 (k + 1))))) := fun σ1 hf =>
      (hf.widen (Nat.le_refl _) (by omega)).trans (.setCell (by omega) (by omega))
    have hih : ∀ s1 σ1, Frame a m σ σ1 → _ := fun s1 σ1 hf =>
      ih (k + 1) (by omega) s1 (setCell σ1 cnt (W.M.const (.I32 (BitVec.ofNat 32 (k + 1)))))
        ((setCell_other hne).trans (hkeep σ1 hf).1) (setCell_same _ _ _)
    constructor
    · intro o' ho
      rw [forInLoop, exec_while_iff, loop_iff, he] at ho
      rcases ho with ⟨_, _, h, ⟨_, ⟨t, hB, hL⟩ | ⟨o1, hB, hn, rfl⟩⟩ | ⟨h', _⟩⟩ | ⟨_, h, _⟩
      · cases h
        rcases (hfull _).1 hB with ⟨t1, hB1, hB2⟩ | ⟨_, hn⟩
        · obtain ⟨o, ho, ha⟩ := hstep.fwd _ hB1
          cases ha with
          | @normal s1 σ1 hf =>
            rw [forIn_next hW hv hadd (hkeep σ1 hf).2] at hB2
            cases hB2
            obtain ⟨o, ho2, ha2⟩ := (hih s1 σ1 hf).fwd o' (by rw [forInLoop, exec_while_iff]; exact hL)
            exact ⟨o, .inl ⟨s1, ho, ho2⟩, ha2.after (hframe σ1 hf)⟩
        · exact absurd rfl (hn _)
      · cases h
        rcases (hfull _).1 hB with ⟨t1, hB1, hB2⟩ | ⟨hB1, _⟩
        · obtain ⟨o, ho, ha⟩ := hstep.fwd _ hB1
          cases ha with
          | @normal s1 σ1 hf =>
            rw [forIn_next hW hv hadd (hkeep σ1 hf).2] at hB2
            exact absurd hB2 (hn _)
        · obtain ⟨o, ho, ha⟩ := hstep.fwd _ hB1
          exact ⟨o.catchBreak, .inr ⟨o, ho, ha.normal_iff.1 hn, rfl⟩, (ha.widen (Nat.le_refl _) (by omega)).catchBreak⟩
      · cases h
        exact absurd (show W.I.truth v s = false from h') (by rw [ht]; simp)
      · cases h
    · intro o ho
      have conv : ∀ o', Exec W.env zero W.J (forInLoop x arr cnt intTy add less body') (s, σ) o' ↔ _ := fun o' => by
        rw [forInLoop, exec_while_iff, loop_iff, he]
      rcases ho with ⟨s1, h3, h4⟩ | ⟨o1, h3, hn, rfl⟩
      · obtain ⟨o', h5, ha⟩ := hstep.bwd _ h3
        cases ha with
        | @normal s1 σ1 hf =>
          obtain ⟨o', h6, ha2⟩ := (hih s1 σ1 hf).bwd o h4
          rw [forInLoop, exec_while_iff] at h6
          refine ⟨o', (conv o').2 (.inl ⟨_, _, rfl, .inl ⟨ht, .inl ⟨_, (hfull _).2 (.inl ⟨_, h5, ?_⟩), h6⟩⟩⟩), ha2.after (hframe σ1 hf)⟩
          rw [forIn_next hW hv hadd (hkeep σ1 hf).2]
      · obtain ⟨o', h5, ha⟩ := hstep.bwd _ h3
        have hn' := ha.normal_iff.2 hn
        exact ⟨o'.catchBreak, (conv _).2 (.inl ⟨_, _, rfl, .inl ⟨ht, .inr ⟨o', (hfull _).2 (.inr ⟨h5, hn'⟩), hn', rfl⟩⟩⟩),
          (ha.widen (Nat.le_refl _) (by omega)).catchBreak⟩

theorem forIn_claim (hW : W.Laws) {array : TypedExpr} {body : List TypedExpr} (hx : x.toNat < W.start) (ha : InOrd W array)
    (h1 : ∀ y ∈ body, StClaim W zero y) : StClaim W zero (.ForIn x array body) := by
  intro st st' e' ht hst hp hd s σ
  rw [dsExpr] at hd
  obtain ⟨⟨b', st1⟩, d1, hd⟩ := except_bind_ok hd
  obtain ⟨⟨a', st2⟩, d2, hd⟩ := except_bind_ok hd
  dsimp only at d2 hd
  split at hd
  · cases hd
  rename_i ty hty
  obtain ⟨⟨arr, st3⟩, d3, hd⟩ := except_bind_ok hd
  obtain ⟨int, d4, hd⟩ := except_bind_ok hd
  obtain ⟨⟨cnt, st4⟩, d5, hd⟩ := except_bind_ok hd
  obtain ⟨add, d6, hd⟩ := except_bind_ok hd
  obtain ⟨less, d7, hd⟩ := except_bind_ok hd
  cases hd
  dsimp only at d5 ⊢
  have g1 := dsSeq_grows hW.grows body d1
  have g2 := dsExpr_grows hW.grows array d2
  have g3 := fresh_grows hW.grows d3
  have g4 := fresh_grows hW.grows d5
  have ht4 : Typed W.Q st4 := ht
  have ht3 := ht4.mono g4
  have ht2 := ht3.mono g3
  have n1 : st.next ≤ st1.next := g1.next
  have n2 : st1.next ≤ st2.next := g2.next
  obtain ⟨a1, a2, a3, _⟩ := dsFresh_ok hW.grows d3
  obtain ⟨c1, c2, c3, _⟩ := dsFresh_ok hW.grows d5
  obtain ⟨p1, b1⟩ := seq_claim hW h1 st st1 b' (ht2.mono g2) hst hp d1
  obtain ⟨P, hP, hin⟩ := (inord_claim hW ha).1 st1 st2 a' ht2 (by omega) d2
  have hPe := pending_exprs hW p1 d2
  rw [p1, List.nil_append] at hP
  have hPe' : ∀ x ∈ P, x.isExpression = true := by rw [← hP]; exact hPe
  have hv : LoopVars W st.next st1.next st4.next arr cnt ty :=
    ⟨hst, n1, by omega, by omega, by omega, by rw [hW.types]; exact ht3.fresh hW.grows d3⟩
  rw [c3, a3, hP, List.append_assoc]
  have hne : arr ≠ cnt := by rintro rfl; omega
  refine (hin.stmt (a := st.next) (b := st4.next)
    (K' := fun z t o => Exec W.env zero W.J (forInLoop x arr cnt int add less b')
      (t.1, setCell (setCell t.2 arr (W.U.load (z.read t.2) t.1)) cnt (W.M.const (.I32 0))) o)
    hPe' (by omega) (by omega) (fun t o => ?_) ?_).congr (fun o => Iff.rfl) (fun o => by rw [Runs])
  · show ExecAll W.env zero W.J (_ :: _ :: [_]) t o ↔ _
    rw [execAll_cons_iff]
    simp only [exec_set (show W.start ≤ arr.toNat by omega)]
    have h2 : ∀ t o, ExecAll W.env zero W.J [.Assign (useLocal cnt) (.Constant (.I32 0)), forInLoop x arr cnt int add less b'] t o ↔
        Exec W.env zero W.J (forInLoop x arr cnt int add less b') (t.1, setCell t.2 cnt (W.M.const (.I32 0))) o := by
      intro t o
      rw [execAll_cons_iff]
      simp only [exec_set (show W.start ≤ cnt.toNat by omega), execAll_one, evalE_const hW]
      constructor
      · rintro (⟨_, ⟨_, _, h, h'⟩ | ⟨_, h, _⟩, h2⟩ | ⟨⟨_, _, h, h'⟩ | ⟨_, h, h'⟩, h2⟩)
        · cases h; cases h'
          rw [CellVal.read, hW.loadConst] at h2
          exact h2
        · cases h
        · exact absurd h' (h2 _)
        · cases h
      · intro h
        refine .inl ⟨_, .inl ⟨_, _, rfl, rfl⟩, ?_⟩
        rw [CellVal.read, hW.loadConst]
        exact h
    simp only [h2]
    constructor
    · rintro (⟨_, ⟨v, t1, h, h'⟩ | ⟨_, h, h'⟩, h2⟩ | ⟨⟨_, _, h, h'⟩ | ⟨c, h, h'⟩, h2⟩)
      · cases h'
        exact .inl ⟨v, t1, h, h2⟩
      · cases h'
      · exact absurd h' (h2 _)
      · exact .inr ⟨c, h, h'⟩
    · rintro (⟨v, t1, h, h'⟩ | ⟨c, h, rfl⟩)
      · exact .inl ⟨_, .inl ⟨v, t1, h, rfl⟩, h'⟩
      · exact .inr ⟨.inr ⟨c, h, rfl⟩, nofun⟩
  · intro z y s1 σ1 hf hz
    have hz : z.read σ1 = y := hz
    dsimp only
    rw [hz]
    refine BiSim.after ?_ (forIn_loop hW hv hx d7 d6 b1 _ 0 (Nat.zero_add _) s1 _ ?_ ?_)
    · exact (Frame.setCell (by omega) (by omega)).trans (.setCell (by omega) (by omega))
    · rw [setCell_other hne, setCell_same]
    · exact setCell_same _ _ _

end

end Redscript
