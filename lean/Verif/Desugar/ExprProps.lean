import Verif.Desugar.FixedProps

/-!
# Desugared expressions have the same values
-/

namespace Redscript

section
variable {V S A : Type} {W : DsWorld V S A}

/-! ## Array literals -/

/-- Desugaring splits an expression into a set-up and the rest. -/
def OrdClaim (W : DsWorld V S A) (e : TypedExpr) : Prop :=
  ∀ st st' e', Typed W.Q st' → W.start ≤ st.next → dsExpr W.D e st = .ok (e', st') →
    ∃ P, st'.pending = st.pending ++ P ∧
      InOrder W st.next st'.next P (NoParam V) (fun _ => evalE W.env W.J e') (fun _ => evalS W.env W.I W.U e) CellReads

/-- The set-up does everything. -/
def InertClaim (W : DsWorld V S A) (e : TypedExpr) : Prop :=
  ∀ st st' e', Typed W.Q st' → W.start ≤ st.next → dsExpr W.D e st = .ok (e', st') →
    ∃ P, st'.pending = st.pending ++ P ∧ Inert W st.next st'.next P e' e

theorem InertClaim.ord {e : TypedExpr} (h : InertClaim W e) : OrdClaim W e := by
  intro st st' e' h1 h2 h3
  obtain ⟨P, h4, h5⟩ := h st st' e' h1 h2 h3
  exact ⟨P, h4, h5.inOrder⟩

theorem runPre_one (env : AsmEnv) (I : Interp V S A) (e : TypedExpr) (s : S) :
    runPre env I [e] s = (evalE env I e s).bind fun x => .ok x.2 := rfl

/-- Putting the value of an expression into an element. -/
theorem set_elem (hW : W.Laws) {l : Idx} {t : TypeId} {i : Nat} {e' : TypedExpr} {s : S} {σ : Idx → V} {vs : List V}
    (hl : W.start ≤ l.toNat) (ht : W.Q.local_ l = .ok (.Array t)) (hσ : σ l = W.U.array t vs) (hi : i < vs.length) (hi' : i < 2 ^ 64) :
    runPre W.env W.J [.Assign (.ArrayElem (useLocal l) (.Constant (.U64 (BitVec.ofNat 64 i)))) e'] (s, σ) =
      (evalE W.env W.J e' (s, σ)).bind fun x => (Res.ofExcept (W.J.prim .assign [.elem l (W.M.const (.U64 (BitVec.ofNat 64 i)))
        (x.1.read x.2.2), x.1] x.2)).bind fun x => .ok x.2 := by
  obtain ⟨v, hv⟩ := hW.elem t vs i s hi hi'
  have h1 : evalE W.env W.J (.ArrayElem (useLocal l) (.Constant (.U64 (BitVec.ofNat 64 i)))) (s, σ) =
      .ok (.elem l (W.M.const (.U64 (BitVec.ofNat 64 i))) v, (s, σ)) := by
    rw [evalE.eq_def]
    dsimp only
    rw [hW.types]
    have : typeTree W.Q (useLocal l) = .ok (.Array t) := ht
    rw [this]
    dsimp only
    rw [evalE_local_new hl]
    dsimp only [Res.bind]
    rw [evalE_const hW]
    dsimp only [Res.bind]
    show Res.ofExcept (match W.I.prim (.element (.Array t)) [σ l, W.M.const (.U64 (BitVec.ofNat 64 i))] s with
      | .ok (v, s) => .ok (CellVal.elem l (W.M.const (.U64 (BitVec.ofNat 64 i))) v, (s, σ))
      | .error a => .error a) = _
    rw [hσ, hv]
    rfl
  rw [runPre_one, evalE.eq_def]
  dsimp only
  rw [h1]
  dsimp only [Res.bind]
  cases evalE W.env W.J e' (s, σ) with
  | abort a => rfl
  | stuck => rfl
  | ok x =>
    dsimp only [Res.bind]
    rfl

/-- The elements of a literal are put into the array one by one. -/
theorem elems_claim (hW : W.Laws) {l : Idx} {t : TypeId} (hl : W.start ≤ l.toNat) (ht : W.Q.local_ l = .ok (.Array t)) :
    ∀ (es : List TypedExpr) (i : Nat) (st st' : DsState), (∀ e ∈ es, OrdClaim W e) → Typed W.Q st' → l.toNat < st.next →
      dsElems W.D l i es st = .ok st' → ∃ P, st'.pending = st.pending ++ P ∧
        ∀ s σ vs, σ l = W.U.array t vs → i + es.length = vs.length → vs.length < 2 ^ 64 →
          (∃ s1 σ1 ws, runPre W.env W.J P (s, σ) = .ok (s1, σ1) ∧ Frame l.toNat st'.next σ σ1 ∧
            σ1 l = W.U.array t (vs.take i ++ ws) ∧ evalElems W.env W.I W.U es s = .ok (ws, s1)) ∨
          (∃ c, runPre W.env W.J P (s, σ) = .abort c ∧ evalElems W.env W.I W.U es s = .abort c) ∨
          (runPre W.env W.J P (s, σ) = .stuck ∧ evalElems W.env W.I W.U es s = .stuck)
  | [], i, st, st', hes, hty, hlt, h => by
    cases h
    refine ⟨[], by simp, fun s σ vs hσ hn hb => .inl ⟨s, σ, [], rfl, .refl _ _ _, ?_, rfl⟩⟩
    rw [hσ, List.append_nil, List.take_of_length_le]
    simp only [List.length_nil] at hn
    omega
  | e :: es, i, st, st', hes, hty, hlt, h => by
    rw [dsElems] at h
    obtain ⟨r, h1, h⟩ := except_bind_ok h
    obtain ⟨e', st1⟩ := r
    dsimp only at h
    have g2 := dsElems_grows hW.grows es h
    have g1 := dsExpr_grows hW.grows e h1
    have n1 := g1.next
    have n2 : st1.next ≤ st'.next := g2.next
    have ht1 : Typed W.Q st1 := fun x hx => hty x (g2.locals x hx)
    obtain ⟨P1, p1, o1⟩ := hes e (List.mem_cons_self ..) st st1 e' ht1 (by omega) h1
    obtain ⟨P2, p2, o2⟩ := elems_claim hW hl ht es (i + 1) (st1.push (.Assign (.ArrayElem (useLocal l) (.Constant (.U64 (BitVec.ofNat 64 i)))) e')) st' (fun x hx => hes x (List.mem_cons_of_mem _ hx)) hty
      (show l.toNat < st1.next by omega) h
    refine ⟨P1 ++ ([.Assign (.ArrayElem (useLocal l) (.Constant (.U64 (BitVec.ofNat 64 i)))) e'] ++ P2), ?_, ?_⟩
    · rw [p2]
      show st1.pending ++ _ ++ P2 = _
      rw [p1]
      simp [List.append_assoc]
    · intro s σ vs hσ hn hb
      simp only [List.length_cons] at hn
      rw [runPre_append]
      rw [evalElems]
      rcases o1 s σ with ⟨s1, σ1, r1, f1, e1⟩ | ⟨c, r1, e1⟩ | ⟨r1, e1⟩
      · rw [r1]
        dsimp only [Res.bind]
        have hσ1 : σ1 l = W.U.array t vs := by rw [f1 l (.inl hlt)]; exact hσ
        rw [runPre_append, set_elem hW hl ht hσ1 (by omega) (by omega)]
        have hs := e1 σ1 (.refl _ _ _) () () trivial
        dsimp only at hs
        generalize evalE W.env W.J e' (s1, σ1) = re at hs
        generalize evalS W.env W.I W.U e s = rs at hs
        cases hs with
        | abort => exact .inr (.inl ⟨_, rfl, rfl⟩)
        | stuck => exact .inr (.inr ⟨rfl, rfl⟩)
        | @ok x v s2 hv =>
          dsimp only [Res.bind]
          let σ2 := setCell σ1 l (W.U.array t (vs.set i (W.U.load v s2)))
          have ha : Res.ofExcept (W.J.prim .assign [.elem l (W.M.const (.U64 (BitVec.ofNat 64 i))) (x.read σ1), x] (s2, σ1)) =
              .ok (.val (x.read σ1), (s2, σ2)) := by
            show Res.ok (CellVal.val (x.read σ1), (s2, setCell σ1 l (W.M.set (σ1 l) (W.M.const (.U64 (BitVec.ofNat 64 i)))
              (W.U.load (x.read σ1) s2)))) = _
            rw [hσ1, hW.set t vs i _ (by omega) (by omega), hv]
          rw [ha]
          dsimp only [Res.bind]
          have hσ2 : σ2 l = W.U.array t (vs.set i (W.U.load v s2)) := by simp [σ2, setCell]
          have hf2 : Frame l.toNat st'.next σ1 σ2 := Frame.setCell (Nat.le_refl _) (by omega)
          rcases o2 s2 σ2 _ hσ2 (by simp only [List.length_set]; omega) (by simpa using hb) with
            ⟨s3, σ3, ws, r3, f3, e3, e4⟩ | ⟨c, r3, e3⟩ | ⟨r3, e3⟩
          · refine .inl ⟨s3, σ3, W.U.load v s2 :: ws, r3, ?_, ?_, by rw [e4]⟩
            · exact ((f1.widen (by omega) n2).trans hf2).trans f3
            · rw [e3]
              congr 1
              have : (vs.set i (W.U.load v s2)).take (i + 1) = vs.take i ++ [W.U.load v s2] := by
                rw [List.take_add_one, List.getElem?_set_self (by omega), List.take_set_of_le (Nat.le_refl _)]
                rfl
              rw [this, List.append_assoc]
              rfl
          · exact .inr (.inl ⟨c, r3, by rw [e3]⟩)
          · exact .inr (.inr ⟨r3, by rw [e3]⟩)
      · exact .inr (.inl ⟨c, by rw [r1]; rfl, by rw [show evalS W.env W.I W.U e s = _ from e1 ()]; rfl⟩)
      · exact .inr (.inr ⟨by rw [r1]; rfl, by rw [show evalS W.env W.I W.U e s = _ from e1 ()]; rfl⟩)

/-- Giving the array of a literal its size. -/
theorem run_resize (hW : W.Laws) {l : Idx} {t : TypeId} {n : Nat} {P : List TypedExpr} {s : S} {σ : Idx → V} {v : V} (hs : W.start ≤ l.toNat)
    (hl : W.Q.local_ l = .ok (.Array t)) (hr : W.M.resize (.Array t) (σ l) (W.M.const (.U64 (BitVec.ofNat 64 n))) = v) :
    runPre W.env W.J (.Call (.Intrinsic .ArrayResize .Void) [] [useLocal l, .Constant (.U64 (BitVec.ofNat 64 n))] :: P) (s, σ) =
      runPre W.env W.J P (s, setCell σ l v) := by
  rw [runPre, evalE.eq_def]
  dsimp only
  have h3 : firstType W.env [useLocal l, .Constant (.U64 (BitVec.ofNat 64 n))] = some (.Array t) := by
    have : typeTree W.Q (useLocal l) = .ok (.Array t) := hl
    simp only [firstType, hW.types, this]
    rfl
  rw [h3]
  show Res.bind (Res.bind (evalList W.env W.J _ _) _) _ = _
  rw [evalList, evalE_local_new (by omega)]
  dsimp only [Res.bind]
  rw [evalList, evalE_const hW]
  dsimp only [Res.bind]
  rw [evalList]
  dsimp only [Res.bind]
  show runPre W.env W.J P (s, setCell σ l (W.M.resize (.Array t) (σ l) (W.M.const (.U64 (BitVec.ofNat 64 n))))) = _
  rw [hr]

/-- A literal gives an array with its elements. -/
theorem array_inert (hW : W.Laws) {es : List TypedExpr} {t : TypeId} (hn : es.length < 2 ^ 64) (hes : ∀ e ∈ es, OrdClaim W e) :
    InertClaim W (.ArrayLit es (some t)) := by
  intro st st' e' hty hst h
  rw [dsExpr] at h
  obtain ⟨r, h1, h⟩ := except_bind_ok h
  obtain ⟨l, st1⟩ := r
  obtain ⟨st2, h2, h⟩ := except_bind_ok h
  dsimp only at h h2
  cases h
  obtain ⟨f1, f2, f3, f4⟩ := dsFresh_ok hW.grows h1
  have g2 := dsElems_grows hW.grows es h2
  have n2 : st1.next ≤ st'.next := g2.next
  have ht1 : Typed W.Q st1 := fun x hx => hty x (g2.locals x hx)
  have hl : W.Q.local_ l = .ok (.Array t) := ht1.fresh hW.grows h1
  obtain ⟨P, p2, o2⟩ := elems_claim hW (l := l) (t := t) (by omega) hl es 0 (st1.push
    (.Call (.Intrinsic .ArrayResize .Void) [] [useLocal l, .Constant (.U64 (BitVec.ofNat 64 es.length))])) st' hes hty (show l.toNat < st1.next by omega) h2
  refine ⟨.Call (.Intrinsic .ArrayResize .Void) [] [useLocal l, .Constant (.U64 (BitVec.ofNat 64 es.length))] :: P, ?_, ?_⟩
  · rw [p2]
    show st1.pending ++ _ ++ P = _
    rw [f3]
    simp [List.append_assoc]
  · intro s σ
    obtain ⟨vs, hvs, hr⟩ := hW.resize t (σ l) (BitVec.ofNat 64 es.length)
    have hlen : vs.length = es.length := by
      rw [hvs, BitVec.toNat_ofNat]
      exact Nat.mod_eq_of_lt hn
    rw [run_resize hW (by omega) hl hr]
    have hσ : setCell σ l (W.U.array t vs) l = W.U.array t vs := by simp [setCell]
    rw [evalS]
    rcases o2 s _ vs hσ (by omega) (by omega) with ⟨s1, σ1, ws, r1, fr, e1, e2⟩ | ⟨c, r1, e1⟩ | ⟨r1, e1⟩
    · left
      refine ⟨s1, σ1, W.U.array t ws, r1, ?_, by rw [e2]; rfl, ?_⟩
      · exact (Frame.setCell f1 (by omega)).trans (fr.widen f1 (Nat.le_refl _))
      · intro s' σ2 ha
        refine ⟨.var l, evalE_local_new (by omega), ?_⟩
        show σ2 l = _
        rw [ha l f1 (by omega), e1]
        rfl
    · exact .inr (.inl ⟨c, r1, by rw [e1]; rfl⟩)
    · exact .inr (.inr ⟨r1, by rw [e1]; rfl⟩)

/-- The value of a constant literal. -/
theorem const_pure (hW : W.Laws) {e : TypedExpr} (h : IsConst e) :
    ∃ v, (∀ s, evalS W.env W.I W.U e s = .ok (v, s)) ∧ ∀ s, W.U.load v s = v := by
  induction h with
  | const c =>
    refine ⟨W.M.const c, fun s => ?_, hW.loadConst c⟩
    rw [evalS, hW.const]
    rfl
  | @array es ty hn hes ih =>
    have : ∃ vs, ∀ s, evalElems W.env W.I W.U es s = .ok (vs, s) := by
      clear hn
      induction es with
      | nil => exact ⟨[], fun s => rfl⟩
      | cons e es ihl =>
        obtain ⟨v, h1, h2⟩ := ih e (List.mem_cons_self ..)
        obtain ⟨vs, h3⟩ := ihl (fun x hx => hes x (List.mem_cons_of_mem _ hx)) (fun x hx => ih x (List.mem_cons_of_mem _ hx))
        refine ⟨v :: vs, fun s => ?_⟩
        rw [evalElems, h1]
        dsimp only [Res.bind]
        rw [h3]
        dsimp only [Res.bind]
        rw [h2]
    obtain ⟨vs, hvs⟩ := this
    refine ⟨W.U.array ty vs, fun s => ?_, hW.loadArray ty vs⟩
    rw [evalS, hvs]
    rfl

theorem constant_inert (hW : W.Laws) (c : Constant) : InertClaim W (.Constant c) := by
  intro st st' e' hty hst h
  cases h
  refine ⟨[], by simp, Inert.value (x := .val (W.M.const c)) (fun s σ => ⟨evalE_const hW c _, rfl⟩) fun s => ?_⟩
  rw [evalS, hW.const]
  rfl

theorem const_inert (hW : W.Laws) {e : TypedExpr} (h : IsConst e) : InertClaim W e := by
  induction h with
  | const c => exact constant_inert hW c
  | array hn hes ih => exact array_inert hW hn fun e he => (ih e he).ord

end

end Redscript
