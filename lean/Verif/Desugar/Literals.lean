import Verif.Desugar.Pending
import Verif.Desugar.ForEach

/-!
# C31: array literals and interpolated strings, whatever they contain
-/

namespace Redscript

/-- Expressions desugared one after the other: for each, what is to be run in front of it and what is left of it. -/
inductive DsEach (D : DsEnv) : List TypedExpr → DsState → List (List TypedExpr × TypedExpr) → Prop
  | nil {st : DsState} : DsEach D [] st []
  | cons {e e' : TypedExpr} {es : List TypedExpr} {st st1 : DsState} {ps : List (List TypedExpr × TypedExpr)} :
      dsExpr D e { st with pending := [] } = .ok (e', st1) → DsEach D es st1 ps → DsEach D (e :: es) st ((st1.pending, e') :: ps)

theorem DsEach.pending {D : DsEnv} {es : List TypedExpr} {st : DsState} {ps : List (List TypedExpr × TypedExpr)} (h : DsEach D es st ps)
    (Y : List TypedExpr) : DsEach D es { st with pending := Y } ps := by
  cases h with
  | nil => exact .nil
  | cons h1 h2 => exact .cons h1 h2

section
variable {V S A : Type} {W : DsWorld V S A} {p : Idx → Bool}

/-- What the elements of a literal are to do: each in turn is set up, evaluated, and its content is taken. -/
def runElems (W : DsWorld V S A) : List (List TypedExpr × TypedExpr) → S × (Idx → V) → Res A (List V × (S × (Idx → V)))
  | [], t => .ok ([], t)
  | (P, e) :: ps, t =>
    (runPre W.env W.J P t).bind fun t => (evalE W.env W.J e t).bind fun (x, t) =>
      (runElems W ps t).bind fun (vs, t') => .ok (W.U.load (x.read t.2) t.1 :: vs, t')

/-- What the parts of an interpolated string are to do: each in turn is evaluated, and its text is taken; the
literal part after it follows. -/
def runParts (W : DsWorld V S A) : List (TypedExpr × Text) → S × (Idx → V) → Res A (Text × (S × (Idx → V)))
  | [], t => .ok ([], t)
  | (e, text) :: ps, t =>
    match W.env.typeOf e with
    | .ok ty =>
      (evalE W.env W.J e t).bind fun (x, t) => (runParts W ps t).bind fun (u, t') =>
        .ok (W.U.format ty (x.read t.2) t.1 ++ text ++ u, t')
    | .error _ => .stuck

/-- Running `P` and evaluating `e'` after that gives the array of these values; the state is as after evaluating the
values but for the variable `l`. -/
def BuildsArray (W : DsWorld V S A) (t : TypeId) (l : Idx) (P : List TypedExpr) (e' : TypedExpr) (t0 : S × (Idx → V)) :
    Res A (List V × (S × (Idx → V))) → Prop
  | .ok (vs, (s1, σ1)) => ∃ σ2 x, runPre W.env W.J P t0 = .ok (s1, σ2) ∧ (∀ l', l' ≠ l → σ2 l' = σ1 l') ∧
      evalE W.env W.J e' (s1, σ2) = .ok (x, (s1, σ2)) ∧ x.read σ2 = W.U.array t vs
  | .abort c => runPre W.env W.J P t0 = .abort c
  | .stuck => runPre W.env W.J P t0 = .stuck

theorem runParts_cons (e : TypedExpr) (text : Text) (ps : List (TypedExpr × Text)) (t : S × (Idx → V)) :
    runParts W ((e, text) :: ps) t = match W.env.typeOf e with
      | .ok ty => (evalE W.env W.J e t).bind fun x => (runParts W ps x.2).bind fun u =>
          .ok (W.U.format ty (x.1.read x.2.2) x.2.1 ++ text ++ u.1, u.2)
      | .error _ => .stuck := by
  rw [runParts.eq_def]

theorem runPre_blind (W : DsWorld V S A) (p : Idx → Bool) (τ : Idx → V) : ∀ (P : List TypedExpr), Expr.allIn p P = true → ∀ s σ,
    (∃ s1 σ1, runPre W.env W.J P (s, σ) = .ok (s1, σ1) ∧ runPre W.env W.J P (s, mergeCells p σ τ) = .ok (s1, mergeCells p σ1 τ) ∧ HighSame p σ σ1) ∨
    (∃ c, runPre W.env W.J P (s, σ) = .abort c ∧ runPre W.env W.J P (s, mergeCells p σ τ) = .abort c) ∨
    (runPre W.env W.J P (s, σ) = .stuck ∧ runPre W.env W.J P (s, mergeCells p σ τ) = .stuck)
  | [], _, s, σ => .inl ⟨s, σ, rfl, rfl, .refl _ _⟩
  | e :: P, h, s, σ => by
    rw [Expr.allIn, Bool.and_eq_true] at h
    rw [runPre, runPre]
    have h1 := evalE_blind W p τ e h.1 s σ
    generalize evalE W.env W.J e (s, σ) = a at h1 ⊢
    generalize evalE W.env W.J e (s, mergeCells p σ τ) = b at h1 ⊢
    cases h1 with
    | abort => exact .inr (.inl ⟨_, rfl, rfl⟩)
    | stuck => exact .inr (.inr ⟨rfl, rfl⟩)
    | @ok x s1 σ1 hx hh =>
      rcases runPre_blind W p τ P h.2 s1 σ1 with ⟨s2, σ2, h2, h3, h4⟩ | ⟨c, h2, h3⟩ | ⟨h2, h3⟩
      · exact .inl ⟨s2, σ2, h2, h3, hh.trans h4⟩
      · exact .inr (.inl ⟨c, h2, h3⟩)
      · exact .inr (.inr ⟨h2, h3⟩)

theorem SameIn.of_merge {σ τ : Idx → V} : SameIn p σ (mergeCells p σ τ) := fun _ hl => (mergeCells_low hl).symm

/-- The elements of a literal, one by one. -/
theorem elems_run (hW : W.Laws) {l : Idx} {t : TypeId} (hl : W.start ≤ l.toNat) (ht : W.Q.local_ l = .ok (.Array t)) :
    ∀ (es : List TypedExpr) (i : Nat) (st st' : DsState), Expr.noBlocksAll es = true → Expr.allIn (fun l' => decide (l' ≠ l)) es = true →
      l.toNat < st.next → dsElems W.D l i es st = .ok st' → ∃ ps P, DsEach W.D es st ps ∧ st'.pending = st.pending ++ P ∧
        ∀ s σ τ vs, σ l = W.U.array t vs → i + es.length = vs.length → vs.length < 2 ^ 64 → SameIn (fun l' => decide (l' ≠ l)) σ τ →
          (∃ s1 σ1 τ1 ws, runPre W.env W.J P (s, σ) = .ok (s1, σ1) ∧ runElems W ps (s, τ) = .ok (ws, (s1, τ1)) ∧
            SameIn (fun l' => decide (l' ≠ l)) σ1 τ1 ∧ σ1 l = W.U.array t (vs.take i ++ ws)) ∨
          (∃ c, runPre W.env W.J P (s, σ) = .abort c ∧ runElems W ps (s, τ) = .abort c) ∨
          (runPre W.env W.J P (s, σ) = .stuck ∧ runElems W ps (s, τ) = .stuck)
  | [], i, st, st', hnb, hes, hlt, h => by
    cases h
    refine ⟨[], [], .nil, by simp, fun s σ τ vs hσ hn hb hs => .inl ⟨s, σ, τ, [], rfl, rfl, hs, ?_⟩⟩
    rw [hσ, List.append_nil, List.take_of_length_le]
    simp only [List.length_nil] at hn
    omega
  | e :: es, i, st, st', hnb, hes, hlt, h => by
    rw [dsElems] at h
    rw [Expr.noBlocksAll, Bool.and_eq_true] at hnb
    rw [Expr.allIn, Bool.and_eq_true] at hes
    obtain ⟨r, h1, h⟩ := except_bind_ok h
    obtain ⟨e', st1⟩ := r
    dsimp only at h
    have n1 := (dsExpr_grows hW.grows e h1).next
    obtain ⟨P1, p1, y1⟩ := dsExpr_adds W.D e hnb.1 st e' st1 h1
    have y1 := y1 []
    obtain ⟨i1, i2⟩ := dsExpr_in (p := fun l' => decide (l' ≠ l)) hW.grows e hes.1 (by rfl)
      (fun l' h1 _ => by have h1 : st.next ≤ l'.toNat := h1; exact decide_eq_true (by rintro rfl; omega)) y1
    have i2 : Expr.allIn (fun l' => decide (l' ≠ l)) P1 = true := i2
    obtain ⟨ps, P2, d2, p2, o2⟩ := elems_run hW hl ht es (i + 1) (st1.push (.Assign (.ArrayElem (useLocal l) (.Constant (.U64 (BitVec.ofNat 64 i)))) e')) st'
      hnb.2 hes.2 (show l.toNat < st1.next by omega) h
    refine ⟨(P1, e') :: ps, P1 ++ ([.Assign (.ArrayElem (useLocal l) (.Constant (.U64 (BitVec.ofNat 64 i)))) e'] ++ P2), ?_, ?_, ?_⟩
    · exact .cons y1 (d2.pending _)
    · rw [p2]
      show st1.pending ++ _ ++ P2 = _
      rw [p1]
      simp [List.append_assoc]
    · intro s σ τ vs hσ hn hb hs
      have hpl : (fun l' => decide (l' ≠ l)) l = false := by simp
      simp only [List.length_cons] at hn
      rw [runPre_append, runElems]
      rw [← hs.merge]
      rcases runPre_blind W (fun l' => decide (l' ≠ l)) τ P1 i2 s σ with ⟨s1, σ1, r1, r1', f1⟩ | ⟨c, r1, r1'⟩ | ⟨r1, r1'⟩
      · rw [r1, r1']
        dsimp only [Res.bind]
        have hσ1 : σ1 l = W.U.array t vs := by rw [f1 l hpl]; exact hσ
        rw [runPre_append, set_elem hW hl ht hσ1 (by omega) (by omega)]
        have hb1 := evalE_blind W (fun l' => decide (l' ≠ l)) τ e' i1 s1 σ1
        generalize evalE W.env W.J e' (s1, σ1) = re at hb1 ⊢
        generalize evalE W.env W.J e' (s1, mergeCells (fun l' => decide (l' ≠ l)) σ1 τ) = rs at hb1 ⊢
        cases hb1 with
        | abort => exact .inr (.inl ⟨_, rfl, rfl⟩)
        | stuck => exact .inr (.inr ⟨rfl, rfl⟩)
        | @ok x s2 σ2 hv hh =>
          dsimp only [Res.bind]
          have hσ2 : σ2 l = W.U.array t vs := (hh l hpl).trans hσ1
          rw [CellVal.read_merge hv]
          have ha : Res.ofExcept (W.J.prim .assign [.elem l (W.M.const (.U64 (BitVec.ofNat 64 i))) (x.read σ2), x] (s2, σ2)) =
              .ok (.val (x.read σ2), (s2, setCell σ2 l (W.U.array t (vs.set i (W.U.load (x.read σ2) s2))))) := by
            show Res.ok (CellVal.val (x.read σ2), (s2, setCell σ2 l (W.M.set (σ2 l) (W.M.const (.U64 (BitVec.ofNat 64 i)))
              (W.U.load (x.read σ2) s2)))) = _
            rw [hσ2, hW.set t vs i _ (by omega) (by omega)]
          rw [ha]
          dsimp only [Res.bind]
          generalize W.U.load (x.read σ2) s2 = v
          rcases o2 s2 _ (mergeCells (fun l' => decide (l' ≠ l)) σ2 τ) _ (setCell_same σ2 l (W.U.array t (vs.set i v))) (by simp only [List.length_set]; omega)
            (by simpa using hb) (fun l' hl' => by rw [setCell_other (of_decide_eq_true hl'), mergeCells_low hl']) with
            ⟨s3, σ3, τ3, ws, r3, r3', f3, e3⟩ | ⟨c, r3, r3'⟩ | ⟨r3, r3'⟩
          · refine .inl ⟨s3, σ3, τ3, v :: ws, r3, by rw [r3'], f3, ?_⟩
            rw [e3]
            congr 1
            have : (vs.set i v).take (i + 1) = vs.take i ++ [v] := by
              rw [List.take_add_one, List.getElem?_set_self (by omega), List.take_set_of_le (Nat.le_refl _)]
              rfl
            rw [this, List.append_assoc]
            rfl
          · exact .inr (.inl ⟨c, r3, by rw [r3']⟩)
          · exact .inr (.inr ⟨r3, by rw [r3']⟩)
      · exact .inr (.inl ⟨c, by rw [r1]; rfl, by rw [r1']; rfl⟩)
      · exact .inr (.inr ⟨by rw [r1]; rfl, by rw [r1']; rfl⟩)

/-- **C31**, array literals: the code for `[e1, ..., en]` is a set-up and a variable. Running the set-up does what the
desugared elements do, one after the other and nothing else, and leaves in the variable the array of the values the
elements have, in order. -/
theorem C31_array_literals_hold_their_elements (hW : W.Laws) {es : List TypedExpr} {t : TypeId} {e' : TypedExpr} {st st' : DsState}
    (hes : Expr.allIn (fun l => decide (l.toNat < W.start)) es = true) (hnb : Expr.noBlocksAll es = true) (hn : es.length < 2 ^ 64)
    (hst : W.start ≤ st.next) (ht : Typed W.Q st') (hd : dsExpr W.D (.ArrayLit es (some t)) st = .ok (e', st')) :
    ∃ l st1 ps P, W.D.fresh st (.Array t) = .ok (l, st1) ∧ DsEach W.D es st1 ps ∧ st'.pending = st.pending ++ P ∧
      ∀ s σ, BuildsArray W t l P e' (s, σ) (runElems W ps (s, σ)) := by
  rw [dsExpr] at hd
  obtain ⟨⟨l, st1⟩, h1, hd⟩ := except_bind_ok hd
  obtain ⟨st2, h2, hd⟩ := except_bind_ok hd
  dsimp only at hd h2
  cases hd
  obtain ⟨f1, f2, f3, f4⟩ := dsFresh_ok hW.grows h1
  have g2 := dsElems_grows hW.grows es h2
  have ht1 : Typed W.Q st1 := fun x hx => ht x (g2.locals x hx)
  have hl : W.Q.local_ l = .ok (.Array t) := ht1.fresh hW.grows h1
  obtain ⟨ps, P, d2, p2, o2⟩ := elems_run hW (l := l) (t := t) (by omega) hl es 0 (st1.push
    (.Call (.Intrinsic .ArrayResize .Void) [] [useLocal l, .Constant (.U64 (BitVec.ofNat 64 es.length))])) st' hnb
    (allIn_mono (fun l' hl' => by have := of_decide_eq_true hl'; exact decide_eq_true (by rintro rfl; omega)) es hes) (show l.toNat < st1.next by omega) h2
  refine ⟨l, st1, ps, .Call (.Intrinsic .ArrayResize .Void) [] [useLocal l, .Constant (.U64 (BitVec.ofNat 64 es.length))] :: P, h1, d2.pending _, ?_, ?_⟩
  · rw [p2]
    show st1.pending ++ _ ++ P = _
    rw [f3]
    simp [List.append_assoc]
  · intro s σ
    obtain ⟨vs, hvs, hr⟩ := hW.resize t (σ l) (BitVec.ofNat 64 es.length)
    have hlen : vs.length = es.length := by
      rw [hvs, BitVec.toNat_ofNat]
      exact Nat.mod_eq_of_lt hn
    have hrr := fun P => run_resize (P := P) (s := s) hW (by omega) hl hr
    rcases o2 s _ σ vs (setCell_same σ l _) (by omega) (by omega) (fun l' hl' => setCell_other (of_decide_eq_true hl')) with
      ⟨s1, σ1, τ1, ws, r1, r1', f1', e1⟩ | ⟨c, r1, r1'⟩ | ⟨r1, r1'⟩
    · rw [r1']
      exact ⟨σ1, .var l, (hrr P).trans r1, fun l' hl' => f1' l' (decide_eq_true hl'), evalE_local_new (by omega), by show σ1 l = _; simpa using e1⟩
    · rw [r1']; exact (hrr P).trans r1
    · rw [r1']; exact (hrr P).trans r1

/-- One part of an interpolated string after the text so far. -/
theorem joinPart_eval (hW : W.Laws) {str : TypeId} {add : Idx} (hs : W.D.stringTy = .ok str) (ha : W.D.addStr = .ok add)
    {acc x q : TypedExpr} {ty : TypeId} {u : Text} (hacc : typeTree W.Q acc = .ok str) (ht : typeTree W.Q x = .ok ty)
    (h : W.D.textOf str x = .ok q) {rA : S × (Idx → V) → Res A (Text × (S × (Idx → V)))}
    (h1 : ∀ t, evalE W.env W.J acc t = (rA t).bind fun (a, t) => .ok (.val (W.U.string a), t)) (t : S × (Idx → V)) :
    evalE W.env W.J (joinPart str add acc q u) t = (rA t).bind fun (a, t) => (evalE W.env W.J x t).bind fun (y, t) =>
      .ok (.val (W.U.string (a ++ (W.U.format ty (y.read t.2) t.1 ++ u))), t) := by
  obtain ⟨info, pp, qq, hf, hp, hpd, hqd, hasg, hc⟩ := hW.addStr add ha
  obtain ⟨k1, hk1, hr1⟩ := evalE_asRef (str := str) hW hacc
  obtain ⟨k2, hk2, hr2⟩ := evalE_combined (u := u) hW hs ha ht h
  unfold joinPart
  dsimp only
  rw [evalE_call2 t hf hp hpd hqd, hk1, h1]
  cases rA t with
  | abort a => rfl
  | stuck => rfl
  | ok a =>
    obtain ⟨a, s1, σ1⟩ := a
    dsimp only [Res.bind]
    obtain ⟨r0, h4, h5⟩ := hr1 (.val (W.U.string a)) s1 σ1
    rw [h4]
    dsimp only [Res.bind]
    rw [hk2]
    cases evalE W.env W.J x (s1, σ1) with
    | abort a => rfl
    | stuck => rfl
    | ok y =>
      obtain ⟨y, s2, σ2⟩ := y
      dsimp only [Res.bind]
      obtain ⟨r1, h8, h9⟩ := hr2 y s2 σ2
      rw [h8]
      dsimp only [Res.bind]
      rw [call_addStr hasg hc]
      show Res.ok (CellVal.val (W.U.string (W.U.text r0 s2 ++ W.U.text (r1.read σ2) s2)), _) = _
      rw [h5, h9]
      show Res.ok (CellVal.val (W.U.string (W.U.text (W.U.string a) s2 ++ _)), _) = _
      rw [hW.text]

/-- The parts of an interpolated string, one by one. -/
theorem parts_run (hW : W.Laws) {str : TypeId} {add : Idx} (hs : W.D.stringTy = .ok str) (ha : W.D.addStr = .ok add) :
    ∀ (parts : List (TypedExpr × Text)) {acc e' : TypedExpr} {st st' : DsState} {rA : S × (Idx → V) → Res A (Text × (S × (Idx → V)))},
      Expr.noBlocksParts parts = true → typeTree W.Q acc = .ok str →
      (∀ t, evalE W.env W.J acc t = (rA t).bind fun (a, t) => .ok (.val (W.U.string a), t)) →
      dsParts W.D str add parts acc st = .ok (e', st') →
      ∃ ps, DsEach W.D (parts.map (·.1)) st ps ∧ st'.pending = st.pending ++ (ps.map (·.1)).flatten ∧
        ∀ t, evalE W.env W.J e' t = (rA t).bind fun (a, t) => (runParts W ((ps.map (·.2)).zip (parts.map (·.2))) t).bind fun (u, t) =>
          .ok (.val (W.U.string (a ++ u)), t)
  | [], acc, e', st, st', rA, hnb, hacc, h1, h => by
    cases h
    refine ⟨[], .nil, by simp, fun t => ?_⟩
    rw [h1]
    cases rA t with
    | abort a => rfl
    | stuck => rfl
    | ok a => simp [Res.bind, runParts]
  | (e, text) :: parts, acc, e', st, st', rA, hnb, hacc, h1, h => by
    rw [Expr.noBlocksParts, Bool.and_eq_true] at hnb
    rw [dsParts] at h
    obtain ⟨⟨x, st1⟩, d1, h⟩ := except_bind_ok h
    obtain ⟨q, d2, h⟩ := except_bind_ok h
    dsimp only at d2 h
    have hty : ∃ ty, typeTree W.Q x = .ok ty := by
      unfold DsEnv.textOf at d2
      rw [hW.dsTypes] at d2
      cases h4 : typeTree W.Q x with
      | error x => rw [h4] at d2; cases d2
      | ok ty => exact ⟨ty, rfl⟩
    obtain ⟨ty, hty⟩ := hty
    obtain ⟨P1, p1, y1⟩ := dsExpr_adds W.D e hnb.1 st x st1 d1
    have hj : typeTree W.Q (joinPart str add acc q text) = .ok str := by
      show W.Q.result add = .ok str
      rw [hW.sumTy add ha]
      exact hW.stringTy str hs _
    obtain ⟨ps, d3, p3, e3⟩ := parts_run hW hs ha parts (rA := fun t => (rA t).bind fun (a, t) => (evalE W.env W.J x t).bind fun (y, t) =>
      .ok (a ++ (W.U.format ty (y.read t.2) t.1 ++ text), t)) hnb.2 hj (fun t => by
        rw [joinPart_eval hW hs ha hacc hty d2 h1]
        cases rA t with
        | abort a => rfl
        | stuck => rfl
        | ok a =>
          dsimp only [Res.bind]
          cases evalE W.env W.J x a.2 <;> rfl) h
    refine ⟨(P1, x) :: ps, .cons (y1 []) (d3.pending _), ?_, fun t => ?_⟩
    · rw [p3, p1]
      simp [List.append_assoc]
    · rw [e3]
      cases rA t with
      | abort a => rfl
      | stuck => rfl
      | ok a =>
        have hz : (((P1, x) :: ps).map (·.2)).zip (((e, text) :: parts).map (·.2)) = (x, text) :: (ps.map (·.2)).zip (parts.map (·.2)) := rfl
        dsimp only [Res.bind]
        rw [hz, runParts_cons, hW.types, hty]
        dsimp only
        cases evalE W.env W.J x a.2 with
        | abort a => rfl
        | stuck => rfl
        | ok y =>
          dsimp only [Res.bind]
          cases runParts W ((ps.map (·.2)).zip (parts.map (·.2))) y.2 with
          | abort a => rfl
          | stuck => rfl
          | ok z => simp [List.append_assoc]

/-- **C31**, interpolated strings: running the code for `s"a\(e1)b...\(en)c"` runs the set-ups of the parts and then
evaluates the desugared parts in order; the value is the string of the literal parts and of the texts for the values
of the parts, in order. -/
theorem C31_interpolated_strings_join_their_parts (hW : W.Laws) {start : Text} {parts : List (TypedExpr × Text)} {e' : TypedExpr} {st st' : DsState}
    (hnb : Expr.noBlocksParts parts = true) (hd : dsExpr W.D (.InterpolatedString start parts) st = .ok (e', st')) :
    ∃ ps, DsEach W.D (parts.map (·.1)) st ps ∧ st'.pending = st.pending ++ (ps.map (·.1)).flatten ∧
      ∀ t, evalE W.env W.J e' t = (runParts W ((ps.map (·.2)).zip (parts.map (·.2))) t).bind fun (u, t) => .ok (.val (W.U.string (start ++ u)), t) := by
  rw [dsExpr] at hd
  obtain ⟨str, hs, hd⟩ := except_bind_ok hd
  obtain ⟨add, ha, hd⟩ := except_bind_ok hd
  exact parts_run hW hs ha parts (rA := fun t => .ok (start, t)) hnb (by rw [typeTree]; exact hW.stringTy str hs _)
    (fun t => by rw [evalE_const hW, hW.string]; rfl) hd

end

end Redscript
