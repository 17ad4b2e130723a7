import Verif.Desugar.ExprProps

/-!
# Expressions with constant literals keep their values
-/

namespace Redscript

section
variable {V S A : Type} {W : DsWorld V S A}

/-! ## First operands -/

theorem firstType_ds (hW : W.Laws) {es es' : List TypedExpr} {st st' : DsState} (ht : Typed W.Q st')
    (h : dsList W.D es st = .ok (es', st')) : firstType W.env es' = firstType W.env es ∧ es'.isEmpty = es.isEmpty := by
  cases es with
  | nil => cases h; exact ⟨rfl, rfl⟩
  | cons e es =>
    rw [dsList] at h
    obtain ⟨r, h1, h⟩ := except_bind_ok h
    obtain ⟨r', h2, h⟩ := except_bind_ok h
    cases h
    have g := dsList_grows hW.grows es h2
    refine ⟨?_, rfl⟩
    simp only [firstType, hW.types]
    rw [dsExpr_type hW e (ht.mono g) h1]

theorem firstPlain_ds (hW : W.Laws) {es es' : List TypedExpr} {st st' : DsState}
    (h : dsList W.D es st = .ok (es', st')) (hp : firstPlain W.start es = true) : firstPlain W.start es' = true := by
  cases es with
  | nil => cases h; rfl
  | cons e es =>
    rw [dsList] at h
    obtain ⟨r, h1, h⟩ := except_bind_ok h
    obtain ⟨r', h2, h⟩ := except_bind_ok h
    cases h
    exact dsExpr_plain hW e hp h1

theorem callOk_ds (hW : W.Laws) {f : Idx} {es es' : List TypedExpr} {st st' : DsState}
    (h : dsList W.D es st = .ok (es', st')) (hp : W.callOk f es) : W.callOk f es' := by
  rcases hp with hp | hp
  · exact .inl (firstPlain_ds hW h hp)
  · exact .inr hp

theorem dsParts_call (D : DsEnv) : ∀ (ps : List (TypedExpr × Text)) {str : TypeId} {add : Idx} {acc e' : TypedExpr} {st st' : DsState},
    acc.isTypeName = false → acc.isSuper = false → dsParts D str add ps acc st = .ok (e', st') →
      e'.isTypeName = false ∧ e'.isSuper = false
  | [], str, add, acc, e', st, st', h1, h2, h => by cases h; exact ⟨h1, h2⟩
  | (e, t) :: ps, str, add, acc, e', st, st', h1, h2, h => by
    rw [dsParts] at h
    obtain ⟨r, h3, h⟩ := except_bind_ok h
    obtain ⟨p, h4, h⟩ := except_bind_ok h
    exact dsParts_call D ps rfl rfl h

/-- Desugaring gives no type names and no `super`. -/
theorem dsExpr_form (D : DsEnv) {e e' : TypedExpr} {st st' : DsState} (h : dsExpr D e st = .ok (e', st')) :
    e'.isTypeName = e.isTypeName ∧ e'.isSuper = e.isSuper := by
  cases e with
  | Ident r => cases h; exact ⟨rfl, rfl⟩
  | Constant c => cases h; exact ⟨rfl, rfl⟩
  | This => cases h; exact ⟨rfl, rfl⟩
  | Super => cases h; exact ⟨rfl, rfl⟩
  | Break => cases h; exact ⟨rfl, rfl⟩
  | Null => cases h; exact ⟨rfl, rfl⟩
  | Goto t => cases h; exact ⟨rfl, rfl⟩
  | ArrayLit es ty =>
    cases ty with
    | none => cases h
    | some ty =>
      rw [dsExpr] at h
      obtain ⟨r, h1, h⟩ := except_bind_ok h
      obtain ⟨r', h2, h⟩ := except_bind_ok h
      cases h
      exact ⟨rfl, rfl⟩
  | InterpolatedString s ps =>
    rw [dsExpr] at h
    obtain ⟨r, h1, h⟩ := except_bind_ok h
    obtain ⟨r', h2, h⟩ := except_bind_ok h
    exact dsParts_call D ps rfl rfl h
  | Declare l ty init =>
    cases init with
    | none => cases h; exact ⟨rfl, rfl⟩
    | some e =>
      rw [dsExpr] at h
      obtain ⟨r, h1, h⟩ := except_bind_ok h
      cases h
      exact ⟨rfl, rfl⟩
  | Return e =>
    cases e with
    | none => cases h; exact ⟨rfl, rfl⟩
    | some e =>
      rw [dsExpr] at h
      obtain ⟨r, h1, h⟩ := except_bind_ok h
      cases h
      exact ⟨rfl, rfl⟩
  | ForIn x a b =>
    rw [dsExpr] at h
    obtain ⟨r, h1, h⟩ := except_bind_ok h
    obtain ⟨r', h2, h⟩ := except_bind_ok h
    dsimp only at h
    split at h
    · cases h
    · obtain ⟨r1, h3, h⟩ := except_bind_ok h
      obtain ⟨r2, h4, h⟩ := except_bind_ok h
      obtain ⟨r3, h5, h⟩ := except_bind_ok h
      obtain ⟨r4, h6, h⟩ := except_bind_ok h
      obtain ⟨r5, h7, h⟩ := except_bind_ok h
      cases h
      exact ⟨rfl, rfl⟩
  | Cast | Call | Member | New | Seq | UnOp =>
    rw [dsExpr] at h
    obtain ⟨r, h1, h⟩ := except_bind_ok h
    cases h
    exact ⟨rfl, rfl⟩
  | Assign | MethodCall | ArrayElem | While | BinOp =>
    rw [dsExpr] at h
    obtain ⟨r, h1, h⟩ := except_bind_ok h
    obtain ⟨r', h2, h⟩ := except_bind_ok h
    cases h
    exact ⟨rfl, rfl⟩
  | Switch | If | Conditional =>
    rw [dsExpr] at h
    obtain ⟨r, h1, h⟩ := except_bind_ok h
    obtain ⟨r', h2, h⟩ := except_bind_ok h
    obtain ⟨r'', h3, h⟩ := except_bind_ok h
    cases h
    exact ⟨rfl, rfl⟩

/-- The value of a plain first operand. -/
theorem evalList_first {es : List TypedExpr} {xs : List (CellVal V)} {t t' : S × (Idx → V)}
    (hp : firstPlain W.start es = true) (he : es ≠ []) (h : evalList W.env W.J es t = .ok (xs, t')) : firstIsVal xs := by
  cases es with
  | nil => exact absurd rfl he
  | cons e es =>
    rw [evalList] at h
    obtain ⟨y, h1, h⟩ := res_bind_ok h
    obtain ⟨z, h2, h⟩ := res_bind_ok h
    cases h
    obtain ⟨v, hv⟩ := isPlain_val e hp (x := y.1) (t' := y.2) h1
    rw [hv]
    trivial

theorem evalArgs_prefix {env : AsmEnv} {I : Interp V S A} {c : Callee} {recv : Option V} : ∀ (es : List TypedExpr)
    (ps : List ParameterFlags) (acc : List (Option V)) {xs : List (Option V)} {s s' : S},
    evalArgs env I c recv es ps acc s = .ok (xs, s') → ∃ ys, xs = acc ++ ys
  | [], ps, acc, xs, s, s', h => by rw [evalArgs] at h; cases h; exact ⟨_, rfl⟩
  | _ :: _, [], acc, xs, s, s', h => by rw [evalArgs] at h; cases h
  | e :: es, p :: ps, acc, xs, s, s', h => by
    rw [evalArgs] at h
    split at h
    · obtain ⟨ys, hy⟩ := evalArgs_prefix es ps _ h
      exact ⟨none :: ys, by rw [hy]; simp⟩
    · obtain ⟨y, h1, h⟩ := res_bind_ok h
      obtain ⟨ys, hy⟩ := evalArgs_prefix es ps _ h
      exact ⟨some y.1 :: ys, by rw [hy]; simp⟩

theorem evalArgs_first {c : Callee} {recv : Option (CellVal V)} {es : List TypedExpr} {ps : List ParameterFlags}
    {xs : List (Option (CellVal V))} {t t' : S × (Idx → V)} (hp : firstPlain W.start es = true)
    (h : evalArgs W.env W.J c recv es ps [] t = .ok (xs, t')) : ∀ l w, xs ≠ [some (.var l), some w] := by
  cases es with
  | nil =>
    rw [evalArgs] at h
    cases h
    intro l w hx
    cases ps with
    | nil => cases hx
    | cons p ps => cases hx
  | cons e es =>
    cases ps with
    | nil => rw [evalArgs] at h; cases h
    | cons p ps =>
      rw [evalArgs] at h
      split at h
      · obtain ⟨ys, hy⟩ := evalArgs_prefix _ _ _ h
        rw [hy]
        nofun
      · obtain ⟨y, h1, h⟩ := res_bind_ok h
        obtain ⟨ys, hy⟩ := evalArgs_prefix _ _ _ h
        obtain ⟨v, hv⟩ := isPlain_val e hp (x := y.1) (t' := y.2) h1
        rw [hy, hv]
        intro l w hx
        simp at hx

/-- Calls of the source. -/
theorem call_same {f : Idx} {c : Callee} {info : FnInfo} {es : List TypedExpr} {ps : List ParameterFlags}
    (hok : W.callOk f es) (hf : W.env.function f = .ok info) (hc : c = .fixed f ∨ c = calleeOf info false f)
    {xs : List (Option (CellVal V))} {vs : List (Option V)} {s : S} {σ : Idx → V} {t : S × (Idx → V)}
    (he : evalArgs W.env W.J c none es ps [] t = .ok (xs, (s, σ))) (h : ReadsOpts σ xs vs) :
    Same CellReads σ (.ofExcept (W.J.call c none xs (s, σ))) (.ofExcept (W.I.call c none vs s)) := by
  refine Same.call c rfl h ?_
  intro h1 h2
  rcases hok with hp | ⟨h3, h4⟩
  · exact evalArgs_first hp he
  · rcases hc with rfl | rfl
    · exact absurd h1 h3
    · exact absurd h1 (h4 info hf)

theorem prim_same (op : Op) {σ : Idx → V} {xs : List (CellVal V)} {vs : List V} {s : S} (h : ReadsAll σ xs vs)
    (h1 : ∀ l, op = .getLocal l → l.toNat < W.start) (h2 : op = .assign → firstIsVal xs)
    (h3 : ∀ ty, op = .intrinsic .ArrayResize ty → firstIsVal xs) :
    Same CellReads σ (.ofExcept (W.J.prim op xs (s, σ))) (.ofExcept (W.I.prim op vs s)) :=
  Same.prim op h h1 h2 h3

/-! ## The claim -/

/-- Desugaring splits an expression into a pure set-up and the rest. -/
def FixedClaim (W : DsWorld V S A) (lits : Bool) (e : TypedExpr) : Prop :=
  ∀ st st' e', Typed W.Q st' → W.start ≤ st.next → dsExpr W.D e st = .ok (e', st') →
    ∃ P good, st'.pending = st.pending ++ P ∧ (lits = false → P = []) ∧ Setup W st.next st'.next P good ∧
      ∀ s σ, good σ → Same CellReads σ (evalE W.env W.J e' (s, σ)) (evalS W.env W.I W.U e s)

/-- The same for operands. -/
def FixedListClaim (W : DsWorld V S A) (lits : Bool) (es : List TypedExpr) : Prop :=
  ∀ st st' es', Typed W.Q st' → W.start ≤ st.next → dsList W.D es st = .ok (es', st') →
    ∃ P good, st'.pending = st.pending ++ P ∧ (lits = false → P = []) ∧ Setup W st.next st'.next P good ∧
      (∀ s σ, good σ → Same ReadsAll σ (evalList W.env W.J es' (s, σ)) (evalSList W.env W.I W.U es s)) ∧
      ∀ c recv recv' ps acc acc' s σ, good σ → ReadsOpt σ recv recv' → ReadsOpts σ acc acc' →
        Same ReadsOpts σ (evalArgs W.env W.J c recv es' ps acc (s, σ)) (evalSArgs W.env W.I W.U c recv' es ps acc' s)

theorem FixedClaim.leaf {lits : Bool} {e : TypedExpr} (hd : ∀ st, dsExpr W.D e st = .ok (e, st))
    (h : ∀ s σ, Same CellReads σ (evalE W.env W.J e (s, σ)) (evalS W.env W.I W.U e s)) : FixedClaim W lits e := by
  intro st st' e' _ _ h1
  rw [hd] at h1
  cases h1
  exact ⟨[], fun _ => True, by simp, fun _ => rfl, .nil _ _ _, fun s σ _ => h s σ⟩

/-- One operand. -/
theorem FixedClaim.one {lits : Bool} {e : TypedExpr} {f : TypedExpr → TypedExpr} (h : FixedClaim W lits e)
    (hd : ∀ st, dsExpr W.D (f e) st = (dsExpr W.D e st >>= fun r => .ok (f r.1, r.2)))
    (he : ∀ e' s σ, Same CellReads σ (evalE W.env W.J e' (s, σ)) (evalS W.env W.I W.U e s) →
      Same CellReads σ (evalE W.env W.J (f e') (s, σ)) (evalS W.env W.I W.U (f e) s)) : FixedClaim W lits (f e) := by
  intro st st' e' ht hst h1
  rw [hd] at h1
  obtain ⟨r, h2, h1⟩ := except_bind_ok h1
  cases h1
  obtain ⟨P, good, h3, h4, h5, h6⟩ := h st r.2 r.1 ht hst h2
  exact ⟨P, good, h3, h4, h5, fun s σ hg => he _ _ _ (h6 s σ hg)⟩

theorem fixedList_claim (hW : W.Laws) {lits : Bool} : ∀ {es : List TypedExpr}, (∀ e ∈ es, FixedClaim W lits e) → FixedListClaim W lits es
  | [], _, st, st', es', ht, hst, h => by
    cases h
    refine ⟨[], fun _ => True, by simp, fun _ => rfl, .nil _ _ _, fun s σ _ => .ok rfl, ?_⟩
    intro c recv recv' ps acc acc' s σ _ _ h2
    rw [evalArgs, evalSArgs]
    refine .ok ?_
    unfold ReadsOpts at h2 ⊢
    rw [List.map_append, h2]
    simp
  | e :: es, hes, st, st', es', ht, hst, h => by
    rw [dsList] at h
    obtain ⟨r, h1, h⟩ := except_bind_ok h
    obtain ⟨r', h2, h⟩ := except_bind_ok h
    obtain ⟨e1, st1⟩ := r
    obtain ⟨es1, st2⟩ := r'
    cases h
    dsimp only at h2
    have g1 := dsExpr_grows hW.grows e h1
    have g2 := dsList_grows hW.grows es h2
    have n1 := g1.next
    obtain ⟨P1, good1, p1, l1, s1, e1⟩ := hes e (List.mem_cons_self ..) st st1 _ (ht.mono g2) hst h1
    obtain ⟨P2, good2, p2, l2, s2, e2, a2⟩ := fixedList_claim hW (fun x hx => hes x (List.mem_cons_of_mem _ hx)) st1 st2 _ ht (by omega) h2
    refine ⟨P1 ++ P2, fun σ => good1 σ ∧ good2 σ, ?_, ?_, s1.append s2 n1 g2.next, ?_, ?_⟩
    · rw [p2, p1, List.append_assoc]
    · intro hl; rw [l1 hl, l2 hl]; rfl
    · intro s σ hg
      rw [evalList, evalSList]
      refine (e1 s σ hg.1).bind fun x y s' _ hx => (e2 s' σ hg.2).bind fun xs ys s' _ hxs => .ok ?_
      unfold ReadsAll at hxs ⊢
      rw [List.map_cons, hxs, hx]
    · intro c recv recv' ps acc acc' s σ hg hr ha
      cases ps with
      | nil => rw [evalArgs, evalSArgs]; exact .stuck
      | cons p ps =>
        rw [evalArgs, evalSArgs]
        have hd : W.J.demand c recv acc (s, σ) = W.I.demand c recv' acc' s := by
          show W.I.demand c (recv.map (·.read σ)) (acc.map (Option.map (·.read σ))) s = _
          rw [hr, ha]
        rw [hd]
        split
        · refine a2 _ _ _ _ _ _ _ _ hg.2 hr ?_
          unfold ReadsOpts at ha ⊢
          rw [List.map_append, ha]
          rfl
        · refine (e1 s σ hg.1).bind fun x y s' _ hx => a2 _ _ _ _ _ _ _ _ hg.2 hr ?_
          unfold ReadsOpts at ha ⊢
          rw [List.map_append, ha, ← hx]
          rfl

/-- Two operands. -/
theorem FixedClaim.two (hW : W.Laws) {lits : Bool} {a b : TypedExpr} {f : TypedExpr → TypedExpr → TypedExpr} (ha : FixedClaim W lits a)
    (hb : FixedClaim W lits b)
    (hd : ∀ st, dsExpr W.D (f a b) st = (dsExpr W.D a st >>= fun r => dsExpr W.D b r.2 >>= fun r' => .ok (f r.1 r'.1, r'.2)))
    (he : ∀ a' b' σ st st1, Typed W.Q st1 → dsExpr W.D a st = .ok (a', st1) →
      (∀ s, Same CellReads σ (evalE W.env W.J a' (s, σ)) (evalS W.env W.I W.U a s)) →
      (∀ s, Same CellReads σ (evalE W.env W.J b' (s, σ)) (evalS W.env W.I W.U b s)) →
      ∀ s, Same CellReads σ (evalE W.env W.J (f a' b') (s, σ)) (evalS W.env W.I W.U (f a b) s)) : FixedClaim W lits (f a b) := by
  intro st st' e' ht hst h1
  rw [hd] at h1
  obtain ⟨r, h2, h1⟩ := except_bind_ok h1
  obtain ⟨r', h3, h1⟩ := except_bind_ok h1
  cases h1
  have g1 := dsExpr_grows hW.grows a h2
  have g2 := dsExpr_grows hW.grows b h3
  have n1 := g1.next
  obtain ⟨P1, good1, p1, l1, s1, e1⟩ := ha st r.2 r.1 (ht.mono g2) hst h2
  obtain ⟨P2, good2, p2, l2, s2, e2⟩ := hb r.2 r'.2 r'.1 ht (by omega) h3
  refine ⟨P1 ++ P2, fun σ => good1 σ ∧ good2 σ, by rw [p2, p1, List.append_assoc], fun hl => by rw [l1 hl, l2 hl]; rfl,
    s1.append s2 n1 g2.next, ?_⟩
  intro s σ hg
  exact he _ _ _ _ _ (ht.mono g2) h2 (fun s => e1 s σ hg.1) (fun s => e2 s σ hg.2) s

/-- The parts of an interpolated string. -/
theorem parts_claim (hW : W.Laws) {str : TypeId} {add : Idx} (hs : W.D.stringTy = .ok str) (ha : W.D.addStr = .ok add) {lits : Bool} :
    ∀ (ps : List (TypedExpr × Text)) {acc e' : TypedExpr} {st st' : DsState}, (∀ p ∈ ps, FixedClaim W lits p.1) → Typed W.Q st' →
      W.start ≤ st.next → typeTree W.Q acc = .ok str → dsParts W.D str add ps acc st = .ok (e', st') →
      ∃ P good, st'.pending = st.pending ++ P ∧ (lits = false → P = []) ∧ Setup W st.next st'.next P good ∧
        ∀ s σ, good σ → ∀ rA, Same (IsString W) σ (evalE W.env W.J acc (s, σ)) rA →
          Same (IsString W) σ (evalE W.env W.J e' (s, σ))
            (rA.bind fun (t, s) => (evalParts W.env W.I W.U ps s).bind fun (t', s) => .ok (t ++ t', s))
  | [], acc, e', st, st', hps, ht, hst, hacc, h => by
    cases h
    refine ⟨[], fun _ => True, by simp, fun _ => rfl, .nil _ _ _, fun s σ _ rA h1 => ?_⟩
    cases rA with
    | ok x => obtain ⟨x, s'⟩ := x; simpa [Res.bind, evalParts] using h1
    | abort a => exact h1
    | stuck => exact h1
  | (e, u) :: ps, acc, e', st, st', hps, ht, hst, hacc, h => by
    rw [dsParts] at h
    obtain ⟨r, h1, h⟩ := except_bind_ok h
    obtain ⟨p, h2, h⟩ := except_bind_ok h
    obtain ⟨e1, st1⟩ := r
    dsimp only at h h2
    have g1 := dsExpr_grows hW.grows e h1
    have g2 := dsParts_grows hW.grows ps h
    have n1 := g1.next
    have hj : typeTree W.Q (joinPart str add acc p u) = .ok str := by
      show W.Q.result add = .ok str
      rw [hW.sumTy add ha]
      exact hW.stringTy str hs _
    obtain ⟨P1, good1, p1, l1, s1, e1'⟩ := hps (e, u) (List.mem_cons_self ..) st st1 _ (ht.mono g2) hst h1
    obtain ⟨P2, good2, p2, l2, s2, e2⟩ := parts_claim hW hs ha ps (fun x hx => hps x (List.mem_cons_of_mem _ hx)) ht
      (by omega : W.start ≤ st1.next) hj h
    refine ⟨P1 ++ P2, fun σ => good1 σ ∧ good2 σ, by rw [p2, p1, List.append_assoc], fun hl => by rw [l1 hl, l2 hl]; rfl,
      s1.append s2 n1 g2.next, ?_⟩
    intro s σ hg rA hA
    have hte := dsExpr_type hW e (ht.mono g2) h1
    have hty : ∃ ty, typeTree W.Q e1 = .ok ty := by
      unfold DsEnv.textOf at h2
      rw [hW.dsTypes] at h2
      cases h3 : typeTree W.Q e1 with
      | error x => rw [h3] at h2; cases h2
      | ok ty => exact ⟨ty, rfl⟩
    obtain ⟨ty, hty⟩ := hty
    have hj := joinPart_same hW hs ha (u := u) hacc hty h2 hA (rB := fun s => evalS W.env W.I W.U e s)
      (fun t s1 _ => e1' s1 σ hg.1)
    have hj' := e2 s σ hg.2 _ hj
    have heq : (rA.bind fun (t, s) => (evalParts W.env W.I W.U ((e, u) :: ps) s).bind fun (t', s) => Res.ok (t ++ t', s)) =
        ((rA.bind fun (t, s) => (evalS W.env W.I W.U e s).bind fun (v, s) => .ok (t ++ (W.U.format ty v s ++ u), s)).bind
          fun (t, s) => (evalParts W.env W.I W.U ps s).bind fun (t', s) => Res.ok (t ++ t', s)) := by
      cases rA with
      | abort a => rfl
      | stuck => rfl
      | ok x =>
        obtain ⟨t, s⟩ := x
        dsimp only [Res.bind]
        rw [evalParts, hW.types, ← hte, hty]
        dsimp only
        cases evalS W.env W.I W.U e s with
        | abort a => rfl
        | stuck => rfl
        | ok x =>
          obtain ⟨v, s⟩ := x
          dsimp only [Res.bind]
          cases evalParts W.env W.I W.U ps s with
          | abort a => rfl
          | stuck => rfl
          | ok x =>
            obtain ⟨t', s'⟩ := x
            dsimp only [Res.bind]
            simp [List.append_assoc]
    rw [heq]
    exact hj'

/-- The value of a string. -/
theorem string_same {r : Res A (CellVal V × (S × (Idx → V)))} {σ : Idx → V} {start : Text} {rP : Res A (Text × S)}
    (h : Same (IsString W) σ r (rP.bind fun (t', s) => .ok (start ++ t', s))) :
    Same CellReads σ r (rP.bind fun (t, s) => .ok (W.U.string (start ++ t), s)) := by
  cases rP with
  | abort a => cases h; exact .abort
  | stuck => cases h; exact .stuck
  | ok x =>
    obtain ⟨t, s⟩ := x
    cases h with
    | ok h => exact .ok h

theorem const_isString (hW : W.Laws) (t : Text) (s : S) (σ : Idx → V) :
    Same (IsString W) σ (evalE W.env W.J (.Constant (.String .String t)) (s, σ)) (.ok (t, s)) := by
  rw [evalE_const hW]
  exact .ok (hW.string t)

theorem string_fixed (hW : W.Laws) {lits : Bool} {t : Text} {ps : List (TypedExpr × Text)} (h : ∀ p ∈ ps, FixedClaim W lits p.1) :
    FixedClaim W lits (.InterpolatedString t ps) := by
  intro st st' e' ht hst h1
  rw [dsExpr] at h1
  obtain ⟨str, hs, h1⟩ := except_bind_ok h1
  obtain ⟨add, ha, h1⟩ := except_bind_ok h1
  obtain ⟨P, good, p1, l1, s1, e1⟩ := parts_claim hW hs ha ps h ht hst (by rw [typeTree]; exact hW.stringTy str hs t) h1
  refine ⟨P, good, p1, l1, s1, fun s σ hg => ?_⟩
  rw [evalS]
  exact string_same (e1 s σ hg _ (const_isString hW t s σ))

/-- Expressions with constant literals. -/
theorem fixed_claim (hW : W.Laws) {lits : Bool} {e : TypedExpr} (h : Fixed W lits e) : FixedClaim W lits e := by
  induction h with
  | local_ hl =>
    refine .leaf (fun st => rfl) fun s σ => ?_
    rw [evalE.eq_def, evalS.eq_def]
    exact prim_same _ rfl (fun l h => by cases h; exact hl) nofun nofun
  | param =>
    refine .leaf (fun st => rfl) fun s σ => ?_
    rw [evalE.eq_def, evalS.eq_def]
    exact prim_same _ rfl (fun l h => nomatch h) nofun nofun
  | symbol =>
    refine .leaf (fun st => rfl) fun s σ => ?_
    rw [evalE.eq_def, evalS.eq_def]
    exact .stuck
  | const | null | this | super =>
    refine .leaf (fun st => rfl) fun s σ => ?_
    rw [evalE.eq_def, evalS.eq_def]
    exact prim_same _ rfl (fun l h => nomatch h) nofun nofun
  | array hl hc =>
    intro st st' e' ht hst h1
    obtain ⟨P, p1, hi⟩ := const_inert hW hc st st' e' ht hst h1
    obtain ⟨v, hv, -⟩ := const_pure hW hc
    obtain ⟨good, h2, h3⟩ := hi.setup hv
    exact ⟨P, good, p1, fun h => (by rw [hl] at h; cases h), h2, h3⟩
  | string _ ih => exact string_fixed hW ih
  | @cast ty e _ ih =>
    refine FixedClaim.one (f := .Cast ty) ih (fun st => by rw [dsExpr]) fun e' s σ h1 => ?_
    rw [evalE.eq_def, evalS.eq_def]
    dsimp only
    cases ty with
    | Class c =>
      refine h1.bind fun x y s' _ hx => ?_
      exact prim_same _ (congrArg (fun x => [x]) hx) (fun l h => nomatch h) nofun nofun
    | _ => exact .stuck
  | @assign a b hp _ _ ih1 ih2 =>
    refine FixedClaim.two hW (f := .Assign) ih1 ih2 (fun st => by rw [dsExpr]) fun a' b' σ st st1 ht hd h1 h2 s => ?_
    rw [evalE.eq_def, evalS.eq_def]
    dsimp only
    refine (h1 s).bind fun x y s' hx' hx => (h2 s').bind fun x1 y1 s' _ hx1 => ?_
    obtain ⟨v, hv⟩ := isPlain_val a' (dsExpr_plain hW a hp hd) hx'
    subst hv
    refine prim_same _ ?_ (fun l h => nomatch h) (fun _ => trivial) nofun
    show [_, _] = [_, _]
    rw [← hx, ← hx1]
  | @elem a i _ _ ih1 ih2 =>
    refine FixedClaim.two hW (f := .ArrayElem) ih1 ih2 (fun st => by rw [dsExpr]) fun a' b' σ st st1 ht hd h1 h2 s => ?_
    rw [evalE.eq_def, evalS.eq_def]
    dsimp only
    rw [hW.types, dsExpr_type hW a ht hd]
    cases typeTree W.Q a with
    | ok ty =>
      refine (h1 s).bind fun x y s' hx' hx => (h2 s').bind fun x1 y1 s' _ hx1 => ?_
      refine prim_same _ ?_ (fun l h => nomatch h) nofun nofun
      show [_, _] = [_, _]
      rw [← hx, ← hx1]
    | error x => exact .stuck
  | @new ty args _ ih =>
    intro st st' e' ht hst h1
    rw [dsExpr] at h1
    obtain ⟨r, h2, h1⟩ := except_bind_ok h1
    cases h1
    obtain ⟨P, good, p1, l1, s1, e1, -⟩ := fixedList_claim hW ih st r.2 r.1 ht hst h2
    refine ⟨P, good, p1, l1, s1, fun s σ hg => ?_⟩
    rw [evalE.eq_def, evalS.eq_def]
    dsimp only
    rw [(firstType_ds hW ht h2).2]
    cases ty with
    | Class c =>
      dsimp only
      split
      · exact prim_same _ rfl (fun l h => nomatch h) nofun nofun
      · exact .stuck
    | Struct c =>
      refine (e1 s σ hg).bind fun x y s' _ hx => ?_
      exact prim_same _ hx (fun l h => nomatch h) nofun nofun
    | _ => exact .stuck
  | @cond c t e _ _ _ ih1 ih2 ih3 =>
    intro st st' e' ht hst h1
    rw [dsExpr] at h1
    obtain ⟨r, h2, h1⟩ := except_bind_ok h1
    obtain ⟨r', h3, h1⟩ := except_bind_ok h1
    obtain ⟨r'', h4, h1⟩ := except_bind_ok h1
    cases h1
    have g1 := dsExpr_grows hW.grows c h2
    have g2 := dsExpr_grows hW.grows t h3
    have g3 := dsExpr_grows hW.grows e h4
    have n1 := g1.next
    have n2 := g2.next
    have n3 := g3.next
    obtain ⟨P1, good1, p1, l1, s1, e1⟩ := ih1 st r.2 r.1 (ht.mono (g2.trans g3)) hst h2
    obtain ⟨P2, good2, p2, l2, s2, e2⟩ := ih2 r.2 r'.2 r'.1 (ht.mono g3) (by omega) h3
    obtain ⟨P3, good3, p3, l3, s3, e3⟩ := ih3 r'.2 r''.2 r''.1 ht (by omega) h4
    refine ⟨(P1 ++ P2) ++ P3, fun σ => (good1 σ ∧ good2 σ) ∧ good3 σ, by rw [p3, p2, p1]; simp only [List.append_assoc],
      fun hl => by rw [l1 hl, l2 hl, l3 hl]; rfl, (s1.append s2 n1 n2).append s3 (by omega) n3, fun s σ hg => ?_⟩
    rw [evalE.eq_def, evalS.eq_def]
    dsimp only
    refine (e1 s σ hg.1.1).bind fun x y s' _ hx => ?_
    have : W.J.truth x (s', σ) = W.I.truth y s' := by
      show W.I.truth (x.read σ) s' = _
      rw [hx]
    dsimp only
    rw [this]
    split
    · exact e2 s' σ hg.1.2
    · exact e3 s' σ hg.2
  | @member e m _ ih =>
    refine FixedClaim.one (f := fun e => .Member e m) ih (fun st => by rw [dsExpr]) fun e' s σ h1 => ?_
    rw [evalE.eq_def, evalS.eq_def]
    dsimp only
    split
    · refine h1.bind fun x y s' _ hx => ?_
      have : W.J.isNull x (s', σ) = W.I.isNull y s' := by
        show W.I.isNull (x.read σ) s' = _
        rw [hx]
      dsimp only
      rw [this]
      split
      · exact .ok rfl
      · exact prim_same _ (congrArg (fun x => [x]) hx) (fun l h => nomatch h) nofun nofun
    · refine h1.bind fun x y s' _ hx => ?_
      exact prim_same _ (congrArg (fun x => [x]) hx) (fun l h => nomatch h) nofun nofun
    · exact prim_same _ rfl (fun l h => nomatch h) nofun nofun
  | @intrinsic op ty tys args hp _ ih =>
    intro st st' e' ht hst h1
    rw [dsExpr] at h1
    obtain ⟨r, h2, h1⟩ := except_bind_ok h1
    cases h1
    obtain ⟨P, good, p1, l1, s1, e1, -⟩ := fixedList_claim hW ih st r.2 r.1 ht hst h2
    refine ⟨P, good, p1, l1, s1, fun s σ hg => ?_⟩
    rw [evalE.eq_def, evalS.eq_def]
    dsimp only
    rw [(firstType_ds hW ht h2).1]
    cases ho : intrinsicMeaning op (firstType W.env args) ty with
    | none => exact .stuck
    | some o =>
      obtain ⟨o1, o2, o3, o4⟩ := intrinsicMeaning_form ho
      refine (e1 s σ hg).bind fun x y s' hx' hx => ?_
      refine prim_same _ hx (fun l h => absurd h (o1 l)) (fun h => absurd h o2) fun t h => ?_
      obtain ⟨h3, h4⟩ := o4 t h
      subst h3
      refine evalList_first (firstPlain_ds hW h2 (hp rfl)) ?_ hx'
      intro h5
      have := (firstType_ds hW ht h2).1
      rw [h5] at this
      exact h4 this.symm
  | @call f tys args hok _ ih =>
    intro st st' e' ht hst h1
    rw [dsExpr] at h1
    obtain ⟨r, h2, h1⟩ := except_bind_ok h1
    cases h1
    obtain ⟨P, good, p1, l1, s1, -, a1⟩ := fixedList_claim hW ih st r.2 r.1 ht hst h2
    refine ⟨P, good, p1, l1, s1, fun s σ hg => ?_⟩
    rw [evalE.eq_def, evalS.eq_def]
    dsimp only
    cases hf : W.env.function f with
    | error x => exact .stuck
    | ok info =>
      refine (a1 _ none none _ [] [] s σ hg rfl rfl).bind fun x y s' hx' hx => ?_
      exact call_same (callOk_ds hW h2 hok) hf (.inr rfl) hx' hx
  | @method ctx f args hok _ _ ih1 ih2 =>
    intro st st' e' ht hst h1
    rw [dsExpr] at h1
    obtain ⟨r, h2, h1⟩ := except_bind_ok h1
    obtain ⟨r', h3, h1⟩ := except_bind_ok h1
    cases h1
    have g1 := dsExpr_grows hW.grows ctx h2
    have g2 := dsList_grows hW.grows args h3
    have n1 := g1.next
    obtain ⟨P1, good1, p1, l1, s1, e1⟩ := ih1 st r.2 r.1 (ht.mono g2) hst h2
    obtain ⟨P2, good2, p2, l2, s2, -, a2⟩ := fixedList_claim hW ih2 r.2 r'.2 r'.1 ht (by omega) h3
    refine ⟨P1 ++ P2, fun σ => good1 σ ∧ good2 σ, by rw [p2, p1, List.append_assoc], fun hl => by rw [l1 hl, l2 hl]; rfl,
      s1.append s2 n1 g2.next, fun s σ hg => ?_⟩
    obtain ⟨hf1, hf2⟩ := dsExpr_form W.D h2
    rw [evalE.eq_def, evalS.eq_def]
    dsimp only
    rw [hf1, hf2]
    cases hf : W.env.function f with
    | error x => exact .stuck
    | ok info =>
      dsimp only
      split
      · refine (a2 _ none none _ [] [] s σ hg.2 rfl rfl).bind fun x y s' hx' hx => ?_
        exact call_same (callOk_ds hW h3 hok) hf (.inl rfl) hx' hx
      · refine (e1 s σ hg.1).bind fun x y s' _ hx => ?_
        have : W.J.isNull x (s', σ) = W.I.isNull y s' := by
          show W.I.isNull (x.read σ) s' = _
          rw [hx]
        dsimp only
        rw [this]
        split
        · exact .ok rfl
        · refine (a2 _ (some x) (some y) _ [] [] s' σ hg.2 (congrArg some hx) rfl).bind fun x1 y1 s1 hx1' hx1 => ?_
          exact Same.call _ (congrArg some hx) hx1 nofun

end

end Redscript
