import Verif.Desugar.FixedClaim

/-!
# Expressions with literals in order keep their values
-/

namespace Redscript

section
variable {V S A : Type} {W : DsWorld V S A}

/-- A receiver and arguments with these contents. -/
def ReadsCall (σ : Idx → V) (x : Option (CellVal V) × List (Option (CellVal V))) (y : Option V × List (Option V)) : Prop :=
  ReadsOpt σ x.1 y.1 ∧ ReadsOpts σ x.2 y.2

/-- Operands: those before the literal have nothing to do, those after have constant literals. -/
theorem ordList_claim (hW : W.Laws) {e : TypedExpr} {post : List TypedExpr} (he : OrdClaim W e) (hpost : ∀ x ∈ post, FixedClaim W true x) :
    ∀ {pre : List TypedExpr} (_ : ∀ x ∈ pre, InertClaim W x) {st st' : DsState} {es' : List TypedExpr}, Typed W.Q st' → W.start ≤ st.next →
      dsList W.D (pre ++ e :: post) st = .ok (es', st') → ∃ P, st'.pending = st.pending ++ P ∧
        InOrder W st.next st'.next P (NoParam V) (fun _ => evalList W.env W.J es') (fun _ => evalSList W.env W.I W.U (pre ++ e :: post))
          ReadsAll ∧
        ∀ c ps, pre.length < ps.length → (∀ p ∈ ps.take (pre.length + 1), onDemand p = false) →
          InOrder W st.next st'.next P ReadsCall (fun x => evalArgs W.env W.J c x.1 es' ps x.2)
            (fun y => evalSArgs W.env W.I W.U c y.1 (pre ++ e :: post) ps y.2) ReadsOpts
  | [], _, st, st', es', ht, hst, h => by
    rw [List.nil_append, dsList] at h
    obtain ⟨r, h1, h⟩ := except_bind_ok h
    obtain ⟨r', h2, h⟩ := except_bind_ok h
    obtain ⟨e1, st1⟩ := r
    obtain ⟨es1, st2⟩ := r'
    cases h
    dsimp only at h2
    have g1 := dsExpr_grows hW.grows e h1
    have g2 := dsList_grows hW.grows post h2
    have n1 := g1.next
    obtain ⟨P1, p1, o1⟩ := he st st1 e1 (ht.mono g2) hst h1
    obtain ⟨P2, good, p2, -, s2, e2, a2⟩ := fixedList_claim hW hpost st1 st2 es1 ht (by omega) h2
    refine ⟨P1 ++ P2, by rw [p2, p1, List.append_assoc], ?_, ?_⟩
    · refine InOrder.congr (o1.andThen (ρ' := ReadsAll) (k' := fun _ v => (evalList W.env W.J es1 v.2).bind fun vs => .ok (v.1 :: vs.1, vs.2))
        (k := fun _ v => (evalSList W.env W.I W.U post v.2).bind fun vs => .ok (v.1 :: vs.1, vs.2)) s2 n1 g2.next ?_) ?_ ?_
      · intro x y u v s σ hg _ _ hu
        refine (e2 s σ hg).bind fun xs ys s' _ hxs => .ok ?_
        unfold ReadsAll at hxs ⊢
        rw [List.map_cons, hxs, hu]
      · intro x t; rw [evalList]
      · intro y s; rw [List.nil_append, evalSList]
    · intro c ps hlen hps
      cases ps with
      | nil => exact absurd hlen (by simp)
      | cons p ps =>
        have hp : flag ParameterFlags.isShortCircuitBit p = false := hps p (by simp)
        refine InOrder.congr ((o1.param (R' := ReadsCall) (fun _ => ()) (fun _ => ()) fun _ _ _ _ => trivial).andThen (ρ' := ReadsOpts)
          (k' := fun x v => evalArgs W.env W.J c x.1 es1 ps (x.2 ++ [some v.1]) v.2)
          (k := fun y v => evalSArgs W.env W.I W.U c y.1 post ps (y.2 ++ [some v.1]) v.2) s2 n1 g2.next ?_) ?_ ?_
        · intro x y u v s σ hg hxy _ hu
          refine a2 _ _ _ _ _ _ _ _ hg hxy.1 ?_
          have := hxy.2
          unfold ReadsOpts at this ⊢
          rw [List.map_append, this, ← hu]
          rfl
        · intro x t
          rw [evalArgs, hp]
          rfl
        · intro x t
          rw [List.nil_append, evalSArgs, hp]
          rfl
  | x0 :: pre, hpre, st, st', es', ht, hst, h => by
    rw [List.cons_append, dsList] at h
    obtain ⟨r, h1, h⟩ := except_bind_ok h
    obtain ⟨r', h2, h⟩ := except_bind_ok h
    obtain ⟨e1, st1⟩ := r
    obtain ⟨es1, st2⟩ := r'
    cases h
    dsimp only at h2
    have g1 := dsExpr_grows hW.grows x0 h1
    have g2 := dsList_grows hW.grows _ h2
    have n1 := g1.next
    obtain ⟨P1, p1, o1⟩ := hpre x0 (List.mem_cons_self ..) st st1 e1 (ht.mono g2) hst h1
    obtain ⟨P2, p2, o2, a2⟩ := ordList_claim hW he hpost (fun x hx => hpre x (List.mem_cons_of_mem _ hx)) ht (by omega : W.start ≤ st1.next) h2
    refine ⟨P1 ++ P2, by rw [p2, p1, List.append_assoc], ?_, ?_⟩
    · have o2' := (o2.param (R' := fun σ (u : CellVal V) (v : V) => CellReads σ u v) (fun _ => ()) (fun _ => ()) fun _ _ _ _ => trivial).bind
        (ρ' := ReadsAll) (k' := fun u vs => .ok (u :: vs.1, vs.2)) (k := fun v vs => .ok (v :: vs.1, vs.2)) (by
          intro u v xs ys s σ huv _ hxs
          refine .ok ?_
          unfold ReadsAll at hxs ⊢
          rw [List.map_cons, hxs, huv])
      refine InOrder.congr (o1.andThen (R' := NoParam V) (g' := fun _ u => u) (g := fun _ v => v)
        (ev'' := fun _ v => (evalList W.env W.J es1 v.2).bind fun vs => .ok (v.1 :: vs.1, vs.2))
        (ev1 := fun _ v => (evalSList W.env W.I W.U (pre ++ e :: post) v.2).bind fun vs => .ok (v.1 :: vs.1, vs.2)) o2' n1 g2.next
        (fun _ _ _ _ _ _ h => h) (fun _ _ _ => rfl) (fun _ _ _ => rfl)) ?_ ?_
      · intro x t; rw [evalList]
      · intro y s; rw [List.cons_append, evalSList]
    · intro c ps hlen hps
      cases ps with
      | nil => exact absurd hlen (by simp)
      | cons p ps =>
        have hp : flag ParameterFlags.isShortCircuitBit p = false := hps p (by simp)
        have a2' := a2 c ps (by simpa using hlen) (fun p hp => hps p (by simp only [List.length_cons, List.take_succ_cons]; exact List.mem_cons_of_mem _ hp))
        refine InOrder.congr (o1.andThen (R' := ReadsCall) (g' := fun x u => (x.1, x.2 ++ [some u])) (g := fun y v => (y.1, y.2 ++ [some v]))
          (ev'' := fun x v => evalArgs W.env W.J c x.1 es1 ps (x.2 ++ [some v.1]) v.2)
          (ev1 := fun y v => evalSArgs W.env W.I W.U c y.1 (pre ++ e :: post) ps (y.2 ++ [some v.1]) v.2) a2' n1 g2.next
          ?_ (fun _ _ _ => rfl) (fun _ _ _ => rfl)) ?_ ?_
        · intro σ x y u v hxy hu
          refine ⟨hxy.1, ?_⟩
          have := hxy.2
          unfold ReadsOpts at this ⊢
          rw [List.map_append, this, ← hu]
          rfl
        · intro x t
          rw [evalArgs, hp]
          rfl
        · intro x t
          rw [List.cons_append, evalSArgs, hp]
          rfl

theorem FixedClaim.ord {lits : Bool} {e : TypedExpr} (h : FixedClaim W lits e) : OrdClaim W e := by
  intro st st' e' h1 h2 h3
  obtain ⟨P, good, p1, -, s1, e1⟩ := h st st' e' h1 h2 h3
  exact ⟨P, p1, s1.inOrder fun s σ hg _ _ _ => e1 s σ hg⟩

theorem null_inert (hW : W.Laws) : InertClaim W .Null := by
  intro st st' e' hty hst h
  cases h
  obtain ⟨v, hv⟩ := hW.null
  refine ⟨[], by simp, Inert.value (x := .val v) (fun s σ => ⟨?_, rfl⟩) fun s => ?_⟩
  · rw [evalE.eq_def]
    show Res.ofExcept (liftCell σ (W.I.prim .null [] s)) = _
    rw [hv]
    rfl
  · rw [evalS, hv]
    rfl

theorem this_eval (hW : W.Laws) : ∃ v, (∀ t, evalE W.env W.J .This t = .ok (.val v, t)) ∧ (∀ s, evalS W.env W.I W.U .This s = .ok (v, s)) ∧
    (∀ t, evalE W.env W.J .Super t = .ok (.val v, t)) ∧ (∀ s, evalS W.env W.I W.U .Super s = .ok (v, s)) ∧ ∀ s, W.I.isNull v s = false := by
  obtain ⟨v, hv⟩ := hW.this
  refine ⟨v, fun t => ?_, fun s => ?_, fun t => ?_, fun s => ?_, fun s => (hv s).2⟩
  · rw [evalE.eq_def]
    show Res.ofExcept (liftCell t.2 (W.I.prim .this [] t.1)) = _
    rw [(hv _).1]
    rfl
  · rw [evalS, (hv s).1]
    rfl
  · rw [evalE.eq_def]
    show Res.ofExcept (liftCell t.2 (W.I.prim .this [] t.1)) = _
    rw [(hv _).1]
    rfl
  · rw [evalS, (hv s).1]
    rfl

theorem this_inert (hW : W.Laws) : InertClaim W .This := by
  intro st st' e' hty hst h
  cases h
  obtain ⟨v, h1, h2, -⟩ := this_eval hW
  exact ⟨[], by simp, Inert.value (x := .val v) (fun s σ => ⟨h1 _, rfl⟩) h2⟩

theorem super_inert (hW : W.Laws) : InertClaim W .Super := by
  intro st st' e' hty hst h
  cases h
  obtain ⟨v, -, -, h1, h2, -⟩ := this_eval hW
  exact ⟨[], by simp, Inert.value (x := .val v) (fun s σ => ⟨h1 _, rfl⟩) h2⟩

theorem evalE_local_old (hW : W.Laws) {l : Idx} (h : l.toNat < W.start) :
    ∃ v, (∀ t, evalE W.env W.J (useLocal l) t = .ok (.val v, t)) ∧ (∀ s, evalS W.env W.I W.U (useLocal l) s = .ok (v, s)) ∧
      ∀ s, W.I.prim (.getLocal l) [] s = .ok (v, s) := by
  obtain ⟨v, hv⟩ := hW.place l h
  refine ⟨v, fun t => ?_, fun s => ?_, hv⟩
  · rw [evalE.eq_def]
    show Res.ofExcept (if W.start ≤ l.toNat then _ else liftCell t.2 (W.I.prim (.getLocal l) [] t.1)) = _
    rw [if_neg (by omega), hv]
    rfl
  · rw [evalS, hv]
    rfl

/-- One operand. -/
theorem OrdClaim.one {e : TypedExpr} {f : TypedExpr → TypedExpr} (h : OrdClaim W e)
    {k' : CellVal V × (S × (Idx → V)) → Res A (CellVal V × (S × (Idx → V)))} {k : V × S → Res A (V × S)}
    (hd : ∀ st, dsExpr W.D (f e) st = (dsExpr W.D e st >>= fun r => .ok (f r.1, r.2)))
    (h1 : ∀ e' t, evalE W.env W.J (f e') t = (evalE W.env W.J e' t).bind k') (h2 : ∀ s, evalS W.env W.I W.U (f e) s = (evalS W.env W.I W.U e s).bind k)
    (hk : ∀ u v s σ, CellReads σ u v → Same CellReads σ (k' (u, (s, σ))) (k (v, s))) : OrdClaim W (f e) := by
  intro st st' e' ht hst h3
  rw [hd] at h3
  obtain ⟨r, h4, h3⟩ := except_bind_ok h3
  cases h3
  obtain ⟨P, p1, o1⟩ := h st r.2 r.1 ht hst h4
  refine ⟨P, p1, InOrder.congr (o1.bind (ρ' := CellReads) (k' := fun _ => k') (k := fun _ => k) fun _ _ u v s σ _ _ hu => hk u v s σ hu) ?_ ?_⟩
  · exact fun _ t => h1 _ t
  · exact fun _ s => h2 s

/-- Two operands, the second with constant literals. -/
theorem OrdClaim.two (hW : W.Laws) {a b : TypedExpr} {f : TypedExpr → TypedExpr → TypedExpr} (ha : OrdClaim W a) (hb : FixedClaim W true b)
    {k' : CellVal V → CellVal V × (S × (Idx → V)) → Res A (CellVal V × (S × (Idx → V)))} {k : V → V × S → Res A (V × S)}
    (hd : ∀ st, dsExpr W.D (f a b) st = (dsExpr W.D a st >>= fun r => dsExpr W.D b r.2 >>= fun r' => .ok (f r.1 r'.1, r'.2)))
    (h1 : ∀ a' b' st st1, Typed W.Q st1 → dsExpr W.D a st = .ok (a', st1) → ∀ t, evalE W.env W.J (f a' b') t =
      (evalE W.env W.J a' t).bind fun x => (evalE W.env W.J b' x.2).bind (k' x.1))
    (h2 : ∀ s, evalS W.env W.I W.U (f a b) s = (evalS W.env W.I W.U a s).bind fun x => (evalS W.env W.I W.U b x.2).bind (k x.1))
    (hk : ∀ a' st st1 t u v u' v' s0 s σ, dsExpr W.D a st = .ok (a', st1) → evalE W.env W.J a' t = .ok (u, (s0, σ)) → CellReads σ u v → CellReads σ u' v' →
      Same CellReads σ (k' u (u', (s, σ))) (k v (v', s))) : OrdClaim W (f a b) := by
  intro st st' e' ht hst h3
  rw [hd] at h3
  obtain ⟨r, h4, h3⟩ := except_bind_ok h3
  obtain ⟨r', h5, h3⟩ := except_bind_ok h3
  cases h3
  have g1 := dsExpr_grows hW.grows a h4
  have g2 := dsExpr_grows hW.grows b h5
  have n1 := g1.next
  obtain ⟨P1, p1, o1⟩ := ha st r.2 r.1 (ht.mono g2) hst h4
  obtain ⟨P2, good, p2, -, s2, e2⟩ := hb r.2 r'.2 r'.1 ht (by omega) h5
  refine ⟨P1 ++ P2, by rw [p2, p1, List.append_assoc], InOrder.congr (o1.andThen (ρ' := CellReads)
    (k' := fun _ x => (evalE W.env W.J r'.1 x.2).bind (k' x.1)) (k := fun _ x => (evalS W.env W.I W.U b x.2).bind (k x.1)) s2 n1 g2.next ?_) ?_ ?_⟩
  · intro _ _ u v s σ hg _ hu' hu
    obtain ⟨t, htt⟩ := hu'
    exact (e2 s σ hg).bind fun x y s' _ hx => hk _ _ _ t _ _ _ _ _ _ _ h4 htt hu hx
  · exact fun _ t => h1 _ _ _ _ (ht.mono g2) h4 t
  · exact fun _ s => h2 s

/-- Expressions with literals in order. -/
theorem inord_claim (hW : W.Laws) {e : TypedExpr} (h : InOrd W e) : OrdClaim W e ∧ (e.isInert = true → InertClaim W e) := by
  induction h with
  | fixed hf =>
    refine ⟨(fixed_claim hW hf).ord, fun hi => ?_⟩
    cases hf with
    | const => exact constant_inert hW _
    | null => exact null_inert hW
    | this => exact this_inert hW
    | super => exact super_inert hW
    | array _ hc => exact const_inert hW hc
    | _ => cases hi
  | array hn _ ih => exact ⟨(array_inert hW hn fun e he => (ih e he).1).ord, fun _ => array_inert hW hn fun e he => (ih e he).1⟩
  | @string t u e ps _ hps ih =>
    refine ⟨?_, nofun⟩
    intro st st' e' ht hst h1
    rw [dsExpr] at h1
    obtain ⟨str, hs, h1⟩ := except_bind_ok h1
    obtain ⟨add, ha, h1⟩ := except_bind_ok h1
    rw [dsParts] at h1
    obtain ⟨r, h2, h1⟩ := except_bind_ok h1
    obtain ⟨p, h3, h1⟩ := except_bind_ok h1
    have g1 := dsExpr_grows hW.grows e h2
    have g2 := dsParts_grows hW.grows ps h1
    have n1 := g1.next
    have hc : typeTree W.Q (.Constant (.String .String t)) = .ok str := by rw [typeTree]; exact hW.stringTy str hs t
    have hj : typeTree W.Q (joinPart str add (.Constant (.String .String t)) p u) = .ok str := by
      show W.Q.result add = .ok str
      rw [hW.sumTy add ha]
      exact hW.stringTy str hs _
    obtain ⟨P1, p1, o1⟩ := ih.1 st r.2 r.1 (ht.mono g2) hst h2
    obtain ⟨P2, good, p2, -, s2, e2⟩ := parts_claim hW hs ha (lits := true) ps (fun p hp => fixed_claim hW (hps p hp)) ht
      (by omega : W.start ≤ r.2.next) hj h1
    have hte := dsExpr_type hW e (ht.mono g2) h2
    have hty : ∃ ty, typeTree W.Q r.1 = .ok ty := by
      unfold DsEnv.textOf at h3
      rw [hW.dsTypes] at h3
      cases h4 : typeTree W.Q r.1 with
      | error x => rw [h4] at h3; cases h3
      | ok ty => exact ⟨ty, rfl⟩
    obtain ⟨ty, hty⟩ := hty
    refine ⟨P1 ++ P2, by rw [p2, p1, List.append_assoc], ?_⟩
    have heq : ∀ s, evalS W.env W.I W.U (.InterpolatedString t ((e, u) :: ps)) s = (evalS W.env W.I W.U e s).bind fun (v, s) =>
        (evalParts W.env W.I W.U ps s).bind fun (t', s') => .ok (W.U.string (t ++ (W.U.format ty v s ++ u) ++ t'), s') := by
      intro s
      rw [evalS, evalParts, hW.types, ← hte, hty]
      dsimp only
      cases evalS W.env W.I W.U e s with
      | abort a => rfl
      | stuck => rfl
      | ok x =>
        dsimp only [Res.bind]
        cases evalParts W.env W.I W.U ps x.2 with
        | abort a => rfl
        | stuck => rfl
        | ok x => simp [List.append_assoc]
    intro s σ
    rw [runPre_append]
    dsimp only
    rcases o1 s σ with ⟨s1, σ1, r1, f1, e1⟩ | ⟨c, r1, e1⟩ | ⟨r1, e1⟩
    · left
      obtain ⟨σ2, r2, f2, g2'⟩ := s2.run s1 σ1
      refine ⟨s1, σ2, by rw [r1]; exact r2, (f1.widen (Nat.le_refl _) g2.next).trans (f2.widen n1 (Nat.le_refl _)), ?_⟩
      intro σ3 ha3 _ _ _
      have hsame := e1 σ3 ((f2.agree (.inl (Nat.le_refl _))).trans (ha3.narrow (Nat.le_refl _) g2.next)) () () trivial
      have hg := s2.stable _ _ g2' (ha3.narrow n1 (Nat.le_refl _))
      have hj1 := joinPart_same hW hs ha (u := u) hc hty h3 (const_isString hW t s1 σ3) (rB := fun _ => evalS W.env W.I W.U e s)
        (fun t s2 h => by cases h; exact hsame)
      have hj2 := e2 s1 σ3 hg _ hj1
      rw [heq]
      generalize evalS W.env W.I W.U e s = rs at hj2
      cases rs with
      | abort a =>
        have hj3 : Same (IsString W) σ3 (evalE W.env W.J e' (s1, σ3)) (Res.abort a) := hj2
        generalize evalE W.env W.J e' (s1, σ3) = re at hj3
        cases hj3
        exact .abort
      | stuck =>
        have hj3 : Same (IsString W) σ3 (evalE W.env W.J e' (s1, σ3)) Res.stuck := hj2
        generalize evalE W.env W.J e' (s1, σ3) = re at hj3
        cases hj3
        exact .stuck
      | ok x =>
        dsimp only [Res.bind] at hj2 ⊢
        exact string_same hj2
    · refine .inr (.inl ⟨c, by rw [r1]; rfl, fun _ => ?_⟩)
      rw [heq, show evalS W.env W.I W.U e s = _ from e1 ()]
      rfl
    · refine .inr (.inr ⟨by rw [r1]; rfl, fun _ => ?_⟩)
      rw [heq, show evalS W.env W.I W.U e s = _ from e1 ()]
      rfl
  | @cast c e _ ih =>
    refine ⟨?_, nofun⟩
    · refine OrdClaim.one (f := .Cast (.Class c)) ih.1 (k' := fun x => .ofExcept (W.J.prim (.cast c) [x.1] x.2))
        (k := fun x => .ofExcept (W.I.prim (.cast c) [x.1] x.2)) (fun st => by rw [dsExpr]) (fun e' t => by rw [evalE.eq_def])
        (fun s => by rw [evalS.eq_def]) ?_
      intro u v s σ hu
      exact prim_same _ (congrArg (fun x => [x]) hu) (fun l h => nomatch h) nofun nofun
  | @assignLocal l e hl _ ih =>
    refine ⟨?_, nofun⟩
    obtain ⟨v0, h1, h2, -⟩ := evalE_local_old hW hl
    refine OrdClaim.one (f := .Assign (useLocal l)) ih.1 (k' := fun x => .ofExcept (W.J.prim .assign [.val v0, x.1] x.2))
      (k := fun x => .ofExcept (W.I.prim .assign [v0, x.1] x.2)) (fun st => by rw [dsExpr, dsExpr]; rfl)
      (fun e' t => by rw [evalE.eq_def]; dsimp only; rw [h1]; rfl)
      (fun s => by rw [evalS.eq_def]; dsimp only; rw [h2]; rfl) ?_
    intro u v s σ hu
    refine prim_same _ ?_ (fun l h => nomatch h) (fun _ => trivial) nofun
    show [_, _] = [_, _]
    rw [← hu]
    rfl
  | @assign a b hp _ hb ih =>
    refine ⟨?_, nofun⟩
    refine OrdClaim.two hW (f := .Assign) ih.1 (fixed_claim hW hb) (k' := fun u x => .ofExcept (W.J.prim .assign [u, x.1] x.2))
      (k := fun u x => .ofExcept (W.I.prim .assign [u, x.1] x.2)) (fun st => by rw [dsExpr]) (fun a' b' _ _ _ _ t => by rw [evalE.eq_def])
      (fun s => by rw [evalS.eq_def]) ?_
    intro a' st st1 t u v u' v' s0 s σ hd he hu hu'
    obtain ⟨v1, hv⟩ := isPlain_val a' (dsExpr_plain hW a hp hd) he
    subst hv
    refine prim_same _ ?_ (fun l h => nomatch h) (fun _ => trivial) nofun
    show [_, _] = [_, _]
    rw [← hu, ← hu']
  | @elem a i ty hty _ hi ih =>
    refine ⟨?_, nofun⟩
    refine OrdClaim.two hW (f := .ArrayElem) ih.1 (fixed_claim hW hi) (k' := fun u x => .ofExcept (W.J.prim (.element ty) [u, x.1] x.2))
      (k := fun u x => .ofExcept (W.I.prim (.element ty) [u, x.1] x.2)) (fun st => by rw [dsExpr]) ?_ ?_ ?_
    · intro a' b' st st1 ht hd t
      rw [hW.types] at hty
      rw [evalE.eq_def]
      dsimp only
      rw [hW.types, dsExpr_type hW a ht hd, hty]
    · intro s
      rw [evalS.eq_def]
      dsimp only
      rw [hty]
    · intro a' st st1 t u v u' v' s0 s σ hd he hu hu'
      refine prim_same _ ?_ (fun l h => nomatch h) nofun nofun
      show [_, _] = [_, _]
      rw [← hu, ← hu']
  | @elemOf a i ty hty _ hin _ ih1 ih2 =>
    refine ⟨?_, nofun⟩
    intro st st' e' ht hst h1
    rw [dsExpr] at h1
    obtain ⟨r, h2, h1⟩ := except_bind_ok h1
    obtain ⟨r', h3, h1⟩ := except_bind_ok h1
    cases h1
    have g1 := dsExpr_grows hW.grows a h2
    have g2 := dsExpr_grows hW.grows i h3
    have n1 := g1.next
    obtain ⟨P1, p1, o1⟩ := ih1.2 hin st r.2 r.1 (ht.mono g2) hst h2
    obtain ⟨P2, p2, o2⟩ := ih2.1 r.2 r'.2 r'.1 ht (by omega) h3
    have o2' := (o2.param (R' := fun σ (u : CellVal V) (v : V) => CellReads σ u v) (fun _ => ()) (fun _ => ()) fun _ _ _ _ => trivial).bind
      (ρ' := CellReads) (k' := fun u x => .ofExcept (W.J.prim (.element ty) [u, x.1] x.2))
      (k := fun u x => .ofExcept (W.I.prim (.element ty) [u, x.1] x.2)) (by
        intro u v u' v' s σ hu _ hu'
        refine prim_same _ ?_ (fun l h => nomatch h) nofun nofun
        show [_, _] = [_, _]
        rw [← hu, ← hu'])
    refine ⟨P1 ++ P2, by rw [p2, p1, List.append_assoc], InOrder.congr (o1.andThen (R' := NoParam V) (g' := fun _ u => u) (g := fun _ v => v)
        (ev'' := fun _ v => (evalE W.env W.J r'.1 v.2).bind fun x => .ofExcept (W.J.prim (.element ty) [v.1, x.1] x.2))
        (ev1 := fun _ v => (evalS W.env W.I W.U i v.2).bind fun x => .ofExcept (W.I.prim (.element ty) [v.1, x.1] x.2)) o2' n1 g2.next
        (fun _ _ _ _ _ _ h => h) (fun _ _ _ => rfl) (fun _ _ _ => rfl)) ?_ ?_⟩
    · intro _ t
      rw [hW.types] at hty
      rw [evalE.eq_def]
      dsimp only
      rw [hW.types, dsExpr_type hW a (ht.mono g2) h2, hty]
    · intro _ s
      rw [evalS.eq_def]
      dsimp only
      rw [hty]
  | @construct c pre post e _ hpre _ hpost ih1 ih2 =>
    refine ⟨?_, nofun⟩
    intro st st' e' ht hst h1
    rw [dsExpr] at h1
    obtain ⟨r, h2, h1⟩ := except_bind_ok h1
    cases h1
    obtain ⟨P, p1, o1, -⟩ := ordList_claim hW ih2.1 (fun x hx => fixed_claim hW (hpost x hx)) (fun x hx => (ih1 x hx).2 (hpre x hx)) ht hst h2
    refine ⟨P, p1, InOrder.congr (o1.bind (ρ' := CellReads) (k' := fun _ x => .ofExcept (W.J.prim (.construct c) x.1 x.2))
      (k := fun _ x => .ofExcept (W.I.prim (.construct c) x.1 x.2)) ?_) ?_ ?_⟩
    · intro _ _ u v s σ _ _ hu
      exact prim_same _ hu (fun l h => nomatch h) nofun nofun
    · intro _ t; rw [evalE.eq_def]
    · intro _ s; rw [evalS.eq_def]
  | @cond c t e _ ht' he' ih =>
    refine ⟨?_, nofun⟩
    intro st st' e' ht hst h1
    rw [dsExpr] at h1
    obtain ⟨r, h2, h1⟩ := except_bind_ok h1
    obtain ⟨r', h3, h1⟩ := except_bind_ok h1
    obtain ⟨r'', h4, h1⟩ := except_bind_ok h1
    cases h1
    have g1 := dsExpr_grows hW.grows c h2
    have g2 := dsExpr_grows hW.grows t h3
    have g3 := dsExpr_grows hW.grows e h4
    have n1 := g1.next
    have n2 := g2.next
    have n3 := g3.next
    obtain ⟨P1, p1, o1⟩ := ih.1 st r.2 r.1 (ht.mono (g2.trans g3)) hst h2
    obtain ⟨P2, good2, p2, l2, s2, e2⟩ := fixed_claim hW ht' r.2 r'.2 r'.1 (ht.mono g3) (by omega) h3
    obtain ⟨P3, good3, p3, l3, s3, e3⟩ := fixed_claim hW he' r'.2 r''.2 r''.1 ht (by omega) h4
    refine ⟨P1 ++ (P2 ++ P3), by rw [p3, p2, p1]; simp only [List.append_assoc], InOrder.congr (o1.andThen (ρ' := CellReads)
      (k' := fun _ x => if W.J.truth x.1 x.2 then evalE W.env W.J r'.1 x.2 else evalE W.env W.J r''.1 x.2)
      (k := fun _ x => if W.I.truth x.1 x.2 then evalS W.env W.I W.U t x.2 else evalS W.env W.I W.U e x.2)
      (s2.append s3 n2 n3) n1 (by omega) ?_) ?_ ?_⟩
    · intro _ _ u v s σ hg _ _ hu
      have : W.J.truth u (s, σ) = W.I.truth v s := by
        show W.I.truth (u.read σ) s = _
        rw [hu]
      dsimp only
      rw [this]
      split
      · exact e2 s σ hg.1
      · exact e3 s σ hg.2
    · intro _ t; rw [evalE.eq_def]
    · intro _ s; rw [evalS.eq_def]
  | @classField e f _ ih =>
    refine ⟨?_, nofun⟩
    refine OrdClaim.one (f := fun e => .Member e (.ClassField f)) ih.1
      (k' := fun x => if W.J.isNull x.1 x.2 then .ok (W.J.onNull x.2) else .ofExcept (W.J.prim (.objectField f) [x.1] x.2))
      (k := fun x => if W.I.isNull x.1 x.2 then .ok (W.I.onNull x.2) else .ofExcept (W.I.prim (.objectField f) [x.1] x.2))
      (fun st => by rw [dsExpr]) (fun e' t => by rw [evalE.eq_def]) (fun s => by rw [evalS.eq_def]) ?_
    intro u v s σ hu
    have : W.J.isNull u (s, σ) = W.I.isNull v s := by
      show W.I.isNull (u.read σ) s = _
      rw [hu]
    dsimp only
    rw [this]
    split
    · exact .ok rfl
    · exact prim_same _ (congrArg (fun x => [x]) hu) (fun l h => nomatch h) nofun nofun
  | @structField e f _ ih =>
    refine ⟨?_, nofun⟩
    refine OrdClaim.one (f := fun e => .Member e (.StructField f)) ih.1 (k' := fun x => .ofExcept (W.J.prim (.structField f) [x.1] x.2))
      (k := fun x => .ofExcept (W.I.prim (.structField f) [x.1] x.2)) (fun st => by rw [dsExpr]) (fun e' t => by rw [evalE.eq_def])
      (fun s => by rw [evalS.eq_def]) ?_
    intro u v s σ hu
    exact prim_same _ (congrArg (fun x => [x]) hu) (fun l h => nomatch h) nofun nofun
  | @intrinsic op ty tys pre post e hm hp _ hpre _ hpost ih1 ih2 =>
    refine ⟨?_, nofun⟩
    intro st st' e' ht hst h1
    rw [dsExpr] at h1
    obtain ⟨r, h2, h1⟩ := except_bind_ok h1
    cases h1
    obtain ⟨P, p1, o1, -⟩ := ordList_claim hW ih2.1 (fun x hx => fixed_claim hW (hpost x hx)) (fun x hx => (ih1 x hx).2 (hpre x hx)) ht hst h2
    cases ho : intrinsicMeaning op (firstType W.env (pre ++ e :: post)) ty with
    | none => exact absurd ho hm
    | some o =>
      obtain ⟨m1, m2, m3, m4⟩ := intrinsicMeaning_form ho
      refine ⟨P, p1, InOrder.congr (o1.bind (ρ' := CellReads) (k' := fun _ x => .ofExcept (W.J.prim o x.1 x.2))
        (k := fun _ x => .ofExcept (W.I.prim o x.1 x.2)) ?_) ?_ ?_⟩
      · intro _ _ u v s σ _ hu' hu
        obtain ⟨t, hu'⟩ := hu'
        refine prim_same _ hu (fun l h => absurd h (m1 l)) (fun h => absurd h m2) fun t h => ?_
        obtain ⟨h3, h4⟩ := m4 t h
        subst h3
        refine evalList_first (firstPlain_ds hW h2 (hp rfl)) ?_ hu'
        intro h5
        have := (firstType_ds hW ht h2).1
        rw [h5] at this
        exact h4 this.symm
      · intro _ t; rw [evalE.eq_def]; dsimp only; rw [(firstType_ds hW ht h2).1, ho]
      · intro _ s; rw [evalS.eq_def]; dsimp only; rw [ho]
  | @call f tys info pre post e hok hf hlen hdem _ hpre _ hpost ih1 ih2 =>
    refine ⟨?_, nofun⟩
    intro st st' e' ht hst h1
    rw [dsExpr] at h1
    obtain ⟨r, h2, h1⟩ := except_bind_ok h1
    cases h1
    obtain ⟨P, p1, -, a1⟩ := ordList_claim hW ih2.1 (fun x hx => fixed_claim hW (hpost x hx)) (fun x hx => (ih1 x hx).2 (hpre x hx)) ht hst h2
    refine ⟨P, p1, InOrder.congr (((a1 (calleeOf info false f) info.params hlen hdem).param (R' := NoParam V) (fun _ => (none, []))
      (fun _ => (none, [])) fun _ _ _ _ => ⟨rfl, rfl⟩).bind (ρ' := CellReads) (k' := fun _ x => .ofExcept (W.J.call (calleeOf info false f) none x.1 x.2))
      (k := fun _ x => .ofExcept (W.I.call (calleeOf info false f) none x.1 x.2)) ?_) ?_ ?_⟩
    · intro _ _ u v s σ _ hu' hu
      obtain ⟨t, hu'⟩ := hu'
      exact call_same (callOk_ds hW h2 hok) hf (.inr rfl) hu' hu
    · intro _ t; rw [evalE.eq_def]; dsimp only; rw [hf]
    · intro _ s; rw [evalS.eq_def]; dsimp only; rw [hf]
  | @method ctx f info args hf hok _ hn hargs ih =>
    refine ⟨?_, nofun⟩
    intro st st' e' ht hst h1
    rw [dsExpr] at h1
    obtain ⟨r, h2, h1⟩ := except_bind_ok h1
    obtain ⟨r', h3, h1⟩ := except_bind_ok h1
    cases h1
    have g1 := dsExpr_grows hW.grows ctx h2
    have g2 := dsList_grows hW.grows args h3
    have n1 := g1.next
    obtain ⟨P1, p1, o1⟩ := ih.1 st r.2 r.1 (ht.mono g2) hst h2
    obtain ⟨P2, good2, p2, l2, s2, -, a2⟩ := fixedList_claim hW (fun x hx => fixed_claim hW (hargs x hx)) r.2 r'.2 r'.1 ht (by omega) h3
    obtain ⟨hf1, hf2⟩ := dsExpr_form W.D h2
    refine ⟨P1 ++ P2, by rw [p2, p1, List.append_assoc], InOrder.congr (o1.andThen (ρ' := CellReads)
      (k' := fun _ x => if W.J.isNull x.1 x.2 then .ok (W.J.onNull x.2) else
        (evalArgs W.env W.J (calleeOf info ctx.isSuper f) (some x.1) r'.1 info.params [] x.2).bind
          fun y => .ofExcept (W.J.call (calleeOf info ctx.isSuper f) (some x.1) y.1 y.2))
      (k := fun _ x => if W.I.isNull x.1 x.2 then .ok (W.I.onNull x.2) else
        (evalSArgs W.env W.I W.U (calleeOf info ctx.isSuper f) (some x.1) args info.params [] x.2).bind
          fun y => .ofExcept (W.I.call (calleeOf info ctx.isSuper f) (some x.1) y.1 y.2)) s2 n1 g2.next ?_) ?_ ?_⟩
    · intro _ _ x y s σ hg _ _ hx
      have : W.J.isNull x (s, σ) = W.I.isNull y s := by
        show W.I.isNull (x.read σ) s = _
        rw [hx]
      dsimp only
      rw [this]
      split
      · exact .ok rfl
      · refine (a2 _ (some x) (some y) _ [] [] s σ hg (congrArg some hx) rfl).bind fun x1 y1 s1 hx1' hx1 => ?_
        exact Same.call _ (congrArg some hx) hx1 nofun
    · intro _ t
      rw [evalE.eq_def]
      dsimp only
      rw [hf1, hf2, hf, hn]
      rfl
    · intro _ s
      rw [evalS.eq_def]
      dsimp only
      rw [hf, hn]
      rfl
  | @methodArgs ctx f info pre post e hctx hok hf hlen hdem _ hpre _ hpost ih1 ih2 =>
    refine ⟨?_, nofun⟩
    intro st st' e' ht hst h1
    rw [dsExpr] at h1
    obtain ⟨r, h2, h1⟩ := except_bind_ok h1
    obtain ⟨r', h3, h1⟩ := except_bind_ok h1
    cases h1
    have hr : r = (ctx, st) := by
      rcases hctx with rfl | rfl | hn
      · cases h2; rfl
      · cases h2; rfl
      · cases ctx with
        | Ident s => cases h2; rfl
        | _ => cases hn
    subst hr
    obtain ⟨P, p1, -, a1⟩ := ordList_claim hW ih2.1 (fun x hx => fixed_claim hW (hpost x hx)) (fun x hx => (ih1 x hx).2 (hpre x hx)) ht hst h3
    obtain ⟨v0, ht1, ht2, ht3, ht4, ht5⟩ := this_eval hW
    have recv : ∀ super, (∀ t, evalE W.env W.J ctx t = .ok (.val v0, t)) → (∀ s, evalS W.env W.I W.U ctx s = .ok (v0, s)) →
        ctx.isSuper = super → ctx.isTypeName = false → InOrder W st.next r'.2.next P (NoParam V)
          (fun _ => evalE W.env W.J (.MethodCall ctx f r'.1)) (fun _ => evalS W.env W.I W.U (.MethodCall ctx f (pre ++ e :: post))) CellReads := by
      intro super he hs hsup hn
      refine InOrder.congr (((a1 (calleeOf info super f) info.params hlen hdem).param (R' := NoParam V) (fun _ => (some (.val v0), []))
        (fun _ => (some v0, [])) fun _ _ _ _ => ⟨rfl, rfl⟩).bind (ρ' := CellReads)
          (k' := fun _ x => .ofExcept (W.J.call (calleeOf info super f) (some (.val v0)) x.1 x.2))
          (k := fun _ x => .ofExcept (W.I.call (calleeOf info super f) (some v0) x.1 x.2)) ?_) ?_ ?_
      · intro _ _ u v s σ _ _ hu
        exact Same.call _ rfl hu nofun
      · intro _ t
        rw [evalE.eq_def]
        dsimp only
        rw [hf, hn, hsup]
        dsimp only
        rw [he]
        have : W.J.isNull (.val v0) t = false := ht5 t.1
        dsimp only [Res.bind]
        rw [this]
        rfl
      · intro _ s
        rw [evalS.eq_def]
        dsimp only
        rw [hf, hn, hsup]
        dsimp only
        rw [hs]
        dsimp only [Res.bind]
        rw [ht5]
        rfl
    refine ⟨P, p1, ?_⟩
    rcases hctx with rfl | rfl | hn
    · exact recv false ht1 ht2 rfl rfl
    · exact recv true ht3 ht4 rfl rfl
    · refine InOrder.congr (((a1 (.fixed f) info.params hlen hdem).param (R' := NoParam V) (fun _ => (none, []))
        (fun _ => (none, [])) fun _ _ _ _ => ⟨rfl, rfl⟩).bind (ρ' := CellReads)
          (k' := fun _ x => .ofExcept (W.J.call (.fixed f) none x.1 x.2))
          (k := fun _ x => .ofExcept (W.I.call (.fixed f) none x.1 x.2)) ?_) ?_ ?_
      · intro _ _ u v s σ _ hu' hu
        obtain ⟨t, hu'⟩ := hu'
        exact call_same (callOk_ds hW h3 hok) hf (.inl rfl) hu' hu
      · intro _ t; rw [evalE.eq_def]; dsimp only; rw [hf, hn]; rfl
      · intro _ s; rw [evalS.eq_def]; dsimp only; rw [hf, hn]; rfl

end

end Redscript
