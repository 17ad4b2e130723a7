import Verif.Desugar.Bisim

/-!
# Desugared statements
-/

namespace Redscript

section
variable {V S A : Type} {W : DsWorld V S A} {zero : Literal → Text}

/-- A statement runs as before, after what it needs. -/
def StClaim (W : DsWorld V S A) (zero : Literal → Text) (e : TypedExpr) : Prop :=
  ∀ st st' e', Typed W.Q st' → W.start ≤ st.next → st.pending = [] → dsExpr W.D e st = .ok (e', st') →
    ∀ s σ, BiSim st.next st'.next σ (ExecAll W.env zero W.J (st'.pending ++ [e']) (s, σ)) (Runs W.env zero W.I W.U e s)

/-- Statements run as before. -/
def SeqClaim (W : DsWorld V S A) (zero : Literal → Text) (es : List TypedExpr) : Prop :=
  ∀ st st' es', Typed W.Q st' → W.start ≤ st.next → st.pending = [] → dsSeq W.D es st = .ok (es', st') →
    st'.pending = [] ∧ ∀ s σ, BiSim st.next st'.next σ (ExecAll W.env zero W.J es' (s, σ)) (RunsAll W.env zero W.I W.U es s)

theorem seq_claim (hW : W.Laws) : ∀ {es : List TypedExpr}, (∀ e ∈ es, StClaim W zero e) → SeqClaim W zero es
  | [], _, st, st', es', ht, hst, hp, h => by
    cases h
    refine ⟨hp, fun s σ => ?_⟩
    refine (BiSim.single (.normal (.refl _ _ σ))).congr (fun o => execAll_nil_iff) (fun o => ?_)
    rw [RunsAll]
  | e :: es, hes, st, st', es', ht, hst, hp, h => by
    rw [dsSeq] at h
    obtain ⟨⟨e1, st1⟩, h1, h⟩ := except_bind_ok h
    obtain ⟨⟨es2, st2⟩, h2, h⟩ := except_bind_ok h
    cases h
    dsimp only at h2 ⊢
    have g1 := dsExpr_grows hW.grows e h1
    have g2 := dsSeq_grows hW.grows es h2
    have ht1 : Typed W.Q st1 := fun x hx => ht x (g2.locals x hx)
    obtain ⟨hp2, hr⟩ := seq_claim hW (fun e he => hes e (List.mem_cons_of_mem _ he)) { st1 with pending := [] } st2 es2 ht
      (Nat.le_trans hst g1.next) rfl h2
    refine ⟨hp2, fun s σ => ?_⟩
    have n1 : st.next ≤ st1.next := g1.next
    have n2 : st1.next ≤ st2.next := g2.next
    refine (BiSim.then_ (B' := ExecAll W.env zero W.J (st1.pending ++ [e1])) (C' := ExecAll W.env zero W.J es2)
      (B := Runs W.env zero W.I W.U e) (C := RunsAll W.env zero W.I W.U es)
      ((hes e (List.mem_cons_self ..) st st1 e1 ht1 hst hp h1 s σ).widen (Nat.le_refl _) n2)
      fun s1 σ1 _ => (hr s1 σ1).widen n1 (Nat.le_refl _)).congr (fun o => ?_) (fun o => ?_)
    · rw [← execAll_append_then, List.append_assoc]
      rfl
    · rw [RunsAll]

/-- The same for statements that may be missing. -/
theorem opt_claim (hW : W.Laws) {es es' : Option (List TypedExpr)} {st st' : DsState}
    (h : ∀ l, es = some l → ∀ e ∈ l, StClaim W zero e) (ht : Typed W.Q st') (hst : W.start ≤ st.next) (hp : st.pending = [])
    (hd : dsOpt W.D es st = .ok (es', st')) : st'.pending = [] ∧ ∀ s σ,
      BiSim st.next st'.next σ (ExecAll W.env zero W.J (es'.getD []) (s, σ)) (RunsOpt W.env zero W.I W.U es s) := by
  cases es with
  | none =>
    cases hd
    refine ⟨hp, fun s σ => ?_⟩
    refine (BiSim.single (.normal (.refl _ _ σ))).congr (fun o => execAll_nil_iff) (fun o => ?_)
    rw [RunsOpt]
  | some l =>
    rw [dsOpt] at hd
    obtain ⟨r, h1, hd⟩ := except_bind_ok hd
    cases hd
    obtain ⟨h2, h3⟩ := seq_claim hW (h l rfl) st r.2 r.1 ht hst hp h1
    refine ⟨h2, fun s σ => (h3 s σ).congr (fun o => Iff.rfl) fun o => ?_⟩
    rw [RunsOpt]

/-! ## Expressions -/

theorem fixed_isExpression {lits : Bool} {e : TypedExpr} (h : Fixed W lits e) : e.isExpressionS = true := by
  cases h <;> rfl

theorem inOrd_isExpression {e : TypedExpr} (h : InOrd W e) : e.isExpressionS = true := by
  cases h with
  | fixed h => exact fixed_isExpression h
  | _ => rfl

theorem dsParts_isExpression (D : DsEnv) : ∀ (ps : List (TypedExpr × Text)) {str : TypeId} {add : Idx} {acc e' : TypedExpr} {st st' : DsState},
    acc.isExpression = true → dsParts D str add ps acc st = .ok (e', st') → e'.isExpression = true
  | [], str, add, acc, e', st, st', h1, h => by cases h; exact h1
  | (e, t) :: ps, str, add, acc, e', st, st', h1, h => by
    rw [dsParts] at h
    obtain ⟨r, _, h⟩ := except_bind_ok h
    obtain ⟨p, _, h⟩ := except_bind_ok h
    exact dsParts_isExpression D ps rfl h

theorem dsExpr_isExpression (D : DsEnv) {e e' : TypedExpr} {st st' : DsState} (he : e.isExpressionS = true)
    (h : dsExpr D e st = .ok (e', st')) : e'.isExpression = true := by
  cases e with
  | Ident r => cases h; rfl
  | Constant c => cases h; rfl
  | This => cases h; rfl
  | Super => cases h; rfl
  | Null => cases h; rfl
  | ArrayLit es ty =>
    cases ty with
    | none => cases h
    | some t =>
      rw [dsExpr] at h
      obtain ⟨r, _, h⟩ := except_bind_ok h
      obtain ⟨r', _, h⟩ := except_bind_ok h
      cases h
      rfl
  | InterpolatedString t ps =>
    rw [dsExpr] at h
    obtain ⟨r, _, h⟩ := except_bind_ok h
    obtain ⟨r', _, h⟩ := except_bind_ok h
    exact dsParts_isExpression D ps rfl h
  | Cast ty e =>
    rw [dsExpr] at h
    obtain ⟨r, _, h⟩ := except_bind_ok h
    cases h
    rfl
  | Member e m =>
    rw [dsExpr] at h
    obtain ⟨r, _, h⟩ := except_bind_ok h
    cases h
    rfl
  | New ty args =>
    rw [dsExpr] at h
    obtain ⟨r, _, h⟩ := except_bind_ok h
    cases h
    rfl
  | Call f tys args =>
    rw [dsExpr] at h
    obtain ⟨r, _, h⟩ := except_bind_ok h
    cases h
    rfl
  | MethodCall ctx f args =>
    rw [dsExpr] at h
    obtain ⟨r, _, h⟩ := except_bind_ok h
    obtain ⟨r', _, h⟩ := except_bind_ok h
    cases h
    rfl
  | Assign a b =>
    rw [dsExpr] at h
    obtain ⟨r, _, h⟩ := except_bind_ok h
    obtain ⟨r', _, h⟩ := except_bind_ok h
    cases h
    rfl
  | ArrayElem a b =>
    rw [dsExpr] at h
    obtain ⟨r, _, h⟩ := except_bind_ok h
    obtain ⟨r', _, h⟩ := except_bind_ok h
    cases h
    rfl
  | Conditional c t e =>
    rw [dsExpr] at h
    obtain ⟨r, _, h⟩ := except_bind_ok h
    obtain ⟨r', _, h⟩ := except_bind_ok h
    obtain ⟨r'', _, h⟩ := except_bind_ok h
    cases h
    rfl
  | _ => cases he

theorem runs_expr {env : AsmEnv} {I : Interp V S A} {U : Sugar V S} {e : TypedExpr} (he : e.isExpressionS = true) {s : S} {o : Ending V S A} :
    Runs env zero I U e s o ↔ Using (evalS env I U e s) (fun _ s o => o = .normal s) o := by
  rw [← effect_using]
  cases e <;> first | (cases he; done) | (rw [Runs]; done) | (rw [Runs.eq_def]; exact ⟨fun h => h.2, fun h => ⟨rfl, h⟩⟩)

/-- The pending expressions of a state that had none before. -/
theorem pending_exprs (hW : W.Laws) {e e' : TypedExpr} {st st' : DsState} (hp : st.pending = []) (h : dsExpr W.D e st = .ok (e', st')) :
    ∀ x ∈ st'.pending, x.isExpression = true :=
  (dsExpr_grows hW.grows e h).exprs (by rw [hp]; exact nofun)

/-- A statement that uses the value of an expression. -/
theorem OrdClaim.stmt (hW : W.Laws) {c c' X : TypedExpr} (hc : OrdClaim W c) {st st' : DsState} (ht : Typed W.Q st')
    (hst : W.start ≤ st.next) (hp : st.pending = []) (h : dsExpr W.D c st = .ok (c', st')) {a b : Nat} (h1 : a ≤ st.next) (h2 : st'.next ≤ b)
    {K' : CellVal V → S × (Idx → V) → Ending (CellVal V) (S × (Idx → V)) A → Prop} {K : V → S → Ending V S A → Prop}
    (hX : ∀ t o, Exec W.env zero W.J X t o ↔ Using (evalE W.env W.J c' t) K' o) {s : S} {σ : Idx → V}
    (hK : ∀ x y s1 σ1, Frame a b σ σ1 → CellReads σ1 x y → BiSim a b σ1 (K' x (s1, σ1)) (K y s1)) :
    BiSim a b σ (ExecAll W.env zero W.J (st'.pending ++ [X]) (s, σ)) (Using (evalS W.env W.I W.U c s) K) := by
  obtain ⟨P, h3, h4⟩ := hc st st' c' ht hst h
  have h5 := pending_exprs hW hp h
  rw [hp, List.nil_append] at h3
  rw [h3] at h5 ⊢
  exact h4.stmt h5 h1 h2 (fun t o => by rw [execAll_one]; exact hX t o) hK

theorem expr_claim (hW : W.Laws) {e : TypedExpr} (h : InOrd W e) : StClaim W zero e := by
  intro st st' e' ht hst hp hd s σ
  have he := inOrd_isExpression h
  refine ((inord_claim hW h).1.stmt hW ht hst hp hd (Nat.le_refl _) (Nat.le_refl _)
    (fun t o => exec_expr_using (dsExpr_isExpression W.D he hd)) (K := fun _ s o => o = .normal s) ?_).congr (fun o => Iff.rfl) (fun o => runs_expr he)
  intro x y s1 σ1 _ _
  exact BiSim.single (.normal (.refl _ _ _))

theorem using_iff {r : Res A (V × S)} {k : V → S → Ending V S A → Prop} {o : Ending V S A} :
    ((∃ a, r = .abort a ∧ o = .aborted a) ∨ ∃ v s, r = .ok (v, s) ∧ k v s o) ↔ Using r k o :=
  Or.comm

theorem return_claim (hW : W.Laws) {e : TypedExpr} (h : InOrd W e) : StClaim W zero (.Return (some e)) := by
  intro st st' e' ht hst hp hd s σ
  rw [dsExpr] at hd
  obtain ⟨r, h1, hd⟩ := except_bind_ok hd
  cases hd
  refine ((inord_claim hW h).1.stmt hW ht hst hp h1 (Nat.le_refl _) (Nat.le_refl _)
    (K' := fun v s o => o = .returned (some v) s) (fun t o => ?_) (K := fun v s o => o = .returned (some v) s) ?_).congr
    (fun o => Iff.rfl) (fun o => by rw [Runs])
  · constructor
    · intro h
      cases h with
      | returnSome h => exact .inl ⟨_, _, h, rfl⟩
      | returnAbort h => exact .inr ⟨_, h, rfl⟩
      | expr h _ => cases h
      | exprAbort h _ => cases h
    · rintro (⟨v, s, h, rfl⟩ | ⟨a, h, rfl⟩)
      · exact .returnSome h
      · exact .returnAbort h
  · intro x y s1 σ1 _ hx
    exact BiSim.single (.returned (.refl _ _ _) (congrArg some hx))

theorem declareInit_claim (hW : W.Laws) {l : Idx} {ty : Option TypeId} {e : TypedExpr} (hl : l.toNat < W.start) (h : InOrd W e) :
    StClaim W zero (.Declare l ty (some e)) := by
  intro st st' e' ht hst hp hd s σ
  rw [dsExpr] at hd
  obtain ⟨r, h1, hd⟩ := except_bind_ok hd
  cases hd
  have h2 : dsExpr W.D (.Assign (useLocal l) e) st = .ok (.Assign (useLocal l) r.1, r.2) := by
    rw [dsExpr, dsExpr]
    show (dsExpr W.D e st >>= _) = _
    rw [h1]
    rfl
  refine (expr_claim (zero := zero) hW (.assignLocal hl h) st r.2 _ ht hst hp h2 s σ).congr (fun o => ?_) (fun o => ?_)
  · rw [execAll_pre (pending_exprs hW hp h1), execAll_pre (pending_exprs hW hp h1)]
    cases runPre W.env W.J r.2.pending (s, σ) with
    | ok t =>
      dsimp only
      rw [execAll_one, execAll_one]
      constructor
      · intro h
        cases h with
        | declareInit h => exact h
        | expr h _ => cases h
        | exprAbort h _ => cases h
      · exact .declareInit
    | abort c => exact Iff.rfl
    | stuck => exact Iff.rfl
  · rw [runs_expr (e := .Assign (useLocal l) e) rfl, Runs, effect_using]

/-- What declaring a local assigns. -/
theorem declareEffect_op {env : AsmEnv} {ty : TypeId} {op : Op} (h : declareEffect env zero ty = .assign op) :
    (∀ l, op ≠ .getLocal l) ∧ op ≠ .assign ∧ ∀ ty, op ≠ .intrinsic .ArrayResize ty := by
  unfold declareEffect at h
  split at h
  · split at h
    · split at h
      · rename_i name _ op' hop
        cases h
        unfold primDefault at hop
        obtain ⟨x, hx, rfl⟩ := Option.map_eq_some_iff.1 hop
        have := List.mem_of_find?_eq_some hx
        simp only [List.mem_cons, List.not_mem_nil, or_false] at this
        rcases this with rfl | rfl | rfl | rfl | rfl | rfl | rfl | rfl | rfl | rfl | rfl | rfl | rfl | rfl | rfl <;>
          exact ⟨nofun, nofun, nofun⟩
      · cases h
    · cases h
  · cases h; exact ⟨nofun, nofun, nofun⟩
  · split at h
    · cases h; exact ⟨nofun, nofun, nofun⟩
    · cases h
  · cases h; exact ⟨nofun, nofun, nofun⟩
  · cases h; exact ⟨nofun, nofun, nofun⟩
  · cases h
  · cases h

theorem declare_claim (hW : W.Laws) {l : Idx} {ty : TypeId} (hl : l.toNat < W.start) : StClaim W zero (.Declare l (some ty) none) := by
  intro st st' e' ht hst hp hd s σ
  cases hd
  obtain ⟨p, hp1, _, hp2⟩ := evalE_local_old hW hl
  have hj : ∀ t, Res.ofExcept (W.J.prim (.getLocal l) [] t) = .ok (.val p, t) := by
    intro t
    have := hp1 t
    rw [evalE.eq_def] at this
    exact this
  have key : Same (fun _ _ _ => True) σ ((runDeclare W.env zero W.J l ty (s, σ)).bind fun t => .ok ((), t))
      ((runDeclare W.env zero W.I l ty s).bind fun t => .ok ((), t)) := by
    unfold runDeclare
    cases hd : declareEffect W.env zero ty with
    | nothing => exact .ok trivial
    | assign op =>
      dsimp only
      rw [hj, hp2]
      obtain ⟨o1, o2, o3⟩ := declareEffect_op hd
      have h1 := prim_same (W := W) op (σ := σ) (xs := []) (vs := []) (s := s) rfl (fun l h => absurd h (o1 l))
        (fun h => absurd h o2) (fun ty h => absurd h (o3 ty))
      show Same _ σ (((Res.ofExcept (W.J.prim op [] (s, σ))).bind fun x =>
          (Res.ofExcept (W.J.prim .assign [.val p, x.1] x.2)).bind fun y => .ok y.2).bind fun t => .ok ((), t))
        (((Res.ofExcept (W.I.prim op [] s)).bind fun x =>
          (Res.ofExcept (W.I.prim .assign [p, x.1] x.2)).bind fun y => .ok y.2).bind fun t => .ok ((), t))
      generalize h2 : Res.ofExcept (W.J.prim op [] (s, σ)) = r at h1
      generalize h3 : Res.ofExcept (W.I.prim op [] s) = r' at h1
      cases h1 with
      | abort => exact .abort
      | stuck => exact .stuck
      | @ok x y s1 hx =>
        have h4 := prim_same (W := W) .assign (σ := σ) (xs := [.val p, x]) (vs := [p, y]) (s := s1)
          (by rw [← hx]; rfl) (fun l h => nomatch h) (fun _ => trivial) (fun ty h => nomatch h)
        show Same _ σ (((Res.ofExcept (W.J.prim .assign [.val p, x] (s1, σ))).bind fun y => .ok y.2).bind fun t => .ok ((), t))
          (((Res.ofExcept (W.I.prim .assign [p, y] s1)).bind fun y => .ok y.2).bind fun t => .ok ((), t))
        generalize h5 : Res.ofExcept (W.J.prim .assign [.val p, x] (s1, σ)) = r at h4
        generalize h6 : Res.ofExcept (W.I.prim .assign [p, y] s1) = r' at h4
        cases h4 with
        | abort => exact .abort
        | stuck => exact .stuck
        | ok _ => exact .ok trivial
    | clear ty' =>
      dsimp only
      rw [hj, hp2]
      show Same _ σ (((Res.ofExcept (W.J.prim (.intrinsic .ArrayClear ty') [.val p] (s, σ))).bind fun y => .ok y.2).bind fun t => .ok ((), t))
        (((Res.ofExcept (W.I.prim (.intrinsic .ArrayClear ty') [p] s)).bind fun y => .ok y.2).bind fun t => .ok ((), t))
      have h4 := prim_same (W := W) (.intrinsic .ArrayClear ty') (σ := σ) (xs := [.val p]) (vs := [p]) (s := s)
        rfl (fun l h => nomatch h) (fun _ => trivial) (fun ty h => nomatch h)
      generalize h5 : Res.ofExcept (W.J.prim (.intrinsic .ArrayClear ty') [.val p] (s, σ)) = r at h4
      generalize h6 : Res.ofExcept (W.I.prim (.intrinsic .ArrayClear ty') [p] s) = r' at h4
      cases h4 with
      | abort => exact .abort
      | stuck => exact .stuck
      | ok _ => exact .ok trivial
  refine BiSim.congr (R' := DeclareRun W.env zero W.J l ty (s, σ)) (R := DeclareRun W.env zero W.I l ty s) ?_ (fun o => ?_) (fun o => ?_)
  · unfold DeclareRun
    generalize runDeclare W.env zero W.J l ty (s, σ) = r1 at key ⊢
    generalize runDeclare W.env zero W.I l ty s = r2 at key ⊢
    cases r1 with
    | ok t =>
      cases r2 with
      | ok s' =>
        cases key with
        | ok _ =>
          refine (BiSim.single (.normal (s := s') (.refl _ _ σ))).congr (fun o => ?_) (fun o => ?_)
          · exact ⟨by rintro (⟨_, h, rfl⟩ | ⟨_, h, _⟩) <;> cases h; rfl, fun h => .inl ⟨_, rfl, h⟩⟩
          · exact ⟨by rintro (⟨_, h, rfl⟩ | ⟨_, h, _⟩) <;> cases h; rfl, fun h => .inl ⟨_, rfl, h⟩⟩
      | abort c => cases key
      | stuck => cases key
    | abort c =>
      cases r2 with
      | abort d =>
        cases key
        refine (BiSim.single (.aborted (c := c))).congr (fun o => ?_) (fun o => ?_)
        · exact ⟨by rintro (⟨_, h, rfl⟩ | ⟨_, h, rfl⟩) <;> cases h; rfl, fun h => .inr ⟨_, rfl, h⟩⟩
        · exact ⟨by rintro (⟨_, h, rfl⟩ | ⟨_, h, rfl⟩) <;> cases h; rfl, fun h => .inr ⟨_, rfl, h⟩⟩
      | ok c => cases key
      | stuck => cases key
    | stuck =>
      cases r2 with
      | stuck =>
        refine .none_ (fun o => ?_) (fun o => ?_)
        · rintro (⟨_, h, _⟩ | ⟨_, h, _⟩) <;> cases h
        · rintro (⟨_, h, _⟩ | ⟨_, h, _⟩) <;> cases h
      | ok c => cases key
      | abort c => cases key
  · rw [hp, List.nil_append, execAll_one, exec_declare_iff]
  · rw [Runs]
    rfl

/-! ## Branches and loops -/

theorem if_claim (hW : W.Laws) {c : TypedExpr} {t : List TypedExpr} {e : Option (List TypedExpr)} (hc : InOrd W c)
    (h1 : ∀ x ∈ t, StClaim W zero x) (h2 : ∀ es, e = some es → ∀ x ∈ es, StClaim W zero x) : StClaim W zero (.If c t e) := by
  intro st st' e' ht hst hp hd s σ
  rw [dsExpr] at hd
  obtain ⟨⟨t', st1⟩, d1, hd⟩ := except_bind_ok hd
  obtain ⟨⟨o', st2⟩, d2, hd⟩ := except_bind_ok hd
  obtain ⟨⟨c', st3⟩, d3, hd⟩ := except_bind_ok hd
  cases hd
  dsimp only at d2 d3 ⊢
  have g1 := dsSeq_grows hW.grows t d1
  have g2 := dsOpt_grows hW.grows e d2
  have g3 := dsExpr_grows hW.grows c d3
  have n1 : st.next ≤ st1.next := g1.next
  have n2 : st1.next ≤ st2.next := g2.next
  have n3 : st2.next ≤ st3.next := g3.next
  obtain ⟨p1, b1⟩ := seq_claim hW h1 st st1 t' ((ht.mono g3).mono g2) hst hp d1
  obtain ⟨p2, b2⟩ := opt_claim hW h2 (ht.mono g3) (by omega) p1 d2
  refine ((inord_claim hW hc).1.stmt hW ht (by omega) p2 d3 (a := st.next) (b := st3.next) (by omega) (Nat.le_refl _)
    (K' := fun v s o => (W.J.truth v s = true ∧ ExecAll W.env zero W.J t' s o) ∨ (W.J.truth v s = false ∧ ExecAll W.env zero W.J (o'.getD []) s o))
    (fun t o => exec_if_iff.trans Or.comm)
    (K := fun v s o => (W.I.truth v s = true ∧ RunsAll W.env zero W.I W.U t s o) ∨ (W.I.truth v s = false ∧ RunsOpt W.env zero W.I W.U e s o))
    ?_).congr (fun o => Iff.rfl) (fun o => by rw [Runs])
  intro x y s1 σ1 _ hx
  have : W.J.truth x (s1, σ1) = W.I.truth y s1 := by rw [← hx]; rfl
  rw [this]
  exact BiSim.ite ((b1 s1 σ1).widen (by omega) (by omega)) ((b2 s1 σ1).widen (by omega) (by omega))

theorem while_claim (hW : W.Laws) {c : TypedExpr} {body : List TypedExpr} (hc : Fixed W true c)
    (h1 : ∀ x ∈ body, StClaim W zero x) : StClaim W zero (.While c body) := by
  intro st st' e' ht hst hp hd s σ
  rw [dsExpr] at hd
  obtain ⟨⟨b', st1⟩, d1, hd⟩ := except_bind_ok hd
  obtain ⟨⟨c', st2⟩, d2, hd⟩ := except_bind_ok hd
  cases hd
  dsimp only at d2
  have g1 := dsSeq_grows hW.grows body d1
  have g2 := dsExpr_grows hW.grows c d2
  have n1 : st.next ≤ st1.next := g1.next
  have n2 : st1.next ≤ st2.next := g2.next
  obtain ⟨p1, b1⟩ := seq_claim hW h1 st st1 b' (ht.mono g2) hst hp d1
  obtain ⟨P, good, hP, _, hs, he⟩ := fixed_claim hW hc st1 st2 c' ht (by omega) d2
  have hPe := pending_exprs hW p1 d2
  rw [p1, List.nil_append] at hP
  rw [hP] at hPe ⊢
  obtain ⟨σ1, r1, f1, g1⟩ := hs.run s σ
  have key : BiSim st.next st1.next σ1 (Loop W.J (evalE W.env W.J c') (ExecAll W.env zero W.J b') (s, σ1))
      (Loop W.I (evalS W.env W.I W.U c) (RunsAll W.env zero W.I W.U body) s) := by
    refine BiSim.loop (good := good) ?_ he b1 ?_ g1
    · intro x v s σ hx
      rw [← hx]
      rfl
    · intro σ σ' hg hf
      exact hs.stable _ _ hg (hf.agree (.inr (Nat.le_refl _)))
  refine BiSim.after (f1.widen n1 (Nat.le_refl _)) ((key.widen (Nat.le_refl _) n2).congr (fun o => ?_) (fun o => by rw [Runs]))
  rw [execAll_pre hPe, r1]
  dsimp only
  rw [execAll_one, exec_while_iff]

/-! ## Switches -/

theorem cases_claim (hW : W.Laws) : ∀ {cs : List (TypedExpr × List TypedExpr)} {st st' : DsState} {cs' : List (TypedExpr × List TypedExpr)},
    (∀ c ∈ cs, Fixed W false c.1) → (∀ c ∈ cs, ∀ x ∈ c.2, StClaim W zero x) → Typed W.Q st' → W.start ≤ st.next → st.pending = [] →
    dsCases W.D cs st = .ok (cs', st') → st'.pending = [] ∧ ∀ {a b : Nat} {d' : List TypedExpr} {d : S → Ending V S A → Prop},
      a ≤ st.next → st'.next ≤ b → (∀ s σ, BiSim a b σ (ExecAll W.env zero W.J d' (s, σ)) (d s)) →
      (∀ s σ, BiSim a b σ (ExecAll W.env zero W.J (cs'.flatMap (·.2) ++ d') (s, σ)) (RunsBodies W.env zero W.I W.U d cs s)) ∧
      ∀ ty x v s σ, CellReads σ x v → BiSim a b σ (SwitchRun W.env zero W.J ty x cs' d' (s, σ)) (RunsSwitch W.env zero W.I W.U ty v d cs s)
  | [], st, st', cs', _, _, _, _, hp, hd => by
    cases hd
    refine ⟨hp, fun {a b d' d} _ _ h => ⟨fun s σ => (h s σ).congr (fun o => Iff.rfl) (fun o => by rw [RunsBodies]), fun ty x v s σ _ => ?_⟩⟩
    refine (h s σ).congr (fun o => ?_) (fun o => by rw [RunsSwitch])
    unfold SwitchRun selectCase
    constructor
    · rintro (⟨_, h, _⟩ | ⟨_, _, h, h'⟩)
      · cases h
      · cases h; exact h'
    · intro h
      exact .inr ⟨[], _, rfl, h⟩
  | (m, body) :: cs, st, st', cs', h1, h2, ht, hst, hp, hd => by
    rw [dsCases] at hd
    obtain ⟨⟨b', st1⟩, d1, hd⟩ := except_bind_ok hd
    obtain ⟨⟨m', st2⟩, d2, hd⟩ := except_bind_ok hd
    obtain ⟨⟨cs2, st3⟩, d3, hd⟩ := except_bind_ok hd
    cases hd
    dsimp only at d2 d3
    have g1 := dsSeq_grows hW.grows body d1
    have g2 := dsExpr_grows hW.grows m d2
    have g3 := dsCases_grows hW.grows cs d3
    have n1 : st.next ≤ st1.next := g1.next
    have n2 : st1.next ≤ st2.next := g2.next
    have n3 : st2.next ≤ st3.next := g3.next
    obtain ⟨p1, b1⟩ := seq_claim hW (h2 (m, body) (List.mem_cons_self ..)) st st1 b' ((ht.mono g3).mono g2) hst hp d1
    obtain ⟨P, good, hP, hn, hs, he⟩ := fixed_claim hW (h1 (m, body) (List.mem_cons_self ..)) st1 st2 m' (ht.mono g3) (by omega) d2
    cases hn rfl
    rw [p1, List.nil_append] at hP
    have hgood : ∀ s σ, Same CellReads σ (evalE W.env W.J m' (s, σ)) (evalS W.env W.I W.U m s) := by
      intro s σ
      obtain ⟨σ', r, _, g⟩ := hs.run s σ
      have r : σ = σ' := congrArg (fun | .ok t => t.2 | _ => σ') r
      rw [r]
      exact he s σ' g
    obtain ⟨p3, b3⟩ := cases_claim hW (fun c hc => h1 c (List.mem_cons_of_mem _ hc)) (fun c hc => h2 c (List.mem_cons_of_mem _ hc))
      ht (by omega) hP d3
    refine ⟨p3, fun {a b d' d} ha hb hdf => ?_⟩
    have hb : st3.next ≤ b := hb
    obtain ⟨b4, b5⟩ := b3 (a := a) (b := b) (by omega) hb hdf
    have b6 : ∀ s σ, BiSim a b σ (ExecAll W.env zero W.J (((m', b') :: cs2).flatMap (·.2) ++ d') (s, σ))
        (RunsBodies W.env zero W.I W.U d ((m, body) :: cs) s) := by
      intro s σ
      refine (BiSim.then_ (B' := ExecAll W.env zero W.J b') (C' := ExecAll W.env zero W.J (cs2.flatMap (·.2) ++ d'))
        (B := RunsAll W.env zero W.I W.U body) (C := RunsBodies W.env zero W.I W.U d cs)
        ((b1 s σ).widen (by omega) (by omega)) fun s1 σ1 _ => b4 s1 σ1).congr (fun o => ?_) (fun o => by rw [RunsBodies])
      rw [← execAll_append_then, List.flatMap_cons, List.append_assoc]
    refine ⟨b6, fun ty x v s σ hx => ?_⟩
    refine BiSim.congr (R' := Using (evalE W.env W.J m' (s, σ)) fun w t o =>
      (W.J.matches_ ty x w t = true ∧ ExecAll W.env zero W.J (((m', b') :: cs2).flatMap (·.2) ++ d') t o) ∨
        (W.J.matches_ ty x w t = false ∧ SwitchRun W.env zero W.J ty x cs2 d' t o)) ?_ (fun o => ?_) (fun o => by rw [RunsSwitch])
    · refine BiSim.using_ (hgood s σ) fun w w' s1 hw => ?_
      have : W.J.matches_ ty x w (s1, σ) = W.I.matches_ ty v w' s1 := by rw [← hx, ← hw]; rfl
      rw [this]
      refine BiSim.ite ?_ (b5 ty x v s1 σ hx)
      exact (b6 s1 σ).congr (fun o => Iff.rfl) (fun o => by rw [RunsBodies])
    · unfold SwitchRun
      rw [selectCase]
      cases evalE W.env W.J m' (s, σ) with
      | abort c =>
        constructor
        · rintro (⟨_, h, rfl⟩ | ⟨_, _, h, h'⟩) <;> cases h
          exact .inr ⟨_, rfl, rfl⟩
        · rintro (⟨_, _, h, h'⟩ | ⟨_, h, rfl⟩) <;> cases h
          exact .inl ⟨_, rfl, rfl⟩
      | stuck =>
        constructor
        · rintro (⟨_, h, rfl⟩ | ⟨_, _, h, h'⟩) <;> cases h
        · rintro (⟨_, _, h, h'⟩ | ⟨_, h, rfl⟩) <;> cases h
      | ok w =>
        obtain ⟨w, t⟩ := w
        dsimp only [Res.bind]
        cases hm : W.J.matches_ ty x w t with
        | true =>
          rw [if_pos rfl]
          constructor
          · rintro (⟨_, h, rfl⟩ | ⟨_, _, h, h'⟩) <;> cases h
            exact .inl ⟨_, _, rfl, .inl ⟨hm, h'⟩⟩
          · rintro (⟨_, _, h, ⟨_, h'⟩ | ⟨h', _⟩⟩ | ⟨_, h, rfl⟩)
            · cases h; exact .inr ⟨_, _, rfl, h'⟩
            · cases h; rw [hm] at h'; cases h'
            · cases h
        | false =>
          rw [if_neg (by simp)]
          constructor
          · intro h
            exact .inl ⟨_, _, rfl, .inr ⟨hm, h⟩⟩
          · rintro (⟨_, _, h, ⟨h', _⟩ | ⟨_, h'⟩⟩ | ⟨_, h, rfl⟩)
            · cases h; rw [hm] at h'; cases h'
            · cases h; exact h'
            · cases h

theorem switch_claim (hW : W.Laws) {e : TypedExpr} {ty : TypeId} {cs : List (TypedExpr × List TypedExpr)} {d : Option (List TypedExpr)}
    (hty : W.env.typeOf e = .ok ty) (he : InOrd W e) (h1 : ∀ c ∈ cs, Fixed W false c.1) (h2 : ∀ c ∈ cs, ∀ x ∈ c.2, StClaim W zero x)
    (h3 : ∀ es, d = some es → ∀ x ∈ es, StClaim W zero x) : StClaim W zero (.Switch e cs d) := by
  intro st st' e' ht hst hp hd s σ
  rw [dsExpr] at hd
  obtain ⟨⟨cs', st1⟩, d1, hd⟩ := except_bind_ok hd
  obtain ⟨⟨o', st2⟩, d2, hd⟩ := except_bind_ok hd
  obtain ⟨⟨c', st3⟩, d3, hd⟩ := except_bind_ok hd
  cases hd
  dsimp only at d2 d3
  have g1 := dsCases_grows hW.grows cs d1
  have g2 := dsOpt_grows hW.grows d d2
  have g3 := dsExpr_grows hW.grows e d3
  have n1 : st.next ≤ st1.next := g1.next
  have n2 : st1.next ≤ st2.next := g2.next
  have n3 : st2.next ≤ st3.next := g3.next
  obtain ⟨p1, b1⟩ := cases_claim hW h1 h2 ((ht.mono g3).mono g2) hst hp d1
  obtain ⟨p2, b2⟩ := opt_claim hW h3 (ht.mono g3) (by omega) p1 d2
  have hty' : W.env.typeOf c' = .ok ty := by
    rw [hW.types, dsExpr_type hW e ht d3, ← hW.types]
    exact hty
  obtain ⟨_, b3⟩ := b1 (a := st.next) (b := st3.next) (d' := o'.getD []) (d := RunsOpt W.env zero W.I W.U d) (Nat.le_refl _) (by omega)
    fun s σ => (b2 s σ).widen (by omega) (by omega)
  obtain ⟨P, hP, hin⟩ := (inord_claim hW he).1 st2 st3 c' ht (by omega) d3
  have hPe := pending_exprs hW p2 d3
  rw [p2, List.nil_append] at hP
  rw [hP] at hPe ⊢
  have hK : ∀ x y s1 σ1, Frame st.next st3.next σ σ1 → CellReads σ1 x y → BiSim st.next st3.next σ1
      (fun o => ∃ o1, SwitchRun W.env zero W.J ty x cs' (o'.getD []) (s1, σ1) o1 ∧ o = o1.catchBreak)
      (fun o => ∃ o1, RunsSwitch W.env zero W.I W.U ty y (RunsOpt W.env zero W.I W.U d) cs s1 o1 ∧ o = o1.catchBreak) :=
    fun x y s1 σ1 _ hx => (b3 ty x y s1 σ1 hx).catchBreak
  refine (hin.stmt (a := st.next) (b := st3.next)
    (K' := fun x t o => ∃ o1, SwitchRun W.env zero W.J ty x cs' (o'.getD []) t o1 ∧ o = o1.catchBreak)
    (K := fun y s o => ∃ o1, RunsSwitch W.env zero W.I W.U ty y (RunsOpt W.env zero W.I W.U d) cs s o1 ∧ o = o1.catchBreak) (Y := [.Switch c' cs' o']) hPe (by omega) (Nat.le_refl _) (fun t o => ?_) hK).congr
    (fun o => Iff.rfl) (fun o => ?_)
  · rw [execAll_one, exec_switch_iff hty']
    constructor
    · rintro ⟨o1, ⟨a, h, rfl⟩ | ⟨v, s', h, h'⟩, rfl⟩
      · exact .inr ⟨a, h, rfl⟩
      · exact .inl ⟨v, s', h, o1, h', rfl⟩
    · rintro (⟨v, s', h, o1, h', rfl⟩ | ⟨a, h, rfl⟩)
      · exact ⟨o1, .inr ⟨v, s', h, h'⟩, rfl⟩
      · exact ⟨.aborted a, .inl ⟨a, h, rfl⟩, rfl⟩
  · rw [Runs, hty]
    dsimp only
    constructor
    · rintro ⟨o1, rfl, ⟨v, s', h, h'⟩ | ⟨a, h, rfl⟩⟩
      · exact .inl ⟨v, s', h, o1, h', rfl⟩
      · exact .inr ⟨a, h, rfl⟩
    · rintro (⟨v, s', h, o1, h', rfl⟩ | ⟨a, h, rfl⟩)
      · exact ⟨o1, rfl, .inl ⟨v, s', h, h'⟩⟩
      · exact ⟨.aborted a, rfl, .inr ⟨a, h, rfl⟩⟩

end

end Redscript
