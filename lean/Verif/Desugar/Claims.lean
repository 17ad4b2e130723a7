import Verif.Desugar.Toy

/-!
# C32: desugaring preserves evaluation
-/

namespace Redscript

section
variable {V S A : Type} {W : DsWorld V S A} {zero : Literal → Text}

theorem tame_claim (hW : W.Laws) {e : TypedExpr} (h : Tame W e) : StClaim W zero e := by
  induction h with
  | expr h => exact expr_claim hW h
  | declareInit hl h => exact declareInit_claim hW hl h
  | declare hl => exact declare_claim hW hl
  | break_ =>
    intro st st' e' ht hst hp hd s σ
    cases hd
    refine (BiSim.single (.broke (s := s) (.refl _ _ σ))).congr (fun o => ?_) (fun o => by rw [Runs])
    rw [hp, List.nil_append, execAll_one]
    constructor
    · intro h
      cases h with
      | break_ => rfl
      | expr h _ => cases h
      | exprAbort h _ => cases h
    · rintro rfl; exact .break_
  | returnNone =>
    intro st st' e' ht hst hp hd s σ
    cases hd
    refine (BiSim.single (.returned (s := s) (x := none) (v := none) (.refl _ _ σ) rfl)).congr (fun o => ?_) (fun o => by rw [Runs])
    rw [hp, List.nil_append, execAll_one]
    constructor
    · intro h
      cases h with
      | returnNone => rfl
      | expr h _ => cases h
      | exprAbort h _ => cases h
    · rintro rfl; exact .returnNone
  | returnSome h => exact return_claim hW h
  | seq _ ih =>
    intro st st' e' ht hst hp hd s σ
    rw [dsExpr] at hd
    obtain ⟨⟨es', st1⟩, d1, hd⟩ := except_bind_ok hd
    cases hd
    obtain ⟨p1, b1⟩ := seq_claim hW ih st st1 es' ht hst hp d1
    refine (b1 s σ).congr (fun o => ?_) (fun o => by rw [Runs])
    dsimp only
    rw [p1, List.nil_append, execAll_one, exec_seq_iff]
  | if_ hc _ _ ih1 ih2 => exact if_claim hW hc ih1 ih2
  | while_ hc _ ih => exact while_claim hW hc ih
  | forIn hx ha _ ih => exact forIn_claim hW hx ha ih
  | switch hty he hm _ _ ih1 ih2 => exact switch_claim hW hty he hm ih1 ih2

/-- Desugaring keeps the behaviour of bodies in which every array literal with effects is evaluated before
anything else in its statement, loop conditions contain only literals of constants and case labels contain
none: whatever the states and the added variables contain, each ending of the desugared body is one of the
body as written and the other way round, with the same state and result. Only added variables change.

The statement without these conditions is false, see the counterexamples below. -/
theorem C32_desugaring_preserves_evaluation_partial (hW : W.Laws) {body body' : List TypedExpr} {st st' : DsState}
    (ht : ∀ e ∈ body, Tame W e) (hst : W.start ≤ st.next) (hp : st.pending = []) (hty : Typed W.Q st')
    (hd : dsSeq W.D body st = .ok (body', st')) (s : S) (σ : Idx → V) :
    BiSim st.next st'.next σ (ExecAll W.env zero W.J body' (s, σ)) (RunsAll W.env zero W.I W.U body s) :=
  (seq_claim hW (fun e he => tame_claim hW (ht e he)) st st' body' hty hst hp hd).2 s σ

end


namespace Toy

/-- The state of desugaring before it starts. -/
def st0 : DsState := { next := 100, pending := [], locals := [] }

/-- A call of the function that counts its calls and gives the count. -/
abbrev counted : TypedExpr := .Call (.Function 13) [] []

/-- `a < b`. -/
abbrev less (a b : TypedExpr) : TypedExpr := .Call (.Function 11) [] [a, b]

abbrev num (n : BitVec 32) : TypedExpr := .Constant (.I32 n)

abbrev lit (es : List TypedExpr) : TypedExpr := .ArrayLit es (some int)

/-- `for x in [counted(), 2] { if x < 5 { let t = s"v\(x)!"; } } return x;` -/
def body : List TypedExpr :=
  [.ForIn 1 (lit [counted, num 2])
    [.If (less (useLocal 1) (num 5)) [.Declare 2 none (some (.InterpolatedString "v".toList [(useLocal 1, "!".toList)]))] none],
   .Return (some (useLocal 1))]

theorem typed_body : ∃ body' st', dsSeq world.D body st0 = .ok (body', st') ∧ Typed queries st' := by
  refine ⟨_, _, rfl, ?_⟩
  rintro x hx
  have hx : x ∈ [(100, .Array int), (101, .Array int), (102, int)] := hx
  simp only [List.mem_cons, List.not_mem_nil, or_false] at hx
  rcases hx with rfl | rfl | rfl <;> rfl

theorem fixed_num {lits : Bool} (n : BitVec 32) : Fixed world lits (num n) := .const

theorem fixed_counted {lits : Bool} : Fixed world lits counted := .call (.inl rfl) nofun

theorem tame_body : ∀ e ∈ body, Tame world e := by
  intro e he
  have hx : (1 : Idx).toNat < 100 := by decide
  rcases List.mem_cons.1 he with rfl | he
  · refine .forIn (by decide) (.array (by decide) ?_) ?_
    · intro e he
      rcases List.mem_cons.1 he with rfl | he
      · exact .fixed fixed_counted
      · rw [List.mem_singleton.1 he]
        exact .fixed (fixed_num 2)
    · intro e he
      rw [List.mem_singleton.1 he]
      refine .if_ (.fixed (.call (.inl rfl) ?_)) ?_ nofun
      · intro e he
        rcases List.mem_cons.1 he with rfl | he
        · exact .local_ hx
        · rw [List.mem_singleton.1 he]
          exact fixed_num 5
      · intro e he
        rw [List.mem_singleton.1 he]
        refine .declareInit (by decide) (.fixed (.string ?_))
        intro p hp
        rw [List.mem_singleton.1 hp]
        exact .local_ hx
  · rw [List.mem_singleton.1 he]
    exact .returnSome (.fixed (.local_ hx))

/-- The theorem applies to a loop over a literal with effects and with an interpolated string. -/
example (zero : Literal → Text) (s : State) (σ : Idx → Val) : ∃ body' st', dsSeq world.D body st0 = .ok (body', st') ∧
    BiSim 100 st'.next σ (ExecAll env zero world.J body' (s, σ)) (RunsAll env zero interp sugar body s) := by
  obtain ⟨body', st', hd, ht⟩ := typed_body
  exact ⟨body', st', hd, C32_desugaring_preserves_evaluation_partial laws tame_body (Nat.le_refl _) rfl ht hd s σ⟩

def s0 : State := { count := 0, vars := fun _ => .object 0 }

theorem exec_return_using {V S A : Type} {env : AsmEnv} {zero : Literal → Text} {I : Interp V S A} {e : TypedExpr} {s : S} {o : Ending V S A} :
    Exec env zero I (.Return (some e)) s o ↔ Using (evalE env I e s) (fun v s o => o = .returned (some v) s) o := by
  constructor
  · intro h
    cases h with
    | returnSome h => exact .inl ⟨_, _, h, rfl⟩
    | returnAbort h => exact .inr ⟨_, h, rfl⟩
    | expr h _ => cases h
    | exprAbort h _ => cases h
  · rintro (⟨v, s, h, rfl⟩ | ⟨a, h, rfl⟩)
    · exact .returnSome h
    · exact .returnAbort h

theorem typed_one {st : DsState} (h : st.locals = [(100, .Array int)]) : Typed queries st := by
  intro x hx
  rw [h, List.mem_singleton] at hx
  rw [hx]
  rfl

/-- The set-up of `[counted()]`. -/
def setup : List TypedExpr :=
  [.Call (.Intrinsic .ArrayResize .Void) [] [useLocal 100, .Constant (.U64 1)],
   .Assign (.ArrayElem (useLocal 100) (.Constant (.U64 0))) counted]

theorem setup_isExpression : ∀ x ∈ setup, x.isExpression = true := by
  intro x hx
  simp only [setup, List.mem_cons, List.not_mem_nil, or_false] at hx
  rcases hx with rfl | rfl <;> rfl

/-- `[n]`. -/
abbrev single (n : BitVec 32) : Val := .val (.array int [.const (.I32 n)])

/-- The variables after the set-up. -/
def cellsAfter (σ : Idx → Val) : Idx → Val :=
  setCell (setCell σ 100 (.val (.array int [.object 0]))) 100 (single 0)

theorem run_setup (σ : Idx → Val) : runPre env world.J setup (s0, σ) = .ok ({ s0 with count := 1 }, cellsAfter σ) := rfl

/-- Operands: `return counted() < [counted()][0]` as written is true and becomes false. -/
theorem C32_operand_order_counterexample (zero : Literal → Text) (σ : Idx → Val) :
    ∃ body body' st', dsSeq world.D body st0 = .ok (body', st') ∧ Typed queries st' ∧
      (∃ s, RunsAll env zero interp sugar body s0 (.returned (some (.val (.const (.Bool true)))) s)) ∧
      ∀ o, ExecAll env zero world.J body' (s0, σ) o → ∃ t, o = .returned (some (.val (.val (.const (.Bool false))))) t := by
  refine ⟨[.Return (some (less counted (.ArrayElem (lit [counted]) (num 0))))],
    setup ++ [.Return (some (less counted (.ArrayElem (useLocal 100) (num 0))))], _, rfl, typed_one rfl, ?_, ?_⟩
  · refine ⟨{ s0 with count := 2 }, ?_⟩
    rw [RunsAll, Then]
    exact .inr ⟨by rw [Runs]; exact .inl ⟨_, _, rfl, rfl⟩, nofun⟩
  · intro o h
    rw [execAll_pre setup_isExpression, run_setup] at h
    dsimp only at h
    rw [execAll_one, exec_return_using] at h
    rcases h with ⟨v, s, h, rfl⟩ | ⟨a, h, _⟩
    · cases h
      exact ⟨_, rfl⟩
    · cases h

/-- Conditionals: in `return true ? 1 : [counted()][0]` the function is not called, but it is called after desugaring. -/
theorem C32_conditional_counterexample (zero : Literal → Text) (σ : Idx → Val) :
    ∃ body body' st', dsSeq world.D body st0 = .ok (body', st') ∧ Typed queries st' ∧
      (∃ v, RunsAll env zero interp sugar body s0 (.returned v s0)) ∧
      ∀ o, ExecAll env zero world.J body' (s0, σ) o → ∃ v σ', o = .returned v ({ s0 with count := 1 }, σ') := by
  refine ⟨[.Return (some (.Conditional (.Constant (.Bool true)) (num 1) (.ArrayElem (lit [counted]) (num 0))))],
    setup ++ [.Return (some (.Conditional (.Constant (.Bool true)) (num 1) (.ArrayElem (useLocal 100) (num 0))))], _, rfl, typed_one rfl, ?_, ?_⟩
  · refine ⟨some (.val (.const (.I32 1))), ?_⟩
    rw [RunsAll, Then]
    exact .inr ⟨by rw [Runs]; exact .inl ⟨_, _, rfl, rfl⟩, nofun⟩
  · intro o h
    rw [execAll_pre setup_isExpression, run_setup] at h
    dsimp only at h
    rw [execAll_one, exec_return_using] at h
    rcases h with ⟨v, s, h, rfl⟩ | ⟨a, h, _⟩
    · cases h
      exact ⟨_, _, rfl⟩
    · cases h

theorem cond_true {t : State × (Idx → Val)} (h : t.2 100 = single 0) :
    evalE env world.J (less (.ArrayElem (useLocal 100) (num 0)) (num 1)) t = .ok (.val (.val (.const (.Bool true))), t) := by
  obtain ⟨s, σ⟩ := t
  have h : σ 100 = single 0 := h
  have hs : σ = setCell σ 100 (single 0) := by
    funext l
    rw [setCell]
    split
    · rename_i hl; rw [hl, h]
    · rfl
  rw [hs]
  rfl

/-- Loop conditions: `while [counted()][0] < 1 {}` ends after the second call; after desugaring it never ends. -/
theorem C32_loop_condition_counterexample (zero : Literal → Text) (σ : Idx → Val) :
    ∃ body body' st', dsSeq world.D body st0 = .ok (body', st') ∧ Typed queries st' ∧
      RunsAll env zero interp sugar body s0 (.normal { s0 with count := 2 }) ∧
      ∀ o, ¬ ExecAll env zero world.J body' (s0, σ) o := by
  refine ⟨[.While (less (.ArrayElem (lit [counted]) (num 0)) (num 1)) []],
    setup ++ [.While (less (.ArrayElem (useLocal 100) (num 0)) (num 1)) []], _, rfl, typed_one rfl, ?_, ?_⟩
  · rw [RunsAll, Then]
    refine .inl ⟨{ s0 with count := 2 }, ?_, by rw [RunsAll]⟩
    rw [Runs]
    refine .next (v := .val (.const (.Bool true))) (s' := { s0 with count := 1 }) rfl rfl (by rw [RunsAll]) ?_
    exact .done (v := .val (.const (.Bool false))) rfl rfl
  · intro o h
    rw [execAll_pre setup_isExpression, run_setup] at h
    dsimp only at h
    rw [execAll_one, exec_while_iff] at h
    have main : ∀ t o, Loop world.J (evalE env world.J (less (.ArrayElem (useLocal 100) (num 0)) (num 1))) (ExecAll env zero world.J []) t o →
        t.2 100 = single 0 → False := by
      intro t o h
      induction h with
      | abort h1 =>
        intro ht
        rw [cond_true ht] at h1
        cases h1
      | done h1 h2 =>
        intro ht
        rw [cond_true ht] at h1
        cases h1
        cases h2
      | next h1 h2 h3 _ ih =>
        intro ht
        rw [cond_true ht] at h1
        cases h1
        cases execAll_nil_iff.1 h3
        exact ih ht
      | leave h1 h2 h3 h4 =>
        intro ht
        cases execAll_nil_iff.1 h3
        exact h4 _ rfl
    exact main _ _ h rfl

/-- Case labels: in `switch 0 { case [counted()][0]: case 1: 5; }` the first label matches; after desugaring the array is
filled in the body of the second case, so the label is an element of an empty array. -/
theorem C32_case_label_counterexample (zero : Literal → Text) (σ : Idx → Val) (hσ : σ 100 = .val (.array int [])) :
    ∃ body body' st', dsSeq world.D body st0 = .ok (body', st') ∧ Typed queries st' ∧
      RunsAll env zero interp sugar body s0 (.normal { s0 with count := 1 }) ∧
      ∀ o, ExecAll env zero world.J body' (s0, σ) o → o = .aborted () := by
  refine ⟨[.Switch (num 0) [(.ArrayElem (lit [counted]) (num 0), []), (num 1, [num 5])] none],
    [.Switch (num 0) [(.ArrayElem (useLocal 100) (num 0), []), (num 1, setup ++ [num 5])] none], _, rfl, typed_one rfl, ?_, ?_⟩
  · rw [RunsAll, Then]
    refine .inl ⟨{ s0 with count := 1 }, ?_, by rw [RunsAll]⟩
    rw [Runs]
    refine ⟨.normal { s0 with count := 1 }, rfl, .inl ⟨.val (.const (.I32 0)), s0, rfl, ?_⟩⟩
    show RunsSwitch env zero interp sugar int (.val (.const (.I32 0))) _ _ s0 _
    rw [RunsSwitch]
    refine .inl ⟨.val (.const (.I32 0)), { s0 with count := 1 }, rfl, .inl ⟨rfl, ?_⟩⟩
    refine .inl ⟨{ s0 with count := 1 }, by rw [RunsAll], ?_⟩
    rw [RunsBodies]
    refine .inl ⟨{ s0 with count := 1 }, ?_, by rw [RunsBodies, RunsOpt]⟩
    rw [RunsAll]
    refine .inl ⟨{ s0 with count := 1 }, ?_, by rw [RunsAll]⟩
    rw [Runs]
    · exact ⟨rfl, .inl ⟨_, rfl, rfl⟩⟩
    all_goals nofun
  · intro o h
    have hs : σ = setCell σ 100 (.val (.array int [])) := by
      funext l
      rw [setCell]
      split
      · rename_i hl; rw [hl, hσ]
      · rfl
    rw [hs, execAll_one, exec_switch_iff (ty := int) rfl] at h
    obtain ⟨o', h, rfl⟩ := h
    rcases h with ⟨a, h, _⟩ | ⟨v, t, h, h'⟩
    · cases h
    · cases h
      rcases h' with ⟨a, h, rfl⟩ | ⟨_, _, h, _⟩
      · cases h; rfl
      · cases h

end Toy

end Redscript
