import Verif.Decompiler.ShownJumps

/-!
# Reading paths, conditional jumps and labels
-/

namespace Redscript

/-! ### Statements that have been read -/

/-- Whether the last statement ends the path. -/
def lastEnds (xs : List (Expr SourceAst)) : Bool :=
  match xs.getLast? with
  | some e => endsPath e
  | none => false

theorem lastEnds_nil : lastEnds [] = false := rfl

theorem lastEnds_append_cons (xs : List (Expr SourceAst)) (e : Expr SourceAst) (es : List (Expr SourceAst)) :
    lastEnds (xs ++ e :: es) = lastEnds (e :: es) := by
  unfold lastEnds
  rw [List.getLast?_append]
  have : (e :: es).getLast? ≠ none := by simp
  cases h : (e :: es).getLast? with
  | none => exact absurd h this
  | some a => rfl

theorem lastEnds_append (xs ys : List (Expr SourceAst)) (h : lastEnds xs = false) :
    lastEnds (xs ++ ys) = lastEnds ys := by
  cases ys with
  | nil => rw [List.append_nil, h]; rfl
  | cons e es => exact lastEnds_append_cons ..

theorem readBack_plain {D : DecEnv} {env : AsmEnv} {e : TypedExpr} {x : Expr SourceAst} (h : readBack D env e = some x) :
    endsPath x = false ∧ resolveHere x = none ∧ ∀ t, x ≠ .Goto t := by
  have k : ∀ x : Expr SourceAst, (match x with
      | .Ident _ | .Constant _ | .Null | .This | .Cast _ _ | .Assign _ _ | .ArrayElem _ _ | .New _ _
      | .Conditional _ _ _ | .Member _ _ | .Call _ _ _ | .MethodCall _ _ _ => True
      | _ => False) → endsPath x = false ∧ resolveHere x = none ∧ ∀ t, x ≠ .Goto t := by
    intro x hx
    cases x <;> first | (cases hx; done) | exact ⟨rfl, by simp only [resolveHere], fun _ h => by cases h⟩
  apply k
  cases e <;> simp only [readBack] at h
  case Ident r =>
    split at h <;> first | cases h | (obtain ⟨_, _, rfl⟩ := map_some_iff' h; trivial)
  case Constant c => cases h; trivial
  case Null => cases h; trivial
  case This => cases h; trivial
  case Super => cases h; trivial
  case Cast ty e =>
    split at h
    · obtain ⟨_, _, h⟩ := bind_some_iff' h; obtain ⟨_, _, rfl⟩ := map_some_iff' h; trivial
    · cases h
  case Assign a b => obtain ⟨_, _, h⟩ := bind_some_iff' h; obtain ⟨_, _, rfl⟩ := map_some_iff' h; trivial
  case ArrayElem a b => obtain ⟨_, _, h⟩ := bind_some_iff' h; obtain ⟨_, _, rfl⟩ := map_some_iff' h; trivial
  case New ty args =>
    split at h
    · obtain ⟨_, _, rfl⟩ := map_some_iff' h; trivial
    · obtain ⟨_, _, h⟩ := bind_some_iff' h; obtain ⟨_, _, rfl⟩ := map_some_iff' h; trivial
    · cases h
  case Conditional a b c =>
    obtain ⟨_, _, h⟩ := bind_some_iff' h; obtain ⟨_, _, h⟩ := bind_some_iff' h; obtain ⟨_, _, rfl⟩ := map_some_iff' h; trivial
  case Member e m =>
    cases m <;> simp only at h <;>
      (obtain ⟨_, _, h⟩ := bind_some_iff' h; obtain ⟨_, _, rfl⟩ := map_some_iff' h; trivial)
  case Call c tys args =>
    split at h
    · obtain ⟨_, _, h⟩ := bind_some_iff' h; obtain ⟨_, _, h⟩ := bind_some_iff' h
      split at h
      · split at h
        · cases h; trivial
        · split at h
          · obtain ⟨_, _, rfl⟩ := map_some_iff' h; trivial
          · cases h; trivial
      · cases h
    · obtain ⟨_, _, h⟩ := bind_some_iff' h; obtain ⟨_, _, rfl⟩ := map_some_iff' h; trivial
  case MethodCall ctx f args =>
    obtain ⟨_, _, h⟩ := bind_some_iff' h; obtain ⟨_, _, h⟩ := bind_some_iff' h
    split at h
    · obtain ⟨_, _, rfl⟩ := map_some_iff' h; trivial
    · obtain ⟨_, _, rfl⟩ := map_some_iff' h; trivial
  all_goals cases h

theorem readDeclare_plain {D : DecEnv} {env : AsmEnv} {l : Idx} {ty : Option TypeId} {x : Expr SourceAst}
    (h : readDeclare D env l ty = some x) : endsPath x = false ∧ resolveHere x = none ∧ ∀ t, x ≠ .Goto t := by
  unfold readDeclare at h
  split at h
  · obtain ⟨_, _, rfl⟩ := map_some_iff' h
    exact ⟨rfl, by simp only [resolveHere], fun _ h => by cases h⟩
  · obtain ⟨_, _, h⟩ := bind_some_iff' h; obtain ⟨_, _, rfl⟩ := map_some_iff' h
    exact ⟨rfl, by simp only [resolveHere], fun _ h => by cases h⟩
  · cases h

/-- A `return` or a `break`. -/
def Expr.leaves : TypedExpr → Bool
  | .Return _ | .Break => true
  | _ => false

mutual
theorem readStmt_facts (D : DecEnv) (env : AsmEnv) : ∀ (e : TypedExpr) (x : Expr SourceAst), readStmt D env e = some x →
    endsPath x = e.leaves ∧ resolveHere x = none ∧ ∀ t, x ≠ .Goto t
  | .Declare l ty (some _), x, h => by simp only [readStmt] at h; cases h
  | .Declare l ty none, x, h => by simp only [readStmt] at h; exact readDeclare_plain h
  | .Return none, x, h => by
    simp only [readStmt] at h; cases h; exact ⟨rfl, by simp only [resolveHere], fun _ h => by cases h⟩
  | .Return (some e), x, h => by
    simp only [readStmt] at h
    obtain ⟨_, _, rfl⟩ := map_some_iff' h
    exact ⟨rfl, by simp only [resolveHere], fun _ h => by cases h⟩
  | .Break, x, h => by
    simp only [readStmt] at h; cases h; exact ⟨rfl, by simp only [resolveHere], fun _ h => by cases h⟩
  | .Seq es, x, h => by
    simp only [readStmt] at h
    obtain ⟨_, _, rfl⟩ := map_some_iff' h
    exact ⟨rfl, by simp only [resolveHere], fun _ h => by cases h⟩
  | .If c t none, x, h => by
    simp only [readStmt, readStmtsOpt, Option.map_some] at h
    obtain ⟨_, _, h⟩ := bind_some_iff' h; obtain ⟨t', ht, h⟩ := bind_some_iff' h
    cases h
    have := readStmts_jump D env t t' ht
    exact ⟨rfl, by simp only [resolveHere, this, Option.map_none], fun _ h => by cases h⟩
  | .If c t (some e), x, h => by
    simp only [readStmt, readStmtsOpt] at h
    obtain ⟨_, _, h⟩ := bind_some_iff' h; obtain ⟨t', ht, h⟩ := bind_some_iff' h
    obtain ⟨e', he, rfl⟩ := map_some_iff' h
    obtain ⟨e'', he', rfl⟩ := map_some_iff' he
    have h1 := readStmts_jump D env t t' ht
    have h2 := readStmts_jump D env e e'' he'
    exact ⟨rfl, by simp only [resolveHere, h1, h2, Option.map_none], fun _ h => by cases h⟩
  | .While c b, x, h => by
    simp only [readStmt] at h
    obtain ⟨_, _, h⟩ := bind_some_iff' h; obtain ⟨_, _, rfl⟩ := map_some_iff' h
    exact ⟨rfl, by simp only [resolveHere], fun _ h => by cases h⟩
  | .Switch e cs d, x, h => by
    simp only [readStmt] at h
    obtain ⟨_, _, h⟩ := bind_some_iff' h; obtain ⟨_, _, h⟩ := bind_some_iff' h; obtain ⟨_, _, rfl⟩ := map_some_iff' h
    exact ⟨rfl, by simp only [resolveHere], fun _ h => by cases h⟩
  | .Ident r, x, h => by simp only [readStmt] at h; exact readBack_plain h
  | .Constant _, x, h => by simp only [readStmt] at h; exact readBack_plain h
  | .Null, x, h => by simp only [readStmt] at h; exact readBack_plain h
  | .This, x, h => by simp only [readStmt] at h; exact readBack_plain h
  | .Super, x, h => by simp only [readStmt] at h; exact readBack_plain h
  | .Cast a b, x, h => by simp only [readStmt] at h; exact readBack_plain h
  | .Assign a b, x, h => by simp only [readStmt] at h; exact readBack_plain h
  | .ArrayElem a b, x, h => by simp only [readStmt] at h; exact readBack_plain h
  | .New a b, x, h => by simp only [readStmt] at h; exact readBack_plain h
  | .Conditional a b c, x, h => by simp only [readStmt] at h; exact readBack_plain h
  | .Member a b, x, h => by simp only [readStmt] at h; exact readBack_plain h
  | .Call a b c, x, h => by simp only [readStmt] at h; exact readBack_plain h
  | .MethodCall a b c, x, h => by simp only [readStmt] at h; exact readBack_plain h
  | .ArrayLit _ _, _, h => by simp only [readStmt] at h; exact readBack_plain h
  | .InterpolatedString _ _, _, h => by simp only [readStmt] at h; exact readBack_plain h
  | .ForIn _ _ _, _, h => by simp only [readStmt] at h; exact readBack_plain h
  | .BinOp _ _ _, _, h => by simp only [readStmt] at h; exact readBack_plain h
  | .UnOp _ _, _, h => by simp only [readStmt] at h; exact readBack_plain h
  | .Goto _, _, h => by simp only [readStmt] at h; exact readBack_plain h
  termination_by e => sizeOf e
theorem readStmts_jump (D : DecEnv) (env : AsmEnv) : ∀ (es : List TypedExpr) (xs : List (Expr SourceAst)),
    readStmts D env es = some xs → resolveJump xs = none
  | [], xs, h => by simp only [readStmts] at h; cases h; simp only [resolveJump]
  | e :: es, xs, h => by
    simp only [readStmts] at h
    obtain ⟨x, h1, h⟩ := bind_some_iff' h; obtain ⟨xs, h2, rfl⟩ := map_some_iff' h
    have k1 := readStmt_facts D env e x h1
    have k2 := readStmts_jump D env es xs h2
    simp only [resolveJump, k2, k1.2.1, Option.map_none]
  termination_by es => sizeOf es
end

section
variable {D : DecEnv} {env : AsmEnv}

theorem readStmts_append {as bs : List TypedExpr} {xs : List (Expr SourceAst)} :
    readStmts D env (as ++ bs) = some xs ↔ ∃ ys zs, readStmts D env as = some ys ∧ readStmts D env bs = some zs ∧ xs = ys ++ zs := by
  induction as generalizing xs with
  | nil => simp [readStmts]
  | cons a as ih =>
    simp only [List.cons_append, readStmts]
    constructor
    · intro h
      obtain ⟨x, h1, h⟩ := bind_some_iff' h; obtain ⟨xs, h2, rfl⟩ := map_some_iff' h
      obtain ⟨ys, zs, h3, h4, rfl⟩ := ih.1 h2
      exact ⟨x :: ys, zs, by simp [h1, h3], h4, rfl⟩
    · rintro ⟨ys, zs, h, h4, rfl⟩
      obtain ⟨x, h1, h⟩ := bind_some_iff' h; obtain ⟨xs, h2, rfl⟩ := map_some_iff' h
      have := ih.2 ⟨xs, zs, h2, h4, rfl⟩
      simp [h1, this]

theorem readStmts_cons {a : TypedExpr} {as : List TypedExpr} {xs : List (Expr SourceAst)} :
    readStmts D env (a :: as) = some xs ↔ ∃ y ys, readStmt D env a = some y ∧ readStmts D env as = some ys ∧ xs = y :: ys := by
  simp only [readStmts]
  constructor
  · intro h
    obtain ⟨x, h1, h⟩ := bind_some_iff' h; obtain ⟨xs, h2, rfl⟩ := map_some_iff' h
    exact ⟨_, _, h1, h2, rfl⟩
  · rintro ⟨y, ys, h1, h2, rfl⟩; simp [h1, h2]

theorem readStmts_nil {xs : List (Expr SourceAst)} : readStmts D env [] = some xs ↔ xs = [] := by
  simp only [readStmts, Option.some.injEq]; exact eq_comm

theorem readStmts_empty {xs : List (Expr SourceAst)} : readStmts D env [.Seq []] = some xs ↔ xs = [emptyExpr] := by
  simp only [readStmts, readStmt, Option.map_some, Option.bind_some, Option.some.injEq]; exact eq_comm

theorem readStmts_break {xs : List (Expr SourceAst)} : readStmts D env [.Break] = some xs ↔ xs = [.Break] := by
  simp only [readStmts, readStmt, Option.map_some, Option.bind_some, Option.some.injEq]; exact eq_comm

/-- The last of the statements is a `return` or a `break`. -/
def lastLeaves (es : List TypedExpr) : Bool :=
  match es.getLast? with
  | some e => e.leaves
  | none => false

theorem readStmts_ends : ∀ {es : List TypedExpr} {xs : List (Expr SourceAst)}, readStmts D env es = some xs →
    lastEnds xs = lastLeaves es ∧ gotoToBreak xs = xs := by
  intro es
  induction es with
  | nil => intro xs h; rw [readStmts_nil] at h; subst h; exact ⟨rfl, rfl⟩
  | cons e es ih =>
    intro xs h
    obtain ⟨y, ys, h1, h2, rfl⟩ := readStmts_cons.1 h
    obtain ⟨k1, k2⟩ := ih h2
    cases es with
    | nil =>
      rw [readStmts_nil] at h2; subst h2
      obtain ⟨f1, _, f3⟩ := readStmt_facts D env e y h1
      refine ⟨f1, ?_⟩
      unfold gotoToBreak
      simp only [List.getLast?_singleton]
      split
      · rename_i heq; cases heq; exact absurd rfl (f3 _)
      · rfl
    | cons e' es =>
      obtain ⟨y', ys', h3, h4, rfl⟩ := readStmts_cons.1 h2
      refine ⟨?_, ?_⟩
      · have a1 : lastEnds (y :: y' :: ys') = lastEnds (y' :: ys') := lastEnds_append_cons [y] y' ys'
        have a2 : lastLeaves (e :: e' :: es) = lastLeaves (e' :: es) := by
          unfold lastLeaves; rw [List.getLast?_cons_cons]
        rw [a1, a2, k1]
      · unfold gotoToBreak at k2 ⊢
        rw [List.getLast?_cons_cons]
        split at k2
        · simp only [List.dropLast_cons_cons, List.cons_append]
          rw [k2]
        · rfl

theorem lastLeaves_append_cons (xs : List TypedExpr) (e : TypedExpr) (es : List TypedExpr) :
    lastLeaves (xs ++ e :: es) = lastLeaves (e :: es) := by
  unfold lastLeaves
  rw [List.getLast?_append]
  have : (e :: es).getLast? ≠ none := by simp
  cases h : (e :: es).getLast? with
  | none => exact absurd h this
  | some a => rfl

theorem resolveJump_goto {xs : List (Expr SourceAst)} {t : Location} (_h : resolveJump xs = none) :
    resolveJump (xs ++ [.Goto t]) = some (t, xs ++ [emptyExpr]) := by
  induction xs with
  | nil => simp only [List.nil_append, resolveJump, resolveHere, Option.map_some]
  | cons e es ih =>
    have : resolveJump es = none := by
      rw [resolveJump] at _h
      split at _h
      · cases _h
      · assumption
    rw [List.cons_append, resolveJump, ih this]
    simp

/-! ### What is shown of statements without code, and where it ends -/

mutual
theorem shownStmt_noCode (env : AsmEnv) : ∀ (e : TypedExpr) (w : TailPos), e.noCode env = true →
    shownStmt env w e = [] ∧ e.stops = false ∧ e.strayBreak = false ∧ e.silent = true
  | .Declare l ty init, w, h => by
    cases init with
    | some v => simp only [Expr.noCode] at h; cases h
    | none => exact ⟨by simp only [shownStmt, h, if_true], rfl, rfl, rfl⟩
  | .Seq es, w, h => by
    simp only [Expr.noCode] at h
    obtain ⟨h1, h2, h3, h4⟩ := shownAll_noCode env es w h
    exact ⟨by simp only [shownStmt, h1], by simp only [Expr.stops, h2], by simp only [Expr.strayBreak, h3],
      by simp only [Expr.silent, h4]⟩
  | .Return _, _, h => by cases h
  | .Break, _, h => by cases h
  | .If _ _ _, _, h => by cases h
  | .While _ _, _, h => by cases h
  | .Switch _ _ _, _, h => by cases h
  | .Ident _, _, h => by cases h
  | .Constant _, _, h => by cases h
  | .Null, _, h => by cases h
  | .This, _, h => by cases h
  | .Super, _, h => by cases h
  | .Cast _ _, _, h => by cases h
  | .Assign _ _, _, h => by cases h
  | .ArrayElem _ _, _, h => by cases h
  | .New _ _, _, h => by cases h
  | .Conditional _ _ _, _, h => by cases h
  | .Member _ _, _, h => by cases h
  | .Call _ _ _, _, h => by cases h
  | .MethodCall _ _ _, _, h => by cases h
  | .ArrayLit _ _, _, h => by cases h
  | .InterpolatedString _ _, _, h => by cases h
  | .ForIn _ _ _, _, h => by cases h
  | .BinOp _ _ _, _, h => by cases h
  | .UnOp _ _, _, h => by cases h
  | .Goto _, _, h => by cases h
  termination_by e => sizeOf e
theorem shownAll_noCode (env : AsmEnv) : ∀ (es : List TypedExpr) (w : TailPos), Expr.allNoCode env es = true →
    shownAll env w es = [] ∧ Expr.stopsAny es = false ∧ Expr.anyStrayBreak es = false ∧ Expr.allSilent es = true
  | [], w, h => by
    exact ⟨by simp only [shownAll], rfl, rfl, rfl⟩
  | e :: es, w, h => by
    simp only [Expr.allNoCode, Bool.and_eq_true] at h
    obtain ⟨h1, h2, h3, h4⟩ := shownAll_noCode env es w h.2
    obtain ⟨k1, k2, k3, k4⟩ := shownStmt_noCode env e w h.1
    exact ⟨by simp only [shownAll, h.2, if_true, k1, h1, List.append_nil], by simp only [Expr.stopsAny, k2, h2, Bool.or_false],
      by simp only [Expr.anyStrayBreak, k3, h3, Bool.or_false], by simp only [Expr.allSilent, k4, h4, Bool.and_true]⟩
  termination_by es => sizeOf es
end

mutual
theorem empty_noCode (env : AsmEnv) : ∀ (e : TypedExpr), e.isEmpty = true → e.noCode env = true
  | .Seq es, h => by
    simp only [Expr.isEmpty] at h
    simp only [Expr.noCode]
    exact allEmpty_noCode env es h
  | .Declare _ _ _, h => by cases h
  | .Return _, h => by cases h
  | .Break, h => by cases h
  | .If _ _ _, h => by cases h
  | .While _ _, h => by cases h
  | .Switch _ _ _, h => by cases h
  | .Ident _, h => by cases h
  | .Constant _, h => by cases h
  | .Null, h => by cases h
  | .This, h => by cases h
  | .Super, h => by cases h
  | .Cast _ _, h => by cases h
  | .Assign _ _, h => by cases h
  | .ArrayElem _ _, h => by cases h
  | .New _ _, h => by cases h
  | .Conditional _ _ _, h => by cases h
  | .Member _ _, h => by cases h
  | .Call _ _ _, h => by cases h
  | .MethodCall _ _ _, h => by cases h
  | .ArrayLit _ _, h => by cases h
  | .InterpolatedString _ _, h => by cases h
  | .ForIn _ _ _, h => by cases h
  | .BinOp _ _ _, h => by cases h
  | .UnOp _ _, h => by cases h
  | .Goto _, h => by cases h
  termination_by e => sizeOf e
theorem allEmpty_noCode (env : AsmEnv) : ∀ (es : List TypedExpr), Expr.allEmpty es = true → Expr.allNoCode env es = true
  | [], h => rfl
  | e :: es, h => by
    simp only [Expr.allEmpty, Bool.and_eq_true] at h
    simp only [Expr.allNoCode, empty_noCode env e h.1, allEmpty_noCode env es h.2, Bool.and_true]
  termination_by es => sizeOf es
end

theorem shownStmt_other {w : TailPos} {e : TypedExpr} (h : e.isValue = true) :
    shownStmt env w e = [e] ∧ readStmt D env e = readBack D env e ∧ e.leaves = false ∧ e.stops = false := by
  cases e <;> first
    | (cases h; done)
    | exact ⟨by simp only [shownStmt], by simp only [readStmt], rfl, rfl⟩

mutual
theorem shownStmt_ends (env : AsmEnv) : ∀ (e : TypedExpr), e.isStatement = true → e.tidy env = true →
    lastLeaves (shownStmt env .inner e) = e.stops
  | .Declare l ty (some v), hs, h => by simp only [shownStmt]; rfl
  | .Declare l ty none, hs, h => by simp only [shownStmt]; split <;> rfl
  | .Return e, hs, h => by simp only [shownStmt]; rfl
  | .Break, hs, h => by simp only [shownStmt]; rfl
  | .Seq es, hs, h => by
    simp only [Expr.isStatement] at hs
    simp only [Expr.tidy] at h
    simp only [shownStmt, Expr.stops]
    exact shownAll_ends env es hs h
  | .If c t none, hs, h => by simp only [shownStmt]; rfl
  | .If c t (some e), hs, h => by
    simp only [Expr.isStatement, Expr.areStatementsOpt, Bool.and_eq_true] at hs
    simp only [Expr.tidy, Expr.optTidy, Bool.and_eq_true] at h
    have ih := shownAll_ends env e hs.2 h.2
    simp only [shownStmt, Expr.stops]
    cases ht : Expr.stopsAny t with
    | true =>
      simp only [if_true, Bool.true_and]
      rw [← ih]
      cases hse : shownAll env .inner e with
      | nil => rfl
      | cons a as => exact lastLeaves_append_cons [_] a as
    | false =>
      simp only [Bool.false_eq_true, if_false, Bool.false_and]
      split
      · rfl
      · rfl
  | .While c b, hs, h => by simp only [shownStmt]; rfl
  | .Switch e cs none, hs, h => by simp only [shownStmt]; rfl
  | .Switch e cs (some []), hs, h => by simp only [shownStmt]; rfl
  | .Switch e cs (some (d :: ds)), hs, h => by
    simp only [Expr.isStatement, Expr.areStatementsOpt, Expr.areStatements, Bool.and_eq_true] at hs
    simp only [Expr.tidy, Expr.optTidy, Expr.allTidy, Bool.and_eq_true] at h
    have ih := shownAll_ends env ds hs.2.2 h.1.1.2.1.2
    simp only [shownStmt, Expr.stops]
    cases breaksEarly true cs with
    | true => rfl
    | false =>
      cases Expr.anyStrayBreak (d :: ds) with
      | true => rfl
      | false =>
        simp only [Bool.false_eq_true, if_false, Bool.not_false, Bool.true_and]
        rw [← ih]
        cases hse : shownAll env .inner ds with
        | nil => rfl
        | cons a as => exact lastLeaves_append_cons [_] a as
  | .Ident r, hs, h => by simp only [shownStmt]; rfl
  | .Constant _, hs, h => by simp only [shownStmt]; rfl
  | .Null, hs, h => by simp only [shownStmt]; rfl
  | .This, hs, h => by simp only [shownStmt]; rfl
  | .Super, hs, h => by simp only [shownStmt]; rfl
  | .Cast a b, hs, h => by simp only [shownStmt]; rfl
  | .Assign a b, hs, h => by simp only [shownStmt]; rfl
  | .ArrayElem a b, hs, h => by simp only [shownStmt]; rfl
  | .New a b, hs, h => by simp only [shownStmt]; rfl
  | .Conditional a b c, hs, h => by simp only [shownStmt]; rfl
  | .Member a b, hs, h => by simp only [shownStmt]; rfl
  | .Call a b c, hs, h => by simp only [shownStmt]; rfl
  | .MethodCall a b c, hs, h => by simp only [shownStmt]; rfl
  | .ArrayLit _ _, hs, h => by simp only [shownStmt]; rfl
  | .InterpolatedString _ _, hs, h => by simp only [shownStmt]; rfl
  | .ForIn _ _ _, hs, h => by simp only [shownStmt]; rfl
  | .BinOp _ _ _, hs, h => by simp only [shownStmt]; rfl
  | .UnOp _ _, hs, h => by simp only [shownStmt]; rfl
  | .Goto _, hs, h => by simp only [shownStmt]; rfl
  termination_by e => sizeOf e
/-- What is shown ends with a `return` or `break` when the statements never go on. -/
theorem shownAll_ends (env : AsmEnv) : ∀ (es : List TypedExpr), Expr.areStatements es = true → Expr.allTidy env es = true →
    lastLeaves (shownAll env .inner es) = Expr.stopsAny es
  | [], hs, h => by simp only [shownAll]; rfl
  | e :: es, hs, h => by
    simp only [Expr.areStatements, Bool.and_eq_true] at hs
    simp only [Expr.allTidy, Bool.and_eq_true] at h
    have ih1 := shownStmt_ends env e hs.1 h.1.1
    have ih2 := shownAll_ends env es hs.2 h.1.2
    simp only [shownAll, Expr.stopsAny, ite_self]
    cases he : e.stops with
    | true =>
      have hn := h.2
      rw [he, Bool.not_true, Bool.false_or] at hn
      rw [(shownAll_noCode env es .inner hn).1, List.append_nil, ih1, he]; rfl
    | false =>
      rw [Bool.false_or, ← ih2]
      cases hse : shownAll env .inner es with
      | nil => rw [List.append_nil, ih1, he]; rfl
      | cons a as => exact lastLeaves_append_cons _ a as
  termination_by es => sizeOf es
end

end

/-! ### Paths -/

/-- Reading a statement. -/
abbrev ReadsS (D : DecEnv) (bs : BinarySearch) (blk : Option BlockContext) (out : List (Instr Offset)) (k k' : Nat)
    (e : Expr SourceAst) : Prop :=
  DecReads (fun m => consumeWith D bs m none blk) out k k' e

/-- Reading a path up to a position. -/
abbrev PathTo (D : DecEnv) (bs : BinarySearch) (T : Location) (blk : Option BlockContext) (stop : Bool)
    (out : List (Instr Offset)) (k k' : Nat) (xs : List (Expr SourceAst)) : Prop :=
  DecReads (fun m => consumePath D bs T blk m stop) out k k' xs

/-- Statements are read between two indices, in front of anything that is read behind them. -/
def ReadsL (D : DecEnv) (bs : BinarySearch) (blk : Option BlockContext) (out : List (Instr Offset)) (k k' : Nat)
    (xs : List (Expr SourceAst)) : Prop :=
  ∀ (T : Location) (ys : List (Expr SourceAst)) (kE : Nat), (posAt out k').toNat ≤ T.toNat →
    PathTo D bs T blk (lastEnds xs) out k' kE ys → PathTo D bs T blk false out k kE (xs ++ ys)

section
variable {D : DecEnv} {bs : BinarySearch} {out : List (Instr Offset)} {blk : Option BlockContext} {k k' j kE : Nat}
  {T : Location} {stop : Bool}

theorem path_stop (hk : k ≤ out.length) : PathTo D bs T blk true out k k [] := by
  refine ⟨1, fun m hm => ?_⟩
  obtain ⟨m, rfl⟩ : ∃ m', m = m' + 1 := ⟨m - 1, by omega⟩
  show consumePath D bs T blk (m + 1) true (cursorAt out k) = _
  rw [consumePath, posOf_cursor hk]
  simp only [bind, Except.bind, or_true, if_true]

theorem path_end (hk : k ≤ out.length) (hT : T.toNat ≤ (posAt out k).toNat) : PathTo D bs T blk stop out k k [] := by
  refine ⟨1, fun m hm => ?_⟩
  obtain ⟨m, rfl⟩ : ∃ m', m = m' + 1 := ⟨m - 1, by omega⟩
  show consumePath D bs T blk (m + 1) stop (cursorAt out k) = _
  rw [consumePath, posOf_cursor hk]
  simp only [bind, Except.bind, hT, true_or, if_true]

theorem path_cons {e : Expr SourceAst} {ys : List (Expr SourceAst)} (hk : k ≤ out.length)
    (hT : (posAt out k).toNat < T.toNat) (h1 : ReadsS D bs blk out k j e)
    (h2 : PathTo D bs T blk (endsPath e) out j kE ys) : PathTo D bs T blk false out k kE (e :: ys) := by
  obtain ⟨N1, h1⟩ := h1
  obtain ⟨N2, h2⟩ := h2
  refine ⟨max N1 N2 + 1, fun m hm => ?_⟩
  obtain ⟨m, rfl⟩ : ∃ m', m = m' + 1 := ⟨m - 1, by omega⟩
  have e1 : consumeWith D bs m none blk (cursorAt out k) = _ := h1 m (by omega)
  have e2 : consumePath D bs T blk m (endsPath e) (cursorAt out j) = _ := h2 m (by omega)
  show consumePath D bs T blk (m + 1) false (cursorAt out k) = _
  rw [consumePath, posOf_cursor hk]
  simp only [bind, Except.bind, e1, e2]
  rw [if_neg (by simp; omega)]

theorem ReadsL.nil : ReadsL D bs blk out k k [] := fun _ _ _ _ h => h

theorem ReadsL.one {e : Expr SourceAst} (ok : CodeOk out) (hk : k < k') (hk' : k' ≤ out.length)
    (h : ReadsS D bs blk out k k' e) : ReadsL D bs blk out k k' [e] := by
  intro T ys kE hT hp
  have := ok.pos_lt hk hk'
  exact path_cons (by omega) (by omega) h hp

theorem ReadsL.append {xs zs : List (Expr SourceAst)} (ok : CodeOk out) (h1 : ReadsL D bs blk out k j xs)
    (h2 : ReadsL D bs blk out j k' zs) (hj : j ≤ k') (he : lastEnds xs = false) : ReadsL D bs blk out k k' (xs ++ zs) := by
  intro T ys kE hT hp
  rw [lastEnds_append _ _ he] at hp
  have h3 := h2 T ys kE hT hp
  rw [← he] at h3
  have := ok.pos_le (out := out) hj
  rw [List.append_assoc]
  exact h1 T _ kE (by omega) h3

/-- A complete path. -/
theorem ReadsL.path {xs : List (Expr SourceAst)} (h : ReadsL D bs blk out k k' xs) (hk : k' ≤ out.length) :
    PathTo D bs (posAt out k') blk false out k k' xs := by
  have := h (posAt out k') [] k' (Nat.le_refl _) (path_end hk (Nat.le_refl _))
  simpa using this

/-! ### Single instructions -/

theorem reads_empty {i : Instr Offset} (h : out[k]? = some i) (hk : decKind D i = .empty) :
    ReadsS D bs blk out k (k + 1) emptyExpr := by
  obtain ⟨p, hp⟩ := consumeWith_at (D := D) (bs := bs) h
  refine ⟨1, fun m hm => ?_⟩
  obtain ⟨m, rfl⟩ : ∃ m', m = m' + 1 := ⟨m - 1, by omega⟩
  show consumeWith D bs (m + 1) none blk (cursorAt out k) = _
  rw [hp, hk]

/-- How a jump is read. -/
def jumpRead (blk : Option BlockContext) (here target : Location) : Expr SourceAst :=
  match blk with
  | some (.loop prologue epilogue) =>
    if target = epilogue then .Break
    else if target = prologue ∧ here = epilogue then emptyExpr
    else .Goto target
  | some (.switch epilogue) => if target = epilogue then .Break else .Goto target
  | none => .Goto target

theorem reads_jump {o : Offset} (h : out[k]? = some (.Jump o)) (ho : o ≠ 3) :
    ReadsS D bs blk out k (k + 1) (jumpRead blk (posAt out (k + 1)) (o.absolute (posAt out k))) := by
  have hk := getElem?_lt h
  refine ⟨1, fun m hm => ?_⟩
  obtain ⟨m, rfl⟩ : ∃ m', m = m' + 1 := ⟨m - 1, by omega⟩
  show consumeWith D bs (m + 1) none blk (cursorAt out k) = _
  have hd : decKind D (.Jump o) = .jump o := by simp only [decKind, if_neg ho]
  rw [consumeWith, posOf_cursor (by omega), pop_at h]
  simp only [bind, Except.bind, hd, posOf_cursor hk]
  unfold jumpRead
  split
  · simp only; split
    · rfl
    · split <;> rfl
  · simp only; split <;> rfl
  · rfl

theorem reads_return_none (h : out[k]? = some .Return) (h' : out[k + 1]? = some .Nop) :
    ReadsS D bs blk out k (k + 2) (.Return none) := by
  obtain ⟨p, hp⟩ := consumeWith_at (D := D) (bs := bs) h
  refine ⟨1, fun m hm => ?_⟩
  obtain ⟨m, rfl⟩ : ∃ m', m = m' + 1 := ⟨m - 1, by omega⟩
  show consumeWith D bs (m + 1) none blk (cursorAt out k) = _
  rw [hp]
  have hpeek : (cursorAt out (k + 1)).peek = some .Nop := h'
  simp only [decKind, hpeek, if_true, pop_at h', bind, Except.bind]

theorem reads_return_some {e : Expr SourceAst} {i : Instr Offset} (h : out[k]? = some .Return)
    (h' : out[k + 1]? = some i) (hi : i ≠ .Nop)
    (h1 : ReadsE D bs none out (k + 1) k' e) : ReadsS D bs blk out k k' (.Return (some e)) := by
  obtain ⟨p, hp⟩ := consumeWith_at (D := D) (bs := bs) h
  obtain ⟨N, h1⟩ := h1 none
  refine ⟨N + 1, fun m hm => ?_⟩
  obtain ⟨m, rfl⟩ : ∃ m', m = m' + 1 := ⟨m - 1, by omega⟩
  have e1 : consumeWith D bs m none none (cursorAt out (k + 1)) = _ := h1 m (by omega)
  show consumeWith D bs (m + 1) none blk (cursorAt out k) = _
  rw [hp]
  have hpeek : (cursorAt out (k + 1)).peek = some i := h'
  have hne : ¬ (cursorAt out (k + 1)).peek = some .Nop := by rw [hpeek]; simpa using hi
  simp only [decKind, if_neg hne, bind, Except.bind, e1]

/-- The code from `k` to `t` jumps to `k`, or not. -/
def JumpsBack (bs : BinarySearch) (out : List (Instr Offset)) (k t : Nat) (b : Bool) : Prop :=
  ∀ j, ∃ items, liftCursor (CodeCursor.range bs (cursorAt out j) (posAt out k) (posAt out t)) = .ok items ∧
    jumpsTo (posAt out k) items = b

theorem consumeWith_condJump {o : Offset} (h : out[k]? = some (.JumpIfFalse o)) (ho : ¬ o.toInt < 0) (m : Nat) :
    consumeWith D bs (m + 1) none blk (cursorAt out k) =
      consumeCondJump D bs m (posAt out k) o blk (cursorAt out (k + 1)) := by
  have hk := getElem?_lt h
  rw [consumeWith, posOf_cursor (by omega), pop_at h]
  simp only [bind, Except.bind, decKind, if_neg ho]

theorem reads_while {o : Offset} {c : Expr SourceAst} {body : List (Expr SourceAst)} {t : Nat}
    (h : out[k]? = some (.JumpIfFalse o)) (ho : ¬ o.toInt < 0) (ht : o.absolute (posAt out k) = posAt out t)
    (hc : ReadsE D bs none out (k + 1) j c) (hj : JumpsBack bs out k t true)
    (hb : PathTo D bs (posAt out t) (some (.loop (posAt out k) (posAt out t))) false out j k' body) :
    ReadsS D bs blk out k k' (.While c body) := by
  obtain ⟨N1, hc⟩ := hc none
  obtain ⟨N2, hb⟩ := hb
  refine ⟨max N1 N2 + 2, fun m hm => ?_⟩
  obtain ⟨m, rfl⟩ : ∃ m', m = m' + 2 := ⟨m - 2, by omega⟩
  have e1 : consumeWith D bs m none none (cursorAt out (k + 1)) = _ := hc m (by omega)
  have e2 : consumePath D bs (posAt out t) (some (.loop (posAt out k) (posAt out t))) m false (cursorAt out j) = _ :=
    hb m (by omega)
  obtain ⟨items, h3, h4⟩ := hj j
  show consumeWith D bs (m + 1 + 1) none blk (cursorAt out k) = _
  rw [consumeWith_condJump h ho, consumeCondJump]
  simp only [bind, Except.bind, e1, ht, h3, h4, if_true, e2]

theorem reads_if_none {o : Offset} {c : Expr SourceAst} {body : List (Expr SourceAst)} {t : Nat} (ok : CodeOk out)
    (h : out[k]? = some (.JumpIfFalse o)) (ho : ¬ o.toInt < 0) (ht : o.absolute (posAt out k) = posAt out t)
    (htl : t ≤ out.length)
    (hc : ReadsE D bs none out (k + 1) j c) (hj : JumpsBack bs out k t false)
    (hb : PathTo D bs (posAt out t) blk false out j k' body) (hr : resolveJump body = none) :
    ReadsS D bs blk out k t (.If c body none) := by
  obtain ⟨N1, hc⟩ := hc none
  obtain ⟨N2, hb⟩ := hb
  refine ⟨max N1 N2 + 2, fun m hm => ?_⟩
  obtain ⟨m, rfl⟩ : ∃ m', m = m' + 2 := ⟨m - 2, by omega⟩
  have e1 : consumeWith D bs m none none (cursorAt out (k + 1)) = _ := hc m (by omega)
  have e2 : consumePath D bs (posAt out t) blk m false (cursorAt out j) = _ := hb m (by omega)
  obtain ⟨items, h3, h4⟩ := hj j
  show consumeWith D bs (m + 1 + 1) none blk (cursorAt out k) = _
  rw [consumeWith_condJump h ho, consumeCondJump]
  simp only [bind, Except.bind, e1, ht, h3, h4, Bool.false_eq_true, if_false, e2, seekAbs_cursor ok bs k' htl, hr]

theorem reads_if_some {o : Offset} {c : Expr SourceAst} {body body' else_ : List (Expr SourceAst)} {t j' : Nat}
    {q : Location} (ok : CodeOk out)
    (h : out[k]? = some (.JumpIfFalse o)) (ho : ¬ o.toInt < 0) (ht : o.absolute (posAt out k) = posAt out t)
    (htl : t ≤ out.length)
    (hc : ReadsE D bs none out (k + 1) j c) (hj : JumpsBack bs out k t false)
    (hb : PathTo D bs (posAt out t) blk false out j j' body) (hr : resolveJump body = some (q, body'))
    (he : PathTo D bs q blk false out t k' else_) :
    ReadsS D bs blk out k k' (.If c body' (some else_)) := by
  obtain ⟨N1, hc⟩ := hc none
  obtain ⟨N2, hb⟩ := hb
  obtain ⟨N3, he⟩ := he
  refine ⟨max N1 (max N2 N3) + 2, fun m hm => ?_⟩
  obtain ⟨m, rfl⟩ : ∃ m', m = m' + 2 := ⟨m - 2, by omega⟩
  have e1 : consumeWith D bs m none none (cursorAt out (k + 1)) = _ := hc m (by omega)
  have e2 : consumePath D bs (posAt out t) blk m false (cursorAt out j) = _ := hb m (by omega)
  have e3 : consumePath D bs q blk m false (cursorAt out t) = _ := he m (by omega)
  obtain ⟨items, h3, h4⟩ := hj j
  show consumeWith D bs (m + 1 + 1) none blk (cursorAt out k) = _
  rw [consumeWith_condJump h ho, consumeCondJump]
  simp only [bind, Except.bind, e1, ht, h3, h4, Bool.false_eq_true, if_false, e2, seekAbs_cursor ok bs j' htl, hr, e3]

/-! ### Switches -/

/-- The labels found from an index. -/
def LabelsFrom (bs : BinarySearch) (out : List (Instr Offset)) (k : Nat) (L : List (Location × Location)) : Prop :=
  ∃ N, ∀ m, N ≤ m → switchLabels bs m (cursorAt out k) = .ok L

/-- Reading the cases at some labels. -/
abbrev CasesTo (D : DecEnv) (bs : BinarySearch) (L : List (Location × Location)) (blk : Option BlockContext)
    (d : Option (List (Expr SourceAst))) (out : List (Instr Offset)) (k k' : Nat)
    (r : List (Expr SourceAst × List (Expr SourceAst)) × Option (List (Expr SourceAst))) : Prop :=
  DecReads (fun m => consumeCases D bs m L blk d) out k k' r

theorem peekKind_default : peekKind (some .SwitchDefault) = .dflt := rfl
theorem peekKind_label (a b : Offset) : peekKind (some (.SwitchLabel a b)) = .label a b := rfl

theorem switchLabels_succ (m : Nat) (c : CodeCursor Offset) : switchLabels bs (m + 1) c =
    match peekKind c.peek with
    | .label exit start => do
      let position ← posOf c
      let c ← liftCursor (c.seekRel bs exit)
      let rest ← switchLabels bs m c
      .ok ((position, start.absolute position) :: rest)
    | .dflt => do
      let position ← posOf c
      .ok [(position, position)]
    | _ => .ok [] := rfl

theorem consumeCases_nil (m : Nat) (d : Option (List (Expr SourceAst))) (c : CodeCursor Offset) :
    consumeCases D bs (m + 1) [] blk d c = .ok (([], d), c) := rfl

theorem consumeCases_cons (m : Nat) (label start : Location) (rest : List (Location × Location))
    (d : Option (List (Expr SourceAst))) (c : CodeCursor Offset) :
    consumeCases D bs (m + 1) ((label, start) :: rest) blk d c = (do
    let c ← liftCursor (c.seekAbs bs label)
    let (i, c) ← liftCursor c.pop
    match peekKind (some i) with
    | .label exitOffset _ => do
      let exit := exitOffset.absolute label
      let (matcher, c) ← consumeWith D bs m none none c
      let block ←
        if blk = none ∧ start.toNat < exit.toNat then do
          let items ← liftCursor (c.range bs start exit)
          .ok ((findEpilogue exit items).map .switch)
        else .ok blk
      let c ← liftCursor (c.seekAbs bs start)
      let (body, c) ← consumePath D bs exit block m false c
      let ((cases, dflt), c) ← consumeCases D bs m rest block d c
      .ok (((matcher, gotoToBreak body) :: cases, dflt), c)
    | .dflt => do
      let (d, c) ←
        match blk with
        | some (.switch epilogue) => consumePath D bs epilogue blk m false c
        | _ => do
          let (e, c) ← consumeWith D bs m none blk c
          .ok ([e], c)
      consumeCases D bs m rest blk (some d) c
    | _ => .error .decompile) := rfl

theorem labels_end (h : NotCaseAt out k) : LabelsFrom bs out k [] := by
  refine ⟨1, fun m hm => ?_⟩
  obtain ⟨m, rfl⟩ : ∃ m', m = m' + 1 := ⟨m - 1, by omega⟩
  rw [switchLabels_succ]
  have : (cursorAt out k).peek = out[k]? := rfl
  rw [this]
  cases hk : out[k]? with
  | none => rfl
  | some i =>
    obtain ⟨h1, h2⟩ := h i hk
    cases hp : peekKind (some i) with
    | skipOrNop => rfl
    | paramEnd => rfl
    | other => rfl
    | label a b => exact absurd hp (h2 a b)
    | dflt => exact absurd hp h1

theorem labels_default (h : out[k]? = some .SwitchDefault) : LabelsFrom bs out k [(posAt out k, posAt out k)] := by
  refine ⟨1, fun m hm => ?_⟩
  obtain ⟨m, rfl⟩ : ∃ m', m = m' + 1 := ⟨m - 1, by omega⟩
  have hk := getElem?_lt h
  rw [switchLabels_succ]
  have : (cursorAt out k).peek = out[k]? := rfl
  rw [this, h]
  simp only [peekKind_default, posOf_cursor (Nat.le_of_lt hk), bind, Except.bind]

theorem labels_label {exit start : Location} {L : List (Location × Location)} {c : Nat} (ok : CodeOk out)
    (h : out[k]? = some (.SwitchLabel (exit.relative (posAt out k)) (start.relative (posAt out k))))
    (hc : exit = posAt out c) (hcl : c ≤ out.length) (hL : LabelsFrom bs out c L) :
    LabelsFrom bs out k ((posAt out k, start) :: L) := by
  obtain ⟨N, hL⟩ := hL
  refine ⟨N + 1, fun m hm => ?_⟩
  obtain ⟨m, rfl⟩ : ∃ m', m = m' + 1 := ⟨m - 1, by omega⟩
  have hk := getElem?_lt h
  subst hc
  rw [switchLabels_succ]
  have : (cursorAt out k).peek = out[k]? := rfl
  rw [this, h]
  simp only [peekKind_label, posOf_cursor (Nat.le_of_lt hk), bind, Except.bind, seekRel_cursor ok bs (Nat.le_of_lt hk) hcl,
    hL m (by omega), C05_offset_roundtrip]

theorem cases_nil {d : Option (List (Expr SourceAst))} : CasesTo D bs [] blk d out k k ([], d) := by
  refine ⟨1, fun m hm => ?_⟩
  obtain ⟨m, rfl⟩ : ∃ m', m = m' + 1 := ⟨m - 1, by omega⟩
  rfl

/-- The block found at a case. -/
def BlockFound (bs : BinarySearch) (out : List (Instr Offset)) (blk : Option BlockContext) (start exit : Location)
    (blk' : Option BlockContext) : Prop :=
  ∀ j, (if blk = none ∧ start.toNat < exit.toNat then do
          let items ← liftCursor (CodeCursor.range bs (cursorAt out j) start exit)
          .ok ((findEpilogue exit items).map BlockContext.switch)
        else .ok blk : Except DecErr (Option BlockContext)) = .ok blk'

theorem cases_label {exit start : Location} {L : List (Location × Location)} {c s e kc : Nat} {matcher : Expr SourceAst}
    {body : List (Expr SourceAst)} {blk' : Option BlockContext} {d d' : Option (List (Expr SourceAst))}
    {rs : List (Expr SourceAst × List (Expr SourceAst))} (ok : CodeOk out)
    (h : out[k]? = some (.SwitchLabel (exit.relative (posAt out k)) (start.relative (posAt out k))))
    (hc : exit = posAt out c) (hs : start = posAt out s) (hsl : s ≤ out.length)
    (hm : ReadsE D bs none out (k + 1) j matcher)
    (hb : BlockFound bs out blk start exit blk')
    (hp : PathTo D bs (posAt out c) blk' false out s e body) (hg : gotoToBreak body = body)
    (hr : CasesTo D bs L blk' d out e kE (rs, d')) :
    CasesTo D bs ((posAt out k, start) :: L) blk d out kc kE ((matcher, body) :: rs, d') := by
  obtain ⟨N1, hm⟩ := hm none
  obtain ⟨N2, hp⟩ := hp
  obtain ⟨N3, hr⟩ := hr
  refine ⟨max N1 (max N2 N3) + 1, fun m hmm => ?_⟩
  obtain ⟨m, rfl⟩ : ∃ m', m = m' + 1 := ⟨m - 1, by omega⟩
  have e1 : consumeWith D bs m none none (cursorAt out (k + 1)) = _ := hm m (by omega)
  have e2 : consumePath D bs (posAt out c) blk' m false (cursorAt out s) = _ := hp m (by omega)
  have e3 : consumeCases D bs m L blk' d (cursorAt out e) = _ := hr m (by omega)
  have hk := getElem?_lt h
  have hb := hb j
  subst hc hs
  simp only [bind, Except.bind] at hb
  show consumeCases D bs (m + 1) _ blk d (cursorAt out kc) = _
  rw [consumeCases_cons]
  simp only [bind, Except.bind, seekAbs_cursor ok bs kc (Nat.le_of_lt hk), pop_at h, peekKind_label, e1, C05_offset_roundtrip]
  by_cases hq : blk = none ∧ (posAt out s).toNat < (posAt out c).toNat
  · rw [if_pos hq] at hb ⊢
    split at hb
    · cases hb
    · rename_i items hi
      cases hb
      simp only [seekAbs_cursor ok bs j hsl, e2, e3, hg]
  · rw [if_neg hq] at hb ⊢
    cases hb
    simp only [seekAbs_cursor ok bs j hsl, e2, e3, hg]

theorem cases_default_known {ep : Location} {kc : Nat} {ds : List (Expr SourceAst)} {d : Option (List (Expr SourceAst))}
    (ok : CodeOk out) (h : out[k]? = some .SwitchDefault)
    (hp : PathTo D bs ep (some (.switch ep)) false out (k + 1) k' ds) :
    CasesTo D bs [(posAt out k, posAt out k)] (some (.switch ep)) d out kc k' ([], some ds) := by
  obtain ⟨N, hp⟩ := hp
  refine ⟨N + 2, fun m hmm => ?_⟩
  obtain ⟨m, rfl⟩ : ∃ m', m = m' + 2 := ⟨m - 2, by omega⟩
  have e2 : consumePath D bs ep (some (.switch ep)) (m + 1) false (cursorAt out (k + 1)) = _ := hp (m + 1) (by omega)
  have hk := getElem?_lt h
  show consumeCases D bs (m + 1 + 1) _ _ d (cursorAt out kc) = _
  rw [consumeCases_cons]
  simp only [bind, Except.bind, seekAbs_cursor ok bs kc (Nat.le_of_lt hk), pop_at h, peekKind_default, e2, consumeCases_nil]

theorem cases_default_one {kc : Nat} {e : Expr SourceAst} {d : Option (List (Expr SourceAst))}
    (ok : CodeOk out) (h : out[k]? = some .SwitchDefault) (hp : ReadsS D bs none out (k + 1) k' e) :
    CasesTo D bs [(posAt out k, posAt out k)] none d out kc k' ([], some [e]) := by
  obtain ⟨N, hp⟩ := hp
  refine ⟨N + 2, fun m hmm => ?_⟩
  obtain ⟨m, rfl⟩ : ∃ m', m = m' + 2 := ⟨m - 2, by omega⟩
  have e2 : consumeWith D bs (m + 1) none none (cursorAt out (k + 1)) = _ := hp (m + 1) (by omega)
  have hk := getElem?_lt h
  show consumeCases D bs (m + 1 + 1) _ _ d (cursorAt out kc) = _
  rw [consumeCases_cons]
  simp only [bind, Except.bind, seekAbs_cursor ok bs kc (Nat.le_of_lt hk), pop_at h, peekKind_default, e2, consumeCases_nil]

theorem reads_switch {ty : Idx} {start : Location} {f : Nat} {subject : Expr SourceAst} {L : List (Location × Location)}
    {rs : List (Expr SourceAst × List (Expr SourceAst))} {d : Option (List (Expr SourceAst))} (ok : CodeOk out)
    (h : out[k]? = some (.Switch ty (start.relative (posAt out k)))) (hs : start = posAt out f) (hf : f ≤ out.length)
    (he : ReadsE D bs none out (k + 1) j subject) (hl : LabelsFrom bs out f L)
    (ho : L.Pairwise fun a b => a.2.toNat ≤ b.2.toNat) (hc : CasesTo D bs L none none out f k' (rs, d)) :
    ReadsS D bs blk out k k' (.Switch subject rs d) := by
  obtain ⟨N1, he⟩ := he none
  obtain ⟨N2, hl⟩ := hl
  obtain ⟨N3, hc⟩ := hc
  refine ⟨max N1 (max N2 N3) + 2, fun m hm => ?_⟩
  obtain ⟨m, rfl⟩ : ∃ m', m = m' + 2 := ⟨m - 2, by omega⟩
  have e1 : consumeWith D bs m none none (cursorAt out (k + 1)) = _ := he m (by omega)
  have e2 := hl m (by omega)
  have e3 : consumeCases D bs m L none none (cursorAt out f) = _ := hc m (by omega)
  have hk := getElem?_lt h
  have hsort : (L.mergeSort fun a b => decide (a.2.toNat ≤ b.2.toNat)) = L :=
    List.mergeSort_of_pairwise (by simpa using ho)
  subst hs
  show consumeWith D bs (m + 1 + 1) none blk (cursorAt out k) = _
  rw [consumeWith, posOf_cursor (by omega), pop_at h]
  simp only [bind, Except.bind, decKind, C05_offset_roundtrip]
  rw [consumeSwitch]
  simp only [bind, Except.bind, e1, seekAbs_cursor ok bs j hf, e2, hsort, e3]

end

end Redscript
