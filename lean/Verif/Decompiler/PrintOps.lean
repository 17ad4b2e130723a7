import Verif.Decompiler.PrintProps

/-!
# Printed operators read back (C39)

`printsSafely` is computed from what the printer does. Here the operators for which parentheses are kept are
listed without reference to the printer.
-/

namespace Redscript

/-- Variables and binary operators. -/
inductive OpTree where
  | var (x : Text)
  | node (op : BinOp) (l r : OpTree)

/-- The name of the function of an operator, in decompiled code. -/
def opFunction : BinOp → Text
  | .AssignAdd => "OperatorAssignAdd;".toList | .AssignSubtract => "OperatorAssignSubtract;".toList
  | .AssignMultiply => "OperatorAssignMultiply;".toList | .AssignDivide => "OperatorAssignDivide;".toList
  | .AssignOr => "OperatorAssignOr;".toList | .AssignAnd => "OperatorAssignAnd;".toList
  | .LogicOr => "OperatorLogicOr;".toList | .LogicAnd => "OperatorLogicAnd;".toList
  | .Or => "OperatorOr;".toList | .Xor => "OperatorXor;".toList | .And => "OperatorAnd;".toList
  | .Equal => "OperatorEqual;".toList | .NotEqual => "OperatorNotEqual;".toList
  | .Less => "OperatorLess;".toList | .LessEqual => "OperatorLessEqual;".toList
  | .Greater => "OperatorGreater;".toList | .GreaterEqual => "OperatorGreaterEqual;".toList
  | .Add => "OperatorAdd;".toList | .Subtract => "OperatorSubtract;".toList
  | .Multiply => "OperatorMultiply;".toList | .Divide => "OperatorDivide;".toList | .Modulo => "OperatorModulo;".toList

/-- The tree in decompiled code. -/
def OpTree.decompiled : OpTree → Expr SourceAst
  | .var x => .Ident x
  | .node op l r => .Call (opFunction op) [] [l.decompiled, r.decompiled]

/-- The tree in source code. -/
def OpTree.source : OpTree → Expr SourceAst
  | .var x => .Ident x
  | .node op l r => .BinOp l.source r.source op

/-- The operators that share a level in the language, the loosest first. -/
def BinOp.group : BinOp → Nat
  | .AssignAdd | .AssignSubtract | .AssignMultiply | .AssignDivide | .AssignOr | .AssignAnd => 0
  | .LogicOr => 1
  | .LogicAnd => 2
  | .Or => 3
  | .Xor => 4
  | .And => 5
  | .Equal | .NotEqual => 6
  | .Less | .LessEqual | .Greater | .GreaterEqual => 7
  | .Add | .Subtract => 8
  | .Multiply | .Divide | .Modulo => 9

/-- The operators whose right operand loses its parentheses when it is of the same level. -/
def BinOp.drops (op : BinOp) : Bool :=
  [.LogicOr, .LogicAnd, .Or, .Xor, .And, .Add, .Subtract, .Multiply].contains op

/-- Compound assignments are not operands of operators; an operator of `drops` has none of its level on the
right; the right operand of `>` does not begin with a parenthesis. -/
def OpTree.ok : OpTree → Bool
  | .var x => isIdent x && !reservedWords.contains x
  | .node op l r => l.ok && r.ok && decide (op.group ≠ 0) && leftOk l && rightOk op r
where
  leftOk : OpTree → Bool
    | .var _ => true
    | .node op' _ _ => decide (op'.group ≠ 0)
  rightOk (op : BinOp) : OpTree → Bool
    | .var _ => true
    | .node op' l _ => decide (op'.group ≠ 0) && !(op.drops && decide (op'.group = op.group)) &&
        (op != .Greater || (decide (7 < op'.group) && isVar l))
  isVar : OpTree → Bool
    | .var _ => true
    | _ => false

theorem callKind_op (op : BinOp) : callKind false (opFunction op) = .binop op := by
  cases op <;> rfl

theorem OpTree.meaning : ∀ t : OpTree, Redscript.meaning false t.decompiled = t.source
  | .var _ => rfl
  | .node op l r => by
    rw [OpTree.decompiled, Redscript.meaning, callKind_op]
    show Expr.BinOp (Redscript.meaning false l.decompiled) (Redscript.meaning false r.decompiled) op = _
    rw [OpTree.meaning l, OpTree.meaning r]
    rfl

theorem group_precedence (op : BinOp) : op.group = 10 - op.precedence ∧ (op.precedence = 10 ↔ op.group = 0) ∧ op.precedence ≤ 10 ∧
    op.drops = op.associative := by cases op <;> decide

/-- What holds an operand together. -/
theorem OpTree.tight (parent : BinOp) : ∀ t : OpTree, t.ok = true → OpTree.ok.leftOk t = true →
    tightness false (some (.BinOp parent)) t.decompiled = .closed ∨
    ∃ op l r, t = .node op l r ∧ op.group ≠ 0 ∧ (parent.group < op.group ∨ (parent.group = op.group ∧ parent.drops = true)) ∧
      tightness false (some (.BinOp parent)) t.decompiled = ⟨op.group, op.group + 1⟩
  | .var _, _, _ => .inl rfl
  | .node op l r, h, hl => by
    have hg : op.group ≠ 0 := of_decide_eq_true hl
    have ht : tightness false (some (.BinOp parent)) (OpTree.node op l r).decompiled =
        if needsParens op (some (.BinOp parent)) then .closed else op.tightness := by
      rw [OpTree.decompiled, tightness, callKind_op]
    obtain ⟨g1, g2, g3, g4⟩ := group_precedence op
    obtain ⟨k1, k2, k3, k4⟩ := group_precedence parent
    rw [ht]
    by_cases hn : needsParens op (some (.BinOp parent)) = true
    · rw [if_pos hn]; exact .inl rfl
    · rw [if_neg hn]
      refine .inr ⟨op, l, r, rfl, hg, ?_, ?_⟩
      · simp only [needsParens, BinOp.doesAssociate, Bool.not_eq_true', Bool.or_eq_false_iff, Bool.and_eq_false_iff, not_and, not_or,
          decide_eq_false_iff_not, Bool.not_eq_false, Nat.not_lt] at hn
        by_cases h1 : op.precedence < parent.precedence
        · left; omega
        · right
          have := hn (by omega)
          exact ⟨by omega, by rw [k4]; exact this.2⟩
      · unfold BinOp.tightness
        rw [if_neg (fun e => hg (g2.1 e)), BinOp.level, ← g1]

/-- Trees whose operators are listed as safe are printed safely. -/
theorem OpTree.safe (P : FloatShow) : ∀ t : OpTree, t.ok = true → printsSafely P false t.decompiled = true
  | .var x, h => h
  | .node op l r, h => by
    rw [OpTree.ok] at h
    simp only [Bool.and_eq_true, decide_eq_true_eq] at h
    obtain ⟨⟨⟨⟨hl, hr⟩, hg⟩, hlo⟩, hro⟩ := h
    have hrl : OpTree.ok.leftOk r = true := by
      cases r with
      | var _ => rfl
      | node op' a b =>
        simp only [OpTree.ok.rightOk, Bool.and_eq_true] at hro
        exact hro.1.1
    obtain ⟨g1, g2, g3, g4⟩ := group_precedence op
    rw [OpTree.decompiled, printsSafely, callKind_op]
    simp only [Bool.and_eq_true, List.length_cons, List.length_nil, allPrintSafely, tightnessFirst, tightnessSecond,
      OpTree.safe P l hl, OpTree.safe P r hr, beq_self_eq_true, Bool.and_true, true_and]
    refine ⟨?_, ?_⟩
    · have hlev : op.level = op.group := g1.symm
      unfold operandsFit
      rw [if_neg (fun e => hg (g2.1 e)), hlev]
      simp only [Bool.and_eq_true, decide_eq_true_eq]
      have h9 : op.group ≤ 9 := by cases op <;> decide
      refine ⟨⟨⟨?_, ?_⟩, ?_⟩, ?_⟩
      · rcases OpTree.tight op l hl hlo with e | ⟨op', _, _, _, _, h1, e⟩ <;> rw [e] <;> simp only [Tightness.closed] <;> omega
      · rcases OpTree.tight op l hl hlo with e | ⟨op', _, _, _, _, h1, e⟩ <;> rw [e] <;> simp only [Tightness.closed] <;> omega
      · rcases OpTree.tight op r hr hrl with e | ⟨op', a, b, rfl, _, h1, e⟩ <;> rw [e]
        · simp only [Tightness.closed]; omega
        · simp only [OpTree.ok.rightOk, Bool.and_eq_true, Bool.not_eq_true', Bool.and_eq_false_iff, decide_eq_false_iff_not] at hro
          show op.group < op'.group
          rcases h1 with h1 | ⟨h1, h2⟩
          · exact h1
          · rcases hro.1.2 with h3 | h3
            · rw [h2] at h3; cases h3
            · exact absurd h1.symm h3
      · rcases OpTree.tight op r hr hrl with e | ⟨op', _, _, _, _, h1, e⟩ <;> rw [e] <;> simp only [Tightness.closed] <;> omega
    · by_cases hgr : op = .Greater
      · subst hgr
        have hv : ∀ x, isIdent x = true → x.head? ≠ some '(' := by
          intro x hx e
          cases x with
          | nil => cases e
          | cons c x =>
            obtain rfl : c = '(' := Option.some.inj e
            simp [isIdent] at hx
            exact absurd hx.1 (by decide)
        rw [bne_self_eq_false, Bool.false_or, decide_eq_true_eq]
        show (writeExpr P false (some (.BinOp .Greater)) 0 r.decompiled).bind List.head? ≠ some '('
        cases r with
        | var x =>
          simp only [OpTree.ok, Bool.and_eq_true] at hr
          show (writeExpr P false _ 0 (.Ident x)).bind List.head? ≠ _
          rw [writeExpr.eq_def]
          exact hv x hr.1
        | node op' a b =>
          simp only [OpTree.ok.rightOk, Bool.and_eq_true, Bool.or_eq_true, decide_eq_true_eq, bne_self_eq_false, Bool.false_eq_true,
            false_or] at hro
          obtain ⟨_, h7, hva⟩ := hro
          cases a with
          | node _ _ _ => cases hva
          | var x =>
            have hx : isIdent x = true := by
              simp only [OpTree.ok, Bool.and_eq_true] at hr
              exact hr.1.1.1.1.1
            have hn : needsParens op' (some (.BinOp .Greater)) = false := by revert h7; cases op' <;> decide
            show (writeExpr P false _ 0 (.Call (opFunction op') [] [.Ident x, b.decompiled])).bind List.head? ≠ _
            rw [writeExpr.eq_def]
            simp only [writeCall, callKind_op, hn, writeFirst]
            rw [if_neg (by decide)]
            have hw : writeExpr P false (some (.BinOp op')) 0 (.Ident x) = some x := by rw [writeExpr.eq_def]
            rw [hw]
            cases hrest : joinText [str " ", some (formatBinop op'), str " ",
              writeSecond P false (some (.BinOp op')) [.Ident x, b.decompiled]] with
            | none => rw [joinText, hrest]; intro e; cases e
            | some t =>
              rw [joinText, hrest]
              cases x with
              | nil => cases hx
              | cons c x => intro e; exact hv (c :: x) hx e
      · have : (op != BinOp.Greater) = true := by simpa using hgr
        rw [this, Bool.true_or]

/-- C39: trees of variables and operators read back, parentheses included, for the operators listed in
`OpTree.ok`: what the decompiler prints is parsed as the same tree. -/
theorem C39_operator_trees_read_back (F : FloatParse) (P : FloatShow) (t : OpTree) (h : t.ok = true) (depth : Nat) :
    ∃ text, writeExpr P false none depth t.decompiled = some text ∧
      ∀ rest : Text, (rest = [] ∨ ∃ c ∈ [')', ']', ';', ':', '{', '}'], ∃ r, rest = c :: r ∨ rest = ' ' :: c :: r) →
        ∃ N, ∀ n, N ≤ n → parseExpr F n 0 (text ++ rest) = .ok t.source rest := by
  rw [← t.meaning]
  exact C39_printed_expressions_read_back_partial F P false t.decompiled (t.safe P h) depth

/-- `a / (b / c) - (d + e) * f > g - h` -/
example : (OpTree.node .Greater
    (.node .Subtract (.node .Divide (.var ['a']) (.node .Divide (.var ['b']) (.var ['c'])))
      (.node .Multiply (.node .Add (.var ['d']) (.var ['e'])) (.var ['f'])))
    (.node .Subtract (.var ['g']) (.var ['h']))).ok = true := by decide

end Redscript
