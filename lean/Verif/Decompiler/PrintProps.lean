import Verif.Decompiler.PrintModel
import Verif.Parser.ReadsConst

/-!
# Printed expressions read back (C39)

What the decompiler prints for an expression is parsed to the expression that was meant, `meaning`: operators are
calls of the functions `Operator…` in decompiled code and operators of the language in parsed code, the conversions
between references are not written, and a negative number is the negation of a number.

The printer drops parentheses that are needed. `printsSafely` describes the expressions for which it does not.
-/

namespace Redscript

/-! ### What a printed expression means -/

/-- What a printed constant means: a negative number is the negation of a number, unless it is the smallest one. -/
def constMeaning : Constant → Expr SourceAst
  | .I32 v => if v.toInt < 0 ∧ v ≠ BitVec.intMin 32 then .UnOp (.Constant (.I32 (-v))) .Neg else .Constant (.I32 v)
  | .I64 v => if v.toInt < 0 ∧ v ≠ BitVec.intMin 64 then .UnOp (.Constant (.I64 (-v))) .Neg else .Constant (.I64 v)
  | c => .Constant c

mutual
/-- What an expression of decompiled code means. The functions of the operators stand for the operators, the
conversions between references are left out unless all is written, and the signature of a function is no part of
its name. -/
def meaning (verbose : Bool) : Expr SourceAst → Expr SourceAst
  | .Constant c => constMeaning c
  | .Cast ty e => .Cast ty (meaning verbose e)
  | .Assign l r => .Assign (meaning verbose l) (meaning verbose r)
  | .Call f tys args =>
    match callKind verbose f with
    | .binop op => .BinOp (meaningFirst verbose args) (meaningSecond verbose args) op
    | .unop op => .UnOp (meaningFirst verbose args) op
    | .hidden => meaningFirst verbose args
    | .plain name => .Call name tys (meanings verbose args)
  | .MethodCall obj f args => .MethodCall (meaning verbose obj) (beforeSemicolon f) (meanings verbose args)
  | .ArrayElem a i => .ArrayElem (meaning verbose a) (meaning verbose i)
  | .New ty args => .New ty (meanings verbose args)
  | .Conditional c t e => .Conditional (meaning verbose c) (meaning verbose t) (meaning verbose e)
  | .Member e m => .Member (meaning verbose e) m
  | e => e
def meaningFirst (verbose : Bool) : List (Expr SourceAst) → Expr SourceAst
  | e :: _ => meaning verbose e
  | [] => .Null
def meaningSecond (verbose : Bool) : List (Expr SourceAst) → Expr SourceAst
  | _ :: es => meaningFirst verbose es
  | [] => .Null
def meanings (verbose : Bool) : List (Expr SourceAst) → List (Expr SourceAst)
  | [] => []
  | e :: es => meaning verbose e :: meanings verbose es
end

/-! ### Expressions that are printed safely -/

/-- How tightly a printed text holds together: `in_` is the highest level of the grammar at which it can be read,
and operators of level `out` and above behind it would be taken as part of it. -/
structure Tightness where
  in_ : Nat
  out : Nat

/-- Atoms, calls, casts and what is in parentheses: nothing behind them belongs to a part of them. -/
def Tightness.closed : Tightness := ⟨11, 13⟩

/-- Numbers: a dot behind them would belong to them. -/
def Tightness.number : Tightness := ⟨11, 12⟩

/-- Prefix operators: what sticks to the operand belongs to it. -/
def Tightness.pre : Tightness := ⟨11, 11⟩

/-- Assignments and conditionals. -/
def Tightness.open_ : Tightness := ⟨0, 0⟩

/-- The level of an operator in the grammar. -/
def BinOp.level (op : BinOp) : Nat := 10 - op.precedence

/-- A binary operator without parentheses. -/
def BinOp.tightness (op : BinOp) : Tightness := if op.precedence = 10 then .open_ else ⟨op.level, op.level + 1⟩

/-- The printed constants. -/
def Constant.tightness : Constant → Tightness
  | .I32 v => if v.toInt < 0 then .pre else .number
  | .I64 v => if v.toInt < 0 then .pre else .number
  | .U32 _ | .U64 _ | .F32 _ | .F64 _ => .number
  | .String _ _ | .Bool _ => .closed

mutual
/-- How tightly a printed expression holds together. -/
def tightness (verbose : Bool) (parent : Option ParentOp) : Expr SourceAst → Tightness
  | .Constant c => c.tightness
  | .Call f _ args =>
    match callKind verbose f with
    | .binop op => if needsParens op parent then .closed else op.tightness
    | .unop _ => .pre
    | .hidden => tightnessFirst verbose none args
    | .plain _ => .closed
  | .Assign _ _ | .Conditional _ _ _ => .open_
  | _ => .closed
def tightnessFirst (verbose : Bool) (parent : Option ParentOp) : List (Expr SourceAst) → Tightness
  | e :: _ => tightness verbose parent e
  | [] => .closed
end

def tightnessSecond (verbose : Bool) (parent : Option ParentOp) : List (Expr SourceAst) → Tightness
  | _ :: es => tightnessFirst verbose parent es
  | [] => .closed

/-- The operands of a binary operator hold together tightly enough: an operator of the same level in the right operand
would be taken as one of the left. -/
def operandsFit (op : BinOp) (l r : Tightness) : Bool :=
  if op.precedence = 10 then decide (0 < l.out)
  else decide (op.level ≤ l.in_) && decide (op.level < l.out) && decide (op.level < r.in_) && decide (op.level < r.out)

/-- The constants that are read back: floats are not modelled, and 64-bit unsigned numbers lose their suffix. -/
def Constant.printsSafely : Constant → _root_.Bool
  | .U64 _ | .F32 _ | .F64 _ => false
  | _ => true

mutual
/-- The expressions whose printed text keeps the parentheses that are needed. -/
def printsSafely (P : FloatShow) (verbose : Bool) : Expr SourceAst → Bool
  | .Ident x => isIdent x && !reservedWords.contains x
  | .Constant c => c.printsSafely
  | .Cast ty e => ty.isValid && printsSafely P verbose e && decide (11 ≤ (tightness verbose none e).in_) &&
      decide (12 ≤ (tightness verbose none e).out)
  | .Assign l r => printsSafely P verbose l && printsSafely P verbose r && decide (0 < (tightness verbose none l).out)
  | .Call f tys args =>
    match callKind verbose f with
    | .binop op => args.length == 2 && allPrintSafely P verbose args &&
        operandsFit op (tightnessFirst verbose (some (.BinOp op)) args) (tightnessSecond verbose (some (.BinOp op)) args) &&
        -- `a < b, c > (d)` is the call of a generic function
        (op != .Greater || decide ((writeSecond P verbose (some (.BinOp op)) args).bind List.head? ≠ some '('))
    | .unop _ => args.length == 1 && allPrintSafely P verbose args &&
        decide (11 ≤ (tightnessFirst verbose (some .UnOp) args).in_) && decide (11 ≤ (tightnessFirst verbose (some .UnOp) args).out)
    | .hidden => args.length == 1 && allPrintSafely P verbose args
    | .plain name => isIdent name && !reservedWords.contains name && TypeName.allValid tys && allPrintSafely P verbose args
  | .MethodCall obj f args => printsSafely P verbose obj && decide (11 ≤ (tightness verbose (some .Dot) obj).in_) &&
      decide (13 ≤ (tightness verbose (some .Dot) obj).out) && allPrintSafely P verbose args &&
      match callKind verbose f with
      | .plain name => isIdent name
      | _ => false
  | .ArrayElem a i => printsSafely P verbose a && printsSafely P verbose i && decide (11 ≤ (tightness verbose none a).in_) &&
      decide (12 ≤ (tightness verbose none a).out)
  | .New (.mk x as) args => isIdent x && as.isEmpty && allPrintSafely P verbose args
  | .Conditional c t e => printsSafely P verbose c && printsSafely P verbose t && printsSafely P verbose e &&
      decide (0 < (tightness verbose none c).out)
  | .Member e m => isIdent m && printsSafely P verbose e && decide (11 ≤ (tightness verbose none e).in_) &&
      decide (13 ≤ (tightness verbose none e).out)
  | .Null | .This | .Super => true
  | _ => false
def allPrintSafely (P : FloatShow) (verbose : Bool) : List (Expr SourceAst) → Bool
  | [] => true
  | e :: es => printsSafely P verbose e && allPrintSafely P verbose es
end

/-! ### The proof -/

variable {F : FloatParse} {P : FloatShow} {verbose : Bool}

theorem binop_in_grammar (op : BinOp) : if op.precedence = 10 then (formatBinop op, op) ∈ assignOps
    else (op.level, formatBinop op, op) ∈ binaryOps := by
  cases op <;> decide

theorem unop_in_grammar (op : UnOp) : (formatUnop op, op) ∈ prefixOps := by
  cases op <;> decide

theorem reads_const (c : Constant) (h : c.printsSafely = true) :
    ReadAs F c.tightness.in_ c.tightness.out (printConstant P c) (constMeaning c) := by
  cases c with
  | String l x => exact reads_string P l x
  | Bool b => exact reads_bool P b
  | U64 v => cases h
  | F32 v => cases h
  | F64 v => cases h
  | U32 v =>
    obtain ⟨h1, h2, h3⟩ := digitsOf_dec v.toNat
    have := reads_number (F := F) .u32 h1 h2 (by rw [h3]; exact ⟨by omega, by have := v.isLt; omega⟩)
    rw [h3] at this
    have e : IntType.constant (v.toNat : Int) .u32 = .U32 v := by
      simp only [IntType.constant]
      rw [BitVec.ofInt_natCast, BitVec.ofNat_toNat, BitVec.setWidth_eq]
    rw [e] at this
    exact this
  | I32 v =>
    obtain ⟨h1, h2, h3⟩ := digitsOf_dec v.toInt.natAbs
    have hlo := BitVec.le_toInt v
    have hhi := BitVec.toInt_lt (x := v)
    show ReadAs F (Constant.I32 v).tightness.in_ (Constant.I32 v).tightness.out (showInt v.toInt) (constMeaning (.I32 v))
    rw [(showInt_eq v.toInt).1]
    by_cases hneg : v.toInt < 0
    · simp only [Constant.tightness, if_pos hneg, decide_eq_true hneg, if_true]
      by_cases hmin : v = BitVec.intMin 32
      · have hv : v.toInt = -2147483648 := by rw [hmin]; rfl
        have := reads_smallest (F := F) .i32 rfl h1 h2 (by rw [h3]; simp only [IntType.fits]; omega)
          (by rw [h3]; simp only [IntType.fits]; omega)
        rw [h3] at this
        have e : IntType.constant (-(v.toInt.natAbs : Int)) .i32 = .I32 v := by
          simp only [IntType.constant]
          rw [show -(v.toInt.natAbs : Int) = v.toInt by omega, BitVec.ofInt_toInt]
        simp only [e, IntType.suffix, List.append_nil] at this
        simp only [constMeaning, if_neg (show ¬ (v.toInt < 0 ∧ v ≠ BitVec.intMin 32) from fun h => h.2 hmin)]
        exact this
      · have hv : v.toInt ≠ -2147483648 := fun h => hmin (BitVec.eq_of_toInt_eq (by rw [h]; rfl))
        have := reads_minus (F := F) .i32 h1 h2 (by rw [h3]; simp only [IntType.fits]; omega)
        rw [h3] at this
        have e : IntType.constant (v.toInt.natAbs : Int) .i32 = .I32 (-v) := by
          simp only [IntType.constant]
          rw [show (v.toInt.natAbs : Int) = -v.toInt by omega, BitVec.ofInt_neg, BitVec.ofInt_toInt]
        simp only [e, IntType.suffix, List.append_nil] at this
        simp only [constMeaning, if_pos (And.intro hneg hmin)]
        exact this
    · simp only [Constant.tightness, if_neg hneg, decide_eq_false hneg]
      have := reads_number (F := F) .i32 h1 h2 (by rw [h3]; simp only [IntType.fits]; omega)
      rw [h3] at this
      have e : IntType.constant (v.toInt.natAbs : Int) .i32 = .I32 v := by
        simp only [IntType.constant]
        rw [show (v.toInt.natAbs : Int) = v.toInt by omega, BitVec.ofInt_toInt]
      simp only [e, IntType.suffix, List.append_nil] at this
      simp only [constMeaning, if_neg (show ¬ (v.toInt < 0 ∧ v ≠ BitVec.intMin 32) from fun h => hneg h.1)]
      exact this
  | I64 v =>
    obtain ⟨h1, h2, h3⟩ := digitsOf_dec v.toInt.natAbs
    have hlo := BitVec.le_toInt v
    have hhi := BitVec.toInt_lt (x := v)
    show ReadAs F (Constant.I64 v).tightness.in_ (Constant.I64 v).tightness.out (showInt v.toInt ++ ['l']) (constMeaning (.I64 v))
    rw [(showInt_eq v.toInt).1]
    by_cases hneg : v.toInt < 0
    · simp only [Constant.tightness, if_pos hneg, decide_eq_true hneg, if_true]
      by_cases hmin : v = BitVec.intMin 64
      · have hv : v.toInt = -9223372036854775808 := by rw [hmin]; rfl
        have := reads_smallest (F := F) .i64 rfl h1 h2 (by rw [h3]; simp only [IntType.fits]; omega)
          (by rw [h3]; simp only [IntType.fits]; omega)
        rw [h3] at this
        have e : IntType.constant (-(v.toInt.natAbs : Int)) .i64 = .I64 v := by
          simp only [IntType.constant]
          rw [show -(v.toInt.natAbs : Int) = v.toInt by omega, BitVec.ofInt_toInt]
        simp only [e] at this
        simp only [constMeaning, if_neg (show ¬ (v.toInt < 0 ∧ v ≠ BitVec.intMin 64) from fun h => h.2 hmin)]
        exact this
      · have hv : v.toInt ≠ -9223372036854775808 := fun h => hmin (BitVec.eq_of_toInt_eq (by rw [h]; rfl))
        have := reads_minus (F := F) .i64 h1 h2 (by rw [h3]; simp only [IntType.fits]; omega)
        rw [h3] at this
        have e : IntType.constant (v.toInt.natAbs : Int) .i64 = .I64 (-v) := by
          simp only [IntType.constant]
          rw [show (v.toInt.natAbs : Int) = -v.toInt by omega, BitVec.ofInt_neg, BitVec.ofInt_toInt]
        simp only [e] at this
        simp only [constMeaning, if_pos (And.intro hneg hmin)]
        exact this
    · simp only [Constant.tightness, if_neg hneg, decide_eq_false hneg]
      have := reads_number (F := F) .i64 h1 h2 (by rw [h3]; simp only [IntType.fits]; omega)
      rw [h3] at this
      have e : IntType.constant (v.toInt.natAbs : Int) .i64 = .I64 v := by
        simp only [IntType.constant]
        rw [show (v.toInt.natAbs : Int) = v.toInt by omega, BitVec.ofInt_toInt]
      simp only [e] at this
      simp only [constMeaning, if_neg (show ¬ (v.toInt < 0 ∧ v ≠ BitVec.intMin 64) from fun h => hneg h.1)]
      exact this

/-- The printed text is read as what is meant. -/
def PrintedAs (F : FloatParse) (w : Option Text) (g : Tightness) (e : Expr SourceAst) : Prop :=
  ∃ t, w = some t ∧ ReadAs F g.in_ g.out t e

theorem printed_binop {op : BinOp} {parent : Option ParentOp} {w1 w2 : Option Text} {g1 g2 : Tightness} {e1 e2 : Expr SourceAst}
    (h1 : PrintedAs F w1 g1 e1) (h2 : PrintedAs F w2 g2 e2) (hf : operandsFit op g1 g2 = true)
    (hgt : op = .Greater → w2.bind List.head? ≠ some '(') :
    PrintedAs F
      (if needsParens op parent then
        joinText [str "(", joinText [w1, str " ", some (formatBinop op), str " ", w2], str ")"]
      else joinText [w1, str " ", some (formatBinop op), str " ", w2])
      (if needsParens op parent then .closed else op.tightness) (.BinOp e1 e2 op) := by
  obtain ⟨t1, rfl, h1⟩ := h1
  obtain ⟨t2, rfl, h2⟩ := h2
  have hj : joinText [some t1, str " ", some (formatBinop op), str " ", some t2] =
      some (t1 ++ ' ' :: (formatBinop op ++ ' ' :: t2)) := by simp [joinText, str, show " ".toList = [' '] from rfl]
  have hr : ReadAs F op.tightness.in_ op.tightness.out (t1 ++ ' ' :: (formatBinop op ++ ' ' :: t2)) (.BinOp e1 e2 op) := by
    have hg := binop_in_grammar op
    unfold operandsFit at hf
    unfold BinOp.tightness
    by_cases hp : op.precedence = 10
    · rw [if_pos hp] at hf hg ⊢
      exact reads_assignOp hg h1 h2 (by simpa using hf)
    · rw [if_neg hp] at hf hg ⊢
      simp only [Bool.and_eq_true, decide_eq_true_eq] at hf
      refine reads_binary hg h1 h2 hf.1.1.1 hf.1.1.2 hf.1.2 hf.2 fun he => ?_
      refine hgt ?_
      revert he
      cases op <;> decide
  by_cases hp : needsParens op parent = true
  · rw [if_pos hp, if_pos hp, hj]
    refine ⟨'(' :: ((t1 ++ ' ' :: (formatBinop op ++ ' ' :: t2)) ++ [')']), ?_, reads_paren hr⟩
    simp [joinText, str, show "(".toList = ['('] from rfl, show ")".toList = [')'] from rfl]
  · rw [if_neg hp, if_neg hp, hj]
    exact ⟨_, rfl, hr⟩

theorem PrintedAs.weak {w : Option Text} {g : Tightness} {e : Expr SourceAst} (h : PrintedAs F w g e) :
    ∃ t, w = some t ∧ ReadAs F 0 0 t e := by
  obtain ⟨t, h1, h2⟩ := h
  exact ⟨t, h1, h2.weaken (by omega) (by omega)⟩

mutual
theorem printed_expr : ∀ (e : Expr SourceAst) (parent : Option ParentOp) (depth : Nat), printsSafely P verbose e = true →
    PrintedAs F (writeExpr P verbose parent depth e) (tightness verbose parent e) (meaning verbose e)
  | .Ident x, parent, depth, h => by
    simp only [printsSafely, Bool.and_eq_true, Bool.not_eq_true', List.contains_eq_mem, decide_eq_false_iff_not] at h
    exact ⟨x, rfl, reads_ident h.1 h.2⟩
  | .Constant c, parent, depth, h => ⟨_, rfl, reads_const c h⟩
  | .Cast ty e, parent, depth, h => by
    simp only [printsSafely, Bool.and_eq_true, decide_eq_true_eq] at h
    obtain ⟨t, ht, hr⟩ := printed_expr e none 0 h.1.1.2
    have := reads_cast hr h.1.2 h.2 h.1.1.1
    cases parent with
    | none =>
      refine ⟨_, ?_, this⟩
      simp [writeExpr, joinText, str, ht]
    | some p =>
      refine ⟨_, ?_, reads_paren this⟩
      simp [writeExpr, joinText, str, ht, show "(".toList = ['('] from rfl, show ")".toList = [')'] from rfl]
  | .Assign l r, parent, depth, h => by
    simp only [printsSafely, Bool.and_eq_true, decide_eq_true_eq] at h
    obtain ⟨t1, ht1, hr1⟩ := printed_expr l none 0 h.1.1
    obtain ⟨t2, ht2, hr2⟩ := printed_expr r none 0 h.1.2
    refine ⟨_, ?_, reads_assign hr1 hr2 h.2⟩
    simp [writeExpr, joinText, str, ht1, ht2, show " = ".toList = [' ', '=', ' '] from rfl]
  | .Call f tys args, parent, depth, h => by
    rw [printsSafely] at h
    rw [writeExpr, tightness, meaning]
    unfold writeCall
    cases hk : callKind verbose f with
    | binop op =>
      simp only [hk, Bool.and_eq_true, beq_iff_eq] at h ⊢
      obtain ⟨⟨⟨hl, ha⟩, hf⟩, hg⟩ := h
      refine printed_binop (printed_first args (by omega) ha _) (printed_second args (by omega) ha _) hf fun he => ?_
      rw [he] at hg ⊢
      simp only [bne_self_eq_false, Bool.false_or, decide_eq_true_eq] at hg
      exact hg
    | unop op =>
      simp only [hk, Bool.and_eq_true, beq_iff_eq, decide_eq_true_eq] at h ⊢
      obtain ⟨t, ht, hr⟩ := printed_first args (by omega) h.1.1.2 (some .UnOp)
      refine ⟨formatUnop op ++ t, ?_, reads_prefix (unop_in_grammar op) hr h.1.2 h.2⟩
      simp [joinText, ht]
    | hidden =>
      simp only [hk, Bool.and_eq_true, beq_iff_eq] at h ⊢
      exact printed_first args (by omega) h.2 none
    | plain name =>
      simp only [hk, Bool.and_eq_true, Bool.not_eq_true', List.contains_eq_mem, decide_eq_false_iff_not] at h ⊢
      obtain ⟨ps, h1, h2, h3⟩ := printed_args args 0 h.2
      refine ⟨name ++ (genericText tys ++ '(' :: (commaText ps ++ [')'])), ?_, ?_⟩
      · rw [h1]
        unfold genericText
        cases tys <;> simp [joinText, str, show "(".toList = ['('] from rfl, show ")".toList = [')'] from rfl,
          show "<".toList = ['<'] from rfl, show ">".toList = ['>'] from rfl]
      · rw [← h2]
        exact reads_call_text h.1.1.1 h.1.1.2 h.1.2 h3
  | .MethodCall obj f args, parent, depth, h => by
    rw [printsSafely] at h
    rw [writeExpr, meaning]
    show PrintedAs F _ Tightness.closed _
    unfold writeCall
    cases hk : callKind verbose f with
    | binop op => simp [hk] at h
    | unop op => simp [hk] at h
    | hidden => simp [hk] at h
    | plain name =>
      simp only [hk, Bool.and_eq_true, decide_eq_true_eq] at h ⊢
      obtain ⟨⟨⟨⟨ho, h11⟩, h13⟩, ha⟩, hi⟩ := h
      obtain ⟨t, ht, hr⟩ := printed_expr obj (some .Dot) 0 ho
      obtain ⟨ps, h1, h2, h3⟩ := printed_args args 0 ha
      have hname : beforeSemicolon f = name := by
        unfold callKind at hk
        simp only at hk
        split at hk
        · cases hk
        · split at hk
          · cases hk
          · split at hk
            · cases hk
            · cases hk; rfl
      refine ⟨t ++ '.' :: (name ++ '(' :: (commaText ps ++ [')'])), ?_, ?_⟩
      · simp [joinText, str, ht, h1, show ".".toList = ['.'] from rfl, show "(".toList = ['('] from rfl,
          show ")".toList = [')'] from rfl]
      · rw [hname, ← h2]
        exact reads_method hr h11 h13 hi h3
  | .ArrayElem a i, parent, depth, h => by
    simp only [printsSafely, Bool.and_eq_true, decide_eq_true_eq] at h
    obtain ⟨t1, ht1, hr1⟩ := printed_expr a none 0 h.1.1.1
    obtain ⟨t2, ht2, hr2⟩ := printed_expr i none 0 h.1.1.2
    refine ⟨_, ?_, reads_elem hr1 h.1.2 h.2 hr2⟩
    simp [writeExpr, joinText, str, ht1, ht2, show "[".toList = ['['] from rfl, show "]".toList = [']'] from rfl]
  | .New (.mk x as) args, parent, depth, h => by
    simp only [printsSafely, Bool.and_eq_true, List.isEmpty_iff] at h
    obtain ⟨⟨hx, rfl⟩, ha⟩ := h
    obtain ⟨ps, h1, h2, h3⟩ := printed_args args depth ha
    refine ⟨"new ".toList ++ (x ++ '(' :: (commaText ps ++ [')'])), ?_, ?_⟩
    · simp [writeExpr, joinText, str, h1, TypeName.mangled, show "(".toList = ['('] from rfl, show ")".toList = [')'] from rfl]
    · rw [meaning, ← h2]
      exact reads_new hx h3
  | .Conditional c t e, parent, depth, h => by
    simp only [printsSafely, Bool.and_eq_true, decide_eq_true_eq] at h
    obtain ⟨t1, ht1, hr1⟩ := printed_expr c none 0 h.1.1.1
    obtain ⟨t2, ht2, hr2⟩ := printed_expr t none 0 h.1.1.2
    obtain ⟨t3, ht3, hr3⟩ := printed_expr e none 0 h.1.2
    refine ⟨_, ?_, reads_cond hr1 hr2 hr3 h.2⟩
    simp [writeExpr, joinText, str, ht1, ht2, ht3, show " ? ".toList = [' ', '?', ' '] from rfl,
      show " : ".toList = [' ', ':', ' '] from rfl]
  | .Member e m, parent, depth, h => by
    simp only [printsSafely, Bool.and_eq_true, decide_eq_true_eq] at h
    obtain ⟨t, ht, hr⟩ := printed_expr e none 0 h.1.1.2
    refine ⟨_, ?_, reads_member hr h.1.2 h.2 h.1.1.1⟩
    simp [writeExpr, joinText, str, ht, show ".".toList = ['.'] from rfl]
  | .Null, parent, depth, _ => ⟨_, rfl, reads_word (x := ("null".toList, .Null)) (by simp [wordAtoms])⟩
  | .This, parent, depth, _ => ⟨_, rfl, reads_word (x := ("this".toList, .This)) (by simp [wordAtoms])⟩
  | .Super, parent, depth, _ => ⟨_, rfl, reads_word (x := ("super".toList, .Super)) (by simp [wordAtoms])⟩
  | .Declare _ _ _, _, _, h => by simp [printsSafely] at h
  | .Return _, _, _, h => by simp [printsSafely] at h
  | .Seq _, _, _, h => by simp [printsSafely] at h
  | .Switch _ _ _, _, _, h => by simp [printsSafely] at h
  | .Goto _, _, _, h => by simp [printsSafely] at h
  | .If _ _ _, _, _, h => by simp [printsSafely] at h
  | .While _ _, _, _, h => by simp [printsSafely] at h
  | .BinOp _ _ _, _, _, h => by simp [printsSafely] at h
  | .UnOp _ _, _, _, h => by simp [printsSafely] at h
  | .Break, _, _, h => by simp [printsSafely] at h
  | .ArrayLit _ _, _, _, h => by simp [printsSafely] at h
  | .InterpolatedString _ _, _, _, h => by simp [printsSafely] at h
  | .ForIn _ _ _, _, _, h => by simp [printsSafely] at h
theorem printed_first : ∀ (args : List (Expr SourceAst)), 1 ≤ args.length → allPrintSafely P verbose args = true →
    ∀ parent : Option ParentOp,
    PrintedAs F (writeFirst P verbose parent args) (tightnessFirst verbose parent args) (meaningFirst verbose args)
  | [], hl, _, _ => by simp at hl
  | e :: _, _, h, parent => by
    rw [allPrintSafely, Bool.and_eq_true] at h
    exact printed_expr e parent 0 h.1
theorem printed_second : ∀ (args : List (Expr SourceAst)), 2 ≤ args.length → allPrintSafely P verbose args = true →
    ∀ parent : Option ParentOp,
    PrintedAs F (writeSecond P verbose parent args) (tightnessSecond verbose parent args) (meaningSecond verbose args)
  | [], hl, _, _ => by simp at hl
  | _ :: es, hl, h, parent => by
    rw [allPrintSafely, Bool.and_eq_true] at h
    exact printed_first es (by simpa using hl) h.2 parent
theorem printed_args : ∀ (args : List (Expr SourceAst)) (depth : Nat), allPrintSafely P verbose args = true →
    ∃ ps : List (Text × Expr SourceAst), writeArgs P verbose depth args = some (commaText ps) ∧
      ps.map Prod.snd = meanings verbose args ∧ ∀ p ∈ ps, ReadAs F 0 0 p.1 p.2
  | [], _, _ => ⟨[], rfl, rfl, fun p hp => by cases hp⟩
  | e :: es, depth, h => by
    rw [allPrintSafely, Bool.and_eq_true] at h
    obtain ⟨t, ht, hr⟩ := (printed_expr e none depth h.1).weak
    obtain ⟨ps, h1, h2, h3⟩ := printed_args es depth h.2
    refine ⟨(t, meaning verbose e) :: ps, ?_, by rw [meanings, List.map_cons, h2], ?_⟩
    · rw [writeArgs.eq_def]
      cases es with
      | nil =>
        simp only [ht]
        rw [meanings, List.map_eq_nil_iff] at h2
        subst h2
        simp [commaText, commaTail]
      | cons e' es =>
        simp only [ht, h1]
        cases ps with
        | nil => simp [meanings] at h2
        | cons p ps => simp [joinText, str, commaText, commaTail, show ", ".toList = [',', ' '] from rfl]
    · intro p hp
      rcases List.mem_cons.1 hp with rfl | hp
      · exact hr
      · exact h3 p hp
end

/-- C39, for the expressions that are printed safely: what is printed for an expression is parsed as what the
expression means, whatever follows the end of it. The full statement is false, see below. -/
theorem C39_printed_expressions_read_back_partial (F : FloatParse) (P : FloatShow) (verbose : Bool) (e : Expr SourceAst)
    (h : printsSafely P verbose e = true) (depth : Nat) :
    ∃ t, writeExpr P verbose none depth e = some t ∧
      ∀ rest : Text, (rest = [] ∨ ∃ c ∈ [')', ']', ';', ':', '{', '}'], ∃ r, rest = c :: r ∨ rest = ' ' :: c :: r) →
        ∃ N, ∀ n, N ≤ n → parseExpr F n 0 (t ++ rest) = .ok (meaning verbose e) rest := by
  obtain ⟨t, h1, h2⟩ := printed_expr (F := F) e none depth h
  refine ⟨t, h1, fun rest hr => ?_⟩
  refine h2.whole (min := 0) (by omega) (by omega) ?_
  rcases hr with rfl | ⟨c, hc, r, rfl | rfl⟩
  · exact Follow.nil 0
  · exact Follow.closer 0 (by revert hc c; decide) (by rintro rfl; exact absurd hc (by decide))
  · exact Follow.space_closer 0 (by revert hc c; decide) (by rintro rfl; exact absurd hc (by decide))

/-! ### Cases that meet the hypotheses -/

namespace PrintDemo

def var (s : String) : Expr SourceAst := .Ident s.toList
def call (s : String) (args : List (Expr SourceAst)) : Expr SourceAst := .Call s.toList [] args
def int (v : Int) : Expr SourceAst := .Constant (.I32 (BitVec.ofInt 32 v))

/-- `Foo(this.items[i + 1] as ref<Item>, !(a < b) ? -2147483648 : -5, WeakRefToRef(x).Get().count * (c - d))` -/
def nested : Expr SourceAst :=
  call "Foo;Int32" [
    .Cast (.mk "ref".toList [.mk "Item".toList []])
      (.ArrayElem (.Member .This "items".toList) (call "OperatorAdd;Int32Int32" [var "i", int 1])),
    .Conditional (call "OperatorLogicNot;Bool" [call "OperatorLess;Int32Int32" [var "a", var "b"]]) (int (-2147483648)) (int (-5)),
    call "OperatorMultiply;Int32Int32" [
      .Member (.MethodCall (call "WeakRefToRef" [var "x"]) "Get;Foo".toList []) "count".toList,
      call "OperatorSubtract;Int32Int32" [var "c", var "d"]]]

example (P : FloatShow) : printsSafely P false nested = true := by rfl

/-- Numbers aside, the text of it. -/
example (P : FloatShow) : writeExpr P false none 0
    (call "Foo;Int32" [
      .Cast (.mk "ref".toList [.mk "Item".toList []])
        (.ArrayElem (.Member .This "items".toList) (call "OperatorAdd;Int32Int32" [var "i", var "k"])),
      .Conditional (call "OperatorLogicNot;Bool" [call "OperatorLess;Int32Int32" [var "a", var "b"]]) .Null (var "z"),
      call "OperatorMultiply;Int32Int32" [
        .Member (.MethodCall (call "WeakRefToRef" [var "x"]) "Get;Foo".toList []) "count".toList,
        call "OperatorSubtract;Int32Int32" [var "c", var "d"]]]) =
    some "Foo(this.items[i + k] as ref<Item>, !(a < b) ? null : z, x.Get().count * (c - d))".toList := by rfl

end PrintDemo

end Redscript
