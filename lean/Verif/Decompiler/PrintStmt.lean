import Verif.Decompiler.PrintProps
import Verif.Parser.ReadsStmt

/-!
# Printed statements read back (C64)

What the decompiler prints for the statements of a body is parsed as those statements: declarations of variables,
conditionals, loops, switches, returns, breaks and expressions, nested in any way.
-/

namespace Redscript

variable {F : FloatParse} {P : FloatShow} {verbose : Bool}

/-! ### What printed statements mean -/

mutual
/-- What a statement of decompiled code means: the same statement, with the meanings of the expressions in it. -/
def stmtMeaning (verbose : Bool) : Expr SourceAst → Expr SourceAst
  | .Declare x ty val => .Declare x ty (val.map (meaning verbose))
  | .Return val => .Return (val.map (meaning verbose))
  | .If c a b => .If (meaning verbose c) (seqMeaning verbose a)
      (match b with
        | some b => some (seqMeaning verbose b)
        | none => none)
  | .While c body => .While (meaning verbose c) (seqMeaning verbose body)
  | .Switch e cases dflt => .Switch (meaning verbose e) (casesMeaning verbose cases)
      (match dflt with
        | some d => some (seqMeaning verbose d)
        | none => none)
  | e => meaning verbose e
/-- Of statements: those that are empty are nothing. -/
def seqMeaning (verbose : Bool) : List (Expr SourceAst) → List (Expr SourceAst)
  | [] => []
  | e :: es => if e.isEmpty then seqMeaning verbose es else stmtMeaning verbose e :: seqMeaning verbose es
def casesMeaning (verbose : Bool) : List (Expr SourceAst × List (Expr SourceAst)) → List (Expr SourceAst × List (Expr SourceAst))
  | [] => []
  | (m, body) :: cs => (meaning verbose m, seqMeaning verbose body) :: casesMeaning verbose cs
end

/-! ### Statements that are printed safely -/

/-- The text does not start with a word that statements start with. -/
def startsLikeExpr (t : Option Text) : Bool :=
  match t with
  | some t => stmtWords.all fun k => (keyword k t).isNone
  | none => false

/-- The labels of the cases that are read back: numbers, and all that does not start like the operands of an operator. -/
def labelSafe (P : FloatShow) (verbose : Bool) : Expr SourceAst → Bool
  | .Constant (.I32 _) | .Constant (.I64 _) => true
  | m => match writeExpr P verbose none 0 m with
    | some t => caseSafe t
    | none => false

mutual
/-- The statements that are read back: the expressions in them are, no name is a word of the language, there are no
jumps, and no statements within statements that are not blocks. -/
def stmtSafe (P : FloatShow) (verbose : Bool) : Expr SourceAst → Bool
  | .Declare x ty val => isIdent x &&
      (match ty with
        | some ty => ty.isValid
        | none => true) &&
      (match val with
        | some e => printsSafely P verbose e
        | none => true)
  | .Return val =>
      (match val with
        | some e => printsSafely P verbose e
        | none => true)
  | .If c a b => printsSafely P verbose c && seqSafe P verbose a &&
      (match b with
        | some b => seqSafe P verbose b
        | none => true)
  | .While c body => printsSafely P verbose c && seqSafe P verbose body
  | .Switch e cases dflt => printsSafely P verbose e && casesSafe P verbose cases &&
      (match dflt with
        | some d => seqSafe P verbose d
        | none => true)
  | .Break => true
  | e => printsSafely P verbose e && startsLikeExpr (writeExpr P verbose none 0 e)
def seqSafe (P : FloatShow) (verbose : Bool) : List (Expr SourceAst) → Bool
  | [] => true
  | e :: es => (e.isEmpty || stmtSafe P verbose e) && seqSafe P verbose es
def casesSafe (P : FloatShow) (verbose : Bool) : List (Expr SourceAst × List (Expr SourceAst)) → Bool
  | [] => true
  | (m, body) :: cs => printsSafely P verbose m && labelSafe P verbose m && seqSafe P verbose body && casesSafe P verbose cs
end

/-! ### The proof -/

theorem label_start {m : Expr SourceAst} {t : Text} (h : labelSafe P verbose m = true) (hp : printsSafely P verbose m = true)
    (ht : writeExpr P verbose none 0 m = some t) : CaseStart F t := by
  obtain ⟨t', h1, h2⟩ := printed_expr (F := F) m none 0 hp
  cases ht.symm.trans h1
  have hgen : ∀ t', writeExpr P verbose none 0 m = some t' → (∀ v, m ≠ .Constant (.I32 v)) → (∀ v, m ≠ .Constant (.I64 v)) →
      caseSafe t' = true := by
    intro t' ht' hn1 hn2
    unfold labelSafe at h
    split at h
    · exact absurd rfl (hn1 _)
    · exact absurd rfl (hn2 _)
    · rw [ht'] at h
      exact h
  by_cases h32 : ∃ v, m = .Constant (.I32 v)
  · obtain ⟨v, rfl⟩ := h32
    obtain ⟨d1, d2, d3⟩ := digitsOf_dec v.toInt.natAbs
    have e : t = showInt v.toInt := by
      rw [writeExpr] at ht
      exact (Option.some.inj ht).symm
    rw [(showInt_eq v.toInt).1] at e
    subst e
    by_cases hneg : v.toInt < 0
    · rw [if_pos (by simpa using hneg)]
      have := caseStart_minus (F := F) .i32 d1 d2
      simpa [IntType.suffix] using this
    · rw [if_neg (by simpa using hneg)]
      refine caseStart_safe (by rw [if_neg (by simpa using hneg)] at h2; exact h2.starts) ?_
      cases hds : digitsOf 10 v.toInt.natAbs with
      | nil => exact absurd hds d1
      | cons c s =>
        have hc := digit_facts (d2 c (by rw [hds]; simp))
        have hk : keyword ['a', 's'] (c :: s) = none := keyword_fail (by
          show litRule ('a' :: _) _ = _
          rw [litRule, if_neg (Ne.symm (hc.2.2.2 'a' (by decide)))])
        simp [caseSafe, hc.2.2.2 '(' (by decide), hc.2.2.2 '-' (by decide), hc.2.2.2 '!' (by decide), hk]
  · by_cases h64 : ∃ v, m = .Constant (.I64 v)
    · obtain ⟨v, rfl⟩ := h64
      obtain ⟨d1, d2, d3⟩ := digitsOf_dec v.toInt.natAbs
      have e : t = showInt v.toInt ++ ['l'] := by
        rw [writeExpr] at ht
        exact (Option.some.inj ht).symm
      rw [(showInt_eq v.toInt).1] at e
      subst e
      by_cases hneg : v.toInt < 0
      · rw [if_pos (by simpa using hneg)]
        have := caseStart_minus (F := F) .i64 d1 d2
        simpa [IntType.suffix] using this
      · rw [if_neg (by simpa using hneg)]
        refine caseStart_safe (by rw [if_neg (by simpa using hneg)] at h2; exact h2.starts) ?_
        cases hds : digitsOf 10 v.toInt.natAbs with
        | nil => exact absurd hds d1
        | cons c s =>
          have hc := digit_facts (d2 c (by rw [hds]; simp))
          have hk : keyword ['a', 's'] (c :: (s ++ ['l'])) = none := keyword_fail (by
            show litRule ('a' :: _) _ = _
            rw [litRule, if_neg (Ne.symm (hc.2.2.2 'a' (by decide)))])
          simp [caseSafe, hc.2.2.2 '(' (by decide), hc.2.2.2 '-' (by decide), hc.2.2.2 '!' (by decide), hk]
    · exact caseStart_safe h2.starts (hgen t ht (fun v hv => h32 ⟨v, hv⟩) fun v hv => h64 ⟨v, hv⟩)

mutual
/-- The text of an expression does not depend on how deep it is nested. -/
theorem write_depth : ∀ (e : Expr SourceAst) (parent : Option ParentOp) (depth : Nat), printsSafely P verbose e = true →
    writeExpr P verbose parent depth e = writeExpr P verbose parent 0 e
  | .New (.mk x as) args, parent, depth, h => by
    simp only [printsSafely, Bool.and_eq_true] at h
    rw [writeExpr, writeExpr, writeArgs_depth args depth h.2]
  | .Ident _, _, _, _ => rfl
  | .Constant _, _, _, _ => rfl
  | .Cast _ _, _, _, _ => by rw [writeExpr, writeExpr]
  | .Assign _ _, _, _, _ => by rw [writeExpr, writeExpr]
  | .Call _ _ _, _, _, _ => by rw [writeExpr, writeExpr]
  | .MethodCall _ _ _, _, _, _ => by rw [writeExpr, writeExpr]
  | .ArrayElem _ _, _, _, _ => by rw [writeExpr, writeExpr]
  | .Conditional _ _ _, _, _, _ => by rw [writeExpr, writeExpr]
  | .Member _ _, _, _, _ => by rw [writeExpr, writeExpr]
  | .Null, _, _, _ => rfl
  | .This, _, _, _ => rfl
  | .Super, _, _, _ => rfl
  | .Declare _ _ _, _, _, h => by simp [printsSafely] at h
  | .Return _, _, _, h => by simp [printsSafely] at h
  | .Seq _, _, _, h => by simp [printsSafely] at h
  | .Switch _ _ _, _, _, h => by simp [printsSafely] at h
  | .Goto _, _, _, h => by simp [printsSafely] at h
  | .If _ _ _, _, _, h => by simp [printsSafely] at h
  | .While _ _, _, _, h => by simp [printsSafely] at h
  | .BinOp _ _ _, _, _, h => by simp [printsSafely] at h
  | .UnOp _ _, _, _, h => by simp [printsSafely] at h
  | .Break, _, _, h => by simp [printsSafely] at h
  | .ArrayLit _ _, _, _, h => by simp [printsSafely] at h
  | .InterpolatedString _ _, _, _, h => by simp [printsSafely] at h
  | .ForIn _ _ _, _, _, h => by simp [printsSafely] at h
theorem writeArgs_depth : ∀ (args : List (Expr SourceAst)) (depth : Nat), allPrintSafely P verbose args = true →
    writeArgs P verbose depth args = writeArgs P verbose 0 args
  | [], _, _ => rfl
  | e :: es, depth, h => by
    rw [allPrintSafely, Bool.and_eq_true] at h
    rw [writeArgs.eq_def, writeArgs.eq_def P verbose 0]
    simp only
    rw [write_depth e none depth h.1, writeArgs_depth es depth h.2]
end

theorem printed_plain {e : Expr SourceAst} (h : (printsSafely P verbose e && startsLikeExpr (writeExpr P verbose none 0 e)) = true)
    (depth : Nat) : ∃ t, writeExpr P verbose none depth e = some t ∧ StmtRead F t (meaning verbose e) := by
  rw [Bool.and_eq_true] at h
  obtain ⟨t, h1, h2⟩ := (printed_expr (F := F) e none 0 h.1).weak
  refine ⟨t, by rw [write_depth e none depth h.1, h1], stmt_expr h2 fun k hk => ?_⟩
  have := h.2
  rw [h1] at this
  simp only [startsLikeExpr, List.all_eq_true] at this
  exact Option.isNone_iff_eq_none.1 (this k hk)

mutual
theorem printed_stmt : ∀ (e : Expr SourceAst) (depth : Nat), stmtSafe P verbose e = true →
    ∃ t, writeExpr P verbose none depth e = some t ∧ StmtRead F t (stmtMeaning verbose e)
  | .Declare x ty val, depth, h => by
    rw [stmtSafe.eq_def] at h
    simp only [Bool.and_eq_true] at h
    have hty : ∀ t, ty = some t → t.isValid = true := by
      rintro t rfl
      exact h.1.2
    cases val with
    | none =>
      refine ⟨_, ?_, stmt_let (v := none) (e := none) h.1.1 hty True.intro⟩
      rw [writeExpr.eq_def]
      cases ty <;> simp [joinText, str, letTypeText, letValueText]
    | some e =>
      obtain ⟨t, h1, h2⟩ := (printed_expr (F := F) e none 0 h.2).weak
      refine ⟨_, ?_, stmt_let (v := some t) (e := some (meaning verbose e)) h.1.1 hty h2⟩
      rw [writeExpr.eq_def]
      cases ty <;> simp [joinText, str, letTypeText, letValueText, h1]
  | .Return none, depth, h => ⟨_, rfl, stmt_return_none⟩
  | .Return (some e), depth, h => by
    obtain ⟨t, h1, h2⟩ := (printed_expr (F := F) e none depth h).weak
    refine ⟨_, ?_, stmt_return h2⟩
    rw [writeExpr]
    simp [joinText, str, h1]
  | .If c a none, depth, h => by
    rw [stmtSafe, Bool.and_eq_true, Bool.and_eq_true] at h
    obtain ⟨t, h1, h2⟩ := (printed_expr (F := F) c none 0 h.1.1).weak
    obtain ⟨u, h3, h4⟩ := printed_seq a (depth + 1) h.1.2
    refine ⟨_, ?_, stmt_if h2 h4 (2 * depth)⟩
    rw [writeExpr]
    simp [joinText, str, h1, h3, indent, show "}".toList = ['}'] from rfl]
  | .If c a (some b), depth, h => by
    rw [stmtSafe, Bool.and_eq_true, Bool.and_eq_true] at h
    obtain ⟨t, h1, h2⟩ := (printed_expr (F := F) c none 0 h.1.1).weak
    obtain ⟨u, h3, h4⟩ := printed_seq a (depth + 1) h.1.2
    obtain ⟨v, h5, h6⟩ := printed_seq b (depth + 1) h.2
    refine ⟨_, ?_, stmt_ifElse h2 h4 h6 (2 * depth)⟩
    rw [writeExpr]
    simp [joinText, str, h1, h3, h5, indent, show "}".toList = ['}'] from rfl]
  | .While c body, depth, h => by
    rw [stmtSafe, Bool.and_eq_true] at h
    obtain ⟨t, h1, h2⟩ := (printed_expr (F := F) c none 0 h.1).weak
    obtain ⟨u, h3, h4⟩ := printed_seq body (depth + 1) h.2
    refine ⟨_, ?_, stmt_while h2 h4 (2 * depth)⟩
    rw [writeExpr]
    simp [joinText, str, h1, h3, indent, show "}".toList = ['}'] from rfl]
  | .Switch e cases none, depth, h => by
    rw [stmtSafe, Bool.and_eq_true, Bool.and_eq_true] at h
    obtain ⟨t, h1, h2⟩ := (printed_expr (F := F) e none 0 h.1.1).weak
    obtain ⟨u, h3, h4⟩ := printed_cases cases depth h.1.2
    refine ⟨_, ?_, stmt_switch (v := none) (d := none) h2 h4 True.intro (2 * (depth + 1)) (2 * depth)⟩
    rw [writeExpr]
    simp [joinText, str, h1, h3, indent, defaultText, show "}".toList = ['}'] from rfl]
  | .Switch e cases (some d), depth, h => by
    rw [stmtSafe, Bool.and_eq_true, Bool.and_eq_true] at h
    obtain ⟨t, h1, h2⟩ := (printed_expr (F := F) e none 0 h.1.1).weak
    obtain ⟨u, h3, h4⟩ := printed_cases cases depth h.1.2
    obtain ⟨v, h5, h6⟩ := printed_seq d (depth + 2) h.2
    refine ⟨_, ?_, stmt_switch (v := some v) (d := some (seqMeaning verbose d)) h2 h4 h6 (2 * (depth + 1)) (2 * depth)⟩
    rw [writeExpr]
    simp [joinText, str, h1, h3, h5, indent, defaultText, show "}".toList = ['}'] from rfl]
  | .Break, depth, _ => ⟨_, rfl, stmt_break⟩
  | .Ident x, depth, h => printed_plain h depth
  | .Constant c, depth, h => printed_plain h depth
  | .Cast ty e, depth, h => printed_plain h depth
  | .Assign l r, depth, h => printed_plain h depth
  | .Call f tys args, depth, h => printed_plain h depth
  | .MethodCall o f args, depth, h => printed_plain h depth
  | .ArrayElem a i, depth, h => printed_plain h depth
  | .New ty args, depth, h => printed_plain h depth
  | .Conditional c t e, depth, h => printed_plain h depth
  | .Member e m, depth, h => printed_plain h depth
  | .Null, depth, h => printed_plain (e := .Null) h depth
  | .This, depth, h => printed_plain (e := .This) h depth
  | .Super, depth, h => printed_plain (e := .Super) h depth
  | .Seq es, depth, h => by simp [stmtSafe, printsSafely] at h
  | .Goto t, depth, h => by simp [stmtSafe, printsSafely] at h
  | .BinOp l r op, depth, h => by simp [stmtSafe, printsSafely] at h
  | .UnOp e op, depth, h => by simp [stmtSafe, printsSafely] at h
  | .ArrayLit es ty, depth, h => by simp [stmtSafe, printsSafely] at h
  | .InterpolatedString p ps, depth, h => by simp [stmtSafe, printsSafely] at h
  | .ForIn x a b, depth, h => by simp [stmtSafe, printsSafely] at h
theorem printed_seq : ∀ (es : List (Expr SourceAst)) (depth : Nat), seqSafe P verbose es = true →
    ∃ t, writeSeq P verbose depth es = some t ∧ SeqRead F t (seqMeaning verbose es)
  | [], depth, _ => ⟨[], rfl, SeqRead.nil⟩
  | e :: es, depth, h => by
    rw [seqSafe, Bool.and_eq_true] at h
    obtain ⟨u, h3, h4⟩ := printed_seq es depth h.2
    rw [writeSeq, seqMeaning]
    by_cases he : e.isEmpty = true
    · rw [if_pos he, if_pos he]
      exact ⟨u, h3, h4⟩
    · rw [if_neg he, if_neg he]
      have hs : stmtSafe P verbose e = true := by simpa [he] using h.1
      obtain ⟨t, h1, h2⟩ := printed_stmt e depth hs
      refine ⟨_, ?_, SeqRead.cons (2 * depth) h2 h4⟩
      simp [joinText, str, h1, h3, indent]
theorem printed_cases : ∀ (cs : List (Expr SourceAst × List (Expr SourceAst))) (depth : Nat), casesSafe P verbose cs = true →
    ∃ t, writeCases P verbose depth cs = some t ∧ CasesRead F t (casesMeaning verbose cs)
  | [], depth, _ => ⟨[], rfl, CasesRead.nil⟩
  | (m, body) :: cs, depth, h => by
    rw [casesSafe, Bool.and_eq_true, Bool.and_eq_true, Bool.and_eq_true] at h
    obtain ⟨t, h1, h2⟩ := (printed_expr (F := F) m none 0 h.1.1.1).weak
    obtain ⟨b, h3, h4⟩ := printed_seq body (depth + 2) h.1.2
    obtain ⟨u, h5, h6⟩ := printed_cases cs depth h.2
    refine ⟨_, ?_, CasesRead.cons (2 * (depth + 1)) h2 (label_start h.1.1.2 h.1.1.1 h1) h4 h6⟩
    rw [writeCases]
    simp [joinText, str, h1, h3, h5, indent]
end

/-- C64: what is printed for the statements of a body is parsed as what the statements mean, up to the
brace behind them. -/
theorem C64_printed_statements_read_back_partial (F : FloatParse) (P : FloatShow) (verbose : Bool) (es : List (Expr SourceAst))
    (h : seqSafe P verbose es = true) (depth : Nat) :
    ∃ t, writeSeq P verbose depth es = some t ∧
      ∀ (k : Nat) (rest : Text), ∃ N, ∀ n, N ≤ n →
        parseBlock F n ("{\n".toList ++ (t ++ (List.replicate k ' ' ++ '}' :: rest))) = .ok (seqMeaning verbose es) rest := by
  obtain ⟨t, h1, h2⟩ := printed_seq (F := F) es depth h
  exact ⟨t, h1, fun k rest => block_read h2 k rest⟩

/-! ### Statements that are not read back -/

/-- The statements of a body are read back. -/
def StmtsReadBack (F : FloatParse) (P : FloatShow) (verbose : Bool) (es : List (Expr SourceAst)) : Prop :=
  ∃ t, writeSeq P verbose 1 es = some t ∧
    ∃ N, ∀ n, N ≤ n → parseBlock F n ("{\n".toList ++ (t ++ ['}'])) = .ok (seqMeaning verbose es) []

/-- A block of which only the first statements are read is not read. -/
theorem block_stuck {t rest : Text} {xs : List (Expr SourceAst)} (h : SeqRead F t xs) (hr : StmtEnds F rest)
    (hb : lit ['}'] (blanks rest) = .fail) : Eventually fun n => parseBlock F n ("{\n".toList ++ (t ++ rest)) = .fail := by
  refine Eventually.succ (h.whole hr) fun n ⟨r, h1, h2⟩ => ?_
  have hl : lit ['{'] ("{\n".toList ++ (t ++ rest)) = .ok () ('\n' :: (t ++ rest)) := lit_self ['{'] _
  rw [parseBlock, hl]
  simp only [Peg.bind, blanks_white (show isWhite '\n' = true by decide), h1, h2, hb]

theorem stuck {es : List (Expr SourceAst)} {t : Text} (ht : writeSeq P verbose 1 es = some t)
    (h : Eventually fun n => parseBlock F n ("{\n".toList ++ (t ++ ['}'])) = .fail) : ¬ StmtsReadBack F P verbose es := by
  rintro ⟨t', h1, N, h2⟩
  obtain ⟨M, h⟩ := h
  cases ht.symm.trans h1
  have h3 := h2 (max N M) (by omega)
  rw [h (max N M) (by omega)] at h3
  cases h3

/-- A jump is printed as `goto`, which is no statement. -/
theorem C64_goto_counterexample (F : FloatParse) (P : FloatShow) : ¬ StmtsReadBack F P false [.Goto 0] := by
  have hb : blanks ("  goto 0;\n}".toList) = "goto".toList ++ " 0;\n}".toList := by
    show blanks (' ' :: ' ' :: 'g' :: _) = _
    rw [blanks_white (by decide), blanks_white (by decide), blanks_solid (by decide) (by decide)]
    rfl
  have hb2 : blanks (" 0;\n}".toList) = '0' :: ";\n}".toList := by
    show blanks (' ' :: '0' :: _) = _
    rw [blanks_white (by decide), blanks_solid (by decide) (by decide)]
    rfl
  have hd : digitsOf 10 (0 : BitVec 16).toNat = ['0'] := by rw [digitsOf]; rfl
  have hw : writeSeq P false 1 [.Goto 0] = some "  goto 0;\n".toList := by
    have he : writeExpr P false none 1 (.Goto 0) = some "goto 0".toList := by
      rw [writeExpr, hd]
      rfl
    rw [writeSeq, he]
    rfl
  refine stuck (t := "  goto 0;\n".toList) hw (block_stuck (t := []) (rest := "  goto 0;\n}".toList) SeqRead.nil ?_ ?_)
  · unfold StmtEnds
    rw [hb]
    refine parseStmt_word (by decide) (by decide) (by decide) (fun c hc => by cases hc; decide) (by intro h; cases h)
      (parenNext_of hb2 (by decide)) (notGeneric_of hb2 (by decide)) ?_
    refine Eventually.mono (NoStep.loops _ (noStep_char F hb2 (by decide) 0)) fun n hn => ⟨_, _, hn, ?_⟩
    rw [hb2]
    exact lit_ne (by decide)
  · rw [hb]
    exact lit_ne (by decide)

/-- Statements within a statement that is no block are followed by a second semicolon, which is no statement. -/
theorem C64_nested_statements_counterexample (F : FloatParse) (P : FloatShow) :
    ¬ StmtsReadBack F P false [.Seq [.Call "Foo".toList [] []]] := by
  obtain ⟨t, h1, h2⟩ := printed_seq (F := F) (P := P) (verbose := false) [.Call "Foo".toList [] []] 1 rfl
  have e : t = "  Foo();\n".toList := (Option.some.inj (h1.symm.trans (by rfl)))
  have hs : blanks (';' :: "\n}".toList) = ';' :: "\n}".toList := blanks_solid (by decide) (by decide)
  have hw : SeqRead F ("  ".toList ++ t) [.Call "Foo".toList [] []] := by
    intro rest hr
    refine Eventually.mono (h2 rest hr) fun n hn fuel hf s hs => hn fuel hf s ?_
    rw [hs]
    show blanks (' ' :: ' ' :: (t ++ rest)) = _
    rw [blanks_white (by decide), blanks_white (by decide)]
  refine stuck (t := "  ".toList ++ t ++ ";\n".toList) (by rw [e]; rfl) ?_
  have := block_stuck (rest := ";\n}".toList) hw (.above 3 fun n hn => ?_) ?_
  · simpa using this
  · show parseStmt F n (blanks (';' :: "\n}".toList)) = _
    rw [hs]
    exact parseStmt_bad hn (by decide) (by decide) (by decide)
  · show lit ['}'] (blanks (';' :: "\n}".toList)) = _
    rw [hs]
    exact lit_ne (by decide)

/-! ### A case that meets the hypotheses -/

namespace PrintDemo

/-- `let n: Int32 = 0; while n < 10 { if a { break; } else { ... }; switch kind { case -1: ... case Kind.A: ... default: ... } }` -/
def body : List (Expr SourceAst) :=
  [.Declare "n".toList (some (.mk "Int32".toList [])) (some (int 0)),
   .Seq [],
   .While (call "OperatorLess;Int32Int32" [var "n", int 10]) [
     .If (var "a") [.Break] (some [.Assign (var "n") (call "OperatorAdd;Int32Int32" [var "n", int 1])]),
     .Switch (var "kind") [
       (int (-1), [call "Foo" [var "n"], .Break]),
       (.Member (var "Kind") "A".toList, []),
       (.Constant (.String .Name "b".toList), [.Return none])] (some [.Return (some (var "n"))])],
   .Return (some (int (-2147483648)))]

example (P : FloatShow) : seqSafe P false body = true := by rfl

example : seqMeaning false body =
  [.Declare "n".toList (some (.mk "Int32".toList [])) (some (int 0)),
   .While (.BinOp (var "n") (int 10) .Less) [
     .If (var "a") [.Break] (some [.Assign (var "n") (.BinOp (var "n") (int 1) .Add)]),
     .Switch (var "kind") [
       (.UnOp (int 1) .Neg, [call "Foo" [var "n"], .Break]),
       (.Member (var "Kind") "A".toList, []),
       (.Constant (.String .Name "b".toList), [.Return none])] (some [.Return (some (var "n"))])],
   .Return (some (int (-2147483648)))] := by rfl

set_option maxRecDepth 4000 in
example (P : FloatShow) : writeSeq P false 1
    [.If (var "a") [.Break] (some [.Assign (var "n") (call "OperatorAdd;Int32Int32" [var "n", var "k"])]),
     .Switch (var "kind") [(.Member (var "Kind") "A".toList, [.Return none])] (some [.Return (some (var "n"))])] =
    some ("  if a {\n    break;\n  } else {\n    n = n + k;\n  };\n" ++
      "  switch kind {\n    case Kind.A:\n      return;\n    default:\n      return n;\n  };\n").toList := by rfl

end PrintDemo

end Redscript
