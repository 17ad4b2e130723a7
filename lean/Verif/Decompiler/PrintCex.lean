import Verif.Decompiler.PrintProps

/-!
# Expressions whose printed text reads as something else (C39)
-/

namespace Redscript

variable {F : FloatParse} {P : FloatShow} {verbose : Bool}

/-! ### Expressions that are read as something else -/

/-- What is printed for the expression is parsed as what the expression means. -/
def ReadsBack (F : FloatParse) (P : FloatShow) (verbose : Bool) (e : Expr SourceAst) : Prop :=
  ∃ t, writeExpr P verbose none 0 e = some t ∧ ∃ N, ∀ n, N ≤ n → parseExpr F n 0 t = .ok (meaning verbose e) []

/-- The text is read as another expression. -/
theorem misread_text {e e' : Expr SourceAst} {t : Text} (ht : writeExpr P verbose none 0 e = some t) (h : Parses F 0 t e' [])
    (hne : meaning verbose e ≠ e') : ¬ ReadsBack F P verbose e := by
  rintro ⟨t', h1, N, h2⟩
  obtain ⟨M, h5⟩ := h
  rw [ht] at h1
  cases h1
  have h6 := h2 (max N M) (by omega)
  have h7 : parseExpr F (max N M) 0 t = .ok e' [] := h5 (max N M) (by omega)
  rw [h6] at h7
  injection h7 with h8 _
  exact hne h8

/-- The text of another expression is read as that one. -/
theorem misread {e e' : Expr SourceAst} (h : printsSafely P verbose e' = true)
    (ht : writeExpr P verbose none 0 e = writeExpr P verbose none 0 e') (hne : meaning verbose e ≠ meaning verbose e') :
    ¬ ReadsBack F P verbose e := by
  obtain ⟨t', h3, h4⟩ := C39_printed_expressions_read_back_partial F P verbose e' h 0
  have h5 := h4 [] (.inl rfl)
  rw [List.append_nil] at h5
  exact misread_text (ht.trans h3) h5 hne

open PrintDemo in
/-- C39 is false for a subtraction in the right operand of a subtraction: `a - (b - c)` is printed as `a - b - c`. -/
theorem C39_subtraction_counterexample (F : FloatParse) (P : FloatShow) :
    ¬ ReadsBack F P false (call "OperatorSubtract;" [var "a", call "OperatorSubtract;" [var "b", var "c"]]) :=
  misread (e' := call "OperatorSubtract;" [call "OperatorSubtract;" [var "a", var "b"], var "c"]) rfl rfl (fun h => nomatch h)

open PrintDemo in
/-- `a * (b / c)` is printed as `a * b / c`. -/
theorem C39_division_counterexample (F : FloatParse) (P : FloatShow) :
    ¬ ReadsBack F P false (call "OperatorMultiply;" [var "a", call "OperatorDivide;" [var "b", var "c"]]) :=
  misread_text (t := "a * b / c".toList) (e' := .BinOp (.BinOp (var "a") (var "b") .Multiply) (var "c") .Divide) rfl
    ((reads_binary (x := (9, "/".toList, .Divide)) (by decide)
      (reads_binary (x := (9, "*".toList, .Multiply)) (by decide) (reads_ident (x := "a".toList) (by decide) (by decide))
        (reads_ident (x := "b".toList) (by decide) (by decide)) (by decide) (by decide) (by decide) (by decide) (by decide))
      (reads_ident (x := "c".toList) (by decide) (by decide)) (by decide) (by decide) (by decide) (by decide) (by decide)).whole
        (rest := []) (by omega) (by omega) (Follow.nil 0)) (fun h => nomatch h)

open PrintDemo in
/-- `(a + b).x` is printed as `a + b.x`. -/
theorem C39_receiver_counterexample (F : FloatParse) (P : FloatShow) :
    ¬ ReadsBack F P false (.Member (call "OperatorAdd;" [var "a", var "b"]) ['x']) :=
  misread (e' := call "OperatorAdd;" [var "a", .Member (var "b") ['x']]) rfl rfl (fun h => nomatch h)

open PrintDemo in
/-- `(-a).f()` is printed as `-a.f()`. -/
theorem C39_prefix_receiver_counterexample (F : FloatParse) (P : FloatShow) :
    ¬ ReadsBack F P false (.MethodCall (call "OperatorNeg;" [var "a"]) ['f'] []) :=
  misread (e' := call "OperatorNeg;" [.MethodCall (var "a") ['f'] []]) rfl rfl (fun h => nomatch h)

open PrintDemo in
/-- `(c ? a : b) + d` is printed as `c ? a : b + d`. -/
theorem C39_conditional_counterexample (F : FloatParse) (P : FloatShow) :
    ¬ ReadsBack F P false (call "OperatorAdd;" [.Conditional (var "c") (var "a") (var "b"), var "d"]) :=
  misread (e' := .Conditional (var "c") (var "a") (call "OperatorAdd;" [var "b", var "d"])) rfl rfl (fun h => nomatch h)

open PrintDemo in
/-- A conversion that is not written takes the parentheses with it: `AsRef(a + b) * c` is printed as `a + b * c`. -/
theorem C39_conversion_counterexample (F : FloatParse) (P : FloatShow) :
    ¬ ReadsBack F P false (call "OperatorMultiply;" [call "AsRef;" [call "OperatorAdd;" [var "a", var "b"]], var "c"]) :=
  misread (e' := call "OperatorAdd;" [var "a", call "OperatorMultiply;" [var "b", var "c"]]) rfl rfl (fun h => nomatch h)

/-- `a < b, c > (d as T)` is the call of a generic function. -/
theorem reads_generic : ReadAs F 11 13 "a < b, c > (d as T)".toList
    (.Call ['a'] [.mk ['b'] [], .mk ['c'] []] [.Cast (.mk ['T'] []) (.Ident ['d'])]) := by
  refine ReadAs.ofAtom ⟨'a', _, rfl, by decide⟩ (fun rest _ _ d hd => ?_) fun rest _ => ?_
  · obtain ⟨d, rfl⟩ : ∃ d', d = d' + 1 := ⟨d - 1, by omega⟩
    have hw : ∀ c : Char, isWhite c = true → ∀ (k : Nat) (s : Text), noGen k (c :: s) = noGen k s := fun c hc k s => noGen_white hc
    show noGen (d + 1) ('a' :: ' ' :: '<' :: ' ' :: 'b' :: ',' :: ' ' :: 'c' :: ' ' :: '>' :: ' ' :: '(' :: _) = true
    rw [noGen_ident (by decide), hw _ (by decide), noGen_lt, hw _ (by decide), noGen_ident (by decide), noGen_comma, hw _ (by decide),
      noGen_ident (by decide), hw _ (by decide), noGen_gt2, hw _ (by decide)]
    exact noGen_other (by decide) (by decide) (by decide) (by decide) (by decide) (by decide)
  · have hargs := args_read (F := F) (ps := [("d as T".toList, .Cast (.mk ['T'] []) (.Ident ['d']))])
      (fun p hp => by
        rcases List.mem_singleton.1 hp with rfl
        exact (reads_cast (t := ['d']) (reads_ident (by decide) (by decide)) (by omega) (by omega) (ty := .mk ['T'] []) (by decide)).weaken
          (by omega) (by omega)) rest
    refine (Eventually.and hargs (Eventually.large 8)).succ fun n ⟨h, hn⟩ => ?_
    show parseAtom F (n + 1) (['a'] ++ (' ' :: '<' :: ' ' :: 'b' :: ',' :: ' ' :: 'c' :: ' ' :: '>' :: ' ' :: '(' :: ("d as T".toList ++ ')' :: rest))) = _
    rw [parseAtom_word F n (by decide) (fun c hc => by cases hc; decide) (fun h => by cases h) (by decide)]
    have hb : ∀ (c : Char) (s : Text), isWhite c = false → c ≠ '/' → blanks (' ' :: c :: s) = c :: s := fun c s h1 h2 => by
      rw [blanks_white (by decide), blanks_solid h1 h2]
    have hty : ∀ s : Text, typeArgsRule n ('<' :: ' ' :: 'b' :: ',' :: ' ' :: 'c' :: ' ' :: '>' :: ' ' :: '(' :: s) =
        .ok [.mk ['b'] [], .mk ['c'] []] (' ' :: '(' :: s) := by
      intro s
      obtain ⟨m, rfl⟩ : ∃ m, n = m + 4 := ⟨n - 4, by omega⟩
      have hl : lit ['<'] ('<' :: ' ' :: 'b' :: ',' :: ' ' :: 'c' :: ' ' :: '>' :: ' ' :: '(' :: s) =
        .ok () (' ' :: 'b' :: ',' :: ' ' :: 'c' :: ' ' :: '>' :: ' ' :: '(' :: s) := lit_self ['<'] _
      have hg : lit ['>'] ('>' :: ' ' :: '(' :: s) = .ok () (' ' :: '(' :: s) := lit_self ['>'] _
      have hi : ∀ (c : Char) (t : Text), isIdentStart c = true → EndsType t → typeRule (m + 3) (c :: t) = .ok (.mk [c] []) t := by
        intro c t hc ht
        rw [typeRule, show c :: t = [c] ++ t from rfl, ident_read (by simp [isIdent, hc]) ht.word]
        show (Peg.opt (typeArgsRule (m + 2) t) t).bind _ = _
        rw [typeArgs_none (by omega) fun c hc => (ht c hc).2]
        rfl
      have hcs := sepBy_read (x := fun t => typeRule (m + 3) t) (rest := ' ' :: '>' :: ' ' :: '(' :: s)
        (ps := [(['b'], .mk ['b'] []), (['c'], .mk ['c'] [])]) (fuel := m + 3) (lit_ne (by decide)) (typeRule_bad (by omega) (by decide))
        (by simp) ⟨blanks_solid (by decide) (by decide), hi _ _ (by decide) (fun c hc => by cases hc; decide),
          blanks_solid (by decide) (by decide), hi _ _ (by decide) (fun c hc => by cases hc; decide), True.intro⟩
      have hcs' : sepBy commaSep (fun t => typeRule (m + 3) t) (m + 3) ('b' :: ',' :: ' ' :: 'c' :: ' ' :: '>' :: ' ' :: '(' :: s) =
        .ok [.mk ['b'] [], .mk ['c'] []] (' ' :: '>' :: ' ' :: '(' :: s) := hcs
      rw [typeArgsRule, hl]
      simp only [Peg.bind, hb 'b' _ (by decide) (by decide), hcs', hb '>' _ (by decide) (by decide), hg]
    have hl : ∀ s : Text, lit ['('] ('(' :: s) = .ok () s := fun s => lit_self ['('] s
    rw [hb '<' _ (by decide) (by decide), hty]
    have hbl : blanks ("d as T".toList ++ ')' :: rest) = "d as T".toList ++ ')' :: rest :=
      blanks_solid (c := 'd') (by decide) (by decide)
    have h' : parseArgs F n ("d as T".toList ++ ')' :: rest) = .ok [.Cast (.mk ['T'] []) (.Ident ['d'])] rest := h
    simp only [Peg.opt, Peg.bind, hb '(' _ (by decide) (by decide), hl, hbl, h', Peg.orElse]
    rfl

open PrintDemo in
/-- `f(a < b, c > (d as T))` is read as a call of a generic function `a` with the types `b` and `c`. -/
theorem C39_comparison_counterexample (F : FloatParse) (P : FloatShow) :
    ¬ ReadsBack F P false (call "f" [call "OperatorLess;" [var "a", var "b"],
      call "OperatorGreater;" [var "c", .Cast (.mk ['T'] []) (var "d")]]) :=
  misread_text (t := "f(a < b, c > (d as T))".toList) rfl
    ((reads_call_text (f := ['f']) (by decide) (by decide) (tys := []) rfl
      (ps := [("a < b, c > (d as T)".toList, .Call ['a'] [.mk ['b'] [], .mk ['c'] []] [.Cast (.mk ['T'] []) (.Ident ['d'])])])
      (fun p hp => by
        rcases List.mem_singleton.1 hp with rfl
        exact reads_generic.weaken (by omega) (by omega))).whole (rest := []) (by omega) (by omega) (Follow.nil 0))
    (fun h => by
      injection h with _ _ h
      injection h with h _
      cases h)

end Redscript
