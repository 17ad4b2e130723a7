import Verif.Parser.EndsDecl

/-!
# The number of steps does not matter (lemmas for C68)

More steps change nothing where the steps were enough: the answer of a rule with one step more is the same unless the
steps were used up.
-/

namespace Redscript

/-- The second answer is the first one, unless the first ran out of steps. -/
def Peg.Below (p q : Peg α) : Prop := p = .stuck ∨ p = q

namespace Peg.Below

theorem same {p : Peg α} : Below p p := .inr rfl

theorem used {q : Peg α} : Below .stuck q := .inl rfl

theorem trans {p q r : Peg α} (h : Below p q) (h' : Below q r) : Below p r := by
  rcases h with rfl | rfl
  · exact .used
  · exact h'

theorem bind {p q : Peg α} {f g : α → Text → Peg β} (h : Below p q) (hf : ∀ a r, Below (f a r) (g a r)) :
    Below (p.bind f) (q.bind g) := by
  rcases h with rfl | rfl
  · exact .used
  · cases p with
    | ok a r => exact hf a r
    | _ => exact .same

theorem orElse {p q : Peg α} {f g : Unit → Peg α} (h : Below p q) (hf : Below (f ()) (g ())) :
    Below (p.orElse f) (q.orElse g) := by
  rcases h with rfl | rfl
  · exact .used
  · cases p with
    | fail => exact hf
    | _ => exact .same

theorem opt {p q : Peg α} {s : Text} (h : Below p q) : Below (p.opt s) (q.opt s) := by
  rcases h with rfl | rfl
  · exact .used
  · exact .same

theorem first {l : List β} {f g : β → Peg α} (h : ∀ b ∈ l, Below (f b) (g b)) : Below (firstOk l f) (firstOk l g) := by
  induction l with
  | nil => exact .same
  | cons b l ih => exact .orElse (h b (by simp)) (ih fun b hb => h b (by simp [hb]))

theorem ite {c : Prop} [Decidable c] {p q p' q' : Peg α} (h : c → Below p q) (h' : ¬c → Below p' q') :
    Below (if c then p else p') (if c then q else q') := by
  split
  · exact h ‹_›
  · exact h' ‹_›

theorem more {sep : Text → Peg Unit} {x y : Text → Peg α} (h : ∀ s, Below (x s) (y s)) :
    ∀ (n : Nat) (s : Text), Below (sepMore sep x n s) (sepMore sep y (n + 1) s)
  | 0, _ => .used
  | n + 1, s => by
    have hb : Below ((sep s).bind fun _ r => x r) ((sep s).bind fun _ r => y r) := .bind .same fun _ r => h r
    rw [sepMore, sepMore]
    rcases hb with hb | hb
    · rw [hb]
      exact .used
    · rw [← hb]
      split
      · exact .bind (more h n _) fun _ _ => .same
      · exact .same
      · exact .same
      · exact .same

theorem sep {sep : Text → Peg Unit} {x y : Text → Peg α} {n : Nat} {s : Text} (h : ∀ s, Below (x s) (y s)) :
    Below (sepBy sep x n s) (sepBy sep y (n + 1) s) := by
  unfold sepBy
  rcases h s with hb | hb
  · rw [hb]
    exact .used
  · rw [← hb]
    split
    · exact .bind (more h n _) fun _ _ => .same
    · exact .same
    · exact .same
    · exact .same

end Peg.Below

open Peg (Below)

/-! ### Types and expressions -/

structure TypeRulesGrow (n : Nat) : Prop where
  type_ : ∀ s, Below (typeRule n s) (typeRule (n + 1) s)
  args : ∀ s, Below (typeArgsRule n s) (typeArgsRule (n + 1) s)

theorem types_grow : ∀ n, TypeRulesGrow n
  | 0 => ⟨fun _ => .used, fun _ => .used⟩
  | n + 1 => by
    have ih := types_grow n
    refine ⟨fun s => ?_, fun s => ?_⟩
    · rw [typeRule, typeRule]
      exact .bind .same fun _ r => .bind (.opt (ih.args r)) fun _ _ => .same
    · rw [typeArgsRule, typeArgsRule]
      exact .bind .same fun _ r => .bind (.sep ih.type_) fun _ _ => .same

structure ExprRulesGrow (F : FloatParse) (n : Nat) : Prop where
  expr : ∀ min s, Below (parseExpr F n min s) (parseExpr F (n + 1) min s)
  loop : ∀ min e s, Below (infixLoop F n min e s) (infixLoop F (n + 1) min e s)
  step : ∀ min e s, Below (infixStep F n min e s) (infixStep F (n + 1) min e s)
  args : ∀ s, Below (parseArgs F n s) (parseArgs F (n + 1) s)
  atom : ∀ s, Below (parseAtom F n s) (parseAtom F (n + 1) s)
  part : ∀ s, Below (parsePart F n s) (parsePart F (n + 1) s)

theorem exprs_grow (F : FloatParse) : ∀ n, ExprRulesGrow F n
  | 0 => ⟨fun _ _ => .used, fun _ _ _ => .used, fun _ _ _ => .used, fun _ => .used, fun _ => .used, fun _ => .used⟩
  | n + 1 => by
    have ih := exprs_grow F n
    have ty := types_grow n
    refine ⟨fun min s => ?_, fun min e s => ?_, fun min e s => ?_, fun s => ?_, fun s => ?_, fun s => ?_⟩
    · rw [parseExpr, parseExpr]
      exact .bind (ih.atom s) fun e r => ih.loop min e r
    · rw [infixLoop, infixLoop]
      rcases ih.step min e s with h | h
      · rw [h]
        exact .used
      · rw [← h]
        split
        · exact ih.loop _ _ _
        · exact .same
        · exact .same
        · exact .same
    · rw [infixStep, infixStep]
      refine .orElse (.ite (fun _ => .same) fun _ => ?_) (.orElse (.first fun x _ => .ite (fun _ => .same) fun _ => ?_)
        (.ite (fun _ => .same) fun _ => ?_))
      · exact .orElse (.bind .same fun _ r => .bind (ih.expr _ _) fun _ r => .bind .same fun _ r => .bind (ih.expr _ _) fun _ _ => .same)
          (.orElse (.bind .same fun _ r => .bind (ih.expr _ _) fun _ _ => .same)
            (.first fun x _ => .bind .same fun _ r => .bind (ih.expr _ _) fun _ _ => .same))
      · exact .bind .same fun _ r => .bind (ih.expr _ _) fun _ _ => .same
      · exact .orElse (.bind .same fun _ r => .bind (ih.expr _ _) fun _ _ => .same)
          (.orElse (.bind .same fun _ r => .bind .same fun _ r => .bind .same fun _ r => .bind (ih.args _) fun _ _ => .same)
            (.orElse .same (.bind .same fun _ r => .bind (ty.type_ _) fun _ _ => .same)))
    · rw [parseArgs, parseArgs]
      exact .bind (.sep fun t => ih.expr 0 t) fun _ _ => .same
    · rw [parseAtom, parseAtom]
      exact .orElse (.first fun x _ => .bind .same fun _ r => .bind (ih.expr _ _) fun _ _ => .same)
        (.orElse (.bind .same fun _ r => .bind .same fun _ r => .bind .same fun _ r => .bind (ih.args _) fun _ _ => .same)
        (.orElse (.bind .same fun _ r => .bind (.sep fun t => ih.expr 0 t) fun _ _ => .same)
        (.orElse (.bind .same fun _ r => .bind (ih.expr _ _) fun _ _ => .same)
        (.orElse .same
        (.orElse (.bind .same fun _ r => .bind .same fun _ r => .bind (.sep ih.part) fun _ _ => .same)
        (.orElse .same
        (.orElse (.bind .same fun _ r => .bind (.opt (ty.args _)) fun _ r => .bind .same fun _ r =>
          .bind (ih.args _) fun _ _ => .same) .same)))))))
    · rw [parsePart, parsePart]
      exact .bind .same fun _ r => .bind (ih.expr _ _) fun _ _ => .same

/-! ### Statements -/

section
variable {F : FloatParse} (n : Nat)

theorem letType_grows (s : Text) : Below (letType n s) (letType (n + 1) s) := .bind .same fun _ _ => (types_grow n).type_ _

theorem initializer_grows (s : Text) : Below (initializer F n s) (initializer F (n + 1) s) :=
  .bind .same fun _ _ => (exprs_grow F n).expr _ _

theorem letRule_grows (s : Text) : Below (letRule F n s) (letRule F (n + 1) s) :=
  .bind .same fun _ _ => .bind .same fun _ _ => .bind (.opt (letType_grows n _)) fun _ _ =>
    .bind (.opt (initializer_grows n _)) fun _ _ => .same

end

structure StmtRulesGrow (F : FloatParse) (n : Nat) : Prop where
  stmt : ∀ s, Below (parseStmt F n s) (parseStmt F (n + 1) s)
  if_ : ∀ s, Below (parseIf F n s) (parseIf F (n + 1) s)
  block : ∀ s, Below (parseBlock F n s) (parseBlock F (n + 1) s)
  seq : ∀ s, Below (parseSeq F n s) (parseSeq F (n + 1) s)
  case_ : ∀ s, Below (parseCase F n s) (parseCase F (n + 1) s)

theorem stmts_grow (F : FloatParse) : ∀ n, StmtRulesGrow F n
  | 0 => ⟨fun _ => .used, fun _ => .used, fun _ => .used, fun _ => .used, fun _ => .used⟩
  | n + 1 => by
    have ih := stmts_grow F n
    have ex := (exprs_grow F n).expr
    refine ⟨fun s => ?_, fun s => ?_, fun s => ?_, fun s => ?_, fun s => ?_⟩
    · rw [parseStmt, parseStmt]
      exact .orElse (.bind .same fun _ _ => .bind (ex _ _) fun _ _ => .bind (ih.block _) fun _ _ => .same)
        (.orElse (.bind .same fun _ _ => .bind .same fun _ _ => .bind .same fun _ _ => .bind (ex _ _) fun _ _ =>
          .bind (ih.block _) fun _ _ => .same)
        (.orElse (ih.if_ s)
        (.orElse (.bind .same fun _ _ => .bind (ex _ _) fun _ _ => .bind .same fun _ _ => .bind (.sep ih.case_) fun _ _ =>
          .bind (.opt (.bind .same fun _ _ => .bind .same fun _ _ => ih.seq _)) fun _ _ => .same)
        (.orElse (.bind .same fun _ _ => .bind (.opt (ex _ _)) fun _ _ => .same)
        (.orElse .same
        (.orElse (letRule_grows n s) (.bind (ex _ _) fun _ _ => .same)))))))
    · rw [parseIf, parseIf]
      exact .bind .same fun _ _ => .bind (ex _ _) fun _ _ => .bind (ih.block _) fun _ _ =>
        .bind (.opt (.orElse (.bind .same fun _ _ => ih.block _)
          (.bind .same fun _ _ => .bind (ih.if_ _) fun _ _ => .same))) fun _ _ => .same
    · rw [parseBlock, parseBlock]
      exact .bind .same fun _ _ => .bind (ih.seq _) fun _ _ => .same
    · rw [parseSeq, parseSeq]
      exact .sep ih.stmt
    · rw [parseCase, parseCase]
      exact .bind .same fun _ _ => .bind (ex _ _) fun _ _ => .bind .same fun _ _ => .bind (ih.seq _) fun _ _ => .same

/-! ### Declarations -/

section
variable {F : FloatParse} (n : Nat)

theorem qualifiersRule_grows (s : Text) : Below (qualifiersRule n s) (qualifiersRule (n + 1) s) := .sep fun _ => .same

theorem annotationsRule_grows (s : Text) : Below (annotationsRule F n s) (annotationsRule F (n + 1) s) :=
  .sep fun _ => .bind .same fun _ _ => .bind .same fun _ _ => .bind .same fun _ _ => .bind ((exprs_grow F n).args _) fun _ _ => .same

theorem declRule_grows (word s : Text) : Below (declRule F n word s) (declRule F (n + 1) word s) :=
  .bind (annotationsRule_grows n s) fun _ _ => .bind (qualifiersRule_grows n _) fun _ _ => .same

theorem fieldRule_grows (s : Text) : Below (fieldRule F n s) (fieldRule F (n + 1) s) :=
  .bind (declRule_grows n _ s) fun _ _ => .bind (letType_grows n _) fun _ _ => .bind (.opt (initializer_grows n _)) fun _ _ => .same

theorem paramRule_grows (s : Text) : Below (paramRule n s) (paramRule (n + 1) s) :=
  .bind (qualifiersRule_grows n _) fun _ _ => .bind .same fun _ _ => .bind (letType_grows n _) fun _ _ => .same

theorem functionBody_grows (s : Text) : Below (functionBody F n s) (functionBody F (n + 1) s) :=
  .orElse ((stmts_grow F n).block s) (.bind .same fun _ _ => .bind ((exprs_grow F n).expr _ _) fun _ _ => .same)

theorem functionRule_grows (s : Text) : Below (functionRule F n s) (functionRule F (n + 1) s) :=
  .bind (declRule_grows n _ s) fun _ _ => .bind .same fun _ _ => .bind (.sep (paramRule_grows n)) fun _ _ =>
    .bind .same fun _ _ => .bind (.opt (.bind .same fun _ _ => (types_grow n).type_ _)) fun _ _ =>
    .bind (.opt (functionBody_grows n _)) fun _ _ => .same

theorem memberRule_grows (s : Text) : Below (memberRule F n s) (memberRule F (n + 1) s) :=
  .orElse (.bind (functionRule_grows n s) fun _ _ => .same) (.bind (fieldRule_grows n s) fun _ _ => .same)

theorem membersRule_grows (s : Text) : Below (membersRule F n s) (membersRule F (n + 1) s) :=
  .bind .same fun _ _ => .bind (.sep (memberRule_grows n)) fun _ _ => .same

theorem entryRule_grows (s : Text) : Below (entryRule F n s) (entryRule F (n + 1) s) :=
  .orElse (.bind (functionRule_grows n s) fun _ _ => .same)
    (.orElse (.bind (.bind (declRule_grows n _ s) fun _ _ => .bind .same fun _ _ => .bind (membersRule_grows n _) fun _ _ => .same)
      fun _ _ => .same)
    (.orElse (.bind (.bind (declRule_grows n _ s) fun _ _ => .bind (membersRule_grows n _) fun _ _ => .same) fun _ _ => .same)
    (.orElse (.bind (fieldRule_grows n s) fun _ _ => .same)
      (.bind (.bind (declRule_grows n _ s) fun _ _ => .bind .same fun _ _ => .bind (.sep fun _ => .same) fun _ _ => .same)
        fun _ _ => .same))))

theorem pathRule_grows (s : Text) : Below (pathRule n s) (pathRule (n + 1) s) := .sep fun _ => .same

theorem importStart_grows (s : Text) : Below (importStart F n s) (importStart F (n + 1) s) :=
  .bind (annotationsRule_grows n s) fun _ _ => .bind .same fun _ _ => .bind (pathRule_grows n _) fun _ _ => .same

theorem importRule_grows (s : Text) : Below (importRule F n s) (importRule F (n + 1) s) :=
  .orElse (.bind (importStart_grows n s) fun _ _ => .same)
    (.orElse (.bind (importStart_grows n s) fun _ _ => .bind .same fun _ _ => .bind .same fun _ _ => .bind (.sep fun _ => .same) fun _ _ => .same)
      (.bind (importStart_grows n s) fun _ _ => .same))

theorem moduleRule_grows (s : Text) : Below (moduleRule F n s) (moduleRule F (n + 1) s) :=
  .bind (.opt (.bind .same fun _ _ => pathRule_grows n _)) fun _ _ => .bind (.sep (importRule_grows n)) fun _ _ =>
    .bind (.sep (entryRule_grows n)) fun _ _ => .same

end

/-- From one step more to any number of steps more. -/
theorem Peg.Below.steps {f : Nat → Peg α} (h : ∀ n, Below (f n) (f (n + 1))) {n m : Nat} (hm : n ≤ m) : Below (f n) (f m) := by
  induction hm with
  | refl => exact .same
  | step _ ih => exact ih.trans (h _)

end Redscript
