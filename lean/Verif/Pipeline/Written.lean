import Verif.Vm.Shape
import Verif.Parser.ExprModel
import Verif.Typecheck.Elab

/-!
# Bodies as they are written

Which trees the parser and the type checker give: expressions are made of expressions, and statements of statements
and expressions. The assembler relies on this, but neither the types of the code nor the assembler check it.
-/

namespace Redscript

/-! ## Specification -/

section
variable {N : NameKind}

mutual
/-- Expressions, made of expressions. -/
def Expr.isOperand : Expr N → Bool
  | .Ident _ | .Constant _ | .Null | .This | .Super => true
  | .ArrayLit es _ => Expr.areOperands es
  | .InterpolatedString _ ps => Expr.areParts ps
  | .Cast _ e | .Member e _ | .UnOp e _ => e.isOperand
  | .Assign a b | .ArrayElem a b | .BinOp a b _ => a.isOperand && b.isOperand
  | .Call _ _ args | .New _ args => Expr.areOperands args
  | .MethodCall c _ args => c.isOperand && Expr.areOperands args
  | .Conditional c a b => c.isOperand && a.isOperand && b.isOperand
  | _ => false
/-- All elements are expressions. -/
def Expr.areOperands : List (Expr N) → Bool
  | [] => true
  | e :: es => e.isOperand && Expr.areOperands es
/-- All parts of an interpolated string are expressions. -/
def Expr.areParts : List (Expr N × Text) → Bool
  | [] => true
  | (e, _) :: ps => e.isOperand && Expr.areParts ps
end

mutual
/-- Statements, made of statements and expressions. -/
def Expr.isWritten : Expr N → Bool
  | .Declare _ _ init =>
    match init with
    | some e => e.isOperand
    | none => true
  | .Return e =>
    match e with
    | some e => e.isOperand
    | none => true
  | .Break => true
  | .If c t e => c.isOperand && Expr.areWritten t && Expr.areWrittenOpt e
  | .While c b => c.isOperand && Expr.areWritten b
  | .ForIn _ a b => a.isOperand && Expr.areWritten b
  | .Switch e cases dflt => e.isOperand && Expr.areWrittenCases cases && Expr.areWrittenOpt dflt
  | e => e.isOperand
/-- All elements are statements. -/
def Expr.areWritten : List (Expr N) → Bool
  | [] => true
  | e :: es => e.isWritten && Expr.areWritten es
/-- The statements of an optional block. -/
def Expr.areWrittenOpt : Option (List (Expr N)) → Bool
  | none => true
  | some es => Expr.areWritten es
/-- Cases compare with expressions and have statements as bodies. -/
def Expr.areWrittenCases : List (Expr N × List (Expr N)) → Bool
  | [] => true
  | (m, b) :: cs => m.isOperand && Expr.areWritten b && Expr.areWrittenCases cs
end

theorem Expr.isWritten_of_operand {e : Expr N} (h : e.isOperand = true) : e.isWritten = true := by
  cases e <;> first | exact h | (rw [Expr.isOperand] at h; cases h) | skip
  all_goals first | (simp [Expr.isOperand] at h; done) | (unfold Expr.isWritten; exact h)

end

/-! ## The parser -/

/-- What is parsed is as it should be. -/
def Peg.Holds (P : α → Prop) (p : Peg α) : Prop := ∀ a r, p = .ok a r → P a

section
variable {P : α → Prop} {R : β → Prop}

theorem Peg.Holds.fail : Peg.Holds P (.fail : Peg α) := nofun

theorem Peg.Holds.stuck : Peg.Holds P (.stuck : Peg α) := nofun

theorem Peg.Holds.ok {a : α} {r : Text} (h : P a) : Peg.Holds P (.ok a r) := by
  intro b s hb
  cases hb
  exact h

theorem Peg.Holds.bind {p : Peg β} {f : β → Text → Peg α} (hp : Peg.Holds R p)
    (hf : ∀ b r, R b → Peg.Holds P (f b r)) : Peg.Holds P (p.bind f) := by
  intro a r h
  cases p with
  | ok b s => exact hf b s (hp b s rfl) a r h
  | fail => cases h
  | panic => cases h
  | stuck => cases h

/-- A step whose result does not matter. -/
theorem Peg.Holds.after {p : Peg β} {f : β → Text → Peg α} (hf : ∀ b r, Peg.Holds P (f b r)) :
    Peg.Holds P (p.bind f) := Peg.Holds.bind (R := fun _ => True) (fun _ _ _ => trivial) fun b r _ => hf b r

theorem Peg.Holds.orElse {p : Peg α} {f : Unit → Peg α} (hp : Peg.Holds P p) (hf : Peg.Holds P (f ())) :
    Peg.Holds P (p.orElse f) := by
  intro a r h
  cases p with
  | ok b s => exact hp a r h
  | fail => exact hf a r h
  | panic => cases h
  | stuck => cases h

theorem Peg.Holds.opt {p : Peg β} {s : Text} (hp : Peg.Holds R p) :
    Peg.Holds (fun o => ∀ b, o = some b → R b) (p.opt s) := by
  intro o r h
  cases p with
  | ok b s =>
    cases h
    rintro _ rfl'
    cases rfl'
    exact hp b _ rfl
  | fail => cases h; nofun
  | panic => cases h
  | stuck => cases h

theorem Peg.Holds.first {bs : List β} {f : β → Peg α} (hf : ∀ b ∈ bs, Peg.Holds P (f b)) : Peg.Holds P (firstOk bs f) := by
  induction bs with
  | nil => exact .fail
  | cons b bs ih => exact .orElse (hf b (by simp)) (ih fun b hb => hf b (by simp [hb]))

theorem Peg.Holds.more {sep : Text → Peg Unit} {x : Text → Peg β} (hx : ∀ s, Peg.Holds R (x s)) :
    ∀ (n : Nat) (s : Text), Peg.Holds (fun l => ∀ b ∈ l, R b) (sepMore sep x n s)
  | 0, _ => .stuck
  | n + 1, s => by
    intro l r h
    rw [sepMore] at h
    have hm : Peg.Holds R ((sep s).bind fun _ r => x r) := .after fun _ r => hx r
    cases h' : (sep s).bind fun _ r => x r with
    | ok b r' =>
      rw [h'] at h
      have : Peg.Holds (fun l => ∀ b ∈ l, R b) ((sepMore sep x n r').bind fun as r => .ok (b :: as) r) :=
        .bind (Peg.Holds.more hx n r') fun as r has => .ok fun c hc => by
          rcases List.mem_cons.1 hc with rfl | hc
          · exact hm _ _ h'
          · exact has _ hc
      exact this l r h
    | fail => rw [h'] at h; cases h; nofun
    | panic => rw [h'] at h; cases h
    | stuck => rw [h'] at h; cases h

theorem Peg.Holds.sepBy {sep : Text → Peg Unit} {x : Text → Peg β} (hx : ∀ s, Peg.Holds R (x s)) (n : Nat) (s : Text) :
    Peg.Holds (fun l => ∀ b ∈ l, R b) (Redscript.sepBy sep x n s) := by
  intro l r h
  rw [Redscript.sepBy] at h
  cases h' : x s with
  | ok b r' =>
    rw [h'] at h
    have : Peg.Holds (fun l => ∀ b ∈ l, R b) ((sepMore sep x n r').bind fun as r => .ok (b :: as) r) :=
      .bind (Peg.Holds.more hx n r') fun as r has => .ok fun c hc => by
        rcases List.mem_cons.1 hc with rfl | hc
        · exact hx s _ _ h'
        · exact has _ hc
    exact this l r h
  | fail => rw [h'] at h; cases h; nofun
  | panic => rw [h'] at h; cases h
  | stuck => rw [h'] at h; cases h

end

section
variable {N : NameKind}

theorem areOperands_of {es : List (Expr N)} (h : ∀ e ∈ es, e.isOperand = true) : Expr.areOperands es = true := by
  induction es with
  | nil => rw [Expr.areOperands]
  | cons e es ih => rw [Expr.areOperands, h e (by simp), ih fun e he => h e (by simp [he])]; rfl

theorem areParts_of {ps : List (Expr N × Text)} (h : ∀ p ∈ ps, p.1.isOperand = true) : Expr.areParts ps = true := by
  induction ps with
  | nil => rw [Expr.areParts]
  | cons p ps ih =>
    obtain ⟨e, t⟩ := p
    rw [Expr.areParts, h (e, t) (by simp), ih fun e he => h e (by simp [he])]; rfl

theorem areWritten_of {es : List (Expr N)} (h : ∀ e ∈ es, e.isWritten = true) : Expr.areWritten es = true := by
  induction es with
  | nil => rw [Expr.areWritten]
  | cons e es ih => rw [Expr.areWritten, h e (by simp), ih fun e he => h e (by simp [he])]; rfl

theorem areWrittenCases_of {cs : List (Expr N × List (Expr N))}
    (h : ∀ c ∈ cs, c.1.isOperand = true ∧ Expr.areWritten c.2 = true) : Expr.areWrittenCases cs = true := by
  induction cs with
  | nil => rw [Expr.areWrittenCases]
  | cons c cs ih =>
    obtain ⟨m, b⟩ := c
    obtain ⟨h1, h2⟩ := h (m, b) (by simp)
    rw [Expr.areWrittenCases, h1, h2, ih fun e he => h e (by simp [he])]; rfl

end

section
variable {F : FloatParse}

/-- What the rules for expressions give. -/
structure OperandRules (F : FloatParse) (n : Nat) : Prop where
  expr : ∀ min s, Peg.Holds (fun e => e.isOperand = true) (parseExpr F n min s)
  loop : ∀ min e s, e.isOperand = true → Peg.Holds (fun e => e.isOperand = true) (infixLoop F n min e s)
  step : ∀ min e s, e.isOperand = true → Peg.Holds (fun e => e.isOperand = true) (infixStep F n min e s)
  args : ∀ s, Peg.Holds (fun es => ∀ e ∈ es, e.isOperand = true) (parseArgs F n s)
  atom : ∀ s, Peg.Holds (fun e => e.isOperand = true) (parseAtom F n s)
  part : ∀ s, Peg.Holds (fun p => p.1.isOperand = true) (parsePart F n s)

theorem operandRules : ∀ n, OperandRules F n
  | 0 => ⟨fun _ _ => .stuck, fun _ _ _ _ => .stuck, fun _ _ _ _ => .stuck, fun _ => .stuck, fun _ => .stuck, fun _ => .stuck⟩
  | n + 1 => by
    have ih := operandRules n
    refine ⟨fun min s => ?_, fun min e s he => ?_, fun min e s he => ?_, fun s => ?_, fun s => ?_, fun s => ?_⟩
    · rw [parseExpr]
      exact .bind (ih.atom s) fun e r he => ih.loop min e r he
    · intro a r h
      rw [infixLoop] at h
      cases h' : infixStep F n min e s with
      | ok e' r' => rw [h'] at h; exact ih.loop min e' r' (ih.step min e s he _ _ h') a r h
      | fail => rw [h'] at h; cases h; exact he
      | panic => rw [h'] at h; cases h
      | stuck => rw [h'] at h; cases h
    · rw [infixStep]
      refine .orElse ?_ (.orElse ?_ ?_)
      · split
        · exact .fail
        · refine .orElse (.after fun _ r => .bind (ih.expr 0 _) fun y r hy => .after fun _ r =>
            .bind (ih.expr 0 _) fun z r hz => .ok (by rw [Expr.isOperand, he, hy, hz]; rfl)) (.orElse ?_ ?_)
          · exact .after fun _ r => .bind (ih.expr 0 _) fun y r hy => .ok (by rw [Expr.isOperand, he, hy]; rfl)
          · exact .first fun x _ => .after fun _ r => .bind (ih.expr 0 _) fun y r hy =>
              .ok (by rw [Expr.isOperand, he, hy]; rfl)
      · refine .first fun x _ => ?_
        split
        · exact .fail
        · exact .after fun _ r => .bind (ih.expr _ _) fun y r hy => .ok (by rw [Expr.isOperand, he, hy]; rfl)
      · split
        · exact .fail
        · refine .orElse (.after fun _ r => .bind (ih.expr 0 _) fun y r hy => .after fun _ r =>
            .ok (by rw [Expr.isOperand, he, hy]; rfl)) (.orElse ?_ (.orElse ?_ ?_))
          · exact .after fun _ r => .after fun f r => .after fun _ r => .bind (ih.args _) fun args r ha =>
              .ok (by rw [Expr.isOperand, he, areOperands_of ha]; rfl)
          · exact .after fun _ r => .after fun m r => .ok (by rw [Expr.isOperand, he])
          · exact .after fun _ r => .after fun ty r => .ok (by rw [Expr.isOperand, he])
    · rw [parseArgs]
      exact .bind (.sepBy (fun t => ih.expr 0 t) n s) fun args r ha => .after fun _ r => .ok ha
    · rw [parseAtom]
      refine .orElse ?_ (.orElse ?_ (.orElse ?_ (.orElse ?_ (.orElse ?_ (.orElse ?_ (.orElse ?_ (.orElse ?_ ?_)))))))
      · exact .first fun x _ => .after fun _ r => .bind (ih.expr _ _) fun e r he => .ok (by rw [Expr.isOperand, he])
      · exact .after fun _ r => .after fun id r => .after fun _ r => .bind (ih.args _) fun args r ha =>
          .ok (by rw [Expr.isOperand, areOperands_of ha])
      · exact .after fun _ r => .bind (.sepBy (fun t => ih.expr 0 t) n _) fun es r he => .after fun _ r =>
          .ok (by rw [Expr.isOperand, areOperands_of he])
      · exact .after fun _ r => .bind (ih.expr 0 _) fun e r he => .after fun _ r => .ok he
      · refine .first fun x hx => .after fun _ r => .ok ?_
        simp only [wordAtoms, List.mem_cons, List.not_mem_nil, or_false] at hx
        rcases hx with rfl | rfl | rfl <;> rw [Expr.isOperand]
      · exact .after fun _ r => .after fun start r => .bind (.sepBy (fun t => ih.part t) n _) fun ps r hp =>
          .after fun _ r => .ok (by rw [Expr.isOperand, areParts_of hp])
      · exact .after fun c r => .ok (by rw [Expr.isOperand])
      · exact .after fun f r => .after fun tys r => .after fun _ r => .bind (ih.args _) fun args r ha =>
          .ok (by rw [Expr.isOperand, areOperands_of ha])
      · exact .after fun id r => .ok (by rw [Expr.isOperand])
    · rw [parsePart]
      exact .after fun _ r => .bind (ih.expr 0 _) fun e r he => .after fun _ r => .after fun t r => .ok he

/-- What the rules for statements give. -/
structure WrittenRules (F : FloatParse) (n : Nat) : Prop where
  stmt : ∀ s, Peg.Holds (fun e => e.isWritten = true) (parseStmt F n s)
  if_ : ∀ s, Peg.Holds (fun e => e.isWritten = true) (parseIf F n s)
  block : ∀ s, Peg.Holds (fun es => ∀ e ∈ es, e.isWritten = true) (parseBlock F n s)
  seq : ∀ s, Peg.Holds (fun es => ∀ e ∈ es, e.isWritten = true) (parseSeq F n s)
  case : ∀ s, Peg.Holds (fun c => c.1.isOperand = true ∧ Expr.areWritten c.2 = true) (parseCase F n s)

theorem writtenOpt_of {o : Option (List (Expr SourceAst))} (h : ∀ es, o = some es → ∀ e ∈ es, e.isWritten = true) :
    Expr.areWrittenOpt o = true := by
  cases o with
  | none => rw [Expr.areWrittenOpt]
  | some es => rw [Expr.areWrittenOpt, areWritten_of (h es rfl)]

theorem writtenRules : ∀ n, WrittenRules F n
  | 0 => ⟨fun _ => .stuck, fun _ => .stuck, fun _ => .stuck, fun _ => .stuck, fun _ => .stuck⟩
  | n + 1 => by
    have ih := writtenRules n
    have io := operandRules (F := F) n
    refine ⟨fun s => ?_, fun s => ?_, fun s => ?_, fun s => ?_, fun s => ?_⟩
    · rw [parseStmt]
      refine .orElse ?_ (.orElse ?_ (.orElse (ih.if_ s) (.orElse ?_ (.orElse ?_ (.orElse ?_ (.orElse ?_ ?_))))))
      · exact .after fun _ r => .bind (io.expr 0 _) fun c r hc => .bind (ih.block _) fun b r hb =>
          .ok (by rw [Expr.isWritten, hc, areWritten_of hb]; rfl)
      · exact .after fun _ r => .after fun x r => .after fun _ r => .bind (io.expr 0 _) fun c r hc =>
          .bind (ih.block _) fun b r hb => .ok (by rw [Expr.isWritten, hc, areWritten_of hb]; rfl)
      · exact .after fun _ r => .bind (io.expr 0 _) fun e r he => .after fun _ r =>
          .bind (.sepBy (fun t => ih.case t) n _) fun cs r hc =>
          .bind (.opt (.after fun _ r => .after fun _ r => ih.seq _)) fun d r hd => .after fun _ r =>
          .ok (by rw [Expr.isWritten, he, areWrittenCases_of hc, writtenOpt_of hd]; rfl)
      · refine .after fun _ r => .bind (.opt (io.expr 0 _)) fun v r hv => .after fun _ r => .ok ?_
        cases v with
        | none => rw [Expr.isWritten]
        | some e => rw [Expr.isWritten]; exact hv e rfl
      · exact .after fun _ r => .after fun _ r => .ok (by rw [Expr.isWritten])
      · rw [letRule]
        refine .after fun _ r => .after fun x r => .after fun ty r =>
          .bind (R := fun v => ∀ e, v = some e → e.isOperand = true) (.opt ?_) fun v r hv => .after fun _ r => .ok ?_
        · rw [initializer]
          exact .after fun _ r => io.expr 0 _
        · cases v with
          | none => rw [Expr.isWritten]
          | some e => rw [Expr.isWritten]; exact hv e rfl
      · exact .bind (io.expr 0 _) fun e r he => .after fun _ r => .ok (Expr.isWritten_of_operand he)
    · rw [parseIf]
      refine .after fun _ r => .bind (io.expr 0 _) fun c r hc => .bind (ih.block _) fun t r ht =>
        .bind (R := fun o => ∀ es, o = some es → ∀ e ∈ es, e.isWritten = true) (.opt (.orElse ?_ ?_)) fun e r he =>
        .ok (by rw [Expr.isWritten, hc, areWritten_of ht, writtenOpt_of he]; rfl)
      · exact .after fun _ r => ih.block _
      · exact .after fun _ r => .bind (ih.if_ _) fun e r he => .ok fun x hx => by
          rw [List.mem_singleton.1 hx]
          exact he
    · rw [parseBlock]
      exact .after fun _ r => .bind (ih.seq _) fun b r hb => .after fun _ r => .ok hb
    · rw [parseSeq]
      exact .sepBy (fun t => ih.stmt t) n s
    · rw [parseCase]
      exact .after fun _ r => .bind (io.expr 0 _) fun m r hm => .after fun _ r => .bind (ih.seq _) fun b r hb =>
        .ok ⟨hm, areWritten_of hb⟩

end

end Redscript
