import Verif.Parser.ReadsProps

/-!
# The names that a parsed block declares

Whatever the text, the names of the variables that the parser reads in a block are identifiers.
-/

namespace Redscript

/-- Every result of a rule has a property. -/
def Peg.Yields (Q : α → Prop) (p : Peg α) : Prop := ∀ a r, p = .ok a r → Q a

namespace Peg.Yields

theorem ok {Q : α → Prop} {a : α} {r : Text} (h : Q a) : Peg.Yields Q (.ok a r) := by
  rintro _ _ ⟨⟩; exact h

theorem fail {Q : α → Prop} : Peg.Yields Q (.fail : Peg α) := by rintro _ _ ⟨⟩

theorem bind {Q : β → Prop} {p : Peg α} {f : α → Text → Peg β} (h : ∀ a r, p = .ok a r → Peg.Yields Q (f a r)) : Peg.Yields Q (p.bind f) := by
  intro b r hb
  cases p with
  | ok a r' => exact h a r' rfl b r hb
  | fail => cases hb
  | panic => cases hb
  | stuck => cases hb

/-- The next rule has the property whatever is before it. -/
theorem andThen {Q : β → Prop} {p : Peg α} {f : α → Text → Peg β} (h : ∀ a r, Peg.Yields Q (f a r)) : Peg.Yields Q (p.bind f) :=
  bind fun a r _ => h a r

theorem orElse {Q : α → Prop} {p : Peg α} {q : Unit → Peg α} (h1 : Peg.Yields Q p) (h2 : Peg.Yields Q (q ())) : Peg.Yields Q (p.orElse q) := by
  intro a r h
  cases p with
  | ok b r' => exact h1 a r h
  | fail => exact h2 a r h
  | panic => cases h
  | stuck => cases h

theorem first {Q : α → Prop} {f : β → Peg α} : ∀ {bs : List β}, (∀ b ∈ bs, Peg.Yields Q (f b)) → Peg.Yields Q (Redscript.firstOk bs f)
  | [], _ => fail
  | b :: bs, h => orElse (h b (by simp)) (first fun c hc => h c (by simp [hc]))

theorem cond {Q : α → Prop} {c : Prop} [Decidable c] {p q : Peg α} (h1 : Peg.Yields Q p) (h2 : Peg.Yields Q q) : Peg.Yields Q (if c then p else q) := by
  split
  · exact h1
  · exact h2

theorem sepMore {Q : α → Prop} {sep : Text → Peg Unit} {x : Text → Peg α} (h : ∀ s, Peg.Yields Q (x s)) :
    ∀ (fuel : Nat) (s : Text), Peg.Yields (fun as => ∀ a ∈ as, Q a) (Redscript.sepMore sep x fuel s)
  | 0, _ => by rintro _ _ ⟨⟩
  | fuel + 1, s => by
    have hx : Peg.Yields Q ((sep s).bind fun _ r => x r) := andThen fun _ r => h r
    rw [Redscript.sepMore]
    generalize (sep s).bind (fun _ r => x r) = p at hx
    cases p with
    | ok a r =>
      refine bind fun as r' has => ok ?_
      intro b hb
      rcases List.mem_cons.1 hb with rfl | hb
      · exact hx _ _ rfl
      · exact sepMore h fuel r as r' has b hb
    | fail => exact ok (by simp)
    | panic => rintro _ _ ⟨⟩
    | stuck => rintro _ _ ⟨⟩

theorem sepBy {Q : α → Prop} {sep : Text → Peg Unit} {x : Text → Peg α} (h : ∀ s, Peg.Yields Q (x s)) (fuel : Nat) (s : Text) :
    Peg.Yields (fun as => ∀ a ∈ as, Q a) (Redscript.sepBy sep x fuel s) := by
  have hx := h s
  unfold Redscript.sepBy
  generalize x s = p at hx
  cases p with
  | ok a r =>
    refine bind fun as r' has => ok ?_
    intro b hb
    rcases List.mem_cons.1 hb with rfl | hb
    · exact hx _ _ rfl
    · exact sepMore h fuel r as r' has b hb
  | fail => exact ok (by simp)
  | panic => rintro _ _ ⟨⟩
  | stuck => rintro _ _ ⟨⟩

end Peg.Yields

/-- The name that a statement declares, if it does, is an identifier. -/
def DeclaresIdent (e : Expr SourceAst) : Prop := ∀ n ty v, e = .Declare n ty v → isIdent n = true

/-- The statement is no declaration. -/
def NoDeclare (e : Expr SourceAst) : Prop := ∀ n ty v, e ≠ .Declare n ty v

theorem NoDeclare.ident {e : Expr SourceAst} (h : NoDeclare e) : DeclaresIdent e := fun n ty v he => absurd he (h n ty v)

theorem takeWhile_every (p : Char → Bool) : ∀ s : Text, (s.takeWhile p).all p = true
  | [] => rfl
  | c :: s => by
    rw [List.takeWhile_cons]
    split
    · rename_i h
      rw [List.all_cons, h, takeWhile_every p s]
      rfl
    · rfl

theorem ident_yields (s : Text) : Peg.Yields (fun x => isIdent x = true) (identRule s) := by
  intro x r h
  cases s with
  | nil => cases h
  | cons c s =>
    rw [identRule] at h
    split at h
    · rename_i hc
      cases h
      rw [isIdent, hc, takeWhile_every]
      rfl
    · cases h

open Peg.Yields in
theorem infixStep_yields (F : FloatParse) : ∀ (n min : Nat) (e : Expr SourceAst) (s : Text), Peg.Yields NoDeclare (infixStep F n min e s)
  | 0, _, _, _ => by rw [infixStep]; rintro _ _ ⟨⟩
  | n + 1, min, e, s => by
    rw [infixStep]
    refine orElse (cond fail (orElse ?_ (orElse ?_ (first fun b _ => ?_)))) (orElse (first fun b _ => cond fail ?_)
      (cond fail (orElse ?_ (orElse ?_ (orElse ?_ ?_)))))
    · exact andThen fun _ _ => andThen fun _ _ => andThen fun _ _ => andThen fun _ _ => ok (by rintro _ _ _ ⟨⟩)
    · exact andThen fun _ _ => andThen fun _ _ => ok (by rintro _ _ _ ⟨⟩)
    · exact andThen fun _ _ => andThen fun _ _ => ok (by rintro _ _ _ ⟨⟩)
    · exact andThen fun _ _ => andThen fun _ _ => ok (by rintro _ _ _ ⟨⟩)
    · exact andThen fun _ _ => andThen fun _ _ => andThen fun _ _ => ok (by rintro _ _ _ ⟨⟩)
    · exact andThen fun _ _ => andThen fun _ _ => andThen fun _ _ => andThen fun _ _ => ok (by rintro _ _ _ ⟨⟩)
    · exact andThen fun _ _ => andThen fun _ _ => ok (by rintro _ _ _ ⟨⟩)
    · exact andThen fun _ _ => andThen fun _ _ => ok (by rintro _ _ _ ⟨⟩)

theorem infixLoop_yields (F : FloatParse) : ∀ (n min : Nat) (e : Expr SourceAst) (s : Text), NoDeclare e →
    Peg.Yields NoDeclare (infixLoop F n min e s)
  | 0, _, _, _, _ => by rw [infixLoop]; rintro _ _ ⟨⟩
  | n + 1, min, e, s, he => by
    rw [infixLoop]
    have hs := infixStep_yields F n min e s
    generalize infixStep F n min e s = p at hs
    cases p with
    | ok a r => exact infixLoop_yields F n min a r (hs _ _ rfl)
    | fail => exact .ok he
    | panic => rintro _ _ ⟨⟩
    | stuck => rintro _ _ ⟨⟩

theorem wordAtoms_noDeclare : ∀ x ∈ wordAtoms, NoDeclare x.2 := by
  intro x hx n ty v h
  simp only [wordAtoms, List.mem_cons, List.not_mem_nil, or_false] at hx
  rcases hx with rfl | rfl | rfl <;> cases h

open Peg.Yields in
mutual
theorem parseExpr_yields (F : FloatParse) : ∀ (n min : Nat) (s : Text), Peg.Yields NoDeclare (parseExpr F n min s)
  | 0, _, _ => by rw [parseExpr]; rintro _ _ ⟨⟩
  | n + 1, min, s => by
    rw [parseExpr]
    exact bind fun e r h => infixLoop_yields F n min e r (parseAtom_yields F n s e r h)
theorem parseAtom_yields (F : FloatParse) : ∀ (n : Nat) (s : Text), Peg.Yields NoDeclare (parseAtom F n s)
  | 0, _ => by rw [parseAtom]; rintro _ _ ⟨⟩
  | n + 1, s => by
    rw [parseAtom]
    refine orElse (first fun b _ => ?_) (orElse ?_ (orElse ?_ (orElse ?_ (orElse (first fun x hx => ?_) (orElse ?_
      (orElse ?_ (orElse ?_ ?_)))))))
    · exact andThen fun _ _ => andThen fun _ _ => ok (by rintro _ _ _ ⟨⟩)
    · exact andThen fun _ _ => andThen fun _ _ => andThen fun _ _ => andThen fun _ _ => ok (by rintro _ _ _ ⟨⟩)
    · exact andThen fun _ _ => andThen fun _ _ => andThen fun _ _ => ok (by rintro _ _ _ ⟨⟩)
    · exact andThen fun _ r => bind fun e r' h => andThen fun _ _ => ok (parseExpr_yields F n 0 _ e r' h)
    · exact andThen fun _ _ => ok (wordAtoms_noDeclare x hx)
    · exact andThen fun _ _ => andThen fun _ _ => andThen fun _ _ => andThen fun _ _ => ok (by rintro _ _ _ ⟨⟩)
    · exact andThen fun _ _ => ok (by rintro _ _ _ ⟨⟩)
    · exact andThen fun _ _ => andThen fun _ _ => andThen fun _ _ => andThen fun _ _ => ok (by rintro _ _ _ ⟨⟩)
    · exact andThen fun _ _ => ok (by rintro _ _ _ ⟨⟩)
end

open Peg.Yields in
theorem parseStmt_yields (F : FloatParse) : ∀ (n : Nat) (s : Text), Peg.Yields DeclaresIdent (parseStmt F n s)
  | 0, _ => by rw [parseStmt]; rintro _ _ ⟨⟩
  | n + 1, s => by
    rw [parseStmt]
    refine orElse ?_ (orElse ?_ (orElse ?_ (orElse ?_ (orElse ?_ (orElse ?_ (orElse ?_ ?_))))))
    · exact andThen fun _ _ => andThen fun _ _ => andThen fun _ _ => ok (by rintro _ _ _ ⟨⟩)
    · exact andThen fun _ _ => andThen fun _ _ => andThen fun _ _ => andThen fun _ _ => andThen fun _ _ => ok (by rintro _ _ _ ⟨⟩)
    · cases n with
      | zero => rw [parseIf]; rintro _ _ ⟨⟩
      | succ n =>
        rw [parseIf]
        exact andThen fun _ _ => andThen fun _ _ => andThen fun _ _ => andThen fun _ _ => ok (by rintro _ _ _ ⟨⟩)
    · exact andThen fun _ _ => andThen fun _ _ => andThen fun _ _ => andThen fun _ _ => andThen fun _ _ => andThen fun _ _ =>
        ok (by rintro _ _ _ ⟨⟩)
    · exact andThen fun _ _ => andThen fun _ _ => andThen fun _ _ => ok (by rintro _ _ _ ⟨⟩)
    · exact andThen fun _ _ => andThen fun _ _ => ok (by rintro _ _ _ ⟨⟩)
    · refine andThen fun _ r => bind fun x r' hx => andThen fun _ _ => andThen fun _ _ => andThen fun _ _ => ok ?_
      rintro n ty v ⟨⟩
      exact ident_yields _ _ _ hx
    · exact bind fun e r h => andThen fun _ _ => ok (parseExpr_yields F n 0 s e r h).ident

/-- The names that a block declares are identifiers. -/
theorem parseBlock_yields (F : FloatParse) (n : Nat) (s : Text) :
    Peg.Yields (fun es => ∀ e ∈ es, DeclaresIdent e) (parseBlock F n s) := by
  cases n with
  | zero => rw [parseBlock]; rintro _ _ ⟨⟩
  | succ n =>
    rw [parseBlock]
    refine .andThen fun _ r => .bind fun es r' h => .andThen fun _ _ => .ok ?_
    cases n with
    | zero => rw [parseSeq] at h; cases h
    | succ n =>
      rw [parseSeq] at h
      exact Peg.Yields.sepBy (parseStmt_yields F n) _ _ es r' h

end Redscript
