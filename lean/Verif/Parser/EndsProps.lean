import Verif.Parser.Steps

/-!
# Reading a text always comes to an end (C68)

The rules of the model are given a number of steps and answer `stuck` when it is used up. For a text of `l`
characters `4 * l` steps are enough for the whole module, so the parser has no loop that takes nothing from the text
and no recursion that comes back to the same place. With more steps the answer is the same, so it is the answer of the
parser, which counts no steps.

Only escape sequences that are not the number of a character crash it, wherever they stand in the module (C54).
-/

namespace Redscript

open Peg (Ends Below)

/-- The characters of a string are read to the end: the bound on their number does not cut the string. -/
theorem stringContents_enough : ∀ (n : Nat) (s : Text), s.length ≤ n → stringContentsUpTo n s = stringContents s := by
  have key : ∀ (n m : Nat) (s : Text), s.length ≤ n → s.length ≤ m → stringContentsUpTo n s = stringContentsUpTo m s := by
    intro n
    induction n with
    | zero =>
      intro m s h h'
      have : s = [] := List.length_eq_zero_iff.1 (by omega)
      subst this
      cases m <;> rfl
    | succ n ih =>
      intro m s h h'
      cases m with
      | zero =>
        have : s = [] := List.length_eq_zero_iff.1 (by omega)
        subst this
        rfl
      | succ m =>
        rw [stringContentsUpTo, stringContentsUpTo]
        cases hc : escapedChar s with
        | ok c r =>
          obtain ⟨p, rfl, hp⟩ := escapedChar_ok hc
          have := List.length_pos_iff.2 hp
          rw [List.length_append] at h h'
          simp only
          rw [ih m r (by omega) (by omega)]
        | _ => rfl
  exact fun n s h => key _ _ _ h (Nat.le_refl _)

theorem enough {f : Nat → Peg α} {k : Nat} (h : ∀ n, Below (f n) (f (n + 1))) (hk : f k ≠ .stuck) {n : Nat} (hn : f n ≠ .stuck) :
    f n = f k := by
  rcases Nat.le_total n k with h' | h'
  · exact (Below.steps h h').resolve_left hn
  · exact ((Below.steps h h').resolve_left hk).symm

section
variable (F : FloatParse) (s : Text)

/-- The rule for a module, given four steps for each character (compiler/src/parser.rs:345-347). -/
def readModule : Peg SourceModule := moduleRule F (4 * s.length) s

/-- **C68** Reading a module comes to an end: with four steps for each character the steps are not used up. -/
theorem C68_reading_a_module_ends {n : Nat} (hn : 4 * s.length ≤ n) : moduleRule F n s ≠ .stuck :=
  fun h => (moduleRule_ends (E := 4 * s.length ≤ n) s id).stuck h hn

/-- **C68** The answer does not depend on the number of steps: any answer that is reached is the answer of the parser. -/
theorem C68_the_answer_is_the_same {n : Nat} (h : moduleRule F n s ≠ .stuck) : moduleRule F n s = readModule F s :=
  enough (f := fun n => moduleRule F n s) (fun n => moduleRule_grows n s) (C68_reading_a_module_ends F s (Nat.le_refl _)) h

/-- **C68** Every text that has no bad escape sequence is read or rejected. -/
theorem C68_every_text_is_read_or_rejected (h : ¬ HasBadEscape s) : (∃ m r, readModule F s = .ok m r) ∨ readModule F s = .fail := by
  have h1 := C68_reading_a_module_ends F s (Nat.le_refl _)
  have h2 := (moduleRule_ends (E := True) (F := F) (n := 4 * s.length) s fun _ => Nat.le_refl _).panic
  unfold readModule
  cases hm : moduleRule F (4 * s.length) s with
  | ok m r => exact .inl ⟨m, r, rfl⟩
  | fail => exact .inr rfl
  | panic => exact absurd (h2 hm) h
  | stuck => exact absurd hm h1

/-- **C68** What is left behind a module is the end of the text, so nothing is read twice or put in. -/
theorem C68_what_is_left_is_the_end_of_the_text {m : SourceModule} {r : Text} (h : readModule F s = .ok m r) : ∃ c, s = c ++ r := by
  obtain ⟨c, hc, _⟩ := (moduleRule_ends (E := True) (F := F) (n := 4 * s.length) s fun _ => Nat.le_refl _).ok _ _ h
  exact ⟨c, hc⟩

/-- **C68** Whether a text is a module, and which, is the same for all numbers of steps that are enough. -/
theorem C68_parsing_is_settled {n : Nat} (hn : 4 * s.length ≤ n) : parseModule F n s = parseModule F (4 * s.length) s := by
  unfold parseModule
  rw [C68_the_answer_is_the_same F s (C68_reading_a_module_ends F s hn)]
  rfl

/-- **C68** Reading an expression comes to an end, takes at least a character when there is one, and its answer does not
depend on the number of steps. -/
theorem C68_reading_an_expression_ends {n : Nat} (hn : 4 * s.length + 2 ≤ n) (min : Nat) :
    parseExpr F n min s ≠ .stuck ∧ parseExpr F n min s = parseExpr F (4 * s.length + 2) min s ∧
    ∀ x r, parseExpr F n min s = .ok x r → ∃ c, s = c ++ r ∧ c ≠ [] := by
  have h : ∀ n, 4 * s.length + 2 ≤ n → parseExpr F n min s ≠ .stuck := fun n hn h => ((exprs_end F n).expr min s).stuck h hn
  refine ⟨h n hn, enough (f := fun n => parseExpr F n min s) (fun n => (exprs_grow F n).expr min s) (h _ (Nat.le_refl _)) (h n hn),
    fun x r hx => ?_⟩
  obtain ⟨c, hc, hl⟩ := ((exprs_end F n).expr min s).ok _ _ hx
  exact ⟨c, hc, by rintro rfl; exact absurd hl (by decide)⟩

/-- **C68** Reading statements comes to an end, and the answer does not depend on the number of steps. -/
theorem C68_reading_statements_ends {n : Nat} (hn : 4 * s.length + 4 ≤ n) :
    parseSeq F n s ≠ .stuck ∧ parseSeq F n s = parseSeq F (4 * s.length + 4) s := by
  have h : ∀ n, 4 * s.length + 4 ≤ n → parseSeq F n s ≠ .stuck := fun n hn h => ((stmts_end (F := F) n).seq s).stuck h hn
  exact ⟨h n hn, enough (f := fun n => parseSeq F n s) (fun n => (stmts_grow F n).seq s) (h _ (Nat.le_refl _)) (h n hn)⟩

/-- **C54** The parser crashes on a module only when there is an escape sequence in it that is not the number of a
character. -/
theorem C54_modules_crash_only_at_bad_escapes_partial (h : readModule F s = .panic) : HasBadEscape s :=
  (moduleRule_ends (E := True) (F := F) (n := 4 * s.length) s fun _ => Nat.le_refl _).panic h

end

/-! ### Cases -/

namespace EndsDemo

def floats : FloatParse := ⟨fun _ => none, fun _ => none⟩

theorem is_ok {p : Peg SourceModule} (h : (match p with | .ok m _ => decide (m.entries.length = 1) | _ => false) = true) :
    ∃ m r, p = .ok m r ∧ m.entries.length = 1 := by
  cases p with
  | ok m r => exact ⟨m, r, rfl, of_decide_eq_true h⟩
  | _ => cases h

theorem is_panic {p : Peg α} (h : (match p with | .panic => true | _ => false) = true) : p = .panic := by
  cases p with
  | panic => rfl
  | _ => cases h

theorem is_stuck {p : Peg α} (h : (match p with | .stuck => true | _ => false) = true) : p = .stuck := by
  cases p with
  | stuck => rfl
  | _ => cases h

/-- A module that is read: the answer after a few steps is the answer of the parser. -/
example : ∃ m r, readModule floats "import c.* func f() { }".toList = .ok m r ∧ m.entries.length = 1 := by
  obtain ⟨m, r, hm, hl⟩ := is_ok (p := moduleRule floats 16 "import c.* func f() { }".toList) (by decide +kernel)
  exact ⟨m, r, (C68_the_answer_is_the_same _ _ (by rw [hm]; nofun)).symm.trans hm, hl⟩

/-- Too few steps are noticed, so the bound says something. -/
example : moduleRule floats 3 "func f() { }".toList = .stuck := is_stuck (by decide +kernel)

/-- A crash inside a module. -/
example : readModule floats "func f() { g(\"\\u{d800}\"); }".toList = .panic := by
  have hm := is_panic (p := moduleRule floats 16 "func f() { g(\"\\u{d800}\"); }".toList) (by decide +kernel)
  exact (C68_the_answer_is_the_same _ _ (by rw [hm]; nofun)).symm.trans hm

end EndsDemo

/-- A repetition of something that can be empty uses up any number of steps. There is none in the grammar. -/
example (s : Text) : ∀ n, sepMore (fun t => .ok () t) (fun t => .ok () t) n s = .stuck
  | 0 => rfl
  | n + 1 => by
    have ih : sepMore (fun t => .ok () t) (fun t => .ok () t) n s = .stuck := by
      induction n with
      | zero => rfl
      | succ n ih => rw [sepMore]; simp only [Peg.bind, ih]
    rw [sepMore]
    simp only [Peg.bind, ih]

end Redscript
