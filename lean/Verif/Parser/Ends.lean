import Verif.Parser.ExprProps

/-!
# The rules of the parser come to an end

What a rule takes is the front of its text. It panics only on escape sequences that are no characters, and with
enough steps it is not stuck: four for each character, and a few.
-/

namespace Redscript

/-- The outcome of a rule at a text: what it takes is at least `k` characters at the front, it panics only on
escape sequences that are no characters, and it is not stuck under the condition. -/
structure Peg.Ends (E : Prop) (k : Nat) (s : Text) (p : Peg α) : Prop where
  ok : ∀ a r, p = .ok a r → ∃ c, s = c ++ r ∧ k ≤ c.length
  panic : p = .panic → HasBadEscape s
  stuck : p = .stuck → ¬E

namespace Peg.Ends

variable {E E' : Prop} {k j : Nat} {s : Text}

theorem fail : Ends E k s (.fail : Peg α) := ⟨nofun, nofun, nofun⟩

theorem done {a : α} {r c : Text} (h : s = c ++ r) (hk : k ≤ c.length) : Ends E k s (.ok a r) :=
  ⟨by rintro _ _ ⟨⟩; exact ⟨c, h, hk⟩, nofun, nofun⟩

theorem here {a : α} : Ends E 0 s (.ok a s) := done (c := []) rfl (Nat.le_refl _)

theorem used {p : Peg α} (h : p = .stuck) (hE : ¬E) : Ends E k s p := by
  subst h
  exact ⟨nofun, nofun, fun _ => hE⟩

theorem given {p : Peg α} (h : Ends E' k s p) (hE : E → E') : Ends E k s p := ⟨h.ok, h.panic, fun hs he => h.stuck hs (hE he)⟩

theorem less {p : Peg α} (h : Ends E k s p) (hk : j ≤ k) : Ends E j s p :=
  ⟨fun a r hp => by obtain ⟨c, hc, hl⟩ := h.ok a r hp; exact ⟨c, hc, Nat.le_trans hk hl⟩, h.panic, h.stuck⟩

theorem any {p : Peg α} (h : Ends E k s p) : Ends E 0 s p := h.less (Nat.zero_le _)

theorem prepend {c : Text} {p : Peg α} (h : Ends E k s p) : Ends E (c.length + k) (c ++ s) p where
  ok a r hp := by
    obtain ⟨d, hd, hl⟩ := h.ok a r hp
    exact ⟨c ++ d, by rw [hd, List.append_assoc], by rw [List.length_append]; omega⟩
  panic hp := (h.panic hp).prepend c
  stuck := h.stuck

/-- What comes behind takes `j` more. -/
theorem both {p : Peg α} {f : α → Text → Peg β} (h : Ends E k s p)
    (hf : ∀ a r, r.length + k ≤ s.length → Ends E j r (f a r)) : Ends E (k + j) s (p.bind f) := by
  cases p with
  | fail => exact .fail
  | panic => exact ⟨nofun, fun _ => h.panic rfl, nofun⟩
  | stuck => exact .used rfl (h.stuck rfl)
  | ok a r =>
    obtain ⟨c, rfl, hl⟩ := h.ok a r rfl
    exact ((hf a r (by rw [List.length_append]; omega)).prepend).less (by omega)

/-- The first rule takes what has to be taken. -/
theorem bind {p : Peg α} {f : α → Text → Peg β} (h : Ends E k s p)
    (hf : ∀ a r, r.length + k ≤ s.length → Ends E 0 r (f a r)) : Ends E k s (p.bind f) := h.both hf

/-- What comes behind takes what has to be taken. -/
theorem next {p : Peg α} {f : α → Text → Peg β} (h : Ends E j s p)
    (hf : ∀ a r, r.length + j ≤ s.length → Ends E k r (f a r)) : Ends E k s (p.bind f) := (h.both hf).less (by omega)

theorem orElse {p : Peg α} {q : Unit → Peg α} (h : Ends E k s p) (hq : Ends E k s (q ())) : Ends E k s (p.orElse q) := by
  cases p with
  | fail => exact hq
  | _ => exact h

theorem opt {p : Peg α} (h : Ends E 0 s p) : Ends E 0 s (p.opt s) := by
  cases p with
  | fail => exact .here
  | panic => exact ⟨nofun, fun _ => h.panic rfl, nofun⟩
  | stuck => exact .used rfl (h.stuck rfl)
  | ok a r =>
    obtain ⟨c, rfl, hl⟩ := h.ok a r rfl
    exact .done rfl hl

theorem first {l : List β} {f : β → Peg α} (h : ∀ b ∈ l, Ends E k s (f b)) : Ends E k s (firstOk l f) := by
  induction l with
  | nil => exact .fail
  | cons b l ih => exact .orElse (h b (by simp)) (ih fun b hb => h b (by simp [hb]))

end Peg.Ends

open Peg (Ends)

variable {E : Prop}

/-! ### Blanks -/

theorem closeComments_rest {s : Text} {d : Nat} : ∀ {r : Text}, closeComments d s = some r → ∃ c, s = c ++ r := by
  induction d, s using closeComments.induct with
  | case1 s => intro r h; rw [closeComments] at h; cases h; exact ⟨[], rfl⟩
  | case2 d s ih =>
    intro r h; rw [closeComments] at h
    obtain ⟨c, hc⟩ := ih h
    exact ⟨'/' :: '*' :: c, by rw [hc]; rfl⟩
  | case3 d s ih =>
    intro r h; rw [closeComments] at h
    obtain ⟨c, hc⟩ := ih h
    exact ⟨'*' :: '/' :: c, by rw [hc]; rfl⟩
  | case4 d c s h1 h2 ih =>
    intro r h
    rw [closeComments_any (fun s' he => by cases he; exact h1 _ rfl rfl) (fun s' he => by cases he; exact h2 _ rfl rfl)] at h
    obtain ⟨c', hc⟩ := ih h
    exact ⟨c :: c', by rw [hc]; rfl⟩
  | case5 d => intro r h; cases h

theorem blank_rest {s r : Text} (h : blank s = some r) : ∃ c, s = c ++ r := by
  unfold blank at h
  split at h
  iterate 4 (· cases h; exact ⟨[_], rfl⟩)
  split at h
  · rename_i hc
    cases h
    by_cases hs : ∃ t, s = '/' :: '*' :: t
    · obtain ⟨t, rfl⟩ := hs
      rw [C47_comments_nest] at hc
      obtain ⟨c, hc⟩ := closeComments_rest hc
      exact ⟨'/' :: '*' :: c, by rw [hc]; rfl⟩
    · rw [comment_none fun t ht => hs ⟨t, ht⟩] at hc
      cases hc
  · unfold lineComment at h
    split at h
    · rename_i t _ _ _ _ _
      cases h
      exact ⟨'/' :: '/' :: t.takeWhile (· ≠ '\n'), by
        rw [List.cons_append, List.cons_append, List.takeWhile_append_dropWhile]⟩
    · cases h

theorem blanksUpTo_rest : ∀ (n : Nat) (s : Text), ∃ c, s = c ++ blanksUpTo n s
  | 0, s => ⟨[], rfl⟩
  | n + 1, s => by
    rw [blanksUpTo]
    split
    · rename_i r h
      obtain ⟨c, rfl⟩ := blank_rest h
      obtain ⟨d, hd⟩ := blanksUpTo_rest n r
      exact ⟨c ++ d, by rw [List.append_assoc, ← hd]⟩
    · exact ⟨[], rfl⟩

theorem blanks_rest (s : Text) : ∃ c, s = c ++ blanks s := blanksUpTo_rest _ s

theorem blanks_length (s : Text) : (blanks s).length ≤ s.length := by
  obtain ⟨c, hc⟩ := blanks_rest s
  conv => rhs; rw [hc, List.length_append]
  omega

/-- A rule behind blanks. -/
theorem Peg.Ends.skip {p : Peg α} {k : Nat} {s : Text} (h : Ends E k (blanks s) p) : Ends E k s p := by
  obtain ⟨c, hc⟩ := blanks_rest s
  rw [hc]
  exact h.prepend.less (by omega)

theorem Peg.Ends.skipped {s : Text} {a : α} : Ends E 0 s (.ok a (blanks s)) := .skip .here

/-! ### Words and literals -/

theorem lit_ends (t s : Text) : Ends E t.length s (lit t s) := by
  unfold lit
  split
  · rename_i r h
    exact .done (litRule_ok h) (Nat.le_refl _)
  · exact .fail

theorem kw_ends (t s : Text) : Ends E t.length s (kw t s) := by
  unfold kw
  split
  · rename_i r h
    exact .done (keyword_ok h).1 (Nat.le_refl _)
  · exact .fail

theorem identRule_ends (s : Text) : Ends E 1 s (identRule s) := by
  unfold identRule
  split
  · rename_i c t
    split
    · exact .done (c := c :: t.takeWhile isIdentChar) (by simp [List.takeWhile_append_dropWhile]) (by simp)
    · exact .fail
  · exact .fail

theorem stringContents_ends (s : Text) : Ends E 0 s (stringContents s) where
  ok a r h := by
    obtain ⟨c, hc⟩ := stringContentsUpTo_ok _ h
    exact ⟨c, hc, Nat.zero_le _⟩
  panic h := stringContentsUpTo_panic _ _ h
  stuck h := by
    have : ∀ n s, stringContentsUpTo n s ≠ .stuck := by
      intro n
      induction n with
      | zero => intro s h; cases h
      | succ n ih =>
        intro s h
        rw [stringContentsUpTo] at h
        split at h
        · cases h
        · cases h
        · rename_i hs
          unfold escapedChar at hs
          repeat' split at hs
          all_goals try cases hs
          unfold unicodeEscape at hs
          repeat' split at hs
          all_goals cases hs
        · split at h
          · cases h
          · exact ih _ h
    exact absurd h (this _ _)

theorem numberRule_ends (F : FloatParse) (s : Text) : Ends E 1 s (numberRule F s) := by
  unfold numberRule
  have h1 : ∃ a, s = a ++ (optChar '-' s).2 := by
    unfold optChar
    split
    · split
      · exact ⟨[_], rfl⟩
      · exact ⟨[], rfl⟩
    · exact ⟨[], rfl⟩
  have h2 : ∀ s, ∃ a, s = a ++ (optChar 'u' s).2 := by
    intro s
    unfold optChar
    split
    · split
      · exact ⟨[_], rfl⟩
      · exact ⟨[], rfl⟩
    · exact ⟨[], rfl⟩
  have h3 : ∀ s, ∃ a, s = a ++ (numPostfix s).2 := by
    intro s
    unfold numPostfix
    split
    · exact ⟨[_], rfl⟩
    · exact ⟨[_], rfl⟩
    · exact ⟨[], rfl⟩
  obtain ⟨a, h1⟩ := h1
  obtain ⟨b, h2⟩ := h2 ((optChar '-' s).2.dropWhile isNumChar)
  obtain ⟨c, h3⟩ := h3 (optChar 'u' ((optChar '-' s).2.dropWhile isNumChar)).2
  simp only []
  split
  · exact .fail
  · rename_i hne
    split
    · refine .done (c := a ++ (optChar '-' s).2.takeWhile isNumChar ++ b ++ c) ?_ ?_
      · conv => lhs; rw [h1, ← List.takeWhile_append_dropWhile (p := isNumChar) (l := (optChar '-' s).2), h2, h3]
        simp only [List.append_assoc]
      · have := List.length_pos_iff.2 hne
        simp only [List.length_append]
        omega
    · exact .fail

theorem escapedString_ends (s : Text) : Ends E 1 s (escapedString s) := by
  unfold escapedString
  split
  · rename_i t
    have h := stringContents_ends (E := E) t
    split
    · rename_i cs r hc
      obtain ⟨c, hc, _⟩ := h.ok _ _ hc
      exact .done (c := '"' :: (c ++ ['"'])) (by simp [hc]) (by simp)
    · rename_i hc
      exact ⟨nofun, fun _ => (h.panic hc).prepend ['"'], nofun⟩
    · rename_i hc
      exact .used rfl (h.stuck hc)
    · exact .fail
  · exact .fail

theorem constantRule_ends (F : FloatParse) (s : Text) : Ends E 1 s (constantRule F s) := by
  have hp := C54_only_bad_escapes_crash_partial F s
  have hn := numberRule_ends (E := E) F s
  have he := escapedString_ends (E := E) (literalType s).2
  have hl := literalType_ok s
  suffices h : Ends E 1 s (constantRule F s) ∨ constantRule F s = .panic by
    rcases h with h | h
    · exact h
    · exact ⟨fun a r h' => (by rw [h] at h'; cases h'), hp, fun h' => (by rw [h] at h'; cases h')⟩
  unfold constantRule
  split
  · rename_i hk
    exact .inl (.done (keyword_ok hk).1 (by decide))
  split
  · rename_i hk
    exact .inl (.done (keyword_ok hk).1 (by decide))
  split
  · rename_i c r hc
    obtain ⟨t, h1, h2⟩ := hn.ok _ _ hc
    exact .inl (.done h1 h2)
  · exact .inr rfl
  · rename_i hc
    exact .inl (.used rfl (hn.stuck hc))
  · simp only []
    split
    · rename_i hc
      obtain ⟨t, h1, h2⟩ := he.ok _ _ hc
      refine .inl (.done (c := (literalType s).1.letter ++ t) ?_ (by rw [List.length_append]; omega))
      rw [List.append_assoc, ← h1]
      exact hl
    · exact .inr rfl
    · rename_i hc
      exact .inl (.used rfl (he.stuck hc))
    · exact .inl .fail

/-! ### Repetition -/

theorem sepMore_ends {sep : Text → Peg Unit} {x : Text → Peg α} {L : Nat} (hs : ∀ r, r.length ≤ L → Ends E 0 r (sep r))
    (hx : ∀ r, r.length ≤ L → Ends E 1 r (x r)) :
    ∀ (n : Nat) (s : Text), s.length ≤ L → (E → s.length + 1 ≤ n) → Ends E 0 s (sepMore sep x n s)
  | 0, s, _, hn => .used rfl fun he => by have := hn he; omega
  | n + 1, s, hl, hn => by
    have h : Ends E 1 s ((sep s).bind fun _ r => x r) := (hs s hl).next fun _ r hr => hx r (by omega)
    rw [sepMore]
    split
    · rename_i a r hb
      obtain ⟨c, rfl, hc⟩ := h.ok _ _ hb
      rw [List.length_append] at hl hn
      exact (Ends.bind (sepMore_ends hs hx n r (by omega) fun he => by have := hn he; omega) fun _ _ _ => .here).prepend.any
    · exact .here
    · rename_i hb
      exact ⟨nofun, fun _ => h.panic hb, nofun⟩
    · rename_i hb
      exact .used rfl (h.stuck hb)

theorem sepBy_ends {sep : Text → Peg Unit} {x : Text → Peg α} {n : Nat} {s : Text} (hs : ∀ r, r.length ≤ s.length → Ends E 0 r (sep r))
    (hx : ∀ r, r.length ≤ s.length → Ends E 1 r (x r)) (hn : E → s.length ≤ n) : Ends E 0 s (sepBy sep x n s) := by
  have h := hx s (Nat.le_refl _)
  unfold sepBy
  split
  · rename_i a r hb
    obtain ⟨c, he, hc⟩ := h.ok _ _ hb
    have hl : r.length + 1 ≤ s.length := by rw [he, List.length_append]; omega
    conv => arg 3; rw [he]
    exact (Ends.bind (sepMore_ends hs hx n r (by omega) fun h => by have := hn h; omega) fun _ _ _ => .here).prepend.any
  · exact .here
  · rename_i hb
    exact ⟨nofun, fun _ => h.panic hb, nofun⟩
  · rename_i hb
    exact .used rfl (h.stuck hb)

theorem commaSep_ends (s : Text) : Ends E 0 s (commaSep s) := Ends.bind (lit_ends _ s).any fun _ _ _ => .skipped

theorem blankSep_ends (s : Text) : Ends E 0 s (blankSep s) := .skipped

/-! ### Types -/

structure TypeRulesEnd (n : Nat) : Prop where
  type_ : ∀ s, Ends (4 * s.length + 1 ≤ n) 1 s (typeRule n s)
  args : ∀ s, Ends (4 * s.length + 1 ≤ n) 1 s (typeArgsRule n s)

theorem types_end : ∀ n, TypeRulesEnd n
  | 0 => ⟨fun _ => .used rfl (by omega), fun _ => .used rfl (by omega)⟩
  | n + 1 => by
    have ih := types_end n
    refine ⟨fun s => ?_, fun s => ?_⟩
    · rw [typeRule]
      exact .bind (identRule_ends s) fun _ r hr => .bind (.opt ((ih.args r).any.given (by omega))) fun _ _ _ => .here
    · rw [typeArgsRule]
      refine .bind (lit_ends ['<'] s) fun _ r hr => .skip ?_
      have hb := blanks_length r
      have hr : r.length + 1 ≤ s.length := hr
      exact .bind (sepBy_ends (fun r _ => commaSep_ends r) (fun r hr => (ih.type_ r).given (by omega)) (by omega)) fun _ r _ =>
        .skip (.bind (lit_ends ['>'] _).any fun _ _ _ => .here)

/-! ### Expressions -/

structure ExprRulesEnd (F : FloatParse) (n : Nat) : Prop where
  expr : ∀ min s, Ends (4 * s.length + 2 ≤ n) 1 s (parseExpr F n min s)
  loop : ∀ min e s, Ends (4 * s.length + 2 ≤ n) 0 s (infixLoop F n min e s)
  step : ∀ min e s, Ends (4 * s.length + 1 ≤ n) 1 s (infixStep F n min e s)
  args : ∀ s, Ends (4 * s.length + 3 ≤ n) 0 s (parseArgs F n s)
  atom : ∀ s, Ends (4 * s.length + 1 ≤ n) 1 s (parseAtom F n s)
  part : ∀ s, Ends (4 * s.length + 1 ≤ n) 1 s (parsePart F n s)

theorem assignOps_some : ∀ x ∈ assignOps, 1 ≤ x.1.length := by decide
theorem binaryOps_some : ∀ x ∈ binaryOps, 1 ≤ x.2.1.length := by decide
theorem prefixOps_some : ∀ x ∈ prefixOps, 1 ≤ x.1.length := by decide
theorem wordAtoms_some : ∀ x ∈ wordAtoms, 1 ≤ x.1.length := by
  intro x hx
  simp only [wordAtoms, List.mem_cons, List.not_mem_nil, or_false] at hx
  rcases hx with rfl | rfl | rfl <;> decide

/-- A text that is not empty, and what follows behind blanks. -/
theorem Peg.Ends.lits {t s : Text} {f : Unit → Text → Peg α} (ht : 1 ≤ t.length)
    (hf : ∀ r, r.length + 1 ≤ s.length → Ends E 0 r (f () r)) : Ends E 1 s ((lit t s).bind f) :=
  .bind ((lit_ends t s).less ht) fun _ r hr => hf r hr

theorem Peg.Ends.kws {t s : Text} {f : Unit → Text → Peg α} (ht : 1 ≤ t.length)
    (hf : ∀ r, r.length + 1 ≤ s.length → Ends E 0 r (f () r)) : Ends E 1 s ((kw t s).bind f) :=
  .bind ((kw_ends t s).less ht) fun _ r hr => hf r hr

theorem exprs_end (F : FloatParse) : ∀ n, ExprRulesEnd F n
  | 0 => ⟨fun _ _ => .used rfl (by omega), fun _ _ _ => .used rfl (by omega), fun _ _ _ => .used rfl (by omega),
      fun _ => .used rfl (by omega), fun _ => .used rfl (by omega), fun _ => .used rfl (by omega)⟩
  | n + 1 => by
    have ih := exprs_end F n
    /- an expression behind blanks, on a text that is shorter -/
    have ex : ∀ {E : Prop} (min : Nat) (r : Text), (E → 4 * r.length + 2 ≤ n) → Ends E 1 r (parseExpr F n min (blanks r)) := by
      intro E min r hE
      have := blanks_length r
      exact .skip ((ih.expr min _).given fun h => by have := hE h; omega)
    refine ⟨fun min s => ?_, fun min e s => ?_, fun min e s => ?_, fun s => ?_, fun s => ?_, fun s => ?_⟩
    · rw [parseExpr]
      exact .bind ((ih.atom s).given (by omega)) fun e r hr => (ih.loop min e r).given (by omega)
    · have h := ih.step min e s
      rw [infixLoop]
      split
      · rename_i e' r hb
        obtain ⟨c, rfl, hc⟩ := h.ok _ _ hb
        rw [List.length_append]
        exact ((ih.loop min e' r).given (by omega)).prepend.any
      · exact .here
      · rename_i hb
        exact ⟨nofun, fun _ => h.panic hb, nofun⟩
      · rename_i hb
        exact .used rfl fun he => h.stuck hb (by omega)
    · have hb := blanks_length s
      rw [infixStep]
      refine .orElse ?_ (.orElse ?_ ?_)
      · split
        · exact .fail
        · refine .orElse (.skip (.lits (by decide) fun r hr => .bind (ex 0 r (by omega)).any fun y r hr => .skip ?_))
            (.orElse (.skip (.lits (by decide) fun r hr => .bind (ex 0 r (by omega)).any fun y r hr => .here))
              (.first fun x hx => .skip (.lits (assignOps_some x hx) fun r hr =>
                .bind (ex 0 r (by omega)).any fun y r hr => .here)))
          have := blanks_length r
          exact .bind (lit_ends _ _).any fun _ r hr => .bind (ex 0 r (by omega)).any fun _ _ _ => .here
      · refine .first fun x hx => ?_
        split
        · exact .fail
        · exact .skip (.lits (binaryOps_some x hx) fun r hr => .bind (ex _ r (by omega)).any fun y r hr => .here)
      · split
        · exact .fail
        · refine .orElse (.skip (.lits (by decide) fun r hr => .bind (ex 0 r (by omega)).any fun y r hr => .skip
              (.bind (lit_ends _ _).any fun _ _ _ => .here)))
            (.orElse (.skip (.lits (by decide) fun r hr => .skip (.bind (identRule_ends _).any fun _ r' hr' => .skip
              (.bind (lit_ends _ _).any fun _ r'' hr'' => .skip ?_))))
            (.orElse (.skip (.lits (by decide) fun r hr => .skip (.bind (identRule_ends _).any fun _ _ _ => .here)))
            (.skip (.kws (by decide) fun r hr => .skip (.bind ?_ fun _ _ _ => .here)))))
          · have h1 := blanks_length r
            have h2 := blanks_length r'
            have h3 := blanks_length r''
            exact .bind ((ih.args _).given (by omega)) fun _ _ _ => .here
          · have h1 := blanks_length r
            exact ((types_end n).type_ _).any.given (by omega)
    · rw [parseArgs]
      exact .bind (sepBy_ends (fun r _ => commaSep_ends r) (fun r hr => (ih.expr 0 r).given (by omega)) (by omega)) fun _ r _ =>
        .skip (.bind (lit_ends _ _).any fun _ _ _ => .here)
    · rw [parseAtom]
      refine .orElse (.first fun x hx => .lits (prefixOps_some x hx) fun r hr => .bind (ex 11 r (by omega)).any fun _ _ _ => .here)
        (.orElse (.kws (by decide) fun r hr => .skip (.bind (identRule_ends _).any fun _ r' hr' => .skip
          (.bind (lit_ends _ _).any fun _ r'' hr'' => .skip ?_)))
        (.orElse (.lits (by decide) fun r hr => .skip ?_)
        (.orElse (.lits (by decide) fun r hr => .bind (ex 0 r (by omega)).any fun _ _ _ => .skip
          (.bind (lit_ends _ _).any fun _ _ _ => .here))
        (.orElse (.first fun x hx => .kws (wordAtoms_some x hx) fun _ _ => .here)
        (.orElse (.lits (by decide) fun r hr => .bind (stringContents_ends r) fun _ r' hr' => ?_)
        (.orElse (.bind (constantRule_ends F s) fun _ _ _ => .here)
        (.orElse (.bind (identRule_ends s) fun _ r hr => .skip ?_)
        (.bind (identRule_ends s) fun _ _ _ => .here))))))))
      · have h1 := blanks_length r
        have h2 := blanks_length r'
        have h3 := blanks_length r''
        exact .bind ((ih.args _).given (by omega)) fun _ _ _ => .here
      · have h1 := blanks_length r
        exact .bind (sepBy_ends (fun r _ => commaSep_ends r) (fun r hr => (ih.expr 0 r).given (by omega)) (by omega)) fun _ r _ =>
          .skip (.bind (lit_ends _ _).any fun _ _ _ => .here)
      · exact .bind (sepBy_ends (fun r _ => .here) (fun r hr => (ih.part r).given (by omega)) (by omega)) fun _ r _ =>
          .bind (lit_ends _ _).any fun _ _ _ => .here
      · have h1 := blanks_length r
        refine .bind (.opt (((types_end n).args _).any.given (by omega))) fun _ r' hr' => .skip
          (.bind (lit_ends _ _).any fun _ r'' hr'' => .skip ?_)
        have h2 := blanks_length r'
        have h3 := blanks_length r''
        exact .bind ((ih.args _).given (by omega)) fun _ _ _ => .here
    · rw [parsePart]
      exact .lits (by decide) fun r hr => .bind (ex 0 r (by omega)).any fun _ r hr => .skip (.bind (lit_ends _ _).any fun _ r hr =>
        .bind (stringContents_ends _) fun _ _ _ => .here)

/-! ### Statements -/

section
variable {F : FloatParse}

/-- An expression behind blanks. -/
theorem expr_skip {n : Nat} (min : Nat) (r : Text) (hE : E → 4 * r.length + 2 ≤ n) : Ends E 1 r (parseExpr F n min (blanks r)) := by
  have := blanks_length r
  exact .skip (((exprs_end F n).expr min _).given fun h => by have := hE h; omega)

/-- A type behind blanks. -/
theorem type_skip {n : Nat} (r : Text) (hE : E → 4 * r.length + 1 ≤ n) : Ends E 1 r (typeRule n (blanks r)) := by
  have := blanks_length r
  exact .skip (((types_end n).type_ _).given fun h => by have := hE h; omega)

theorem letType_ends {n : Nat} (s : Text) (hE : E → 4 * s.length + 1 ≤ n) : Ends E 1 s (letType n s) :=
  .lits (by decide) fun r hr => (type_skip r fun h => by have := hE h; omega).any

theorem initializer_ends {n : Nat} (s : Text) (hE : E → 4 * s.length + 1 ≤ n) : Ends E 1 s (initializer F n s) :=
  .lits (by decide) fun r hr => (expr_skip 0 r fun h => by have := hE h; omega).any

theorem letRule_ends {n : Nat} (s : Text) (hE : E → 4 * s.length + 1 ≤ n) : Ends E 1 s (letRule F n s) := by
  refine .kws (by decide) fun r hr => .skip (.bind (identRule_ends _).any fun _ r' hr' => .skip ?_)
  have h1 := blanks_length r
  have h2 := blanks_length r'
  refine .bind (.opt (letType_ends _ fun h => ?_).any) fun _ r3 h3 => .skip ?_
  · have := hE h
    omega
  · have h4 := blanks_length r3
    refine .bind (.opt (initializer_ends _ fun h => ?_).any) fun _ _ _ => .skip (.bind (lit_ends _ _).any fun _ _ _ => .here)
    have := hE h
    omega

theorem optSemicolon_ends {a : α} (s : Text) : Ends E 0 s (.ok a (optSemicolon s)) := by
  obtain ⟨c, hc⟩ := blanks_rest s
  unfold optSemicolon
  split
  · rename_i r h
    exact .done (c := c ++ [';']) (by rw [List.append_assoc]; rw [h] at hc; exact hc) (Nat.zero_le _)
  · exact .done hc (Nat.zero_le _)

structure StmtRulesEnd (F : FloatParse) (n : Nat) : Prop where
  stmt : ∀ s, Ends (4 * s.length + 3 ≤ n) 1 s (parseStmt F n s)
  if_ : ∀ s, Ends (4 * s.length + 1 ≤ n) 1 s (parseIf F n s)
  block : ∀ s, Ends (4 * s.length + 1 ≤ n) 1 s (parseBlock F n s)
  seq : ∀ s, Ends (4 * s.length + 4 ≤ n) 0 s (parseSeq F n s)
  case_ : ∀ s, Ends (4 * s.length + 1 ≤ n) 1 s (parseCase F n s)

theorem stmts_end : ∀ n, StmtRulesEnd F n
  | 0 => ⟨fun _ => .used rfl (by omega), fun _ => .used rfl (by omega), fun _ => .used rfl (by omega),
      fun _ => .used rfl (by omega), fun _ => .used rfl (by omega)⟩
  | n + 1 => by
    have ih := stmts_end n
    have bl : ∀ {E : Prop} (r : Text), (E → 4 * r.length + 1 ≤ n) → Ends E 1 r (parseBlock F n (blanks r)) := by
      intro E r hE
      have := blanks_length r
      exact .skip ((ih.block _).given fun h => by have := hE h; omega)
    refine ⟨fun s => ?_, fun s => ?_, fun s => ?_, fun s => ?_, fun s => ?_⟩
    · rw [parseStmt]
      refine .orElse (.kws (by decide) fun r hr => .bind (expr_skip 0 r (by omega)).any fun _ r hr =>
          .bind (bl r (by omega)).any fun _ _ _ => optSemicolon_ends _)
        (.orElse (.kws (by decide) fun r hr => .skip (.bind (identRule_ends _).any fun _ r' hr' => .skip
          (.bind (kw_ends _ _).any fun _ r'' hr'' => ?_)))
        (.orElse ((ih.if_ s).given (by omega))
        (.orElse (.kws (by decide) fun r hr => .bind (expr_skip 0 r (by omega)).any fun _ r' hr' => .skip
          (.bind (lit_ends _ _).any fun _ r'' hr'' => .skip ?_))
        (.orElse (.kws (by decide) fun r hr => .skip (.bind ?_ fun _ _ _ => .skip (.bind (lit_ends _ _).any fun _ _ _ => .here)))
        (.orElse (.kws (by decide) fun r hr => .skip (.bind (lit_ends _ _).any fun _ _ _ => .here))
        (.orElse (letRule_ends s (by omega))
        (.bind (((exprs_end F n).expr 0 s).given (by omega)) fun _ _ _ => .skip (.bind (lit_ends _ _).any fun _ _ _ => .here))))))))
      · have h1 := blanks_length r
        have h2 := blanks_length r'
        exact .bind (expr_skip 0 r'' (by omega)).any fun _ r hr => .bind (bl r (by omega)).any fun _ _ _ => optSemicolon_ends _
      · have h1 := blanks_length r'
        have h2 := blanks_length r''
        refine .bind (sepBy_ends (fun r _ => blankSep_ends r) (fun r hr => (ih.case_ r).given (by omega)) (by omega)) fun _ r3 h3 =>
          .skip (.bind (.opt (.bind (kw_ends _ _).any fun _ r4 h4 => .skip (.next (lit_ends [':'] _) fun _ r5 h5 => .skip ?_)))
            fun _ _ _ => .skip (.bind (lit_ends _ _).any fun _ _ _ => optSemicolon_ends _))
        have h6 := blanks_length r3
        have h7 := blanks_length r4
        have h8 := blanks_length r5
        have h5 : r5.length + 1 ≤ (blanks r4).length := h5
        exact (ih.seq _).given (by omega)
      · have h1 := blanks_length r
        exact .opt (((exprs_end F n).expr 0 _).any.given (by omega))
    · rw [parseIf]
      refine .kws (by decide) fun r hr => .bind (expr_skip 0 r (by omega)).any fun _ r hr => .bind (bl r (by omega)).any fun _ r' hr' =>
        .skip (.bind (.opt (.orElse (.bind (kw_ends _ _).any fun _ r hr => ?_)
          (.bind (kw_ends _ _).any fun _ r hr => .skip ?_))) fun _ _ _ => optSemicolon_ends _)
      · have h1 := blanks_length r'
        exact (bl r (by omega)).any
      · have h1 := blanks_length r'
        have h2 := blanks_length r
        exact .bind ((ih.if_ _).any.given (by omega)) fun _ _ _ => .here
    · rw [parseBlock]
      refine .lits (by decide) fun r hr => .skip ?_
      have h1 := blanks_length r
      exact .bind ((ih.seq _).given (by omega)) fun _ _ _ => .skip (.bind (lit_ends _ _).any fun _ _ _ => .here)
    · rw [parseSeq]
      exact sepBy_ends (fun r _ => blankSep_ends r) (fun r hr => (ih.stmt r).given (by omega)) (by omega)
    · rw [parseCase]
      refine .kws (by decide) fun r hr => .bind (expr_skip 0 r (by omega)).any fun _ r' hr' => .skip
        (.bind (lit_ends _ _).any fun _ r'' hr'' => .skip ?_)
      have h1 := blanks_length r'
      have h2 := blanks_length r''
      exact .bind ((ih.seq _).given (by omega)) fun _ _ _ => .here

end

end Redscript
