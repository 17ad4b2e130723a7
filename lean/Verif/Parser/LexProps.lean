import Verif.Parser.LexModel

/-!
# Comments, strings and numbers (C40, C47, C48)
-/

namespace Redscript

/-! ### Comments (C47) -/

/-- Specification: the text behind the marker that closes the `depth`-th of the open comments. The text is
read from left to right, counting the comments that are open. -/
def closeComments : Nat → Text → Option Text
  | 0, s => some s
  | depth + 1, '/' :: '*' :: s => closeComments (depth + 2) s
  | depth + 1, '*' :: '/' :: s => closeComments depth s
  | depth + 1, _ :: s => closeComments (depth + 1) s
  | _ + 1, [] => none

theorem closeComments_length : ∀ {s : Text} {d : Nat} {r : Text}, closeComments d s = some r → r.length ≤ s.length := by
  intro s d
  induction d, s using closeComments.induct with
  | case1 s => intro r h; rw [closeComments] at h; cases h; exact Nat.le_refl _
  | case2 d s ih => intro r h; rw [closeComments] at h; have := ih h; simp only [List.length_cons]; omega
  | case3 d s ih => intro r h; rw [closeComments] at h; have := ih h; simp only [List.length_cons]; omega
  | case4 d c s h1 h2 ih =>
    intro r h
    rw [closeComments] at h
    · have := ih h; simp only [List.length_cons]; omega
    · exact h1
    · exact h2
  | case5 d => intro r h; rw [closeComments] at h; cases h

/-- Closing the innermost comment first. -/
theorem closeComments_succ : ∀ (s : Text) (d : Nat),
    closeComments (d + 1) s = (closeComments 1 s).bind (closeComments d) := by
  suffices h : ∀ (n : Nat) (s : Text), s.length ≤ n → ∀ d,
      closeComments (d + 1) s = (closeComments 1 s).bind (closeComments d) from
    fun s d => h _ s (Nat.le_refl _) d
  intro n
  induction n with
  | zero =>
    intro s h d
    cases s with
    | nil => rfl
    | cons => simp at h
  | succ n ih =>
    intro s hs d
    match s with
    | [] => rfl
    | [c] => simp [closeComments]
    | a :: b :: s =>
      by_cases h1 : a = '/' ∧ b = '*'
      · obtain ⟨rfl, rfl⟩ := h1
        simp only [closeComments]
        simp only [List.length_cons] at hs
        rw [ih s (by omega) (d + 1), ih s (by omega) 1]
        cases hr : closeComments 1 s with
        | none => rfl
        | some r =>
          have := closeComments_length hr
          simp only [Option.bind_some]
          exact ih r (by omega) d
      · by_cases h2 : a = '*' ∧ b = '/'
        · obtain ⟨rfl, rfl⟩ := h2
          simp [closeComments]
        · have e : ∀ d, closeComments (d + 1) (a :: b :: s) = closeComments (d + 1) (b :: s) := by
            intro d
            rw [closeComments]
            · rintro s' rfl h; cases h; exact h1 ⟨rfl, rfl⟩
            · rintro s' rfl h; cases h; exact h2 ⟨rfl, rfl⟩
          rw [e, e 0]
          simp only [List.length_cons] at hs
          exact ih (b :: s) (by simp only [List.length_cons]; omega) d

theorem commentRule_other {fuel : Nat} {s : Text} (h : ∀ s', s ≠ '/' :: '*' :: s') : commentRule fuel s = none := by
  rw [commentRule.eq_def]
  split
  · exact absurd rfl (h _)
  · rfl

theorem commentContent_open (fuel : Nat) (s : Text) :
    commentContent (fuel + 2) ('/' :: '*' :: s) = commentContents fuel s := by
  rw [commentContent.eq_def]
  simp only [commentRule]
  cases commentContents fuel s <;> rfl

theorem commentContent_close (fuel : Nat) (s : Text) : commentContent (fuel + 1) ('*' :: '/' :: s) = none := by
  rw [commentContent.eq_def]
  simp only []
  rw [commentRule_other (by rintro s' ⟨⟩)]

theorem commentContent_any {fuel : Nat} {c : Char} {s : Text} (h1 : ∀ s', c :: s ≠ '/' :: '*' :: s')
    (h2 : ∀ s', c :: s ≠ '*' :: '/' :: s') : commentContent (fuel + 1) (c :: s) = some s := by
  rw [commentContent.eq_def]
  simp only []
  rw [commentRule_other h1]
  simp only []
  split
  · rename_i h; exact absurd h (h1 _)
  · rename_i h; exact absurd h (h2 _)
  · rename_i h; cases h; rfl
  · rename_i h; cases h

theorem commentContents_some {fuel : Nat} {s r : Text} (h : commentContent fuel s = some r) :
    commentContents (fuel + 1) s = commentContents fuel r := by
  rw [commentContents.eq_def]
  simp only [h]

theorem commentContents_none {fuel : Nat} {s : Text} (h : commentContent fuel s = none)
    (h2 : ∀ s', s ≠ '*' :: '/' :: s') : commentContents (fuel + 1) s = none := by
  rw [commentContents.eq_def]
  simp only [h]

theorem closeComments_any {d : Nat} {c : Char} {s : Text} (h1 : ∀ s', c :: s ≠ '/' :: '*' :: s')
    (h2 : ∀ s', c :: s ≠ '*' :: '/' :: s') : closeComments (d + 1) (c :: s) = closeComments (d + 1) s := by
  rw [closeComments]
  · rintro s' rfl rfl; exact h1 _ rfl
  · rintro s' rfl rfl; exact h2 _ rfl

theorem commentContents_eq : ∀ (n : Nat) (s : Text), s.length ≤ n → ∀ fuel, 3 * s.length + 2 ≤ fuel →
    commentContents fuel s = closeComments 1 s := by
  intro n
  induction n with
  | zero =>
    intro s h fuel hf
    cases s with
    | nil =>
      obtain ⟨f, rfl⟩ : ∃ f, fuel = f + 2 := ⟨fuel - 2, by omega⟩
      rw [commentContents_none _ (by rintro s' ⟨⟩)]
      · rfl
      · rw [commentContent.eq_def]
        simp only []
        rw [commentRule_other (by rintro s' ⟨⟩)]
    | cons => simp at h
  | succ n ih =>
    intro s hs fuel hf
    cases s with
    | nil => exact ih [] (by simp) fuel hf
    | cons a t =>
      simp only [List.length_cons] at hf hs
      obtain ⟨f, rfl⟩ : ∃ f, fuel = f + 3 := ⟨fuel - 3, by omega⟩
      by_cases h1 : ∃ s', a :: t = '/' :: '*' :: s'
      · obtain ⟨s', h⟩ := h1
        cases h
        simp only [List.length_cons] at hf hs
        rw [show closeComments 1 ('/' :: '*' :: s') = closeComments 2 s' from rfl, closeComments_succ]
        have he := ih s' (by omega) f (by omega)
        cases hr : closeComments 1 s' with
        | none => rw [commentContents_none (by rw [commentContent_open, he, hr]) (by rintro s' ⟨⟩)]; rfl
        | some r =>
          have := closeComments_length hr
          rw [commentContents_some (by rw [commentContent_open, he, hr])]
          exact ih r (by omega) _ (by omega)
      · by_cases h2 : ∃ s', a :: t = '*' :: '/' :: s'
        · obtain ⟨s', h⟩ := h2
          cases h
          rw [commentContents.eq_def]
          simp [commentContent_close, closeComments]
        · have h1' := fun s' h => h1 ⟨s', h⟩
          have h2' := fun s' h => h2 ⟨s', h⟩
          rw [commentContents_some (commentContent_any h1' h2'), closeComments_any h1' h2']
          exact ih t (by omega) _ (by omega)

/-- C47: a block comment ends behind the closing marker that balances its opening marker; without one it is
not a comment. -/
theorem C47_comments_nest (s : Text) : comment ('/' :: '*' :: s) = closeComments 1 s := by
  unfold comment
  simp only [List.length_cons]
  rw [show 3 * (s.length + 1 + 1) + 3 = (3 * s.length + 8) + 1 by omega, commentRule.eq_def]
  exact commentContents_eq _ s (Nat.le_refl _) _ (by omega)

theorem comment_length {s r : Text} (h : comment s = some r) : r.length < s.length := by
  by_cases hs : ∃ s', s = '/' :: '*' :: s'
  · obtain ⟨s', rfl⟩ := hs
    rw [C47_comments_nest] at h
    have := closeComments_length h
    simp only [List.length_cons]
    omega
  · unfold comment at h
    rw [commentRule_other (fun s' h => hs ⟨s', h⟩)] at h
    cases h

theorem dropWhile_length (p : Char → Bool) (s : Text) : (s.dropWhile p).length ≤ s.length :=
  (List.dropWhile_sublist p).length_le

theorem lineComment_length {s r : Text} (h : lineComment s = some r) : r.length < s.length := by
  unfold lineComment at h
  split at h
  · rename_i s'
    cases h
    have := dropWhile_length (· ≠ '\n') s'
    simp only [List.length_cons]
    omega
  · cases h

theorem blank_length {s r : Text} (h : blank s = some r) : r.length < s.length := by
  unfold blank at h
  split at h
  · cases h; simp
  · cases h; simp
  · cases h; simp
  · cases h; simp
  · split at h
    · rename_i hc; cases h; exact comment_length hc
    · exact lineComment_length h

theorem blanksUpTo_enough : ∀ (n : Nat) (s : Text), s.length ≤ n → ∀ m, s.length ≤ m → blanksUpTo m s = blanksUpTo n s := by
  intro n
  induction n with
  | zero =>
    intro s hn m _
    cases s with
    | nil => cases m <;> rfl
    | cons => simp at hn
  | succ n ih =>
    intro s hn m hm
    cases m with
    | zero =>
      cases s with
      | nil => rfl
      | cons => simp at hm
    | succ m =>
      rw [blanksUpTo, blanksUpTo]
      cases hb : blank s with
      | none => rfl
      | some r =>
        have := blank_length hb
        exact ih r (by omega) m (by omega)

theorem blanks_step {s r : Text} (h : blank s = some r) : blanks s = blanks r := by
  have hl := blank_length h
  unfold blanks
  obtain ⟨n, hn⟩ : ∃ n, s.length = n + 1 := ⟨s.length - 1, by omega⟩
  rw [hn, blanksUpTo, h]
  exact blanksUpTo_enough _ r (by omega) _ (by omega)

theorem blanks_stop {s : Text} (h : blank s = none) : blanks s = s := by
  unfold blanks
  cases s with
  | nil => rfl
  | cons c s => rw [List.length_cons, blanksUpTo, h]

/-- C47: the text behind a comment is read as if the comment were absent. -/
theorem C47_comments_are_blank {s r : Text} (h : closeComments 1 s = some r) :
    blanks ('/' :: '*' :: s) = blanks r := by
  refine blanks_step ?_
  show (match comment ('/' :: '*' :: s) with
      | some r => some r
      | none => lineComment ('/' :: '*' :: s)) = some r
  rw [C47_comments_nest, h]

/-- Two comments, one in the other, with markers that share a character. -/
example : blanks " /* a /* b **/ / */ // c\n x".toList = "x".toList := by decide +kernel

example : comment "/* /* */ x".toList = none := by decide +kernel

/-! ### Strings (C40) -/

theorem isHex_cases {n : Nat} (h : n < 16) : isHex n.digitChar = true ∧ digitVal n.digitChar = n := by
  have : n = 0 ∨ n = 1 ∨ n = 2 ∨ n = 3 ∨ n = 4 ∨ n = 5 ∨ n = 6 ∨ n = 7 ∨ n = 8 ∨ n = 9 ∨ n = 10 ∨ n = 11 ∨ n = 12 ∨
    n = 13 ∨ n = 14 ∨ n = 15 := by omega
  rcases this with rfl | rfl | rfl | rfl | rfl | rfl | rfl | rfl | rfl | rfl | rfl | rfl | rfl | rfl | rfl | rfl <;>
    decide

theorem isDec_cases {n : Nat} (h : n < 10) : isDec n.digitChar = true ∧ digitVal n.digitChar = n := by
  refine ⟨?_, (isHex_cases (by omega)).2⟩
  have : n = 0 ∨ n = 1 ∨ n = 2 ∨ n = 3 ∨ n = 4 ∨ n = 5 ∨ n = 6 ∨ n = 7 ∨ n = 8 ∨ n = 9 := by omega
  rcases this with rfl | rfl | rfl | rfl | rfl | rfl | rfl | rfl | rfl | rfl <;> decide

theorem digitsVal_snoc (b : Nat) (ds : Text) (c : Char) : digitsVal b (ds ++ [c]) = digitsVal b ds * b + digitVal c := by
  simp [digitsVal, List.foldl_append]

theorem digitsOf_spec {b : Nat} (hb : 2 ≤ b) (hb' : b ≤ 16) (n : Nat) :
    digitsVal b (digitsOf b n) = n ∧ digitsOf b n ≠ [] ∧ (∀ c ∈ digitsOf b n, ∃ d < b, c = d.digitChar) ∧
    ∀ k, 0 < k → n < b ^ k → (digitsOf b n).length ≤ k := by
  induction n using Nat.strongRecOn with
  | ind n ih =>
    rw [digitsOf]
    by_cases h : n < b
    · rw [dif_pos (.inl h)]
      refine ⟨?_, by simp, ?_, ?_⟩
      · simp [digitsVal, (isHex_cases (n := n) (by omega)).2]
      · intro c hc
        rw [List.mem_singleton] at hc
        exact ⟨n, h, hc⟩
      · intro k hk _
        rw [List.length_singleton]; omega
    · rw [dif_neg (by omega)]
      obtain ⟨h1, h2, h3, h4⟩ := ih (n / b) (Nat.div_lt_self (by omega) (by omega))
      have hm : n % b < b := Nat.mod_lt _ (by omega)
      refine ⟨?_, by simp, ?_, ?_⟩
      · rw [digitsVal_snoc, h1, (isHex_cases (n := n % b) (by omega)).2]
        rw [Nat.mul_comm]
        exact Nat.div_add_mod n b
      · intro c hc
        rcases List.mem_append.1 hc with hc | hc
        · exact h3 c hc
        · rw [List.mem_singleton] at hc
          exact ⟨_, hm, hc⟩
      · intro k hk hn
        rw [List.length_append, List.length_singleton]
        obtain ⟨k, rfl⟩ : ∃ j, k = j + 1 := ⟨k - 1, by omega⟩
        have hk0 : 0 < k := by
          rcases Nat.eq_zero_or_pos k with rfl | h0
          · simp at hn; omega
          · exact h0
        have := h4 k hk0 (by
          rw [Nat.pow_succ] at hn
          exact Nat.div_lt_of_lt_mul (by rw [Nat.mul_comm]; exact hn))
        omega

theorem takeHex_append {n : Nat} {ds r : Text} (h : ∀ c ∈ ds, isHex c = true) (hl : ds.length ≤ n)
    (hr : ∀ c, r.head? = some c → isHex c = false) : takeHex n (ds ++ r) = (ds, r) := by
  induction ds generalizing n with
  | nil =>
    cases r with
    | nil => cases n <;> rfl
    | cons c r =>
      cases n with
      | zero => rfl
      | succ n =>
        rw [List.nil_append, takeHex, hr c rfl]
        simp
  | cons c ds ih =>
    simp only [List.length_cons] at hl
    obtain ⟨m, rfl⟩ : ∃ m, n = m + 1 := ⟨n - 1, by omega⟩
    rw [List.cons_append, takeHex, if_pos (h c (by simp)), ih (fun c hc => h c (by simp [hc])) (by omega)]

theorem charFromU32_toNat (c : Char) : charFromU32 c.toNat = some c := by
  have hv : c.val.toNat < 0xD800 ∨ (0xDFFF < c.val.toNat ∧ c.val.toNat < 0x110000) := c.valid
  have hn : c.toNat = c.val.toNat := rfl
  unfold charFromU32
  rw [dif_pos (by rw [hn]; exact hv)]
  congr 1

theorem escapedChar_escape (c : Char) (r : Text) : escapedChar (escapeChar c ++ r) = .ok c r := by
  unfold escapeChar
  split
  · rename_i h; subst h; rfl
  split
  · rename_i h; subst h; rfl
  split
  · rename_i h; subst h; rfl
  split
  · rename_i h; rcases h with rfl | rfl | rfl <;> rfl
  rename_i h1 h2 h3 h4
  split
  · rename_i h
    rw [List.cons_append, List.nil_append, escapedChar.eq_def]
    split
    all_goals first
      | (rename_i he; cases he; exact absurd (Or.inr (Or.inr rfl)) h4)
      | skip
    · rename_i he
      cases he
      rw [if_neg]
      rintro (rfl | rfl)
      · exact h4 (.inr (.inr rfl))
      · exact h4 (.inr (.inl rfl))
    · rename_i he; cases he
  · obtain ⟨k1, k2, k3, k4⟩ := digitsOf_spec (b := 16) (by omega) (by omega) c.toNat
    have hlt : c.toNat < 16 ^ 6 := by
      have hv : c.val.toNat < 0xD800 ∨ (0xDFFF < c.val.toNat ∧ c.val.toNat < 0x110000) := c.valid
      have hn : c.toNat = c.val.toNat := rfl
      omega
    have e : "\\u{".toList ++ digitsOf 16 c.toNat ++ ['}'] ++ r = '\\' :: 'u' :: '{' :: (digitsOf 16 c.toNat ++ '}' :: r) := by
      simp
    rw [e]
    show unicodeEscape _ = _
    unfold unicodeEscape
    rw [takeHex_append (fun c hc => by obtain ⟨d, hd, rfl⟩ := k3 c hc; exact (isHex_cases hd).1) (k4 6 (by omega) hlt)
      (by intro c hc; simp only [List.head?_cons, Option.some.injEq] at hc; subst hc; decide)]
    split
    · rename_i he; simp only [Prod.mk.injEq] at he; exact absurd he.1 k2
    · rename_i he
      simp only [Prod.mk.injEq, List.cons.injEq, true_and] at he
      obtain ⟨rfl, rfl⟩ := he
      rw [k1, charFromU32_toNat]
    · rename_i he1 he2
      exact absurd rfl (he2 _ _)

theorem stringContentsUpTo_escape (s : Text) (r : Text) (hr : escapedChar r = .fail) :
    ∀ n, s.length < n → stringContentsUpTo n (escapeText s ++ r) = .ok s r := by
  induction s with
  | nil =>
    intro n hn
    obtain ⟨m, rfl⟩ : ∃ m, n = m + 1 := ⟨n - 1, by omega⟩
    show stringContentsUpTo (m + 1) r = _
    rw [stringContentsUpTo, hr]
  | cons c s ih =>
    intro n hn
    simp only [List.length_cons] at hn
    obtain ⟨m, rfl⟩ : ∃ m, n = m + 1 := ⟨n - 1, by omega⟩
    rw [show escapeText (c :: s) ++ r = escapeChar c ++ (escapeText s ++ r) by simp [escapeText], stringContentsUpTo,
      escapedChar_escape]
    simp only []
    rw [ih m (by omega)]

theorem escapeChar_length (c : Char) : 1 ≤ (escapeChar c).length := by
  unfold escapeChar
  repeat' split
  all_goals simp

theorem escapeText_length (s : Text) : s.length ≤ (escapeText s).length := by
  induction s with
  | nil => simp
  | cons c s ih =>
    have := escapeChar_length c
    rw [show escapeText (c :: s) = escapeChar c ++ escapeText s by simp [escapeText]]
    simp only [List.length_cons, List.length_append]
    omega

/-- C40: a string in quotes, printed, is read back as the same string, whatever follows. -/
theorem C40_strings_read_back (s rest : Text) : escapedString ('"' :: escapeText s ++ '"' :: rest) = .ok s rest := by
  have := escapeText_length s
  have h : stringContents (escapeText s ++ '"' :: rest) = .ok s ('"' :: rest) := by
    unfold stringContents
    exact stringContentsUpTo_escape s _ rfl _ (by simp only [List.length_append, List.length_cons]; omega)
  show escapedString ('"' :: (escapeText s ++ '"' :: rest)) = _
  unfold escapedString
  simp only [h]

theorem numberRule_fail {F : FloatParse} {c : Char} {s : Text} (h : isNumChar c = false) (h2 : c ≠ '-') :
    numberRule F (c :: s) = .fail := by
  unfold numberRule
  have : optChar '-' (c :: s) = (false, c :: s) := by
    rw [optChar, if_neg (Ne.symm h2)]
  rw [this]
  simp [h]

theorem keyword_fail {k s : Text} (h : litRule k s = none) : keyword k s = none := by
  unfold keyword
  rw [h]

theorem literalType_quote (s : Text) : literalType ('"' :: s) = (.String, '"' :: s) := rfl

theorem constant_string (F : FloatParse) (l : Literal) (p s rest : Text)
    (hp : (l, p) ∈ [(Literal.String, []), (.Name, ['n']), (.Resource, ['r']), (.TweakDbId, ['t'])]) :
    constantRule F (p ++ '"' :: (escapeText s ++ '"' :: rest)) = .ok (.String l s) rest := by
  have h := C40_strings_read_back s rest
  rw [List.cons_append] at h
  simp only [List.mem_cons, Prod.mk.injEq, List.not_mem_nil, or_false] at hp
  unfold constantRule
  rcases hp with ⟨rfl, rfl⟩ | ⟨rfl, rfl⟩ | ⟨rfl, rfl⟩ | ⟨rfl, rfl⟩
  · rw [keyword_fail (by rfl), keyword_fail (by rfl)]
    simp only [List.nil_append]
    rw [numberRule_fail (by decide) (by decide)]
    simp only [literalType_quote, h]
  · rw [keyword_fail (by rfl), keyword_fail (by rfl)]
    simp only [List.singleton_append]
    rw [numberRule_fail (by decide) (by decide)]
    simp only [literalType, h]
  · rw [keyword_fail (by rfl), keyword_fail (by rfl)]
    simp only [List.singleton_append]
    rw [numberRule_fail (by decide) (by decide)]
    simp only [literalType, h]
  · rw [keyword_fail (by rfl), keyword_fail (by rfl)]
    simp only [List.singleton_append]
    rw [numberRule_fail (by decide) (by decide)]
    simp only [literalType, h]

/-- C40: a string, name, resource or TweakDB constant, printed, is read back as the same constant, whatever
text follows. -/
theorem C40_string_constants_read_back (F : FloatParse) (P : FloatShow) (l : Literal) (s rest : Text) :
    constantRule F (printConstant P (.String l s) ++ rest) = .ok (.String l s) rest := by
  cases l <;> simp only [printConstant, List.cons_append, List.append_assoc, List.nil_append]
  · exact constant_string F _ [] s rest (by simp)
  · exact constant_string F _ ['n'] s rest (by simp)
  · exact constant_string F _ ['r'] s rest (by simp)
  · exact constant_string F _ ['t'] s rest (by simp)

/-- Quotes, a backslash, control characters and characters beyond ASCII and beyond sixteen bits. -/
example : escapeText "a\"\\\n\x00é€😀".toList = "a\\\"\\\\\\n\\u{0}\\u{e9}\\u{20ac}\\u{1f600}".toList := by
  simp only [escapeText]
  decide +kernel

/-- The text of a string literal that makes the parser panic, see C54. -/
theorem C54_surrogate_escape_counterexample (F : FloatParse) : constantRule F "\"\\u{d800}\"".toList = .panic := by
  unfold constantRule
  rw [keyword_fail (by rfl), keyword_fail (by rfl)]
  simp only []
  rw [show "\"\\u{d800}\"".toList = '"' :: "\\u{d800}\"".toList by rfl, numberRule_fail (by decide) (by decide)]
  have : escapedString ('"' :: "\\u{d800}\"".toList) = .panic := by decide +kernel
  simp only [literalType_quote, this]

/-- Specification: an escape sequence in the text whose digits are not the number of a character. -/
def HasBadEscape (s : Text) : Prop :=
  ∃ before ds after, s = before ++ '\\' :: 'u' :: '{' :: (ds ++ '}' :: after) ∧ ds ≠ [] ∧ ds.length ≤ 6 ∧
    (∀ c ∈ ds, isHex c = true) ∧ ∀ c : Char, c.toNat ≠ digitsVal 16 ds

theorem takeHex_spec : ∀ (n : Nat) (s : Text), (takeHex n s).1 ++ (takeHex n s).2 = s ∧
    (∀ c ∈ (takeHex n s).1, isHex c = true) ∧ (takeHex n s).1.length ≤ n
  | 0, s => by simp [takeHex]
  | n + 1, [] => by simp [takeHex]
  | n + 1, c :: s => by
    rw [takeHex]
    split
    · rename_i hc
      obtain ⟨h1, h2, h3⟩ := takeHex_spec n s
      refine ⟨by simp [h1], ?_, by simp [h3]⟩
      intro d hd
      rcases List.mem_cons.1 hd with rfl | hd
      · exact hc
      · exact h2 d hd
    · simp

theorem unicodeEscape_panic {s : Text} (h : unicodeEscape s = .panic) : HasBadEscape ('\\' :: 'u' :: '{' :: s) := by
  unfold unicodeEscape at h
  obtain ⟨h1, h2, h3⟩ := takeHex_spec 6 s
  split at h
  · cases h
  · rename_i ds r hne he
    rw [he] at h1 h2 h3
    split at h
    · cases h
    · rename_i hc
      refine ⟨[], ds, r, by rw [← h1]; rfl, ?_, h3, h2, ?_⟩
      · rintro rfl
        exact hne rfl
      · intro c hcd
        rw [← hcd, charFromU32_toNat] at hc
        cases hc
  · cases h

theorem escapedChar_ok {s r : Text} {c : Char} (h : escapedChar s = .ok c r) : ∃ p, s = p ++ r ∧ p ≠ [] := by
  have hu : ∀ s, unicodeEscape s = .ok c r → ∃ p, s = p ++ r := by
    intro s h
    unfold unicodeEscape at h
    obtain ⟨h1, _, _⟩ := takeHex_spec 6 s
    split at h
    · cases h
    · rename_i ds r' _ he
      rw [he] at h1
      split at h <;> cases h
      exact ⟨ds ++ ['}'], by rw [← h1]; simp⟩
    · cases h
  rw [escapedChar.eq_def] at h
  split at h
  · cases h; exact ⟨['\\', 'n'], rfl, by simp⟩
  · cases h; exact ⟨['\\', 'r'], rfl, by simp⟩
  · cases h; exact ⟨['\\', 't'], rfl, by simp⟩
  · cases h; exact ⟨['\\', '\''], rfl, by simp⟩
  · cases h; exact ⟨['\\', '"'], rfl, by simp⟩
  · cases h; exact ⟨['\\', '\\'], rfl, by simp⟩
  · obtain ⟨p, rfl⟩ := hu _ h
    exact ⟨'\\' :: 'u' :: '{' :: p, rfl, by simp⟩
  · split at h <;> cases h
    exact ⟨[c], rfl, by simp⟩
  · cases h

theorem escapedChar_panic {s : Text} (h : escapedChar s = .panic) : HasBadEscape s := by
  rw [escapedChar.eq_def] at h
  split at h
  all_goals first
    | (cases h; done)
    | (exact unicodeEscape_panic h)
    | (split at h <;> cases h)

theorem HasBadEscape.prepend {s : Text} (h : HasBadEscape s) (p : Text) : HasBadEscape (p ++ s) := by
  obtain ⟨b, ds, a, rfl, h⟩ := h
  exact ⟨p ++ b, ds, a, by simp, h⟩

theorem stringContentsUpTo_panic : ∀ (n : Nat) (s : Text), stringContentsUpTo n s = .panic → HasBadEscape s
  | 0, s, h => by cases h
  | n + 1, s, h => by
    rw [stringContentsUpTo] at h
    split at h
    · cases h
    · rename_i hc; exact escapedChar_panic hc
    · cases h
    · rename_i c r hc
      obtain ⟨p, rfl, _⟩ := escapedChar_ok hc
      split at h
      · cases h
      · exact (stringContentsUpTo_panic n r h).prepend p

theorem escapedString_panic {s : Text} (h : escapedString s = .panic) : HasBadEscape s := by
  unfold escapedString at h
  split at h
  · split at h
    · cases h
    · rename_i hc
      exact (stringContentsUpTo_panic _ _ hc).prepend ['"']
    · cases h
    · cases h
  · cases h

theorem numberRule_no_panic (F : FloatParse) (s : Text) : numberRule F s ≠ .panic := by
  unfold numberRule
  simp only []
  split
  · simp
  · split <;> simp

/-- C54: reading a constant crashes the compiler only on an escape sequence that is not the number of a
character. -/
theorem C54_only_bad_escapes_crash_partial (F : FloatParse) (s : Text) (h : constantRule F s = .panic) :
    HasBadEscape s := by
  unfold constantRule at h
  split at h
  · cases h
  split at h
  · cases h
  split at h
  · cases h
  · rename_i hn; exact absurd hn (numberRule_no_panic F s)
  · cases h
  · have key : ∀ (l : Literal) (s' p : Text), s = p ++ s' → literalType s = (l, s') → HasBadEscape s := by
      intro l s' p hs he
      simp only [he] at h
      split at h
      · cases h
      · rename_i hc
        rw [hs]
        exact (escapedString_panic hc).prepend p
      · cases h
      · cases h
    cases s with
    | nil => exact key .String [] [] rfl rfl
    | cons c s =>
      by_cases h1 : c = 'n'
      · subst h1; exact key .Name s ['n'] rfl rfl
      by_cases h2 : c = 'r'
      · subst h2; exact key .Resource s ['r'] rfl rfl
      by_cases h3 : c = 't'
      · subst h3; exact key .TweakDbId s ['t'] rfl rfl
      refine key .String (c :: s) [] rfl ?_
      rw [literalType]
      · rintro s' ⟨⟩; exact h1 rfl
      · rintro s' ⟨⟩; exact h2 rfl
      · rintro s' ⟨⟩; exact h3 rfl

/-! ### Numbers (C48) -/

/-- Specification: the integer types, with their suffixes in source text. -/
inductive IntType where
  | i32 | i64 | u32 | u64

def IntType.suffix : IntType → Text
  | .i32 => []
  | .i64 => ['l']
  | .u32 => ['u']
  | .u64 => ['u', 'l']

def IntType.signed : IntType → Bool
  | .i32 | .i64 => true
  | .u32 | .u64 => false

/-- The value fits the type. -/
def IntType.fits (v : Int) : IntType → Prop
  | .i32 => -2 ^ 31 ≤ v ∧ v < 2 ^ 31
  | .i64 => -2 ^ 63 ≤ v ∧ v < 2 ^ 63
  | .u32 => 0 ≤ v ∧ v < 2 ^ 32
  | .u64 => 0 ≤ v ∧ v < 2 ^ 64

instance (v : Int) (t : IntType) : Decidable (t.fits v) := by
  cases t <;> exact inferInstanceAs (Decidable (_ ∧ _))

/-- The constant with a value. -/
def IntType.constant (v : Int) : IntType → Constant
  | .i32 => .I32 (BitVec.ofInt 32 v)
  | .i64 => .I64 (BitVec.ofInt 64 v)
  | .u32 => .U32 (BitVec.ofInt 32 v)
  | .u64 => .U64 (BitVec.ofInt 64 v)

/-- A number ends before this text: it does not start with a letter, a digit, an underscore or a dot. -/
def EndsNumber (rest : Text) : Prop := ∀ c, rest.head? = some c → isIdentChar c = false ∧ c ≠ '.'

theorem takeWhile_all {p : Char → Bool} {ds r : Text} (h : ∀ c ∈ ds, p c = true) (hr : ∀ c, r.head? = some c → p c = false) :
    (ds ++ r).takeWhile p = ds ∧ (ds ++ r).dropWhile p = r := by
  induction ds with
  | nil =>
    cases r with
    | nil => simp
    | cons c r => simp [hr c rfl]
  | cons c ds ih =>
    have hc := h c (by simp)
    obtain ⟨h1, h2⟩ := ih (fun c hc => h c (by simp [hc]))
    simp [hc, h1, h2]

theorem isDec_isNum {c : Char} (h : isDec c = true) : isNumChar c = true := by simp [isNumChar, h]

/-- What follows the digits. -/
theorem suffix_read (t : IntType) {rest : Text} (h : EndsNumber rest) :
    (∀ c, (t.suffix ++ rest).head? = some c → isNumChar c = false) ∧
    optChar 'u' (t.suffix ++ rest) = (!t.signed, (match t with | .i64 => 'l' :: rest | .u64 => 'l' :: rest | _ => rest)) ∧
    numPostfix (match t with | .i64 => 'l' :: rest | .u64 => 'l' :: rest | _ => rest) =
      ((match t with | .i64 => some 'l' | .u64 => some 'l' | _ => none), rest) := by
  have h1 : ∀ c, rest.head? = some c → isNumChar c = false := by
    intro c hc
    obtain ⟨k1, k2⟩ := h c hc
    simp only [isIdentChar, Bool.or_eq_false_iff] at k1
    simp [isNumChar, k1.1, k2]
  have h2 : optChar 'u' rest = (false, rest) := by
    cases rest with
    | nil => rfl
    | cons c r =>
      rw [optChar, if_neg]
      rintro rfl
      exact absurd (h 'u' rfl).1 (by decide)
  have h3 : numPostfix rest = (none, rest) := by
    cases rest with
    | nil => rfl
    | cons c r =>
      rw [numPostfix]
      · rintro r' ⟨⟩; exact absurd (h 'l' rfl).1 (by decide)
      · rintro r' ⟨⟩; exact absurd (h 'd' rfl).1 (by decide)
  cases t
  · exact ⟨h1, h2, h3⟩
  · exact ⟨by intro c hc; cases hc; decide, rfl, rfl⟩
  · exact ⟨by intro c hc; cases hc; decide, rfl, h3⟩
  · exact ⟨by intro c hc; cases hc; decide, rfl, rfl⟩

theorem no_dot {ds : Text} (hd : ∀ c ∈ ds, isDec c = true) : ds.contains '.' = false := by
  cases h : ds.contains '.' with
  | false => rfl
  | true =>
    rw [List.contains_iff_mem] at h
    exact absurd (hd _ h) (by decide)

/-- The value written by an optional minus and digits. -/
def writtenInt (minus : Bool) (ds : Text) : Int := if minus then -(digitsVal 10 ds : Int) else digitsVal 10 ds

theorem numberValue_int (F : FloatParse) (t : IntType) (minus : Bool) {ds : Text} (hne : ds ≠ [])
    (hd : ∀ c ∈ ds, isDec c = true) :
    numberValue F (if minus then '-' :: ds else ds) (!t.signed) (match t with | .i64 => some 'l' | .u64 => some 'l' | _ => none) =
      if t.fits (writtenInt minus ds) ∧ (minus = true → t.signed = true) then some (t.constant (writtenInt minus ds)) else none := by
  have hall : ds.all isDec = true := by simpa using hd
  have hdot : (if minus = true then '-' :: ds else ds).contains '.' = false := by
    cases minus
    · exact no_dot hd
    · simp only [if_true, List.contains_cons, no_dot hd]; decide
  have hnm : ∀ ds', ds ≠ '-' :: ds' := by
    rintro ds' rfl
    exact absurd (hd '-' (by simp)) (by decide)
  have hu : ∀ w, parseUnsigned w ds = if digitsVal 10 ds < 2 ^ w then some (BitVec.ofNat w (digitsVal 10 ds)) else none := by
    intro w; unfold parseUnsigned; simp [hne, hall]
  have hum : ∀ w, parseUnsigned w ('-' :: ds) = none := by
    intro w; unfold parseUnsigned; simp [show isDec '-' = false by decide]
  have hs : ∀ w, parseSigned w ds = if digitsVal 10 ds < 2 ^ (w - 1) then some (BitVec.ofNat w (digitsVal 10 ds)) else none := by
    intro w
    unfold parseSigned
    split
    · exact absurd rfl (hnm _)
    · simp [hne, hall]
  have hsm : ∀ w, parseSigned w ('-' :: ds) = if digitsVal 10 ds ≤ 2 ^ (w - 1) then some (BitVec.ofInt w (-(digitsVal 10 ds : Int))) else none := by
    intro w; unfold parseSigned; simp [hne, hall]
  unfold numberValue
  rw [hdot]
  cases t <;> cases minus <;>
    simp only [IntType.signed, writtenInt, IntType.fits, IntType.constant, Bool.not_true, Bool.not_false, if_true,
      Bool.false_eq_true, if_false, and_true, and_false, reduceCtorEq, hs, hsm, hu, hum, Option.map_none, false_imp_iff,
      true_imp_iff, Option.some.injEq, Char.reduceEq, BitVec.ofInt_natCast]
  all_goals
    clear hs hsm hu hum hdot
    generalize digitsVal 10 ds = n
    split <;> rename_i h1 <;> split <;> rename_i h2 <;> first | rfl | (exfalso; omega)

/-- What the rule for numbers makes of an integer literal. -/
theorem number_literal (F : FloatParse) (t : IntType) (minus : Bool) {ds rest : Text} (hne : ds ≠ [])
    (hd : ∀ c ∈ ds, isDec c = true) (hr : EndsNumber rest) :
    numberRule F ((if minus then '-' :: ds else ds) ++ (t.suffix ++ rest)) =
      if t.fits (writtenInt minus ds) ∧ (minus = true → t.signed = true) then .ok (t.constant (writtenInt minus ds)) rest
      else .fail := by
  obtain ⟨h1, h2, h3⟩ := suffix_read t hr
  obtain ⟨k1, k2⟩ := takeWhile_all (p := isNumChar) (fun c hc => isDec_isNum (hd c hc)) h1
  have ho : optChar '-' ((if minus then '-' :: ds else ds) ++ (t.suffix ++ rest)) = (minus, ds ++ (t.suffix ++ rest)) := by
    cases minus
    · cases ds with
      | nil => exact absurd rfl hne
      | cons c ds =>
        show optChar '-' (c :: _) = _
        rw [optChar, if_neg]
        · rfl
        · rintro rfl; exact absurd (hd '-' (by simp)) (by decide)
    · rfl
  unfold numberRule
  rw [ho]
  simp only []
  rw [k1, k2, if_neg hne, h2]
  simp only []
  rw [h3]
  simp only []
  rw [numberValue_int F t minus hne hd]
  split
  · rename_i c hc
    split at hc <;> cases hc
    rename_i h; rw [if_pos h]
  · rename_i hc
    split at hc
    · cases hc
    · rename_i h; rw [if_neg h]

/-- C48: an integer literal denotes the value of its digits in the type given by its suffix. It is rejected
when that value does not fit the type, and when it is unsigned and has a minus. -/
theorem C48_integer_literals (F : FloatParse) (t : IntType) (minus : Bool) {ds rest : Text} (hne : ds ≠ [])
    (hd : ∀ c ∈ ds, isDec c = true) (hr : EndsNumber rest) :
    constantRule F ((if minus then '-' :: ds else ds) ++ (t.suffix ++ rest)) =
      if t.fits (writtenInt minus ds) ∧ (minus = true → t.signed = true) then .ok (t.constant (writtenInt minus ds)) rest
      else .fail := by
  have hnum := number_literal F t minus hne hd hr
  obtain ⟨c, s', hcs, hc⟩ : ∃ c s', (if minus then '-' :: ds else ds) ++ (t.suffix ++ rest) = c :: s' ∧ (isDec c = true ∨ c = '-') := by
    cases minus
    · cases ds with
      | nil => exact absurd rfl hne
      | cons c ds => exact ⟨c, _, rfl, .inl (hd c (by simp))⟩
    · exact ⟨'-', _, rfl, .inr rfl⟩
  rw [hcs] at hnum ⊢
  have hneq : ∀ d : Char, isDec d = false → d ≠ '-' → c ≠ d := by
    rintro d hd1 hd2 rfl
    rcases hc with hc | hc
    · rw [hd1] at hc; cases hc
    · exact hd2 hc
  have hk : ∀ d ks, isDec d = false → d ≠ '-' → keyword (d :: ks) (c :: s') = none := by
    intro d ks h1 h2
    apply keyword_fail
    rw [litRule, if_neg (Ne.symm (hneq d h1 h2))]
  unfold constantRule
  rw [show "true".toList = 't' :: "rue".toList from rfl, hk _ _ (by decide) (by decide),
    show "false".toList = 'f' :: "alse".toList from rfl, hk _ _ (by decide) (by decide)]
  simp only []
  by_cases hfit : t.fits (writtenInt minus ds) ∧ (minus = true → t.signed = true)
  · rw [if_pos hfit] at hnum ⊢
    rw [hnum]
  · rw [if_neg hfit] at hnum ⊢
    rw [hnum]
    · have hl : literalType (c :: s') = (.String, c :: s') := by
        rw [literalType]
        · rintro _ ⟨⟩; exact hneq 'n' (by decide) (by decide) rfl
        · rintro _ ⟨⟩; exact hneq 'r' (by decide) (by decide) rfl
        · rintro _ ⟨⟩; exact hneq 't' (by decide) (by decide) rfl
      rw [hl]
      have he : escapedString (c :: s') = .fail := by
        rw [escapedString]
        rintro _ ⟨⟩; exact hneq '"' (by decide) (by decide) rfl
      simp only [he]

theorem digitsOf_dec (n : Nat) : digitsOf 10 n ≠ [] ∧ (∀ c ∈ digitsOf 10 n, isDec c = true) ∧ digitsVal 10 (digitsOf 10 n) = n := by
  obtain ⟨h1, h2, h3, _⟩ := digitsOf_spec (b := 10) (by omega) (by omega) n
  exact ⟨h2, fun c hc => by obtain ⟨d, hd, rfl⟩ := h3 c hc; exact (isDec_cases hd).1, h1⟩

theorem showInt_eq (v : Int) : showInt v = (if decide (v < 0) then '-' :: digitsOf 10 v.natAbs else digitsOf 10 v.natAbs) ∧
    writtenInt (decide (v < 0)) (digitsOf 10 v.natAbs) = v := by
  obtain ⟨_, _, h⟩ := digitsOf_dec v.natAbs
  constructor
  · unfold showInt; by_cases hv : v < 0 <;> simp [hv]
  · unfold writtenInt
    rw [h]
    by_cases hv : v < 0 <;> simp [hv] <;> omega

/-- C48: a signed constant, an unsigned 32-bit constant and a truth value, printed, are read back as the same
constant. Not so for unsigned 64-bit constants, see below; floats are printed with two decimals. -/
theorem C48_integers_read_back_partial (F : FloatParse) (P : FloatShow) (c : Constant)
    (hc : (∃ v, c = .I32 v) ∨ (∃ v, c = .I64 v) ∨ (∃ v, c = .U32 v) ∨ ∃ b, c = .Bool b) {rest : Text}
    (hr : EndsNumber rest) : constantRule F (printConstant P c ++ rest) = .ok c rest := by
  rcases hc with ⟨v, rfl⟩ | ⟨v, rfl⟩ | ⟨v, rfl⟩ | ⟨b, rfl⟩
  · obtain ⟨h1, h2⟩ := showInt_eq v.toInt
    obtain ⟨k1, k2, _⟩ := digitsOf_dec v.toInt.natAbs
    have := C48_integer_literals F .i32 (decide (v.toInt < 0)) k1 k2 hr
    rw [h2] at this
    show constantRule F (showInt v.toInt ++ rest) = _
    rw [h1]
    refine this.trans ?_
    rw [if_pos ⟨by
      have a := BitVec.toInt_lt (x := v); have b := BitVec.le_toInt v
      simp only [IntType.fits]; omega, fun _ => rfl⟩]
    simp [IntType.constant]
  · obtain ⟨h1, h2⟩ := showInt_eq v.toInt
    obtain ⟨k1, k2, _⟩ := digitsOf_dec v.toInt.natAbs
    have := C48_integer_literals F .i64 (decide (v.toInt < 0)) k1 k2 hr
    rw [h2] at this
    show constantRule F (showInt v.toInt ++ ['l'] ++ rest) = _
    rw [h1, List.append_assoc]
    refine this.trans ?_
    rw [if_pos ⟨by
      have a := BitVec.toInt_lt (x := v); have b := BitVec.le_toInt v
      simp only [IntType.fits]; omega, fun _ => rfl⟩]
    simp [IntType.constant]
  · obtain ⟨k1, k2, k3⟩ := digitsOf_dec v.toNat
    have := C48_integer_literals F .u32 false k1 k2 hr
    show constantRule F (digitsOf 10 v.toNat ++ ['u'] ++ rest) = _
    rw [List.append_assoc]
    refine this.trans ?_
    rw [writtenInt, k3, if_pos ⟨by
      have := v.isLt
      simp only [IntType.fits]; simp; omega, fun h => by cases h⟩]
    simp [IntType.constant]
  · unfold constantRule
    have hk : ∀ r : Text, (∀ c, r.head? = some c → isIdentChar c = false) →
        (match r with | [] => some [] | c :: r => if isIdentChar c = true then none else some (c :: r)) = some r := by
      intro r h
      cases r with
      | nil => rfl
      | cons c r => simp [h c rfl]
    have hr' := fun c h => (hr c h).1
    cases b
    · have h1 : keyword "true".toList (printConstant P (.Bool false) ++ rest) = none := keyword_fail (by rfl)
      have h2 : keyword "false".toList (printConstant P (.Bool false) ++ rest) = some rest := by
        unfold keyword
        rw [show litRule "false".toList (printConstant P (.Bool false) ++ rest) = some rest by rfl]
        cases rest with
        | nil => rfl
        | cons c r => simp [hr' c rfl]
      rw [h1, h2]
    · have h2 : keyword "true".toList (printConstant P (.Bool true) ++ rest) = some rest := by
        unfold keyword
        rw [show litRule "true".toList (printConstant P (.Bool true) ++ rest) = some rest by rfl]
        cases rest with
        | nil => rfl
        | cons c r => simp [hr' c rfl]
      rw [h2]

/-- C48 fails for unsigned 64-bit constants: they are printed with the suffix of 32-bit constants, and read
back as such, or not at all when they are larger. -/
theorem C48_u64_counterexample (F : FloatParse) (P : FloatShow) (v : BitVec 64) {rest : Text} (hr : EndsNumber rest) :
    constantRule F (printConstant P (.U64 v) ++ rest) =
      if v.toNat < 2 ^ 32 then .ok (.U32 (v.setWidth 32)) rest else .fail := by
  obtain ⟨k1, k2, k3⟩ := digitsOf_dec v.toNat
  have := C48_integer_literals F .u32 false k1 k2 hr
  show constantRule F (digitsOf 10 v.toNat ++ ['u'] ++ rest) = _
  rw [List.append_assoc]
  refine this.trans ?_
  rw [writtenInt, k3]
  by_cases h : v.toNat < 2 ^ 32
  · rw [if_pos h, if_pos ⟨by simp only [IntType.fits]; simp; omega, fun h => by cases h⟩]
    simp only [IntType.constant, Bool.false_eq_true, if_false, BitVec.ofInt_natCast, BitVec.ofNat_toNat]
  · rw [if_neg h, if_neg]
    rintro ⟨h1, _⟩
    simp only [IntType.fits, Bool.false_eq_true, if_false] at h1
    omega

/-- The bounds of the types. -/
example (F : FloatParse) : constantRule F "-2147483648;".toList = .ok (.I32 0x80000000) ";".toList ∧
    constantRule F "2147483648".toList = .fail ∧ constantRule F "-0u".toList = .fail ∧
    constantRule F "18446744073709551615ul)".toList = .ok (.U64 0xffffffffffffffff) ")".toList := by
  refine ⟨rfl, rfl, rfl, rfl⟩

/-! ### Whole words -/

theorem litRule_ok {k s r : Text} (h : litRule k s = some r) : s = k ++ r := by
  induction k generalizing s with
  | nil => cases h; rfl
  | cons c k ih =>
    cases s with
    | nil => cases h
    | cons d s =>
      rw [litRule] at h
      split at h
      · rename_i he
        subst he
        rw [ih h]
        rfl
      · cases h

theorem keyword_ok {k s r : Text} (h : keyword k s = some r) : s = k ++ r ∧ ∀ c r', r = c :: r' → isIdentChar c = false := by
  unfold keyword at h
  split at h
  · rename_i hl
    cases h
    exact ⟨litRule_ok hl, fun c r' he => by cases he⟩
  · rename_i hl
    split at h
    · cases h
    · rename_i hc
      cases h
      refine ⟨litRule_ok hl, fun c r' he => ?_⟩
      cases he
      simpa using hc
  · cases h

theorem stringContentsUpTo_ok : ∀ (fuel : Nat) {s cs r : Text}, stringContentsUpTo fuel s = .ok cs r → ∃ p, s = p ++ r
  | 0, _, _, _, h => by cases h; exact ⟨[], rfl⟩
  | fuel + 1, s, cs, r, h => by
    rw [stringContentsUpTo] at h
    split at h
    · cases h; exact ⟨[], rfl⟩
    · cases h
    · cases h
    · rename_i c r1 hc
      obtain ⟨p, hp, _⟩ := escapedChar_ok hc
      split at h
      · rename_i cs' r' hs
        cases h
        obtain ⟨q, hq⟩ := stringContentsUpTo_ok fuel hs
        exact ⟨p ++ q, by rw [hp, hq, List.append_assoc]⟩
      · rename_i hne
        exact absurd h (hne _ _)

theorem numberValue_kind {F : FloatParse} {s : Text} {u : Bool} {q : Option Char} {c : Constant} (h : numberValue F s u q = some c) :
    (∀ b, c ≠ .Bool b) ∧ ∀ l t, c ≠ .String l t := by
  unfold numberValue at h
  repeat' split at h
  all_goals
    obtain ⟨v, _, rfl⟩ := Option.map_eq_some_iff.1 h
    exact ⟨by simp, by simp⟩

theorem numberRule_kind {F : FloatParse} {s r : Text} {c : Constant} (h : numberRule F s = .ok c r) :
    (∀ b, c ≠ .Bool b) ∧ ∀ l t, c ≠ .String l t := by
  unfold numberRule at h
  simp only [] at h
  split at h
  · cases h
  split at h
  · rename_i hv
    cases h
    exact numberValue_kind hv
  · cases h

/-- Specification: the letter that is written before a literal of this kind. -/
def Literal.letter : Literal → Text
  | .String => []
  | .Name => ['n']
  | .Resource => ['r']
  | .TweakDbId => ['t']

theorem literalType_ok (s : Text) : s = (literalType s).1.letter ++ (literalType s).2 := by
  generalize h : literalType s = x
  unfold literalType at h
  split at h <;> (subst h; rfl)

/-- C55: a boolean is read only from the word `true` or `false`, and not from the front of a longer word. -/
theorem C55_booleans_are_whole_words {F : FloatParse} {s r : Text} {b : Bool} (h : constantRule F s = .ok (.Bool b) r) :
    s = (if b then "true".toList else "false".toList) ++ r ∧ ∀ c r', r = c :: r' → isIdentChar c = false := by
  unfold constantRule at h
  split at h
  · rename_i hk
    cases h
    exact keyword_ok hk
  split at h
  · rename_i hk
    cases h
    exact keyword_ok hk
  split at h
  · rename_i hn
    cases h
    exact absurd rfl ((numberRule_kind hn).1 b)
  · cases h
  · cases h
  · simp only [] at h
    split at h <;> cases h

/-- C55: a string is read only from a text between quotation marks, and its kind is that of the letter before. -/
theorem C55_strings_are_quoted {F : FloatParse} {s r t : Text} {l : Literal} (h : constantRule F s = .ok (.String l t) r) :
    ∃ body, s = l.letter ++ ('"' :: body ++ '"' :: r) := by
  unfold constantRule at h
  split at h
  · cases h
  split at h
  · cases h
  split at h
  · rename_i hn
    cases h
    exact absurd rfl ((numberRule_kind hn).2 l t)
  · cases h
  · cases h
  · simp only [] at h
    split at h
    · rename_i cs r' hs
      cases h
      have hl := literalType_ok s
      generalize literalType s = lt at hl hs
      obtain ⟨l, s'⟩ := lt
      simp only at hl hs
      unfold escapedString at hs
      split at hs
      · rename_i s2
        split at hs
        · rename_i cs3 r3 hc
          cases hs
          obtain ⟨p, hp⟩ := stringContentsUpTo_ok _ hc
          refine ⟨p, ?_⟩
          rw [hl, hp]
          rfl
        · cases hs
        · cases hs
        · cases hs
      · cases hs
    · cases h
    · cases h
    · cases h

/-- Both happen: a word and a name literal are read. -/
example (F : FloatParse) : constantRule F "true)".toList = .ok (.Bool true) ")".toList ∧
    constantRule F "n\"a\";".toList = .ok (.String .Name "a".toList) ";".toList := by
  constructor
  · rfl
  · unfold constantRule
    have h1 : keyword "true".toList "n\"a\";".toList = none := by decide
    have h2 : keyword "false".toList "n\"a\";".toList = none := by decide
    have h3 : numberRule F "n\"a\";".toList = .fail := numberRule_fail (by decide) (by decide)
    rw [h1, h2, h3]
    rfl

end Redscript
