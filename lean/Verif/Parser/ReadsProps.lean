import Verif.Parser.Ends

/-!
# Texts that are read as expressions

`ReadAs F l q t x`: the text `t` is read as `x` where an expression of level at most `l` is wanted, when nothing
follows that could be taken as an operator of level `q` or higher. The texts of the operators are put together from
this.

The grammar takes `a < b, c > (d)` for the call of a generic function, so what follows an identifier is looked at:
`noGen` says that no list of type arguments with an opening parenthesis behind it follows.
-/

namespace Redscript

/-! ### Type arguments -/

/-- An opening parenthesis is next. -/
def parenNext (s : Text) : Bool :=
  match blanks s with
  | '(' :: _ => true
  | _ => false

/-- Type arguments with some brackets open are not closed in front of a parenthesis. -/
def noGen : Nat → Text → Bool
  | _, [] => true
  | d, c :: s =>
    if isIdentChar c || isWhite c || c == ',' then noGen d s
    else if c = '<' then noGen (d + 1) s
    else if c = '>' then
      match d with
      | d + 2 => noGen (d + 1) s
      | _ => !parenNext s
    else if c = '/' then
      match s with
      | '/' :: _ => false
      | '*' :: _ => false
      | _ => true
    else true

/-- With any number of open brackets. -/
def NG (s : Text) : Prop := ∀ d, 1 ≤ d → noGen d s = true

theorem noGen_ident {d : Nat} {c : Char} {s : Text} (h : isIdentChar c = true) : noGen d (c :: s) = noGen d s := by
  rw [noGen.eq_def]; simp [h]

theorem noGen_white {d : Nat} {c : Char} {s : Text} (h : isWhite c = true) : noGen d (c :: s) = noGen d s := by
  rw [noGen.eq_def]; simp [h]

theorem noGen_comma {d : Nat} {s : Text} : noGen d (',' :: s) = noGen d s := by
  rw [noGen.eq_def]; simp

theorem noGen_lt {d : Nat} {s : Text} : noGen d ('<' :: s) = noGen (d + 1) s := by
  rw [noGen.eq_def]; simp [isIdentChar, isDec, isIdentStart, isWhite]

theorem noGen_gt2 {d : Nat} {s : Text} : noGen (d + 2) ('>' :: s) = noGen (d + 1) s := by
  rw [noGen.eq_def]; simp [isIdentChar, isDec, isIdentStart, isWhite]

theorem noGen_gt1 {s : Text} : noGen 1 ('>' :: s) = !parenNext s := by
  rw [noGen.eq_def]; simp [isIdentChar, isDec, isIdentStart, isWhite]

theorem noGen_other {d : Nat} {c : Char} {s : Text} (h1 : isIdentChar c = false) (h2 : isWhite c = false) (h3 : c ≠ ',')
    (h4 : c ≠ '<') (h5 : c ≠ '>') (h6 : c ≠ '/') : noGen d (c :: s) = true := by
  rw [noGen.eq_def]; simp [h1, h2, h3, h4, h5, h6]

theorem NG.white {c : Char} {s : Text} (h : NG s) (hc : isWhite c = true) : NG (c :: s) :=
  fun d hd => by rw [noGen_white hc]; exact h d hd

theorem NG.comma {s : Text} (h : NG s) : NG (',' :: s) := fun d hd => by rw [noGen_comma]; exact h d hd

theorem NG.idents {x s : Text} (h : NG s) (hx : ∀ c ∈ x, isIdentChar c = true) : NG (x ++ s) := by
  induction x with
  | nil => exact h
  | cons c x ih =>
    intro d hd
    rw [List.cons_append, noGen_ident (hx c (by simp))]
    exact ih (fun c hc => hx c (by simp [hc])) d hd

theorem NG.other {c : Char} {s : Text} (h1 : isIdentChar c = false) (h2 : isWhite c = false) (h3 : c ≠ ',') (h4 : c ≠ '<')
    (h5 : c ≠ '>') (h6 : c ≠ '/') : NG (c :: s) := fun _ _ => noGen_other h1 h2 h3 h4 h5 h6

theorem NG.nil : NG [] := fun _ _ => by rw [noGen.eq_def]

theorem noGen_blanks (d : Nat) (s : Text) (h : noGen d s = true) : noGen d (blanks s) = true := by
  have : ∀ (n : Nat) (s : Text), s.length ≤ n → noGen d s = true → noGen d (blanks s) = true := by
    intro n
    induction n with
    | zero =>
      intro s hl hs
      cases s with
      | nil => exact hs
      | cons => simp at hl
    | succ n ih =>
      intro s hl hs
      cases hb : blank s with
      | none => rw [blanks_stop hb]; exact hs
      | some r =>
        rw [blanks_step hb]
        rcases blank_cases hb with ⟨c, hc, rfl⟩ | ⟨e, s', rfl, he⟩
        · rw [noGen_white hc] at hs
          refine ih r ?_ hs
          simp only [List.length_cons] at hl
          omega
        · rw [noGen.eq_def] at hs
          rcases he with rfl | rfl <;> simp [isIdentChar, isDec, isIdentStart, isWhite] at hs
  exact this s.length s (Nat.le_refl _) h

theorem mem_takeWhile {p : Char → Bool} {s : Text} {c : Char} (h : c ∈ s.takeWhile p) : p c = true := by
  induction s with
  | nil => cases h
  | cons d s ih =>
    rw [List.takeWhile_cons] at h
    split at h
    · rename_i hd
      rcases List.mem_cons.1 h with rfl | h
      · exact hd
      · exact ih h
    · cases h

/-- `identRule` takes a word off the text. -/
theorem identRule_ok {s x r : Text} (h : identRule s = .ok x r) : s = x ++ r ∧ ∀ c ∈ x, isIdentChar c = true := by
  unfold identRule at h
  split at h
  · rename_i c s'
    split at h
    · rename_i hc
      injection h with h1 h2
      subst h1 h2
      refine ⟨by simp, ?_⟩
      intro d hd
      rcases List.mem_cons.1 hd with rfl | hd
      · simp [isIdentChar, hc]
      · exact mem_takeWhile hd
    · cases h
  · cases h

theorem noGen_identRule {d : Nat} {s x r : Text} (h : identRule s = .ok x r) (hs : noGen d s = true) : noGen d r = true := by
  obtain ⟨rfl, hx⟩ := identRule_ok h
  clear h
  induction x with
  | nil => exact hs
  | cons c x ih =>
    rw [List.cons_append, noGen_ident (hx c (by simp))] at hs
    exact ih (fun c hc => hx c (by simp [hc])) hs

theorem bind_ok {p : Peg α} {f : α → Text → Peg β} {b : β} {r : Text} (h : p.bind f = .ok b r) : ∃ a s, p = .ok a s ∧ f a s = .ok b r := by
  cases p with
  | fail => cases h
  | panic => cases h
  | stuck => cases h
  | ok a s => exact ⟨a, s, rfl, h⟩

theorem lit_ok {t s r : Text} (h : lit t s = .ok () r) : s = t ++ r := by
  unfold lit at h
  split at h
  · rename_i hl
    cases h
    exact litRule_ok hl
  · cases h

theorem noGen_sepMore {sep : Text → Peg Unit} {x : Text → Peg α} {d : Nat}
    (hsep : ∀ s r, sep s = .ok () r → noGen d s = true → noGen d r = true)
    (hx : ∀ s a r, x s = .ok a r → noGen d s = true → noGen d r = true) :
    ∀ (n : Nat) {s r : Text} {as : List α}, sepMore sep x n s = .ok as r → noGen d s = true → noGen d r = true
  | 0, _, _, _, h, _ => by cases h
  | n + 1, s, r, as, h, hs => by
    rw [sepMore] at h
    split at h
    · rename_i a r' hb
      obtain ⟨u, s1, h1, h2⟩ := bind_ok hb
      obtain ⟨as', s2, h3, h4⟩ := bind_ok h
      cases h4
      exact noGen_sepMore hsep hx n h3 (hx _ _ _ h2 (hsep _ _ h1 hs))
    · cases h; exact hs
    · cases h
    · cases h

theorem noGen_sepBy {sep : Text → Peg Unit} {x : Text → Peg α} {d : Nat}
    (hsep : ∀ s r, sep s = .ok () r → noGen d s = true → noGen d r = true)
    (hx : ∀ s a r, x s = .ok a r → noGen d s = true → noGen d r = true)
    (n : Nat) {s r : Text} {as : List α} (h : sepBy sep x n s = .ok as r) (hs : noGen d s = true) : noGen d r = true := by
  unfold sepBy at h
  split at h
  · rename_i a r' hb
    obtain ⟨as', s2, h3, h4⟩ := bind_ok h
    cases h4
    exact noGen_sepMore hsep hx n h3 (hx _ _ _ hb hs)
  · cases h; exact hs
  · cases h
  · cases h

theorem noGen_commaSep {d : Nat} (s r : Text) (h : commaSep s = .ok () r) (hs : noGen d s = true) : noGen d r = true := by
  unfold commaSep at h
  obtain ⟨u, s1, h1, h2⟩ := bind_ok h
  cases h2
  have := lit_ok h1
  subst this
  rw [List.cons_append, List.nil_append, noGen_comma] at hs
  exact noGen_blanks _ _ hs

theorem noGen_types (n : Nat) :
    (∀ d, 1 ≤ d → ∀ s ty r, typeRule n s = .ok ty r → noGen d s = true → noGen d r = true) ∧
    ∀ d tys s r, typeArgsRule n ('<' :: s) = .ok tys r → noGen (d + 1) s = true →
      (1 ≤ d → noGen d r = true) ∧ (d = 0 → parenNext r = false) := by
  induction n with
  | zero => exact ⟨fun _ _ _ _ _ h _ => (by cases h), fun _ _ _ _ h _ => (by cases h)⟩
  | succ n ih =>
    constructor
    · intro d hd s ty r h hs
      rw [typeRule] at h
      obtain ⟨name, s1, h1, h⟩ := bind_ok h
      obtain ⟨args, s2, h2, h⟩ := bind_ok h
      cases h
      have hs1 := noGen_identRule h1 hs
      unfold Peg.opt at h2
      split at h2
      · rename_i tys r' ht
        cases h2
        cases n with
        | zero => cases ht
        | succ n =>
          have ht' := ht
          rw [typeArgsRule] at ht'
          obtain ⟨_, s3, h3, _⟩ := bind_ok ht'
          have := lit_ok h3
          subst this
          rw [List.cons_append, List.nil_append, noGen_lt] at hs1
          exact (ih.2 d tys s3 _ ht hs1).1 hd
      · cases h2; exact hs1
      · cases h2
      · cases h2
    · intro d tys s r h hs
      rw [typeArgsRule] at h
      obtain ⟨_, s1, h1, h⟩ := bind_ok h
      have := lit_ok h1
      simp only [List.cons_append, List.nil_append, List.cons.injEq, true_and] at this
      subst this
      obtain ⟨args, s2, h2, h⟩ := bind_ok h
      obtain ⟨_, s3, h3, h⟩ := bind_ok h
      cases h
      have h4 := noGen_sepBy (noGen_commaSep (d := d + 1)) (ih.1 (d + 1) (by omega)) n h2 (noGen_blanks _ _ hs)
      have h5 := noGen_blanks _ _ h4
      rw [lit_ok h3, List.cons_append, List.nil_append] at h5
      cases d with
      | zero =>
        rw [noGen_gt1] at h5
        exact ⟨fun h => by omega, fun _ => by simpa using h5⟩
      | succ d =>
        rw [noGen_gt2] at h5
        exact ⟨fun _ => h5, fun h => by omega⟩

theorem bind_no_panic {p : Peg α} {f : α → Text → Peg β} (h : p ≠ .panic) (hf : ∀ a r, f a r ≠ .panic) : p.bind f ≠ .panic := by
  cases p with
  | fail => intro h; cases h
  | panic => exact absurd rfl h
  | stuck => intro h; cases h
  | ok a r => exact hf a r

theorem lit_no_panic (t s : Text) : lit t s ≠ .panic := by
  unfold lit
  split <;> intro h <;> cases h

theorem sepMore_no_panic {sep : Text → Peg Unit} {x : Text → Peg α} (hs : ∀ s, sep s ≠ .panic) (hx : ∀ s, x s ≠ .panic) :
    ∀ (n : Nat) (s : Text), sepMore sep x n s ≠ .panic
  | 0, _ => by intro h; cases h
  | n + 1, s => by
    rw [sepMore]
    split
    · exact bind_no_panic (sepMore_no_panic hs hx n _) fun _ _ h => by cases h
    · intro h; cases h
    · rename_i hb
      exact absurd hb (bind_no_panic (hs s) fun _ r => hx r)
    · intro h; cases h

theorem sepBy_no_panic {sep : Text → Peg Unit} {x : Text → Peg α} (hs : ∀ s, sep s ≠ .panic) (hx : ∀ s, x s ≠ .panic)
    (n : Nat) (s : Text) : sepBy sep x n s ≠ .panic := by
  unfold sepBy
  split
  · exact bind_no_panic (sepMore_no_panic hs hx n _) fun _ _ h => by cases h
  · intro h; cases h
  · rename_i hb
    exact absurd hb (hx s)
  · intro h; cases h

theorem commaSep_no_panic (s : Text) : commaSep s ≠ .panic :=
  bind_no_panic (lit_no_panic _ _) fun _ _ h => by cases h

theorem identRule_no_panic (s : Text) : identRule s ≠ .panic := by
  unfold identRule
  split
  · split <;> intro h <;> cases h
  · intro h; cases h

theorem types_no_panic (n : Nat) : (∀ s, typeRule n s ≠ .panic) ∧ ∀ s, typeArgsRule n s ≠ .panic := by
  induction n with
  | zero => exact ⟨fun s h => (by cases h), fun s h => (by cases h)⟩
  | succ n ih =>
    constructor
    · intro s
      rw [typeRule]
      refine bind_no_panic (identRule_no_panic s) fun _ r => bind_no_panic ?_ fun _ _ h => by cases h
      unfold Peg.opt
      split
      · intro h; cases h
      · intro h; cases h
      · rename_i h
        exact absurd h (ih.2 r)
      · intro h; cases h
    · intro s
      rw [typeArgsRule]
      exact bind_no_panic (lit_no_panic _ _) fun _ r => bind_no_panic (sepBy_no_panic commaSep_no_panic ih.1 n _) fun _ r =>
        bind_no_panic (lit_no_panic _ _) fun _ _ h => by cases h

/-- No call of a generic function starts behind an identifier. -/
def NotGeneric (rest : Text) : Prop := ∀ tail, blanks rest = '<' :: tail → noGen 1 tail = true

theorem typeArgs_noParen {rest : Text} (h : NotGeneric rest) (hp : parenNext rest = false) {n : Nat}
    (hn : 4 * (blanks rest).length + 1 ≤ n) :
    ∃ tys r, Peg.opt (typeArgsRule n (blanks rest)) (blanks rest) = .ok tys r ∧ parenNext r = false := by
  unfold Peg.opt
  cases ht : typeArgsRule n (blanks rest) with
  | fail =>
    refine ⟨_, _, rfl, ?_⟩
    unfold parenNext at hp ⊢
    rw [blanks_idem]
    exact hp
  | panic => exact absurd ht ((types_no_panic n).2 _)
  | stuck => exact absurd hn (((types_end n).args _).stuck ht)
  | ok tys r =>
    refine ⟨_, _, rfl, ?_⟩
    cases n with
    | zero => cases ht
    | succ n =>
      have ht' := ht
      rw [typeArgsRule] at ht'
      obtain ⟨_, s3, h3, _⟩ := bind_ok ht'
      have := lit_ok h3
      rw [List.cons_append, List.nil_append] at this
      rw [this] at ht
      exact ((noGen_types (n + 1)).2 0 tys s3 r ht (h s3 this)).2 rfl

theorem lit_noParen {s : Text} (h : parenNext s = false) : lit ['('] (blanks s) = .fail := by
  unfold parenNext at h
  split at h
  · cases h
  · rename_i hb
    cases hs : blanks s with
    | nil => rfl
    | cons c t => exact lit_ne (by rintro rfl; exact hb t hs)

/-! ### Lists with commas -/

/-- The items behind the first, each with a comma in front. -/
def commaTail : List (Text × α) → Text
  | [] => []
  | p :: ps => ',' :: ' ' :: (p.1 ++ commaTail ps)

/-- The items with commas between them. -/
def commaText : List (Text × α) → Text
  | [] => []
  | p :: ps => p.1 ++ commaTail ps

/-- Each of the items is read in front of the following ones. -/
def Items (x : Text → Peg α) : List (Text × α) → Text → Prop
  | [], _ => True
  | p :: ps, rest => blanks (p.1 ++ (commaTail ps ++ rest)) = p.1 ++ (commaTail ps ++ rest) ∧
      x (p.1 ++ (commaTail ps ++ rest)) = .ok p.2 (commaTail ps ++ rest) ∧ Items x ps rest

theorem sepMore_read {x : Text → Peg α} {rest : Text} (hr : lit [','] rest = .fail) :
    ∀ (ps : List (Text × α)) (fuel : Nat), ps.length < fuel → Items x ps rest →
      sepMore commaSep x fuel (commaTail ps ++ rest) = .ok (ps.map Prod.snd) rest
  | _, 0, h, _ => by omega
  | [], fuel + 1, _, _ => by
    rw [sepMore]
    show (match (commaSep rest).bind fun _ r => x r with
      | .ok a r => (sepMore commaSep x fuel r).bind fun as r => .ok (a :: as) r
      | .fail => .ok [] rest
      | .panic => .panic
      | .stuck => .stuck) = _
    unfold commaSep
    rw [hr]
    rfl
  | p :: ps, fuel + 1, h, hi => by
    obtain ⟨h1, h2, h3⟩ := hi
    have e : commaTail (p :: ps) ++ rest = ',' :: ' ' :: (p.1 ++ (commaTail ps ++ rest)) := by simp [commaTail]
    have hs : commaSep (',' :: ' ' :: (p.1 ++ (commaTail ps ++ rest))) = .ok () (p.1 ++ (commaTail ps ++ rest)) := by
      unfold commaSep
      rw [show lit [','] (',' :: ' ' :: (p.1 ++ (commaTail ps ++ rest))) = .ok () (' ' :: (p.1 ++ (commaTail ps ++ rest))) from
        lit_self [','] _]
      show Peg.ok () (blanks (' ' :: _)) = _
      rw [blanks_white (by decide), h1]
    rw [e, sepMore, hs]
    show (match x _ with
      | .ok a r => (sepMore commaSep x fuel r).bind fun as r => .ok (a :: as) r
      | .fail => .ok [] _
      | .panic => .panic
      | .stuck => .stuck) = _
    rw [h2]
    show (sepMore commaSep x fuel (commaTail ps ++ rest)).bind _ = _
    rw [sepMore_read hr ps fuel (by simp only [List.length_cons] at h; omega) h3]
    rfl

theorem sepBy_read {x : Text → Peg α} {rest : Text} (hr : lit [','] rest = .fail) (h0 : x rest = .fail)
    {ps : List (Text × α)} {fuel : Nat} (hf : ps.length < fuel) (hi : Items x ps rest) :
    sepBy commaSep x fuel (commaText ps ++ rest) = .ok (ps.map Prod.snd) rest := by
  unfold sepBy
  cases ps with
  | nil =>
    show (match x rest with
      | .ok a r => (sepMore commaSep x fuel r).bind fun as r => .ok (a :: as) r
      | .fail => .ok [] rest
      | .panic => .panic
      | .stuck => .stuck) = _
    rw [h0]
    rfl
  | cons p ps =>
    obtain ⟨h1, h2, h3⟩ := hi
    have e : commaText (p :: ps) ++ rest = p.1 ++ (commaTail ps ++ rest) := by simp [commaText]
    rw [e, h2]
    show (sepMore commaSep x fuel (commaTail ps ++ rest)).bind _ = _
    rw [sepMore_read hr ps fuel (by simp only [List.length_cons] at hf; omega) h3]
    rfl

theorem Eventually.large (k : Nat) : Eventually fun n => k < n := ⟨k + 1, fun n h => by omega⟩

/-! ### Words -/

/-- An identifier. -/
def isIdent : Text → Bool
  | c :: s => isIdentStart c && s.all isIdentChar
  | [] => false

/-- The words that are something else at the start of an expression. -/
def reservedWords : List Text :=
  ["new".toList, "null".toList, "this".toList, "super".toList, "true".toList, "false".toList]

theorem isIdent_chars {x : Text} (h : isIdent x = true) : ∀ c ∈ x, isIdentChar c = true := by
  cases x with
  | nil => intro c hc; cases hc
  | cons d x =>
    simp only [isIdent, Bool.and_eq_true, List.all_eq_true] at h
    intro c hc
    rcases List.mem_cons.1 hc with rfl | hc
    · simp [isIdentChar, h.1]
    · exact h.2 c hc

theorem isIdent_cons {x : Text} (h : isIdent x = true) : ∃ c s, x = c :: s ∧ isIdentStart c = true := by
  cases x with
  | nil => cases h
  | cons c s =>
    simp only [isIdent, Bool.and_eq_true] at h
    exact ⟨c, s, rfl, h.1⟩

theorem isIdent_starts {x : Text} (h : isIdent x = true) : Starts x := by
  obtain ⟨c, s, rfl, hc⟩ := isIdent_cons h
  exact ⟨c, s, rfl, by simp [isStart, hc]⟩

/-- The word ends here. -/
def EndsWord (rest : Text) : Prop := ∀ c, rest.head? = some c → isIdentChar c = false

theorem ident_read {x rest : Text} (h : isIdent x = true) (hr : EndsWord rest) : identRule (x ++ rest) = .ok x rest := by
  cases x with
  | nil => cases h
  | cons c s =>
    simp only [isIdent, Bool.and_eq_true, List.all_eq_true] at h
    obtain ⟨h1, h2⟩ := takeWhile_all (p := isIdentChar) h.2 hr
    rw [List.cons_append, identRule, if_pos h.1, h1, h2]

theorem keyword_ident {k x rest : Text} (hk : ∀ c ∈ k, isIdentChar c = true) (h : isIdent x = true) (hr : EndsWord rest)
    (hne : k ≠ x) : keyword k (x ++ rest) = none := by
  cases hw : keyword k (x ++ rest) with
  | none => rfl
  | some r =>
    obtain ⟨e, h2⟩ := keyword_ok hw
    have h1 := (takeWhile_all (p := isIdentChar) (isIdent_chars h) hr).1
    rw [e, (takeWhile_all (p := isIdentChar) hk fun c hc => by
      cases r with
      | nil => cases hc
      | cons d r => cases hc; exact h2 _ _ rfl).1] at h1
    exact absurd h1 hne

theorem kw_ident {k x rest : Text} (hk : ∀ c ∈ k, isIdentChar c = true) (h : isIdent x = true) (hr : EndsWord rest)
    (hne : k ≠ x) : kw k (x ++ rest) = .fail := by
  unfold kw
  rw [keyword_ident hk h hr hne]

theorem keyword_self {k rest : Text} (hr : EndsWord rest) : keyword k (k ++ rest) = some rest := by
  unfold keyword
  rw [litRule_append]
  cases rest with
  | nil => rfl
  | cons c r =>
    show (if isIdentChar c then none else some (c :: r)) = _
    rw [hr c rfl]
    rfl

theorem kw_self {k rest : Text} (hr : EndsWord rest) : kw k (k ++ rest) = .ok () rest := by
  unfold kw
  rw [keyword_self hr]

theorem escapedString_fail {s : Text} (h : s.head? ≠ some '"') : escapedString s = .fail := by
  unfold escapedString
  split
  · exact absurd rfl h
  · rfl

theorem constant_word {F : FloatParse} {x rest : Text} (h : isIdent x = true) (hr : EndsWord rest) (hq : rest.head? ≠ some '"')
    (hres : x ∉ reservedWords) : constantRule F (x ++ rest) = .fail := by
  unfold constantRule
  rw [keyword_ident (by decide) h hr (by rintro rfl; exact hres (by decide)),
    keyword_ident (by decide) h hr (by rintro rfl; exact hres (by decide))]
  obtain ⟨c, s, rfl, hc⟩ := isIdent_cons h
  have hcs := isIdent_chars h
  have hd : isDec c = false ∧ c ≠ '.' ∧ c ≠ '-' ∧ c ≠ '"' := by
    refine ⟨?_, ?_, ?_, ?_⟩
    · cases hdc : isDec c with
      | false => rfl
      | true =>
        simp only [isDec, isIdentStart, Bool.and_eq_true, Bool.or_eq_true, decide_eq_true_eq, beq_iff_eq, Char.le_def,
          UInt32.le_iff_toNat_le] at hdc hc
        have e1 : '9'.val.toNat = 57 := rfl
        have e2 : 'a'.val.toNat = 97 := rfl
        have e3 : 'A'.val.toNat = 65 := rfl
        rcases hc with (hc | hc) | rfl
        · omega
        · omega
        · exact absurd hdc (by decide)
    · rintro rfl; exact absurd hc (by decide)
    · rintro rfl; exact absurd hc (by decide)
    · rintro rfl; exact absurd hc (by decide)
  have hn : numberRule F (c :: (s ++ rest)) = .fail := numberRule_fail (by simp [isNumChar, hd.1, hd.2.1]) hd.2.2.1
  have ht : (s ++ rest).head? ≠ some '"' := by
    cases s with
    | nil => exact hq
    | cons d s =>
      intro he
      cases he
      exact absurd (hcs '"' (by simp)) (by decide)
  have hl : (literalType (c :: (s ++ rest))).2.head? ≠ some '"' := by
    unfold literalType
    split
    · rename_i he; cases he; exact ht
    · rename_i he; cases he; exact ht
    · rename_i he; cases he; exact ht
    · intro he
      cases he
      exact hd.2.2.2 rfl
  simp only [List.cons_append, hn, escapedString_fail hl]

/-- A word at the start of an expression is the name of a function or of a variable. -/
theorem parseAtom_word (F : FloatParse) (n : Nat) {x rest : Text} (h : isIdent x = true) (hr : EndsWord rest)
    (hq : rest.head? ≠ some '"') (hres : x ∉ reservedWords) :
    parseAtom F (n + 1) (x ++ rest) =
      ((Peg.opt (typeArgsRule n (blanks rest)) (blanks rest)).bind fun tys r =>
        (lit ['('] (blanks r)).bind fun _ r =>
        (parseArgs F n (blanks r)).bind fun args r => .ok (.Call x (tys.getD []) args) r).orElse fun _ => .ok (.Ident x) rest := by
  have hc := constant_word (F := F) h hr hq hres
  have hid := ident_read h hr
  have hk : ∀ k : Text, (∀ c ∈ k, isIdentChar c = true) → k ∈ reservedWords → kw k (x ++ rest) = .fail :=
    fun k hk hm => kw_ident hk h hr (by rintro rfl; exact hres hm)
  obtain ⟨c, s, rfl, hs⟩ := isIdent_cons h
  have hcs := isIdent_chars h
  have hne : ∀ d : Char, isIdentStart d = false → d ≠ c := by
    rintro d hd rfl
    rw [hd] at hs; cases hs
  have hsq : lit ['s', '"'] (c :: (s ++ rest)) = .fail := by
    by_cases hc : 's' = c
    · subst hc
      unfold lit
      rw [litRule, if_pos rfl]
      cases s with
      | nil =>
        cases rest with
        | nil => rfl
        | cons d r =>
          show (match litRule ['"'] (d :: r) with | some r => Peg.ok () r | none => .fail) = _
          rw [litRule, if_neg (by rintro rfl; exact hq rfl)]
      | cons d s =>
        rw [List.cons_append, litRule, if_neg (by rintro rfl; exact absurd (hcs '"' (by simp)) (by decide))]
    · exact lit_ne hc
  rw [parseAtom]
  simp only [prefixOps, firstOk, wordAtoms]
  rw [hk _ (by decide) (by decide), hk _ (by decide) (by decide), hk _ (by decide) (by decide), hk _ (by decide) (by decide), hc, hid]
  rw [List.cons_append, show "!".toList = ['!'] from rfl, show "~".toList = ['~'] from rfl, show "-".toList = ['-'] from rfl,
    lit_ne (hne '!' (by decide)), lit_ne (hne '~' (by decide)), lit_ne (hne '-' (by decide)), lit_ne (hne '[' (by decide)),
    lit_ne (hne '(' (by decide)), hsq]
  rfl

end Redscript
