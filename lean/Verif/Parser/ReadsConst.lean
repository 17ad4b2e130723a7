import Verif.Parser.ReadsAtoms

/-!
# Reading printed constants
-/

namespace Redscript

variable {F : FloatParse}

/-- A constant where no other kind of expression starts. -/
theorem parseAtom_const (n : Nat) {c : Char} {s r : Text} {k : Constant} (h : constantRule F (c :: s) = .ok k r)
    (h1 : c ≠ '!' ∧ c ≠ '~' ∧ c ≠ '-') (h2 : c ≠ '[' ∧ c ≠ '(')
    (h3 : kw "new".toList (c :: s) = .fail ∧ kw "null".toList (c :: s) = .fail ∧ kw "this".toList (c :: s) = .fail ∧
      kw "super".toList (c :: s) = .fail) (h4 : lit ['s', '"'] (c :: s) = .fail) :
    parseAtom F (n + 1) (c :: s) = .ok (.Constant k) r := by
  obtain ⟨k1, k2, k3, k4⟩ := h3
  rw [parseAtom, prefix_fail h1, k1, lit_ne (Ne.symm h2.1), lit_ne (Ne.symm h2.2), h4, h]
  simp only [wordAtoms, firstOk, k2, k3, k4]
  rfl

theorem reads_string (P : FloatShow) (l : Literal) (x : Text) :
    ReadAs F 11 13 (printConstant P (.String l x)) (.Constant (.String l x)) := by
  refine ReadAs.ofAtom ?_ (fun rest _ _ => ?_) fun rest _ => ?_
  · cases l
    · exact ⟨'"', _, rfl, by decide⟩
    · exact ⟨'n', _, rfl, by decide⟩
    · exact ⟨'r', _, rfl, by decide⟩
    · exact ⟨'t', _, rfl, by decide⟩
  · have hq : ∀ s : Text, NG ('"' :: s) := fun s => NG.other (by decide) (by decide) (by decide) (by decide) (by decide) (by decide)
    cases l
    · exact hq _
    · exact NG.idents (x := ['n']) (hq _) (by decide)
    · exact NG.idents (x := ['r']) (hq _) (by decide)
    · exact NG.idents (x := ['t']) (hq _) (by decide)
  · have h := C40_string_constants_read_back F P l x rest
    refine Eventually.succ (Eventually.pure fun _ => True.intro) fun n _ => ?_
    cases l
    · exact parseAtom_const n h (by decide) (by decide) ⟨rfl, rfl, rfl, rfl⟩ rfl
    · exact parseAtom_const n h (by decide) (by decide) ⟨rfl, rfl, rfl, rfl⟩ rfl
    · exact parseAtom_const n h (by decide) (by decide) ⟨rfl, rfl, rfl, rfl⟩ rfl
    · exact parseAtom_const n h (by decide) (by decide) ⟨rfl, rfl, rfl, rfl⟩ rfl

theorem reads_bool (P : FloatShow) (b : Bool) : ReadAs F 11 13 (printConstant P (.Bool b)) (.Constant (.Bool b)) := by
  have hid : isIdent (printConstant P (.Bool b)) = true := by cases b <;> rfl
  refine ReadAs.ofAtom (isIdent_starts hid) (fun rest _ hn => hn.idents (isIdent_chars hid)) fun rest hf => ?_
  have h : constantRule F (printConstant P (.Bool b) ++ rest) = .ok (.Bool b) rest := by
    cases b
    · show constantRule F ("false".toList ++ rest) = _
      unfold constantRule
      rw [keyword_ident (x := "false".toList) (by decide) (by decide) hf.word (by decide), keyword_self hf.word]
    · show constantRule F ("true".toList ++ rest) = _
      unfold constantRule
      rw [keyword_self hf.word]
  have hk : ∀ k : Text, (∀ c ∈ k, isIdentChar c = true) → k ≠ "true".toList → k ≠ "false".toList →
      kw k (printConstant P (.Bool b) ++ rest) = .fail := fun k hk h1 h2 =>
    kw_ident hk hid hf.word (by cases b; exact h2; exact h1)
  have hk4 := And.intro (hk "new".toList (by decide) (by decide) (by decide)) (And.intro (hk "null".toList (by decide) (by decide) (by decide))
    (And.intro (hk "this".toList (by decide) (by decide) (by decide)) (hk "super".toList (by decide) (by decide) (by decide))))
  refine Eventually.succ (Eventually.pure fun _ => True.intro) fun n _ => ?_
  cases b
  · exact parseAtom_const n h (by decide) (by decide) hk4 (lit_ne (by decide))
  · exact parseAtom_const n h (by decide) (by decide) hk4 (lit_ne (by decide))

theorem digit_facts {c : Char} (h : isDec c = true) : isStart c = true ∧ isIdentStart c = false ∧ isIdentChar c = true ∧
    ∀ d : Char, isDec d = false → c ≠ d := by
  have hs : isIdentStart c = false := by
    cases hc : isIdentStart c with
    | false => rfl
    | true =>
      simp only [isDec, isIdentStart, Bool.and_eq_true, Bool.or_eq_true, decide_eq_true_eq, beq_iff_eq, Char.le_def,
        UInt32.le_iff_toNat_le] at h hc
      have e1 : '9'.val.toNat = 57 := rfl
      have e2 : 'a'.val.toNat = 97 := rfl
      have e3 : 'A'.val.toNat = 65 := rfl
      rcases hc with (hc | hc) | rfl
      · omega
      · omega
      · exact absurd h (by decide)
  refine ⟨by simp [isStart, h], hs, by simp [isIdentChar, h], ?_⟩
  rintro d hd rfl
  rw [hd] at h; cases h

/-- The digits of a number with its suffix. -/
theorem number_chars (t : IntType) {ds : Text} (hd : ∀ c ∈ ds, isDec c = true) : ∀ c ∈ ds ++ t.suffix, isIdentChar c = true := by
  intro c hc
  rcases List.mem_append.1 hc with hc | hc
  · exact (digit_facts (hd c hc)).2.2.1
  · have : ∀ t : IntType, ∀ c ∈ t.suffix, isIdentChar c = true := by
      intro t
      cases t <;> decide
    exact this t c hc

theorem endsNumber_of {q : Nat} (hq : q ≤ 12) {rest : Text} (h : Follow F q rest) : EndsNumber rest :=
  fun c hc => ⟨(h.head c hc).1, h.dot hq c hc⟩

theorem reads_number (t : IntType) {ds : Text} (hne : ds ≠ []) (hd : ∀ c ∈ ds, isDec c = true) (hfit : t.fits (digitsVal 10 ds)) :
    ReadAs F 11 12 (ds ++ t.suffix) (.Constant (t.constant (digitsVal 10 ds))) := by
  obtain ⟨c, ds', rfl⟩ : ∃ c s, ds = c :: s := by
    cases ds with
    | nil => exact absurd rfl hne
    | cons c s => exact ⟨c, s, rfl⟩
  obtain ⟨h1, h2, h3, h4⟩ := digit_facts (hd c (by simp))
  refine ReadAs.ofAtom ⟨c, _, rfl, h1⟩ (fun rest _ hn => hn.idents (number_chars t hd)) fun rest hf => ?_
  have h := C48_integer_literals F t false hne hd (endsNumber_of (Nat.le_refl _) hf)
  rw [if_neg (by decide), if_pos ⟨hfit, fun h => by cases h⟩, ← List.append_assoc] at h
  refine Eventually.succ (Eventually.pure fun _ => True.intro) fun n _ => ?_
  refine parseAtom_const n h ⟨h4 _ (by decide), h4 _ (by decide), h4 _ (by decide)⟩ ⟨h4 _ (by decide), h4 _ (by decide)⟩ ?_ ?_
  · exact ⟨kw_ne (Ne.symm (h4 'n' (by decide))), kw_ne (Ne.symm (h4 'n' (by decide))), kw_ne (Ne.symm (h4 't' (by decide))),
      kw_ne (Ne.symm (h4 's' (by decide)))⟩
  · exact lit_ne (Ne.symm (h4 's' (by decide)))

/-- A number out of range is no expression. -/
theorem number_bad (t : IntType) {ds rest : Text} (hne : ds ≠ []) (hd : ∀ c ∈ ds, isDec c = true) (hfit : ¬ t.fits (digitsVal 10 ds))
    (hr : EndsNumber rest) {n : Nat} (hn : 2 ≤ n) (min : Nat) : parseExpr F n min (ds ++ (t.suffix ++ rest)) = .fail := by
  obtain ⟨c, ds', rfl⟩ : ∃ c s, ds = c :: s := by
    cases ds with
    | nil => exact absurd rfl hne
    | cons c s => exact ⟨c, s, rfl⟩
  obtain ⟨h1, h2, h3, h4⟩ := digit_facts (hd c (by simp))
  have h := C48_integer_literals F t false hne hd hr
  rw [if_neg (by decide), if_neg fun h => hfit h.1] at h
  cases n with
  | zero => omega
  | succ n =>
    rw [parseExpr]
    have : parseAtom F n (c :: ds' ++ (t.suffix ++ rest)) = .fail := by
      cases n with
      | zero => omega
      | succ n =>
        rw [parseAtom, h, List.cons_append,
          prefix_fail ⟨h4 _ (by decide), h4 _ (by decide), h4 _ (by decide)⟩,
          show "new".toList = 'n' :: "ew".toList from rfl, kw_ne (Ne.symm (h4 'n' (by decide))),
          lit_ne (Ne.symm (h4 '[' (by decide))), lit_ne (Ne.symm (h4 '(' (by decide))), lit_ne (Ne.symm (h4 's' (by decide)))]
        simp only [wordAtoms, firstOk]
        rw [show "null".toList = 'n' :: "ull".toList from rfl, show "this".toList = 't' :: "his".toList from rfl,
          show "super".toList = 's' :: "uper".toList from rfl, kw_ne (Ne.symm (h4 'n' (by decide))),
          kw_ne (Ne.symm (h4 't' (by decide))), kw_ne (Ne.symm (h4 's' (by decide)))]
        simp only [identRule, h2]
        rfl
    rw [this]
    rfl

/-- The smallest number, whose absolute value is out of range, is read as a constant. -/
theorem reads_smallest (t : IntType) (ht : t.signed = true) {ds : Text} (hne : ds ≠ []) (hd : ∀ c ∈ ds, isDec c = true)
    (hfit : ¬ t.fits (digitsVal 10 ds)) (hmin : t.fits (-(digitsVal 10 ds : Int))) :
    ReadAs F 11 11 ('-' :: (ds ++ t.suffix)) (.Constant (t.constant (-(digitsVal 10 ds : Int)))) := by
  refine ReadAs.ofAtom ⟨'-', _, rfl, by decide⟩ (fun rest _ _ => ?_) fun rest hf => ?_
  · exact NG.other (by decide) (by decide) (by decide) (by decide) (by decide) (by decide)
  · have hr := endsNumber_of (by omega) hf
    have h := C48_integer_literals F t true hne hd hr
    rw [if_pos rfl, if_pos ⟨hmin, fun _ => ht⟩] at h
    have e : '-' :: (ds ++ t.suffix) ++ rest = '-' :: (ds ++ (t.suffix ++ rest)) := by simp
    have e' : '-' :: ds ++ (t.suffix ++ rest) = '-' :: (ds ++ (t.suffix ++ rest)) := rfl
    rw [e]
    rw [e'] at h
    refine Eventually.succ (.above 2 fun _ h => h) fun n h2 => ?_
    have hb : blanks (ds ++ (t.suffix ++ rest)) = ds ++ (t.suffix ++ rest) := by
      cases ds with
      | nil => exact absurd rfl hne
      | cons c s => exact Starts.blanks ⟨c, _, rfl, (digit_facts (hd c (by simp))).1⟩
    have hp : (firstOk prefixOps fun x =>
        (lit x.1 ('-' :: (ds ++ (t.suffix ++ rest)))).bind fun _ r =>
        (parseExpr F n 11 (blanks r)).bind fun e r => .ok (Expr.UnOp e x.2) r) = .fail := by
      refine firstOk_fail fun x hx => ?_
      simp only [prefixOps, List.mem_cons, List.not_mem_nil, or_false] at hx
      rcases hx with rfl | rfl | rfl
      · rw [show "!".toList = ['!'] from rfl, lit_ne (by decide)]; rfl
      · rw [show "~".toList = ['~'] from rfl, lit_ne (by decide)]; rfl
      · have : lit "-".toList ('-' :: (ds ++ (t.suffix ++ rest))) = .ok () (ds ++ (t.suffix ++ rest)) := lit_self ['-'] _
        rw [this]
        show (parseExpr F n 11 (blanks (ds ++ (t.suffix ++ rest)))).bind _ = _
        rw [hb, number_bad t hne hd hfit hr h2]
        rfl
    rw [parseAtom, hp, h, show "new".toList = 'n' :: "ew".toList from rfl, kw_ne (by decide), lit_ne (by decide), lit_ne (by decide),
      lit_ne (by decide)]
    simp only [wordAtoms, firstOk]
    rw [show "null".toList = 'n' :: "ull".toList from rfl, show "this".toList = 't' :: "his".toList from rfl,
      show "super".toList = 's' :: "uper".toList from rfl, kw_ne (by decide), kw_ne (by decide), kw_ne (by decide)]
    rfl

/-- A number with a minus in front is the negation of the number. -/
theorem reads_minus (t : IntType) {ds : Text} (hne : ds ≠ []) (hd : ∀ c ∈ ds, isDec c = true) (hfit : t.fits (digitsVal 10 ds)) :
    ReadAs F 11 11 ('-' :: (ds ++ t.suffix)) (.UnOp (.Constant (t.constant (digitsVal 10 ds))) .Neg) :=
  reads_prefix (x := ("-".toList, .Neg)) (by decide) (reads_number t hne hd hfit) (by omega) (by omega)

end Redscript
