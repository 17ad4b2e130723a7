import Verif.Codec.Model

/-! Helper lemmas for the primitive codec. -/

namespace Redscript

/-- `dec` reads back what `enc` wrote for `a`, whatever follows in the stream. -/
def RT (enc : α → Enc) (dec : Dec α) (a : α) : Prop :=
  ∀ bs rest, enc a = .ok bs → dec (bs ++ rest) = .ok (a, rest)

/-- A decoder never looks past what it consumes: success and definite errors are stable under
appending input, and what is left over is a suffix of the input. -/
structure Dec.Stable (d : Dec α) : Prop where
  ok : ∀ bs a r x, d bs = .ok (a, r) → d (bs ++ x) = .ok (a, r ++ x)
  err : ∀ bs e x, d bs = .error e → e ≠ .eof → d (bs ++ x) = .error e
  suffix : ∀ bs a r, d bs = .ok (a, r) → ∃ p, bs = p ++ r

theorem Dec.bind_def (d : Dec α) (f : α → Dec β) (bs : Bytes) :
    d.bind f bs = match d bs with
      | .ok (a, rest) => f a rest
      | .error e => .error e := rfl

@[simp] theorem Dec.pure_apply (a : α) (bs : Bytes) : Dec.pure a bs = .ok (a, bs) := rfl
@[simp] theorem Dec.fail_apply (e : Err) (bs : Bytes) : (Dec.fail e : Dec α) bs = .error e := rfl

theorem Dec.bind_ok {d : Dec α} {f : α → Dec β} {bs r : Bytes} {a : α} (h : d bs = .ok (a, r)) :
    d.bind f bs = f a r := by
  simp [Dec.bind_def, h]

theorem Dec.bind_eq_ok {d : Dec α} {f : α → Dec β} {bs r : Bytes} {b : β} :
    d.bind f bs = .ok (b, r) ↔ ∃ a m, d bs = .ok (a, m) ∧ f a m = .ok (b, r) := by
  rw [Dec.bind_def]
  constructor
  · intro h
    split at h
    · next a m hd => exact ⟨a, m, hd, h⟩
    · cases h
  · rintro ⟨a, m, hd, hf⟩
    simp [hd, hf]

theorem Dec.bind_eq_err {d : Dec α} {f : α → Dec β} {bs : Bytes} {e : Err} :
    d.bind f bs = .error e ↔ d bs = .error e ∨ ∃ a m, d bs = .ok (a, m) ∧ f a m = .error e := by
  rw [Dec.bind_def]
  cases hd : d bs with
  | error e' => simp
  | ok p =>
    obtain ⟨a, m⟩ := p
    constructor
    · intro h; exact .inr ⟨a, m, rfl, h⟩
    · rintro (h | ⟨a', m', h1, h2⟩)
      · cases h
      · cases h1; exact h2

theorem Dec.Stable.pure (a : α) : (Dec.pure a).Stable where
  ok := by intro bs b r x h; simp at h; simp [h]
  err := by intro bs e x h; simp at h
  suffix := by intro bs b r h; simp at h; exact ⟨[], by simp [h]⟩

theorem Dec.Stable.fail (e : Err) : (Dec.fail e : Dec α).Stable where
  ok := by intro bs b r x h; simp at h
  err := by intro bs e' x h _; simp at h; simp [h]
  suffix := by intro bs b r h; simp at h

theorem Dec.Stable.lift (x : Except Err α) : (Dec.lift x).Stable := by
  cases x with
  | ok a => exact Dec.Stable.pure a
  | error e => exact Dec.Stable.fail e

theorem Dec.Stable.bind {d : Dec α} {f : α → Dec β} (hd : d.Stable) (hf : ∀ a, (f a).Stable) :
    (d.bind f).Stable where
  ok := by
    intro bs b r x h
    obtain ⟨a, m, h1, h2⟩ := Dec.bind_eq_ok.1 h
    rw [Dec.bind_ok (hd.ok _ _ _ x h1)]
    exact (hf a).ok _ _ _ _ h2
  err := by
    intro bs e x h he
    rcases Dec.bind_eq_err.1 h with h1 | ⟨a, m, h1, h2⟩
    · rw [Dec.bind_def, hd.err _ _ x h1 he]
    · rw [Dec.bind_ok (hd.ok _ _ _ x h1)]
      exact (hf a).err _ _ _ h2 he
  suffix := by
    intro bs b r h
    obtain ⟨a, m, h1, h2⟩ := Dec.bind_eq_ok.1 h
    obtain ⟨p, hp⟩ := hd.suffix _ _ _ h1
    obtain ⟨q, hq⟩ := (hf a).suffix _ _ _ h2
    exact ⟨p ++ q, by simp [hp, hq]⟩

/-- Round trip plus stability give prefix-freeness: every strict prefix of an encoding is reported
as end of input. -/
theorem Dec.Stable.truncated {d : Dec α} (hs : d.Stable) {bs : Bytes} {a : α}
    (h : d bs = .ok (a, [])) (k : Nat) (hk : k < bs.length) : d (bs.take k) = .error .eof := by
  cases hd : d (bs.take k) with
  | ok p =>
    obtain ⟨b, r⟩ := p
    have := hs.ok _ _ _ (bs.drop k) hd
    rw [List.take_append_drop, h] at this
    simp at this
    omega
  | error e =>
    by_cases he : e = .eof
    · rw [he]
    · have := hs.err _ _ (bs.drop k) hd he
      rw [List.take_append_drop, h] at this
      cases this

theorem seq_ok {x y : Enc} {bs : Bytes} :
    x +++ y = .ok bs ↔ ∃ a b, x = .ok a ∧ y = .ok b ∧ bs = a ++ b := by
  unfold Enc.seq
  constructor
  · intro h
    cases x with
    | error e => cases h
    | ok a =>
      cases y with
      | error e => cases h
      | ok b => exact ⟨a, b, rfl, rfl, by simpa using h.symm⟩
  · rintro ⟨a, b, rfl, rfl, rfl⟩; rfl

/-! ## Integers -/

theorem leBytes_length (k n : Nat) : (leBytes k n).length = k := by
  induction k generalizing n with
  | zero => rfl
  | succ k ih => simp [leBytes, ih]

theorem leNat_leBytes (k n : Nat) (rest : Bytes) :
    leNat k (leBytes k n ++ rest) = .ok (n % 256 ^ k, rest) := by
  induction k generalizing n with
  | zero => simp [leNat, leBytes, Nat.mod_one]
  | succ k ih =>
    simp only [leNat, leBytes, List.cons_append, ih]
    simp only [BitVec.toNat_ofNat, Nat.mod_mod_of_dvd n (show (2 ^ 8) ∣ 256 from ⟨1, rfl⟩)]
    rw [show 256 ^ (k + 1) = 256 * 256 ^ k by rw [Nat.pow_succ, Nat.mul_comm], Nat.mod_mul]

theorem leNat_stable (k : Nat) : (leNat k).Stable := by
  induction k with
  | zero =>
    refine ⟨?_, ?_, ?_⟩
    · intro bs a r x h; simp [leNat] at h; simp [leNat, h]
    · intro bs e x h; simp [leNat] at h
    · intro bs a r h; simp [leNat] at h; exact ⟨[], by simp [h]⟩
  | succ k ih =>
    refine ⟨?_, ?_, ?_⟩
    · intro bs a r x h
      cases bs with
      | nil => simp [leNat] at h
      | cons b rest =>
        simp only [leNat] at h
        split at h
        · next n rest' hn =>
          simp at h
          simp [leNat, ih.ok _ _ _ x hn, h]
        · cases h
    · intro bs e x h he
      cases bs with
      | nil => simp [leNat] at h; exact absurd h.symm he
      | cons b rest =>
        simp only [leNat] at h
        split at h
        · cases h
        · next e' hn =>
          simp at h; subst h
          simp [leNat, ih.err _ _ x hn he]
    · intro bs a r h
      cases bs with
      | nil => simp [leNat] at h
      | cons b rest =>
        simp only [leNat] at h
        split at h
        · next n rest' hn =>
          simp at h
          obtain ⟨p, hp⟩ := ih.suffix _ _ _ hn
          exact ⟨b :: p, by simp [hp, h]⟩
        · cases h

/-- What `leNat` accepts is exactly an encoding. -/
theorem leBytes_of_leNat (k : Nat) : ∀ (bs : Bytes) (n : Nat) (rest : Bytes),
    leNat k bs = .ok (n, rest) → bs = leBytes k n ++ rest ∧ n < 256 ^ k := by
  induction k with
  | zero =>
    intro bs n rest h
    simp [leNat] at h
    obtain ⟨rfl, rfl⟩ := h
    simp [leBytes]
  | succ k ih =>
    intro bs n rest h
    cases bs with
    | nil => simp [leNat] at h
    | cons b bs =>
      simp only [leNat] at h
      split at h
      · next m rest' hm =>
        simp at h
        obtain ⟨h1, h2⟩ := h
        obtain ⟨e, hlt⟩ := ih _ _ _ hm
        have hb : b.toNat < 256 := b.isLt
        subst h1
        have hdiv : (b.toNat + 256 * m) / 256 = m := by omega
        have hmod : (b.toNat + 256 * m) % 256 = b.toNat := by omega
        constructor
        · simp [leBytes, hdiv, hmod, ← h2, e]
        · rw [Nat.pow_succ]; omega
      · cases h

theorem decU8_rt (v : BitVec 8) (rest : Bytes) : decU8 (encU8 v ++ rest) = .ok (v, rest) := rfl

theorem decU16_rt (v : BitVec 16) (rest : Bytes) : decU16 (encU16 v ++ rest) = .ok (v, rest) := by
  unfold decU16 encU16
  rw [Dec.bind_ok (leNat_leBytes 2 _ rest)]
  simp only [Dec.pure_apply, Except.ok.injEq, Prod.mk.injEq, and_true]
  apply BitVec.eq_of_toNat_eq
  have := v.isLt
  simp only [BitVec.toNat_ofNat]
  omega

theorem decU32_rt (v : BitVec 32) (rest : Bytes) : decU32 (encU32 v ++ rest) = .ok (v, rest) := by
  unfold decU32 encU32
  rw [Dec.bind_ok (leNat_leBytes 4 _ rest)]
  simp only [Dec.pure_apply, Except.ok.injEq, Prod.mk.injEq, and_true]
  apply BitVec.eq_of_toNat_eq
  have := v.isLt
  simp only [BitVec.toNat_ofNat]
  omega

theorem decU64_rt (v : BitVec 64) (rest : Bytes) : decU64 (encU64 v ++ rest) = .ok (v, rest) := by
  unfold decU64 encU64
  rw [Dec.bind_ok (leNat_leBytes 8 _ rest)]
  simp only [Dec.pure_apply, Except.ok.injEq, Prod.mk.injEq, and_true]
  apply BitVec.eq_of_toNat_eq
  have := v.isLt
  simp only [BitVec.toNat_ofNat]
  omega

theorem decBool_rt (b : Bool) (rest : Bytes) : decBool (encBool b ++ rest) = .ok (b, rest) := by
  cases b <;> rfl

theorem decU8_stable : decU8.Stable := by
  refine ⟨?_, ?_, ?_⟩
  · intro bs a r x h
    cases bs with
    | nil => simp [decU8] at h
    | cons b bs => simp [decU8] at h; simp [decU8, h]
  · intro bs e x h he
    cases bs with
    | nil => simp [decU8] at h; exact absurd h.symm he
    | cons b bs => simp [decU8] at h
  · intro bs a r h
    cases bs with
    | nil => simp [decU8] at h
    | cons b bs => simp [decU8] at h; exact ⟨[b], by simp [h]⟩

theorem decU16_stable : decU16.Stable := (leNat_stable 2).bind fun _ => .pure _
theorem decU32_stable : decU32.Stable := (leNat_stable 4).bind fun _ => .pure _
theorem decU64_stable : decU64.Stable := (leNat_stable 8).bind fun _ => .pure _
theorem decBool_stable : decBool.Stable := decU8_stable.bind fun _ => .pure _

theorem encU16_of_dec {bs rest : Bytes} {v : BitVec 16} (h : decU16 bs = .ok (v, rest)) :
    bs = encU16 v ++ rest := by
  obtain ⟨n, m, h1, h2⟩ := Dec.bind_eq_ok.1 h
  obtain ⟨e, hlt⟩ := leBytes_of_leNat 2 _ _ _ h1
  simp at h2
  obtain ⟨rfl, rfl⟩ := h2
  simp [encU16, e, Nat.mod_eq_of_lt hlt]

theorem encU32_of_dec {bs rest : Bytes} {v : BitVec 32} (h : decU32 bs = .ok (v, rest)) :
    bs = encU32 v ++ rest := by
  obtain ⟨n, m, h1, h2⟩ := Dec.bind_eq_ok.1 h
  obtain ⟨e, hlt⟩ := leBytes_of_leNat 4 _ _ _ h1
  simp at h2
  obtain ⟨rfl, rfl⟩ := h2
  simp [encU32, e, Nat.mod_eq_of_lt hlt]

theorem encU64_of_dec {bs rest : Bytes} {v : BitVec 64} (h : decU64 bs = .ok (v, rest)) :
    bs = encU64 v ++ rest := by
  obtain ⟨n, m, h1, h2⟩ := Dec.bind_eq_ok.1 h
  obtain ⟨e, hlt⟩ := leBytes_of_leNat 8 _ _ _ h1
  simp at h2
  obtain ⟨rfl, rfl⟩ := h2
  simp [encU64, e, Nat.mod_eq_of_lt hlt]

/-! ## Strings -/

theorem strOfBytes_strBytes (s : String) : strOfBytes (strBytes s) = .ok s := by
  have h : ((strBytes s).map UInt8.ofBitVec).toArray = s.toByteArray.data := by
    simp [strBytes, Function.comp_def]
  unfold strOfBytes
  rw [h]
  have : String.fromUTF8? ⟨s.toByteArray.data⟩ = some s := by
    show String.fromUTF8? s.toByteArray = some s
    simp [String.fromUTF8?, s.isValidUTF8, String.fromUTF8]
  rw [this]

theorem strBytes_of_ofBytes {bs : Bytes} {s : String} (h : strOfBytes bs = .ok s) :
    strBytes s = bs := by
  unfold strOfBytes at h
  split at h
  · next t ht =>
    simp at h; subst h
    unfold String.fromUTF8? at ht
    split at ht
    · simp at ht
      subst ht
      simp [strBytes, String.fromUTF8, Function.comp_def]
    · cases ht
  · cases h

theorem decBytes_rt (bs rest : Bytes) : decBytes bs.length (bs ++ rest) = .ok (bs, rest) := by
  simp [decBytes]

theorem decBytes_stable (n : Nat) : (decBytes n).Stable := by
  refine ⟨?_, ?_, ?_⟩
  · intro bs a r x h
    unfold decBytes at h ⊢
    split at h
    · next hn =>
      simp at h
      have : n ≤ (bs ++ x).length := by simp; omega
      rw [if_pos this]
      simp [List.take_append_of_le_length hn, List.drop_append_of_le_length hn, h]
    · cases h
  · intro bs e x h he
    unfold decBytes at h
    split at h
    · cases h
    · simp at h; exact absurd h.symm he
  · intro bs a r h
    unfold decBytes at h
    split at h
    · simp at h; exact ⟨bs.take n, by rw [← h.2]; simp⟩
    · cases h

theorem decUntilNul_rt (s : Bytes) (hs : ∀ b ∈ s, b ≠ 0) (rest : Bytes) :
    decUntilNul (s ++ 0 :: rest) = .ok (s, rest) := by
  induction s with
  | nil => simp [decUntilNul]
  | cons b s ih =>
    have hb : b ≠ 0 := hs b (by simp)
    rw [List.cons_append, decUntilNul, if_neg hb, ih fun c hc => hs c (by simp [hc])]

theorem decUntilNul_ok (bs : Bytes) : ∀ s rest, decUntilNul bs = .ok (s, rest) →
    bs = s ++ 0 :: rest ∧ ∀ b ∈ s, b ≠ 0 := by
  induction bs with
  | nil => intro s rest h; simp [decUntilNul] at h
  | cons b bs ih =>
    intro s rest h
    rw [decUntilNul] at h
    split at h
    · next hb => simp at h; obtain ⟨rfl, rfl⟩ := h; simp [hb]
    · next hb =>
      split at h
      · next s' r' h' =>
        simp at h; obtain ⟨rfl, rfl⟩ := h
        obtain ⟨e, hn⟩ := ih _ _ h'
        refine ⟨by simp [e], ?_⟩
        intro c hc
        rcases List.mem_cons.1 hc with rfl | hc
        · exact hb
        · exact hn c hc
      · cases h

theorem decUntilNul_err (bs : Bytes) : ∀ e, decUntilNul bs = .error e → e = .eof := by
  induction bs with
  | nil => intro e h; simp [decUntilNul] at h; exact h.symm
  | cons b bs ih =>
    intro e h
    rw [decUntilNul] at h
    split at h
    · cases h
    · split at h
      · cases h
      · next e' h' => simp at h; subst h; exact ih _ h'

theorem decUntilNul_stable : decUntilNul.Stable where
  ok := by
    intro bs a r x h
    obtain ⟨rfl, hn⟩ := decUntilNul_ok _ _ _ h
    simpa using decUntilNul_rt a hn (r ++ x)
  err := by
    intro bs e x h he
    exact absurd (decUntilNul_err _ _ h) he
  suffix := by
    intro bs a r h
    obtain ⟨rfl, _⟩ := decUntilNul_ok _ _ _ h
    exact ⟨a ++ [0], by simp⟩

theorem decCStr_stable : decCStr.Stable := decUntilNul_stable.bind fun _ => .lift _
theorem decStr_stable (n : Nat) : (decStr n).Stable := (decBytes_stable n).bind fun _ => .lift _
theorem decStr16_stable : decStr16.Stable := decU16_stable.bind fun _ => decStr_stable _
theorem decStr32_stable : decStr32.Stable := decU32_stable.bind fun _ => decStr_stable _

theorem decStr_rt (s : String) (rest : Bytes) :
    decStr (strBytes s).length (strBytes s ++ rest) = .ok (s, rest) := by
  unfold decStr
  rw [Dec.bind_ok (decBytes_rt _ rest), strOfBytes_strBytes]
  rfl

theorem encLen16_ok {n : Nat} {bs : Bytes} (h : encLen16 n = .ok bs) :
    n < 2 ^ 16 ∧ bs = encU16 (BitVec.ofNat 16 n) := by
  unfold encLen16 at h
  split at h
  · next hn => simp at h; exact ⟨hn, h.symm⟩
  · cases h

theorem encLen32_ok {n : Nat} {bs : Bytes} (h : encLen32 n = .ok bs) :
    n < 2 ^ 32 ∧ bs = encU32 (BitVec.ofNat 32 n) := by
  unfold encLen32 at h
  split at h
  · next hn => simp at h; exact ⟨hn, h.symm⟩
  · cases h

theorem decStr16_rt : ∀ s, RT encStr16 decStr16 s := by
  intro s bs rest h
  obtain ⟨a, b, h1, h2, rfl⟩ := seq_ok.1 h
  obtain ⟨hn, rfl⟩ := encLen16_ok h1
  simp at h2; subst h2
  rw [decStr16, List.append_assoc, Dec.bind_ok (decU16_rt _ _)]
  rw [BitVec.toNat_ofNat, Nat.mod_eq_of_lt hn, decStr_rt]

theorem decStr32_rt : ∀ s, RT encStr32 decStr32 s := by
  intro s bs rest h
  obtain ⟨a, b, h1, h2, rfl⟩ := seq_ok.1 h
  obtain ⟨hn, rfl⟩ := encLen32_ok h1
  simp at h2; subst h2
  rw [decStr32, List.append_assoc, Dec.bind_ok (decU32_rt _ _)]
  rw [BitVec.toNat_ofNat, Nat.mod_eq_of_lt hn, decStr_rt]

/-! ## Sequences -/

theorem decList_rt {enc : α → Enc} {dec : Dec α} (as : List α) (h : ∀ a ∈ as, RT enc dec a)
    {bs : Bytes} (rest : Bytes) (he : encList enc as = .ok bs) :
    decList dec as.length (bs ++ rest) = .ok (as, rest) := by
  induction as generalizing bs with
  | nil => simp [encList] at he; subst he; simp [decList]
  | cons a as ih =>
    obtain ⟨x, y, h1, h2, rfl⟩ := seq_ok.1 he
    simp only [List.length_cons, decList, List.append_assoc]
    rw [Dec.bind_ok (h a (by simp) _ _ h1), Dec.bind_ok (ih (fun b hb => h b (by simp [hb])) h2)]
    rfl

theorem decList_stable {dec : Dec α} (h : dec.Stable) (n : Nat) : (decList dec n).Stable := by
  induction n with
  | zero => exact .pure _
  | succ n ih => exact h.bind fun _ => ih.bind fun _ => .pure _

theorem decVec32_rt {enc : α → Enc} {dec : Dec α} (as : List α) (h : ∀ a ∈ as, RT enc dec a) :
    RT (encVec32 enc) (decVec32 dec) as := by
  intro bs rest he
  obtain ⟨x, y, h1, h2, rfl⟩ := seq_ok.1 he
  obtain ⟨hn, rfl⟩ := encLen32_ok h1
  rw [decVec32, List.append_assoc, Dec.bind_ok (decU32_rt _ _)]
  rw [BitVec.toNat_ofNat, Nat.mod_eq_of_lt hn, decList_rt as h _ h2]

theorem decVec32_stable {dec : Dec α} (h : dec.Stable) : (decVec32 dec).Stable :=
  decU32_stable.bind fun _ => decList_stable h _

theorem encList_ok {f : α → Bytes} (as : List α) :
    encList (fun a => .ok (f a)) as = .ok (as.flatMap f) := by
  induction as with
  | nil => rfl
  | cons a as ih => simp [encList, ih, Enc.seq]

end Redscript
