import Verif.Codec.Lemmas

/-!
# C01: primitive wire values survive a write/read cycle

Each theorem says: reading from a stream that starts with the written bytes returns the value
written and leaves exactly the bytes that followed.
-/

namespace Redscript

/-- C01, 8-bit integers (`u8`, `i8` patterns). -/
theorem C01_u8 (v : BitVec 8) (rest : Bytes) : decU8 (encU8 v ++ rest) = .ok (v, rest) :=
  decU8_rt v rest
/-- C01, 16-bit integers. -/
theorem C01_u16 (v : BitVec 16) (rest : Bytes) : decU16 (encU16 v ++ rest) = .ok (v, rest) :=
  decU16_rt v rest
/-- C01, 32-bit integers and `f32` patterns. -/
theorem C01_u32 (v : BitVec 32) (rest : Bytes) : decU32 (encU32 v ++ rest) = .ok (v, rest) :=
  decU32_rt v rest
/-- C01, 64-bit integers and `f64` patterns. -/
theorem C01_u64 (v : BitVec 64) (rest : Bytes) : decU64 (encU64 v ++ rest) = .ok (v, rest) :=
  decU64_rt v rest
/-- C01, booleans. -/
theorem C01_bool (b : Bool) (rest : Bytes) : decBool (encBool b ++ rest) = .ok (b, rest) :=
  decBool_rt b rest

/-- The integer encodings have the documented widths and are little-endian: byte `i` of the
encoding carries bits `8*i .. 8*i+7` of the value. -/
theorem C01_little_endian (v : BitVec 64) (i : Nat) (h : i < 8) :
    (encU64 v).length = 8 ∧ (encU64 v)[i]? = some (BitVec.ofNat 8 (v.toNat / 256 ^ i)) := by
  have key : ∀ (k n i : Nat), i < k → (leBytes k n)[i]? = some (BitVec.ofNat 8 (n / 256 ^ i)) := by
    intro k
    induction k with
    | zero => intro n i h; omega
    | succ k ih =>
      intro n i h
      cases i with
      | zero =>
        simp only [leBytes, List.getElem?_cons_zero, Nat.pow_zero, Nat.div_one]
        congr 1
        apply BitVec.eq_of_toNat_eq
        simp
      | succ i =>
        simp only [leBytes, List.getElem?_cons_succ]
        rw [ih _ _ (by omega), Nat.div_div_eq_div_mul, Nat.pow_succ, Nat.mul_comm 256]
  exact ⟨leBytes_length _ _, key 8 _ i h⟩

example : encU64 0x0123456789abcdef = [0xef, 0xcd, 0xab, 0x89, 0x67, 0x45, 0x23, 0x01] := by decide

/-- C01, fixed-size byte arrays. -/
theorem C01_array (bs rest : Bytes) : decBytes bs.length (bs ++ rest) = .ok (bs, rest) :=
  decBytes_rt bs rest

/-- C01, NUL-terminated strings without interior NUL. -/
theorem C01_cstr (s : String) (h : ∀ b ∈ strBytes s, b ≠ 0) (rest : Bytes) :
    decCStr (encCStr s ++ rest) = .ok (s, rest) := by
  unfold decCStr encCStr
  rw [List.append_assoc, List.singleton_append, Dec.bind_ok (decUntilNul_rt _ h rest),
    strOfBytes_strBytes]
  rfl

example : ∀ b ∈ strBytes "gameFx;v1", b ≠ 0 := by decide

/-- The exclusion of interior NUL bytes is exact: with one, the reader returns something else. -/
theorem C01_cstr_nul_needed (s : String) (h : ¬ ∀ b ∈ strBytes s, b ≠ 0) (rest : Bytes) :
    decCStr (encCStr s ++ rest) ≠ .ok (s, rest) := by
  intro hd
  apply h
  obtain ⟨a, m, h1, h2⟩ := Dec.bind_eq_ok.1 hd
  obtain ⟨_, hn⟩ := decUntilNul_ok _ _ _ h1
  unfold Dec.lift at h2
  split at h2
  · next t ht =>
    simp at h2
    rw [← h2.1, strBytes_of_ofBytes ht]
    exact hn
  · cases h2

example : ¬ ∀ b ∈ strBytes "a\x00b", b ≠ 0 := by decide

/-- C01, `u16`-prefixed strings: whatever the encoder accepts is read back. -/
theorem C01_str16 (s : String) (bs rest : Bytes) (h : encStr16 s = .ok bs) :
    decStr16 (bs ++ rest) = .ok (s, rest) := decStr16_rt s bs rest h
/-- C01, `u32`-prefixed strings. -/
theorem C01_str32 (s : String) (bs rest : Bytes) (h : encStr32 s = .ok bs) :
    decStr32 (bs ++ rest) = .ok (s, rest) := decStr32_rt s bs rest h

example : encStr16 "héllo" = .ok [6, 0, 0x68, 0xc3, 0xa9, 0x6c, 0x6c, 0x6f] := by decide

/-- The prefixed string encoder succeeds exactly below the prefix range, and panics above it. -/
theorem C01_str16_accepts (s : String) :
    (∃ bs, encStr16 s = .ok bs) ↔ (strBytes s).length < 2 ^ 16 := by
  constructor
  · rintro ⟨bs, h⟩
    obtain ⟨a, b, h1, -, -⟩ := seq_ok.1 h
    exact (encLen16_ok h1).1
  · intro h
    refine ⟨encU16 (BitVec.ofNat 16 (strBytes s).length) ++ strBytes s, ?_⟩
    simp [encStr16, encLen16, h, Enc.seq]

/-- C01, `u32`-prefixed lists of any element type whose codec round-trips. -/
theorem C01_vec32 (enc : α → Enc) (dec : Dec α)
    (helem : ∀ a bs rest, enc a = .ok bs → dec (bs ++ rest) = .ok (a, rest))
    (as : List α) (bs rest : Bytes) (h : encVec32 enc as = .ok bs) :
    decVec32 dec (bs ++ rest) = .ok (as, rest) :=
  decVec32_rt as (fun a _ => helem a) bs rest h

example : encVec32 (fun v => .ok (encU16 v)) [0x0102, 0x0304] = .ok [2, 0, 0, 0, 2, 1, 4, 3] := by
  decide

/-- Every 4-byte string is the encoding of the integer read from it, so reading and writing are
mutually inverse (likewise for the other widths). -/
theorem C01_u32_canonical (bs rest : Bytes) (v : BitVec 32) (h : decU32 bs = .ok (v, rest)) :
    bs = encU32 v ++ rest := encU32_of_dec h
/-- As `C01_u32_canonical` for 16 bits. -/
theorem C01_u16_canonical (bs rest : Bytes) (v : BitVec 16) (h : decU16 bs = .ok (v, rest)) :
    bs = encU16 v ++ rest := encU16_of_dec h
/-- As `C01_u32_canonical` for 64 bits. -/
theorem C01_u64_canonical (bs rest : Bytes) (v : BitVec 64) (h : decU64 bs = .ok (v, rest)) :
    bs = encU64 v ++ rest := encU64_of_dec h

example : decU32 [1, 2, 3, 4, 5] = .ok (0x04030201, [5]) := by decide

/-- Truncated input is an end-of-input error, never a value. -/
theorem C01_u32_truncated (v : BitVec 32) (k : Nat) (h : k < 4) :
    decU32 ((encU32 v).take k) = .error .eof := by
  have := decU32_rt v []
  rw [List.append_nil] at this
  exact decU32_stable.truncated this k (by simpa [encU32, leBytes_length] using h)

/-- Truncated strings are an end-of-input error, never a value. -/
theorem C01_cstr_truncated (s : String) (hs : ∀ b ∈ strBytes s, b ≠ 0) (k : Nat)
    (h : k < (encCStr s).length) : decCStr ((encCStr s).take k) = .error .eof := by
  have := C01_cstr s hs []
  rw [List.append_nil] at this
  exact decCStr_stable.truncated this k h

end Redscript
