import Verif.Bytecode.Lemmas

/-!
# C02-C05: instructions and code bodies survive a write/read cycle; jump offsets
-/

namespace Redscript

/-- C02: every instruction other than the in-memory label marker is read back exactly, and the
reader stops exactly behind it. -/
theorem C02_instr_roundtrip (i : Instr Offset) (hi : ∀ l, i ≠ .Target l) (bs rest : Bytes)
    (h : encInstr i = .ok bs) : decInstr (bs ++ rest) = .ok (i, rest) :=
  decInstr_rt i (by cases i <;> first | rfl | exact absurd rfl (hi _)) bs rest h

/-- Encoding only fails (panics) for a profiling marker with a name of 4 GiB or more. -/
theorem C02_instr_encodes (i : Instr Offset) :
    (∃ bs, encInstr i = .ok bs) ↔
      ∀ p, i = .StartProfiling p → (strBytes p.function).length < 2 ^ 32 := by
  cases i with
  | StartProfiling p =>
    simp only [encInstr]
    constructor
    · rintro ⟨bs, h⟩ q hq
      cases hq
      obtain ⟨a, b, h1, h2, rfl⟩ := seq_ok.1 h
      obtain ⟨c, d, h3, h4, rfl⟩ := seq_ok.1 h2
      obtain ⟨x, y, h5, h6, rfl⟩ := seq_ok.1 h3
      exact (encLen32_ok h5).1
    · intro h
      have := h p rfl
      simp [encStartProfiling, encStr32, encLen32, this, Enc.seq]
  | _ => simp [encInstr]

-- a jump whose offset wraps when the size of the operand is subtracted
example : encInstr (.SwitchLabel 0x8000 0x8004) = .ok [29, 0xfd, 0x7f, 0xff, 0x7f] := by decide
example : decInstr [29, 0xfd, 0x7f, 0xff, 0x7f, 7] = .ok (.SwitchLabel 0x8000 0x8004, [7]) := by decide

/-- The label marker is the one exception: its operand is not written. -/
theorem C02_target_not_preserved :
    ∃ bs, encInstr (.Target 5) = .ok bs ∧ decInstr bs = .ok (.Target 0, []) :=
  ⟨[23], by decide, by decide⟩

/-- C03: a body is read back exactly and the reader stops at its end, provided that its label markers
are those a file can hold (they carry no operand there), that it does not end in an instruction of
size 0 and that its total size fits the size prefix. -/
theorem C03_code_roundtrip_marked (code : List (Instr Offset))
    (hnt : ∀ i ∈ code, ∀ l, i = .Target l → l = 0)
    (hlast : ∀ i, code.getLast? = some i → i.size ≠ 0)
    (hsize : (code.map fun i => i.size.toNat).sum < 2 ^ 32)
    (bs rest : Bytes) (h : encCode code = .ok bs) : decCode (bs ++ rest) = .ok (code, rest) := by
  obtain ⟨a, b, h1, h2, rfl⟩ := seq_ok.1 h
  simp only [Except.ok.injEq] at h1; subst h1
  rw [decCode, List.append_assoc, Dec.bind_ok (decU32_rt _ _)]
  refine decCodeLoop_rt code hnt hlast _ _ ?_ _ ?_ b rest h2
  · rw [codeSize32_toNat code hsize]
    simp [codeSizeNat]
  · have := encList_length _ _ h2
    simp; omega

example : ∃ bs, encCode [.Nop, .Target 0, .Return] = .ok bs ∧
    decCode (bs ++ [7]) = .ok ([.Nop, .Target 0, .Return], [7]) :=
  ⟨[2, 0, 0, 0, 0, 23, 39], by decide, by decide⟩

/-- C03: a body without label markers is read back exactly and the reader stops at its end. The
size conditions are implied by the body fitting the 16-bit code address space
(`C03_code_roundtrip_16`). -/
theorem C03_code_roundtrip (code : List (Instr Offset)) (hnt : ∀ i ∈ code, ∀ l, i ≠ .Target l)
    (hprof : ∀ i ∈ code, ∀ p, i = .StartProfiling p → (strBytes p.function).length < 65530)
    (hsize : (code.map fun i => i.size.toNat).sum < 2 ^ 32)
    (bs rest : Bytes) (h : encCode code = .ok bs) : decCode (bs ++ rest) = .ok (code, rest) := by
  refine C03_code_roundtrip_marked code (fun i hi l hl => absurd hl (hnt i hi l)) ?_ hsize bs rest h
  intro i hi
  have hi := List.mem_of_getLast? hi
  have ht := hnt i hi
  have hp := hprof i hi
  cases i with
  | Target l => exact absurd rfl (ht l)
  | StartProfiling p =>
    have := hp p rfl
    intro h0
    have h0 := congrArg BitVec.toNat h0
    rw [size_startProfiling p this, show (0 : BitVec 16).toNat = 0 from rfl] at h0
    omega
  | _ => simp [Instr.size]

/-- C03 as stated: bodies within the 16-bit address space. Here the size of a profiling marker is
counted without truncation. -/
theorem C03_code_roundtrip_16 (code : List (Instr Offset)) (hnt : ∀ i ∈ code, ∀ l, i ≠ .Target l)
    (hsize : (code.map fun i => match i with
      | .StartProfiling p => 6 + (strBytes p.function).length
      | i => i.size.toNat).sum < 2 ^ 16)
    (bs rest : Bytes) (h : encCode code = .ok bs) : decCode (bs ++ rest) = .ok (code, rest) := by
  have hprof : ∀ i ∈ code, ∀ p, i = .StartProfiling p → (strBytes p.function).length < 65530 := by
    intro i hi p hp
    subst hp
    have := mem_le_sum _ _ (List.mem_map_of_mem (f := fun i : Instr Offset => match i with
      | .StartProfiling p => 6 + (strBytes p.function).length
      | i => i.size.toNat) hi)
    simp only at this
    omega
  refine C03_code_roundtrip code hnt hprof ?_ bs rest h
  refine Nat.lt_of_le_of_lt ?_ (Nat.lt_trans hsize (by decide))
  clear hsize h hnt
  induction code with
  | nil => simp
  | cons i is ih =>
    have := ih fun j hj => hprof j (by simp [hj])
    have hi := hprof i (by simp)
    simp only [List.map_cons, List.sum_cons]
    cases i with
    | StartProfiling p =>
      have := hi p rfl
      rw [size_startProfiling p this]
      exact Nat.add_le_add_left ‹_› _
    | _ => exact Nat.add_le_add_left this _

example : (∀ i ∈ ([.TrueConst, .JumpIfFalse 30, .StartProfiling ⟨"f", 1⟩, .Return] : List (Instr Offset)),
    ∀ l, i ≠ .Target l) ∧
    encCode [.TrueConst, .JumpIfFalse 30, .StartProfiling ⟨"f", 1⟩, .Return] =
      .ok [12, 0, 0, 0, 19, 32, 27, 0, 51, 1, 0, 0, 0, 102, 1, 39] := by
  refine ⟨by simp, by decide⟩

/-- Label markers must be resolved first: a body ending in one is not read back. -/
theorem C03_target_lost :
    ∃ bs, encCode [.Nop, .Target 0] = .ok bs ∧ decCode bs = .ok ([.Nop], [23]) :=
  ⟨[1, 0, 0, 0, 0, 23], by decide, by decide⟩

/-- C04: an unknown opcode is rejected. -/
theorem C04_unknown_opcode (op : Byte) (h : 104 ≤ op.toNat) (rest : Bytes) :
    decInstr (op :: rest) = .error .invalid := by
  have : decOperands op = .fail .invalid := by
    unfold decOperands
    split <;> first | omega | rfl
  show decOperands op rest = _
  rw [this]
  rfl

example : 104 ≤ (200 : Byte).toNat := by decide

/-- C04: every strict prefix of an instruction's encoding is an end-of-input error. -/
theorem C04_truncated (i : Instr Offset) (hi : ∀ l, i ≠ .Target l) (bs : Bytes)
    (h : encInstr i = .ok bs) (k : Nat) (hk : k < bs.length) :
    decInstr (bs.take k) = .error .eof := by
  have := C02_instr_roundtrip i hi bs [] h
  rw [List.append_nil] at this
  exact decInstr_stable.truncated this k hk

/-- C04: no instruction's encoding is a prefix of another's; in particular encodings are unique. -/
theorem C04_prefix_free (i j : Instr Offset) (hi : ∀ l, i ≠ .Target l) (hj : ∀ l, j ≠ .Target l)
    (a b : Bytes) (ha : encInstr i = .ok a) (hb : encInstr j = .ok b) (hp : a <+: b) : i = j := by
  obtain ⟨x, rfl⟩ := hp
  have h1 := C02_instr_roundtrip i hi a x ha
  have h2 := C02_instr_roundtrip j hj _ [] hb
  rw [List.append_nil, h1] at h2
  simp at h2
  exact h2.1

/-- C04: whatever the decoder accepts is determined by a prefix of the input, and it never reads
past it. -/
theorem C04_no_lookahead (bs rest more : Bytes) (i : Instr Offset)
    (h : decInstr bs = .ok (i, rest)) :
    (∃ p, bs = p ++ rest) ∧ decInstr (bs ++ more) = .ok (i, rest ++ more) :=
  ⟨decInstr_stable.suffix _ _ _ h, decInstr_stable.ok _ _ _ _ h⟩

/-- C04: an invalid instruction is reported as such, no matter what follows it. -/
theorem C04_error_stable (bs more : Bytes) (e : Err) (he : e ≠ .eof)
    (h : decInstr bs = .error e) : decInstr (bs ++ more) = .error e :=
  decInstr_stable.err _ _ _ h he

example : decInstr [16, 1, 2, 3] = .error .eof := by decide

/-- C05: resolving an offset against the position it was made from gives back the target, for all
pairs of positions. -/
theorem C05_offset_roundtrip (target base : Location) :
    (target.relative base).absolute base = target := by
  unfold Offset.absolute Location.relative
  apply BitVec.eq_of_toNat_eq
  have h1 := target.isLt
  have h2 := base.isLt
  rw [BitVec.toNat_ofInt, BitVec.toInt_eq_toNat_cond, BitVec.toNat_sub]
  split <;> omega

/-- C05: under checked arithmetic the subtraction of two positions below 32768 does not overflow. -/
theorem C05_no_overflow (target base : Location) (ht : target.toNat < 32768)
    (hb : base.toNat < 32768) :
    -32768 ≤ target.toInt - base.toInt ∧ target.toInt - base.toInt ≤ 32767 ∧
      (target.relative base).toInt = target.toInt - base.toInt := by
  have h1 : target.toInt = target.toNat := by rw [BitVec.toInt_eq_toNat_cond]; omega
  have h2 : base.toInt = base.toNat := by rw [BitVec.toInt_eq_toNat_cond]; omega
  refine ⟨by omega, by omega, ?_⟩
  unfold Location.relative
  rw [BitVec.toInt_eq_toNat_cond, BitVec.toNat_sub]
  split <;> omega

example : (40 : Location).relative 100 = -60 := by decide

/-- C05: the bound is needed: past it the checked build overflows. -/
theorem C05_overflow_witness :
    ∃ target base : Location, target.toInt - base.toInt < -32768 := ⟨32768, 1, by decide⟩

/-- C05: resolving offsets is injective, so distinct targets get distinct offsets. -/
theorem C05_relative_injective (a b base : Location) (h : a.relative base = b.relative base) :
    a = b := by
  rw [← C05_offset_roundtrip a base, h, C05_offset_roundtrip]

end Redscript
