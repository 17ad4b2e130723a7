import Verif.Bytecode.Model
import Verif.Codec.Lemmas

/-! Helper lemmas for instructions and code bodies. -/

namespace Redscript

theorem decIdx_rt (v : Idx) (rest : Bytes) : decIdx (encIdx v ++ rest) = .ok (v, rest) :=
  decU32_rt v rest
theorem decIdx_stable : decIdx.Stable := decU32_stable

theorem decOffset_rt (k : BitVec 16) (o : Offset) (rest : Bytes) :
    decOffset k (encOffset k o ++ rest) = .ok (o, rest) := by
  unfold decOffset encOffset
  rw [Dec.bind_ok (decU16_rt _ _)]
  simp only [Dec.pure_apply, BitVec.sub_add_cancel]

theorem decOffset_stable (k : BitVec 16) : (decOffset k).Stable := decU16_stable.bind fun _ => .pure _

theorem decBreakpoint_rt (b : Breakpoint) (rest : Bytes) :
    decBreakpoint (encBreakpoint b ++ rest) = .ok (b, rest) := by
  unfold decBreakpoint encBreakpoint
  simp only [List.append_assoc]
  rw [Dec.bind_ok (decU16_rt _ _), Dec.bind_ok (decU32_rt _ _), Dec.bind_ok (decU16_rt _ _),
    Dec.bind_ok (decU16_rt _ _), Dec.bind_ok (decBool_rt _ _), Dec.bind_ok (decU64_rt _ _)]
  rfl

theorem decBreakpoint_stable : decBreakpoint.Stable :=
  decU16_stable.bind fun _ => decU32_stable.bind fun _ => decU16_stable.bind fun _ =>
  decU16_stable.bind fun _ => decBool_stable.bind fun _ => decU64_stable.bind fun _ => .pure _

theorem decStartProfiling_rt : ∀ p, RT encStartProfiling decStartProfiling p := by
  intro p bs rest h
  obtain ⟨a, b, h1, h2, rfl⟩ := seq_ok.1 h
  simp at h2; subst h2
  rw [decStartProfiling, List.append_assoc, Dec.bind_ok (decStr32_rt _ _ _ h1),
    Dec.bind_ok (decU8_rt _ _)]
  rfl

theorem decStartProfiling_stable : decStartProfiling.Stable :=
  decStr32_stable.bind fun _ => decU8_stable.bind fun _ => .pure _

/-! The opcode table, one equation per opcode. -/

theorem decOperands_0 : decOperands 0 = .pure .Nop := rfl
theorem decOperands_1 : decOperands 1 = .pure .Null := rfl
theorem decOperands_2 : decOperands 2 = .pure .I32One := rfl
theorem decOperands_3 : decOperands 3 = .pure .I32Zero := rfl
theorem decOperands_4 : decOperands 4 = decU8.bind fun a => .pure (.I8Const a) := rfl
theorem decOperands_5 : decOperands 5 = decU16.bind fun a => .pure (.I16Const a) := rfl
theorem decOperands_6 : decOperands 6 = decU32.bind fun a => .pure (.I32Const a) := rfl
theorem decOperands_7 : decOperands 7 = decU64.bind fun a => .pure (.I64Const a) := rfl
theorem decOperands_8 : decOperands 8 = decU8.bind fun a => .pure (.U8Const a) := rfl
theorem decOperands_9 : decOperands 9 = decU16.bind fun a => .pure (.U16Const a) := rfl
theorem decOperands_10 : decOperands 10 = decU32.bind fun a => .pure (.U32Const a) := rfl
theorem decOperands_11 : decOperands 11 = decU64.bind fun a => .pure (.U64Const a) := rfl
theorem decOperands_12 : decOperands 12 = decU32.bind fun a => .pure (.F32Const a) := rfl
theorem decOperands_13 : decOperands 13 = decU64.bind fun a => .pure (.F64Const a) := rfl
theorem decOperands_14 : decOperands 14 = decIdx.bind fun a => .pure (.NameConst a) := rfl
theorem decOperands_15 : decOperands 15 = decIdx.bind fun a => decIdx.bind fun b => .pure (.EnumConst a b) := rfl
theorem decOperands_16 : decOperands 16 = decIdx.bind fun a => .pure (.StringConst a) := rfl
theorem decOperands_17 : decOperands 17 = decIdx.bind fun a => .pure (.TweakDbIdConst a) := rfl
theorem decOperands_18 : decOperands 18 = decIdx.bind fun a => .pure (.ResourceConst a) := rfl
theorem decOperands_19 : decOperands 19 = .pure .TrueConst := rfl
theorem decOperands_20 : decOperands 20 = .pure .FalseConst := rfl
theorem decOperands_21 : decOperands 21 = decBreakpoint.bind fun a => .pure (.Breakpoint a) := rfl
theorem decOperands_22 : decOperands 22 = .pure .Assign := rfl
theorem decOperands_23 : decOperands 23 = .pure (.Target 0) := rfl
theorem decOperands_24 : decOperands 24 = decIdx.bind fun a => .pure (.Local a) := rfl
theorem decOperands_25 : decOperands 25 = decIdx.bind fun a => .pure (.Param a) := rfl
theorem decOperands_26 : decOperands 26 = decIdx.bind fun a => .pure (.ObjectField a) := rfl
theorem decOperands_27 : decOperands 27 = .pure .ExternalVar := rfl
theorem decOperands_28 : decOperands 28 = decIdx.bind fun a => (decOffset 11).bind fun b => .pure (.Switch a b) := rfl
theorem decOperands_29 : decOperands 29 = (decOffset 3).bind fun a => (decOffset 5).bind fun b => .pure (.SwitchLabel a b) := rfl
theorem decOperands_30 : decOperands 30 = .pure .SwitchDefault := rfl
theorem decOperands_31 : decOperands 31 = (decOffset 3).bind fun a => .pure (.Jump a) := rfl
theorem decOperands_32 : decOperands 32 = (decOffset 3).bind fun a => .pure (.JumpIfFalse a) := rfl
theorem decOperands_33 : decOperands 33 = (decOffset 3).bind fun a => .pure (.Skip a) := rfl
theorem decOperands_34 : decOperands 34 = (decOffset 3).bind fun a => (decOffset 5).bind fun b => .pure (.Conditional a b) := rfl
theorem decOperands_35 : decOperands 35 = decU8.bind fun a => decIdx.bind fun b => .pure (.Construct a b) := rfl
theorem decOperands_36 : decOperands 36 = (decOffset 3).bind fun a => decU16.bind fun b => decIdx.bind fun c => decU16.bind fun d => .pure (.InvokeStatic a b c d) := rfl
theorem decOperands_37 : decOperands 37 = (decOffset 3).bind fun a => decU16.bind fun b => decIdx.bind fun c => decU16.bind fun d => .pure (.InvokeVirtual a b c d) := rfl
theorem decOperands_38 : decOperands 38 = .pure .ParamEnd := rfl
theorem decOperands_39 : decOperands 39 = .pure .Return := rfl
theorem decOperands_40 : decOperands 40 = decIdx.bind fun a => .pure (.StructField a) := rfl
theorem decOperands_41 : decOperands 41 = (decOffset 3).bind fun a => .pure (.Context a) := rfl
theorem decOperands_42 : decOperands 42 = decIdx.bind fun a => .pure (.Equals a) := rfl
theorem decOperands_43 : decOperands 43 = decIdx.bind fun a => .pure (.RefStringEqualsString a) := rfl
theorem decOperands_44 : decOperands 44 = decIdx.bind fun a => .pure (.StringEqualsRefString a) := rfl
theorem decOperands_45 : decOperands 45 = decIdx.bind fun a => .pure (.NotEquals a) := rfl
theorem decOperands_46 : decOperands 46 = decIdx.bind fun a => .pure (.RefStringNotEqualsString a) := rfl
theorem decOperands_47 : decOperands 47 = decIdx.bind fun a => .pure (.StringNotEqualsRefString a) := rfl
theorem decOperands_48 : decOperands 48 = decIdx.bind fun a => .pure (.New a) := rfl
theorem decOperands_49 : decOperands 49 = .pure .Delete := rfl
theorem decOperands_50 : decOperands 50 = .pure .This := rfl
theorem decOperands_51 : decOperands 51 = decStartProfiling.bind fun a => .pure (.StartProfiling a) := rfl
theorem decOperands_52 : decOperands 52 = decIdx.bind fun a => .pure (.ArrayClear a) := rfl
theorem decOperands_53 : decOperands 53 = decIdx.bind fun a => .pure (.ArraySize a) := rfl
theorem decOperands_54 : decOperands 54 = decIdx.bind fun a => .pure (.ArrayResize a) := rfl
theorem decOperands_55 : decOperands 55 = decIdx.bind fun a => .pure (.ArrayFindFirst a) := rfl
theorem decOperands_56 : decOperands 56 = decIdx.bind fun a => .pure (.ArrayFindFirstFast a) := rfl
theorem decOperands_57 : decOperands 57 = decIdx.bind fun a => .pure (.ArrayFindLast a) := rfl
theorem decOperands_58 : decOperands 58 = decIdx.bind fun a => .pure (.ArrayFindLastFast a) := rfl
theorem decOperands_59 : decOperands 59 = decIdx.bind fun a => .pure (.ArrayContains a) := rfl
theorem decOperands_60 : decOperands 60 = decIdx.bind fun a => .pure (.ArrayContainsFast a) := rfl
theorem decOperands_61 : decOperands 61 = decIdx.bind fun a => .pure (.ArrayCount a) := rfl
theorem decOperands_62 : decOperands 62 = decIdx.bind fun a => .pure (.ArrayCountFast a) := rfl
theorem decOperands_63 : decOperands 63 = decIdx.bind fun a => .pure (.ArrayPush a) := rfl
theorem decOperands_64 : decOperands 64 = decIdx.bind fun a => .pure (.ArrayPop a) := rfl
theorem decOperands_65 : decOperands 65 = decIdx.bind fun a => .pure (.ArrayInsert a) := rfl
theorem decOperands_66 : decOperands 66 = decIdx.bind fun a => .pure (.ArrayRemove a) := rfl
theorem decOperands_67 : decOperands 67 = decIdx.bind fun a => .pure (.ArrayRemoveFast a) := rfl
theorem decOperands_68 : decOperands 68 = decIdx.bind fun a => .pure (.ArrayGrow a) := rfl
theorem decOperands_69 : decOperands 69 = decIdx.bind fun a => .pure (.ArrayErase a) := rfl
theorem decOperands_70 : decOperands 70 = decIdx.bind fun a => .pure (.ArrayEraseFast a) := rfl
theorem decOperands_71 : decOperands 71 = decIdx.bind fun a => .pure (.ArrayLast a) := rfl
theorem decOperands_72 : decOperands 72 = decIdx.bind fun a => .pure (.ArrayElement a) := rfl
theorem decOperands_73 : decOperands 73 = decIdx.bind fun a => .pure (.ArraySort a) := rfl
theorem decOperands_74 : decOperands 74 = decIdx.bind fun a => .pure (.ArraySortByPredicate a) := rfl
theorem decOperands_75 : decOperands 75 = decIdx.bind fun a => .pure (.StaticArraySize a) := rfl
theorem decOperands_76 : decOperands 76 = decIdx.bind fun a => .pure (.StaticArrayFindFirst a) := rfl
theorem decOperands_77 : decOperands 77 = decIdx.bind fun a => .pure (.StaticArrayFindFirstFast a) := rfl
theorem decOperands_78 : decOperands 78 = decIdx.bind fun a => .pure (.StaticArrayFindLast a) := rfl
theorem decOperands_79 : decOperands 79 = decIdx.bind fun a => .pure (.StaticArrayFindLastFast a) := rfl
theorem decOperands_80 : decOperands 80 = decIdx.bind fun a => .pure (.StaticArrayContains a) := rfl
theorem decOperands_81 : decOperands 81 = decIdx.bind fun a => .pure (.StaticArrayContainsFast a) := rfl
theorem decOperands_82 : decOperands 82 = decIdx.bind fun a => .pure (.StaticArrayCount a) := rfl
theorem decOperands_83 : decOperands 83 = decIdx.bind fun a => .pure (.StaticArrayCountFast a) := rfl
theorem decOperands_84 : decOperands 84 = decIdx.bind fun a => .pure (.StaticArrayLast a) := rfl
theorem decOperands_85 : decOperands 85 = decIdx.bind fun a => .pure (.StaticArrayElement a) := rfl
theorem decOperands_86 : decOperands 86 = .pure .RefToBool := rfl
theorem decOperands_87 : decOperands 87 = .pure .WeakRefToBool := rfl
theorem decOperands_88 : decOperands 88 = decIdx.bind fun a => decU8.bind fun b => .pure (.EnumToI32 a b) := rfl
theorem decOperands_89 : decOperands 89 = decIdx.bind fun a => decU8.bind fun b => .pure (.I32ToEnum a b) := rfl
theorem decOperands_90 : decOperands 90 = decIdx.bind fun a => decU8.bind fun b => .pure (.DynamicCast a b) := rfl
theorem decOperands_91 : decOperands 91 = decIdx.bind fun a => .pure (.ToString a) := rfl
theorem decOperands_92 : decOperands 92 = decIdx.bind fun a => .pure (.ToVariant a) := rfl
theorem decOperands_93 : decOperands 93 = decIdx.bind fun a => .pure (.FromVariant a) := rfl
theorem decOperands_94 : decOperands 94 = .pure .VariantIsDefined := rfl
theorem decOperands_95 : decOperands 95 = .pure .VariantIsRef := rfl
theorem decOperands_96 : decOperands 96 = .pure .VariantIsArray := rfl
theorem decOperands_97 : decOperands 97 = .pure .VariantTypeName := rfl
theorem decOperands_98 : decOperands 98 = .pure .VariantToString := rfl
theorem decOperands_99 : decOperands 99 = .pure .WeakRefToRef := rfl
theorem decOperands_100 : decOperands 100 = .pure .RefToWeakRef := rfl
theorem decOperands_101 : decOperands 101 = .pure .WeakRefNull := rfl
theorem decOperands_102 : decOperands 102 = decIdx.bind fun a => .pure (.AsRef a) := rfl
theorem decOperands_103 : decOperands 103 = decIdx.bind fun a => .pure (.Deref a) := rfl

theorem decOperands_stable (code : Byte) : (decOperands code).Stable := by
  unfold decOperands
  split <;> first
    | exact .pure _
    | exact .fail _
    | exact decIdx_stable.bind fun _ => .pure _
    | exact decU8_stable.bind fun _ => .pure _
    | exact decU16_stable.bind fun _ => .pure _
    | exact decU32_stable.bind fun _ => .pure _
    | exact decU64_stable.bind fun _ => .pure _
    | exact (decOffset_stable _).bind fun _ => .pure _
    | exact decBreakpoint_stable.bind fun _ => .pure _
    | exact decStartProfiling_stable.bind fun _ => .pure _
    | exact decIdx_stable.bind fun _ => decIdx_stable.bind fun _ => .pure _
    | exact decIdx_stable.bind fun _ => decU8_stable.bind fun _ => .pure _
    | exact decU8_stable.bind fun _ => decIdx_stable.bind fun _ => .pure _
    | exact decIdx_stable.bind fun _ => (decOffset_stable _).bind fun _ => .pure _
    | exact (decOffset_stable _).bind fun _ => (decOffset_stable _).bind fun _ => .pure _
    | exact (decOffset_stable _).bind fun _ => decU16_stable.bind fun _ =>
        decIdx_stable.bind fun _ => decU16_stable.bind fun _ => .pure _

theorem decInstr_stable : decInstr.Stable := decU8_stable.bind decOperands_stable

/-- The in-memory label marker. -/
def Instr.isTarget : Instr L → Bool
  | .Target _ => true
  | _ => false

set_option linter.unusedSimpArgs false in
theorem decInstr_rt (i : Instr Offset) (hi : i.isTarget = false) : RT encInstr decInstr i := by
  intro bs rest h
  unfold decInstr
  cases i with
  | Target _ => cases hi
  | StartProfiling p =>
    simp only [encInstr] at h
    obtain ⟨a, b, h1, h2, rfl⟩ := seq_ok.1 h
    simp only [Except.ok.injEq] at h1; subst h1
    rw [List.append_assoc, Dec.bind_ok (decU8_rt _ _)]
    rw [decOperands_51, Dec.bind_ok (decStartProfiling_rt _ _ _ h2)]
    rfl
  | _ =>
    simp only [encInstr, Except.ok.injEq] at h
    subst h
    try simp only [List.append_assoc]
    rw [Dec.bind_ok (decU8_rt _ _)]
    simp only [
      decOperands_0, decOperands_1, decOperands_2, decOperands_3, decOperands_4,
      decOperands_5, decOperands_6, decOperands_7, decOperands_8, decOperands_9,
      decOperands_10, decOperands_11, decOperands_12, decOperands_13, decOperands_14,
      decOperands_15, decOperands_16, decOperands_17, decOperands_18, decOperands_19,
      decOperands_20, decOperands_21, decOperands_22, decOperands_24, decOperands_25,
      decOperands_26, decOperands_27, decOperands_28, decOperands_29, decOperands_30,
      decOperands_31, decOperands_32, decOperands_33, decOperands_34, decOperands_35,
      decOperands_36, decOperands_37, decOperands_38, decOperands_39, decOperands_40,
      decOperands_41, decOperands_42, decOperands_43, decOperands_44, decOperands_45,
      decOperands_46, decOperands_47, decOperands_48, decOperands_49, decOperands_50,
      decOperands_51, decOperands_52, decOperands_53, decOperands_54, decOperands_55,
      decOperands_56, decOperands_57, decOperands_58, decOperands_59, decOperands_60,
      decOperands_61, decOperands_62, decOperands_63, decOperands_64, decOperands_65,
      decOperands_66, decOperands_67, decOperands_68, decOperands_69, decOperands_70,
      decOperands_71, decOperands_72, decOperands_73, decOperands_74, decOperands_75,
      decOperands_76, decOperands_77, decOperands_78, decOperands_79, decOperands_80,
      decOperands_81, decOperands_82, decOperands_83, decOperands_84, decOperands_85,
      decOperands_86, decOperands_87, decOperands_88, decOperands_89, decOperands_90,
      decOperands_91, decOperands_92, decOperands_93, decOperands_94, decOperands_95,
      decOperands_96, decOperands_97, decOperands_98, decOperands_99, decOperands_100,
      decOperands_101, decOperands_102, decOperands_103,
      Dec.bind_def,
      decIdx_rt, decU8_rt, decU16_rt, decU32_rt, decU64_rt, decOffset_rt, decBreakpoint_rt,
      Dec.pure_apply]

/-! ## Code bodies -/

/-- Sum of the sizes as natural numbers. -/
def codeSizeNat (code : List (Instr L)) : Nat := (code.map fun i => i.size.toNat).sum

theorem size_startProfiling (p : StartProfiling) (h : (strBytes p.function).length < 65530) :
    (Instr.StartProfiling p : Instr L).size.toNat = 6 + (strBytes p.function).length := by
  have h1 : (1 : BitVec 16).toNat = 1 := rfl
  have h5 : (5 : BitVec 16).toNat = 5 := rfl
  simp only [Instr.size, BitVec.toNat_add, BitVec.toNat_ofNat, h1, h5]
  omega

theorem mem_le_sum (l : List Nat) (n : Nat) (h : n ∈ l) : n ≤ l.sum := by
  induction l with
  | nil => simp at h
  | cons a l ih =>
    rcases List.mem_cons.1 h with rfl | h
    · simp
    · have := ih h
      simp; omega

theorem codeSize32_foldl (code : List (Instr L)) (s : BitVec 32) :
    (code.foldl (fun s i => s + i.size.zeroExtend 32) s).toNat =
      (s.toNat + codeSizeNat code) % 2 ^ 32 := by
  induction code generalizing s with
  | nil => simp [codeSizeNat]; omega
  | cons i is ih =>
    rw [List.foldl_cons, ih]
    have := i.size.isLt
    simp only [codeSizeNat, List.map_cons, List.sum_cons, BitVec.toNat_add, BitVec.zeroExtend,
      BitVec.toNat_setWidth]
    omega

theorem codeSize32_toNat (code : List (Instr L)) (h : codeSizeNat code < 2 ^ 32) :
    (codeSize32 code).toNat = codeSizeNat code := by
  unfold codeSize32
  rw [codeSize32_foldl]
  simpa using Nat.mod_eq_of_lt h

theorem encInstr_length_pos (i : Instr Offset) (bs : Bytes) (h : encInstr i = .ok bs) :
    0 < bs.length := by
  cases i with
  | StartProfiling p =>
    simp only [encInstr] at h
    obtain ⟨a, b, h1, h2, rfl⟩ := seq_ok.1 h
    simp only [Except.ok.injEq] at h1; subst h1
    simp [encU8]
  | _ =>
    simp only [encInstr, Except.ok.injEq] at h
    subst h
    simp [encU8]

theorem encList_length (code : List (Instr Offset)) (bs : Bytes)
    (h : encList encInstr code = .ok bs) : code.length ≤ bs.length := by
  induction code generalizing bs with
  | nil => simp
  | cons i is ih =>
    obtain ⟨a, b, h1, h2, rfl⟩ := seq_ok.1 h
    have := encInstr_length_pos _ _ h1
    have := ih _ h2
    simp; omega

theorem codeSizeNat_pos (code : List (Instr L)) (hne : code ≠ [])
    (hlast : ∀ i, code.getLast? = some i → i.size ≠ 0) : 0 < codeSizeNat code := by
  have h := hlast (code.getLast hne) (List.getLast?_eq_some_getLast hne)
  have hm := mem_le_sum _ _ (List.mem_map_of_mem (f := fun i : Instr L => i.size.toNat)
    (List.getLast_mem hne))
  rcases Nat.eq_zero_or_pos (code.getLast hne).size.toNat with h0 | h0
  · exact absurd (BitVec.eq_of_toNat_eq (by simpa using h0)) h
  · unfold codeSizeNat; omega

theorem decInstr_rt0 (i : Instr Offset) (hi : ∀ l, i = .Target l → l = 0) : RT encInstr decInstr i := by
  cases h : i.isTarget with
  | false => exact decInstr_rt i h
  | true =>
    cases i with
    | Target l =>
      cases hi l rfl
      intro bs rest hb
      simp only [encInstr, Except.ok.injEq] at hb
      subst hb
      rfl
    | _ => cases h

theorem decCodeLoop_rt (code : List (Instr Offset)) (hnt : ∀ i ∈ code, ∀ l, i = .Target l → l = 0)
    (hlast : ∀ i, code.getLast? = some i → i.size ≠ 0) (m offset : BitVec 32)
    (hsum : offset.toNat + codeSizeNat code = m.toNat) (fuel : Nat) (hf : code.length ≤ fuel)
    (bs rest : Bytes) (h : encList encInstr code = .ok bs) :
    decCodeLoop m fuel offset (bs ++ rest) = .ok (code, rest) := by
  induction code generalizing offset fuel bs with
  | nil =>
    simp [encList] at h; subst h
    simp [codeSizeNat] at hsum
    unfold decCodeLoop
    rw [if_neg]
    · rfl
    · rw [BitVec.lt_def]; omega
  | cons i is ih =>
    obtain ⟨a, b, h1, h2, rfl⟩ := seq_ok.1 h
    have hm := m.isLt
    have hip := codeSizeNat_pos (i :: is) (by simp) hlast
    have hpos : offset.toNat < m.toNat := by omega
    simp only [codeSizeNat, List.map_cons, List.sum_cons] at hsum
    have hlt : i.size.toNat < 2 ^ 16 := i.size.isLt
    unfold decCodeLoop
    rw [if_pos (by rw [BitVec.lt_def]; exact hpos)]
    cases fuel with
    | zero => simp at hf
    | succ fuel =>
      simp only [List.append_assoc]
      rw [Dec.bind_ok (decInstr_rt0 i (hnt i (by simp)) _ _ h1)]
      rw [Dec.bind_ok (ih (fun j hj => hnt j (by simp [hj])) (fun j hj => hlast j (by
          cases is with
          | nil => simp at hj
          | cons k ks => rw [List.getLast?_cons_cons]; exact hj))
        _ ?_ fuel (by simpa using hf) _ h2)]
      · rfl
      · simp only [BitVec.toNat_add, BitVec.zeroExtend, BitVec.toNat_setWidth, codeSizeNat]
        omega

/-- The fuel of the decoding loop is only a termination device: any amount at least the number of
remaining bytes gives the same result. -/
theorem decCodeLoop_fuel (m : BitVec 32) (f1 f2 : Nat) (offset : BitVec 32) (bs : Bytes)
    (h1 : bs.length ≤ f1) (h2 : bs.length ≤ f2) :
    decCodeLoop m f1 offset bs = decCodeLoop m f2 offset bs := by
  induction f1 generalizing f2 offset bs with
  | zero =>
    have : bs = [] := by simpa using h1
    subst this
    unfold decCodeLoop
    split
    · cases f2 <;> rfl
    · rfl
  | succ f1 ih =>
    unfold decCodeLoop
    split
    · cases f2 with
      | zero =>
        have : bs = [] := by simpa using h2
        subst this
        rfl
      | succ f2 =>
        simp only [Dec.bind_def]
        cases hd : decInstr bs with
        | error e => rfl
        | ok p =>
          obtain ⟨i, r⟩ := p
          have hr : r.length < bs.length := by
            obtain ⟨c, m', e1, e2⟩ := Dec.bind_eq_ok.1 hd
            obtain ⟨q, hq⟩ := (decOperands_stable c).suffix _ _ _ e2
            cases bs with
            | nil => simp [decU8] at e1
            | cons x xs =>
              simp [decU8] at e1
              have : xs.length = (q ++ r).length := by rw [← hq, e1.2]
              simp at this
              simp; omega
          simp only []
          rw [ih f2 (offset + BitVec.zeroExtend 32 i.size) r (by omega) (by omega)]
    · rfl

end Redscript
