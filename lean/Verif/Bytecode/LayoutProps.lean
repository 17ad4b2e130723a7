import Verif.Bytecode.LabelProps

/-!
# C51: positions agree with the written bytes
-/

namespace Redscript

/-- Specification: how many pool references an instruction carries. The virtual machine widens each
of them from the four bytes in the file to eight. -/
def Instr.poolRefs : Instr L → Nat
  | .NameConst _ | .TweakDbIdConst _ | .ResourceConst _ | .Local _ | .Param _ | .ObjectField _
  | .Switch _ _ | .Construct _ _ | .InvokeStatic _ _ _ _ | .InvokeVirtual _ _ _ _ | .StructField _
  | .Equals _ | .NotEquals _ | .RefStringEqualsString _ | .StringEqualsRefString _
  | .RefStringNotEqualsString _ | .StringNotEqualsRefString _ | .New _ | .ArrayClear _ | .ArraySize _
  | .ArrayResize _ | .ArrayFindFirst _ | .ArrayFindFirstFast _ | .ArrayFindLast _
  | .ArrayFindLastFast _ | .ArrayContains _ | .ArrayContainsFast _ | .ArrayCount _ | .ArrayCountFast _
  | .ArrayPush _ | .ArrayPop _ | .ArrayInsert _ | .ArrayRemove _ | .ArrayRemoveFast _ | .ArrayGrow _
  | .ArrayErase _ | .ArrayEraseFast _ | .ArrayLast _ | .ArrayElement _ | .ArraySort _
  | .ArraySortByPredicate _ | .StaticArraySize _ | .StaticArrayFindFirst _
  | .StaticArrayFindFirstFast _ | .StaticArrayFindLast _ | .StaticArrayFindLastFast _
  | .StaticArrayContains _ | .StaticArrayContainsFast _ | .StaticArrayCount _
  | .StaticArrayCountFast _ | .StaticArrayLast _ | .StaticArrayElement _ | .EnumToI32 _ _
  | .I32ToEnum _ _ | .DynamicCast _ _ | .ToString _ | .ToVariant _ | .FromVariant _ | .AsRef _
  | .Deref _ => 1
  | .EnumConst _ _ => 2
  | _ => 0

/-- C51: the size used for positions is the number of bytes written plus four for every pool
reference. -/
theorem C51_size_layout (i : Instr Offset) (hi : ∀ l, i ≠ .Target l)
    (hp : ∀ p, i = .StartProfiling p → (strBytes p.function).length < 65530)
    (bs : Bytes) (h : encInstr i = .ok bs) : i.size.toNat = bs.length + 4 * i.poolRefs := by
  cases i
  case Target l => exact absurd rfl (hi l)
  case StartProfiling p =>
    simp only [encInstr, encStartProfiling, encStr32] at h
    obtain ⟨a, b, h1, h2, rfl⟩ := seq_ok.1 h
    obtain ⟨c, d, h3, h4, rfl⟩ := seq_ok.1 h2
    obtain ⟨e, f, h5, h6, rfl⟩ := seq_ok.1 h3
    obtain ⟨-, rfl⟩ := encLen32_ok h5
    simp only [Except.ok.injEq] at h1 h4 h6
    subst h1; subst h4; subst h6
    rw [size_startProfiling p (hp p rfl)]
    simp [encU8, encU32, leBytes_length, Instr.poolRefs]
    omega
  all_goals
    simp only [encInstr, Except.ok.injEq] at h
    subst h
    simp [encU8, encU16, encU32, encU64, encIdx, encOffset, encBreakpoint, encBool, leBytes_length,
      Instr.size, Instr.poolRefs]

/-- C51, for whole bodies: the size prefix of a body and the number of its bytes determine each
other given the number of pool references. -/
theorem C51_body_layout (code : List (Instr Offset)) (hc : ∀ i ∈ code, ∀ l, i ≠ .Target l)
    (hp : ∀ i ∈ code, ∀ p, i = .StartProfiling p → (strBytes p.function).length < 65530)
    (bs : Bytes) (h : encCode code = .ok bs) :
    (code.map fun i => i.size.toNat).sum + 4 = bs.length + 4 * (code.map Instr.poolRefs).sum := by
  obtain ⟨a, b, h1, h2, rfl⟩ := seq_ok.1 h
  simp only [Except.ok.injEq] at h1
  subst h1
  have key : ∀ b, encList encInstr code = .ok b →
      (code.map fun i => i.size.toNat).sum = b.length + 4 * (code.map Instr.poolRefs).sum := by
    clear h h2
    induction code with
    | nil => intro b h; simp [encList] at h; subst h; rfl
    | cons i is ih =>
      intro b h
      obtain ⟨x, y, h1, h2, rfl⟩ := seq_ok.1 h
      have e1 := C51_size_layout i (hc i (by simp)) (hp i (by simp)) x h1
      have e2 := ih (fun j hj => hc j (by simp [hj])) (fun j hj => hp j (by simp [hj])) y h2
      simp only [List.map_cons, List.sum_cons, List.length_append]
      omega
  have := key b h2
  simp [encU32, leBytes_length]
  omega

example : encInstr (.InvokeStatic 20 7 300 1) = .ok [36, 17, 0, 7, 0, 44, 1, 0, 0, 1, 0] ∧
    (Instr.InvokeStatic (20 : Offset) 7 300 1).size.toNat = 15 := by decide

end Redscript
