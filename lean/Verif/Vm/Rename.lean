import Verif.Vm.Machine
import Verif.Unit.WrapFinish

/-!
# Code with other locals runs the same
-/

namespace Redscript

/-- An operation on another local. -/
def Op.renameLocal (ρ : Idx → Idx) : Op → Op
  | .getLocal l => .getLocal (ρ l)
  | o => o

/-- An interpretation in which a local stands for another one. -/
def Interp.onLocals (ρ : Idx → Idx) (I : Interp V S A) : Interp V S A := { I with prim := fun o => I.prim (o.renameLocal ρ) }

section
variable {V S A : Type}

/-- The kind of an expression after renaming. -/
def ExprKind.renameLocal (ρ : Idx → Idx) : ExprKind → ExprKind
  | .op o k => .op (o.renameLocal ρ) k
  | k => k

theorem exprKind_rename (ρ : Idx → Idx) (P : PoolView) (i : Instr Location) :
    exprKind P (renameLocal ρ i) = (exprKind P i).renameLocal ρ := by
  have ite_case : ∀ (c : Prop) [Decidable c] (o : Op) (k : Nat), o.renameLocal ρ = o →
      (match (if c then some (o, k) else none : Option (Op × Nat)) with
        | some (o, k) => ExprKind.op o k
        | none => .other) =
      ExprKind.renameLocal ρ (match (if c then some (o, k) else none : Option (Op × Nat)) with
        | some (o, k) => ExprKind.op o k
        | none => .other) := by
    intro c _ o k ho
    by_cases hc : c
    · simp only [if_pos hc, ExprKind.renameLocal, ho]
    · simp only [if_neg hc, ExprKind.renameLocal]
  cases i with
  | I8Const v => exact ite_case (v = 0) _ _ rfl
  | I16Const v => exact ite_case (v = 0) _ _ rfl
  | U8Const v => exact ite_case (v = 0) _ _ rfl
  | U16Const v => exact ite_case (v = 0) _ _ rfl
  | EnumToI32 t n => exact ite_case (n = 4) _ _ rfl
  | I32ToEnum t n => exact ite_case (n = 4) _ _ rfl
  | _ => rfl

theorem stmtKind_rename (ρ : Idx → Idx) (i : Instr Location) : stmtKind (renameLocal ρ i) = stmtKind i := by
  cases i <;> rfl

theorem paramKind_rename (ρ : Idx → Idx) (i : Instr Location) : paramKind (renameLocal ρ i) = paramKind i := by
  cases i <;> rfl

theorem size_rename (ρ : Idx → Idx) (i : Instr α) : (renameLocal ρ i).size = i.size := by
  cases i <;> rfl

theorem returnsNothing_rename (ρ : Idx → Idx) (x : Option (Instr Location)) :
    returnsNothing (x.map (renameLocal ρ)) = returnsNothing x := by
  cases x with
  | none => rfl
  | some i => cases i <;> rfl

theorem fetch_rename (ρ : Idx → Idx) (code : List (Instr Offset)) (pc : Location) :
    fetch (code.map (renameLocal ρ)) pc = (fetch code pc).map (renameLocal ρ) := by
  have h : ∀ (code : List (Instr Offset)) (start : Location),
      instrAt pc start (code.map (renameLocal ρ)) = (instrAt pc start code).map (renameLocal ρ) := by
    intro code
    induction code with
    | nil => intro _; rfl
    | cons i is ih =>
      intro start
      rw [List.map_cons, instrAt, instrAt, size_rename, ih]
      split <;> rfl
  unfold fetch
  rw [h]
  cases instrAt pc 0 code with
  | none => rfl
  | some i => cases i <;> rfl

variable {mem mem' : Location → Option (Instr Location)} {P : PoolView} {ρ : Idx → Idx}

theorem vmExpr_rename (hm : ∀ pc, mem' pc = (mem pc).map (renameLocal ρ)) (I : Interp V S A) : ∀ (n : Nat),
    (∀ recv pc s, vmExpr mem' P I n recv pc s = vmExpr mem P (I.onLocals ρ) n recv pc s) ∧
    (∀ k pc s, vmOperands mem' P I n k pc s = vmOperands mem P (I.onLocals ρ) n k pc s) ∧
    ∀ callee recv acc pc s, vmParams mem' P I n callee recv acc pc s = vmParams mem P (I.onLocals ρ) n callee recv acc pc s
  | 0 => ⟨fun _ _ _ => by rw [vmExpr, vmExpr], fun _ _ _ => by rw [vmOperands, vmOperands], fun _ _ _ _ _ => by rw [vmParams, vmParams]⟩
  | n + 1 => by
    obtain ⟨h1, h2, h3⟩ := vmExpr_rename hm I n
    refine ⟨fun recv pc s => ?_, fun k pc s => ?_, fun callee recv acc pc s => ?_⟩
    · rw [vmExpr, vmExpr, hm pc]
      cases mem pc with
      | none => rfl
      | some i =>
        simp only [Option.map_some, exprKind_rename, size_rename, h1, h2, h3]
        cases exprKind P i <;> rfl
    · cases k with
      | zero => rw [vmOperands, vmOperands]
      | succ k => rw [vmOperands, vmOperands]; simp only [h1, h2]
    · rw [vmParams, vmParams, hm pc]
      cases mem pc with
      | none => rfl
      | some i =>
        simp only [Option.map_some, paramKind_rename, size_rename, h1, h3]
        rfl

theorem vmRun_rename (hm : ∀ pc, mem' pc = (mem pc).map (renameLocal ρ)) (I : Interp V S A) : ∀ (n : Nat),
    (∀ pc s, vmRun mem' P I n pc s = vmRun mem P (I.onLocals ρ) n pc s) ∧
    ∀ ty v pc s, vmDispatch mem' P I n ty v pc s = vmDispatch mem P (I.onLocals ρ) n ty v pc s
  | 0 => ⟨fun _ _ => by rw [vmRun, vmRun], fun _ _ _ _ => by rw [vmDispatch, vmDispatch]⟩
  | n + 1 => by
    obtain ⟨h1, h2⟩ := vmRun_rename hm I n
    have he := (vmExpr_rename (P := P) hm I n).1
    refine ⟨fun pc s => ?_, fun ty v pc s => ?_⟩
    · rw [vmRun, vmRun, hm pc]
      cases mem pc with
      | none => rfl
      | some i =>
        simp only [Option.map_some, stmtKind_rename, size_rename, h1, h2, he, hm, returnsNothing_rename]
        rfl
    · rw [vmDispatch, vmDispatch, hm pc]
      cases mem pc with
      | none => exact h1 _ _
      | some i =>
        simp only [Option.map_some, stmtKind_rename, size_rename, h1, h2, he]
        rfl

/-- Code with renamed locals runs like the code did, with the new locals in the place of the old ones. -/
theorem runBody_rename (ρ : Idx → Idx) (code : List (Instr Offset)) (P : PoolView) (I : Interp V S A) (n : Nat) (s : S) :
    runBody (code.map (renameLocal ρ)) P I n s = runBody code P (I.onLocals ρ) n s :=
  (vmRun_rename (fetch_rename ρ code) I n).1 0 s

end

end Redscript
