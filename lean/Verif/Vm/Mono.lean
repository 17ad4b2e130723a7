import Verif.Vm.Machine

/-!
# More fuel does not change results
-/

namespace Redscript

/-- The second computation agrees with the first where that has a result. -/
def FuelLe (a b : Option α) : Prop := ∀ r, a = some r → b = some r

theorem FuelLe.refl (a : Option α) : FuelLe a a := fun _ h => h

section
variable {V S A : Type} {α β : Type}

theorem FuelLe.bind {a b : Option (Res A α)} {k k' : α → Option (Res A β)} (h : FuelLe a b)
    (hk : ∀ x, FuelLe (k x) (k' x)) : FuelLe (Fuelled.bind a k) (Fuelled.bind b k') := by
  intro r hr
  cases ha : a with
  | none => rw [ha] at hr; cases hr
  | some x =>
    rw [ha] at hr
    rw [h x ha]
    cases x with
    | ok y => exact hk y r hr
    | abort _ => exact hr
    | stuck => exact hr

theorem FuelLe.eval {a b : Option (Res A α)} {k k' : α → Option (Final V S A)} (h : FuelLe a b)
    (hk : ∀ x, FuelLe (k x) (k' x)) : FuelLe (Run.eval a k) (Run.eval b k') := by
  intro r hr
  cases ha : a with
  | none => rw [ha] at hr; cases hr
  | some x =>
    rw [ha] at hr
    rw [h x ha]
    cases x with
    | ok y => exact hk y r hr
    | abort _ => exact hr
    | stuck => exact hr

variable (mem : Location → Option (Instr Location)) (P : PoolView) (I : Interp V S A)

theorem vmExpr_step (n : Nat) :
    (∀ recv pc s, FuelLe (vmExpr mem P I n recv pc s) (vmExpr mem P I (n + 1) recv pc s)) ∧
    (∀ k pc s, FuelLe (vmOperands mem P I n k pc s) (vmOperands mem P I (n + 1) k pc s)) ∧
    ∀ callee recv acc pc s, FuelLe (vmParams mem P I n callee recv acc pc s)
      (vmParams mem P I (n + 1) callee recv acc pc s) := by
  induction n with
  | zero =>
    refine ⟨?_, ?_, ?_⟩
    · intro recv pc s r h; cases h
    · intro k pc s r h; simp [vmOperands] at h
    · intro callee recv acc pc s r h; cases h
  | succ n ih =>
    obtain ⟨ih1, ih2, ih3⟩ := ih
    refine ⟨?_, ?_, ?_⟩
    · intro recv pc s
      rw [vmExpr, vmExpr]
      cases mem pc with
      | none => exact .refl _
      | some i =>
        simp only
        split
        · exact (ih1 _ _ _).bind fun x => (ih1 _ _ _).bind fun y => .refl _
        · refine (ih1 _ _ _).bind fun x => ?_
          split
          · exact .refl _
          · exact ih1 _ _ _
        · exact .refl _
        · exact (ih3 _ _ _ _ _).bind fun x => .refl _
        · exact (ih2 _ _ _).bind fun x => .refl _
        · exact .refl _
    · intro k pc s
      cases k with
      | zero => rw [vmOperands, vmOperands]; exact .refl _
      | succ k =>
        rw [vmOperands, vmOperands]
        exact (ih1 _ _ _).bind fun x => (ih2 _ _ _).bind fun y => .refl _
    · intro callee recv acc pc s
      rw [vmParams, vmParams]
      cases mem pc with
      | none => exact .refl _
      | some i =>
        simp only
        split
        · exact .refl _
        · exact ih3 _ _ _ _ _
        · split
          · exact (ih1 _ _ _).bind fun x => ih3 _ _ _ _ _
          · exact ih3 _ _ _ _ _
        · exact (ih1 _ _ _).bind fun x => ih3 _ _ _ _ _

theorem vmExpr_mono {n m : Nat} (h : n ≤ m) (recv : Option V) (pc : Location) (s : S) :
    FuelLe (vmExpr mem P I n recv pc s) (vmExpr mem P I m recv pc s) := by
  induction h with
  | refl => exact .refl _
  | step _ ih => exact fun r hr => (vmExpr_step mem P I _).1 recv pc s r (ih r hr)

theorem vmRun_step (n : Nat) :
    (∀ pc s, FuelLe (vmRun mem P I n pc s) (vmRun mem P I (n + 1) pc s)) ∧
    ∀ ty v pc s, FuelLe (vmDispatch mem P I n ty v pc s) (vmDispatch mem P I (n + 1) ty v pc s) := by
  induction n with
  | zero =>
    refine ⟨?_, ?_⟩
    · intro pc s r h; cases h
    · intro ty v pc s r h; cases h
  | succ n ih =>
    obtain ⟨ih1, ih2⟩ := ih
    have he := (vmExpr_step mem P I n).1
    refine ⟨?_, ?_⟩
    · intro pc s
      rw [vmRun, vmRun]
      cases mem pc with
      | none => exact .refl _
      | some i =>
        simp only
        split
        · exact ih1 _ _
        · exact ih1 _ _
        · exact (he _ _ _).eval fun x => ih1 _ _
        · exact (he _ _ _).eval fun x => ih2 _ _ _ _
        · exact ih1 _ _
        · split
          · exact .refl _
          · exact (he _ _ _).eval fun x => .refl _
        · exact (he _ _ _).eval fun x => ih1 _ _
    · intro ty v pc s
      rw [vmDispatch, vmDispatch]
      cases mem pc with
      | none => exact ih1 _ _
      | some i =>
        simp only
        split
        · refine (he _ _ _).eval fun x => ?_
          split
          · exact ih1 _ _
          · exact ih2 _ _ _ _
        · exact ih1 _ _

theorem vmRun_mono {n m : Nat} (h : n ≤ m) (pc : Location) (s : S) :
    FuelLe (vmRun mem P I n pc s) (vmRun mem P I m pc s) := by
  induction h with
  | refl => exact .refl _
  | step _ ih => exact fun r hr => (vmRun_step mem P I _).1 pc s r (ih r hr)

theorem vmDispatch_mono {n m : Nat} (h : n ≤ m) (ty : TypeId) (v : V) (pc : Location) (s : S) :
    FuelLe (vmDispatch mem P I n ty v pc s) (vmDispatch mem P I m ty v pc s) := by
  induction h with
  | refl => exact .refl _
  | step _ ih => exact fun r hr => (vmRun_step mem P I _).2 ty v pc s r (ih r hr)

end

end Redscript
