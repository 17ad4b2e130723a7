/-!
# List helpers
-/

namespace Redscript

/-- Two lists of equal length, related element by element. -/
inductive All2 (R : α → β → Prop) : List α → List β → Prop
  | nil : All2 R [] []
  | cons {a b as bs} : R a b → All2 R as bs → All2 R (a :: as) (b :: bs)

namespace All2

theorem length_eq {R : α → β → Prop} {as : List α} {bs : List β} (h : All2 R as bs) :
    as.length = bs.length := by
  induction h with
  | nil => rfl
  | cons _ _ ih => simp [ih]

theorem imp {R S : α → β → Prop} {as : List α} {bs : List β} (f : ∀ a b, R a b → S a b)
    (h : All2 R as bs) : All2 S as bs := by
  induction h with
  | nil => exact .nil
  | cons h _ ih => exact .cons (f _ _ h) ih

theorem get {R : α → β → Prop} {as : List α} {bs : List β} (h : All2 R as bs) (i : Nat) (a : α)
    (b : β) (ha : as[i]? = some a) (hb : bs[i]? = some b) : R a b := by
  induction h generalizing i with
  | nil => simp at ha
  | cons h _ ih =>
    cases i with
    | zero => simp at ha hb; subst ha; subst hb; exact h
    | succ i => exact ih i (by simpa using ha) (by simpa using hb)

theorem map_right {R : α → β → Prop} (f : α → β) (as : List α) (h : ∀ a ∈ as, R a (f a)) :
    All2 R as (as.map f) := by
  induction as with
  | nil => exact .nil
  | cons a as ih => exact .cons (h a (by simp)) (ih fun b hb => h b (by simp [hb]))

end All2

end Redscript
