/-!
# Binary search

`slice::binary_search_by` of the Rust standard library is used by the code cursor and by the source
map. Its loop differs between toolchain versions, so the models take any function that satisfies the
documented contract; `BinarySearch.std` shows that the contract is met by the classical loop.
-/

namespace Redscript

/-- The comparator is consistent with the order of the list: a run of `lt`, then `eq`, then `gt`. -/
def Ordered (f : α → Ordering) (l : List α) : Prop :=
  l.Pairwise fun a b => (f a = .eq → f b ≠ .lt) ∧ (f a = .gt → f b = .gt)

/-- The documented contract of `slice::binary_search_by`. `ok i` is `Ok(i)`, `error i` is `Err(i)`. -/
structure BinarySearch where
  run : {α : Type} → (α → Ordering) → List α → Except Nat Nat
  found : ∀ {α : Type} (f : α → Ordering) (l : List α) (i : Nat), Ordered f l →
    run f l = .ok i → ∃ a, l[i]? = some a ∧ f a = .eq
  missing : ∀ {α : Type} (f : α → Ordering) (l : List α) (i : Nat), Ordered f l →
    run f l = .error i → i ≤ l.length ∧
      ∀ (j : Nat) (a : α), l[j]? = some a → (j < i → f a = .lt) ∧ (i ≤ j → f a = .gt)

namespace BinarySearch

/-- The loop of `binary_search_by` (standard library, before the branchless rewrite). -/
def loop (f : α → Ordering) (l : List α) (left right : Nat) : Except Nat Nat :=
  if left < right then
    let mid := left + (right - left) / 2
    match l[mid]? with
    | none => .error left
    | some a =>
      match f a with
      | .lt => loop f l (mid + 1) right
      | .gt => loop f l left mid
      | .eq => .ok mid
  else .error left
termination_by right - left

theorem loop_found (f : α → Ordering) (l : List α) (left right i : Nat)
    (h : loop f l left right = .ok i) : ∃ a, l[i]? = some a ∧ f a = .eq := by
  fun_induction loop f l left right with
  | case1 => cases h
  | case2 _ _ _ _ _ _ _ ih => exact ih h
  | case3 _ _ _ _ _ _ _ ih => exact ih h
  | case4 _ _ _ _ a ha hf => simp at h; subst h; exact ⟨a, ha, hf⟩
  | case5 => cases h

theorem loop_missing (f : α → Ordering) (l : List α) (left right i : Nat) (ho : Ordered f l)
    (hl : ∀ (j : Nat) (a : α), l[j]? = some a → j < left → f a = .lt)
    (hr : ∀ (j : Nat) (a : α), l[j]? = some a → right ≤ j → f a = .gt)
    (hle : left ≤ right) (hlen : right ≤ l.length)
    (h : loop f l left right = .error i) : i ≤ l.length ∧
      ∀ (j : Nat) (a : α), l[j]? = some a → (j < i → f a = .lt) ∧ (i ≤ j → f a = .gt) := by
  have pw : ∀ (i j : Nat) (a b : α), i < j → l[i]? = some a → l[j]? = some b →
      (f a = .eq → f b ≠ .lt) ∧ (f a = .gt → f b = .gt) := by
    intro i j a b hij hi hj
    obtain ⟨hi', rfl⟩ := List.getElem?_eq_some_iff.1 hi
    obtain ⟨hj', rfl⟩ := List.getElem?_eq_some_iff.1 hj
    exact (List.pairwise_iff_getElem.1 ho) i j hi' hj' hij
  fun_induction loop f l left right with
  | case1 left right hlt mid hn =>
    have : mid < l.length := by simp only [mid]; omega
    rw [List.getElem?_eq_getElem this] at hn
    cases hn
  | case2 left right hlt mid a ha hf ih =>
    refine ih ?_ hr (by omega) hlen h
    intro j b hb hj
    by_cases hjm : j = mid
    · subst hjm
      have : b = a := by
        have := hb.symm.trans ha
        simpa using this
      rw [this, hf]
    · have := pw j mid b a (by omega) hb ha
      cases hfb : f b with
      | lt => rfl
      | eq => exact absurd hf (this.1 hfb)
      | gt => rw [this.2 hfb] at hf; cases hf
  | case3 left right hlt mid a ha hf ih =>
    refine ih hl ?_ (by simp only [mid]; omega) (by simp only [mid]; omega) h
    intro j b hb hj
    by_cases hjm : j = mid
    · subst hjm
      have : b = a := by
        have := hb.symm.trans ha
        simpa using this
      rw [this, hf]
    · exact (pw mid j a b (by omega) ha hb).2 hf
  | case4 => cases h
  | case5 left right hlt =>
    simp at h; subst h
    have : left = right := by omega
    subst this
    exact ⟨hlen, fun j a ha => ⟨hl j a ha, hr j a ha⟩⟩

/-- The contract is satisfiable: the classical loop meets it. -/
def std : BinarySearch where
  run f l := loop f l 0 l.length
  found := fun f l i _ h => loop_found f l 0 l.length i h
  missing := by
    intro α f l i ho h
    refine loop_missing f l 0 l.length i ho ?_ ?_ (by omega) (by omega) h
    · intro j a _ hj; omega
    · intro j a ha hj
      have := (List.getElem?_eq_some_iff.1 ha).1
      omega

end BinarySearch
end Redscript
