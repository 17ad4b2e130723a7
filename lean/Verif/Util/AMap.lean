/-!
# Finite maps

Model of `HashMap` as used through `get`, `insert` and `entry`: an association list whose most
recent binding wins. Iteration order is never observed through this type.
-/

namespace Redscript

/-- A hash map, as the list of its insertions, most recent first. -/
structure AMap (K V : Type) where
  entries : List (K × V)
  deriving DecidableEq, Repr

namespace AMap

variable {K V : Type} [DecidableEq K]

/-- `HashMap::new`. -/
def empty : AMap K V := ⟨[]⟩

/-- `HashMap::get`. -/
def get (m : AMap K V) (k : K) : Option V :=
  go m.entries
where
  /-- The value of the first entry with the key. -/
  go : List (K × V) → Option V
    | [] => none
    | (k', v) :: rest => if k = k' then some v else go rest

/-- `HashMap::insert` (replacing). -/
def insert (m : AMap K V) (k : K) (v : V) : AMap K V := ⟨(k, v) :: m.entries⟩

@[simp] theorem get_empty (k : K) : (empty : AMap K V).get k = none := rfl

theorem get_insert (m : AMap K V) (k k' : K) (v : V) :
    (m.insert k v).get k' = if k' = k then some v else m.get k' := rfl

@[simp] theorem get_insert_self (m : AMap K V) (k : K) (v : V) : (m.insert k v).get k = some v := by
  simp [get_insert]

theorem get_insert_ne (m : AMap K V) {k k' : K} (v : V) (h : k' ≠ k) :
    (m.insert k v).get k' = m.get k' := by
  simp [get_insert, h]

end AMap

end Redscript
