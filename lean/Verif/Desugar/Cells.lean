import Verif.Desugar.Model
import Verif.Desugar.Meaning

/-!
# The variables that desugaring adds

Desugared code uses variables that the source does not have. An interpretation for the source is extended
by them: the state gets a content for each of these variables, and values may refer to them.
-/

namespace Redscript

/-- A value, one of the added variables, or an element of one with its index and content. -/
inductive CellVal (V : Type) where
  | val (v : V)
  | var (l : Idx)
  | elem (l : Idx) (i v : V)

/-- The content of a value. -/
def CellVal.read (σ : Idx → V) : CellVal V → V
  | .val v => v
  | .var l => σ l
  | .elem _ _ v => v

/-- What the operations that desugaring emits do with the content of a variable. -/
structure Cells (V : Type) where
  /-- the value of a constant -/
  const : Constant → V
  /-- `ArrayResize` at an array type -/
  resize : TypeId → V → V → V
  /-- assigning to an element -/
  set : V → V → V → V
  /-- `+=` -/
  add : V → V → V

/-- Put a content into a variable. -/
def setCell (σ : Idx → V) (l : Idx) (v : V) : Idx → V := fun l' => if l' = l then v else σ l'

section
variable {V S A : Type}

/-- The result of an operation on the contents. -/
def liftCell (σ : Idx → V) (r : Except A (V × S)) : Except A (CellVal V × (S × (Idx → V))) :=
  match r with
  | .ok (v, s) => .ok (.val v, (s, σ))
  | .error a => .error a

/-- Operations with added variables. Assignments, `ArrayResize` and `+=` change them; an element of one can
be assigned to. All other operations work on the content. -/
def cellPrim (I : Interp V S A) (U : Sugar V S) (M : Cells V) (start : Nat) (op : Op) (args : List (CellVal V))
    (t : S × (Idx → V)) : Except A (CellVal V × (S × (Idx → V))) :=
  match op, args with
  | .getLocal l, [] => if start ≤ l.toNat then .ok (.var l, t) else liftCell t.2 (I.prim (.getLocal l) [] t.1)
  | .assign, [.var l, w] => .ok (.val (w.read t.2), (t.1, setCell t.2 l (U.load (w.read t.2) t.1)))
  | .assign, [.elem l i _, w] =>
    .ok (.val (w.read t.2), (t.1, setCell t.2 l (M.set (t.2 l) i (U.load (w.read t.2) t.1))))
  | .element ty, [.var l, i] =>
    match I.prim (.element ty) [t.2 l, i.read t.2] t.1 with
    | .ok (v, s) => .ok (.elem l (i.read t.2) v, (s, t.2))
    | .error a => .error a
  | .intrinsic .ArrayResize ty, [.var l, n] =>
    .ok (.val (n.read t.2), (t.1, setCell t.2 l (M.resize ty (t.2 l) (n.read t.2))))
  | op, args => liftCell t.2 (I.prim op (args.map (·.read t.2)) t.1)

/-- Calls with added variables: `asg` is `+=` on integers. -/
def cellCall (I : Interp V S A) (M : Cells V) (asg c : Callee) (recv : Option (CellVal V))
    (args : List (Option (CellVal V))) (t : S × (Idx → V)) : Except A (CellVal V × (S × (Idx → V))) :=
  match c == asg, recv, args with
  | true, none, [some (.var l), some w] =>
    .ok (.val (M.add (t.2 l) (w.read t.2)), (t.1, setCell t.2 l (M.add (t.2 l) (w.read t.2))))
  | _, recv, args => liftCell t.2 (I.call c (recv.map (·.read t.2)) (args.map (Option.map (·.read t.2))) t.1)

/-- An interpretation with added variables, those from `start` on. -/
def Interp.withCells (I : Interp V S A) (U : Sugar V S) (M : Cells V) (start : Nat) (asg : Callee) :
    Interp (CellVal V) (S × (Idx → V)) A where
  prim := cellPrim I U M start
  call := cellCall I M asg
  demand c recv args t := I.demand c (recv.map (·.read t.2)) (args.map (Option.map (·.read t.2))) t.1
  truth v t := I.truth (v.read t.2) t.1
  isNull v t := I.isNull (v.read t.2) t.1
  onNull t := (.val (I.onNull t.1).1, ((I.onNull t.1).2, t.2))
  matches_ ty v w t := I.matches_ ty (v.read t.2) (w.read t.2) t.1

/-! ## The same results -/

/-- The same result in both interpretations, with the variables as `σ`. -/
inductive Same (ρ : (Idx → V) → α → β → Prop) (σ : Idx → V) : Res A (α × (S × (Idx → V))) → Res A (β × S) → Prop
  | ok {x : α} {y : β} {s : S} : ρ σ x y → Same ρ σ (.ok (x, (s, σ))) (.ok (y, s))
  | abort {a : A} : Same ρ σ (.abort a) (.abort a)
  | stuck : Same ρ σ .stuck .stuck

/-- A value with this content. -/
def CellReads (σ : Idx → V) (x : CellVal V) (v : V) : Prop := x.read σ = v

/-- Values with these contents. -/
def ReadsAll (σ : Idx → V) (xs : List (CellVal V)) (vs : List V) : Prop := xs.map (·.read σ) = vs

/-- An optional value with this content. -/
def ReadsOpt (σ : Idx → V) (x : Option (CellVal V)) (v : Option V) : Prop := x.map (·.read σ) = v

/-- Optional values with these contents. -/
def ReadsOpts (σ : Idx → V) (xs : List (Option (CellVal V))) (vs : List (Option V)) : Prop :=
  xs.map (Option.map (·.read σ)) = vs

theorem Same.bind {ρ : (Idx → V) → α → β → Prop} {ρ' : (Idx → V) → γ → δ → Prop} {σ : Idx → V}
    {r : Res A (α × (S × (Idx → V)))} {r' : Res A (β × S)} {k : α × (S × (Idx → V)) → Res A (γ × (S × (Idx → V)))}
    {k' : β × S → Res A (δ × S)} (h : Same ρ σ r r')
    (hk : ∀ x y s, r = .ok (x, (s, σ)) → ρ σ x y → Same ρ' σ (k (x, (s, σ))) (k' (y, s))) :
    Same ρ' σ (r.bind k) (r'.bind k') := by
  cases h with
  | ok h => exact hk _ _ _ rfl h
  | abort => exact .abort
  | stuck => exact .stuck

theorem Same.lift (σ : Idx → V) (r : Except A (V × S)) :
    Same CellReads σ (.ofExcept (liftCell σ r)) (.ofExcept r) := by
  cases r with
  | error a => exact .abort
  | ok x => exact .ok rfl

variable {I : Interp V S A} {U : Sugar V S} {M : Cells V} {start : Nat} {asg : Callee}

/-- An operand that is none of the variables. -/
def firstIsVal : List (CellVal V) → Prop
  | .val _ :: _ => True
  | _ => False

/-- Operations of the source do the same on the contents. -/
theorem Same.prim (op : Op) {σ : Idx → V} {xs : List (CellVal V)} {vs : List V} {s : S} (h : ReadsAll σ xs vs)
    (h1 : ∀ l, op = .getLocal l → l.toNat < start) (h2 : op = .assign → firstIsVal xs)
    (h3 : ∀ ty, op = .intrinsic .ArrayResize ty → firstIsVal xs) :
    Same CellReads σ (.ofExcept (cellPrim I U M start op xs (s, σ))) (.ofExcept (I.prim op vs s)) := by
  cases h
  unfold cellPrim
  split
  · rename_i l
    rw [if_neg (by have := h1 l rfl; omega)]
    exact Same.lift σ _
  · exact (h2 rfl).elim
  · exact (h2 rfl).elim
  · rename_i ty l i
    show Same CellReads σ (.ofExcept (match I.prim (.element ty) [σ l, i.read σ] s with
      | .ok (v, s) => .ok (.elem l (i.read σ) v, (s, σ))
      | .error a => .error a)) (.ofExcept (I.prim (.element ty) [σ l, i.read σ] s))
    cases I.prim (.element ty) [σ l, i.read σ] s with
    | error a => exact .abort
    | ok x => exact .ok rfl
  · exact (h3 _ rfl).elim
  · exact Same.lift σ _

/-- Calls of the source do the same on the contents. -/
theorem Same.call (c : Callee) {σ : Idx → V} {recv : Option (CellVal V)} {recv' : Option V}
    {xs : List (Option (CellVal V))} {vs : List (Option V)} {s : S} (hr : ReadsOpt σ recv recv') (h : ReadsOpts σ xs vs)
    (h1 : c = asg → recv = none → ∀ l w, xs ≠ [some (.var l), some w]) :
    Same CellReads σ (.ofExcept (cellCall I M asg c recv xs (s, σ))) (.ofExcept (I.call c recv' vs s)) := by
  cases h
  cases hr
  unfold cellCall
  split
  · rename_i hc
    exact absurd rfl (h1 (by simpa using hc) rfl _ _)
  · exact Same.lift σ _

theorem liftCell_val {σ : Idx → V} {r : Except A (V × S)} {x : CellVal V} {t : S × (Idx → V)}
    (h : liftCell σ r = .ok (x, t)) : ∃ v, x = .val v := by
  cases r with
  | error a => cases h
  | ok y => cases h; exact ⟨_, rfl⟩

/-- Only uses of added variables and of their elements are no plain values. -/
theorem cellPrim_val {op : Op} {xs : List (CellVal V)} {t t' : S × (Idx → V)} {x : CellVal V}
    (h : cellPrim I U M start op xs t = .ok (x, t')) (h1 : ∀ l, op = .getLocal l → l.toNat < start)
    (h2 : ∀ ty l i, op = .element ty → xs ≠ [.var l, i]) : ∃ v, x = .val v := by
  unfold cellPrim at h
  split at h
  · rename_i l
    rw [if_neg (by have := h1 l rfl; omega)] at h
    exact liftCell_val h
  · cases h; exact ⟨_, rfl⟩
  · cases h; exact ⟨_, rfl⟩
  · exact absurd rfl (h2 _ _ _ rfl)
  · cases h; exact ⟨_, rfl⟩
  · exact liftCell_val h

theorem cellCall_val {c : Callee} {recv : Option (CellVal V)} {xs : List (Option (CellVal V))} {t t' : S × (Idx → V)}
    {x : CellVal V} (h : cellCall I M asg c recv xs t = .ok (x, t')) : ∃ v, x = .val v := by
  unfold cellCall at h
  split at h
  · cases h; exact ⟨_, rfl⟩
  · exact liftCell_val h

end

end Redscript
