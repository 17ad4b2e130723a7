import Verif.Desugar.Claims
import Verif.Desugar.Literals

/-!
# C30 and C31: the hypotheses can be met
-/

namespace Redscript.Toy

theorem typed_three {st : DsState} (h : ∀ x ∈ st.locals, x ∈ [(100, .Array int), (101, .Array int), (102, int)]) : Typed queries st := by
  intro x hx
  have hx := h x hx
  simp only [List.mem_cons, List.not_mem_nil, or_false] at hx
  rcases hx with rfl | rfl | rfl <;> rfl

/-- `for x in [counted(), 2] { if x < 5 { break; } }`. -/
example (zero : Literal → Text) : ∃ loop st' array' body' st1 st2,
    dsExpr world.D (.ForIn 1 (lit [counted, num 2]) [.If (less (useLocal 1) (num 5)) [.Break] none]) st0 = .ok (loop, st') ∧
    dsSeq world.D [.If (less (useLocal 1) (num 5)) [.Break] none] st0 = .ok (body', st1) ∧
    dsExpr world.D (lit [counted, num 2]) st1 = .ok (array', st2) ∧
    ∀ s σ, SameEnds (fun l => decide (l.toNat < st1.next)) (ExecAll env zero world.J (st'.pending ++ [loop]) (s, σ))
      (Then (ExecAll env zero world.J st2.pending) (ForEach world zero 1 array' body') (s, σ)) := by
  obtain ⟨array', body', st1, st2, h⟩ := C30_for_in_visits_every_element_once_in_order (zero := zero) laws (x := 1) (array := lit [counted, num 2])
    (body := [.If (less (useLocal 1) (num 5)) [.Break] none]) (st := st0) (by decide) (by decide) (Nat.le_refl _) rfl (typed_three fun x hx => hx) rfl
  exact ⟨_, _, array', body', st1, st2, rfl, h⟩

/-- `[counted(), true ? [counted()][0] : 3]`: the inner literal is built whatever the condition. -/
example : ∃ e' st' l ps P,
    dsExpr world.D (lit [counted, .Conditional (.Constant (.Bool true)) (.ArrayElem (lit [counted]) (num 0)) (num 3)]) st0 = .ok (e', st') ∧
    DsEach world.D [counted, .Conditional (.Constant (.Bool true)) (.ArrayElem (lit [counted]) (num 0)) (num 3)] { next := 101, pending := [], locals := [(100, .Array int)] } ps ∧
    st'.pending = P ∧ ∀ s σ, BuildsArray world int l P e' (s, σ) (runElems world ps (s, σ)) := by
  obtain ⟨l, st1, ps, P, h1, h2, h3, h4⟩ := C31_array_literals_hold_their_elements laws
    (es := [counted, .Conditional (.Constant (.Bool true)) (.ArrayElem (lit [counted]) (num 0)) (num 3)]) (t := int) (st := st0)
    (by decide) (by decide) (by decide) (Nat.le_refl _) (typed_three fun x hx => by
      have hx : x ∈ [(100, .Array int), (101, .Array int)] := hx
      simp only [List.mem_cons, List.not_mem_nil, or_false] at hx ⊢
      exact hx.elim .inl (fun h => .inr (.inl h))) rfl
  cases h1
  exact ⟨_, _, 100, ps, P, rfl, h2, h3, h4⟩

/-- The elements of this literal have the values 0 and 1 in the initial state. -/
example (σ : Idx → Val) : ∃ σ', runElems world [([], counted),
    ([.Call (.Intrinsic .ArrayResize .Void) [] [useLocal 101, .Constant (.U64 1)], .Assign (.ArrayElem (useLocal 101) (.Constant (.U64 0))) counted],
      .Conditional (.Constant (.Bool true)) (.ArrayElem (useLocal 101) (num 0)) (num 3))] (s0, σ) =
      .ok ([.val (.const (.I32 0)), .val (.const (.I32 1))], ({ s0 with count := 2 }, σ')) := ⟨_, rfl⟩

/-- `s"v\(x)!\([counted()][0])"`. -/
example : ∃ e' st' ps,
    dsExpr world.D (.InterpolatedString "v".toList [(useLocal 1, "!".toList), (.ArrayElem (lit [counted]) (num 0), [])]) st0 = .ok (e', st') ∧
    DsEach world.D [useLocal 1, .ArrayElem (lit [counted]) (num 0)] st0 ps ∧ st'.pending = (ps.map (·.1)).flatten ∧
    ∀ t, evalE env world.J e' t = (runParts world ((ps.map (·.2)).zip ["!".toList, []]) t).bind fun (u, t) => .ok (.val (sugar.string ("v".toList ++ u)), t) := by
  obtain ⟨ps, h⟩ := C31_interpolated_strings_join_their_parts laws (start := "v".toList)
    (parts := [(useLocal 1, "!".toList), (.ArrayElem (lit [counted]) (num 0), [])]) (st := st0) (by decide) rfl
  exact ⟨_, _, ps, rfl, h⟩

end Redscript.Toy
