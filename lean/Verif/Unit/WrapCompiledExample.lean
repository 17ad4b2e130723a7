import Verif.Unit.DefaultExamples
import Verif.Unit.DeclTheorems
import Verif.Unit.WrapCompiled
import Verif.Unit.WrapExample

/-!
# Sources with wrappers (example)

A method that is added to `Base` is wrapped in another module, and the method that `Base` has is wrapped in both.
-/

namespace Redscript
namespace DeclDemo
open WrapDemo (got got_ok)

def wrapping : List SourceModule := [
  ⟨none, [], [
    .Function (func [ann .AddMethod "Base"] "k" [⟨[], "x".toList, int⟩]),
    .Function (func [ann .WrapMethod "Base"] "m")]⟩,
  ⟨some ["A".toList], [], [
    .Function (func [ann .WrapMethod "Base"] "k" [⟨[], "y".toList, int⟩]),
    .Function (func [ann .WrapMethod "Base"] "m")]⟩]

def wp1 : ConstantPool := (after wrapping).pool
def wp2 : ConstantPool := got wp1 (constructAll WrapDemo.q (after wrapping).proxies [(8, 12), (2, 13)] wp1)
def wbody (i : Idx) : WrapBody := ⟨i, [.Nop], []⟩
def wp3a : ConstantPool := got wp1 (installBody wp2 (wbody 8))
def wp3b : ConstantPool := got wp1 (installBody wp3a (wbody 10))
def wp3c : ConstantPool := got wp1 (installBody wp3b (wbody 12))
def wp3 : ConstantPool := got wp1 (installBody wp3c (wbody 13))
def wp4 : ConstantPool := got wp1 (swapAll id [(2, 9), (8, 11)] wp3)

theorem wrapping_runs : declareModules 5 false wrapping start = (.ok (), after wrapping) := by
  have : (declareModules 5 false wrapping start).1.toOption = some () := by decide +kernel
  cases hd : declareModules 5 false wrapping start with
  | mk r s =>
    rw [hd] at this
    cases r with
    | error e => cases this
    | ok a => unfold after; rw [hd]

theorem pool_sound : MethodsSound pool := by
  intro cls f hf
  obtain ⟨d, g, h1, h2⟩ := pool_methods cls f hf
  have h3 : (List.range pool.definitions.length).all (fun n => (pool.defName (BitVec.ofNat 32 n)).isSome &&
      match pool.definition (BitVec.ofNat 32 n) with
      | some d => (match d.value with
        | .Function g => g.parameters.isEmpty
        | _ => true)
      | none => true) = true := by decide +kernel
  obtain ⟨n, hn, rfl⟩ := WrapDemo.at_index h1
  have h4 := List.all_eq_true.1 h3 n (List.mem_range.2 hn)
  rw [Bool.and_eq_true, h1] at h4
  simp only [h2] at h4
  obtain ⟨h4, h5⟩ := h4
  obtain ⟨t, ht⟩ := Option.isSome_iff_exists.1 h4
  refine ⟨d, g, t, h1, h2, ht, ?_⟩
  have h5 : g.parameters = [] := List.isEmpty_iff.1 h5
  rw [h5]
  intro i hi; cases hi

theorem wrapping_plain : ∀ m ∈ wrapping, ∀ e ∈ m.entries, e.Plain := by
  have h : wrapping.all (fun m => m.entries.all fun e => match e with
    | .Function f => decide ('$' ∉ f.sig ∧ f.sig ≠ "None".toList)
    | _ => false) = true := by decide +kernel
  intro m hm e he
  have h1 := List.all_eq_true.1 (List.all_eq_true.1 h m hm) e he
  cases e with
  | Function f =>
    have h2 : '$' ∉ f.sig ∧ f.sig ≠ "None".toList := of_decide_eq_true h1
    exact h2
  | _ => cases h1

theorem lists_entries {m : AMap Idx Idx} {order : List (Idx × Idx)}
    (h : (decide (order.map (·.1)).Nodup && (order.all fun x => decide (m.get x.1 = some x.2)) &&
      m.entries.all fun x => decide (x.1 ∈ order.map (·.1))) = true) : ListsMap m order := by
  rw [Bool.and_eq_true, Bool.and_eq_true] at h
  obtain ⟨⟨h1, h2⟩, h3⟩ := h
  have hg : ∀ x ∈ order, m.get x.1 = some x.2 := fun x hx => of_decide_eq_true (List.all_eq_true.1 h2 x hx)
  refine ⟨of_decide_eq_true h1, fun k v => ⟨fun hx => hg _ hx, fun hx => ?_⟩⟩
  obtain ⟨y, hy, rfl, rfl⟩ : ∃ y ∈ m.entries, y.1 = k ∧ y.2 = v := by
    have go : ∀ l : List (Idx × Idx), AMap.get.go k l = some v → ∃ y ∈ l, y.1 = k ∧ y.2 = v := by
      intro l
      induction l with
      | nil => intro h; cases h
      | cons y l ih =>
        intro h
        unfold AMap.get.go at h
        split at h
        · next e => cases h; exact ⟨y, by simp, e.symm, rfl⟩
        · obtain ⟨z, h1, h2⟩ := ih h
          exact ⟨z, List.mem_cons_of_mem _ h1, h2⟩
    exact go _ hx
  have h4 := of_decide_eq_true (List.all_eq_true.1 h3 y hy)
  obtain ⟨z, hz, e⟩ := List.mem_map.1 h4
  have := hg z hz
  rw [e, hx] at this
  have : z = y := Prod.ext e (Option.some.inj this).symm
  rw [← this]; exact hz

theorem wrapping_finish : WrapFinish WrapDemo.q (after wrapping) wp1 [wbody 8, wbody 10, wbody 12, wbody 13] wp2 wp3 wp4 where
  built := ⟨[(8, 12), (2, 13)], lists_entries (by decide +kernel), by decide +kernel, got_ok (by decide +kernel)⟩
  installed := .body (bs := [_, _, _]) (.body (bs := [_, _]) (.body (bs := [_]) (.body (bs := []) .nil (got_ok (by decide +kernel)))
    (got_ok (by decide +kernel))) (got_ok (by decide +kernel))) (got_ok (by decide +kernel))
  pending := by
    have h : [wbody 8, wbody 10, wbody 12, wbody 13].all (fun b => (after wrapping).bodies.any fun c => decide (c.index = b.index)) = true := by decide +kernel
    intro b hb
    obtain ⟨c, h1, h2⟩ := List.any_eq_true.1 (List.all_eq_true.1 h b hb)
    exact ⟨c, h1, of_decide_eq_true h2⟩
  locals := fun i d fn _ hd hf l hl => by
    have h : wp3.definitions.all (fun d => match d.value with
      | .Function f => f.locals.isEmpty
      | _ => true) = true := by decide +kernel
    have h1 := List.all_eq_true.1 h d (List.mem_of_getElem? hd)
    rw [hf] at h1
    rw [List.isEmpty_iff.1 h1] at hl
    cases hl
  exchanged := ⟨id, [(2, 9), (8, 11)], fun _ => .refl _, lists_entries (by decide +kernel), got_ok (by decide +kernel)⟩
  room := by decide +kernel

/-- The two wrappers of `m` nest in the order of the sources, around the original. -/
example : ∃ ws : List WrapSlot, ws.length = 3 ∧
    Each2 (WrapperFor (after wrapping) [["A".toList]]) ((wrapping.flatMap (·.enabled [["A".toList]])).filter (·.2.isWrap)) ws ∧
    WrapRun WrapDemo.q pool ws ⟨wp1, (after wrapping).wrappers, (after wrapping).proxies⟩ [wbody 8, wbody 10, wbody 12, wbody 13] wp2 wp3 wp4 := by
  obtain ⟨ws, h1, h2⟩ := C73_wrappers_of_a_program names_reachable pool_sound pool_shape start_eq wrapping_plain wrapping_runs (by decide +kernel)
    (by decide +kernel) (by decide +kernel)
  refine ⟨ws, ?_, h1, h2 (P := ⟨fun _ => [], fun _ => []⟩) (E := fun _ => TcToy.tc) (diags := []) ?_ wrapping_finish⟩
  · rw [← h1.length]; decide +kernel
  · have : (after wrapping).defaults = [] := by decide +kernel
    rw [this]; rfl

end DeclDemo
end Redscript
