import Verif.Unit.CompileExample
import Verif.Unit.CompileFiles

/-!
# C76: an example

Three functions from two files; one of them is a wrapper.
-/

namespace Redscript
namespace DeclDemo

def placedAt (path : String) (line : BitVec 32) (f : FunctionSource) : FunctionSource :=
  { f with declaration := { f.declaration with loc := some (path, line) } }

def placed : List SourceModule := [
  ⟨none, [], [
    returning (placedAt "a.reds" 3 (func [ann .WrapMethod "Base"] "m")),
    returning (placedAt "a.reds" 7 (func [] "h"))]⟩,
  ⟨some ["A".toList], [], [
    returning (placedAt "b.reds" 0 (func [ann .AddMethod "Base"] "k" [⟨[], "x".toList, int⟩]))]⟩]

theorem placed_compiled : ∃ fuel out, CleanCompile back 5 fuel placed pool (after placed) out :=
  cleanly_of (by decide +kernel) (by decide +kernel) (by decide +kernel) (by decide +kernel) (by decide +kernel) (by decide +kernel) (by decide +kernel)
    (by decide +kernel) (by decide +kernel) (by decide +kernel) (by decide +kernel)

/-- All three are declared, and there is a function for line 3 of the first file. -/
example : (placed.flatMap (·.enabled (placed.filterMap (·.path)))).length = 3 ∧ ∃ fuel out files,
    CleanCompile back 5 fuel placed pool (after placed) out ∧ FilesListed out.pool files ∧
    ∃ i g r, out.pool.function i = some g ∧ g.source = some ⟨r, 3⟩ ∧ ("a.reds", r) ∈ files := by
  obtain ⟨fuel, out, h⟩ := placed_compiled
  obtain ⟨files, h1, is, _, h2⟩ := C76_functions_record_their_place h
  refine ⟨by decide +kernel, fuel, out, files, h, h1, ?_⟩
  have hm : (placed.flatMap (·.enabled (placed.filterMap (·.path)))).any (fun e => match e.2 with
    | .Function f => decide (f.declaration.loc = some ("a.reds", 3))
    | _ => false) = true := by decide +kernel
  obtain ⟨e, he, hl⟩ := List.any_eq_true.1 hm
  obtain ⟨i, _, hi⟩ := h2.mem_left he
  obtain ⟨m, e⟩ := e
  cases e with
  | Function f =>
    have hl : f.declaration.loc = some ("a.reds", 3) := of_decide_eq_true hl
    obtain ⟨g, k1, k2⟩ := hi
    rw [hl] at k2
    obtain ⟨r, k3, k4⟩ := k2
    exact ⟨i, g, r, k1, k3, k4⟩
  | _ => cases hl

end DeclDemo
end Redscript
