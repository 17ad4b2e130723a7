import Verif.Unit.CompileRest
import Verif.Unit.DeclTheorems
import Verif.Unit.SourceRefsExample

/-!
# C82: examples
-/

namespace Redscript
namespace DeclDemo

/-- No function of the sources has the signature `t`. -/
def noSigB (ms : List SourceModule) (t : Text) : Bool := ms.all fun m => m.entries.all fun e => match e with
  | .Function f => decide (f.sig ≠ t)
  | _ => true

theorem noSig_of {ms : List SourceModule} {t : Text} (h : noSigB ms t = true) {f : FunctionSource} (hf : Declares ms (.Function f)) : f.sig ≠ t := by
  obtain ⟨m, hm, he, _⟩ := hf
  have h1 := List.all_eq_true.1 (List.all_eq_true.1 h m hm) _ he
  exact of_decide_eq_true h1

/-- No declaration of the sources has an annotation. -/
def quietB (ms : List SourceModule) : Bool := ms.all fun m => m.entries.all fun e => e.declaration.annotations.isEmpty

theorem quiet_of {ms : List SourceModule} (h : quietB ms = true) : OnlyDeclares ms := by
  rintro e ⟨m, hm, he, _⟩ a ha
  have h1 := List.all_eq_true.1 (List.all_eq_true.1 h m hm) _ he
  rw [List.isEmpty_iff.1 h1] at ha
  cases ha

/-- A class with members that extends a class of the bundle, an enum and a function. -/
def quiet : List SourceModule := [
  ⟨some ["A".toList], [], [
    .Class ⟨decl [] "New", some "Sub".toList, [.Field ⟨decl [] "c", int, none⟩, refMember (func [] "m")]⟩,
    .Enum ⟨decl [] "E", [("x".toList, 3)]⟩,
    returning (func [] "h")]⟩]

theorem quiet_compiled : ∃ fuel out, CleanCompile back 5 fuel quiet pool (after quiet) out :=
  cleanly_of_names (by decide +kernel) (by decide +kernel) (by decide +kernel) (by decide +kernel) (by decide +kernel) (by decide +kernel) (by decide +kernel)
    (by decide +kernel) (by decide +kernel) (by decide +kernel) (by decide +kernel)

/-- The base of the new class and the method that it overrides are where they were, and unchanged. -/
example : ∃ fuel out, CleanCompile back 5 fuel quiet pool (after quiet) out ∧ pool.definition 4 = some (.mk' 3 0 (cls 1 [7] [])) ∧
    out.pool.definition 4 = some (.mk' 3 0 (cls 1 [7] [])) ∧ ∃ σ : Idx → Idx, σ 4 = 4 ∧
    out.pool.definition 7 = some ((.mk' 2 4 (fn (some 2)) : Definition).mapRefs σ id) := by
  obtain ⟨fuel, out, h⟩ := quiet_compiled
  obtain ⟨σ, _, _, h2, h3⟩ := C82_declarations_change_nothing h pool_named (quiet_of (by decide +kernel))
  have h2 := h2 (classes_of (by decide +kernel)).2.2
  have k7 := h3 7 _ rfl
  rw [h2 7 (by decide +kernel)] at k7
  have k4 := h3 4 _ rfl
  rw [h2 4 (by decide +kernel)] at k4
  have h1 : σ 1#32 = 1#32 := h2 1 (by decide +kernel)
  exact ⟨fuel, out, h, rfl, by simpa [Definition.mapRefs, Definition.mk', cls, h1] using k4, σ, h2 4 (by decide +kernel), k7⟩

/-- A wrapper, an added field and an added method: the field of `Base` that was there before is unchanged, `Base` has new members. -/
example : ∃ fuel out σ, CleanCompile back 5 fuel referred pool (after referred) out ∧ pool.definition 3 = some (.mk' 5 1 (.Field ⟨.pub, 6, 0, none, [], []⟩)) ∧
    out.pool.definition 3 = some ((.mk' 5 1 (.Field ⟨.pub, 6, 0, none, [], []⟩) : Definition).mapRefs σ id) ∧
    ∃ d', out.pool.definition (σ 1) = some (d'.mapRefs σ id) ∧ Remains pool (after referred).pool referred 1 (.mk' 1 0 (cls 0 [2] [3])) d' := by
  obtain ⟨fuel, out, h⟩ := referred_compiled
  obtain ⟨_, σ, _, h2, _, h3⟩ := C82_nothing_else_changes h pool_named
  obtain ⟨d', k1, k2⟩ := h3 3 _ rfl
  refine ⟨fuel, out, σ, h, rfl, ?_, h3 1 _ rfl⟩
  rw [h2 3 _ rfl (fun c e => by cases e)] at k1
  rcases k2 with rfl | ⟨c, _, _, e, _⟩ | ⟨f, x, _, hf, ⟨hs, _⟩, _⟩ | ⟨⟨f, _, _, hf, _, _, _, _, hs⟩, _⟩
  · exact k1
  · cases e
  · have h5 : pool.defName 3 = some "a".toList := by decide +kernel
    rw [h5] at hs
    exact absurd (Option.some.inj hs).symm (noSig_of (by decide +kernel) hf)
  · have h5 : (after referred).pool.defName 3 = some "a".toList := by decide +kernel
    rw [h5] at hs
    exact absurd (Option.some.inj hs).symm (noSig_of (by decide +kernel) hf)

end DeclDemo
end Redscript
