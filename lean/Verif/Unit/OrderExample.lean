import Verif.Unit.CompileExample
import Verif.Unit.OrderProps

/-!
# C75: examples

The hash maps of one run in the order of their entries, and those of another run in the opposite order.
-/

namespace Redscript
namespace DeclDemo
open WrapDemo (got got_ok at_index)

/-- The same compiler with hash maps in the opposite order. -/
def other : Back := { back with drain := fun m => (listing m).reverse, ord := List.reverse }

theorem other_same : SameBut back other where
  display := rfl
  defaults := rfl
  proxy := rfl
  checker := rfl
  checked := rfl
  desugarer := rfl
  desugared := rfl
  dsKind := rfl
  passes := rfl
  assembler := rfl
  assembled := rfl
  lists m := by
    obtain ⟨h1, h2⟩ := lists_listing m
    refine ⟨?_, fun k v => ?_⟩
    · show ((listing m).reverse.map (·.1)).Nodup
      rw [List.map_reverse]
      exact (List.reverse_perm _).nodup_iff.2 h1
    · show (k, v) ∈ (listing m).reverse ↔ _
      rw [List.mem_reverse]
      exact h2 k v
  perm l := List.reverse_perm l

theorem joined_length (x : Text) : ∀ m : ModulePath, x.length ≤ (m.withChild x).render.length := by
  intro m
  unfold ModulePath.withChild ModulePath.render
  induction m with
  | nil => simp [joinChar]
  | cons y m ih =>
    cases m with
    | nil => simp [joinChar]; omega
    | cons z m =>
      have : joinChar '.' ((y :: z :: m) ++ [x]) = y ++ '.' :: joinChar '.' ((z :: m) ++ [x]) := rfl
      rw [this, List.length_append, List.length_cons]
      omega

/-- All methods of `Base` with the signature of `m`. -/
def methodsB (p : ConstantPool) : Bool :=
  (List.range p.definitions.length).all fun n =>
    match p.definitionBy AnyDefinition.asClass (BitVec.ofNat 32 n) with
    | none => true
    | some c => decide (p.defName (BitVec.ofNat 32 n) = some "Sub".toList) ||
        c.functions.all fun f => decide (p.defName f ≠ some "m;".toList) || decide (f = 2)

theorem methods_of {p : ConstantPool} (h : methodsB p = true) {cls f : Idx} (hm : MethodOf p cls f) (hn : NameEnds p cls "Base".toList)
    (hs : p.defName f = some "m;".toList) : f = 2 := by
  obtain ⟨c, hc, hf⟩ := hm
  have hlt : cls.toNat < p.definitions.length := by
    unfold ConstantPool.definitionBy at hc
    cases hd : p.definitions[cls.toNat]? with
    | none => rw [hd] at hc; cases hc
    | some d => exact (List.getElem?_eq_some_iff.1 hd).1
  have h1 := List.all_eq_true.1 h _ (List.mem_range.2 hlt)
  have e : BitVec.ofNat 32 cls.toNat = cls := by simp
  rw [e, hc] at h1
  simp only [Bool.or_eq_true, decide_eq_true_eq, List.all_eq_true] at h1
  rcases h1 with h1 | h1
  · obtain ⟨t, ht, hn⟩ := hn
    rw [h1] at ht
    cases ht
    rcases hn with hn | ⟨m, hn⟩
    · exact absurd hn (by decide)
    · have := joined_length "Base".toList m
      rw [← hn] at this
      exact absurd this (by decide)
  · rcases h1 f hf with h1 | h1
    · exact absurd hs h1
    · exact h1

/-- The wrappers in the sources are around methods `m` of classes called `Base`. -/
def wrapsB (ms : List SourceModule) : Bool :=
  (wrapEntries ms).all fun e => match e.2 with
    | .Function f => decide (f.sig = "m;".toList) && f.placing.all fun a => decide (a.target = some "Base".toList)
    | _ => false

theorem target_of {ms : List SourceModule} {s : DeclState} (h : wrapsB ms = true) (hp : methodsB s.pool = true) {mods : List ModulePath} {e : SourceModule × SourceEntry}
    (he : e ∈ wrapEntries ms) {w : WrapSlot} (hw : WrapperFor s mods e w) : w.target = 2 := by
  obtain ⟨f, a, t, base, k1, k2, _, ⟨x, k4, k5⟩, k6, k7, _⟩ := hw
  have h1 := List.all_eq_true.1 h e he
  rw [k1] at h1
  have h1 : (decide (f.sig = "m;".toList) && f.placing.all fun a => decide (a.target = some "Base".toList)) = true := h1
  rw [k2, Bool.and_eq_true] at h1
  have h2 : f.sig = "m;".toList := of_decide_eq_true h1.1
  have h3 : a.target = some "Base".toList := of_decide_eq_true h1.2
  rw [h3] at k4
  cases k4
  rw [h2] at k7
  exact methods_of hp k6 k5 k7

theorem program_small : OneSmallTarget program (after program) := by
  have h1 : wrapsB program = true := by decide +kernel
  have h2 : methodsB (after program).pool = true := by decide +kernel
  have h3 : ((after program).pool.function 2).all (fun fn => decide (fn.locals.length ≤ 1)) = true := by decide +kernel
  have h4 : ∀ b ∈ (after program).bodies, b.index ≠ 2 := by
    have : (after program).bodies.all (fun b => decide (b.index ≠ 2)) = true := by decide +kernel
    exact fun b hb => of_decide_eq_true (List.all_eq_true.1 this b hb)
  refine ⟨fun e he e' he' w w' hw hw' => (target_of h1 h2 he hw).trans (target_of h1 h2 he' hw').symm, fun e he w hw fn hf => ?_, fun e he w hw => ?_⟩
  · rw [target_of h1 h2 he hw] at hf
    rw [hf] at h3
    exact of_decide_eq_true h3
  · rw [target_of h1 h2 he hw]
    exact h4

/-- Two wrappers around one function: every run gives the same. -/
example : ∃ fuel out, back.compile 5 fuel program pool = .ok out ∧ other.compile 5 fuel program pool = .ok out ∧ (wrapEntries program).length = 2 := by
  obtain ⟨fuel, out, h⟩ := program_compiled
  exact ⟨fuel, out, h.compiled, C75_every_run_gives_the_same_partial h other_same program_small, by decide +kernel⟩

/-- Two functions that wrap nothing. -/
def unwrapped : List SourceModule := [⟨none, [], [
  returning (func [ann .AddMethod "Base"] "k" [⟨[], "x".toList, int⟩]),
  returning (func [] "h")]⟩]

/-- Every run gives the same for them. -/
example : ∃ fuel out, back.compile 5 fuel unwrapped pool = .ok out ∧ other.compile 5 fuel unwrapped pool = .ok out := by
  obtain ⟨fuel, out, h⟩ := cleanly_of (ms := unwrapped) (by decide +kernel) (by decide +kernel) (by decide +kernel) (by decide +kernel) (by decide +kernel)
    (by decide +kernel) (by decide +kernel) (by decide +kernel) (by decide +kernel) (by decide +kernel) (by decide +kernel)
  exact ⟨fuel, out, h.compiled, C75_without_wrappers h other_same (by decide +kernel)⟩

/-! ## Two functions -/

/-- Two methods are wrapped. -/
def twoWraps : List SourceModule := [⟨none, [], [
  .Function (func [ann .WrapMethod "Base"] "m"),
  .Function (func [ann .WrapMethod "Sub"] "m")]⟩]

/-- C75 fails for sources that wrap two functions: two runs of the compiler give different bundles. Both are correct
(`C36`, `C74`), but the names of the proxies are put into the table of names in the order of a hash map. -/
theorem C75_two_wrapped_functions_counterexample : ∃ B B' fuel out out', SameBut B B' ∧ B.compile 5 fuel twoWraps pool = .ok out ∧
    B'.compile 5 fuel twoWraps pool = .ok out' ∧ out.diagnostics = [] ∧ out'.diagnostics = [] ∧ out.pool.names.strings ≠ out'.pool.names.strings := by
  obtain ⟨N, h1⟩ := compiled_of (B := back) (ms := twoWraps) (by decide +kernel) (by decide +kernel) (by decide +kernel) (by decide +kernel)
    (by decide +kernel) (by decide +kernel)
  obtain ⟨M, h2⟩ := compiled_of (B := other) (ms := twoWraps) (by decide +kernel) (by decide +kernel) (by decide +kernel) (by decide +kernel)
    (by decide +kernel) (by decide +kernel)
  obtain ⟨refs, h1⟩ := h1 (N + M) (by omega)
  obtain ⟨refs', h2⟩ := h2 (N + M) (by omega)
  exact ⟨back, other, N + M, _, _, other_same, h1, h2, rfl, rfl, by
    have : (swapped back twoWraps).names.strings ≠ (swapped other twoWraps).names.strings := by decide +kernel
    exact this⟩

/-! ## Two locals -/

/-- A function (2) with two locals and its proxy (5). -/
def twoLocals : ConstantPool :=
  { pool with definitions := [.default, .mk' 1 0 (cls 0 [2] []), .mk' 2 1 (.Function (WrapDemo.fn [] [3, 4] [.Assign, .Local 3, .Local 4])),
      .mk' 5 2 (.Local ⟨0, 0⟩), .mk' 6 2 (.Local ⟨0, 0⟩), .mk' 4 1 (.Function (WrapDemo.fn [] [] [.Nop]))] }

/-- C75 fails for a wrapped function with two locals, too: when it changes places with its proxy, its code is the same in
two runs, but its locals are listed in the order of a hash map. -/
theorem C75_two_locals_counterexample : ∃ p p' fn fn', swapAll back.ord [(2, 5)] twoLocals = .ok p ∧ swapAll other.ord [(2, 5)] twoLocals = .ok p' ∧
    p.function 5 = some fn ∧ p'.function 5 = some fn' ∧ fn.code = fn'.code ∧ fn.locals = [7, 6] ∧ fn'.locals = [6, 7] :=
  ⟨got pool (swapAll back.ord [(2, 5)] twoLocals), got pool (swapAll other.ord [(2, 5)] twoLocals), _, _, got_ok (by decide +kernel), got_ok (by decide +kernel),
    rfl, rfl, by decide +kernel, by decide +kernel, by decide +kernel⟩

end DeclDemo
end Redscript
