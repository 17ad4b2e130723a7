import Verif.Unit.CompileTheorems
import Verif.Unit.WrapCompiledExample

/-!
# The compilation of sources with wrappers (example)

A global function and a method are added, and a method that is there is wrapped twice.
-/

namespace Redscript
namespace DeclDemo
open WrapDemo (got got_ok)

def returning (f : FunctionSource) : SourceEntry := .Function { f with body := some [.Return none] }

def program : List SourceModule := [
  ⟨none, [], [
    returning (func [ann .AddMethod "Base"] "k" [⟨[], "x".toList, int⟩]),
    .Function (func [ann .WrapMethod "Base"] "m")]⟩,
  ⟨some ["A".toList], [], [
    returning (func [ann .WrapMethod "Base"] "m"),
    returning (func [] "h")]⟩]

/-- A hash map in the order of its entries. -/
def listing (m : AMap Idx Idx) : List (Idx × Idx) := go [] m.entries
where
  /-- Skip the keys seen. -/
  go (seen : List Idx) : List (Idx × Idx) → List (Idx × Idx)
    | [] => []
    | kv :: rest => if kv.1 ∈ seen then go seen rest else kv :: go (kv.1 :: seen) rest

theorem listing_go (l : List (Idx × Idx)) : ∀ seen, ((listing.go seen l).map (·.1)).Nodup ∧
    (∀ k ∈ (listing.go seen l).map (·.1), k ∉ seen) ∧ ∀ k v, (k, v) ∈ listing.go seen l ↔ k ∉ seen ∧ AMap.get.go k l = some v := by
  induction l with
  | nil => intro seen; exact ⟨.nil, by simp [listing.go], by simp [listing.go, AMap.get.go]⟩
  | cons kv l ih =>
    intro seen
    unfold listing.go
    by_cases h : kv.1 ∈ seen
    · rw [if_pos h]
      obtain ⟨h1, h2, h3⟩ := ih seen
      refine ⟨h1, h2, fun k v => ?_⟩
      rw [h3]
      unfold AMap.get.go
      refine and_congr_right fun hk => ?_
      rw [if_neg (by rintro rfl; exact hk h)]
      cases l <;> rfl
    · rw [if_neg h]
      obtain ⟨h1, h2, h3⟩ := ih (kv.1 :: seen)
      refine ⟨?_, ?_, fun k v => ?_⟩
      · rw [List.map_cons, List.nodup_cons]
        exact ⟨fun hk => h2 _ hk List.mem_cons_self, h1⟩
      · intro k hk
        rw [List.map_cons, List.mem_cons] at hk
        rcases hk with rfl | hk
        · exact h
        · exact fun hs => h2 k hk (List.mem_cons_of_mem _ hs)
      · rw [List.mem_cons, h3]
        unfold AMap.get.go
        by_cases e : k = kv.1
        · subst e
          simp only [List.mem_cons_self, not_true_eq_false, false_and, or_false, if_true, Option.some.injEq]
          exact ⟨fun e => ⟨h, by rw [← e]⟩, fun e => Prod.ext rfl e.2.symm⟩
        · rw [if_neg e]
          constructor
          · rintro (h1 | ⟨h1, h2⟩)
            · exact absurd (by rw [← h1]) e
            · exact ⟨fun hs => h1 (List.mem_cons_of_mem _ hs), by cases l <;> exact h2⟩
          · rintro ⟨h1, h2⟩
            exact .inr ⟨fun hs => (List.mem_cons.1 hs).elim e h1, by cases l <;> exact h2⟩

theorem lists_listing (m : AMap Idx Idx) : ListsMap m (listing m) := by
  obtain ⟨h1, _, h3⟩ := listing_go m.entries []
  exact ⟨h1, fun k v => by
    have := h3 k v
    simp only [List.not_mem_nil, not_false_eq_true, true_and] at this
    exact this⟩

/-- Passes that add nothing to the pool. -/
def back : Back where
  drain := listing
  ord := id
  display := ⟨fun _ => [], fun _ => []⟩
  defaults _ _ := TcToy.tc
  proxy := WrapDemo.q
  checker _ _ := { TcToy.tc with returns := .ok none }
  checked _ p := p
  desugarer _ _ := ⟨fun _ => .error .lookup, fun _ _ => .error .panic, fun _ => .error .panic, .error .panic, .error .panic, .error .panic, .error .panic, .error .panic⟩
  desugared _ p := p
  dsKind _ := .compile
  passes _ _ _ := []
  assembler _ _ := WrapDemo.q
  assembled _ p := p

theorem runs_of {ms : List SourceModule} (h : (declareModules 5 false ms start).1.toOption = some ()) :
    declareModules 5 false ms start = (.ok (), after ms) := by
  cases hd : declareModules 5 false ms start with
  | mk r s =>
    rw [hd] at h
    cases r with
    | error e => cases h
    | ok a => unfold after; rw [hd]

/-- A check of names. -/
def plainB (ms : List SourceModule) : Bool := ms.all (fun m => m.entries.all fun e => match e with
  | .Function f => decide ('$' ∉ f.sig ∧ f.sig ≠ "None".toList)
  | _ => false)

theorem plain_of {ms : List SourceModule} (h : plainB ms = true) : ∀ m ∈ ms, ∀ e ∈ m.entries, e.Plain := by
  intro m hm e he
  have h1 := List.all_eq_true.1 (List.all_eq_true.1 h m hm) e he
  cases e with
  | Function f =>
    have h2 : '$' ∉ f.sig ∧ f.sig ≠ "None".toList := of_decide_eq_true h1
    exact h2
  | _ => cases h1

theorem pool_locals : LocalsSound pool := by
  intro i d f hd hf l hl
  have h : pool.definitions.all (fun d => match d.value with
    | .Function f => f.locals.isEmpty
    | _ => true) = true := by decide +kernel
  have h1 := List.all_eq_true.1 h d (List.mem_of_getElem? hd)
  rw [hf] at h1
  rw [List.isEmpty_iff.1 h1] at hl
  cases hl

/-- A check of the classes of a pool. -/
def classesB (p : ConstantPool) : Bool :=
  decide (p.definitions.length ≤ 2 ^ 32) && decide (p.baseOf 0 = none) && (List.range p.definitions.length).all fun n =>
    match p.baseOf (BitVec.ofNat 32 n) with
    | some b => decide (b = 0) || ((p.baseOf b).isSome && decide (b.toNat < n))
    | none => true

theorem classes_of {p : ConstantPool} (h : classesB p = true) : p.ClassesOk ∧ p.AcyclicClasses ∧ p.BasesFirst := by
  unfold classesB at h
  rw [Bool.and_eq_true, Bool.and_eq_true] at h
  obtain ⟨⟨h1, h2⟩, h3⟩ := h
  have key : ∀ i b, p.baseOf i = some b → b ≠ 0 → (∃ b', p.baseOf b = some b') ∧ b.toNat < i.toNat := by
    intro i b hi hb
    obtain ⟨d, c, k1, _⟩ := baseOf_definition hi
    obtain ⟨n, hn, rfl⟩ := WrapDemo.at_index k1
    have h4 := List.all_eq_true.1 h3 n (List.mem_range.2 hn)
    rw [hi] at h4
    simp only [hb, decide_false, Bool.false_or, Bool.and_eq_true, decide_eq_true_eq] at h4
    have h5 := of_decide_eq_true h1
    exact ⟨Option.isSome_iff_exists.1 h4.1, by rw [BitVec.toNat_ofNat, Nat.mod_eq_of_lt (by omega)]; exact h4.2⟩
  exact ⟨⟨of_decide_eq_true h1, of_decide_eq_true h2, fun i b hi hb => (key i b hi hb).1⟩, ⟨BitVec.toNat, fun i b hi hb => (key i b hi hb).2⟩,
    fun i b hi hb => (key i b hi hb).2⟩

/-- Bodies that do nothing. -/
def bodiesB (bs : List DeclBody) : Bool := bs.all (fun b => match b.code with
  | [] => true
  | [.Return none] => true
  | _ => false)

theorem back_laws {bs : List DeclBody} (hc : bodiesB bs = true) : back.Laws bs where
  lists := lists_listing
  perm _ := .refl _
  checked _ _ := .refl _
  desugared _ _ := .refl _
  assembled _ _ := .refl _
  locals b hb p f ds p' h := by
    have h1 := List.all_eq_true.1 hc b hb
    have hl : f.locals = [] := by
      unfold Back.compileFunction at h
      split at h
      · cases h
      · split at h
        · cases h
        · next sc _ =>
          split at h1
          · next e =>
            rw [e] at h
            cases h
            rfl
          · next e =>
            rw [e] at h
            cases h
            rfl
          · cases h1
    rw [hl]
    intro l hl; cases hl

def rest (B : Back) (ms : List SourceModule) : List CompiledFn × List Diagnostic × ConstantPool := got ([], [], pool) (B.compileRest (after ms))
def installed (B : Back) (ms : List SourceModule) : ConstantPool := got pool (B.installAll (rest B ms).1 (rest B ms).2.2)
def swapped (B : Back) (ms : List SourceModule) : ConstantPool := got pool (swapAll B.ord (B.drain (after ms).proxies) (installed B ms))

theorem compile_of {B : Back} {depth fuel : Nat} {ms : List SourceModule} {p p3 p4 p5 : ConstantPool} {s s' : DeclState}
    {r : List CompiledFn × List Diagnostic × ConstantPool} {refs : List SourceRef} (h0 : DeclState.ofPool p = some s) (h1 : declareModules depth false ms s = (.ok (), s'))
    (h2 : B.compileRest s' = .ok r) (h3 : B.installAll r.1 r.2.2 = .ok p3) (h4 : swapAll B.ord (B.drain s'.proxies) p3 = .ok p4)
    (h5 : cleanupPool fuel p4 s'.refs = .ok (p5, refs)) : B.compile depth fuel ms p = 
      .ok ⟨sortDiagnostics r.2.1, refs, p5⟩ := by
  unfold Back.compile Back.finish
  simp only [h0, h1, h2, h3, h4, h5]

/-- Sources are compiled, if each step succeeds. -/
theorem compiled_of {B : Back} {ms : List SourceModule} (h0 : (declareModules 5 false ms start).1.toOption = some ()) (c : classesB (swapped B ms) = true)
    (h1 : (B.compileRest (after ms)).toOption.isSome = true) (h2 : (B.installAll (rest B ms).1 (rest B ms).2.2).toOption.isSome = true)
    (h3 : (swapAll B.ord (B.drain (after ms).proxies) (installed B ms)).toOption.isSome = true) (h4 : (rest B ms).2.1.length = 0) :
    ∃ N, ∀ fuel, N ≤ fuel → ∃ refs, B.compile 5 fuel ms pool = .ok ⟨[], refs, swapped B ms⟩ := by
  obtain ⟨c1, c2, c3⟩ := classes_of c
  obtain ⟨N, hN⟩ := C37_classes_follow_their_bases c1 c2 (after ms).refs
  refine ⟨N, fun fuel hf => ?_⟩
  obtain ⟨p', σ, n1, _, _, n2, _⟩ := hN fuel hf
  obtain ⟨e1, e2⟩ := n2 c3
  rw [e1] at n1
  refine ⟨(after ms).refs.map (·.move σ), ?_⟩
  rw [compile_of start_eq (runs_of h0) (got_ok h1) (got_ok h2) (got_ok h3) n1]
  have : sortDiagnostics (got ([], [], pool) (B.compileRest (after ms))).2.1 = [] := by
    have : (got ([], [], pool) (B.compileRest (after ms))).2.1 = [] := List.length_eq_zero_iff.1 h4
    rw [this]; unfold sortDiagnostics; simp
  rw [this]

theorem cleanly_of {ms : List SourceModule} (hp : plainB ms = true) (h0 : (declareModules 5 false ms start).1.toOption = some ())
    (hb : bodiesB (after ms).bodies = true) (c : classesB (swapped back ms) = true) (c' : classesB (after ms).pool = true)
    (h1 : (back.compileRest (after ms)).toOption.isSome = true) (h2 : (back.installAll (rest back ms).1 (rest back ms).2.2).toOption.isSome = true)
    (h3 : (swapAll back.ord (back.drain (after ms).proxies) (installed back ms)).toOption.isSome = true) (h4 : (rest back ms).2.1.length = 0)
    (h5 : (swapped back ms).definitions.length < 2 ^ 32) (h6 : (after ms).pool.names.strings.length + (back.drain (after ms).wrappers).length + 1 < 2 ^ 32) :
    ∃ fuel out, CleanCompile back 5 fuel ms pool (after ms) out := by
  obtain ⟨N, hN⟩ := compiled_of h0 c h1 h2 h3 h4
  obtain ⟨refs, hc⟩ := hN N (Nat.le_refl _)
  exact ⟨N, _, names_reachable, pool_sound, pool_locals, pool_shape, plain_of hp, ⟨start, start_eq, runs_of h0⟩, back_laws hb, hc,
    (fun d hd => by cases hd), h5, h6, (classes_of c').1, (classes_of c').2.1⟩

/-- The program is compiled without errors. -/
theorem program_compiled : ∃ fuel out, CleanCompile back 5 fuel program pool (after program) out :=
  cleanly_of (by decide +kernel) (by decide +kernel) (by decide +kernel) (by decide +kernel) (by decide +kernel) (by decide +kernel) (by decide +kernel)
    (by decide +kernel) (by decide +kernel) (by decide +kernel) (by decide +kernel)

/-- Its functions have the code of their bodies: there are four bodies, two of them of wrappers. -/
example : (after program).bodies.length = 4 ∧ ∃ fuel out ws bodies p1 p2 p3 p4 σ, CleanCompile back 5 fuel program pool (after program) out ∧
    CompileRun back program pool (after program) out ws bodies p1 p2 p3 p4 σ ∧ ws.length = 2 := by
  obtain ⟨fuel, out, h⟩ := program_compiled
  obtain ⟨ws, bodies, p1, p2, p3, p4, σ, hr⟩ := C74_programs_are_compiled h
  exact ⟨by decide +kernel, fuel, out, ws, bodies, p1, p2, p3, p4, σ, h, hr, by rw [← hr.wrappers.length]; decide +kernel⟩

end DeclDemo
end Redscript
