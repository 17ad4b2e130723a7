import Lean.Elab.Tactic.Basic
import Verif.Scc.CliProps
import Verif.Unit.CompileRestExample

/-!
# C83: examples
-/

namespace Redscript
namespace CliDemo

open DeclDemo
open WrapDemo (got got_ok)

/-- A bundle with a class `Base` (1) and the type `Int32` (2). -/
def given : ScriptBundle :=
  ⟨.sample, { names := ⟨["None", "Base", "Int32"], .empty⟩, tweakdbIds := .empty, resources := .empty, strings := .empty,
              definitions := [.default, .mk' 1 0 (cls 0 [] []), .mk' 2 0 (.Type .Prim)] }⟩

/-- Its file. -/
def file : Bytes := (got ⟨[], 0⟩ (given.save (fun _ => 7) ⟨[], 0⟩)).buf

/-- What is read from it. -/
def loaded : ScriptBundle := got given (ScriptBundle.load file)

theorem file_loads : ScriptBundle.load file = .ok loaded := got_ok (by decide +kernel)

def began : DeclState :=
  (DeclState.ofPool loaded.pool).getD ⟨pool, ⟨[]⟩, ⟨.empty, .empty, .empty, none, none⟩, ⟨.empty, .empty, .empty, none, none⟩, [], [], .empty, .empty, [], [], []⟩

theorem began_eq : DeclState.ofPool loaded.pool = some began := by
  have h : (DeclState.ofPool loaded.pool).isSome = true := by decide +kernel
  unfold began
  cases hp : DeclState.ofPool loaded.pool with
  | none => rw [hp] at h; cases h
  | some s => rfl

/-- The steps of the compiler. -/
def declared (ms : List SourceModule) : DeclState := (declareModules 5 false ms began).2
def bodied (ms : List SourceModule) : List CompiledFn × List Diagnostic × ConstantPool := got ([], [], pool) (back.compileRest (declared ms))
def placed (ms : List SourceModule) : ConstantPool := got pool (back.installAll (bodied ms).1 (bodied ms).2.2)
def made (ms : List SourceModule) : ConstantPool := got pool (swapAll back.ord (back.drain (declared ms).proxies) (placed ms))

theorem made_of {ms : List SourceModule} (h0 : (declareModules 5 false ms began).1.toOption = some ()) (c : classesB (made ms) = true)
    (h1 : (back.compileRest (declared ms)).toOption.isSome = true) (h2 : (back.installAll (bodied ms).1 (bodied ms).2.2).toOption.isSome = true)
    (h3 : (swapAll back.ord (back.drain (declared ms).proxies) (placed ms)).toOption.isSome = true) (h4 : (bodied ms).2.1.length = 0) :
    ∃ fuel refs, back.compile 5 fuel ms loaded.pool = .ok ⟨[], refs, made ms⟩ := by
  obtain ⟨c1, c2, c3⟩ := classes_of c
  obtain ⟨N, hN⟩ := C37_classes_follow_their_bases c1 c2 (declared ms).refs
  obtain ⟨p', σ, n1, _, _, n2, _⟩ := hN N (Nat.le_refl _)
  obtain ⟨e1, e2⟩ := n2 c3
  rw [e1] at n1
  refine ⟨N, (declared ms).refs.map (·.move σ), ?_⟩
  have hr : declareModules 5 false ms began = (.ok (), declared ms) := by
    unfold declared
    cases hd : declareModules 5 false ms began with
    | mk r s =>
      rw [hd] at h0
      cases r with
      | error e => cases h0
      | ok a => rfl
  rw [compile_of began_eq hr (got_ok h1) (got_ok h2) (got_ok h3) n1]
  have : (got ([], [], pool) (back.compileRest (declared ms))).2.1 = [] := List.length_eq_zero_iff.1 h4
  rw [this]
  unfold sortDiagnostics
  simp

/-- A class with members that extends a class of the bundle, an enum and a function. -/
def fresh : List SourceModule := [
  ⟨some ["A".toList], [], [
    .Class ⟨decl [] "New", some "Base".toList, [.Field ⟨decl [] "c", int, none⟩, refMember (func [] "m")]⟩,
    .Enum ⟨decl [] "E", [("x".toList, 3)]⟩,
    returning (func [] "h")]⟩]

theorem fresh_compiled : ∃ fuel refs, back.compile 5 fuel fresh loaded.pool = .ok ⟨[], refs, made fresh⟩ :=
  made_of (by decide +kernel) (by decide +kernel) (by decide +kernel) (by decide +kernel) (by decide +kernel) (by decide +kernel)

/-- A check of what can be in a file. -/
def nulFreeB (s : String) : Bool := (strBytes s).all (· != 0)

theorem nulFree_of {ss : List String} (h : ss.all nulFreeB = true) : ∀ s ∈ ss, NulFree s := by
  intro s hs b hb
  exact bne_iff_ne.1 (List.all_eq_true.1 (List.all_eq_true.1 h s hs) b hb)

def bodyB (code : List (Instr Offset)) : Bool :=
  code.all (fun i => match i with
    | .Target l => decide (l = 0)
    | _ => true) && (match code.getLast? with
    | some i => decide (i.size ≠ 0)
    | none => true) && decide ((code.map fun i => i.size.toNat).sum < 2 ^ 32)

theorem bodyFits_of {code : List (Instr Offset)} (h : bodyB code = true) : BodyFits code := by
  unfold bodyB at h
  rw [Bool.and_eq_true, Bool.and_eq_true] at h
  obtain ⟨⟨h1, h2⟩, h3⟩ := h
  refine ⟨fun i hi l e => ?_, fun i hi => ?_, of_decide_eq_true h3⟩
  · have := List.all_eq_true.1 h1 i hi
    subst e
    exact of_decide_eq_true this
  · rw [hi] at h2
    exact of_decide_eq_true h2

def consistentB (v : AnyDefinition) : Bool :=
  match v with
  | .Function f =>
    decide (f.source.isSome = !(f.flags.getLsbD 4)) && decide (f.returnType = none → f.unk1 = false) && decide (f.flags.getLsbD 13 = false → f.cast = 0) &&
      decide (f.flags.getLsbD 23 = false → f.unk2 = []) && bodyB f.code
  | .SourceFile s => decide ('\\' ∉ s.path.toList)
  | _ => true

theorem consistent_of {v : AnyDefinition} (h : consistentB v = true) : v.Consistent := by
  cases v with
  | Function f =>
    unfold consistentB at h
    simp only [Bool.and_eq_true, decide_eq_true_eq] at h
    obtain ⟨⟨⟨⟨h1, h2⟩, h3⟩, h4⟩, h5⟩ := h
    exact ⟨h1, h2, h3, h4, bodyFits_of h5⟩
  | SourceFile s =>
    have h : '\\' ∉ s.path.toList := of_decide_eq_true h
    exact h
  | _ => trivial

theorem writable_of {p : ConstantPool} (h1 : p.definitions.isEmpty = false) (h2 : (p.definitions.drop 1).all (fun d => consistentB d.value.placeless) = true)
    (h3 : p.names.strings.all nulFreeB = true) (h4 : p.tweakdbIds.strings.all nulFreeB = true) (h5 : p.resources.strings.all nulFreeB = true)
    (h6 : p.strings.strings.all nulFreeB = true) : p.Writable :=
  ⟨fun e => (by rw [e] at h1; cases h1), fun d hd => consistent_of (List.all_eq_true.1 h2 d hd), nulFree_of h3, nulFree_of h4, nulFree_of h5, nulFree_of h6⟩

theorem fresh_writable : (made fresh).Writable :=
  writable_of (by decide +kernel) (by decide +kernel) (by decide +kernel) (by decide +kernel) (by decide +kernel) (by decide +kernel)

theorem fresh_count : (made fresh).definitions.length = 9 := by decide +kernel

theorem fresh_names : (made fresh).names.strings = ["None", "Base", "Int32", "A.New", "A.E", "A.h;", "c", "m;", "x"] := by decide +kernel

theorem fresh_encodable : ∀ v ∈ (made fresh).definitions.drop 1, ∃ bs, encAnyDefinition v.value = .ok bs := by
  have h : ((made fresh).definitions.drop 1).all (fun v => (encAnyDefinition v.value).toOption.isSome) = true := by decide +kernel
  intro v hv
  have := List.all_eq_true.1 h v hv
  cases he : encAnyDefinition v.value with
  | ok bs => exact ⟨bs, rfl⟩
  | error e => rw [he] at this; cases this

attribute [local irreducible] made loaded file

/-- The bundle is a file, and so is an older output. -/
def disk : CliDisk := fun path => if path = "final.redscripts" then some file else if path = "old" then some [1, 2, 3] else none

def env (fuel : Nat) (torn : Bytes := []) : CliEnv := ⟨fun _ => 7, back, 5, fuel, true, torn⟩

/-- The sources are compiled over the older output: the output reads back with the class, its members, the enum and the
function, and the bundle is as it was. -/
example : ∃ fuel new b', (cliCompile (env fuel) ⟨some (.ok fresh), "final.redscripts", "old"⟩ disk).disk "old" = some new ∧
    (cliCompile (env fuel) ⟨some (.ok fresh), "final.redscripts", "old"⟩ disk).disk "final.redscripts" = some file ∧
    ScriptBundle.load new = .ok b' ∧ b'.pool.definitions.length = 9 ∧
    b'.pool.names.strings = ["None", "Base", "Int32", "A.New", "A.E", "A.h;", "c", "m;", "x"] := by
  obtain ⟨fuel, refs, h⟩ := fresh_compiled
  let opts : CompileOpts := ⟨some (.ok fresh), "final.redscripts", "old"⟩
  have hc : CompiledAs (env fuel) opts loaded ⟨[], refs, made fresh⟩ := ⟨⟨fresh, rfl, h⟩, fun d hd => by cases hd⟩
  have hf : disk opts.bundle = some file := if_pos rfl
  have hs : (cliCompile (env fuel) opts disk).says = true := C83_compiled_sources_are_saved hf file_loads hc rfl fresh_encodable fresh_writable
  obtain ⟨file', b, out, new, k1, k2, k3, -, k4, k5, k6⟩ := C83_saved_output_reads_back_partial hs
  rw [hf] at k1
  cases k1
  rw [file_loads] at k2
  cases k2
  obtain ⟨ms, m1, m2⟩ := k3.sources
  cases m1
  have m2 : back.compile 5 fuel fresh loaded.pool = .ok out := m2
  rw [h] at m2
  cases m2
  have hw : (got ⟨[], 0⟩ (ScriptBundle.save (fun _ => 7) { loaded with pool := made fresh } ⟨[], 0⟩)).buf = new := by
    obtain ⟨parsed, q1, q2⟩ := report_of_compiledAs hc
    have hlb : loadBundle disk opts.bundle = some loaded := by simp [loadBundle, hf, file_loads]
    unfold cliCompile at k4
    cases q1
    have q1 : opts.src = some (.ok fresh) := rfl
    simp only [hlb, q1, began_eq, q2] at k4
    rw [if_pos (show (env fuel).creatable = true from rfl)] at k4
    have hw := got_ok (dflt := ⟨[], 0⟩) (x := ScriptBundle.save (env fuel).crc { loaded with pool := made fresh } ⟨[], 0⟩) (by
      show (ScriptBundle.save (fun _ => 7) { loaded with pool := made fresh } ⟨[], 0⟩).toOption.isSome = true
      decide +kernel)
    rw [hw] at k4
    simp only [CliDisk.write, if_true] at k4
    exact Option.some.inj k4
  have hl : new.length < 2 ^ 32 := by rw [← hw]; decide +kernel
  obtain ⟨b', l1, l2, -⟩ := k6 fresh_writable hl
  refine ⟨fuel, new, b', k4, (k5 _ (by decide)).trans hf, l1, ?_, ?_⟩
  · rw [l2.count]; exact fresh_count
  · rw [l2.names]; exact fresh_names

/-- Sources with a syntax error are not compiled to anything, and linting says so. -/
example (fuel : Nat) (d : Diagnostic) : (cliCompile (env fuel) ⟨some (.error (.diagnostic d)), "final.redscripts", "old"⟩ disk).disk = disk ∧
    (cliLint (env fuel) (some (.error (.diagnostic d))) (some "final.redscripts") disk).says = false := by
  have hn : ∀ b out, ¬ CompiledAs (env fuel) ⟨some (.error (.diagnostic d)), "final.redscripts", "old"⟩ b out := by
    intro b out h
    obtain ⟨ms, h1, -⟩ := h.sources
    cases h1
  refine ⟨(C83_failed_build_changes_nothing fun _ b out _ _ => hn b out).1, ?_⟩
  have h := (C83_lint_agrees_with_compile (E := env fuel) (opts := ⟨some (.error (.diagnostic d)), "final.redscripts", "old"⟩) (d := disk)).2
  cases hs : (cliLint (env fuel) (some (.error (.diagnostic d))) (some "final.redscripts") disk).says with
  | false => rfl
  | true =>
    obtain ⟨_, b, out, _, _, k⟩ := h.1 hs
    exact absurd k (hn b out)

/-- Linting the other sources is successful. -/
example : ∃ fuel, (cliLint (env fuel) (some (.ok fresh)) (some "final.redscripts") disk).says = true := by
  obtain ⟨fuel, refs, h⟩ := fresh_compiled
  have hc : CompiledAs (env fuel) ⟨some (.ok fresh), "final.redscripts", "old"⟩ loaded ⟨[], refs, made fresh⟩ := ⟨⟨fresh, rfl, h⟩, fun d hd => by cases hd⟩
  have hf : disk "final.redscripts" = some file := if_pos rfl
  exact ⟨fuel, (C83_lint_agrees_with_compile (opts := ⟨some (.ok fresh), "final.redscripts", "old"⟩)).2.2 ⟨file, loaded, _, hf, file_loads, hc⟩⟩

/-- C83: a build that fails for a syntax error exits as if it had succeeded. -/
theorem C83_exit_status_counterexample (fuel : Nat) (d : Diagnostic) :
    ∃ r, r = cliCompile (env fuel) ⟨some (.error (.diagnostic d)), "final.redscripts", "old"⟩ disk ∧ r.exit = true ∧ r.says = false ∧
      r.disk "old" = some [1, 2, 3] := by
  refine ⟨_, rfl, ?_⟩
  have hf : disk "final.redscripts" = some file := if_pos rfl
  have hlb : loadBundle disk "final.redscripts" = some loaded := by simp [loadBundle, hf, file_loads]
  unfold cliCompile
  simp only [hlb, began_eq, Back.compileAndReport, Back.compileFiles, Redscript.compileAndReport]
  exact ⟨trivial, trivial, rfl⟩

/-- A string that has no length that a file can hold. -/
def long : Text := List.replicate 65536 'x'

/-- A field with a property of this value. -/
def heavy : List SourceModule := [
  ⟨none, [], [.Class ⟨decl [] "New", none, [.Field ⟨decl [⟨.RuntimeProperty, [.Constant (.String .String "k".toList), .Constant (.String .String long)]⟩] "c", int, none⟩]⟩]⟩]

theorem heavy_compiled : ∃ fuel refs, back.compile 5 fuel heavy loaded.pool = .ok ⟨[], refs, made heavy⟩ :=
  made_of (by decide +kernel) (by decide +kernel) (by decide +kernel) (by decide +kernel) (by decide +kernel) (by decide +kernel)

theorem strBytes_long (l : Text) : l.length ≤ (strBytes (String.ofList l)).length := by
  have h : (strBytes (String.ofList l)).length = (l.flatMap String.utf8EncodeChar).length := by
    simp [strBytes, List.utf8Encode]
  rw [h]
  induction l with
  | nil => simp
  | cons c l ih =>
    have := Char.utf8Size_pos c
    simp only [List.flatMap_cons, List.length_append, List.length_cons, String.length_utf8EncodeChar]
    have ih := ih (by simp [strBytes, List.utf8Encode])
    omega

/-- The values of the properties of a field. -/
def valuesOf (d : Definition) : List String := match d.value with
  | .Field f => f.attributes.map (·.value)
  | _ => []

/-- Closes an equation by reflexivity and leaves it to the kernel to check it. -/
elab "kernel_refl" : tactic => do
  let goal ← Lean.Elab.Tactic.getMainGoal
  let type ← goal.getType
  goal.assign (Lean.mkApp2 (Lean.mkConst ``Eq.refl type.getAppFn.constLevels!) type.getAppArgs[0]! type.getAppArgs[1]!)

theorem heavy_values : ((made heavy).definitions.drop 1)[3]?.map valuesOf = some [String.ofList long] := by
  kernel_refl

theorem long_length : long.length = 65536 := List.length_replicate

attribute [local irreducible] long heavy

theorem heavy_unwritable {b : ScriptBundle} {crc : Bytes → BitVec 32} {w : Writer} : ∃ e, ScriptBundle.save crc { b with pool := made heavy } w = .error e := by
  cases hs : ScriptBundle.save crc { b with pool := made heavy } w with
  | error e => exact ⟨e, rfl⟩
  | ok w' =>
    exfalso
    have he := encodable_of_saved hs
    have hv := heavy_values
    cases hd : ((made heavy).definitions.drop 1)[3]? with
    | none => rw [hd] at hv; cases hv
    | some d =>
      rw [hd] at hv
      obtain ⟨bs, hb⟩ := he d (List.mem_of_getElem? hd)
      have hv : valuesOf d = [String.ofList long] := Option.some.inj hv
      unfold valuesOf at hv
      split at hv
      · next f hf =>
        rw [hf] at hb
        obtain ⟨-, b1, -, k1, -⟩ := seq_ok.1 (show encField f = .ok bs from hb)
        obtain ⟨-, b2, -, k2, -⟩ := seq_ok.1 k1
        obtain ⟨-, b3, -, k3, -⟩ := seq_ok.1 k2
        obtain ⟨-, b4, -, k4, -⟩ := seq_ok.1 k3
        obtain ⟨b5, -, k5, -, -⟩ := seq_ok.1 k4
        obtain ⟨-, b6, -, k6, -⟩ := seq_ok.1 k5
        have one : ∃ a, f.attributes = [a] ∧ a.value = String.ofList long := by
          cases he : f.attributes with
          | nil => rw [he] at hv; cases hv
          | cons a as =>
            rw [he] at hv
            cases as with
            | nil => exact ⟨a, rfl, (List.cons.inj hv).1⟩
            | cons x xs => exact absurd (List.cons.inj hv).2 (List.cons_ne_nil _ _)
        obtain ⟨a, he, e⟩ := one
        · rw [he] at k6
          obtain ⟨b7, -, k7, -, -⟩ := seq_ok.1 (show encProperty a +++ encList encProperty [] = .ok b6 from k6)
          obtain ⟨-, b8, -, k8, -⟩ := seq_ok.1 k7
          have := (C01_str16_accepts a.value).1 ⟨b8, k8⟩
          rw [e] at this
          have h2 := strBytes_long long
          have h3 := long_length
          omega
      · cases hv

theorem unwritten {E : CliEnv} {opts : CompileOpts} {d : CliDisk} {x : Bytes} {b : ScriptBundle} {out : UnitOutput} {e : Err}
    (h1 : d opts.bundle = some x) (h2 : ScriptBundle.load x = .ok b) (h3 : CompiledAs E opts b out) (h4 : E.creatable = true)
    (h5 : ScriptBundle.save E.crc { b with pool := out.pool } ⟨[], 0⟩ = .error e) :
    cliCompile E opts d = ⟨d.write opts.output E.torn, false, false⟩ := by
  obtain ⟨parsed, hsrc, hout⟩ := report_of_compiledAs h3
  obtain ⟨s, hs⟩ := ofPool_of_compiledAs h3
  have hlb : loadBundle d opts.bundle = some b := by simp [loadBundle, h1, h2]
  unfold cliCompile
  simp only [hlb, hsrc, hs, hout, h4, if_true, h5]

theorem old_output : disk "old" = some [1, 2, 3] := (if_neg (by decide)).trans (if_pos rfl)

theorem written_output (torn : Bytes) : disk.write "old" torn "old" = some torn := if_pos rfl

/-- C83: sources that compile without a diagnostic, but to a bundle that cannot be written, cost the previous output, whatever
is left of the new one when writing it stops. -/
theorem C83_output_lost_counterexample (torn : Bytes) : ∃ fuel out r,
    CompiledAs (env fuel torn) ⟨some (.ok heavy), "final.redscripts", "old"⟩ loaded out ∧ out.diagnostics = [] ∧
    r = cliCompile (env fuel torn) ⟨some (.ok heavy), "final.redscripts", "old"⟩ disk ∧ r.exit = false ∧ r.says = false ∧
    disk "old" = some [1, 2, 3] ∧ r.disk "old" = some torn := by
  obtain ⟨fuel, refs, h⟩ := heavy_compiled
  have hc : CompiledAs (env fuel torn) ⟨some (.ok heavy), "final.redscripts", "old"⟩ loaded ⟨[], refs, made heavy⟩ :=
    ⟨⟨heavy, rfl, h⟩, fun d hd => by cases hd⟩
  refine ⟨fuel, _, _, hc, rfl, rfl, ?_⟩
  obtain ⟨e, he⟩ := heavy_unwritable (b := loaded) (crc := (env fuel torn).crc) (w := ⟨[], 0⟩)
  have hf : disk "final.redscripts" = some file := if_pos rfl
  rw [unwritten hf file_loads hc rfl he]
  exact ⟨rfl, rfl, old_output, written_output torn⟩

end CliDemo
end Redscript
