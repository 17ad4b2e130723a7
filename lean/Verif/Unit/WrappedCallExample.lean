import Verif.Unit.WrappedCallProps
import Verif.Unit.CompileExample

/-!
# A wrapper that calls what it wraps, and one that calls something else (examples for C80)
-/

namespace Redscript
namespace DeclDemo

def wrappedCall : Expr SourceAst := .Call "wrappedMethod".toList [] []

theorem check_call {E : TcEnv} (hp : E.permissive = false) {refs : AMap Text Value} {xs : List TypedExpr} {st : TcState}
    (h : E.checkBody refs [wrappedCall] = .ok (xs, st)) : st.locals = [] ∧ ∃ g, xs = [.Call (Callable.Function g) [] []] := by
  unfold TcEnv.checkBody at h
  simp only [List.map, TcEnv.checkList, wrappedCall] at h
  obtain ⟨x, st1, h1, h2⟩ := Tc.bind_ok.1 h
  obtain ⟨y, st2, h3, h4⟩ := Tc.bind_ok.1 h2
  cases h3
  cases h4
  unfold TcEnv.checkAs at h1
  simp only [TcEnv.check] at h1
  obtain ⟨w, st3, h5, h6⟩ := Tc.bind_ok.1 h1
  obtain ⟨_, rfl⟩ := (TcEnv.ask_ok E).1 h5
  rw [show IntrinsicOp.ofName "wrappedMethod".toList = none from by decide +kernel] at h6
  obtain ⟨fs, st4, h7, h8⟩ := Tc.bind_ok.1 h6
  obtain ⟨_, rfl⟩ := (TcEnv.ask_ok E).1 h7
  obtain ⟨m, st5, h9, h10⟩ := Tc.bind_ok.1 h8
  cases h10
  have hf : ∀ (q : Tc (List TypedExpr)) e s r, TcEnv.overload.fallback E fs q e s ≠ .ok r := by
    intro q e s r
    unfold TcEnv.overload.fallback
    rw [hp]
    exact fun h => by cases h
  unfold TcEnv.overload at h9
  obtain ⟨es, st6, h11, h12⟩ := Tc.bind_ok.1 h9
  obtain ⟨_, rfl⟩ := TcEnv.give_ok.1 h11
  split at h12
  · obtain ⟨as, st7, h13, h14⟩ := Tc.bind_ok.1 h12
    simp only [TcEnv.checkList] at h13
    cases h13
    split at h14
    · cases h14; exact ⟨rfl, _, rfl⟩
    · exact absurd h14 (hf _ _ _ _)
    · exact absurd h14 (hf _ _ _ _)
  · obtain ⟨as, st7, h13, h14⟩ := Tc.bind_ok.1 h12
    simp only [TcEnv.checkList] at h13
    cases h13
    split at h14
    · cases h14; exact ⟨rfl, _, rfl⟩
    · exact absurd h14 (hf _ _ _ _)
    · cases h14

/-- The functions of the pool, for the checker. Those without parameters are enough here. -/
def knownFn (p : ConstantPool) (i : Idx) : Except AsmErr TcFn :=
  match p.function i with
  | some f => if f.parameters = [] then .ok (TcToy.fn [] none) else .error .lookup
  | none => .error .lookup

/-- Passes that know the functions of the pool. -/
def caller : Back := { back with
  checker := fun _ p => { TcToy.tc with returns := .ok none, function := knownFn p } }

/-- Two wrappers around one method, the second with a call. -/
def callsWrapped : List SourceModule := [
  ⟨none, [], [.Function (func [ann .WrapMethod "Base"] "m")]⟩,
  ⟨some ["A".toList], [], [.Function { func [ann .WrapMethod "Base"] "m" with body := some [wrappedCall] }]⟩]

/-- A global function `wrappedMethod` besides. -/
def callsOther : List SourceModule := [
  ⟨none, [], [.Function (func [] "wrappedMethod"), .Function { func [ann .WrapMethod "Base"] "m" with body := some [wrappedCall] }]⟩]

/-- Bodies that do nothing or call. -/
def callingB (bs : List DeclBody) : Bool := bs.all (fun b => match b.code with
  | [] => true
  | [.Call n [] []] => decide (n = "wrappedMethod".toList)
  | _ => false)

theorem caller_laws {bs : List DeclBody} (hc : callingB bs = true) : caller.Laws bs where
  lists := lists_listing
  perm _ := .refl _
  checked _ _ := .refl _
  desugared _ _ := .refl _
  assembled _ _ := .refl _
  locals b hb p f ds p' h := by
    have h1 := List.all_eq_true.1 hc b hb
    have hl : f.locals = [] := by
      unfold Back.compileFunction at h
      split at h
      · cases h
      · split at h
        · cases h
        · next sc _ =>
          split at h1
          · next e =>
            rw [e] at h
            cases h
            rfl
          · next n e =>
            rw [e, of_decide_eq_true h1] at h
            split at h
            · cases h
            · next xs tst hx =>
              obtain ⟨k1, g, rfl⟩ := check_call (E := caller.tcEnv sc p) rfl hx
              cases h
              show tst.locals.map (·.1) ++ [] = []
              rw [k1]; rfl
          · cases h1
    rw [hl]
    intro l hl; cases hl

theorem caller_cleanly {ms : List SourceModule} (hp : plainB ms = true) (h0 : (declareModules 5 false ms start).1.toOption = some ())
    (hb : callingB (after ms).bodies = true) (c : classesB (swapped caller ms) = true) (c' : classesB (after ms).pool = true)
    (h1 : (caller.compileRest (after ms)).toOption.isSome = true) (h2 : (caller.installAll (rest caller ms).1 (rest caller ms).2.2).toOption.isSome = true)
    (h3 : (swapAll caller.ord (caller.drain (after ms).proxies) (installed caller ms)).toOption.isSome = true) (h4 : (rest caller ms).2.1.length = 0)
    (h5 : (swapped caller ms).definitions.length < 2 ^ 32) (h6 : (after ms).pool.names.strings.length + (caller.drain (after ms).wrappers).length + 1 < 2 ^ 32) :
    ∃ fuel refs, CleanCompile caller 5 fuel ms pool (after ms) ⟨[], refs, swapped caller ms⟩ := by
  obtain ⟨N, hN⟩ := compiled_of h0 c h1 h2 h3 h4
  obtain ⟨refs, hc⟩ := hN N (Nat.le_refl _)
  exact ⟨N, refs, names_reachable, pool_sound, pool_locals, pool_shape, plain_of hp, ⟨start, start_eq, runs_of h0⟩, caller_laws hb, hc,
    (fun d hd => by cases hd), h5, h6, (classes_of c').1, (classes_of c').2.1⟩

theorem caller_lawful (sc : Scope) (pc : ConstantPool) :
    ({ caller.checker sc pc with permissive := false, symbols := sc.symbols, this := sc.this } : TcEnv).Lawful where
  types i fn ts h1 h2 := by
    have h1 : knownFn pc i = .ok fn := h1
    unfold knownFn at h1
    split at h1
    · split at h1
      · cases h1; cases h2; rfl
      · cases h1
    · cases h1
  stored := TcToy.tc_lawful.stored

theorem wrapped_compiled : ∃ fuel refs, CleanCompile caller 5 fuel callsWrapped pool (after callsWrapped) ⟨[], refs, swapped caller callsWrapped⟩ :=
  caller_cleanly (by decide +kernel) (by decide +kernel) (by decide +kernel) (by decide +kernel) (by decide +kernel) (by decide +kernel) (by decide +kernel)
    (by decide +kernel) (by decide +kernel) (by decide +kernel) (by decide +kernel)

theorem other_compiled : ∃ fuel refs, CleanCompile caller 5 fuel callsOther pool (after callsOther) ⟨[], refs, swapped caller callsOther⟩ :=
  caller_cleanly (by decide +kernel) (by decide +kernel) (by decide +kernel) (by decide +kernel) (by decide +kernel) (by decide +kernel) (by decide +kernel)
    (by decide +kernel) (by decide +kernel) (by decide +kernel) (by decide +kernel)

/-- The second wrapper. -/
def second : SourceModule × SourceEntry :=
  (⟨some ["A".toList], [], [.Function { func [ann .WrapMethod "Base"] "m" with body := some [wrappedCall] }]⟩,
    .Function { func [ann .WrapMethod "Base"] "m" with body := some [wrappedCall] })

/-- The sources with two wrappers are compiled, and the call in the second one is to what it wraps. -/
example : ∃ fuel out ws bodies p1 p2 p3 p4 σ w, CleanCompile caller 5 fuel callsWrapped pool (after callsWrapped) out ∧
    CompileRun caller callsWrapped pool (after callsWrapped) out ws bodies p1 p2 p3 p4 σ ∧
    WrapperFor (after callsWrapped) (callsWrapped.filterMap (·.path)) second w ∧ w ∈ ws ∧
    ∃ b c xs, b ∈ (after callsWrapped).bodies ∧ c ∈ bodies ∧ c.index = w.index ∧ MadeOf caller p2 b xs c ∧ functionsCalled xs = [w.wrapped] := by
  obtain ⟨fuel, refs, h⟩ := wrapped_compiled
  obtain ⟨ws, bodies, p1, p2, p3, p4, σ, hr⟩ := C74_programs_are_compiled h
  obtain ⟨w, hw, hf⟩ := hr.wrappers.mem_left (a := second) (List.mem_cons_of_mem _ (List.mem_cons_self ..))
  obtain ⟨b, c, xs, k1, k2, k3, k4, k5, k6, k7⟩ := C80_wrapped_method_is_what_is_wrapped_partial hr caller_lawful hf rfl rfl fun b hb _ => by
    have := List.all_eq_true.1 (show (after callsWrapped).bodies.all (fun b => (b.scope.functionsNamed "wrappedMethod".toList).isEmpty) = true by decide +kernel) b hb
    exact List.isEmpty_iff.1 this
  refine ⟨fuel, _, ws, bodies, p1, p2, p3, p4, σ, w, h, hr, hf, hw, b, c, xs, k1, k4, k5, k6, ?_⟩
  rw [show namesCalled [wrappedCall] = ["wrappedMethod".toList] by decide +kernel] at k7
  generalize functionsCalled xs = l at k7
  cases k7 with
  | cons h1 h2 => cases h2; rw [h1 rfl]

/-- What the code of a function calls first. -/
def firstCallee (p : ConstantPool) (i : Idx) : Option Idx :=
  match p.function i with
  | some f => match f.code with
    | .InvokeStatic _ _ g _ :: _ => some g
    | _ => none
  | none => none

theorem firstCallee_some {p : ConstantPool} {i g : Idx} (h : firstCallee p i = some g) :
    ∃ fn l line flags rest, p.function i = some fn ∧ fn.code = .InvokeStatic l line g flags :: rest := by
  unfold firstCallee at h
  split at h
  · next fn hfn =>
    split at h
    · next l line i flags rest hcode => cases h; exact ⟨fn, l, line, flags, rest, hfn, hcode⟩
    · cases h
  · cases h

/-- The body of the wrapper. -/
def callerBody (b : DeclBody) : Bool := decide (b.index = 10) && decide (b.wrapped = some 9) && match b.code with
  | [.Call n [] []] => decide (n = "wrappedMethod".toList)
  | _ => false

end DeclDemo

/-- C80 in full fails: these sources are compiled without any diagnostic, but `wrappedMethod()` in the wrapper of `m` calls a
global function with this name that the sources declare, not what is wrapped (9). -/
theorem C80_other_function_counterexample : ∃ fuel out, CleanCompile DeclDemo.caller 5 fuel DeclDemo.callsOther DeclDemo.pool (DeclDemo.after DeclDemo.callsOther) out ∧
    out.diagnostics = [] ∧ ∃ b ∈ (DeclDemo.after DeclDemo.callsOther).bodies, b.code = [.Call "wrappedMethod".toList [] []] ∧ b.wrapped = some 9 ∧
      ∃ fn g line flags rest, out.pool.function b.index = some fn ∧ fn.code = .InvokeStatic g line 8 flags :: rest ∧
        out.pool.defName 8 = some "wrappedMethod;".toList := by
  obtain ⟨fuel, refs, h⟩ := DeclDemo.other_compiled
  refine ⟨fuel, _, h, rfl, ?_⟩
  obtain ⟨b, hb, hi⟩ := List.any_eq_true.1 (show (DeclDemo.after DeclDemo.callsOther).bodies.any DeclDemo.callerBody = true by decide +kernel)
  have hf : DeclDemo.firstCallee (DeclDemo.swapped DeclDemo.caller DeclDemo.callsOther) 10 = some 8 := by decide +kernel
  have hd : (DeclDemo.swapped DeclDemo.caller DeclDemo.callsOther).defName 8 = some "wrappedMethod;".toList := by decide +kernel
  generalize DeclDemo.swapped DeclDemo.caller DeclDemo.callsOther = P at *
  unfold DeclDemo.callerBody at hi
  rw [Bool.and_eq_true, Bool.and_eq_true, decide_eq_true_iff, decide_eq_true_iff] at hi
  obtain ⟨⟨h1, h2⟩, h3⟩ := hi
  refine ⟨b, hb, ?_, h2, ?_⟩
  · split at h3
    · next n e => rw [e, of_decide_eq_true h3]
    · cases h3
  · obtain ⟨fn, g, line, flags, rest, k1, k2⟩ := DeclDemo.firstCallee_some hf
    exact ⟨fn, g, line, flags, rest, by rw [h1]; exact k1, k2, hd⟩

end Redscript
