import Verif.Vm.Props

/-!
# Concrete bodies for C26 to C28

Cases that meet the hypotheses, and the bodies for which C28 and C26 fail.
-/

namespace Redscript
namespace VmDemo

/-- A scope with one type, at index 7, and static functions without parameters. -/
def env : AsmEnv where
  strIdx := fun _ _ => .error .lookup
  typeOf := fun _ => .ok (.Prim 1)
  typeIdx := fun t => if t = .Prim 1 then .ok 7 else .error .lookup
  defName := fun _ => .error .lookup
  enumFirst := fun _ => .error .lookup
  function := fun _ => .ok ⟨BitVec.twoPow _ FunctionFlags.isStaticBit, [], 0⟩
  line := fun _ _ => 0

def zero : Literal → Text := fun _ => []

def pool : PoolView where
  ty := fun _ => .Prim 1
  text := fun _ _ => []

theorem agrees : PoolAgrees env pool zero where
  ty := fun t i h => by
    simp only [env] at h
    split at h
    · rename_i ht; rw [ht]; rfl
    · cases h
  text := fun _ _ _ h => by cases h
  zero := fun _ => rfl

/-- Values are numbers, the state is the list of the operations so far. Locals hold 1. The run is aborted
after thirty operations. -/
def interp : Interp (BitVec 32) (List Nat) Unit where
  prim := fun o _ s =>
    if 30 ≤ s.length then .error () else
    match o with
    | .const (.I32 v) => .ok (v, s ++ [0])
    | .getLocal _ => .ok (1, s ++ [0])
    | _ => .ok (0, s ++ [0])
  call := fun c _ _ s =>
    if 30 ≤ s.length then .error () else
    match c with
    | .fixed f => .ok (0, s ++ [f.toNat])
    | .dispatched _ => .ok (0, s)
  demand := fun _ _ _ _ => true
  truth := fun v _ => v != 0
  isNull := fun _ _ => false
  onNull := fun s => (0, s)
  matches_ := fun _ v w _ => v == w

def num (n : BitVec 32) : TypedExpr := .Constant (.I32 n)
def run (f : Idx) : TypedExpr := .Call (Callable.Function f) [] []
def loc (l : Idx) : TypedExpr := .Ident (Reference.Value (.Local l))

/-- `while l0 { switch 1 { case 2: f5(); break; case 1: case 3: f6(); default: f7(); } if 0 { f8(); } else
{ break; } } return 4;` -/
def body : List TypedExpr :=
  [.While (loc 0)
    [.Switch (num 1) [(num 2, [run 5, .Break]), (num 1, []), (num 3, [run 6])] (some [run 7]),
     .If (num 0) [run 8] (some [.Break])],
   .Return (some (num 4))]

/-- Its code. -/
def code : List (Instr Offset) := (fromBody env body).toOption.getD []

theorem body_compiles : fromBody env body = .ok code := by rfl
theorem body_fits : Fits16 code := by unfold Fits16; decide

/-- The code has more than twenty instructions and its run does what the source says. -/
example : 20 < code.length ∧
    runBody code pool interp 40 [] = some (.returned (some 4) [0, 0, 0, 0, 6, 7, 0, 0]) := by
  constructor
  · decide
  · rfl

/-- The hypotheses of C26 hold. -/
example (s : List Nat) (f : Final (BitVec 32) (List Nat) Unit) :
    (∃ n, runBody code pool interp n s = some f) ↔ ∃ o, ExecAll env zero interp body s o ∧ finalOf o = some f :=
  C26_compiled_body_runs_like_the_source_partial agrees rfl rfl body_compiles body_fits interp s f

/-- The loop of the example breaks in its first iteration; the hypotheses of C27 hold. -/
example : ∃ v s1 s2, evalE env interp (loc 0) [] = .ok (v, s1) ∧ interp.truth v s1 = true ∧
    ExecAll env zero interp
      [.Switch (num 1) [(num 2, [run 5, .Break]), (num 1, []), (num 3, [run 6])] (some [run 7]),
       .If (num 0) [run 8] (some [.Break])] s1 (.broke s2) ∧ s2 = [0, 0, 0, 0, 6, 7, 0] :=
  ⟨1, [0], [0, 0, 0, 0, 6, 7, 0], rfl, rfl,
    .next (.switch (o := .normal [0, 0, 0, 0, 6, 7]) rfl (v := 1) (s' := [0, 0])
        (rest := [(num 1, []), (num 3, [run 6])]) (s'' := [0, 0, 0, 0]) rfl rfl
        (.next (s' := [0, 0, 0, 0, 6]) (.expr (v := 0) rfl rfl)
          (.next (s' := [0, 0, 0, 0, 6, 7]) (.expr (v := 0) rfl rfl) .nil)))
      (.stop (.ifFalse (v := 0) (s' := [0, 0, 0, 0, 6, 7, 0]) rfl rfl (.stop .break_ fun _ h => by cases h))
        fun _ h => by cases h), rfl⟩

/-- A body with a break outside of loops. -/
example : Expr.anyStrayBreak [.While (loc 0) [.Break], .If (num 0) [] (some [.Seq [.Break]])] = true := rfl

/-- The matchers of the example are constants (C28). -/
example : selectCase env interp (.Prim 1) 3 [(num 2, [run 5]), (num 3, []), (num 3, [run 6])] [] =
    .ok ([(num 3, []), (num 3, [run 6])], [0, 0]) := rfl

/-! ### Switches that are miscompiled -/

/-- `switch 3 { case 2: f5(); case 3: }` -/
def trailing : List TypedExpr := [.Switch (num 3) [(num 2, [run 5]), (num 3, [])] none]
def trailingCode : List (Instr Offset) := (fromBody env trailing).toOption.getD []

/-- `switch 1 { case 1: switch 5 { case 3: f5(); } case 2: f6(); default: f7(); }` -/
def nested : List TypedExpr :=
  [.Switch (num 1) [(num 1, [.Switch (num 5) [(num 3, [run 5])] none]), (num 2, [run 6])] (some [run 7])]
def nestedCode : List (Instr Offset) := (fromBody env nested).toOption.getD []

end VmDemo

open VmDemo in
/-- C28 fails for a last case without statements: its label is bound nowhere, so the case jumps to the
beginning of the body. The source ends after three operations, the code never gets out of the switch
(here it is stopped after thirty operations). -/
theorem C28_last_case_empty_counterexample :
    fromBody env trailing = .ok trailingCode ∧ Fits16 trailingCode ∧ PoolAgrees env pool zero ∧
    Expr.areStatements trailing = true ∧
    ExecAll env zero interp trailing [] (.normal [0, 0, 0]) ∧
    (∃ n, runBody trailingCode pool interp n [] = some (.aborted ())) :=
  ⟨rfl, by unfold Fits16; decide, agrees, rfl,
    .next (.switch (o := .normal [0, 0, 0]) rfl (v := 3) (s' := [0]) (rest := [(num 3, [])])
      (s'' := [0, 0, 0]) rfl rfl .nil) .nil, 60, rfl⟩

open VmDemo in
/-- C28 fails for a case that ends with a switch without default, relative to a machine that follows the
chain of labels: the labels of the inner switch continue with those of the outer one, so the code skips
the case behind (`f6`) that the source runs. -/
theorem C28_nested_switch_counterexample :
    fromBody env nested = .ok nestedCode ∧ Fits16 nestedCode ∧ PoolAgrees env pool zero ∧
    Expr.areStatements nested = true ∧
    ExecAll env zero interp nested [] (.normal [0, 0, 0, 0, 6, 7]) ∧
    (∃ n, runBody nestedCode pool interp n [] = some (.ended [0, 0, 0, 0, 0, 7])) :=
  ⟨rfl, by unfold Fits16; decide, agrees, rfl,
    .next (.switch (o := .normal [0, 0, 0, 0, 6, 7]) rfl (v := 1) (s' := [0])
      (rest := [(num 1, [.Switch (num 5) [(num 3, [run 5])] none]), (num 2, [run 6])])
      (s'' := [0, 0]) rfl rfl
      (.next (.switch (o := .normal [0, 0, 0, 0]) rfl (v := 5) (s' := [0, 0, 0]) (rest := [])
          (s'' := [0, 0, 0, 0]) rfl rfl .nil)
        (.next (s' := [0, 0, 0, 0, 6]) (.expr (v := 0) rfl rfl)
          (.next (s' := [0, 0, 0, 0, 6, 7]) (.expr (v := 0) rfl rfl) .nil)))) .nil, 60, rfl⟩

end Redscript
