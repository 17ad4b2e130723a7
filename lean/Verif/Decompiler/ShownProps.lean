import Verif.Decompiler.ShownReads
import Verif.Decompiler.ShownMeaning
import Verif.Vm.Examples

/-!
# Decompiled bodies (C71)
-/

namespace Redscript

mutual
theorem tidy_switchesOk (env : AsmEnv) : ∀ e : TypedExpr, e.isStatement = true → e.tidy env = true → e.switchesOk = true
  | .Seq es, hs, h => by
    simp only [Expr.isStatement] at hs
    simp only [Expr.tidy] at h
    simp only [Expr.switchesOk]
    exact allTidy_switchesOk env es hs h
  | .If c t e, hs, h => by
    simp only [Expr.isStatement, Bool.and_eq_true] at hs
    simp only [Expr.tidy, Bool.and_eq_true] at h
    simp only [Expr.switchesOk, Bool.and_eq_true]
    refine ⟨allTidy_switchesOk env t hs.1.2 h.1, ?_⟩
    cases e with
    | none => rfl
    | some e =>
      simp only [Expr.optSwitchesOk]
      exact allTidy_switchesOk env e hs.2 (by simpa only [Expr.optTidy] using h.2)
  | .While c b, hs, h => by
    simp only [Expr.isStatement, Bool.and_eq_true] at hs
    simp only [Expr.tidy, Bool.and_eq_true] at h
    simp only [Expr.switchesOk]
    exact allTidy_switchesOk env b hs.2 h.1
  | .Switch e cs d, hs, h => by
    simp only [Expr.isStatement, Bool.and_eq_true] at hs
    simp only [Expr.tidy, Bool.and_eq_true] at h
    simp only [Expr.switchesOk, Bool.and_eq_true]
    refine ⟨casesTidy_ok env d.isSome cs hs.1.2 h.1.1.1, ?_⟩
    cases d with
    | none => rfl
    | some d =>
      simp only [Expr.optSwitchesOk]
      exact allTidy_switchesOk env d hs.2 (by simpa only [Expr.optTidy] using h.1.1.2)
  | .ForIn _ _ _, hs, _ => by simp [Expr.isStatement, Expr.isValue] at hs
  | .Ident _, _, _ => rfl
  | .Constant _, _, _ => rfl
  | .ArrayLit _ _, _, _ => rfl
  | .InterpolatedString _ _, _, _ => rfl
  | .Declare _ _ _, _, _ => rfl
  | .Cast _ _, _, _ => rfl
  | .Assign _ _, _, _ => rfl
  | .Call _ _ _, _, _ => rfl
  | .MethodCall _ _ _, _, _ => rfl
  | .Member _ _, _, _ => rfl
  | .ArrayElem _ _, _, _ => rfl
  | .New _ _, _, _ => rfl
  | .Return _, _, _ => rfl
  | .Conditional _ _ _, _, _ => rfl
  | .BinOp _ _ _, _, _ => rfl
  | .UnOp _ _, _, _ => rfl
  | .Break, _, _ => rfl
  | .Goto _, _, _ => rfl
  | .Null, _, _ => rfl
  | .This, _, _ => rfl
  | .Super, _, _ => rfl
  termination_by e => sizeOf e
theorem allTidy_switchesOk (env : AsmEnv) : ∀ es : List TypedExpr, Expr.areStatements es = true →
    Expr.allTidy env es = true → Expr.allSwitchesOk es = true
  | [], _, _ => rfl
  | e :: es, hs, h => by
    simp only [Expr.areStatements, Bool.and_eq_true] at hs
    simp only [Expr.allTidy, Bool.and_eq_true] at h
    simp only [Expr.allSwitchesOk, Bool.and_eq_true]
    exact ⟨tidy_switchesOk env e hs.1 h.1.1, allTidy_switchesOk env es hs.2 h.1.2⟩
  termination_by es => sizeOf es
theorem casesTidy_ok (env : AsmEnv) (dflt : Bool) : ∀ cs : List (TypedExpr × List TypedExpr),
    Expr.areCases cs = true → Expr.casesTidy env dflt cs = true → Expr.casesOk cs = true
  | [], _, _ => rfl
  | (m, b) :: cs, hs, h => by
    simp only [Expr.areCases, Bool.and_eq_true] at hs
    simp only [Expr.casesTidy, Bool.and_eq_true] at h
    simp only [Expr.casesOk, Bool.and_eq_true]
    refine ⟨⟨allTidy_switchesOk env b hs.1.2 h.1.1, ?_⟩, casesTidy_ok env dflt cs hs.2 h.2⟩
    have h := h.1.2
    split at h
    · rename_i hc
      rw [if_pos hc]
      simp only [Bool.and_eq_true] at h
      exact h.1
    · rename_i hc
      rw [if_neg hc]
      exact h
  termination_by cs => sizeOf cs
end

/-- C71: the decompiler, run on the compiled code of a body, succeeds and shows the statements of
`shownBody`: branches, loops and switches are recovered from the jumps.

Missing for the full claim: bodies that are not `tidy`. Loops whose body never goes on are shown without what
follows them (`C71_lost_statements_counterexample`), and a switch without default at the end of the last case
of another takes over the default of the other (`C71_nested_switch_counterexample`). Not covered without being
known to fail: statements behind a `return` or `break`, and switches without a `break` before a default that has
one or whose first statement is not shown as one. -/
theorem C71_structure_is_recovered_partial {env : AsmEnv} {D : DecEnv} (ha : DecAgrees env D) (bs : BinarySearch)
    {body : List TypedExpr} {out : List (Instr Offset)} {shown : List (Expr SourceAst)}
    (h : fromBody env body = .ok out) (hf : startPos out out.length < 2 ^ 15) (hs : Expr.areStatements body = true)
    (ht : Expr.allTidy env body = true) (hx : readStmts D env (shownBody env body) = some shown) :
    ∃ N, ∀ fuel, N ≤ fuel → decompile D bs fuel out = .ok shown :=
  body_reads ha h hf hs ht hx

/-- C71: the body that is shown does exactly what the body does, from every state, for every interpretation of
the operations, whatever the body. -/
theorem C71_shown_body_is_the_same_program {V S A : Type} (env : AsmEnv) (zero : Literal → Text) (I : Interp V S A)
    (body : List TypedExpr) (s : S) (o : Ending V S A) :
    ExecAll env zero I (shownBody env body) s o ↔ ExecAll env zero I body s o :=
  shownBody_same body s o

/-- C71: what the decompiler shows for compiled code is the program that the code runs: whatever the result of
decompiling, it is the naming of a body that ends exactly as the code does. -/
theorem C71_decompiled_body_runs_like_the_code_partial {V S A : Type} {env : AsmEnv} {D : DecEnv} {P : PoolView}
    {zero : Literal → Text} (ha : DecAgrees env D) (hp : PoolAgrees env P zero) (bs : BinarySearch)
    {body : List TypedExpr} {out : List (Instr Offset)} {shown : List (Expr SourceAst)}
    (h : fromBody env body = .ok out) (hf : startPos out out.length < 2 ^ 15) (hs : Expr.areStatements body = true)
    (ht : Expr.allTidy env body = true) (hx : readStmts D env (shownBody env body) = some shown) :
    ∃ (b : List TypedExpr) (N : Nat), readStmts D env b = some shown ∧
      (∀ fuel, N ≤ fuel → decompile D bs fuel out = .ok shown) ∧
      ∀ (I : Interp V S A) (s : S) (f : Final V S A),
        (∃ n, runBody out P I n s = some f) ↔ ∃ o, ExecAll env zero I b s o ∧ finalOf o = some f := by
  obtain ⟨N, hN⟩ := C71_structure_is_recovered_partial ha bs h hf hs ht hx
  refine ⟨shownBody env body, N, hx, hN, fun I s f => ?_⟩
  have hfits : Fits16 out := (fromBody_placed h hf).1.fits16
  rw [C26_compiled_body_runs_like_the_source_partial hp hs (allTidy_switchesOk env body hs ht) h hfits I s f]
  simp only [C71_shown_body_is_the_same_program]

/-! ### Concrete cases -/

namespace ShownDemo
open VmDemo (num run loc interp zero)

/-- A scope in which all types are `Int32` and all functions are global, without parameters. -/
def env : AsmEnv where
  strIdx := fun _ _ => .error .lookup
  typeOf := fun _ => .ok (.Prim 1)
  typeIdx := fun t => if t = .Prim 1 then .ok 7 else .error .lookup
  defName := fun _ => .ok "Int32".toList
  enumFirst := fun _ => .error .lookup
  function := fun f => .ok ⟨BitVec.twoPow _ FunctionFlags.isStaticBit, [], f⟩
  line := fun _ _ => 0

/-- The name of a function. -/
def name (i : Idx) : Text := 'f' :: Nat.toDigits 10 i.toNat

def dec : DecEnv where
  defName := fun i => some ('l' :: Nat.toDigits 10 i.toNat)
  text := fun _ i => some (name i)
  function := fun f => some ⟨name f, true, none, none, false⟩

def pool : PoolView where
  ty := fun _ => .Prim 1
  text := fun _ _ => []

theorem agrees : DecAgrees env dec where
  text := fun _ _ _ h => by cases h
  function := fun f info h => by cases h; exact ⟨_, rfl, rfl, by simp only; decide⟩

theorem pool_agrees : PoolAgrees env pool zero where
  ty := fun t i h => by
    simp only [env] at h
    split at h
    · rename_i ht; rw [ht]; rfl
    · cases h
  text := fun _ _ _ h => by cases h
  zero := fun _ => rfl

/-- `let l0: Int32; let l1 = 2; while l0 { switch 1 { case 2: f5(); if l1 { break; } case 1: case 3: f6(); break;
default: if l0 { f7(); } else { return; } } if 0 { f8(); } else { break; } } if l0 { return 4; } else { f9(); }` -/
def body : List TypedExpr :=
  [.Declare 0 (some (.Prim 1)) none,
   .Declare 1 (some (.Prim 1)) (some (num 2)),
   .While (loc 0)
    [.Switch (num 1) [(num 2, [run 5, .If (loc 1) [.Break] none]), (num 1, []), (num 3, [run 6, .Break])]
       (some [.If (loc 0) [run 7] (some [.Return none])]),
     .If (num 0) [run 8] (some [.Break])],
   .If (loc 0) [.Return (some (num 4))] (some [run 9])]

/-- Its code. -/
def code : List (Instr Offset) := (fromBody env body).toOption.getD []

theorem body_compiles : fromBody env body = .ok code := by rfl

def n (i : BitVec 32) : Expr SourceAst := .Constant (.I32 i)
def f (i : Idx) : Expr SourceAst := .Call (name i) [] []
def l (c : Char) : Expr SourceAst := .Ident ['l', c]

/-- `l0 = 0; l1 = 2; while l0 { switch 1 { case 2: f5(); if l1 { break; } case 1: case 3: f6(); break; default:
if l0 { f7(); break; } return; } if 0 { f8(); } else { break; } } if l0 { return 4; } f9();` -/
def shown : List (Expr SourceAst) :=
  [.Assign (l '0') (n 0), .Assign (l '1') (n 2),
   .While (l '0')
    [.Switch (n 1) [(n 2, [f 5, .If (l '1') [.Break] none]), (n 1, []), (n 3, [f 6, .Break])]
       (some [.If (l '0') [f 7, .Break] none, .Return none]),
     .If (n 0) [f 8, .Seq []] (some [.Break]), .Seq []],
   .If (l '0') [.Return (some (n 4))] none, f 9, .Seq []]

theorem shown_ok : readStmts dec env (shownBody env body) = some shown := by rfl

/-- The hypotheses of C71 hold: code of more than forty instructions with a loop, a switch and branches. -/
example (bs : BinarySearch) : 40 < code.length ∧ ∃ N, ∀ fuel, N ≤ fuel → decompile dec bs fuel code = .ok shown :=
  ⟨by decide, C71_structure_is_recovered_partial agrees bs body_compiles (by decide +kernel) rfl (by rfl) shown_ok⟩

example (bs : BinarySearch) : ∃ (b : List TypedExpr) (N : Nat), readStmts dec env b = some shown ∧
    (∀ fuel, N ≤ fuel → decompile dec bs fuel code = .ok shown) ∧
    ∀ (I : Interp (BitVec 32) (List Nat) Unit) (s : List Nat) (f : Final (BitVec 32) (List Nat) Unit),
      (∃ n, runBody code pool I n s = some f) ↔ ∃ o, ExecAll env zero I b s o ∧ finalOf o = some f :=
  C71_decompiled_body_runs_like_the_code_partial agrees pool_agrees bs body_compiles (by decide +kernel) rfl (by rfl) shown_ok

/-- `if l0 { switch 1 { case 1: return 2; case 2: f4(); default: f5(); if l0 { f6(); } return 3; } } else { f7(); }`:
nothing tells where the default ends. -/
def spilling : List TypedExpr :=
  [.If (loc 0) [.Switch (num 1) [(num 1, [.Return (some (num 2))]), (num 2, [run 4])]
    (some [run 5, .If (loc 0) [run 6] none, .Return (some (num 3))])] (some [run 7])]
def spillingCode : List (Instr Offset) := (fromBody env spilling).toOption.getD []

/-- `if l0 { switch 1 { case 1: return 2; case 2: f4(); default: f5(); } if l0 { f6(); } return 3; } f7();` -/
def spilled : List (Expr SourceAst) :=
  [.If (l '0') [.Switch (n 1) [(n 1, [.Return (some (n 2))]), (n 2, [f 4])] (some [f 5]), .If (l '0') [f 6] none,
    .Return (some (n 3))] none, f 7, .Seq []]

/-- The default of a switch without a `break` goes on behind the switch. -/
example (bs : BinarySearch) : ∃ N, ∀ fuel, N ≤ fuel → decompile dec bs fuel spillingCode = .ok spilled :=
  C71_structure_is_recovered_partial agrees bs (body := spilling) rfl (by decide +kernel) rfl (by rfl) (by rfl)

/-! ### Bodies that are shown wrongly -/

/-- `while 0 { return; } f5();` -/
def lost : List TypedExpr := [.While (num 0) [.Return none], run 5]
def lostCode : List (Instr Offset) := (fromBody env lost).toOption.getD []

/-- `while 0 { return; }` and a jump. -/
def isLoopAndJump : Except DecErr (List (Expr SourceAst)) → Bool
  | .ok [.While (.Constant (.I32 0)) [.Return none], .Goto _] => true
  | _ => false

/-- `switch 1 { case 1: switch 3 { case 3: f5(); } default: f6(); }` -/
def nested : List TypedExpr := [.Switch (num 1) [(num 1, [.Switch (num 3) [(num 3, [run 5])] none])] (some [run 6])]
def nestedCode : List (Instr Offset) := (fromBody env nested).toOption.getD []

/-- `switch 1 { case 1: switch 3 { case 3: f5(); default: f6(); } default: f6(); }` -/
def twice : List (Expr SourceAst) :=
  [.Switch (n 1) [(n 1, [.Switch (n 3) [(n 3, [f 5])] (some [f 6])])] (some [f 6]), .Seq []]

theorem nested_compiles : fromBody env nested = .ok nestedCode := rfl
theorem nested_fits : startPos nestedCode nestedCode.length < 2 ^ 15 := by decide +kernel

section
variable {bs : BinarySearch}

theorem nested_call {blk : Option BlockContext} {k : Nat} {i : Idx} {o : Offset} (hi : i = 5 ∨ i = 6)
    (h : nestedCode[k]? = some (.InvokeStatic o 0 i 0)) (h' : nestedCode[k + 1]? = some .ParamEnd) :
    ReadsS dec bs blk nestedCode k (k + 2) (f i) := by
  have ha : asm env none (run i) 0 = .ok ([.InvokeStatic 0 0 i 0, .ParamEnd, .Target 0], 1) := by
    rcases hi with rfl | rfl <;> rfl
  refine reads_asm agrees (run i) none 0 1 _ (f i) rfl ha rfl k (k + 2) ?_ blk
  rw [ListAt.cons rfl, ListAt.cons rfl, ListAt.target, ListAt.nil]
  exact ⟨⟨fun _ => o, h⟩, ⟨fun _ => o, h'⟩, rfl⟩

theorem nested_const {k : Nat} {v : BitVec 32} (h : nestedCode[k]? = some (.I32Const v)) :
    ReadsE dec bs none nestedCode k (k + 1) (n v) :=
  reads_leaf h rfl rfl

/-- What the decompiler shows for it. -/
theorem nested_shown : ∃ N, ∀ fuel, N ≤ fuel → decompile dec bs fuel nestedCode = .ok twice := by
  obtain ⟨ok, _⟩ := fromBody_placed nested_compiles nested_fits
  have found : ∀ s e, s = 4 ∨ s = 8 → e = 10 →
      BlockFound bs nestedCode none (posAt nestedCode s) (posAt nestedCode e) none := by
    rintro s e (rfl | rfl) rfl j
    all_goals
      unfold CodeCursor.range
      rw [getIndex_cursor ok bs j (by decide), getIndex_cursor ok bs j (by decide)]
      rfl
  have hdef : ∀ kc, CasesTo dec bs [(posAt nestedCode 10, posAt nestedCode 10)] none none nestedCode kc 13 ([], some [f 6]) :=
    fun kc => cases_default_one ok rfl (nested_call (o := 16) (.inr rfl) rfl rfl)
  have hin : ∀ blk, ReadsS dec bs blk nestedCode 4 13 (.Switch (n 3) [(n 3, [f 5])] (some [f 6])) := by
    intro blk
    refine reads_switch ok (ty := 7) (start := posAt nestedCode 6) rfl rfl (by decide) (nested_const rfl)
      (labels_label ok (exit := posAt nestedCode 10) (start := posAt nestedCode 8) rfl rfl (by decide) (labels_default rfl))
      (by decide) ?_
    exact cases_label ok (exit := posAt nestedCode 10) (start := posAt nestedCode 8) rfl rfl rfl (by decide)
      (nested_const rfl) (found 8 10 (.inr rfl) rfl)
      ((ReadsL.one ok (by decide) (by decide) (nested_call (o := 16) (.inl rfl) rfl rfl)).path (by decide)) rfl (hdef _)
  have hout : ReadsS dec bs none nestedCode 0 13
      (.Switch (n 1) [(n 1, [.Switch (n 3) [(n 3, [f 5])] (some [f 6])])] (some [f 6])) := by
    refine reads_switch ok (ty := 7) (start := posAt nestedCode 2) rfl rfl (by decide) (nested_const rfl)
      (labels_label ok (exit := posAt nestedCode 10) (start := posAt nestedCode 4) rfl rfl (by decide) (labels_default rfl))
      (by decide) ?_
    exact cases_label ok (exit := posAt nestedCode 10) (start := posAt nestedCode 4) rfl rfl rfl (by decide)
      (nested_const rfl) (found 4 10 (.inl rfl) rfl)
      (path_cons (by decide) (by decide) (hin none) (path_end (by decide) (by decide))) rfl (hdef _)
  obtain ⟨N, hN⟩ : PathTo dec bs (BitVec.allOnes 16) none false nestedCode 0 14 twice :=
    path_cons (by decide) (by decide) hout
      (path_cons (by decide) (by decide) (reads_empty (i := .Nop) rfl rfl) path_eof)
  refine ⟨N, fun m hm => ?_⟩
  have := hN m hm
  unfold decompile
  rw [show CodeCursor.new nestedCode = cursorAt nestedCode 0 from rfl]
  simp only [this]

end

end ShownDemo

open ShownDemo VmDemo in
/-- C71 fails for a loop whose body never goes on: the jump back is not recognized as the end of a loop, and
what follows is not shown at all. The source calls `f5`, the decompiled text does not. -/
theorem C71_lost_statements_counterexample :
    fromBody ShownDemo.env lost = .ok lostCode ∧ startPos lostCode lostCode.length < 2 ^ 15 ∧
    Expr.areStatements lost = true ∧ isLoopAndJump (decompile dec .std 50 lostCode) = true ∧
    ExecAll ShownDemo.env zero interp lost [] (.normal [0, 5]) :=
  ⟨rfl, by decide +kernel, rfl, by decide +kernel,
    .next (.whileEnd (v := 0) (s' := [0]) rfl rfl) (.next (.expr (v := 0) rfl rfl) .nil)⟩

open ShownDemo VmDemo in
/-- C71 fails for a switch without default at the end of the last case of another switch: the default of the
outer switch is shown in both. The source calls `f6` once; the text that is shown calls it twice, since the
inner switch goes on with the outer default. -/
theorem C71_nested_switch_counterexample (bs : BinarySearch) :
    fromBody ShownDemo.env ShownDemo.nested = .ok ShownDemo.nestedCode ∧
    startPos ShownDemo.nestedCode ShownDemo.nestedCode.length < 2 ^ 15 ∧
    Expr.areStatements ShownDemo.nested = true ∧ (∃ N, ∀ fuel, N ≤ fuel → decompile dec bs fuel ShownDemo.nestedCode = .ok twice) ∧
    ExecAll ShownDemo.env zero interp ShownDemo.nested [] (.normal [0, 0, 0, 0, 5, 6]) ∧
    ExecAll ShownDemo.env zero interp
      [.Switch (num 1) [(num 1, [.Switch (num 3) [(num 3, [run 5])] (some [run 6])])] (some [run 6])] []
      (.normal [0, 0, 0, 0, 5, 6, 6]) :=
  ⟨nested_compiles, nested_fits, rfl, nested_shown,
    .next (.switch (o := .normal [0, 0, 0, 0, 5, 6]) rfl (v := 1) (s' := [0])
      (rest := [(num 1, [.Switch (num 3) [(num 3, [run 5])] none])]) (s'' := [0, 0]) rfl rfl
      (.next (.switch (o := .normal [0, 0, 0, 0, 5]) rfl (v := 3) (s' := [0, 0, 0]) (rest := [(num 3, [run 5])])
          (s'' := [0, 0, 0, 0]) rfl rfl (.next (.expr (v := 0) rfl rfl) .nil))
        (.next (.expr (v := 0) rfl rfl) .nil))) .nil,
    .next (.switch (o := .normal [0, 0, 0, 0, 5, 6, 6]) rfl (v := 1) (s' := [0])
      (rest := [(num 1, [.Switch (num 3) [(num 3, [run 5])] (some [run 6])])]) (s'' := [0, 0]) rfl rfl
      (.next (.switch (o := .normal [0, 0, 0, 0, 5, 6]) rfl (v := 3) (s' := [0, 0, 0]) (rest := [(num 3, [run 5])])
          (s'' := [0, 0, 0, 0]) rfl rfl (.next (.expr (v := 0) rfl rfl) (.next (.expr (v := 0) rfl rfl) .nil)))
        (.next (.expr (v := 0) rfl rfl) .nil))) .nil⟩

end Redscript
