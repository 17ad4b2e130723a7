import Verif.Decompiler.ExprProps
import Verif.Util.List

/-!
# Properties of decompiled expressions (C25)
-/

namespace Redscript

/-- `g` is the final code of the generated instructions: the label markers are gone, the labels of the
other instructions are replaced by offsets. -/
def FinalCode (code : List (Instr Nat)) (g : List (Instr Offset)) : Prop :=
  All2 (fun i o => ∃ f : Nat → Offset, o = i.mapLoc f) (realInstrs code) g

theorem FinalCode.listAt {code : List (Instr Nat)} {g : List (Instr Offset)} (h : FinalCode code g)
    (pre post : List (Instr Offset)) : ListAt (pre ++ (g ++ post)) pre.length code (pre.length + g.length) := by
  induction code generalizing pre g with
  | nil => cases h; rfl
  | cons i is ih =>
    by_cases ht : i.isTarget = true
    · obtain ⟨l, rfl⟩ := (isTarget_iff i).1 ht
      exact ListAt.target.2 (ih h pre)
    · have ht : i.isTarget = false := by simpa using ht
      unfold FinalCode at h
      rw [show realInstrs (i :: is) = i :: realInstrs is by simp [realInstrs, ht]] at h
      cases h with
      | cons h1 h2 =>
        rename_i o g
        obtain ⟨f, rfl⟩ := h1
        refine (ListAt.cons ht).2 ⟨⟨f, by simp⟩, ?_⟩
        have := ih h2 (pre ++ [i.mapLoc f])
        simpa [Nat.add_assoc, Nat.add_comm, Nat.add_left_comm] using this

/-- C25: the reader of the decompiler, started at the code of an expression, stops exactly behind that code
and has rebuilt the tree of the expression, whatever code comes before and after.

Missing for the full claim: `super` is read as `this` (see `C25_super_counterexample`), so the tree is that
of `readBack`. -/
theorem C25_generated_code_reads_back_partial {env : AsmEnv} {D : DecEnv} (ha : DecAgrees env D) (bs : BinarySearch)
    {e : TypedExpr} {x : Option Nat} {n n' : Nat} {code : List (Instr Nat)} {g : List (Instr Offset)}
    {t : Expr SourceAst} (hv : e.isValue = true) (h : asm env x e n = .ok (code, n')) (hg : FinalCode code g)
    (ht : readBack D env e = some t) (pre post : List (Instr Offset)) (blk : Option BlockContext) :
    ∃ N, ∀ fuel, N ≤ fuel → consumeWith D bs fuel none blk (cursorAt (pre ++ (g ++ post)) pre.length) =
      .ok (t, cursorAt (pre ++ (g ++ post)) (pre.length + g.length)) :=
  reads_asm ha e x n n' code t hv h ht _ _ (hg.listAt pre post) blk

/-- C25: code determines the expression. If the code of one expression and whatever follows it is the same
as the code of another and whatever follows that, the two pieces of code are the same and both expressions
have the same tree. -/
theorem C25_code_determines_the_expression_partial {env : AsmEnv} {D : DecEnv} (ha : DecAgrees env D)
    {bs : BinarySearch}
    {e e' : TypedExpr} {n n' m m' : Nat} {code code' : List (Instr Nat)} {g g' post post' : List (Instr Offset)}
    {t t' : Expr SourceAst}
    (hv : e.isValue = true) (h : asm env none e n = .ok (code, n')) (hg : FinalCode code g) (ht : readBack D env e = some t)
    (hv' : e'.isValue = true) (h' : asm env none e' m = .ok (code', m')) (hg' : FinalCode code' g')
    (ht' : readBack D env e' = some t')
    (hsame : g ++ post = g' ++ post') : g = g' ∧ t = t' := by
  obtain ⟨N, hN⟩ := C25_generated_code_reads_back_partial ha bs hv h hg ht [] post none
  obtain ⟨N', hN'⟩ := C25_generated_code_reads_back_partial ha bs hv' h' hg' ht' [] post' none
  have e1 := hN (max N N') (by omega)
  have e2 := hN' (max N N') (by omega)
  rw [← hsame, e1] at e2
  simp only [Except.ok.injEq, Prod.mk.injEq, cursorAt, CodeCursor.mk.injEq, List.length_nil, Nat.zero_add, true_and] at e2
  refine ⟨?_, e2.1⟩
  exact (List.append_inj hsame e2.2).1

/-- C25: the compiler takes the name under which the decompiler prints an intrinsic for the same intrinsic. -/
theorem C25_intrinsics_keep_their_name (op : IntrinsicOp) : IntrinsicOp.fromStr op.name = some op := by
  cases op <;> rfl

/-- Specification: the number an instruction stands for. -/
def Instr.number : Instr L → Option Int
  | .I32One => some 1
  | .I32Zero => some 0
  | .I8Const v => some v.toInt
  | .I16Const v => some v.toInt
  | .I32Const v => some v.toInt
  | .I64Const v => some v.toInt
  | .U8Const v => some v.toNat
  | .U16Const v => some v.toNat
  | .U32Const v => some v.toNat
  | .U64Const v => some v.toNat
  | _ => none

/-- Specification: the number a constant in the source stands for. -/
def Constant.number : Constant → Option Int
  | .I32 v => some v.toInt
  | .I64 v => some v.toInt
  | .U32 v => some v.toNat
  | .U64 v => some v.toNat
  | _ => none

/-- C25: a constant instruction of any width, also those that this compiler does not generate, is read as a
literal of the same number; a null of either kind as `null`. -/
theorem C25_numbers_are_kept (D : DecEnv) (bs : BinarySearch) (fuel : Nat) (ctx : Option (Expr SourceAst))
    (blk : Option BlockContext) (pre post : List (Instr Offset)) (i : Instr Offset) :
    (∀ n, i.number = some n → ∃ c, c.number = some n ∧
      consumeWith D bs (fuel + 2) ctx blk (cursorAt (pre ++ i :: post) pre.length) =
        .ok (.Constant c, cursorAt (pre ++ i :: post) (pre.length + 1))) ∧
    (i = .Null ∨ i = .WeakRefNull →
      consumeWith D bs (fuel + 2) ctx blk (cursorAt (pre ++ i :: post) pre.length) =
        .ok (.Null, cursorAt (pre ++ i :: post) (pre.length + 1))) := by
  have key : ∀ e : Expr SourceAst, decKind D i = .leaf (some e) →
      consumeWith D bs (fuel + 2) ctx blk (cursorAt (pre ++ i :: post) pre.length) =
        .ok (e, cursorAt (pre ++ i :: post) (pre.length + 1)) := by
    intro e he
    obtain ⟨p, hp⟩ := consumeWith_at (D := D) (bs := bs) (out := pre ++ i :: post) (k := pre.length) (i := i) (by simp)
    rw [hp, he]
    rfl
  constructor
  · intro n hn
    cases i <;> simp only [Instr.number, reduceCtorEq, Option.some.injEq] at hn <;> subst hn
    all_goals first
      | exact ⟨.I32 _, rfl, key _ rfl⟩
      | exact ⟨.I64 _, rfl, key _ rfl⟩
      | exact ⟨.U32 _, rfl, key _ rfl⟩
      | exact ⟨.U64 _, rfl, key _ rfl⟩
      | exact ⟨.I32 _, by rw [Constant.number, BitVec.toInt_signExtend_of_le (by omega)], key _ rfl⟩
      | exact ⟨.U32 _, by rw [Constant.number, BitVec.toNat_setWidth, Nat.mod_eq_of_lt (by omega)], key _ rfl⟩
  · rintro (rfl | rfl) <;> exact key _ rfl

/-! ### Concrete cases -/

namespace DecDemo

/-- Two functions: 2 is global, all others are final methods of `C`, with one optional and one ordinary parameter. -/
def env : AsmEnv where
  strIdx := fun l t => if l = .String ∧ t = "a".toList then .ok 5 else .error .lookup
  typeOf := fun _ => .ok (.Prim 1)
  typeIdx := fun t => if t = .Prim 1 then .ok 7 else .error .lookup
  defName := fun _ => .error .lookup
  enumFirst := fun _ => .error .lookup
  function := fun f =>
    if f = 2 then .ok ⟨BitVec.twoPow _ FunctionFlags.isStaticBit, [4, 0], 0⟩
    else .ok ⟨BitVec.twoPow _ FunctionFlags.isFinalBit, [0, 0], 1⟩
  line := fun _ _ => 0

def dec : DecEnv where
  defName := fun i => if i = 7 then some "Int32".toList else some "x".toList
  text := fun _ i => if i = 0 then some "Run;".toList else if i = 1 then some "Go;".toList
    else if i = 5 then some "a".toList else none
  function := fun f =>
    if f = 2 then some ⟨"Run;".toList, true, none, none, false⟩
    else some ⟨"Go;".toList, false, some "C".toList, none, true⟩

theorem agrees : DecAgrees env dec where
  text := fun l t i h => by
    simp only [env] at h
    split at h
    · rename_i ht
      cases h
      rw [ht.2]; rfl
    · cases h
  function := fun f info h => by
    simp only [env] at h
    split at h <;> rename_i hf <;> cases h
    · exact ⟨⟨"Run;".toList, true, none, none, false⟩, by simp only [dec, hf, if_true], rfl, by decide⟩
    · exact ⟨⟨"Go;".toList, false, some "C".toList, none, true⟩, by simp only [dec, hf, if_false], rfl, by decide⟩

/-- `Run(x ? this.Go(x.x, "a") : null)` -/
def expr : TypedExpr :=
  .Call (Callable.Function 2) []
    [.Conditional (.Ident (Reference.Value (.Local 9)))
      (.MethodCall .This 3 [.Member (.Ident (Reference.Value (.Parameter 8))) (.ClassField 4), .Constant (.String .String "a".toList)])
      .Null]

/-- Its code. -/
def code : List (Instr Nat) := (asm env none expr 0).toOption.getD ([], 0) |>.1
def final : List (Instr Offset) := (realInstrs code).map fun i => i.mapLoc fun l => BitVec.ofNat 16 l

theorem final_ok : FinalCode code final := All2.map_right _ _ fun _ _ => ⟨_, rfl⟩

/-- The tree the decompiler builds. -/
def tree : Expr SourceAst :=
  .Call "Run;".toList []
    [.Conditional (.Ident "x".toList)
      (.MethodCall .This "Go;".toList [.Member (.Ident "x".toList) "x".toList, .Constant (.String .String "a".toList)])
      .Null]

theorem tree_ok : readBack dec env expr = some tree := by rfl

/-- The hypotheses of C25 hold for an expression with nested calls, an omitted argument and labels. -/
example (bs : BinarySearch) (pre post : List (Instr Offset)) : 12 < final.length ∧
    ∃ N, ∀ fuel, N ≤ fuel → consumeWith dec bs fuel none none (cursorAt (pre ++ (final ++ post)) pre.length) =
      .ok (tree, cursorAt (pre ++ (final ++ post)) (pre.length + final.length)) :=
  ⟨by decide, C25_generated_code_reads_back_partial agrees bs rfl (h := (rfl : asm env none expr 0 = .ok (code, 7)))
    final_ok tree_ok pre post none⟩

end DecDemo

/-- C25 fails for `super`: the calls `this.Go()` and `super.Go()` of a final method have the same code. -/
theorem C25_super_counterexample : ∃ (env : AsmEnv) (f : Idx) (code : List (Instr Nat)) (n : Nat),
    asm env none (.MethodCall .This f []) 0 = .ok (code, n) ∧
    asm env none (.MethodCall .Super f []) 0 = .ok (code, n) := by
  refine ⟨DecDemo.env, 3, [.Context 0, .This, .InvokeStatic 1 0 3 0, .Nop, .Nop, .ParamEnd, .Target 1, .Target 0], 2, ?_, ?_⟩ <;> rfl

end Redscript
