import Verif.Decompiler.ShownCode

/-!
# The jumps in generated code, and what statements begin with
-/

namespace Redscript

/-- An unconditional jump. -/
def Instr.isJump : Instr L → Bool
  | .Jump _ => true
  | _ => false

/-- No unconditional jump in a piece of code. -/
def jumpFree (code : List (Instr L)) : Bool := code.all fun i => !i.isJump

theorem jumpFree_append (a b : List (Instr L)) : jumpFree (a ++ b) = (jumpFree a && jumpFree b) := by
  simp [jumpFree]
theorem jumpFree_cons (i : Instr L) (b : List (Instr L)) : jumpFree (i :: b) = (!i.isJump && jumpFree b) := by
  simp [jumpFree]
theorem jumpFree_nil : jumpFree ([] : List (Instr L)) = true := rfl

theorem constInstr_jumpFree {env : AsmEnv} {c : Constant} {i : Instr Nat} (h : env.constInstr c = .ok i) :
    i.isJump = false := by
  unfold AsmEnv.constInstr at h
  split at h <;> first | (cases h; rfl) | (obtain ⟨a, _, rfl⟩ := exceptMap_ok h; rfl)

theorem elemInstr_jumpFree {env : AsmEnv} {e : TypedExpr} {i : Instr Nat} (h : env.elemInstr e = .ok i) :
    i.isJump = false := by
  unfold AsmEnv.elemInstr at h
  split at h
  · cases h
  · obtain ⟨a, _, rfl⟩ := exceptMap_ok h; rfl
  · obtain ⟨a, _, rfl⟩ := exceptMap_ok h; rfl
  · cases h

theorem intrinsicInstr_jumpFree {env : AsmEnv} {op : IntrinsicOp} {args : List TypedExpr} {ty : TypeId} {i : Instr Nat}
    (h : env.intrinsicInstr op args ty = .ok i) : i.isJump = false := by
  cases op <;> simp only [AsmEnv.intrinsicInstr] at h <;>
    first
      | (obtain ⟨a, _, rfl⟩ := exceptMap_ok h; rfl)
      | (cases h; rfl)
      | (split at h
         · cases h
         · split at h <;> first | (obtain ⟨a, _, rfl⟩ := exceptMap_ok h; rfl) | (cases h; rfl) | cases h)

theorem callInstrs_jumpFree {env : AsmEnv} {info : FnInfo} {b : Bool} {n : Nat} {f : Idx} {args : List TypedExpr}
    {d : List (Instr Nat)} (h : jumpFree d = true) : jumpFree (callInstrs env info b n f args d) = true := by
  have h1 : (env.invokeInstr info b n f args).isJump = false := by unfold AsmEnv.invokeInstr; split <;> rfl
  have h2 : ∀ k, jumpFree (List.replicate k (Instr.Nop : Instr Nat)) = true := by
    intro k; simp [jumpFree, Instr.isJump]
  rw [callInstrs, jumpFree_cons, h1, jumpFree_append, h, jumpFree_append, h2]; rfl

theorem initializer_jumpFree {env : AsmEnv} {l : Idx} {t : TypeId} {code : List (Instr Nat)}
    (h : env.initializer l t = .ok code) : jumpFree code = true := by
  have hp : ∀ name c, env.primInit name = some (.ok c) → c.isJump = false := by
    intro name c hc
    unfold AsmEnv.primInit at hc
    repeat (rcases ite_some hc with h | hc; · first | (cases h; rfl) | (obtain ⟨a, _, rfl⟩ := exceptMap_ok h.symm; rfl))
    cases hc
  unfold AsmEnv.initializer at h
  split at h
  · split at h
    · cases h
    · split at h
      · cases h; rename_i hc; rw [jumpFree_cons, jumpFree_cons, jumpFree_cons, hp _ _ hc]; rfl
      · cases h
      · cases h; rfl
  · cases h; rfl
  · split at h
    · cases h
    · cases h; rfl
    · cases h; rfl
  · cases h; rfl
  · cases h; rfl
  · split at h
    · cases h
    · cases h; rfl
  · cases h; rfl

mutual
theorem value_jumpFree (env : AsmEnv) (x : Option Nat) : ∀ (e : TypedExpr) (n n' : Nat) (code : List (Instr Nat)),
    e.isValue = true → asm env x e n = .ok (code, n') → jumpFree code = true
  | .Ident r, n, n', code, hv, h => by
    obtain ⟨rfl, ⟨l, _, rfl⟩ | ⟨l, _, rfl⟩⟩ := asm_ident h <;> rfl
  | .Constant c, n, n', code, hv, h => by
    obtain ⟨i, hi, rfl, rfl⟩ := asm_constant h
    simp [jumpFree, constInstr_jumpFree hi]
  | .Cast ty e, n, n', code, hv, h => by
    obtain ⟨c, d, _, h1, rfl⟩ := asm_cast h
    simp only [Expr.isValue] at hv
    simp [jumpFree_cons, Instr.isJump, value_jumpFree env none e _ _ _ hv h1]
  | .Assign lhs rhs, n, n', code, hv, h => by
    obtain ⟨a, m, b, h1, h2, rfl⟩ := asm_assign h
    simp only [Expr.isValue, Bool.and_eq_true] at hv
    simp [jumpFree_cons, jumpFree_append, Instr.isJump, value_jumpFree env none lhs _ _ _ hv.1 h1,
      value_jumpFree env none rhs _ _ _ hv.2 h2]
  | .ArrayElem e i, n, n', code, hv, h => by
    obtain ⟨instr, a, m, b, h0, h1, h2, rfl⟩ := asm_elem h
    simp only [Expr.isValue, Bool.and_eq_true] at hv
    rw [jumpFree_cons, elemInstr_jumpFree h0, jumpFree_append, value_jumpFree env none e _ _ _ hv.1 h1,
      value_jumpFree env none i _ _ _ hv.2 h2]
    rfl
  | .New ty args, n, n', code, hv, h => by
    rcases asm_new h with ⟨c, _, rfl, rfl⟩ | ⟨c, d, rfl, h1, rfl⟩
    · rfl
    · simp only [Expr.isValue, Bool.and_eq_true] at hv
      simp [jumpFree_cons, Instr.isJump, values_jumpFree env none args _ _ _ hv.2 h1]
  | .Conditional c t e, n, n', code, hv, h => by
    obtain ⟨cond, n1, true_, n2, false_, h1, h2, h3, rfl⟩ := asm_conditional h
    simp only [Expr.isValue, Bool.and_eq_true] at hv
    simp [jumpFree_cons, jumpFree_append, jumpFree_nil, Instr.isJump, value_jumpFree env none c _ _ _ hv.1.1 h1,
      value_jumpFree env none t _ _ _ hv.1.2 h2, value_jumpFree env none e _ _ _ hv.2 h3]
  | .Member e m, n, n', code, hv, h => by
    rcases asm_member h with ⟨f, d, rfl, h1, rfl⟩ | ⟨f, d, rfl, h1, rfl⟩ | ⟨a, b, _, rfl, rfl⟩
    · simp only [Expr.isValue] at hv
      simp [jumpFree_cons, jumpFree_append, jumpFree_nil, Instr.isJump, value_jumpFree env none e _ _ _ hv h1]
    · simp only [Expr.isValue] at hv
      simp [jumpFree_cons, Instr.isJump, value_jumpFree env none e _ _ _ hv h1]
    · rfl
  | .Call (Callable.Function f) tys args, n, n', code, hv, h => by
    obtain ⟨info, d, _, _, h1, rfl⟩ := asm_call_function h
    simp only [Expr.isValue] at hv
    exact callInstrs_jumpFree (args_jumpFree env args _ _ _ _ hv h1)
  | .Call (Callable.Intrinsic op ty) tys args, n, n', code, hv, h => by
    obtain ⟨instr, d, h0, h1, rfl⟩ := asm_call_intrinsic h
    simp only [Expr.isValue, Bool.and_eq_true] at hv
    simp [jumpFree_cons, intrinsicInstr_jumpFree h0, values_jumpFree env none args _ _ _ hv.2 h1]
  | .MethodCall ctx f args, n, n', code, hv, h => by
    simp only [Expr.isValue, Bool.and_eq_true] at hv
    obtain ⟨info, _, _, ⟨_, _, d, h1, rfl⟩ | ⟨_, _, recv, n1, d, h1, h2, rfl⟩⟩ := asm_method h
    · exact callInstrs_jumpFree (args_jumpFree env args _ _ _ _ hv.2 h1)
    · simp [jumpFree_cons, jumpFree_append, jumpFree_nil, Instr.isJump,
        value_jumpFree env none ctx _ _ _ hv.1 h1, callInstrs_jumpFree (args_jumpFree env args _ _ _ _ hv.2 h2)]
  | .Null, n, n', code, hv, h => by obtain ⟨rfl, rfl⟩ := asm_null h; rfl
  | .This, n, n', code, hv, h => by obtain ⟨rfl, rfl⟩ := asm_this h; rfl
  | .Super, n, n', code, hv, h => by obtain ⟨rfl, rfl⟩ := asm_super h; rfl
  | .Declare _ _ _, _, _, _, hv, _ => by cases hv
  | .Return _, _, _, _, hv, _ => by cases hv
  | .Seq _, _, _, _, hv, _ => by cases hv
  | .Switch _ _ _, _, _, _, hv, _ => by cases hv
  | .If _ _ _, _, _, _, hv, _ => by cases hv
  | .While _ _, _, _, _, hv, _ => by cases hv
  | .Break, _, _, _, hv, _ => by cases hv
  | .ArrayLit _ _, _, _, _, hv, _ => by cases hv
  | .InterpolatedString _ _, _, _, _, hv, _ => by cases hv
  | .ForIn _ _ _, _, _, _, hv, _ => by cases hv
  | .BinOp _ _ _, _, _, _, hv, _ => by cases hv
  | .UnOp _ _, _, _, _, hv, _ => by cases hv
  | .Goto _, _, _, _, hv, _ => by cases hv
  termination_by e => sizeOf e
theorem values_jumpFree (env : AsmEnv) (x : Option Nat) : ∀ (es : List TypedExpr) (n n' : Nat) (code : List (Instr Nat)),
    Expr.areValues es = true → asmSeq env x es n = .ok (code, n') → jumpFree code = true
  | [], n, n', code, hv, h => by
    obtain ⟨rfl, rfl⟩ := asmSeq_nil h
    rfl
  | e :: es, n, n', code, hv, h => by
    obtain ⟨a, m, b, h1, h2, rfl⟩ := asmSeq_cons h
    simp only [Expr.areValues, Bool.and_eq_true] at hv
    simp [jumpFree_append, value_jumpFree env x e _ _ _ hv.1 h1, values_jumpFree env x es _ _ _ hv.2 h2]
  termination_by es => sizeOf es
theorem args_jumpFree (env : AsmEnv) : ∀ (args : List TypedExpr) (ps : List ParameterFlags) (n n' : Nat)
    (code : List (Instr Nat)), Expr.areValues args = true → asmArgs env args ps n = .ok (code, n') → jumpFree code = true
  | [], ps, n, n', code, hv, h => by
    obtain ⟨rfl, rfl⟩ := asmArgs_nil h
    rfl
  | a :: as, [], n, n', code, hv, h => by
    obtain ⟨rfl, rfl⟩ := asmArgs_surplus h
    rfl
  | a :: as, p :: ps, n, n', code, hv, h => by
    simp only [Expr.areValues, Bool.and_eq_true] at hv
    rcases asmArgs_cons h with ⟨_, c, m, d, h1, h2, rfl⟩ | ⟨_, c, m, d, h1, h2, rfl⟩ <;>
    simp [jumpFree_cons, jumpFree_append, Instr.isJump, value_jumpFree env none a _ _ _ hv.1 h1,
      args_jumpFree env as ps _ _ _ hv.2 h2]
  termination_by args => sizeOf args
end

/-- The jumps of a piece of code stay in it, but for jumps to the exit when there is a `break`. -/
structure JumpsOk (x : Option Nat) (brk : Bool) (code : List (Instr Nat)) : Prop where
  stay : ∀ l, .Jump l ∈ code → l ∈ placed code ∨ (brk = true ∧ x = some l)
  leave : brk = true → ∃ l, x = some l ∧ .Jump l ∈ code

section
variable {x : Option Nat} {brk brk' : Bool} {a b code : List (Instr Nat)}

theorem JumpsOk.free (h : jumpFree code = true) : JumpsOk x false code where
  stay l hl := by
    simp only [jumpFree, List.all_eq_true] at h
    have := h _ hl
    simp [Instr.isJump] at this
  leave h := by cases h

theorem JumpsOk.append (h1 : JumpsOk x brk a) (h2 : JumpsOk x brk' b) : JumpsOk x (brk || brk') (a ++ b) where
  stay l hl := by
    rw [placed_append, List.mem_append]
    rcases List.mem_append.1 hl with hl | hl
    · rcases h1.stay l hl with h | ⟨h, h'⟩
      · exact .inl (.inl h)
      · exact .inr ⟨by simp [h], h'⟩
    · rcases h2.stay l hl with h | ⟨h, h'⟩
      · exact .inl (.inr h)
      · exact .inr ⟨by simp [h], h'⟩
  leave h := by
    rw [Bool.or_eq_true] at h
    rcases h with h | h
    · obtain ⟨l, h3, h4⟩ := h1.leave h; exact ⟨l, h3, List.mem_append_left _ h4⟩
    · obtain ⟨l, h3, h4⟩ := h2.leave h; exact ⟨l, h3, List.mem_append_right _ h4⟩

theorem JumpsOk.cons {i : Instr Nat} (hi : i.isJump = false) (h : JumpsOk x brk code) : JumpsOk x brk (i :: code) := by
  have := JumpsOk.append (x := x) (a := [i]) (.free (by simp [jumpFree, hi])) h
  simpa using this

/-- A jump to a label placed later. -/
theorem JumpsOk.jump {l : Nat} (h : JumpsOk x brk code) (hl : l ∈ placed code) : JumpsOk x brk (.Jump l :: code) where
  stay m hm := by
    rw [placed_cons _ _ rfl]
    rcases List.mem_cons.1 hm with h' | hm
    · cases h'; exact .inl hl
    · exact h.stay m hm
  leave hb := by obtain ⟨l, h3, h4⟩ := h.leave hb; exact ⟨l, h3, List.mem_cons_of_mem _ h4⟩

end

mutual
theorem stmt_jumps (env : AsmEnv) : ∀ (e : TypedExpr) (x : Option Nat) (n n' : Nat) (code : List (Instr Nat)),
    e.isStatement = true → asm env x e n = .ok (code, n') → JumpsOk x e.strayBreak code
  | .Declare l ty (some v), x, n, n', code, hv, h => by
    obtain ⟨d, h1, rfl⟩ := asm_declare_some h
    simp only [Expr.isStatement] at hv
    exact .cons rfl (.cons rfl (.free (value_jumpFree env none v _ _ _ hv h1)))
  | .Declare l ty none, x, n, n', code, hv, h => by
    obtain ⟨t, _, _, h1⟩ := asm_declare_none h
    exact .free (initializer_jumpFree h1)
  | .Return (some e), x, n, n', code, hv, h => by
    obtain ⟨d, h1, rfl⟩ := asm_return_some h
    simp only [Expr.isStatement] at hv
    exact .cons rfl (.free (value_jumpFree env none e _ _ _ hv h1))
  | .Return none, x, n, n', code, hv, h => by
    obtain ⟨_, rfl⟩ := asm_return_none h
    exact .free rfl
  | .Break, x, n, n', code, hv, h => by
    obtain ⟨l, rfl, _, rfl⟩ := asm_break h
    refine ⟨fun m hm => ?_, fun _ => ⟨l, rfl, List.mem_cons_self ..⟩⟩
    simp only [List.mem_singleton, Instr.Jump.injEq] at hm
    exact .inr ⟨rfl, by rw [hm]⟩
  | .Seq es, x, n, n', code, hv, h => by
    simp only [Expr.isStatement] at hv
    simp only [Expr.strayBreak]
    exact seq_jumps env es x n n' code hv (asm_seq h)
  | .If c t none, x, n, n', code, hv, h => by
    obtain ⟨cond, n1, then_, h1, h2, rfl⟩ := asm_if_none h
    simp only [Expr.isStatement, Expr.areStatementsOpt, Bool.and_eq_true] at hv
    simp only [Expr.strayBreak, Expr.optStrayBreak, Bool.or_false]
    have k1 : JumpsOk x false cond := .free (value_jumpFree env none c _ _ _ hv.1.1 h1)
    have k2 := seq_jumps env t x _ _ _ hv.1.2 h2
    have k3 := k1.append (k2.append (.free (code := [.Target n]) rfl))
    simpa using JumpsOk.cons (i := .JumpIfFalse n) rfl k3
  | .If c t (some e), x, n, n', code, hv, h => by
    obtain ⟨cond, n1, then_, n2, else_, h1, h2, h3, rfl⟩ := asm_if_some h
    simp only [Expr.isStatement, Expr.areStatementsOpt, Bool.and_eq_true] at hv
    simp only [Expr.strayBreak, Expr.optStrayBreak]
    have k1 : JumpsOk x false cond := .free (value_jumpFree env none c _ _ _ hv.1.1 h1)
    have k2 := seq_jumps env t x _ _ _ hv.1.2 h2
    have k4 := seq_jumps env e x _ _ _ hv.2 h3
    have k5 : JumpsOk x (Expr.anyStrayBreak e) (.Target n :: (else_ ++ [.Target n2])) := by
      have := k4.append (.free (code := [.Target n2]) rfl)
      exact .cons rfl (by simpa using this)
    have k6 := k1.append (k2.append (k5.jump (l := n2) (by simp [placed, placed_append])))
    simpa using JumpsOk.cons (i := .JumpIfFalse n) rfl k6
  | .While c b, x, n, n', code, hv, h => by
    obtain ⟨cond, n1, body, h1, h2, rfl⟩ := asm_while h
    simp only [Expr.isStatement, Bool.and_eq_true] at hv
    have k1 : JumpsOk none false cond := .free (value_jumpFree env none c _ _ _ hv.1 h1)
    have k2 := seq_jumps env b (some n) _ _ _ hv.2 h2
    refine ⟨fun l hl => .inl ?_, fun h => by cases h⟩
    simp only [List.mem_cons, reduceCtorEq, List.mem_append, false_or, Instr.Jump.injEq, List.not_mem_nil, or_false] at hl
    simp only [placed, placed_append, List.mem_cons, List.mem_append, List.not_mem_nil, or_false]
    rcases hl with hl | hl | hl
    · rcases k1.stay l hl with h | ⟨h, _⟩
      · exact .inr (.inl h)
      · cases h
    · rcases k2.stay l hl with h | ⟨_, h⟩
      · exact .inr (.inr (.inl h))
      · cases h; exact .inr (.inr (.inr rfl))
    · exact .inl hl
  | .Switch e cs d, x, n, n', code, hv, h => by
    obtain ⟨ty, tyIdx, subject, n1, body, next, n2, tail, _, _, h1, h2, h3, rfl⟩ := asm_switch h
    simp only [Expr.isStatement, Bool.and_eq_true] at hv
    have k1 : JumpsOk none false subject := .free (value_jumpFree env none e _ _ _ hv.1.1 h1)
    have k2 := cases_jumps env cs _ _ _ _ _ _ _ hv.1.2 h2
    have k3 := block_jumps env d _ _ _ _ hv.2 h3
    refine ⟨fun l hl => .inl ?_, fun h => by cases h⟩
    simp only [List.mem_cons, reduceCtorEq, List.mem_append, false_or, List.not_mem_nil, or_false] at hl
    simp only [placed, placed_append, List.mem_cons, List.mem_append, List.not_mem_nil, or_false]
    rcases hl with hl | hl | hl
    · rcases k1.stay l hl with h | ⟨h, _⟩
      · exact .inl h
      · cases h
    · rcases k2 l hl with h | rfl
      · exact .inr (.inr (.inl h))
      · exact .inr (.inr (.inr (.inr (.inr rfl))))
    · rcases k3 l hl with h | rfl
      · exact .inr (.inr (.inr (.inr (.inl h))))
      · exact .inr (.inr (.inr (.inr (.inr rfl))))
  | .Ident r, x, n, n', code, hv, h => .free (value_jumpFree env x _ _ _ _ hv h)
  | .Constant _, x, n, n', code, hv, h => .free (value_jumpFree env x _ _ _ _ hv h)
  | .Null, x, n, n', code, hv, h => .free (value_jumpFree env x _ _ _ _ hv h)
  | .This, x, n, n', code, hv, h => .free (value_jumpFree env x _ _ _ _ hv h)
  | .Super, x, n, n', code, hv, h => .free (value_jumpFree env x _ _ _ _ hv h)
  | .Cast a b, x, n, n', code, hv, h => .free (value_jumpFree env x (.Cast a b) _ _ _ (by simpa only [Expr.isStatement] using hv) h)
  | .Assign a b, x, n, n', code, hv, h => .free (value_jumpFree env x (.Assign a b) _ _ _ (by simpa only [Expr.isStatement] using hv) h)
  | .ArrayElem a b, x, n, n', code, hv, h => .free (value_jumpFree env x (.ArrayElem a b) _ _ _ (by simpa only [Expr.isStatement] using hv) h)
  | .New a b, x, n, n', code, hv, h => .free (value_jumpFree env x (.New a b) _ _ _ (by simpa only [Expr.isStatement] using hv) h)
  | .Conditional a b c, x, n, n', code, hv, h => .free (value_jumpFree env x (.Conditional a b c) _ _ _ (by simpa only [Expr.isStatement] using hv) h)
  | .Member a b, x, n, n', code, hv, h => .free (value_jumpFree env x (.Member a b) _ _ _ (by simpa only [Expr.isStatement] using hv) h)
  | .Call a b c, x, n, n', code, hv, h => .free (value_jumpFree env x (.Call a b c) _ _ _ (by simpa only [Expr.isStatement] using hv) h)
  | .MethodCall a b c, x, n, n', code, hv, h => .free (value_jumpFree env x (.MethodCall a b c) _ _ _ (by simpa only [Expr.isStatement] using hv) h)
  | .ArrayLit _ _, _, _, _, _, hv, _ => by cases hv
  | .InterpolatedString _ _, _, _, _, _, hv, _ => by cases hv
  | .ForIn _ _ _, _, _, _, _, hv, _ => by cases hv
  | .BinOp _ _ _, _, _, _, _, hv, _ => by cases hv
  | .UnOp _ _, _, _, _, _, hv, _ => by cases hv
  | .Goto _, _, _, _, _, hv, _ => by cases hv
  termination_by e => sizeOf e
theorem seq_jumps (env : AsmEnv) : ∀ (es : List TypedExpr) (x : Option Nat) (n n' : Nat) (code : List (Instr Nat)),
    Expr.areStatements es = true → asmSeq env x es n = .ok (code, n') → JumpsOk x (Expr.anyStrayBreak es) code
  | [], x, n, n', code, hv, h => by
    obtain ⟨_, rfl⟩ := asmSeq_nil h
    exact .free rfl
  | e :: es, x, n, n', code, hv, h => by
    obtain ⟨a, m, b, h1, h2, rfl⟩ := asmSeq_cons h
    simp only [Expr.areStatements, Bool.and_eq_true] at hv
    simp only [Expr.anyStrayBreak]
    exact (stmt_jumps env e x _ _ _ hv.1 h1).append (seq_jumps env es x _ _ _ hv.2 h2)
  termination_by es => sizeOf es
theorem cases_jumps (env : AsmEnv) : ∀ (cs : List (TypedExpr × List TypedExpr)) (exit : Nat) (pend : Option Nat)
    (next next' n n' : Nat) (code : List (Instr Nat)), Expr.areCases cs = true →
    asmCases env exit pend cs next n = .ok (code, next', n') → ∀ l, .Jump l ∈ code → l ∈ placed code ∨ l = exit
  | [], exit, pend, next, next', n, n', code, hv, h => by
    obtain ⟨_, _, rfl⟩ := asmCases_nil h
    intro l hl; cases hl
  | (m, body) :: cs, exit, pend, next, next', n, n', code, hv, h => by
    simp only [Expr.areCases, Bool.and_eq_true] at hv
    obtain ⟨matcher, n1, hm, ⟨_, rest, hr, rfl⟩ | ⟨_, b, n2, rest, hbd, hr, rfl⟩⟩ := asmCases_cons h
    · have k1 : JumpsOk none false matcher := .free (value_jumpFree env none m _ _ _ hv.1.1 hm)
      have k2 := cases_jumps env cs _ _ _ _ _ _ _ hv.2 hr
      intro l hl
      simp only [List.mem_cons, reduceCtorEq, List.mem_append, false_or] at hl
      simp only [placed, placed_append, List.mem_cons, List.mem_append]
      rcases hl with hl | hl
      · rcases k1.stay l hl with h | ⟨h, _⟩
        · exact .inl (.inr (.inl h))
        · cases h
      · rcases k2 l hl with h | h
        · exact .inl (.inr (.inr h))
        · exact .inr h
    · have k1 : JumpsOk none false matcher := .free (value_jumpFree env none m _ _ _ hv.1.1 hm)
      have k2 := cases_jumps env cs _ _ _ _ _ _ _ hv.2 hr
      have k3 := seq_jumps env body _ _ _ _ hv.1.2 hbd
      intro l hl
      simp only [List.mem_cons, reduceCtorEq, List.mem_append, false_or] at hl
      simp only [placed, placed_append, List.mem_cons, List.mem_append]
      rcases hl with hl | hl | hl
      · rcases k1.stay l hl with h | ⟨h, _⟩
        · exact .inl (.inr (.inl h))
        · cases h
      · rcases k3.stay l hl with h | ⟨_, h⟩
        · exact .inl (.inr (.inr (.inr (.inl h))))
        · cases h; exact .inr rfl
      · rcases k2 l hl with h | h
        · exact .inl (.inr (.inr (.inr (.inr h))))
        · exact .inr h
  termination_by cs => sizeOf cs
theorem block_jumps (env : AsmEnv) : ∀ (d : Option (List TypedExpr)) (exit n n' : Nat)
    (code : List (Instr Nat)), Expr.areStatementsOpt d = true → asmBlockOpt env exit d n = .ok (code, n') →
    ∀ l, .Jump l ∈ code → l ∈ placed code ∨ l = exit
  | none, exit, n, n', code, hv, h => by
    obtain ⟨_, rfl⟩ := asmBlockOpt_none h
    intro l hl; cases hl
  | some b, exit, n, n', code, hv, h => by
    obtain ⟨d, h1, rfl⟩ := asmBlockOpt_some h
    simp only [Expr.areStatementsOpt] at hv
    have k3 := seq_jumps env b _ _ _ _ hv h1
    intro l hl
    simp only [List.mem_cons, reduceCtorEq, false_or] at hl
    simp only [placed]
    rcases k3.stay l hl with h | ⟨_, h⟩
    · exact .inl h
    · cases h; exact .inr rfl
  termination_by d => sizeOf d
end

/-! ### What statements begin with -/

/-- The instruction is not a label of a switch. -/
def NotCase (i : Instr Offset) : Prop := peekKind (some i) ≠ .dflt ∧ ∀ a b, peekKind (some i) ≠ .label a b

/-- No label of a switch stands at the index. -/
def NotCaseAt (out : List (Instr Offset)) (k : Nat) : Prop := ∀ i, out[k]? = some i → NotCase i

section
variable {env : AsmEnv} {out : List (Instr Offset)} {ρ : Nat → Location}

theorem value_head {e : TypedExpr} {x : Option Nat} {n n' k k' : Nat} {code : List (Instr Nat)} (hv : e.isValue = true)
    (h : asm env x e n = .ok (code, n')) (hc : PlacedAt out ρ k code k') :
    k < k' ∧ ∃ i, out[k]? = some i ∧ NotCase i ∧ i ≠ .Nop := by
  obtain ⟨i, rest, rfl, ht, hp, hk⟩ := expr_first (ρ := fun l => (ρ l).relative (posAt out k)) hv h
  rw [PlacedAt.cons ht] at hc
  refine ⟨hc.2.le, _, hc.1, ?_, ?_⟩
  · have := peekKind_value hp hk
    exact ⟨by rw [this]; decide, fun a b => by rw [this]; intro h; cases h⟩
  · intro he; rw [he] at hk; cases hk

/-- What a piece of code begins with. -/
def HeadOk (out : List (Instr Offset)) (empty : Bool) (k k' : Nat) : Prop :=
  (empty = true → k = k') ∧ (empty = false → k < k' ∧ ∃ i, out[k]? = some i ∧ NotCase i)

theorem HeadOk.value {e : TypedExpr} {x : Option Nat} {n n' k k' : Nat} {code : List (Instr Nat)} (hv : e.isValue = true)
    (h : asm env x e n = .ok (code, n')) (hc : PlacedAt out ρ k code k') : HeadOk out false k k' := by
  obtain ⟨h1, i, h2, h3, _⟩ := value_head hv h hc
  exact ⟨fun h => (by cases h), fun _ => ⟨h1, i, h2, h3⟩⟩

theorem HeadOk.instr {k k' : Nat} {i : Instr Nat} {code : List (Instr Nat)} (hc : PlacedAt out ρ k (i :: code) k')
    (ht : i.isTarget = false)
    (hn : ∀ f : Nat → Offset, NotCase (i.mapLoc f)) : HeadOk out false k k' := by
  rw [PlacedAt.cons ht] at hc
  exact ⟨fun h => (by cases h), fun _ => ⟨hc.2.le, _, hc.1, hn _⟩⟩

theorem notCase_of {i : Instr Offset} (h : peekKind (some i) = .other ∨ peekKind (some i) = .skipOrNop) : NotCase i := by
  rcases h with h | h <;> exact ⟨by rw [h]; decide, fun a b => by rw [h]; intro h; cases h⟩

mutual
theorem stmt_head : ∀ (e : TypedExpr) (x : Option Nat) (n n' : Nat) (code : List (Instr Nat)), e.isStatement = true →
    asm env x e n = .ok (code, n') → ∀ k k', PlacedAt out ρ k code k' → HeadOk out (e.noCode env) k k'
  | .Declare l ty (some v), x, n, n', code, hv, h, k, k', hc => by
    obtain ⟨d, h1, rfl⟩ := asm_declare_some h
    simp only [Expr.noCode]
    exact .instr hc rfl fun f => notCase_of (.inl rfl)
  | .Declare l ty none, x, n, n', code, hv, h, k, k', hc => by
    obtain ⟨t, rfl, _, h1⟩ := asm_declare_none h
    simp only [Expr.noCode, h1]
    have one : ∀ c, PlacedAt out ρ k [.Assign, .Local l, c] k' → HeadOk out false k k' := fun c hc =>
      .instr hc rfl fun f => notCase_of (.inl rfl)
    unfold AsmEnv.initializer at h1
    split at h1
    · split at h1
      · cases h1
      · split at h1
        · cases h1; exact one _ hc
        · cases h1
        · cases h1; exact ⟨fun _ => hc, fun h => by cases h⟩
    · cases h1; exact one _ hc
    · split at h1
      · cases h1
      · cases h1; exact one _ hc
      · cases h1; exact ⟨fun _ => hc, fun h => by cases h⟩
    · cases h1; exact one _ hc
    · cases h1; exact one _ hc
    · split at h1
      · cases h1
      · cases h1; exact .instr hc rfl fun f => notCase_of (.inl rfl)
    · cases h1; exact ⟨fun _ => hc, fun h => by cases h⟩
  | .Return (some e), x, n, n', code, hv, h, k, k', hc => by
    obtain ⟨d, h1, rfl⟩ := asm_return_some h
    exact .instr hc rfl fun f => notCase_of (.inl rfl)
  | .Return none, x, n, n', code, hv, h, k, k', hc => by
    obtain ⟨_, rfl⟩ := asm_return_none h
    exact .instr hc rfl fun f => notCase_of (.inl rfl)
  | .Break, x, n, n', code, hv, h, k, k', hc => by
    obtain ⟨l, _, _, rfl⟩ := asm_break h
    exact .instr hc rfl fun f => notCase_of (.inl rfl)
  | .Seq es, x, n, n', code, hv, h, k, k', hc => by
    simp only [Expr.isStatement] at hv
    simp only [Expr.noCode]
    exact seq_head es x n n' code hv (asm_seq h) k k' hc
  | .If c t none, x, n, n', code, hv, h, k, k', hc => by
    obtain ⟨cond, n1, then_, h1, h2, rfl⟩ := asm_if_none h
    exact .instr hc rfl fun f => notCase_of (.inl rfl)
  | .If c t (some e), x, n, n', code, hv, h, k, k', hc => by
    obtain ⟨cond, n1, then_, n2, else_, h1, h2, h3, rfl⟩ := asm_if_some h
    exact .instr hc rfl fun f => notCase_of (.inl rfl)
  | .While c b, x, n, n', code, hv, h, k, k', hc => by
    obtain ⟨cond, n1, body, h1, h2, rfl⟩ := asm_while h
    rw [PlacedAt.target] at hc
    exact .instr hc.2 rfl fun f => notCase_of (.inl rfl)
  | .Switch e cs d, x, n, n', code, hv, h, k, k', hc => by
    obtain ⟨ty, tyIdx, subject, n1, body, next, n2, tail, _, _, h1, h2, h3, rfl⟩ := asm_switch h
    exact .instr hc rfl fun f => notCase_of (.inl rfl)
  | .Ident r, x, n, n', code, hv, h, k, k', hc => .value (e := .Ident r) hv h hc
  | .Constant _, x, n, n', code, hv, h, k, k', hc => .value (e := .Constant _) hv h hc
  | .Null, x, n, n', code, hv, h, k, k', hc => .value (e := .Null) hv h hc
  | .This, x, n, n', code, hv, h, k, k', hc => .value (e := .This) hv h hc
  | .Super, x, n, n', code, hv, h, k, k', hc => .value (e := .Super) hv h hc
  | .Cast a b, x, n, n', code, hv, h, k, k', hc => .value (e := .Cast a b) (by simpa only [Expr.isStatement] using hv) h hc
  | .Assign a b, x, n, n', code, hv, h, k, k', hc => .value (e := .Assign a b) (by simpa only [Expr.isStatement] using hv) h hc
  | .ArrayElem a b, x, n, n', code, hv, h, k, k', hc => .value (e := .ArrayElem a b) (by simpa only [Expr.isStatement] using hv) h hc
  | .New a b, x, n, n', code, hv, h, k, k', hc => .value (e := .New a b) (by simpa only [Expr.isStatement] using hv) h hc
  | .Conditional a b c, x, n, n', code, hv, h, k, k', hc => .value (e := .Conditional a b c) (by simpa only [Expr.isStatement] using hv) h hc
  | .Member a b, x, n, n', code, hv, h, k, k', hc => .value (e := .Member a b) (by simpa only [Expr.isStatement] using hv) h hc
  | .Call a b c, x, n, n', code, hv, h, k, k', hc => .value (e := .Call a b c) (by simpa only [Expr.isStatement] using hv) h hc
  | .MethodCall a b c, x, n, n', code, hv, h, k, k', hc => .value (e := .MethodCall a b c) (by simpa only [Expr.isStatement] using hv) h hc
  | .ArrayLit _ _, _, _, _, _, hv, _, _, _, _ => by cases hv
  | .InterpolatedString _ _, _, _, _, _, hv, _, _, _, _ => by cases hv
  | .ForIn _ _ _, _, _, _, _, hv, _, _, _, _ => by cases hv
  | .BinOp _ _ _, _, _, _, _, hv, _, _, _, _ => by cases hv
  | .UnOp _ _, _, _, _, _, hv, _, _, _, _ => by cases hv
  | .Goto _, _, _, _, _, hv, _, _, _, _ => by cases hv
  termination_by e => sizeOf e
theorem seq_head : ∀ (es : List TypedExpr) (x : Option Nat) (n n' : Nat) (code : List (Instr Nat)),
    Expr.areStatements es = true → asmSeq env x es n = .ok (code, n') → ∀ k k', PlacedAt out ρ k code k' →
    HeadOk out (Expr.allNoCode env es) k k'
  | [], x, n, n', code, hv, h, k, k', hc => by
    obtain ⟨_, rfl⟩ := asmSeq_nil h
    exact ⟨fun _ => hc, fun h => by cases h⟩
  | e :: es, x, n, n', code, hv, h, k, k', hc => by
    obtain ⟨a, m, b, h1, h2, rfl⟩ := asmSeq_cons h
    simp only [Expr.areStatements, Bool.and_eq_true] at hv
    obtain ⟨j, hc1, hc2⟩ := PlacedAt.append.1 hc
    have k1 := stmt_head e x _ _ _ hv.1 h1 _ _ hc1
    have k2 := seq_head es x _ _ _ hv.2 h2 _ _ hc2
    simp only [Expr.allNoCode]
    cases hn : e.noCode env with
    | true => rw [Bool.true_and, k1.1 hn]; exact k2
    | false =>
      rw [Bool.false_and]
      obtain ⟨h3, h4⟩ := k1.2 hn
      have := hc2.le
      exact ⟨fun h => (by cases h), fun _ => ⟨by omega, h4⟩⟩
  termination_by es => sizeOf es
end

end

end Redscript
