import Verif.Vm.Examples

/-!
# How calls pass their arguments (C29, C53)
-/

namespace Redscript

/-- The code of an expression stands in memory from `p` to `q`. -/
def ExprAt (env : AsmEnv) (mem : Location → Option (Instr Location)) (e : TypedExpr) (p q : Location) : Prop :=
  ∃ ρ n code n', asm env none e n = .ok (code, n') ∧ CodeAt mem ρ p code q

/-- Arguments for parameters stand in memory from `p` to `q`, one group for each parameter: the argument,
behind a skip to its end when the parameter is short-circuit, or a placeholder when it is omitted; then
the end marker. -/
inductive ParamsAt (env : AsmEnv) (mem : Location → Option (Instr Location)) :
    List TypedExpr → List ParameterFlags → Location → Location → Prop
  | done {p : Location} : mem p = some .ParamEnd → ParamsAt env mem [] [] p (p + 1)
  | omitted {p q : Location} {fl : ParameterFlags} {ps : List ParameterFlags} : mem p = some .Nop →
      ParamsAt env mem [] ps (p + 1) q → ParamsAt env mem [] (fl :: ps) p q
  | skipped {p r q : Location} {a : TypedExpr} {as : List TypedExpr} {fl : ParameterFlags}
      {ps : List ParameterFlags} : fl.getLsbD 2 = true → mem p = some (.Skip r) → ExprAt env mem a (p + 3) r →
      ParamsAt env mem as ps r q → ParamsAt env mem (a :: as) (fl :: ps) p q
  | given {p r q : Location} {a : TypedExpr} {as : List TypedExpr} {fl : ParameterFlags}
      {ps : List ParameterFlags} : fl.getLsbD 2 = false → ExprAt env mem a p r →
      ParamsAt env mem as ps r q → ParamsAt env mem (a :: as) (fl :: ps) p q

/-- The first instruction of a call. -/
def InvokeAt (mem : Location → Option (Instr Location)) (callee : Callee) (exit p q : Location) : Prop :=
  match callee with
  | .fixed f => ∃ line fl, mem p = some (.InvokeStatic exit line f fl) ∧ q = p + 15
  | .dispatched name => ∃ line fl, mem p = some (.InvokeVirtual exit line name fl) ∧ q = p + 15

section
variable {V S A : Type} {env : AsmEnv} {mem : Location → Option (Instr Location)} {ρ : Nat → Location}
  {n n' : Nat} {code : List (Instr Nat)} {x : Option Nat} {p q : Location}

theorem paramsAt_omitted {ps : List ParameterFlags} {l : Nat} :
    ∀ {p}, CodeAt mem ρ p (List.replicate ps.length .Nop ++ [.ParamEnd, .Target l]) q →
      ParamsAt env mem [] ps p q ∧ ρ l = q := by
  induction ps with
  | nil =>
    intro p h
    simp only [List.length_nil, List.replicate_zero, List.nil_append] at h
    rw [CodeAt.cons rfl, CodeAt.target, CodeAt.nil] at h
    obtain ⟨h1, h2, h3⟩ := h
    subst h3
    exact ⟨.done h1, h2⟩
  | cons fl ps ih =>
    intro p h
    rw [List.length_cons, List.replicate_succ, List.cons_append, CodeAt.cons rfl] at h
    obtain ⟨h1, h2⟩ := h
    obtain ⟨h3, h4⟩ := ih h2
    exact ⟨.omitted h1 h3, h4⟩

theorem paramsAt_asm : ∀ {args : List TypedExpr} {ps : List ParameterFlags} {n n' : Nat} {d : List (Instr Nat)}
    {l : Nat} {p : Location}, args.length ≤ ps.length → asmArgs env args ps n = .ok (d, n') →
    CodeAt mem ρ p (d ++ (List.replicate (ps.length - args.length) .Nop ++ [.ParamEnd, .Target l])) q →
    ParamsAt env mem args ps p q ∧ ρ l = q
  | [], ps, n, n', d, l, p, hl, h, hc => by
    obtain ⟨_, rfl⟩ := asmArgs_nil h
    exact paramsAt_omitted hc
  | _ :: _, [], n, n', d, l, p, hl, h, hc => by simp at hl
  | a :: as, fl :: ps, n, n', d, l, p, hl, h, hc => by
    simp only [List.length_cons, Nat.add_le_add_iff_right] at hl
    simp only [List.length_cons, Nat.reduceSubDiff] at hc
    rcases asmArgs_cons h with ⟨hf, c, m, d, h1, h2, rfl⟩ | ⟨hf, c, m, d, h1, h2, rfl⟩
    · simp only [List.cons_append, List.append_assoc] at hc
      rw [CodeAt.cons rfl, CodeAt.append] at hc
      obtain ⟨hs, r, h3, h4⟩ := hc
      rw [CodeAt.target] at h4
      obtain ⟨h4, h5⟩ := h4
      subst h4
      obtain ⟨h6, h7⟩ := paramsAt_asm hl h2 h5
      exact ⟨.skipped hf hs ⟨ρ, _, c, _, h1, h3⟩ h6, h7⟩
    · rw [List.append_assoc, CodeAt.append] at hc
      obtain ⟨r, h3, h4⟩ := hc
      obtain ⟨h6, h7⟩ := paramsAt_asm hl h2 h4
      exact ⟨.given hf ⟨ρ, _, c, _, h1, h3⟩ h6, h7⟩

theorem callInstrs_at {info : FnInfo} {b : Bool} {l : Nat} {f : Idx} {args : List TypedExpr}
    {d : List (Instr Nat)} (hl : args.length ≤ info.params.length)
    (h : asmArgs env args info.params n = .ok (d, n')) (hc : CodeAt mem ρ p (callInstrs env info b l f args d) q) :
    ∃ r, InvokeAt mem (calleeOf info b f) q p r ∧ ParamsAt env mem args info.params r q := by
  have ht : (env.invokeInstr info b l f args).isTarget = false := by unfold AsmEnv.invokeInstr; split <;> rfl
  unfold callInstrs at hc
  rw [CodeAt.cons ht] at hc
  obtain ⟨h1, h2⟩ := hc
  obtain ⟨h3, h4⟩ := paramsAt_asm hl h h2
  refine ⟨_, ?_, h3⟩
  revert h1
  unfold AsmEnv.invokeInstr calleeOf
  cases b <;> cases flag FunctionFlags.isFinalBit info.flags <;> cases flag FunctionFlags.isStaticBit info.flags <;>
    cases flag FunctionFlags.isNativeBit info.flags <;> intro h1 <;>
    exact ⟨_, _, by rw [← h4]; exact h1, rfl⟩

/-- C29: the code of a call of a function: an invocation that ends at the end of the call, then one group
for each declared parameter. -/
theorem C29_call_has_one_group_per_parameter {f : Idx} {tys : List TypeId} {args : List TypedExpr}
    (h : asm env x (.Call (Callable.Function f) tys args) n = .ok (code, n')) (hc : CodeAt mem ρ p code q) :
    ∃ info r, env.function f = .ok info ∧ InvokeAt mem (calleeOf info false f) q p r ∧
      ParamsAt env mem args info.params r q := by
  obtain ⟨info, d, hf, hl, h1, rfl⟩ := asm_call_function h
  obtain ⟨r, h2, h3⟩ := callInstrs_at hl h1 hc
  exact ⟨info, r, hf, h2, h3⟩

/-- C29: the code of a method call: for a static method the same, otherwise the receiver comes first,
behind a context that ends at the end of the call. -/
theorem C29_method_call_has_one_group_per_parameter {ctx : TypedExpr} {f : Idx} {args : List TypedExpr}
    (h : asm env x (.MethodCall ctx f args) n = .ok (code, n')) (hc : CodeAt mem ρ p code q) :
    ∃ info, env.function f = .ok info ∧
      (if ctx.isTypeName then
        ∃ r, InvokeAt mem (.fixed f) q p r ∧ ParamsAt env mem args info.params r q
      else
        ∃ r r', mem p = some (.Context q) ∧ ExprAt env mem ctx (p + 3) r ∧
          InvokeAt mem (calleeOf info ctx.isSuper f) q r r' ∧ ParamsAt env mem args info.params r' q) := by
  obtain ⟨info, hf, hl, ⟨ht, hs, d, h1, rfl⟩ | ⟨ht, hs, recv, n1, d, h0, h1, rfl⟩⟩ := asm_method h
  · obtain ⟨r, h2, h3⟩ := callInstrs_at hl h1 hc
    refine ⟨info, hf, ?_⟩
    rw [if_pos ht]
    exact ⟨r, by simpa [calleeOf] using h2, h3⟩
  · refine ⟨info, hf, ?_⟩
    rw [if_neg (by simp [ht])]
    rw [CodeAt.cons rfl, CodeAt.append] at hc
    obtain ⟨hm, r, hr, hc⟩ := hc
    rw [CodeAt.append] at hc
    obtain ⟨r2, hc, he⟩ := hc
    rw [CodeAt.target, CodeAt.nil] at he
    obtain ⟨he, rfl⟩ := he
    obtain ⟨r3, h2, h3⟩ := callInstrs_at hl h1 hc
    exact ⟨r, r3, by rw [← he]; exact hm, ⟨ρ, _, recv, _, h0, hr⟩, h2, h3⟩

/-- C29: more arguments than parameters are rejected. -/
theorem C29_surplus_arguments_rejected {f : Idx} {tys : List TypeId} {ctx : TypedExpr} {args : List TypedExpr}
    {info : FnInfo} (hf : env.function f = .ok info) (hl : info.params.length < args.length) (n : Nat) :
    (∃ e, asm env x (.Call (Callable.Function f) tys args) n = .error e) ∧
    (∃ e, asm env x (.MethodCall ctx f args) n = .error e) := by
  constructor
  · cases h : asm env x (.Call (Callable.Function f) tys args) n with
    | error e => exact ⟨e, rfl⟩
    | ok r =>
      obtain ⟨info', _, hf', hl', _⟩ := asm_call_function (code := r.1) (n' := r.2) h
      rw [hf] at hf'; cases hf'; omega
  · cases h : asm env x (.MethodCall ctx f args) n with
    | error e => exact ⟨e, rfl⟩
    | ok r =>
      obtain ⟨info', hf', hl', _⟩ := asm_method (code := r.1) (n' := r.2) h
      rw [hf] at hf'; cases hf'; omega

theorem paramsAt_length {args : List TypedExpr} {ps : List ParameterFlags} (h : ParamsAt env mem args ps p q) :
    args.length ≤ ps.length := by
  induction h with
  | done _ => exact Nat.le_refl _
  | omitted _ _ ih => simp
  | skipped _ _ _ _ ih => simp only [List.length_cons]; omega
  | given _ _ _ ih => simp only [List.length_cons]; omega

theorem evalArgs_plain {I : Interp V S A} {callee : Callee} {recv : Option V} {val : TypedExpr → V} {s : S} :
    ∀ {args : List TypedExpr} {ps : List ParameterFlags} {acc : List (Option V)}, args.length ≤ ps.length →
    (∀ fl ∈ ps, flag ParameterFlags.isShortCircuitBit fl = false) → (∀ a ∈ args, evalE env I a s = .ok (val a, s)) →
    evalArgs env I callee recv args ps acc s =
      .ok (acc ++ args.map (some ∘ val) ++ List.replicate (ps.length - args.length) none, s)
  | [], ps, acc, _, _, _ => by simp [evalArgs]
  | _ :: _, [], acc, h, _, _ => by simp at h
  | a :: as, fl :: ps, acc, h, hp, hv => by
    have h1 := hp fl (List.mem_cons_self ..)
    rw [evalArgs, h1, hv a (List.mem_cons_self ..)]
    simp only [Bool.false_and, Bool.false_eq_true, if_false, Res.bind]
    rw [evalArgs_plain (by simpa using h) (fun f hf => hp f (List.mem_cons_of_mem _ hf))
      fun b hb => hv b (List.mem_cons_of_mem _ hb)]
    simp

/-- C29: running the code of a call of a function with plain parameters passes the values of the
arguments in order, and nothing for the omitted parameters. -/
theorem C29_call_receives_the_values {zero : Literal → Text} {P : PoolView} (ha : PoolAgrees env P zero)
    {I : Interp V S A} {f : Idx} {tys : List TypeId} {args : List TypedExpr} {info : FnInfo}
    (hv : Expr.areValues args = true) (hf : env.function f = .ok info)
    (h : asm env x (.Call (Callable.Function f) tys args) n = .ok (code, n')) (hc : CodeAt mem ρ p code q)
    (hp : ∀ fl ∈ info.params, flag ParameterFlags.isShortCircuitBit fl = false)
    {val : TypedExpr → V} {s : S} (hval : ∀ a ∈ args, evalE env I a s = .ok (val a, s)) :
    ∃ N, ∀ m, N ≤ m → vmExpr mem P I m none p s =
      some (match I.call (calleeOf info false f) none
          (args.map (fun a => some (val a)) ++ List.replicate (info.params.length - args.length) none) s with
        | .ok (v, s') => .ok (v, q, s')
        | .error a => .abort a) := by
  obtain ⟨h1, _⟩ := vmExpr_asm (I := I) (mem := mem) (ρ := ρ) ha (.Call (Callable.Function f) tys args) x n n'
    code (by simpa [Expr.isValue] using hv) h p q hc s
  obtain ⟨info', d, hf', hl, _⟩ := asm_call_function h
  rw [hf] at hf'; cases hf'
  have : evalE env I (.Call (Callable.Function f) tys args) s = Res.ofExcept (I.call (calleeOf info false f) none
      (args.map (fun a => some (val a)) ++ List.replicate (info.params.length - args.length) none) s) := by
    simp only [evalE, hf]
    rw [evalArgs_plain hl hp hval]
    rfl
  rw [this] at h1
  obtain ⟨N, hN⟩ := h1
  refine ⟨N, fun m hm => ?_⟩
  refine (hN m hm).trans ?_
  cases I.call (calleeOf info false f) none
      (args.map (fun a => some (val a)) ++ List.replicate (info.params.length - args.length) none) s <;> rfl

/-! ### C53: marks on references to temporaries -/

/-- A reference to a temporary: a script reference that is not `AsRef` of a place. -/
def TempRef (env : AsmEnv) (e : TypedExpr) : Prop :=
  (∃ t, env.typeOf e = .ok (.ScriptRef t)) ∧
    ∀ ty tys a as, e = .Call (Callable.Intrinsic .AsRef ty) tys (a :: as) → a.isPrvalue = true

theorem isRvalueRef_iff {e : TypedExpr} : env.isRvalueRef e = true ↔ TempRef env e := by
  unfold AsmEnv.isRvalueRef TempRef
  split
  · rename_i t ht
    rw [ht]
    split
    · rename_i ty tys a as
      constructor
      · intro h; exact ⟨⟨t, rfl⟩, fun _ _ _ _ he => by cases he; exact h⟩
      · intro h; exact h.2 _ _ _ _ rfl
    · rename_i hn
      constructor
      · intro _; exact ⟨⟨t, rfl⟩, fun ty tys a as he => absurd he (hn ty tys a as)⟩
      · intro _; rfl
  · rename_i hn
    constructor
    · intro h; cases h
    · rintro ⟨⟨t, ht⟩, _⟩; exact absurd ht (hn t)

theorem invokeFlags_bit {k : Nat} (hk : k < 16) : ∀ (args : List TypedExpr) (n : Nat) (acc : BitVec 16),
    n + args.length ≤ 16 → ((env.invokeFlags args n acc).getLsbD k = true ↔
      (acc.getLsbD k = true ∨ ∃ j a, args[j]? = some a ∧ n + j = k ∧ env.isRvalueRef a = true))
  | [], n, acc, _ => by simp [AsmEnv.invokeFlags]
  | a :: as, n, acc, h => by
    simp only [List.length_cons] at h
    rw [AsmEnv.invokeFlags, invokeFlags_bit hk as (n + 1) _ (by omega)]
    have hn : n % 16 = n := Nat.mod_eq_of_lt (by omega)
    have hacc : ((if env.isRvalueRef a = true then acc ||| BitVec.twoPow 16 (n % 16) else acc).getLsbD k = true) ↔
        (acc.getLsbD k = true ∨ (env.isRvalueRef a = true ∧ n = k)) := by
      split
      · rename_i hr
        rw [hn, BitVec.getLsbD_or, BitVec.getLsbD_twoPow]
        have : n < 16 := by omega
        simp [hr, this]
      · rename_i hr; simp [hr]
    rw [hacc]
    constructor
    · rintro ((h | ⟨h1, h2⟩) | ⟨j, b, h1, h2, h3⟩)
      · exact .inl h
      · exact .inr ⟨0, a, rfl, h2, h1⟩
      · exact .inr ⟨j + 1, b, h1, by omega, h3⟩
    · rintro (h | ⟨j, b, h1, h2, h3⟩)
      · exact .inl (.inl h)
      · cases j with
        | zero => cases h1; exact .inl (.inr ⟨h3, h2⟩)
        | succ j => exact .inr ⟨j, b, h1, by omega, h3⟩

/-- The marks of an invocation. -/
def invokeMarks : Instr L → Option (BitVec 16)
  | .InvokeStatic _ _ _ fl | .InvokeVirtual _ _ _ fl => some fl
  | _ => none

/-- C53, for calls with at most sixteen arguments: the invocation marks an argument exactly when it is a
reference to a temporary. -/
theorem C53_marks_references_to_temporaries_partial {f : Idx} {tys : List TypeId} {args : List TypedExpr}
    (h : asm env x (.Call (Callable.Function f) tys args) n = .ok (code, n')) (hl : args.length ≤ 16) :
    ∃ i rest fl, code = i :: rest ∧ invokeMarks i = some fl ∧
      ∀ k, fl.getLsbD k = true ↔ ∃ a, args[k]? = some a ∧ TempRef env a := by
  obtain ⟨info, d, _, _, _, rfl⟩ := asm_call_function h
  refine ⟨_, _, env.invokeFlags args 0 0, rfl, by unfold AsmEnv.invokeInstr; split <;> rfl, fun k => ?_⟩
  by_cases hk : k < 16
  · rw [invokeFlags_bit hk args 0 0 (by omega)]
    have h0 : (0 : BitVec 16).getLsbD k ≠ true := by simp
    simp only [h0, Bool.false_eq_true, false_or, isRvalueRef_iff]
    constructor
    · rintro ⟨j, a, h1, h2, h3⟩
      obtain rfl : j = k := by omega
      exact ⟨a, h1, h3⟩
    · rintro ⟨a, h1, h3⟩; exact ⟨k, a, h1, by omega, h3⟩
  · rw [BitVec.getLsbD_of_ge _ _ (by omega), List.getElem?_eq_none (by omega)]
    simp

end

namespace VmDemo

/-- A function with three parameters, the second short-circuit, the third optional. -/
def callEnv : AsmEnv := { env with
  typeOf := fun e =>
    match e with
    | .Null => .ok (.ScriptRef (.Prim 1))
    | _ => .ok (.Prim 1)
  function := fun f =>
    if f = 20 then .ok ⟨0, List.replicate 20 0, 0⟩ else .ok ⟨0, [0, BitVec.twoPow 8 2, 0], 3⟩ }

def call3 : TypedExpr := .Call (Callable.Function 4) [] [num 1, .Null]

/-- Its code: a virtual call, the first argument, the second one behind a skip, a placeholder. -/
example : (asm callEnv none call3 0).toOption.map (·.1) = some
    [.InvokeVirtual 0 0 3 2, .I32Const 1, .Skip 1, .Null, .Target 1, .Nop, .ParamEnd, .Target 0] := rfl

/-- The hypotheses on memory hold for the compiled body. -/
example : ∃ out ρ q, fromBody callEnv [call3] = .ok out ∧
    CodeAt (fetch out) ρ 0 ((asmSeq callEnv none [call3] 0).toOption.getD ([], 0)).1 q := by
  obtain ⟨out, ρ, q, h1, h2, _⟩ := fromBody_codeAt (env := callEnv) (body := [call3])
    (code := ((asmSeq callEnv none [call3] 0).toOption.getD ([], 0)).1) (n := 2) rfl (by unfold Fits16; decide)
  exact ⟨out, ρ, q, h1, h2⟩

/-- A call with 17 arguments, of which only the last is a reference to a temporary. -/
def call17 : TypedExpr := .Call (Callable.Function 20) [] (List.replicate 16 (num 1) ++ [.Null])

end VmDemo

open VmDemo in
/-- C53 fails for more than sixteen arguments: the mark of the seventeenth lands on the first. -/
theorem C53_seventeenth_argument_counterexample :
    ∃ code n' i rest fl, asm callEnv none call17 0 = .ok (code, n') ∧ code = i :: rest ∧ invokeMarks i = some fl ∧
      fl.getLsbD 0 = true ∧ ¬ TempRef callEnv (num 1) :=
  ⟨_, _, _, _, 1, rfl, rfl, rfl, rfl, fun h => by obtain ⟨⟨t, ht⟩, _⟩ := h; cases ht⟩

end Redscript
