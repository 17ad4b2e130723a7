import Verif.Assembler.Model

/-!
# What a successful assembly consists of

One lemma per form of expression.
-/

namespace Redscript

theorem wrap_ok {pre post : List (Instr Nat)} {r : AsmRes} {code : List (Instr Nat)} {n : Nat}
    (h : r.wrap pre post = .ok (code, n)) : ∃ c, r = .ok (c, n) ∧ code = pre ++ c ++ post := by
  unfold AsmRes.wrap at h
  split at h
  · cases h
  · simp only [Except.ok.injEq, Prod.mk.injEq] at h
    obtain ⟨rfl, rfl⟩ := h
    exact ⟨_, rfl, rfl⟩

theorem andThen_ok {r : AsmRes} {k : Nat → AsmRes} {code : List (Instr Nat)} {n : Nat}
    (h : r.andThen k = .ok (code, n)) :
    ∃ c m d, r = .ok (c, m) ∧ k m = .ok (d, n) ∧ code = c ++ d := by
  unfold AsmRes.andThen at h
  split at h
  · cases h
  · split at h
    · cases h
    · rename_i hk
      simp only [Except.ok.injEq, Prod.mk.injEq] at h
      obtain ⟨rfl, rfl⟩ := h
      exact ⟨_, _, _, rfl, hk, rfl⟩

theorem bindOk {r : Except AsmErr α} {k : α → Except AsmErr β} {b : β} (h : (r >>= k) = .ok b) :
    ∃ a, r = .ok a ∧ k a = .ok b := by
  cases r with
  | error e => cases h
  | ok a => exact ⟨a, rfl, h⟩

section
variable {env : AsmEnv} {x : Option Nat} {n n' : Nat} {code : List (Instr Nat)}

theorem asm_ident {r : Reference} (h : asm env x (.Ident r) n = .ok (code, n')) :
    n' = n ∧ ((∃ l, r = Reference.Value (.Local l) ∧ code = [.Local l]) ∨
      ∃ p, r = Reference.Value (.Parameter p) ∧ code = [.Param p]) := by
  simp only [asm] at h
  split at h
  · cases h; exact ⟨rfl, .inl ⟨_, rfl, rfl⟩⟩
  · cases h; exact ⟨rfl, .inr ⟨_, rfl, rfl⟩⟩
  · cases h

theorem asm_constant {c : Constant} (h : asm env x (.Constant c) n = .ok (code, n')) :
    ∃ i, env.constInstr c = .ok i ∧ n' = n ∧ code = [i] := by
  simp only [asm] at h
  cases hi : env.constInstr c with
  | error e => rw [hi] at h; cases h
  | ok i => rw [hi] at h; cases h; exact ⟨_, rfl, rfl, rfl⟩

theorem asm_null (h : asm env x .Null n = .ok (code, n')) : n' = n ∧ code = [.Null] := by
  simp only [asm] at h
  cases h; exact ⟨rfl, rfl⟩

theorem asm_this (h : asm env x .This n = .ok (code, n')) : n' = n ∧ code = [.This] := by
  simp only [asm] at h
  cases h; exact ⟨rfl, rfl⟩

theorem asm_super (h : asm env x .Super n = .ok (code, n')) : n' = n ∧ code = [.This] := by
  simp only [asm] at h
  cases h; exact ⟨rfl, rfl⟩

theorem asm_cast {ty : TypeId} {e : TypedExpr} (h : asm env x (.Cast ty e) n = .ok (code, n')) :
    ∃ c d, ty = .Class c ∧ asm env none e n = .ok (d, n') ∧ code = .DynamicCast c 0 :: d := by
  simp only [asm] at h
  split at h
  · obtain ⟨d, h1, rfl⟩ := wrap_ok h
    exact ⟨_, d, rfl, h1, by simp⟩
  · cases h

theorem asm_declare_some {l : Idx} {ty : Option TypeId} {v : TypedExpr}
    (h : asm env x (.Declare l ty (some v)) n = .ok (code, n')) :
    ∃ d, asm env none v n = .ok (d, n') ∧ code = .Assign :: .Local l :: d := by
  simp only [asm] at h
  obtain ⟨d, h1, rfl⟩ := wrap_ok h
  exact ⟨d, h1, by simp⟩

theorem asm_declare_none {l : Idx} {ty : Option TypeId}
    (h : asm env x (.Declare l ty none) n = .ok (code, n')) :
    ∃ t, ty = some t ∧ n' = n ∧ env.initializer l t = .ok code := by
  cases ty with
  | none => simp only [asm] at h; cases h
  | some t =>
    simp only [asm] at h
    cases hi : env.initializer l t with
    | error e => rw [hi] at h; cases h
    | ok c => rw [hi] at h; cases h; exact ⟨t, rfl, rfl, hi⟩

theorem asm_assign {lhs rhs : TypedExpr} (h : asm env x (.Assign lhs rhs) n = .ok (code, n')) :
    ∃ a m b, asm env none lhs n = .ok (a, m) ∧ asm env none rhs m = .ok (b, n') ∧ code = .Assign :: (a ++ b) := by
  simp only [asm] at h
  obtain ⟨d, h0, rfl⟩ := wrap_ok h
  obtain ⟨a, m, b, h1, h2, rfl⟩ := andThen_ok h0
  exact ⟨a, m, b, h1, h2, by simp⟩

theorem asm_elem {e i : TypedExpr} (h : asm env x (.ArrayElem e i) n = .ok (code, n')) :
    ∃ instr a m b, env.elemInstr e = .ok instr ∧ asm env none e n = .ok (a, m) ∧
      asm env none i m = .ok (b, n') ∧ code = instr :: (a ++ b) := by
  simp only [asm] at h
  split at h
  · cases h
  · rename_i instr hi
    obtain ⟨d, h0, rfl⟩ := wrap_ok h
    obtain ⟨a, m, b, h1, h2, rfl⟩ := andThen_ok h0
    exact ⟨_, a, m, b, hi, h1, h2, by simp⟩

theorem asm_new {ty : TypeId} {args : List TypedExpr} (h : asm env x (.New ty args) n = .ok (code, n')) :
    (∃ c, ty = .Class c ∧ n' = n ∧ code = [.New c]) ∨
    ∃ c d, ty = .Struct c ∧ asmSeq env none args n = .ok (d, n') ∧
      code = .Construct (BitVec.ofNat 8 args.length) c :: d := by
  simp only [asm] at h
  split at h
  · cases h; exact .inl ⟨_, rfl, rfl, rfl⟩
  · obtain ⟨d, h1, rfl⟩ := wrap_ok h
    exact .inr ⟨_, d, rfl, h1, by simp⟩
  · cases h

theorem asm_return_some {e : TypedExpr} (h : asm env x (.Return (some e)) n = .ok (code, n')) :
    ∃ d, asm env none e n = .ok (d, n') ∧ code = .Return :: d := by
  simp only [asm] at h
  obtain ⟨d, h1, rfl⟩ := wrap_ok h
  exact ⟨d, h1, by simp⟩

theorem asm_return_none (h : asm env x (.Return none) n = .ok (code, n')) :
    n' = n ∧ code = [.Return, .Nop] := by
  simp only [asm] at h
  cases h; exact ⟨rfl, rfl⟩

theorem asm_seq {es : List TypedExpr} (h : asm env x (.Seq es) n = .ok (code, n')) :
    asmSeq env x es n = .ok (code, n') := by
  simpa only [asm] using h

theorem asm_switch {e : TypedExpr} {cases_ : List (TypedExpr × List TypedExpr)}
    {dflt : Option (List TypedExpr)} (h : asm env x (.Switch e cases_ dflt) n = .ok (code, n')) :
    ∃ ty tyIdx subject n1 body next n2 tail, env.typeOf e = .ok ty ∧ env.typeIdx ty = .ok tyIdx ∧
      asm env none e (n + 3) = .ok (subject, n1) ∧
      asmCases env (n + 2) none cases_ (n + 1) n1 = .ok (body, next, n2) ∧
      asmBlockOpt env (n + 2) dflt n2 = .ok (tail, n') ∧
      code = .Switch tyIdx n :: (subject ++ .Target n :: (body ++ .Target next :: (tail ++ [.Target (n + 2)]))) := by
  simp only [asm] at h
  obtain ⟨ty, h1, h⟩ := bindOk h
  obtain ⟨tyIdx, h2, h⟩ := bindOk h
  obtain ⟨⟨subject, n1⟩, h3, h⟩ := bindOk h
  obtain ⟨⟨body, next, n2⟩, h4, h⟩ := bindOk h
  obtain ⟨⟨tail, n3⟩, h5, h⟩ := bindOk h
  cases h
  exact ⟨_, _, _, _, _, _, _, _, h1, h2, h3, h4, h5, rfl⟩

theorem asm_if_none {c : TypedExpr} {t : List TypedExpr} (h : asm env x (.If c t none) n = .ok (code, n')) :
    ∃ cond n1 then_, asm env none c (n + 1) = .ok (cond, n1) ∧ asmSeq env x t n1 = .ok (then_, n') ∧
      code = .JumpIfFalse n :: (cond ++ (then_ ++ [.Target n])) := by
  simp only [asm] at h
  obtain ⟨⟨cond, n1⟩, h1, h⟩ := bindOk h
  obtain ⟨⟨then_, n2⟩, h2, h⟩ := bindOk h
  simp only [asmElse] at h
  cases h
  exact ⟨_, _, _, h1, h2, rfl⟩

theorem asm_if_some {c : TypedExpr} {t e : List TypedExpr} (h : asm env x (.If c t (some e)) n = .ok (code, n')) :
    ∃ cond n1 then_ n2 else_, asm env none c (n + 1) = .ok (cond, n1) ∧ asmSeq env x t n1 = .ok (then_, n2) ∧
      asmSeq env x e (n2 + 1) = .ok (else_, n') ∧
      code = .JumpIfFalse n :: (cond ++ (then_ ++ .Jump n2 :: .Target n :: (else_ ++ [.Target n2]))) := by
  simp only [asm] at h
  obtain ⟨⟨cond, n1⟩, h1, h⟩ := bindOk h
  obtain ⟨⟨then_, n2⟩, h2, h⟩ := bindOk h
  simp only [asmElse] at h
  obtain ⟨d, h3, rfl⟩ := wrap_ok h
  exact ⟨_, _, _, _, _, h1, h2, h3, by simp⟩

theorem asm_conditional {c t e : TypedExpr} (h : asm env x (.Conditional c t e) n = .ok (code, n')) :
    ∃ cond n1 true_ n2 false_, asm env none c (n + 2) = .ok (cond, n1) ∧ asm env none t n1 = .ok (true_, n2) ∧
      asm env none e n2 = .ok (false_, n') ∧
      code = .Conditional n (n + 1) :: (cond ++ (true_ ++ .Target n :: (false_ ++ [.Target (n + 1)]))) := by
  simp only [asm] at h
  obtain ⟨⟨cond, n1⟩, h1, h⟩ := bindOk h
  obtain ⟨⟨true_, n2⟩, h2, h⟩ := bindOk h
  obtain ⟨⟨false_, n3⟩, h3, h⟩ := bindOk h
  cases h
  exact ⟨_, _, _, _, _, h1, h2, h3, rfl⟩

theorem asm_while {c : TypedExpr} {b : List TypedExpr} (h : asm env x (.While c b) n = .ok (code, n')) :
    ∃ cond n1 body, asm env none c (n + 2) = .ok (cond, n1) ∧ asmSeq env (some n) b n1 = .ok (body, n') ∧
      code = .Target (n + 1) :: .JumpIfFalse n :: (cond ++ (body ++ [.Jump (n + 1), .Target n])) := by
  simp only [asm] at h
  obtain ⟨⟨cond, n1⟩, h1, h⟩ := bindOk h
  obtain ⟨⟨body, n2⟩, h2, h⟩ := bindOk h
  cases h
  exact ⟨_, _, _, h1, h2, rfl⟩

theorem asm_member {e : TypedExpr} {m : MemberRef} (h : asm env x (.Member e m) n = .ok (code, n')) :
    (∃ f d, m = .ClassField f ∧ asm env none e (n + 1) = .ok (d, n') ∧
      code = .Context n :: (d ++ [.ObjectField f, .Target n])) ∨
    (∃ f d, m = .StructField f ∧ asm env none e n = .ok (d, n') ∧ code = .StructField f :: d) ∨
    ∃ a b, m = .EnumMember a b ∧ n' = n ∧ code = [.EnumConst a b] := by
  cases m <;> simp only [asm] at h
  · obtain ⟨d, h1, rfl⟩ := wrap_ok h
    exact .inl ⟨_, d, rfl, h1, by simp⟩
  · obtain ⟨d, h1, rfl⟩ := wrap_ok h
    exact .inr (.inl ⟨_, d, rfl, h1, by simp⟩)
  · cases h; exact .inr (.inr ⟨_, _, rfl, rfl, rfl⟩)

/-- The code of a call: the instruction, the arguments, omitted parameters and the end. -/
def callInstrs (env : AsmEnv) (info : FnInfo) (forceStatic : Bool) (exit : Nat) (f : Idx) (args : List TypedExpr)
    (d : List (Instr Nat)) : List (Instr Nat) :=
  env.invokeInstr info forceStatic exit f args ::
    (d ++ (List.replicate (info.params.length - args.length) .Nop ++ [.ParamEnd, .Target exit]))

theorem callCode_ok {info : FnInfo} {b : Bool} {l : Nat} {f : Idx} {args : List TypedExpr} {d c : List (Instr Nat)}
    (h : env.callCode info b l f args d = .ok c) :
    args.length ≤ info.params.length ∧ c = callInstrs env info b l f args d := by
  unfold AsmEnv.callCode at h
  split at h
  · cases h
  · cases h
    exact ⟨by omega, rfl⟩

theorem asm_call_function {f : Idx} {tys : List TypeId} {args : List TypedExpr}
    (h : asm env x (.Call (Callable.Function f) tys args) n = .ok (code, n')) :
    ∃ info d, env.function f = .ok info ∧ args.length ≤ info.params.length ∧
      asmArgs env args info.params (n + 1) = .ok (d, n') ∧ code = callInstrs env info false n f args d := by
  simp only [asm] at h
  obtain ⟨info, h1, h⟩ := bindOk h
  obtain ⟨⟨d, n1⟩, h2, h⟩ := bindOk h
  obtain ⟨c, h3, h⟩ := bindOk h
  cases h
  obtain ⟨hl, rfl⟩ := callCode_ok h3
  exact ⟨_, d, h1, hl, h2, rfl⟩

theorem asm_call_intrinsic {op : IntrinsicOp} {ty : TypeId} {tys : List TypeId} {args : List TypedExpr}
    (h : asm env x (.Call (Callable.Intrinsic op ty) tys args) n = .ok (code, n')) :
    ∃ instr d, env.intrinsicInstr op args ty = .ok instr ∧ asmSeq env none args n = .ok (d, n') ∧
      code = instr :: d := by
  simp only [asm] at h
  obtain ⟨instr, h1, h⟩ := bindOk h
  obtain ⟨d, h3, rfl⟩ := wrap_ok h
  exact ⟨_, d, h1, h3, by simp⟩

theorem asm_method {ctx : TypedExpr} {f : Idx} {args : List TypedExpr}
    (h : asm env x (.MethodCall ctx f args) n = .ok (code, n')) :
    ∃ info, env.function f = .ok info ∧ args.length ≤ info.params.length ∧
      ((ctx.isTypeName = true ∧ flag FunctionFlags.isStaticBit info.flags = true ∧
        ∃ d, asmArgs env args info.params (n + 1) = .ok (d, n') ∧ code = callInstrs env info true n f args d) ∨
      (ctx.isTypeName = false ∧ flag FunctionFlags.isStaticBit info.flags = false ∧
        ∃ recv n1 d, asm env none ctx (n + 1) = .ok (recv, n1) ∧
          asmArgs env args info.params (n1 + 1) = .ok (d, n') ∧
          code = .Context n :: (recv ++ (callInstrs env info ctx.isSuper n1 f args d ++ [.Target n])))) := by
  simp only [asm] at h
  obtain ⟨info, hf, h⟩ := bindOk h
  refine ⟨info, hf, ?_⟩
  split at h
  · rename_i ht
    split at h
    · rename_i hs
      obtain ⟨⟨d, n1⟩, h2, h⟩ := bindOk h
      obtain ⟨c, h3, h⟩ := bindOk h
      cases h
      obtain ⟨hl, rfl⟩ := callCode_ok h3
      exact ⟨hl, .inl ⟨ht, hs, d, h2, rfl⟩⟩
    · cases h
  · rename_i ht
    split at h
    · cases h
    · rename_i hs
      obtain ⟨⟨recv, n1⟩, h1, h⟩ := bindOk h
      obtain ⟨⟨d, n2⟩, h2, h⟩ := bindOk h
      obtain ⟨c, h3, h⟩ := bindOk h
      cases h
      obtain ⟨hl, rfl⟩ := callCode_ok h3
      exact ⟨hl, .inr ⟨by simpa using ht, by simpa using hs, _, _, d, h1, h2, rfl⟩⟩

theorem asm_break (h : asm env x .Break n = .ok (code, n')) : ∃ l, x = some l ∧ n' = n ∧ code = [.Jump l] := by
  simp only [asm] at h
  split at h
  · cases h; exact ⟨_, rfl, rfl, rfl⟩
  · cases h

theorem asmSeq_nil (h : asmSeq env x [] n = .ok (code, n')) : n' = n ∧ code = [] := by
  simp only [asmSeq] at h
  cases h; exact ⟨rfl, rfl⟩

theorem asmSeq_cons {e : TypedExpr} {es : List TypedExpr} (h : asmSeq env x (e :: es) n = .ok (code, n')) :
    ∃ a m b, asm env x e n = .ok (a, m) ∧ asmSeq env x es m = .ok (b, n') ∧ code = a ++ b := by
  simp only [asmSeq] at h
  exact andThen_ok h

theorem asmArgs_nil {ps : List ParameterFlags} (h : asmArgs env [] ps n = .ok (code, n')) :
    n' = n ∧ code = [] := by
  simp only [asmArgs] at h
  cases h; exact ⟨rfl, rfl⟩

theorem asmArgs_cons {a : TypedExpr} {as : List TypedExpr} {p : ParameterFlags} {ps : List ParameterFlags}
    (h : asmArgs env (a :: as) (p :: ps) n = .ok (code, n')) :
    (flag ParameterFlags.isShortCircuitBit p = true ∧ ∃ c m d, asm env none a (n + 1) = .ok (c, m) ∧
      asmArgs env as ps m = .ok (d, n') ∧ code = .Skip n :: (c ++ .Target n :: d)) ∨
    (flag ParameterFlags.isShortCircuitBit p = false ∧ ∃ c m d, asm env none a n = .ok (c, m) ∧
      asmArgs env as ps m = .ok (d, n') ∧ code = c ++ d) := by
  simp only [asmArgs] at h
  split at h
  · rename_i hp
    obtain ⟨c, m, d, h0, h2, rfl⟩ := andThen_ok h
    obtain ⟨c, h1, rfl⟩ := wrap_ok h0
    exact .inl ⟨hp, c, m, d, h1, h2, by simp⟩
  · rename_i hp
    exact .inr ⟨by simpa using hp, andThen_ok h⟩

theorem asmArgs_surplus {a : TypedExpr} {as : List TypedExpr}
    (h : asmArgs env (a :: as) [] n = .ok (code, n')) : n' = n ∧ code = [] := by
  simp only [asmArgs] at h
  cases h; exact ⟨rfl, rfl⟩

theorem asmCases_nil {exit : Nat} {pend : Option Nat} {next next' : Nat}
    (h : asmCases env exit pend [] next n = .ok (code, next', n')) : n' = n ∧ next' = next ∧ code = [] := by
  simp only [asmCases] at h
  cases h; exact ⟨rfl, rfl, rfl⟩

/-- The labels of a case: of its body and of the next case. -/
def caseLabels (pend : Option Nat) (n : Nat) : Nat × Nat :=
  match pend with
  | some l => (l, n)
  | none => (n, n + 1)

theorem asmCases_cons {exit : Nat} {pend : Option Nat} {next next' : Nat} {m : TypedExpr}
    {body : List TypedExpr} {cs : List (TypedExpr × List TypedExpr)}
    (h : asmCases env exit pend ((m, body) :: cs) next n = .ok (code, next', n')) :
    ∃ matcher n1, asm env none m ((caseLabels pend n).2 + 1) = .ok (matcher, n1) ∧
    ((Expr.allEmpty body = true ∧ ∃ rest,
      asmCases env exit (some (caseLabels pend n).1) cs (caseLabels pend n).2 n1 = .ok (rest, next', n') ∧
      code = .Target next :: .SwitchLabel (caseLabels pend n).2 (caseLabels pend n).1 :: (matcher ++ rest)) ∨
    (Expr.allEmpty body = false ∧ ∃ b n2 rest,
      asmSeq env (some exit) body n1 = .ok (b, n2) ∧
      asmCases env exit none cs (caseLabels pend n).2 n2 = .ok (rest, next', n') ∧
      code = .Target next :: .SwitchLabel (caseLabels pend n).2 (caseLabels pend n).1 ::
        (matcher ++ .Target (caseLabels pend n).1 :: (b ++ rest)))) := by
  have e1 : pend.getD n = (caseLabels pend n).1 := by cases pend <;> rfl
  have e2 : (if pend.isSome then n else n + 1) = (caseLabels pend n).2 := by cases pend <;> rfl
  simp only [asmCases, e1, e2] at h
  obtain ⟨⟨matcher, n1⟩, hm, h⟩ := bindOk h
  refine ⟨_, _, hm, ?_⟩
  simp only at h
  split at h
  · rename_i he
    obtain ⟨⟨rest, nx, n2⟩, hr, h⟩ := bindOk h
    cases h
    exact .inl ⟨he, _, hr, rfl⟩
  · rename_i he
    obtain ⟨⟨b, n2⟩, hb, h⟩ := bindOk h
    obtain ⟨⟨rest, nx, n3⟩, hr, h⟩ := bindOk h
    cases h
    exact .inr ⟨by simpa using he, _, _, _, hb, hr, rfl⟩

theorem asmBlockOpt_none {exit : Nat} (h : asmBlockOpt env exit none n = .ok (code, n')) :
    n' = n ∧ code = [] := by
  simp only [asmBlockOpt] at h
  cases h; exact ⟨rfl, rfl⟩

theorem asmBlockOpt_some {exit : Nat} {b : List TypedExpr} (h : asmBlockOpt env exit (some b) n = .ok (code, n')) :
    ∃ d, asmSeq env (some exit) b n = .ok (d, n') ∧ code = .SwitchDefault :: d := by
  simp only [asmBlockOpt] at h
  obtain ⟨d, h1, rfl⟩ := wrap_ok h
  exact ⟨d, h1, by simp⟩

end

end Redscript
