import Verif.Vm.Determinism

/-!
# Compiled bodies behave like the source (C26, C27, C28)
-/

namespace Redscript

/-- How a run of a body ends, for each way its statements can end. A body cannot end with a break. -/
def finalOf {V S A : Type} : Ending V S A → Option (Final V S A)
  | .normal s => some (.ended s)
  | .returned v s => some (.returned v s)
  | .aborted a => some (.aborted a)
  | .broke _ => none

mutual
/-- A break that is not inside of a loop or switch. -/
def Expr.strayBreak : TypedExpr → Bool
  | .Break => true
  | .Seq es => Expr.anyStrayBreak es
  | .If _ t e => Expr.anyStrayBreak t || Expr.optStrayBreak e
  | _ => false
/-- One of the statements has a stray break. -/
def Expr.anyStrayBreak : List TypedExpr → Bool
  | [] => false
  | e :: es => e.strayBreak || Expr.anyStrayBreak es
/-- An optional block has a stray break. -/
def Expr.optStrayBreak : Option (List TypedExpr) → Bool
  | none => false
  | some es => Expr.anyStrayBreak es
end

/-! ### The code of a body -/

theorem sum_real (code : List (Instr Nat)) :
    ((realInstrs code).map fun i => i.size.toNat).sum = (code.map fun i => i.size.toNat).sum := by
  induction code with
  | nil => rfl
  | cons i is ih =>
    unfold realInstrs at *
    by_cases h : i.isTarget = true
    · rw [List.filter_cons_of_neg (by simp [h]), ih]
      obtain ⟨l, rfl⟩ := (isTarget_iff i).1 h
      simp [Instr.size]
    · rw [List.filter_cons_of_pos (by simpa using h)]
      simp only [List.map_cons, List.sum_cons, ih]

theorem fromBody_inv {env : AsmEnv} {body : List TypedExpr} {out : List (Instr Offset)}
    (h : fromBody env body = .ok out) (hf : Fits16 out) :
    ∃ code n, asmSeq env none body 0 = .ok (code, n) ∧ Fits16 (code ++ [.Nop]) := by
  unfold fromBody at h
  split at h
  · cases h
  · rename_i code n ha
    refine ⟨code, n, ha, ?_⟩
    have hl := asmSeq_labels env none body _ _ _ ha
    have hpl : placed (code ++ [.Nop]) = placed code := by simp [placed_append, placed]
    obtain ⟨locs, h1, _, _⟩ := intoCode_eq n (code ++ [.Nop]) (by
      intro i hi l hll
      rw [List.mem_append, List.mem_singleton] at hi
      rcases hi with hi | rfl
      · rcases hl.used i hi l hll with h | h
        · exact h
        · cases h
      · cases hll) (placed_unique _ (by rw [hpl]; exact hl.nodup))
    rw [h1] at h
    cases h
    have := collect_map_size 0 (realInstrs (code ++ [.Nop])) fun loc l => Location.relative (locs[l]?.getD 0) loc
    unfold Fits16 at hf ⊢
    rw [← sum_real]
    have h2 := congrArg (fun l => (l.map BitVec.toNat).sum) this
    simp only [List.map_map] at h2
    simp only [List.map_map] at hf
    exact Nat.lt_of_le_of_lt (Nat.le_of_eq h2.symm) hf

mutual
theorem stray_rejected (env : AsmEnv) : ∀ (e : TypedExpr) (n : Nat) {r : List (Instr Nat) × Nat},
    asm env none e n = .ok r → e.strayBreak = false
  | .Break, n, r, h => by obtain ⟨l, hl, _⟩ := asm_break (code := r.1) (n' := r.2) h; cases hl
  | .Seq es, n, r, h => by
    simp only [Expr.strayBreak]
    exact strays_rejected env es n (asm_seq (code := r.1) (n' := r.2) h)
  | .If c t none, n, r, h => by
    obtain ⟨_, _, _, _, h2, _⟩ := asm_if_none (code := r.1) (n' := r.2) h
    simp [Expr.strayBreak, Expr.optStrayBreak, strays_rejected env t _ h2]
  | .If c t (some e), n, r, h => by
    obtain ⟨_, _, _, _, _, _, h2, h3, _⟩ := asm_if_some (code := r.1) (n' := r.2) h
    simp [Expr.strayBreak, Expr.optStrayBreak, strays_rejected env t _ h2, strays_rejected env e _ h3]
  | .Declare _ _ _, _, _, _ => rfl
  | .Return _, _, _, _ => rfl
  | .While _ _, _, _, _ => rfl
  | .Switch _ _ _, _, _, _ => rfl
  | .Ident _, _, _, _ => rfl
  | .Constant _, _, _, _ => rfl
  | .Null, _, _, _ => rfl
  | .This, _, _, _ => rfl
  | .Super, _, _, _ => rfl
  | .Cast _ _, _, _, _ => rfl
  | .Assign _ _, _, _, _ => rfl
  | .ArrayElem _ _, _, _, _ => rfl
  | .New _ _, _, _, _ => rfl
  | .Conditional _ _ _, _, _, _ => rfl
  | .Member _ _, _, _, _ => rfl
  | .Call _ _ _, _, _, _ => rfl
  | .MethodCall _ _ _, _, _, _ => rfl
  | .ArrayLit _ _, _, _, _ => rfl
  | .InterpolatedString _ _, _, _, _ => rfl
  | .ForIn _ _ _, _, _, _ => rfl
  | .BinOp _ _ _, _, _, _ => rfl
  | .UnOp _ _, _, _, _ => rfl
  | .Goto _, _, _, _ => rfl
  termination_by e => sizeOf e
theorem strays_rejected (env : AsmEnv) : ∀ (es : List TypedExpr) (n : Nat) {r : List (Instr Nat) × Nat},
    asmSeq env none es n = .ok r → Expr.anyStrayBreak es = false
  | [], _, _, _ => rfl
  | e :: es, n, r, h => by
    obtain ⟨_, _, _, h1, h2, _⟩ := asmSeq_cons (code := r.1) (n' := r.2) h
    simp [Expr.anyStrayBreak, stray_rejected env e _ h1, strays_rejected env es _ h2]
  termination_by es => sizeOf es
end

section
variable {V S A : Type} {env : AsmEnv} {zero : Literal → Text} {I : Interp V S A}

theorem Loop.not_broke {ev : S → Res A (V × S)} {B : S → Ending V S A → Prop} {s : S} {o : Ending V S A}
    (h : Loop I ev B s o) : ∀ s', o ≠ .broke s' := by
  induction h with
  | abort _ => intro _ h; cases h
  | done _ _ => intro _ h; cases h
  | next _ _ _ _ ih => exact ih
  | @leave _ _ _ o _ _ _ _ => intro s' h; cases o <;> cases h

theorem exec_expr_not_broke {e : TypedExpr} (he : e.isExpression = true) {s : S} {o : Ending V S A}
    (h : Exec env zero I e s o) : ∀ s', o ≠ .broke s' := by
  rcases (exec_expr_iff he).1 h with ⟨_, _, _, rfl⟩ | ⟨_, _, rfl⟩ <;> (intro _ h; cases h)

mutual
theorem exec_not_broke : ∀ (e : TypedExpr) {s : S} {o : Ending V S A}, e.strayBreak = false → Exec env zero I e s o →
    ∀ s', o ≠ .broke s'
  | .Seq es, s, o, hb, h => by
    simp only [Expr.strayBreak] at hb
    exact execAll_not_broke es hb (exec_seq_iff.1 h)
  | .If c t none, s, o, hb, h => by
    simp only [Expr.strayBreak, Bool.or_eq_false_iff] at hb
    rcases exec_if_iff.1 h with ⟨a, _, rfl⟩ | ⟨v, s', _, ⟨_, h⟩ | ⟨_, h⟩⟩
    · intro _ h; cases h
    · exact execAll_not_broke t hb.1 h
    · rw [Option.getD_none, execAll_nil_iff] at h; subst h; intro _ h; cases h
  | .If c t (some e), s, o, hb, h => by
    simp only [Expr.strayBreak, Expr.optStrayBreak, Bool.or_eq_false_iff] at hb
    rcases exec_if_iff.1 h with ⟨a, _, rfl⟩ | ⟨v, s', _, ⟨_, h⟩ | ⟨_, h⟩⟩
    · intro _ h; cases h
    · exact execAll_not_broke t hb.1 h
    · exact execAll_not_broke e hb.2 h
  | .While c b, s, o, hb, h => (exec_while_iff.1 h).not_broke
  | .Switch e cs d, s, o, hb, h => by
    cases h with
    | switchAbort _ => intro _ h; cases h
    | switchSelectAbort _ _ _ => intro _ h; cases h
    | @switch _ _ _ _ _ _ _ _ _ o _ _ _ _ => intro _ h; cases o <;> cases h
    | expr h _ => cases h
    | exprAbort h _ => cases h
  | .Break, s, o, hb, h => by simp [Expr.strayBreak] at hb
  | .Declare l ty (some v), s, o, hb, h => by
    cases h with
    | declareInit h =>
      rcases (exec_expr_iff rfl).1 h with ⟨_, _, _, rfl⟩ | ⟨_, _, rfl⟩ <;> (intro _ h; cases h)
    | expr h _ => cases h
    | exprAbort h _ => cases h
  | .Declare l ty none, s, o, hb, h => by
    cases h <;> first | (intro _ h; cases h; done) | (rename_i h _; cases h)
  | .Return e, s, o, hb, h => by
    cases h <;> first | (intro _ h; cases h; done) | (rename_i h _; cases h)
  | .Ident _, s, o, hb, h => exec_expr_not_broke rfl h
  | .Constant _, s, o, hb, h => exec_expr_not_broke rfl h
  | .Null, s, o, hb, h => exec_expr_not_broke rfl h
  | .This, s, o, hb, h => exec_expr_not_broke rfl h
  | .Super, s, o, hb, h => exec_expr_not_broke rfl h
  | .Cast _ _, s, o, hb, h => exec_expr_not_broke rfl h
  | .Assign _ _, s, o, hb, h => exec_expr_not_broke rfl h
  | .ArrayElem _ _, s, o, hb, h => exec_expr_not_broke rfl h
  | .New _ _, s, o, hb, h => exec_expr_not_broke rfl h
  | .Conditional _ _ _, s, o, hb, h => exec_expr_not_broke rfl h
  | .Member _ _, s, o, hb, h => exec_expr_not_broke rfl h
  | .Call _ _ _, s, o, hb, h => exec_expr_not_broke rfl h
  | .MethodCall _ _ _, s, o, hb, h => exec_expr_not_broke rfl h
  | .ArrayLit _ _, s, o, hb, h => by cases h <;> rename_i h _ <;> cases h
  | .InterpolatedString _ _, s, o, hb, h => by cases h <;> rename_i h _ <;> cases h
  | .ForIn _ _ _, s, o, hb, h => by cases h <;> rename_i h _ <;> cases h
  | .BinOp _ _ _, s, o, hb, h => by cases h <;> rename_i h _ <;> cases h
  | .UnOp _ _, s, o, hb, h => by cases h <;> rename_i h _ <;> cases h
  | .Goto _, s, o, hb, h => by cases h <;> rename_i h _ <;> cases h
  termination_by e => sizeOf e
theorem execAll_not_broke : ∀ (es : List TypedExpr) {s : S} {o : Ending V S A}, Expr.anyStrayBreak es = false →
    ExecAll env zero I es s o → ∀ s', o ≠ .broke s'
  | [], s, o, hb, h => by rw [execAll_nil_iff] at h; subst h; intro _ h; cases h
  | e :: es, s, o, hb, h => by
    simp only [Expr.anyStrayBreak, Bool.or_eq_false_iff] at hb
    rcases execAll_cons_iff.1 h with ⟨s', _, h⟩ | ⟨h, _⟩
    · exact execAll_not_broke es hb.2 h
    · exact exec_not_broke e hb.1 h
  termination_by es => sizeOf es
end

/-! ### C26 -/

/-- C26, for bodies whose switches stand where their code is right (`allSwitchesOk`; C28 shows that the
others are miscompiled): running the compiled code ends in exactly the way the source statements end, for
every interpretation of the operations, from every state. -/
theorem C26_compiled_body_runs_like_the_source_partial {P : PoolView} (ha : PoolAgrees env P zero)
    {body : List TypedExpr} {out : List (Instr Offset)} (hs : Expr.areStatements body = true)
    (hw : Expr.allSwitchesOk body = true) (h : fromBody env body = .ok out) (hf : Fits16 out)
    (I : Interp V S A) (s : S) (f : Final V S A) :
    (∃ n, runBody out P I n s = some f) ↔ ∃ o, ExecAll env zero I body s o ∧ finalOf o = some f := by
  obtain ⟨code, n, h1, h2⟩ := fromBody_inv h hf
  obtain ⟨out', ρ, q, h3, h4, h5, h6, _⟩ := fromBody_codeAt h1 h2
  rw [h] at h3
  cases h3
  have hnl : NotLabel (fetch out) q := fun i hi a b hk => by rw [h5] at hi; cases hi; cases hk
  have sim := seq_asm (I := I) ha body none 0 n code hs hw h1 0 q h4 fun _ => hnl
  have hend : ∀ n s, vmRun (fetch out) P I (n + 2) q s = some (.ended s) := by
    intro n s
    have hk : stmtKind (Instr.Nop : Instr Location) = .nop := rfl
    rw [vmRun, h5]
    simp only [hk]
    rw [show q + (Instr.Nop : Instr Location).size = q + 1 from rfl, vmRun, h6]
  constructor
  · rintro ⟨n, hn⟩
    obtain ⟨o, ho, hc⟩ := sim.bwd n s f hn
    refine ⟨o, ho, ?_⟩
    cases o with
    | normal s' =>
      have := vmRun_mono _ P I (Nat.le_add_right n 2) q s' f hc
      rw [hend] at this
      exact this
    | broke s' => obtain ⟨l, hl, _⟩ := hc; cases hl
    | returned v s' => have hc : f = _ := hc; rw [hc]; rfl
    | aborted a => have hc : f = _ := hc; rw [hc]; rfl
  · rintro ⟨o, ho, hfin⟩
    refine sim.fwd s o f 2 ho ?_
    cases o with
    | normal s' => cases hfin; exact hend 0 s'
    | broke s' => cases hfin
    | returned v s' => cases hfin; rfl
    | aborted a => cases hfin; rfl

/-- C26: the compiled code runs forever exactly when the source does. -/
theorem C26_runs_forever_like_the_source_partial {P : PoolView} (ha : PoolAgrees env P zero)
    {body : List TypedExpr} {out : List (Instr Offset)} (hs : Expr.areStatements body = true)
    (hw : Expr.allSwitchesOk body = true) (h : fromBody env body = .ok out) (hf : Fits16 out)
    (I : Interp V S A) (s : S) :
    (∀ n, runBody out P I n s = none) ↔ ∀ o, ¬ ExecAll env zero I body s o := by
  have key := C26_compiled_body_runs_like_the_source_partial ha hs hw h hf I s
  constructor
  · intro hn o ho
    obtain ⟨code, n, h1, _⟩ := fromBody_inv h hf
    have hb := execAll_not_broke body (strays_rejected env body 0 h1) ho
    have : ∃ f, finalOf o = some f := by
      cases o with
      | broke s' => exact absurd rfl (hb s')
      | normal s' => exact ⟨_, rfl⟩
      | returned v s' => exact ⟨_, rfl⟩
      | aborted a => exact ⟨_, rfl⟩
    obtain ⟨f, hf⟩ := this
    obtain ⟨n, h2⟩ := (key f).2 ⟨o, ho, hf⟩
    rw [hn] at h2
    cases h2
  · intro hn n
    cases hr : runBody out P I n s with
    | none => rfl
    | some f =>
      obtain ⟨o, ho, _⟩ := (key f).1 ⟨n, hr⟩
      exact absurd ho (hn o)

/-- C26: a body has at most one outcome, and so has its code. -/
theorem C26_outcome_unique {P : PoolView} {out : List (Instr Offset)} {s : S} {f f' : Final V S A} {n n' : Nat}
    (h : runBody out P I n s = some f) (h' : runBody out P I n' s = some f') : f = f' := by
  have h1 := vmRun_mono _ P I (Nat.le_max_left n n') 0 s f h
  have h2 := vmRun_mono _ P I (Nat.le_max_right n n') 0 s f' h'
  rw [h1] at h2
  exact Option.some.inj h2

/-! ### C27 -/

/-- C27: a break outside of all loops and switches is rejected. -/
theorem C27_stray_break_rejected {body : List TypedExpr} (hb : Expr.anyStrayBreak body = true) :
    ∃ e, fromBody env body = .error e := by
  cases h : fromBody env body with
  | error e => exact ⟨e, rfl⟩
  | ok out =>
    unfold fromBody at h
    split at h
    · cases h
    · rename_i code n ha
      rw [strays_rejected env body 0 ha] at hb
      cases hb

/-- Complete iterations of a loop lead from one state to another. -/
inductive Iterations (env : AsmEnv) (zero : Literal → Text) (I : Interp V S A) (c : TypedExpr) (b : List TypedExpr) :
    S → S → Prop
  | none {s : S} : Iterations env zero I c b s s
  | one {s s1 s2 s' : S} {v : V} : evalE env I c s = .ok (v, s1) → I.truth v s1 = true →
      ExecAll env zero I b s1 (.normal s2) → Iterations env zero I c b s2 s' → Iterations env zero I c b s s'

variable {mem : Location → Option (Instr Location)} {ρ : Nat → Location} {P : PoolView}

/-- C27: when the body of a loop breaks, in the first or a later iteration and within any blocks, the run
goes on at the first instruction behind the loop, in the state of the break. `mem` is a memory that holds
the code of the loop from `p` to `q`. -/
theorem C27_break_leaves_the_loop_partial (ha : PoolAgrees env P zero) {c : TypedExpr} {b : List TypedExpr}
    {x : Option Nat} {n n' : Nat} {code : List (Instr Nat)} {p q : Location}
    (hv : (Expr.While c b : TypedExpr).isStatement = true) (hw : (Expr.While c b : TypedExpr).switchesOk = true)
    (h : asm env x (.While c b) n = .ok (code, n')) (hc : CodeAt mem ρ p code q) {s s0 s1 s2 : S} {v : V}
    (hi : Iterations env zero I c b s s0) (he : evalE env I c s0 = .ok (v, s1)) (ht : I.truth v s1 = true)
    (hb : ExecAll env zero I b s1 (.broke s2)) (f : Final V S A) :
    (∃ m, vmRun mem P I m p s = some f) ↔ ∃ m, vmRun mem P I m q s2 = some f := by
  have hloop : Exec env zero I (.While c b) s (.normal s2) := by
    induction hi with
    | none => exact .whileLeave he ht hb fun _ h => by cases h
    | one h1 h2 h3 _ ih => exact .whileNext h1 h2 h3 (ih he)
  have sim := stmt_asm (I := I) (mem := mem) (ρ := ρ) ha (.While c b) x n n' code hv hw h p q hc
    (fun h => by simp [Expr.opens] at h)
  constructor
  · rintro ⟨m, hm⟩
    obtain ⟨o, ho, hn⟩ := sim.bwd m s f hm
    have := exec_unique _ ho hloop
    subst this
    exact ⟨m, hn⟩
  · rintro ⟨m, hm⟩
    exact sim.fwd s _ f m hloop hm

/-- C27: when the selected cases of a switch break, the run goes on at the first instruction behind the
switch. -/
theorem C27_break_leaves_the_switch_partial (ha : PoolAgrees env P zero) {e : TypedExpr}
    {cs rest : List (TypedExpr × List TypedExpr)} {d : Option (List TypedExpr)}
    {x : Option Nat} {n n' : Nat} {code : List (Instr Nat)} {p q : Location}
    (hv : (Expr.Switch e cs d : TypedExpr).isStatement = true)
    (hw : (Expr.Switch e cs d : TypedExpr).switchesOk = true) (ho : NotLabel mem q)
    (h : asm env x (.Switch e cs d) n = .ok (code, n')) (hc : CodeAt mem ρ p code q) {s s1 s2 s3 : S} {v : V}
    {ty : TypeId} (hty : env.typeOf e = .ok ty) (he : evalE env I e s = .ok (v, s1))
    (hsel : selectCase env I ty v cs s1 = .ok (rest, s2))
    (hb : ExecAll env zero I (rest.flatMap (·.2) ++ d.getD []) s2 (.broke s3)) (f : Final V S A) :
    (∃ m, vmRun mem P I m p s = some f) ↔ ∃ m, vmRun mem P I m q s3 = some f := by
  have hx : Exec env zero I (.Switch e cs d) s (.normal s3) := .switch hty he hsel hb
  have sim := stmt_asm (I := I) (mem := mem) (ρ := ρ) ha (.Switch e cs d) x n n' code hv hw h p q hc (fun _ => ho)
  constructor
  · rintro ⟨m, hm⟩
    obtain ⟨o, ho, hn⟩ := sim.bwd m s f hm
    have := exec_unique _ ho hx
    subst this
    exact ⟨m, hn⟩
  · rintro ⟨m, hm⟩
    exact sim.fwd s _ f m hx hm

/-! ### C28 -/

/-- How a run goes on behind a switch after its cases ended. -/
def GoesOn (mem : Location → Option (Instr Location)) (P : PoolView) (I : Interp V S A) (q : Location)
    (o : Ending V S A) (f : Final V S A) : Prop :=
  match o with
  | .normal s | .broke s => ∃ n, vmRun mem P I n q s = some f
  | .returned v s => f = .returned v s
  | .aborted a => f = .aborted a

/-- C28, where the last case is not empty and no case ends with a switch without default: the code of a
switch evaluates the value, compares it with the cases in order, runs the bodies from the first match on,
the default last, and goes on behind the switch. -/
theorem C28_switch_runs_the_selected_cases_partial (ha : PoolAgrees env P zero) {e : TypedExpr}
    {cs rest : List (TypedExpr × List TypedExpr)} {d : Option (List TypedExpr)}
    {x : Option Nat} {n n' : Nat} {code : List (Instr Nat)} {p q : Location}
    (hv : (Expr.Switch e cs d : TypedExpr).isStatement = true)
    (hw : (Expr.Switch e cs d : TypedExpr).switchesOk = true) (ho : NotLabel mem q)
    (h : asm env x (.Switch e cs d) n = .ok (code, n')) (hc : CodeAt mem ρ p code q) {s s1 s2 : S} {v : V}
    {ty : TypeId} (hty : env.typeOf e = .ok ty) (he : evalE env I e s = .ok (v, s1))
    (hsel : selectCase env I ty v cs s1 = .ok (rest, s2)) (f : Final V S A) :
    (∃ m, vmRun mem P I m p s = some f) ↔
      ∃ o, ExecAll env zero I (rest.flatMap (·.2) ++ d.getD []) s2 o ∧ GoesOn mem P I q o f := by
  have sim := stmt_asm (I := I) (mem := mem) (ρ := ρ) ha (.Switch e cs d) x n n' code hv hw h p q hc (fun _ => ho)
  constructor
  · rintro ⟨m, hm⟩
    obtain ⟨o, ho, hn⟩ := sim.bwd m s f hm
    obtain ⟨o', ho', rfl⟩ := (exec_switch_iff hty).1 ho
    rcases ho' with ⟨a, h1, rfl⟩ | ⟨v', s1', h1, ⟨a, h2, rfl⟩ | ⟨rest', s2', h2, h3⟩⟩
    · rw [he] at h1; cases h1
    · rw [he] at h1; cases h1; rw [hsel] at h2; cases h2
    · rw [he] at h1; cases h1; rw [hsel] at h2; cases h2
      refine ⟨o', h3, ?_⟩
      cases o' with
      | normal s => exact ⟨m, hn⟩
      | broke s => exact ⟨m, hn⟩
      | returned v s => exact hn
      | aborted a => exact hn
  · rintro ⟨o, ho, hg⟩
    have hx : Exec env zero I (.Switch e cs d) s o.catchBreak := .switch hty he hsel ho
    cases o with
    | normal s => obtain ⟨m, hm⟩ := hg; exact sim.fwd _ _ f m hx hm
    | broke s => obtain ⟨m, hm⟩ := hg; exact sim.fwd _ _ f m hx hm
    | returned v s => exact sim.fwd _ _ f 0 hx hg
    | aborted a => exact sim.fwd _ _ f 0 hx hg

/-- C28: with matchers that are constants, the selected cases are those from the first one on that equals
the value; none when there is no such case. -/
theorem C28_selects_the_first_match {ty : TypeId} {v : V} {cs : List (TypedExpr × List TypedExpr)} {s : S}
    {val : TypedExpr → V} (hval : ∀ c ∈ cs, evalE env I c.1 s = .ok (val c.1, s)) :
    selectCase env I ty v cs s = .ok (cs.dropWhile fun c => !I.matches_ ty v (val c.1) s, s) := by
  induction cs with
  | nil => rfl
  | cons c cs ih =>
    rw [selectCase, hval c (List.mem_cons_self ..)]
    simp only [Res.bind, List.dropWhile_cons]
    by_cases hm : I.matches_ ty v (val c.1) s = true
    · simp [hm]
    · simp only [hm, Bool.false_eq_true, if_false, Bool.not_false, if_true]
      exact ih fun c' hc' => hval c' (List.mem_cons_of_mem _ hc')

/-- C28: a case without statements runs the bodies of the cases behind it. -/
theorem C28_empty_case_shares_the_next_body {m : TypedExpr} {b : List TypedExpr}
    {cs : List (TypedExpr × List TypedExpr)} {d : List TypedExpr} (hb : Expr.allEmpty b = true) {s : S}
    {o : Ending V S A} :
    ExecAll env zero I (((m, b) :: cs).flatMap (·.2) ++ d) s o ↔ ExecAll env zero I (cs.flatMap (·.2) ++ d) s o := by
  rw [List.flatMap_cons, List.append_assoc, execAll_empty_append hb]

end

end Redscript
