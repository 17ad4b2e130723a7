import Verif.Vm.Sim

/-!
# Assembled statements do what the statements mean
-/

namespace Redscript

section
variable {V S A : Type} {env : AsmEnv} {zero : Literal → Text} {I : Interp V S A}

theorem exec_expr_iff {e : TypedExpr} (he : e.isExpression = true) {s : S} {o : Ending V S A} :
    Exec env zero I e s o ↔ (∃ v s', evalE env I e s = .ok (v, s') ∧ o = .normal s') ∨
      ∃ a, evalE env I e s = .abort a ∧ o = .aborted a := by
  constructor
  · intro h
    cases h with
    | expr _ h => exact .inl ⟨_, _, h, rfl⟩
    | exprAbort _ h => exact .inr ⟨_, h, rfl⟩
    | _ => cases he
  · rintro (⟨v, s', h, rfl⟩ | ⟨a, h, rfl⟩)
    · exact .expr he h
    · exact .exprAbort he h

theorem execAll_cons_iff {e : TypedExpr} {es : List TypedExpr} {s : S} {o : Ending V S A} :
    ExecAll env zero I (e :: es) s o ↔ (∃ s', Exec env zero I e s (.normal s') ∧ ExecAll env zero I es s' o) ∨
      (Exec env zero I e s o ∧ ∀ s', o ≠ .normal s') := by
  constructor
  · intro h
    cases h with
    | next h1 h2 => exact .inl ⟨_, h1, h2⟩
    | stop h1 h2 => exact .inr ⟨h1, h2⟩
  · rintro (⟨s', h1, h2⟩ | ⟨h1, h2⟩)
    · exact .next h1 h2
    · exact .stop h1 h2

theorem execAll_nil_iff {s : S} {o : Ending V S A} : ExecAll env zero I [] s o ↔ o = .normal s := by
  constructor
  · intro h; cases h; rfl
  · rintro rfl; exact .nil

theorem execAll_append_iff {es fs : List TypedExpr} {s : S} {o : Ending V S A} :
    ExecAll env zero I (es ++ fs) s o ↔
      (∃ s', ExecAll env zero I es s (.normal s') ∧ ExecAll env zero I fs s' o) ∨
      (ExecAll env zero I es s o ∧ ∀ s', o ≠ .normal s') := by
  induction es generalizing s with
  | nil =>
    simp only [List.nil_append, execAll_nil_iff]
    constructor
    · intro h; exact .inl ⟨s, rfl, h⟩
    · rintro (⟨s', h, h2⟩ | ⟨rfl, h⟩)
      · cases h; exact h2
      · exact absurd rfl (h s)
  | cons e es ih =>
    simp only [List.cons_append, execAll_cons_iff, ih]
    constructor
    · rintro (⟨s', h1, ⟨s'', h2, h3⟩ | ⟨h2, h3⟩⟩ | ⟨h1, h2⟩)
      · exact .inl ⟨s'', .inl ⟨s', h1, h2⟩, h3⟩
      · exact .inr ⟨.inl ⟨s', h1, h2⟩, h3⟩
      · exact .inr ⟨.inr ⟨h1, h2⟩, h2⟩
    · rintro (⟨s'', ⟨s', h1, h2⟩ | ⟨h1, h2⟩, h3⟩ | ⟨⟨s', h1, h2⟩ | ⟨h1, _⟩, h3⟩)
      · exact .inl ⟨s', h1, .inl ⟨s'', h2, h3⟩⟩
      · exact absurd rfl (h2 s'')
      · exact .inl ⟨s', h1, .inr ⟨h2, h3⟩⟩
      · exact .inr ⟨h1, h3⟩

mutual
theorem exec_empty : ∀ (e : TypedExpr), e.isEmpty = true → ∀ {s : S} {o : Ending V S A},
    Exec env zero I e s o ↔ o = .normal s
  | .Seq es, he, s, o => by
    simp only [Expr.isEmpty] at he
    rw [← execAll_empty es he]
    constructor
    · intro h
      cases h with
      | seq h => exact h
      | expr h _ => cases h
      | exprAbort h _ => cases h
    · exact .seq
  termination_by e => sizeOf e
theorem execAll_empty : ∀ (es : List TypedExpr), Expr.allEmpty es = true → ∀ {s : S} {o : Ending V S A},
    ExecAll env zero I es s o ↔ o = .normal s
  | [], _, s, o => execAll_nil_iff
  | e :: es, he, s, o => by
    simp only [Expr.allEmpty, Bool.and_eq_true] at he
    simp only [execAll_cons_iff, exec_empty e he.1, execAll_empty es he.2]
    constructor
    · rintro (⟨s', h1, h2⟩ | ⟨h1, h2⟩)
      · cases h1; exact h2
      · exact absurd h1 (h2 s)
    · intro h; exact .inl ⟨s, rfl, h⟩
  termination_by es => sizeOf es
end

theorem execAll_empty_append {es fs : List TypedExpr} (he : Expr.allEmpty es = true) {s : S} {o : Ending V S A} :
    ExecAll env zero I (es ++ fs) s o ↔ ExecAll env zero I fs s o := by
  simp only [execAll_append_iff, execAll_empty es he]
  constructor
  · rintro (⟨s', h1, h2⟩ | ⟨h1, h2⟩)
    · cases h1; exact h2
    · exact absurd h1 (h2 s)
  · intro h; exact .inl ⟨s, rfl, h⟩

theorem exec_seq_iff {es : List TypedExpr} {s : S} {o : Ending V S A} :
    Exec env zero I (.Seq es) s o ↔ ExecAll env zero I es s o := by
  constructor
  · intro h
    cases h with
    | seq h => exact h
    | expr h _ => cases h
    | exprAbort h _ => cases h
  · exact .seq

theorem exec_if_iff {c : TypedExpr} {t : List TypedExpr} {e : Option (List TypedExpr)} {s : S} {o : Ending V S A} :
    Exec env zero I (.If c t e) s o ↔ (∃ a, evalE env I c s = .abort a ∧ o = .aborted a) ∨
      ∃ v s', evalE env I c s = .ok (v, s') ∧ ((I.truth v s' = true ∧ ExecAll env zero I t s' o) ∨
        (I.truth v s' = false ∧ ExecAll env zero I (e.getD []) s' o)) := by
  constructor
  · intro h
    cases h with
    | ifAbort h => exact .inl ⟨_, h, rfl⟩
    | ifTrue h1 h2 h3 => exact .inr ⟨_, _, h1, .inl ⟨h2, h3⟩⟩
    | ifFalse h1 h2 h3 => exact .inr ⟨_, _, h1, .inr ⟨h2, h3⟩⟩
    | expr h _ => cases h
    | exprAbort h _ => cases h
  · rintro (⟨a, h, rfl⟩ | ⟨v, s', h1, ⟨h2, h3⟩ | ⟨h2, h3⟩⟩)
    · exact .ifAbort h
    · exact .ifTrue h1 h2 h3
    · exact .ifFalse h1 h2 h3

theorem exec_while_loop {e : TypedExpr} {s : S} {o : Ending V S A} (h : Exec env zero I e s o) :
    ∀ c b, e = .While c b → Loop I (evalE env I c) (ExecAll env zero I b) s o := by
  refine Exec.rec (env := env) (zero := zero) (I := I)
    (motive_1 := fun e s o _ => ∀ c b, e = .While c b → Loop I (evalE env I c) (ExecAll env zero I b) s o)
    (motive_2 := fun _ _ _ _ => True) ?_ ?_ ?_ ?_ ?_ ?_ ?_ ?_ ?_ ?_ ?_ ?_ ?_ ?_ ?_ ?_ ?_ ?_ ?_ ?_ ?_ ?_ ?_ h
  case _ => rintro e s s' v h _ c b rfl; cases h
  case _ => rintro e s a h _ c b rfl; cases h
  all_goals first
    | (intros; trivial)
    | (intros; rename_i h; cases h; done)
    | skip
  case _ => rintro c b s a h _ _ ⟨⟩; exact .abort h
  case _ => rintro c b s s' v h ht _ _ ⟨⟩; exact .done h ht
  case _ => rintro c b s s' s'' v o h ht hb he _ ih _ _ ⟨⟩; exact .next h ht hb (ih _ _ rfl)
  case _ => rintro c b s s' v o h ht hb ho _ _ _ ⟨⟩; exact .leave h ht hb ho

theorem exec_while_iff {c : TypedExpr} {b : List TypedExpr} {s : S} {o : Ending V S A} :
    Exec env zero I (.While c b) s o ↔ Loop I (evalE env I c) (ExecAll env zero I b) s o := by
  constructor
  · intro h; exact exec_while_loop h c b rfl
  · intro h
    induction h with
    | abort h => exact .whileAbort h
    | done h ht => exact .whileEnd h ht
    | next h ht hb _ ih => exact .whileNext h ht hb ih
    | leave h ht hb ho => exact .whileLeave h ht hb ho

/-- Running the cases of a switch that are selected, and the default. -/
def SwitchRun (env : AsmEnv) (zero : Literal → Text) (I : Interp V S A) (ty : TypeId) (v : V)
    (cs : List (TypedExpr × List TypedExpr)) (d : List TypedExpr) (s : S) (o : Ending V S A) : Prop :=
  (∃ a, selectCase env I ty v cs s = .abort a ∧ o = .aborted a) ∨
    ∃ rest s', selectCase env I ty v cs s = .ok (rest, s') ∧ ExecAll env zero I (rest.flatMap (·.2) ++ d) s' o

theorem exec_switch_iff {e : TypedExpr} {cs : List (TypedExpr × List TypedExpr)} {d : Option (List TypedExpr)}
    {ty : TypeId} (hty : env.typeOf e = .ok ty) {s : S} {o : Ending V S A} :
    Exec env zero I (.Switch e cs d) s o ↔ ∃ o', ((∃ a, evalE env I e s = .abort a ∧ o' = .aborted a) ∨
      ∃ v s', evalE env I e s = .ok (v, s') ∧ SwitchRun env zero I ty v cs (d.getD []) s' o') ∧
      o = o'.catchBreak := by
  constructor
  · intro h
    cases h with
    | switchAbort h => exact ⟨_, .inl ⟨_, h, rfl⟩, rfl⟩
    | switchSelectAbort h1 h2 h3 =>
      rw [hty] at h1; cases h1
      exact ⟨_, .inr ⟨_, _, h2, .inl ⟨_, h3, rfl⟩⟩, rfl⟩
    | switch h1 h2 h3 h4 =>
      rw [hty] at h1; cases h1
      exact ⟨_, .inr ⟨_, _, h2, .inr ⟨_, _, h3, h4⟩⟩, rfl⟩
    | expr h _ => cases h
    | exprAbort h _ => cases h
  · rintro ⟨o', ⟨a, h1, rfl⟩ | ⟨v, s', h1, ⟨a, h2, rfl⟩ | ⟨rest, s'', h2, h3⟩⟩, rfl⟩
    · exact .switchAbort h1
    · exact .switchSelectAbort hty h1 h2
    · exact .switch hty h1 h2 h3

end

section
variable {V S A : Type} {mem : Location → Option (Instr Location)} {ρ : Nat → Location} {P : PoolView}
  {I : Interp V S A} {env : AsmEnv} {zero : Literal → Text}

/-- No case label stands at a position. -/
def NotLabel (mem : Location → Option (Instr Location)) (p : Location) : Prop :=
  ∀ i, mem p = some i → ∀ a b, stmtKind i ≠ .label a b

/-- Finding a case from `p` and running what is selected does what `E` says. -/
structure DispSim (mem : Location → Option (Instr Location)) (P : PoolView) (I : Interp V S A) (p z : Location)
    (ty : TypeId) (v : V) (E : S → Ending V S A → Prop) : Prop where
  fwd : ∀ s o f n, E s o → ContN mem P I n o z (some z) f → ∃ m, vmDispatch mem P I m ty v p s = some f
  bwd : ∀ n s f, vmDispatch mem P I n ty v p s = some f → ∃ o, E s o ∧ ContN mem P I n o z (some z) f

theorem DispSim.congr {p z : Location} {ty : TypeId} {v : V} {E E' : S → Ending V S A → Prop}
    (h : DispSim mem P I p z ty v E) (he : ∀ s o, E s o ↔ E' s o) : DispSim mem P I p z ty v E' where
  fwd s o f n h1 h2 := h.fwd s o f n ((he s o).2 h1) h2
  bwd n s f h1 := by obtain ⟨o, h2, h3⟩ := h.bwd n s f h1; exact ⟨o, (he s o).1 h2, h3⟩

theorem DispSim.noLabel {p z : Location} {ty : TypeId} {v : V} {E : S → Ending V S A → Prop}
    (hl : NotLabel mem p) (h : Sim mem P I p z (some z) E) : DispSim mem P I p z ty v E := by
  have hs : ∀ n s, vmDispatch mem P I (n + 1) ty v p s = vmRun mem P I n p s := by
    intro n s
    rw [vmDispatch]
    split
    · rfl
    · rename_i i hi
      split
      · rename_i a b hk; exact absurd hk (hl i hi a b)
      · rfl
  constructor
  · intro s o f n h1 h2
    obtain ⟨m, hm⟩ := h.fwd s o f n h1 h2
    exact ⟨m + 1, by rw [hs]; exact hm⟩
  · intro n s f h1
    cases n with
    | zero => simp [vmDispatch] at h1
    | succ n =>
      rw [hs] at h1
      obtain ⟨o, h2, h3⟩ := h.bwd n s f h1
      exact ⟨o, h2, h3.mono (by omega)⟩

theorem DispSim.label {p p1 r z next body : Location} {ty : TypeId} {v : V} {E E' : S → Ending V S A → Prop}
    {ev : S → Res A (V × S)}
    (hE : ∀ s, Ev (fun m => vmExpr mem P I m none p1 s) (atPos r (ev s))) (hne : ∀ s, ev s ≠ .stuck)
    (hs : ∀ n s, vmDispatch mem P I (n + 1) ty v p s = Run.eval (vmExpr mem P I n none p1 s) fun y =>
      if I.matches_ ty v y.1 y.2.2 then vmRun mem P I n body y.2.2 else vmDispatch mem P I n ty v next y.2.2)
    (h1 : Sim mem P I body z (some z) E) (h2 : DispSim mem P I next z ty v E') :
    DispSim mem P I p z ty v fun s o => (∃ a, ev s = .abort a ∧ o = .aborted a) ∨
      ∃ w s', ev s = .ok (w, s') ∧ ((I.matches_ ty v w s' = true ∧ E s' o) ∨ (I.matches_ ty v w s' = false ∧ E' s' o)) := by
  have hk : ∀ n m (y : V × Location × S), n ≤ m → FuelLe
      (if I.matches_ ty v y.1 y.2.2 then vmRun mem P I n body y.2.2 else vmDispatch mem P I n ty v next y.2.2)
      (if I.matches_ ty v y.1 y.2.2 then vmRun mem P I m body y.2.2 else vmDispatch mem P I m ty v next y.2.2) := by
    intro n m y h
    split
    · exact vmRun_mono mem P I h _ _
    · exact vmDispatch_mono mem P I h _ _ _ _
  constructor
  · intro s o f n h h'
    have hE := hE s
    rcases h with ⟨a, h, rfl⟩ | ⟨w, s', h, hb⟩
    · rw [h] at hE
      obtain ⟨m, hm⟩ := eval_abort (k := fun n y => if I.matches_ ty v y.1 y.2.2 then vmRun mem P I n body y.2.2
        else vmDispatch mem P I n ty v next y.2.2) hE
      exact ⟨m + 1, by rw [hs]; have h' : f = _ := h'; rw [h']; exact hm⟩
    · rw [h] at hE
      have : ∃ n, (if I.matches_ ty v w s' then vmRun mem P I n body s' else vmDispatch mem P I n ty v next s') = some f := by
        rcases hb with ⟨ht, hb⟩ | ⟨ht, hb⟩
        · simp only [ht, if_true]; exact h1.fwd _ _ _ _ hb h'
        · simp only [ht]; exact h2.fwd _ _ _ _ hb h'
      obtain ⟨n, hn⟩ := this
      obtain ⟨m, hm⟩ := eval_fwd hE hk n hn
      exact ⟨m + 1, by rw [hs]; exact hm⟩
  · intro n s f h
    cases n with
    | zero => simp [vmDispatch] at h
    | succ n =>
      rw [hs] at h
      rcases eval_bwd (hE s) (hne s) h with ⟨w, s', h3, h4⟩ | ⟨a, h3, rfl⟩
      · by_cases ht : I.matches_ ty v w s' = true
        · simp only [ht, if_true] at h4
          obtain ⟨o, h5, h6⟩ := h1.bwd _ _ _ h4
          exact ⟨o, .inr ⟨w, s', h3, .inl ⟨ht, h5⟩⟩, h6.mono (by omega)⟩
        · simp only [ht] at h4
          obtain ⟨o, h5, h6⟩ := h2.bwd _ _ _ h4
          exact ⟨o, .inr ⟨w, s', h3, .inr ⟨by simpa using ht, h5⟩⟩, h6.mono (by omega)⟩
      · exact ⟨_, .inl ⟨a, h3, rfl⟩, rfl⟩

theorem Sim.switch {p p1 r1 first z : Location} {ty : TypeId} {ev : S → Res A (V × S)}
    {E : V → S → Ending V S A → Prop}
    (hE : ∀ s, Ev (fun m => vmExpr mem P I m none p1 s) (atPos r1 (ev s))) (hne : ∀ s, ev s ≠ .stuck)
    (hs : ∀ n s, vmRun mem P I (n + 1) p s = Run.eval (vmExpr mem P I n none p1 s) fun y =>
      vmDispatch mem P I n ty y.1 first y.2.2)
    (h : ∀ v, DispSim mem P I first z ty v (E v)) :
    Sim mem P I p z (some z) fun s o => (∃ a, ev s = .abort a ∧ o = .aborted a) ∨
      ∃ v s', ev s = .ok (v, s') ∧ E v s' o where
  fwd s o f n h1 h' := by
    have hE := hE s
    rcases h1 with ⟨a, h1, rfl⟩ | ⟨w, s', h1, hb⟩
    · rw [h1] at hE
      obtain ⟨m, hm⟩ := eval_abort (k := fun n y => vmDispatch mem P I n ty y.1 first y.2.2) hE
      exact ⟨m + 1, by rw [hs]; have h' : f = _ := h'; rw [h']; exact hm⟩
    · rw [h1] at hE
      obtain ⟨n, hn⟩ := (h w).fwd _ _ _ _ hb h'
      obtain ⟨m, hm⟩ := eval_fwd (k := fun n y => vmDispatch mem P I n ty y.1 first y.2.2) hE
        (fun n m y h => vmDispatch_mono mem P I h _ _ _ _) n hn
      exact ⟨m + 1, by rw [hs]; exact hm⟩
  bwd n s f h1 := by
    cases n with
    | zero => simp [vmRun] at h1
    | succ n =>
      rw [hs] at h1
      rcases eval_bwd (hE s) (hne s) h1 with ⟨w, s', h3, h4⟩ | ⟨a, h3, rfl⟩
      · obtain ⟨o, h5, h6⟩ := (h w).bwd _ _ _ h4
        exact ⟨o, .inr ⟨w, s', h3, h5⟩, h6.mono (by omega)⟩
      · exact ⟨_, .inl ⟨a, h3, rfl⟩, rfl⟩

/-! ### Declarations without a value -/

theorem primInit_op (ha : PoolAgrees env P zero) (name : Text) :
    (∃ c op, env.primInit name = some (.ok c) ∧ primDefault zero name = some op ∧
      opOf P (c.mapLoc ρ) = some (op, 0) ∧ c.isTarget = false) ∨
    (∃ e, env.primInit name = some (.error e)) ∨
    (env.primInit name = none ∧ primDefault zero name = none) := by
  by_cases h1 : name = "Bool".toList
  · subst h1; exact .inl ⟨_, _, rfl, rfl, rfl, rfl⟩
  by_cases h2 : name = "Int8".toList
  · subst h2; exact .inl ⟨_, _, rfl, rfl, rfl, rfl⟩
  by_cases h3 : name = "Int16".toList
  · subst h3; exact .inl ⟨_, _, rfl, rfl, rfl, rfl⟩
  by_cases h4 : name = "Int32".toList
  · subst h4; exact .inl ⟨_, _, rfl, rfl, rfl, rfl⟩
  by_cases h5 : name = "Int64".toList
  · subst h5; exact .inl ⟨_, _, rfl, rfl, rfl, rfl⟩
  by_cases h6 : name = "Uint8".toList
  · subst h6; exact .inl ⟨_, _, rfl, rfl, rfl, rfl⟩
  by_cases h7 : name = "Uint16".toList
  · subst h7; exact .inl ⟨_, _, rfl, rfl, rfl, rfl⟩
  by_cases h8 : name = "Uint32".toList
  · subst h8; exact .inl ⟨_, _, rfl, rfl, rfl, rfl⟩
  by_cases h9 : name = "Uint64".toList
  · subst h9; exact .inl ⟨_, _, rfl, rfl, rfl, rfl⟩
  by_cases h10 : name = "Float".toList
  · subst h10; exact .inl ⟨_, _, rfl, rfl, rfl, rfl⟩
  by_cases h11 : name = "Double".toList
  · subst h11; exact .inl ⟨_, _, rfl, rfl, rfl, rfl⟩
  by_cases h12 : name = "String".toList
  · subst h12
    have hp : env.primInit "String".toList = some ((env.strIdx .String []).map .StringConst) := rfl
    cases hi : env.strIdx .String [] with
    | error e => exact .inr (.inl ⟨e, by rw [hp, hi]; rfl⟩)
    | ok i =>
      exact .inl ⟨.StringConst i, _, by rw [hp, hi]; rfl, rfl,
        congrArg (fun t => some (Op.const (.String .String t), 0)) (ha.text .String [] _ hi), rfl⟩
  by_cases h13 : name = "CName".toList
  · subst h13
    exact .inl ⟨_, _, rfl, by simp [primDefault], congrArg (fun t => some (Op.const (.String .Name t), 0)) (ha.zero .Name), rfl⟩
  by_cases h14 : name = "TweakDBID".toList
  · subst h14
    exact .inl ⟨_, _, rfl, by simp [primDefault], congrArg (fun t => some (Op.const (.String .TweakDbId t), 0)) (ha.zero .TweakDbId), rfl⟩
  by_cases h15 : name = "ResRef".toList
  · subst h15
    exact .inl ⟨_, _, rfl, by simp [primDefault], congrArg (fun t => some (Op.const (.String .Resource t), 0)) (ha.zero .Resource), rfl⟩
  right; right
  constructor
  · unfold AsmEnv.primInit
    simp only [h1, h2, h3, h4, h5, h6, h7, h8, h9, h10, h11, h12, h13, h14, h15, if_false]
  · unfold primDefault
    simp only [List.find?_cons, List.find?_nil, Option.map_none,
      decide_eq_false (Ne.symm h1), decide_eq_false (Ne.symm h2), decide_eq_false (Ne.symm h3),
      decide_eq_false (Ne.symm h4), decide_eq_false (Ne.symm h5), decide_eq_false (Ne.symm h6),
      decide_eq_false (Ne.symm h7), decide_eq_false (Ne.symm h8), decide_eq_false (Ne.symm h9),
      decide_eq_false (Ne.symm h10), decide_eq_false (Ne.symm h11), decide_eq_false (Ne.symm h12),
      decide_eq_false (Ne.symm h13), decide_eq_false (Ne.symm h14), decide_eq_false (Ne.symm h15)]

/-- What running a declaration comes to. -/
def DeclareRun (env : AsmEnv) (zero : Literal → Text) (I : Interp V S A) (l : Idx) (ty : TypeId) (s : S)
    (o : Ending V S A) : Prop :=
  (∃ s', runDeclare env zero I l ty s = .ok s' ∧ o = .normal s') ∨
    ∃ a, runDeclare env zero I l ty s = .abort a ∧ o = .aborted a

theorem exec_declare_iff {l : Idx} {ty : TypeId} {s : S} {o : Ending V S A} :
    Exec env zero I (.Declare l (some ty) none) s o ↔ DeclareRun env zero I l ty s o := by
  constructor
  · intro h
    cases h with
    | declare h => exact .inl ⟨_, h, rfl⟩
    | declareAbort h => exact .inr ⟨_, h, rfl⟩
    | expr h _ => cases h
    | exprAbort h _ => cases h
  · rintro (⟨s', h, rfl⟩ | ⟨a, h, rfl⟩)
    · exact .declare h
    · exact .declareAbort h

theorem vmRun_expression {p : Location} {i : Instr Location} (hm : mem p = some i) (hk : stmtKind i = .expression)
    (n : Nat) (s : S) : vmRun mem P I (n + 1) p s =
      Run.eval (vmExpr mem P I n none p s) fun y => vmRun mem P I n y.2.1 y.2.2 := by
  rw [vmRun, hm]
  simp only [hk]

/-- The code of a declaration, or none. -/
theorem initializer_cases (ha : PoolAgrees env P zero) {l : Idx} {ty : TypeId} {code : List (Instr Nat)}
    (h : env.initializer l ty = .ok code) :
    (code = [] ∧ declareEffect env zero ty = .nothing) ∨
    (∃ c op, code = [.Assign, .Local l, c] ∧ declareEffect env zero ty = .assign op ∧
      opOf P (c.mapLoc ρ) = some (op, 0) ∧ c.isTarget = false) ∨
    (∃ i t, code = [.ArrayClear i, .Local l] ∧ declareEffect env zero ty = .clear t ∧ P.ty i = t) := by
  unfold AsmEnv.initializer at h
  split at h
  · split at h
    · cases h
    · rename_i i _ name hn
      simp only [declareEffect, hn]
      rcases primInit_op (ρ := ρ) ha name with ⟨c, op, h1, h2, h3, h4⟩ | ⟨e, h1⟩ | ⟨h1, h2⟩
      · rw [h1] at h; cases h
        rw [h2]
        exact .inr (.inl ⟨_, _, rfl, rfl, h3, h4⟩)
      · rw [h1] at h; cases h
      · rw [h1] at h; cases h
        rw [h2]
        exact .inl ⟨rfl, rfl⟩
  · cases h
    exact .inr (.inl ⟨_, _, rfl, rfl, rfl, rfl⟩)
  · split at h
    · cases h
    · rename_i hn
      cases h
      simp only [declareEffect, hn]
      exact .inr (.inl ⟨_, _, rfl, rfl, rfl, rfl⟩)
    · rename_i hn
      cases h
      simp only [declareEffect, hn]
      exact .inl (by simp)
  · cases h
    exact .inr (.inl ⟨_, _, rfl, rfl, rfl, rfl⟩)
  · cases h
    exact .inr (.inl ⟨_, _, rfl, rfl, rfl, rfl⟩)
  · split at h
    · cases h
    · rename_i hi
      cases h
      exact .inr (.inr ⟨_, _, rfl, rfl, ha.ty _ _ hi⟩)
  · cases h
    refine .inl ⟨rfl, ?_⟩
    unfold declareEffect
    split <;> first | rfl | (exfalso; simp_all)

theorem Sim.declare (ha : PoolAgrees env P zero) {l : Idx} {ty : TypeId} {code : List (Instr Nat)} {p q : Location}
    {x : Option Location} (h : env.initializer l ty = .ok code) (hc : CodeAt mem ρ p code q) :
    Sim mem P I p q x (DeclareRun env zero I l ty) := by
  rcases initializer_cases (ρ := ρ) ha h with ⟨rfl, he⟩ | ⟨c, op, rfl, he, hop, ht⟩ | ⟨i, t, rfl, he, hp⟩
  · rw [CodeAt.nil] at hc
    subst hc
    refine Sim.id.congr fun s o => ?_
    simp only [DeclareRun, runDeclare, he]
    constructor
    · rintro rfl; exact .inl ⟨s, rfl, rfl⟩
    · rintro (⟨s', h, rfl⟩ | ⟨a, h, _⟩)
      · cases h; rfl
      · cases h
  · rw [CodeAt.cons rfl, CodeAt.cons rfl, CodeAt.cons ht, CodeAt.nil] at hc
    obtain ⟨h1, h2, h3, rfl⟩ := hc
    have hE : ∀ s, Ev (fun m => vmExpr mem P I m none p s) (atPos _
        (((Res.ofExcept (I.prim (.getLocal l) [] s)).bind fun (v, s) =>
          (Res.ofExcept (I.prim op [] s)).bind fun (w, s) => .ok ([v, w], s)).bind
            fun (vs, s) => .ofExcept (I.prim .assign vs s))) := fun s =>
      Ev.opAt (o := .assign) (k := 2) h1 rfl (Ev.operands2 (Ev.op0At (o := .getLocal l) h2 rfl) fun s => Ev.op0At h3 hop)
    refine (Sim.expr hE (fun s => ?_) fun n s => vmRun_expression h1 rfl n s).congr fun s o => ?_
    · exact bind_ne_stuck (bind_ne_stuck (ofExcept_ne_stuck _) fun _ _ =>
        bind_ne_stuck (ofExcept_ne_stuck _) fun _ _ h => by cases h) fun _ _ => ofExcept_ne_stuck _
    · simp only [DeclareRun, runDeclare, he]
      cases I.prim (.getLocal l) [] s with
      | error a =>
        simp only [Res.ofExcept, Res.bind]
        constructor
        · rintro (⟨v, s', h, _⟩ | ⟨a, h, rfl⟩)
          · cases h
          · cases h; exact .inr ⟨_, rfl, rfl⟩
        · rintro (⟨s', h, _⟩ | ⟨a, h, rfl⟩)
          · cases h
          · cases h; exact .inr ⟨_, rfl, rfl⟩
      | ok y =>
        simp only [Res.ofExcept, Res.bind]
        cases I.prim op [] y.2 with
        | error a =>
          constructor
          · rintro (⟨v, s', h, _⟩ | ⟨a, h, rfl⟩)
            · cases h
            · cases h; exact .inr ⟨_, rfl, rfl⟩
          · rintro (⟨s', h, _⟩ | ⟨a, h, rfl⟩)
            · cases h
            · cases h; exact .inr ⟨_, rfl, rfl⟩
        | ok z =>
          simp only []
          cases I.prim .assign [y.1, z.1] z.2 with
          | error a =>
            constructor
            · rintro (⟨v, s', h, _⟩ | ⟨a, h, rfl⟩)
              · cases h
              · cases h; exact .inr ⟨_, rfl, rfl⟩
            · rintro (⟨s', h, _⟩ | ⟨a, h, rfl⟩)
              · cases h
              · cases h; exact .inr ⟨_, rfl, rfl⟩
          | ok w =>
            constructor
            · rintro (⟨v, s', h, rfl⟩ | ⟨a, h, rfl⟩)
              · cases h; exact .inl ⟨_, rfl, rfl⟩
              · cases h
            · rintro (⟨s', h, rfl⟩ | ⟨a, h, rfl⟩)
              · cases h; exact .inl ⟨_, _, rfl, rfl⟩
              · cases h
  · rw [CodeAt.cons rfl, CodeAt.cons rfl, CodeAt.nil] at hc
    obtain ⟨h1, h2, rfl⟩ := hc
    have hop : opOf P ((Instr.ArrayClear i : Instr Nat).mapLoc ρ) = some (.intrinsic .ArrayClear t, 1) := by
      exact congrArg (fun t => some (Op.intrinsic .ArrayClear t, 1)) hp
    have hE : ∀ s, Ev (fun m => vmExpr mem P I m none p s) (atPos _
        (((Res.ofExcept (I.prim (.getLocal l) [] s)).bind fun (v, s) => .ok ([v], s)).bind
            fun (vs, s) => .ofExcept (I.prim (.intrinsic .ArrayClear t) vs s))) := fun s =>
      Ev.opAt (k := 1) h1 hop (Ev.operands1 (Ev.op0At (o := .getLocal l) h2 rfl))
    refine (Sim.expr hE (fun s => ?_) fun n s => vmRun_expression h1 rfl n s).congr fun s o => ?_
    · exact bind_ne_stuck (bind_ne_stuck (ofExcept_ne_stuck _) fun _ _ h => by cases h) fun _ _ => ofExcept_ne_stuck _
    · simp only [DeclareRun, runDeclare, he]
      cases I.prim (.getLocal l) [] s with
      | error a =>
        simp only [Res.ofExcept, Res.bind]
        constructor
        · rintro (⟨v, s', h, _⟩ | ⟨a, h, rfl⟩)
          · cases h
          · cases h; exact .inr ⟨_, rfl, rfl⟩
        · rintro (⟨s', h, _⟩ | ⟨a, h, rfl⟩)
          · cases h
          · cases h; exact .inr ⟨_, rfl, rfl⟩
      | ok y =>
        simp only [Res.ofExcept, Res.bind]
        cases I.prim (.intrinsic .ArrayClear t) [y.1] y.2 with
        | error a =>
          constructor
          · rintro (⟨v, s', h, _⟩ | ⟨a, h, rfl⟩)
            · cases h
            · cases h; exact .inr ⟨_, rfl, rfl⟩
          · rintro (⟨s', h, _⟩ | ⟨a, h, rfl⟩)
            · cases h
            · cases h; exact .inr ⟨_, rfl, rfl⟩
        | ok w =>
          constructor
          · rintro (⟨v, s', h, rfl⟩ | ⟨a, h, rfl⟩)
            · cases h; exact .inl ⟨_, rfl, rfl⟩
            · cases h
          · rintro (⟨s', h, rfl⟩ | ⟨a, h, rfl⟩)
            · cases h; exact .inl ⟨_, _, rfl, rfl⟩
            · cases h

/-! ### Where code begins -/

theorem notLabel_of {p : Location} {i : Instr Nat} (hm : mem p = some (i.mapLoc ρ))
    (hk : ∀ a b, stmtKind (i.mapLoc ρ) ≠ .label a b) : NotLabel mem p := by
  intro j hj a b
  rw [hm] at hj
  cases hj
  exact hk a b

theorem notLabel_expr {x : Option Nat} {e : TypedExpr} {n n' : Nat} {code : List (Instr Nat)} {p q : Location}
    (hv : e.isValue = true) (h : asm env x e n = .ok (code, n')) (hc : CodeAt mem ρ p code q) : NotLabel mem p := by
  obtain ⟨i, rest, rfl, ht, _, hk⟩ := expr_first (ρ := ρ) hv h
  rw [CodeAt.cons ht] at hc
  exact notLabel_of hc.1 fun a b he => by rw [hk] at he; cases he

theorem isValue_isExpression {e : TypedExpr} (h : e.isValue = true) : e.isExpression = true := by
  cases e <;> first | rfl | cases h

theorem initializer_start {l : Idx} {ty : TypeId} {code : List (Instr Nat)} {p q : Location}
    (h : env.initializer l ty = .ok code) (hc : CodeAt mem ρ p code q) : NotLabel mem p ∨ p = q := by
  unfold AsmEnv.initializer at h
  have one : ∀ c, CodeAt mem ρ p [.Assign, .Local l, c] q → NotLabel mem p := fun c hc => by
    rw [CodeAt.cons rfl] at hc
    exact notLabel_of hc.1 fun a b he => by cases he
  have two : ∀ i, CodeAt mem ρ p [.ArrayClear i, .Local l] q → NotLabel mem p := fun c hc => by
    rw [CodeAt.cons rfl] at hc
    exact notLabel_of hc.1 fun a b he => by cases he
  split at h
  · split at h
    · cases h
    · split at h
      · cases h; exact .inl (one _ hc)
      · cases h
      · cases h; exact .inr hc
  · cases h; exact .inl (one _ hc)
  · split at h
    · cases h
    · cases h; exact .inl (one _ hc)
    · cases h; exact .inr hc
  · cases h; exact .inl (one _ hc)
  · cases h; exact .inl (one _ hc)
  · split at h
    · cases h
    · cases h; exact .inl (two _ hc)
  · cases h; exact .inr hc

mutual
/-- The code of a statement does not begin with a case label; only declarations may have no code. -/
theorem stmt_start : ∀ (e : TypedExpr) (x : Option Nat) (n n' : Nat) (code : List (Instr Nat)),
    e.isStatement = true → asm env x e n = .ok (code, n') → ∀ (p q : Location), CodeAt mem ρ p code q →
      NotLabel mem p ∨ (p = q ∧ e.silent = true)
  | .Declare l ty (some v), x, n, n', code, hv, h, p, q, hc => by
    obtain ⟨d, h1, rfl⟩ := asm_declare_some h
    rw [CodeAt.cons rfl] at hc
    exact .inl (notLabel_of hc.1 fun a b he => by cases he)
  | .Declare l ty none, x, n, n', code, hv, h, p, q, hc => by
    obtain ⟨t, rfl, rfl, h1⟩ := asm_declare_none h
    rcases initializer_start h1 hc with h2 | h2
    · exact .inl h2
    · exact .inr ⟨h2, rfl⟩
  | .Seq es, x, n, n', code, hv, h, p, q, hc => by
    simp only [Expr.isStatement] at hv
    simp only [Expr.silent]
    exact seq_start es x n n' code hv (asm_seq h) p q hc
  | .Return none, x, n, n', code, hv, h, p, q, hc => by
    obtain ⟨rfl, rfl⟩ := asm_return_none h
    rw [CodeAt.cons rfl] at hc
    exact .inl (notLabel_of hc.1 fun a b he => by cases he)
  | .Return (some e), x, n, n', code, hv, h, p, q, hc => by
    obtain ⟨d, h1, rfl⟩ := asm_return_some h
    rw [CodeAt.cons rfl] at hc
    exact .inl (notLabel_of hc.1 fun a b he => by cases he)
  | .Break, x, n, n', code, hv, h, p, q, hc => by
    obtain ⟨l, rfl, rfl, rfl⟩ := asm_break h
    rw [CodeAt.cons rfl] at hc
    exact .inl (notLabel_of hc.1 fun a b he => by cases he)
  | .If c t none, x, n, n', code, hv, h, p, q, hc => by
    obtain ⟨_, _, _, h1, h2, rfl⟩ := asm_if_none h
    rw [CodeAt.cons rfl] at hc
    exact .inl (notLabel_of hc.1 fun a b he => by cases he)
  | .If c t (some e), x, n, n', code, hv, h, p, q, hc => by
    obtain ⟨_, _, _, _, _, h1, h2, h3, rfl⟩ := asm_if_some h
    rw [CodeAt.cons rfl] at hc
    exact .inl (notLabel_of hc.1 fun a b he => by cases he)
  | .While c b, x, n, n', code, hv, h, p, q, hc => by
    obtain ⟨_, _, _, h1, h2, rfl⟩ := asm_while h
    rw [CodeAt.target, CodeAt.cons rfl] at hc
    exact .inl (notLabel_of hc.2.1 fun a b he => by cases he)
  | .Switch e cs d, x, n, n', code, hv, h, p, q, hc => by
    obtain ⟨_, _, _, _, _, _, _, _, _, _, _, _, _, rfl⟩ := asm_switch h
    rw [CodeAt.cons rfl] at hc
    exact .inl (notLabel_of hc.1 fun a b he => by cases he)
  | .Ident _, x, n, n', code, hv, h, p, q, hc => .inl (notLabel_expr hv h hc)
  | .Constant _, x, n, n', code, hv, h, p, q, hc => .inl (notLabel_expr hv h hc)
  | .Null, x, n, n', code, hv, h, p, q, hc => .inl (notLabel_expr hv h hc)
  | .This, x, n, n', code, hv, h, p, q, hc => .inl (notLabel_expr hv h hc)
  | .Super, x, n, n', code, hv, h, p, q, hc => .inl (notLabel_expr hv h hc)
  | .Cast _ _, x, n, n', code, hv, h, p, q, hc => .inl (notLabel_expr hv h hc)
  | .Assign _ _, x, n, n', code, hv, h, p, q, hc => .inl (notLabel_expr hv h hc)
  | .ArrayElem _ _, x, n, n', code, hv, h, p, q, hc => .inl (notLabel_expr hv h hc)
  | .New _ _, x, n, n', code, hv, h, p, q, hc => .inl (notLabel_expr hv h hc)
  | .Conditional _ _ _, x, n, n', code, hv, h, p, q, hc => .inl (notLabel_expr hv h hc)
  | .Member _ _, x, n, n', code, hv, h, p, q, hc => .inl (notLabel_expr hv h hc)
  | .Call _ _ _, x, n, n', code, hv, h, p, q, hc => .inl (notLabel_expr hv h hc)
  | .MethodCall _ _ _, x, n, n', code, hv, h, p, q, hc => .inl (notLabel_expr hv h hc)
  | .ArrayLit _ _, _, _, _, _, _, h, _, _, _ => by simp [asm] at h
  | .InterpolatedString _ _, _, _, _, _, _, h, _, _, _ => by simp [asm] at h
  | .ForIn _ _ _, _, _, _, _, _, h, _, _, _ => by simp [asm] at h
  | .BinOp _ _ _, _, _, _, _, _, h, _, _, _ => by simp [asm] at h
  | .UnOp _ _, _, _, _, _, _, h, _, _, _ => by simp [asm] at h
  | .Goto _, _, _, _, _, _, h, _, _, _ => by simp [asm] at h
  termination_by e => sizeOf e
theorem seq_start : ∀ (es : List TypedExpr) (x : Option Nat) (n n' : Nat) (code : List (Instr Nat)),
    Expr.areStatements es = true → asmSeq env x es n = .ok (code, n') → ∀ (p q : Location), CodeAt mem ρ p code q →
      NotLabel mem p ∨ (p = q ∧ Expr.allSilent es = true)
  | [], x, n, n', code, hv, h, p, q, hc => by
    obtain ⟨_, rfl⟩ := asmSeq_nil h
    exact .inr ⟨hc, rfl⟩
  | e :: es, x, n, n', code, hv, h, p, q, hc => by
    obtain ⟨a, m, b, h1, h2, rfl⟩ := asmSeq_cons h
    obtain ⟨r, hc1, hc2⟩ := CodeAt.append.1 hc
    simp only [Expr.areStatements, Bool.and_eq_true] at hv
    rcases stmt_start e x n m a hv.1 h1 _ _ hc1 with k1 | ⟨rfl, k1⟩
    · exact .inl k1
    · rcases seq_start es x m n' b hv.2 h2 _ _ hc2 with k2 | ⟨rfl, k2⟩
      · exact .inl k2
      · exact .inr ⟨rfl, by simp [Expr.allSilent, k1, k2]⟩
  termination_by es => sizeOf es
end

/-! ### Statements -/

/-- The simulation of an expression statement. -/
theorem Sim.value (ha : PoolAgrees env P zero) {e : TypedExpr} {y : Option Nat} {x : Option Location} {n n' : Nat}
    {code : List (Instr Nat)} {p q : Location} (hv : e.isValue = true) (h : asm env y e n = .ok (code, n'))
    (hc : CodeAt mem ρ p code q) : Sim mem P I p q x (Exec env zero I e) := by
  have k := vmExpr_asm (I := I) ha e y n n' code hv h p q hc
  obtain ⟨i, rest, rfl, ht, _, hk⟩ := expr_first (ρ := ρ) hv h
  rw [CodeAt.cons ht] at hc
  exact (Sim.expr (fun s => (k s).1) (fun s => (k s).2) fun n s => vmRun_expression hc.1 hk n s).congr
    fun s o => (exec_expr_iff (isValue_isExpression hv)).symm

theorem vmRun_jump {p to : Location} {i : Instr Location} (hm : mem p = some i) (hk : stmtKind i = .jump to)
    (n : Nat) (s : S) : vmRun mem P I (n + 1) p s = vmRun mem P I n to s := by
  rw [vmRun, hm]; simp only [hk]

theorem vmRun_nop {p : Location} {i : Instr Nat} (hm : mem p = some (i.mapLoc ρ))
    (hk : stmtKind (i.mapLoc ρ) = .nop) (n : Nat) (s : S) :
    vmRun mem P I (n + 1) p s = vmRun mem P I n (p + i.size) s := by
  rw [vmRun, hm]; simp only [hk, size_mapLoc]

theorem vmRun_label {p next body : Location} {i : Instr Location} (hm : mem p = some i)
    (hk : stmtKind i = .label next body) (n : Nat) (s : S) :
    vmRun mem P I (n + 1) p s = vmRun mem P I n body s := by
  rw [vmRun, hm]; simp only [hk]

theorem vmRun_jumpIfFalse {p to : Location} {i : Instr Nat} (hm : mem p = some (i.mapLoc ρ))
    (hk : stmtKind (i.mapLoc ρ) = .jumpIfFalse to) (n : Nat) (s : S) :
    vmRun mem P I (n + 1) p s = Run.eval (vmExpr mem P I n none (p + i.size) s) fun y =>
      vmRun mem P I n (if I.truth y.1 y.2.2 then y.2.1 else to) y.2.2 := by
  rw [vmRun, hm]; simp only [hk, size_mapLoc]

theorem vmRun_switch {p first : Location} {ty : Idx} {i : Instr Nat} (hm : mem p = some (i.mapLoc ρ))
    (hk : stmtKind (i.mapLoc ρ) = .switch ty first) (n : Nat) (s : S) :
    vmRun mem P I (n + 1) p s = Run.eval (vmExpr mem P I n none (p + i.size) s) fun y =>
      vmDispatch mem P I n (P.ty ty) y.1 first y.2.2 := by
  rw [vmRun, hm]; simp only [hk, size_mapLoc]

theorem vmDispatch_label {p next body : Location} {i : Instr Nat} {ty : TypeId} {v : V} (hm : mem p = some (i.mapLoc ρ))
    (hk : stmtKind (i.mapLoc ρ) = .label next body) (n : Nat) (s : S) :
    vmDispatch mem P I (n + 1) ty v p s = Run.eval (vmExpr mem P I n none (p + i.size) s) fun y =>
      if I.matches_ ty v y.1 y.2.2 then vmRun mem P I n body y.2.2
      else vmDispatch mem P I n ty v next y.2.2 := by
  rw [vmDispatch, hm]; simp only [hk, size_mapLoc]

theorem Sim.returnNone {p q : Location} {x : Option Location} (h1 : mem p = some ((Instr.Return : Instr Nat).mapLoc ρ))
    (h2 : mem (p + (Instr.Return : Instr Nat).size) = some ((Instr.Nop : Instr Nat).mapLoc ρ)) :
    Sim mem P I p q x (Exec env zero I (.Return none)) := by
  have hs : ∀ n s, vmRun mem P I (n + 1) p s = some (.returned none s) := by
    intro n s
    rw [vmRun, h1]
    have hk : stmtKind ((Instr.Return : Instr Nat).mapLoc ρ) = .ret := rfl
    have hn : returnsNothing (some ((Instr.Nop : Instr Nat).mapLoc ρ)) = true := rfl
    simp only [hk, size_mapLoc, h2, hn, if_true]
  constructor
  · intro s o f n h h'
    cases h with
    | returnNone => exact ⟨1, by rw [hs]; exact congrArg some h'.symm⟩
    | expr h _ => cases h
    | exprAbort h _ => cases h
  · intro n s f h
    cases n with
    | zero => simp [vmRun] at h
    | succ n => rw [hs] at h; cases h; exact ⟨_, .returnNone, rfl⟩

theorem Sim.returnSome (ha : PoolAgrees env P zero) {e : TypedExpr} {n n' : Nat}
    {code : List (Instr Nat)} {p p1 q : Location} {x : Option Location} (hv : e.isValue = true)
    (h : asm env none e n = .ok (code, n'))
    (h1 : mem p = some ((Instr.Return : Instr Nat).mapLoc ρ)) (hp : p + (Instr.Return : Instr Nat).size = p1) (hc : CodeAt mem ρ p1 code q) :
    Sim mem P I p q x (Exec env zero I (.Return (some e))) := by
  have k := vmExpr_asm (I := I) ha e none n n' code hv h p1 q hc
  obtain ⟨i, rest, rfl, ht, hpk, _⟩ := expr_first (ρ := ρ) hv h
  rw [CodeAt.cons ht] at hc
  have hnot : returnsNothing (some (i.mapLoc ρ)) = false := by
    generalize i.mapLoc ρ = j at hpk
    unfold returnsNothing
    split
    · rename_i h2; cases h2; cases hpk
    · rfl
  have hs : ∀ n s, vmRun mem P I (n + 1) p s =
      Run.eval (vmExpr mem P I n none p1 s) fun y => some (.returned (some y.1) y.2.2) := by
    intro n s
    rw [vmRun, h1]
    have hk : stmtKind ((Instr.Return : Instr Nat).mapLoc ρ) = .ret := rfl
    simp only [hk, size_mapLoc, hp, hc.1, hnot, Bool.false_eq_true, if_false]
  constructor
  · intro s o f n hx h'
    cases hx with
    | @returnSome _ _ s' v he =>
      have hE := (k s).1
      rw [he] at hE
      obtain ⟨m, hm⟩ := eval_fwd (k := fun _ y => some (Final.returned (some y.1) y.2.2)) hE
        (fun _ _ _ _ => FuelLe.refl _) n rfl
      exact ⟨m + 1, by rw [hs, hm]; exact congrArg some h'.symm⟩
    | @returnAbort _ _ a he =>
      have hE := (k s).1
      rw [he] at hE
      obtain ⟨m, hm⟩ := eval_abort (k := fun _ y => some (Final.returned (some y.1) y.2.2)) hE
      exact ⟨m + 1, by rw [hs, hm]; exact congrArg some h'.symm⟩
    | expr h _ => cases h
    | exprAbort h _ => cases h
  · intro n s f hx
    cases n with
    | zero => simp [vmRun] at hx
    | succ n =>
      rw [hs] at hx
      rcases eval_bwd (k s).1 (k s).2 hx with ⟨v, s', h3, h4⟩ | ⟨a, h3, rfl⟩
      · cases h4
        exact ⟨_, .returnSome h3, rfl⟩
      · exact ⟨_, .returnAbort h3, rfl⟩

theorem Sim.break_ {p q l : Location} {i : Instr Location} (hm : mem p = some i) (hk : stmtKind i = .jump l) :
    Sim mem P I p q (some l) (Exec env zero I .Break) := by
  constructor
  · intro s o f n h h'
    cases h with
    | break_ =>
      obtain ⟨l', hl, h'⟩ := h'
      cases hl
      exact ⟨n + 1, by rw [vmRun_jump hm hk]; exact h'⟩
    | expr h _ => cases h
    | exprAbort h _ => cases h
  · intro n s f h
    cases n with
    | zero => simp [vmRun] at h
    | succ n =>
      rw [vmRun_jump hm hk] at h
      exact ⟨_, .break_, l, rfl, vmRun_mono mem P I (by omega) _ _ _ h⟩

theorem Sim.toEnd {p q r : Location} {x : Option Location} {E : S → Ending V S A → Prop}
    (h : Sim mem P I p r x E) (he : r = q) : Sim mem P I p q x E := he ▸ h

set_option maxHeartbeats 1000000 in
mutual
/-- The code of a statement does what the statement means. -/
theorem stmt_asm (ha : PoolAgrees env P zero) : ∀ (e : TypedExpr) (x : Option Nat) (n n' : Nat) (code : List (Instr Nat)),
    e.isStatement = true → e.switchesOk = true → asm env x e n = .ok (code, n') →
    ∀ (p q : Location), CodeAt mem ρ p code q → (e.opens = true → NotLabel mem q) →
      Sim mem P I p q (x.map ρ) (Exec env zero I e)
  | .Declare l ty (some v), x, n, n', code, hv, hw, h, p, q, hc, ho => by
    have h' : asm env x (.Assign (.Ident (Reference.Value (.Local l))) v) n = .ok (code, n') := by
      obtain ⟨d, h1, rfl⟩ := asm_declare_some h
      simp [asm, h1, AsmRes.wrap, AsmRes.andThen]
    refine (Sim.value ha (by simpa [Expr.isValue, Expr.isStatement] using hv) h' hc).congr fun s o => ⟨.declareInit, fun h => ?_⟩
    cases h with
    | declareInit h => exact h
    | expr h _ => cases h
    | exprAbort h _ => cases h
  | .Declare l ty none, x, n, n', code, hv, hw, h, p, q, hc, ho => by
    obtain ⟨t, rfl, rfl, h1⟩ := asm_declare_none h
    exact (Sim.declare ha h1 hc).congr fun s o => exec_declare_iff.symm
  | .Seq es, x, n, n', code, hv, hw, h, p, q, hc, ho => by
    simp only [Expr.isStatement] at hv
    simp only [Expr.switchesOk] at hw
    simp only [Expr.opens] at ho
    exact (seq_asm ha es x n n' code hv hw (asm_seq h) p q hc ho).congr fun s o => exec_seq_iff.symm
  | .Return none, x, n, n', code, hv, hw, h, p, q, hc, ho => by
    obtain ⟨rfl, rfl⟩ := asm_return_none h
    rw [CodeAt.cons rfl, CodeAt.cons rfl] at hc
    exact Sim.returnNone hc.1 hc.2.1
  | .Return (some e), x, n, n', code, hv, hw, h, p, q, hc, ho => by
    obtain ⟨d, h1, rfl⟩ := asm_return_some h
    rw [CodeAt.cons rfl] at hc
    exact Sim.returnSome ha hv h1 hc.1 rfl hc.2
  | .Break, x, n, n', code, hv, hw, h, p, q, hc, ho => by
    obtain ⟨l, rfl, rfl, rfl⟩ := asm_break h
    rw [CodeAt.cons rfl] at hc
    exact Sim.break_ hc.1 rfl
  | .If c t none, x, n, n', code, hv, hw, h, p, q, hc, ho => by
    obtain ⟨cond, n1, then_, h1, h2, rfl⟩ := asm_if_none h
    simp only [Expr.isStatement, Bool.and_eq_true] at hv
    simp only [Expr.switchesOk, Bool.and_eq_true] at hw
    simp only [Expr.opens] at ho
    rw [CodeAt.cons rfl] at hc
    obtain ⟨hm, hc⟩ := hc
    obtain ⟨r1, hc1, hc⟩ := CodeAt.append.1 hc
    obtain ⟨r2, hc2, hc⟩ := CodeAt.append.1 hc
    rw [CodeAt.target, CodeAt.nil] at hc
    obtain ⟨hl, rfl⟩ := hc
    have kc := vmExpr_asm (I := I) ha c none _ _ cond hv.1.1 h1 _ _ hc1
    have kt := seq_asm ha t x n1 n' then_ hv.1.2 hw.1 h2 _ _ hc2 ho
    refine (Sim.branch (fun s => (kc s).1) (fun s => (kc s).2)
      (fun n s => vmRun_jumpIfFalse hm (to := ρ _) rfl n s) kt
      (E' := fun s o => o = .normal s) (by rw [hl]; exact Sim.id)).congr fun s o => ?_
    simp only [exec_if_iff, Option.getD_none, execAll_nil_iff]
  | .If c t (some e), x, n, n', code, hv, hw, h, p, q, hc, ho => by
    obtain ⟨cond, n1, then_, n2, else_, h1, h2, h3, rfl⟩ := asm_if_some h
    simp only [Expr.isStatement, Expr.areStatementsOpt, Bool.and_eq_true] at hv
    simp only [Expr.switchesOk, Expr.optSwitchesOk, Bool.and_eq_true] at hw
    simp only [Expr.opens] at ho
    rw [CodeAt.cons rfl] at hc
    obtain ⟨hm, hc⟩ := hc
    obtain ⟨r1, hc1, hc⟩ := CodeAt.append.1 hc
    obtain ⟨r2, hc2, hc⟩ := CodeAt.append.1 hc
    rw [CodeAt.cons rfl, CodeAt.target] at hc
    obtain ⟨hj, hl, hc⟩ := hc
    obtain ⟨r3, hc3, hc⟩ := CodeAt.append.1 hc
    rw [CodeAt.target, CodeAt.nil] at hc
    obtain ⟨hl2, rfl⟩ := hc
    have kc := vmExpr_asm (I := I) ha c none _ _ cond hv.1.1 h1 _ _ hc1
    have kt := seq_asm ha t x n1 n2 then_ hv.1.2 hw.1 h2 _ _ hc2
      fun _ => notLabel_of hj fun a b he => by cases he
    have ke := seq_asm ha e x _ n' else_ hv.2 hw.2 h3 _ _ hc3 ho
    refine (Sim.branch (fun s => (kc s).1) (fun s => (kc s).2)
      (fun n s => vmRun_jumpIfFalse hm (to := ρ _) rfl n s)
      (kt.stepEnd fun n s => vmRun_jump hj (to := _) (by rw [← hl2]; rfl) n s) (hl ▸ ke)).congr fun s o => ?_
    simp only [exec_if_iff, Option.getD_some]
  | .While c b, x, n, n', code, hv, hw, h, p, q, hc, ho => by
    obtain ⟨cond, n1, body, h1, h2, rfl⟩ := asm_while h
    simp only [Expr.isStatement, Bool.and_eq_true] at hv
    simp only [Expr.switchesOk] at hw
    rw [CodeAt.target, CodeAt.cons rfl] at hc
    obtain ⟨hl, hm, hc⟩ := hc
    obtain ⟨r1, hc1, hc⟩ := CodeAt.append.1 hc
    obtain ⟨r2, hc2, hc⟩ := CodeAt.append.1 hc
    rw [CodeAt.cons rfl, CodeAt.target, CodeAt.nil] at hc
    obtain ⟨hj, hl2, rfl⟩ := hc
    have kc := vmExpr_asm (I := I) ha c none _ _ cond hv.1 h1 _ _ hc1
    have kb := seq_asm ha b (some n) n1 n' body hv.2 hw h2 _ _ hc2
      fun _ => notLabel_of hj fun a b he => by cases he
    simp only [Option.map_some, hl2] at kb
    exact (Sim.loop (fun s => (kc s).1) (fun s => (kc s).2)
      (fun n s => vmRun_jumpIfFalse hm (to := _) (by rw [← hl2]; rfl) n s) kb
      fun n s => vmRun_jump hj (to := _) (by rw [← hl]; rfl) n s).congr fun s o => exec_while_iff.symm
  | .Switch e cs d, x, n, n', code, hv, hw, h, p, q, hc, ho => by
    obtain ⟨ty, tyIdx, subject, n1, body, next, n2, tail, hty, hti, h1, h2, h3, rfl⟩ := asm_switch h
    simp only [Expr.isStatement, Bool.and_eq_true] at hv
    simp only [Expr.switchesOk, Bool.and_eq_true] at hw
    simp only [Expr.opens] at ho
    rw [CodeAt.cons rfl] at hc
    obtain ⟨hm, hc⟩ := hc
    obtain ⟨r1, hc1, hc⟩ := CodeAt.append.1 hc
    rw [CodeAt.target] at hc
    obtain ⟨hl1, hc⟩ := hc
    obtain ⟨r2, hc2, hc⟩ := CodeAt.append.1 hc
    rw [CodeAt.target] at hc
    obtain ⟨hl2, hc⟩ := hc
    obtain ⟨r3, hc3, hc⟩ := CodeAt.append.1 hc
    rw [CodeAt.target, CodeAt.nil] at hc
    obtain ⟨hl3, rfl⟩ := hc
    have kc := vmExpr_asm (I := I) ha e none _ _ subject hv.1.1 h1 _ _ hc1
    obtain ⟨kd, hnl⟩ := block_asm ha d (n + 2) n2 n' tail hv.2 hw.2 h3 r2 r3 hc3 hl3 ho
    obtain ⟨_, _, _, kcs⟩ := cases_asm ha cs (n + 2) none (n + 1) next n1 n2 body hv.1.2 hw.1 h2 r1 r2 hc2 r3
      (d.getD []) hl3 hl2 kd hnl
    have hP : P.ty tyIdx = ty := ha.ty _ _ hti
    refine (Sim.catchBreak (Sim.switch (fun s => (kc s).1) (fun s => (kc s).2)
      (fun n s => vmRun_switch hm (first := _) (by rw [← hl1]; rfl) n s) fun v => kcs _ v)).congr fun s o => ?_
    rw [exec_switch_iff hty, hP]
  | .Ident _, x, n, n', code, hv, hw, h, p, q, hc, ho => Sim.value ha hv h hc
  | .Constant _, x, n, n', code, hv, hw, h, p, q, hc, ho => Sim.value ha hv h hc
  | .Null, x, n, n', code, hv, hw, h, p, q, hc, ho => Sim.value ha hv h hc
  | .This, x, n, n', code, hv, hw, h, p, q, hc, ho => Sim.value ha hv h hc
  | .Super, x, n, n', code, hv, hw, h, p, q, hc, ho => Sim.value ha hv h hc
  | .Cast _ _, x, n, n', code, hv, hw, h, p, q, hc, ho => Sim.value ha hv h hc
  | .Assign _ _, x, n, n', code, hv, hw, h, p, q, hc, ho => Sim.value ha hv h hc
  | .ArrayElem _ _, x, n, n', code, hv, hw, h, p, q, hc, ho => Sim.value ha hv h hc
  | .New _ _, x, n, n', code, hv, hw, h, p, q, hc, ho => Sim.value ha hv h hc
  | .Conditional _ _ _, x, n, n', code, hv, hw, h, p, q, hc, ho => Sim.value ha hv h hc
  | .Member _ _, x, n, n', code, hv, hw, h, p, q, hc, ho => Sim.value ha hv h hc
  | .Call _ _ _, x, n, n', code, hv, hw, h, p, q, hc, ho => Sim.value ha hv h hc
  | .MethodCall _ _ _, x, n, n', code, hv, hw, h, p, q, hc, ho => Sim.value ha hv h hc
  | .ArrayLit _ _, _, _, _, _, _, _, h, _, _, _, _ => by simp [asm] at h
  | .InterpolatedString _ _, _, _, _, _, _, _, h, _, _, _, _ => by simp [asm] at h
  | .ForIn _ _ _, _, _, _, _, _, _, h, _, _, _, _ => by simp [asm] at h
  | .BinOp _ _ _, _, _, _, _, _, _, h, _, _, _, _ => by simp [asm] at h
  | .UnOp _ _, _, _, _, _, _, _, h, _, _, _, _ => by simp [asm] at h
  | .Goto _, _, _, _, _, _, _, h, _, _, _, _ => by simp [asm] at h
  termination_by e => sizeOf e
/-- The code of a block does what the block means. -/
theorem seq_asm (ha : PoolAgrees env P zero) : ∀ (es : List TypedExpr) (x : Option Nat) (n n' : Nat)
    (code : List (Instr Nat)), Expr.areStatements es = true → Expr.allSwitchesOk es = true →
    asmSeq env x es n = .ok (code, n') → ∀ (p q : Location), CodeAt mem ρ p code q →
    (Expr.opensAll es = true → NotLabel mem q) →
      Sim mem P I p q (x.map ρ) (ExecAll env zero I es)
  | [], x, n, n', code, hv, hw, h, p, q, hc, ho => by
    obtain ⟨_, rfl⟩ := asmSeq_nil h
    rw [CodeAt.nil] at hc
    subst hc
    exact Sim.id.congr fun s o => execAll_nil_iff.symm
  | e :: es, x, n, n', code, hv, hw, h, p, q, hc, ho => by
    obtain ⟨a, m, b, h1, h2, rfl⟩ := asmSeq_cons h
    obtain ⟨r, hc1, hc2⟩ := CodeAt.append.1 hc
    simp only [Expr.areStatements, Bool.and_eq_true] at hv
    simp only [Expr.allSwitchesOk, Bool.and_eq_true] at hw
    simp only [Expr.opensAll, Bool.or_eq_true, Bool.and_eq_true] at ho
    have k2 := seq_asm ha es x m n' b hv.2 hw.2 h2 _ _ hc2 fun h => ho (.inl h)
    have k1 := stmt_asm ha e x n m a hv.1 hw.1 h1 _ _ hc1 fun h => by
      rcases seq_start es x m n' b hv.2 h2 _ _ hc2 with k | ⟨rfl, k⟩
      · exact k
      · exact ho (.inr ⟨k, h⟩)
    exact (k1.seq k2).congr fun s o => execAll_cons_iff.symm
  termination_by es => sizeOf es
/-- The code of a default. -/
theorem block_asm (ha : PoolAgrees env P zero) : ∀ (d : Option (List TypedExpr)) (exit n n' : Nat)
    (code : List (Instr Nat)), Expr.areStatementsOpt d = true → Expr.optSwitchesOk d = true →
    asmBlockOpt env exit d n = .ok (code, n') → ∀ (p q : Location), CodeAt mem ρ p code q → ρ exit = q →
    (Expr.opensOpt d = true → NotLabel mem q) →
      Sim mem P I p q (some q) (ExecAll env zero I (d.getD [])) ∧ NotLabel mem p
  | none, exit, n, n', code, hv, hw, h, p, q, hc, hl, ho => by
    obtain ⟨_, rfl⟩ := asmBlockOpt_none h
    rw [CodeAt.nil] at hc
    subst hc
    exact ⟨Sim.id.congr fun s o => execAll_nil_iff.symm, ho rfl⟩
  | some d, exit, n, n', code, hv, hw, h, p, q, hc, hl, ho => by
    obtain ⟨c, h1, rfl⟩ := asmBlockOpt_some h
    rw [CodeAt.cons rfl] at hc
    simp only [Expr.areStatementsOpt] at hv
    simp only [Expr.optSwitchesOk] at hw
    simp only [Expr.opensOpt] at ho
    have k := seq_asm ha d (some exit) n n' c hv hw h1 _ _ hc.2 ho
    simp only [Option.map_some, hl] at k
    exact ⟨k.stepTo fun n s => vmRun_nop hc.1 rfl n s, notLabel_of hc.1 fun a b he => by cases he⟩
  termination_by d => sizeOf d
/-- The code of the cases of a switch: entered at the body of the first case, entered by falling through,
and entered to find a case. -/
theorem cases_asm (ha : PoolAgrees env P zero) : ∀ (cs : List (TypedExpr × List TypedExpr)) (exit : Nat)
    (pend : Option Nat) (next next' n n' : Nat) (code : List (Instr Nat)), Expr.areCases cs = true →
    Expr.casesOk cs = true → asmCases env exit pend cs next n = .ok (code, next', n') →
    ∀ (p q : Location), CodeAt mem ρ p code q → ∀ (z : Location) (d : List TypedExpr), ρ exit = z → ρ next' = q →
    Sim mem P I q z (some z) (ExecAll env zero I d) → NotLabel mem q →
      (cs ≠ [] → Sim mem P I (ρ (caseLabels pend n).1) z (some z) (ExecAll env zero I (cs.flatMap (·.2) ++ d))) ∧
      Sim mem P I p z (some z) (ExecAll env zero I (cs.flatMap (·.2) ++ d)) ∧ ρ next = p ∧
      ∀ ty v, DispSim mem P I p z ty v (SwitchRun env zero I ty v cs d)
  | [], exit, pend, next, next', n, n', code, hv, hw, h, p, q, hc, z, d, hl, hl', hd, hnl => by
    obtain ⟨rfl, rfl, rfl⟩ := asmCases_nil h
    rw [CodeAt.nil] at hc
    subst hc
    refine ⟨fun h => absurd rfl h, hd, hl', fun ty v => (DispSim.noLabel hnl hd).congr fun s o => ?_⟩
    simp only [SwitchRun, selectCase]
    constructor
    · intro h; exact .inr ⟨[], s, rfl, h⟩
    · rintro (⟨a, h, _⟩ | ⟨rest, s', h, h'⟩)
      · cases h
      · cases h; exact h'
  | (m, b) :: cs, exit, pend, next, next', n, n', code, hv, hw, h, p, q, hc, z, d, hl, hl', hd, hnl => by
    simp only [Expr.areCases, Bool.and_eq_true] at hv
    simp only [Expr.casesOk, Bool.and_eq_true] at hw
    obtain ⟨matcher, n1, h1, hcase⟩ := asmCases_cons h
    -- what holds of both kinds of cases
    suffices hmain : ∃ rest r1 r2, code = .Target next :: .SwitchLabel (caseLabels pend n).2 (caseLabels pend n).1 ::
        (matcher ++ rest) ∧
        mem p = some ((Instr.SwitchLabel (caseLabels pend n).2 (caseLabels pend n).1).mapLoc ρ) ∧ ρ next = p ∧
        CodeAt mem ρ (p + (Instr.SwitchLabel (caseLabels pend n).2 (caseLabels pend n).1 : Instr Nat).size) matcher r1 ∧
        ρ (caseLabels pend n).2 = r2 ∧
        Sim mem P I (ρ (caseLabels pend n).1) z (some z) (ExecAll env zero I (((m, b) :: cs).flatMap (·.2) ++ d)) ∧
        ∀ ty v, DispSim mem P I r2 z ty v (SwitchRun env zero I ty v cs d) by
      obtain ⟨rest, r1, r2, _, hm, hp, hmc, hr2, hbody, hdisp⟩ := hmain
      have km := vmExpr_asm (I := I) ha m none _ _ matcher hv.1.1 h1 _ _ hmc
      refine ⟨fun _ => hbody, hbody.stepTo fun n s => vmRun_label hm rfl n s, hp, fun ty v => ?_⟩
      refine (DispSim.label (fun s => (km s).1) (fun s => (km s).2)
        (fun n s => vmDispatch_label hm (next := ρ _) (body := ρ _) rfl n s) hbody (hr2 ▸ hdisp ty v)).congr fun s o => ?_
      simp only [SwitchRun, selectCase]
      cases hev : evalE env I m s with
      | stuck => exact absurd hev (km s).2
      | abort a =>
        simp only [Res.bind]
        constructor
        · rintro (⟨a', h, rfl⟩ | ⟨w, s', h, _⟩)
          · cases h; exact .inl ⟨_, rfl, rfl⟩
          · cases h
        · rintro (⟨a', h, rfl⟩ | ⟨w, s', h, _⟩)
          · cases h; exact .inl ⟨_, rfl, rfl⟩
          · cases h
      | ok y =>
        simp only [Res.bind]
        by_cases ht : I.matches_ ty v y.1 y.2 = true
        · simp only [ht, if_true]
          constructor
          · rintro (⟨a', h, _⟩ | ⟨w, s', h, h' | ⟨h', _⟩⟩)
            · cases h
            · cases h; exact .inr ⟨_, _, rfl, h'.2⟩
            · cases h; rw [ht] at h'; cases h'
          · rintro (⟨a', h, _⟩ | ⟨rest, s', h, h'⟩)
            · cases h
            · cases h; exact .inr ⟨_, _, rfl, .inl ⟨ht, h'⟩⟩
        · simp only [ht, Bool.false_eq_true, if_false]
          have ht' : I.matches_ ty v y.1 y.2 = false := by simpa using ht
          constructor
          · rintro (⟨a', h, _⟩ | ⟨w, s', h, ⟨h', _⟩ | h'⟩)
            · cases h
            · cases h; exact absurd h' ht
            · cases h; exact h'.2
          · intro h
            exact .inr ⟨_, _, rfl, .inr ⟨ht', h⟩⟩
    rcases hcase with ⟨hempty, rest, h2, rfl⟩ | ⟨hempty, bc, n2, rest, h2, h3, rfl⟩
    · rw [CodeAt.target, CodeAt.cons rfl] at hc
      obtain ⟨hp, hm, hc⟩ := hc
      obtain ⟨r1, hc1, hc2⟩ := CodeAt.append.1 hc
      obtain ⟨k1, k2, k3, k4⟩ := cases_asm ha cs exit (some (caseLabels pend n).1) _ next' n1 n' rest hv.2 hw.2 h2 _ _ hc2
        z d hl hl' hd hnl
      refine ⟨rest, r1, r1, rfl, hm, hp, hc1, k3, ?_, k4⟩
      have hne : cs ≠ [] := by
        rintro rfl
        simp [hempty] at hw
      refine (k1 hne).congr fun s o => ?_
      rw [List.flatMap_cons, List.append_assoc, execAll_empty_append hempty]
    · rw [CodeAt.target, CodeAt.cons rfl] at hc
      obtain ⟨hp, hm, hc⟩ := hc
      obtain ⟨r1, hc1, hc2⟩ := CodeAt.append.1 hc
      rw [CodeAt.target] at hc2
      obtain ⟨hb, hc2⟩ := hc2
      obtain ⟨r2, hc2, hc3⟩ := CodeAt.append.1 hc2
      obtain ⟨_, k2, k3, k4⟩ := cases_asm ha cs exit none _ next' n2 n' rest hv.2 hw.2 h3 _ _ hc3
        z d hl hl' hd hnl
      refine ⟨_, r1, r2, rfl, hm, hp, hc1, k3, ?_, k4⟩
      have kb := seq_asm ha b (some exit) n1 n2 bc hv.1.2 hw.1.1 h2 _ _ hc2 fun ho => by
        cases cs with
        | nil =>
          obtain ⟨rfl, rfl, rfl⟩ := asmCases_nil h3
          rw [CodeAt.nil] at hc3
          exact hc3 ▸ hnl
        | cons c cs => simp [ho] at hw
      simp only [Option.map_some, hl] at kb
      rw [hb]
      refine (kb.seq k2).congr fun s o => ?_
      rw [List.flatMap_cons, List.append_assoc, execAll_append_iff]
  termination_by cs => sizeOf cs
end

end

end Redscript
