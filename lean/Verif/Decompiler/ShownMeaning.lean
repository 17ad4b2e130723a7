import Verif.Decompiler.ShownPaths

/-!
# The body that is shown is the same program
-/

namespace Redscript

section
variable {V S A : Type} {env : AsmEnv} {zero : Literal → Text} {I : Interp V S A}

/-! ### Statements without code, and statements that never go on -/

theorem ite_none {α : Type} {c : Prop} [Decidable c] {x : α} {y : Option α} (h : (if c then some x else y) = none) :
    ¬ c ∧ y = none := by
  by_cases hc : c
  · rw [if_pos hc] at h; cases h
  · rw [if_neg hc] at h; exact ⟨hc, h⟩

theorem primInit_none {name : Text} (h : env.primInit name = none) : primDefault zero name = none := by
  unfold AsmEnv.primInit at h
  obtain ⟨h1, h⟩ := ite_none h
  obtain ⟨h2, h⟩ := ite_none h
  obtain ⟨h3, h⟩ := ite_none h
  obtain ⟨h4, h⟩ := ite_none h
  obtain ⟨h5, h⟩ := ite_none h
  obtain ⟨h6, h⟩ := ite_none h
  obtain ⟨h7, h⟩ := ite_none h
  obtain ⟨h8, h⟩ := ite_none h
  obtain ⟨h9, h⟩ := ite_none h
  obtain ⟨h10, h⟩ := ite_none h
  obtain ⟨h11, h⟩ := ite_none h
  obtain ⟨h12, h⟩ := ite_none h
  obtain ⟨h13, h⟩ := ite_none h
  obtain ⟨h14, h⟩ := ite_none h
  obtain ⟨h15, h⟩ := ite_none h
  unfold primDefault
  simp only [List.find?_cons, List.find?_nil, Option.map_none,
    decide_eq_false (Ne.symm h1), decide_eq_false (Ne.symm h2), decide_eq_false (Ne.symm h3),
    decide_eq_false (Ne.symm h4), decide_eq_false (Ne.symm h5), decide_eq_false (Ne.symm h6),
    decide_eq_false (Ne.symm h7), decide_eq_false (Ne.symm h8), decide_eq_false (Ne.symm h9),
    decide_eq_false (Ne.symm h10), decide_eq_false (Ne.symm h11), decide_eq_false (Ne.symm h12),
    decide_eq_false (Ne.symm h13), decide_eq_false (Ne.symm h14), decide_eq_false (Ne.symm h15)]

theorem declare_nothing {l : Idx} {ty : TypeId} (h : env.initializer l ty = .ok []) :
    declareEffect env zero ty = .nothing := by
  cases ty <;> simp only [AsmEnv.initializer] at h <;> simp only [declareEffect] <;> try (cases h; done)
  · rename_i i
    cases hn : env.defName i with
    | error e => rfl
    | ok name =>
      rw [hn] at h
      cases hp : env.primInit name with
      | none => simp only [primInit_none (zero := zero) hp]
      | some r => cases r <;> simp [hp] at h
  · rename_i i
    cases hn : env.enumFirst i with
    | error e => rfl
    | ok m =>
      cases m with
      | none => rfl
      | some m => simp [hn] at h
  · rename_i t
    cases hn : env.typeIdx (.Array t) <;> simp [hn] at h

mutual
theorem exec_noCode : ∀ (e : TypedExpr), e.noCode env = true → ∀ {s : S} {o : Ending V S A},
    Exec env zero I e s o ↔ o = .normal s
  | .Seq es, he, s, o => by
    simp only [Expr.noCode] at he
    rw [exec_seq_iff, execAll_noCode es he]
  | .Declare l ty init, he, s, o => by
    cases init with
    | some v => simp [Expr.noCode] at he
    | none =>
      cases ty with
      | none => simp [Expr.noCode] at he
      | some ty =>
        simp only [Expr.noCode] at he
        split at he
        · rename_i hi
          have hr : runDeclare env zero I l ty s = .ok s := by simp [runDeclare, declare_nothing (zero := zero) hi]
          constructor
          · intro h
            cases h with
            | declare h => rw [hr] at h; cases h; rfl
            | declareAbort h => rw [hr] at h; cases h
            | expr h _ => cases h
            | exprAbort h _ => cases h
          · rintro rfl; exact .declare hr
        · cases he
  | .Ident _, he, _, _ => by simp [Expr.noCode] at he
  | .Constant _, he, _, _ => by simp [Expr.noCode] at he
  | .ArrayLit _ _, he, _, _ => by simp [Expr.noCode] at he
  | .InterpolatedString _ _, he, _, _ => by simp [Expr.noCode] at he
  | .Cast _ _, he, _, _ => by simp [Expr.noCode] at he
  | .Assign _ _, he, _, _ => by simp [Expr.noCode] at he
  | .Call _ _ _, he, _, _ => by simp [Expr.noCode] at he
  | .MethodCall _ _ _, he, _, _ => by simp [Expr.noCode] at he
  | .Member _ _, he, _, _ => by simp [Expr.noCode] at he
  | .ArrayElem _ _, he, _, _ => by simp [Expr.noCode] at he
  | .New _ _, he, _, _ => by simp [Expr.noCode] at he
  | .Return _, he, _, _ => by simp [Expr.noCode] at he
  | .Switch _ _ _, he, _, _ => by simp [Expr.noCode] at he
  | .If _ _ _, he, _, _ => by simp [Expr.noCode] at he
  | .Conditional _ _ _, he, _, _ => by simp [Expr.noCode] at he
  | .While _ _, he, _, _ => by simp [Expr.noCode] at he
  | .ForIn _ _ _, he, _, _ => by simp [Expr.noCode] at he
  | .BinOp _ _ _, he, _, _ => by simp [Expr.noCode] at he
  | .UnOp _ _, he, _, _ => by simp [Expr.noCode] at he
  | .Break, he, _, _ => by simp [Expr.noCode] at he
  | .Goto _, he, _, _ => by simp [Expr.noCode] at he
  | .Null, he, _, _ => by simp [Expr.noCode] at he
  | .This, he, _, _ => by simp [Expr.noCode] at he
  | .Super, he, _, _ => by simp [Expr.noCode] at he
  termination_by e => sizeOf e
theorem execAll_noCode : ∀ (es : List TypedExpr), Expr.allNoCode env es = true → ∀ {s : S} {o : Ending V S A},
    ExecAll env zero I es s o ↔ o = .normal s
  | [], _, s, o => execAll_nil_iff
  | e :: es, he, s, o => by
    simp only [Expr.allNoCode, Bool.and_eq_true] at he
    simp only [execAll_cons_iff, exec_noCode e he.1, execAll_noCode es he.2]
    constructor
    · rintro (⟨s', h1, h2⟩ | ⟨h1, h2⟩)
      · cases h1; exact h2
      · exact absurd h1 (h2 s)
    · intro h; exact .inl ⟨s, rfl, h⟩
  termination_by es => sizeOf es
end

theorem exec_switch_iff' {e : TypedExpr} {cs : List (TypedExpr × List TypedExpr)} {d : Option (List TypedExpr)}
    {s : S} {o : Ending V S A} :
    Exec env zero I (.Switch e cs d) s o ↔ (∃ a, evalE env I e s = .abort a ∧ o = .aborted a) ∨
      ∃ ty v s', env.typeOf e = .ok ty ∧ evalE env I e s = .ok (v, s') ∧
        ∃ o', SwitchRun env zero I ty v cs (d.getD []) s' o' ∧ o = o'.catchBreak := by
  constructor
  · intro h
    cases h with
    | switchAbort h => exact .inl ⟨_, h, rfl⟩
    | switchSelectAbort h1 h2 h3 => exact .inr ⟨_, _, _, h1, h2, _, .inl ⟨_, h3, rfl⟩, rfl⟩
    | switch h1 h2 h3 h4 => exact .inr ⟨_, _, _, h1, h2, _, .inr ⟨_, _, h3, h4⟩, rfl⟩
    | expr h _ => cases h
    | exprAbort h _ => cases h
  · rintro (⟨a, h, rfl⟩ | ⟨ty, v, s', h1, h2, o', ⟨a, h3, rfl⟩ | ⟨rest, s'', h3, h4⟩, rfl⟩)
    · exact .switchAbort h
    · exact .switchSelectAbort h1 h2 h3
    · exact .switch h1 h2 h3 h4

theorem selectCase_mem {ty : TypeId} {v : V} : ∀ {cs : List (TypedExpr × List TypedExpr)} {s : S}
    {rest : List (TypedExpr × List TypedExpr)} {s' : S}, selectCase env I ty v cs s = .ok (rest, s') →
    ∀ c ∈ rest, c ∈ cs
  | [], s, rest, s', h => by simp only [selectCase, Res.ok.injEq, Prod.mk.injEq] at h; simp [← h.1]
  | (m, b) :: cs, s, rest, s', h => by
    simp only [selectCase] at h
    cases hm : evalE env I m s with
    | stuck => rw [hm] at h; cases h
    | abort a => rw [hm] at h; cases h
    | ok r =>
      rw [hm] at h
      simp only [Res.bind] at h
      split at h
      · simp only [Res.ok.injEq, Prod.mk.injEq] at h; rw [← h.1]; exact fun c hc => hc
      · exact fun c hc => List.mem_cons_of_mem _ (selectCase_mem h c hc)

theorem anyStrayBreak_append (es fs : List TypedExpr) :
    Expr.anyStrayBreak (es ++ fs) = (Expr.anyStrayBreak es || Expr.anyStrayBreak fs) := by
  induction es with
  | nil => rfl
  | cons e es ih => simp only [List.cons_append, Expr.anyStrayBreak, ih, Bool.or_assoc]

theorem notEarly_mem {cs : List (TypedExpr × List TypedExpr)} (h : breaksEarly true cs = false) :
    ∀ c ∈ cs, Expr.anyStrayBreak c.2 = false := by
  induction cs with
  | nil => intro c hc; cases hc
  | cons c cs ih =>
    obtain ⟨m, b⟩ := c
    simp only [breaksEarly, Bool.true_or, Bool.and_true, Bool.or_eq_false_iff] at h
    intro c hc
    rcases List.mem_cons.1 hc with rfl | hc
    · exact h.1
    · exact ih h.2 c hc

theorem flat_noBreak {rest : List (TypedExpr × List TypedExpr)} (h : ∀ c ∈ rest, Expr.anyStrayBreak c.2 = false) :
    Expr.anyStrayBreak (rest.flatMap (·.2)) = false := by
  induction rest with
  | nil => rfl
  | cons c cs ih =>
    rw [List.flatMap_cons, anyStrayBreak_append, h c List.mem_cons_self, ih fun c hc => h c (List.mem_cons_of_mem _ hc)]
    rfl

theorem catchBreak_id {o : Ending V S A} (h : ∀ s, o ≠ .broke s) : o.catchBreak = o := by
  cases o with
  | broke s => exact absurd rfl (h s)
  | _ => rfl

/-- Without any `break`, a switch does what its cases and its default do. -/
theorem switch_unbroken {e : TypedExpr} {cs : List (TypedExpr × List TypedExpr)} {d : List TypedExpr}
    (hc : breaksEarly true cs = false) (hd : Expr.anyStrayBreak d = false) {s : S} {o : Ending V S A} :
    Exec env zero I (.Switch e cs (some d)) s o ↔ (∃ a, evalE env I e s = .abort a ∧ o = .aborted a) ∨
      ∃ ty v s', env.typeOf e = .ok ty ∧ evalE env I e s = .ok (v, s') ∧ SwitchRun env zero I ty v cs d s' o := by
  have hid : ∀ ty v s' o', SwitchRun env zero I ty v cs d s' o' → o'.catchBreak = o' := by
    rintro ty v s' o' (⟨a, _, rfl⟩ | ⟨rest, s'', h1, h2⟩)
    · rfl
    · refine catchBreak_id (execAll_not_broke _ ?_ h2)
      rw [anyStrayBreak_append, hd, Bool.or_false]
      exact flat_noBreak fun c h => notEarly_mem hc c (selectCase_mem h1 c h)
  rw [exec_switch_iff']
  refine or_congr Iff.rfl ⟨?_, ?_⟩
  · rintro ⟨ty, v, s', h1, h2, o', h3, rfl⟩
    rw [hid _ _ _ _ h3]
    exact ⟨ty, v, s', h1, h2, h3⟩
  · rintro ⟨ty, v, s', h1, h2, h3⟩
    exact ⟨ty, v, s', h1, h2, o, h3, (hid _ _ _ _ h3).symm⟩

/-- Without any `break`, what stands at the end of the default may stand behind the switch. -/
theorem switch_spills {e : TypedExpr} {cs : List (TypedExpr × List TypedExpr)} {d : TypedExpr} {ds : List TypedExpr}
    (hc : breaksEarly true cs = false) (hd : Expr.anyStrayBreak (d :: ds) = false) {s : S} {o : Ending V S A} :
    Exec env zero I (.Switch e cs (some (d :: ds))) s o ↔ ExecAll env zero I (.Switch e cs (some [d]) :: ds) s o := by
  have hd1 : Expr.anyStrayBreak [d] = false := by
    simp only [Expr.anyStrayBreak, Bool.or_eq_false_iff] at hd ⊢
    exact ⟨hd.1, trivial⟩
  have hr : ∀ {rest : List (TypedExpr × List TypedExpr)} {s : S} {o : Ending V S A},
      ExecAll env zero I (rest.flatMap (·.2) ++ d :: ds) s o ↔
        (∃ s', ExecAll env zero I (rest.flatMap (·.2) ++ [d]) s (.normal s') ∧ ExecAll env zero I ds s' o) ∨
          (ExecAll env zero I (rest.flatMap (·.2) ++ [d]) s o ∧ ∀ s', o ≠ .normal s') := by
    intro rest s o
    rw [← execAll_append_iff]
    simp
  rw [execAll_cons_iff, switch_unbroken hc hd]
  simp only [switch_unbroken hc hd1]
  constructor
  · rintro (⟨a, h, rfl⟩ | ⟨ty, v, s', h1, h2, ⟨a, h3, rfl⟩ | ⟨rest, s'', h3, h4⟩⟩)
    · exact .inr ⟨.inl ⟨a, h, rfl⟩, by intro _ h; cases h⟩
    · exact .inr ⟨.inr ⟨ty, v, s', h1, h2, .inl ⟨a, h3, rfl⟩⟩, by intro _ h; cases h⟩
    · rcases hr.1 h4 with ⟨s1, h5, h6⟩ | ⟨h5, h6⟩
      · exact .inl ⟨s1, .inr ⟨ty, v, s', h1, h2, .inr ⟨rest, s'', h3, h5⟩⟩, h6⟩
      · exact .inr ⟨.inr ⟨ty, v, s', h1, h2, .inr ⟨rest, s'', h3, h5⟩⟩, h6⟩
  · rintro (⟨s1, ⟨a, _, h⟩ | ⟨ty, v, s', h1, h2, ⟨a, _, h⟩ | ⟨rest, s'', h3, h4⟩⟩, h6⟩ |
      ⟨⟨a, h, rfl⟩ | ⟨ty, v, s', h1, h2, ⟨a, h3, rfl⟩ | ⟨rest, s'', h3, h4⟩⟩, h6⟩)
    · cases h
    · cases h
    · exact .inr ⟨ty, v, s', h1, h2, .inr ⟨rest, s'', h3, hr.2 (.inl ⟨s1, h4, h6⟩)⟩⟩
    · exact .inl ⟨a, h, rfl⟩
    · exact .inr ⟨ty, v, s', h1, h2, .inl ⟨a, h3, rfl⟩⟩
    · exact .inr ⟨ty, v, s', h1, h2, .inr ⟨rest, s'', h3, hr.2 (.inr ⟨h4, h6⟩)⟩⟩

mutual
theorem exec_stops : ∀ (e : TypedExpr), e.stops = true → ∀ {s s' : S}, ¬ Exec env zero I e s (.normal s')
  | .Return r, _, s, s' => by intro h; cases h; rename_i h _; cases h
  | .Break, _, s, s' => by intro h; cases h; rename_i h _; cases h
  | .Seq es, he, s, s' => by
    simp only [Expr.stops] at he
    rw [exec_seq_iff]; exact execAll_stops es he
  | .If c t e, he, s, s' => by
    cases e with
    | none => simp [Expr.stops] at he
    | some e =>
      simp only [Expr.stops, Bool.and_eq_true] at he
      rw [exec_if_iff]
      rintro (⟨a, _, h⟩ | ⟨v, s1, _, ⟨_, h⟩ | ⟨_, h⟩⟩)
      · cases h
      · exact execAll_stops t he.1 h
      · exact execAll_stops e he.2 h
  | .Declare _ _ _, he, _, _ => by simp [Expr.stops] at he
  | .Ident _, he, _, _ => by simp [Expr.stops] at he
  | .Constant _, he, _, _ => by simp [Expr.stops] at he
  | .ArrayLit _ _, he, _, _ => by simp [Expr.stops] at he
  | .InterpolatedString _ _, he, _, _ => by simp [Expr.stops] at he
  | .Cast _ _, he, _, _ => by simp [Expr.stops] at he
  | .Assign _ _, he, _, _ => by simp [Expr.stops] at he
  | .Call _ _ _, he, _, _ => by simp [Expr.stops] at he
  | .MethodCall _ _ _, he, _, _ => by simp [Expr.stops] at he
  | .Member _ _, he, _, _ => by simp [Expr.stops] at he
  | .ArrayElem _ _, he, _, _ => by simp [Expr.stops] at he
  | .New _ _, he, _, _ => by simp [Expr.stops] at he
  | .Switch e cs d, he, s, s' => by
    match d, he with
    | none, he => simp [Expr.stops] at he
    | some [], he => simp [Expr.stops] at he
    | some (d :: ds), he =>
      simp only [Expr.stops, Bool.and_eq_true, Bool.not_eq_true'] at he
      rw [switch_spills he.1.1 he.1.2, execAll_cons_iff]
      rintro (⟨s1, _, h⟩ | ⟨_, h⟩)
      · exact execAll_stops ds he.2 h
      · exact h s' rfl
  | .Conditional _ _ _, he, _, _ => by simp [Expr.stops] at he
  | .While _ _, he, _, _ => by simp [Expr.stops] at he
  | .ForIn _ _ _, he, _, _ => by simp [Expr.stops] at he
  | .BinOp _ _ _, he, _, _ => by simp [Expr.stops] at he
  | .UnOp _ _, he, _, _ => by simp [Expr.stops] at he
  | .Goto _, he, _, _ => by simp [Expr.stops] at he
  | .Null, he, _, _ => by simp [Expr.stops] at he
  | .This, he, _, _ => by simp [Expr.stops] at he
  | .Super, he, _, _ => by simp [Expr.stops] at he
  termination_by e => sizeOf e
theorem execAll_stops : ∀ (es : List TypedExpr), Expr.stopsAny es = true → ∀ {s s' : S},
    ¬ ExecAll env zero I es s (.normal s')
  | [], he, _, _ => by simp [Expr.stopsAny] at he
  | e :: es, he, s, s' => by
    simp only [Expr.stopsAny, Bool.or_eq_true] at he
    rw [execAll_cons_iff]
    rintro (⟨s1, h1, h2⟩ | ⟨h1, h2⟩)
    · rcases he with he | he
      · exact exec_stops e he h1
      · exact execAll_stops es he h2
    · exact h2 s' rfl
  termination_by es => sizeOf es
end

/-! ### The same, up to a `break` at the end -/

/-- What can be told of an ending: at the end of a switch, `break` and going on are the same. -/
def seenEnd (w : TailPos) (o : Ending V S A) : Ending V S A := if w = .inner then o else o.catchBreak

/-- Everything the first may do is done by the second. -/
def EndsAs (w : TailPos) (P Q : S → Ending V S A → Prop) : Prop :=
  ∀ s o, P s o → ∃ o', Q s o' ∧ seenEnd w o' = seenEnd w o

/-- In both directions. -/
def BothEnds (w : TailPos) (P Q : S → Ending V S A → Prop) : Prop := EndsAs w P Q ∧ EndsAs w Q P

theorem EndsAs.of_imp {w : TailPos} {P Q : S → Ending V S A → Prop} (h : ∀ s o, P s o → Q s o) : EndsAs w P Q :=
  fun s o hp => ⟨o, h s o hp, rfl⟩

theorem BothEnds.of_iff {w : TailPos} {P Q : S → Ending V S A → Prop} (h : ∀ s o, P s o ↔ Q s o) : BothEnds w P Q :=
  ⟨.of_imp fun s o => (h s o).1, .of_imp fun s o => (h s o).2⟩

theorem BothEnds.symm {w : TailPos} {P Q : S → Ending V S A → Prop} (h : BothEnds w P Q) : BothEnds w Q P := ⟨h.2, h.1⟩

theorem EndsAs.trans {w : TailPos} {P Q R : S → Ending V S A → Prop} (h : EndsAs w P Q) (h' : EndsAs w Q R) :
    EndsAs w P R := by
  intro s o hp
  obtain ⟨o1, h1, h2⟩ := h s o hp
  obtain ⟨o2, h3, h4⟩ := h' s o1 h1
  exact ⟨o2, h3, h4.trans h2⟩

theorem BothEnds.trans {w : TailPos} {P Q R : S → Ending V S A → Prop} (h : BothEnds w P Q) (h' : BothEnds w Q R) :
    BothEnds w P R := ⟨h.1.trans h'.1, h'.2.trans h.2⟩

theorem EndsAs.inner {P Q : S → Ending V S A → Prop} (h : EndsAs .inner P Q) : ∀ s o, P s o → Q s o := by
  intro s o hp
  obtain ⟨o', h1, h2⟩ := h s o hp
  simp only [seenEnd, if_true] at h2
  rw [← h2]; exact h1

theorem BothEnds.inner {P Q : S → Ending V S A → Prop} (h : BothEnds .inner P Q) : ∀ s o, P s o ↔ Q s o :=
  fun s o => ⟨h.1.inner s o, h.2.inner s o⟩

theorem BothEnds.weaken {w : TailPos} {P Q : S → Ending V S A → Prop} (h : BothEnds .inner P Q) : BothEnds w P Q :=
  .of_iff h.inner

theorem seenEnd_catch {w : TailPos} {o o' : Ending V S A} (h : seenEnd w o = seenEnd w o') :
    o.catchBreak = o'.catchBreak := by
  unfold seenEnd at h
  split at h
  · rw [h]
  · exact h

theorem EndsAs.catch {w w' : TailPos} {P Q : S → Ending V S A → Prop} (hw : w' ≠ .inner) (h : EndsAs w P Q) :
    EndsAs w' P Q := by
  intro s o hp
  obtain ⟨o', h1, h2⟩ := h s o hp
  exact ⟨o', h1, by simp only [seenEnd, if_neg hw]; exact seenEnd_catch h2⟩

theorem EndsAs.append {w : TailPos} {a a' b b' : List TypedExpr}
    (h1 : EndsAs .inner (ExecAll env zero I a) (ExecAll env zero I a'))
    (h2 : EndsAs w (ExecAll env zero I b) (ExecAll env zero I b')) :
    EndsAs w (ExecAll env zero I (a ++ b)) (ExecAll env zero I (a' ++ b')) := by
  intro s o h
  simp only [execAll_append_iff] at h ⊢
  rcases h with ⟨s', h3, h4⟩ | ⟨h3, h4⟩
  · obtain ⟨o', h5, h6⟩ := h2 s' o h4
    exact ⟨o', .inl ⟨s', h1.inner _ _ h3, h5⟩, h6⟩
  · exact ⟨o, .inr ⟨h1.inner _ _ h3, h4⟩, rfl⟩

theorem BothEnds.append {w : TailPos} {a a' b b' : List TypedExpr}
    (h1 : BothEnds .inner (ExecAll env zero I a) (ExecAll env zero I a'))
    (h2 : BothEnds w (ExecAll env zero I b) (ExecAll env zero I b')) :
    BothEnds w (ExecAll env zero I (a ++ b)) (ExecAll env zero I (a' ++ b')) :=
  ⟨h1.1.append h2.1, h1.2.append h2.2⟩

theorem EndsAs.if_ {w : TailPos} {c : TypedExpr} {t t' : List TypedExpr} {e e' : Option (List TypedExpr)}
    (h1 : EndsAs w (ExecAll env zero I t) (ExecAll env zero I t'))
    (h2 : EndsAs w (ExecAll env zero I (e.getD [])) (ExecAll env zero I (e'.getD []))) :
    EndsAs w (Exec env zero I (.If c t e)) (Exec env zero I (.If c t' e')) := by
  intro s o h
  simp only [exec_if_iff] at h ⊢
  rcases h with h | ⟨v, s', h3, ⟨h4, h5⟩ | ⟨h4, h5⟩⟩
  · exact ⟨o, .inl h, rfl⟩
  · obtain ⟨o', h6, h7⟩ := h1 s' o h5
    exact ⟨o', .inr ⟨v, s', h3, .inl ⟨h4, h6⟩⟩, h7⟩
  · obtain ⟨o', h6, h7⟩ := h2 s' o h5
    exact ⟨o', .inr ⟨v, s', h3, .inr ⟨h4, h6⟩⟩, h7⟩

theorem BothEnds.if_ {w : TailPos} {c : TypedExpr} {t t' : List TypedExpr} {e e' : Option (List TypedExpr)}
    (h1 : BothEnds w (ExecAll env zero I t) (ExecAll env zero I t'))
    (h2 : BothEnds w (ExecAll env zero I (e.getD [])) (ExecAll env zero I (e'.getD []))) :
    BothEnds w (Exec env zero I (.If c t e)) (Exec env zero I (.If c t' e')) :=
  ⟨h1.1.if_ h2.1, h1.2.if_ h2.2⟩

theorem execAll_alone {e : TypedExpr} {s : S} {o : Ending V S A} :
    ExecAll env zero I [e] s o ↔ Exec env zero I e s o := by
  simp only [execAll_cons_iff, execAll_nil_iff]
  constructor
  · rintro (⟨s', h1, rfl⟩ | ⟨h1, _⟩) <;> exact h1
  · intro h
    cases o with
    | normal s' => exact .inl ⟨s', h, rfl⟩
    | _ => exact .inr ⟨h, by intro _ h; cases h⟩

theorem BothEnds.one {w : TailPos} {e e' : TypedExpr} (h : BothEnds w (Exec env zero I e) (Exec env zero I e')) :
    BothEnds w (Exec env zero I e) (ExecAll env zero I [e']) :=
  h.trans (.of_iff fun _ _ => execAll_alone.symm)

/-- What stands behind a branch is done after it. -/
theorem if_behind {c : TypedExpr} {t e : List TypedExpr} {s : S} {o : Ending V S A} :
    Exec env zero I (.If c (t ++ e) (some e)) s o ↔ ExecAll env zero I (.If c t none :: e) s o := by
  simp only [execAll_cons_iff, exec_if_iff, execAll_append_iff, Option.getD_some, Option.getD_none, execAll_nil_iff]
  constructor
  · rintro (⟨a, h1, rfl⟩ | ⟨v, s', h1, ⟨h2, ⟨s2, h3, h4⟩ | ⟨h3, h4⟩⟩ | ⟨h2, h3⟩⟩)
    · exact .inr ⟨.inl ⟨a, h1, rfl⟩, by intro _ h; cases h⟩
    · exact .inl ⟨s2, .inr ⟨v, s', h1, .inl ⟨h2, h3⟩⟩, h4⟩
    · exact .inr ⟨.inr ⟨v, s', h1, .inl ⟨h2, h3⟩⟩, h4⟩
    · exact .inl ⟨s', .inr ⟨v, s', h1, .inr ⟨h2, rfl⟩⟩, h3⟩
  · rintro (⟨s2, ⟨a, _, h⟩ | ⟨v, s', h1, ⟨h2, h3⟩ | ⟨h2, h3⟩⟩, h4⟩ | ⟨⟨a, h1, rfl⟩ | ⟨v, s', h1, ⟨h2, h3⟩ | ⟨h2, h3⟩⟩, h4⟩)
    · cases h
    · exact .inr ⟨v, s', h1, .inl ⟨h2, .inl ⟨s2, h3, h4⟩⟩⟩
    · cases h3; exact .inr ⟨v, _, h1, .inr ⟨h2, h4⟩⟩
    · exact .inl ⟨a, h1, rfl⟩
    · exact .inr ⟨v, s', h1, .inl ⟨h2, .inr ⟨h3, h4⟩⟩⟩
    · exact absurd h3 (h4 s')

/-- What stands behind statements that never go on is not done. -/
theorem both_stops {t e : List TypedExpr} (ht : ∀ s s', ¬ ExecAll env zero I t s (.normal s')) {s : S} {o : Ending V S A} :
    ExecAll env zero I t s o ↔ ExecAll env zero I (t ++ e) s o := by
  rw [execAll_append_iff]
  constructor
  · intro h
    exact .inr ⟨h, by rintro s' rfl; exact ht _ _ h⟩
  · rintro (⟨s', h, _⟩ | ⟨h, _⟩)
    · exact absurd h (ht _ _)
    · exact h

theorem execAll_then_empty {t : List TypedExpr} {s : S} {o : Ending V S A} :
    ExecAll env zero I t s o ↔ ExecAll env zero I (t ++ [.Seq []]) s o := by
  have he : ∀ s o, ExecAll env zero I [.Seq []] s o ↔ o = .normal s := fun s o => execAll_empty [.Seq []] rfl
  simp only [execAll_append_iff, he]
  constructor
  · intro h
    cases o with
    | normal s' => exact .inl ⟨s', h, rfl⟩
    | _ => exact .inr ⟨h, by intro _ h; cases h⟩
  · rintro (⟨s', h, rfl⟩ | ⟨h, _⟩) <;> exact h

/-- A `break` at the end of a switch does the same as going on. -/
theorem both_break {w : TailPos} (hw : w ≠ .inner) {t e : List TypedExpr} :
    BothEnds w (ExecAll env zero I t) (ExecAll env zero I ((t ++ [.Break]) ++ e)) := by
  have hb : ∀ s o, ExecAll env zero I [.Break] s o ↔ o = .broke s := by
    intro s o
    rw [execAll_alone]
    constructor
    · intro h
      cases h with
      | break_ => rfl
      | expr h _ => cases h
      | exprAbort h _ => cases h
    · rintro rfl; exact .break_
  have hs : ∀ s s', ¬ ExecAll env zero I (t ++ [.Break]) s (.normal s') := by
    intro s s'
    simp only [execAll_append_iff, hb]
    rintro (⟨_, _, h⟩ | ⟨_, h⟩)
    · cases h
    · exact h _ rfl
  refine BothEnds.trans ?_ (.of_iff fun s o => both_stops hs)
  constructor
  · intro s o h
    simp only [execAll_append_iff, hb, seenEnd, if_neg hw]
    cases o with
    | normal s' => exact ⟨.broke s', .inl ⟨s', h, rfl⟩, rfl⟩
    | _ => exact ⟨_, .inr ⟨h, by intro _ h; cases h⟩, rfl⟩
  · intro s o h
    simp only [execAll_append_iff, hb] at h
    simp only [seenEnd, if_neg hw]
    rcases h with ⟨s', h, rfl⟩ | ⟨h, _⟩
    · exact ⟨_, h, rfl⟩
    · exact ⟨_, h, rfl⟩

theorem loop_congr {ev : S → Res A (V × S)} {B B' : S → Ending V S A → Prop} (h : ∀ s o, B s o → B' s o) {s : S}
    {o : Ending V S A} (hl : Loop I ev B s o) : Loop I ev B' s o := by
  induction hl with
  | abort h1 => exact .abort h1
  | done h1 h2 => exact .done h1 h2
  | next h1 h2 h3 _ ih => exact .next h1 h2 (h _ _ h3) ih
  | leave h1 h2 h3 h4 => exact .leave h1 h2 (h _ _ h3) h4

/-! ### Switches -/

theorem selectCase_shown {ty : TypeId} {v : V} {w : TailPos} : ∀ (cs : List (TypedExpr × List TypedExpr)) (s : S),
    selectCase env I ty v (shownCases env w cs) s =
      (selectCase env I ty v cs s).bind fun r => .ok (shownCases env w r.1, r.2)
  | [], s => by simp only [shownCases, selectCase, Res.bind]
  | (m, b) :: cs, s => by
    simp only [shownCases, selectCase]
    cases evalE env I m s with
    | stuck => rfl
    | abort a => rfl
    | ok r =>
      simp only [Res.bind]
      split
      · simp only [shownCases]
      · exact selectCase_shown cs r.2

/-- A later part of a list of cases. -/
theorem both_rest {w w' : TailPos} {d d' : List TypedExpr} (hw : d ≠ [] ∨ d' ≠ [] → w = .inner)
    (hd : BothEnds w' (ExecAll env zero I d) (ExecAll env zero I d')) :
    ∀ (cs : List (TypedExpr × List TypedExpr)),
      (∀ c ∈ cs, ∀ w, BothEnds w (ExecAll env zero I c.2) (ExecAll env zero I (shownAll env w c.2))) →
      BothEnds .last (ExecAll env zero I (cs.flatMap (·.2) ++ d))
        (ExecAll env zero I ((shownCases env w cs).flatMap (·.2) ++ d'))
  | [], _ => by
    simp only [shownCases, List.flatMap_nil, List.nil_append]
    exact ⟨hd.1.catch (by decide), hd.2.catch (by decide)⟩
  | (m, b) :: cs, h => by
    simp only [shownCases, List.flatMap_cons, List.append_assoc]
    have hb := h (m, b) List.mem_cons_self
    have ih := both_rest hw hd cs fun c hc => h c (List.mem_cons_of_mem _ hc)
    cases hc : cs with
    | cons c cs' =>
      rw [hc] at ih
      exact (hb .inner).append ih
    | nil =>
      simp only [List.isEmpty_nil, if_true, shownCases, List.flatMap_nil, List.nil_append]
      by_cases hn : d = [] ∧ d' = []
      · rw [hn.1, hn.2, List.append_nil, List.append_nil]
        have := hb w
        exact ⟨this.1.catch (by decide), this.2.catch (by decide)⟩
      · have : w = .inner := hw (by by_cases h1 : d = []; exact .inr fun h2 => hn ⟨h1, h2⟩; exact .inl h1)
        subst this
        refine (hb .inner).append ⟨hd.1.catch (by decide), hd.2.catch (by decide)⟩

theorem exec_switch_both {e : TypedExpr} {cs cs' : List (TypedExpr × List TypedExpr)} {d d' : Option (List TypedExpr)}
    (h : ∀ ty v, EndsAs .last (SwitchRun env zero I ty v cs (d.getD [])) (SwitchRun env zero I ty v cs' (d'.getD []))) :
    EndsAs .inner (Exec env zero I (.Switch e cs d)) (Exec env zero I (.Switch e cs' d')) := by
  refine .of_imp fun s o hx => ?_
  cases hty : env.typeOf e with
  | error x =>
    cases hx with
    | switchAbort h => exact .switchAbort h
    | switchSelectAbort h => rw [hty] at h; cases h
    | switch h => rw [hty] at h; cases h
    | expr h _ => cases h
    | exprAbort h _ => cases h
  | ok ty =>
    rw [exec_switch_iff hty] at hx ⊢
    obtain ⟨o', ⟨a, h1, rfl⟩ | ⟨v, s', h1, h2⟩, rfl⟩ := hx
    · exact ⟨_, .inl ⟨a, h1, rfl⟩, rfl⟩
    · obtain ⟨o2, h3, h4⟩ := h ty v s' o' h2
      exact ⟨o2, .inr ⟨v, s', h1, h3⟩, by simpa [seenEnd] using h4.symm⟩

theorem both_switch {e : TypedExpr} {cs : List (TypedExpr × List TypedExpr)} {d d' : Option (List TypedExpr)} {w w' : TailPos}
    (hw : d ≠ none ∨ d' ≠ none → w = .inner)
    (hd : BothEnds w' (ExecAll env zero I (d.getD [])) (ExecAll env zero I (d'.getD [])))
    (hc : ∀ c ∈ cs, ∀ w, BothEnds w (ExecAll env zero I c.2) (ExecAll env zero I (shownAll env w c.2))) :
    BothEnds .inner (Exec env zero I (.Switch e cs d)) (Exec env zero I (.Switch e (shownCases env w cs) d')) := by
  have hr : ∀ ty v, BothEnds .last (SwitchRun env zero I ty v cs (d.getD []))
      (SwitchRun env zero I ty v (shownCases env w cs) (d'.getD [])) := by
    intro ty v
    have hb : ∀ rest : List (TypedExpr × List TypedExpr), (∀ c ∈ rest, c ∈ cs) →
        BothEnds .last (ExecAll env zero I (rest.flatMap (·.2) ++ d.getD []))
          (ExecAll env zero I ((shownCases env w rest).flatMap (·.2) ++ d'.getD [])) := by
      intro rest hm
      refine both_rest (w' := w') ?_ ?_ rest fun c h => hc c (hm c h)
      · intro h
        refine hw ?_
        rcases h with h | h
        · exact .inl fun hn => h (by rw [hn]; rfl)
        · exact .inr fun hn => h (by rw [hn]; rfl)
      · exact hd
    constructor
    · intro s o h
      rcases h with ⟨a, h1, rfl⟩ | ⟨rest, s', h1, h2⟩
      · exact ⟨_, .inl ⟨a, by rw [selectCase_shown, h1]; rfl, rfl⟩, rfl⟩
      · obtain ⟨o', h3, h4⟩ := (hb rest (selectCase_mem h1)).1 s' o h2
        exact ⟨o', .inr ⟨shownCases env w rest, s', by rw [selectCase_shown, h1]; rfl, h3⟩, h4⟩
    · intro s o h
      rcases h with ⟨a, h1, rfl⟩ | ⟨rest', s', h1, h2⟩
      · rw [selectCase_shown] at h1
        cases hs : selectCase env I ty v cs s with
        | stuck => rw [hs] at h1; cases h1
        | ok r => rw [hs] at h1; cases h1
        | abort b => rw [hs] at h1; cases h1; exact ⟨_, .inl ⟨_, hs, rfl⟩, rfl⟩
      · rw [selectCase_shown] at h1
        cases hs : selectCase env I ty v cs s with
        | stuck => rw [hs] at h1; cases h1
        | abort r => rw [hs] at h1; cases h1
        | ok r =>
          obtain ⟨rest, s1⟩ := r
          rw [hs] at h1
          cases h1
          obtain ⟨o', h3, h4⟩ := (hb rest (selectCase_mem hs)).2 _ o h2
          exact ⟨o', .inr ⟨rest, _, hs, h3⟩, h4⟩
  exact ⟨exec_switch_both fun ty v => (hr ty v).1, exec_switch_both fun ty v => (hr ty v).2⟩

/-! ### Statements -/

theorem both_same {e : TypedExpr} {w : TailPos} : BothEnds w (Exec env zero I e) (ExecAll env zero I [e]) :=
  .of_iff fun _ _ => execAll_alone.symm

mutual
theorem both_stmt : ∀ (e : TypedExpr) (w : TailPos),
    BothEnds w (Exec env zero I e) (ExecAll env zero I (shownStmt env w e))
  | .Declare l ty init, w => by
    cases init with
    | some v =>
      simp only [shownStmt]
      refine .of_iff fun s o => ?_
      rw [execAll_alone]
      constructor
      · intro h
        cases h with
        | declareInit h => exact h
        | expr h _ => cases h
        | exprAbort h _ => cases h
      · exact .declareInit
    | none =>
      simp only [shownStmt]
      split
      · rename_i h
        exact .of_iff fun s o => by rw [exec_noCode _ h, execAll_nil_iff]
      · exact both_same
  | .Break, w => by
    simp only [shownStmt]
    split
    · exact both_same
    · rename_i hw
      have he : ∀ s o, ExecAll env zero I [.Seq []] s o ↔ o = .normal s := fun s o => execAll_empty [.Seq []] rfl
      constructor
      · intro s o h
        cases h with
        | break_ => exact ⟨.normal s, (he _ _).2 rfl, by simp [seenEnd, hw, Ending.catchBreak]⟩
        | expr h _ => cases h
        | exprAbort h _ => cases h
      · intro s o h
        cases (he _ _).1 h
        exact ⟨.broke s, .break_, by simp [seenEnd, hw, Ending.catchBreak]⟩
  | .Seq es, w => by
    simp only [shownStmt]
    exact .trans (.of_iff fun _ _ => exec_seq_iff) (both_all es w)
  | .If c t e, w => by
    cases e with
    | none =>
      simp only [shownStmt]
      exact .one (.if_ (both_all t w) (.of_iff fun _ _ => Iff.rfl))
    | some e =>
      have ht := both_all t .inner
      have he := both_all e w
      have hempty : BothEnds w (ExecAll env zero I t) (ExecAll env zero I (shownAll env .inner t ++ [.Seq []])) :=
        .trans ht.weaken (.of_iff fun _ _ => execAll_then_empty)
      simp only [shownStmt]
      split
      · rename_i hs
        refine .trans (.if_ (t' := shownAll env .inner t ++ shownAll env w e) (e' := some (shownAll env w e)) ?_ he)
          (.of_iff fun _ _ => if_behind)
        refine .trans ht.weaken (.of_iff fun s o => both_stops fun s s' h => ?_)
        exact execAll_stops t hs (ht.2.inner _ _ h)
      · split
        · rename_i hn
          refine .one (.if_ hempty (.of_iff fun s o => ?_))
          simp only [Option.getD_some, Option.getD_none, execAll_nil_iff, execAll_noCode e hn]
        · split
          · rename_i hw
            refine .trans (.if_ (t' := (shownAll env .inner t ++ [.Break]) ++ shownAll env w e)
              (e' := some (shownAll env w e)) ?_ he) (.of_iff fun _ _ => if_behind)
            exact .trans ht.weaken (both_break (by rw [hw]; decide))
          · exact .one (.if_ hempty he)
  | .While c b, w => by
    simp only [shownStmt]
    have hb := both_all b .inner
    have hb : ∀ s o, ExecAll env zero I b s o ↔ ExecAll env zero I (shownAll env .inner b ++ [.Seq []]) s o :=
      fun s o => (hb.inner s o).trans execAll_then_empty
    refine .one (.of_iff fun s o => ?_)
    rw [exec_while_iff, exec_while_iff]
    exact ⟨loop_congr fun s o => (hb s o).1, loop_congr fun s o => (hb s o).2⟩
  | .Switch e cs d, w => by
    have hc : ∀ c ∈ cs, ∀ w, BothEnds w (ExecAll env zero I c.2) (ExecAll env zero I (shownAll env w c.2)) := by
      intro c hc w
      have : sizeOf c.2 < sizeOf cs := by
        have h1 := List.sizeOf_lt_of_mem hc
        have h2 : sizeOf c = 1 + sizeOf c.1 + sizeOf c.2 := by cases c; rfl
        omega
      exact both_all c.2 w
    match d with
    | none =>
      simp only [shownStmt]
      refine .one (BothEnds.weaken (both_switch (w' := .inner) ?_ (.of_iff fun _ _ => Iff.rfl) hc))
      rintro (h | h) <;> exact absurd rfl h
    | some [] =>
      simp only [shownStmt]
      exact .one (BothEnds.weaken (both_switch (w' := .inner) (fun _ => rfl) (.of_iff fun _ _ => Iff.rfl) hc))
    | some (d :: ds) =>
      simp only [shownStmt]
      split
      · exact .one (BothEnds.weaken (both_switch (fun _ => rfl) (both_all (d :: ds) .known) hc))
      · rename_i hb
        rw [Bool.not_eq_true] at hb
        split
        · exact .one (BothEnds.weaken (both_switch (fun _ => rfl) (both_all (d :: ds) .inner) hc))
        · rename_i hs
          rw [Bool.not_eq_true] at hs
          refine .trans (.of_iff fun _ _ => switch_spills hb hs) ?_
          refine BothEnds.append (a := [.Switch e cs (some [d])]) (a' := [_]) ?_ (both_all ds w)
          refine .trans (.of_iff fun _ _ => execAll_alone) (.one (both_switch (w' := .inner) (fun _ => rfl) ?_ hc))
          exact .trans (.of_iff fun _ _ => execAll_alone) (both_stmt d .inner)
  | .Ident _, w => by simp only [shownStmt]; exact both_same
  | .Constant _, w => by simp only [shownStmt]; exact both_same
  | .ArrayLit _ _, w => by simp only [shownStmt]; exact both_same
  | .InterpolatedString _ _, w => by simp only [shownStmt]; exact both_same
  | .Cast _ _, w => by simp only [shownStmt]; exact both_same
  | .Assign _ _, w => by simp only [shownStmt]; exact both_same
  | .Call _ _ _, w => by simp only [shownStmt]; exact both_same
  | .MethodCall _ _ _, w => by simp only [shownStmt]; exact both_same
  | .Member _ _, w => by simp only [shownStmt]; exact both_same
  | .ArrayElem _ _, w => by simp only [shownStmt]; exact both_same
  | .New _ _, w => by simp only [shownStmt]; exact both_same
  | .Return _, w => by simp only [shownStmt]; exact both_same
  | .Conditional _ _ _, w => by simp only [shownStmt]; exact both_same
  | .ForIn _ _ _, w => by simp only [shownStmt]; exact both_same
  | .BinOp _ _ _, w => by simp only [shownStmt]; exact both_same
  | .UnOp _ _, w => by simp only [shownStmt]; exact both_same
  | .Goto _, w => by simp only [shownStmt]; exact both_same
  | .Null, w => by simp only [shownStmt]; exact both_same
  | .This, w => by simp only [shownStmt]; exact both_same
  | .Super, w => by simp only [shownStmt]; exact both_same
  termination_by e => sizeOf e
theorem both_all : ∀ (es : List TypedExpr) (w : TailPos),
    BothEnds w (ExecAll env zero I es) (ExecAll env zero I (shownAll env w es))
  | [], w => by simp only [shownAll]; exact .of_iff fun _ _ => Iff.rfl
  | e :: es, w => by
    simp only [shownAll]
    have hes := both_all es w
    split
    · rename_i hn
      have h1 := both_stmt e w
      have h2 : ∀ s o, ExecAll env zero I es s o ↔ o = .normal s := fun s o => execAll_noCode es hn
      have h3 : ∀ s o, ExecAll env zero I (e :: es) s o ↔ Exec env zero I e s o := by
        intro s o
        simp only [execAll_cons_iff, h2]
        constructor
        · rintro (⟨s', h1, rfl⟩ | ⟨h1, _⟩) <;> exact h1
        · intro h
          cases o with
          | normal s' => exact .inl ⟨s', h, rfl⟩
          | _ => exact .inr ⟨h, by intro _ h; cases h⟩
      have h4 : shownAll env w es = [] := (shownAll_noCode env es w hn).1
      rw [h4, List.append_nil]
      exact .trans (.of_iff h3) h1
    · have h1 := both_stmt e .inner
      refine BothEnds.append (a := [e]) (.trans (.of_iff fun _ _ => execAll_alone) h1) hes
  termination_by es => sizeOf es
end

/-- The body that is shown does what the body does. -/
theorem shownBody_same (body : List TypedExpr) (s : S) (o : Ending V S A) :
    ExecAll env zero I (shownBody env body) s o ↔ ExecAll env zero I body s o := by
  have h := (both_all (env := env) (zero := zero) (I := I) body .inner).inner s o
  unfold shownBody
  split
  · rw [List.append_nil, h]
  · rw [← execAll_then_empty, h]

end

end Redscript
