import Verif.Desugar.InOrdClaim
import Verif.Vm.StmtProps

/-!
# The same endings
-/

namespace Redscript

section
variable {V S A : Type}

/-- The same ending; the variables from `a` to `b` may have changed since `σ`. -/
inductive Alike (a b : Nat) (σ : Idx → V) : Ending (CellVal V) (S × (Idx → V)) A → Ending V S A → Prop
  | normal {s : S} {σ' : Idx → V} : Frame a b σ σ' → Alike a b σ (.normal (s, σ')) (.normal s)
  | broke {s : S} {σ' : Idx → V} : Frame a b σ σ' → Alike a b σ (.broke (s, σ')) (.broke s)
  | returned {s : S} {σ' : Idx → V} {x : Option (CellVal V)} {v : Option V} : Frame a b σ σ' → ReadsOpt σ' x v →
      Alike a b σ (.returned x (s, σ')) (.returned v s)
  | aborted {c : A} : Alike a b σ (.aborted c) (.aborted c)

/-- Each ending on one side is one on the other. -/
structure BiSim (a b : Nat) (σ : Idx → V) (R' : Ending (CellVal V) (S × (Idx → V)) A → Prop) (R : Ending V S A → Prop) : Prop where
  fwd : ∀ o', R' o' → ∃ o, R o ∧ Alike a b σ o' o
  bwd : ∀ o, R o → ∃ o', R' o' ∧ Alike a b σ o' o

variable {a b a' b' : Nat} {σ σ1 : Idx → V} {R' : Ending (CellVal V) (S × (Idx → V)) A → Prop} {R : Ending V S A → Prop}

theorem Alike.widen {o' : Ending (CellVal V) (S × (Idx → V)) A} {o : Ending V S A} (h : Alike a b σ o' o) (h1 : a' ≤ a) (h2 : b ≤ b') :
    Alike a' b' σ o' o := by
  cases h with
  | normal h => exact .normal (h.widen h1 h2)
  | broke h => exact .broke (h.widen h1 h2)
  | returned h hr => exact .returned (h.widen h1 h2) hr
  | aborted => exact .aborted

theorem Alike.after {o' : Ending (CellVal V) (S × (Idx → V)) A} {o : Ending V S A} (hf : Frame a b σ σ1) (h : Alike a b σ1 o' o) :
    Alike a b σ o' o := by
  cases h with
  | normal h => exact .normal (hf.trans h)
  | broke h => exact .broke (hf.trans h)
  | returned h hr => exact .returned (hf.trans h) hr
  | aborted => exact .aborted

theorem Alike.catchBreak {o' : Ending (CellVal V) (S × (Idx → V)) A} {o : Ending V S A} (h : Alike a b σ o' o) :
    Alike a b σ o'.catchBreak o.catchBreak := by
  cases h with
  | normal h => exact .normal h
  | broke h => exact .normal h
  | returned h hr => exact .returned h hr
  | aborted => exact .aborted

theorem Alike.normal_iff {o' : Ending (CellVal V) (S × (Idx → V)) A} {o : Ending V S A} (h : Alike a b σ o' o) :
    (∀ t, o' ≠ .normal t) ↔ ∀ s, o ≠ .normal s := by
  cases h with
  | normal h => exact ⟨fun h => absurd rfl (h _), fun h => absurd rfl (h _)⟩
  | broke h => exact ⟨fun _ => nofun, fun _ => nofun⟩
  | returned h hr => exact ⟨fun _ => nofun, fun _ => nofun⟩
  | aborted => exact ⟨fun _ => nofun, fun _ => nofun⟩

theorem BiSim.widen (h : BiSim a b σ R' R) (h1 : a' ≤ a) (h2 : b ≤ b') : BiSim a' b' σ R' R where
  fwd o' ho := by obtain ⟨o, h3, h4⟩ := h.fwd o' ho; exact ⟨o, h3, h4.widen h1 h2⟩
  bwd o ho := by obtain ⟨o', h3, h4⟩ := h.bwd o ho; exact ⟨o', h3, h4.widen h1 h2⟩

theorem BiSim.after (hf : Frame a b σ σ1) (h : BiSim a b σ1 R' R) : BiSim a b σ R' R where
  fwd o' ho := by obtain ⟨o, h3, h4⟩ := h.fwd o' ho; exact ⟨o, h3, h4.after hf⟩
  bwd o ho := by obtain ⟨o', h3, h4⟩ := h.bwd o ho; exact ⟨o', h3, h4.after hf⟩

theorem BiSim.congr {R1' : Ending (CellVal V) (S × (Idx → V)) A → Prop} {R1 : Ending V S A → Prop} (h : BiSim a b σ R' R)
    (h1 : ∀ o, R1' o ↔ R' o) (h2 : ∀ o, R1 o ↔ R o) : BiSim a b σ R1' R1 where
  fwd o' ho := by obtain ⟨o, h3, h4⟩ := h.fwd o' ((h1 o').1 ho); exact ⟨o, (h2 o).2 h3, h4⟩
  bwd o ho := by obtain ⟨o', h3, h4⟩ := h.bwd o ((h2 o).1 ho); exact ⟨o', (h1 o').2 h3, h4⟩

theorem BiSim.catchBreak (h : BiSim a b σ R' R) :
    BiSim a b σ (fun o => ∃ o1, R' o1 ∧ o = o1.catchBreak) (fun o => ∃ o1, R o1 ∧ o = o1.catchBreak) where
  fwd := by
    rintro _ ⟨o1, ho, rfl⟩
    obtain ⟨o, h3, h4⟩ := h.fwd o1 ho
    exact ⟨_, ⟨o, h3, rfl⟩, h4.catchBreak⟩
  bwd := by
    rintro _ ⟨o1, ho, rfl⟩
    obtain ⟨o, h3, h4⟩ := h.bwd o1 ho
    exact ⟨_, ⟨o, h3, rfl⟩, h4.catchBreak⟩

/-- One ending on both sides. -/
theorem BiSim.single {o' : Ending (CellVal V) (S × (Idx → V)) A} {o : Ending V S A} (h : Alike a b σ o' o) :
    BiSim a b σ (fun x => x = o') (fun x => x = o) where
  fwd := by rintro _ rfl; exact ⟨o, rfl, h⟩
  bwd := by rintro _ rfl; exact ⟨o', rfl, h⟩

theorem BiSim.none_ (h1 : ∀ o, ¬ R' o) (h2 : ∀ o, ¬ R o) : BiSim a b σ R' R where
  fwd o h := absurd h (h1 o)
  bwd o h := absurd h (h2 o)

theorem BiSim.then_ {B' C' : S × (Idx → V) → Ending (CellVal V) (S × (Idx → V)) A → Prop} {B C : S → Ending V S A → Prop} {s : S}
    (h1 : BiSim a b σ (B' (s, σ)) (B s)) (h2 : ∀ s1 σ1, Frame a b σ σ1 → BiSim a b σ1 (C' (s1, σ1)) (C s1)) :
    BiSim a b σ (Then B' C' (s, σ)) (Then B C s) where
  fwd := by
    rintro o' (⟨t, h3, h4⟩ | ⟨h3, h4⟩)
    · obtain ⟨o, h5, h6⟩ := h1.fwd _ h3
      cases h6 with
      | @normal s' σ' hf =>
        obtain ⟨o, h7, h8⟩ := (h2 s' σ' hf).fwd _ h4
        exact ⟨o, .inl ⟨s', h5, h7⟩, h8.after hf⟩
    · obtain ⟨o, h5, h6⟩ := h1.fwd _ h3
      exact ⟨o, .inr ⟨h5, h6.normal_iff.1 h4⟩, h6⟩
  bwd := by
    rintro o (⟨t, h3, h4⟩ | ⟨h3, h4⟩)
    · obtain ⟨o', h5, h6⟩ := h1.bwd _ h3
      cases h6 with
      | @normal s' σ' hf =>
        obtain ⟨o, h7, h8⟩ := (h2 t σ' hf).bwd _ h4
        exact ⟨o, .inl ⟨_, h5, h7⟩, h8.after hf⟩
    · obtain ⟨o, h5, h6⟩ := h1.bwd _ h3
      exact ⟨o, .inr ⟨h5, h6.normal_iff.2 h4⟩, h6⟩

theorem BiSim.using_ {r' : Res A (CellVal V × (S × (Idx → V)))} {r : Res A (V × S)}
    {K' : CellVal V → S × (Idx → V) → Ending (CellVal V) (S × (Idx → V)) A → Prop} {K : V → S → Ending V S A → Prop}
    (h : Same CellReads σ r' r) (hk : ∀ x y s, CellReads σ x y → BiSim a b σ (K' x (s, σ)) (K y s)) :
    BiSim a b σ (Using r' K') (Using r K) := by
  cases h with
  | @abort c =>
    refine (BiSim.single (.aborted (c := c))).congr (fun o => ?_) (fun o => ?_)
    · exact ⟨by rintro (⟨_, _, h, _⟩ | ⟨_, h, rfl⟩) <;> cases h; rfl, fun h => .inr ⟨_, rfl, h⟩⟩
    · exact ⟨by rintro (⟨_, _, h, _⟩ | ⟨_, h, rfl⟩) <;> cases h; rfl, fun h => .inr ⟨_, rfl, h⟩⟩
  | stuck =>
    refine .none_ (fun o => ?_) (fun o => ?_)
    · rintro (⟨_, _, h, _⟩ | ⟨_, h, _⟩) <;> cases h
    · rintro (⟨_, _, h, _⟩ | ⟨_, h, _⟩) <;> cases h
  | @ok x y s hx =>
    refine (hk x y s hx).congr (fun o => ?_) (fun o => ?_)
    · exact ⟨by rintro (⟨_, _, h, h'⟩ | ⟨_, h, rfl⟩) <;> cases h; exact h', fun h => .inl ⟨_, _, rfl, h⟩⟩
    · exact ⟨by rintro (⟨_, _, h, h'⟩ | ⟨_, h, rfl⟩) <;> cases h; exact h', fun h => .inl ⟨_, _, rfl, h⟩⟩

/-- The same for two alternatives that depend on a condition. -/
theorem BiSim.ite {c : Bool} {X' Y' : Ending (CellVal V) (S × (Idx → V)) A → Prop} {X Y : Ending V S A → Prop}
    (hx : BiSim a b σ X' X) (hy : BiSim a b σ Y' Y) :
    BiSim a b σ (fun o => (c = true ∧ X' o) ∨ (c = false ∧ Y' o)) (fun o => (c = true ∧ X o) ∨ (c = false ∧ Y o)) := by
  cases c with
  | true => exact hx.congr (fun o => by simp) (fun o => by simp)
  | false => exact hy.congr (fun o => by simp) (fun o => by simp)

/-- An expression evaluated for its effects. -/
theorem effect_using {r : Res A (V × S)} {o : Ending V S A} :
    Effected (r.bind fun (_, s) => .ok s) o ↔ Using r (fun _ s o => o = .normal s) o := by
  cases r with
  | ok x => exact ⟨by rintro (⟨s, h, rfl⟩ | ⟨_, h, _⟩) <;> cases h; exact .inl ⟨_, _, rfl, rfl⟩,
      by rintro (⟨_, _, h, rfl⟩ | ⟨_, h, _⟩) <;> cases h; exact .inl ⟨_, rfl, rfl⟩⟩
  | abort x => exact ⟨by rintro (⟨s, h, rfl⟩ | ⟨_, h, rfl⟩) <;> cases h; exact .inr ⟨_, rfl, rfl⟩,
      by rintro (⟨_, _, h, rfl⟩ | ⟨_, h, rfl⟩) <;> cases h; exact .inr ⟨_, rfl, rfl⟩⟩
  | stuck =>
    constructor
    · rintro (⟨s, h, rfl⟩ | ⟨_, h, rfl⟩) <;> cases h
    · rintro (⟨_, _, h, rfl⟩ | ⟨_, h, rfl⟩) <;> cases h

theorem exec_expr_using {env : AsmEnv} {zero : Literal → Text} {I : Interp V S A} {e : TypedExpr} (he : e.isExpression = true)
    {s : S} {o : Ending V S A} : Exec env zero I e s o ↔ Using (evalE env I e s) (fun _ s o => o = .normal s) o := by
  rw [exec_expr_iff he]
  constructor
  · rintro (⟨v, s', h, h'⟩ | ⟨a, h, h'⟩)
    · exact .inl ⟨v, s', h, h'⟩
    · exact .inr ⟨a, h, h'⟩
  · rintro (⟨v, s', h, h'⟩ | ⟨a, h, h'⟩)
    · exact .inl ⟨v, s', h, h'⟩
    · exact .inr ⟨a, h, h'⟩

/-- Statements after a set-up. -/
theorem execAll_pre {env : AsmEnv} {zero : Literal → Text} {I : Interp V S A} {Y : List TypedExpr} {o : Ending V S A} :
    ∀ {P : List TypedExpr} {s : S}, (∀ x ∈ P, x.isExpression = true) → (ExecAll env zero I (P ++ Y) s o ↔
      match runPre env I P s with
      | .ok s' => ExecAll env zero I Y s' o
      | .abort c => o = .aborted c
      | .stuck => False)
  | [], s, _ => Iff.rfl
  | e :: P, s, h => by
    rw [List.cons_append, execAll_cons_iff, runPre]
    have he := h e (List.mem_cons_self ..)
    have hP := fun s => execAll_pre (env := env) (zero := zero) (I := I) (Y := Y) (o := o) (s := s) fun x hx => h x (List.mem_cons_of_mem _ hx)
    simp only [exec_expr_iff he]
    cases hr : evalE env I e s with
    | ok x =>
      obtain ⟨v, s1⟩ := x
      dsimp only [Res.bind]
      rw [← hP]
      constructor
      · rintro (⟨s', ⟨v', s2, h1, h2⟩ | ⟨a, h1, h2⟩, h3⟩ | ⟨⟨v', s2, h1, h2⟩ | ⟨a, h1, h2⟩, h3⟩)
        · cases h1; cases h2; exact h3
        · cases h1
        · exact absurd h2 (h3 _)
        · cases h1
      · intro h1
        exact .inl ⟨s1, .inl ⟨v, s1, rfl, rfl⟩, h1⟩
    | abort c =>
      dsimp only [Res.bind]
      constructor
      · rintro (⟨s', ⟨v', s2, h1, h2⟩ | ⟨a, h1, h2⟩, h3⟩ | ⟨⟨v', s2, h1, h2⟩ | ⟨a, h1, h2⟩, h3⟩)
        · cases h1
        · cases h2
        · cases h1
        · cases h1; exact h2
      · rintro rfl
        exact .inr ⟨.inr ⟨c, rfl, rfl⟩, nofun⟩
    | stuck =>
      dsimp only [Res.bind]
      constructor
      · rintro (⟨s', ⟨v', s2, h1, h2⟩ | ⟨a, h1, h2⟩, h3⟩ | ⟨⟨v', s2, h1, h2⟩ | ⟨a, h1, h2⟩, h3⟩) <;> cases h1
      · exact False.elim

theorem execAll_one {env : AsmEnv} {zero : Literal → Text} {I : Interp V S A} {X : TypedExpr} {s : S} {o : Ending V S A} :
    ExecAll env zero I [X] s o ↔ Exec env zero I X s o := by
  simp only [execAll_cons_iff, execAll_nil_iff]
  constructor
  · rintro (⟨s', h1, rfl⟩ | ⟨h1, _⟩)
    · exact h1
    · exact h1
  · intro h
    cases o with
    | normal s' => exact .inl ⟨s', h, rfl⟩
    | broke s' => exact .inr ⟨h, nofun⟩
    | returned v s' => exact .inr ⟨h, nofun⟩
    | aborted c => exact .inr ⟨h, nofun⟩

theorem execAll_append_then {env : AsmEnv} {zero : Literal → Text} {I : Interp V S A} {X Y : List TypedExpr} {s : S} {o : Ending V S A} :
    ExecAll env zero I (X ++ Y) s o ↔ Then (ExecAll env zero I X) (ExecAll env zero I Y) s o := execAll_append_iff

/-- A statement that uses the value of an expression, after the set-up of the expression. -/
theorem InOrder.stmt {W : DsWorld V S A} {zero : Literal → Text} {m n : Nat} {P Y : List TypedExpr} {c' c : TypedExpr}
    {K' : CellVal V → S × (Idx → V) → Ending (CellVal V) (S × (Idx → V)) A → Prop} {K : V → S → Ending V S A → Prop}
    (h : InOrder W m n P (NoParam V) (fun _ => evalE W.env W.J c') (fun _ => evalS W.env W.I W.U c) CellReads)
    (hP : ∀ x ∈ P, x.isExpression = true) (h1 : a ≤ m) (h2 : n ≤ b)
    (hX : ∀ t o, ExecAll W.env zero W.J Y t o ↔ Using (evalE W.env W.J c' t) K' o) {s : S} {σ : Idx → V}
    (hK : ∀ x y s1 σ1, Frame a b σ σ1 → CellReads σ1 x y → BiSim a b σ1 (K' x (s1, σ1)) (K y s1)) :
    BiSim a b σ (ExecAll W.env zero W.J (P ++ Y) (s, σ)) (Using (evalS W.env W.I W.U c s) K) := by
  rcases h s σ with ⟨s1, σ1, r1, f1, e1⟩ | ⟨x, r1, e1⟩ | ⟨r1, e1⟩
  · have hf := f1.widen h1 h2
    refine BiSim.after hf (BiSim.congr (R' := Using (evalE W.env W.J c' (s1, σ1)) K')
      (BiSim.using_ (e1 σ1 (.refl _ _ _) () () trivial) fun x y s hx => hK x y s σ1 hf hx) (fun o => ?_) (fun o => Iff.rfl))
    rw [execAll_pre hP, r1]
    exact hX _ _
  · have e1 : evalS W.env W.I W.U c s = _ := e1 ()
    refine (BiSim.single (.aborted (c := x))).congr (fun o => ?_) (fun o => ?_)
    · rw [execAll_pre hP, r1]
    · rw [e1]
      exact ⟨by rintro (⟨_, _, h, _⟩ | ⟨_, h, rfl⟩) <;> cases h; rfl, fun h => .inr ⟨_, rfl, h⟩⟩
  · have e1 : evalS W.env W.I W.U c s = _ := e1 ()
    refine .none_ (fun o => ?_) (fun o => ?_)
    · rw [execAll_pre hP, r1]
      exact id
    · rw [e1]
      rintro (⟨_, _, h, _⟩ | ⟨_, h, _⟩) <;> cases h

/-- Loops. -/
theorem BiSim.loop {I : Interp V S A} {J : Interp (CellVal V) (S × (Idx → V)) A} {ev' : S × (Idx → V) → Res A (CellVal V × (S × (Idx → V)))}
    {ev : S → Res A (V × S)} {B' : S × (Idx → V) → Ending (CellVal V) (S × (Idx → V)) A → Prop} {B : S → Ending V S A → Prop}
    {good : (Idx → V) → Prop} (ht : ∀ x v s σ, CellReads σ x v → J.truth x (s, σ) = I.truth v s)
    (he : ∀ s σ, good σ → Same CellReads σ (ev' (s, σ)) (ev s)) (hb : ∀ s σ, BiSim a b σ (B' (s, σ)) (B s))
    (hg : ∀ σ σ', good σ → Frame a b σ σ' → good σ') {s : S} {σ : Idx → V} (h : good σ) :
    BiSim a b σ (Loop J ev' B' (s, σ)) (Loop I ev B s) where
  fwd o' ho := by
    generalize htt : (s, σ) = t at ho
    induction ho generalizing s σ with
    | abort h1 =>
      subst htt
      have hs := he s σ h
      rw [h1] at hs
      generalize h2 : ev s = r at hs
      cases hs
      exact ⟨_, .abort h2, .aborted⟩
    | done h1 h3 =>
      subst htt
      have hs := he s σ h
      rw [h1] at hs
      generalize h2 : ev s = r at hs
      cases hs with
      | ok hx => exact ⟨_, .done h2 (by rw [← ht _ _ _ _ hx]; exact h3), .normal (.refl _ _ _)⟩
    | next h1 h3 h4 _ ih =>
      subst htt
      have hs := he s σ h
      rw [h1] at hs
      generalize h2 : ev s = r at hs
      cases hs with
      | @ok x y s1 hx =>
        obtain ⟨o, h5, h6⟩ := (hb s1 σ).fwd _ h4
        cases h6 with
        | normal hf =>
          obtain ⟨o, h7, h8⟩ := ih (hg _ _ h hf) rfl
          exact ⟨o, .next h2 (by rw [← ht _ _ _ _ hx]; exact h3) h5 h7, h8.after hf⟩
    | leave h1 h3 h4 h5 =>
      subst htt
      have hs := he s σ h
      rw [h1] at hs
      generalize h2 : ev s = r at hs
      cases hs with
      | @ok x y s1 hx =>
        obtain ⟨o, h6, h7⟩ := (hb s1 σ).fwd _ h4
        exact ⟨_, .leave h2 (by rw [← ht _ _ _ _ hx]; exact h3) h6 (h7.normal_iff.1 h5), h7.catchBreak⟩
  bwd o ho := by
    induction ho generalizing σ with
    | @abort s c h1 =>
      have hs := he s σ h
      rw [h1] at hs
      generalize h2 : ev' (s, σ) = r at hs
      cases hs
      exact ⟨_, .abort h2, .aborted⟩
    | @done s s' v h1 h3 =>
      have hs := he s σ h
      rw [h1] at hs
      generalize h2 : ev' (s, σ) = r at hs
      cases hs with
      | ok hx => exact ⟨_, .done h2 (by rw [ht _ _ _ _ hx]; exact h3), .normal (.refl _ _ _)⟩
    | @next s s' s'' v o h1 h3 h4 _ ih =>
      have hs := he s σ h
      rw [h1] at hs
      generalize h2 : ev' (s, σ) = r at hs
      cases hs with
      | ok hx =>
        obtain ⟨o, h5, h6⟩ := (hb s' σ).bwd _ h4
        cases h6 with
        | normal hf =>
          obtain ⟨o, h7, h8⟩ := ih (hg _ _ h hf)
          exact ⟨o, .next h2 (by rw [ht _ _ _ _ hx]; exact h3) h5 h7, h8.after hf⟩
    | @leave s s' v o h1 h3 h4 h5 =>
      have hs := he s σ h
      rw [h1] at hs
      generalize h2 : ev' (s, σ) = r at hs
      cases hs with
      | ok hx =>
        obtain ⟨o, h6, h7⟩ := (hb s' σ).bwd _ h4
        exact ⟨_, .leave h2 (by rw [ht _ _ _ _ hx]; exact h3) h6 (h7.normal_iff.2 h5), h7.catchBreak⟩

/-- One step of a loop. -/
theorem loop_iff {I : Interp V S A} {ev : S → Res A (V × S)} {B : S → Ending V S A → Prop} {s : S} {o : Ending V S A} :
    Loop I ev B s o ↔ Using (ev s) (fun v s o => (I.truth v s = true ∧ ((∃ s', B s (.normal s') ∧ Loop I ev B s' o) ∨
      ∃ o', B s o' ∧ (∀ s', o' ≠ .normal s') ∧ o = o'.catchBreak)) ∨ (I.truth v s = false ∧ o = .normal s)) o := by
  constructor
  · intro h
    cases h with
    | abort h => exact .inr ⟨_, h, rfl⟩
    | done h ht => exact .inl ⟨_, _, h, .inr ⟨ht, rfl⟩⟩
    | next h ht hb hl => exact .inl ⟨_, _, h, .inl ⟨ht, .inl ⟨_, hb, hl⟩⟩⟩
    | leave h ht hb hn => exact .inl ⟨_, _, h, .inl ⟨ht, .inr ⟨_, hb, hn, rfl⟩⟩⟩
  · rintro (⟨v, s', h, ⟨ht, ⟨s1, hb, hl⟩ | ⟨o', hb, hn, rfl⟩⟩ | ⟨ht, rfl⟩⟩ | ⟨c, h, rfl⟩)
    · exact .next h ht hb hl
    · exact .leave h ht hb hn
    · exact .done h ht
    · exact .abort h

end

end Redscript
