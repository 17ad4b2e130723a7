import Verif.Vm.ExprProps
import Verif.Vm.Shape

/-!
# Simulation: pieces of code that behave like statements

`Sim p q x E`: running from `p` does what `E` says and then goes on at `q`, or at `x` after a break.
-/

namespace Redscript

section
variable {V S A : Type} {mem : Location → Option (Instr Location)} {P : PoolView} {I : Interp V S A}

/-- A run goes on after a statement: behind it, at the end of the loop or switch after a break, or it is
over. -/
def ContN (mem : Location → Option (Instr Location)) (P : PoolView) (I : Interp V S A) (n : Nat)
    (o : Ending V S A) (q : Location) (x : Option Location) (f : Final V S A) : Prop :=
  match o with
  | .normal s => vmRun mem P I n q s = some f
  | .broke s => ∃ l, x = some l ∧ vmRun mem P I n l s = some f
  | .returned v s => f = .returned v s
  | .aborted a => f = .aborted a

theorem ContN.mono {n m : Nat} {o : Ending V S A} {q : Location} {x : Option Location} {f : Final V S A}
    (h : ContN mem P I n o q x f) (hnm : n ≤ m) : ContN mem P I m o q x f := by
  cases o with
  | normal s => exact vmRun_mono mem P I hnm _ _ _ h
  | broke s => obtain ⟨l, hl, h⟩ := h; exact ⟨l, hl, vmRun_mono mem P I hnm _ _ _ h⟩
  | returned v s => exact h
  | aborted a => exact h

/-- Running from `p` does what `E` says and then goes on at `q`, or at `x` after a break. -/
structure Sim (mem : Location → Option (Instr Location)) (P : PoolView) (I : Interp V S A) (p q : Location)
    (x : Option Location) (E : S → Ending V S A → Prop) : Prop where
  fwd : ∀ s o f n, E s o → ContN mem P I n o q x f → ∃ m, vmRun mem P I m p s = some f
  bwd : ∀ n s f, vmRun mem P I n p s = some f → ∃ o, E s o ∧ ContN mem P I n o q x f

variable {p q r : Location} {x : Option Location} {E E' : S → Ending V S A → Prop}

theorem Sim.congr (h : Sim mem P I p q x E) (he : ∀ s o, E s o ↔ E' s o) : Sim mem P I p q x E' where
  fwd s o f n h1 h2 := h.fwd s o f n ((he s o).2 h1) h2
  bwd n s f h1 := by obtain ⟨o, h2, h3⟩ := h.bwd n s f h1; exact ⟨o, (he s o).1 h2, h3⟩

theorem Sim.id : Sim mem P I p p x fun s o => o = .normal s where
  fwd s o f n h1 h2 := by subst h1; exact ⟨n, h2⟩
  bwd n s f h1 := ⟨_, rfl, h1⟩

theorem Sim.seq (h : Sim mem P I p r x E) (h' : Sim mem P I r q x E') :
    Sim mem P I p q x fun s o => (∃ s', E s (.normal s') ∧ E' s' o) ∨ (E s o ∧ ∀ s', o ≠ .normal s') where
  fwd s o f n h1 h2 := by
    rcases h1 with ⟨s', h1, h3⟩ | ⟨h1, h3⟩
    · obtain ⟨m, hm⟩ := h'.fwd _ _ _ _ h3 h2
      exact h.fwd _ _ _ m h1 hm
    · refine h.fwd _ _ _ n h1 ?_
      cases o with
      | normal s' => exact absurd rfl (h3 s')
      | broke s' => exact h2
      | returned v s => exact h2
      | aborted a => exact h2
  bwd n s f h1 := by
    obtain ⟨o, h2, h3⟩ := h.bwd n s f h1
    cases o with
    | normal s' =>
      obtain ⟨o, h4, h5⟩ := h'.bwd n s' f h3
      exact ⟨o, .inl ⟨s', h2, h4⟩, h5⟩
    | broke s' => exact ⟨_, .inr ⟨h2, fun _ h => by cases h⟩, h3⟩
    | returned v s => exact ⟨_, .inr ⟨h2, fun _ h => by cases h⟩, h3⟩
    | aborted a => exact ⟨_, .inr ⟨h2, fun _ h => by cases h⟩, h3⟩

theorem Sim.stepTo (hs : ∀ n s, vmRun mem P I (n + 1) p s = vmRun mem P I n r s) (h : Sim mem P I r q x E) :
    Sim mem P I p q x E where
  fwd s o f n h1 h2 := by
    obtain ⟨m, hm⟩ := h.fwd s o f n h1 h2
    exact ⟨m + 1, by rw [hs]; exact hm⟩
  bwd n s f h1 := by
    cases n with
    | zero => simp [vmRun] at h1
    | succ n =>
      rw [hs] at h1
      obtain ⟨o, h2, h3⟩ := h.bwd n s f h1
      exact ⟨o, h2, h3.mono (by omega)⟩

/-- The end of the code is one step further. -/
theorem Sim.stepEnd (hs : ∀ n s, vmRun mem P I (n + 1) r s = vmRun mem P I n q s) (h : Sim mem P I p r x E) :
    Sim mem P I p q x E where
  fwd s o f n h1 h2 := by
    refine h.fwd s o f (n + 1) h1 ?_
    cases o with
    | normal s => show vmRun mem P I (n + 1) r s = some f; rw [hs]; exact h2
    | broke s => exact h2.mono (by omega)
    | returned v s => exact h2
    | aborted a => exact h2
  bwd n s f h1 := by
    obtain ⟨o, h2, h3⟩ := h.bwd n s f h1
    refine ⟨o, h2, ?_⟩
    cases o with
    | normal s =>
      cases n with
      | zero => simp [ContN, vmRun] at h3
      | succ n =>
        have h3 : vmRun mem P I (n + 1) r s = some f := h3
        rw [hs] at h3
        exact vmRun_mono mem P I (by omega) _ _ _ h3
    | broke s => exact h3
    | returned v s => exact h3
    | aborted a => exact h3

theorem Sim.catchBreak (h : Sim mem P I p q (some q) E) :
    Sim mem P I p q x fun s o => ∃ o', E s o' ∧ o = o'.catchBreak where
  fwd s o f n h1 h2 := by
    obtain ⟨o', h1, rfl⟩ := h1
    refine h.fwd s o' f n h1 ?_
    cases o' with
    | normal s => exact h2
    | broke s => exact ⟨q, rfl, h2⟩
    | returned v s => exact h2
    | aborted a => exact h2
  bwd n s f h1 := by
    obtain ⟨o, h2, h3⟩ := h.bwd n s f h1
    refine ⟨_, ⟨o, h2, rfl⟩, ?_⟩
    cases o with
    | normal s => exact h3
    | broke s => obtain ⟨l, hl, h3⟩ := h3; cases hl; exact h3
    | returned v s => exact h3
    | aborted a => exact h3

/-- Evaluating an expression first. -/
theorem eval_bwd {n : Nat} {s : S} {e : Res A (V × S)} {k : V × Location × S → Option (Final V S A)}
    {f : Final V S A} (hE : Ev (fun m => vmExpr mem P I m none p s) (atPos r e)) (hs : e ≠ .stuck)
    (h : Run.eval (vmExpr mem P I n none p s) k = some f) :
    (∃ v s', e = .ok (v, s') ∧ k (v, r, s') = some f) ∨ ∃ a, e = .abort a ∧ f = .aborted a := by
  cases hx : vmExpr mem P I n none p s with
  | none => rw [hx] at h; cases h
  | some y =>
    obtain ⟨N, hN⟩ := hE
    simp only at hN
    have h1 := vmExpr_mono mem P I (Nat.le_max_left n N) none p s y hx
    have h2 := hN (max n N) (Nat.le_max_right n N)
    rw [h1] at h2
    cases h2
    rw [hx] at h
    cases e with
    | ok a => exact .inl ⟨a.1, a.2, rfl, h⟩
    | abort a => exact .inr ⟨a, rfl, (Option.some.inj h).symm⟩
    | stuck => exact absurd rfl hs

theorem eval_fwd {s s' : S} {v : V} {k : Nat → V × Location × S → Option (Final V S A)} {f : Final V S A}
    (hE : Ev (fun m => vmExpr mem P I m none p s) (atPos r (.ok (v, s'))))
    (hk : ∀ n m y, n ≤ m → FuelLe (k n y) (k m y)) (n : Nat) (h : k n (v, r, s') = some f) :
    ∃ m, Run.eval (vmExpr mem P I m none p s) (k m) = some f := by
  obtain ⟨N, hN⟩ := hE
  simp only at hN
  refine ⟨max n N, ?_⟩
  rw [hN (max n N) (Nat.le_max_right n N)]
  exact hk n _ _ (Nat.le_max_left n N) f h

theorem eval_abort {s : S} {a : A} {k : Nat → V × Location × S → Option (Final V S A)}
    (hE : Ev (fun m => vmExpr mem P I m none p s) (atPos r (.abort a))) :
    ∃ m, Run.eval (vmExpr mem P I m none p s) (k m) = some (.aborted a) := by
  obtain ⟨N, hN⟩ := hE
  simp only at hN
  exact ⟨N, by rw [hN N (Nat.le_refl _)]; rfl⟩

/-- An expression as a statement. -/
theorem Sim.expr {ev : S → Res A (V × S)}
    (hE : ∀ s, Ev (fun m => vmExpr mem P I m none p s) (atPos q (ev s))) (hne : ∀ s, ev s ≠ .stuck)
    (hs : ∀ n s, vmRun mem P I (n + 1) p s =
      Run.eval (vmExpr mem P I n none p s) fun y => vmRun mem P I n y.2.1 y.2.2) :
    Sim mem P I p q x fun s o => (∃ v s', ev s = .ok (v, s') ∧ o = .normal s') ∨ ∃ a, ev s = .abort a ∧ o = .aborted a where
  fwd s o f n h1 h2 := by
    have hE := hE s
    rcases h1 with ⟨v, s', h1, rfl⟩ | ⟨a, h1, rfl⟩
    · rw [h1] at hE
      obtain ⟨m, hm⟩ := eval_fwd (k := fun n y => vmRun mem P I n y.2.1 y.2.2) hE
        (fun n m y h => vmRun_mono mem P I h _ _) n h2
      exact ⟨m + 1, by rw [hs]; exact hm⟩
    · rw [h1] at hE
      obtain ⟨m, hm⟩ := eval_abort (k := fun n y => vmRun mem P I n y.2.1 y.2.2) hE
      exact ⟨m + 1, by rw [hs]; have h2 : f = _ := h2; rw [h2]; exact hm⟩
  bwd n s f h1 := by
    cases n with
    | zero => simp [vmRun] at h1
    | succ n =>
      rw [hs] at h1
      rcases eval_bwd (hE s) (hne s) h1 with ⟨v, s', h2, h3⟩ | ⟨a, h2, rfl⟩
      · exact ⟨_, .inl ⟨v, s', h2, rfl⟩, vmRun_mono mem P I (by omega) _ _ _ h3⟩
      · exact ⟨_, .inr ⟨a, h2, rfl⟩, rfl⟩

/-- A conditional jump. -/
theorem Sim.branch {ev : S → Res A (V × S)} {p1 r1 r2 : Location}
    (hE : ∀ s, Ev (fun m => vmExpr mem P I m none p1 s) (atPos r1 (ev s))) (hne : ∀ s, ev s ≠ .stuck)
    (hs : ∀ n s, vmRun mem P I (n + 1) p s = Run.eval (vmExpr mem P I n none p1 s) fun y =>
      vmRun mem P I n (if I.truth y.1 y.2.2 then y.2.1 else r2) y.2.2)
    (h1 : Sim mem P I r1 q x E) (h2 : Sim mem P I r2 q x E') :
    Sim mem P I p q x fun s o => (∃ a, ev s = .abort a ∧ o = .aborted a) ∨
      ∃ v s', ev s = .ok (v, s') ∧ ((I.truth v s' = true ∧ E s' o) ∨ (I.truth v s' = false ∧ E' s' o)) where
  fwd s o f n h h' := by
    have hE := hE s
    rcases h with ⟨a, h, rfl⟩ | ⟨v, s', h, hb⟩
    · rw [h] at hE
      obtain ⟨m, hm⟩ := eval_abort (k := fun n y => vmRun mem P I n (if I.truth y.1 y.2.2 then y.2.1 else r2) y.2.2) hE
      exact ⟨m + 1, by rw [hs]; have h' : f = _ := h'; rw [h']; exact hm⟩
    · rw [h] at hE
      have : ∃ n, vmRun mem P I n (if I.truth v s' then r1 else r2) s' = some f := by
        rcases hb with ⟨ht, hb⟩ | ⟨ht, hb⟩
        · simp only [ht, if_true]; exact h1.fwd _ _ _ _ hb h'
        · simp only [ht]; exact h2.fwd _ _ _ _ hb h'
      obtain ⟨n, hn⟩ := this
      obtain ⟨m, hm⟩ := eval_fwd (k := fun n y => vmRun mem P I n (if I.truth y.1 y.2.2 then y.2.1 else r2) y.2.2) hE
        (fun n m y h => vmRun_mono mem P I h _ _) n hn
      exact ⟨m + 1, by rw [hs]; exact hm⟩
  bwd n s f h := by
    cases n with
    | zero => simp [vmRun] at h
    | succ n =>
      rw [hs] at h
      rcases eval_bwd (hE s) (hne s) h with ⟨v, s', h3, h4⟩ | ⟨a, h3, rfl⟩
      · by_cases ht : I.truth v s' = true
        · simp only [ht, if_true] at h4
          obtain ⟨o, h5, h6⟩ := h1.bwd _ _ _ h4
          exact ⟨o, .inr ⟨v, s', h3, .inl ⟨ht, h5⟩⟩, h6.mono (by omega)⟩
        · simp only [ht] at h4
          obtain ⟨o, h5, h6⟩ := h2.bwd _ _ _ h4
          exact ⟨o, .inr ⟨v, s', h3, .inr ⟨by simpa using ht, h5⟩⟩, h6.mono (by omega)⟩
      · exact ⟨_, .inl ⟨a, h3, rfl⟩, rfl⟩

/-- Runs of a loop with a condition and a body. -/
inductive Loop (I : Interp V S A) (ev : S → Res A (V × S)) (B : S → Ending V S A → Prop) : S → Ending V S A → Prop
  | abort {s : S} {a : A} : ev s = .abort a → Loop I ev B s (.aborted a)
  | done {s s' : S} {v : V} : ev s = .ok (v, s') → I.truth v s' = false → Loop I ev B s (.normal s')
  | next {s s' s'' : S} {v : V} {o : Ending V S A} : ev s = .ok (v, s') → I.truth v s' = true →
      B s' (.normal s'') → Loop I ev B s'' o → Loop I ev B s o
  | leave {s s' : S} {v : V} {o : Ending V S A} : ev s = .ok (v, s') → I.truth v s' = true →
      B s' o → (∀ s'', o ≠ .normal s'') → Loop I ev B s o.catchBreak

/-- A loop: a conditional jump out, the body, and a jump back. -/
theorem Sim.loop {ev : S → Res A (V × S)} {p1 r1 r2 : Location} {B : S → Ending V S A → Prop}
    (hE : ∀ s, Ev (fun m => vmExpr mem P I m none p1 s) (atPos r1 (ev s))) (hne : ∀ s, ev s ≠ .stuck)
    (hs : ∀ n s, vmRun mem P I (n + 1) p s = Run.eval (vmExpr mem P I n none p1 s) fun y =>
      vmRun mem P I n (if I.truth y.1 y.2.2 then y.2.1 else q) y.2.2)
    (hb : Sim mem P I r1 r2 (some q) B)
    (hj : ∀ n s, vmRun mem P I (n + 1) r2 s = vmRun mem P I n p s) :
    Sim mem P I p q x (Loop I ev B) where
  fwd s o f n h h' := by
    have key : ∀ {s s' : S} {v : V} {n : Nat}, ev s = .ok (v, s') →
        vmRun mem P I n (if I.truth v s' then r1 else q) s' = some f → ∃ m, vmRun mem P I m p s = some f := by
      intro s s' v n he hn
      have hE := hE s
      rw [he] at hE
      obtain ⟨m, hm⟩ := eval_fwd (k := fun n y => vmRun mem P I n (if I.truth y.1 y.2.2 then y.2.1 else q) y.2.2) hE
        (fun n m y h => vmRun_mono mem P I h _ _) n hn
      exact ⟨m + 1, by rw [hs]; exact hm⟩
    induction h with
    | @abort s a h =>
      have hE := hE s
      rw [h] at hE
      obtain ⟨m, hm⟩ := eval_abort (k := fun n y => vmRun mem P I n (if I.truth y.1 y.2.2 then y.2.1 else q) y.2.2) hE
      exact ⟨m + 1, by rw [hs]; have h' : f = _ := h'; rw [h']; exact hm⟩
    | done h ht => exact key (n := n) h (by simp only [ht]; exact h')
    | next h ht hB _ ih =>
      obtain ⟨m, hm⟩ := ih h'
      obtain ⟨m', hm'⟩ := hb.fwd _ _ f (m + 1) hB (by show vmRun mem P I (m + 1) r2 _ = some f; rw [hj]; exact hm)
      exact key (n := m') h (by simp only [ht, if_true]; exact hm')
    | @leave s s' v o h ht hB ho =>
      have : ContN mem P I n o r2 (some q) f := by
        cases o with
        | normal s => exact absurd rfl (ho s)
        | broke s => exact ⟨q, rfl, h'⟩
        | returned v s => exact h'
        | aborted a => exact h'
      obtain ⟨m', hm'⟩ := hb.fwd _ _ f n hB this
      exact key (n := m') h (by simp only [ht, if_true]; exact hm')
  bwd n := by
    induction n using Nat.strongRecOn with
    | ind n ih =>
      intro s f h
      cases n with
      | zero => simp [vmRun] at h
      | succ n =>
        rw [hs] at h
        rcases eval_bwd (hE s) (hne s) h with ⟨v, s', h3, h4⟩ | ⟨a, h3, rfl⟩
        · by_cases ht : I.truth v s' = true
          · simp only [ht, if_true] at h4
            obtain ⟨o, h5, h6⟩ := hb.bwd _ _ _ h4
            cases o with
            | normal s'' =>
              cases n with
              | zero => simp [ContN, vmRun] at h6
              | succ n =>
                have h6 : vmRun mem P I (n + 1) r2 s'' = some f := h6
                rw [hj] at h6
                obtain ⟨o, h7, h8⟩ := ih n (by omega) s'' f h6
                exact ⟨o, .next h3 ht h5 h7, h8.mono (by omega)⟩
            | broke s'' =>
              obtain ⟨l, hl, h6⟩ := h6
              cases hl
              exact ⟨_, .leave h3 ht h5 (fun _ h => by cases h), vmRun_mono mem P I (by omega) _ _ _ h6⟩
            | returned v s'' => exact ⟨_, .leave h3 ht h5 (fun _ h => by cases h), h6⟩
            | aborted a => exact ⟨_, .leave h3 ht h5 (fun _ h => by cases h), h6⟩
          · simp only [ht] at h4
            exact ⟨_, .done h3 (by simpa using ht), vmRun_mono mem P I (by omega) _ _ _ h4⟩
        · exact ⟨_, .abort h3, rfl⟩

end

end Redscript
