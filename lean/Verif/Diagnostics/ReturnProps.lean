import Verif.Diagnostics.Model

/-!
# C33: the missing-return check
-/

namespace Redscript

/-! ## Specification: the paths through a body -/

/-- How a path through a statement ends. -/
inductive PathEnd where
  | finished | broke | returned
  deriving DecidableEq, Repr

/-- Leaving a loop or a switch: a break ends there. -/
def PathEnd.leave : PathEnd → PathEnd
  | .broke => .finished
  | e => e

/-- Statements that neither branch nor transfer control. -/
def Expr.plain : TypedExpr → Bool
  | .Return _ | .Break | .Seq _ | .If _ _ _ | .While _ _ | .ForIn _ _ _ | .Switch _ _ _ => false
  | _ => true

/-- The paths through a statement, with conditions, iteration counts and the chosen case left open: a
loop runs any number of times, a switch starts at any of its cases and falls through to the following
ones, at its default, or, without a default, is skipped. Every execution follows one of these paths. -/
inductive Path : TypedExpr → PathEnd → Prop
  | plain {e : TypedExpr} : e.plain = true → Path e .finished
  | ret {v : Option TypedExpr} : Path (.Return v) .returned
  | brk : Path .Break .broke
  | nil : Path (.Seq []) .finished
  | next {e : TypedExpr} {es : List TypedExpr} {o : PathEnd} :
      Path e .finished → Path (.Seq es) o → Path (.Seq (e :: es)) o
  | stop {e : TypedExpr} {es : List TypedExpr} {o : PathEnd} :
      Path e o → o ≠ .finished → Path (.Seq (e :: es)) o
  | then_ {c : TypedExpr} {t : List TypedExpr} {e : Option (List TypedExpr)} {o : PathEnd} :
      Path (.Seq t) o → Path (.If c t e) o
  | else_ {c : TypedExpr} {t e : List TypedExpr} {o : PathEnd} : Path (.Seq e) o → Path (.If c t (some e)) o
  | skip {c : TypedExpr} {t : List TypedExpr} : Path (.If c t none) .finished
  | whileDone {c : TypedExpr} {b : List TypedExpr} : Path (.While c b) .finished
  | whileNext {c : TypedExpr} {b : List TypedExpr} {o : PathEnd} :
      Path (.Seq b) .finished → Path (.While c b) o → Path (.While c b) o
  | whileOut {c : TypedExpr} {b : List TypedExpr} {o : PathEnd} :
      Path (.Seq b) o → o ≠ .finished → Path (.While c b) o.leave
  | forDone {l : Idx} {a : TypedExpr} {b : List TypedExpr} : Path (.ForIn l a b) .finished
  | forNext {l : Idx} {a : TypedExpr} {b : List TypedExpr} {o : PathEnd} :
      Path (.Seq b) .finished → Path (.ForIn l a b) o → Path (.ForIn l a b) o
  | forOut {l : Idx} {a : TypedExpr} {b : List TypedExpr} {o : PathEnd} :
      Path (.Seq b) o → o ≠ .finished → Path (.ForIn l a b) o.leave
  | case {v m : TypedExpr} {before after : List (TypedExpr × List TypedExpr)} {body : List TypedExpr}
      {d : Option (List TypedExpr)} {o : PathEnd} :
      Path (.Seq (body ++ (after.flatMap (·.2) ++ d.getD []))) o →
      Path (.Switch v (before ++ (m, body) :: after) d) o.leave
  | default {v : TypedExpr} {cases : List (TypedExpr × List TypedExpr)} {d : List TypedExpr} {o : PathEnd} :
      Path (.Seq d) o → Path (.Switch v cases (some d)) o.leave
  | noCase {v : TypedExpr} {cases : List (TypedExpr × List TypedExpr)} : Path (.Switch v cases none) .finished

mutual
/-- Outside of loops, every switch has a default and there is no `break`. -/
def Guarded : TypedExpr → Bool
  | .Break => false
  | .Seq es => GuardedAll es
  | .If _ t e => GuardedAll t && GuardedOpt e
  | .Switch _ cases (some d) => GuardedCases cases && GuardedAll d
  | .Switch _ _ none => false
  | _ => true
/-- All statements are guarded. -/
def GuardedAll : List TypedExpr → Bool
  | [] => true
  | e :: es => Guarded e && GuardedAll es
/-- All cases are guarded. -/
def GuardedCases : List (TypedExpr × List TypedExpr) → Bool
  | [] => true
  | (_, b) :: cs => GuardedAll b && GuardedCases cs
/-- The optional block is guarded. -/
def GuardedOpt : Option (List TypedExpr) → Bool
  | none => true
  | some b => GuardedAll b
end

mutual
/-- There is no switch outside of loops. -/
def NoSwitch : TypedExpr → Bool
  | .Seq es => NoSwitchAll es
  | .If _ t e => NoSwitchAll t && NoSwitchOpt e
  | .Switch _ _ _ => false
  | _ => true
/-- No statement has a switch. -/
def NoSwitchAll : List TypedExpr → Bool
  | [] => true
  | e :: es => NoSwitch e && NoSwitchAll es
/-- The optional block has no switch. -/
def NoSwitchOpt : Option (List TypedExpr) → Bool
  | none => true
  | some b => NoSwitchAll b
end

/-! ## Helper lemmas -/

theorem GuardedAll_append (a b : List TypedExpr) : GuardedAll (a ++ b) = (GuardedAll a && GuardedAll b) := by
  induction a with
  | nil => simp [GuardedAll]
  | cons e a ih => simp [GuardedAll, ih, Bool.and_assoc]

theorem seqReturns_append (a b : List TypedExpr) : seqReturns (a ++ b) = (seqReturns a || seqReturns b) := by
  induction a with
  | nil => simp [seqReturns]
  | cons e a ih => simp [seqReturns, ih, Bool.or_assoc]

theorem GuardedCases_flat (cs : List (TypedExpr × List TypedExpr)) (h : GuardedCases cs = true) :
    GuardedAll (cs.flatMap (·.2)) = true := by
  induction cs with
  | nil => rfl
  | cons c cs ih => obtain ⟨m, b⟩ := c; simp_all [GuardedCases, GuardedAll_append]

theorem GuardedCases_mem (b a : List (TypedExpr × List TypedExpr)) (c : TypedExpr × List TypedExpr)
    (h : GuardedCases (b ++ c :: a) = true) : GuardedAll c.2 = true ∧ GuardedCases a = true := by
  induction b with
  | nil => obtain ⟨m, x⟩ := c; simpa [GuardedCases] using h
  | cons x b ih => obtain ⟨m, y⟩ := x; simp [GuardedCases] at h; exact ih h.2

theorem casesReturn_mem (b a : List (TypedExpr × List TypedExpr)) (c : TypedExpr × List TypedExpr)
    (h : casesReturn (b ++ c :: a) = true) : seqReturns c.2 = true := by
  induction b with
  | nil => obtain ⟨m, x⟩ := c; simp [casesReturn] at h; exact h.1
  | cons x b ih => obtain ⟨m, y⟩ := x; simp [casesReturn] at h; exact ih h.2

theorem PathEnd.leave_ne_broke (o : PathEnd) : o.leave ≠ .broke := by cases o <;> simp [PathEnd.leave]
theorem PathEnd.eq_returned {o : PathEnd} (h1 : o ≠ .finished) (h2 : o ≠ .broke) : o = .returned := by
  cases o <;> simp_all

/-- In guarded statements no break escapes, and accepted ones return. -/
theorem path_guarded {e : TypedExpr} {o : PathEnd} (h : Path e o) (hg : Guarded e = true) :
    o ≠ .broke ∧ (alwaysReturns e = true → o = .returned) := by
  induction h with
  | plain hp =>
    refine ⟨by simp, fun ha => ?_⟩
    rename_i e
    cases e <;> first
      | exact absurd (show false = true from hp) Bool.false_ne_true
      | exact absurd ha (by simp [alwaysReturns])
  | ret => simp
  | brk => simp [Guarded] at hg
  | nil => simp [alwaysReturns, seqReturns]
  | next h1 h2 ih1 ih2 =>
    simp only [Guarded, GuardedAll, Bool.and_eq_true] at hg ih2
    obtain ⟨a1, a2⟩ := ih1 hg.1
    obtain ⟨b1, b2⟩ := ih2 hg.2
    refine ⟨b1, fun ha => ?_⟩
    simp only [alwaysReturns, seqReturns, Bool.or_eq_true] at ha b2
    rcases ha with ha | ha
    · exact absurd (a2 ha) (by simp)
    · exact b2 ha
  | stop h1 hne ih =>
    simp only [Guarded, GuardedAll, Bool.and_eq_true] at hg
    obtain ⟨a1, a2⟩ := ih hg.1
    refine ⟨a1, fun _ => ?_⟩
    exact PathEnd.eq_returned hne a1
  | then_ h ih =>
    rename_i c t e o
    simp only [Guarded, Bool.and_eq_true] at hg ih
    obtain ⟨a1, a2⟩ := ih hg.1
    refine ⟨a1, fun ha => a2 ?_⟩
    cases e <;> simp_all [alwaysReturns]
  | else_ h ih =>
    simp only [Guarded, GuardedOpt, Bool.and_eq_true] at hg ih
    obtain ⟨a1, a2⟩ := ih hg.2
    refine ⟨a1, fun ha => a2 ?_⟩
    simp_all [alwaysReturns]
  | skip => simp [alwaysReturns]
  | whileDone => simp [alwaysReturns]
  | whileNext _ _ _ ih =>
    obtain ⟨a1, _⟩ := ih hg
    exact ⟨a1, by simp [alwaysReturns]⟩
  | whileOut _ _ _ =>
    refine ⟨PathEnd.leave_ne_broke _, by simp [alwaysReturns]⟩
  | forDone => simp [alwaysReturns]
  | forNext _ _ _ ih =>
    obtain ⟨a1, _⟩ := ih hg
    exact ⟨a1, by simp [alwaysReturns]⟩
  | forOut _ _ _ =>
    refine ⟨PathEnd.leave_ne_broke _, by simp [alwaysReturns]⟩
  | case h ih =>
    rename_i v m before after body d o
    refine ⟨PathEnd.leave_ne_broke _, fun ha => ?_⟩
    cases d with
    | none => simp [Guarded] at hg
    | some d =>
      simp only [Guarded, Bool.and_eq_true] at hg
      obtain ⟨g1, g2⟩ := GuardedCases_mem _ _ _ hg.1
      have := ih (by simp only [Guarded, GuardedAll_append, g1, GuardedCases_flat _ g2, hg.2, Option.getD_some,
        Bool.and_self])
      simp only [alwaysReturns, Bool.and_eq_true] at ha
      have hb := casesReturn_mem _ _ _ ha.1
      have := this.2 (by simp [alwaysReturns, seqReturns_append, hb])
      subst this
      rfl
  | default h ih =>
    rename_i v cases d o
    refine ⟨PathEnd.leave_ne_broke _, fun ha => ?_⟩
    simp only [Guarded, Bool.and_eq_true] at hg ih
    simp only [alwaysReturns, blockOptReturns, Bool.and_eq_true] at ha ih
    have := (ih hg.2).2 ha.2
    subst this
    rfl
  | noCase => simp [Guarded] at hg

mutual
theorem path_exists (e : TypedExpr) (hg : Guarded e = true) (hs : NoSwitch e = true)
    (h : alwaysReturns e = false) : Path e .finished := by
  cases e with
  | Return v => simp [alwaysReturns] at h
  | Break => simp [Guarded] at hg
  | Seq es =>
    simp only [Guarded, NoSwitch, alwaysReturns] at hg hs h
    exact pathAll_exists es hg hs h
  | If c t e =>
    simp only [Guarded, NoSwitch, Bool.and_eq_true] at hg hs
    cases e with
    | none => exact .skip
    | some e =>
      simp only [alwaysReturns, Bool.and_eq_false_iff] at h
      simp only [GuardedOpt, NoSwitchOpt] at hg hs
      rcases h with h | h
      · exact .then_ (pathAll_exists t hg.1 hs.1 h)
      · exact .else_ (pathAll_exists e hg.2 hs.2 h)
  | While c b => exact .whileDone
  | ForIn l a b => exact .forDone
  | Switch v c d => simp [NoSwitch] at hs
  | _ => exact .plain rfl
termination_by sizeOf e
theorem pathAll_exists (es : List TypedExpr) (hg : GuardedAll es = true) (hs : NoSwitchAll es = true)
    (h : seqReturns es = false) : Path (.Seq es) .finished := by
  cases es with
  | nil => exact .nil
  | cons e es =>
    simp only [GuardedAll, NoSwitchAll, seqReturns, Bool.and_eq_true, Bool.or_eq_false_iff] at hg hs h
    exact .next (path_exists e hg.1 hs.1 h.1) (pathAll_exists es hg.2 hs.2 h.2)
termination_by sizeOf es
end

/-! ## The properties -/

/-- C33, as far as it holds: when the check does not warn about a function with a result, every path
through its body that ends reaches a return, provided that outside of loops every switch has a default
and there is no break. Missing: switches without default and breaks out of a switch, see the
counterexamples. -/
theorem C33_accepted_returns_partial (body : List TypedExpr) (hg : GuardedAll body = true)
    (h : missingReturn true false body = false) (o : PathEnd) (hp : Path (.Seq body) o) : o = .returned := by
  have hs : seqReturns body = true := by simpa [missingReturn] using h
  exact (path_guarded hp (by simpa [Guarded] using hg)).2 (by simpa [alwaysReturns] using hs)

/-- Without switches the check is exact: it warns if and only if some path ends without a return. -/
theorem C33_exact_without_switch (body : List TypedExpr) (hg : GuardedAll body = true)
    (hs : NoSwitchAll body = true) :
    missingReturn true false body = true ↔ ∃ o, Path (.Seq body) o ∧ o ≠ .returned := by
  constructor
  · intro h
    exact ⟨.finished, pathAll_exists body hg hs (by simpa [missingReturn] using h), by simp⟩
  · rintro ⟨o, hp, ho⟩
    cases hm : missingReturn true false body with
    | true => rfl
    | false => exact absurd (C33_accepted_returns_partial body hg hm o hp) ho

/-- Functions without a result and callbacks are never warned about. -/
theorem C33_only_functions_with_result (ret cb : Bool) (body : List TypedExpr)
    (h : missingReturn ret cb body = true) : ret = true ∧ cb = false := by
  simp [missingReturn] at h
  exact h.1

/-- `switch x { case 1: return 1; }` is accepted although it can be left without a return. -/
theorem C33_switch_without_default_counterexample :
    ∃ body : List TypedExpr, missingReturn true false body = false ∧ Path (.Seq body) .finished :=
  ⟨[.Switch (.Ident (Reference.Value (.Local 1#32))) [(.Constant (.I32 1), [.Return (some (.Constant (.I32 1)))])] none],
    rfl, .next .noCase .nil⟩

/-- `switch x { case 1: if c { break; } return 1; default: return 2; }` is accepted although the break
leaves the function without a return. -/
theorem C33_break_counterexample :
    ∃ body : List TypedExpr, missingReturn true false body = false ∧ Path (.Seq body) .finished :=
  ⟨[.Switch (.Ident (Reference.Value (.Local 1#32)))
      [(.Constant (.I32 1), [.If (.Ident (Reference.Value (.Local 2#32))) [.Break] none,
        .Return (some (.Constant (.I32 1)))])]
      (some [.Return (some (.Constant (.I32 2)))])],
    rfl, .next (.case (before := []) (o := .broke) (.stop (.then_ (.stop .brk (by simp))) (by simp))) .nil⟩

/-! ## Non-vacuity -/

/-- `while c { break; } switch x { case 1: case 2: return 1; default: if c { return 2; } else { return 3; } }` -/
def exReturns : List TypedExpr :=
  [.While (.Ident (Reference.Value (.Local 2#32))) [.Break],
   .Switch (.Ident (Reference.Value (.Local 1#32)))
     [(.Constant (.I32 1), [.Return none]), (.Constant (.I32 2), [.Return (some (.Constant (.I32 1)))])]
     (some [.If (.Ident (Reference.Value (.Local 2#32))) [.Return none] (some [.Return none])])]

example : GuardedAll exReturns = true ∧ missingReturn true false exReturns = false := ⟨rfl, rfl⟩
example : Path (.Seq exReturns) .returned :=
  .next (.whileOut (o := .broke) (.stop .brk (by simp)) (by simp))
    (.stop (.default (o := .returned) (.stop (.else_ (.stop .ret (by simp))) (by simp))) (by simp))
example :
    let body : List TypedExpr := [.If (.Ident (Reference.Value (.Local 2#32))) [.Return none] none]
    GuardedAll body = true ∧ NoSwitchAll body = true ∧ missingReturn true false body = true := ⟨rfl, rfl, rfl⟩

end Redscript
