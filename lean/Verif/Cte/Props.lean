import Verif.Cte.Model

/-!
# Conditional compilation (C20)
-/

namespace Redscript

/-! ## Specification -/

/-- Boolean formulas over module-existence tests. -/
inductive Formula where
  | lit (b : Bool)
  | moduleExists (name : Text)
  | not (f : Formula)
  | and (f g : Formula)
  | or (f g : Formula)
  | ite (c t e : Formula)

/-- Truth of a formula. A module test is true when a module of that name is being compiled; names are
compared part by part. -/
def Formula.Holds (mods : List ModulePath) : Formula → Prop
  | .lit b => b = true
  | .moduleExists n => ModulePath.parse n ∈ mods
  | .not f => ¬ f.Holds mods
  | .and f g => f.Holds mods ∧ g.Holds mods
  | .or f g => f.Holds mods ∨ g.Holds mods
  | .ite c t e => (c.Holds mods → t.Holds mods) ∧ (¬ c.Holds mods → e.Holds mods)

/-- The source expression of a formula: literals, `ModuleExists("…")`, `!`, `&&`, `||`, `?:`. -/
def Formula.toExpr : Formula → Expr SourceAst
  | .lit b => .Constant (.Bool b)
  | .moduleExists n => .Call "ModuleExists".toList [] [.Constant (.String .String n)]
  | .not f => .UnOp f.toExpr .LogicNot
  | .and f g => .BinOp f.toExpr g.toExpr .LogicAnd
  | .or f g => .BinOp f.toExpr g.toExpr .LogicOr
  | .ite c t e => .Conditional c.toExpr t.toExpr e.toExpr

/-- What is evaluated of an expression is supported: `Reads e f` says that `e` is the formula `f`, except
that a branch of a conditional which is not taken can be anything. -/
inductive Reads (mods : List ModulePath) : Expr SourceAst → Formula → Prop where
  | lit (b) : Reads mods (.Constant (.Bool b)) (.lit b)
  | moduleExists (tys n) : Reads mods (.Call "ModuleExists".toList tys [.Constant (.String .String n)]) (.moduleExists n)
  | not {e f} : Reads mods e f → Reads mods (.UnOp e .LogicNot) (.not f)
  | and {e e' f f'} : Reads mods e f → Reads mods e' f' → Reads mods (.BinOp e e' .LogicAnd) (.and f f')
  | or {e e' f f'} : Reads mods e f → Reads mods e' f' → Reads mods (.BinOp e e' .LogicOr) (.or f f')
  | iteTrue {c c' t t'} (e e') : Reads mods c c' → c'.Holds mods → Reads mods t t' →
      Reads mods (.Conditional c t e) (.ite c' t' e')
  | iteFalse {c c' e e'} (t t') : Reads mods c c' → ¬ c'.Holds mods → Reads mods e e' →
      Reads mods (.Conditional c t e) (.ite c' t' e')

/-! ## C20 -/

/-- The value of a formula is its truth value: no evaluation error, and true exactly when it holds. -/
theorem C20_value_is_truth (mods : List ModulePath) (f : Formula) :
    ∃ b, cteEval mods f.toExpr = some b ∧ (b = true ↔ f.Holds mods) := by
  induction f with
  | lit b => exact ⟨b, by simp [Formula.toExpr, cteEval], by simp [Formula.Holds]⟩
  | moduleExists n =>
    refine ⟨mods.contains (ModulePath.parse n), by simp [Formula.toExpr, cteEval], ?_⟩
    simp [Formula.Holds]
  | not f ih =>
    obtain ⟨b, h, hb⟩ := ih
    refine ⟨!b, by simp [Formula.toExpr, cteEval, h], ?_⟩
    simp [Formula.Holds, ← hb]
  | and f g ihf ihg =>
    obtain ⟨b, h, hb⟩ := ihf
    obtain ⟨b', h', hb'⟩ := ihg
    refine ⟨b && b', by simp [Formula.toExpr, cteEval, h, h'], ?_⟩
    simp [Formula.Holds, ← hb, ← hb']
  | or f g ihf ihg =>
    obtain ⟨b, h, hb⟩ := ihf
    obtain ⟨b', h', hb'⟩ := ihg
    refine ⟨b || b', by simp [Formula.toExpr, cteEval, h, h'], ?_⟩
    simp [Formula.Holds, ← hb, ← hb']
  | ite c t e ihc iht ihe =>
    obtain ⟨b, h, hb⟩ := ihc
    obtain ⟨bt, ht, hbt⟩ := iht
    obtain ⟨be, he, hbe⟩ := ihe
    refine ⟨if b then bt else be, by cases b <;> simp [Formula.toExpr, cteEval, h, ht, he], ?_⟩
    cases b <;> simp [Formula.Holds, ← hb, ← hbt, ← hbe]

/-- An expression has a value exactly when everything evaluated in it is supported, and the value is
then the truth value of the formula it reads as. -/
theorem C20_value_iff_supported (mods : List ModulePath) (e : Expr SourceAst) (b : Bool) :
    cteEval mods e = some b ↔ ∃ f, Reads mods e f ∧ (b = true ↔ f.Holds mods) := by
  constructor
  · intro h
    fun_induction cteEval mods e generalizing b with
    | case1 b' => exact ⟨.lit b', .lit b', by simp_all [Formula.Holds]⟩
    | case2 tys s =>
      refine ⟨.moduleExists s, .moduleExists tys s, ?_⟩
      simp only [Option.some.injEq] at h
      simp [Formula.Holds, ← h]
    | case3 | case4 => cases h
    | case5 => cases h
    | case6 c t e hc ih1 ih2 =>
      obtain ⟨f, hf, hb⟩ := ih1 _ hc
      obtain ⟨g, hg, hb'⟩ := ih2 _ h
      refine ⟨.ite f g (.lit false), .iteTrue _ _ hf (hb.1 rfl) hg, ?_⟩
      have := hb.1 rfl
      simp [Formula.Holds, this, hb']
    | case7 c t e hc ih1 ih2 =>
      obtain ⟨f, hf, hb⟩ := ih1 _ hc
      obtain ⟨g, hg, hb'⟩ := ih2 _ h
      have : ¬ f.Holds mods := fun hh => by simpa using hb.2 hh
      refine ⟨.ite f (.lit false) g, .iteFalse _ _ hf this hg, ?_⟩
      simp [Formula.Holds, this, hb']
    | case8 l r x y hr hl ih1 ih2 =>
      obtain ⟨f, hf, hb⟩ := ih1 _ hl
      obtain ⟨g, hg, hb'⟩ := ih2 _ hr
      refine ⟨.and f g, .and hf hg, ?_⟩
      simp only [Option.some.injEq] at h
      simp [Formula.Holds, ← h, ← hb, ← hb']
    | case9 l r x y hr hl ih1 ih2 =>
      obtain ⟨f, hf, hb⟩ := ih1 _ hl
      obtain ⟨g, hg, hb'⟩ := ih2 _ hr
      refine ⟨.or f g, .or hf hg, ?_⟩
      simp only [Option.some.injEq] at h
      simp [Formula.Holds, ← h, ← hb, ← hb']
    | case12 e x he ih =>
      obtain ⟨f, hf, hb⟩ := ih _ he
      refine ⟨.not f, .not hf, ?_⟩
      simp only [Option.some.injEq] at h
      subst h
      simp [Formula.Holds, ← hb]
    | _ => cases h
  · rintro ⟨f, hf, hb⟩
    induction hf generalizing b with
    | lit b' => simp only [Formula.Holds] at hb; simp only [cteEval, Option.some.injEq]; exact (Bool.eq_iff_iff.2 hb).symm
    | moduleExists tys n =>
      simp only [Formula.Holds] at hb
      simp only [cteEval, if_true, Option.some.injEq]
      apply Bool.eq_iff_iff.2
      simp [hb]
    | @not e f _ ih =>
      simp only [Formula.Holds] at hb
      have := ih (!b) (by cases b <;> simp_all)
      simp [cteEval, this]
    | @and e e' f f' _ _ ih ih' =>
      simp only [Formula.Holds] at hb
      classical
      have h1 := ih (decide (f.Holds mods)) (by simp)
      have h2 := ih' (decide (f'.Holds mods)) (by simp)
      simp only [cteEval, h1, h2, Option.some.injEq]
      apply Bool.eq_iff_iff.2
      simp [hb]
    | @or e e' f f' _ _ ih ih' =>
      simp only [Formula.Holds] at hb
      classical
      have h1 := ih (decide (f.Holds mods)) (by simp)
      have h2 := ih' (decide (f'.Holds mods)) (by simp)
      simp only [cteEval, h1, h2, Option.some.injEq]
      apply Bool.eq_iff_iff.2
      simp [hb]
    | iteTrue _ _ _ hc _ ih ih' =>
      have h1 := ih true (by simp [hc])
      simp only [cteEval, h1]
      exact ih' b (by simpa [Formula.Holds, hc] using hb)
    | iteFalse _ _ _ hc _ ih ih' =>
      have h1 := ih false (by simp [hc])
      simp only [cteEval, h1]
      exact ih' b (by simpa [Formula.Holds, hc] using hb)

/-- A declaration is kept exactly when each of its conditions (the first argument of each `@if`)
evaluates to true; it is dropped when all have values and one is false; otherwise there is an error. -/
theorem C20_kept_iff_all_true (mods : List ModulePath) (anns : List Annotation) :
    (evalConditions mods anns = some true ↔
      ∀ a ∈ anns, a.kind = .If → ∀ e, a.args.head? = some e → cteEval mods e = some true) ∧
    (evalConditions mods anns = none ↔
      ∃ a ∈ anns, a.kind = .If ∧ ∃ e, a.args.head? = some e ∧ cteEval mods e = none) := by
  have key : ∀ (es : List (Expr SourceAst)) (acc : Bool),
      (foldConditions mods acc es = some true ↔ acc = true ∧ ∀ e ∈ es, cteEval mods e = some true) ∧
      (foldConditions mods acc es = none ↔ ∃ e ∈ es, cteEval mods e = none) := by
    intro es
    induction es with
    | nil => intro acc; simp [foldConditions]
    | cons e es ih =>
      intro acc
      unfold foldConditions
      cases he : cteEval mods e with
      | none => simp [he]
      | some b =>
        simp only [(ih (acc && b)).1, (ih (acc && b)).2, List.forall_mem_cons, he]
        simp [and_assoc, he]
  have k := key ((anns.filter (·.kind == .If)).filterMap (·.args.head?)) true
  refine ⟨k.1.trans ?_, k.2.trans ?_⟩
  · simp only [List.mem_filterMap, List.mem_filter, beq_iff_eq, true_and]
    constructor
    · intro h a ha hk e he; exact h e ⟨a, ⟨ha, hk⟩, he⟩
    · rintro h e ⟨a, ⟨ha, hk⟩, he⟩; exact h a ha hk e he
  · simp only [List.mem_filterMap, List.mem_filter, beq_iff_eq]
    constructor
    · rintro ⟨e, ⟨a, ⟨ha, hk⟩, he⟩, hn⟩; exact ⟨a, ha, hk, e, he, hn⟩
    · rintro ⟨a, ha, hk, e, he, hn⟩; exact ⟨e, ⟨a, ⟨ha, hk⟩, he⟩, hn⟩

/-- The declarations kept are, in order, those all of whose conditions are true. -/
theorem C20_keeps_enabled_in_order {α : Type} (mods : List ModulePath) (anns : α → List Annotation)
    (xs kept : List α) (h : keepEnabled mods anns xs = some kept) :
    kept.Sublist xs ∧ ∀ x ∈ xs, x ∈ kept ↔
      ∀ a ∈ anns x, a.kind = .If → ∀ e, a.args.head? = some e → cteEval mods e = some true := by
  induction xs generalizing kept with
  | nil => simp [keepEnabled] at h; simp [h]
  | cons x xs ih =>
    unfold keepEnabled at h
    cases hx : evalConditions mods (anns x) with
    | none => simp [hx] at h
    | some b =>
      cases hr : keepEnabled mods anns xs with
      | none => simp [hx, hr] at h
      | some r =>
        simp only [hx, hr, Option.map_some, Option.some.injEq] at h
        obtain ⟨hs, hm⟩ := ih r hr
        -- membership of equal elements agrees, since it depends on the annotations only
        have all : ∀ y ∈ r, evalConditions mods (anns y) = some true := fun y hy =>
          (C20_kept_iff_all_true mods (anns y)).1.2 ((hm y (hs.subset hy)).1 hy)
        cases b with
        | true =>
          simp only [if_true] at h
          subst h
          refine ⟨hs.cons_cons x, fun y hy => ?_⟩
          have hx' := (C20_kept_iff_all_true mods (anns x)).1.1 hx
          rcases List.mem_cons.1 hy with rfl | hy'
          · simp only [List.mem_cons, true_or, true_iff]; exact hx'
          · constructor
            · intro hk
              rcases List.mem_cons.1 hk with rfl | hk
              · exact hx'
              · exact (hm y hy').1 hk
            · intro hk; exact List.mem_cons_of_mem _ ((hm y hy').2 hk)
        | false =>
          simp only [Bool.false_eq_true, if_false] at h
          subst h
          refine ⟨hs.cons x, fun y hy => ?_⟩
          rcases List.mem_cons.1 hy with rfl | hy'
          · constructor
            · intro hk; rw [all _ hk] at hx; cases hx
            · intro hk
              rw [(C20_kept_iff_all_true mods (anns y)).1.2 hk] at hx; cases hx
          · exact hm y hy'

/-! ## Non-vacuity -/

private def exMods : List ModulePath := [["Codeware".toList], ["A".toList, "B".toList]]
private def exFormula : Formula :=
  .ite (.moduleExists "A.B".toList) (.and (.moduleExists "Codeware".toList) (.not (.moduleExists "A".toList))) (.lit false)

example : cteEval exMods exFormula.toExpr = some true := by decide +kernel
/-- An unsupported branch that is not taken does not matter; one that is evaluated is an error. -/
example : cteEval exMods (.Conditional (.Constant (.Bool true)) (.Constant (.Bool false)) .This) = some false := by
  decide +kernel
example : cteEval exMods (.BinOp (.Constant (.Bool false)) .This .LogicAnd) = none := by decide +kernel
example : (keepEnabled exMods (fun x : Nat × List Annotation => x.2)
    [(1, [⟨.If, [exFormula.toExpr]⟩]), (2, [⟨.AddField, []⟩, ⟨.If, [(Formula.moduleExists "X".toList).toExpr]⟩]), (3, [])]).map
      (·.map (·.1)) = some [1, 3] := by decide +kernel

end Redscript
