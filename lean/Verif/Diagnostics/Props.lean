import Verif.Diagnostics.Model
import Verif.Util.List

/-!
# C34, C52: what the diagnostic passes report
-/

namespace Redscript

/-! ## Specification -/

/-- The direct subexpressions of an expression, in source order. -/
def Expr.children : Expr N → List (Expr N)
  | .ArrayLit es _ => es
  | .InterpolatedString _ parts => parts.map (·.1)
  | .Declare _ _ init => init.toList
  | .Cast _ e => [e]
  | .Assign l r => [l, r]
  | .Call _ _ args => args
  | .MethodCall ctx _ args => ctx :: args
  | .Member ctx _ => [ctx]
  | .ArrayElem e i => [e, i]
  | .New _ args => args
  | .Return e => e.toList
  | .Seq es => es
  | .Switch e cases dflt => e :: (cases.flatMap fun c => c.1 :: c.2) ++ dflt.getD []
  | .If c t e => c :: t ++ e.getD []
  | .Conditional c t e => [c, t, e]
  | .While c body => c :: body
  | .ForIn _ a body => a :: body
  | .BinOp l r _ => [l, r]
  | .UnOp e _ => [e]
  | .Ident _ | .Constant _ | .Goto _ | .This | .Super | .Break | .Null => []

/-- `x` occurs in `e`, at any depth. -/
inductive Occurs (x : Expr N) : Expr N → Prop
  | here : Occurs x x
  | inside {c e : Expr N} : c ∈ e.children → Occurs x c → Occurs x e

/-- `l` lists all occurrences of expressions in `e` in source order, each expression before its
parts. -/
inductive Preorder : Expr N → List (Expr N) → Prop
  | mk {e : Expr N} {ls : List (List (Expr N))} : All2 Preorder e.children ls → Preorder e (e :: ls.flatten)

/-- The body of a case ends in a statement other than `break` and `return`. -/
def EndsOpen (body : List TypedExpr) : Prop :=
  ∃ init last, body = init ++ [last] ∧ last ≠ .Break ∧ ∀ v, last ≠ .Return v

/-- A case of the switch `sw`, other than its last, with matcher `m` and a body that ends open. -/
def FallingCase (sw m : TypedExpr) : Prop :=
  ∃ value before body after dflt, sw = .Switch value (before ++ (m, body) :: after) dflt ∧
    after ≠ [] ∧ EndsOpen body

/-- A use of a temporary where a place is needed: reading a field of a struct, indexing an array, and
the first argument of the array intrinsics that work in place. -/
inductive NeedsPlace : TypedExpr → TypedExpr → Prop
  | field (e : TypedExpr) (f : Idx) : NeedsPlace (.Member e (.StructField f)) e
  | index (e i : TypedExpr) : NeedsPlace (.ArrayElem e i) e
  | intrinsic (op : IntrinsicOp) (ty : TypeId) (tys : List TypeId) (e : TypedExpr) (args : List TypedExpr)
      (h : op ∈ [.ArrayContains, .ArrayCount, .ArrayFindFirst, .ArrayFindLast, .ArrayLast, .ArrayPop, .ArraySize]) :
      NeedsPlace (.Call (.Intrinsic op ty) tys (e :: args)) e

/-- Expressions that denote a place or a literal: constants, variables, fields of objects, dereferences,
and fields and elements of those. -/
inductive Lasting : TypedExpr → Prop
  | constant (c : Constant) : Lasting (.Constant c)
  | ident (r : Reference) : Lasting (.Ident r)
  | this : Lasting .This
  | super : Lasting .Super
  | deref (ty : TypeId) (tys : List TypeId) (args : List TypedExpr) :
      Lasting (.Call (.Intrinsic .Deref ty) tys args)
  | classField (e : TypedExpr) (f : Idx) : Lasting (.Member e (.ClassField f))
  | structField (e : TypedExpr) (f : Idx) : Lasting e → Lasting (.Member e (.StructField f))
  | element (e i : TypedExpr) : Lasting e → Lasting (.ArrayElem e i)

/-! ## Helper lemmas -/

theorem All2.append {R : α → β → Prop} {a a' : List α} {b b' : List β} (h : All2 R a b) (h' : All2 R a' b') :
    All2 R (a ++ a') (b ++ b') := by
  induction h with
  | nil => exact h'
  | cons h _ ih => exact .cons h ih

/-- The lists of the members of a list, concatenated. -/
def PreorderAll (es l : List (Expr N)) : Prop := ∃ ls, All2 Preorder es ls ∧ l = ls.flatten

theorem PreorderAll.nil : PreorderAll ([] : List (Expr N)) [] := ⟨[], .nil, rfl⟩
theorem PreorderAll.cons {e : Expr N} {es l ls : List (Expr N)} (h : Preorder e l) (h' : PreorderAll es ls) :
    PreorderAll (e :: es) (l ++ ls) := by
  obtain ⟨ls', h1, rfl⟩ := h'
  exact ⟨l :: ls', .cons h h1, by simp⟩
theorem PreorderAll.append {a b l m : List (Expr N)} (h : PreorderAll a l) (h' : PreorderAll b m) :
    PreorderAll (a ++ b) (l ++ m) := by
  obtain ⟨ls, h1, rfl⟩ := h
  obtain ⟨ms, h2, rfl⟩ := h'
  exact ⟨ls ++ ms, h1.append h2, by simp⟩
theorem PreorderAll.one {e : Expr N} {l : List (Expr N)} (h : Preorder e l) : PreorderAll [e] l := by
  simpa using PreorderAll.cons h .nil
theorem visit_finish {e : TypedExpr} {cs l : List TypedExpr} (h : PreorderAll cs l) (hc : e.children = cs)
    (hv : ∀ (R : Type) (f : TypedExpr → List R), visit f e = f e ++ l.flatMap f) :
    ∃ l, Preorder e l ∧ ∀ (R : Type) (f : TypedExpr → List R), visit f e = l.flatMap f := by
  subst hc
  obtain ⟨ls, h1, rfl⟩ := h
  exact ⟨_, .mk h1, fun R f => by rw [hv, List.flatMap_cons]⟩

mutual
theorem visit_preorder (e : TypedExpr) :
    ∃ l, Preorder e l ∧ ∀ (R : Type) (f : TypedExpr → List R), visit f e = l.flatMap f := by
  cases e with
  | ArrayLit es ty => obtain ⟨l, h, hv⟩ := visitList_preorder es; exact visit_finish h rfl (by simp [visit, hv])
  | InterpolatedString s ps => obtain ⟨l, h, hv⟩ := visitParts_preorder ps; exact visit_finish h rfl (by simp [visit, hv])
  | Declare n ty i => obtain ⟨l, h, hv⟩ := visitOpt_preorder i; exact visit_finish h rfl (by simp [visit, hv])
  | Return i => obtain ⟨l, h, hv⟩ := visitOpt_preorder i; exact visit_finish h rfl (by simp [visit, hv])
  | Cast ty e => obtain ⟨l, h, hv⟩ := visit_preorder e; exact visit_finish (PreorderAll.one h) rfl (by simp [visit, hv])
  | UnOp e op => obtain ⟨l, h, hv⟩ := visit_preorder e; exact visit_finish (PreorderAll.one h) rfl (by simp [visit, hv])
  | Member e m => obtain ⟨l, h, hv⟩ := visit_preorder e; exact visit_finish (PreorderAll.one h) rfl (by simp [visit, hv])
  | Assign a b =>
    obtain ⟨l, h, hv⟩ := visit_preorder a
    obtain ⟨m, h', hv'⟩ := visit_preorder b
    exact visit_finish (PreorderAll.cons h (.one h')) rfl (by simp [visit, hv, hv'])
  | ArrayElem a b =>
    obtain ⟨l, h, hv⟩ := visit_preorder a
    obtain ⟨m, h', hv'⟩ := visit_preorder b
    exact visit_finish (PreorderAll.cons h (.one h')) rfl (by simp [visit, hv, hv'])
  | BinOp a b op =>
    obtain ⟨l, h, hv⟩ := visit_preorder a
    obtain ⟨m, h', hv'⟩ := visit_preorder b
    exact visit_finish (PreorderAll.cons h (.one h')) rfl (by simp [visit, hv, hv'])
  | Call c tys args => obtain ⟨l, h, hv⟩ := visitList_preorder args; exact visit_finish h rfl (by simp [visit, hv])
  | New ty args => obtain ⟨l, h, hv⟩ := visitList_preorder args; exact visit_finish h rfl (by simp [visit, hv])
  | Seq es => obtain ⟨l, h, hv⟩ := visitList_preorder es; exact visit_finish h rfl (by simp [visit, hv])
  | MethodCall c f args =>
    obtain ⟨l, h, hv⟩ := visit_preorder c
    obtain ⟨m, h', hv'⟩ := visitList_preorder args
    exact visit_finish (PreorderAll.cons h h') rfl (by simp [visit, hv, hv'])
  | While c b =>
    obtain ⟨l, h, hv⟩ := visit_preorder c
    obtain ⟨m, h', hv'⟩ := visitList_preorder b
    exact visit_finish (PreorderAll.cons h h') rfl (by simp [visit, hv, hv'])
  | ForIn n c b =>
    obtain ⟨l, h, hv⟩ := visit_preorder c
    obtain ⟨m, h', hv'⟩ := visitList_preorder b
    exact visit_finish (PreorderAll.cons h h') rfl (by simp [visit, hv, hv'])
  | Conditional a b c =>
    obtain ⟨l, h, hv⟩ := visit_preorder a
    obtain ⟨m, h', hv'⟩ := visit_preorder b
    obtain ⟨n, h'', hv''⟩ := visit_preorder c
    exact visit_finish (PreorderAll.cons h (.cons h' (.one h''))) rfl (by simp [visit, hv, hv', hv''])
  | If c t e =>
    obtain ⟨l, h, hv⟩ := visit_preorder c
    obtain ⟨m, h', hv'⟩ := visitList_preorder t
    obtain ⟨n, h'', hv''⟩ := visitBlockOpt_preorder e
    exact visit_finish (PreorderAll.cons h (h'.append h'')) rfl (by simp [visit, hv, hv', hv''])
  | Switch c t e =>
    obtain ⟨l, h, hv⟩ := visit_preorder c
    obtain ⟨m, h', hv'⟩ := visitCases_preorder t
    obtain ⟨n, h'', hv''⟩ := visitBlockOpt_preorder e
    exact visit_finish (PreorderAll.cons h (h'.append h'')) rfl (by simp [visit, hv, hv', hv''])
  | _ => exact visit_finish PreorderAll.nil rfl (by simp [visit])
termination_by sizeOf e
theorem visitList_preorder (es : List TypedExpr) :
    ∃ l, PreorderAll es l ∧ ∀ (R : Type) (f : TypedExpr → List R), visitList f es = l.flatMap f := by
  cases es with
  | nil => exact ⟨_, .nil, by simp [visitList]⟩
  | cons e es =>
    obtain ⟨l, h, hv⟩ := visit_preorder e
    obtain ⟨m, h', hv'⟩ := visitList_preorder es
    exact ⟨_, .cons h h', by simp [visitList, hv, hv']⟩
termination_by sizeOf es
theorem visitParts_preorder (ps : List (TypedExpr × Text)) :
    ∃ l, PreorderAll (ps.map (·.1)) l ∧ ∀ (R : Type) (f : TypedExpr → List R), visitParts f ps = l.flatMap f := by
  match ps with
  | [] => exact ⟨_, .nil, by simp [visitParts]⟩
  | (e, t) :: ps =>
    obtain ⟨l, h, hv⟩ := visit_preorder e
    obtain ⟨m, h', hv'⟩ := visitParts_preorder ps
    exact ⟨_, .cons h h', by simp [visitParts, hv, hv']⟩
termination_by sizeOf ps
theorem visitOpt_preorder (o : Option TypedExpr) :
    ∃ l, PreorderAll o.toList l ∧ ∀ (R : Type) (f : TypedExpr → List R), visitOpt f o = l.flatMap f := by
  cases o with
  | none => exact ⟨_, .nil, by simp [visitOpt]⟩
  | some e =>
    obtain ⟨l, h, hv⟩ := visit_preorder e
    exact ⟨_, .one h, by simp [visitOpt, hv]⟩
termination_by sizeOf o
theorem visitCases_preorder (cs : List (TypedExpr × List TypedExpr)) :
    ∃ l, PreorderAll (cs.flatMap fun c => c.1 :: c.2) l ∧
      ∀ (R : Type) (f : TypedExpr → List R), visitCases f cs = l.flatMap f := by
  match cs with
  | [] => exact ⟨_, .nil, by simp [visitCases]⟩
  | (e, b) :: cs =>
    obtain ⟨l, h, hv⟩ := visit_preorder e
    obtain ⟨m, h', hv'⟩ := visitList_preorder b
    obtain ⟨n, h'', hv''⟩ := visitCases_preorder cs
    exact ⟨_, .cons h (h'.append h''), by simp [visitCases, hv, hv', hv'']⟩
termination_by sizeOf cs
theorem visitBlockOpt_preorder (o : Option (List TypedExpr)) :
    ∃ l, PreorderAll (o.getD []) l ∧ ∀ (R : Type) (f : TypedExpr → List R), visitBlockOpt f o = l.flatMap f := by
  cases o with
  | none => exact ⟨_, .nil, by simp [visitBlockOpt]⟩
  | some e =>
    obtain ⟨l, h, hv⟩ := visitList_preorder e
    exact ⟨_, h, by simp [visitBlockOpt, hv]⟩
termination_by sizeOf o
end

theorem Preorder.mem_iff {e : Expr N} {l : List (Expr N)} (h : Preorder e l) (x : Expr N) :
    x ∈ l ↔ Occurs x e := by
  induction h using Preorder.rec (motive_2 := fun cs ls _ => (x ∈ ls.flatten ↔ ∃ c ∈ cs, Occurs x c)) with
  | mk h ih =>
    rename_i e ls
    rw [List.mem_cons, ih]
    constructor
    · rintro (rfl | ⟨c, hc, ho⟩)
      · exact .here
      · exact .inside hc ho
    · intro h
      cases h with
      | here => exact .inl rfl
      | inside hc ho => exact .inr ⟨_, hc, ho⟩
  | nil => simp
  | cons h _ ih1 ih2 => simp [ih1, ih2]

theorem mem_visit {R : Type} (f : TypedExpr → List R) (e : TypedExpr) (r : R) :
    r ∈ visit f e ↔ ∃ x, Occurs x e ∧ r ∈ f x := by
  obtain ⟨l, h, hv⟩ := visit_preorder e
  simp [hv, h.mem_iff]

theorem mem_visitList {R : Type} (f : TypedExpr → List R) (es : List TypedExpr) (r : R) :
    r ∈ visitList f es ↔ ∃ e ∈ es, ∃ x, Occurs x e ∧ r ∈ f x := by
  induction es with
  | nil => simp [visitList]
  | cons e es ih => simp [visitList, mem_visit, ih]

theorem fallsThrough_iff (body : List TypedExpr) : fallsThrough body = true ↔ EndsOpen body := by
  unfold EndsOpen
  rcases List.eq_nil_or_concat body with rfl | ⟨init, last, rfl⟩
  · simp [fallsThrough]
  · simp only [fallsThrough, List.concat_eq_append, List.getLast?_append, List.getLast?_singleton, Option.some_or]
    constructor
    · intro h
      refine ⟨init, last, rfl, ?_, ?_⟩
      · rintro rfl; simp at h
      · rintro v rfl; simp at h
    · rintro ⟨i, l, he, h1, h2⟩
      obtain ⟨rfl, he⟩ := List.append_inj' he rfl
      simp at he
      subst he
      cases last <;> simp_all

theorem mem_dropLast_iff {α : Type} (l : List α) (x : α) :
    x ∈ l.dropLast ↔ ∃ before after, l = before ++ x :: after ∧ after ≠ [] := by
  rcases List.eq_nil_or_concat l with rfl | ⟨init, last, rfl⟩
  · simp
  · simp only [List.concat_eq_append, List.dropLast_concat]
    constructor
    · intro h
      obtain ⟨b, a, rfl⟩ := List.append_of_mem h
      exact ⟨b, a ++ [last], by simp, by simp⟩
    · rintro ⟨b, a, h, ha⟩
      rcases List.eq_nil_or_concat a with rfl | ⟨a', z, rfl⟩
      · exact absurd rfl ha
      · rw [List.concat_eq_append, ← List.cons_append, ← List.append_assoc] at h
        obtain ⟨rfl, _⟩ := List.append_inj' h rfl
        simp

theorem mem_fallthroughHere (sw m : TypedExpr) : m ∈ fallthroughHere sw ↔ FallingCase sw m := by
  unfold FallingCase
  cases sw with
  | Switch v cases d =>
    simp only [fallthroughHere, List.mem_map, List.mem_filter, mem_dropLast_iff, fallsThrough_iff, Prod.exists]
    constructor
    · rintro ⟨m', body, ⟨⟨b, a, rfl, ha⟩, ho⟩, rfl⟩
      exact ⟨v, b, body, a, d, rfl, ha, ho⟩
    · rintro ⟨_, b, body, a, _, h, ha, ho⟩
      injection h with h1 h2 h3
      exact ⟨m, body, ⟨⟨b, a, h2, ha⟩, ho⟩, rfl⟩
  | _ => simp [fallthroughHere]

theorem isPrvalue_iff (e : TypedExpr) : e.isPrvalue = false ↔ Lasting e := by
  constructor
  · fun_induction Expr.isPrvalue e with
    | case1 => intro _; exact .constant _
    | case2 => intro _; exact .ident _
    | case3 => intro _; exact .this
    | case4 => intro _; exact .super
    | case5 => intro _; exact .deref _ _ _
    | case6 => intro _; exact .classField _ _
    | case7 _ _ ih => intro h; exact .structField _ _ (ih h)
    | case8 _ _ ih => intro h; exact .element _ _ (ih h)
    | case9 => intro h; cases h
  · intro h
    induction h with
    | structField e f _ ih => rw [Expr.isPrvalue]; exact ih
    | element e i _ ih => rw [Expr.isPrvalue]; exact ih
    | _ => rfl

theorem mem_invalidTempHere (u e : TypedExpr) : e ∈ invalidTempHere u ↔ NeedsPlace u e ∧ ¬Lasting e := by
  rw [← isPrvalue_iff]
  constructor
  · intro h
    unfold invalidTempHere at h
    split at h <;> (try split at h) <;> simp_all
    · exact .field _ _
    · exact .index _ _
    · rename_i op _ _ _ _ hp
      refine .intrinsic _ _ _ _ _ ?_
      obtain ⟨hp, -⟩ := hp
      cases op <;> simp_all [needsPlace]
  · rintro ⟨h, hp⟩
    cases h with
    | field => simp_all [invalidTempHere]
    | index => simp_all [invalidTempHere]
    | intrinsic op ty tys e args h =>
      have : needsPlace op = true := by
        simp only [List.mem_cons, List.not_mem_nil, or_false] at h
        rcases h with rfl | rfl | rfl | rfl | rfl | rfl | rfl <;> rfl
      simp_all [invalidTempHere]

/-! ## The properties -/

/-- The fall-through check reports exactly the matchers of falling cases, at any nesting. -/
theorem C34_fallthrough_exact (body m : TypedExpr) :
    m ∈ fallthroughCheck body ↔ ∃ sw, Occurs sw body ∧ FallingCase sw m := by
  simp [fallthroughCheck, mem_visit, mem_fallthroughHere]

/-- The cases of one switch that fall through, first to last. -/
def fallingCases : List (TypedExpr × List TypedExpr) → List TypedExpr
  | [] => []
  | [_] => []
  | (m, body) :: c :: cs =>
    (match body.reverse with
      | [] => []
      | .Break :: _ => []
      | .Return _ :: _ => []
      | _ => [m]) ++ fallingCases (c :: cs)

/-- The reports come in source order: switch by switch, outer before inner, and case by case. Each
falling case is reported once. -/
theorem C34_fallthrough_in_source_order (body : TypedExpr) :
    ∃ l, Preorder body l ∧ fallthroughCheck body = l.flatMap fun e =>
      match e with
      | .Switch _ cases _ => fallingCases cases
      | _ => [] := by
  obtain ⟨l, h, hv⟩ := visit_preorder body
  refine ⟨l, h, ?_⟩
  rw [fallthroughCheck, hv]
  congr 1
  funext e
  cases e with
  | Switch v cases d =>
    simp only [fallthroughHere]
    fun_induction fallingCases cases with
    | case1 => rfl
    | case2 => rfl
    | case3 m body c cs ih =>
      rw [← ih, List.dropLast_cons_of_ne_nil (by simp), List.filter_cons]
      have : fallsThrough body = match body.reverse with
          | [] => false
          | .Break :: _ => false
          | .Return _ :: _ => false
          | _ => true := by
        rw [fallsThrough, List.getLast?_eq_head?_reverse]
        cases body.reverse with
        | nil => rfl
        | cons x xs => cases x <;> rfl
      simp only [this]
      split <;> simp_all
  | _ => rfl

/-- The unused-local check reports exactly the locals declared somewhere in the body (by `let` or by a
loop) that no expression of the body mentions. -/
theorem C34_unused_exact (body : List TypedExpr) (l : Idx) :
    l ∈ unusedLocals body ↔
      (∃ e ∈ body, ∃ x, Occurs x e ∧ ((∃ ty init, x = .Declare l ty init) ∨ ∃ a b, x = .ForIn l a b)) ∧
      ¬∃ e ∈ body, Occurs (.Ident (Reference.Value (.Local l)) : TypedExpr) e := by
  have hd : ∀ x, l ∈ declaredHere x ↔ (∃ ty init, x = .Declare l ty init) ∨ ∃ a b, x = .ForIn l a b := by
    intro x
    cases x <;> simp [declaredHere, eq_comm]
  have hu : ∀ x, l ∈ usedHere x ↔ x = .Ident (Reference.Value (.Local l)) := by
    intro x
    unfold usedHere
    split
    · simp [eq_comm]
    · rename_i h
      simp only [List.not_mem_nil, false_iff]
      rintro rfl
      exact h l rfl
  simp [unusedLocals, mem_visitList, hd, hu]

/-- The unused locals are reported in the order of their declarations, once per declaration. -/
theorem C34_unused_in_source_order (body : List TypedExpr) :
    ∃ (ls : List (List TypedExpr)) (keep : Idx → Bool), All2 Preorder body ls ∧
      unusedLocals body = (ls.flatten.flatMap fun e =>
        match e with
        | .Declare l _ _ => [l]
        | .ForIn l _ _ => [l]
        | _ => []).filter keep := by
  obtain ⟨_, ⟨ls, h, rfl⟩, hv⟩ := visitList_preorder body
  refine ⟨ls, fun l => !(visitList usedHere body).contains l, h, ?_⟩
  have hd : (declaredHere : TypedExpr → List Idx) = fun e =>
      match e with
      | .Declare l _ _ => [l]
      | .ForIn l _ _ => [l]
      | _ => [] := by
    funext e; cases e <;> rfl
  rw [← hd, ← hv, unusedLocals]

/-- The check for temporaries reports exactly the temporaries used where a place is needed, at any
nesting. -/
theorem C52_invalid_temporary_exact (body e : TypedExpr) :
    e ∈ invalidTempCheck body ↔ ∃ u, Occurs u body ∧ NeedsPlace u e ∧ ¬Lasting e := by
  simp [invalidTempCheck, mem_visit, mem_invalidTempHere]

/-- The reports come in source order, outer uses before inner ones, one report for each bad use. -/
theorem C52_invalid_temporary_in_source_order (body : TypedExpr) :
    ∃ (l : List TypedExpr) (bad : TypedExpr → List TypedExpr), Preorder body l ∧
      invalidTempCheck body = l.flatMap bad ∧
      ∀ u, (bad u).length ≤ 1 ∧ ∀ e, e ∈ bad u ↔ NeedsPlace u e ∧ ¬Lasting e := by
  obtain ⟨l, h, hv⟩ := visit_preorder body
  refine ⟨l, invalidTempHere, h, hv _ _, fun u => ⟨?_, fun e => mem_invalidTempHere u e⟩⟩
  unfold invalidTempHere
  split <;> (try split) <;> simp

/-! ## Non-vacuity -/

/-- `let x; switch 1 { case 2: { let y; switch x { case 3: f(); case 4: break; } } case 5: return; }`,
with `x` local 7 and `y` local 8. -/
def exDiagBody : List TypedExpr :=
  [.Declare 7#32 none none,
   .Switch (.Constant (.I32 1))
    [(.Constant (.I32 2), [.Declare 8#32 none none,
      .Switch (.Ident (Reference.Value (.Local 7#32)))
        [(.Constant (.I32 3), [.Call (Callable.Function 9#32) [] []]), (.Constant (.I32 4), [.Break])] none]),
     (.Constant (.I32 5), [.Return none])] none]

example : fallthroughCheck (.Seq exDiagBody) = [.Constant (.I32 2), .Constant (.I32 3)] := by rfl
example : unusedLocals exDiagBody = [8#32] := by rfl
/-- `f()[0]` and `f().x.y` use a temporary, `a.b.c` and `a[0]` do not. -/
example : invalidTempCheck (.ArrayElem (.Call (Callable.Function 9#32) [] []) (.Constant (.I32 0))) =
    [.Call (Callable.Function 9#32) [] []] := by rfl
example : invalidTempCheck (.Member (.Member (.Call (Callable.Function 9#32) [] []) (.StructField 1#32)) (.StructField 2#32)) =
    [.Member (.Call (Callable.Function 9#32) [] []) (.StructField 1#32), .Call (Callable.Function 9#32) [] []] := by rfl
example : invalidTempCheck (.Member (.Member (.Ident (Reference.Value (.Local 1#32))) (.ClassField 1#32)) (.StructField 2#32)) =
    [] := by rfl

end Redscript
