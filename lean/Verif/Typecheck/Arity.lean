import Verif.Typecheck.Claim

/-!
# C59: required parameters get arguments
-/

namespace Redscript

/-! ## Specification -/

/-- The expressions and statements directly inside of one. -/
def TypedExpr.inner : TypedExpr → List TypedExpr
  | .ArrayLit es _ => es
  | .InterpolatedString _ ps => ps.map (·.1)
  | .Declare _ _ (some e) => [e]
  | .Cast _ e => [e]
  | .Assign a b => [a, b]
  | .Call _ _ args => args
  | .MethodCall c _ args => c :: args
  | .Member e _ => [e]
  | .ArrayElem a i => [a, i]
  | .New _ args => args
  | .Return (some e) => [e]
  | .Seq es => es
  | .Switch e cs d => e :: (cs.flatMap fun c => c.1 :: c.2) ++ d.getD []
  | .If c t e => c :: t ++ e.getD []
  | .Conditional c a b => [c, a, b]
  | .While c b => c :: b
  | .ForIn _ a b => a :: b
  | .BinOp a b _ => [a, b]
  | .UnOp a _ => [a]
  | _ => []

/-- An expression or statement somewhere in a body. -/
inductive Within : TypedExpr → List TypedExpr → Prop
  | here {x xs} : x ∈ xs → Within x xs
  | inside {x y xs} : y ∈ xs → Within x y.inner → Within x xs

/-- The call of a function or method. -/
inductive CallOf : TypedExpr → Idx → List TypedExpr → Prop
  | function (f tys args) : CallOf (.Call (Callable.Function f) tys args) f args
  | method (c f args) : CallOf (.MethodCall c f args) f args

/-- Optional parameters come last. -/
def OptionalLast (optional : List Bool) : Prop := ∃ m n, optional = List.replicate m false ++ List.replicate n true

/-! ## Proof -/

section
variable {E : TcEnv} {L : List (Idx × TypeId)}

theorem AllOk.mem {es : List TypedExpr} (h : AllOk E L es) : ∀ e ∈ es, Ok E L e := by
  intro e he
  induction es with
  | nil => cases he
  | cons x xs ih =>
    cases h with
    | cons h1 h2 =>
      rcases List.mem_cons.1 he with rfl | he
      · exact h1
      · exact ih h2 he

theorem PartsOk.mem {ps : List (TypedExpr × Text)} (h : PartsOk E L ps) : ∀ p ∈ ps, Ok E L p.1 := by
  intro e he
  induction ps with
  | nil => cases he
  | cons x xs ih =>
    cases h with
    | cons h1 h2 =>
      rcases List.mem_cons.1 he with rfl | he
      · exact h1
      · exact ih h2 he

theorem CasesOk.mem {cs : List (TypedExpr × List TypedExpr)} (h : CasesOk E L cs) :
    ∀ c ∈ cs, ∀ e ∈ c.1 :: c.2, Ok E L e := by
  intro e he
  induction cs with
  | nil => cases he
  | cons x xs ih =>
    cases h with
    | cons h1 h2 h3 =>
      rcases List.mem_cons.1 he with rfl | he
      · intro e he
        rcases List.mem_cons.1 he with rfl | he
        · exact h1
        · exact h2.mem _ he
      · exact ih h3 he

theorem BlockOk.mem {b : Option (List TypedExpr)} (h : BlockOk E L b) : ∀ e ∈ b.getD [], Ok E L e := by
  cases h with
  | none => intro e he; cases he
  | some h => exact h.mem

theorem Ok.inner {x : TypedExpr} (h : Ok E L x) : ∀ y ∈ TypedExpr.inner x, Ok E L y := by
  intro y hy
  cases h <;> simp only [TypedExpr.inner, List.mem_cons, List.mem_append, List.mem_flatMap, List.mem_map,
    List.not_mem_nil, or_false] at hy
  case array h _ => exact h.mem _ hy
  case text h => obtain ⟨p, hp, rfl⟩ := hy; exact h.mem _ hp
  case declareAs h _ => exact hy ▸ h
  case cast h _ _ => exact hy ▸ h
  case assign h1 h2 _ _ => rcases hy with rfl | rfl <;> assumption
  case call h _ _ _ => exact h.mem _ hy
  case intrinsic h _ _ => exact h.mem _ hy
  case method h1 _ _ _ _ _ _ h2 _ _ _ =>
    rcases hy with rfl | hy
    · exact h1
    · exact h2.mem _ hy
  case classField h _ _ _ _ => exact hy ▸ h
  case structField h _ _ _ _ => exact hy ▸ h
  case enumMember h _ _ _ _ => exact hy ▸ h
  case elem => rcases hy with rfl | rfl <;> assumption
  case newStruct h _ _ => exact h.mem _ hy
  case ret h _ => exact hy ▸ h
  case seq h => exact h.mem _ hy
  case switch h1 h2 h3 =>
    rcases hy with (rfl | ⟨c, hc, hy⟩) | hy
    · exact h1
    · exact h2.mem c hc _ (List.mem_cons.2 hy)
    · exact h3.mem _ hy
  case ite h1 _ h2 h3 =>
    rcases hy with (rfl | hy) | hy
    · exact h1
    · exact h2.mem _ hy
    · exact h3.mem _ hy
  case conditional h1 _ h2 _ h3 => rcases hy with rfl | rfl | rfl <;> assumption
  case «while» h1 _ h2 =>
    rcases hy with rfl | hy
    · exact h1
    · exact h2.mem _ hy
  case forIn h1 _ _ _ h2 =>
    rcases hy with rfl | hy
    · exact h1
    · exact h2.mem _ hy

theorem Within.ok {x : TypedExpr} {xs : List TypedExpr} (h : Within x xs) (hx : ∀ y ∈ xs, Ok E L y) : Ok E L x := by
  induction h with
  | here h => exact hx _ h
  | inside h _ ih => exact ih (hx _ h).inner

theorem optional_behind {os : List Bool} (ho : OptionalLast os) {n : Nat}
    (h : (os.filter (· = false)).length ≤ n) : ∀ o ∈ os.drop n, o = true := by
  obtain ⟨m, k, rfl⟩ := ho
  have : m ≤ n := by
    rw [List.filter_append, List.length_append] at h
    have : ((List.replicate m false).filter (· = false)).length = m := by
      rw [List.filter_replicate_of_pos (by rfl), List.length_replicate]
    omega
  intro o hm
  rw [List.drop_append, List.drop_eq_nil_of_le (by rw [List.length_replicate]; exact this), List.nil_append,
    List.drop_replicate] at hm
  exact List.eq_of_mem_replicate hm

end

/-- C59: no call in an accepted body, however deep inside, leaves out a required parameter, as long as the optional
parameters of the function called come last; and none gives more arguments than there are parameters.

Not proved, because false: the same with a required parameter behind an optional one (`C59_required_counterexample`). -/
theorem C59_required_parameters_are_given_partial (E : TcEnv) (hE : E.Lawful) (refs : AMap Text Value)
    (body : List (Expr SourceAst)) (xs : List TypedExpr) (st : TcState)
    (h : E.checkBody refs body = .ok (xs, st)) (hn : TcDiag.compileError ∉ st.diags)
    (x : TypedExpr) (hx : Within x xs) (f : Idx) (args : List TypedExpr) (hc : CallOf x f args) :
    ∃ fn, E.function f = .ok fn ∧ args.length ≤ fn.optional.length ∧
      (OptionalLast fn.optional → ∀ o ∈ fn.optional.drop args.length, o = true) := by
  have i := checkList_good hE _ _ _ _ _ h hn _ (List.prefix_refl _)
  have hok := hx.ok i.1.mem
  cases hc with
  | function f tys args =>
    cases hok with
    | call _ h1 h2 h3 h4 h5 h6 => exact ⟨_, h1, h5, fun ho => optional_behind ho h6⟩
  | method c f args =>
    cases hok with
    | method _ _ _ _ _ h1 h2 h3 h4 h5 h6 => exact ⟨_, h1, h5, fun ho => optional_behind ho h6⟩

/-- The call of `Log`, which has an optional parameter, in the loop of the example. -/
example : ∃ xs st x args fn, TcToy.tc.checkBody TcToy.names TcToy.body = .ok (xs, st) ∧ st.diags = [] ∧
    Within x xs ∧ CallOf x 42 args ∧ TcToy.tc.function 42 = .ok fn ∧ OptionalLast fn.optional := by
  have hb : (match TcToy.tc.checkBody TcToy.names TcToy.body with
      | .ok ([_, _, _, .ForIn _ _ [.Call (Callable.Function f) _ _], _, _, _], st) => f = 42 && st.diags.isEmpty
      | _ => false) = true := by decide +kernel
  split at hb
  · rename_i a b c l arr f tys args x y z st hb'
    rw [Bool.and_eq_true, decide_eq_true_iff] at hb
    obtain ⟨rfl, hd⟩ := hb
    exact ⟨_, st, .Call (Callable.Function 42) tys args, args, _, hb', by simpa using hd, .inside (y := .ForIn l arr [.Call (Callable.Function 42) tys args])
      (by simp) (.here (by simp [TypedExpr.inner])), .function _ tys _, rfl, ⟨1, 1, rfl⟩⟩
  · cases hb

namespace TcToy

/-- With a function `Odd(opt a: Int32, b: Int32)`. -/
def odd : TcEnv := { tc with
  symbols := funSymbols.insert "Odd".toList (.Functions [(44, .pub)])
  function := fun f => if f = 44 then .ok (fn [(int, true), (int, false)] none) else funs f }

theorem odd_lawful : odd.Lawful where
  types f fn ts h1 h2 := by
    have h1 : (if f = 44 then .ok (TcToy.fn [(int, true), (int, false)] none) else funs f) = .ok fn := h1
    split at h1
    · cases h1; cases h2; rfl
    · exact tc_lawful.types f fn ts h1 h2
  stored := tc_lawful.stored

end TcToy

/-- C59 in full fails: `Odd(1)` is accepted although the second parameter is required. -/
theorem C59_required_counterexample :
    ∃ x st fn, TcToy.odd.checkBody .empty [.Call "Odd".toList [] [TcToy.num 1]] = .ok ([x], st) ∧ st.diags = [] ∧
      ∃ args, CallOf x 44 args ∧ TcToy.odd.function 44 = .ok fn ∧ false ∈ fn.optional.drop args.length := by
  have hb : (match TcToy.odd.checkBody .empty [.Call "Odd".toList [] [TcToy.num 1]] with
      | .ok ([.Call (Callable.Function f) _ [_]], st) => f = 44 && st.diags.isEmpty
      | _ => false) = true := by decide +kernel
  split at hb
  · rename_i f tys a st hb'
    rw [Bool.and_eq_true, decide_eq_true_iff] at hb
    obtain ⟨rfl, hd⟩ := hb
    exact ⟨_, st, _, hb', by simpa using hd, [a], .function _ _ _, rfl, by simp [TcToy.fn]⟩
  · cases hb

end Redscript
