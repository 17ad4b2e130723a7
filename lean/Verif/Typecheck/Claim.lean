import Verif.Typecheck.Sound

/-!
# C56: accepted bodies are well typed, with examples
-/

namespace Redscript

/-! ## A world of declarations -/

namespace TcToy

abbrev string : TypeId := .Prim 1
abbrev int : TypeId := .Prim 2
abbrev bool : TypeId := .Prim 3

/-- Classes `Base` (1) with a field and a method, and `Sub` (2) below it. -/
def classes : Hierarchy where
  view c :=
    if c = 1 then some ⟨0, [("count".toList, 20)], [("grow;Int32".toList, 30)]⟩
    else if c = 2 then some ⟨1, [], []⟩ else none
  rank c := c.toNat
  drops := by
    intro c v hv hb
    by_cases h1 : c = 1
    · rw [if_pos h1] at hv; cases hv; exact absurd rfl hb
    · rw [if_neg h1] at hv
      by_cases h2 : c = 2
      · rw [if_pos h2] at hv; cases hv; subst h2; decide
      · rw [if_neg h2] at hv; cases hv

def plainType (n : Text) : Except AsmErr TypeId :=
  match String.ofList n with
  | "String" => .ok string
  | "Int32" => .ok int
  | "Bool" => .ok bool
  | "Variant" => .ok .Variant
  | "Base" => .ok (.Class 1)
  | "Sub" => .ok (.Class 2)
  | _ => .error .unexpectedToken

def typeNamed : TypeName → Except AsmErr TypeId
  | .mk n [] => plainType n
  | .mk n [.mk m []] =>
    match String.ofList n, plainType m with
    | "ref", .ok t => .ok (.Ref t)
    | "wref", .ok t => .ok (.WeakRef t)
    | "array", .ok t => .ok (.Array t)
    | _, _ => .error .unexpectedToken
  | _ => .error .unexpectedToken

def fn (ps : List (TypeId × Bool)) (ret : Option TypeId) : TcFn where
  optional := ps.map (·.2)
  types := .ok (ps.map (·.1))
  cast := false
  ret := .ok ret

def funs (f : Idx) : Except AsmErr TcFn :=
  if f = 30 then .ok (fn [(int, false)] (some int))
  else if f = 40 then .ok (fn [(int, false), (int, false)] (some int))
  else if f = 41 then .ok (fn [(int, false), (int, false)] (some bool))
  else if f = 42 then .ok (fn [(string, false), (int, true)] none)
  else if f = 43 then .ok (fn [(.WeakRef (.Class 1), false)] none)
  else .error .lookup

def funSymbols : AMap Text Symbol :=
  (((AMap.empty.insert "OperatorAdd".toList (.Functions [(40, .pub)])).insert
    "OperatorLess".toList (.Functions [(41, .pub)])).insert
    "Log".toList (.Functions [(42, .pub)])).insert
    "Keep".toList (.Functions [(43, .pub)])

/-- What the type checker asks. The function checked returns an integer. -/
def tc : TcEnv where
  permissive := false
  symbols := funSymbols
  typeNamed := typeNamed
  stored t := match t with
    | .Null => .ok (.Ref (.Class 1))
    | .Void => .error .lookup
    | t => .ok t
  alloc n := BitVec.ofNat 32 (100 + n)
  param p := if p = 50 then .ok (.WeakRef (.Class 1)) else .error .lookup
  field _ := .ok int
  function := funs
  h := classes
  enumMember _ _ := .error .lookup
  isAbstract _ := .ok false
  structFields _ := .error .lookup
  pretty t := .ok (if t = string then "String".toList else [])
  this := none
  returns := .ok (some int)
  f32OfI32 i := i
  f64OfI32 i := i.signExtend 64
  f64OfF32 f := f.zeroExtend 64
  kind _ := .compile

theorem tc_lawful : tc.Lawful where
  types f fn ts h1 h2 := by
    have h1 : funs f = .ok fn := h1
    unfold funs at h1
    repeat' split at h1
    all_goals cases h1
    all_goals (cases h2; rfl)
  stored t t' h := by
    cases t
    case Null => cases h; exact .null _
    case Void => cases h
    all_goals (cases h; exact .refl _)

def ident (n : String) : Expr SourceAst := .Ident n.toList
def num (n : Nat) : Expr SourceAst := .Constant (.I32 (BitVec.ofNat 32 n))
def lit (s : String) : Expr SourceAst := .Constant (.String .String s.toList)

/-- The parameter `w` is a weak reference. -/
def names : AMap Text Value := AMap.empty.insert "w".toList (.Parameter 50)

/-- A body with declarations, calls, conversions, loops and blocks:
```
let a: ref<Base> = new Sub();
let b = 1 + w.grow(2);
Keep(a);
for x in [b, 3] { Log("x", x); }
while b < w.count { let a = b + 1; b = a; }
if b < 2 { a = w; } else { return 0; }
return b;
``` -/
def body : List (Expr SourceAst) := [
  .Declare "a".toList (some (.mk "ref".toList [.basic "Base"])) (some (.New (.basic "Sub") [])),
  .Declare "b".toList none (some (.BinOp (num 1) (.MethodCall (ident "w") "grow".toList [num 2]) .Add)),
  .Call "Keep".toList [] [ident "a"],
  .ForIn "x".toList (.ArrayLit [ident "b", num 3] none) [.Call "Log".toList [] [lit "x", ident "x"]],
  .While (.BinOp (ident "b") (.Member (ident "w") "count".toList) .Less)
    [.Declare "a".toList none (some (.BinOp (ident "b") (num 1) .Add)), .Assign (ident "b") (ident "a")],
  .If (.BinOp (ident "b") (num 2) .Less) [.Assign (ident "a") (ident "w")] (some [.Return (some (num 0))]),
  .Return (some (ident "b"))]

end TcToy

/-- Accepted without diagnostics. -/
def accepted : Except TcErr (List TypedExpr × TcState) → Bool
  | .ok (_, st) => st.diags.isEmpty
  | .error _ => false

theorem accepted_iff {r : Except TcErr (List TypedExpr × TcState)} (h : accepted r = true) :
    ∃ xs st, r = .ok (xs, st) ∧ st.diags = [] := by
  unfold accepted at h
  split at h
  · rename_i xs st
    exact ⟨xs, st, rfl, by simpa using h⟩
  · cases h

example : accepted (TcToy.tc.checkBody TcToy.names TcToy.body) = true := by decide +kernel

/-- C56: in a body that is accepted, with or without warnings, every operand, argument, initial value and returned
value has a type that can be used where it stands: after the conversions that checking inserted, without any further
change. Every function gets a number of arguments it is declared for, methods and fields belong to the class of what
they are looked up in, and weak references are turned into strong ones before they are followed. This also holds in
permissive mode. The locals declared are different ones.

Not proved, because false: the values of the cases of a switch need not have the type of what is switched on
(`C56_case_counterexample`), and null beside a weak reference stays a strong null (`C56_null_counterexample`). -/
theorem C56_accepted_is_well_typed_partial (E : TcEnv) (hE : E.Lawful) (refs : AMap Text Value)
    (body : List (Expr SourceAst)) (xs : List TypedExpr) (st : TcState)
    (h : E.checkBody refs body = .ok (xs, st)) (hn : TcDiag.compileError ∉ st.diags)
    (ha : ∀ m n, m < st.locals.length → n < st.locals.length → E.alloc m = E.alloc n → m = n) :
    AllOk E st.locals xs ∧ xs.length = body.length ∧ (st.locals.map (·.1)).Nodup := by
  have g := checkList_grows E _ _ _ _ _ h
  have i := checkList_good hE _ _ _ _ _ h hn _ (List.prefix_refl _)
  refine ⟨i.1, by rw [i.2.2, List.length_map]; omega, ?_⟩
  have := g.ok rfl
  unfold TcLocalsOk at this
  rw [this]
  rw [List.nodup_iff_pairwise_ne, List.pairwise_map]
  refine List.Pairwise.imp_of_mem ?_ List.nodup_range
  intro m n hm hn hne he
  exact hne (ha m n (List.mem_range.1 hm) (List.mem_range.1 hn) he)

example : ∃ xs st, TcToy.tc.checkBody TcToy.names TcToy.body = .ok (xs, st) ∧ st.diags = [] ∧ xs.length = 7 ∧
    AllOk TcToy.tc st.locals xs := by
  have hs : accepted (TcToy.tc.checkBody TcToy.names TcToy.body) = true := by decide +kernel
  obtain ⟨xs, st, h, hd⟩ := accepted_iff hs
  have i := checkList_good TcToy.tc_lawful _ _ _ _ _ h (by rw [hd]; intro h; cases h) _ (List.prefix_refl _)
  exact ⟨xs, st, h, hd, i.2.2, i.1⟩

/-- C56 in full fails: an integer is switched on and a text is a case; nothing is reported, and neither type converts
to the other. -/
theorem C56_case_counterexample :
    ∃ e c xs st s t, TcToy.tc.checkBody .empty [.Switch e [(c, [])] none] = .ok (xs, st) ∧ st.diags = [] ∧
      ∃ x y, xs = [.Switch x [(y, [])] none] ∧ TypeIs TcToy.tc st.locals x s ∧ TypeIs TcToy.tc st.locals y t ∧
        (∀ k, ¬Converts TcToy.tc.h s t k) ∧ ∀ k, ¬Converts TcToy.tc.h t s k := by
  refine ⟨TcToy.num 1, TcToy.lit "a", _, _, TcToy.int, TcToy.string, rfl, rfl, _, _, rfl,
    .constant (.int _) rfl, .constant (.string _) rfl, ?_, ?_⟩
  · intro k h
    cases h with
    | identity w => cases w
  · intro k h
    cases h with
    | identity w => cases w

/-- A declaration of a weak reference with a null, unchanged, as one of the initial values. -/
def nullReaches : Except TcErr (List TypedExpr × TcState) → Bool
  | .ok ([.Declare _ (some (.WeakRef (.Class c))) (some (.Conditional _ .Null _))], st) => c = 1 && st.diags.isEmpty
  | _ => false

theorem nullReaches_iff {r : Except TcErr (List TypedExpr × TcState)} (h : nullReaches r = true) :
    ∃ l c y st, r = .ok ([.Declare l (some (.WeakRef (.Class 1))) (some (.Conditional c .Null y))], st) ∧
      st.diags = [] := by
  unfold nullReaches at h
  split at h
  · rename_i l c x y st
    rw [Bool.and_eq_true, decide_eq_true_iff] at h
    obtain ⟨rfl, h⟩ := h
    exact ⟨l, x, y, st, rfl, by simpa using h⟩
  · cases h

/-- C56 in full fails: `let x: wref<Base> = true ? null : w;` is accepted, and null reaches the weak reference
unconverted. -/
theorem C56_null_counterexample :
    ∃ w, TcToy.tc.typeNamed w = .ok (.WeakRef (.Class 1)) ∧ ∃ l c y st,
      TcToy.tc.checkBody TcToy.names
        [.Declare "x".toList (some w) (some (.Conditional (.Constant (.Bool true)) .Null (TcToy.ident "w")))] =
        .ok ([.Declare l (some (.WeakRef (.Class 1))) (some (.Conditional c .Null y))], st) ∧ st.diags = [] ∧
      (∀ t, TypeIs TcToy.tc st.locals .Null t → ¬Widens TcToy.tc.h t (.WeakRef (.Class 1))) := by
  refine ⟨.mk "wref".toList [.basic "Base"], rfl, ?_⟩
  have hs : nullReaches (TcToy.tc.checkBody TcToy.names [.Declare "x".toList (some (.mk "wref".toList [.basic "Base"]))
    (some (.Conditional (.Constant (.Bool true)) .Null (TcToy.ident "w")))]) = true := by decide +kernel
  obtain ⟨l, c, y, st, h, hd⟩ := nullReaches_iff hs
  refine ⟨l, c, y, st, h, hd, ?_⟩
  intro t ht hw
  cases ht with
  | null => cases hw
  | valueless hv => cases hv

end Redscript
