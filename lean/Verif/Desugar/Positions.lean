import Verif.Desugar.Cells

/-!
# Where literals may stand

Desugaring moves the set-up of array literals in front of the statement. Here is listed where this keeps
the order of evaluation, independently of desugaring.
-/

namespace Redscript

/-- A program with its meaning, and the answers desugaring gets. -/
structure DsWorld (V S A : Type) where
  env : AsmEnv
  I : Interp V S A
  U : Sugar V S
  M : Cells V
  D : DsEnv
  Q : TypeQueries
  /-- the number of definitions before; all variables of the source are below -/
  start : Nat
  /-- what a call of `+=` on integers runs -/
  asg : Callee

/-- Whether a parameter is evaluated on demand. -/
def onDemand (p : ParameterFlags) : Bool := flag ParameterFlags.isShortCircuitBit p

/-- The meaning of the operations that desugaring emits. -/
structure DsWorld.Laws (W : DsWorld V S A) : Prop where
  types : W.env.typeOf = typeTree W.Q
  dsTypes : W.D.typeOf = typeTree W.Q
  /-- the pool only grows -/
  grows : ∀ n ty m, W.D.typeIndex n ty = .ok m → n ≤ m
  /-- Constants, `null`, `this` and uses of variables do not depend on the state and do not change it. -/
  const : ∀ c s, W.I.prim (.const c) [] s = .ok (W.M.const c, s)
  null : ∃ v, ∀ s, W.I.prim .null [] s = .ok (v, s)
  this : ∃ v, ∀ s, W.I.prim .this [] s = .ok (v, s) ∧ W.I.isNull v s = false
  place : ∀ l : Idx, l.toNat < W.start → ∃ v, ∀ s, W.I.prim (.getLocal l) [] s = .ok (v, s)
  loadConst : ∀ c s, W.U.load (W.M.const c) s = W.M.const c
  loadArray : ∀ t vs s, W.U.load (W.U.array t vs) s = W.U.array t vs
  /-- `ArrayResize` gives an array of that size. -/
  resize : ∀ t a (n : BitVec 64), ∃ vs, vs.length = n.toNat ∧ W.M.resize (.Array t) a (W.M.const (.U64 n)) = W.U.array t vs
  /-- Assigning to an element replaces it. -/
  set : ∀ t vs (i : Nat) v, i < vs.length → i < 2 ^ 64 →
    W.M.set (W.U.array t vs) (W.M.const (.U64 (BitVec.ofNat 64 i))) v = W.U.array t (vs.set i v)
  /-- Using an element does not change the state. -/
  elem : ∀ t vs (i : Nat) s, i < vs.length → i < 2 ^ 64 →
    ∃ v, W.I.prim (.element (.Array t)) [W.U.array t vs, W.M.const (.U64 (BitVec.ofNat 64 i))] s = .ok (v, s)
  /-- The content of an array variable has its size and elements. -/
  few : ∀ v s, (W.U.items (W.U.load v s)).length < 2 ^ 31
  size : ∀ ty v s' s, W.I.prim (.intrinsic .ArraySize ty) [W.U.load v s'] s =
    .ok (W.M.const (.I32 (BitVec.ofNat 32 (W.U.items (W.U.load v s')).length)), s)
  get : ∀ ty v s' s k x, (W.U.items (W.U.load v s'))[k]? = some x →
    W.I.prim (.element ty) [W.U.load v s', W.M.const (.I32 (BitVec.ofNat 32 k))] s = .ok (x, s)
  /-- Integers are added and compared. -/
  add : ∀ a b, W.M.add (W.M.const (.I32 a)) (W.M.const (.I32 b)) = W.M.const (.I32 (a + b))
  assignAdd : ∀ f, W.D.assignAdd = .ok f → ∃ info p q, W.env.function f = .ok info ∧ info.params = [p, q] ∧
    onDemand p = false ∧ onDemand q = false ∧ calleeOf info false f = W.asg
  less : ∀ f, W.D.less = .ok f → ∃ info p q, W.env.function f = .ok info ∧ info.params = [p, q] ∧
    onDemand p = false ∧ onDemand q = false ∧ calleeOf info false f ≠ W.asg ∧
    ∀ a b s, ∃ v, W.I.call (calleeOf info false f) none [some (W.M.const (.I32 a)), some (W.M.const (.I32 b))] s = .ok (v, s) ∧
      W.I.truth v s = a.slt b
  /-- Texts are shown and joined. -/
  string : ∀ t, W.M.const (.String .String t) = W.U.string t
  text : ∀ t s, W.U.text (W.U.string t) s = t
  asRef : ∀ ty v, ∃ r, ∀ s, W.I.prim (.intrinsic .AsRef ty) [v] s = .ok (r, s) ∧ W.U.text r s = W.U.text v s
  toString : ∀ ty v s, W.I.prim (.intrinsic .ToString ty) [v] s = .ok (W.U.string (W.U.shown ty v s), s)
  addStr : ∀ f, W.D.addStr = .ok f → ∃ info p q, W.env.function f = .ok info ∧ info.params = [p, q] ∧
    onDemand p = false ∧ onDemand q = false ∧ calleeOf info false f ≠ W.asg ∧
    ∀ a b s, W.I.call (calleeOf info false f) none [some a, some b] s = .ok (W.U.string (W.U.text a s ++ W.U.text b s), s)
  isText : ∀ ty, W.U.isText ty = true ↔
    (∃ t, ty = .ScriptRef t ∧ W.D.pretty t = .ok "String".toList) ∨ W.D.pretty ty = .ok "String".toList
  /-- The types of texts and of their sum. -/
  stringTy : ∀ str, W.D.stringTy = .ok str → ∀ t, W.Q.constant (.String .String t) = .ok str
  sumTy : ∀ f, W.D.addStr = .ok f → W.Q.result f = W.Q.constant (.String .String [])

/-- Expressions that are certainly no array literal and no element of one. -/
def Expr.isPlain (start : Nat) : TypedExpr → Bool
  | .ArrayLit _ _ | .Conditional _ _ _ => false
  | .Ident r =>
    match r with
    | .Value (.Local l) => decide (l.toNat < start)
    | _ => true
  | .ArrayElem e _ => e.isPlain start
  | _ => true

/-- The first operand is certainly no array literal. -/
def firstPlain (start : Nat) : List TypedExpr → Bool
  | [] => true
  | e :: _ => e.isPlain start

/-- Intrinsics that change their first operand. -/
def IntrinsicOp.changes : IntrinsicOp → Bool
  | .ArrayClear | .ArrayResize | .ArrayPush | .ArrayPop | .ArrayInsert | .ArrayRemove | .ArrayGrow | .ArrayErase
  | .ArraySort | .ArraySortByPredicate => true
  | _ => false

/-- Array literals of constants. -/
inductive IsConst : TypedExpr → Prop
  | const (c : Constant) : IsConst (.Constant c)
  | array {es : List TypedExpr} {ty : TypeId} : es.length < 2 ^ 64 → (∀ e ∈ es, IsConst e) → IsConst (.ArrayLit es (some ty))

/-- `+=` is not called with an array literal. -/
def DsWorld.callOk (W : DsWorld V S A) (f : Idx) (args : List TypedExpr) : Prop :=
  firstPlain W.start args = true ∨ (Callee.fixed f ≠ W.asg ∧ ∀ info, W.env.function f = .ok info → calleeOf info false f ≠ W.asg)

/-- Expressions whose array literals, if there may be some, have constant elements; no literal is changed. -/
inductive Fixed (W : DsWorld V S A) (lits : Bool) : TypedExpr → Prop
  | local_ {l : Idx} : l.toNat < W.start → Fixed W lits (useLocal l)
  | param {p : Idx} : Fixed W lits (.Ident (Reference.Value (.Parameter p)))
  | symbol {y : Symbol} : Fixed W lits (.Ident (Reference.Symbol y))
  | const {c : Constant} : Fixed W lits (.Constant c)
  | null : Fixed W lits .Null
  | this : Fixed W lits .This
  | super : Fixed W lits .Super
  | array {es : List TypedExpr} {ty : TypeId} : lits = true → IsConst (.ArrayLit es (some ty)) →
      Fixed W lits (.ArrayLit es (some ty))
  | string {t : Text} {ps : List (TypedExpr × Text)} : (∀ p ∈ ps, Fixed W lits p.1) → Fixed W lits (.InterpolatedString t ps)
  | cast {ty : TypeId} {e : TypedExpr} : Fixed W lits e → Fixed W lits (.Cast ty e)
  | assign {a b : TypedExpr} : a.isPlain W.start = true → Fixed W lits a → Fixed W lits b → Fixed W lits (.Assign a b)
  | elem {a i : TypedExpr} : Fixed W lits a → Fixed W lits i → Fixed W lits (.ArrayElem a i)
  | new {ty : TypeId} {args : List TypedExpr} : (∀ e ∈ args, Fixed W lits e) → Fixed W lits (.New ty args)
  | cond {c t e : TypedExpr} : Fixed W lits c → Fixed W lits t → Fixed W lits e → Fixed W lits (.Conditional c t e)
  | member {e : TypedExpr} {m : MemberRef} : Fixed W lits e → Fixed W lits (.Member e m)
  | intrinsic {op : IntrinsicOp} {ty : TypeId} {tys : List TypeId} {args : List TypedExpr} :
      (op.changes = true → firstPlain W.start args = true) → (∀ e ∈ args, Fixed W lits e) →
      Fixed W lits (.Call (Callable.Intrinsic op ty) tys args)
  | call {f : Idx} {tys : List TypeId} {args : List TypedExpr} : W.callOk f args → (∀ e ∈ args, Fixed W lits e) →
      Fixed W lits (.Call (Callable.Function f) tys args)
  | method {ctx : TypedExpr} {f : Idx} {args : List TypedExpr} : W.callOk f args → Fixed W lits ctx →
      (∀ e ∈ args, Fixed W lits e) → Fixed W lits (.MethodCall ctx f args)

/-- Expressions with nothing to do once the array literals are set up. -/
def Expr.isInert : TypedExpr → Bool
  | .Constant _ | .Null | .This | .Super | .ArrayLit _ _ => true
  | _ => false

/-- Expressions in which setting up the array literals first keeps the order of evaluation: what is
evaluated before a literal has nothing to do, and what comes after has only constant literals. -/
inductive InOrd (W : DsWorld V S A) : TypedExpr → Prop
  | fixed {e : TypedExpr} : Fixed W true e → InOrd W e
  | array {es : List TypedExpr} {ty : TypeId} : es.length < 2 ^ 64 → (∀ e ∈ es, InOrd W e) → InOrd W (.ArrayLit es (some ty))
  | string {t u : Text} {e : TypedExpr} {ps : List (TypedExpr × Text)} : InOrd W e → (∀ p ∈ ps, Fixed W true p.1) →
      InOrd W (.InterpolatedString t ((e, u) :: ps))
  | cast {c : Idx} {e : TypedExpr} : InOrd W e → InOrd W (.Cast (TypeId.Class c) e)
  | assignLocal {l : Idx} {e : TypedExpr} : l.toNat < W.start → InOrd W e → InOrd W (.Assign (useLocal l) e)
  | assign {a b : TypedExpr} : a.isPlain W.start = true → InOrd W a → Fixed W true b → InOrd W (.Assign a b)
  | elem {a i : TypedExpr} {ty : TypeId} : W.env.typeOf a = .ok ty → InOrd W a → Fixed W true i → InOrd W (.ArrayElem a i)
  | elemOf {a i : TypedExpr} {ty : TypeId} : W.env.typeOf a = .ok ty → InOrd W a → a.isInert = true → InOrd W i → InOrd W (.ArrayElem a i)
  | construct {s : Idx} {pre post : List TypedExpr} {e : TypedExpr} : (∀ x ∈ pre, InOrd W x) → (∀ x ∈ pre, x.isInert = true) →
      InOrd W e → (∀ x ∈ post, Fixed W true x) → InOrd W (.New (TypeId.Struct s) (pre ++ e :: post))
  | cond {c t e : TypedExpr} : InOrd W c → Fixed W true t → Fixed W true e → InOrd W (.Conditional c t e)
  | classField {e : TypedExpr} {f : Idx} : InOrd W e → InOrd W (.Member e (MemberRef.ClassField f))
  | structField {e : TypedExpr} {f : Idx} : InOrd W e → InOrd W (.Member e (MemberRef.StructField f))
  | intrinsic {op : IntrinsicOp} {ty : TypeId} {tys : List TypeId} {pre post : List TypedExpr} {e : TypedExpr} :
      intrinsicMeaning op (firstType W.env (pre ++ e :: post)) ty ≠ none → (op.changes = true → firstPlain W.start (pre ++ e :: post) = true) →
      (∀ x ∈ pre, InOrd W x) → (∀ x ∈ pre, x.isInert = true) → InOrd W e → (∀ x ∈ post, Fixed W true x) →
      InOrd W (.Call (Callable.Intrinsic op ty) tys (pre ++ e :: post))
  | call {f : Idx} {tys : List TypeId} {info : FnInfo} {pre post : List TypedExpr} {e : TypedExpr} :
      W.callOk f (pre ++ e :: post) → W.env.function f = .ok info →
      pre.length < info.params.length → (∀ p ∈ info.params.take (pre.length + 1), onDemand p = false) →
      (∀ x ∈ pre, InOrd W x) → (∀ x ∈ pre, x.isInert = true) → InOrd W e → (∀ x ∈ post, Fixed W true x) →
      InOrd W (.Call (Callable.Function f) tys (pre ++ e :: post))
  | method {ctx : TypedExpr} {f : Idx} {info : FnInfo} {args : List TypedExpr} : W.env.function f = .ok info → W.callOk f args → InOrd W ctx → ctx.isTypeName = false →
      (∀ e ∈ args, Fixed W true e) → InOrd W (.MethodCall ctx f args)
  /-- Methods of `this` and `super`, and static ones. -/
  | methodArgs {ctx : TypedExpr} {f : Idx} {info : FnInfo} {pre post : List TypedExpr} {e : TypedExpr} :
      ctx = .This ∨ ctx = .Super ∨ ctx.isTypeName = true →
      W.callOk f (pre ++ e :: post) → W.env.function f = .ok info →
      pre.length < info.params.length → (∀ p ∈ info.params.take (pre.length + 1), onDemand p = false) →
      (∀ x ∈ pre, InOrd W x) → (∀ x ∈ pre, x.isInert = true) → InOrd W e → (∀ x ∈ post, Fixed W true x) →
      InOrd W (.MethodCall ctx f (pre ++ e :: post))

/-- Statements that desugaring does not change: literals are evaluated in order; conditions of loops have
only constant literals, matchers have none. -/
inductive Tame (W : DsWorld V S A) : TypedExpr → Prop
  | expr {e : TypedExpr} : InOrd W e → Tame W e
  | declareInit {l : Idx} {ty : Option TypeId} {e : TypedExpr} : l.toNat < W.start → InOrd W e →
      Tame W (.Declare l ty (some e))
  | declare {l : Idx} {ty : TypeId} : l.toNat < W.start → Tame W (.Declare l (some ty) none)
  | break_ : Tame W .Break
  | returnNone : Tame W (.Return none)
  | returnSome {e : TypedExpr} : InOrd W e → Tame W (.Return (some e))
  | seq {es : List TypedExpr} : (∀ e ∈ es, Tame W e) → Tame W (.Seq es)
  | if_ {c : TypedExpr} {t : List TypedExpr} {e : Option (List TypedExpr)} : InOrd W c → (∀ x ∈ t, Tame W x) →
      (∀ es, e = some es → ∀ x ∈ es, Tame W x) → Tame W (.If c t e)
  | while_ {c : TypedExpr} {body : List TypedExpr} : Fixed W true c → (∀ x ∈ body, Tame W x) → Tame W (.While c body)
  | forIn {x : Idx} {array : TypedExpr} {body : List TypedExpr} : x.toNat < W.start → InOrd W array →
      (∀ y ∈ body, Tame W y) → Tame W (.ForIn x array body)
  | switch {e : TypedExpr} {ty : TypeId} {cases : List (TypedExpr × List TypedExpr)} {dflt : Option (List TypedExpr)} :
      W.env.typeOf e = .ok ty → InOrd W e → (∀ c ∈ cases, Fixed W false c.1) → (∀ c ∈ cases, ∀ x ∈ c.2, Tame W x) →
      (∀ es, dflt = some es → ∀ x ∈ es, Tame W x) → Tame W (.Switch e cases dflt)

end Redscript
