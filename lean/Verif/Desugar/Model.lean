import Verif.Assembler.Model

/-!
# Desugaring (model)

Model of `Desugar` (compiler/src/sugar.rs) on top of `ExprTransformer` (compiler/src/transform.rs), and of
`type_of` (compiler/src/typechecker.rs:702-793).

The pool is reduced to the number of its definitions and the types of the added locals. The names
`synthetic$n` of the added locals are dropped: nothing refers to them.
-/

namespace Redscript

/-! ## Types of expressions -/

/-- The questions `type_of` asks of the scope and the pool. -/
structure TypeQueries where
  /-- the type of a local: `resolve_type_from_pool(pool.local(idx)?.type_)` -/
  local_ : Idx → Except AsmErr TypeId
  param : Idx → Except AsmErr TypeId
  field : Idx → Except AsmErr TypeId
  /-- the result type of a function, `Void` without one -/
  result : Idx → Except AsmErr TypeId
  /-- `scope.resolve_type` for the type of a constant -/
  constant : Constant → Except AsmErr TypeId
  this : Option Idx
  /-- the base of the class of `this` -/
  base : Except AsmErr Idx
  /-- `lub` (compiler/src/typechecker.rs:810-836) -/
  lub : TypeId → TypeId → Except AsmErr TypeId

/-- Model of `type_of` (compiler/src/typechecker.rs:702-793). -/
def typeTree (Q : TypeQueries) : TypedExpr → Except AsmErr TypeId
  | .Ident r =>
    match r with
    | .Value (.Local l) => Q.local_ l
    | .Value (.Parameter p) => Q.param p
    | .Symbol (.Class c _) => .ok (.Class c)
    | .Symbol (.Struct c _) => .ok (.Struct c)
    | .Symbol (.Enum e) => .ok (.Enum e)
    | .Symbol (.Functions _) => .error .unexpectedToken
  | .Constant c => Q.constant c
  | .ArrayLit _ ty =>
    match ty with
    | some ty => .ok (.Array ty)
    | none => .error .panic
  | .InterpolatedString _ _ => Q.constant (.String .String [])
  | .Cast ty e =>
    match typeTree Q e with
    | .ok (.WeakRef _) | .ok (.Ref _) => .ok (.Ref ty)
    | .ok (.ScriptRef _) => .ok (.ScriptRef ty)
    | .ok _ => .ok ty
    | .error e => .error e
  | .Call f _ _ =>
    match f with
    | .Function f => Q.result f
    | .Intrinsic _ ty => .ok ty
  | .MethodCall _ f _ => Q.result f
  | .Member _ m =>
    match m with
    | .StructField f | .ClassField f => Q.field f
    | .EnumMember e _ => .ok (.Enum e)
  | .ArrayElem e _ =>
    match typeTree Q e with
    | .ok (.StaticArray t _) | .ok (.Array t) => .ok t
    | .ok _ => .error .unsupportedOperation
    | .error e => .error e
  | .New ty _ =>
    match ty with
    | .Struct s => .ok (.Struct s)
    | .Class c => .ok (.Ref (.Class c))
    | _ => .error .unsupportedOperation
  | .Conditional _ a b =>
    match typeTree Q a with
    | .ok a =>
      match typeTree Q b with
      | .ok b => Q.lub a b
      | .error e => .error e
    | .error e => .error e
  | .This =>
    match Q.this with
    | some c => .ok (.Ref (.Class c))
    | none => .error .unexpectedToken
  | .Super =>
    match Q.this with
    | some _ =>
      match Q.base with
      | .ok b => .ok (.Ref (.Class b))
      | .error e => .error e
    | none => .error .unexpectedToken
  | .Null => .ok .Null
  | .BinOp _ _ _ | .UnOp _ _ => .error .unsupportedFeature
  | _ => .ok .Void

/-! ## Desugaring -/

/-- How desugaring fails. -/
inductive DsErr where
  /-- an error of the scope or the pool -/
  | lookup
  /-- `UnsupportedFeature("formatting void")` -/
  | void
  /-- `unwrap` on an array literal without a type -/
  | panic
  /-- more than `u32::MAX` definitions; the code does not check this (core/src/bundle.rs:338-342) -/
  | full

/-- The questions desugaring asks of the scope and the pool. -/
structure DsEnv where
  /-- `type_of`. It is asked while the pool grows; here it knows the pool at the end. -/
  typeOf : TypedExpr → Except AsmErr TypeId
  /-- `get_type_index`: the number of definitions afterwards; it adds the missing types. -/
  typeIndex : Nat → TypeId → Except DsErr Nat
  /-- `pretty` of a type, or an error -/
  pretty : TypeId → Except DsErr Text
  /-- `resolve_type` of `String` and `Int32` -/
  stringTy : Except DsErr TypeId
  intTy : Except DsErr TypeId
  /-- `get_function` of `OperatorAdd` on texts, `OperatorAssignAdd` and `OperatorLess` on integers -/
  addStr : Except DsErr Idx
  assignAdd : Except DsErr Idx
  less : Except DsErr Idx

/-- `Desugar` (compiler/src/sugar.rs:15-21) with what it changes in the pool. -/
structure DsState where
  /-- the number of definitions of the pool -/
  next : Nat
  /-- `prefix_exprs` -/
  pending : List TypedExpr
  /-- `locals` with their types -/
  locals : List (Idx × TypeId)

/-- `add_prefix` (compiler/src/sugar.rs:38-40). -/
def DsState.push (st : DsState) (e : TypedExpr) : DsState := { st with pending := st.pending ++ [e] }

/-- `fresh_local` (compiler/src/sugar.rs:52-62). -/
def DsEnv.fresh (D : DsEnv) (st : DsState) (ty : TypeId) : Except DsErr (Idx × DsState) := do
  let n ← D.typeIndex st.next ty
  if n < 2 ^ 32 then
    .ok (BitVec.ofNat 32 n, { st with next := n + 1, locals := st.locals ++ [(BitVec.ofNat 32 n, ty)] })
  else .error .full

/-- A use of a local. -/
abbrev useLocal (l : Idx) : TypedExpr := .Ident (Reference.Value (.Local l))

/-- `as_ref` (compiler/src/sugar.rs:112-113). -/
def asRefCall (str : TypeId) (e : TypedExpr) : TypedExpr := .Call (Callable.Intrinsic .AsRef (.ScriptRef str)) [] [e]

/-- An interpolated value as a text (compiler/src/sugar.rs:118-126). -/
def DsEnv.textOf (D : DsEnv) (str : TypeId) (e : TypedExpr) : Except DsErr TypedExpr :=
  match D.typeOf e with
  | .error _ => .error .lookup
  | .ok .Void => .error .void
  | .ok (.ScriptRef t) => do
    let p ← D.pretty t
    if p = "String".toList then .ok e
    else do
      let p ← D.pretty (.ScriptRef t)
      if p = "String".toList then .ok (asRefCall str e)
      else .ok (asRefCall str (.Call (.Intrinsic .ToString str) [] [e]))
  | .ok ty => do
    let p ← D.pretty ty
    if p = "String".toList then .ok (asRefCall str e)
    else .ok (asRefCall str (.Call (.Intrinsic .ToString str) [] [e]))

/-- One step of the loop of `on_interpolated_string` (compiler/src/sugar.rs:128-135). -/
def joinPart (str : TypeId) (add : Idx) (acc part : TypedExpr) (text : Text) : TypedExpr :=
  let combined :=
    if text.isEmpty then part
    else asRefCall str (.Call (.Function add) [] [part, asRefCall str (.Constant (.String .String text))])
  .Call (.Function add) [] [asRefCall str acc, combined]

/-- The set-up of a loop over an array (compiler/src/sugar.rs:156-165). -/
def forInSetup (arr cnt : Idx) (array : TypedExpr) : List TypedExpr :=
  [.Assign (useLocal arr) array, .Assign (useLocal cnt) (.Constant (.I32 0))]

/-- The loop over an array (compiler/src/sugar.rs:167-215). -/
def forInLoop (x arr cnt : Idx) (intTy : TypeId) (add less : Idx) (body : List TypedExpr) : TypedExpr :=
  .While (.Call (.Function less) [] [useLocal cnt, .Call (.Intrinsic .ArraySize intTy) [] [useLocal arr]])
    (.Assign (useLocal x) (.ArrayElem (useLocal arr) (useLocal cnt)) ::
      (body ++ [.Call (.Function add) [] [useLocal cnt, .Constant (.I32 1)]]))

mutual
/-- Model of `on_expr` (compiler/src/transform.rs:213-242) with the methods of `Desugar`
(compiler/src/sugar.rs:65-229) and the others of `ExprTransformer` (compiler/src/transform.rs:20-211). -/
def dsExpr (D : DsEnv) : TypedExpr → DsState → Except DsErr (TypedExpr × DsState)
  | .Ident r, st => .ok (.Ident r, st)
  | .Constant c, st => .ok (.Constant c, st)
  | .ArrayLit es ty, st =>
    match ty with
    | none => .error .panic
    | some t => do
      let r ← D.fresh st (.Array t)
      let st ← dsElems D r.1 0 es (r.2.push
        (.Call (.Intrinsic .ArrayResize .Void) [] [useLocal r.1, .Constant (.U64 (BitVec.ofNat 64 es.length))]))
      .ok (useLocal r.1, st)
  | .InterpolatedString start parts, st => do
    let str ← D.stringTy
    let add ← D.addStr
    dsParts D str add parts (.Constant (.String .String start)) st
  | .Declare l ty init, st =>
    match init with
    | none => .ok (.Declare l ty none, st)
    | some e => do
      let r ← dsExpr D e st
      .ok (.Declare l ty (some r.1), r.2)
  | .Cast ty e, st => do
    let r ← dsExpr D e st
    .ok (.Cast ty r.1, r.2)
  | .Assign a b, st => do
    let r ← dsExpr D a st
    let r' ← dsExpr D b r.2
    .ok (.Assign r.1 r'.1, r'.2)
  | .Call f tys args, st => do
    let r ← dsList D args st
    .ok (.Call f tys r.1, r.2)
  | .MethodCall ctx f args, st => do
    let r ← dsExpr D ctx st
    let r' ← dsList D args r.2
    .ok (.MethodCall r.1 f r'.1, r'.2)
  | .Member ctx m, st => do
    let r ← dsExpr D ctx st
    .ok (.Member r.1 m, r.2)
  | .ArrayElem a b, st => do
    let r ← dsExpr D a st
    let r' ← dsExpr D b r.2
    .ok (.ArrayElem r.1 r'.1, r'.2)
  | .New ty args, st => do
    let r ← dsList D args st
    .ok (.New ty r.1, r.2)
  | .Return e, st =>
    match e with
    | none => .ok (.Return none, st)
    | some e => do
      let r ← dsExpr D e st
      .ok (.Return (some r.1), r.2)
  | .Seq es, st => do
    let r ← dsSeq D es st
    .ok (.Seq r.1, r.2)
  | .Switch e cases dflt, st => do
    let r ← dsCases D cases st
    let r' ← dsOpt D dflt r.2
    let r'' ← dsExpr D e r'.2
    .ok (.Switch r''.1 r.1 r'.1, r''.2)
  | .Goto t, st => .ok (.Goto t, st)
  | .If c t e, st => do
    let r ← dsSeq D t st
    let r' ← dsOpt D e r.2
    let r'' ← dsExpr D c r'.2
    .ok (.If r''.1 r.1 r'.1, r''.2)
  | .Conditional c t e, st => do
    let r ← dsExpr D c st
    let r' ← dsExpr D t r.2
    let r'' ← dsExpr D e r'.2
    .ok (.Conditional r.1 r'.1 r''.1, r''.2)
  | .While c body, st => do
    let r ← dsSeq D body st
    let r' ← dsExpr D c r.2
    .ok (.While r'.1 r.1, r'.2)
  | .ForIn x array body, st => do
    let b ← dsSeq D body st
    let a ← dsExpr D array b.2
    match D.typeOf a.1 with
    | .error _ => .error .lookup
    | .ok ty => do
      let r ← D.fresh a.2 ty
      let int ← D.intTy
      let r' ← D.fresh r.2 int
      let add ← D.assignAdd
      let less ← D.less
      .ok (forInLoop x r.1 r'.1 int add less b.1,
        { r'.2 with pending := r'.2.pending ++ forInSetup r.1 r'.1 a.1 })
  | .BinOp a b op, st => do
    let r ← dsExpr D a st
    let r' ← dsExpr D b r.2
    .ok (.BinOp r.1 r'.1 op, r'.2)
  | .UnOp e op, st => do
    let r ← dsExpr D e st
    .ok (.UnOp r.1 op, r.2)
  | .This, st => .ok (.This, st)
  | .Super, st => .ok (.Super, st)
  | .Break, st => .ok (.Break, st)
  | .Null, st => .ok (.Null, st)
/-- The loops over operands (compiler/src/transform.rs:85-88, 100-103, 119-122). -/
def dsList (D : DsEnv) : List TypedExpr → DsState → Except DsErr (List TypedExpr × DsState)
  | [], st => .ok ([], st)
  | e :: es, st => do
    let r ← dsExpr D e st
    let r' ← dsList D es r.2
    .ok (r.1 :: r'.1, r'.2)
/-- The loop over the elements of a literal, from element `i` (compiler/src/sugar.rs:83-92). -/
def dsElems (D : DsEnv) (l : Idx) (i : Nat) : List TypedExpr → DsState → Except DsErr DsState
  | [], st => .ok st
  | e :: es, st => do
    let r ← dsExpr D e st
    dsElems D l (i + 1) es
      (r.2.push (.Assign (.ArrayElem (useLocal l) (.Constant (.U64 (BitVec.ofNat 64 i)))) r.1))
/-- The loop over the parts of an interpolated string (compiler/src/sugar.rs:115-136). -/
def dsParts (D : DsEnv) (str : TypeId) (add : Idx) :
    List (TypedExpr × Text) → TypedExpr → DsState → Except DsErr (TypedExpr × DsState)
  | [], acc, st => .ok (acc, st)
  | (e, text) :: ps, acc, st => do
    let r ← dsExpr D e st
    let part ← D.textOf str r.1
    dsParts D str add ps (joinPart str add acc part text) r.2
/-- `on_seq` (compiler/src/sugar.rs:218-228). -/
def dsSeq (D : DsEnv) : List TypedExpr → DsState → Except DsErr (List TypedExpr × DsState)
  | [], st => .ok ([], st)
  | e :: es, st => do
    let r ← dsExpr D e st
    let r' ← dsSeq D es { r.2 with pending := [] }
    .ok (r.2.pending ++ (r.1 :: r'.1), r'.2)
/-- `on_seq` where there is one. -/
def dsOpt (D : DsEnv) : Option (List TypedExpr) → DsState → Except DsErr (Option (List TypedExpr) × DsState)
  | none, st => .ok (none, st)
  | some es, st => do
    let r ← dsSeq D es st
    .ok (some r.1, r.2)
/-- The loop over the cases of a switch: the body comes before the matcher
(compiler/src/transform.rs:138-142). -/
def dsCases (D : DsEnv) : List (TypedExpr × List TypedExpr) → DsState →
    Except DsErr (List (TypedExpr × List TypedExpr) × DsState)
  | [], st => .ok ([], st)
  | (m, body) :: cs, st => do
    let b ← dsSeq D body st
    let r ← dsExpr D m b.2
    let r' ← dsCases D cs r.2
    .ok ((r.1, b.1) :: r'.1, r'.2)
end

end Redscript
