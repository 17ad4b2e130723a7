import Verif.Desugar.Model

/-!
# The type checker (model)

Model of `TypeChecker` (compiler/src/typechecker.rs:19-700): `check`, `check_seq`, `check_intrinsic`,
`check_and_convert`, `resolve_overload`, `validate_call`, `validate_args`, `add_local` and `report`.
Spans and the texts of errors are dropped.

The scope and the pool are asked questions, the fields of `TcEnv`. While a body is checked the pool grows by
the definitions of its locals and their types, and the scope by the names of the locals; this is the state
`TcState`. Types are resolved by name; that the answers do not depend on the types added meanwhile is C49.
-/

namespace Redscript

/-- How checking fails: with an error that `Diagnostic::from_error` turns into a diagnostic
(compiler/src/diagnostics.rs:89-96), or with one that it does not. -/
inductive TcErr where
  | compile
  | other
  deriving DecidableEq, Repr

/-- What the checker reports (compiler/src/diagnostics.rs:18-53): an error, which is fatal, or the deprecation
`UnrelatedTypeEquals`, which is not. -/
inductive TcDiag where
  | compileError
  | deprecation
  deriving DecidableEq, Repr

/-- What overload resolution reads of a function (compiler/src/typechecker.rs:608-660). -/
structure TcFn where
  /-- the `optional` flags of the parameters -/
  optional : List Bool
  /-- the types of the parameters -/
  types : Except AsmErr (List TypeId)
  cast : Bool
  ret : Except AsmErr (Option TypeId)

/-- The questions asked of the scope and the pool. -/
structure TcEnv where
  permissive : Bool
  /-- `Scope::symbols` -/
  symbols : AMap Text Symbol
  /-- `Scope::resolve_type` (compiler/src/scope.rs:221-239) -/
  typeNamed : TypeName → Except AsmErr TypeId
  /-- The type read back from the definition of a local: `get_type_index` when it is declared
  (compiler/src/typechecker.rs:680), `resolve_type_from_pool` when it is used (705-707). -/
  stored : TypeId → Except AsmErr TypeId
  /-- the definition added for the nth local of the body -/
  alloc : Nat → Idx
  param : Idx → Except AsmErr TypeId
  field : Idx → Except AsmErr TypeId
  function : Idx → Except AsmErr TcFn
  h : Hierarchy
  /-- `Scope::resolve_enum_member` (compiler/src/scope.rs:111-124) -/
  enumMember : Idx → Text → Except AsmErr Idx
  /-- `pool.class(i)?.flags.is_abstract()` -/
  isAbstract : Idx → Except AsmErr Bool
  /-- `pool.class(i)?.fields` -/
  structFields : Idx → Except AsmErr (List Idx)
  /-- `TypeId::pretty` (compiler/src/scope.rs:334-350) -/
  pretty : TypeId → Except AsmErr Text
  this : Option Idx
  /-- the return type of the function of the scope -/
  returns : Except AsmErr (Option TypeId)
  /-- conversions of constants to floats: `as f32`, `f64::from` -/
  f32OfI32 : BitVec 32 → BitVec 32
  f64OfI32 : BitVec 32 → BitVec 64
  f64OfF32 : BitVec 32 → BitVec 64
  /-- which errors of the scope and the pool are compile errors -/
  kind : AsmErr → TcErr

/-- `TypeChecker` and the part of the scope that changes. -/
structure TcState where
  /-- `Scope::references` -/
  refs : AMap Text Value
  /-- `locals` with the types read back from the pool -/
  locals : List (Idx × TypeId)
  diags : List TcDiag

/-- A step of the checker. -/
def Tc (α : Type) : Type := TcState → Except TcErr (α × TcState)

namespace Tc

/-- No step. -/
protected def pure (a : α) : Tc α := fun st => .ok (a, st)

/-- One step and then another; `?`. -/
protected def bind (x : Tc α) (f : α → Tc β) : Tc β := fun st =>
  match x st with
  | .ok (a, st) => f a st
  | .error e => .error e

instance : Monad Tc where
  pure := Tc.pure
  bind := Tc.bind

/-- A failure. -/
def fail (e : TcErr) : Tc α := fun _ => .error e

/-- `report` (compiler/src/typechecker.rs:689-692). -/
def report : TcErr → Tc Unit
  | .compile => fun st => .ok ((), { st with diags := st.diags ++ [.compileError] })
  | .other => fail .other

/-- `self.diagnostics.push` of a deprecation (compiler/src/typechecker.rs:381-383). -/
def deprecate : Tc Unit := fun st => .ok ((), { st with diags := st.diags ++ [.deprecation] })

/-- Checking with `&mut scope.clone()`: names declared meanwhile are forgotten. -/
def block (x : Tc α) : Tc α := fun st =>
  match x st with
  | .ok (a, st') => .ok (a, { st' with refs := st.refs })
  | .error e => .error e

end Tc

/-- `IntrinsicOp::from_str`, derived by strum from the names (core/src/bytecode.rs:1094-1127). -/
def IntrinsicOp.ofName (name : Text) : Option IntrinsicOp :=
  match String.ofList name with
  | "Equals" => some .Equals
  | "NotEquals" => some .NotEquals
  | "ArrayClear" => some .ArrayClear
  | "ArraySize" => some .ArraySize
  | "ArrayResize" => some .ArrayResize
  | "ArrayFindFirst" => some .ArrayFindFirst
  | "ArrayFindLast" => some .ArrayFindLast
  | "ArrayContains" => some .ArrayContains
  | "ArrayCount" => some .ArrayCount
  | "ArrayPush" => some .ArrayPush
  | "ArrayPop" => some .ArrayPop
  | "ArrayInsert" => some .ArrayInsert
  | "ArrayRemove" => some .ArrayRemove
  | "ArrayGrow" => some .ArrayGrow
  | "ArrayErase" => some .ArrayErase
  | "ArrayLast" => some .ArrayLast
  | "ArraySort" => some .ArraySort
  | "ArraySortByPredicate" => some .ArraySortByPredicate
  | "ToString" => some .ToString
  | "EnumInt" => some .EnumInt
  | "IntEnum" => some .IntEnum
  | "ToVariant" => some .ToVariant
  | "FromVariant" => some .FromVariant
  | "VariantIsRef" => some .VariantIsRef
  | "VariantIsArray" => some .VariantIsArray
  | "VariantTypeName" => some .VariantTypeName
  | "AsRef" => some .AsRef
  | "Deref" => some .Deref
  | "RefToWeakRef" => some .RefToWeakRef
  | "WeakRefToRef" => some .WeakRefToRef
  | "IsDefined" => some .IsDefined
  | _ => none

/-- The function a binary operator stands for (core/src/ast.rs:143-190). -/
def BinOp.functionName : BinOp → Text
  | .AssignAdd => "OperatorAssignAdd".toList
  | .AssignSubtract => "OperatorAssignSubtract".toList
  | .AssignMultiply => "OperatorAssignMultiply".toList
  | .AssignDivide => "OperatorAssignDivide".toList
  | .AssignOr => "OperatorAssignOr".toList
  | .AssignAnd => "OperatorAssignAnd".toList
  | .LogicOr => "OperatorLogicOr".toList
  | .LogicAnd => "OperatorLogicAnd".toList
  | .Or => "OperatorOr".toList
  | .Xor => "OperatorXor".toList
  | .And => "OperatorAnd".toList
  | .Equal => "OperatorEqual".toList
  | .NotEqual => "OperatorNotEqual".toList
  | .Less => "OperatorLess".toList
  | .LessEqual => "OperatorLessEqual".toList
  | .Greater => "OperatorGreater".toList
  | .GreaterEqual => "OperatorGreaterEqual".toList
  | .Add => "OperatorAdd".toList
  | .Subtract => "OperatorSubtract".toList
  | .Multiply => "OperatorMultiply".toList
  | .Divide => "OperatorDivide".toList
  | .Modulo => "OperatorModulo".toList

/-- The function a unary operator stands for (core/src/ast.rs:243-251). -/
def UnOp.functionName : UnOp → Text
  | .BitNot => "OperatorBitNot".toList
  | .LogicNot => "OperatorLogicNot".toList
  | .Neg => "OperatorNeg".toList

/-- `TypeId::unwrapped` (compiler/src/scope.rs:310-315). -/
def TypeId.unwrapped : TypeId → TypeId
  | .Ref t | .WeakRef t | .ScriptRef t => t.unwrapped
  | t => t

/-- `insert_conversion` (compiler/src/typechecker.rs:887-916). -/
def insertConversion (e : TypedExpr) (ty : TypeId) : Conversion → TypedExpr
  | .Identity => e
  | .RefToWeakRef => .Call (Callable.Intrinsic .RefToWeakRef ty) [] [e]
  | .WeakRefToRef => .Call (Callable.Intrinsic .WeakRefToRef ty) [] [e]
  | .ToScriptRef => .Call (Callable.Intrinsic .AsRef ty) [] [e]
  | .ToVariant => .Call (Callable.Intrinsic .ToVariant ty) [] [e]

/-- How an element of a list is checked. -/
inductive Mode where
  /-- `check(e, None)` -/
  | plain
  /-- `check(e, Some(t))` -/
  | expect (t : TypeId)
  /-- `check_and_convert(e, t)` -/
  | convert (t : TypeId)

namespace TcEnv

variable (E : TcEnv)

/-- The name of the type of a constant (compiler/src/typechecker.rs:714-727). -/
def constantType : Constant → TypeName
  | .String .String _ => .basic "String"
  | .String .Name _ => .basic "CName"
  | .String .Resource _ => .basic "ResRef"
  | .String .TweakDbId _ => .basic "TweakDBID"
  | .F32 _ => .basic "Float"
  | .F64 _ => .basic "Double"
  | .I32 _ => .basic "Int32"
  | .I64 _ => .basic "Int64"
  | .U32 _ => .basic "Uint32"
  | .U64 _ => .basic "Uint64"
  | .Bool _ => .basic "Bool"

/-- What `type_of` (compiler/src/typechecker.rs:702-793) asks, with the locals declared so far. -/
def queries (locals : List (Idx × TypeId)) : TypeQueries where
  local_ l :=
    match locals.find? fun p => p.1 == l with
    | some p => .ok p.2
    | none => .error .lookup
  param := E.param
  field := E.field
  result f :=
    match E.function f with
    | .ok fn => match fn.ret with
      | .ok none => .ok .Void
      | .ok (some t) => .ok t
      | .error e => .error e
    | .error e => .error e
  constant c := E.typeNamed (constantType c)
  this := E.this
  base :=
    match E.this with
    | some c => match E.h.view c with
      | some v => .ok v.base
      | none => .error .lookup
    | none => .error .unexpectedToken
  lub a b :=
    match E.h.lub a b with
    | some (some t) => .ok t
    | some none => .error .unsupportedOperation
    | none => .error .lookup

/-- An answer of the scope or the pool. -/
def ask (r : Except AsmErr α) : Tc α := fun st =>
  match r with
  | .ok a => .ok (a, st)
  | .error e => .error (E.kind e)

/-- `type_of`. -/
def typeOf (e : TypedExpr) : Tc TypeId := fun st => E.ask (typeTree (E.queries st.locals) e) st

/-- `find_conversion`; a pool error is no compile error. -/
def conversion (a b : TypeId) : Except TcErr (Option Conversion) :=
  match E.h.findConversion a b with
  | some c => .ok c
  | none => .error .other

/-- An answer with an error of the checker. -/
def give (r : Except TcErr α) : Tc α := fun st =>
  match r with
  | .ok a => .ok (a, st)
  | .error e => .error e

/-- The end of `check_and_convert` (compiler/src/typechecker.rs:529-535). -/
def convertTo (to_ : TypeId) (e : TypedExpr) : Tc TypedExpr := do
  let from_ ← E.typeOf e
  match ← give (E.conversion from_ to_) with
  | some c => pure (insertConversion e to_ c)
  | none => do
    Tc.report .compile
    pure e

/-- `Scope::resolve_reference` (compiler/src/scope.rs:178-196). -/
def reference (n : Text) (st : TcState) : Option Reference :=
  match st.refs.get n with
  | some v => some (.Value v)
  | none => (E.symbols.get n).map .Symbol

/-- A name (compiler/src/typechecker.rs:41-48). -/
def checkIdent (n : Text) : Tc TypedExpr := fun st =>
  match E.reference n st with
  | some r => .ok (.Ident r, st)
  | none =>
    if E.permissive then (Tc.report .compile >>= fun _ => pure .Null) st else .error .compile

/-- A constant (compiler/src/typechecker.rs:49-65). -/
def retype (c : Constant) (name : Text) : Constant :=
  match c with
  | .I32 i =>
    if name = "Float".toList then .F32 (E.f32OfI32 i)
    else if name = "Double".toList then .F64 (E.f64OfI32 i)
    else if name = "Int64".toList then .I64 (i.signExtend 64)
    else c
  | .U32 i => if name = "Uint64".toList then .U64 (i.zeroExtend 64) else c
  | .F32 f => if name = "Double".toList then .F64 (E.f64OfF32 f) else c
  | c => c

/-- `Scope::resolve_function` (compiler/src/scope.rs:79-87). -/
def functions (name : Text) : Except AsmErr (List Idx) :=
  match E.symbols.get name with
  | some (.Functions fs) => .ok (fs.map (·.1))
  | _ => .error .unexpectedToken

/-- `Scope::resolve_method` (compiler/src/scope.rs:126-152). -/
def methods (name : Text) (c : Idx) : Except AsmErr (List Idx) :=
  match E.h.resolveMethod name c with
  | some fs => .ok fs
  | none => .error .unexpectedToken

/-- `Scope::resolve_field` (compiler/src/scope.rs:89-109). -/
def fieldNamed (name : Text) (c : Idx) : Except AsmErr Idx :=
  match E.h.resolveField name c with
  | some f => .ok f
  | none => .error .unexpectedToken

/-- `add_local` (compiler/src/typechecker.rs:675-687). The mangled name is dropped. -/
def addLocal (name : Text) (ty : TypeId) : Tc Idx := fun st =>
  match E.stored ty with
  | .ok t =>
    let l := E.alloc st.locals.length
    .ok (l, { st with refs := st.refs.insert name (.Local l), locals := st.locals ++ [(l, t)] })
  | .error e => .error (E.kind e)

/-! ## Overloads -/

/-- An overload that fits the number of arguments. -/
structure Eligible where
  index : Idx
  fn : TcFn
  types : List TypeId

/-- `validate_call` (compiler/src/typechecker.rs:608-635); `none` is `ArgumentCountMismatch`. -/
def validateCall (n : Nat) (f : Idx) : Except TcErr (Option Eligible) :=
  match E.function f with
  | .error e => .error (E.kind e)
  | .ok fn =>
    if n < (fn.optional.filter (!·)).length ∨ n > fn.optional.length then .ok none
    else match fn.types with
      | .ok ts => .ok (some ⟨f, fn, ts⟩)
      | .error e => .error (E.kind e)

/-- The overloads that fit the number of arguments (compiler/src/typechecker.rs:551-557). -/
def eligible (n : Nat) : List Idx → Except TcErr (List Eligible)
  | [] => .ok []
  | f :: fs =>
    match E.validateCall n f with
    | .error e => .error e
    | .ok r => match eligible n fs with
      | .error e => .error e
      | .ok rs => match r with
        | some x => .ok (x :: rs)
        | none => .ok rs

/-- The loop of `validate_args` (compiler/src/typechecker.rs:660-671); `none` is `ParameterMismatch`. -/
def conversions (locals : List (Idx × TypeId)) :
    List TypedExpr → List TypeId → Except TcErr (Option (List (Conversion × TypeId)))
  | a :: as, p :: ps =>
    match typeTree (E.queries locals) a with
    | .error e => .error (E.kind e)
    | .ok t => match E.conversion t p with
      | .error e => .error e
      | .ok none => .ok none
      | .ok (some c) => match conversions locals as ps with
        | .error e => .error e
        | .ok none => .ok none
        | .ok (some cs) => .ok (some ((c, p) :: cs))
  | _, _ => .ok (some [])

/-- `validate_args` (compiler/src/typechecker.rs:637-673); `none` is a `FunctionMatchError`. -/
def validateArgs (locals : List (Idx × TypeId)) (x : Eligible) (args : List TypedExpr)
    (wanted : Option TypeId) : Except TcErr (Option (List (Conversion × TypeId))) :=
  match x.fn.cast, wanted with
  | true, some w =>
    match x.fn.ret with
    | .error e => .error (E.kind e)
    | .ok none => .error .compile
    | .ok (some r) => match E.conversion r w with
      | .error e => .error e
      | .ok none => .ok none
      | .ok (some _) => E.conversions locals args x.types
  | _, _ => E.conversions locals args x.types

/-- The loop over several overloads and the choice of the first match (compiler/src/typechecker.rs:578-592).
All of them are looked at, so an error of a later one counts. -/
def firstMatch (locals : List (Idx × TypeId)) (args : List TypedExpr) (wanted : Option TypeId) :
    List Eligible → Except TcErr (Option (Idx × List (Conversion × TypeId)))
  | [] => .ok none
  | x :: xs =>
    match E.validateArgs locals x args wanted with
    | .error e => .error e
    | .ok r => match firstMatch locals args wanted xs with
      | .error e => .error e
      | .ok rest => match r with
        | some cs => .ok (some (x.index, cs))
        | none => .ok rest

/-- `FunctionMatch::new` (compiler/src/typechecker.rs:954-962). -/
def converted (args : List TypedExpr) (cs : List (Conversion × TypeId)) : List TypedExpr :=
  List.zipWith (fun e c => insertConversion e c.2 c.1) args cs

/-- `resolve_overload` (compiler/src/typechecker.rs:538-606). `expecting` checks the arguments against types,
`plainly` without. -/
def overload (fs : List Idx) (n : Nat) (wanted : Option TypeId) (expecting : List TypeId → Tc (List TypedExpr))
    (plainly : Tc (List TypedExpr)) : Tc (Idx × List TypedExpr) := do
  match ← give (E.eligible n fs) with
  | [x] =>
    let args ← expecting x.types
    fun st =>
      match E.validateArgs st.locals x args wanted with
      | .ok (some cs) => .ok ((x.index, converted args cs), st)
      | .ok none => fallback fs plainly .compile st
      | .error e => fallback fs plainly e st
  | xs =>
    let args ← plainly
    fun st =>
      match E.firstMatch st.locals args wanted xs with
      | .ok (some (f, cs)) => .ok ((f, converted args cs), st)
      | .ok none => fallback fs plainly .compile st
      | .error e => .error e
where
  /-- The end (compiler/src/typechecker.rs:594-605); `functions[0]` panics without candidates. -/
  fallback (fs : List Idx) (plainly : Tc (List TypedExpr)) (e : TcErr) : Tc (Idx × List TypedExpr) :=
    if E.permissive then do
      Tc.report e
      let args ← plainly
      match fs with
      | f :: _ => pure (f, args)
      | [] => Tc.fail .other
    else Tc.fail e

/-! ## Intrinsics -/

/-- A plan that needs a type by its name (compiler/src/typechecker.rs:386-505). -/
def named (n : String) (k : TypeId → List Mode × TypeId) : Except TcErr (List Mode × TypeId) :=
  match E.typeNamed (.basic n) with
  | .ok t => .ok (k t)
  | .error e => .error (E.kind e)

/-- The match of `check_intrinsic` (compiler/src/typechecker.rs:378-505): how the other arguments are checked,
and the result type. -/
def intrinsicPlan (op : IntrinsicOp) (first : TypeId) (wanted : Option TypeId) : Except TcErr (List Mode × TypeId) :=
  match op, first with
  | .Equals, t | .NotEquals, t => E.named "Bool" fun b => ([.expect t], b)
  | .ArrayClear, .Array _ => .ok ([], .Void)
  | .ArraySize, .Array _ => E.named "Int32" fun i => ([], i)
  | .ArrayResize, .Array _ => E.named "Int32" fun i => ([.convert i], .Void)
  | .ArrayFindFirst, .Array t => .ok ([.convert t], t)
  | .ArrayFindLast, .Array t => .ok ([.convert t], t)
  | .ArrayContains, .Array t => E.named "Bool" fun b => ([.convert t], b)
  | .ArrayCount, .Array t => E.named "Int32" fun i => ([.convert t], i)
  | .ArrayPush, .Array t => .ok ([.convert t], .Void)
  | .ArrayPop, .Array t => .ok ([], t)
  | .ArrayInsert, .Array t => E.named "Int32" fun i => ([.convert i, .convert t], .Void)
  | .ArrayRemove, .Array t => E.named "Bool" fun b => ([.convert t], b)
  | .ArrayGrow, .Array _ => E.named "Int32" fun i => ([.convert i], .Void)
  | .ArrayErase, .Array _ =>
    match E.typeNamed (.basic "Int32") with
    | .ok i => E.named "Bool" fun b => ([.convert i], b)
    | .error e => .error (E.kind e)
  | .ArrayLast, .Array t => .ok ([], t)
  | .ToString, _ => E.named "String" fun s => ([], s)
  | .EnumInt, .Enum _ => E.named "Int32" fun i => ([], i)
  | .IntEnum, _ =>
    match wanted with
    | some (.Enum e) => .ok ([], .Enum e)
    | _ => .error .compile
  | .ToVariant, _ => E.named "Variant" fun v => ([], v)
  | .FromVariant, .Variant =>
    match wanted with
    | some t => .ok ([], t)
    | none => .error .compile
  | .VariantTypeName, .Variant => E.named "CName" fun c => ([], c)
  | .VariantIsRef, .Variant => E.named "Bool" fun b => ([], b)
  | .VariantIsArray, .Variant => E.named "Bool" fun b => ([], b)
  | .AsRef, t => .ok ([], .ScriptRef t)
  | .Deref, .ScriptRef t => .ok ([], t)
  | .IsDefined, .Ref _ | .IsDefined, .WeakRef _ | .IsDefined, .Null | .IsDefined, .Variant =>
    E.named "Bool" fun b => ([], b)
  | _, _ => .error .compile

/-- The test for unrelated types (compiler/src/typechecker.rs:379-384). -/
def warnUnrelated (op : IntrinsicOp) (first : TypeId) (rest : List TypedExpr) : Tc Unit :=
  match op, rest with
  | .Equals, [e] | .NotEquals, [e] => do
    let t ← E.typeOf e
    match E.h.lub first t with
    | some (some _) => pure ()
    | _ => Tc.deprecate
  | _, _ => pure ()

/-- The types of the elements of a literal, combined (compiler/src/typechecker.rs:84-89). -/
def lubAll (acc : TypeId) : List TypedExpr → Tc TypeId
  | [] => pure acc
  | e :: es => do
    let t ← E.typeOf e
    match E.h.lub acc t with
    | some (some t) => lubAll t es
    | some none => Tc.fail .compile
    | none => Tc.fail .other

/-- The types of the fields of a struct (compiler/src/typechecker.rs:250-252). -/
def fieldTypes : List Idx → Except AsmErr (List TypeId)
  | [] => .ok []
  | f :: fs =>
    match E.field f with
    | .ok t => match fieldTypes fs with
      | .ok ts => .ok (t :: ts)
      | .error e => .error e
    | .error e => .error e

/-- A weak reference is turned into a strong one before it is followed (compiler/src/typechecker.rs:118-120,
161-165, 219-223). -/
def strengthen (ty : TypeId) (e : TypedExpr) : TypedExpr :=
  match ty with
  | .WeakRef t => insertConversion e (.Ref t) .WeakRefToRef
  | _ => e

/-- The member a name stands for (compiler/src/typechecker.rs:202-218). -/
def memberOf (ty : TypeId) (name : Text) : Except AsmErr MemberRef :=
  match ty.unwrapped with
  | .Class c => match E.fieldNamed name c with
    | .ok f => .ok (.ClassField f)
    | .error e => .error e
  | .Struct c => match E.fieldNamed name c with
    | .ok f => .ok (.StructField f)
    | .error e => .error e
  | .Enum c => match E.enumMember c name with
    | .ok m => .ok (.EnumMember c m)
    | .error e => .error e
  | _ => .error .unsupportedOperation

/-- The methods a name stands for (compiler/src/typechecker.rs:154-158). -/
def methodsOf (ty : TypeId) (name : Text) : Except AsmErr (List Idx) :=
  match ty.unwrapped with
  | .Class c | .Struct c => E.methods name c
  | _ => .error .unsupportedOperation

/-- How the arguments of a constructor are checked (compiler/src/typechecker.rs:233-262). -/
def newPlan (ty : TypeId) (n : Nat) : Except TcErr (List Mode) :=
  match ty with
  | .Class c =>
    match E.isAbstract c with
    | .error e => .error (E.kind e)
    | .ok true => .error .compile
    | .ok false => if n = 0 then .ok [] else .error .compile
  | .Struct c =>
    match E.structFields c with
    | .error e => .error (E.kind e)
    | .ok fs =>
      if fs.length = n then
        match E.fieldTypes fs with
        | .ok ts => .ok (ts.map .convert)
        | .error e => .error (E.kind e)
      else .error .compile
  | _ => .error .compile

/-- The type arguments of a call (compiler/src/typechecker.rs:130-133). -/
def wantedBy (tys : List TypeName) (expected : Option TypeId) : Except AsmErr (Option TypeId) :=
  match tys with
  | [t] => match E.typeNamed t with
    | .ok t => .ok (some t)
    | .error e => .error e
  | _ => .ok expected

/-- How the elements of a literal are checked (compiler/src/typechecker.rs:76-81). -/
def elemMode : Option TypeId → Mode
  | some (.Array t) => .convert t
  | _ => .plain

/-- `check` or `check_and_convert` (compiler/src/typechecker.rs:521-536). -/
def checkAs (m : Mode) (check : Option TypeId → Tc TypedExpr) : Tc TypedExpr :=
  match m with
  | .plain => check none
  | .expect t => check (some t)
  | .convert t => do
    let x ← check (some t)
    E.convertTo t x

/-- `type_of(..).ok()` (compiler/src/typechecker.rs:284). -/
def matchedType (x : TypedExpr) : Tc (Option TypeId) := fun st =>
  .ok ((typeTree (E.queries st.locals) x).toOption, st)

mutual
/-- `TypeChecker::check` (compiler/src/typechecker.rs:34-354). -/
def check : Expr SourceAst → Option TypeId → Tc TypedExpr
  | .Ident n, _ => E.checkIdent n
  | .Constant c, expected =>
    match expected with
    | some t => do
      let name ← E.ask (E.pretty t)
      pure (.Constant (E.retype c name))
    | none => pure (.Constant c)
  | .ArrayLit es _, expected =>
    match es with
    | [] =>
      match expected with
      | some (.Array t) => pure (.ArrayLit [] (some t))
      | _ => Tc.fail .compile
    | e :: es => do
      let x ← E.checkAs (elemMode expected) (check e)
      let xs ← checkList es (es.map fun _ => elemMode expected)
      let t ← E.typeOf x
      let t ← E.lubAll t xs
      pure (.ArrayLit (x :: xs) (some t))
  | .InterpolatedString s ps, _ => do
    let ps ← checkParts ps
    pure (.InterpolatedString s ps)
  | .Declare n ty init, _ =>
    match ty, init with
    | none, none => Tc.fail .compile
    | none, some e => do
      let x ← check e none
      let t ← E.typeOf x
      let l ← E.addLocal n t
      pure (.Declare l (some t) (some x))
    | some ty, none => do
      let t ← E.ask (E.typeNamed ty)
      let l ← E.addLocal n t
      pure (.Declare l (some t) none)
    | some ty, some e => do
      let t ← E.ask (E.typeNamed ty)
      let x ← E.checkAs (.convert t) (check e)
      let l ← E.addLocal n t
      pure (.Declare l (some t) (some x))
  | .Cast ty e, _ => do
    let t ← E.ask (E.typeNamed ty)
    let x ← check e none
    let from_ ← E.typeOf x
    pure (.Cast t (strengthen from_ x))
  | .Assign l r, _ => do
    let x ← check l none
    let t ← E.typeOf x
    let y ← E.checkAs (.convert t) (check r)
    pure (.Assign x y)
  | .Call f tys args, expected => do
    let wanted ← E.ask (E.wantedBy tys expected)
    match IntrinsicOp.ofName f with
    | some op => checkIntrinsic op wanted args
    | none => do
      let fs ← E.ask (E.functions f)
      let m ← E.overload fs args.length wanted (fun ts => checkList args (ts.map .expect))
        (checkList args (args.map fun _ => .plain))
      pure (.Call (Callable.Function m.1) [] m.2)
  | .MethodCall ctx f args, expected => do
    let x ← check ctx none
    let t ← E.typeOf x
    let fs ← E.ask (E.methodsOf t f)
    let m ← E.overload fs args.length expected (fun ts => checkList args (ts.map .expect))
      (checkList args (args.map fun _ => .plain))
    pure (.MethodCall (strengthen t x) m.1 m.2)
  | .BinOp l r op, expected => do
    let fs ← E.ask (E.functions op.functionName)
    let m ← E.overload fs 2 expected
      (fun ts =>
        match ts with
        | [] => pure []
        | [t] => do
          let x ← check l (some t)
          pure [x]
        | t :: u :: _ => do
          let x ← check l (some t)
          let y ← check r (some u)
          pure [x, y])
      (do
        let x ← check l none
        let y ← check r none
        pure [x, y])
    pure (.Call (Callable.Function m.1) [] m.2)
  | .UnOp e op, expected => do
    let fs ← E.ask (E.functions op.functionName)
    let m ← E.overload fs 1 expected
      (fun ts =>
        match ts with
        | [] => pure []
        | t :: _ => do
          let x ← check e (some t)
          pure [x])
      (do
        let x ← check e none
        pure [x])
    pure (.Call (Callable.Function m.1) [] m.2)
  | .Member ctx m, _ => do
    let x ← check ctx none
    let t ← E.typeOf x
    let m ← E.ask (E.memberOf t m)
    pure (.Member (strengthen t x) m)
  | .ArrayElem a i, _ => do
    let int ← E.ask (E.typeNamed (.basic "Int32"))
    let x ← check a none
    let y ← E.checkAs (.convert int) (check i)
    pure (.ArrayElem x y)
  | .New ty args, _ => do
    let t ← E.ask (E.typeNamed ty)
    let modes ← give (E.newPlan t args.length)
    let xs ← checkList args modes
    pure (.New t xs)
  | .Return none, _ => do
    match ← E.ask E.returns with
    | some _ => Tc.fail .compile
    | none => pure (.Return none)
  | .Return (some e), _ => do
    match ← E.ask E.returns with
    | some t => do
      let x ← E.checkAs (.convert t) (check e)
      pure (.Return (some x))
    | none => Tc.fail .compile
  | .Seq es, _ => do
    let xs ← checkList es (es.map fun _ => .plain)
    pure (.Seq xs)
  | .Switch e cs d, _ => do
    let x ← check e none
    let t ← E.matchedType x
    let ys ← checkCases t cs
    let z ← checkBlockOpt d
    pure (.Switch x ys z)
  | .Goto t, _ => pure (.Goto t)
  | .If c t e, _ => do
    let bool ← E.ask (E.typeNamed (.basic "Bool"))
    let x ← E.checkAs (.convert bool) (check c)
    let y ← Tc.block (checkList t (t.map fun _ => .plain))
    let z ← checkBlockOpt e
    pure (.If x y z)
  | .Conditional c t e, _ => do
    let bool ← E.ask (E.typeNamed (.basic "Bool"))
    let x ← E.checkAs (.convert bool) (check c)
    let y ← check t none
    let ty ← E.typeOf y
    let z ← check e (some ty)
    pure (.Conditional x y z)
  | .While c b, _ => do
    let bool ← E.ask (E.typeNamed (.basic "Bool"))
    let x ← E.checkAs (.convert bool) (check c)
    let y ← Tc.block (checkList b (b.map fun _ => .plain))
    pure (.While x y)
  | .ForIn n a b, _ => do
    let x ← check a none
    match ← E.typeOf x with
    | .Array t => Tc.block do
      let l ← E.addLocal n t
      let y ← checkList b (b.map fun _ => .plain)
      pure (.ForIn l x y)
    | _ => Tc.fail .compile
  | .This, _ => pure .This
  | .Super, _ => pure .Super
  | .Break, _ => pure .Break
  | .Null, _ => pure .Null
/-- `check_seq` (compiler/src/typechecker.rs:356-362) and the loops over arguments and elements, which stop with
the shorter list. -/
def checkList : List (Expr SourceAst) → List Mode → Tc (List TypedExpr)
  | e :: es, m :: ms => do
    let x ← E.checkAs m (check e)
    let xs ← checkList es ms
    pure (x :: xs)
  | _, _ => pure []
/-- The parts of an interpolated string (compiler/src/typechecker.rs:94-98). -/
def checkParts : List (Expr SourceAst × Text) → Tc (List (TypedExpr × Text))
  | [] => pure []
  | (e, s) :: ps => do
    let x ← check e none
    let xs ← checkParts ps
    pure ((x, s) :: xs)
/-- The cases of a switch (compiler/src/typechecker.rs:285-290). -/
def checkCases (t : Option TypeId) : List (Expr SourceAst × List (Expr SourceAst)) →
    Tc (List (TypedExpr × List TypedExpr))
  | [] => pure []
  | (m, b) :: cs => do
    let x ← check m t
    let y ← Tc.block (checkList b (b.map fun _ => .plain))
    let zs ← checkCases t cs
    pure ((x, y) :: zs)
/-- `else` and `default` (compiler/src/typechecker.rs:291-293, 302-304). -/
def checkBlockOpt : Option (List (Expr SourceAst)) → Tc (Option (List TypedExpr))
  | none => pure none
  | some b => do
    let y ← Tc.block (checkList b (b.map fun _ => .plain))
    pure (some y)
/-- `check_intrinsic` (compiler/src/typechecker.rs:364-519). -/
def checkIntrinsic (op : IntrinsicOp) (wanted : Option TypeId) : List (Expr SourceAst) → Tc TypedExpr
  | [] => Tc.fail .compile
  | a :: rest =>
    if rest.length + 1 = op.argCount then do
      let x ← check a none
      let t ← E.typeOf x
      let plan ← give (E.intrinsicPlan op t wanted)
      let ys ← checkList rest plan.1
      E.warnUnrelated op t ys
      pure (.Call (Callable.Intrinsic op plan.2) [] (x :: ys))
    else Tc.fail .compile
end

/-- The body of a function (compiler/src/unit.rs:995-997) under the names of its parameters. -/
def checkBody (refs : AMap Text Value) (body : List (Expr SourceAst)) : Except TcErr (List TypedExpr × TcState) :=
  E.checkList body (body.map fun _ => .plain) ⟨refs, [], []⟩

end TcEnv
end Redscript
