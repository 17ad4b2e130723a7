import Verif.Typed.Model
import Verif.Bytecode.Cursor

/-!
# Assembler (model)

Model of compiler/src/assembler.rs. The emitted instructions are returned instead of pushed, the label
counter is threaded through. Spans and the text of error messages are dropped.

The assembler asks the scope and the pool questions (the type of an expression, the index of a type or
string, the flags of a function). The only thing it changes in the pool is to add strings and types it
asks for. Their answers are stable (C11, C49), so the questions are modelled as functions, the fields of
`AsmEnv`.
-/

namespace Redscript

/-- The errors and panics of the assembler, by kind. -/
inductive AsmErr where
  /-- An error of the scope or the pool (`?` on their results). -/
  | lookup
  /-- `Cause::UnexpectedToken` -/
  | unexpectedToken
  /-- `Cause::UnsupportedOperation` -/
  | unsupportedOperation
  /-- `Cause::UnsupportedFeature` -/
  | unsupportedFeature
  /-- `Cause::InvalidNonStaticMethodCall`, `Cause::InvalidStaticMethodCall` -/
  | invalidMethodCall
  | panic
  deriving DecidableEq, Repr

/-- What `assemble_call` reads of a function (compiler/src/assembler.rs:387-393, 411). -/
structure FnInfo where
  flags : FunctionFlags
  params : List ParameterFlags
  name : Idx

/-- The questions asked of `Scope` and `ConstantPool`. -/
structure AsmEnv where
  /-- `pool.strings.add`, `pool.names.add`, `pool.resources.add`, `pool.tweakdb_ids.add`. The error stands
  for a pool without room for another text: the code does not check the limit of 32 bits
  (core/src/bundle.rs:416-426). -/
  strIdx : Literal → Text → Except AsmErr Idx
  /-- `type_of` (compiler/src/typechecker.rs:702-793) -/
  typeOf : TypedExpr → Except AsmErr TypeId
  /-- `scope.get_type_index` -/
  typeIdx : TypeId → Except AsmErr Idx
  /-- `pool.def_name` -/
  defName : Idx → Except AsmErr Text
  /-- `pool.enum_(..)?.members.first()` -/
  enumFirst : Idx → Except AsmErr (Option Idx)
  /-- `pool.function` with the flags of its parameters -/
  function : Idx → Except AsmErr FnInfo
  /-- The line number of a call (compiler/src/assembler.rs:405-409); spans are dropped, so it is a
  function of the called function and its arguments. -/
  line : Idx → List TypedExpr → BitVec 16

/-- The result of assembling: the emitted instructions and the label counter. -/
abbrev AsmRes := Except AsmErr (List (Instr Nat) × Nat)

/-- core/src/definition.rs:652. -/
def ParameterFlags.isShortCircuitBit : Nat := 2

namespace AsmEnv

/-- `Instr` for a constant (compiler/src/assembler.rs:60-104). -/
def constInstr (env : AsmEnv) : Constant → Except AsmErr (Instr Nat)
  | .String .String s => (env.strIdx .String s).map .StringConst
  | .String .Name s => (env.strIdx .Name s).map .NameConst
  | .String .Resource s => (env.strIdx .Resource s).map .ResourceConst
  | .String .TweakDbId s => (env.strIdx .TweakDbId s).map .TweakDbIdConst
  | .F32 v => .ok (.F32Const v)
  | .F64 v => .ok (.F64Const v)
  | .I32 v => .ok (.I32Const v)
  | .I64 v => .ok (.I64Const v)
  | .U32 v => .ok (.U32Const v)
  | .U64 v => .ok (.U64Const v)
  | .Bool true => .ok .TrueConst
  | .Bool false => .ok .FalseConst

/-- The constant `emit_initializer` assigns to a local of a primitive type, by the name of the type
(compiler/src/assembler.rs:333-352). -/
def primInit (env : AsmEnv) (name : Text) : Option (Except AsmErr (Instr Nat)) :=
  if name = "Bool".toList then some (.ok .FalseConst)
  else if name = "Int8".toList then some (.ok (.I8Const 0))
  else if name = "Int16".toList then some (.ok (.I16Const 0))
  else if name = "Int32".toList then some (.ok .I32Zero)
  else if name = "Int64".toList then some (.ok (.I64Const 0))
  else if name = "Uint8".toList then some (.ok (.U8Const 0))
  else if name = "Uint16".toList then some (.ok (.U16Const 0))
  else if name = "Uint32".toList then some (.ok (.U32Const 0))
  else if name = "Uint64".toList then some (.ok (.U64Const 0))
  else if name = "Float".toList then some (.ok (.F32Const 0))
  else if name = "Double".toList then some (.ok (.F64Const 0))
  else if name = "String".toList then some ((env.strIdx .String []).map .StringConst)
  else if name = "CName".toList then some (.ok (.NameConst 0))
  else if name = "TweakDBID".toList then some (.ok (.TweakDbIdConst 0))
  else if name = "ResRef".toList then some (.ok (.ResourceConst 0))
  else none

/-- `emit_initializer` (compiler/src/assembler.rs:319-376). -/
def initializer (env : AsmEnv) (l : Idx) : TypeId → Except AsmErr (List (Instr Nat))
  | .Prim i =>
    match env.defName i with
    | .error e => .error e
    | .ok name =>
      match env.primInit name with
      | some (.ok c) => .ok [.Assign, .Local l, c]
      | some (.error e) => .error e
      | none => .ok []
  | .Struct s => .ok [.Assign, .Local l, .Construct 0 s]
  | .Enum i =>
    match env.enumFirst i with
    | .error e => .error e
    | .ok (some m) => .ok [.Assign, .Local l, .EnumConst i m]
    | .ok none => .ok []
  | .Ref _ => .ok [.Assign, .Local l, .Null]
  | .WeakRef _ => .ok [.Assign, .Local l, .WeakRefNull]
  | .Array t =>
    match env.typeIdx (.Array t) with
    | .error e => .error e
    | .ok i => .ok [.ArrayClear i, .Local l]
  | _ => .ok []

/-- `is_rvalue_ref(..).unwrap_or(false)` (compiler/src/assembler.rs:439-451, 399). -/
def isRvalueRef (env : AsmEnv) (e : TypedExpr) : Bool :=
  match env.typeOf e with
  | .ok (.ScriptRef _) =>
    match e with
    | .Call (.Intrinsic .AsRef _) _ (a :: _) => a.isPrvalue
    | _ => true
  | _ => false

/-- The loop computing `invoke_flags` (compiler/src/assembler.rs:397-403). `1 << n` on `u16` keeps the
low four bits of `n` in a release build. -/
def invokeFlags (env : AsmEnv) (args : List TypedExpr) (n : Nat) (acc : BitVec 16) : BitVec 16 :=
  match args with
  | [] => acc
  | a :: as => env.invokeFlags as (n + 1) (if env.isRvalueRef a then acc ||| BitVec.twoPow 16 (n % 16) else acc)

/-- The first instruction of a call (compiler/src/assembler.rs:410-415). -/
def invokeInstr (env : AsmEnv) (info : FnInfo) (forceStatic : Bool) (exit : Nat) (f : Idx)
    (args : List TypedExpr) : Instr Nat :=
  if !forceStatic && !flag FunctionFlags.isFinalBit info.flags && !flag FunctionFlags.isStaticBit info.flags &&
      !flag FunctionFlags.isNativeBit info.flags then
    .InvokeVirtual exit (env.line f args) info.name (env.invokeFlags args 0 0)
  else .InvokeStatic exit (env.line f args) f (env.invokeFlags args 0 0)

/-- `get_arg_type(0)` (compiler/src/assembler.rs:462-463); `args[0]` panics without arguments. -/
def argType (env : AsmEnv) : List TypedExpr → Except AsmErr Idx
  | [] => .error .panic
  | a :: _ =>
    match env.typeOf a with
    | .error e => .error e
    | .ok t => env.typeIdx t

/-- The first instruction of an intrinsic call (compiler/src/assembler.rs:465-570). -/
def intrinsicInstr (env : AsmEnv) (op : IntrinsicOp) (args : List TypedExpr) (ret : TypeId) :
    Except AsmErr (Instr Nat) :=
  match op with
  | .Equals => (env.argType args).map .Equals
  | .NotEquals => (env.argType args).map .NotEquals
  | .ArrayClear => (env.argType args).map .ArrayClear
  | .ArraySize => (env.argType args).map .ArraySize
  | .ArrayResize => (env.argType args).map .ArrayResize
  | .ArrayFindFirst => (env.argType args).map .ArrayFindFirst
  | .ArrayFindLast => (env.argType args).map .ArrayFindLast
  | .ArrayContains => (env.argType args).map .ArrayContains
  | .ArrayCount => (env.argType args).map .ArrayCount
  | .ArrayPush => (env.argType args).map .ArrayPush
  | .ArrayPop => (env.argType args).map .ArrayPop
  | .ArrayInsert => (env.argType args).map .ArrayInsert
  | .ArrayRemove => (env.argType args).map .ArrayRemove
  | .ArrayGrow => (env.argType args).map .ArrayGrow
  | .ArrayErase => (env.argType args).map .ArrayErase
  | .ArrayLast => (env.argType args).map .ArrayLast
  | .ArraySort => (env.argType args).map .ArraySort
  | .ArraySortByPredicate => (env.argType args).map .ArraySortByPredicate
  | .ToString =>
    match args with
    | [] => .error .panic
    | a :: _ =>
      match env.typeOf a with
      | .error e => .error e
      | .ok .Variant => .ok .VariantToString
      | .ok t => (env.typeIdx t).map .ToString
  | .EnumInt => (env.argType args).map (.EnumToI32 · 4)
  | .IntEnum => (env.typeIdx ret).map (.I32ToEnum · 4)
  | .ToVariant => (env.argType args).map .ToVariant
  | .FromVariant => (env.typeIdx ret).map .FromVariant
  | .VariantIsRef => .ok .VariantIsRef
  | .VariantIsArray => .ok .VariantIsArray
  | .VariantTypeName => .ok .VariantTypeName
  | .AsRef => (env.argType args).map .AsRef
  | .Deref => (env.argType args).map .Deref
  | .RefToWeakRef => .ok .RefToWeakRef
  | .WeakRefToRef => .ok .WeakRefToRef
  | .IsDefined =>
    match args with
    | [] => .error .panic
    | a :: _ =>
      match env.typeOf a with
      | .error e => .error e
      | .ok (.Ref _) | .ok .Null => .ok .RefToBool
      | .ok (.WeakRef _) => .ok .WeakRefToBool
      | .ok .Variant => .ok .VariantIsDefined
      | .ok _ => .error .panic

/-- The instruction of an element access (compiler/src/assembler.rs:128-140). -/
def elemInstr (env : AsmEnv) (e : TypedExpr) : Except AsmErr (Instr Nat) :=
  match env.typeOf e with
  | .error err => .error err
  | .ok (.Array t) => (env.typeIdx (.Array t)).map .ArrayElement
  | .ok (.StaticArray t n) => (env.typeIdx (.StaticArray t n)).map .StaticArrayElement
  | .ok _ => .error .unsupportedOperation

/-- The code of a call around the code of its arguments (compiler/src/assembler.rs:410-437): omitted
parameters are `Nop`s, too many arguments are an error. -/
def callCode (env : AsmEnv) (info : FnInfo) (forceStatic : Bool) (exit : Nat) (f : Idx) (args : List TypedExpr)
    (code : List (Instr Nat)) : Except AsmErr (List (Instr Nat)) :=
  if info.params.length < args.length then .error .unsupportedFeature
  else .ok (env.invokeInstr info forceStatic exit f args ::
    (code ++ (List.replicate (info.params.length - args.length) .Nop ++ [.ParamEnd, .Target exit])))

end AsmEnv

/-- The receiver of a static method call: the name of a class or struct
(compiler/src/assembler.rs:257-260). -/
def Expr.isTypeName : TypedExpr → Bool
  | .Ident (.Symbol (.Class _ _)) | .Ident (.Symbol (.Struct _ _)) => true
  | _ => false

/-- `matches!(expr, Expr::Super(_))` (compiler/src/assembler.rs:274). -/
def Expr.isSuper : TypedExpr → Bool
  | .Super => true
  | _ => false

/-- Put instructions around an assembled part. -/
def AsmRes.wrap (pre : List (Instr Nat)) (r : AsmRes) (post : List (Instr Nat)) : AsmRes :=
  match r with
  | .error e => .error e
  | .ok (code, n) => .ok (pre ++ code ++ post, n)

/-- Assemble one part after another. -/
def AsmRes.andThen (r : AsmRes) (k : Nat → AsmRes) : AsmRes :=
  match r with
  | .error e => .error e
  | .ok (code, n) =>
    match k n with
    | .error e => .error e
    | .ok (code', n') => .ok (code ++ code', n')

mutual
/-- `assemble` (compiler/src/assembler.rs:45-304). `exit` is the label `break` jumps to, the last
argument the label counter. -/
def asm (env : AsmEnv) (exit : Option Nat) : TypedExpr → Nat → AsmRes
  | .Ident r, n =>
    match r with
    | .Value (.Local l) => .ok ([.Local l], n)
    | .Value (.Parameter p) => .ok ([.Param p], n)
    | _ => .error .unexpectedToken
  | .Constant c, n => (env.constInstr c).map fun i => ([i], n)
  | .Cast ty e, n =>
    match ty with
    | .Class c => (asm env none e n).wrap [.DynamicCast c 0] []
    | _ => .error .unsupportedOperation
  | .Declare l ty init, n =>
    match init, ty with
    | some v, _ => (asm env none v n).wrap [.Assign, .Local l] []
    | none, some ty => (env.initializer l ty).map (·, n)
    | none, none => .error .panic
  | .Assign lhs rhs, n => ((asm env none lhs n).andThen (asm env none rhs)).wrap [.Assign] []
  | .ArrayElem e i, n =>
    match env.elemInstr e with
    | .error err => .error err
    | .ok instr => ((asm env none e n).andThen (asm env none i)).wrap [instr] []
  | .New ty args, n =>
    match ty with
    | .Class c => .ok ([.New c], n)
    | .Struct s => (asmSeq env none args n).wrap [.Construct (BitVec.ofNat 8 args.length) s] []
    | _ => .error .unsupportedOperation
  | .Return e, n =>
    match e with
    | some e => (asm env none e n).wrap [.Return] []
    | none => .ok ([.Return, .Nop], n)
  | .Seq es, n => asmSeq env exit es n
  | .Switch e cases dflt, n => do
    let ty ← env.typeOf e
    let tyIdx ← env.typeIdx ty
    -- first_case_label = n, next_case_label = n + 1, exit_label = n + 2
    let (subject, n1) ← asm env none e (n + 3)
    let (body, next, n2) ← asmCases env (n + 2) none cases (n + 1) n1
    let (tail, n3) ← asmBlockOpt env (n + 2) dflt n2
    .ok (.Switch tyIdx n :: (subject ++ .Target n :: (body ++ .Target next :: (tail ++ [.Target (n + 2)]))), n3)
  | .If c t e, n => do
    -- else_label = n
    let (cond, n1) ← asm env none c (n + 1)
    let (then_, n2) ← asmSeq env exit t n1
    asmElse env exit n cond then_ e n2
  | .Conditional c t e, n => do
    -- false_label = n, exit_label = n + 1
    let (cond, n1) ← asm env none c (n + 2)
    let (true_, n2) ← asm env none t n1
    let (false_, n3) ← asm env none e n2
    .ok (.Conditional n (n + 1) :: (cond ++ (true_ ++ .Target n :: (false_ ++ [.Target (n + 1)]))), n3)
  | .While c body, n => do
    -- exit_label = n, loop_label = n + 1
    let (cond, n1) ← asm env none c (n + 2)
    let (body, n2) ← asmSeq env (some n) body n1
    .ok (.Target (n + 1) :: .JumpIfFalse n :: (cond ++ (body ++ [.Jump (n + 1), .Target n])), n2)
  | .Member e m, n =>
    match m with
    | .ClassField f => (asm env none e (n + 1)).wrap [.Context n] [.ObjectField f, .Target n]
    | .StructField f => (asm env none e n).wrap [.StructField f] []
    | .EnumMember en m => .ok ([.EnumConst en m], n)
  | .Call c _ args, n =>
    match c with
    | .Function f => do
      let info ← env.function f
      -- assemble_call, exit_label = n
      let (code, n1) ← asmArgs env args info.params (n + 1)
      let code ← env.callCode info false n f args code
      .ok (code, n1)
    | .Intrinsic op ty => do
      let instr ← env.intrinsicInstr op args ty
      (asmSeq env none args n).wrap [instr] []
  | .MethodCall ctx f args, n => do
    let info ← env.function f
    if ctx.isTypeName then
      if flag FunctionFlags.isStaticBit info.flags then do
        -- assemble_call, exit_label = n
        let (code, n1) ← asmArgs env args info.params (n + 1)
        let code ← env.callCode info true n f args code
        .ok (code, n1)
      else .error .invalidMethodCall
    else if flag FunctionFlags.isStaticBit info.flags then .error .invalidMethodCall
    else do
      -- exit_label = n
      let (recv, n1) ← asm env none ctx (n + 1)
      -- assemble_call, exit_label = n1
      let (code, n2) ← asmArgs env args info.params (n1 + 1)
      let code ← env.callCode info ctx.isSuper n1 f args code
      .ok (.Context n :: (recv ++ (code ++ [.Target n])), n2)
  | .Null, n => .ok ([.Null], n)
  | .This, n => .ok ([.This], n)
  | .Super, n => .ok ([.This], n)
  | .Break, n =>
    match exit with
    | some l => .ok ([.Jump l], n)
    | none => .error .unsupportedFeature
  | .ArrayLit _ _, _ => .error .unsupportedFeature
  | .InterpolatedString _ _, _ => .error .unsupportedFeature
  | .ForIn _ _ _, _ => .error .unsupportedFeature
  | .BinOp _ _ _, _ => .error .unsupportedFeature
  | .UnOp _ _, _ => .error .unsupportedFeature
  | .Goto _, _ => .error .unsupportedFeature
/-- `assemble_seq` (compiler/src/assembler.rs:306-317), and the loops over arguments
(compiler/src/assembler.rs:145-147, 571-573) with `exit` absent. -/
def asmSeq (env : AsmEnv) (exit : Option Nat) : List TypedExpr → Nat → AsmRes
  | [], n => .ok ([], n)
  | e :: es, n => (asm env exit e n).andThen (asmSeq env exit es)
/-- The loop over the arguments of a call, zipped with the parameter flags
(compiler/src/assembler.rs:416-425). -/
def asmArgs (env : AsmEnv) : List TypedExpr → List ParameterFlags → Nat → AsmRes
  | [], _, n => .ok ([], n)
  | _ :: _, [], n => .ok ([], n)
  | a :: as, p :: ps, n =>
    if flag ParameterFlags.isShortCircuitBit p then
      -- skip_label = n
      ((asm env none a (n + 1)).wrap [.Skip n] [.Target n]).andThen (asmArgs env as ps)
    else (asm env none a n).andThen (asmArgs env as ps)
/-- The loops over the cases (compiler/src/assembler.rs:171-187): `pend` is the label of the current
group of cases when the group has begun, `next` is `next_case_label`, returned with the result. -/
def asmCases (env : AsmEnv) (exit : Nat) (pend : Option Nat) :
    List (TypedExpr × List TypedExpr) → Nat → Nat → Except AsmErr (List (Instr Nat) × Nat × Nat)
  | [], next, n => .ok ([], next, n)
  | (m, body) :: cs, next, n => do
    let bodyLabel := pend.getD n
    let n := if pend.isSome then n else n + 1
    -- the new next_case_label = n
    let (matcher, n1) ← asm env none m (n + 1)
    if Expr.allEmpty body then do
      let (rest, next', n2) ← asmCases env exit (some bodyLabel) cs n n1
      .ok (.Target next :: .SwitchLabel n bodyLabel :: (matcher ++ rest), next', n2)
    else do
      let (body, n2) ← asmSeq env (some exit) body n1
      let (rest, next', n3) ← asmCases env exit none cs n n2
      .ok (.Target next :: .SwitchLabel n bodyLabel :: (matcher ++ .Target bodyLabel :: (body ++ rest)), next', n3)
/-- The end of an `if` (compiler/src/assembler.rs:202-209). -/
def asmElse (env : AsmEnv) (exit : Option Nat) (elseLabel : Nat) (cond then_ : List (Instr Nat)) :
    Option (List TypedExpr) → Nat → AsmRes
  | none, n => .ok (.JumpIfFalse elseLabel :: (cond ++ (then_ ++ [.Target elseLabel])), n)
  | some e, n =>
    -- exit_label = n
    (asmSeq env exit e (n + 1)).wrap
      (.JumpIfFalse elseLabel :: (cond ++ (then_ ++ [.Jump n, .Target elseLabel]))) [.Target n]
/-- The default of a switch (compiler/src/assembler.rs:190-193). -/
def asmBlockOpt (env : AsmEnv) (exit : Nat) : Option (List TypedExpr) → Nat → AsmRes
  | none, n => .ok ([], n)
  | some b, n => (asmSeq env (some exit) b n).wrap [.SwitchDefault] []
end

/-- `from_body` (compiler/src/assembler.rs:595-605). -/
def fromBody (env : AsmEnv) (body : List TypedExpr) : Except AsmErr (List (Instr Offset)) :=
  match asmSeq env none body 0 with
  | .error e => .error e
  | .ok (code, n) =>
    match intoCode n (code ++ [.Nop]) with
    | none => .error .panic
    | some out => .ok out

end Redscript
