import Verif.Typed.Model
import Verif.Bytecode.Cursor
import Verif.Decompiler.MergeModel

/-!
# Decompiler (model)

Model of decompiler/src/lib.rs:19-495. Recursion is bounded by fuel; running out of it is an error of its
own (`fuel`), so a result other than that does not depend on the fuel.
-/

namespace Redscript

/-- The errors of the decompiler, by kind. -/
inductive DecErr where
  | cursor (e : CursorError)
  /-- `Error::PoolError` -/
  | pool
  /-- `Error::DecompileError` -/
  | decompile
  | panic
  /-- The model ran out of fuel. -/
  | fuel
  deriving DecidableEq, Repr

/-- What the decompiler reads of a called function (decompiler/src/lib.rs:284-312). -/
structure DecFn where
  name : Text
  isStatic : Bool
  /-- the name of the parent, nothing when it is undefined -/
  parent : Option Text
  /-- the name of the return type -/
  returnType : Option Text
  /-- `self.definition.name == def.name && self.definition.parent != def.parent` -/
  overridden : Bool

/-- The questions asked of the pool. -/
structure DecEnv where
  /-- `pool.def_name` -/
  defName : Idx → Option Text
  /-- `pool.strings.get`, `pool.names.get`, `pool.tweakdb_ids.get`, `pool.resources.get` -/
  text : Literal → Idx → Option Text
  /-- `pool.definition` and `pool.function` -/
  function : Idx → Option DecFn

/-- `IntoStaticStr` for `IntrinsicOp` (core/src/bytecode.rs:1094-1127). -/
def IntrinsicOp.name : IntrinsicOp → Text
  | .Equals => "Equals".toList
  | .NotEquals => "NotEquals".toList
  | .ArrayClear => "ArrayClear".toList
  | .ArraySize => "ArraySize".toList
  | .ArrayResize => "ArrayResize".toList
  | .ArrayFindFirst => "ArrayFindFirst".toList
  | .ArrayFindLast => "ArrayFindLast".toList
  | .ArrayContains => "ArrayContains".toList
  | .ArrayCount => "ArrayCount".toList
  | .ArrayPush => "ArrayPush".toList
  | .ArrayPop => "ArrayPop".toList
  | .ArrayInsert => "ArrayInsert".toList
  | .ArrayRemove => "ArrayRemove".toList
  | .ArrayGrow => "ArrayGrow".toList
  | .ArrayErase => "ArrayErase".toList
  | .ArrayLast => "ArrayLast".toList
  | .ArraySort => "ArraySort".toList
  | .ArraySortByPredicate => "ArraySortByPredicate".toList
  | .ToString => "ToString".toList
  | .EnumInt => "EnumInt".toList
  | .IntEnum => "IntEnum".toList
  | .ToVariant => "ToVariant".toList
  | .FromVariant => "FromVariant".toList
  | .VariantIsRef => "VariantIsRef".toList
  | .VariantIsArray => "VariantIsArray".toList
  | .VariantTypeName => "VariantTypeName".toList
  | .AsRef => "AsRef".toList
  | .Deref => "Deref".toList
  | .RefToWeakRef => "RefToWeakRef".toList
  | .WeakRefToRef => "WeakRefToRef".toList
  | .IsDefined => "IsDefined".toList

/-- `IntrinsicOp::from_str` (derived, core/src/bytecode.rs:1094-1127), with which the type checker recognises
intrinsics (compiler/src/typechecker.rs:142). -/
def IntrinsicOp.fromStr (name : Text) : Option IntrinsicOp :=
  match String.ofList name with
  | "Equals" => some .Equals
  | "NotEquals" => some .NotEquals
  | "ArrayClear" => some .ArrayClear
  | "ArraySize" => some .ArraySize
  | "ArrayResize" => some .ArrayResize
  | "ArrayFindFirst" => some .ArrayFindFirst
  | "ArrayFindLast" => some .ArrayFindLast
  | "ArrayContains" => some .ArrayContains
  | "ArrayCount" => some .ArrayCount
  | "ArrayPush" => some .ArrayPush
  | "ArrayPop" => some .ArrayPop
  | "ArrayInsert" => some .ArrayInsert
  | "ArrayRemove" => some .ArrayRemove
  | "ArrayGrow" => some .ArrayGrow
  | "ArrayErase" => some .ArrayErase
  | "ArrayLast" => some .ArrayLast
  | "ArraySort" => some .ArraySort
  | "ArraySortByPredicate" => some .ArraySortByPredicate
  | "ToString" => some .ToString
  | "EnumInt" => some .EnumInt
  | "IntEnum" => some .IntEnum
  | "ToVariant" => some .ToVariant
  | "FromVariant" => some .FromVariant
  | "VariantIsRef" => some .VariantIsRef
  | "VariantIsArray" => some .VariantIsArray
  | "VariantTypeName" => some .VariantTypeName
  | "AsRef" => some .AsRef
  | "Deref" => some .Deref
  | "RefToWeakRef" => some .RefToWeakRef
  | "WeakRefToRef" => some .WeakRefToRef
  | "IsDefined" => some .IsDefined
  | _ => none

/-- `BlockContext` (decompiler/src/lib.rs:497-511). -/
inductive BlockContext where
  | loop (prologue epilogue : Location)
  | switch (epilogue : Location)
  deriving DecidableEq, Repr

/-- What an instruction asks of the decompiler: the arms of `consume_with`
(decompiler/src/lib.rs:212-446). -/
inductive DecKind where
  /-- Read a number of operands, then build a tree. -/
  | node (operands : Nat) (build : List (Expr SourceAst) → Option (Expr SourceAst))
  | objectField (f : Idx)
  | switch (start : Offset)
  | jumpIfFalse (o : Offset)
  | invokeStatic (f : Idx)
  | invokeVirtual (name : Idx)
  | ret
  | context
  /-- Expr::EMPTY -/
  | empty
  | jump (o : Offset)
  | skip (o : Offset)
  /-- an error, unexpected here -/
  | unexpected

/-- A tree without operands. -/
def DecKind.leaf (e : Option (Expr SourceAst)) : DecKind := .node 0 fun _ => e

/-- `consume_intrisnic_typed` (decompiler/src/lib.rs:73-81). -/
def DecKind.typed (op : IntrinsicOp) (tys : Option (List TypeName)) : DecKind :=
  .node op.argCount fun args => tys.map fun tys => .Call op.name tys args

/-- `consume_intrisnic` (decompiler/src/lib.rs:83-85). -/
def DecKind.intrinsic (op : IntrinsicOp) : DecKind := .typed op (some [])

/-- The arms of `consume_with` (decompiler/src/lib.rs:212-446). Names are looked up after the operands are
read, where the code sometimes does it before; this only affects which of two errors is reported. -/
def decKind (D : DecEnv) : Instr Offset → DecKind
  | .Null => .leaf (some .Null)
  | .WeakRefNull => .leaf (some .Null)
  | .I32One => .leaf (some (.Constant (.I32 1)))
  | .I32Zero => .leaf (some (.Constant (.I32 0)))
  | .I8Const v => .leaf (some (.Constant (.I32 (v.signExtend 32))))
  | .I16Const v => .leaf (some (.Constant (.I32 (v.signExtend 32))))
  | .I32Const v => .leaf (some (.Constant (.I32 v)))
  | .I64Const v => .leaf (some (.Constant (.I64 v)))
  | .U8Const v => .leaf (some (.Constant (.U32 (v.setWidth 32))))
  | .U16Const v => .leaf (some (.Constant (.U32 (v.setWidth 32))))
  | .U32Const v => .leaf (some (.Constant (.U32 v)))
  | .U64Const v => .leaf (some (.Constant (.U64 v)))
  | .F32Const v => .leaf (some (.Constant (.F32 v)))
  | .F64Const v => .leaf (some (.Constant (.F64 v)))
  | .StringConst i => .leaf ((D.text .String i).map fun t => .Constant (.String .String t))
  | .NameConst i => .leaf ((D.text .Name i).map fun t => .Constant (.String .Name t))
  | .TweakDbIdConst i => .leaf ((D.text .TweakDbId i).map fun t => .Constant (.String .TweakDbId t))
  | .ResourceConst i => .leaf ((D.text .Resource i).map fun t => .Constant (.String .Resource t))
  | .TrueConst => .leaf (some (.Constant (.Bool true)))
  | .FalseConst => .leaf (some (.Constant (.Bool false)))
  | .EnumConst e m =>
    .leaf ((D.defName e).bind fun en => (D.defName m).map fun mn => .Member (.Ident en) mn)
  | .Assign => .node 2 fun
    | [l, r] => some (.Assign l r)
    | _ => none
  | .Target _ => .unexpected
  | .Local i => .leaf ((D.defName i).map .Ident)
  | .Param i => .leaf ((D.defName i).map .Ident)
  | .ObjectField f => .objectField f
  | .ExternalVar => .unexpected
  | .Switch _ start => .switch start
  | .SwitchLabel _ _ => .unexpected
  | .SwitchDefault => .unexpected
  | .JumpIfFalse o => .jumpIfFalse o
  | .Skip o => .skip o
  | .Conditional _ _ => .node 3 fun
    | [c, t, e] => some (.Conditional c t e)
    | _ => none
  | .Construct n c => .node n.toNat fun args => (D.defName c).map fun name => .New (.mk name []) args
  | .InvokeStatic _ _ f _ => .invokeStatic f
  | .InvokeVirtual _ _ name _ => .invokeVirtual name
  | .ParamEnd => .unexpected
  | .Return => .ret
  | .StructField f => .node 1 fun
    | [e] => (D.defName f).map fun name => .Member e name
    | _ => none
  | .Context _ => .context
  | .Equals _ => .intrinsic .Equals
  | .RefStringEqualsString _ => .intrinsic .Equals
  | .StringEqualsRefString _ => .intrinsic .Equals
  | .NotEquals _ => .intrinsic .NotEquals
  | .RefStringNotEqualsString _ => .intrinsic .NotEquals
  | .StringNotEqualsRefString _ => .intrinsic .NotEquals
  | .New c => .leaf ((D.defName c).map fun name => .New (.mk name []) [])
  | .Delete => .node 1 fun args => some (.Call "Delete".toList [] args)
  | .This => .leaf (some .This)
  | .ArrayClear _ => .intrinsic .ArrayClear
  | .ArraySize _ => .intrinsic .ArraySize
  | .StaticArraySize _ => .intrinsic .ArraySize
  | .ArrayResize _ => .intrinsic .ArrayResize
  | .ArrayFindFirst _ => .intrinsic .ArrayFindFirst
  | .ArrayFindFirstFast _ => .intrinsic .ArrayFindFirst
  | .StaticArrayFindFirst _ => .intrinsic .ArrayFindFirst
  | .StaticArrayFindFirstFast _ => .intrinsic .ArrayFindFirst
  | .ArrayFindLast _ => .intrinsic .ArrayFindLast
  | .ArrayFindLastFast _ => .intrinsic .ArrayFindLast
  | .StaticArrayFindLast _ => .intrinsic .ArrayFindLast
  | .StaticArrayFindLastFast _ => .intrinsic .ArrayFindLast
  | .ArrayContains _ => .intrinsic .ArrayContains
  | .ArrayContainsFast _ => .intrinsic .ArrayContains
  | .StaticArrayContains _ => .intrinsic .ArrayContains
  | .StaticArrayContainsFast _ => .intrinsic .ArrayContains
  | .ArrayCount _ => .intrinsic .ArrayCount
  | .ArrayCountFast _ => .intrinsic .ArrayCount
  | .StaticArrayCount _ => .intrinsic .ArrayCount
  | .StaticArrayCountFast _ => .intrinsic .ArrayCount
  | .ArrayPush _ => .intrinsic .ArrayPush
  | .ArrayPop _ => .intrinsic .ArrayPop
  | .ArrayInsert _ => .intrinsic .ArrayInsert
  | .ArrayRemove _ => .intrinsic .ArrayRemove
  | .ArrayRemoveFast _ => .intrinsic .ArrayRemove
  | .ArrayGrow _ => .intrinsic .ArrayGrow
  | .ArrayErase _ => .intrinsic .ArrayErase
  | .ArrayEraseFast _ => .intrinsic .ArrayErase
  | .ArrayLast _ => .intrinsic .ArrayLast
  | .StaticArrayLast _ => .intrinsic .ArrayLast
  | .ArraySort _ => .intrinsic .ArraySort
  | .ArraySortByPredicate _ => .intrinsic .ArraySortByPredicate
  | .ArrayElement _ => .node 2 fun
    | [a, i] => some (.ArrayElem a i)
    | _ => none
  | .StaticArrayElement _ => .node 2 fun
    | [a, i] => some (.ArrayElem a i)
    | _ => none
  | .RefToBool => .intrinsic .IsDefined
  | .WeakRefToBool => .intrinsic .IsDefined
  | .VariantIsDefined => .intrinsic .IsDefined
  | .EnumToI32 _ _ => .intrinsic .EnumInt
  | .I32ToEnum ty _ => .typed .IntEnum ((D.defName ty).map fun t => [TypeName.fromRepr t])
  | .DynamicCast ty _ => .node 1 fun
    | [e] => (D.defName ty).map fun t => .Cast (TypeName.fromRepr t) e
    | _ => none
  | .ToString _ => .intrinsic .ToString
  | .VariantToString => .intrinsic .ToString
  | .ToVariant _ => .intrinsic .ToVariant
  | .FromVariant ty => .typed .FromVariant ((D.defName ty).map fun t => [TypeName.fromRepr t])
  | .VariantIsRef => .intrinsic .VariantIsRef
  | .VariantIsArray => .intrinsic .VariantIsArray
  | .VariantTypeName => .intrinsic .VariantTypeName
  | .WeakRefToRef => .intrinsic .WeakRefToRef
  | .RefToWeakRef => .intrinsic .RefToWeakRef
  | .AsRef _ => .intrinsic .AsRef
  | .Deref _ => .intrinsic .Deref
  | .Jump o => if o = 3 then .empty else .jump o
  | .Nop => .empty
  | .Breakpoint _ => .empty
  | .StartProfiling _ => .empty

/-- `Expr::EMPTY` (core/src/ast.rs:84). -/
def emptyExpr : Expr SourceAst := .Seq []

/-- The tree of a static call (decompiler/src/lib.rs:289-312). -/
def staticCall (fn : DecFn) (ctx : Option (Expr SourceAst)) (params : List (Expr SourceAst)) :
    Except DecErr (Expr SourceAst) :=
  match ctx with
  | some ctx => .ok (.MethodCall ctx fn.name params)
  | none =>
    if fn.isStatic then
      match fn.parent with
      | none =>
        if "Cast;".toList.isPrefixOf fn.name then
          match fn.returnType with
          | none => .error .decompile
          | some t => .ok (.Call fn.name [TypeName.fromRepr t] params)
        else .ok (.Call fn.name [] params)
      | some cls => .ok (.MethodCall (.Ident cls) fn.name params)
    else .ok (.MethodCall (if fn.overridden then .Super else .This) fn.name params)

/-- Whether a path ends behind this statement (decompiler/src/lib.rs:57-60). -/
def endsPath : Expr SourceAst → Bool
  | .Goto _ | .Break | .Return _ => true
  | _ => false

mutual
/-- `resolve_jump` (decompiler/src/lib.rs:484-495): find the last `Goto`, remove it and return its target. -/
def resolveJump : List (Expr SourceAst) → Option (Location × List (Expr SourceAst))
  | [] => none
  | e :: es =>
    match resolveJump es with
    | some (t, es') => some (t, e :: es')
    | none => (resolveHere e).map fun (t, e') => (t, e' :: es)
/-- The closure of `resolve_jump`. -/
def resolveHere : Expr SourceAst → Option (Location × Expr SourceAst)
  | .Goto t => some (t, emptyExpr)
  | .If c a none => (resolveJump a).map fun (t, a') => (t, .If c a' none)
  | .If c a (some b) =>
    match resolveJump a with
    | some (t, a') => some (t, .If c a' (some b))
    | none => (resolveJump b).map fun (t, b') => (t, .If c a (some b'))
  | _ => none
end

/-- Replace a final `Goto` by `Break` (decompiler/src/lib.rs:180-183). -/
def gotoToBreak (body : List (Expr SourceAst)) : List (Expr SourceAst) :=
  match body.getLast? with
  | some (.Goto _) => body.dropLast ++ [.Break]
  | _ => body

/-- The epilogue of a switch: the target of the first jump beyond the end of a case
(decompiler/src/lib.rs:168-174). -/
def findEpilogue (exit : Location) : List (Location × Instr Offset) → Option Location
  | [] => none
  | (loc, i) :: rest =>
    match i with
    | .Jump o => if exit.toNat < (o.absolute loc).toNat then some (o.absolute loc) else findEpilogue exit rest
    | _ => findEpilogue exit rest

/-- Whether one of the instructions jumps to a position (decompiler/src/lib.rs:121-124). -/
def jumpsTo (pos : Location) (items : List (Location × Instr Offset)) : Bool :=
  items.any fun (loc, i) =>
    match i with
    | .Jump o => o.absolute loc == pos
    | _ => false

/-- A result of the cursor. -/
def liftCursor (r : Except CursorError α) : Except DecErr α :=
  match r with
  | .ok a => .ok a
  | .error e => .error (.cursor e)

/-- `self.code.pos()` -/
def posOf (c : CodeCursor Offset) : Except DecErr Location :=
  match c.pos with
  | some p => .ok p
  | none => .error .panic

/-- What `self.code.peek()` is matched against. -/
inductive PeekKind where
  | skipOrNop | paramEnd | other
  | label (exit start : Offset)
  | dflt
  deriving DecidableEq

/-- Classify the next instruction. -/
def peekKind : Option (Instr Offset) → PeekKind
  | some (.Skip _) => .skipOrNop
  | some .Nop => .skipOrNop
  | some .ParamEnd => .paramEnd
  | some (.SwitchLabel e s) => .label e s
  | some .SwitchDefault => .dflt
  | _ => .other

/-- `consume_switch`, collecting the labels (decompiler/src/lib.rs:148-156). -/
def switchLabels (bs : BinarySearch) : Nat → CodeCursor Offset → Except DecErr (List (Location × Location))
  | 0, _ => .error .fuel
  | fuel + 1, c =>
    match peekKind c.peek with
    | .label exit start => do
      let position ← posOf c
      let c ← liftCursor (c.seekRel bs exit)
      let rest ← switchLabels bs fuel c
      .ok ((position, start.absolute position) :: rest)
    | .dflt => do
      let position ← posOf c
      .ok [(position, position)]
    | _ => .ok []

mutual
/-- `consume_with` (decompiler/src/lib.rs:206-449). -/
def consumeWith (D : DecEnv) (bs : BinarySearch) :
    Nat → Option (Expr SourceAst) → Option BlockContext → CodeCursor Offset → Except DecErr (Expr SourceAst × CodeCursor Offset)
  | 0, _, _, _ => .error .fuel
  | fuel + 1, context, block, c => do
    let position ← posOf c
    let (i, c) ← liftCursor c.pop
    match decKind D i with
    | .node k build => do
      let (args, c) ← consumeN D bs fuel k c
      match build args with
      | some e => .ok (e, c)
      | none => .error .pool
    | .objectField f =>
      match D.defName f with
      | some name => .ok (.Member (context.getD .This) name, c)
      | none => .error .pool
    | .switch start => consumeSwitch D bs fuel (start.absolute position) c
    | .jumpIfFalse o =>
      if o.toInt < 0 then .error .panic else consumeCondJump D bs fuel position o block c
    | .invokeStatic f =>
      match D.function f with
      | none => .error .pool
      | some fn => do
        let (params, c) ← consumeParams D bs fuel c
        let e ← staticCall fn context params
        .ok (e, c)
    | .invokeVirtual idx =>
      match D.text .Name idx with
      | none => .error .pool
      | some name => do
        let (params, c) ← consumeParams D bs fuel c
        .ok (.MethodCall (context.getD .This) name params, c)
    | .ret =>
      if c.peek = some .Nop then do
        let (_, c) ← liftCursor c.pop
        .ok (.Return none, c)
      else do
        let (e, c) ← consumeWith D bs fuel none none c
        .ok (.Return (some e), c)
    | .context => do
      let (e, c) ← consumeWith D bs fuel none none c
      consumeWith D bs fuel (some e) none c
    | .empty => .ok (emptyExpr, c)
    | .jump o => do
      let target := o.absolute position
      let here ← posOf c
      match block with
      | some (.loop prologue epilogue) =>
        if target = epilogue then .ok (.Break, c)
        else if target = prologue ∧ here = epilogue then .ok (emptyExpr, c)
        else .ok (.Goto target, c)
      | some (.switch epilogue) =>
        if target = epilogue then .ok (.Break, c) else .ok (.Goto target, c)
      | none => .ok (.Goto target, c)
    | .skip o => .ok (.Goto (o.absolute position), c)
    | .unexpected => .error .decompile
/-- `consume_n` (decompiler/src/lib.rs:46-52). -/
def consumeN (D : DecEnv) (bs : BinarySearch) :
    Nat → Nat → CodeCursor Offset → Except DecErr (List (Expr SourceAst) × CodeCursor Offset)
  | 0, _, _ => .error .fuel
  | _ + 1, 0, c => .ok ([], c)
  | fuel + 1, k + 1, c => do
    let (e, c) ← consumeWith D bs fuel none none c
    let (es, c) ← consumeN D bs fuel k c
    .ok (e :: es, c)
/-- `consume_params` (decompiler/src/lib.rs:97-110). -/
def consumeParams (D : DecEnv) (bs : BinarySearch) : Nat → CodeCursor Offset → Except DecErr (List (Expr SourceAst) × CodeCursor Offset)
  | 0, _ => .error .fuel
  | fuel + 1, c =>
    match peekKind c.peek with
    | .skipOrNop => do
      let (_, c) ← liftCursor c.pop
      consumeParams D bs fuel c
    | .paramEnd => do
      let (_, c) ← liftCursor c.pop
      .ok ([], c)
    | _ => do
      let (e, c) ← consumeWith D bs fuel none none c
      let (es, c) ← consumeParams D bs fuel c
      .ok (e :: es, c)
/-- `consume_path` (decompiler/src/lib.rs:54-71). `stop` tells that the last statement ends the path. A pop
fails with `EndOfCode` only at the end of the code, where the cursor is left. -/
def consumePath (D : DecEnv) (bs : BinarySearch) (target : Location) (block : Option BlockContext) :
    Nat → Bool → CodeCursor Offset → Except DecErr (List (Expr SourceAst) × CodeCursor Offset)
  | 0, _, _ => .error .fuel
  | fuel + 1, stop, c => do
    let here ← posOf c
    if target.toNat ≤ here.toNat ∨ stop = true then .ok ([], c)
    else
      match consumeWith D bs fuel none block c with
      | .ok (e, c) => do
        let (es, c) ← consumePath D bs target block fuel (endsPath e) c
        .ok (e :: es, c)
      | .error (.cursor .endOfCode) => .ok ([], { c with index := c.code.length })
      | .error e => .error e
/-- `consume_conditional_jump` (decompiler/src/lib.rs:112-142). -/
def consumeCondJump (D : DecEnv) (bs : BinarySearch) :
    Nat → Location → Offset → Option BlockContext → CodeCursor Offset → Except DecErr (Expr SourceAst × CodeCursor Offset)
  | 0, _, _, _, _ => .error .fuel
  | fuel + 1, position, offset, block, c => do
    let (condition, c) ← consumeWith D bs fuel none none c
    let target := offset.absolute position
    let items ← liftCursor (c.range bs position target)
    if jumpsTo position items then do
      let (body, c) ← consumePath D bs target (some (.loop position target)) fuel false c
      .ok (.While condition body, c)
    else do
      let (body, c) ← consumePath D bs target block fuel false c
      let c ← liftCursor (c.seekAbs bs target)
      match resolveJump body with
      | some (jump, body) => do
        let (else_, c) ← consumePath D bs jump block fuel false c
        .ok (.If condition body (some else_), c)
      | none => .ok (.If condition body none, c)
/-- `consume_switch` (decompiler/src/lib.rs:144-200). -/
def consumeSwitch (D : DecEnv) (bs : BinarySearch) :
    Nat → Location → CodeCursor Offset → Except DecErr (Expr SourceAst × CodeCursor Offset)
  | 0, _, _ => .error .fuel
  | fuel + 1, start, c => do
    let (subject, c) ← consumeWith D bs fuel none none c
    let c ← liftCursor (c.seekAbs bs start)
    let labels ← switchLabels bs fuel c
    let ((cases, dflt), c) ←
      consumeCases D bs fuel (labels.mergeSort fun a b => a.2.toNat ≤ b.2.toNat) none none c
    .ok (.Switch subject cases dflt, c)
/-- The loop over the labels (decompiler/src/lib.rs:158-197). `block` and `dflt` are the values of the
variables of these names. -/
def consumeCases (D : DecEnv) (bs : BinarySearch) :
    Nat → List (Location × Location) → Option BlockContext → Option (List (Expr SourceAst)) →
    CodeCursor Offset → Except DecErr ((List (Expr SourceAst × List (Expr SourceAst)) × Option (List (Expr SourceAst))) × CodeCursor Offset)
  | 0, _, _, _, _ => .error .fuel
  | _ + 1, [], _, dflt, c => .ok (([], dflt), c)
  | fuel + 1, (label, start) :: rest, block, dflt, c => do
    let c ← liftCursor (c.seekAbs bs label)
    let (i, c) ← liftCursor c.pop
    match peekKind (some i) with
    | .label exitOffset _ => do
      let exit := exitOffset.absolute label
      let (matcher, c) ← consumeWith D bs fuel none none c
      let block ←
        if block = none ∧ start.toNat < exit.toNat then do
          let items ← liftCursor (c.range bs start exit)
          .ok ((findEpilogue exit items).map .switch)
        else .ok block
      let c ← liftCursor (c.seekAbs bs start)
      let (body, c) ← consumePath D bs exit block fuel false c
      let ((cases, dflt), c) ← consumeCases D bs fuel rest block dflt c
      .ok (((matcher, gotoToBreak body) :: cases, dflt), c)
    | .dflt => do
      let (d, c) ←
        match block with
        | some (.switch epilogue) => consumePath D bs epilogue block fuel false c
        | _ => do
          let (e, c) ← consumeWith D bs fuel none block c
          .ok ([e], c)
      consumeCases D bs fuel rest block (some d) c
    | _ => .error .decompile
end

/-- `decompile` (decompiler/src/lib.rs:38-40). `Location::MAX` is the largest position. -/
def decompile (D : DecEnv) (bs : BinarySearch) (fuel : Nat) (code : List (Instr Offset)) :
    Except DecErr (List (Expr SourceAst)) :=
  match consumePath D bs (BitVec.allOnes 16) none fuel false (CodeCursor.new code) with
  | .ok (body, _) => .ok body
  | .error e => .error e

/-- `decompiled` (decompiler/src/lib.rs:24-36), given the names and types of the locals. -/
def decompiled (D : DecEnv) (bs : BinarySearch) (fuel : Nat) (locals : List (Text × TypeName))
    (code : List (Instr Offset)) : Except DecErr (List (Expr SourceAst)) :=
  match decompile D bs fuel code with
  | .ok body => .ok (mergeDeclarations locals body)
  | .error e => .error e

end Redscript
