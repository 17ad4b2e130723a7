import Verif.Codec.Model

/-!
# Bytecode instructions

Model of `core/src/bytecode.rs`: the instruction set, its sizes, its binary form, code bodies, label
resolution and the code cursor. Arithmetic is that of the release profile (wrapping); the workspace
`Cargo.toml` release profile does not enable overflow checks.
-/

namespace Redscript

/-- `PoolIndex<A>` (core/src/bundle.rs:629-657); the phantom type parameter is erased. -/
abbrev Idx := BitVec 32
/-- `Location` (core/src/bytecode.rs:963-980): a position inside a code body. -/
abbrev Location := BitVec 16
/-- `Offset` (core/src/bytecode.rs:988-1002): an `i16`, as its two's complement pattern. -/
abbrev Offset := BitVec 16

/-- core/src/bytecode.rs:904-911. -/
structure Breakpoint where
  line : BitVec 16
  lineStart : BitVec 32
  col : BitVec 16
  length : BitVec 16
  enabled : Bool
  padding : BitVec 64
  deriving DecidableEq, Repr

/-- core/src/bytecode.rs:945-946. -/
structure StartProfiling where
  function : String
  enabled : BitVec 8
  deriving DecidableEq, Repr

/-- core/src/bytecode.rs:13-118. `L` is the type of jump operands (`Loc`). Pool indexes keep only
their number; signed integers and floats are bit patterns. -/
inductive Instr (L : Type) where
  | Nop
  | Null
  | I32One
  | I32Zero
  | I8Const (a : BitVec 8)
  | I16Const (a : BitVec 16)
  | I32Const (a : BitVec 32)
  | I64Const (a : BitVec 64)
  | U8Const (a : BitVec 8)
  | U16Const (a : BitVec 16)
  | U32Const (a : BitVec 32)
  | U64Const (a : BitVec 64)
  | F32Const (a : BitVec 32)
  | F64Const (a : BitVec 64)
  | NameConst (a : Idx)
  | EnumConst (a : Idx) (b : Idx)
  | StringConst (a : Idx)
  | TweakDbIdConst (a : Idx)
  | ResourceConst (a : Idx)
  | TrueConst
  | FalseConst
  | Breakpoint (a : Breakpoint)
  | Assign
  | Target (a : L)
  | Local (a : Idx)
  | Param (a : Idx)
  | ObjectField (a : Idx)
  | ExternalVar
  | Switch (a : Idx) (b : L)
  | SwitchLabel (a : L) (b : L)
  | SwitchDefault
  | Jump (a : L)
  | JumpIfFalse (a : L)
  | Skip (a : L)
  | Conditional (a : L) (b : L)
  | Construct (a : BitVec 8) (b : Idx)
  | InvokeStatic (a : L) (b : BitVec 16) (c : Idx) (d : BitVec 16)
  | InvokeVirtual (a : L) (b : BitVec 16) (c : Idx) (d : BitVec 16)
  | ParamEnd
  | Return
  | StructField (a : Idx)
  | Context (a : L)
  | Equals (a : Idx)
  | RefStringEqualsString (a : Idx)
  | StringEqualsRefString (a : Idx)
  | NotEquals (a : Idx)
  | RefStringNotEqualsString (a : Idx)
  | StringNotEqualsRefString (a : Idx)
  | New (a : Idx)
  | Delete
  | This
  | StartProfiling (a : StartProfiling)
  | ArrayClear (a : Idx)
  | ArraySize (a : Idx)
  | ArrayResize (a : Idx)
  | ArrayFindFirst (a : Idx)
  | ArrayFindFirstFast (a : Idx)
  | ArrayFindLast (a : Idx)
  | ArrayFindLastFast (a : Idx)
  | ArrayContains (a : Idx)
  | ArrayContainsFast (a : Idx)
  | ArrayCount (a : Idx)
  | ArrayCountFast (a : Idx)
  | ArrayPush (a : Idx)
  | ArrayPop (a : Idx)
  | ArrayInsert (a : Idx)
  | ArrayRemove (a : Idx)
  | ArrayRemoveFast (a : Idx)
  | ArrayGrow (a : Idx)
  | ArrayErase (a : Idx)
  | ArrayEraseFast (a : Idx)
  | ArrayLast (a : Idx)
  | ArrayElement (a : Idx)
  | ArraySort (a : Idx)
  | ArraySortByPredicate (a : Idx)
  | StaticArraySize (a : Idx)
  | StaticArrayFindFirst (a : Idx)
  | StaticArrayFindFirstFast (a : Idx)
  | StaticArrayFindLast (a : Idx)
  | StaticArrayFindLastFast (a : Idx)
  | StaticArrayContains (a : Idx)
  | StaticArrayContainsFast (a : Idx)
  | StaticArrayCount (a : Idx)
  | StaticArrayCountFast (a : Idx)
  | StaticArrayLast (a : Idx)
  | StaticArrayElement (a : Idx)
  | RefToBool
  | WeakRefToBool
  | EnumToI32 (a : Idx) (b : BitVec 8)
  | I32ToEnum (a : Idx) (b : BitVec 8)
  | DynamicCast (a : Idx) (b : BitVec 8)
  | ToString (a : Idx)
  | ToVariant (a : Idx)
  | FromVariant (a : Idx)
  | VariantIsDefined
  | VariantIsRef
  | VariantIsArray
  | VariantTypeName
  | VariantToString
  | WeakRefToRef
  | RefToWeakRef
  | WeakRefNull
  | AsRef (a : Idx)
  | Deref (a : Idx)
  deriving DecidableEq, Repr

namespace Instr

/-- `Instr::size` (core/src/bytecode.rs:121-226): the size the virtual machine accounts for the
instruction (pool references count 8 bytes although they are written as 4). -/
def size : Instr L → BitVec 16
  | .Nop => 1 + 0
  | .Null => 1 + 0
  | .I32One => 1 + 0
  | .I32Zero => 1 + 0
  | .I8Const _ => 1 + 1
  | .I16Const _ => 1 + 2
  | .I32Const _ => 1 + 4
  | .I64Const _ => 1 + 8
  | .U8Const _ => 1 + 1
  | .U16Const _ => 1 + 2
  | .U32Const _ => 1 + 4
  | .U64Const _ => 1 + 8
  | .F32Const _ => 1 + 4
  | .F64Const _ => 1 + 8
  | .NameConst _ => 1 + 8
  | .EnumConst _ _ => 1 + 16
  | .StringConst _ => 1 + 4
  | .TweakDbIdConst _ => 1 + 8
  | .ResourceConst _ => 1 + 8
  | .TrueConst => 1 + 0
  | .FalseConst => 1 + 0
  | .Breakpoint _ => 1 + 19
  | .Assign => 1 + 0
  | .Target _ => 0
  | .Local _ => 1 + 8
  | .Param _ => 1 + 8
  | .ObjectField _ => 1 + 8
  | .ExternalVar => 1 + 0
  | .Switch _ _ => 1 + 10
  | .SwitchLabel _ _ => 1 + 4
  | .SwitchDefault => 1 + 0
  | .Jump _ => 1 + 2
  | .JumpIfFalse _ => 1 + 2
  | .Skip _ => 1 + 2
  | .Conditional _ _ => 1 + 4
  | .Construct _ _ => 1 + 9
  | .InvokeStatic _ _ _ _ => 1 + 14
  | .InvokeVirtual _ _ _ _ => 1 + 14
  | .ParamEnd => 1 + 0
  | .Return => 1 + 0
  | .StructField _ => 1 + 8
  | .Context _ => 1 + 2
  | .Equals _ => 1 + 8
  | .RefStringEqualsString _ => 1 + 8
  | .StringEqualsRefString _ => 1 + 8
  | .NotEquals _ => 1 + 8
  | .RefStringNotEqualsString _ => 1 + 8
  | .StringNotEqualsRefString _ => 1 + 8
  | .New _ => 1 + 8
  | .Delete => 1 + 0
  | .This => 1 + 0
  | .StartProfiling p => 1 + (5 + BitVec.ofNat 16 (strBytes p.function).length)
  | .ArrayClear _ => 1 + 8
  | .ArraySize _ => 1 + 8
  | .ArrayResize _ => 1 + 8
  | .ArrayFindFirst _ => 1 + 8
  | .ArrayFindFirstFast _ => 1 + 8
  | .ArrayFindLast _ => 1 + 8
  | .ArrayFindLastFast _ => 1 + 8
  | .ArrayContains _ => 1 + 8
  | .ArrayContainsFast _ => 1 + 8
  | .ArrayCount _ => 1 + 8
  | .ArrayCountFast _ => 1 + 8
  | .ArrayPush _ => 1 + 8
  | .ArrayPop _ => 1 + 8
  | .ArrayInsert _ => 1 + 8
  | .ArrayRemove _ => 1 + 8
  | .ArrayRemoveFast _ => 1 + 8
  | .ArrayGrow _ => 1 + 8
  | .ArrayErase _ => 1 + 8
  | .ArrayEraseFast _ => 1 + 8
  | .ArrayLast _ => 1 + 8
  | .ArrayElement _ => 1 + 8
  | .ArraySort _ => 1 + 8
  | .ArraySortByPredicate _ => 1 + 8
  | .StaticArraySize _ => 1 + 8
  | .StaticArrayFindFirst _ => 1 + 8
  | .StaticArrayFindFirstFast _ => 1 + 8
  | .StaticArrayFindLast _ => 1 + 8
  | .StaticArrayFindLastFast _ => 1 + 8
  | .StaticArrayContains _ => 1 + 8
  | .StaticArrayContainsFast _ => 1 + 8
  | .StaticArrayCount _ => 1 + 8
  | .StaticArrayCountFast _ => 1 + 8
  | .StaticArrayLast _ => 1 + 8
  | .StaticArrayElement _ => 1 + 8
  | .RefToBool => 1 + 0
  | .WeakRefToBool => 1 + 0
  | .EnumToI32 _ _ => 1 + 9
  | .I32ToEnum _ _ => 1 + 9
  | .DynamicCast _ _ => 1 + 9
  | .ToString _ => 1 + 8
  | .ToVariant _ => 1 + 8
  | .FromVariant _ => 1 + 8
  | .VariantIsDefined => 1 + 0
  | .VariantIsRef => 1 + 0
  | .VariantIsArray => 1 + 0
  | .VariantTypeName => 1 + 0
  | .VariantToString => 1 + 0
  | .WeakRefToRef => 1 + 0
  | .RefToWeakRef => 1 + 0
  | .WeakRefNull => 1 + 0
  | .AsRef _ => 1 + 8
  | .Deref _ => 1 + 8

/-- The jump operands of an instruction, in order. -/
def locs : Instr L → List L
  | .Target a => [a]
  | .Switch _ b => [b]
  | .SwitchLabel a b => [a, b]
  | .Jump a => [a]
  | .JumpIfFalse a => [a]
  | .Skip a => [a]
  | .Conditional a b => [a, b]
  | .InvokeStatic a _ _ _ => [a]
  | .InvokeVirtual a _ _ _ => [a]
  | .Context a => [a]
  | _ => []

/-- Replace every jump operand. -/
def mapLoc (f : L → M) : Instr L → Instr M
  | .Nop => .Nop
  | .Null => .Null
  | .I32One => .I32One
  | .I32Zero => .I32Zero
  | .I8Const a => .I8Const a
  | .I16Const a => .I16Const a
  | .I32Const a => .I32Const a
  | .I64Const a => .I64Const a
  | .U8Const a => .U8Const a
  | .U16Const a => .U16Const a
  | .U32Const a => .U32Const a
  | .U64Const a => .U64Const a
  | .F32Const a => .F32Const a
  | .F64Const a => .F64Const a
  | .NameConst a => .NameConst a
  | .EnumConst a b => .EnumConst a b
  | .StringConst a => .StringConst a
  | .TweakDbIdConst a => .TweakDbIdConst a
  | .ResourceConst a => .ResourceConst a
  | .TrueConst => .TrueConst
  | .FalseConst => .FalseConst
  | .Breakpoint a => .Breakpoint a
  | .Assign => .Assign
  | .Target a => .Target (f a)
  | .Local a => .Local a
  | .Param a => .Param a
  | .ObjectField a => .ObjectField a
  | .ExternalVar => .ExternalVar
  | .Switch a b => .Switch a (f b)
  | .SwitchLabel a b => .SwitchLabel (f a) (f b)
  | .SwitchDefault => .SwitchDefault
  | .Jump a => .Jump (f a)
  | .JumpIfFalse a => .JumpIfFalse (f a)
  | .Skip a => .Skip (f a)
  | .Conditional a b => .Conditional (f a) (f b)
  | .Construct a b => .Construct a b
  | .InvokeStatic a b c d => .InvokeStatic (f a) b c d
  | .InvokeVirtual a b c d => .InvokeVirtual (f a) b c d
  | .ParamEnd => .ParamEnd
  | .Return => .Return
  | .StructField a => .StructField a
  | .Context a => .Context (f a)
  | .Equals a => .Equals a
  | .RefStringEqualsString a => .RefStringEqualsString a
  | .StringEqualsRefString a => .StringEqualsRefString a
  | .NotEquals a => .NotEquals a
  | .RefStringNotEqualsString a => .RefStringNotEqualsString a
  | .StringNotEqualsRefString a => .StringNotEqualsRefString a
  | .New a => .New a
  | .Delete => .Delete
  | .This => .This
  | .StartProfiling a => .StartProfiling a
  | .ArrayClear a => .ArrayClear a
  | .ArraySize a => .ArraySize a
  | .ArrayResize a => .ArrayResize a
  | .ArrayFindFirst a => .ArrayFindFirst a
  | .ArrayFindFirstFast a => .ArrayFindFirstFast a
  | .ArrayFindLast a => .ArrayFindLast a
  | .ArrayFindLastFast a => .ArrayFindLastFast a
  | .ArrayContains a => .ArrayContains a
  | .ArrayContainsFast a => .ArrayContainsFast a
  | .ArrayCount a => .ArrayCount a
  | .ArrayCountFast a => .ArrayCountFast a
  | .ArrayPush a => .ArrayPush a
  | .ArrayPop a => .ArrayPop a
  | .ArrayInsert a => .ArrayInsert a
  | .ArrayRemove a => .ArrayRemove a
  | .ArrayRemoveFast a => .ArrayRemoveFast a
  | .ArrayGrow a => .ArrayGrow a
  | .ArrayErase a => .ArrayErase a
  | .ArrayEraseFast a => .ArrayEraseFast a
  | .ArrayLast a => .ArrayLast a
  | .ArrayElement a => .ArrayElement a
  | .ArraySort a => .ArraySort a
  | .ArraySortByPredicate a => .ArraySortByPredicate a
  | .StaticArraySize a => .StaticArraySize a
  | .StaticArrayFindFirst a => .StaticArrayFindFirst a
  | .StaticArrayFindFirstFast a => .StaticArrayFindFirstFast a
  | .StaticArrayFindLast a => .StaticArrayFindLast a
  | .StaticArrayFindLastFast a => .StaticArrayFindLastFast a
  | .StaticArrayContains a => .StaticArrayContains a
  | .StaticArrayContainsFast a => .StaticArrayContainsFast a
  | .StaticArrayCount a => .StaticArrayCount a
  | .StaticArrayCountFast a => .StaticArrayCountFast a
  | .StaticArrayLast a => .StaticArrayLast a
  | .StaticArrayElement a => .StaticArrayElement a
  | .RefToBool => .RefToBool
  | .WeakRefToBool => .WeakRefToBool
  | .EnumToI32 a b => .EnumToI32 a b
  | .I32ToEnum a b => .I32ToEnum a b
  | .DynamicCast a b => .DynamicCast a b
  | .ToString a => .ToString a
  | .ToVariant a => .ToVariant a
  | .FromVariant a => .FromVariant a
  | .VariantIsDefined => .VariantIsDefined
  | .VariantIsRef => .VariantIsRef
  | .VariantIsArray => .VariantIsArray
  | .VariantTypeName => .VariantTypeName
  | .VariantToString => .VariantToString
  | .WeakRefToRef => .WeakRefToRef
  | .RefToWeakRef => .RefToWeakRef
  | .WeakRefNull => .WeakRefNull
  | .AsRef a => .AsRef a
  | .Deref a => .Deref a

end Instr

/-- `Location::relative` (core/src/bytecode.rs:976-979): `self as i16 - base as i16`, wrapping. -/
def Location.relative (self base : Location) : Offset := self - base

/-- `Offset::absolute` (core/src/bytecode.rs:998-1001): the sum is taken in `i32`, where it cannot
overflow, and truncated to 16 bits. -/
def Offset.absolute (self : Offset) (position : Location) : Location :=
  BitVec.ofInt 16 (position.toNat + self.toInt)

/-- `Instr::resolve_labels` (core/src/bytecode.rs:231-348). A label is its index into `targets`;
`none` is the out-of-bounds panic of `targets[label.index]`. -/
def Instr.resolveLabels (location : Location) (targets : List Location) :
    Instr Nat → Option (Instr Offset)
  | .Nop => some (.Nop)
  | .Null => some (.Null)
  | .I32One => some (.I32One)
  | .I32Zero => some (.I32Zero)
  | .I8Const a => some (.I8Const a)
  | .I16Const a => some (.I16Const a)
  | .I32Const a => some (.I32Const a)
  | .I64Const a => some (.I64Const a)
  | .U8Const a => some (.U8Const a)
  | .U16Const a => some (.U16Const a)
  | .U32Const a => some (.U32Const a)
  | .U64Const a => some (.U64Const a)
  | .F32Const a => some (.F32Const a)
  | .F64Const a => some (.F64Const a)
  | .NameConst a => some (.NameConst a)
  | .EnumConst a b => some (.EnumConst a b)
  | .StringConst a => some (.StringConst a)
  | .TweakDbIdConst a => some (.TweakDbIdConst a)
  | .ResourceConst a => some (.ResourceConst a)
  | .TrueConst => some (.TrueConst)
  | .FalseConst => some (.FalseConst)
  | .Breakpoint a => some (.Breakpoint a)
  | .Assign => some (.Assign)
  | .Target a => do
    let a ← targets[a]?
    return .Target (Location.relative a location)
  | .Local a => some (.Local a)
  | .Param a => some (.Param a)
  | .ObjectField a => some (.ObjectField a)
  | .ExternalVar => some (.ExternalVar)
  | .Switch a b => do
    let b ← targets[b]?
    return .Switch a (Location.relative b location)
  | .SwitchLabel a b => do
    let a ← targets[a]?
    let b ← targets[b]?
    return .SwitchLabel (Location.relative a location) (Location.relative b location)
  | .SwitchDefault => some (.SwitchDefault)
  | .Jump a => do
    let a ← targets[a]?
    return .Jump (Location.relative a location)
  | .JumpIfFalse a => do
    let a ← targets[a]?
    return .JumpIfFalse (Location.relative a location)
  | .Skip a => do
    let a ← targets[a]?
    return .Skip (Location.relative a location)
  | .Conditional a b => do
    let a ← targets[a]?
    let b ← targets[b]?
    return .Conditional (Location.relative a location) (Location.relative b location)
  | .Construct a b => some (.Construct a b)
  | .InvokeStatic a b c d => do
    let a ← targets[a]?
    return .InvokeStatic (Location.relative a location) b c d
  | .InvokeVirtual a b c d => do
    let a ← targets[a]?
    return .InvokeVirtual (Location.relative a location) b c d
  | .ParamEnd => some (.ParamEnd)
  | .Return => some (.Return)
  | .StructField a => some (.StructField a)
  | .Context a => do
    let a ← targets[a]?
    return .Context (Location.relative a location)
  | .Equals a => some (.Equals a)
  | .RefStringEqualsString a => some (.RefStringEqualsString a)
  | .StringEqualsRefString a => some (.StringEqualsRefString a)
  | .NotEquals a => some (.NotEquals a)
  | .RefStringNotEqualsString a => some (.RefStringNotEqualsString a)
  | .StringNotEqualsRefString a => some (.StringNotEqualsRefString a)
  | .New a => some (.New a)
  | .Delete => some (.Delete)
  | .This => some (.This)
  | .StartProfiling a => some (.StartProfiling a)
  | .ArrayClear a => some (.ArrayClear a)
  | .ArraySize a => some (.ArraySize a)
  | .ArrayResize a => some (.ArrayResize a)
  | .ArrayFindFirst a => some (.ArrayFindFirst a)
  | .ArrayFindFirstFast a => some (.ArrayFindFirstFast a)
  | .ArrayFindLast a => some (.ArrayFindLast a)
  | .ArrayFindLastFast a => some (.ArrayFindLastFast a)
  | .ArrayContains a => some (.ArrayContains a)
  | .ArrayContainsFast a => some (.ArrayContainsFast a)
  | .ArrayCount a => some (.ArrayCount a)
  | .ArrayCountFast a => some (.ArrayCountFast a)
  | .ArrayPush a => some (.ArrayPush a)
  | .ArrayPop a => some (.ArrayPop a)
  | .ArrayInsert a => some (.ArrayInsert a)
  | .ArrayRemove a => some (.ArrayRemove a)
  | .ArrayRemoveFast a => some (.ArrayRemoveFast a)
  | .ArrayGrow a => some (.ArrayGrow a)
  | .ArrayErase a => some (.ArrayErase a)
  | .ArrayEraseFast a => some (.ArrayEraseFast a)
  | .ArrayLast a => some (.ArrayLast a)
  | .ArrayElement a => some (.ArrayElement a)
  | .ArraySort a => some (.ArraySort a)
  | .ArraySortByPredicate a => some (.ArraySortByPredicate a)
  | .StaticArraySize a => some (.StaticArraySize a)
  | .StaticArrayFindFirst a => some (.StaticArrayFindFirst a)
  | .StaticArrayFindFirstFast a => some (.StaticArrayFindFirstFast a)
  | .StaticArrayFindLast a => some (.StaticArrayFindLast a)
  | .StaticArrayFindLastFast a => some (.StaticArrayFindLastFast a)
  | .StaticArrayContains a => some (.StaticArrayContains a)
  | .StaticArrayContainsFast a => some (.StaticArrayContainsFast a)
  | .StaticArrayCount a => some (.StaticArrayCount a)
  | .StaticArrayCountFast a => some (.StaticArrayCountFast a)
  | .StaticArrayLast a => some (.StaticArrayLast a)
  | .StaticArrayElement a => some (.StaticArrayElement a)
  | .RefToBool => some (.RefToBool)
  | .WeakRefToBool => some (.WeakRefToBool)
  | .EnumToI32 a b => some (.EnumToI32 a b)
  | .I32ToEnum a b => some (.I32ToEnum a b)
  | .DynamicCast a b => some (.DynamicCast a b)
  | .ToString a => some (.ToString a)
  | .ToVariant a => some (.ToVariant a)
  | .FromVariant a => some (.FromVariant a)
  | .VariantIsDefined => some (.VariantIsDefined)
  | .VariantIsRef => some (.VariantIsRef)
  | .VariantIsArray => some (.VariantIsArray)
  | .VariantTypeName => some (.VariantTypeName)
  | .VariantToString => some (.VariantToString)
  | .WeakRefToRef => some (.WeakRefToRef)
  | .RefToWeakRef => some (.RefToWeakRef)
  | .WeakRefNull => some (.WeakRefNull)
  | .AsRef a => some (.AsRef a)
  | .Deref a => some (.Deref a)

/-- core/src/bytecode.rs:913-931. -/
def decBreakpoint : Dec Breakpoint :=
  decU16.bind fun line => decU32.bind fun lineStart => decU16.bind fun col =>
  decU16.bind fun length => decBool.bind fun enabled => decU64.bind fun padding =>
  .pure { line, lineStart, col, length, enabled, padding }

/-- core/src/bytecode.rs:933-943. -/
def encBreakpoint (b : Breakpoint) : Bytes :=
  encU16 b.line ++ (encU32 b.lineStart ++ (encU16 b.col ++ (encU16 b.length ++
    (encBool b.enabled ++ encU64 b.padding))))

/-- core/src/bytecode.rs:948-954. -/
def decStartProfiling : Dec StartProfiling :=
  decStr32.bind fun function => decU8.bind fun enabled => .pure { function, enabled }

/-- core/src/bytecode.rs:956-961. -/
def encStartProfiling (p : StartProfiling) : Enc := encStr32 p.function +++ .ok (encU8 p.enabled)

/-- `Decode for PoolIndex` (core/src/bundle.rs:659-668). -/
def decIdx : Dec Idx := decU32
/-- `Encode for PoolIndex` (core/src/bundle.rs:670-675). -/
def encIdx (i : Idx) : Bytes := encU32 i

/-- `Offset::new(input.decode::<i16>()? + k)`, wrapping (e.g. core/src/bytecode.rs:383). -/
def decOffset (k : BitVec 16) : Dec Offset := decU16.bind fun v => .pure (v + k)
/-- `output.encode(&Offset::new(offset.value - k))`, wrapping (e.g. core/src/bytecode.rs:599). -/
def encOffset (k : BitVec 16) (o : Offset) : Bytes := encU16 (o - k)

/-- The operand part of `Decode for Instr<Offset>` (core/src/bytecode.rs:354-485), given the opcode
byte. -/
def decOperands (code : Byte) : Dec (Instr Offset) :=
  match code.toNat with
  | 0 => .pure .Nop
  | 1 => .pure .Null
  | 2 => .pure .I32One
  | 3 => .pure .I32Zero
  | 4 => decU8.bind fun a => .pure (.I8Const a)
  | 5 => decU16.bind fun a => .pure (.I16Const a)
  | 6 => decU32.bind fun a => .pure (.I32Const a)
  | 7 => decU64.bind fun a => .pure (.I64Const a)
  | 8 => decU8.bind fun a => .pure (.U8Const a)
  | 9 => decU16.bind fun a => .pure (.U16Const a)
  | 10 => decU32.bind fun a => .pure (.U32Const a)
  | 11 => decU64.bind fun a => .pure (.U64Const a)
  | 12 => decU32.bind fun a => .pure (.F32Const a)
  | 13 => decU64.bind fun a => .pure (.F64Const a)
  | 14 => decIdx.bind fun a => .pure (.NameConst a)
  | 15 => decIdx.bind fun a => decIdx.bind fun b => .pure (.EnumConst a b)
  | 16 => decIdx.bind fun a => .pure (.StringConst a)
  | 17 => decIdx.bind fun a => .pure (.TweakDbIdConst a)
  | 18 => decIdx.bind fun a => .pure (.ResourceConst a)
  | 19 => .pure .TrueConst
  | 20 => .pure .FalseConst
  | 21 => decBreakpoint.bind fun a => .pure (.Breakpoint a)
  | 22 => .pure .Assign
  | 23 => .pure (.Target 0)
  | 24 => decIdx.bind fun a => .pure (.Local a)
  | 25 => decIdx.bind fun a => .pure (.Param a)
  | 26 => decIdx.bind fun a => .pure (.ObjectField a)
  | 27 => .pure .ExternalVar
  | 28 => decIdx.bind fun a => (decOffset 11).bind fun b => .pure (.Switch a b)
  | 29 => (decOffset 3).bind fun a => (decOffset 5).bind fun b => .pure (.SwitchLabel a b)
  | 30 => .pure .SwitchDefault
  | 31 => (decOffset 3).bind fun a => .pure (.Jump a)
  | 32 => (decOffset 3).bind fun a => .pure (.JumpIfFalse a)
  | 33 => (decOffset 3).bind fun a => .pure (.Skip a)
  | 34 => (decOffset 3).bind fun a => (decOffset 5).bind fun b => .pure (.Conditional a b)
  | 35 => decU8.bind fun a => decIdx.bind fun b => .pure (.Construct a b)
  | 36 => (decOffset 3).bind fun a => decU16.bind fun b => decIdx.bind fun c => decU16.bind fun d => .pure (.InvokeStatic a b c d)
  | 37 => (decOffset 3).bind fun a => decU16.bind fun b => decIdx.bind fun c => decU16.bind fun d => .pure (.InvokeVirtual a b c d)
  | 38 => .pure .ParamEnd
  | 39 => .pure .Return
  | 40 => decIdx.bind fun a => .pure (.StructField a)
  | 41 => (decOffset 3).bind fun a => .pure (.Context a)
  | 42 => decIdx.bind fun a => .pure (.Equals a)
  | 43 => decIdx.bind fun a => .pure (.RefStringEqualsString a)
  | 44 => decIdx.bind fun a => .pure (.StringEqualsRefString a)
  | 45 => decIdx.bind fun a => .pure (.NotEquals a)
  | 46 => decIdx.bind fun a => .pure (.RefStringNotEqualsString a)
  | 47 => decIdx.bind fun a => .pure (.StringNotEqualsRefString a)
  | 48 => decIdx.bind fun a => .pure (.New a)
  | 49 => .pure .Delete
  | 50 => .pure .This
  | 51 => decStartProfiling.bind fun a => .pure (.StartProfiling a)
  | 52 => decIdx.bind fun a => .pure (.ArrayClear a)
  | 53 => decIdx.bind fun a => .pure (.ArraySize a)
  | 54 => decIdx.bind fun a => .pure (.ArrayResize a)
  | 55 => decIdx.bind fun a => .pure (.ArrayFindFirst a)
  | 56 => decIdx.bind fun a => .pure (.ArrayFindFirstFast a)
  | 57 => decIdx.bind fun a => .pure (.ArrayFindLast a)
  | 58 => decIdx.bind fun a => .pure (.ArrayFindLastFast a)
  | 59 => decIdx.bind fun a => .pure (.ArrayContains a)
  | 60 => decIdx.bind fun a => .pure (.ArrayContainsFast a)
  | 61 => decIdx.bind fun a => .pure (.ArrayCount a)
  | 62 => decIdx.bind fun a => .pure (.ArrayCountFast a)
  | 63 => decIdx.bind fun a => .pure (.ArrayPush a)
  | 64 => decIdx.bind fun a => .pure (.ArrayPop a)
  | 65 => decIdx.bind fun a => .pure (.ArrayInsert a)
  | 66 => decIdx.bind fun a => .pure (.ArrayRemove a)
  | 67 => decIdx.bind fun a => .pure (.ArrayRemoveFast a)
  | 68 => decIdx.bind fun a => .pure (.ArrayGrow a)
  | 69 => decIdx.bind fun a => .pure (.ArrayErase a)
  | 70 => decIdx.bind fun a => .pure (.ArrayEraseFast a)
  | 71 => decIdx.bind fun a => .pure (.ArrayLast a)
  | 72 => decIdx.bind fun a => .pure (.ArrayElement a)
  | 73 => decIdx.bind fun a => .pure (.ArraySort a)
  | 74 => decIdx.bind fun a => .pure (.ArraySortByPredicate a)
  | 75 => decIdx.bind fun a => .pure (.StaticArraySize a)
  | 76 => decIdx.bind fun a => .pure (.StaticArrayFindFirst a)
  | 77 => decIdx.bind fun a => .pure (.StaticArrayFindFirstFast a)
  | 78 => decIdx.bind fun a => .pure (.StaticArrayFindLast a)
  | 79 => decIdx.bind fun a => .pure (.StaticArrayFindLastFast a)
  | 80 => decIdx.bind fun a => .pure (.StaticArrayContains a)
  | 81 => decIdx.bind fun a => .pure (.StaticArrayContainsFast a)
  | 82 => decIdx.bind fun a => .pure (.StaticArrayCount a)
  | 83 => decIdx.bind fun a => .pure (.StaticArrayCountFast a)
  | 84 => decIdx.bind fun a => .pure (.StaticArrayLast a)
  | 85 => decIdx.bind fun a => .pure (.StaticArrayElement a)
  | 86 => .pure .RefToBool
  | 87 => .pure .WeakRefToBool
  | 88 => decIdx.bind fun a => decU8.bind fun b => .pure (.EnumToI32 a b)
  | 89 => decIdx.bind fun a => decU8.bind fun b => .pure (.I32ToEnum a b)
  | 90 => decIdx.bind fun a => decU8.bind fun b => .pure (.DynamicCast a b)
  | 91 => decIdx.bind fun a => .pure (.ToString a)
  | 92 => decIdx.bind fun a => .pure (.ToVariant a)
  | 93 => decIdx.bind fun a => .pure (.FromVariant a)
  | 94 => .pure .VariantIsDefined
  | 95 => .pure .VariantIsRef
  | 96 => .pure .VariantIsArray
  | 97 => .pure .VariantTypeName
  | 98 => .pure .VariantToString
  | 99 => .pure .WeakRefToRef
  | 100 => .pure .RefToWeakRef
  | 101 => .pure .WeakRefNull
  | 102 => decIdx.bind fun a => .pure (.AsRef a)
  | 103 => decIdx.bind fun a => .pure (.Deref a)
  | _ => .fail .invalid

/-- `Decode for Instr<Offset>` (core/src/bytecode.rs:351-487). -/
def decInstr : Dec (Instr Offset) := decU8.bind decOperands

/-- `Encode for Instr<Offset>` (core/src/bytecode.rs:489-901). -/
def encInstr : Instr Offset → Enc
  | .Nop => .ok (encU8 0)
  | .Null => .ok (encU8 1)
  | .I32One => .ok (encU8 2)
  | .I32Zero => .ok (encU8 3)
  | .I8Const a => .ok (encU8 4 ++ encU8 a)
  | .I16Const a => .ok (encU8 5 ++ encU16 a)
  | .I32Const a => .ok (encU8 6 ++ encU32 a)
  | .I64Const a => .ok (encU8 7 ++ encU64 a)
  | .U8Const a => .ok (encU8 8 ++ encU8 a)
  | .U16Const a => .ok (encU8 9 ++ encU16 a)
  | .U32Const a => .ok (encU8 10 ++ encU32 a)
  | .U64Const a => .ok (encU8 11 ++ encU64 a)
  | .F32Const a => .ok (encU8 12 ++ encU32 a)
  | .F64Const a => .ok (encU8 13 ++ encU64 a)
  | .NameConst a => .ok (encU8 14 ++ encIdx a)
  | .EnumConst a b => .ok (encU8 15 ++ (encIdx a ++ encIdx b))
  | .StringConst a => .ok (encU8 16 ++ encIdx a)
  | .TweakDbIdConst a => .ok (encU8 17 ++ encIdx a)
  | .ResourceConst a => .ok (encU8 18 ++ encIdx a)
  | .TrueConst => .ok (encU8 19)
  | .FalseConst => .ok (encU8 20)
  | .Breakpoint a => .ok (encU8 21 ++ encBreakpoint a)
  | .Assign => .ok (encU8 22)
  | .Target _ => .ok (encU8 23)
  | .Local a => .ok (encU8 24 ++ encIdx a)
  | .Param a => .ok (encU8 25 ++ encIdx a)
  | .ObjectField a => .ok (encU8 26 ++ encIdx a)
  | .ExternalVar => .ok (encU8 27)
  | .Switch a b => .ok (encU8 28 ++ (encIdx a ++ encOffset 11 b))
  | .SwitchLabel a b => .ok (encU8 29 ++ (encOffset 3 a ++ encOffset 5 b))
  | .SwitchDefault => .ok (encU8 30)
  | .Jump a => .ok (encU8 31 ++ encOffset 3 a)
  | .JumpIfFalse a => .ok (encU8 32 ++ encOffset 3 a)
  | .Skip a => .ok (encU8 33 ++ encOffset 3 a)
  | .Conditional a b => .ok (encU8 34 ++ (encOffset 3 a ++ encOffset 5 b))
  | .Construct a b => .ok (encU8 35 ++ (encU8 a ++ encIdx b))
  | .InvokeStatic a b c d => .ok (encU8 36 ++ (encOffset 3 a ++ (encU16 b ++ (encIdx c ++ encU16 d))))
  | .InvokeVirtual a b c d => .ok (encU8 37 ++ (encOffset 3 a ++ (encU16 b ++ (encIdx c ++ encU16 d))))
  | .ParamEnd => .ok (encU8 38)
  | .Return => .ok (encU8 39)
  | .StructField a => .ok (encU8 40 ++ encIdx a)
  | .Context a => .ok (encU8 41 ++ encOffset 3 a)
  | .Equals a => .ok (encU8 42 ++ encIdx a)
  | .RefStringEqualsString a => .ok (encU8 43 ++ encIdx a)
  | .StringEqualsRefString a => .ok (encU8 44 ++ encIdx a)
  | .NotEquals a => .ok (encU8 45 ++ encIdx a)
  | .RefStringNotEqualsString a => .ok (encU8 46 ++ encIdx a)
  | .StringNotEqualsRefString a => .ok (encU8 47 ++ encIdx a)
  | .New a => .ok (encU8 48 ++ encIdx a)
  | .Delete => .ok (encU8 49)
  | .This => .ok (encU8 50)
  | .StartProfiling a => .ok (encU8 51) +++ encStartProfiling a
  | .ArrayClear a => .ok (encU8 52 ++ encIdx a)
  | .ArraySize a => .ok (encU8 53 ++ encIdx a)
  | .ArrayResize a => .ok (encU8 54 ++ encIdx a)
  | .ArrayFindFirst a => .ok (encU8 55 ++ encIdx a)
  | .ArrayFindFirstFast a => .ok (encU8 56 ++ encIdx a)
  | .ArrayFindLast a => .ok (encU8 57 ++ encIdx a)
  | .ArrayFindLastFast a => .ok (encU8 58 ++ encIdx a)
  | .ArrayContains a => .ok (encU8 59 ++ encIdx a)
  | .ArrayContainsFast a => .ok (encU8 60 ++ encIdx a)
  | .ArrayCount a => .ok (encU8 61 ++ encIdx a)
  | .ArrayCountFast a => .ok (encU8 62 ++ encIdx a)
  | .ArrayPush a => .ok (encU8 63 ++ encIdx a)
  | .ArrayPop a => .ok (encU8 64 ++ encIdx a)
  | .ArrayInsert a => .ok (encU8 65 ++ encIdx a)
  | .ArrayRemove a => .ok (encU8 66 ++ encIdx a)
  | .ArrayRemoveFast a => .ok (encU8 67 ++ encIdx a)
  | .ArrayGrow a => .ok (encU8 68 ++ encIdx a)
  | .ArrayErase a => .ok (encU8 69 ++ encIdx a)
  | .ArrayEraseFast a => .ok (encU8 70 ++ encIdx a)
  | .ArrayLast a => .ok (encU8 71 ++ encIdx a)
  | .ArrayElement a => .ok (encU8 72 ++ encIdx a)
  | .ArraySort a => .ok (encU8 73 ++ encIdx a)
  | .ArraySortByPredicate a => .ok (encU8 74 ++ encIdx a)
  | .StaticArraySize a => .ok (encU8 75 ++ encIdx a)
  | .StaticArrayFindFirst a => .ok (encU8 76 ++ encIdx a)
  | .StaticArrayFindFirstFast a => .ok (encU8 77 ++ encIdx a)
  | .StaticArrayFindLast a => .ok (encU8 78 ++ encIdx a)
  | .StaticArrayFindLastFast a => .ok (encU8 79 ++ encIdx a)
  | .StaticArrayContains a => .ok (encU8 80 ++ encIdx a)
  | .StaticArrayContainsFast a => .ok (encU8 81 ++ encIdx a)
  | .StaticArrayCount a => .ok (encU8 82 ++ encIdx a)
  | .StaticArrayCountFast a => .ok (encU8 83 ++ encIdx a)
  | .StaticArrayLast a => .ok (encU8 84 ++ encIdx a)
  | .StaticArrayElement a => .ok (encU8 85 ++ encIdx a)
  | .RefToBool => .ok (encU8 86)
  | .WeakRefToBool => .ok (encU8 87)
  | .EnumToI32 a b => .ok (encU8 88 ++ (encIdx a ++ encU8 b))
  | .I32ToEnum a b => .ok (encU8 89 ++ (encIdx a ++ encU8 b))
  | .DynamicCast a b => .ok (encU8 90 ++ (encIdx a ++ encU8 b))
  | .ToString a => .ok (encU8 91 ++ encIdx a)
  | .ToVariant a => .ok (encU8 92 ++ encIdx a)
  | .FromVariant a => .ok (encU8 93 ++ encIdx a)
  | .VariantIsDefined => .ok (encU8 94)
  | .VariantIsRef => .ok (encU8 95)
  | .VariantIsArray => .ok (encU8 96)
  | .VariantTypeName => .ok (encU8 97)
  | .VariantToString => .ok (encU8 98)
  | .WeakRefToRef => .ok (encU8 99)
  | .RefToWeakRef => .ok (encU8 100)
  | .WeakRefNull => .ok (encU8 101)
  | .AsRef a => .ok (encU8 102 ++ encIdx a)
  | .Deref a => .ok (encU8 103 ++ encIdx a)

/-- The loop of `Decode for Code<Offset>` (core/src/bytecode.rs:1072-1079). `offset` is the `u32`
accumulator (its addition wraps). A `Target` has size 0, so the loop is bounded by the input: the
fuel is the number of remaining input bytes, and every decoded instruction consumes at least one, so
running out of fuel coincides with the end of the input. -/
def decCodeLoop (maxOffset : BitVec 32) : Nat → BitVec 32 → Dec (List (Instr Offset))
  | fuel, offset => fun bs =>
    if offset < maxOffset then
      match fuel with
      | 0 => .error .eof
      | fuel + 1 =>
        (decInstr.bind fun i =>
          (decCodeLoop maxOffset fuel (offset + i.size.zeroExtend 32)).bind fun is =>
            .pure (i :: is)) bs
    else .ok ([], bs)

/-- `Decode for Code<Offset>` (core/src/bytecode.rs:1069-1081). -/
def decCode : Dec (List (Instr Offset)) :=
  decU32.bind fun maxOffset => fun bs => decCodeLoop maxOffset bs.length 0 bs

/-- `iter().map(|i| u32::from(i.size())).sum()` (core/src/bytecode.rs:1085), wrapping. -/
def codeSize32 (code : List (Instr L)) : BitVec 32 :=
  code.foldl (fun s i => s + i.size.zeroExtend 32) 0

/-- `Encode for Code<Offset>` (core/src/bytecode.rs:1083-1092). -/
def encCode (code : List (Instr Offset)) : Enc :=
  .ok (encU32 (codeSize32 code)) +++ encList encInstr code

end Redscript
