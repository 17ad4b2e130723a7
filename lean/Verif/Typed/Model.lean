import Verif.Ast.Model
import Verif.Types.Model

/-!
# Typed syntax trees (model)

Model of the typed syntax tree of compiler/src/typechecker.rs:965-1009.
-/

namespace Redscript

/-- `IntrinsicOp` (core/src/bytecode.rs:1095-1127). -/
inductive IntrinsicOp where
  | Equals | NotEquals | ArrayClear | ArraySize | ArrayResize | ArrayFindFirst | ArrayFindLast
  | ArrayContains | ArrayCount | ArrayPush | ArrayPop | ArrayInsert | ArrayRemove | ArrayGrow
  | ArrayErase | ArrayLast | ArraySort | ArraySortByPredicate | ToString | EnumInt | IntEnum
  | ToVariant | FromVariant | VariantIsRef | VariantIsArray | VariantTypeName | AsRef | Deref
  | RefToWeakRef | WeakRefToRef | IsDefined
  deriving DecidableEq, Repr

/-- `IntrinsicOp::arg_count` (core/src/bytecode.rs:1130-1165). -/
def IntrinsicOp.argCount : IntrinsicOp → Nat
  | .ArrayInsert => 3
  | .Equals | .NotEquals | .ArrayResize | .ArrayFindFirst | .ArrayFindLast | .ArrayContains
  | .ArrayCount | .ArrayPush | .ArrayRemove | .ArrayGrow | .ArrayErase | .ArraySortByPredicate => 2
  | .ArrayPop | .ArrayClear | .ArraySize | .ArrayLast | .ArraySort | .ToString | .EnumInt | .IntEnum
  | .ToVariant | .FromVariant | .VariantIsRef | .VariantIsArray | .VariantTypeName | .AsRef | .Deref
  | .RefToWeakRef | .WeakRefToRef | .IsDefined => 1

/-- `Callable` (compiler/src/typechecker.rs:998-1002). -/
inductive Callable where
  | Function (f : Idx)
  | Intrinsic (op : IntrinsicOp) (ty : TypeId)
  deriving DecidableEq, Repr

/-- `Member` (compiler/src/typechecker.rs:1004-1009). -/
inductive MemberRef where
  | ClassField (f : Idx)
  | StructField (f : Idx)
  | EnumMember (enum_ member : Idx)
  deriving DecidableEq, Repr

/-- `TypedAst` (compiler/src/typechecker.rs:965-975). -/
abbrev TypedAst : NameKind :=
  { Reference := Reference, Callable := Callable, Local := Idx, Function := Idx,
    Member := MemberRef, Ty := TypeId }

/-- `TypedExpr` (compiler/src/typechecker.rs:977). -/
abbrev TypedExpr := Expr TypedAst

/-- `is_prvalue` (compiler/src/typechecker.rs:983-996). -/
def Expr.isPrvalue : TypedExpr → Bool
  | .Constant _ | .Ident _ | .This | .Super => false
  | .Call (.Intrinsic .Deref _) _ _ => false
  | .Member _ (.ClassField _) => false
  | .Member inner (.StructField _) => inner.isPrvalue
  | .ArrayElem inner _ => inner.isPrvalue
  | _ => true

end Redscript
