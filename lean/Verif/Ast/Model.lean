import Verif.Names.Model

/-!
# Syntax trees (model)

Model of `core/src/ast.rs:14-305`. Spans are dropped.
-/

namespace Redscript

/-- `Literal` (core/src/ast.rs:299-305). -/
inductive Literal where
  | String | Name | Resource | TweakDbId
  deriving DecidableEq, Repr

/-- `Constant` (core/src/ast.rs:129-139). Floats are their bits, integers their two's complement. -/
inductive Constant where
  | String (l : Literal) (s : Text)
  | F32 (bits : BitVec 32)
  | F64 (bits : BitVec 64)
  | I32 (v : BitVec 32)
  | I64 (v : BitVec 64)
  | U32 (v : BitVec 32)
  | U64 (v : BitVec 64)
  | Bool (b : Bool)
  deriving DecidableEq, Repr

/-- `BinOp` (core/src/ast.rs:143-190). -/
inductive BinOp where
  | AssignAdd | AssignSubtract | AssignMultiply | AssignDivide | AssignOr | AssignAnd
  | LogicOr | LogicAnd | Or | Xor | And | Equal | NotEqual | Less | LessEqual | Greater | GreaterEqual
  | Add | Subtract | Multiply | Divide | Modulo
  deriving DecidableEq, Repr

/-- `UnOp` (core/src/ast.rs:243-251). -/
inductive UnOp where
  | BitNot | LogicNot | Neg
  deriving DecidableEq, Repr

/-- `NameKind` (core/src/ast.rs:53-60). -/
structure NameKind where
  Reference : Type
  Callable : Type
  Local : Type
  Function : Type
  Member : Type
  Ty : Type

/-- `SourceAst` (core/src/ast.rs:62-72). -/
abbrev SourceAst : NameKind :=
  { Reference := Text, Callable := Text, Local := Text, Function := Text, Member := Text, Ty := TypeName }

/-- `Expr`, `Seq` and `SwitchCase` (core/src/ast.rs:14-51, 253-279). A `Seq` is the list of its
expressions, a `SwitchCase` the pair of matcher and body, a `Target` its resolved location. -/
inductive Expr (N : NameKind) where
  | Ident (r : N.Reference)
  | Constant (c : Constant)
  | ArrayLit (es : List (Expr N)) (ty : Option N.Ty)
  | InterpolatedString (start : Text) (parts : List (Expr N × Text))
  | Declare (l : N.Local) (ty : Option N.Ty) (init : Option (Expr N))
  | Cast (ty : N.Ty) (e : Expr N)
  | Assign (lhs rhs : Expr N)
  | Call (f : N.Callable) (tys : List N.Ty) (args : List (Expr N))
  | MethodCall (ctx : Expr N) (f : N.Function) (args : List (Expr N))
  | Member (ctx : Expr N) (m : N.Member)
  | ArrayElem (e idx : Expr N)
  | New (ty : N.Ty) (args : List (Expr N))
  | Return (e : Option (Expr N))
  | Seq (es : List (Expr N))
  | Switch (e : Expr N) (cases : List (Expr N × List (Expr N))) (dflt : Option (List (Expr N)))
  | Goto (target : BitVec 16)
  | If (cond : Expr N) (then_ : List (Expr N)) (else_ : Option (List (Expr N)))
  | Conditional (cond true_ false_ : Expr N)
  | While (cond : Expr N) (body : List (Expr N))
  | ForIn (l : N.Local) (array : Expr N) (body : List (Expr N))
  | BinOp (lhs rhs : Expr N) (op : BinOp)
  | UnOp (e : Expr N) (op : UnOp)
  | This
  | Super
  | Break
  | Null

mutual
/-- `Expr::is_empty` (core/src/ast.rs:86-91). -/
def Expr.isEmpty : Expr N → Bool
  | .Seq es => Expr.allEmpty es
  | _ => false
/-- `exprs.iter().all(Expr::is_empty)`. -/
def Expr.allEmpty : List (Expr N) → Bool
  | [] => true
  | e :: es => e.isEmpty && Expr.allEmpty es
end

end Redscript
