import Verif.Parser.LexModel

/-!
# Printing of decompiled code (model)

Model of the printer of expressions and statements (decompiler/src/print.rs:22-27, 232-518). The text is returned;
`none` is a panic. Writing is assumed to succeed.
-/

namespace Redscript

/-- The operator of a name: `BinOp::from_str` (derived, core/src/ast.rs:143-190). -/
def BinOp.fromStr (name : Text) : Option BinOp :=
  match String.ofList name with
  | "OperatorAssignAdd" => some .AssignAdd
  | "OperatorAssignSubtract" => some .AssignSubtract
  | "OperatorAssignMultiply" => some .AssignMultiply
  | "OperatorAssignDivide" => some .AssignDivide
  | "OperatorAssignOr" => some .AssignOr
  | "OperatorAssignAnd" => some .AssignAnd
  | "OperatorLogicOr" => some .LogicOr
  | "OperatorLogicAnd" => some .LogicAnd
  | "OperatorOr" => some .Or
  | "OperatorXor" => some .Xor
  | "OperatorAnd" => some .And
  | "OperatorEqual" => some .Equal
  | "OperatorNotEqual" => some .NotEqual
  | "OperatorLess" => some .Less
  | "OperatorLessEqual" => some .LessEqual
  | "OperatorGreater" => some .Greater
  | "OperatorGreaterEqual" => some .GreaterEqual
  | "OperatorAdd" => some .Add
  | "OperatorSubtract" => some .Subtract
  | "OperatorMultiply" => some .Multiply
  | "OperatorDivide" => some .Divide
  | "OperatorModulo" => some .Modulo
  | _ => none

/-- `UnOp::from_str` (derived, core/src/ast.rs:243-251). -/
def UnOp.fromStr (name : Text) : Option UnOp :=
  match String.ofList name with
  | "OperatorBitNot" => some .BitNot
  | "OperatorLogicNot" => some .LogicNot
  | "OperatorNeg" => some .Neg
  | _ => none

/-- `BinOp::precedence` (core/src/ast.rs:192-211). -/
def BinOp.precedence : BinOp → Nat
  | .AssignAdd | .AssignSubtract | .AssignMultiply | .AssignDivide | .AssignOr | .AssignAnd => 10
  | .LogicOr => 9
  | .LogicAnd => 8
  | .Or => 7
  | .Xor => 6
  | .And => 5
  | .Equal | .NotEqual => 4
  | .Less | .LessEqual | .Greater | .GreaterEqual => 3
  | .Add | .Subtract => 2
  | .Multiply | .Divide | .Modulo => 1

/-- `BinOp::associative` (core/src/ast.rs:213-236). -/
def BinOp.associative : BinOp → Bool
  | .LogicOr | .LogicAnd | .Or | .Xor | .And | .Add | .Subtract | .Multiply => true
  | _ => false

/-- `BinOp::does_associate` (core/src/ast.rs:238-240). -/
def BinOp.doesAssociate (op parent : BinOp) : Bool :=
  decide (op.precedence < parent.precedence) || (decide (parent.precedence = op.precedence) && parent.associative)

/-- `format_binop` (decompiler/src/print.rs:480-505). -/
def formatBinop : BinOp → Text
  | .AssignAdd => "+=".toList
  | .AssignSubtract => "-=".toList
  | .AssignMultiply => "*=".toList
  | .AssignDivide => "/=".toList
  | .AssignOr => "|=".toList
  | .AssignAnd => "&=".toList
  | .LogicOr => "||".toList
  | .LogicAnd => "&&".toList
  | .Or => "|".toList
  | .Xor => "^".toList
  | .Equal => "==".toList
  | .NotEqual => "!=".toList
  | .And => "&".toList
  | .Less => "<".toList
  | .LessEqual => "<=".toList
  | .Greater => ">".toList
  | .GreaterEqual => ">=".toList
  | .Add => "+".toList
  | .Subtract => "-".toList
  | .Multiply => "*".toList
  | .Divide => "/".toList
  | .Modulo => "%".toList

/-- `format_unop` (decompiler/src/print.rs:507-513). -/
def formatUnop : UnOp → Text
  | .BitNot => "~".toList
  | .LogicNot => "!".toList
  | .Neg => "-".toList

/-- `ParentOp` (decompiler/src/print.rs:515-519). -/
inductive ParentOp where
  | UnOp
  | BinOp (op : BinOp)
  | Dot
  deriving DecidableEq, Repr

mutual
/-- `TypeName::pretty` (core/src/ast.rs:480-488). -/
def TypeName.pretty : TypeName → Text
  | .mk n as => if as.isEmpty then n else n ++ '<' :: (TypeName.prettyArgs as ++ ['>'])
/-- The types, with `, ` between them (core/src/ast.rs:483, decompiler/src/print.rs:424). -/
def TypeName.prettyArgs : List TypeName → Text
  | [] => []
  | a :: as => match as with
    | [] => a.pretty
    | _ :: _ => a.pretty ++ ", ".toList ++ TypeName.prettyArgs as
end

/-- `write_indent` (decompiler/src/print.rs:22-27). -/
def indent (depth : Nat) : Text := List.replicate (2 * depth) ' '

/-- The parts joined, nothing when one of them is missing. -/
def joinText : List (Option Text) → Option Text
  | [] => some []
  | t :: ts => t.bind fun t => (joinText ts).map fun ts => t ++ ts

/-- A fixed text. -/
def str (s : String) : Option Text := some s.toList

/-- Whether a binary operator is put in parentheses (decompiler/src/print.rs:402-408). -/
def needsParens (op : BinOp) : Option ParentOp → Bool
  | none => false
  | some .UnOp | some .Dot => true
  | some (.BinOp parent) => !op.doesAssociate parent

/-- What kind of call a name makes (decompiler/src/print.rs:399-420). -/
inductive CallKind where
  | binop (op : BinOp)
  | unop (op : UnOp)
  /-- a conversion that is not written -/
  | hidden
  | plain (name : Text)

/-- The kind of a call (decompiler/src/print.rs:399-420). -/
def callKind (verbose : Bool) (f : Text) : CallKind :=
  let name := beforeSemicolon f
  match BinOp.fromStr name with
  | some op => .binop op
  | none =>
    match UnOp.fromStr name with
    | some op => .unop op
    | none =>
      if (name = "WeakRefToRef".toList ∨ name = "RefToWeakRef".toList ∨ name = "AsRef".toList) ∧ !verbose then .hidden
      else .plain name

/-- `write_call` (decompiler/src/print.rs:391-436), with `write_binop` and `write_unop` (438-453). What is written
for the first and the second argument below an operator and for all arguments is passed. -/
def writeCall (verbose : Bool) (parent : Option ParentOp) (f : Text) (tys : List TypeName)
    (first second : Option ParentOp → Option Text) (args : Option Text) : Option Text :=
  match callKind verbose f with
  | .binop op =>
    let t := joinText [first (some (.BinOp op)), str " ", some (formatBinop op), str " ", second (some (.BinOp op))]
    if needsParens op parent then joinText [str "(", t, str ")"] else t
  | .unop op => joinText [some (formatUnop op), first (some .UnOp)]
  | .hidden => first none
  | .plain name =>
    joinText [some name, (if tys.isEmpty then str "" else joinText [str "<", some (TypeName.prettyArgs tys), str ">"]), str "(",
      args, str ")"]

mutual
/-- `write_expr_nested` (decompiler/src/print.rs:245-389). -/
def writeExpr (P : FloatShow) (verbose : Bool) : Option ParentOp → Nat → Expr SourceAst → Option Text
  | _, _, .Ident x => some x
  | _, _, .Constant c => some (printConstant P c)
  | parent, _, .Cast ty e =>
    if parent.isSome then joinText [str "(", writeExpr P verbose none 0 e, str " as ", some ty.pretty, str ")"]
    else joinText [writeExpr P verbose none 0 e, str " as ", some ty.pretty]
  | _, _, .Declare name ty val =>
    joinText [str "let ", some name,
      (match ty with
        | some ty => joinText [str ": ", some ty.pretty]
        | none => str ""),
      (match val with
        | some val => joinText [str " = ", writeExpr P verbose none 0 val]
        | none => str "")]
  | _, _, .Assign l r => joinText [writeExpr P verbose none 0 l, str " = ", writeExpr P verbose none 0 r]
  | parent, _, .Call f tys args => 
    writeCall verbose parent f tys (fun p => writeFirst P verbose p args) (fun p => writeSecond P verbose p args) (writeArgs P verbose 0 args)
  | _, _, .MethodCall obj f args =>
    joinText [writeExpr P verbose (some .Dot) 0 obj, str ".",
      writeCall verbose none f [] (fun p => writeFirst P verbose p args) (fun p => writeSecond P verbose p args) (writeArgs P verbose 0 args)]
  | _, _, .ArrayElem a i => joinText [writeExpr P verbose none 0 a, str "[", writeExpr P verbose none 0 i, str "]"]
  | _, depth, .New ty args => joinText [str "new ", some ty.mangled, str "(", writeArgs P verbose depth args, str ")"]
  | _, depth, .Return (some e) => joinText [str "return ", writeExpr P verbose none depth e]
  | _, _, .Return none => str "return"
  | _, depth, .Seq es => writeSeq P verbose depth es
  | _, depth, .Switch e cases dflt =>
    joinText [str "switch ", writeExpr P verbose none 0 e, str " {\n", writeCases P verbose depth cases,
      (match dflt with
        | some body => joinText [some (indent (depth + 1)), str "default:\n", writeSeq P verbose (depth + 2) body]
        | none => str ""),
      some (indent depth), str "}"]
  | _, _, .Goto t => joinText [str "goto ", some (digitsOf 10 t.toNat)]
  | _, depth, .If c a b =>
    joinText [str "if ", writeExpr P verbose none 0 c, str " {\n", writeSeq P verbose (depth + 1) a, some (indent depth), str "}",
      (match b with
        | some b => joinText [str " else {\n", writeSeq P verbose (depth + 1) b, some (indent depth), str "}"]
        | none => str "")]
  | _, _, .Conditional c t e =>
    joinText [writeExpr P verbose none 0 c, str " ? ", writeExpr P verbose none 0 t, str " : ", writeExpr P verbose none 0 e]
  | _, depth, .While c body =>
    joinText [str "while ", writeExpr P verbose none 0 c, str " {\n", writeSeq P verbose (depth + 1) body, some (indent depth),
      str "}"]
  | _, _, .Member e m => joinText [writeExpr P verbose none 0 e, str ".", some m]
  | _, _, .BinOp l r op =>
    joinText [writeExpr P verbose (some (.BinOp op)) 0 l, str " ", some (formatBinop op), str " ",
      writeExpr P verbose (some (.BinOp op)) 0 r]
  | _, _, .UnOp e op => joinText [some (formatUnop op), writeExpr P verbose (some .UnOp) 0 e]
  | _, _, .Break => str "break"
  | _, _, .Null => str "null"
  | _, _, .This => str "this"
  | _, _, .Super => str "super"
  | _, _, .ArrayLit _ _ | _, _, .InterpolatedString _ _ | _, _, .ForIn _ _ _ => none
/-- `params[0]` -/
def writeFirst (P : FloatShow) (verbose : Bool) (parent : Option ParentOp) : List (Expr SourceAst) → Option Text
  | e :: _ => writeExpr P verbose parent 0 e
  | [] => none
/-- `params[1]` -/
def writeSecond (P : FloatShow) (verbose : Bool) (parent : Option ParentOp) : List (Expr SourceAst) → Option Text
  | _ :: es => writeFirst P verbose parent es
  | [] => none
/-- The arguments, with `, ` between them (decompiler/src/print.rs:314-321, 426-432). -/
def writeArgs (P : FloatShow) (verbose : Bool) (depth : Nat) : List (Expr SourceAst) → Option Text
  | [] => str ""
  | e :: es => match es with
    | [] => writeExpr P verbose none depth e
    | _ :: _ => joinText [writeExpr P verbose none depth e, str ", ", writeArgs P verbose depth es]
/-- `write_seq` (decompiler/src/print.rs:232-239). -/
def writeSeq (P : FloatShow) (verbose : Bool) (depth : Nat) : List (Expr SourceAst) → Option Text
  | [] => str ""
  | e :: es =>
    if e.isEmpty then writeSeq P verbose depth es
    else joinText [some (indent depth), writeExpr P verbose none depth e, str ";\n", writeSeq P verbose depth es]
/-- The cases of a switch (decompiler/src/print.rs:333-339). -/
def writeCases (P : FloatShow) (verbose : Bool) (depth : Nat) : List (Expr SourceAst × List (Expr SourceAst)) → Option Text
  | [] => str ""
  | (m, body) :: cs =>
    joinText [some (indent (depth + 1)), str "case ", writeExpr P verbose none 0 m, str ":\n", writeSeq P verbose (depth + 2) body,
      writeCases P verbose depth cs]
end

end Redscript
