/-!
# Names (model)

Model of `TypeName` (core/src/ast.rs:391-528), `BinOp`'s names (core/src/ast.rs:143-190), `ModulePath`
(compiler/src/symbol.rs:160-211) and `FunctionSignature` (compiler/src/symbol.rs:213-289). Text is a
list of characters.
-/

namespace Redscript

/-- Text of an identifier, name or rendered path. -/
abbrev Text := List Char

/-- `str::split(c)` for one character: the pieces between occurrences of `c`, always at least one. -/
def splitOnChar (c : Char) : Text → List Text
  | [] => [[]]
  | x :: xs =>
    if x = c then [] :: splitOnChar c xs
    else match splitOnChar c xs with
      | [] => [[x]]
      | p :: ps => (x :: p) :: ps

/-- `Itertools::join` with a one-character separator. -/
def joinChar (c : Char) : List Text → Text
  | [] => []
  | [p] => p
  | p :: ps => p ++ c :: joinChar c ps

/-! ## Type names -/

/-- `TypeName` (core/src/ast.rs:391-395). `arguments: None` is the empty list: the constructors never
build `Some` of an empty slice (core/src/ast.rs:418-440, 508-521). -/
inductive TypeName where
  | mk (name : Text) (args : List TypeName)

namespace TypeName

/-- `TypeName::name` (core/src/ast.rs:441-444). -/
def name : TypeName → Text
  | .mk n _ => n

/-- `TypeName::arguments` (core/src/ast.rs:446-449). -/
def args : TypeName → List TypeName
  | .mk _ as => as

/-- `TypeName::basic` (core/src/ast.rs:425-431). -/
def basic (n : String) : TypeName := .mk n.toList []

/-- Whether `kind` is `Ref` or `WRef` (core/src/ast.rs:451-459). -/
def isRefName (n : Text) : Bool := n = "ref".toList || n = "wref".toList

mutual
/-- `TypeName::mangled` (core/src/ast.rs:468-478). `unwrapped` (461-466) is fused: a `ref` or `wref`
with one argument is replaced by its argument. -/
def mangled : TypeName → Text
  | .mk n as =>
    if isRefName n && as.length == 1 then mangledArgs as
    else if as.isEmpty then n
    else n ++ '<' :: (mangledArgs as ++ ['>'])
/-- The `,`-separated rendering of the arguments (core/src/ast.rs:473). -/
def mangledArgs : List TypeName → Text
  | [] => []
  | a :: as => match as with
    | [] => mangled a
    | _ :: _ => mangled a ++ ',' :: mangledArgs as
end

mutual
/-- `TypeName::repr` (core/src/ast.rs:490-501). -/
def repr : TypeName → Text
  | .mk n as => n ++ reprArgs as
/-- Each argument's `repr` preceded by the separator. -/
def reprArgs : List TypeName → Text
  | [] => []
  | a :: as => ':' :: (repr a ++ reprArgs as)
end

/-- `TypeName::from_parts` (core/src/ast.rs:508-521); never `None`. -/
def fromParts (name : Text) : List Text → TypeName
  | [] => .mk name []
  | p :: ps => .mk name [fromParts p ps]

/-- `TypeName::from_repr` (core/src/ast.rs:503-506); `split` yields at least one part. -/
def fromRepr (s : Text) : TypeName :=
  match splitOnChar ':' s with
  | [] => .mk [] []
  | p :: ps => fromParts p ps

end TypeName

/-! ## Module paths -/

/-- `ModulePath` (compiler/src/symbol.rs:160-163), as its parts. -/
abbrev ModulePath := List Text

/-- The text before the first `;` (`str.split(';').next()`). -/
def beforeSemicolon : Text → Text
  | [] => []
  | x :: xs => if x = ';' then [] else x :: beforeSemicolon xs

/-- `ModulePath::parse` (compiler/src/symbol.rs:171-177). -/
def ModulePath.parse (s : Text) : ModulePath := (splitOnChar '.' s).map beforeSemicolon

/-- `ModulePath::render` (compiler/src/symbol.rs:198-201). -/
def ModulePath.render (p : ModulePath) : Text := joinChar '.' p

/-- `ModulePath::with_child` (compiler/src/symbol.rs:183-187); `with_function` (189-192) passes the
signature text. -/
def ModulePath.withChild (p : ModulePath) (child : Text) : ModulePath := p ++ [child]

/-! ## Function signatures -/

/-- The names of the binary operators (core/src/ast.rs:143-190), accepted by `BinOp::from_str`. -/
def binOpNames : List String :=
  ["OperatorAssignAdd", "OperatorAssignSubtract", "OperatorAssignMultiply", "OperatorAssignDivide",
   "OperatorAssignOr", "OperatorAssignAnd", "OperatorLogicOr", "OperatorLogicAnd", "OperatorOr",
   "OperatorXor", "OperatorAnd", "OperatorEqual", "OperatorNotEqual", "OperatorLess",
   "OperatorLessEqual", "OperatorGreater", "OperatorGreaterEqual", "OperatorAdd", "OperatorSubtract",
   "OperatorMultiply", "OperatorDivide", "OperatorModulo"]

/-- The part of `FunctionSource` that signatures look at (compiler/src/parser.rs `FunctionSource`,
`Declaration`, `ParameterSource`): name, parameters with their `out` qualifier, result type and the
three qualifiers. -/
structure FunSource where
  name : Text
  params : List (TypeName × Bool)
  ret : Option TypeName
  isCallback : Bool
  isExec : Bool
  isNative : Bool

namespace FunSource

/-- `is_operator` (compiler/src/symbol.rs:224). -/
def isOperator (f : FunSource) : Bool := (binOpNames.map String.toList).contains f.name
/-- `is_cast` (compiler/src/symbol.rs:225). -/
def isCast (f : FunSource) : Bool := f.name == "Cast".toList

/-- `FunctionSignatureBuilder::parameter` (compiler/src/symbol.rs:270-277). -/
def sigParam (sig : Text) (t : TypeName) (isOut : Bool) : Text :=
  (if isOut then sig ++ "Out".toList else sig) ++ t.mangled

/-- `FunctionSignature::from_source` (compiler/src/symbol.rs:221-245). -/
def signature (f : FunSource) : Text :=
  if !f.isOperator && !f.isCast && (f.isCallback || f.isExec || f.isNative) then f.name
  else
    let sig := f.params.foldl (fun acc p => sigParam acc p.1 (p.2 && f.isOperator)) (f.name ++ [';'])
    if f.isOperator || f.isCast then
      sig ++ ';' :: (f.ret.getD (.basic "Void")).mangled
    else sig

end FunSource

/-- `FunctionSignature::name` (compiler/src/symbol.rs:247-251). -/
def signatureName (sig : Text) : Text := beforeSemicolon sig

end Redscript
