import Verif.Ast.Model

/-!
# Merging declarations with first assignments (model)

Model of `merge_declarations` (decompiler/src/lib.rs:452-482).
-/

namespace Redscript

/-- `BTreeMap::remove` on the ordered list of entries: the value of the key and the remaining
entries. -/
def removeLocal (n : Text) : List (Text × TypeName) → Option (TypeName × List (Text × TypeName))
  | [] => none
  | (m, ty) :: ls =>
    if m = n then some (ty, ls) else (removeLocal n ls).map fun r => (r.1, (m, ty) :: r.2)

/-- The first loop (decompiler/src/lib.rs:457-471): `init`, the locals left and the statements left,
beginning with the one that ended the loop. -/
def mergeLoop (locals : List (Text × TypeName)) :
    List (Expr SourceAst) → List (Expr SourceAst) × List (Text × TypeName) × List (Expr SourceAst)
  | .Assign (.Ident n) v :: es =>
    match removeLocal n locals with
    | some (ty, locals') =>
      let r := mergeLoop locals' es
      (.Declare n (some ty) (some v) :: r.1, r.2)
    | none =>
      let r := mergeLoop locals es
      (.Assign (.Ident n) v :: r.1, r.2)
  | .Assign l v :: es =>
    let r := mergeLoop locals es
    (.Assign l v :: r.1, r.2)
  | es => ([], locals, es)

/-- `merge_declarations` (decompiler/src/lib.rs:452-482). `locals` are the entries of the ordered map. -/
def mergeDeclarations (locals : List (Text × TypeName)) (seq : List (Expr SourceAst)) : List (Expr SourceAst) :=
  let r := mergeLoop locals seq
  (r.2.1.map fun (n, ty) => .Declare n (some ty) none) ++ (r.1 ++ r.2.2)

end Redscript
