import Verif.Ast.Model

/-!
# Conditional compilation (model)

Model of `compiler/src/cte.rs` and of `eval_conditions` (compiler/src/unit.rs:1302-1313). Spans and the
texts of the errors are dropped.
-/

namespace Redscript

/-- `Context::eval` (compiler/src/cte.rs:23-50); `none` is `CteError`. `mods` is the set of modules being
compiled (compiler/src/unit.rs:164). `Value` has the single case `Bool`. -/
def cteEval (mods : List ModulePath) : Expr SourceAst → Option Bool
  | .Constant (.Bool b) => some b
  | .Call f _ args =>
    match args with
    | [.Constant (.String .String s)] =>
      if f = "ModuleExists".toList then some (mods.contains (ModulePath.parse s)) else none
    | _ => none
  | .Conditional c t e =>
    match cteEval mods c with
    | none => none
    | some true => cteEval mods t
    | some false => cteEval mods e
  | .BinOp l r op =>
    match cteEval mods l, cteEval mods r with
    | some x, some y =>
      match op with
      | .LogicAnd => some (x && y)
      | .LogicOr => some (x || y)
      | _ => none
    | _, _ => none
  | .UnOp e op =>
    match cteEval mods e with
    | some x =>
      match op with
      | .LogicNot => some (!x)
      | _ => none
    | none => none
  | _ => none

/-- `AnnotationKind` (compiler/src/parser.rs:144-152). -/
inductive AnnotationKind where
  | ReplaceMethod | WrapMethod | ReplaceGlobal | AddMethod | AddField | If | RuntimeProperty
  deriving DecidableEq, Repr

/-- `Annotation` (compiler/src/parser.rs `Annotation`). -/
structure Annotation where
  kind : AnnotationKind
  args : List (Expr SourceAst)

/-- The fold of `eval_conditions`: `try_fold` stops at the first error. -/
def foldConditions (mods : List ModulePath) : Bool → List (Expr SourceAst) → Option Bool
  | acc, [] => some acc
  | acc, e :: es =>
    match cteEval mods e with
    | none => none
    | some b => foldConditions mods (acc && b) es

/-- `eval_conditions` (compiler/src/unit.rs:1302-1313). -/
def evalConditions (mods : List ModulePath) (anns : List Annotation) : Option Bool :=
  foldConditions mods true ((anns.filter (·.kind == .If)).filterMap (·.args.head?))

/-- The loops over declarations and imports (compiler/src/unit.rs:170-177, 194-202): what is kept, in
order; an error aborts the compilation. -/
def keepEnabled {α : Type} (mods : List ModulePath) (anns : α → List Annotation) :
    List α → Option (List α)
  | [] => some []
  | x :: xs =>
    match evalConditions mods (anns x) with
    | none => none
    | some b => (keepEnabled mods anns xs).map fun r => if b then x :: r else r

end Redscript
