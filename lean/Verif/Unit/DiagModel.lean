import Verif.Ast.Model

/-!
# Diagnostics and persistent fields (model)

Model of `Diagnostic` (compiler/src/diagnostics.rs:18-129), of the reporting in
`CompilationUnit::finish` and `compile_and_report` (compiler/src/unit.rs:109-139, 319-320) and of
`can_be_persistent` (compiler/src/unit.rs:649-656).
-/

namespace Redscript

/-- The cases of `Diagnostic` (compiler/src/diagnostics.rs:18-53). -/
inductive DiagKind where
  | ReplaceMethodConflict | FieldConflict | Deprecation | UnusedLocal | MissingReturn
  | StatementFallthrough | InvalidUseOfTemporary | AddMethodConflict | SyntaxError | CompileError
  | CteError
  deriving DecidableEq, Repr

/-- `Diagnostic`: its case, the code of the cause of a compile error, and its span. The messages are
dropped. -/
structure Diagnostic where
  kind : DiagKind
  cause : Text
  span : Nat × Nat
  deriving DecidableEq, Repr

/-- `Diagnostic::is_fatal` (compiler/src/diagnostics.rs:99-110). -/
def Diagnostic.isFatal (d : Diagnostic) : Bool :=
  match d.kind with
  | .ReplaceMethodConflict | .FieldConflict | .Deprecation | .UnusedLocal | .MissingReturn
  | .AddMethodConflict => false
  | _ => true

/-- `Diagnostic::code` (compiler/src/diagnostics.rs:129-134). -/
def Diagnostic.code (d : Diagnostic) : Text :=
  match d.kind with
  | .CompileError => d.cause
  | _ => "OTHER".toList

/-- `diagnostics.sort_by_key(Diagnostic::is_fatal)` (compiler/src/unit.rs:320): a stable sort with
`false` before `true`. -/
def sortDiagnostics (ds : List Diagnostic) : List Diagnostic :=
  ds.mergeSort fun a b => !a.isFatal || b.isFatal

/-- `Error` (compiler/src/error.rs), as far as reporting distinguishes: errors that
`Diagnostic::from_error` (compiler/src/diagnostics.rs:90-97) turns into a diagnostic, the list of
errors of a failed compilation, and others (I/O, pool and format errors). -/
inductive UnitError where
  | diagnostic (d : Diagnostic)
  | multiple (errors : List (Text × (Nat × Nat)))
  | other (n : Nat)
  deriving DecidableEq, Repr

/-- `compile_and_report` (compiler/src/unit.rs:109-139), given the result of `compile_files`; logging is
not modelled. -/
def compileAndReport (r : Except UnitError (List Diagnostic)) : Except UnitError (List Diagnostic) :=
  match r with
  | .ok ds =>
    if ds.any Diagnostic.isFatal then
      .error (.multiple ((ds.filter Diagnostic.isFatal).map fun d => (d.code, d.span)))
    else .ok ds
  | .error (.diagnostic d) => .error (.multiple [(d.code, d.span)])
  | .error e => .error e

/-- Whether a type is one of `DISALLOWED_TYPES` (compiler/src/unit.rs:650; core/src/ast.rs:407-414). -/
def TypeName.isDisallowedPersistent (t : TypeName) : Bool :=
  t.args.isEmpty && (t.name = "String".toList || t.name = "Variant".toList || t.name = "ResRef".toList)

mutual
/-- `can_be_persistent` (compiler/src/unit.rs:649-656). -/
def TypeName.canBePersistent : TypeName → Bool
  | .mk n as =>
    if (TypeName.mk n as).isDisallowedPersistent then false else canBePersistentAll as
/-- `arguments().iter().all(can_be_persistent)`. -/
def TypeName.canBePersistentAll : List TypeName → Bool
  | [] => true
  | t :: ts => t.canBePersistent && canBePersistentAll ts
end

/-- The check of `define_field` (compiler/src/unit.rs:645-660): whether `UnsupportedPersistent` is
reported. -/
def reportsPersistent (isPersistent : Bool) (t : TypeName) : Bool := isPersistent && !t.canBePersistent

end Redscript
