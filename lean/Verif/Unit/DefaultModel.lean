import Verif.Unit.DeclModel
import Verif.Typecheck.Model

/-!
# Default values of fields (model)

Model of `compile_default` (compiler/src/unit.rs:1018-1056) and of the loop that calls it (265-268).
-/

namespace Redscript

/-- `Display` of floats in the Rust library, which is not modelled. -/
structure FloatDisplay where
  f32 : BitVec 32 → Text
  f64 : BitVec 64 → Text

/-- `stringify_default` (compiler/src/unit.rs:1019-1042). `none` is `InvalidConstant`. -/
def stringifyDefault (P : FloatDisplay) : Expr SourceAst → Option Text
  | .Constant c =>
    match c with
    | .String _ val => some val
    | .F32 val => some (P.f32 val)
    | .F64 val => some (P.f64 val)
    | .I32 val => some (showInt val.toInt)
    | .I64 val => some (showInt val.toInt)
    | .U32 val => some (digitsOf 10 val.toNat)
    | .U64 val => some (digitsOf 10 val.toNat)
    | .Bool val => some (if val then "true".toList else "false".toList)
  | .Member receiver name =>
    match receiver with
    | .Ident receiverName => some (receiverName ++ '.' :: name)
    | _ => none
  | .Null => some "null".toList
  | _ => none

/-- `pool.field_mut(i)?` with an update. -/
def AnyDefinition.onField (g : FieldDef → FieldDef) : AnyDefinition → Option AnyDefinition
  | .Field f => some (.Field (g f))
  | _ => none

/-- `TypeChecker::new(pool, false)` and `check_and_convert` (compiler/src/unit.rs:1053-1054): `E.permissive` is false
there. -/
def TcEnv.checkDefault (E : TcEnv) (d : DeclDefault) (t : TypeId) : Except TcErr (TypedExpr × TcState) :=
  E.checkAs (.convert t) (E.check d.value) ⟨d.scope.references, [], []⟩

/-- `compile_default` (compiler/src/unit.rs:1044-1055). What the checker asks of the scope and the pool is `E`; the
defaults of fields play no part in that, so it does not matter that one has just been set. An error ends the
compilation, so the pool is left out of it. -/
def compileDefault (P : FloatDisplay) (E : TcEnv) (d : DeclDefault) (p : ConstantPool) :
    Except TcErr (List TcDiag × ConstantPool) :=
  match E.field d.index with
  | .error e => .error (E.kind e)
  | .ok t =>
    match p.defName d.cls with
    | none => .error .other
    | some name =>
      match stringifyDefault P d.value with
      | none => .error .compile
      | some value =>
        match p.modifyValue (AnyDefinition.onField fun f =>
          { f with defaults := [⟨String.ofList name, String.ofList value⟩] }) d.index with
        | none => .error .other
        | some p =>
          match E.checkDefault d t with
          | .error e => .error e
          | .ok (_, st) => .ok (st.diags, p)

/-- The loop over `field_defaults` (compiler/src/unit.rs:265-268). `E` gives what the checker asks for a default. -/
def compileDefaults (P : FloatDisplay) (E : DeclDefault → TcEnv) :
    List DeclDefault → ConstantPool → Except TcErr (List TcDiag × ConstantPool)
  | [], p => .ok ([], p)
  | d :: ds, p =>
    match compileDefault P (E d) d p with
    | .error e => .error e
    | .ok (diags, p) =>
      match compileDefaults P E ds p with
      | .error e => .error e
      | .ok (more, p) => .ok (diags ++ more, p)

end Redscript
