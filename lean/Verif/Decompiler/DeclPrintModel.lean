import Verif.Decompiler.PrintModel
import Verif.Decompiler.Model
import Verif.Unit.DeclModel

/-!
# Printing definitions (model)

Model of `write_definition` and what it uses (decompiler/src/print.rs:28-231, 455-481), in the mode that prints
source code (`OutputMode::Code`), and of `Decompiler::decompiled` on a pool (decompiler/src/lib.rs:24-36). The
modes that print syntax trees and bytecode are not modelled.

The text is written as the definition is visited, so it can end in the middle when something fails. Recursion
is bounded by the number of steps given; running out of it stands for the stack overflow of a definition that
contains itself.
-/

namespace Redscript

/-- How writing a definition fails. -/
inductive WriteErr where
  /-- An `Error` is returned. -/
  | error
  | panic
  deriving DecidableEq, Repr

/-- What is written, and how it ends. -/
structure Written where
  text : Text
  failed : Option WriteErr
  deriving DecidableEq, Repr

namespace Written

/-- Text without anything that can fail. -/
def put (t : Text) : Written := ⟨t, none⟩

/-- A failure before anything is written. -/
def fail (e : WriteErr) : Written := ⟨[], some e⟩

/-- The one behind the other, unless the first fails. -/
def andThen (a : Written) (b : Unit → Written) : Written :=
  match a.failed with
  | none => ⟨a.text ++ (b ()).text, (b ()).failed⟩
  | some e => ⟨a.text, some e⟩

/-- Continue with a value, `?` on an error. -/
def withValue (v : Except WriteErr α) (f : α → Written) : Written :=
  match v with
  | .ok a => f a
  | .error e => fail e

/-- An error is logged and what is behind it is written (decompiler/src/print.rs:70-72). -/
def logged (a : Written) : Written :=
  match a.failed with
  | some .error => ⟨a.text, none⟩
  | _ => a

/-- One behind the other. -/
def all : List Written → Written
  | [] => put []
  | a :: as => a.andThen fun _ => all as

end Written

/-! ## Reading the pool -/

/-- `pool.definition` with `?`. -/
def ConstantPool.getDef (p : ConstantPool) (i : Idx) : Except WriteErr Definition :=
  match p.definition i with
  | some d => .ok d
  | none => .error .error

/-- `pool.names.get` with `?`. -/
def ConstantPool.getName (p : ConstantPool) (i : Idx) : Except WriteErr Text :=
  match p.names.get Strings.cnameDefault i with
  | some s => .ok s.toList
  | none => .error .error

/-- `unwrap`: an error is a panic. -/
def unwrapped : Except WriteErr α → Except WriteErr α
  | .ok a => .ok a
  | .error _ => .error .panic

/-- `Display` of `Visibility` (core/src/definition.rs:751-760). -/
def Visibility.text : Visibility → Text
  | .pub => "public".toList
  | .prot => "protected".toList
  | .priv => "private".toList

/-- core/src/definition.rs:601. -/
def FieldFlags.isEditableBit : Nat := 1
/-- core/src/definition.rs:602. -/
def FieldFlags.isInlineBit : Nat := 2
/-- core/src/definition.rs:603. -/
def FieldFlags.isConstBit : Nat := 3
/-- core/src/definition.rs:604. -/
def FieldFlags.isReplicatedBit : Nat := 4
/-- core/src/definition.rs:629. -/
def LocalFlags.isConstBit : Nat := 0

/-- A word printed when a flag is set. -/
def flagText (n : Nat) (w : BitVec k) (t : String) : Text := if flag n w then t.toList else []

/-- `format_type` (decompiler/src/print.rs:465-481). The definition not being a type is a panic (`expect`). -/
def formatTypeOf (p : ConstantPool) : Nat → Definition → Except WriteErr Text
  | 0, _ => .error .panic
  | n + 1, d =>
    let inner := fun i =>
      match p.getDef i with
      | .ok d => formatTypeOf p n d
      | .error e => .error e
    match d.value with
    | .Type .Prim => p.getName d.name
    | .Type .Class => p.getName d.name
    | .Type (.Ref t) => (inner t).map fun t => "ref<".toList ++ t ++ ">".toList
    | .Type (.WeakRef t) => (inner t).map fun t => "wref<".toList ++ t ++ ">".toList
    | .Type (.Array t) => (inner t).map fun t => "array<".toList ++ t ++ ">".toList
    | .Type (.StaticArray t size) => (inner t).map fun t => "array<".toList ++ t ++ "; ".toList ++ digitsOf 10 size.toNat ++ ">".toList
    | .Type (.ScriptRef t) => (inner t).map fun t => "script_ref<".toList ++ t ++ ">".toList
    | _ => .error .panic

/-- `format_type(pool.definition(i)?, pool)` -/
def formatType (p : ConstantPool) (n : Nat) (i : Idx) : Except WriteErr Text :=
  match p.getDef i with
  | .ok d => formatTypeOf p n d
  | .error e => .error e

/-- `format_param` (decompiler/src/print.rs:455-463). -/
def formatParam (p : ConstantPool) (n : Nat) (d : Definition) : Except WriteErr Text :=
  match d.value with
  | .Parameter q =>
    match formatType p n q.type_ with
    | .error e => .error e
    | .ok ty =>
      match p.getName d.name with
      | .error e => .error e
      | .ok name => .ok (flagText ParameterFlags.isConstBit q.flags "const " ++ flagText ParameterFlags.isOutBit q.flags "out " ++
          flagText ParameterFlags.isOptionalBit q.flags "opt " ++ name ++ ": ".toList ++ ty)
  | _ => .error .panic

/-- `.map(..).format(", ")` over the parameters (decompiler/src/print.rs:100-104); every failure is a panic. -/
def formatParams (p : ConstantPool) (n : Nat) : List Idx → Except WriteErr Text
  | [] => .ok []
  | i :: is =>
    match unwrapped (p.getDef i), is with
    | .error e, _ => .error e
    | .ok d, [] => unwrapped (formatParam p n d)
    | .ok d, _ :: _ =>
      match unwrapped (formatParam p n d) with
      | .error e => .error e
      | .ok t => (formatParams p n is).map fun ts => t ++ ", ".toList ++ ts

/-! ## Bodies -/

/-- The entry of a `BTreeMap` that is ordered by name (decompiler/src/lib.rs:25-31). -/
def insertLocal (name : Text) (ty : TypeName) : List (Text × TypeName) → List (Text × TypeName)
  | [] => [(name, ty)]
  | e :: es => if name = e.1 then (name, ty) :: es else if name < e.1 then (name, ty) :: e :: es else e :: insertLocal name ty es

/-- The locals of a function (decompiler/src/lib.rs:25-31). -/
def localTypes (p : ConstantPool) : List Idx → List (Text × TypeName) → Option (List (Text × TypeName))
  | [], acc => some acc
  | i :: is, acc =>
    match p.definition i with
    | some d =>
      match d.value with
      | .Local l => (p.defName i).bind fun name => (p.defName l.type_).bind fun ty =>
        localTypes p is (insertLocal name (TypeName.fromRepr ty) acc)
      | _ => none
    | none => none

/-- What the decompiler asks about a called function (decompiler/src/lib.rs:284-312). When one of the names is
missing nothing is found, though the code only looks at the parent or the return type when it prints them. -/
def ConstantPool.decFn (p : ConstantPool) (self : Definition) (i : Idx) : Option DecFn :=
  (p.definition i).bind fun d =>
  (p.function i).bind fun f =>
  (p.defName i).bind fun name =>
  (if d.parent = 0 then some none else (p.defName d.parent).map some).bind fun parent =>
  (match f.returnType with
   | none => some none
   | some t => (p.defName t).map some).map fun ret =>
  { name, isStatic := flag FunctionFlags.isStaticBit f.flags, parent, returnType := ret
    overridden := self.name == d.name && self.parent != d.parent }

/-- The questions the decompiler asks of the pool when it is in a function. -/
def ConstantPool.decEnv (p : ConstantPool) (self : Definition) : DecEnv where
  defName := p.defName
  text := fun l i =>
    match l with
    | .String => (p.strings.get none i).map String.toList
    | .Name => (p.names.get Strings.cnameDefault i).map String.toList
    | .Resource => (p.resources.get none i).map String.toList
    | .TweakDbId => (p.tweakdbIds.get none i).map String.toList
  function := p.decFn self

/-- What printing depends on besides the pool: whether it is verbose, how floats are shown, and the steps
allowed. -/
structure PrintCfg where
  verbose : Bool
  floats : FloatShow
  search : BinarySearch
  fuel : Nat

/-- `Decompiler::decompiled` (decompiler/src/lib.rs:24-36). -/
def decompiledIn (C : PrintCfg) (p : ConstantPool) (d : Definition) (f : FunctionDef) : Except WriteErr (List (Expr SourceAst)) :=
  match localTypes p f.locals [] with
  | none => .error .error
  | some locals =>
    match decompiled (p.decEnv d) C.search C.fuel locals f.code with
    | .ok body => .ok body
    | .error .panic => .error .panic
    | .error .fuel => .error .panic
    | .error _ => .error .error

/-- `write_function_body` (decompiler/src/print.rs:193-231). What `write_seq` had written before it failed is
dropped; it fails only where it panics or reports an operator without operands. -/
def writeBody (C : PrintCfg) (p : ConstantPool) (d : Definition) (f : FunctionDef) (depth : Nat) : Written :=
  (Written.put " {\n".toList).andThen fun _ =>
  Written.withValue (decompiledIn C p d f) fun code =>
  match writeSeq C.floats C.verbose (depth + 1) code with
  | some t => Written.put (t ++ indent depth ++ "}".toList)
  | none => Written.fail .error

/-! ## Definitions -/

/-- The lines of the properties of a field (decompiler/src/print.rs:156-159). -/
def attributeLines (depth : Nat) (ps : List Property) : Text :=
  ps.flatMap fun q => indent depth ++ "@runtimeProperty(\"".toList ++ q.name.toList ++ "\", \"".toList ++ q.value.toList ++ "\")\n".toList

/-- The lines of the defaults of a field (decompiler/src/print.rs:161-164). -/
def defaultLines (depth : Nat) (ps : List Property) : Text :=
  ps.flatMap fun q => indent depth ++ "@default(".toList ++ q.name.toList ++ ", ".toList ++ q.value.toList ++ ")\n".toList

/-- A class up to its members (decompiler/src/print.rs:39-61). -/
def classHead (p : ConstantPool) (d : Definition) (c : ClassDef) : Written :=
  (Written.put ("\n".toList ++ c.visibility.text ++ " ".toList ++ flagText ClassFlags.isAbstractBit c.flags "abstract " ++
    flagText ClassFlags.isFinalBit c.flags "final " ++
    (if flag ClassFlags.isImportOnlyBit c.flags then "importonly ".toList else flagText ClassFlags.isNativeBit c.flags "native ") ++
    (if flag ClassFlags.isStructBit c.flags then "struct ".toList else "class ".toList))).andThen fun _ =>
  Written.withValue (p.getName d.name) fun name =>
  (Written.put (name ++ " ".toList)).andThen fun _ =>
  (if c.base = 0 then Written.put []
   else Written.withValue (match p.getDef c.base with
      | .ok b => p.getName b.name
      | .error e => .error e) fun b => Written.put ("extends ".toList ++ b ++ " ".toList)).andThen fun _ =>
  Written.put "{\n".toList

/-- A function (decompiler/src/print.rs:91-138). -/
def writeFunction (C : PrintCfg) (p : ConstantPool) (depth : Nat) (d : Definition) (f : FunctionDef) : Written :=
  Written.withValue (match f.returnType with
    | none => .ok "Void".toList
    | some t => unwrapped (formatType p C.fuel t)) fun ret =>
  Written.withValue (p.getName d.name) fun name =>
  Written.withValue (formatParams p C.fuel f.parameters) fun params =>
  (Written.put ("\n".toList ++ indent depth ++ f.visibility.text ++ " ".toList ++ flagText FunctionFlags.isFinalBit f.flags "final " ++
    flagText FunctionFlags.isStaticBit f.flags "static " ++ flagText FunctionFlags.isNativeBit f.flags "native " ++
    flagText FunctionFlags.isExecBit f.flags "exec " ++ flagText FunctionFlags.isConstBit f.flags "const " ++
    flagText FunctionFlags.isQuestBit f.flags "quest " ++ flagText FunctionFlags.isCallbackBit f.flags "cb " ++
    "func ".toList ++ beforeSemicolon name ++ "(".toList ++ params ++ ") -> ".toList ++ ret)).andThen fun _ =>
  (if flag FunctionFlags.hasBodyBit f.flags then writeBody C p d f depth else Written.put ";".toList).andThen fun _ =>
  Written.put "\n".toList

/-- A field (decompiler/src/print.rs:151-187). -/
def writeField (C : PrintCfg) (p : ConstantPool) (depth : Nat) (d : Definition) (f : FieldDef) : Written :=
  Written.withValue (formatType p C.fuel f.type_) fun ty =>
  Written.withValue (p.getName d.name) fun name =>
  Written.put ("\n".toList ++ attributeLines depth f.attributes ++ defaultLines depth f.defaults ++ indent depth ++ f.visibility.text ++
    " ".toList ++ flagText FieldFlags.isInlineBit f.flags "inline " ++ flagText FieldFlags.isReplicatedBit f.flags "replicated " ++
    flagText FieldFlags.isEditableBit f.flags "edit " ++ flagText FieldFlags.isNativeBit f.flags "native " ++
    flagText FieldFlags.isPersistentBit f.flags "persistent " ++ flagText FieldFlags.isConstBit f.flags "const " ++
    "let ".toList ++ name ++ ": ".toList ++ ty ++ ";\n".toList)

/-- `write_definition` (decompiler/src/print.rs:28-191). -/
def writeDefinition (C : PrintCfg) (p : ConstantPool) : Nat → Nat → Definition → Written
  | 0, _, _ => .fail .panic
  | n + 1, depth, d =>
    match d.value with
    | .Type _ => Written.withValue (formatTypeOf p C.fuel d) Written.put
    | .Class c =>
      (classHead p d c).andThen fun _ =>
      (Written.all (c.fields.map fun i => Written.withValue (p.getDef i) fun m => writeDefinition C p n (depth + 1) m)).andThen fun _ =>
      (Written.all (c.functions.map fun i => Written.withValue (p.getDef i) fun m =>
        (writeDefinition C p n (depth + 1) m).logged)).andThen fun _ =>
      Written.put "}\n".toList
    | .EnumValue v =>
      Written.withValue (p.getName d.name) fun name =>
      Written.put (indent depth ++ name ++ " = ".toList ++ showInt v.toInt ++ ",\n".toList)
    | .Enum e =>
      Written.withValue (p.getName d.name) fun name =>
      (Written.put ("\nenum ".toList ++ name ++ " {\n".toList)).andThen fun _ =>
      (Written.all (e.members.map fun i => Written.withValue (p.getDef i) fun m => writeDefinition C p n (depth + 1) m)).andThen fun _ =>
      Written.put "}\n".toList
    | .Function f => writeFunction C p depth d f
    | .Parameter _ => Written.withValue (formatParam p C.fuel d) Written.put
    | .Local l =>
      Written.withValue (formatType p C.fuel l.type_) fun ty =>
      Written.withValue (p.getName d.name) fun name =>
      Written.put (indent depth ++ (if flag LocalFlags.isConstBit l.flags then "const ".toList else "let ".toList) ++ name ++ ": ".toList ++
        ty ++ ";".toList)
    | .Field f => writeField C p depth d f
    | .SourceFile _ => .fail .panic

end Redscript
