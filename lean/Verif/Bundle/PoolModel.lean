import Verif.Bundle.Model

/-!
# Constant pool operations and index mapping (model)

Model of the `ConstantPool` accessors (core/src/bundle.rs:244-355) and of `core/src/mapper.rs`.
Pool indexes are 32-bit words; an out-of-range `put`, `swap` or `rename` is a panic.
-/

namespace Redscript

namespace ConstantPool

/-- `definition` (core/src/bundle.rs:255-259); `none` is `DefinitionNotFound`. -/
def definition (p : ConstantPool) (i : Idx) : Option Definition := p.definitions[i.toNat]?

/-- `add_definition` (core/src/bundle.rs:338-342); the cast is `as u32`. -/
def addDefinition (p : ConstantPool) (d : Definition) : Idx × ConstantPool :=
  (BitVec.ofNat 32 p.definitions.length, { p with definitions := p.definitions ++ [d] })

/-- `reserve` (core/src/bundle.rs:326-328). -/
def reserve (p : ConstantPool) : Idx × ConstantPool := p.addDefinition .default

/-- `stub_definition` (core/src/bundle.rs:344-346), with `Definition::type_`
(core/src/definition.rs:59-68). -/
def stubDefinition (p : ConstantPool) (name : Idx) : Idx × ConstantPool :=
  p.addDefinition { name, parent := 0, unk1 := 0, unk2 := 0, unk3 := 0, value := .Type .Prim }

/-- `put_definition` (core/src/bundle.rs:330-332). -/
def putDefinition (p : ConstantPool) (i : Idx) (d : Definition) : Except Err ConstantPool :=
  if i.toNat < p.definitions.length then
    .ok { p with definitions := p.definitions.set i.toNat d }
  else .error .panic

/-- `swap_definition` (core/src/bundle.rs:334-336). -/
def swapDefinition (p : ConstantPool) (i j : Idx) : Except Err ConstantPool :=
  match p.definitions[i.toNat]?, p.definitions[j.toNat]? with
  | some a, some b =>
    .ok { p with definitions := (p.definitions.set i.toNat b).set j.toNat a }
  | _, _ => .error .panic

/-- `rename` (core/src/bundle.rs:348-350). -/
def rename (p : ConstantPool) (i : Idx) (name : Idx) : Except Err ConstantPool :=
  match p.definitions[i.toNat]? with
  | some d => .ok { p with definitions := p.definitions.set i.toNat { d with name } }
  | none => .error .panic

/-- `class`, `function`, … (core/src/bundle.rs:244-312): the definition must be of the right kind. -/
def definitionBy (p : ConstantPool) (get : AnyDefinition → Option α) (i : Idx) : Option α :=
  (p.definitions[i.toNat]?).bind fun d => get d.value

/-- `class_mut`, `function_mut`, `field_mut` (core/src/bundle.rs:265-300) followed by a replacement of
the value obtained. `none` is `DefinitionNotFound`. -/
def modifyValue (p : ConstantPool) (f : AnyDefinition → Option AnyDefinition) (i : Idx) :
    Option ConstantPool :=
  (p.definitions[i.toNat]?).bind fun d => (f d.value).map fun v =>
    { p with definitions := p.definitions.set i.toNat { d with value := v } }

/-- `AnyDefinition::as_class_mut` (core/src/definition.rs) with an update. -/
def _root_.Redscript.AnyDefinition.onClass (f : ClassDef → ClassDef) : AnyDefinition → Option AnyDefinition
  | .Class c => some (.Class (f c))
  | _ => none

/-- `definitions` (core/src/bundle.rs:318-324): all but the placeholder, with their indexes. -/
def indexed (p : ConstantPool) : List (Idx × Definition) :=
  (p.definitions.zipIdx.drop 1).map fun (d, i) => (BitVec.ofNat 32 i, d)

/-- `roots` (core/src/bundle.rs:352-354). -/
def roots (p : ConstantPool) : List (Idx × Definition) := p.indexed.filter fun (_, d) => d.parent = 0

end ConstantPool

/-! ## Mapping -/

/-- `MultiMapper::apply` (core/src/mapper.rs:24-31). -/
def multiMap (m : AMap Idx Idx) (i : Idx) : Idx := (m.get i).getD i

/-- `PoolMapper::map_instr` (core/src/mapper.rs:78-86). -/
def Instr.mapRefs (fc ff : Idx → Idx) : Instr L → Instr L
  | .Construct n i => .Construct n (fc i)
  | .New i => .New (fc i)
  | .DynamicCast i b => .DynamicCast (fc i) b
  | .InvokeStatic l n i f => .InvokeStatic l n (ff i) f
  | i => i

/-- The body of the loop of `PoolMapper::map` (core/src/mapper.rs:53-75). -/
def Definition.mapRefs (fc ff : Idx → Idx) (d : Definition) : Definition :=
  match d.value with
  | .Class c => { d with value := .Class { c with base := fc c.base } }
  | .Function f =>
    { d with parent := fc d.parent, value := .Function { f with code := f.code.map (·.mapRefs fc ff) } }
  | .Parameter _ | .Local _ => { d with parent := ff d.parent }
  | .Field _ => { d with parent := fc d.parent }
  | .Type _ | .EnumValue _ | .Enum _ | .SourceFile _ => d

/-- `PoolMapper::map` (core/src/mapper.rs:52-76). -/
def ConstantPool.mapRefs (fc ff : Idx → Idx) (p : ConstantPool) : ConstantPool :=
  { p with definitions := p.definitions.map (·.mapRefs fc ff) }

end Redscript
