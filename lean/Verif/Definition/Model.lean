import Verif.Bytecode.Model

/-!
# Definitions (model)

Model of `core/src/definition.rs`: the definitions of a script bundle and their binary form. The
crate feature `parse-code` is on by default (core/Cargo.toml:23) and is assumed on.
Pool indexes are untyped here (`Idx`); `PoolIndex<A>` is a `u32` whatever `A` is
(core/src/bundle.rs:630-727).
-/

namespace Redscript

/-! ## Flag words

`modular_bitfield` structures are their raw words: `from_bytes`/`into_bytes` keep all bits, including
skipped ones, a getter reads one bit and `with_x` replaces one bit. -/

/-- A getter of a bit field generated by `modular_bitfield`. -/
def flag (n : Nat) (w : BitVec k) : Bool := w.getLsbD n

/-- `with_x(b)` generated by `modular_bitfield`. -/
def setFlag (n : Nat) (b : Bool) (w : BitVec k) : BitVec k :=
  if b then w ||| (BitVec.twoPow k n) else w &&& ~~~(BitVec.twoPow k n)

/-- `FieldFlags` (core/src/definition.rs:597-624). -/
abbrev FieldFlags := BitVec 16
/-- `LocalFlags` (core/src/definition.rs:626-644). -/
abbrev LocalFlags := BitVec 8
/-- `ParameterFlags` (core/src/definition.rs:646-667). -/
abbrev ParameterFlags := BitVec 8
/-- `ClassFlags` (core/src/definition.rs:669-695). -/
abbrev ClassFlags := BitVec 16
/-- `FunctionFlags` (core/src/definition.rs:697-740). -/
abbrev FunctionFlags := BitVec 32

/-- core/src/definition.rs:605. -/
def FieldFlags.hasHintBit : Nat := 5
/-- core/src/definition.rs:608. -/
def FieldFlags.isPersistentBit : Nat := 8
/-- core/src/definition.rs:676. -/
def ClassFlags.hasFunctionsBit : Nat := 4
/-- core/src/definition.rs:677. -/
def ClassFlags.hasFieldsBit : Nat := 5
/-- core/src/definition.rs:680. -/
def ClassFlags.hasOverridesBit : Nat := 8
/-- core/src/definition.rs:674. -/
def ClassFlags.isFinalBit : Nat := 2
/-- core/src/definition.rs:700. -/
def FunctionFlags.isStaticBit : Nat := 0
/-- core/src/definition.rs:703. -/
def FunctionFlags.isFinalBit : Nat := 3
/-- core/src/definition.rs:704. -/
def FunctionFlags.isNativeBit : Nat := 4
/-- core/src/definition.rs:707. -/
def FunctionFlags.isOperatorBit : Nat := 7
/-- core/src/definition.rs:708. -/
def FunctionFlags.hasReturnValueBit : Nat := 8
/-- core/src/definition.rs:709. -/
def FunctionFlags.hasBaseMethodBit : Nat := 9
/-- core/src/definition.rs:710. -/
def FunctionFlags.hasParametersBit : Nat := 10
/-- core/src/definition.rs:711. -/
def FunctionFlags.hasLocalsBit : Nat := 11
/-- core/src/definition.rs:712. -/
def FunctionFlags.hasBodyBit : Nat := 12
/-- core/src/definition.rs:713. -/
def FunctionFlags.isCastBit : Nat := 13
/-- core/src/definition.rs:722: after three padding bits and five flags. -/
def FunctionFlags.unk4Bit : Nat := 23

/-! ## Data -/

/-- `Visibility` (core/src/definition.rs:742-749). -/
inductive Visibility where
  | pub | prot | priv
  deriving DecidableEq, Repr

/-- `SourceReference` (core/src/definition.rs:774-778). -/
structure SourceReference where
  file : Idx
  line : BitVec 32
  deriving DecidableEq, Repr

/-- `Property` (core/src/definition.rs:806-810). -/
structure Property where
  name : String
  value : String
  deriving DecidableEq, Repr

/-- `Type` (core/src/definition.rs:466-475). -/
inductive PoolType where
  | Prim
  | Class
  | Ref (inner : Idx)
  | WeakRef (inner : Idx)
  | Array (inner : Idx)
  | StaticArray (inner : Idx) (size : BitVec 32)
  | ScriptRef (inner : Idx)
  deriving DecidableEq, Repr

/-- `Class` (core/src/definition.rs:180-188). -/
structure ClassDef where
  visibility : Visibility
  flags : ClassFlags
  base : Idx
  functions : List Idx
  fields : List Idx
  overrides : List Idx
  deriving DecidableEq, Repr

/-- `Enum` (core/src/definition.rs:248-254). -/
structure EnumDef where
  flags : Byte
  size : Byte
  members : List Idx
  unk1 : Bool
  deriving DecidableEq, Repr

/-- `Function` (core/src/definition.rs:282-296). -/
structure FunctionDef where
  visibility : Visibility
  flags : FunctionFlags
  source : Option SourceReference
  returnType : Option Idx
  unk1 : Bool
  baseMethod : Option Idx
  parameters : List Idx
  locals : List Idx
  operator : Option (BitVec 32)
  cast : Byte
  code : List (Instr Offset)
  unk2 : List Idx
  deriving DecidableEq, Repr

/-- `Field` (core/src/definition.rs:416-424). -/
structure FieldDef where
  visibility : Visibility
  type_ : Idx
  flags : FieldFlags
  hint : Option String
  attributes : List Property
  defaults : List Property
  deriving DecidableEq, Repr

/-- `Local` (core/src/definition.rs:523-527). -/
structure LocalDef where
  type_ : Idx
  flags : LocalFlags
  deriving DecidableEq, Repr

/-- `Parameter` (core/src/definition.rs:550-554). -/
structure ParameterDef where
  type_ : Idx
  flags : ParameterFlags
  deriving DecidableEq, Repr

/-- `SourceFile` (core/src/definition.rs:571-576); a path is its UTF-8 string (a path that is not
valid UTF-8 panics in `encode` and is not modelled). -/
structure SourceFileDef where
  id : BitVec 32
  pathHash : BitVec 64
  path : String
  deriving DecidableEq, Repr

/-- `AnyDefinition` (core/src/definition.rs:135-146). -/
inductive AnyDefinition where
  | Type (t : PoolType)
  | Class (c : ClassDef)
  | EnumValue (v : BitVec 64)
  | Enum (e : EnumDef)
  | Function (f : FunctionDef)
  | Parameter (p : ParameterDef)
  | Local (l : LocalDef)
  | Field (f : FieldDef)
  | SourceFile (s : SourceFileDef)
  deriving DecidableEq, Repr

/-- `Definition` (core/src/definition.rs:13-21). -/
structure Definition where
  name : Idx
  parent : Idx
  unk1 : Byte
  unk2 : Byte
  unk3 : Byte
  value : AnyDefinition
  deriving DecidableEq, Repr

/-- `Definition::DEFAULT` (core/src/definition.rs:24-31). -/
def Definition.default : Definition :=
  { name := 0, parent := 0, unk1 := 0, unk2 := 0, unk3 := 0, value := .Type .Prim }

/-- `DefinitionType` (core/src/bundle.rs:560-574). -/
inductive DefinitionType where
  | Type | Class | EnumValue | Enum | BitField | Function | Parameter | Local | Field | SourceFile
  deriving DecidableEq, Repr

/-- `AnyDefinition::type_` (core/src/definition.rs:149-161). -/
def AnyDefinition.type_ : AnyDefinition → DefinitionType
  | .Type _ => .Type
  | .Class _ => .Class
  | .EnumValue _ => .EnumValue
  | .Enum _ => .Enum
  | .Function _ => .Function
  | .Parameter _ => .Parameter
  | .Local _ => .Local
  | .Field _ => .Field
  | .SourceFile _ => .SourceFile

/-! ## Codecs -/

/-- `if b { decode } else { default }`, the shape of every optional section. -/
def decIf (b : Bool) (d : Dec α) (dflt : α) : Dec α := if b then d else .pure dflt

/-- `if b { Some(decode) } else { None }`. -/
def decOpt (b : Bool) (d : Dec α) : Dec (Option α) :=
  if b then d.bind fun a => .pure (some a) else .pure none

/-- `if b { encode }`. -/
def encIf (b : Bool) (e : Enc) : Enc := if b then e else .ok []

/-- `if let Some(ref x) = .. { encode }`. -/
def encOpt (o : Option α) (e : α → Enc) : Enc :=
  match o with
  | some a => e a
  | none => .ok []

/-- core/src/definition.rs:762-766; out-of-range values abort. -/
def decVisibility : Dec Visibility := decU8.bind fun b =>
  match b.toNat with
  | 0 => .pure .pub
  | 1 => .pure .prot
  | 2 => .pure .priv
  | _ => .fail .panic

/-- core/src/definition.rs:768-772. -/
def encVisibility : Visibility → Bytes
  | .pub => encU8 0
  | .prot => encU8 1
  | .priv => encU8 2

/-- core/src/definition.rs:789-796. -/
def decSourceReference : Dec SourceReference :=
  decIdx.bind fun file => decU32.bind fun line => .pure { file, line }
/-- core/src/definition.rs:798-803. -/
def encSourceReference (s : SourceReference) : Enc := .ok (encIdx s.file) +++ .ok (encU32 s.line)

/-- core/src/definition.rs:812-818. -/
def decProperty : Dec Property :=
  decStr16.bind fun name => decStr16.bind fun value => .pure { name, value }
/-- core/src/definition.rs:820-825. -/
def encProperty (p : Property) : Enc := encStr16 p.name +++ encStr16 p.value

/-- core/src/definition.rs:477-491. -/
def decType : Dec PoolType := decU8.bind fun tag =>
  match tag.toNat with
  | 0 => .pure .Prim
  | 1 => .pure .Class
  | 2 => decIdx.bind fun i => .pure (.Ref i)
  | 3 => decIdx.bind fun i => .pure (.WeakRef i)
  | 4 => decIdx.bind fun i => .pure (.Array i)
  | 5 => decIdx.bind fun i => decU32.bind fun n => .pure (.StaticArray i n)
  | 6 => decIdx.bind fun i => .pure (.ScriptRef i)
  | _ => .fail .panic
/-- core/src/definition.rs:493-521. -/
def encType : PoolType → Enc
  | .Prim => .ok (encU8 0)
  | .Class => .ok (encU8 1)
  | .Ref i => .ok (encU8 2) +++ .ok (encIdx i)
  | .WeakRef i => .ok (encU8 3) +++ .ok (encIdx i)
  | .Array i => .ok (encU8 4) +++ .ok (encIdx i)
  | .StaticArray i n => .ok (encU8 5) +++ .ok (encIdx i) +++ .ok (encU32 n)
  | .ScriptRef i => .ok (encU8 6) +++ .ok (encIdx i)

/-- `decode_vec_prefixed::<u32, PoolIndex<_>>`. -/
def decIdxs : Dec (List Idx) := decVec32 decIdx
/-- `encode_slice_prefixed::<u32, PoolIndex<_>>`. -/
def encIdxs (l : List Idx) : Enc := encVec32 (fun i => .ok (encIdx i)) l

/-- core/src/definition.rs:190-222. -/
def decClass : Dec ClassDef :=
  decVisibility.bind fun visibility =>
  decU16.bind fun flags =>
  decIdx.bind fun base =>
  (decIf (flag ClassFlags.hasFunctionsBit flags) decIdxs []).bind fun functions =>
  (decIf (flag ClassFlags.hasFieldsBit flags) decIdxs []).bind fun fields =>
  (decIf (flag ClassFlags.hasOverridesBit flags) decIdxs []).bind fun overrides =>
  .pure { visibility, flags, base, functions, fields, overrides }

/-- The flag word written for a class (core/src/definition.rs:226-230). -/
def ClassDef.encFlags (c : ClassDef) : ClassFlags :=
  setFlag ClassFlags.hasOverridesBit (!c.overrides.isEmpty)
    (setFlag ClassFlags.hasFieldsBit (!c.fields.isEmpty)
      (setFlag ClassFlags.hasFunctionsBit (!c.functions.isEmpty) c.flags))

/-- core/src/definition.rs:224-246. -/
def encClass (c : ClassDef) : Enc :=
  .ok (encVisibility c.visibility) +++
  .ok (encU16 c.encFlags) +++
  .ok (encIdx c.base) +++
  encIf (flag ClassFlags.hasFunctionsBit c.encFlags) (encIdxs c.functions) +++
  encIf (flag ClassFlags.hasFieldsBit c.encFlags) (encIdxs c.fields) +++
  encIf (flag ClassFlags.hasOverridesBit c.encFlags) (encIdxs c.overrides)

/-- core/src/definition.rs:256-270. -/
def decEnum : Dec EnumDef :=
  decU8.bind fun flags => decU8.bind fun size => decIdxs.bind fun members =>
  decBool.bind fun unk1 => .pure { flags, size, members, unk1 }
/-- core/src/definition.rs:273-280. -/
def encEnum (e : EnumDef) : Enc :=
  .ok (encU8 e.flags) +++ .ok (encU8 e.size) +++ encIdxs e.members +++ .ok (encBool e.unk1)

/-- core/src/definition.rs:299-368 (with `parse-code`). -/
def decFunction : Dec FunctionDef :=
  decVisibility.bind fun visibility =>
  decU32.bind fun flags =>
  (decOpt (!flag FunctionFlags.isNativeBit flags) decSourceReference).bind fun source =>
  (decOpt (flag FunctionFlags.hasReturnValueBit flags) decIdx).bind fun returnType =>
  (decIf (flag FunctionFlags.hasReturnValueBit flags) decBool false).bind fun unk1 =>
  (decOpt (flag FunctionFlags.hasBaseMethodBit flags) decIdx).bind fun baseMethod =>
  (decIf (flag FunctionFlags.hasParametersBit flags) decIdxs []).bind fun parameters =>
  (decIf (flag FunctionFlags.hasLocalsBit flags) decIdxs []).bind fun locals =>
  (decOpt (flag FunctionFlags.isOperatorBit flags) decU32).bind fun operator =>
  (decIf (flag FunctionFlags.isCastBit flags) decU8 0).bind fun cast =>
  (decIf (flag FunctionFlags.hasBodyBit flags) decCode []).bind fun code =>
  (decIf (flag FunctionFlags.unk4Bit flags) decIdxs []).bind fun unk2 =>
  .pure { visibility, flags, source, returnType, unk1, baseMethod, parameters, locals, operator,
          cast, code, unk2 }

/-- The flag word written for a function (core/src/definition.rs:372-379). -/
def FunctionDef.encFlags (f : FunctionDef) : FunctionFlags :=
  setFlag FunctionFlags.hasBodyBit (!f.code.isEmpty)
    (setFlag FunctionFlags.isOperatorBit f.operator.isSome
      (setFlag FunctionFlags.hasLocalsBit (!f.locals.isEmpty)
        (setFlag FunctionFlags.hasParametersBit (!f.parameters.isEmpty || !f.unk2.isEmpty)
          (setFlag FunctionFlags.hasBaseMethodBit f.baseMethod.isSome
            (setFlag FunctionFlags.hasReturnValueBit f.returnType.isSome f.flags)))))

/-- core/src/definition.rs:370-414. -/
def encFunction (f : FunctionDef) : Enc :=
  .ok (encVisibility f.visibility) +++
  .ok (encU32 f.encFlags) +++
  encIf (!flag FunctionFlags.isNativeBit f.encFlags) (encOpt f.source encSourceReference) +++
  encOpt f.returnType (fun t => .ok (encIdx t) +++ .ok (encBool f.unk1)) +++
  encOpt f.baseMethod (fun m => .ok (encIdx m)) +++
  encIf (flag FunctionFlags.hasParametersBit f.encFlags) (encIdxs f.parameters) +++
  encIf (flag FunctionFlags.hasLocalsBit f.encFlags) (encIdxs f.locals) +++
  encOpt f.operator (fun o => .ok (encU32 o)) +++
  encIf (flag FunctionFlags.isCastBit f.encFlags) (.ok (encU8 f.cast)) +++
  encIf (flag FunctionFlags.hasBodyBit f.encFlags) (encCode f.code) +++
  encIf (flag FunctionFlags.unk4Bit f.encFlags) (encIdxs f.unk2)

/-- core/src/definition.rs:426-449. -/
def decField : Dec FieldDef :=
  decVisibility.bind fun visibility =>
  decIdx.bind fun type_ =>
  decU16.bind fun flags =>
  (decOpt (flag FieldFlags.hasHintBit flags) decStr16).bind fun hint =>
  (decVec32 decProperty).bind fun attributes =>
  (decVec32 decProperty).bind fun defaults =>
  .pure { visibility, type_, flags, hint, attributes, defaults }

/-- core/src/definition.rs:453. -/
def FieldDef.encFlags (f : FieldDef) : FieldFlags := setFlag FieldFlags.hasHintBit f.hint.isSome f.flags

/-- core/src/definition.rs:451-464. -/
def encField (f : FieldDef) : Enc :=
  .ok (encVisibility f.visibility) +++
  .ok (encIdx f.type_) +++
  .ok (encU16 f.encFlags) +++
  encOpt f.hint encStr16 +++
  encVec32 encProperty f.attributes +++
  encVec32 encProperty f.defaults

/-- core/src/definition.rs:535-541. -/
def decLocal : Dec LocalDef := decIdx.bind fun type_ => decU8.bind fun flags => .pure { type_, flags }
/-- core/src/definition.rs:543-548. -/
def encLocal (l : LocalDef) : Enc := .ok (encIdx l.type_) +++ .ok (encU8 l.flags)

/-- core/src/definition.rs:556-562. -/
def decParameter : Dec ParameterDef :=
  decIdx.bind fun type_ => decU8.bind fun flags => .pure { type_, flags }
/-- core/src/definition.rs:564-569. -/
def encParameter (p : ParameterDef) : Enc := .ok (encIdx p.type_) +++ .ok (encU8 p.flags)

/-- `str::replace(char, &str)` with a one-character replacement (core/src/definition.rs:583, 593). -/
def replaceChar (a b : Char) (s : String) : String :=
  String.ofList (s.toList.map fun c => if c = a then b else c)

/-- core/src/definition.rs:578-587. -/
def decSourceFile : Dec SourceFileDef :=
  decU32.bind fun id => decU64.bind fun pathHash => decStr16.bind fun raw =>
  .pure { id, pathHash, path := replaceChar '\\' '/' raw }
/-- core/src/definition.rs:589-595. -/
def encSourceFile (s : SourceFileDef) : Enc :=
  .ok (encU32 s.id) +++ .ok (encU64 s.pathHash) +++ encStr16 (replaceChar '/' '\\' s.path)

/-- The `match` of `Definition::decode` (core/src/definition.rs:36-47). -/
def decAnyDefinition : DefinitionType → Dec AnyDefinition
  | .Type => decType.bind fun x => .pure (.Type x)
  | .Class => decClass.bind fun x => .pure (.Class x)
  | .EnumValue => decU64.bind fun x => .pure (.EnumValue x)
  | .Enum => decEnum.bind fun x => .pure (.Enum x)
  | .BitField => .fail .panic
  | .Function => decFunction.bind fun x => .pure (.Function x)
  | .Parameter => decParameter.bind fun x => .pure (.Parameter x)
  | .Local => decLocal.bind fun x => .pure (.Local x)
  | .Field => decField.bind fun x => .pure (.Field x)
  | .SourceFile => decSourceFile.bind fun x => .pure (.SourceFile x)

/-- core/src/definition.rs:164-178. -/
def encAnyDefinition : AnyDefinition → Enc
  | .Type t => encType t
  | .Class c => encClass c
  | .EnumValue v => .ok (encU64 v)
  | .Enum e => encEnum e
  | .Function f => encFunction f
  | .Parameter p => encParameter p
  | .Local l => encLocal l
  | .Field f => encField f
  | .SourceFile s => encSourceFile s

end Redscript
