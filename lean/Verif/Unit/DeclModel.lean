import Verif.Cte.Model
import Verif.Types.Model
import Verif.Unit.DiagModel
import Verif.Unit.RefModel
import Verif.Unit.WrapModel

/-!
# Declarations (model)

Model of how `CompilationUnit` turns the declarations of a set of modules into definitions of the pool
(compiler/src/unit.rs:44-78, 152-261, 333-970, 1212-1226): both loops of `compile_modules` up to the point
where field defaults and function bodies are compiled. Spans are dropped, except that a declaration carries
the location `Files::lookup` finds for it. The position of a source reference is kept as that location, see `SourceRef`.
-/

namespace Redscript

/-! ## Sources -/

/-- `Qualifier` (compiler/src/parser.rs:91-107). -/
inductive Qualifier where
  | Public | Protected | Private | Abstract | Static | Final | Const | Native | Exec | Callback | Out
  | Optional | Quest | ImportOnly | Persistent
  deriving DecidableEq, Repr

/-- The case of `Qualifiers::visibility` for one qualifier (compiler/src/parser.rs:115-120). -/
def Qualifier.visibility? : Qualifier → Option Visibility
  | .Public => some .pub
  | .Protected => some .prot
  | .Private => some .priv
  | _ => none

/-- `Qualifiers::visibility` (compiler/src/parser.rs:113-121) with the default its callers use
(compiler/src/unit.rs:338, 365, 398-402, 777-781). -/
def visibilityOf (qs : List Qualifier) : Visibility := (qs.findSome? Qualifier.visibility?).getD .priv

/-- `Declaration` (compiler/src/parser.rs:128-134). `loc` is what `Files::lookup` gives for its span: the path
of the file and the line (compiler/src/unit.rs:220, 478). -/
structure DeclSource where
  annotations : List Annotation
  qualifiers : List Qualifier
  name : Text
  loc : Option (String × BitVec 32)

/-- `Qualifiers::contain` (compiler/src/parser.rs:123-125). -/
def DeclSource.has (d : DeclSource) (q : Qualifier) : Bool := d.qualifiers.contains q

/-- `ParameterSource` (compiler/src/parser.rs:68-73). -/
structure ParamSource where
  qualifiers : List Qualifier
  name : Text
  type_ : TypeName

/-- `FunctionSource` (compiler/src/parser.rs:59-66). -/
structure FunctionSource where
  declaration : DeclSource
  type_ : Option TypeName
  parameters : List ParamSource
  body : Option (List (Expr SourceAst))

/-- What a signature looks at (compiler/src/symbol.rs:221-245). -/
def FunctionSource.shape (f : FunctionSource) : FunSource where
  name := f.declaration.name
  params := f.parameters.map fun p => (p.type_, p.qualifiers.contains .Out)
  ret := f.type_
  isCallback := f.declaration.has .Callback
  isExec := f.declaration.has .Exec
  isNative := f.declaration.has .Native

/-- `FunctionSignature::from_source` (compiler/src/symbol.rs:221-245). -/
def FunctionSource.sig (f : FunctionSource) : Text := f.shape.signature

/-- `FieldSource` (compiler/src/parser.rs:52-57). -/
structure FieldSource where
  declaration : DeclSource
  type_ : TypeName
  default : Option (Expr SourceAst)

/-- `MemberSource` (compiler/src/parser.rs:46-50). -/
inductive MemberSource where
  | Function (f : FunctionSource)
  | Field (f : FieldSource)

/-- `ClassSource` (compiler/src/parser.rs:38-44). -/
structure ClassSource where
  declaration : DeclSource
  base : Option Text
  members : List MemberSource

/-- `EnumSource` and `EnumMember` (compiler/src/parser.rs:75-88). -/
structure EnumSource where
  declaration : DeclSource
  members : List (Text × BitVec 64)

/-- `SourceEntry` (compiler/src/parser.rs:20-26). -/
inductive SourceEntry where
  | Class (c : ClassSource)
  | Struct (c : ClassSource)
  | Function (f : FunctionSource)
  | GlobalLet (f : FieldSource)
  | Enum (e : EnumSource)

/-- The declaration of an entry (compiler/src/parser.rs:29-36). -/
def SourceEntry.declaration : SourceEntry → DeclSource
  | .Class c | .Struct c => c.declaration
  | .Function f => f.declaration
  | .GlobalLet f => f.declaration
  | .Enum e => e.declaration

/-- `SourceModule` (compiler/src/parser.rs:13-18); an import with its annotations. -/
structure SourceModule where
  path : Option ModulePath
  imports : List (Import × List Annotation)
  entries : List SourceEntry

/-! ## The state -/

/-- `Definition::default` (core/src/definition.rs:81-90). -/
def Definition.mk' (name parent : Idx) (value : AnyDefinition) : Definition :=
  { name, parent, unk1 := 0, unk2 := 0, unk3 := 0, value }

/-- The causes the declaration phase reports (compiler/src/error.rs:28-103). -/
inductive DeclCause where
  | pool | functionNotFound | classNotFound | unresolvedReference | unresolvedType | unresolvedImport
  | unresolvedModule | invalidAnnotationArgs | unsupportedFeature | symbolRedefinition | missingBody
  | unexpectedBody | unexpectedNative | unsupportedPersistent | noMethodWithMatchingSignature
  | noMethodWithMatchingName
  deriving DecidableEq, Repr

/-- `Error` (compiler/src/error.rs:14-27) with panics: an error with a span, an error of compile-time
evaluation, an error of the pool without a span. -/
inductive DeclErr where
  | compile (c : DeclCause)
  | cte
  | pool
  | panic
  deriving DecidableEq, Repr

/-- The diagnostics the declaration phase produces (compiler/src/diagnostics.rs:18-53). -/
inductive DeclDiag where
  | replaceMethodConflict (f : Idx)
  | fieldConflict
  | addMethodConflict
  | error (c : DeclCause)
  | cte
  deriving DecidableEq, Repr

/-- `FunctionBody` (compiler/src/unit.rs:1229-1238). -/
structure DeclBody where
  cls : Idx
  index : Idx
  wrapped : Option Idx
  code : List (Expr SourceAst)
  scope : Scope
  wasCallback : Bool

/-- `FieldDefault` (compiler/src/unit.rs:1240-1246). -/
structure DeclDefault where
  cls : Idx
  index : Idx
  value : Expr SourceAst
  scope : Scope

/-- `CompilationUnit` (compiler/src/unit.rs:29-42) without the diagnostic passes. `moduleScope` is the local
variable `module_scope` of the second loop of `compile_modules` (compiler/src/unit.rs:182), which the methods
get as an argument. -/
structure DeclState where
  pool : ConstantPool
  symbols : SymbolMap
  scope : Scope
  moduleScope : Scope
  bodies : List DeclBody
  defaults : List DeclDefault
  wrappers : AMap Idx Idx
  proxies : AMap Idx Idx
  refs : List SourceRef
  diagnostics : List DeclDiag
  /-- `file_map` in order of insertion -/
  files : List (String × Idx)

/-- A method of `CompilationUnit`: what it changed stays changed when it fails. -/
def DeclM (α : Type) : Type := DeclState → Except DeclErr α × DeclState

namespace DeclM

/-- `Ok(a)` -/
protected def pure (a : α) : DeclM α := fun s => (.ok a, s)

/-- `?` -/
protected def bind (m : DeclM α) (f : α → DeclM β) : DeclM β := fun s =>
  match m s with
  | (.ok a, s') => f a s'
  | (.error e, s') => (.error e, s')

instance : Monad DeclM where
  pure := DeclM.pure
  bind := DeclM.bind

/-- `return Err(e)` -/
def fail (e : DeclErr) : DeclM α := fun s => (.error e, s)

/-- A value computed from the state. -/
def read (f : DeclState → α) : DeclM α := fun s => (.ok (f s), s)

/-- A value computed from the state, or an error. -/
def readOr (e : DeclErr) (f : DeclState → Option α) : DeclM α := fun s =>
  match f s with
  | some a => (.ok a, s)
  | none => (.error e, s)

/-- A change of the state. -/
def update (f : DeclState → DeclState) : DeclM Unit := fun s => (.ok (), f s)

/-- `report` (compiler/src/unit.rs:1223-1226) with `Diagnostic::from_error`
(compiler/src/diagnostics.rs:90-97): errors of the pool are not diagnostics. -/
def report (e : DeclErr) : DeclM Unit := fun s =>
  match e with
  | .compile c => (.ok (), { s with diagnostics := s.diagnostics ++ [.error c] })
  | .cte => (.ok (), { s with diagnostics := s.diagnostics ++ [.cte] })
  | e => (.error e, s)

/-- `if let Err(err) = res { self.report(err)?; }` (compiler/src/unit.rs:173-176, 257-259), with the result
if there is one. -/
def reporting (m : DeclM α) : DeclM (Option α) := fun s =>
  match m s with
  | (.ok a, s') => (.ok (some a), s')
  | (.error e, s') => (report e).bind (fun _ => .pure none) s'

/-- Push a diagnostic. -/
def diagnose (d : DeclDiag) : DeclM Unit := update fun s => { s with diagnostics := s.diagnostics ++ [d] }

/-- `if c { .. }` -/
def when (c : Bool) (m : DeclM Unit) : DeclM Unit := if c then m else pure ()

/-- `self.pool.names.add` -/
def addName (t : Text) : DeclM Idx := fun s =>
  (.ok (s.pool.names.add Strings.cnameDefault (String.ofList t)).1,
    { s with pool := { s.pool with names := (s.pool.names.add Strings.cnameDefault (String.ofList t)).2 } })

/-- `self.pool.add_definition` -/
def addDefinition (d : Definition) : DeclM Idx := fun s =>
  (.ok (s.pool.addDefinition d).1, { s with pool := (s.pool.addDefinition d).2 })

/-- `self.pool.stub_definition` -/
def stub (name : Idx) : DeclM Idx := addDefinition (.mk' name 0 (.Type .Prim))

/-- `self.pool.put_definition` -/
def put (i : Idx) (d : Definition) : DeclM Unit := fun s =>
  match s.pool.putDefinition i d with
  | .ok p => (.ok (), { s with pool := p })
  | .error _ => (.error .panic, s)

/-- `self.pool.definition(i)?.name` -/
def nameOf (i : Idx) : DeclM Idx := readOr .pool fun s => (s.pool.definition i).map (·.name)

/-- `self.pool.class(i)?` (core/src/bundle.rs:295-297) -/
def classAt (i : Idx) : DeclM ClassDef := readOr .pool fun s => s.pool.definitionBy AnyDefinition.asClass i

/-- `self.pool.class_mut(i)?` with an update. -/
def onClass (i : Idx) (f : ClassDef → ClassDef) : DeclM Unit := fun s =>
  match s.pool.modifyValue (AnyDefinition.onClass f) i with
  | some p => (.ok (), { s with pool := p })
  | none => (.error .pool, s)

/-- `self.source_refs.push` -/
def pushRef (r : SourceRef) : DeclM Unit := update fun s => { s with refs := s.refs ++ [r] }

end DeclM

open DeclM

/-! ## Names of types -/

mutual
/-- `Scope::resolve_type` (compiler/src/scope.rs:220-239); `depth` is that of `resolveTypeFromPool`. -/
def Scope.resolveType (sc : Scope) (p : ConstantPool) (depth : Nat) : TypeName → Option TypeId
  | .mk n as =>
    match sc.types.get (TypeName.mk n as).repr with
    | some i => resolveTypeFromPool sc p depth i
    | none =>
      if as.length = 1 ∧ n = "ref".toList then (sc.resolveTypeHead p depth as).map .Ref
      else if as.length = 1 ∧ n = "wref".toList then (sc.resolveTypeHead p depth as).map .WeakRef
      else if as.length = 1 ∧ n = "script_ref".toList then (sc.resolveTypeHead p depth as).map .ScriptRef
      else if as.length = 1 ∧ n = "array".toList then (sc.resolveTypeHead p depth as).map .Array
      else
        match sc.symbols.get (TypeName.mk n as).repr with
        | some (.Class i _) => some (.Class i)
        | some (.Struct i _) => some (.Struct i)
        | some (.Enum i) => some (.Enum i)
        | _ => none
/-- The single argument (compiler/src/scope.rs:225-228). -/
def Scope.resolveTypeHead (sc : Scope) (p : ConstantPool) (depth : Nat) : List TypeName → Option TypeId
  | [] => none
  | t :: _ => sc.resolveType p depth t
end

/-- `try_resolve_type` (compiler/src/unit.rs:1212-1221): an unknown type is reported and replaced. -/
def tryResolveType (depth : Nat) (t : TypeName) : DeclM TypeId := fun s =>
  match s.moduleScope.resolveType s.pool depth t with
  | some ty => (.ok ty, s)
  | none => (report (.compile .unresolvedType)).bind (fun _ => .pure .Null) s

/-- `scope.get_type_index(..).with_span(..)?` (compiler/src/unit.rs:557, 565, 663). What a failing call did
before it failed is dropped. -/
def typeIndex (t : TypeId) : DeclM Idx := fun s =>
  match getTypeIndex s.moduleScope s.pool t with
  | .ok (i, sc, p) => (.ok i, { s with pool := p, moduleScope := sc })
  | .error .panic => (.error .panic, s)
  | .error _ => (.error (.compile .pool), s)

/-! ## Definitions -/

/-- core/src/definition.rs:672. -/
def ClassFlags.isNativeBit : Nat := 0
/-- core/src/definition.rs:673. -/
def ClassFlags.isAbstractBit : Nat := 1
/-- core/src/definition.rs:678. -/
def ClassFlags.isImportOnlyBit : Nat := 6
/-- core/src/definition.rs:701. -/
def FunctionFlags.isExecBit : Nat := 1
/-- core/src/definition.rs:717: after three padding bits. -/
def FunctionFlags.isConstBit : Nat := 19
/-- core/src/definition.rs:720. -/
def FunctionFlags.isQuestBit : Nat := 22
/-- core/src/definition.rs:600. -/
def FieldFlags.isNativeBit : Nat := 0
/-- core/src/definition.rs:610. -/
def FieldFlags.isBrowsableBit : Nat := 10
/-- core/src/definition.rs:649. -/
def ParameterFlags.isOptionalBit : Nat := 0
/-- core/src/definition.rs:650. -/
def ParameterFlags.isOutBit : Nat := 1
/-- core/src/definition.rs:652. -/
def ParameterFlags.isConstBit : Nat := 3

/-- `FunctionSpec` (compiler/src/unit.rs:1289-1300). -/
structure FunctionSpec where
  funIdx : Idx
  classIdx : Idx
  classFlags : Option ClassFlags
  baseMethod : Option Idx
  sourceRef : SourceReference
  wrapped : Option Idx
  isReplacement : Bool
  visibility : Visibility
  source : FunctionSource

/-- The flags of a parameter (compiler/src/unit.rs:566-569). -/
def ParamSource.flags (p : ParamSource) : ParameterFlags :=
  setFlag ParameterFlags.isConstBit (p.qualifiers.contains .Const)
    (setFlag ParameterFlags.isOutBit (p.qualifiers.contains .Out)
      (setFlag ParameterFlags.isOptionalBit (p.qualifiers.contains .Optional) 0))

/-- The loop over the parameters (compiler/src/unit.rs:563-576). -/
def defineParams (depth : Nat) (funIdx : Idx) : List ParamSource → DeclM (List Idx)
  | [] => pure []
  | p :: ps => do
    let ty ← tryResolveType depth p.type_
    let tyIdx ← typeIndex ty
    let name ← addName p.name
    let idx ← addDefinition (.mk' name funIdx (.Parameter { type_ := tyIdx, flags := p.flags }))
    let rest ← defineParams depth funIdx ps
    pure (idx :: rest)

/-- `type_ == TypeName::VOID` (compiler/src/unit.rs:554). -/
def TypeName.isVoid (t : TypeName) : Bool := t.name = "Void".toList && t.args.isEmpty

/-- The result type (compiler/src/unit.rs:552-559). -/
def defineReturn (depth : Nat) (t : Option TypeName) : DeclM (Option Idx) :=
  match t with
  | none => pure none
  | some t =>
    if t.isVoid then pure none
    else do
      let ty ← tryResolveType depth t
      let i ← typeIndex ty
      pure (some i)

/-- `is_native` (compiler/src/unit.rs:537). -/
def FunctionSpec.isNative (spec : FunctionSpec) : Bool := !spec.isReplacement && spec.source.declaration.has .Native

/-- `is_static` (compiler/src/unit.rs:538). -/
def FunctionSpec.isStatic (spec : FunctionSpec) : Bool :=
  spec.source.declaration.has .Static || decide (spec.classIdx = 0)

/-- The flags of the function (compiler/src/unit.rs:578-588). -/
def FunctionSpec.flags (spec : FunctionSpec) (returns params : Bool) : FunctionFlags :=
  let d := spec.source.declaration
  setFlag FunctionFlags.hasParametersBit params
    (setFlag FunctionFlags.hasReturnValueBit returns
      (setFlag FunctionFlags.isQuestBit (d.has .Quest)
        (setFlag FunctionFlags.isConstBit (d.has .Const)
          (setFlag FunctionFlags.isCallbackBit (d.has .Callback && spec.wrapped.isNone)
            (setFlag FunctionFlags.isFinalBit (d.has .Final)
              (setFlag FunctionFlags.isExecBit (d.has .Exec)
                (setFlag FunctionFlags.isCastBit (decide (d.name = "Cast".toList))
                  (setFlag FunctionFlags.isNativeBit spec.isNative
                    (setFlag FunctionFlags.isStaticBit spec.isStatic 0)))))))))

/-- The checks at the start of `define_function` (compiler/src/unit.rs:541-550). -/
def checkFunction (spec : FunctionSpec) : DeclM Unit := do
  when (spec.isNative && spec.classFlags.any fun f => !flag ClassFlags.isNativeBit f) (report (.compile .unexpectedNative))
  when (!spec.isNative && spec.classFlags.all (fun f => !flag ClassFlags.isAbstractBit f) && spec.source.body.isNone)
    (report (.compile .missingBody))
  when (spec.isNative && spec.source.body.isSome) (report (.compile .unexpectedBody))

/-- The function put into the pool (compiler/src/unit.rs:590-603). -/
def FunctionSpec.function (spec : FunctionSpec) (ret : Option Idx) (params : List Idx) : FunctionDef where
  visibility := spec.visibility
  flags := spec.flags ret.isSome !params.isEmpty
  source := some spec.sourceRef
  returnType := ret
  unk1 := false
  baseMethod := if spec.isStatic then none else spec.baseMethod
  parameters := params
  locals := []
  operator := none
  cast := 0
  code := []
  unk2 := []

/-- The body that is compiled later (compiler/src/unit.rs:607-618). -/
def pushBody (spec : FunctionSpec) : DeclM Unit :=
  match spec.source.body with
  | none => pure ()
  | some code => update fun s =>
    { s with bodies := s.bodies ++ [⟨spec.classIdx, spec.funIdx, spec.wrapped, code, s.moduleScope, spec.source.declaration.has .Callback⟩] }

/-- `define_function` (compiler/src/unit.rs:535-624). -/
def defineFunction (depth : Nat) (spec : FunctionSpec) : DeclM Unit := do
  checkFunction spec
  let ret ← defineReturn depth spec.source.type_
  let params ← defineParams depth spec.funIdx spec.source.parameters
  let name ← nameOf spec.funIdx
  pushBody spec
  put spec.funIdx (.mk' name spec.classIdx (.Function (spec.function ret params)))
  pushRef ⟨spec.funIdx, spec.source.declaration.loc⟩

/-- The attributes of a field (compiler/src/unit.rs:669-678): those of `@runtimeProperty`; `none` when the
arguments are not two strings. -/
def fieldAttributes : List Annotation → Option (List Property)
  | [] => some []
  | a :: as =>
    if a.kind = .RuntimeProperty then
      match a.args with
      | [.Constant (.String .String k), .Constant (.String .String v)] =>
        (fieldAttributes as).map (⟨String.ofList k, String.ofList v⟩ :: ·)
      | _ => none
    else fieldAttributes as

/-- The flags of a field (compiler/src/unit.rs:664-667). -/
def FieldSource.flags (f : FieldSource) : FieldFlags :=
  setFlag FieldFlags.isPersistentBit (f.declaration.has .Persistent)
    (setFlag FieldFlags.isNativeBit (f.declaration.has .Native)
      (setFlag FieldFlags.isBrowsableBit true 0))

/-- The default that is compiled later (compiler/src/unit.rs:691-698). -/
def pushDefault (index cls : Idx) (f : FieldSource) : DeclM Unit :=
  match f.default with
  | none => pure ()
  | some value => update fun s => { s with defaults := s.defaults ++ [⟨cls, index, value, s.moduleScope⟩] }

/-- `define_field` (compiler/src/unit.rs:626-703). -/
def defineField (depth : Nat) (index cls : Idx) (clsFlags : ClassFlags) (visibility : Visibility) (f : FieldSource) :
    DeclM Unit := do
  when (f.declaration.has .Native && !flag ClassFlags.isNativeBit clsFlags) (report (.compile .unexpectedNative))
  when (reportsPersistent (f.declaration.has .Persistent) f.type_) (report (.compile .unsupportedPersistent))
  let ty ← tryResolveType depth f.type_
  let tyIdx ← typeIndex ty
  let attributes ← readOr (.compile .invalidAnnotationArgs) fun _ => fieldAttributes f.declaration.annotations
  let name ← nameOf index
  pushDefault index cls f
  put index (.mk' name cls (.Field { visibility, type_ := tyIdx, flags := f.flags, hint := none, attributes, defaults := [] }))
  pushRef ⟨index, f.declaration.loc⟩

/-- `define_source_ref` with the default for unknown locations (compiler/src/unit.rs:220-221, 478-479,
759-772, core/src/definition.rs:780-787). -/
def defineSourceRef (loc : Option (String × BitVec 32)) : DeclM SourceReference :=
  match loc with
  | none => pure ⟨1, 0⟩
  | some (path, line) => fun s =>
    match s.files.find? (fun e => decide (e.1 = path)) with
    | some e => (.ok ⟨e.2, line⟩, s)
    | none =>
      let d := Definition.mk' 0 0 (.SourceFile ⟨BitVec.ofNat 32 s.files.length, 0, path⟩)
      (.ok ⟨(s.pool.addDefinition d).1, line⟩,
        { s with pool := (s.pool.addDefinition d).2, files := s.files ++ [(path, (s.pool.addDefinition d).1)] })

/-- What stays fixed: the modules being compiled (compiler/src/unit.rs:164), the bound of recursions over types
and classes (that of the stack in Rust) and whether redefinitions are tolerated. -/
structure DeclCtx where
  modules : List ModulePath
  depth : Nat
  permissive : Bool

/-- `eval_conditions(..)?` -/
def conditions (cx : DeclCtx) (anns : List Annotation) : DeclM Bool :=
  readOr .cte fun _ => evalConditions cx.modules anns

/-- The flags of a class (compiler/src/unit.rs:441-453). -/
def ClassSource.flags (c : ClassSource) (isStruct : Bool) : ClassFlags :=
  let d := c.declaration
  setFlag ClassFlags.isStructBit isStruct
    (setFlag ClassFlags.isImportOnlyBit (d.has .ImportOnly)
      (setFlag ClassFlags.isNativeBit (d.has .ImportOnly || d.has .Native)
        (setFlag ClassFlags.isFinalBit (d.has .Final)
          (setFlag ClassFlags.isAbstractBit (!isStruct && d.has .Abstract) 0))))

/-- The loop over the members of a class (compiler/src/unit.rs:457-505): the functions and the fields defined. -/
def defineMembers (cx : DeclCtx) (cls : Idx) (flags : ClassFlags) (visibility : Visibility) (isStruct : Bool) :
    List MemberSource → DeclM (List Idx × List Idx)
  | [] => pure ([], [])
  | .Function f :: ms => do
    let on ← conditions cx f.declaration.annotations
    if on then
      when (isStruct && !f.declaration.has .Static) (report (.compile .unsupportedFeature))
      let name ← addName f.sig
      let index ← stub name
      let ref ← defineSourceRef f.declaration.loc
      defineFunction cx.depth ⟨index, cls, some flags, none, ref, none, false, visibility, f⟩
      let rest ← defineMembers cx cls flags visibility isStruct ms
      pure (index :: rest.1, rest.2)
    else defineMembers cx cls flags visibility isStruct ms
  | .Field f :: ms => do
    let on ← conditions cx f.declaration.annotations
    if on then
      let name ← addName f.declaration.name
      let index ← stub name
      defineField cx.depth index cls flags visibility f
      let rest ← defineMembers cx cls flags visibility isStruct ms
      pure (rest.1, index :: rest.2)
    else defineMembers cx cls flags visibility isStruct ms

/-- The class a name stands for (compiler/src/unit.rs:510, 516-518). -/
def Scope.classFor (sc : Scope) (name : Text) : Option Idx :=
  match sc.symbols.get name with
  | some (.Class i _) => some i
  | _ => none

/-- The base of a class (compiler/src/unit.rs:507-525). -/
def defineBase (c : ClassSource) (isStruct : Bool) : DeclM Idx :=
  if isStruct then pure 0
  else
    match c.base with
    | some base => do
      let found ← read fun s => s.moduleScope.classFor base
      match found with
      | some i => pure i
      | none => do
        report (.compile .classNotFound)
        pure 0
    | none => read fun s => (s.moduleScope.classFor "IScriptable".toList).getD 0

/-- `define_class` (compiler/src/unit.rs:431-533). -/
def defineClass (cx : DeclCtx) (index : Idx) (visibility : Visibility) (c : ClassSource) (isStruct : Bool) :
    DeclM Unit := do
  let members ← defineMembers cx index (c.flags isStruct) visibility isStruct c.members
  let base ← defineBase c isStruct
  let name ← nameOf index
  put index (.mk' name 0 (.Class ⟨visibility, c.flags isStruct, base, members.1, members.2, []⟩))
  pushRef ⟨index, c.declaration.loc⟩

/-- The loop over the members of an enum (compiler/src/unit.rs:708-712). -/
def defineEnumMembers (index : Idx) : List (Text × BitVec 64) → DeclM (List Idx)
  | [] => pure []
  | (n, v) :: ms => do
    let name ← addName n
    let i ← addDefinition (.mk' name index (.EnumValue v))
    let rest ← defineEnumMembers index ms
    pure (i :: rest)

/-- `define_enum` (compiler/src/unit.rs:705-724). -/
def defineEnum (index : Idx) (e : EnumSource) : DeclM Unit := do
  let members ← defineEnumMembers index e.members
  let name ← nameOf index
  put index (.mk' name 0 (.Enum { flags := 0, size := 4, members, unk1 := false }))
  pushRef ⟨index, e.declaration.loc⟩

/-- The loop over the fields of a class (compiler/src/scope.rs:95-99): the first with the name; the outer
`none` is an error. -/
def fieldNamed (p : ConstantPool) (ident : Text) : List Idx → Option (Option Idx)
  | [] => some none
  | f :: fs => (p.defName f).bind fun n => if n = ident then some (some f) else fieldNamed p ident fs

/-- `Scope::resolve_field` (compiler/src/scope.rs:89-109), going through at most `depth` classes (Rust
recurses until the stack is used up); `none` is any error. -/
def resolveFieldIn (p : ConstantPool) (ident : Text) : (depth : Nat) → Idx → Option Idx
  | 0, _ => none
  | n + 1, cls =>
    (p.definitionBy AnyDefinition.asClass cls).bind fun c =>
      (fieldNamed p ident c.fields).bind fun
        | some f => some f
        | none => if c.base ≠ 0 then resolveFieldIn p ident n c.base else none

/-- `Expr::as_ident` (core/src/ast.rs:14-51, derived) of the first argument. -/
def Annotation.target (a : Annotation) : Option Text :=
  match a.args with
  | .Ident x :: _ => some x
  | _ => none

/-- The first argument of an annotation (compiler/src/unit.rs:735-739, 790-794, 842-846, 905-909). -/
def annTarget (a : Annotation) : DeclM Text := readOr (.compile .invalidAnnotationArgs) fun _ => a.target

/-- `define_global_let` for its first `@addField` (compiler/src/unit.rs:734-753). -/
def defineAddField (cx : DeclCtx) (index : Idx) (visibility : Visibility) (f : FieldSource) (ann : Annotation) :
    DeclM Unit := do
  let ident ← annTarget ann
  let sym ← readOr (.compile .unresolvedReference) fun s => s.moduleScope.symbols.get ident
  match sym with
  | .Class cls _ => do
    let found ← read fun s => resolveFieldIn s.pool f.declaration.name cx.depth cls
    if found.isSome then diagnose .fieldConflict
    else do
      let c ← classAt cls
      defineField cx.depth index cls c.flags visibility f
      onClass cls fun c => { c with fields := c.fields ++ [index] }
  | _ => fail (.compile .classNotFound)

/-- `define_global_let` (compiler/src/unit.rs:726-757). -/
def defineGlobalLet (cx : DeclCtx) (index : Idx) (visibility : Visibility) (f : FieldSource) : DeclM Unit :=
  match f.declaration.annotations.find? (fun a => decide (a.kind = .AddField)) with
  | some ann => defineAddField cx index visibility f ann
  | none => fail (.compile .unsupportedFeature)

/-! ## The first loop -/

/-- `Slot` (compiler/src/unit.rs:1258-1287). -/
inductive Slot where
  | Function (index parent : Idx) (base wrapped : Option Idx) (isReplacement : Bool) (source : FunctionSource)
      (visibility : Visibility)
  | Class (index : Idx) (source : ClassSource) (visibility : Visibility)
  | Struct (index : Idx) (source : ClassSource) (visibility : Visibility)
  | Field (index : Idx) (source : FieldSource) (visibility : Visibility)
  | Enum (index : Idx) (source : EnumSource)

/-- The class an annotation names (compiler/src/unit.rs:790-799, 842-850, 905-913). -/
def targetClass (ann : Annotation) : DeclM Idx := do
  let name ← annTarget ann
  let sym ← readOr (.compile .unresolvedReference) fun s => s.scope.symbols.get name
  match sym with
  | .Struct i _ | .Class i _ => pure i
  | _ => fail (.compile .classNotFound)

/-- The method of a class with a name and signature (compiler/src/unit.rs:800-813, 851-864). -/
def targetMethod (cls : Idx) (name sig : Text) : DeclM Idx := fun s =>
  match directMethods s.pool name cls with
  | none => (.error (.compile .noMethodWithMatchingName), s)
  | some fs =>
    match byId s.pool sig fs with
    | none => (.error (.compile .noMethodWithMatchingSignature), s)
    | some f => (.ok f, s)

/-- The bookkeeping for a wrapper (compiler/src/unit.rs:815-829), see `Wraps.declare`. -/
def declareWrap (cls : Idx) (name sig : Text) : DeclM WrapSlot := fun s =>
  match Wraps.declare ⟨s.pool, s.wrappers, s.proxies⟩ name sig cls with
  | .ok (w, st) => (.ok w, { s with pool := st.pool, wrappers := st.wrappers, proxies := st.proxies })
  | .error _ => (.error .pool, s)

/-- `@wrapMethod` (compiler/src/unit.rs:786-839). -/
def locateWrap (ann : Annotation) (f : FunctionSource) (visibility : Visibility) : DeclM Slot := do
  when (f.declaration.has .Native) (fail (.compile .unsupportedFeature))
  let cls ← targetClass ann
  let _ ← targetMethod cls f.declaration.name f.sig
  let w ← declareWrap cls f.declaration.name f.sig
  pure (.Function w.index cls w.base (some w.wrapped) true f visibility)

/-- `@replaceMethod` (compiler/src/unit.rs:841-876). -/
def locateReplace (ann : Annotation) (f : FunctionSource) (visibility : Visibility) : DeclM Slot := do
  let cls ← targetClass ann
  let i ← targetMethod cls f.declaration.name f.sig
  let base ← read fun s => (s.pool.function i).bind (·.baseMethod)
  pure (.Function i cls base none true f visibility)

/-- `@replaceGlobal` (compiler/src/unit.rs:877-895). -/
def locateGlobal (f : FunctionSource) (visibility : Visibility) : DeclM Slot := do
  let fs ← readOr (.compile .functionNotFound) fun s => s.scope.resolveFunction f.declaration.name
  let i ← readOr (.compile .functionNotFound) fun s => byId s.pool f.sig fs
  pure (.Function i 0 none none true f visibility)

/-- The method a new method overrides (compiler/src/unit.rs:926-934): only the direct base is looked at. The
`unwrap` on the name panics. -/
def baseMethodIn (p : ConstantPool) (sig : Text) : List Idx → Option (Option Idx)
  | [] => some none
  | f :: fs => (p.defName f).bind fun n => if n = sig then some (some f) else baseMethodIn p sig fs

/-- compiler/src/unit.rs:925-936. -/
def addedBase (c : ClassDef) (sig : Text) : DeclM (Option Idx) :=
  if c.base ≠ 0 then do
    let b ← classAt c.base
    readOr .panic fun s => baseMethodIn s.pool sig b.functions
  else pure none

/-- `@addMethod` (compiler/src/unit.rs:896-953). -/
def locateAdd (ann : Annotation) (f : FunctionSource) (visibility : Visibility) : DeclM Slot := do
  let cls ← targetClass ann
  let conflict ← read fun s => (directMethods s.pool f.declaration.name cls).bind (byId s.pool f.sig)
  when conflict.isSome (diagnose .addMethodConflict)
  let c ← classAt cls
  let base ← addedBase c f.sig
  let name ← addName f.sig
  let index ← stub name
  onClass cls fun c => { c with functions := c.functions ++ [index] }
  pure (.Function index cls base none false f visibility)

/-- A function without such an annotation (compiler/src/unit.rs:957-969). -/
def locatePlain (f : FunctionSource) (module : ModulePath) (visibility : Visibility) : DeclM Slot := do
  let name ← addName (module.withChild f.sig).render
  let index ← stub name
  update fun s => { s with symbols := s.symbols.add (module.withChild f.declaration.name) (.Functions [(index, visibility)]) }
  when module.isEmpty
    (update fun s => { s with scope := s.scope.addSymbol f.declaration.name (.Functions [(index, visibility)]) })
  pure (.Function index 0 none none false f visibility)

/-- `determine_function_location` (compiler/src/unit.rs:774-970): the first annotation that says where the
function goes. -/
def locateFunction (f : FunctionSource) (module : ModulePath) : DeclM Slot :=
  let visibility := visibilityOf f.declaration.qualifiers
  match f.declaration.annotations.find? (fun a => decide (a.kind = .WrapMethod ∨ a.kind = .ReplaceMethod ∨
      a.kind = .ReplaceGlobal ∨ a.kind = .AddMethod)) with
  | none => locatePlain f module visibility
  | some ann =>
    match ann.kind with
    | .WrapMethod => locateWrap ann f visibility
    | .ReplaceMethod => locateReplace ann f visibility
    | .ReplaceGlobal => locateGlobal f visibility
    | _ => locateAdd ann f visibility

/-- `Symbol::Class` or `Symbol::Struct` (compiler/src/unit.rs:341-343). -/
def Symbol.isClass : Symbol → Bool
  | .Class _ _ | .Struct _ _ => true
  | _ => false

/-- The part of `define_symbol` that classes, structs and enums share (compiler/src/unit.rs:347-356, 380-389,
415-424): a new definition under the path, known under it, and in the global scope when there is no module. -/
def defineNamed (module : ModulePath) (name : Text) (sym : Idx → Symbol) : DeclM Idx := do
  let n ← addName (module.withChild name).render
  let index ← stub n
  update fun s => { s with symbols := s.symbols.insert (module.withChild name) (sym index) }
  when module.isEmpty (update fun s => { s with scope := s.scope.addSymbol name (sym index) })
  pure index

/-- The check of `define_symbol` (compiler/src/unit.rs:340-346, 367-373). -/
def checkRedefinition (cx : DeclCtx) (path : ModulePath) : DeclM Unit := do
  let sym ← read fun s => s.symbols.get path
  when (sym.any Symbol.isClass && !cx.permissive) (fail (.compile .symbolRedefinition))

/-- `define_symbol` (compiler/src/unit.rs:333-428). -/
def defineSymbol (cx : DeclCtx) (module : ModulePath) : SourceEntry → DeclM Slot
  | .Class c => do
    checkRedefinition cx (module.withChild c.declaration.name)
    let visibility := visibilityOf c.declaration.qualifiers
    let index ← defineNamed module c.declaration.name (.Class · visibility)
    pure (.Class index c visibility)
  | .Struct c => do
    checkRedefinition cx (module.withChild c.declaration.name)
    let visibility := visibilityOf c.declaration.qualifiers
    let index ← defineNamed module c.declaration.name (.Struct · visibility)
    pure (.Struct index c visibility)
  | .Function f => locateFunction f module
  | .GlobalLet f => do
    let name ← addName f.declaration.name
    let index ← stub name
    pure (.Field index f (visibilityOf f.declaration.qualifiers))
  | .Enum e => do
    let index ← defineNamed module e.declaration.name .Enum
    pure (.Enum index e)

/-- The loop over the entries of a module (compiler/src/unit.rs:170-177). -/
def defineEntries (cx : DeclCtx) (module : ModulePath) : List SourceEntry → DeclM (List Slot)
  | [] => pure []
  | e :: es => do
    let on ← conditions cx e.declaration.annotations
    if on then
      let slot ← reporting (defineSymbol cx module e)
      let rest ← defineEntries cx module es
      pure (slot.toList ++ rest)
    else defineEntries cx module es

/-- An entry of `queue` (compiler/src/unit.rs:178). -/
structure Queued where
  path : ModulePath
  imports : List (Import × List Annotation)
  slots : List Slot

/-- The first loop of `compile_modules` (compiler/src/unit.rs:166-179). -/
def defineModules (cx : DeclCtx) : List SourceModule → DeclM (List Queued)
  | [] => pure []
  | m :: ms => do
    let slots ← defineEntries cx (m.path.getD []) m.entries
    let rest ← defineModules cx ms
    pure (⟨m.path.getD [], m.imports, slots⟩ :: rest)

/-! ## The second loop -/

/-- The error of a failed import (compiler/src/symbol.rs:71-95). -/
def ImportErr.toDecl : ImportErr → DeclErr
  | .unresolvedImport _ => .compile .unresolvedImport
  | .unresolvedModule _ => .compile .unresolvedModule
  | .panic => .panic

/-- The module's own symbols (compiler/src/unit.rs:184-192); a failure is ignored. -/
def ownSymbols (path : ModulePath) : DeclM Unit :=
  if path.isEmpty then pure ()
  else update fun s =>
    match s.symbols.populateImport (.All path) .priv s.moduleScope with
    | .ok sc => { s with moduleScope := sc }
    | .error _ => s

/-- The names a failing import of selected names has added (compiler/src/symbol.rs:86-91). -/
def SymbolMap.keptSelected (m : SymbolMap) (path : ModulePath) (level : Visibility) : List Text → Scope → Scope
  | [], sc => sc
  | n :: ns, sc =>
    match m.importOne (path.withChild n) level sc with
    | .error _ => sc
    | .ok sc => m.keptSelected path level ns sc

/-- The scope a failing import leaves behind (compiler/src/symbol.rs:71-95). -/
def SymbolMap.importKept (m : SymbolMap) (level : Visibility) (sc : Scope) : Import → Scope
  | .Selected path names => m.keptSelected path level names sc
  | _ => sc

/-- One import (compiler/src/unit.rs:196-201). -/
def importOne (imp : Import) : DeclM Unit := fun s =>
  match s.symbols.populateImport imp .pub s.moduleScope with
  | .ok sc => (.ok (), { s with moduleScope := sc })
  | .error e => report e.toDecl { s with moduleScope := s.symbols.importKept .pub s.moduleScope imp }

/-- The loop over the imports (compiler/src/unit.rs:194-203). -/
def importAll (cx : DeclCtx) : List (Import × List Annotation) → DeclM Unit
  | [] => pure ()
  | (imp, anns) :: rest => do
    let on ← conditions cx anns
    when on (importOne imp)
    importAll cx rest

/-- The flags of the class of a method (compiler/src/unit.rs:215-219). -/
def parentFlags (parent : Idx) : DeclM (Option ClassFlags) :=
  if parent ≠ 0 then do
    let c ← classAt parent
    pure (some c.flags)
  else pure none

/-- Defining what a slot stands for (compiler/src/unit.rs:205-259). `seen` are the functions defined before. -/
def defineSlot (cx : DeclCtx) (seen : List Idx) : Slot → DeclM (List Idx)
  | .Function index parent base wrapped isReplacement source visibility => do
    when (seen.contains index) (diagnose (.replaceMethodConflict index))
    let flags ← parentFlags parent
    let ref ← defineSourceRef source.declaration.loc
    let _ ← reporting (defineFunction cx.depth ⟨index, parent, flags, base, ref, wrapped, isReplacement, visibility, source⟩)
    pure (index :: seen)
  | .Class index source visibility => do
    let _ ← reporting (defineClass cx index visibility source false)
    pure seen
  | .Struct index source visibility => do
    let _ ← reporting (defineClass cx index visibility source true)
    pure seen
  | .Field index source visibility => do
    let _ ← reporting (defineGlobalLet cx index visibility source)
    pure seen
  | .Enum index source => do
    let _ ← reporting (defineEnum index source)
    pure seen

/-- The loop over the slots of a module (compiler/src/unit.rs:205-260). -/
def defineSlots (cx : DeclCtx) : List Slot → List Idx → DeclM (List Idx)
  | [], seen => pure seen
  | slot :: slots, seen => do
    let seen ← defineSlot cx seen slot
    defineSlots cx slots seen

/-- The second loop of `compile_modules` (compiler/src/unit.rs:181-261). -/
def defineQueue (cx : DeclCtx) : List Queued → List Idx → DeclM Unit
  | [], _ => pure ()
  | q :: qs, seen => do
    update fun s => { s with moduleScope := s.scope }
    ownSymbols q.path
    importAll cx q.imports
    let seen ← defineSlots cx q.slots seen
    defineQueue cx qs seen

/-- The declarations of `compile_modules` (compiler/src/unit.rs:152-261). -/
def declareModules (depth : Nat) (permissive : Bool) (ms : List SourceModule) : DeclM Unit := do
  let cx : DeclCtx := ⟨ms.filterMap (·.path), depth, permissive⟩
  let queue ← defineModules cx ms
  defineQueue cx queue []

/-- `Scope::new` (compiler/src/scope.rs:20-40); `none` is a pool error. -/
def Scope.ofPool (p : ConstantPool) : Option Scope :=
  (p.roots.foldl (fun acc r => acc.bind fun types =>
    match r.2.value with
    | .Type _ => (p.defName r.1).map fun name => types.insert name r.1
    | _ => some types) (some AMap.empty)).map fun types =>
      { symbols := .empty, references := .empty, types, this := none, function := none }

/-- `CompilationUnit::new` (compiler/src/unit.rs:55-78); `none` is an error. -/
def DeclState.ofPool (p : ConstantPool) : Option DeclState :=
  (SymbolMap.ofPool p).bind fun symbols =>
    (Scope.ofPool p).bind fun scope =>
      match symbols.populateImport (.All []) .priv scope with
      | .error _ => none
      | .ok scope => some { pool := p, symbols, scope, moduleScope := scope, bodies := [], defaults := [], wrappers := .empty,
                            proxies := .empty, refs := [], diagnostics := [], files := [] }

end Redscript
