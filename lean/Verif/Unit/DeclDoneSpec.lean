import Verif.Scope.ImportProps
import Verif.Unit.DeclSpec

/-!
# What a declared thing looks like in the pool (specification)
-/

namespace Redscript

/-- The lists have the same length and what stands at the same place is related. -/
inductive Each2 (R : α → β → Prop) : List α → List β → Prop
  | nil : Each2 R [] []
  | cons {a : α} {b : β} {as : List α} {bs : List β} : R a b → Each2 R as bs → Each2 R (a :: as) (b :: bs)

/-- The definition at an index: its name, the index of its parent and what it is. -/
def DefinedAs (p : ConstantPool) (i parent : Idx) (name : Text) (value : AnyDefinition) : Prop :=
  p.defName i = some name ∧ ∃ d, p.definition i = some d ∧ d.parent = parent ∧ d.value = value

/-- The name of a definition, qualified or not, ends with `x`. -/
def NameEnds (p : ConstantPool) (i : Idx) (x : Text) : Prop :=
  ∃ t, p.defName i = some t ∧ ((ModulePath.parse t).getLast? = some x ∨ ∃ m : ModulePath, t = (m.withChild x).render)

/-- The name in the pool of the type that is written `w`: that of a definition with the same name, or that of a class,
struct or enum whose name ends like `w`, and likewise under references and arrays. -/
inductive TypeCalled (p : ConstantPool) : (w name : Text) → Prop
  | same {n : Text} {i : Idx} : p.defName i = some n → TypeCalled p n n
  | named {w x n : Text} {i : Idx} : (w = x ∨ ∃ m, w = m ++ '.' :: x) → NameEnds p i x → p.defName i = some n → TypeCalled p w n
  | ref {w n : Text} : TypeCalled p w n → TypeCalled p ("ref:".toList ++ w) ("ref:".toList ++ n)
  | wref {w n : Text} : TypeCalled p w n → TypeCalled p ("wref:".toList ++ w) ("wref:".toList ++ n)
  | script {w n : Text} : TypeCalled p w n → TypeCalled p ("script_ref:".toList ++ w) ("script_ref:".toList ++ n)
  | array {w n : Text} : TypeCalled p w n → TypeCalled p ("array:".toList ++ w) ("array:".toList ++ n)
  | sized {w n size : Text} : TypeCalled p w n → TypeCalled p (w ++ '[' :: (size ++ [']'])) (n ++ '[' :: (size ++ [']']))

/-- The definition at the index is the type that is written `t`. -/
def NamesType (p : ConstantPool) (t : TypeName) (i : Idx) : Prop := ∃ n, p.defName i = some n ∧ TypeCalled p t.repr n

/-- The type a reference or array is made of, and what that does to its name. -/
def AnyDefinition.wraps : AnyDefinition → Option (Idx × (Text → Text))
  | .Type (.Ref k) => some (k, ("ref:".toList ++ ·))
  | .Type (.WeakRef k) => some (k, ("wref:".toList ++ ·))
  | .Type (.Array k) => some (k, ("array:".toList ++ ·))
  | .Type (.ScriptRef k) => some (k, ("script_ref:".toList ++ ·))
  | .Type (.StaticArray k n) => some (k, (· ++ '[' :: ((toString n.toNat).toList ++ [']'])))
  | _ => none

/-- References and arrays are named after what they are made of. -/
def TypeShape (p : ConstantPool) : Prop := ∀ j d k g, p.definition j = some d → d.value.wraps = some (k, g) →
  ∃ n, p.defName k = some n ∧ p.defName j = some (g n)

/-- What a name may mean in a module with the given path and imports: something global, something of the module itself,
or something public that an import whose conditions hold brings in. -/
def MayMean (symbols : SymbolMap) (mods : List ModulePath) (path : ModulePath) (imports : List (Import × List Annotation)) (x : Text)
    (it : Item) : Prop :=
  symbols.Declares [x] it ∨ symbols.Declares (path ++ [x]) it ∨
    ∃ imp anns q, (imp, anns) ∈ imports ∧ evalConditions mods anns = some true ∧ imp.Brings x q ∧ symbols.Declares q it ∧ it.VisibleAt .pub

/-- Names in the scope mean what they may mean in the module; what a name may mean it does mean, unless it may also mean
something else than another function. -/
def SeesNames (symbols : SymbolMap) (mods : List ModulePath) (path : ModulePath) (imports : List (Import × List Annotation)) (sc : Scope) : Prop :=
  (∀ x it, sc.Offers x it → MayMean symbols mods path imports x it) ∧
  ∀ x it, MayMean symbols mods path imports x it →
    (∀ it', MayMean symbols mods path imports x it' → it' = it ∨ (it.IsFn ∧ it'.IsFn)) → sc.Offers x it

/-- A parameter as written. -/
def IsParam (p : ConstantPool) (fn : Idx) (src : ParamSource) (i : Idx) : Prop :=
  ∃ q : ParameterDef, DefinedAs p i fn src.name (.Parameter q) ∧
    flag ParameterFlags.isOptionalBit q.flags = src.qualifiers.contains .Optional ∧
    flag ParameterFlags.isOutBit q.flags = src.qualifiers.contains .Out ∧
    flag ParameterFlags.isConstBit q.flags = src.qualifiers.contains .Const ∧
    NamesType p src.type_ q.type_

/-- The function has a result. -/
def FunctionSource.Returns (f : FunctionSource) : Prop := ∃ t, f.type_ = some t ∧ t.isVoid = false

/-- Where a function goes: its index and name, the class it is a method of (0 for a global function), what it
overrides unless it is static, and what `wrappedMethod` means in its body. -/
structure Placed where
  index : Idx
  parent : Idx
  name : Text
  visibility : Visibility
  native : Bool
  base : Option Idx
  wrapped : Option Idx

/-- The reference to the place a function was written at: the line, and the index under which its file is
listed. Without a place it is the one that stands for an unknown place. -/
def WrittenAt (files : List (String × Idx)) (loc : Option (String × BitVec 32)) (r : Option SourceReference) : Prop :=
  match loc with
  | none => r = some ⟨1, 0⟩
  | some (path, line) => ∃ i, r = some ⟨i, line⟩ ∧ (path, i) ∈ files

/-- A function as written, still without code, with its body waiting to be compiled with names that meet `N`. -/
def IsFunction (s : DeclState) (N : Scope → Prop) (at_ : Placed) (f : FunctionSource) : Prop :=
  ∃ g : FunctionDef, DefinedAs s.pool at_.index at_.parent at_.name (.Function g) ∧
    (g.visibility = at_.visibility ∧ g.locals = [] ∧ g.code = [] ∧ WrittenAt s.files f.declaration.loc g.source) ∧
    Each2 (IsParam s.pool at_.index) f.parameters g.parameters ∧
    (g.returnType.isSome = true ↔ f.Returns) ∧
    (∀ t r, f.type_ = some t → g.returnType = some r → NamesType s.pool t r) ∧
    flag FunctionFlags.isStaticBit g.flags = (f.declaration.has .Static || decide (at_.parent = 0)) ∧
    flag FunctionFlags.isFinalBit g.flags = f.declaration.has .Final ∧
    flag FunctionFlags.isExecBit g.flags = f.declaration.has .Exec ∧
    flag FunctionFlags.isConstBit g.flags = f.declaration.has .Const ∧
    flag FunctionFlags.isQuestBit g.flags = f.declaration.has .Quest ∧
    flag FunctionFlags.isNativeBit g.flags = at_.native ∧
    flag FunctionFlags.isCallbackBit g.flags = (f.declaration.has .Callback && at_.wrapped.isNone) ∧
    flag FunctionFlags.isCastBit g.flags = decide (f.declaration.name = "Cast".toList) ∧
    (flag FunctionFlags.hasReturnValueBit g.flags = true ↔ f.Returns) ∧
    flag FunctionFlags.hasParametersBit g.flags = !f.parameters.isEmpty ∧
    g.baseMethod = (if f.declaration.has .Static || decide (at_.parent = 0) then none else at_.base) ∧
    ∀ code, f.body = some code → ∃ b ∈ s.bodies, b.index = at_.index ∧ b.cls = at_.parent ∧ b.code = code ∧
      b.wrapped = at_.wrapped ∧ b.wasCallback = f.declaration.has .Callback ∧ N b.scope

/-- The two strings given to `@runtimeProperty`. -/
def IsProperty (a : Annotation) (q : Property) : Prop :=
  ∃ k v, a.args = [.Constant (.String .String k), .Constant (.String .String v)] ∧ q = ⟨String.ofList k, String.ofList v⟩

/-- A field as written, with its default waiting to be compiled with names that meet `N`. -/
def IsField (s : DeclState) (N : Scope → Prop) (i cls : Idx) (v : Visibility) (f : FieldSource) : Prop :=
  ∃ g : FieldDef, DefinedAs s.pool i cls f.declaration.name (.Field g) ∧ g.visibility = v ∧
    flag FieldFlags.isNativeBit g.flags = f.declaration.has .Native ∧
    flag FieldFlags.isPersistentBit g.flags = f.declaration.has .Persistent ∧
    flag FieldFlags.isBrowsableBit g.flags = true ∧
    Each2 IsProperty (f.declaration.annotations.filter fun a => decide (a.kind = .RuntimeProperty)) g.attributes ∧
    NamesType s.pool f.type_ g.type_ ∧
    ∀ value, f.default = some value → ∃ b ∈ s.defaults, b.index = i ∧ b.cls = cls ∧ b.value = value ∧ N b.scope

/-- The conditions of a declaration hold. -/
def DeclSource.Enabled (mods : List ModulePath) (d : DeclSource) : Bool := evalConditions mods d.annotations == some true

/-- The functions among the members of a class whose conditions hold. -/
def methodsOn (mods : List ModulePath) (ms : List MemberSource) : List FunctionSource :=
  ms.filterMap fun
    | .Function f => if f.declaration.Enabled mods then some f else none
    | .Field _ => none

/-- The fields among the members of a class whose conditions hold. -/
def fieldsOn (mods : List ModulePath) (ms : List MemberSource) : List FieldSource :=
  ms.filterMap fun
    | .Function _ => none
    | .Field f => if f.declaration.Enabled mods then some f else none

/-- The class that the base, as written, means. Without one it is `IScriptable`, if there is such a class. -/
def BaseMeans (sc : Scope) (written : Option Text) (base : Idx) : Prop :=
  match written with
  | some x => ∃ v, sc.Offers x (.cls base v)
  | none => (∃ v, sc.Offers "IScriptable".toList (.cls base v)) ∨
      (base = 0 ∧ ∀ j v, ¬ sc.Offers "IScriptable".toList (.cls j v))

/-- A class or struct as written; fields may have been added by `@addField`. The visibility of the members is
that of the class. -/
def IsClass (s : DeclState) (N : Scope → Prop) (mods : List ModulePath) (i : Idx) (path : ModulePath) (c : ClassSource) (isStruct : Bool) : Prop :=
  ∃ (g : ClassDef) (own added : List Idx),
    DefinedAs s.pool i 0 (path.withChild c.declaration.name).render (.Class g) ∧
    g.visibility = visibilityOf c.declaration.qualifiers ∧
    flag ClassFlags.isStructBit g.flags = isStruct ∧
    flag ClassFlags.isAbstractBit g.flags = (!isStruct && c.declaration.has .Abstract) ∧
    flag ClassFlags.isFinalBit g.flags = c.declaration.has .Final ∧
    flag ClassFlags.isNativeBit g.flags = (c.declaration.has .ImportOnly || c.declaration.has .Native) ∧
    flag ClassFlags.isImportOnlyBit g.flags = c.declaration.has .ImportOnly ∧
    Each2 (fun f j => IsFunction s N ⟨j, i, f.sig, visibilityOf c.declaration.qualifiers, f.declaration.has .Native, none, none⟩ f)
      (methodsOn mods c.members) g.functions ∧
    g.fields = own ++ added ∧
    Each2 (fun f j => IsField s N j i (visibilityOf c.declaration.qualifiers) f) (fieldsOn mods c.members) own ∧
    (isStruct = true → g.base = 0) ∧
    (isStruct = false → ∀ x, c.base = some x → NameEnds s.pool g.base x) ∧
    (isStruct = false → c.base = none → g.base = 0 ∨ NameEnds s.pool g.base "IScriptable".toList) ∧
    (isStruct = false → ∃ sc, N sc ∧ BaseMeans sc c.base g.base)

/-- An enum as written. -/
def IsEnum (s : DeclState) (i : Idx) (path : ModulePath) (e : EnumSource) : Prop :=
  ∃ g : EnumDef, DefinedAs s.pool i 0 (path.withChild e.declaration.name).render (.Enum g) ∧
    Each2 (fun (m : Text × BitVec 64) j => DefinedAs s.pool j i m.1 (.EnumValue m.2)) e.members g.members

/-- The function is one of the methods of the class. -/
def MethodOf (p : ConstantPool) (cls f : Idx) : Prop :=
  ∃ c, p.definitionBy AnyDefinition.asClass cls = some c ∧ f ∈ c.functions

/-- The annotation names the class. -/
def Annotation.Names (p : ConstantPool) (a : Annotation) (cls : Idx) : Prop := ∃ x, a.target = some x ∧ NameEnds p cls x

/-- The annotation of a function that says where it goes. -/
def FunctionSource.placing (f : FunctionSource) : Option Annotation :=
  f.declaration.annotations.find? fun a => decide (a.kind = .WrapMethod ∨ a.kind = .ReplaceMethod ∨ a.kind = .ReplaceGlobal ∨ a.kind = .AddMethod)

/-- Where a function of a module goes: `p0` is the pool before, `p` the one after. -/
def PutAt (p0 p : ConstantPool) (path : ModulePath) (f : FunctionSource) (at_ : Placed) : Prop :=
  at_.visibility = visibilityOf f.declaration.qualifiers ∧
  match f.placing with
  | none => p0.definitions.length ≤ at_.index.toNat ∧ at_.name = (path.withChild f.sig).render ∧ at_.parent = 0 ∧
      at_.native = f.declaration.has .Native ∧ at_.base = none ∧ at_.wrapped = none
  | some a =>
    match a.kind with
    | .WrapMethod => p0.definitions.length ≤ at_.index.toNat ∧ a.Names p at_.parent ∧ MethodOf p at_.parent at_.index ∧
        at_.native = false ∧ at_.wrapped.isSome = true
    | .ReplaceMethod => at_.name = f.sig ∧ a.Names p at_.parent ∧ MethodOf p at_.parent at_.index ∧ at_.native = false ∧
        (at_.index.toNat < p0.definitions.length → at_.base = (p0.function at_.index).bind (·.baseMethod)) ∧ at_.wrapped = none
    | .ReplaceGlobal => at_.name = f.sig ∧ at_.parent = 0 ∧ at_.native = false ∧ at_.wrapped = none
    | _ => p0.definitions.length ≤ at_.index.toNat ∧ at_.name = f.sig ∧ a.Names p at_.parent ∧ MethodOf p at_.parent at_.index ∧
        at_.native = f.declaration.has .Native ∧ at_.wrapped = none ∧
        (∀ b, at_.base = some b → p.defName b = some f.sig ∧
          ∃ c, p.definitionBy AnyDefinition.asClass at_.parent = some c ∧ MethodOf p c.base b) ∧
        ∀ c b, p0.definitionBy AnyDefinition.asClass at_.parent = some c → c.base ≠ 0 → MethodOf p0 c.base b →
          p0.defName b = some f.sig → at_.base.isSome = true

/-- The scope code of the module is compiled with knows the names of the module. -/
def SourceModule.Sees (s : DeclState) (mods : List ModulePath) (m : SourceModule) (sc : Scope) : Prop :=
  SeesNames s.symbols mods (m.path.getD []) m.imports sc

/-- What a declaration of a module is in the end. `p0` is the pool before, `s` the state after. -/
def IsDeclared (p0 : ConstantPool) (s : DeclState) (mods : List ModulePath) (m : SourceModule) (e : SourceEntry) (i : Idx) : Prop :=
  match e with
  | .Class c => p0.definitions.length ≤ i.toNat ∧ IsClass s (m.Sees s mods) mods i (m.path.getD []) c false
  | .Struct c => p0.definitions.length ≤ i.toNat ∧ IsClass s (m.Sees s mods) mods i (m.path.getD []) c true
  | .Enum e => p0.definitions.length ≤ i.toNat ∧ IsEnum s i (m.path.getD []) e
  | .GlobalLet f => p0.definitions.length ≤ i.toNat ∧
    ∃ a cls, f.declaration.annotations.find? (fun a => decide (a.kind = .AddField)) = some a ∧ a.Names s.pool cls ∧
      IsField s (m.Sees s mods) i cls (visibilityOf f.declaration.qualifiers) f ∧
      ∃ c, s.pool.definitionBy AnyDefinition.asClass cls = some c ∧ i ∈ c.fields
  | .Function f => ∃ at_, at_.index = i ∧ PutAt p0 s.pool (m.path.getD []) f at_ ∧ IsFunction s (m.Sees s mods) at_ f

/-- The declarations of a module whose conditions hold. -/
def SourceModule.enabled (mods : List ModulePath) (m : SourceModule) : List (SourceModule × SourceEntry) :=
  (m.entries.filter fun e => e.declaration.Enabled mods).map fun e => (m, e)

end Redscript
