import Verif.Unit.DeclModel

/-!
# What declarations may do to the pool (specification)
-/

namespace Redscript

/-- An entry of the modules whose conditions hold. -/
def Declares (ms : List SourceModule) (e : SourceEntry) : Prop :=
  ∃ m ∈ ms, e ∈ m.entries ∧ evalConditions (ms.filterMap (·.path)) e.declaration.annotations = some true

/-- The declaration has an annotation of this kind that names `x`. -/
def DeclSource.Targets (d : DeclSource) (kind : AnnotationKind) (x : Text) : Prop :=
  ∃ a ∈ d.annotations, a.kind = kind ∧ a.target = some x

/-- The last part of the name of a definition, without the parameters of a function. -/
def LastName (p : ConstantPool) (i : Idx) (x : Text) : Prop :=
  ∃ t, p.defName i = some t ∧ (ModulePath.parse t).getLast? = some x

/-- Some `@wrapMethod` or `@addMethod` names the class. -/
def MethodsAdded (p : ConstantPool) (ms : List SourceModule) (cls : Idx) : Prop :=
  ∃ f x, Declares ms (.Function f) ∧ (f.declaration.Targets .WrapMethod x ∨ f.declaration.Targets .AddMethod x) ∧
    LastName p cls x

/-- Some `@addField` names the class. -/
def FieldsAdded (p : ConstantPool) (ms : List SourceModule) (cls : Idx) : Prop :=
  ∃ f x, Declares ms (.GlobalLet f) ∧ f.declaration.Targets .AddField x ∧ LastName p cls x

/-- `d'` is the class `d` with new members at the end of the lists, and only such as were asked for. -/
def Extended (p : ConstantPool) (ms : List SourceModule) (i : Idx) (d d' : Definition) : Prop :=
  ∃ c fs gs, d.value = .Class c ∧
    d' = { d with value := .Class { c with functions := c.functions ++ fs, fields := c.fields ++ gs } } ∧
    (∀ f ∈ fs, p.definitions.length ≤ f.toNat) ∧ (∀ g ∈ gs, p.definitions.length ≤ g.toNat) ∧
    (fs ≠ [] → MethodsAdded p ms i) ∧ (gs ≠ [] → FieldsAdded p ms i)

/-- The source function `f` asks for the definition `i` to be replaced: as the method of the class `parent`
with its signature, or as the global function with its name and signature. -/
def AsksToReplace (p : ConstantPool) (f : FunctionSource) (i parent : Idx) : Prop :=
  p.defName i = some f.sig ∧
    ((∃ x c, f.declaration.Targets .ReplaceMethod x ∧ LastName p parent x ∧
        p.definitionBy AnyDefinition.asClass parent = some c ∧ i ∈ c.functions) ∨
      ((∃ a ∈ f.declaration.annotations, a.kind = .ReplaceGlobal) ∧ parent = 0 ∧ LastName p i f.declaration.name))

/-- `d'` is a function of the sources in the place of `d`: it has the old name, and unless it is static it
overrides what the old one overrode. -/
def Replaced (p : ConstantPool) (ms : List SourceModule) (i : Idx) (d d' : Definition) : Prop :=
  ∃ f parent g, Declares ms (.Function f) ∧ AsksToReplace p f i parent ∧
    d' = .mk' d.name parent (.Function g) ∧ g.visibility = visibilityOf f.declaration.qualifiers ∧
    flag FunctionFlags.isNativeBit g.flags = false ∧
    g.parameters.length = f.parameters.length ∧
    g.baseMethod = if f.declaration.has .Static || decide (parent = 0) then none else (p.function i).bind (·.baseMethod)

end Redscript
