import Verif.Unit.ClashSpec
import Verif.Unit.DeclAdds

/-!
# Steps that declare no classes
-/

namespace Redscript
open DeclM

set_option synthInstance.maxSize 2000
set_option synthInstance.maxHeartbeats 400000

/-- The error for a class that is declared twice. -/
abbrev Redefined : DeclDiag := .error .symbolRedefinition

/-- The error is another one. -/
class OtherErr (e : DeclErr) : Prop where
  ne : e ≠ .compile .symbolRedefinition

instance : OtherErr (.compile .pool) := ⟨by simp⟩
instance : OtherErr (.compile .functionNotFound) := ⟨by simp⟩
instance : OtherErr (.compile .classNotFound) := ⟨by simp⟩
instance : OtherErr (.compile .unresolvedReference) := ⟨by simp⟩
instance : OtherErr (.compile .unresolvedType) := ⟨by simp⟩
instance : OtherErr (.compile .unresolvedImport) := ⟨by simp⟩
instance : OtherErr (.compile .unresolvedModule) := ⟨by simp⟩
instance : OtherErr (.compile .invalidAnnotationArgs) := ⟨by simp⟩
instance : OtherErr (.compile .unsupportedFeature) := ⟨by simp⟩
instance : OtherErr (.compile .missingBody) := ⟨by simp⟩
instance : OtherErr (.compile .unexpectedBody) := ⟨by simp⟩
instance : OtherErr (.compile .unexpectedNative) := ⟨by simp⟩
instance : OtherErr (.compile .unsupportedPersistent) := ⟨by simp⟩
instance : OtherErr (.compile .noMethodWithMatchingSignature) := ⟨by simp⟩
instance : OtherErr (.compile .noMethodWithMatchingName) := ⟨by simp⟩
instance : OtherErr .cte := ⟨by simp⟩
instance : OtherErr .pool := ⟨by simp⟩
instance : OtherErr .panic := ⟨by simp⟩

/-- A step that leaves the symbols alone and does not say that a class is declared twice. -/
class Plain (m : DeclM α) : Prop where
  symbols : ∀ s : DeclState, (m s).2.symbols = s.symbols
  diags : ∀ s : DeclState, Redefined ∈ (m s).2.diagnostics ↔ Redefined ∈ s.diagnostics
  result : ∀ s s' : DeclState, m s ≠ (.error (.compile .symbolRedefinition), s')

namespace Plain

instance pure' (a : α) : Plain (Pure.pure a : DeclM α) := ⟨fun _ => rfl, fun _ => .rfl, fun _ _ h => by cases h⟩

instance bind' (m : DeclM α) (f : α → DeclM β) [hm : Plain m] [hf : ∀ a, Plain (f a)] : Plain (m >>= f) := by
  have key : ∀ s, (m >>= f) s = DeclM.bind m f s := fun _ => rfl
  refine ⟨fun s => ?_, fun s => ?_, fun s s' hs => ?_⟩
  · rw [key]; unfold DeclM.bind
    have h1 := hm.symbols s
    cases h : m s with
    | mk r s1 =>
      rw [h] at h1
      cases r with
      | error e => exact h1
      | ok a => exact ((hf a).symbols s1).trans h1
  · rw [key]; unfold DeclM.bind
    have h1 := hm.diags s
    cases h : m s with
    | mk r s1 =>
      rw [h] at h1
      cases r with
      | error e => exact h1
      | ok a => exact ((hf a).diags s1).trans h1
  · rw [key] at hs; unfold DeclM.bind at hs
    cases h : m s with
    | mk r s1 =>
      rw [h] at hs
      cases r with
      | error e => cases hs; exact hm.result s s' h
      | ok a => exact (hf a).result s1 s' hs

instance fail (e : DeclErr) [he : OtherErr e] : Plain (DeclM.fail e : DeclM α) :=
  ⟨fun _ => rfl, fun _ => .rfl, fun _ _ h => by unfold DeclM.fail at h; cases h; exact he.ne rfl⟩

instance read (f : DeclState → α) : Plain (DeclM.read f) := ⟨fun _ => rfl, fun _ => .rfl, fun _ _ h => by cases h⟩

instance readOr (e : DeclErr) (f : DeclState → Option α) [he : OtherErr e] : Plain (DeclM.readOr e f) := by
  refine ⟨fun s => ?_, fun s => ?_, fun s s' h => ?_⟩
  · unfold DeclM.readOr; cases f s <;> rfl
  · unfold DeclM.readOr; cases f s <;> exact .rfl
  · unfold DeclM.readOr at h
    cases hf : f s with
    | none => rw [hf] at h; cases h; exact he.ne rfl
    | some a => rw [hf] at h; cases h

theorem mem_push {l : List DeclDiag} {d : DeclDiag} (h : d ≠ Redefined) : Redefined ∈ l ++ [d] ↔ Redefined ∈ l := by
  rw [List.mem_append, List.mem_singleton]
  exact ⟨fun h' => h'.resolve_right fun e => h e.symm, .inl⟩

instance report (e : DeclErr) [he : OtherErr e] : Plain (DeclM.report e) := by
  refine ⟨fun s => ?_, fun s => ?_, fun s s' h => ?_⟩
  · cases e <;> rfl
  · cases e with
    | compile c => exact mem_push fun h => he.ne (by cases h; rfl)
    | cte => exact mem_push (by simp)
    | pool => exact .rfl
    | panic => exact .rfl
  · cases e <;> cases h

instance reporting (m : DeclM α) [hm : Plain m] : Plain (DeclM.reporting m) := by
  refine ⟨fun s => ?_, fun s => ?_, fun s s' hs => ?_⟩
  · unfold DeclM.reporting
    have h1 := hm.symbols s
    cases h : m s with
    | mk r s1 =>
      rw [h] at h1
      cases r with
      | error e => cases e <;> exact h1
      | ok a => exact h1
  · unfold DeclM.reporting
    have h1 := hm.diags s
    have h2 := hm.result s
    cases h : m s with
    | mk r s1 =>
      rw [h] at h1 h2
      cases r with
      | error e =>
        cases e with
        | compile c => exact (mem_push fun h => h2 s1 (by cases h; rfl)).trans h1
        | cte => exact (mem_push (by simp)).trans h1
        | pool => exact h1
        | panic => exact h1
      | ok a => exact h1
  · unfold DeclM.reporting at hs
    cases h : m s with
    | mk r s1 =>
      rw [h] at hs
      cases r with
      | error e => cases e <;> cases hs
      | ok a => cases hs

instance when (c : Bool) (m : DeclM Unit) [hm : Plain m] : Plain (DeclM.when c m) := by
  unfold DeclM.when; split
  · exact hm
  · infer_instance

instance ite (c : Prop) [Decidable c] (m m' : DeclM α) [hm : Plain m] [hm' : Plain m'] : Plain (if c then m else m') := by
  split
  · exact hm
  · exact hm'

/-- A change that leaves the symbols and the diagnostics alone. -/
theorem update (f : DeclState → DeclState) (h : ∀ s, (f s).symbols = s.symbols) (h' : ∀ s, (f s).diagnostics = s.diagnostics) :
    Plain (DeclM.update f) := ⟨h, fun s => by show Redefined ∈ (f s).diagnostics ↔ _; rw [h'], fun _ _ h => by cases h⟩

instance diagnoseField : Plain (DeclM.diagnose .fieldConflict) := ⟨fun _ => rfl, fun _ => mem_push (by simp), fun _ _ h => by cases h⟩

instance diagnoseMethod : Plain (DeclM.diagnose .addMethodConflict) := ⟨fun _ => rfl, fun _ => mem_push (by simp), fun _ _ h => by cases h⟩

instance diagnoseReplaced (i : Idx) : Plain (DeclM.diagnose (.replaceMethodConflict i)) := ⟨fun _ => rfl, fun _ => mem_push (by simp), fun _ _ h => by cases h⟩

instance pushRef (i : SourceRef) : Plain (DeclM.pushRef i) := update _ (fun _ => rfl) fun _ => rfl

instance addName (t : Text) : Plain (DeclM.addName t) := ⟨fun _ => rfl, fun _ => .rfl, fun _ _ h => by cases h⟩

instance addDefinition (d : Definition) : Plain (DeclM.addDefinition d) := ⟨fun _ => rfl, fun _ => .rfl, fun _ _ h => by cases h⟩

instance stub (i : Idx) : Plain (DeclM.stub i) := addDefinition _

instance put (i : Idx) (d : Definition) : Plain (DeclM.put i d) := by
  refine ⟨fun s => ?_, fun s => ?_, fun s s' h => ?_⟩
  · unfold DeclM.put; split <;> rfl
  · unfold DeclM.put; split <;> exact .rfl
  · unfold DeclM.put at h; split at h <;> cases h

instance nameOf (i : Idx) : Plain (DeclM.nameOf i) := readOr _ _

instance classAt (i : Idx) : Plain (DeclM.classAt i) := readOr _ _

instance onClass (i : Idx) (f : ClassDef → ClassDef) : Plain (DeclM.onClass i f) := by
  refine ⟨fun s => ?_, fun s => ?_, fun s s' h => ?_⟩
  · unfold DeclM.onClass; split <;> rfl
  · unfold DeclM.onClass; split <;> exact .rfl
  · unfold DeclM.onClass at h; split at h <;> cases h

instance typeIndex (t : TypeId) : Plain (typeIndex t) := by
  refine ⟨fun s => ?_, fun s => ?_, fun s s' h => ?_⟩
  · unfold Redscript.typeIndex; split <;> rfl
  · unfold Redscript.typeIndex; split <;> exact .rfl
  · unfold Redscript.typeIndex at h; split at h <;> cases h

instance tryResolveType (depth : Nat) (t : TypeName) : Plain (tryResolveType depth t) := by
  have hb : Plain (DeclM.report (.compile .unresolvedType) >>= fun _ => (Pure.pure TypeId.Null : DeclM TypeId)) := inferInstance
  refine ⟨fun s => ?_, fun s => ?_, fun s s' h => ?_⟩
  · unfold Redscript.tryResolveType; split
    · rfl
    · exact hb.symbols s
  · unfold Redscript.tryResolveType; split
    · exact .rfl
    · exact hb.diags s
  · unfold Redscript.tryResolveType at h; split at h
    · cases h
    · exact hb.result s s' h

instance defineSourceRef (loc : Option (String × BitVec 32)) : Plain (defineSourceRef loc) := by
  cases loc with
  | none => exact pure' _
  | some l =>
    obtain ⟨path, line⟩ := l
    refine ⟨fun s => ?_, fun s => ?_, fun s s' h => ?_⟩
    · unfold Redscript.defineSourceRef; simp only; split <;> rfl
    · unfold Redscript.defineSourceRef; simp only; split <;> exact .rfl
    · unfold Redscript.defineSourceRef at h; simp only at h; split at h <;> cases h

instance targetMethod (cls : Idx) (n sig : Text) : Plain (targetMethod cls n sig) := by
  refine ⟨fun s => ?_, fun s => ?_, fun s s' h => ?_⟩
  · unfold Redscript.targetMethod; split
    · rfl
    · split <;> rfl
  · unfold Redscript.targetMethod; split
    · exact .rfl
    · split <;> exact .rfl
  · unfold Redscript.targetMethod at h; split at h
    · cases h
    · split at h <;> cases h

instance declareWrap (cls : Idx) (n sig : Text) : Plain (declareWrap cls n sig) := by
  refine ⟨fun s => ?_, fun s => ?_, fun s s' h => ?_⟩
  · unfold Redscript.declareWrap; split <;> rfl
  · unfold Redscript.declareWrap; split <;> exact .rfl
  · unfold Redscript.declareWrap at h; split at h <;> cases h

instance importOne (imp : Import) : Plain (importOne imp) := by
  have he : ∀ e : ImportErr, OtherErr e.toDecl := fun e => by cases e <;> exact ⟨by simp [ImportErr.toDecl]⟩
  refine ⟨fun s => ?_, fun s => ?_, fun s s' h => ?_⟩
  · unfold Redscript.importOne; split
    · rfl
    · next e _ => exact (@Plain.report e.toDecl (he e)).symbols _
  · unfold Redscript.importOne; split
    · exact .rfl
    · next e _ => exact (@Plain.report e.toDecl (he e)).diags _
  · unfold Redscript.importOne at h; split at h
    · cases h
    · next e _ => exact (@Plain.report e.toDecl (he e)).result _ _ h

/-! ## The steps -/

instance defineParams (depth : Nat) (i : Idx) : ∀ ps, Plain (defineParams depth i ps)
  | [] => pure' _
  | p :: ps => by
    have := defineParams depth i ps
    unfold Redscript.defineParams
    infer_instance

instance defineReturn (depth : Nat) (t : Option TypeName) : Plain (defineReturn depth t) := by
  unfold Redscript.defineReturn
  cases t <;> infer_instance

instance checkFunction (spec : FunctionSpec) : Plain (checkFunction spec) := by
  unfold Redscript.checkFunction
  infer_instance

instance pushBody (spec : FunctionSpec) : Plain (pushBody spec) := by
  unfold Redscript.pushBody
  cases spec.source.body with
  | none => infer_instance
  | some _ => exact update _ (fun _ => rfl) fun _ => rfl

instance pushDefault (i cls : Idx) (f : FieldSource) : Plain (pushDefault i cls f) := by
  unfold Redscript.pushDefault
  cases f.default with
  | none => infer_instance
  | some _ => exact update _ (fun _ => rfl) fun _ => rfl

instance defineFunction (depth : Nat) (spec : FunctionSpec) : Plain (defineFunction depth spec) := by
  unfold Redscript.defineFunction
  infer_instance

instance defineField (depth : Nat) (i cls : Idx) (fl : ClassFlags) (v : Visibility) (f : FieldSource) :
    Plain (defineField depth i cls fl v f) := by
  unfold Redscript.defineField
  infer_instance

instance conditions (cx : DeclCtx) (anns : List Annotation) : Plain (conditions cx anns) := readOr _ _

instance defineMembers (cx : DeclCtx) (cls : Idx) (fl : ClassFlags) (v : Visibility) (b : Bool) :
    ∀ ms, Plain (defineMembers cx cls fl v b ms)
  | [] => pure' _
  | .Function f :: ms => by
    have := defineMembers cx cls fl v b ms
    unfold Redscript.defineMembers
    infer_instance
  | .Field f :: ms => by
    have := defineMembers cx cls fl v b ms
    unfold Redscript.defineMembers
    infer_instance

instance defineBase (c : ClassSource) (b : Bool) : Plain (defineBase c b) := by
  unfold Redscript.defineBase
  split
  · infer_instance
  · split
    · refine @Plain.bind' _ _ _ _ inferInstance fun a => ?_
      split <;> infer_instance
    · infer_instance

instance defineClass (cx : DeclCtx) (i : Idx) (v : Visibility) (c : ClassSource) (b : Bool) :
    Plain (defineClass cx i v c b) := by
  unfold Redscript.defineClass
  infer_instance

instance defineEnumMembers (i : Idx) : ∀ ms, Plain (defineEnumMembers i ms)
  | [] => pure' _
  | (n, v) :: ms => by
    have := defineEnumMembers i ms
    unfold Redscript.defineEnumMembers
    infer_instance

instance defineEnum (i : Idx) (e : EnumSource) : Plain (defineEnum i e) := by
  unfold Redscript.defineEnum
  infer_instance

instance annTarget (a : Annotation) : Plain (annTarget a) := readOr _ _

instance defineAddField (cx : DeclCtx) (i : Idx) (v : Visibility) (f : FieldSource) (a : Annotation) :
    Plain (defineAddField cx i v f a) := by
  unfold Redscript.defineAddField
  refine @Plain.bind' _ _ _ _ inferInstance fun x => @Plain.bind' _ _ _ _ inferInstance fun sym => ?_
  split <;> infer_instance

instance defineGlobalLet (cx : DeclCtx) (i : Idx) (v : Visibility) (f : FieldSource) : Plain (defineGlobalLet cx i v f) := by
  unfold Redscript.defineGlobalLet
  split <;> infer_instance

instance targetClass (a : Annotation) : Plain (targetClass a) := by
  unfold Redscript.targetClass
  refine @Plain.bind' _ _ _ _ inferInstance fun x => @Plain.bind' _ _ _ _ inferInstance fun sym => ?_
  split <;> infer_instance

instance locateWrap (a : Annotation) (f : FunctionSource) (v : Visibility) : Plain (locateWrap a f v) := by
  unfold Redscript.locateWrap
  infer_instance

instance locateReplace (a : Annotation) (f : FunctionSource) (v : Visibility) : Plain (locateReplace a f v) := by
  unfold Redscript.locateReplace
  infer_instance

instance locateGlobal (f : FunctionSource) (v : Visibility) : Plain (locateGlobal f v) := by
  unfold Redscript.locateGlobal
  infer_instance

instance addedBase (c : ClassDef) (sig : Text) : Plain (addedBase c sig) := by
  unfold Redscript.addedBase
  infer_instance

instance locateAdd (a : Annotation) (f : FunctionSource) (v : Visibility) : Plain (locateAdd a f v) := by
  unfold Redscript.locateAdd
  infer_instance

instance ownSymbols (path : ModulePath) : Plain (ownSymbols path) := by
  unfold Redscript.ownSymbols
  split
  · infer_instance
  · refine update _ (fun s => ?_) fun s => ?_
    · split <;> rfl
    · split <;> rfl

instance importAll (cx : DeclCtx) : ∀ is, Plain (importAll cx is)
  | [] => pure' _
  | (imp, anns) :: is => by
    have := importAll cx is
    unfold Redscript.importAll
    infer_instance

instance parentFlags (i : Idx) : Plain (parentFlags i) := by
  unfold Redscript.parentFlags
  infer_instance

instance defineSlot (cx : DeclCtx) (seen : List Idx) (s : Slot) : Plain (defineSlot cx seen s) := by
  cases s <;> unfold Redscript.defineSlot <;> infer_instance

instance defineSlots (cx : DeclCtx) : ∀ (ss : List Slot) (seen : List Idx), Plain (defineSlots cx ss seen)
  | [], _ => pure' _
  | s :: ss, seen => by
    have := defineSlots cx ss
    unfold Redscript.defineSlots
    infer_instance

instance moduleScope (f : DeclState → Scope) : Plain (DeclM.update fun s => { s with moduleScope := f s }) := update _ (fun _ => rfl) fun _ => rfl

instance defineQueue (cx : DeclCtx) : ∀ (qs : List Queued) (seen : List Idx), Plain (defineQueue cx qs seen)
  | [], _ => pure' _
  | q :: qs, seen => by
    have := defineQueue cx qs
    unfold Redscript.defineQueue
    infer_instance

end Plain
end Redscript
