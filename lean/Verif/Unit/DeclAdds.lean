import Verif.Unit.DeclModel
import Verif.Unit.WrapProps

/-!
# Declarations do not remove definitions
-/

namespace Redscript
open DeclM

set_option synthInstance.maxSize 2000
set_option synthInstance.maxHeartbeats 400000

/-- The number of definitions. -/
abbrev DeclState.len (s : DeclState) : Nat := s.pool.definitions.length

/-- The table after adding names. -/
def Strings.Later (S S' : Strings) : Prop := ∃ l, S' = S.addAll Strings.cnameDefault l

theorem Strings.Later.refl (S : Strings) : S.Later S := ⟨[], rfl⟩

theorem Strings.Later.trans {S S' S'' : Strings} : S.Later S' → S'.Later S'' → S.Later S'' := by
  rintro ⟨l, rfl⟩ ⟨l', rfl⟩
  exact ⟨l ++ l', by unfold Strings.addAll; rw [List.foldl_append]⟩

theorem Strings.Later.add (S : Strings) (t : String) : S.Later (S.add Strings.cnameDefault t).2 := ⟨[t], rfl⟩

/-- A later state: there are no fewer definitions, names have only been added, and no diagnostic is taken back. -/
structure DeclState.Later (s s' : DeclState) : Prop where
  defs : s.len ≤ s'.len
  names : s.pool.names.Later s'.pool.names
  diags : s'.diagnostics = [] → s.diagnostics = []

theorem DeclState.Later.refl (s : DeclState) : s.Later s := ⟨Nat.le_refl _, .refl _, id⟩

theorem DeclState.Later.trans {s s' s'' : DeclState} (h : s.Later s') (k : s'.Later s'') : s.Later s'' :=
  ⟨Nat.le_trans h.defs k.defs, h.names.trans k.names, fun d => h.diags (k.diags d)⟩

/-- A step that leads to a later state. -/
class AddsDefs (m : DeclM α) : Prop where
  later : ∀ s : DeclState, s.Later (m s).2

namespace AddsDefs

theorem grows {m : DeclM α} (h : AddsDefs m) (s : DeclState) : s.len ≤ (m s).2.len := (h.later s).defs

instance pure' (a : α) : AddsDefs (Pure.pure a : DeclM α) := ⟨fun s => .refl s⟩

instance bind' (m : DeclM α) (f : α → DeclM β) [hm : AddsDefs m] [hf : ∀ a, AddsDefs (f a)] : AddsDefs (m >>= f) := ⟨fun s => by
  show s.Later (DeclM.bind m f s).2
  unfold DeclM.bind
  have h1 := hm.later s
  cases h : m s with
  | mk r s' =>
    rw [h] at h1
    cases r with
    | error e => exact h1
    | ok a => exact h1.trans ((hf a).later s')⟩

instance fail (e : DeclErr) : AddsDefs (DeclM.fail e : DeclM α) := ⟨fun s => .refl s⟩

instance read (f : DeclState → α) : AddsDefs (DeclM.read f) := ⟨fun s => .refl s⟩

instance readOr (e : DeclErr) (f : DeclState → Option α) : AddsDefs (DeclM.readOr e f) := ⟨fun s => by
  unfold DeclM.readOr; cases f s <;> exact .refl s⟩

instance report (e : DeclErr) : AddsDefs (DeclM.report e) := ⟨fun s => by
  unfold DeclM.report
  cases e with
  | compile c => exact ⟨Nat.le_refl _, .refl _, fun h => (List.append_eq_nil_iff.1 h).1⟩
  | cte => exact ⟨Nat.le_refl _, .refl _, fun h => (List.append_eq_nil_iff.1 h).1⟩
  | pool => exact .refl s
  | panic => exact .refl s⟩

instance reporting (m : DeclM α) [hm : AddsDefs m] : AddsDefs (DeclM.reporting m) := ⟨fun s => by
  unfold DeclM.reporting
  have h1 := hm.later s
  cases h : m s with
  | mk r s' =>
    rw [h] at h1
    cases r with
    | error e => exact h1.trans ((AddsDefs.bind' (DeclM.report e) (fun _ => Pure.pure none)).later s')
    | ok a => exact h1⟩

instance when (c : Bool) (m : DeclM Unit) [hm : AddsDefs m] : AddsDefs (DeclM.when c m) := by
  unfold DeclM.when; split
  · exact hm
  · infer_instance

instance ite (c : Prop) [Decidable c] (m m' : DeclM α) [hm : AddsDefs m] [hm' : AddsDefs m'] : AddsDefs (if c then m else m') := by
  split
  · exact hm
  · exact hm'

/-- A change that leaves the pool and the diagnostics alone. -/
theorem update (f : DeclState → DeclState) (h : ∀ s, (f s).pool = s.pool) (h' : ∀ s, (f s).diagnostics = s.diagnostics) :
    AddsDefs (DeclM.update f) := ⟨fun s => by
  show s.Later (f s)
  refine ⟨?_, ?_, ?_⟩
  · unfold DeclState.len; rw [h]; exact Nat.le_refl _
  · rw [h]; exact .refl _
  · rw [h']; exact id⟩

instance diagnose (d : DeclDiag) : AddsDefs (DeclM.diagnose d) :=
  ⟨fun _ => ⟨Nat.le_refl _, .refl _, fun h => (List.append_eq_nil_iff.1 h).1⟩⟩

instance pushRef (i : SourceRef) : AddsDefs (DeclM.pushRef i) := update _ (fun _ => rfl) fun _ => rfl

instance addName (t : Text) : AddsDefs (DeclM.addName t) := ⟨fun _ => ⟨Nat.le_refl _, .add _ _, id⟩⟩

instance addDefinition (d : Definition) : AddsDefs (DeclM.addDefinition d) := ⟨fun s => by
  refine ⟨?_, .refl _, id⟩
  show s.len ≤ (s.pool.definitions ++ [d]).length
  rw [List.length_append]; exact Nat.le_add_right _ _⟩

instance stub (i : Idx) : AddsDefs (DeclM.stub i) := addDefinition _

instance put (i : Idx) (d : Definition) : AddsDefs (DeclM.put i d) := ⟨fun s => by
  unfold DeclM.put ConstantPool.putDefinition
  by_cases h : i.toNat < s.pool.definitions.length
  · rw [if_pos h]
    refine ⟨?_, .refl _, id⟩
    show s.len ≤ (s.pool.definitions.set i.toNat d).length
    rw [List.length_set]; exact Nat.le_refl _
  · rw [if_neg h]; exact .refl s⟩

instance nameOf (i : Idx) : AddsDefs (DeclM.nameOf i) := readOr _ _

instance classAt (i : Idx) : AddsDefs (DeclM.classAt i) := readOr _ _

theorem _root_.Redscript.modifyValue_sizes {p p' : ConstantPool} {g : AnyDefinition → Option AnyDefinition} {i : Idx}
    (h : p.modifyValue g i = some p') : p'.definitions.length = p.definitions.length ∧ p'.names = p.names := by
  unfold ConstantPool.modifyValue at h
  cases hd : p.definitions[i.toNat]? with
  | none => rw [hd] at h; cases h
  | some d =>
    rw [hd] at h
    simp only [Option.bind_some, Option.map_eq_some_iff] at h
    obtain ⟨v, _, rfl⟩ := h
    exact ⟨List.length_set, rfl⟩

instance onClass (i : Idx) (f : ClassDef → ClassDef) : AddsDefs (DeclM.onClass i f) := ⟨fun s => by
  unfold DeclM.onClass
  cases h : s.pool.modifyValue (AnyDefinition.onClass f) i with
  | none => exact .refl s
  | some p =>
    obtain ⟨h1, h2⟩ := modifyValue_sizes h
    refine ⟨?_, ?_, id⟩
    · show s.len ≤ p.definitions.length
      rw [h1]; exact Nat.le_refl _
    · show s.pool.names.Later p.names
      rw [h2]; exact .refl _⟩

/-! ## Types -/

/-- The pool with further names, and with types as further definitions. -/
def _root_.Redscript.TypesAdded (p p' : ConstantPool) : Prop :=
  p.names.Later p'.names ∧
    ∃ ds, p'.definitions = p.definitions ++ ds ∧ ∀ d ∈ ds, ∃ n t, d = typeDefinition n t

theorem _root_.Redscript.TypesAdded.refl (p : ConstantPool) : TypesAdded p p := ⟨.refl _, [], by simp, by simp⟩

theorem _root_.Redscript.TypesAdded.trans {p q r : ConstantPool} (h : TypesAdded p q) (k : TypesAdded q r) : TypesAdded p r := by
  obtain ⟨h1, ds, h2, h3⟩ := h
  obtain ⟨k1, es, k2, k3⟩ := k
  refine ⟨h1.trans k1, ds ++ es, by rw [k2, h2, List.append_assoc], fun d hd => ?_⟩
  rcases List.mem_append.1 hd with hd | hd
  · exact h3 d hd
  · exact k3 d hd

theorem _root_.Redscript.typeEntry_adds {sc sc' : Scope} {p p' : ConstantPool} {name : Option Text} {i : Idx}
    {inner : Scope → ConstantPool → Except Err (PoolType × Scope × ConstantPool)}
    (hin : ∀ sc p v sc' p', inner sc p = .ok (v, sc', p') → TypesAdded p p' ∧ sc'.symbols = sc.symbols)
    (h : typeEntry sc p name inner = .ok (i, sc', p')) : TypesAdded p p' ∧ sc'.symbols = sc.symbols := by
  unfold typeEntry at h
  cases name with
  | none => cases h
  | some name =>
    simp only at h
    cases hg : sc.types.get name with
    | some j => rw [hg] at h; cases h; exact ⟨TypesAdded.refl p, rfl⟩
    | none =>
      rw [hg] at h
      simp only at h
      cases hi : inner sc { p with names := (p.names.add Strings.cnameDefault (String.ofList name)).2 } with
      | error e => rw [hi] at h; cases h
      | ok r =>
        obtain ⟨v, sc1, p1⟩ := r
        rw [hi] at h
        simp only [Except.ok.injEq, Prod.mk.injEq] at h
        obtain ⟨rfl, rfl, rfl⟩ := h
        obtain ⟨k1, k2⟩ := hin _ _ _ _ _ hi
        refine ⟨TypesAdded.trans (TypesAdded.trans ?_ k1) ?_, k2⟩
        · exact ⟨.add _ _, [], by simp, by simp⟩
        · exact ⟨.refl _, [_], rfl, fun d hd => ⟨_, _, List.mem_singleton.1 hd⟩⟩

theorem _root_.Redscript.getTypeIndex_adds : ∀ (t : TypeId) {sc sc' : Scope} {p p' : ConstantPool} {i : Idx},
    getTypeIndex sc p t = .ok (i, sc', p') → TypesAdded p p' ∧ sc'.symbols = sc.symbols
  | .Prim _, _, _, _, _, _, h | .Variant, _, _, _, _, _, h | .Class _, _, _, _, _, _, h | .Struct _, _, _, _, _, _, h
  | .Enum _, _, _, _, _, _, h => by
    unfold getTypeIndex at h
    exact typeEntry_adds (fun _ _ _ _ _ hi => by cases hi; exact ⟨TypesAdded.refl _, rfl⟩) h
  | .Null, _, _, _, _, _, h | .Void, _, _, _, _, _, h => by
    unfold getTypeIndex at h
    exact typeEntry_adds (fun _ _ _ _ _ hi => by cases hi) h
  | .Ref t, _, _, _, _, _, h | .WeakRef t, _, _, _, _, _, h | .Array t, _, _, _, _, _, h
  | .StaticArray t _, _, _, _, _, _, h | .ScriptRef t, _, _, _, _, _, h => by
    unfold getTypeIndex at h
    refine typeEntry_adds (fun sc p v sc' p' hi => ?_) h
    cases hr : getTypeIndex sc p t with
    | error e => rw [hr] at hi; cases hi
    | ok r =>
      obtain ⟨j, sc1, p1⟩ := r
      rw [hr] at hi; cases hi
      exact getTypeIndex_adds t hr

instance typeIndex (t : TypeId) : AddsDefs (typeIndex t) := ⟨fun s => by
  unfold Redscript.typeIndex
  cases h : getTypeIndex s.moduleScope s.pool t with
  | error e => cases e <;> exact .refl s
  | ok r =>
    obtain ⟨i, sc, p⟩ := r
    obtain ⟨⟨h1, ds, h2, _⟩, _⟩ := getTypeIndex_adds t h
    refine ⟨?_, h1, id⟩
    show s.len ≤ p.definitions.length
    rw [h2, List.length_append]; exact Nat.le_add_right _ _⟩

instance tryResolveType (depth : Nat) (t : TypeName) : AddsDefs (tryResolveType depth t) := ⟨fun s => by
  unfold Redscript.tryResolveType
  cases s.moduleScope.resolveType s.pool depth t with
  | some ty => exact .refl s
  | none => exact (AddsDefs.bind' (DeclM.report _) (fun _ => Pure.pure TypeId.Null)).later s⟩

/-! ## The steps -/

instance defineParams (depth : Nat) (i : Idx) : ∀ ps, AddsDefs (defineParams depth i ps)
  | [] => pure' _
  | p :: ps => by
    have := defineParams depth i ps
    unfold Redscript.defineParams
    infer_instance

instance defineReturn (depth : Nat) (t : Option TypeName) : AddsDefs (defineReturn depth t) := by
  unfold Redscript.defineReturn
  cases t <;> infer_instance

instance checkFunction (spec : FunctionSpec) : AddsDefs (checkFunction spec) := by
  unfold Redscript.checkFunction
  infer_instance

instance pushBody (spec : FunctionSpec) : AddsDefs (pushBody spec) := by
  unfold Redscript.pushBody
  cases spec.source.body with
  | none => infer_instance
  | some _ => exact update _ (fun _ => rfl) fun _ => rfl

instance pushDefault (i cls : Idx) (f : FieldSource) : AddsDefs (pushDefault i cls f) := by
  unfold Redscript.pushDefault
  cases f.default with
  | none => infer_instance
  | some _ => exact update _ (fun _ => rfl) fun _ => rfl

instance defineFunction (depth : Nat) (spec : FunctionSpec) : AddsDefs (defineFunction depth spec) := by
  unfold Redscript.defineFunction
  infer_instance

instance defineField (depth : Nat) (i cls : Idx) (fl : ClassFlags) (v : Visibility) (f : FieldSource) :
    AddsDefs (defineField depth i cls fl v f) := by
  unfold Redscript.defineField
  infer_instance

instance defineSourceRef (loc : Option (String × BitVec 32)) : AddsDefs (defineSourceRef loc) := by
  unfold Redscript.defineSourceRef
  cases loc with
  | none => infer_instance
  | some l =>
    obtain ⟨path, line⟩ := l
    refine ⟨fun s => ?_⟩
    simp only
    cases s.files.find? (fun e => decide (e.1 = path)) with
    | some e => exact .refl s
    | none =>
      refine ⟨?_, .refl _, id⟩
      show s.len ≤ (s.pool.definitions ++ [_]).length
      rw [List.length_append]; exact Nat.le_add_right _ _

instance conditions (cx : DeclCtx) (anns : List Annotation) : AddsDefs (conditions cx anns) := readOr _ _

instance defineMembers (cx : DeclCtx) (cls : Idx) (fl : ClassFlags) (v : Visibility) (b : Bool) :
    ∀ ms, AddsDefs (defineMembers cx cls fl v b ms)
  | [] => pure' _
  | .Function f :: ms => by
    have := defineMembers cx cls fl v b ms
    unfold Redscript.defineMembers
    infer_instance
  | .Field f :: ms => by
    have := defineMembers cx cls fl v b ms
    unfold Redscript.defineMembers
    infer_instance

instance defineBase (c : ClassSource) (b : Bool) : AddsDefs (defineBase c b) := by
  unfold Redscript.defineBase
  split
  · infer_instance
  · split
    · refine @AddsDefs.bind' _ _ _ _ inferInstance fun a => ?_
      split <;> infer_instance
    · infer_instance

instance defineClass (cx : DeclCtx) (i : Idx) (v : Visibility) (c : ClassSource) (b : Bool) :
    AddsDefs (defineClass cx i v c b) := by
  unfold Redscript.defineClass
  infer_instance

instance defineEnumMembers (i : Idx) : ∀ ms, AddsDefs (defineEnumMembers i ms)
  | [] => pure' _
  | (n, v) :: ms => by
    have := defineEnumMembers i ms
    unfold Redscript.defineEnumMembers
    infer_instance

instance defineEnum (i : Idx) (e : EnumSource) : AddsDefs (defineEnum i e) := by
  unfold Redscript.defineEnum
  infer_instance

instance annTarget (a : Annotation) : AddsDefs (annTarget a) := readOr _ _

instance defineAddField (cx : DeclCtx) (i : Idx) (v : Visibility) (f : FieldSource) (a : Annotation) :
    AddsDefs (defineAddField cx i v f a) := by
  unfold Redscript.defineAddField
  refine @AddsDefs.bind' _ _ _ _ inferInstance fun x => @AddsDefs.bind' _ _ _ _ inferInstance fun sym => ?_
  split <;> infer_instance

instance defineGlobalLet (cx : DeclCtx) (i : Idx) (v : Visibility) (f : FieldSource) : AddsDefs (defineGlobalLet cx i v f) := by
  unfold Redscript.defineGlobalLet
  split <;> infer_instance

instance targetClass (a : Annotation) : AddsDefs (targetClass a) := by
  unfold Redscript.targetClass
  refine @AddsDefs.bind' _ _ _ _ inferInstance fun x => @AddsDefs.bind' _ _ _ _ inferInstance fun sym => ?_
  split <;> infer_instance

instance targetMethod (cls : Idx) (n sig : Text) : AddsDefs (targetMethod cls n sig) := ⟨fun s => by
  unfold Redscript.targetMethod
  cases directMethods s.pool n cls with
  | none => exact .refl s
  | some fs => cases h : byId s.pool sig fs <;> simp only [h] <;> exact .refl s⟩

theorem _root_.Redscript.modify_length {p p' : ConstantPool} {f : AnyDefinition → Option AnyDefinition} {i : Idx}
    (h : p.modifyValue f i = some p') : p'.definitions.length = p.definitions.length := by
  unfold ConstantPool.modifyValue at h
  cases hd : p.definitions[i.toNat]? with
  | none => rw [hd] at h; cases h
  | some d =>
    rw [hd] at h
    simp only [Option.bind_some, Option.map_eq_some_iff] at h
    obtain ⟨v, _, rfl⟩ := h
    exact List.length_set ..

theorem _root_.Redscript.wrappedIdx_length (st : Wraps) (f : Idx) :
    st.pool.definitions.length ≤ (st.wrappedIdx f).2.1.definitions.length := by
  unfold Wraps.wrappedIdx
  cases st.wrappers.get f with
  | some w => exact Nat.le_refl _
  | none =>
    show _ ≤ (st.pool.definitions ++ [_]).length
    rw [List.length_append]; exact Nat.le_add_right _ _

theorem _root_.Redscript.wrappedIdx_names (st : Wraps) (f : Idx) : (st.wrappedIdx f).2.1.names = st.pool.names := by
  unfold Wraps.wrappedIdx
  cases st.wrappers.get f <;> rfl

instance declareWrap (cls : Idx) (n sig : Text) : AddsDefs (declareWrap cls n sig) := ⟨fun s => by
  unfold Redscript.declareWrap
  cases h : Wraps.declare ⟨s.pool, s.wrappers, s.proxies⟩ n sig cls with
  | error e => exact .refl s
  | ok r =>
    obtain ⟨w, st⟩ := r
    obtain ⟨wrapped, pool, proxies, pool1, pool2, name, _, h2, _, _, h5, _, h7, h8, _⟩ := declare_spec h
    have k1 := wrappedIdx_length ⟨s.pool, s.wrappers, s.proxies⟩ w.target
    have k2 := wrappedIdx_names ⟨s.pool, s.wrappers, s.proxies⟩ w.target
    rw [h2] at k1 k2
    have h7 : pool2 = (pool1.stubDefinition name).2 := congrArg Prod.snd h7
    obtain ⟨h9, h10⟩ := modifyValue_sizes h8
    refine ⟨?_, ?_, id⟩
    · show s.len ≤ st.pool.definitions.length
      rw [h9, h7, h5]
      show _ ≤ (pool.definitions ++ [_]).length
      rw [List.length_append]
      exact Nat.le_trans k1 (Nat.le_add_right _ _)
    · show s.pool.names.Later st.pool.names
      rw [h10, h7, h5]
      show s.pool.names.Later (pool.names.add _ _).2
      have k2 : pool.names = s.pool.names := k2
      rw [k2]
      exact .add _ _⟩

instance locateWrap (a : Annotation) (f : FunctionSource) (v : Visibility) : AddsDefs (locateWrap a f v) := by
  unfold Redscript.locateWrap
  infer_instance

instance locateReplace (a : Annotation) (f : FunctionSource) (v : Visibility) : AddsDefs (locateReplace a f v) := by
  unfold Redscript.locateReplace
  infer_instance

instance locateGlobal (f : FunctionSource) (v : Visibility) : AddsDefs (locateGlobal f v) := by
  unfold Redscript.locateGlobal
  infer_instance

instance addedBase (c : ClassDef) (sig : Text) : AddsDefs (addedBase c sig) := by
  unfold Redscript.addedBase
  infer_instance

instance locateAdd (a : Annotation) (f : FunctionSource) (v : Visibility) : AddsDefs (locateAdd a f v) := by
  unfold Redscript.locateAdd
  infer_instance

instance addSymbols (f : DeclState → SymbolMap) : AddsDefs (DeclM.update fun s => { s with symbols := f s }) := update _ (fun _ => rfl) fun _ => rfl

instance addScope (f : DeclState → Scope) : AddsDefs (DeclM.update fun s => { s with scope := f s }) := update _ (fun _ => rfl) fun _ => rfl

instance locatePlain (f : FunctionSource) (m : ModulePath) (v : Visibility) : AddsDefs (locatePlain f m v) := by
  unfold Redscript.locatePlain
  infer_instance

instance locateFunction (f : FunctionSource) (m : ModulePath) : AddsDefs (locateFunction f m) := by
  unfold Redscript.locateFunction
  simp only
  split
  · infer_instance
  · split <;> infer_instance

instance defineNamed (m : ModulePath) (n : Text) (sym : Idx → Symbol) : AddsDefs (defineNamed m n sym) := by
  unfold Redscript.defineNamed
  infer_instance

instance checkRedefinition (cx : DeclCtx) (path : ModulePath) : AddsDefs (checkRedefinition cx path) := by
  unfold Redscript.checkRedefinition
  infer_instance

instance defineSymbol (cx : DeclCtx) (m : ModulePath) (e : SourceEntry) : AddsDefs (defineSymbol cx m e) := by
  cases e <;> unfold Redscript.defineSymbol <;> infer_instance

instance defineEntries (cx : DeclCtx) (m : ModulePath) : ∀ es, AddsDefs (defineEntries cx m es)
  | [] => pure' _
  | e :: es => by
    have := defineEntries cx m es
    unfold Redscript.defineEntries
    infer_instance

instance defineModules (cx : DeclCtx) : ∀ ms, AddsDefs (defineModules cx ms)
  | [] => pure' _
  | m :: ms => by
    have := defineModules cx ms
    unfold Redscript.defineModules
    infer_instance

instance ownSymbols (path : ModulePath) : AddsDefs (ownSymbols path) := by
  unfold Redscript.ownSymbols
  split
  · infer_instance
  · refine update _ (fun s => ?_) fun s => ?_
    · split <;> rfl
    · split <;> rfl

instance importOne (imp : Import) : AddsDefs (importOne imp) := ⟨fun s => by
  unfold Redscript.importOne
  cases s.symbols.populateImport imp .pub s.moduleScope with
  | ok sc => exact ⟨Nat.le_refl _, .refl _, id⟩
  | error e =>
    have := (AddsDefs.report e.toDecl).later { s with moduleScope := s.symbols.importKept .pub s.moduleScope imp }
    exact ⟨this.defs, this.names, this.diags⟩⟩

instance importAll (cx : DeclCtx) : ∀ is, AddsDefs (importAll cx is)
  | [] => pure' _
  | (imp, anns) :: is => by
    have := importAll cx is
    unfold Redscript.importAll
    infer_instance

instance parentFlags (i : Idx) : AddsDefs (parentFlags i) := by
  unfold Redscript.parentFlags
  infer_instance

instance defineSlot (cx : DeclCtx) (seen : List Idx) (s : Slot) : AddsDefs (defineSlot cx seen s) := by
  cases s <;> unfold Redscript.defineSlot <;> infer_instance

instance defineSlots (cx : DeclCtx) : ∀ (ss : List Slot) (seen : List Idx), AddsDefs (defineSlots cx ss seen)
  | [], _ => pure' _
  | s :: ss, seen => by
    have := defineSlots cx ss
    unfold Redscript.defineSlots
    infer_instance

instance moduleScope (f : DeclState → Scope) : AddsDefs (DeclM.update fun s => { s with moduleScope := f s }) := update _ (fun _ => rfl) fun _ => rfl

instance defineQueue (cx : DeclCtx) : ∀ (qs : List Queued) (seen : List Idx), AddsDefs (defineQueue cx qs seen)
  | [], _ => pure' _
  | q :: qs, seen => by
    have := defineQueue cx qs
    unfold Redscript.defineQueue
    infer_instance

end AddsDefs
end Redscript
