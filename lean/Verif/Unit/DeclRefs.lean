import Verif.Unit.DeclDoneTheorems

/-!
# The references to declarations made by the declaration phase
-/

namespace Redscript
open DeclM

set_option synthInstance.maxSize 2000
set_option synthInstance.maxHeartbeats 400000

/-! ## Specification -/

/-- The references to the members of a class in the order they are written in, given those to its functions and to its
fields. Members whose conditions do not hold have none. -/
inductive Merged (mods : List ModulePath) : List MemberSource → (functions fields : List Idx) → (merged : List SourceRef) → Prop
  | nil : Merged mods [] [] [] []
  | function {f : FunctionSource} {ms : List MemberSource} {j : Idx} {fs gs : List Idx} {l : List SourceRef} : f.declaration.Enabled mods = true →
      Merged mods ms fs gs l → Merged mods (.Function f :: ms) (j :: fs) gs (⟨j, f.declaration.loc⟩ :: l)
  | field {f : FieldSource} {ms : List MemberSource} {j : Idx} {fs gs : List Idx} {l : List SourceRef} : f.declaration.Enabled mods = true →
      Merged mods ms fs gs l → Merged mods (.Field f :: ms) fs (j :: gs) (⟨j, f.declaration.loc⟩ :: l)
  | noFunction {f : FunctionSource} {ms : List MemberSource} {fs gs : List Idx} {l : List SourceRef} : f.declaration.Enabled mods = false →
      Merged mods ms fs gs l → Merged mods (.Function f :: ms) fs gs l
  | noField {f : FieldSource} {ms : List MemberSource} {fs gs : List Idx} {l : List SourceRef} : f.declaration.Enabled mods = false →
      Merged mods ms fs gs l → Merged mods (.Field f :: ms) fs gs l

/-- The references for a class at index `i`: those of its members, then its own. -/
def ClassRefs (mods : List ModulePath) (p : ConstantPool) (c : ClassSource) (i : Idx) (l : List SourceRef) : Prop :=
  ∃ g own added l', p.definitionBy AnyDefinition.asClass i = some g ∧ g.fields = own ++ added ∧ Merged mods c.members g.functions own l' ∧
    l = l' ++ [⟨i, c.declaration.loc⟩]

/-- The references for what a slot stands for. -/
def Slot.Refs (mods : List ModulePath) (p : ConstantPool) : Slot → List SourceRef → Prop
  | .Class i c _, l | .Struct i c _, l => ClassRefs mods p c i l
  | .Function i _ _ _ _ f _, l => l = [⟨i, f.declaration.loc⟩]
  | .Field i f _, l => l = [⟨i, f.declaration.loc⟩]
  | .Enum i e, l => l = [⟨i, e.declaration.loc⟩]

/-! ## Steps that make no references -/

/-- The same references afterwards. -/
class KeepsRefs (m : DeclM α) : Prop where
  keeps : ∀ s : DeclState, (m s).2.refs = s.refs

namespace KeepsRefs

instance pure' (a : α) : KeepsRefs (Pure.pure a : DeclM α) := ⟨fun _ => rfl⟩

instance bind' (m : DeclM α) (f : α → DeclM β) [hm : KeepsRefs m] [hf : ∀ a, KeepsRefs (f a)] : KeepsRefs (m >>= f) := ⟨fun s => by
  show (DeclM.bind m f s).2.refs = s.refs
  unfold DeclM.bind
  have h1 := hm.keeps s
  cases h : m s with
  | mk r s1 =>
    rw [h] at h1
    cases r with
    | error e => exact h1
    | ok a => exact ((hf a).keeps s1).trans h1⟩

instance fail (e : DeclErr) : KeepsRefs (DeclM.fail e : DeclM α) := ⟨fun _ => rfl⟩
instance read (f : DeclState → α) : KeepsRefs (DeclM.read f) := ⟨fun _ => rfl⟩
instance readOr (e : DeclErr) (f : DeclState → Option α) : KeepsRefs (DeclM.readOr e f) := ⟨fun s => by
  unfold DeclM.readOr; cases f s <;> rfl⟩
instance diagnose (d : DeclDiag) : KeepsRefs (DeclM.diagnose d) := ⟨fun _ => rfl⟩
instance when (c : Bool) (m : DeclM Unit) [hm : KeepsRefs m] : KeepsRefs (DeclM.when c m) := by
  unfold DeclM.when; split
  · exact hm
  · infer_instance
instance addName (t : Text) : KeepsRefs (DeclM.addName t) := ⟨fun _ => rfl⟩
instance stub (i : Idx) : KeepsRefs (DeclM.stub i) := ⟨fun _ => rfl⟩
instance classAt (i : Idx) : KeepsRefs (DeclM.classAt i) := readOr _ _
instance annTarget (a : Annotation) : KeepsRefs (annTarget a) := readOr _ _
instance conditions (cx : DeclCtx) (as : List Annotation) : KeepsRefs (conditions cx as) := readOr _ _
instance onClass (i : Idx) (f : ClassDef → ClassDef) : KeepsRefs (DeclM.onClass i f) := ⟨fun s => by
  unfold DeclM.onClass
  cases s.pool.modifyValue (AnyDefinition.onClass f) i <;> rfl⟩
instance reporting (m : DeclM α) [hm : KeepsRefs m] : KeepsRefs (DeclM.reporting m) := ⟨fun s => by
  have h1 := hm.keeps s
  unfold DeclM.reporting
  cases h : m s with
  | mk r s1 =>
    rw [h] at h1
    cases r with
    | ok a => exact h1
    | error e => cases e <;> exact h1⟩
instance report (e : DeclErr) : KeepsRefs (DeclM.report e) := ⟨fun s => by cases e <;> rfl⟩
instance addDefinition (d : Definition) : KeepsRefs (DeclM.addDefinition d) := ⟨fun _ => rfl⟩
instance nameOf (i : Idx) : KeepsRefs (DeclM.nameOf i) := readOr _ _
instance put (i : Idx) (d : Definition) : KeepsRefs (DeclM.put i d) := ⟨fun s => by
  unfold DeclM.put
  cases s.pool.putDefinition i d <;> rfl⟩
instance ite (c : Prop) [Decidable c] (m m' : DeclM α) [hm : KeepsRefs m] [hm' : KeepsRefs m'] : KeepsRefs (if c then m else m') := by
  split
  · exact hm
  · exact hm'
instance tryResolveType (depth : Nat) (t : TypeName) : KeepsRefs (tryResolveType depth t) := ⟨fun s => by
  unfold Redscript.tryResolveType
  split
  · rfl
  · exact (bind' (DeclM.report (.compile .unresolvedType)) (fun _ => Pure.pure TypeId.Null)).keeps s⟩
instance typeIndex (t : TypeId) : KeepsRefs (typeIndex t) := ⟨fun s => by
  unfold Redscript.typeIndex
  split <;> rfl⟩
instance defineParams (depth : Nat) (i : Idx) : ∀ ps, KeepsRefs (defineParams depth i ps)
  | [] => pure' _
  | p :: ps => by
    have := defineParams depth i ps
    unfold Redscript.defineParams
    infer_instance
instance defineReturn (depth : Nat) (t : Option TypeName) : KeepsRefs (defineReturn depth t) := by
  unfold Redscript.defineReturn
  cases t <;> infer_instance
instance checkFunction (spec : FunctionSpec) : KeepsRefs (checkFunction spec) := by
  unfold Redscript.checkFunction
  infer_instance
instance pushDefault (i cls : Idx) (f : FieldSource) : KeepsRefs (pushDefault i cls f) := by
  unfold Redscript.pushDefault
  cases f.default with
  | none => infer_instance
  | some v => exact ⟨fun _ => rfl⟩
instance defineSourceRef (loc : Option (String × BitVec 32)) : KeepsRefs (defineSourceRef loc) := by
  unfold Redscript.defineSourceRef
  cases loc with
  | none => infer_instance
  | some l =>
    refine ⟨fun s => ?_⟩
    dsimp only
    cases s.files.find? _ <;> rfl
instance defineBase (c : ClassSource) (b : Bool) : KeepsRefs (defineBase c b) := by
  unfold Redscript.defineBase
  split
  · infer_instance
  · split
    · refine @bind' _ _ _ _ inferInstance fun a => ?_
      split <;> infer_instance
    · infer_instance
instance defineEnumMembers (i : Idx) : ∀ ms, KeepsRefs (defineEnumMembers i ms)
  | [] => pure' _
  | (k, v) :: ms => by
    have := defineEnumMembers i ms
    unfold Redscript.defineEnumMembers
    infer_instance
instance ownSymbols (path : ModulePath) : KeepsRefs (ownSymbols path) := by
  unfold Redscript.ownSymbols
  split
  · infer_instance
  · refine ⟨fun s => ?_⟩
    unfold DeclM.update
    dsimp only
    split <;> rfl
instance importOne (imp : Import) : KeepsRefs (importOne imp) := ⟨fun s => by
  unfold Redscript.importOne
  cases s.symbols.populateImport imp .pub s.moduleScope with
  | ok sc => rfl
  | error e => exact (report e.toDecl).keeps _⟩
instance importAll (cx : DeclCtx) : ∀ is, KeepsRefs (importAll cx is)
  | [] => pure' _
  | (imp, anns) :: is => by
    have := importAll cx is
    unfold Redscript.importAll
    infer_instance
instance parentFlags (i : Idx) : KeepsRefs (parentFlags i) := by
  unfold Redscript.parentFlags
  infer_instance
instance moduleScope (f : DeclState → Scope) : KeepsRefs (DeclM.update fun s => { s with moduleScope := f s }) := ⟨fun _ => rfl⟩
instance pushBody (spec : FunctionSpec) : KeepsRefs (pushBody spec) := by
  unfold Redscript.pushBody
  cases spec.source.body with
  | none => infer_instance
  | some v => exact ⟨fun _ => rfl⟩
instance targetClass (a : Annotation) : KeepsRefs (targetClass a) := by
  unfold Redscript.targetClass
  refine @bind' _ _ _ _ inferInstance fun x => @bind' _ _ _ _ inferInstance fun sym => ?_
  split <;> infer_instance
instance targetMethod (cls : Idx) (name sig : Text) : KeepsRefs (targetMethod cls name sig) := ⟨fun s => by
  unfold Redscript.targetMethod
  cases directMethods s.pool name cls with
  | none => rfl
  | some fs => dsimp only; cases byId s.pool sig fs <;> rfl⟩
instance declareWrap (cls : Idx) (name sig : Text) : KeepsRefs (declareWrap cls name sig) := ⟨fun s => by
  unfold Redscript.declareWrap
  cases Wraps.declare ⟨s.pool, s.wrappers, s.proxies⟩ name sig cls <;> rfl⟩
instance addedBase (c : ClassDef) (sig : Text) : KeepsRefs (addedBase c sig) := by
  unfold Redscript.addedBase
  split <;> infer_instance
instance locateWrap (a : Annotation) (f : FunctionSource) (v : Visibility) : KeepsRefs (locateWrap a f v) := by
  unfold Redscript.locateWrap; infer_instance
instance locateReplace (a : Annotation) (f : FunctionSource) (v : Visibility) : KeepsRefs (locateReplace a f v) := by
  unfold Redscript.locateReplace; infer_instance
instance locateGlobal (f : FunctionSource) (v : Visibility) : KeepsRefs (locateGlobal f v) := by
  unfold Redscript.locateGlobal; infer_instance
instance locateAdd (a : Annotation) (f : FunctionSource) (v : Visibility) : KeepsRefs (locateAdd a f v) := by
  unfold Redscript.locateAdd; infer_instance
theorem update {f : DeclState → DeclState} (h : ∀ s, (f s).refs = s.refs) : KeepsRefs (DeclM.update f) := ⟨h⟩
instance locatePlain (f : FunctionSource) (path : ModulePath) (v : Visibility) : KeepsRefs (locatePlain f path v) := by
  unfold Redscript.locatePlain
  have h1 : ∀ i, KeepsRefs (DeclM.update fun s => { s with symbols := s.symbols.add (path.withChild f.declaration.name) (.Functions [(i, v)]) }) :=
    fun i => update fun _ => rfl
  have h2 : ∀ i, KeepsRefs (DeclM.update fun s => { s with scope := s.scope.addSymbol f.declaration.name (.Functions [(i, v)]) }) :=
    fun i => update fun _ => rfl
  infer_instance
instance locateFunction (f : FunctionSource) (path : ModulePath) : KeepsRefs (locateFunction f path) := by
  unfold Redscript.locateFunction
  dsimp only
  split
  · infer_instance
  · split <;> infer_instance
instance defineNamed (path : ModulePath) (name : Text) (sym : Idx → Symbol) : KeepsRefs (defineNamed path name sym) := by
  unfold Redscript.defineNamed
  have h1 : ∀ i, KeepsRefs (DeclM.update fun s => { s with symbols := s.symbols.insert (path.withChild name) (sym i) }) :=
    fun i => update fun _ => rfl
  have h2 : ∀ i, KeepsRefs (DeclM.update fun s => { s with scope := s.scope.addSymbol name (sym i) }) :=
    fun i => update fun _ => rfl
  infer_instance
instance checkRedefinition (cx : DeclCtx) (path : ModulePath) : KeepsRefs (checkRedefinition cx path) := by
  unfold Redscript.checkRedefinition; infer_instance
instance defineSymbol (cx : DeclCtx) (path : ModulePath) (e : SourceEntry) : KeepsRefs (defineSymbol cx path e) := by
  cases e <;> unfold Redscript.defineSymbol <;> infer_instance
instance defineEntries (cx : DeclCtx) (path : ModulePath) : ∀ es, KeepsRefs (defineEntries cx path es)
  | [] => pure' _
  | e :: es => by
    have := defineEntries cx path es
    unfold Redscript.defineEntries
    refine @bind' _ _ _ _ inferInstance fun on => ?_
    split <;> infer_instance
instance defineModules (cx : DeclCtx) : ∀ ms, KeepsRefs (defineModules cx ms)
  | [] => pure' _
  | m :: ms => by
    have := defineModules cx ms
    unfold Redscript.defineModules
    infer_instance

end KeepsRefs

/-! ## Steps that make references -/

/-- The step, when it succeeds without reports, makes references that meet `Q`. -/
def RefsAt (s : DeclState) (m : DeclM α) (Q : DeclState → α → List SourceRef → Prop) : Prop :=
  ∀ a s', m s = (.ok a, s') → s'.Fine → ∃ l, s'.refs = s.refs ++ l ∧ Q s' a l

namespace RefsAt
variable {s : DeclState}

theorem keep {m : DeclM α} [h : KeepsRefs m] : RefsAt s m fun _ _ l => l = [] := fun a s' hm _ => by
  have := h.keeps s
  rw [hm] at this
  exact ⟨[], by rw [List.append_nil]; exact this, rfl⟩

theorem imp {m : DeclM α} {Q R : DeclState → α → List SourceRef → Prop} (h : RefsAt s m Q) (hq : ∀ s' a l, Q s' a l → R s' a l) : RefsAt s m R :=
  fun a s' hm hf => by
    obtain ⟨l, h1, h2⟩ := h a s' hm hf
    exact ⟨l, h1, hq _ _ _ h2⟩

theorem pure {a : α} {Q : DeclState → α → List SourceRef → Prop} (h : Q s a []) : RefsAt s (Pure.pure a : DeclM α) Q := fun b s' hb _ => by
  cases hb
  exact ⟨[], (List.append_nil _).symm, h⟩

theorem bind {m : DeclM α} {f : α → DeclM β} {Q : DeclState → α → List SourceRef → Prop} {R : DeclState → β → List SourceRef → Prop} [hg : AddsDefs m]
    [hgf : ∀ a, AddsDefs (f a)] (hm : RefsAt s m Q)
    (hf : ∀ s1 a l, s.Later s1 → s1.Fine → Q s1 a l → RefsAt s1 (f a) fun s' b l' => s1.Later s' → R s' b (l ++ l')) : RefsAt s (m >>= f) R := by
  intro b s' hb hfine
  have hb : DeclM.bind m f s = (.ok b, s') := hb
  unfold DeclM.bind at hb
  have hl := hg.later s
  cases h : m s with
  | mk r s1 =>
    rw [h] at hb hl
    cases r with
    | error e => cases hb
    | ok a =>
      have hb : f a s1 = (.ok b, s') := hb
      have hl' := (hgf a).later s1
      rw [hb] at hl'
      obtain ⟨l, h1, h2⟩ := hm a s1 h (hl'.fine hfine)
      obtain ⟨l', h3, h4⟩ := hf s1 a l hl (hl'.fine hfine) h2 b s' hb hfine
      exact ⟨l ++ l', by rw [h3, h1, List.append_assoc], h4 hl'⟩

/-- A step that makes none comes first. -/
theorem skip {m : DeclM α} {f : α → DeclM β} {R : DeclState → β → List SourceRef → Prop} [hk : KeepsRefs m] [hg : AddsDefs m]
    [hgf : ∀ a, AddsDefs (f a)] (hf : ∀ s1 a, s.Later s1 → RefsAt s1 (f a) R) : RefsAt s (m >>= f) R :=
  bind keep fun s1 a l hl _ e => (hf s1 a hl).imp fun s' b l' h _ => by rw [e]; exact h

theorem pushRef {i : SourceRef} : RefsAt s (DeclM.pushRef i) fun s' _ l => l = [i] ∧ s'.pool = s.pool := fun _ _ hm _ => by
  cases hm
  exact ⟨[i], rfl, rfl, rfl⟩

theorem readOr {e : DeclErr} {f : DeclState → Option α} {Q : DeclState → α → List SourceRef → Prop} (h : ∀ a, f s = some a → Q s a []) :
    RefsAt s (DeclM.readOr e f) Q := fun a s' hm _ => by
  unfold DeclM.readOr at hm
  cases hf : f s with
  | none => rw [hf] at hm; cases hm
  | some b => rw [hf] at hm; cases hm; exact ⟨[], (List.append_nil _).symm, h _ hf⟩

theorem conditions {cx : DeclCtx} {d : DeclSource} :
    RefsAt s (Redscript.conditions cx d.annotations) fun s' on l => s' = s ∧ d.Enabled cx.modules = on ∧ l = [] :=
  readOr fun a h => ⟨rfl, by unfold DeclSource.Enabled; rw [h]; cases a <;> rfl, rfl⟩

theorem stub {n : Idx} : RefsAt s (DeclM.stub n) fun s' i l => l = [] ∧ i.toNat = s.len ∧ s'.len = s.len + 1 := by
  intro b s' hb hfine
  cases hb
  have hl : (s.pool.definitions ++ [Definition.mk' n 0 (.Type .Prim)]).length ≤ 2 ^ 32 := hfine.defs
  rw [List.length_append, List.length_singleton] at hl
  refine ⟨[], (List.append_nil _).symm, rfl, ?_, ?_⟩
  · show (BitVec.ofNat 32 s.pool.definitions.length).toNat = s.pool.definitions.length
    rw [BitVec.toNat_ofNat, Nat.mod_eq_of_lt (by omega)]
  · show (s.pool.definitions ++ [Definition.mk' n 0 (.Type .Prim)]).length = s.pool.definitions.length + 1
    rw [List.length_append, List.length_singleton]

theorem defineFunction {depth : Nat} {spec : FunctionSpec} : RefsAt s (Redscript.defineFunction depth spec) fun _ _ l => l = [⟨spec.funIdx, spec.source.declaration.loc⟩] := by
  unfold Redscript.defineFunction
  exact skip fun _ _ _ => skip fun _ _ _ => skip fun _ _ _ => skip fun _ _ _ => skip fun _ _ _ => skip fun _ _ _ => pushRef.imp fun _ _ _ h => h.1

theorem defineField {depth : Nat} {i cls : Idx} {fl : ClassFlags} {v : Visibility} {f : FieldSource} :
    RefsAt s (Redscript.defineField depth i cls fl v f) fun _ _ l => l = [⟨i, f.declaration.loc⟩] := by
  unfold Redscript.defineField
  exact skip fun _ _ _ => skip fun _ _ _ => skip fun _ _ _ => skip fun _ _ _ => skip fun _ _ _ => skip fun _ _ _ => skip fun _ _ _ => skip fun _ _ _ =>
    pushRef.imp fun _ _ _ h => h.1

theorem defineEnum {i : Idx} {e : EnumSource} : RefsAt s (Redscript.defineEnum i e) fun _ _ l => l = [⟨i, e.declaration.loc⟩] := by
  unfold Redscript.defineEnum
  exact skip fun _ _ _ => skip fun _ _ _ => skip fun _ _ _ => pushRef.imp fun _ _ _ h => h.1

theorem fail {e : DeclErr} {Q : DeclState → α → List SourceRef → Prop} : RefsAt s (DeclM.fail e : DeclM α) Q := fun _ _ hm _ => by cases hm

theorem diagnose {d : DeclDiag} {Q : DeclState → Unit → List SourceRef → Prop} : RefsAt s (DeclM.diagnose d) Q := fun _ _ hm hf => by
  cases hm
  exact absurd hf.diags (by simp)

theorem defineGlobalLet {cx : DeclCtx} {i : Idx} {v : Visibility} {f : FieldSource} :
    RefsAt s (Redscript.defineGlobalLet cx i v f) fun _ _ l => l = [⟨i, f.declaration.loc⟩] := by
  unfold Redscript.defineGlobalLet
  split
  · unfold Redscript.defineAddField
    refine @skip _ _ _ _ _ _ inferInstance inferInstance (fun a => ?_) fun s1 _ _ => @skip _ _ _ _ _ _ inferInstance inferInstance (fun a => ?_) fun s2 sym _ => ?_
    · refine @AddsDefs.bind' _ _ _ _ inferInstance fun b => ?_
      split <;> infer_instance
    · split <;> infer_instance
    · split
      · refine skip fun s3 found _ => ?_
        split
        · exact diagnose
        · exact skip fun s4 c _ => bind defineField fun s5 _ l _ _ e => keep.imp fun s6 _ l' e' _ => by rw [e, e', List.append_nil]
      · exact fail
  · exact fail

theorem reporting {m : DeclM α} {Q : DeclState → α → List SourceRef → Prop} (h : RefsAt s m Q) :
    RefsAt s (DeclM.reporting m) fun s' o l => ∃ a, o = some a ∧ Q s' a l := by
  intro b s' hb hfine
  unfold DeclM.reporting at hb
  cases hm : m s with
  | mk r s1 =>
    rw [hm] at hb
    cases r with
    | ok a =>
      cases hb
      obtain ⟨l, h1, h2⟩ := h a _ hm hfine
      exact ⟨l, h1, _, rfl, h2⟩
    | error e =>
      exfalso
      cases e with
      | compile c => cases hb; exact absurd hfine.diags (by simp)
      | cte => cases hb; exact absurd hfine.diags (by simp)
      | pool => cases hb
      | panic => cases hb

/-- Different references, to what was defined between two states. -/
def NewRefs (s s' : DeclState) (l : List SourceRef) : Prop :=
  (l.map (·.index)).Nodup ∧ ∀ r ∈ l, s.len ≤ r.index.toNat ∧ r.index.toNat < s'.len

theorem NewRefs.cons {s1 s' : DeclState} {r : SourceRef} {l : List SourceRef} (h0 : s.len ≤ r.index.toNat)
    (h1 : r.index.toNat < s1.len) (h2 : s1.Later s') (h : NewRefs s1 s' l) : NewRefs s s' (r :: l) := by
  refine ⟨List.nodup_cons.2 ⟨fun hj => ?_, h.1⟩, fun k hk => ?_⟩
  · obtain ⟨k, hk, e⟩ := List.mem_map.1 hj
    have e : k.index = r.index := e
    have := (h.2 k hk).1
    rw [e] at this
    omega
  rcases List.mem_cons.1 hk with rfl | hk
  · have := h2.defs; omega
  · have := h.2 k hk; omega

theorem NewRefs.before {s s1 s' : DeclState} {l : List SourceRef} (h : NewRefs s1 s' l) (h0 : s.Later s1) : NewRefs s s' l :=
  ⟨h.1, fun k hk => by have := h.2 k hk; have := h0.defs; omega⟩

theorem defineMembers {cx : DeclCtx} {cls : Idx} {fl : ClassFlags} {v : Visibility} {b : Bool} : ∀ {ms : List MemberSource} {s : DeclState},
    RefsAt s (Redscript.defineMembers cx cls fl v b ms) fun s' r l => Merged cx.modules ms r.1 r.2 l ∧ NewRefs s s' l
  | [], s => by
    unfold Redscript.defineMembers
    exact pure ⟨.nil, List.nodup_nil, by simp⟩
  | .Function f :: ms, s => by
    unfold Redscript.defineMembers
    refine bind conditions fun s1 on l _ _ ⟨e1, hon, e2⟩ => ?_
    subst e1 e2
    split
    · next ht =>
      refine skip fun s2 _ l2 => skip fun s3 _ l3 => bind stub fun s4 j _ l4 _ ⟨e4, hj, hl4⟩ => ?_
      subst e4
      refine skip fun s5 _ l5 => bind defineFunction fun s6 _ _ l6 _ e6 => ?_
      subst e6
      refine bind defineMembers fun s7 r l l7 _ ⟨h1, h2⟩ => pure fun _ _ _ _ => ?_
      rw [List.append_nil]
      have k2 := l2.defs; have k3 := l3.defs; have k5 := l5.defs; have k6 := l6.defs
      exact ⟨.function (hon.trans ht) h1, .cons (s1 := s6) (r := ⟨j, f.declaration.loc⟩) (by show _ ≤ j.toNat; omega) (by show j.toNat < _; omega) l7 h2⟩
    · next hf =>
      exact defineMembers.imp fun s' r l h _ => ⟨.noFunction (by rw [hon]; simpa using hf) h.1, h.2⟩
  | .Field f :: ms, s => by
    unfold Redscript.defineMembers
    refine bind conditions fun s1 on l _ _ ⟨e1, hon, e2⟩ => ?_
    subst e1 e2
    split
    · next ht =>
      refine skip fun s3 _ l3 => bind stub fun s4 j _ l4 _ ⟨e4, hj, hl4⟩ => ?_
      subst e4
      refine bind defineField fun s6 _ _ l6 _ e6 => ?_
      subst e6
      refine bind defineMembers fun s7 r l l7 _ ⟨h1, h2⟩ => pure fun _ _ _ _ => ?_
      rw [List.append_nil]
      have k3 := l3.defs; have k6 := l6.defs
      exact ⟨.field (hon.trans ht) h1, .cons (s1 := s6) (r := ⟨j, f.declaration.loc⟩) (by show _ ≤ j.toNat; omega) (by show j.toNat < _; omega) l7 h2⟩
    · next hf =>
      exact defineMembers.imp fun s' r l h _ => ⟨.noField (by rw [hon]; simpa using hf) h.1, h.2⟩

theorem put {i : Idx} {d : Definition} : RefsAt s (DeclM.put i d) fun s' _ l => l = [] ∧ s'.pool.definition i = some d := by
  intro b s' hb _
  unfold DeclM.put ConstantPool.putDefinition at hb
  by_cases hi : i.toNat < s.pool.definitions.length
  · rw [if_pos hi] at hb
    cases hb
    refine ⟨[], (List.append_nil _).symm, rfl, ?_⟩
    show (s.pool.definitions.set i.toNat d)[i.toNat]? = some d
    rw [List.getElem?_set_self hi]
  · rw [if_neg hi] at hb
    cases hb

theorem defineClass {cx : DeclCtx} {i : Idx} {v : Visibility} {c : ClassSource} {b : Bool} :
    RefsAt s (Redscript.defineClass cx i v c b) fun s' _ l => ClassRefs cx.modules s'.pool c i l ∧ ∃ l', l = l' ++ [⟨i, c.declaration.loc⟩] ∧ NewRefs s s' l' := by
  unfold Redscript.defineClass
  refine bind defineMembers fun s1 ms l l1 _ ⟨h1, h2⟩ => skip fun s2 base l2 => skip fun s3 name l3 => bind put fun s4 _ _ l4 _ ⟨e, h4⟩ => ?_
  subst e
  refine pushRef.imp fun s5 _ l' ⟨e, e5⟩ h45 h14 => ?_
  subst e
  rw [List.nil_append]
  refine ⟨⟨_, ms.2, [], l, value_asClass (by rw [e5]; exact h4) rfl, (List.append_nil _).symm, h1, rfl⟩, l, rfl, h2.1, fun j hj => ?_⟩
  have := h2.2 j hj
  have := h14.defs
  omega

/-- The references that one slot makes. -/
theorem defineSlot {cx : DeclCtx} {seen : List Idx} {x : Slot} :
    RefsAt s (Redscript.defineSlot cx seen x) fun s' _ l => x.Refs cx.modules s'.pool l ∧ ∃ l' r, l = l' ++ [r] ∧ r.index = x.index ∧ NewRefs s s' l' := by
  cases x <;> unfold Redscript.defineSlot
  · refine skip fun _ _ _ => skip fun _ _ _ => skip fun _ _ _ => bind (reporting defineFunction) fun _ _ l _ _ ⟨_, _, e⟩ => pure fun _ => ?_
    rw [List.append_nil, e]
    exact ⟨rfl, [], _, rfl, rfl, List.nodup_nil, by simp⟩
  · exact bind (reporting defineClass) fun _ _ l _ _ ⟨_, _, h⟩ => pure fun _ => by rw [List.append_nil]; exact ⟨h.1, h.2.imp fun l' h => ⟨_, h.1, rfl, h.2⟩⟩
  · exact bind (reporting defineClass) fun _ _ l _ _ ⟨_, _, h⟩ => pure fun _ => by rw [List.append_nil]; exact ⟨h.1, h.2.imp fun l' h => ⟨_, h.1, rfl, h.2⟩⟩
  · refine bind (reporting defineGlobalLet) fun _ _ l _ _ ⟨_, _, e⟩ => pure fun _ => ?_
    rw [List.append_nil, e]
    exact ⟨rfl, [], _, rfl, rfl, List.nodup_nil, by simp⟩
  · refine bind (reporting defineEnum) fun _ _ l _ _ ⟨_, _, e⟩ => pure fun _ => ?_
    rw [List.append_nil, e]
    exact ⟨rfl, [], _, rfl, rfl, List.nodup_nil, by simp⟩

end RefsAt

end Redscript
