import Verif.Unit.DefaultProps
import Verif.Unit.DeclVisibility
import Verif.Unit.WrapFirst

/-!
# The wrappers of a program
-/

namespace Redscript
open DeclM

/-! ## The first loop puts off no bodies -/

/-- The same bodies wait afterwards. -/
class KeepsBodies (m : DeclM α) : Prop where
  keeps : ∀ s : DeclState, (m s).2.bodies = s.bodies

namespace KeepsBodies

instance pure' (a : α) : KeepsBodies (Pure.pure a : DeclM α) := ⟨fun _ => rfl⟩

instance bind' (m : DeclM α) (f : α → DeclM β) [hm : KeepsBodies m] [hf : ∀ a, KeepsBodies (f a)] : KeepsBodies (m >>= f) := ⟨fun s => by
  show (DeclM.bind m f s).2.bodies = s.bodies
  unfold DeclM.bind
  have h1 := hm.keeps s
  cases h : m s with
  | mk r s1 =>
    rw [h] at h1
    cases r with
    | error e => exact h1
    | ok a => exact ((hf a).keeps s1).trans h1⟩

instance fail (e : DeclErr) : KeepsBodies (DeclM.fail e : DeclM α) := ⟨fun _ => rfl⟩
instance read (f : DeclState → α) : KeepsBodies (DeclM.read f) := ⟨fun _ => rfl⟩
instance readOr (e : DeclErr) (f : DeclState → Option α) : KeepsBodies (DeclM.readOr e f) := ⟨fun s => by
  unfold DeclM.readOr; cases f s <;> rfl⟩
instance diagnose (d : DeclDiag) : KeepsBodies (DeclM.diagnose d) := ⟨fun _ => rfl⟩
instance when (c : Bool) (m : DeclM Unit) [hm : KeepsBodies m] : KeepsBodies (DeclM.when c m) := by
  unfold DeclM.when; split
  · exact hm
  · infer_instance
instance addName (t : Text) : KeepsBodies (DeclM.addName t) := ⟨fun _ => rfl⟩
instance stub (i : Idx) : KeepsBodies (DeclM.stub i) := ⟨fun _ => rfl⟩
instance classAt (i : Idx) : KeepsBodies (DeclM.classAt i) := readOr _ _
instance annTarget (a : Annotation) : KeepsBodies (annTarget a) := readOr _ _
instance conditions (cx : DeclCtx) (as : List Annotation) : KeepsBodies (conditions cx as) := readOr _ _
instance onClass (i : Idx) (f : ClassDef → ClassDef) : KeepsBodies (DeclM.onClass i f) := ⟨fun s => by
  unfold DeclM.onClass
  cases s.pool.modifyValue (AnyDefinition.onClass f) i <;> rfl⟩
instance reporting (m : DeclM α) [hm : KeepsBodies m] : KeepsBodies (DeclM.reporting m) := ⟨fun s => by
  have h1 := hm.keeps s
  unfold DeclM.reporting
  cases h : m s with
  | mk r s1 =>
    rw [h] at h1
    cases r with
    | ok a => exact h1
    | error e => cases e <;> exact h1⟩
instance targetClass (a : Annotation) : KeepsBodies (targetClass a) := by
  unfold Redscript.targetClass
  refine @bind' _ _ _ _ inferInstance fun x => @bind' _ _ _ _ inferInstance fun sym => ?_
  split <;> infer_instance
instance targetMethod (cls : Idx) (name sig : Text) : KeepsBodies (targetMethod cls name sig) := ⟨fun s => by
  unfold Redscript.targetMethod
  cases directMethods s.pool name cls with
  | none => rfl
  | some fs => dsimp only; cases byId s.pool sig fs <;> rfl⟩
instance declareWrap (cls : Idx) (name sig : Text) : KeepsBodies (declareWrap cls name sig) := ⟨fun s => by
  unfold Redscript.declareWrap
  cases Wraps.declare ⟨s.pool, s.wrappers, s.proxies⟩ name sig cls <;> rfl⟩
instance addedBase (c : ClassDef) (sig : Text) : KeepsBodies (addedBase c sig) := by
  unfold Redscript.addedBase
  split <;> infer_instance
instance locateWrap (a : Annotation) (f : FunctionSource) (v : Visibility) : KeepsBodies (locateWrap a f v) := by
  unfold Redscript.locateWrap; infer_instance
instance locateReplace (a : Annotation) (f : FunctionSource) (v : Visibility) : KeepsBodies (locateReplace a f v) := by
  unfold Redscript.locateReplace; infer_instance
instance locateGlobal (f : FunctionSource) (v : Visibility) : KeepsBodies (locateGlobal f v) := by
  unfold Redscript.locateGlobal; infer_instance
instance locateAdd (a : Annotation) (f : FunctionSource) (v : Visibility) : KeepsBodies (locateAdd a f v) := by
  unfold Redscript.locateAdd; infer_instance
theorem update {f : DeclState → DeclState} (h : ∀ s, (f s).bodies = s.bodies) : KeepsBodies (DeclM.update f) := ⟨h⟩
instance locatePlain (f : FunctionSource) (path : ModulePath) (v : Visibility) : KeepsBodies (locatePlain f path v) := by
  unfold Redscript.locatePlain
  have h1 : ∀ i, KeepsBodies (DeclM.update fun s => { s with symbols := s.symbols.add (path.withChild f.declaration.name) (.Functions [(i, v)]) }) :=
    fun i => update fun _ => rfl
  have h2 : ∀ i, KeepsBodies (DeclM.update fun s => { s with scope := s.scope.addSymbol f.declaration.name (.Functions [(i, v)]) }) :=
    fun i => update fun _ => rfl
  infer_instance
instance locateFunction (f : FunctionSource) (path : ModulePath) : KeepsBodies (locateFunction f path) := by
  unfold Redscript.locateFunction
  dsimp only
  split
  · infer_instance
  · split <;> infer_instance
instance defineNamed (path : ModulePath) (name : Text) (sym : Idx → Symbol) : KeepsBodies (defineNamed path name sym) := by
  unfold Redscript.defineNamed
  have h1 : ∀ i, KeepsBodies (DeclM.update fun s => { s with symbols := s.symbols.insert (path.withChild name) (sym i) }) :=
    fun i => update fun _ => rfl
  have h2 : ∀ i, KeepsBodies (DeclM.update fun s => { s with scope := s.scope.addSymbol name (sym i) }) :=
    fun i => update fun _ => rfl
  infer_instance
instance checkRedefinition (cx : DeclCtx) (path : ModulePath) : KeepsBodies (checkRedefinition cx path) := by
  unfold Redscript.checkRedefinition; infer_instance
instance defineSymbol (cx : DeclCtx) (path : ModulePath) (e : SourceEntry) : KeepsBodies (defineSymbol cx path e) := by
  cases e <;> unfold Redscript.defineSymbol <;> infer_instance
instance defineEntries (cx : DeclCtx) (path : ModulePath) : ∀ es, KeepsBodies (defineEntries cx path es)
  | [] => pure' _
  | e :: es => by
    have := defineEntries cx path es
    unfold Redscript.defineEntries
    refine @bind' _ _ _ _ inferInstance fun on => ?_
    split <;> infer_instance
instance defineModules (cx : DeclCtx) : ∀ ms, KeepsBodies (defineModules cx ms)
  | [] => pure' _
  | m :: ms => by
    have := defineModules cx ms
    unfold Redscript.defineModules
    infer_instance

end KeepsBodies

/-! ## The defaults -/

/-- Only the defaults of fields differ. -/
structure FieldsOnly (p p' : ConstantPool) : Prop where
  names : p'.names = p.names
  size : p'.definitions.length = p.definitions.length
  defs : ∀ i d, p.definition i = some d → p'.definition i = some d ∨
    ∃ f vs, d.value = .Field f ∧ p'.definition i = some { d with value := .Field { f with defaults := vs } }

namespace FieldsOnly
variable {p p' p'' : ConstantPool}

theorem refl (p : ConstantPool) : FieldsOnly p p := ⟨rfl, rfl, fun _ _ h => .inl h⟩

theorem trans (h : FieldsOnly p p') (k : FieldsOnly p' p'') : FieldsOnly p p'' := by
  refine ⟨k.names.trans h.names, k.size.trans h.size, fun i d hd => ?_⟩
  rcases h.defs i d hd with h1 | ⟨f, vs, h1, h2⟩
  · exact k.defs i d h1
  · rcases k.defs i _ h2 with h3 | ⟨g, ws, h4, h3⟩
    · exact .inr ⟨f, vs, h1, h3⟩
    · cases h4
      exact .inr ⟨f, ws, h1, h3⟩

theorem keep (h : FieldsOnly p p') {i : Idx} {d : Definition} (hd : p.definition i = some d) (hv : ∀ f, d.value ≠ .Field f) : p'.definition i = some d := by
  rcases h.defs i d hd with h1 | ⟨f, _, h1, _⟩
  · exact h1
  · exact absurd h1 (hv f)

theorem back (h : FieldsOnly p p') {i : Idx} {d : Definition} (hd : p'.definition i = some d) (hv : ∀ f, d.value ≠ .Field f) : p.definition i = some d := by
  have hlt := definition_lt hd
  rw [h.size] at hlt
  obtain ⟨d0, h0⟩ := definition_of_lt hlt
  rcases h.defs i d0 h0 with h1 | ⟨f, f', _, h1⟩
  · rw [hd] at h1; cases h1; exact h0
  · rw [hd] at h1; cases h1
    exact absurd rfl (hv _)

theorem defName (h : FieldsOnly p p') {i : Idx} {t : Text} (ht : p.defName i = some t) : p'.defName i = some t := by
  unfold ConstantPool.defName at ht ⊢
  cases hd : p.definition i with
  | none => rw [hd] at ht; cases ht
  | some d =>
    rw [hd] at ht
    rcases h.defs i d hd with h1 | ⟨f, f', _, h1⟩ <;> rw [h1, h.names] <;> exact ht

end FieldsOnly

theorem compileDefault_fields {P : FloatDisplay} {E : TcEnv} {d : DeclDefault} {p p' : ConstantPool} {ds : List TcDiag}
    (h : compileDefault P E d p = .ok (ds, p')) : FieldsOnly p p' := by
  obtain ⟨_, _, _, _, _, _, _, _, hm, _⟩ := compileDefault_ok h
  obtain ⟨old, v, h1, h2, h3, h4, h5, h6⟩ := modifyValue_spec hm
  refine ⟨h6, h5, fun i e he => ?_⟩
  by_cases hi : i = d.index
  · subst hi
    rw [h1] at he; cases he
    unfold AnyDefinition.onField at h2
    split at h2
    · rename_i f hf
      cases h2
      exact .inr ⟨f, _, hf, h3⟩
    · cases h2
  · exact .inl (by rw [h4 i hi]; exact he)

theorem compileDefaults_fields {P : FloatDisplay} {E : DeclDefault → TcEnv} : ∀ {ds : List DeclDefault} {p p' : ConstantPool} {diags : List TcDiag},
    compileDefaults P E ds p = .ok (diags, p') → FieldsOnly p p'
  | [], p, p', _, h => by cases h; exact .refl _
  | d :: ds, p, p', _, h => by
    unfold compileDefaults at h
    split at h
    · cases h
    · rename_i diags p1 h1
      split at h
      · cases h
      · rename_i more p2 h2
        cases h
        exact (compileDefault_fields h1).trans (compileDefaults_fields h2)

/-! ## The whole -/

/-- The classes of the pool list functions that have a name, and their parameters are parameters. -/
def MethodsSound (p : ConstantPool) : Prop := ∀ cls f, MethodOf p cls f →
  ∃ d g t, p.definition f = some d ∧ d.value = .Function g ∧ p.defName f = some t ∧ ParamsOk p g.parameters

theorem MethodsSound.exist {p : ConstantPool} (h : MethodsSound p) : MethodsExist p := fun cls f hf => by
  obtain ⟨d, g, _, h1, h2, _⟩ := h cls f hf
  exact ⟨d, g, h1, h2⟩

/-- The declaration is a function with the annotation `@wrapMethod`. -/
def SourceEntry.isWrap : SourceEntry → Bool
  | .Function f => f.placing.any fun a => decide (a.kind = .WrapMethod)
  | _ => false

/-- The wrapper that is declared in a module: it is a method of the class that the annotation names, its body waits to
be compiled, and it is around a method of the same class with the signature of the wrapper. -/
def WrapperFor (s : DeclState) (mods : List ModulePath) (e : SourceModule × SourceEntry) (w : WrapSlot) : Prop :=
  ∃ f a t base, e.2 = .Function f ∧ f.placing = some a ∧ a.kind = .WrapMethod ∧ a.Names s.pool w.parent ∧
    MethodOf s.pool w.parent w.target ∧ s.pool.defName w.target = some f.sig ∧ MethodOf s.pool w.parent w.index ∧
    IsFunction s (e.1.Sees s mods) ⟨w.index, w.parent, t, visibilityOf f.declaration.qualifiers, false, base, some w.wrapped⟩ f

/-- What `compile_modules` and `finish` do after the declarations and defaults, with `p1` the pool they start with: the
proxies are built, in some order (`p2`); the bodies that wait are compiled and put into the pool (`p3`); originals and
proxies change places, in some order (`p4`). -/
structure WrapFinish (q : AsmEnv) (s : DeclState) (p1 : ConstantPool) (bodies : List WrapBody) (p2 p3 p4 : ConstantPool) : Prop where
  built : ∃ order, ListsMap s.wrappers order ∧ p1.names.strings.length + order.length + 1 < 2 ^ 32 ∧
    constructAll q s.proxies order p1 = .ok p2
  installed : Installs p2 bodies p3
  pending : ∀ b ∈ bodies, ∃ c ∈ s.bodies, c.index = b.index
  locals : ∀ i d fn, s.wrappers.get i ≠ none → p3.definition i = some d → d.value = .Function fn → LocalsOk p3 fn.locals
  exchanged : ∃ ord order, (∀ l : List Idx, (ord l).Perm l) ∧ ListsMap s.proxies order ∧ swapAll ord order p3 = .ok p4
  room : p4.definitions.length < 2 ^ 32

theorem Each2.filter {R : α → β → Prop} {f : α → Bool} {g : β → Bool} {as : List α} {bs : List β} (h : Each2 R as bs)
    (hr : ∀ a b, R a b → f a = g b) : Each2 R (as.filter f) (bs.filter g) := by
  induction h with
  | nil => exact .nil
  | cons h1 _ ih =>
    rw [List.filter_cons, List.filter_cons, hr _ _ h1]
    split
    · exact .cons h1 ih
    · exact ih

theorem Each2.comp {R : α → β → Prop} {S : β → γ → Prop} {as : List α} {bs : List β} {cs : List γ} (h : Each2 R as bs) (k : Each2 S bs cs) :
    Each2 (fun a c => ∃ b ∈ bs, R a b ∧ S b c) as cs := by
  induction h generalizing cs with
  | nil => cases k; exact .nil
  | cons h1 _ ih =>
    cases k with
    | cons k1 k2 =>
      exact .cons ⟨_, by simp, h1, k1⟩ ((ih k2).mono fun _ _ ⟨b, hb, h⟩ => ⟨b, List.mem_cons_of_mem _ hb, h⟩)

theorem ofPool_wraps {p : ConstantPool} {s : DeclState} (hs : DeclState.ofPool p = some s) : s.wrappers = .empty ∧ s.proxies = .empty ∧ s.bodies = [] := by
  unfold DeclState.ofPool at hs
  simp only [Option.bind_eq_some_iff] at hs
  obtain ⟨m, _, sc, _, hs⟩ := hs
  split at hs <;> cases hs
  exact ⟨rfl, rfl, rfl⟩

section
variable {p : ConstantPool} {s s1 s' : DeclState} {depth : Nat} {permissive : Bool} {ms : List SourceModule} {qs : List Queued} {seen : List Idx}
  {ws : List WrapSlot}

/-- The definitions of the slots. -/
abbrev SlotIndex (qs : List Queued) (i : Idx) : Prop := ∃ x ∈ qs.flatMap (·.slots), x.index = i

theorem TwoLoops.wrapping (h : TwoLoops p depth permissive ms s s1 s' qs seen) (hn : p.names.Reachable Strings.cnameDefault)
    (hs : DeclState.ofPool p = some s) (hp : ∀ m ∈ ms, ∀ e ∈ m.entries, e.Plain) : ∃ ws, Wrapping p s1 (qs.flatMap (·.slots)) ws := by
  obtain ⟨e1, e2, _⟩ := ofPool_wraps hs
  have h0 : Wrapping p s [] [] := by
    refine ⟨?_, fun i f hf => .inl ?_, by simp, by simp, .nil⟩
    · rw [e1, e2, h.start]; exact .nil
    · rw [← h.start]; exact hf
  obtain ⟨_, ws, h1⟩ := Moves.moduleSlots hn h.first h0 hp qs s1 h.one h.fine1
  exact ⟨ws, by simpa using h1⟩

theorem TwoLoops.few (h : TwoLoops p depth permissive ms s s1 s' qs seen) : Few (SlotIndex qs) s1.len s1 s' := by
  have := (FewClasses.defineQueue (T := SlotIndex qs) (n := s1.len) (cx := ⟨ms.filterMap (·.path), depth, permissive⟩) (qs := qs) (seen := [])
    fun q hq x hx => ⟨x, List.mem_flatMap.2 ⟨q, hq, hx⟩, rfl⟩).few s1 (Nat.le_refl _)
  rw [h.two] at this
  exact this h.fine.defs

theorem TwoLoops.bodies (h : TwoLoops p depth permissive ms s s1 s' qs seen) (hs : DeclState.ofPool p = some s) : s1.bodies = [] := by
  have := (KeepsBodies.defineModules ⟨ms.filterMap (·.path), depth, permissive⟩ ms).keeps s
  rw [h.one] at this
  rw [this]; exact (ofPool_wraps hs).2.2

/-- The second loop does not disturb the wrappers. -/
theorem TwoLoops.otherWork (h : TwoLoops p depth permissive ms s s1 s' qs seen) (hn : p.names.Reachable Strings.cnameDefault)
    (hw : Wrapping p s1 (qs.flatMap (·.slots)) ws) : OtherWork ⟨s1.pool, s1.wrappers, s1.proxies⟩ s'.pool where
  size := h.second.keeps.frame.size
  table := h.second.names
  slots := fun f r hr => by
    have h1 := ((Declared.inv hn rfl hw.declared).reserved f r hr).2
    obtain ⟨d', h2, _, h3⟩ := h.second.keeps.frame.defs r _ h1
    rcases h3 (fun ⟨x, hx, e⟩ => hw.apart x hx f (by rw [e]; exact hr)) with rfl | ⟨c, gs, h4, _⟩
    · rw [h1, h2]
    · cases h4
  names := fun i t ht => h.second.keeps.frame.defName ht
  classes := fun i d c hd hc => by
    have hcl := value_asClass hd hc
    obtain ⟨gs, h1⟩ := h.second.keeps.frame.fields (i := i) (fun ⟨x, hx, e⟩ => by
      rw [← e, (h.laid.ready x hx).2.1.notClass] at hcl; cases hcl) hcl
    obtain ⟨d', h2, h3⟩ := asClass_value h1
    exact ⟨d', _, h2, h3, rfl, fun _ hf => hf⟩

theorem FieldsOnly.otherWork {p0 : ConstantPool} {st : Wraps} {p1 : ConstantPool} (h : FieldsOnly st.pool p1) (hi : WrapInv p0 ws st)
    (hn : st.pool.names.Reachable Strings.cnameDefault) : OtherWork st p1 where
  size := Nat.le_of_eq h.size.symm
  table := by rw [h.names]; exact hn
  slots := fun f r hr => by
    have h1 := (hi.reserved f r hr).2
    rw [h1]
    exact h.keep h1 (by intro f e; cases e)
  names := fun i t ht => h.defName ht
  classes := fun i d c hd hc => ⟨d, c, h.keep hd (by intro f e; rw [hc] at e; cases e), hc, rfl, fun _ hf => hf⟩

theorem TwoLoops.source (h : TwoLoops p depth permissive ms s s1 s' qs seen) {x : Slot} (hx : x ∈ qs.flatMap (·.slots)) :
    ∃ m ∈ ms, ∃ e ∈ m.entries, Slot.For p s1.pool (m.path.getD []) e x := by
  obtain ⟨⟨m, e⟩, h1, h2, _⟩ := h.sources.mem_right hx
  obtain ⟨m', hm, h3⟩ := List.mem_flatMap.1 h1
  unfold SourceModule.enabled at h3
  obtain ⟨e', h4, h5⟩ := List.mem_map.1 h3
  cases h5
  exact ⟨m, hm, e, (List.mem_filter.1 h4).1, h2⟩

/-- A class among the slots lists functions of the sources. -/
theorem TwoLoops.members (h : TwoLoops p depth permissive ms s s1 s' qs seen) (hp : ∀ m ∈ ms, ∀ e ∈ m.entries, e.Plain) {x : Slot}
    (hx : x ∈ qs.flatMap (·.slots)) {d : Definition} {c : ClassDef} (hd : s'.pool.definition x.index = some d) (hc : d.value = .Class c) :
    ∀ f ∈ c.functions, ∃ t, s'.pool.defName f = some t ∧ '$' ∉ t := by
  obtain ⟨m, hm, e, he, hf⟩ := h.source hx
  have hpl := hp m hm e he
  have hdone := h.second.posts x hx
  have hcls : ∀ {src : ClassSource} {N i t v b}, i = x.index → MadeClass s1.len s' N (ms.filterMap (·.path)) i t v src b → (∀ f, .Function f ∈ src.members → '$' ∉ f.sig) →
      ∀ f ∈ c.functions, ∃ t, s'.pool.defName f = some t ∧ '$' ∉ t := by
    rintro src N i t v b rfl ⟨g, own, added, h1, _, _, h4, _⟩ hsrc f hf
    obtain ⟨_, d', h5, _, h6⟩ := h1
    rw [hd] at h5; cases h5
    rw [hc] at h6; cases h6
    obtain ⟨a, ha, _, ⟨g', h7, _⟩, _⟩ := h4.mem_right hf
    refine ⟨_, h7.1, hsrc a ?_⟩
    unfold methodsOn at ha
    obtain ⟨mm, k1, k2⟩ := List.mem_filterMap.1 ha
    cases mm with
    | Function f' =>
      simp only at k2
      split at k2
      · cases k2; exact k1
      · cases k2
    | Field _ => cases k2
  cases e <;> cases x <;> first | exact hf.elim | skip
  · obtain ⟨h1, rfl, rfl, h4⟩ := hf
    exact hcls rfl (hdone _ h4) hpl
  · obtain ⟨h1, rfl, rfl, h4⟩ := hf
    exact hcls rfl (hdone _ h4) hpl
  · obtain ⟨rfl, t, h2, h3⟩ := hf
    obtain ⟨⟨g, ⟨_, d', h5, _, h6⟩, _⟩, _⟩ := hdone t h2
    cases hd.symm.trans h5
    cases hc.symm.trans h6
  · obtain ⟨a, cls, n, k1, k2, k3, ⟨g, ⟨_, d', h5, _, h6⟩, _⟩, k5⟩ := hdone
    cases hd.symm.trans h5
    cases hc.symm.trans h6
  · obtain ⟨h1, rfl, h4⟩ := hf
    obtain ⟨g, ⟨_, d', h5, _, h6⟩, _⟩ := hdone _ h4
    cases hd.symm.trans h5
    cases hc.symm.trans h6

/-- A function among the slots has parameters. -/
theorem TwoLoops.function (h : TwoLoops p depth permissive ms s s1 s' qs seen) {x : Slot} (hx : x ∈ qs.flatMap (·.slots)) (hc : x.classLike = false) :
    ∃ d g, s'.pool.definition x.index = some d ∧ d.value = .Function g ∧ ParamsOk s'.pool g.parameters := by
  have hdone := h.second.posts x hx
  cases x with
  | Function i parent base wrapped rep f v =>
    obtain ⟨t, ht⟩ := (h.laid.ready _ hx).1
    obtain ⟨⟨g, ⟨_, d, h1, _, h2⟩, _, h3, _⟩, _⟩ := hdone t ht
    refine ⟨d, g, h1, h2, fun j hj => ?_⟩
    obtain ⟨a, _, q, ⟨_, d', h4, _, h5⟩, _⟩ := h3.mem_right hj
    exact ⟨d', q.flags, h4, by rw [h5]; rfl⟩
  | _ => cases hc

/-- What is not a class stays as it is where there is no slot. -/
theorem TwoLoops.stays (h : TwoLoops p depth permissive ms s s1 s' qs seen) {i : Idx} {d : Definition} (hd : p.definition i = some d)
    (hc : ∀ c, d.value ≠ .Class c) (hi : ¬ SlotIndex qs i) : s'.pool.definition i = some d := by
  rw [← h.start] at hd
  obtain ⟨d', h1, h2⟩ := h.frame1.defs i d hd
  rcases h2 with rfl | ⟨c, _, h2, _⟩
  · obtain ⟨d'', h3, _, h4⟩ := h.second.keeps.frame.defs i d' h1
    rcases h4 hi with rfl | ⟨c, _, h5, _⟩
    · exact h3
    · exact absurd h5 (hc c)
  · exact absurd h2 (hc c)

/-- What is not a function has no slot, unless it is new. -/
theorem TwoLoops.noSlot (h : TwoLoops p depth permissive ms s s1 s' qs seen) {i : Idx} {d : Definition} (hd : p.definition i = some d)
    (hc : ∀ c, d.value ≠ .Class c) (hf : ∀ f, d.value ≠ .Function f) (ht : d.value ≠ .Type .Prim) : ¬ SlotIndex qs i := by
  rintro ⟨x, hx, rfl⟩
  rw [← h.start] at hd
  obtain ⟨d', h1, h2⟩ := h.frame1.defs _ d hd
  rcases h2 with rfl | ⟨c, _, h2, _⟩
  · obtain ⟨d2, h3, h4⟩ := (h.laid.ready x hx).2.1
    rw [h1] at h3; cases h3
    rcases h4 with ⟨g, h4⟩ | h4
    · exact hf g h4
    · exact ht h4
  · exact absurd h2 (hc c)

/-- The wrapped functions are functions with parameters. -/
theorem TwoLoops.targets (h : TwoLoops p depth permissive ms s s1 s' qs seen) (hm : MethodsSound p) (hw : Wrapping p s1 (qs.flatMap (·.slots)) ws)
    {cls f : Idx} (hf : MethodOf s1.pool cls f) : ∃ d g, s'.pool.definition f = some d ∧ d.value = .Function g ∧ ParamsOk s'.pool g.parameters := by
  rcases hw.listed cls f hf with hf | ⟨x, hx, hc, rfl, _⟩
  · obtain ⟨d, g, t, h1, h2, h3, h4⟩ := hm cls f hf
    by_cases hi : SlotIndex qs f
    · obtain ⟨x, hx, rfl⟩ := hi
      refine h.function hx ?_
      cases hc : x.classLike with
      | false => rfl
      | true =>
        have h5 := h.laid.new x hx hc
        have h6 := definition_lt h1
        rw [← h.start] at h6
        have : s.pool.definitions.length ≤ x.index.toNat := h5
        omega
    · refine ⟨d, g, h.stays h1 (by intro c e; rw [h2] at e; cases e) hi, h2, fun j hj => ?_⟩
      obtain ⟨dj, fl, h5, h6⟩ := h4 j hj
      have hv : ∃ q, dj.value = .Parameter q := by
        unfold AnyDefinition.paramFlags at h6
        split at h6
        · exact ⟨_, by assumption⟩
        · cases h6
      obtain ⟨q, hv⟩ := hv
      refine ⟨dj, fl, h.stays h5 (by intro c e; rw [hv] at e; cases e) (h.noSlot h5 ?_ ?_ ?_), h6⟩
      · intro c e; rw [hv] at e; cases e
      · intro c e; rw [hv] at e; cases e
      · intro e; rw [hv] at e; cases e
  · exact h.function hx hc

/-- The methods that classes list have names, and only wrappers have names with `$`. -/
theorem TwoLoops.listed (h : TwoLoops p depth permissive ms s s1 s' qs seen) (hm : MethodsSound p) (hw : Wrapping p s1 (qs.flatMap (·.slots)) ws)
    (hp : ∀ m ∈ ms, ∀ e ∈ m.entries, e.Plain) {i : Idx} {d : Definition} {c : ClassDef} (hd : s'.pool.definition i = some d) (hc : d.value = .Class c) :
    ∀ f ∈ c.functions, ∃ t, s'.pool.defName f = some t ∧ ('$' ∈ t → p.defName f = some t ∨ ∃ w ∈ ws, f = w.index) := by
  intro f hf
  rcases h.few.back i c (value_asClass hd hc) with ⟨x, hx, rfl⟩ | ⟨c0, h1, h2⟩
  · obtain ⟨t, h3, h4⟩ := h.members hp hx hd hc f hf
    exact ⟨t, h3, fun h => absurd h h4⟩
  · rw [h2] at hf
    rcases hw.listed i f ⟨c0, h1, hf⟩ with h3 | ⟨x, _, _, _, t, h4, h5⟩
    · obtain ⟨_, _, t, _, _, h4, _⟩ := hm i f h3
      have h5 : s.pool.defName f = some t := by rw [h.start]; exact h4
      exact ⟨t, h.second.keeps.frame.defName (h.frame1.defName h5), fun _ => .inl h4⟩
    · exact ⟨t, h.second.keeps.frame.defName h4, fun hd => .inr (h5 hd)⟩

/-- The wrappers are those of the sources, in their order. -/
theorem TwoLoops.wrappers (h : TwoLoops p depth permissive ms s s1 s' qs seen) (hw : Wrapping p s1 (qs.flatMap (·.slots)) ws) :
    Each2 (WrapperFor s' (ms.filterMap (·.path))) ((ms.flatMap (·.enabled (ms.filterMap (·.path)))).filter (·.2.isWrap)) ws := by
  have h2 := Each2.filter (f := fun e : SourceModule × SourceEntry => e.2.isWrap) (g := Slot.isWrapper) h.sources ?_
  · refine (h2.comp hw.wraps).mono ?_
    rintro ⟨m, e⟩ w ⟨x, hx, ⟨hf, q, hq, hxq, hpath, himp⟩, base, f, v, rfl, ht, hmt⟩
    have hdone := h.second.posts _ (List.mem_filter.1 hx).1
    have hN : ∀ sc, seenBy s1.symbols (ms.filterMap (·.path)) qs w.index sc → m.Sees s' (ms.filterMap (·.path)) sc := by
      rintro sc ⟨q', hq', ⟨x', hx', he⟩, hs⟩
      have := queued_unique h.second.distinct hq hq' hxq hx' he.symm
      subst this
      unfold SourceModule.Sees
      rw [h.second.same.1, ← hpath, ← himp]
      exact hs
    have hM : ∀ {cls g : Idx}, MethodOf s1.pool cls g → MethodOf s'.pool cls g := by
      rintro cls g ⟨c, hc, hg⟩
      obtain ⟨gs, h4⟩ := h.second.keeps.frame.fields (i := cls) (fun ⟨y, hy, he⟩ => by rw [← he, (h.laid.ready y hy).2.1.notClass] at hc; cases hc) hc
      exact ⟨_, h4, hg⟩
    cases e <;> first | exact hf.elim | skip
    obtain ⟨rfl, t, k1, k2, k3⟩ := hf
    cases hp : FunctionSource.placing f with
    | none =>
      rw [hp] at k3
      cases k3.2.2.2.2.2
    | some a =>
      have hk := List.find?_some hp
      simp only [decide_eq_true_eq] at hk
      rw [hp] at k3
      simp only at k3
      rcases hk with hk | hk | hk | hk <;> simp only [hk] at k3
      · obtain ⟨_, ⟨n, k4, t', k5, k6⟩, k7, _⟩ := k3
        have k8 := (hdone t k1).1.names hN
        cases k2
        exact ⟨f, a, t, base, rfl, hp, hk, ⟨n, k4, t', h.second.keeps.frame.defName k5, k6⟩, hM hmt, h.second.keeps.frame.defName ht, hM k7, k8⟩
      · cases k3.2.2.2.2.2
      · cases k3.2.2.2
      · cases k3.2.2.2.2.2.1
  · rintro ⟨m, e⟩ x ⟨hf, _⟩
    cases e <;> cases x <;> first | exact hf.elim | rfl | skip
    rename_i f i parent base wrapped rep f' v _
    obtain ⟨e, t, k1, k2, k3⟩ := hf
    show (FunctionSource.placing f).any _ = wrapped.isSome
    cases hp : FunctionSource.placing f with
    | none =>
      rw [hp] at k3
      have e : wrapped = none := k3.2.2.2.2.2
      rw [e]; rfl
    | some a =>
      have hk := List.find?_some hp
      simp only [decide_eq_true_eq] at hk
      rw [hp] at k3
      simp only at k3
      rcases hk with hk | hk | hk | hk <;> simp only [hk] at k3 <;> simp only [Option.any_some, hk]
      · rw [k3.2.2.2.2]; rfl
      · rw [k3.2.2.2.2.2]; rfl
      · rw [k3.2.2.2]; rfl
      · rw [k3.2.2.2.2.2.1]; rfl

end

/-- C73: the wrappers of a program. When the sources are declared without a diagnostic, the functions with `@wrapMethod`
are wrappers, each around the method that its annotation and signature name, and however proxies are built, bodies
compiled and originals moved afterwards, what `C36` says holds of exactly these wrappers in the order of the sources. -/
theorem C73_wrappers_of_a_program {p : ConstantPool} (hn : p.names.Reachable Strings.cnameDefault) (hm : MethodsSound p)
    (ht : TypeShape p) {s s' : DeclState} (hs : DeclState.ofPool p = some s) {depth : Nat} {permissive : Bool} {ms : List SourceModule}
    (hp : ∀ m ∈ ms, ∀ e ∈ m.entries, e.Plain) (hd : declareModules depth permissive ms s = (.ok (), s')) (hdiag : s'.diagnostics = [])
    (hl : s'.pool.definitions.length ≤ 2 ^ 32) (hl' : s'.pool.names.strings.length + 1 < 2 ^ 32) :
    ∃ ws : List WrapSlot,
      Each2 (WrapperFor s' (ms.filterMap (·.path))) ((ms.flatMap (·.enabled (ms.filterMap (·.path)))).filter (·.2.isWrap)) ws ∧
      ∀ {P : FloatDisplay} {E : DeclDefault → TcEnv} {diags : List TcDiag} {p1 : ConstantPool},
        compileDefaults P E s'.defaults s'.pool = .ok (diags, p1) →
        ∀ {q : AsmEnv} {bodies : List WrapBody} {p2 p3 p4 : ConstantPool}, WrapFinish q s' p1 bodies p2 p3 p4 →
          WrapRun q p ws ⟨p1, s'.wrappers, s'.proxies⟩ bodies p2 p3 p4 := by
  obtain ⟨qs, s1, seen, h⟩ := declared_loops hn hm.exist ht hs hd hdiag hl hl'
  obtain ⟨ws, hw⟩ := h.wrapping hn hs hp
  refine ⟨ws, h.wrappers hw, fun hdef => fun hfin => ?_⟩
  rename_i P E diags p1 q bodies p2 p3 p4
  have hfo := compileDefaults_fields hdef
  have hfew := h.few
  have hd1 : Declared ⟨p, .empty, .empty⟩ ws ⟨s'.pool, s'.wrappers, s'.proxies⟩ := by
    rw [hfew.wrappers, hfew.proxies]
    exact .other hw.declared (h.otherWork hn hw)
  have hd2 : Declared ⟨p, .empty, .empty⟩ ws ⟨p1, s'.wrappers, s'.proxies⟩ :=
    .other hd1 (hfo.otherWork (st := ⟨s'.pool, s'.wrappers, s'.proxies⟩) (Declared.inv hn rfl hd1) h.second.names)
  have hinv := Declared.inv hn rfl hd2
  refine ⟨hn, hd2, fun w hws => ?_, fun i d c h1 h2 f hf => ?_, hfin.built, hfin.installed, fun b hb f hr => ?_, fun w hws d fn h1 h2 => ?_, hfin.exchanged, hfin.room⟩
  · obtain ⟨x, _, base, f, v, _, _, hmt⟩ := hw.wraps.mem_right hws
    obtain ⟨d, g, h1, h2, h3⟩ := h.targets hm hw hmt
    refine ⟨d, g, hfo.keep h1 (by intro f e; rw [h2] at e; cases e), h2, fun j hj => ?_⟩
    obtain ⟨dj, fl, h4, h5⟩ := h3 j hj
    exact ⟨dj, fl, hfo.keep h4 (by intro f e; rw [e] at h5; cases h5), h5⟩
  · have h3 := hfo.back h1 (by intro f e; rw [h2] at e; cases e)
    obtain ⟨t, h4, h5⟩ := h.listed hm hw hp h3 h2 f hf
    exact ⟨t, hfo.defName h4, h5⟩
  · obtain ⟨b', hb', e⟩ := hfin.pending b hb
    have hr : s'.proxies.get f = some b.index := hr
    rw [hfew.proxies] at hr
    rcases hfew.bodies b' hb' with h1 | ⟨x, hx, h1⟩ | h1
    · rw [h.bodies hs] at h1; cases h1
    · exact hw.apart x hx f (by rw [h1, e]; exact hr)
    · have := (hw.reserved_lt hn hr).1
      rw [e] at h1
      omega
  · refine hfin.locals w.target d fn (fun hno => ?_) h1 h2
    have h3 : wrappersOf w.target ws = [] := (hinv.unwrapped _ hno).2
    have h4 : w ∈ wrappersOf w.target ws := mem_wrappersOf.2 ⟨hws, rfl⟩
    rw [h3] at h4; cases h4

end Redscript
