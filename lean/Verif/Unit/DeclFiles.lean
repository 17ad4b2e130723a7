import Verif.Unit.CompileBodies

/-!
# The files listed by the declaration phase

The first loop lists no files. In the second each function brings in the file it is written in, unless that has
been listed; no later step changes the definition of a file.
-/

namespace Redscript
open DeclM

set_option synthInstance.maxSize 2000
set_option synthInstance.maxHeartbeats 400000

/-! ## The first loop -/

/-- The same files are listed afterwards. -/
class KeepsFiles (m : DeclM α) : Prop where
  keeps : ∀ s : DeclState, (m s).2.files = s.files

namespace KeepsFiles

instance pure' (a : α) : KeepsFiles (Pure.pure a : DeclM α) := ⟨fun _ => rfl⟩

instance bind' (m : DeclM α) (f : α → DeclM β) [hm : KeepsFiles m] [hf : ∀ a, KeepsFiles (f a)] : KeepsFiles (m >>= f) := ⟨fun s => by
  show (DeclM.bind m f s).2.files = s.files
  unfold DeclM.bind
  have h1 := hm.keeps s
  cases h : m s with
  | mk r s1 =>
    rw [h] at h1
    cases r with
    | error e => exact h1
    | ok a => exact ((hf a).keeps s1).trans h1⟩

instance fail (e : DeclErr) : KeepsFiles (DeclM.fail e : DeclM α) := ⟨fun _ => rfl⟩
instance read (f : DeclState → α) : KeepsFiles (DeclM.read f) := ⟨fun _ => rfl⟩
instance readOr (e : DeclErr) (f : DeclState → Option α) : KeepsFiles (DeclM.readOr e f) := ⟨fun s => by
  unfold DeclM.readOr; cases f s <;> rfl⟩
instance diagnose (d : DeclDiag) : KeepsFiles (DeclM.diagnose d) := ⟨fun _ => rfl⟩
instance when (c : Bool) (m : DeclM Unit) [hm : KeepsFiles m] : KeepsFiles (DeclM.when c m) := by
  unfold DeclM.when; split
  · exact hm
  · infer_instance
instance addName (t : Text) : KeepsFiles (DeclM.addName t) := ⟨fun _ => rfl⟩
instance stub (i : Idx) : KeepsFiles (DeclM.stub i) := ⟨fun _ => rfl⟩
instance classAt (i : Idx) : KeepsFiles (DeclM.classAt i) := readOr _ _
instance annTarget (a : Annotation) : KeepsFiles (annTarget a) := readOr _ _
instance conditions (cx : DeclCtx) (as : List Annotation) : KeepsFiles (conditions cx as) := readOr _ _
instance onClass (i : Idx) (f : ClassDef → ClassDef) : KeepsFiles (DeclM.onClass i f) := ⟨fun s => by
  unfold DeclM.onClass
  cases s.pool.modifyValue (AnyDefinition.onClass f) i <;> rfl⟩
instance reporting (m : DeclM α) [hm : KeepsFiles m] : KeepsFiles (DeclM.reporting m) := ⟨fun s => by
  have h1 := hm.keeps s
  unfold DeclM.reporting
  cases h : m s with
  | mk r s1 =>
    rw [h] at h1
    cases r with
    | ok a => exact h1
    | error e => cases e <;> exact h1⟩
instance targetClass (a : Annotation) : KeepsFiles (targetClass a) := by
  unfold Redscript.targetClass
  refine @bind' _ _ _ _ inferInstance fun x => @bind' _ _ _ _ inferInstance fun sym => ?_
  split <;> infer_instance
instance targetMethod (cls : Idx) (name sig : Text) : KeepsFiles (targetMethod cls name sig) := ⟨fun s => by
  unfold Redscript.targetMethod
  cases directMethods s.pool name cls with
  | none => rfl
  | some fs => dsimp only; cases byId s.pool sig fs <;> rfl⟩
instance declareWrap (cls : Idx) (name sig : Text) : KeepsFiles (declareWrap cls name sig) := ⟨fun s => by
  unfold Redscript.declareWrap
  cases Wraps.declare ⟨s.pool, s.wrappers, s.proxies⟩ name sig cls <;> rfl⟩
instance addedBase (c : ClassDef) (sig : Text) : KeepsFiles (addedBase c sig) := by
  unfold Redscript.addedBase
  split <;> infer_instance
instance locateWrap (a : Annotation) (f : FunctionSource) (v : Visibility) : KeepsFiles (locateWrap a f v) := by
  unfold Redscript.locateWrap; infer_instance
instance locateReplace (a : Annotation) (f : FunctionSource) (v : Visibility) : KeepsFiles (locateReplace a f v) := by
  unfold Redscript.locateReplace; infer_instance
instance locateGlobal (f : FunctionSource) (v : Visibility) : KeepsFiles (locateGlobal f v) := by
  unfold Redscript.locateGlobal; infer_instance
instance locateAdd (a : Annotation) (f : FunctionSource) (v : Visibility) : KeepsFiles (locateAdd a f v) := by
  unfold Redscript.locateAdd; infer_instance
theorem update {f : DeclState → DeclState} (h : ∀ s, (f s).files = s.files) : KeepsFiles (DeclM.update f) := ⟨h⟩
instance locatePlain (f : FunctionSource) (path : ModulePath) (v : Visibility) : KeepsFiles (locatePlain f path v) := by
  unfold Redscript.locatePlain
  have h1 : ∀ i, KeepsFiles (DeclM.update fun s => { s with symbols := s.symbols.add (path.withChild f.declaration.name) (.Functions [(i, v)]) }) :=
    fun i => update fun _ => rfl
  have h2 : ∀ i, KeepsFiles (DeclM.update fun s => { s with scope := s.scope.addSymbol f.declaration.name (.Functions [(i, v)]) }) :=
    fun i => update fun _ => rfl
  infer_instance
instance locateFunction (f : FunctionSource) (path : ModulePath) : KeepsFiles (locateFunction f path) := by
  unfold Redscript.locateFunction
  dsimp only
  split
  · infer_instance
  · split <;> infer_instance
instance defineNamed (path : ModulePath) (name : Text) (sym : Idx → Symbol) : KeepsFiles (defineNamed path name sym) := by
  unfold Redscript.defineNamed
  have h1 : ∀ i, KeepsFiles (DeclM.update fun s => { s with symbols := s.symbols.insert (path.withChild name) (sym i) }) :=
    fun i => update fun _ => rfl
  have h2 : ∀ i, KeepsFiles (DeclM.update fun s => { s with scope := s.scope.addSymbol name (sym i) }) :=
    fun i => update fun _ => rfl
  infer_instance
instance checkRedefinition (cx : DeclCtx) (path : ModulePath) : KeepsFiles (checkRedefinition cx path) := by
  unfold Redscript.checkRedefinition; infer_instance
instance defineSymbol (cx : DeclCtx) (path : ModulePath) (e : SourceEntry) : KeepsFiles (defineSymbol cx path e) := by
  cases e <;> unfold Redscript.defineSymbol <;> infer_instance
instance defineEntries (cx : DeclCtx) (path : ModulePath) : ∀ es, KeepsFiles (defineEntries cx path es)
  | [] => pure' _
  | e :: es => by
    have := defineEntries cx path es
    unfold Redscript.defineEntries
    refine @bind' _ _ _ _ inferInstance fun on => ?_
    split <;> infer_instance
instance defineModules (cx : DeclCtx) : ∀ ms, KeepsFiles (defineModules cx ms)
  | [] => pure' _
  | m :: ms => by
    have := defineModules cx ms
    unfold Redscript.defineModules
    infer_instance

end KeepsFiles

/-! ## The second loop -/

/-- Each file is listed once, and its definition has its path and number. -/
structure DeclState.Filed (s : DeclState) : Prop where
  are : ∀ k e, s.files[k]? = some e → s.pool.definition e.2 = some (.mk' 0 0 (.SourceFile ⟨BitVec.ofNat 32 k, 0, e.1⟩))
  once : (s.files.map (·.1)).Nodup

/-- The definition exists and is not that of a listed file. -/
def DeclState.NoFile (s : DeclState) (i : Idx) : Prop := i.toNat < s.len ∧ ∀ e ∈ s.files, e.2 ≠ i

/-- Files are listed properly and no definition has become that of a file. -/
structure FiledStep (s s' : DeclState) : Prop where
  filed : s'.Filed
  noFile : ∀ i, s.NoFile i → s'.NoFile i

theorem FiledStep.refl {s : DeclState} (h : s.Filed) : FiledStep s s := ⟨h, fun _ h => h⟩

theorem FiledStep.trans {s s' s'' : DeclState} (h : FiledStep s s') (k : FiledStep s' s'') : FiledStep s s'' :=
  ⟨k.filed, fun i hi => k.noFile i (h.noFile i hi)⟩

/-- Definitions are added, or changed where there is no file. -/
theorem FiledStep.same {s s' : DeclState} (h : s.Filed) (hf : s'.files = s.files) (hl : s.len ≤ s'.len)
    (hd : ∀ e ∈ s.files, s'.pool.definition e.2 = s.pool.definition e.2) : FiledStep s s' := by
  refine ⟨⟨fun k e he => ?_, by rw [hf]; exact h.once⟩, fun i hi => ⟨Nat.lt_of_lt_of_le hi.1 hl, by rw [hf]; exact hi.2⟩⟩
  rw [hf] at he
  rw [hd e (List.mem_of_getElem? he)]
  exact h.are k e he

theorem FiledStep.append {s s' : DeclState} (h : s.Filed) (hf : s'.files = s.files) {ds : List Definition}
    (hd : s'.pool.definitions = s.pool.definitions ++ ds) : FiledStep s s' := by
  refine .same h hf (by unfold DeclState.len; rw [hd, List.length_append]; exact Nat.le_add_right _ _) fun e he => ?_
  obtain ⟨k, hk⟩ := List.mem_iff_getElem?.1 he
  have h1 : s.pool.definitions[e.2.toNat]? = some _ := h.are k e hk
  show s'.pool.definitions[e.2.toNat]? = s.pool.definitions[e.2.toNat]?
  rw [hd, List.getElem?_append_left (List.getElem?_eq_some_iff.1 h1).1]

/-- A step that leaves files alone and changes definitions only at `T`. -/
class Filing (T : Idx → Prop) (m : DeclM α) : Prop where
  files : ∀ s : DeclState, s.Filed → (∀ j, T j → s.NoFile j) → (m s).2.len ≤ 2 ^ 32 → FiledStep s (m s).2

namespace Filing
variable {T : Idx → Prop}

/-- A step that only adds definitions. -/
theorem appends {m : DeclM α} (h : ∀ s, (m s).2.files = s.files ∧ ∃ ds, (m s).2.pool.definitions = s.pool.definitions ++ ds) : Filing T m :=
  ⟨fun s hs _ _ => by obtain ⟨h1, ds, h2⟩ := h s; exact .append hs h1 h2⟩

theorem still {m : DeclM α} (h : ∀ s, (m s).2.files = s.files ∧ (m s).2.pool.definitions = s.pool.definitions) : Filing T m :=
  appends fun s => ⟨(h s).1, [], by rw [(h s).2, List.append_nil]⟩

instance pure' (a : α) : Filing T (Pure.pure a : DeclM α) := still fun _ => ⟨rfl, rfl⟩

instance bind' (m : DeclM α) (f : α → DeclM β) [hm : Filing T m] [hf : ∀ a, Filing T (f a)] [haf : ∀ a, AddsDefs (f a)] :
    Filing T (m >>= f) := ⟨fun s => by
  show _ → _ → (DeclM.bind m f s).2.len ≤ _ → FiledStep s (DeclM.bind m f s).2
  unfold DeclM.bind
  have h1 := hm.files s
  cases h : m s with
  | mk r s1 =>
    rw [h] at h1
    cases r with
    | error e => exact h1
    | ok a =>
      intro hs hT hl
      have h2 := h1 hs hT (Nat.le_trans ((haf a).grows s1) hl)
      exact h2.trans ((hf a).files s1 h2.filed (fun j hj => h2.noFile j (hT j hj)) hl)⟩

instance fail (e : DeclErr) : Filing T (DeclM.fail e : DeclM α) := still fun _ => ⟨rfl, rfl⟩
instance read (f : DeclState → α) : Filing T (DeclM.read f) := still fun _ => ⟨rfl, rfl⟩
instance readOr (e : DeclErr) (f : DeclState → Option α) : Filing T (DeclM.readOr e f) := still fun s => by
  unfold DeclM.readOr; cases f s <;> exact ⟨rfl, rfl⟩
instance diagnose (d : DeclDiag) : Filing T (DeclM.diagnose d) := still fun _ => ⟨rfl, rfl⟩
instance report (e : DeclErr) : Filing T (DeclM.report e) := still fun s => by cases e <;> exact ⟨rfl, rfl⟩
instance when (c : Bool) (m : DeclM Unit) [hm : Filing T m] : Filing T (DeclM.when c m) := by
  unfold DeclM.when; split
  · exact hm
  · infer_instance
instance ite (c : Prop) [Decidable c] (m m' : DeclM α) [hm : Filing T m] [hm' : Filing T m'] : Filing T (if c then m else m') := by
  split
  · exact hm
  · exact hm'
instance reporting (m : DeclM α) [hm : Filing T m] : Filing T (DeclM.reporting m) := ⟨fun s => by
  have h1 := hm.files s
  unfold DeclM.reporting
  cases h : m s with
  | mk r s1 =>
    rw [h] at h1
    cases r with
    | ok a => exact h1
    | error e => cases e <;> exact fun hs hT hl => let k := h1 hs hT hl; ⟨⟨k.filed.are, k.filed.once⟩, k.noFile⟩⟩
instance addName (t : Text) : Filing T (DeclM.addName t) := still fun _ => ⟨rfl, rfl⟩
instance addDefinition (d : Definition) : Filing T (DeclM.addDefinition d) := appends fun _ => ⟨rfl, _, rfl⟩
instance pushRef (i : SourceRef) : Filing T (DeclM.pushRef i) := still fun _ => ⟨rfl, rfl⟩
instance nameOf (i : Idx) : Filing T (DeclM.nameOf i) := readOr _ _
instance classAt (i : Idx) : Filing T (DeclM.classAt i) := readOr _ _
instance annTarget (a : Annotation) : Filing T (annTarget a) := readOr _ _
instance conditions (cx : DeclCtx) (as : List Annotation) : Filing T (conditions cx as) := readOr _ _

theorem put {i : Idx} (hi : T i) (d : Definition) : Filing T (DeclM.put i d) := ⟨fun s hs hT _ => by
  unfold DeclM.put ConstantPool.putDefinition
  by_cases h : i.toNat < s.pool.definitions.length
  · rw [if_pos h]
    refine .same hs rfl ?_ fun e he => ?_
    · show s.len ≤ (s.pool.definitions.set i.toNat d).length
      rw [List.length_set]; exact Nat.le_refl _
    · show (s.pool.definitions.set i.toNat d)[e.2.toNat]? = s.pool.definitions[e.2.toNat]?
      rw [List.getElem?_set_ne fun k => (hT i hi).2 e he (BitVec.eq_of_toNat_eq k.symm)]
  · rw [if_neg h]; exact .refl hs⟩

instance onClass (i : Idx) (f : ClassDef → ClassDef) : Filing T (DeclM.onClass i f) := ⟨fun s hs _ _ => by
  unfold DeclM.onClass
  cases h : s.pool.modifyValue (AnyDefinition.onClass f) i with
  | none => exact .refl hs
  | some p =>
    have hl := (modifyValue_sizes h).1
    refine .same hs rfl (by show s.len ≤ p.definitions.length; rw [hl]; exact Nat.le_refl _) fun e he => ?_
    obtain ⟨k, hk⟩ := List.mem_iff_getElem?.1 he
    have h1 := hs.are k e hk
    unfold ConstantPool.modifyValue at h
    cases hd : s.pool.definitions[i.toNat]? with
    | none => rw [hd] at h; cases h
    | some d =>
      rw [hd] at h
      simp only [Option.bind_some, Option.map_eq_some_iff] at h
      obtain ⟨v, hv, rfl⟩ := h
      show (s.pool.definitions.set i.toNat _)[e.2.toNat]? = s.pool.definitions[e.2.toNat]?
      rw [List.getElem?_set_ne fun k => ?_]
      have h1 : s.pool.definitions[e.2.toNat]? = _ := h1
      rw [k, h1] at hd
      cases hd
      cases hv⟩

instance tryResolveType (depth : Nat) (t : TypeName) : Filing T (tryResolveType depth t) := still fun s => by
  unfold Redscript.tryResolveType
  split <;> exact ⟨rfl, rfl⟩
instance typeIndex (t : TypeId) : Filing T (typeIndex t) := appends fun s => by
  unfold Redscript.typeIndex
  cases h : getTypeIndex s.moduleScope s.pool t with
  | error e => cases e <;> exact ⟨rfl, [], by simp⟩
  | ok r =>
    obtain ⟨⟨_, ds, h2, _⟩, _⟩ := getTypeIndex_adds t h
    exact ⟨rfl, ds, h2⟩
instance defineParams (depth : Nat) (i : Idx) : ∀ ps, Filing T (defineParams depth i ps)
  | [] => pure' _
  | p :: ps => by
    have := defineParams depth i ps
    unfold Redscript.defineParams
    infer_instance
instance defineReturn (depth : Nat) (t : Option TypeName) : Filing T (defineReturn depth t) := by
  unfold Redscript.defineReturn
  cases t <;> infer_instance
instance checkFunction (spec : FunctionSpec) : Filing T (checkFunction spec) := by
  unfold Redscript.checkFunction
  infer_instance
instance pushBody (spec : FunctionSpec) : Filing T (pushBody spec) := by
  unfold Redscript.pushBody
  cases spec.source.body with
  | none => infer_instance
  | some _ => exact still fun _ => ⟨rfl, rfl⟩
instance pushDefault (i cls : Idx) (f : FieldSource) : Filing T (pushDefault i cls f) := by
  unfold Redscript.pushDefault
  cases f.default with
  | none => infer_instance
  | some _ => exact still fun _ => ⟨rfl, rfl⟩

theorem defineFunction (depth : Nat) (spec : FunctionSpec) (h : T spec.funIdx) : Filing T (defineFunction depth spec) := by
  have hp := fun d => put (T := T) h d
  unfold Redscript.defineFunction
  infer_instance

theorem defineField (depth : Nat) (i cls : Idx) (fl : ClassFlags) (v : Visibility) (f : FieldSource) (h : T i) :
    Filing T (defineField depth i cls fl v f) := by
  have hp := fun d => put (T := T) h d
  unfold Redscript.defineField
  infer_instance

/-- The file of a function is listed. -/
instance defineSourceRef (loc : Option (String × BitVec 32)) : Filing T (defineSourceRef loc) := by
  unfold Redscript.defineSourceRef
  cases loc with
  | none => infer_instance
  | some l =>
    obtain ⟨path, line⟩ := l
    refine ⟨fun s hs _ hl => ?_⟩
    dsimp only at hl ⊢
    cases hf : s.files.find? (fun e => decide (e.1 = path)) with
    | some e => exact .refl hs
    | none =>
      rw [hf] at hl
      dsimp only at hl ⊢
      have hl : (s.pool.definitions ++ [_]).length ≤ 2 ^ 32 := hl
      rw [List.length_append, List.length_singleton] at hl
      have hi : (BitVec.ofNat 32 s.pool.definitions.length).toNat = s.pool.definitions.length := by
        rw [BitVec.toNat_ofNat, Nat.mod_eq_of_lt (by omega)]
      refine ⟨⟨fun k e he => ?_, ?_⟩, fun i hi' => ⟨?_, fun e he => ?_⟩⟩
      · have he : (s.files ++ [_])[k]? = some e := he
        show (s.pool.definitions ++ [_])[e.2.toNat]? = _
        by_cases hk : k < s.files.length
        · rw [List.getElem?_append_left hk] at he
          have h1 : s.pool.definitions[e.2.toNat]? = some _ := hs.are k e he
          rw [List.getElem?_append_left (List.getElem?_eq_some_iff.1 h1).1]
          exact h1
        · rw [List.getElem?_append_right (by omega), List.getElem?_singleton] at he
          split at he
          · next h0 =>
            cases he
            have : k = s.files.length := by omega
            subst this
            show (s.pool.definitions ++ [_])[(BitVec.ofNat 32 s.pool.definitions.length).toNat]? = _
            rw [hi]; simp
          · cases he
      · show (List.map (fun e : String × Idx => e.1) (s.files ++ [_])).Nodup
        rw [List.map_append, List.nodup_append]
        refine ⟨hs.once, by simp, fun a ha b hb e => ?_⟩
        obtain ⟨x, hx, rfl⟩ := List.mem_map.1 ha
        rw [List.map_singleton, List.mem_singleton] at hb
        have := List.find?_eq_none.1 hf x hx
        rw [e, hb] at this
        simp at this
      · show i.toNat < (s.pool.definitions ++ [_]).length
        rw [List.length_append]
        exact Nat.lt_of_lt_of_le hi'.1 (Nat.le_add_right _ _)
      · have he : e ∈ s.files ++ [_] := he
        rcases List.mem_append.1 he with he | he
        · exact hi'.2 e he
        · rw [List.mem_singleton] at he
          subst he
          intro k
          have h2 : (BitVec.ofNat 32 s.pool.definitions.length) = i := k
          have h3 := hi'.1
          rw [← h2, hi] at h3
          exact absurd h3 (Nat.lt_irrefl _)

/-- What comes after a new definition may change it. -/
theorem bindStub {k : Idx} {f : Idx → DeclM β} [haf : ∀ i, AddsDefs (f i)] (hf : ∀ i : Idx, Filing (fun j => T j ∨ j = i) (f i)) :
    Filing T (DeclM.stub k >>= f) := ⟨fun s hs hT hl => by
  have hl : (f (BitVec.ofNat 32 s.len) { s with pool := (s.pool.addDefinition (.mk' k 0 (.Type .Prim))).2 }).2.len ≤ 2 ^ 32 := hl
  show FiledStep s (f (BitVec.ofNat 32 s.len) { s with pool := (s.pool.addDefinition (.mk' k 0 (.Type .Prim))).2 }).2
  have h1 := (haf (BitVec.ofNat 32 s.len)).grows { s with pool := (s.pool.addDefinition (.mk' k 0 (.Type .Prim))).2 }
  have h2 : DeclState.len { s with pool := (s.pool.addDefinition (.mk' k 0 (.Type .Prim))).2 } = s.len + 1 := by
    show (s.pool.definitions ++ [_]).length = _
    simp [DeclState.len]
  have hi : (BitVec.ofNat 32 s.len).toNat = s.len := by
    rw [BitVec.toNat_ofNat, Nat.mod_eq_of_lt (by omega)]
  have h3 : FiledStep s { s with pool := (s.pool.addDefinition (.mk' k 0 (.Type .Prim))).2 } := .append hs rfl rfl
  refine h3.trans ((hf _).files _ h3.filed (fun j hj => ?_) hl)
  rcases hj with hj | rfl
  · exact h3.noFile j (hT j hj)
  · refine ⟨by rw [hi, h2]; omega, fun e he k => ?_⟩
    obtain ⟨n, hn⟩ := List.mem_iff_getElem?.1 he
    have h4 := definition_lt (hs.are n e hn)
    rw [k, hi] at h4
    exact absurd h4 (Nat.lt_irrefl _)⟩

theorem mono {T' : Idx → Prop} {m : DeclM α} (h : Filing T m) (hT : ∀ i, T i → T' i) : Filing T' m :=
  ⟨fun s hs hT' hl => h.files s hs (fun j hj => hT' j (hT j hj)) hl⟩

theorem defineMembers (cx : DeclCtx) (cls : Idx) (fl : ClassFlags) (v : Visibility) (b : Bool) :
    ∀ ms, Filing T (defineMembers cx cls fl v b ms)
  | [] => by unfold Redscript.defineMembers; infer_instance
  | .Function f :: ms => by
    have hr := defineMembers cx cls fl v b ms
    have hr' := fun i => hr.mono (T' := fun j => T j ∨ j = i) fun _ => .inl
    unfold Redscript.defineMembers
    refine @bind' _ _ _ _ _ inferInstance (fun on => ?_) inferInstance
    split
    · refine @bind' _ _ _ _ _ inferInstance (fun _ => @bind' _ _ _ _ _ inferInstance (fun k => bindStub fun i => ?_) inferInstance) inferInstance
      have := fun ref => defineFunction (T := fun j => T j ∨ j = i) cx.depth ⟨i, cls, some fl, none, ref, none, false, v, f⟩ (.inr rfl)
      have := hr' i
      infer_instance
    · exact hr
  | .Field f :: ms => by
    have hr := defineMembers cx cls fl v b ms
    have hr' := fun i => hr.mono (T' := fun j => T j ∨ j = i) fun _ => .inl
    unfold Redscript.defineMembers
    refine @bind' _ _ _ _ _ inferInstance (fun on => ?_) inferInstance
    split
    · refine @bind' _ _ _ _ _ inferInstance (fun k => bindStub fun i => ?_) inferInstance
      have := defineField (T := fun j => T j ∨ j = i) cx.depth i cls fl v f (.inr rfl)
      have := hr' i
      infer_instance
    · exact hr

instance defineBase (c : ClassSource) (b : Bool) : Filing T (defineBase c b) := by
  unfold Redscript.defineBase
  split
  · infer_instance
  · split
    · refine @bind' _ _ _ _ _ inferInstance (fun a => ?_) (fun a => ?_)
      · split <;> infer_instance
      · split <;> infer_instance
    · infer_instance

theorem defineClass (cx : DeclCtx) (i : Idx) (v : Visibility) (c : ClassSource) (b : Bool) (h : T i) : Filing T (defineClass cx i v c b) := by
  have hp := fun d => put (T := T) h d
  have hm := fun fl => defineMembers (T := T) cx i fl v b c.members
  unfold Redscript.defineClass
  infer_instance

instance defineEnumMembers (i : Idx) : ∀ ms, Filing T (defineEnumMembers i ms)
  | [] => pure' _
  | (k, v) :: ms => by
    have := defineEnumMembers i ms
    unfold Redscript.defineEnumMembers
    infer_instance

theorem defineEnum (i : Idx) (e : EnumSource) (h : T i) : Filing T (defineEnum i e) := by
  have hp := fun d => put (T := T) h d
  unfold Redscript.defineEnum
  infer_instance

theorem defineAddField (cx : DeclCtx) (i : Idx) (v : Visibility) (f : FieldSource) (a : Annotation) (h : T i) :
    Filing T (defineAddField cx i v f a) := by
  have hd := fun cls fl => defineField (T := T) cx.depth i cls fl v f h
  unfold Redscript.defineAddField
  refine @bind' _ _ _ _ _ inferInstance (fun x => @bind' _ _ _ _ _ inferInstance (fun sym => ?_) fun sym => ?_) fun x => ?_
  · split <;> infer_instance
  · split <;> infer_instance
  · refine @AddsDefs.bind' _ _ _ _ inferInstance fun sym => ?_
    split <;> infer_instance

theorem defineGlobalLet (cx : DeclCtx) (i : Idx) (v : Visibility) (f : FieldSource) (h : T i) : Filing T (defineGlobalLet cx i v f) := by
  unfold Redscript.defineGlobalLet
  split
  · exact defineAddField _ _ _ _ _ h
  · infer_instance

instance ownSymbols (path : ModulePath) : Filing T (ownSymbols path) := by
  unfold Redscript.ownSymbols
  split
  · infer_instance
  · refine still fun s => ?_
    unfold DeclM.update
    dsimp only
    split <;> exact ⟨rfl, rfl⟩
instance importOne (imp : Import) : Filing T (importOne imp) := still fun s => by
  unfold Redscript.importOne
  cases s.symbols.populateImport imp .pub s.moduleScope with
  | ok sc => exact ⟨rfl, rfl⟩
  | error e => cases e <;> exact ⟨rfl, rfl⟩
instance importAll (cx : DeclCtx) : ∀ is, Filing T (importAll cx is)
  | [] => pure' _
  | (imp, anns) :: is => by
    have := importAll cx is
    unfold Redscript.importAll
    infer_instance
instance parentFlags (i : Idx) : Filing T (parentFlags i) := by
  unfold Redscript.parentFlags
  infer_instance
instance moduleScope (f : DeclState → Scope) : Filing T (DeclM.update fun s => { s with moduleScope := f s }) := still fun _ => ⟨rfl, rfl⟩

theorem defineSlot (cx : DeclCtx) (seen : List Idx) (x : Slot) (h : T x.index) : Filing T (defineSlot cx seen x) := by
  cases x with
  | Function index parent base wrapped rep source v =>
    have := fun flags ref => defineFunction (T := T) cx.depth ⟨index, parent, flags, base, ref, wrapped, rep, v, source⟩ h
    unfold Redscript.defineSlot
    infer_instance
  | Class index source v => have := defineClass (T := T) cx index v source false h; unfold Redscript.defineSlot; infer_instance
  | Struct index source v => have := defineClass (T := T) cx index v source true h; unfold Redscript.defineSlot; infer_instance
  | Field index source v => have := defineGlobalLet (T := T) cx index v source h; unfold Redscript.defineSlot; infer_instance
  | Enum index source => have := defineEnum (T := T) index source h; unfold Redscript.defineSlot; infer_instance

theorem defineSlots (cx : DeclCtx) : ∀ (xs : List Slot) (seen : List Idx), (∀ x ∈ xs, T x.index) → Filing T (defineSlots cx xs seen)
  | [], _, _ => by unfold Redscript.defineSlots; infer_instance
  | x :: xs, seen, h => by
    have := defineSlot (T := T) cx seen x (h x List.mem_cons_self)
    have := fun seen => defineSlots cx xs seen fun y hy => h y (List.mem_cons_of_mem _ hy)
    unfold Redscript.defineSlots
    infer_instance

theorem defineQueue (cx : DeclCtx) : ∀ (qs : List Queued) (seen : List Idx), (∀ q ∈ qs, ∀ x ∈ q.slots, T x.index) → Filing T (defineQueue cx qs seen)
  | [], _, _ => by unfold Redscript.defineQueue; infer_instance
  | q :: qs, seen, h => by
    have := fun seen => defineSlots (T := T) cx q.slots seen (h q List.mem_cons_self)
    have := fun seen => defineQueue cx qs seen fun y hy => h y (List.mem_cons_of_mem _ hy)
    unfold Redscript.defineQueue
    infer_instance

end Filing

/-- The files are listed properly after the two loops. -/
theorem TwoLoops.filed {p : ConstantPool} {depth : Nat} {permissive : Bool} {ms : List SourceModule} {s s1 s' : DeclState} {qs : List Queued}
    {seen : List Idx} (h : TwoLoops p depth permissive ms s s1 s' qs seen) (hs : s.files = []) : s'.Filed := by
  have h1 := (KeepsFiles.defineModules ⟨ms.filterMap (·.path), depth, permissive⟩ ms).keeps s
  rw [h.one] at h1
  have h1 : s1.files = [] := h1.trans hs
  have h2 := (Filing.defineQueue (T := SlotIndex qs) ⟨ms.filterMap (·.path), depth, permissive⟩ qs []
    fun q hq x hx => ⟨x, List.mem_flatMap.2 ⟨q, hq, hx⟩, rfl⟩).files s1 ⟨fun k e he => (by rw [h1] at he; cases he), by rw [h1]; exact List.nodup_nil⟩ (by
      rintro j ⟨x, hx, rfl⟩
      obtain ⟨d, h2, _⟩ := (h.laid.ready x hx).2.1
      exact ⟨definition_lt h2, fun e he => by rw [h1] at he; cases he⟩)
  rw [h.two] at h2
  exact (h2 h.fine.defs).filed

end Redscript
