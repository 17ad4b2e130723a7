import Verif.Unit.DeclDoneTheorems

/-!
# What the second loop leaves alone
-/

namespace Redscript
open DeclM

set_option synthInstance.maxSize 2000
set_option synthInstance.maxHeartbeats 400000

/-- Classes outside of `T` were there with the same methods, the wrappers are the same, and bodies are put off only for
definitions in `T` and behind `n`. -/
structure Few (T : Idx → Prop) (n : Nat) (s s' : DeclState) : Prop where
  back : ∀ i c', s'.pool.definitionBy AnyDefinition.asClass i = some c' → T i ∨
    ∃ c, s.pool.definitionBy AnyDefinition.asClass i = some c ∧ c'.functions = c.functions
  wrappers : s'.wrappers = s.wrappers
  proxies : s'.proxies = s.proxies
  bodies : ∀ b ∈ s'.bodies, b ∈ s.bodies ∨ T b.index ∨ n ≤ b.index.toNat

namespace Few
variable {T : Idx → Prop} {n : Nat} {s s' s'' : DeclState}

theorem refl : Few T n s s := ⟨fun _ c h => .inr ⟨c, h, rfl⟩, rfl, rfl, fun _ h => .inl h⟩

theorem trans (h : Few T n s s') (k : Few T n s' s'') : Few T n s s'' where
  back := fun i c hc => by
    rcases k.back i c hc with hi | ⟨c1, h1, h2⟩
    · exact .inl hi
    · rcases h.back i c1 h1 with hi | ⟨c0, h3, h4⟩
      · exact .inl hi
      · exact .inr ⟨c0, h3, h2.trans h4⟩
  wrappers := k.wrappers.trans h.wrappers
  proxies := k.proxies.trans h.proxies
  bodies := fun b hb => (k.bodies b hb).elim (h.bodies b) .inr

theorem same (hp : s'.pool.definitions = s.pool.definitions) (hw : s'.wrappers = s.wrappers) (hx : s'.proxies = s.proxies) (hb : s'.bodies = s.bodies) : Few T n s s' :=
  ⟨fun i c h => .inr ⟨c, by unfold ConstantPool.definitionBy at h ⊢; rwa [hp] at h, rfl⟩, hw, hx, fun b h => .inl (by rwa [hb] at h)⟩

/-- Further definitions that are not classes. -/
theorem append {ds : List Definition} (hp : s'.pool.definitions = s.pool.definitions ++ ds) (hd : ∀ d ∈ ds, d.value.asClass = none)
    (hw : s'.wrappers = s.wrappers) (hx : s'.proxies = s.proxies) (hb : s'.bodies = s.bodies) : Few T n s s' := by
  refine ⟨fun i c h => .inr ⟨c, ?_, rfl⟩, hw, hx, fun b h => .inl (by rwa [hb] at h)⟩
  unfold ConstantPool.definitionBy at h ⊢
  rw [hp] at h
  by_cases hi : i.toNat < s.pool.definitions.length
  · rwa [List.getElem?_append_left hi] at h
  · exfalso
    rw [List.getElem?_append_right (Nat.not_lt.1 hi)] at h
    cases hg : ds[i.toNat - s.pool.definitions.length]? with
    | none => rw [hg] at h; cases h
    | some d =>
      rw [hg, Option.bind_some, hd d (List.mem_of_getElem? hg)] at h
      cases h

end Few

/-- A step of the second loop, begun with at least `n` definitions. -/
class FewClasses (T : Idx → Prop) (n : Nat) (m : DeclM α) : Prop where
  few : ∀ s : DeclState, n ≤ s.len → (m s).2.len ≤ 2 ^ 32 → Few T n s (m s).2

namespace FewClasses
variable {T : Idx → Prop} {n : Nat}

instance pure' (a : α) : FewClasses T n (Pure.pure a : DeclM α) := ⟨fun _ _ _ => .refl⟩

instance bind' (m : DeclM α) (f : α → DeclM β) [hm : FewClasses T n m] [hf : ∀ a, FewClasses T n (f a)] [ham : AddsDefs m] [haf : ∀ a, AddsDefs (f a)] :
    FewClasses T n (m >>= f) := ⟨fun s hs => by
  show (DeclM.bind m f s).2.len ≤ _ → Few T n s (DeclM.bind m f s).2
  unfold DeclM.bind
  have h1 := hm.few s hs
  have h2 := ham.grows s
  cases h : m s with
  | mk r s' =>
    rw [h] at h1 h2
    cases r with
    | error e => exact h1
    | ok a =>
      intro hl
      exact (h1 (Nat.le_trans ((haf a).grows s') hl)).trans ((hf a).few s' (Nat.le_trans hs h2) hl)⟩

instance fail (e : DeclErr) : FewClasses T n (DeclM.fail e : DeclM α) := ⟨fun _ _ _ => .refl⟩

instance read (f : DeclState → α) : FewClasses T n (DeclM.read f) := ⟨fun _ _ _ => .refl⟩

instance readOr (e : DeclErr) (f : DeclState → Option α) : FewClasses T n (DeclM.readOr e f) := ⟨fun s _ _ => by
  unfold DeclM.readOr; cases f s <;> exact .refl⟩

instance report (e : DeclErr) : FewClasses T n (DeclM.report e) := ⟨fun s _ _ => by
  unfold DeclM.report
  cases e <;> exact .same rfl rfl rfl rfl⟩

instance reporting (m : DeclM α) [hm : FewClasses T n m] [ham : AddsDefs m] : FewClasses T n (DeclM.reporting m) := ⟨fun s hs => by
  unfold DeclM.reporting
  have h1 := hm.few s hs
  have h2 := ham.grows s
  cases h : m s with
  | mk r s' =>
    rw [h] at h1 h2
    cases r with
    | error e =>
      intro hl
      have h3 := (FewClasses.bind' (T := T) (n := n) (DeclM.report e) (fun _ => Pure.pure (none : Option α))).few s' (Nat.le_trans hs h2) hl
      exact (h1 (Nat.le_trans ((AddsDefs.bind' (DeclM.report e) (fun _ => Pure.pure (none : Option α))).grows s') hl)).trans h3
    | ok a => exact h1⟩

instance when (c : Bool) (m : DeclM Unit) [hm : FewClasses T n m] : FewClasses T n (DeclM.when c m) := by
  unfold DeclM.when; split
  · exact hm
  · infer_instance

instance ite (c : Prop) [Decidable c] (m m' : DeclM α) [hm : FewClasses T n m] [hm' : FewClasses T n m'] : FewClasses T n (if c then m else m') := by
  split
  · exact hm
  · exact hm'

instance diagnose (d : DeclDiag) : FewClasses T n (DeclM.diagnose d) := ⟨fun _ _ _ => .same rfl rfl rfl rfl⟩

instance pushRef (i : SourceRef) : FewClasses T n (DeclM.pushRef i) := ⟨fun _ _ _ => .same rfl rfl rfl rfl⟩

instance addName (t : Text) : FewClasses T n (DeclM.addName t) := ⟨fun _ _ _ => .same rfl rfl rfl rfl⟩

theorem addDefinition {d : Definition} (hd : d.value.asClass = none) : FewClasses T n (DeclM.addDefinition d) :=
  ⟨fun _ _ _ => .append (ds := [d]) rfl (by simpa using hd) rfl rfl rfl⟩

instance addParam (k i : Idx) (q : ParameterDef) : FewClasses T n (DeclM.addDefinition (.mk' k i (.Parameter q))) := addDefinition rfl
instance addValue (k i : Idx) (v : BitVec 64) : FewClasses T n (DeclM.addDefinition (.mk' k i (.EnumValue v))) := addDefinition rfl
instance stub (i : Idx) : FewClasses T n (DeclM.stub i) := addDefinition rfl

theorem put {i : Idx} {d : Definition} (hd : d.value.asClass = none ∨ T i) : FewClasses T n (DeclM.put i d) := ⟨fun s _ _ => by
  unfold DeclM.put ConstantPool.putDefinition
  by_cases h : i.toNat < s.pool.definitions.length
  · rw [if_pos h]
    refine ⟨fun j c hc => ?_, rfl, rfl, fun _ h => .inl h⟩
    have hc : ((s.pool.definitions.set i.toNat d)[j.toNat]?).bind (fun d => d.value.asClass) = some c := hc
    by_cases hij : i = j
    · subst hij
      rcases hd with hd | hd
      · rw [List.getElem?_set_self h, Option.bind_some, hd] at hc
        cases hc
      · exact .inl hd
    · rw [List.getElem?_set_ne (fun h => hij (BitVec.eq_of_toNat_eq h))] at hc
      exact .inr ⟨c, hc, rfl⟩
  · rw [if_neg h]; exact .refl⟩

instance putFunction (i k j : Idx) (f : FunctionDef) : FewClasses T n (DeclM.put i (.mk' k j (.Function f))) := put (.inl rfl)
instance putField (i k j : Idx) (f : FieldDef) : FewClasses T n (DeclM.put i (.mk' k j (.Field f))) := put (.inl rfl)
instance putEnum (i k j : Idx) (f : EnumDef) : FewClasses T n (DeclM.put i (.mk' k j (.Enum f))) := put (.inl rfl)

instance nameOf (i : Idx) : FewClasses T n (DeclM.nameOf i) := readOr _ _

instance classAt (i : Idx) : FewClasses T n (DeclM.classAt i) := readOr _ _

instance onFields (i : Idx) (g : ClassDef → List Idx) : FewClasses T n (DeclM.onClass i fun c => { c with fields := g c }) := ⟨fun s _ _ => by
  unfold DeclM.onClass
  cases h : s.pool.modifyValue (AnyDefinition.onClass fun c => { c with fields := g c }) i with
  | none => exact .refl
  | some p =>
    refine ⟨fun j c hc => .inr ?_, rfl, rfl, fun _ h => .inl h⟩
    have hc : p.definitionBy AnyDefinition.asClass j = some c := hc
    unfold ConstantPool.modifyValue at h
    cases hd : s.pool.definitions[i.toNat]? with
    | none => rw [hd] at h; cases h
    | some d =>
      rw [hd] at h
      simp only [Option.bind_some, Option.map_eq_some_iff] at h
      obtain ⟨v, hv, rfl⟩ := h
      have hc : ((s.pool.definitions.set i.toNat { d with value := v })[j.toNat]?).bind (fun d => d.value.asClass) = some c := hc
      by_cases hij : i = j
      · subst hij
        rw [List.getElem?_set_self (List.getElem?_eq_some_iff.1 hd).1, Option.bind_some] at hc
        cases hdv : d.value with
        | Class c0 =>
          rw [hdv] at hv
          cases hv
          cases hc
          exact ⟨c0, value_asClass hd hdv, rfl⟩
        | _ => rw [hdv] at hv; cases hv
      · rw [List.getElem?_set_ne (fun h => hij (BitVec.eq_of_toNat_eq h))] at hc
        exact ⟨c, hc, rfl⟩⟩

instance typeIndex (t : TypeId) : FewClasses T n (typeIndex t) := ⟨fun s _ _ => by
  unfold Redscript.typeIndex
  cases h : getTypeIndex s.moduleScope s.pool t with
  | error e => cases e <;> exact .refl
  | ok r =>
    obtain ⟨i, sc, p⟩ := r
    obtain ⟨⟨h1, ds, h2, h3⟩, _⟩ := getTypeIndex_adds t h
    refine .append (ds := ds) h2 (fun d hd => ?_) rfl rfl rfl
    obtain ⟨k, t, rfl⟩ := h3 d hd
    rfl⟩

instance tryResolveType (depth : Nat) (t : TypeName) : FewClasses T n (tryResolveType depth t) := ⟨fun s => by
  unfold Redscript.tryResolveType
  cases s.moduleScope.resolveType s.pool depth t with
  | some ty => exact fun _ _ => .refl
  | none => exact (FewClasses.bind' (DeclM.report _) (fun _ => Pure.pure TypeId.Null)).few s⟩

instance defineParams (depth : Nat) (i : Idx) : ∀ ps, FewClasses T n (defineParams depth i ps)
  | [] => pure' _
  | p :: ps => by
    have := defineParams depth i ps
    unfold Redscript.defineParams
    infer_instance

instance defineReturn (depth : Nat) (t : Option TypeName) : FewClasses T n (defineReturn depth t) := by
  unfold Redscript.defineReturn
  cases t <;> infer_instance

instance checkFunction (spec : FunctionSpec) : FewClasses T n (checkFunction spec) := by
  unfold Redscript.checkFunction
  infer_instance

theorem pushBody {spec : FunctionSpec} (h : T spec.funIdx ∨ n ≤ spec.funIdx.toNat) : FewClasses T n (pushBody spec) := by
  unfold Redscript.pushBody
  cases spec.source.body with
  | none => infer_instance
  | some _ =>
    refine ⟨fun s _ _ => ⟨fun i c h => .inr ⟨c, h, rfl⟩, rfl, rfl, fun b hb => ?_⟩⟩
    rcases List.mem_append.1 hb with hb | hb
    · exact .inl hb
    · rw [List.mem_singleton.1 hb]; exact .inr h

instance pushDefault (i cls : Idx) (f : FieldSource) : FewClasses T n (pushDefault i cls f) := by
  unfold Redscript.pushDefault
  cases f.default with
  | none => infer_instance
  | some _ => exact ⟨fun _ _ _ => .same rfl rfl rfl rfl⟩

theorem defineFunction {depth : Nat} {spec : FunctionSpec} (h : T spec.funIdx ∨ n ≤ spec.funIdx.toNat) : FewClasses T n (defineFunction depth spec) := by
  have := pushBody h
  unfold Redscript.defineFunction
  infer_instance

instance defineField (depth : Nat) (i cls : Idx) (fl : ClassFlags) (v : Visibility) (f : FieldSource) :
    FewClasses T n (defineField depth i cls fl v f) := by
  unfold Redscript.defineField
  infer_instance

instance defineSourceRef (loc : Option (String × BitVec 32)) : FewClasses T n (defineSourceRef loc) := by
  unfold Redscript.defineSourceRef
  cases loc with
  | none => infer_instance
  | some l =>
    obtain ⟨path, line⟩ := l
    refine ⟨fun s _ _ => ?_⟩
    simp only
    cases s.files.find? (fun e => decide (e.1 = path)) with
    | some e => exact .refl
    | none => exact .append (ds := [_]) rfl (by simp [Definition.mk', AnyDefinition.asClass]) rfl rfl rfl

instance conditions (cx : DeclCtx) (anns : List Annotation) : FewClasses T n (conditions cx anns) := readOr _ _

/-- What follows a new definition only has to be such a step for definitions behind `n`. -/
theorem bindStub {k : Idx} {f : Idx → DeclM β} [haf : ∀ i, AddsDefs (f i)] (hf : ∀ i : Idx, n ≤ i.toNat → FewClasses T n (f i)) :
    FewClasses T n (DeclM.stub k >>= f) := ⟨fun s hs hl => by
  have hl : (f (BitVec.ofNat 32 s.len) { s with pool := (s.pool.addDefinition (.mk' k 0 (.Type .Prim))).2 }).2.len ≤ 2 ^ 32 := hl
  show Few T n s (f (BitVec.ofNat 32 s.len) { s with pool := (s.pool.addDefinition (.mk' k 0 (.Type .Prim))).2 }).2
  have h1 := (haf (BitVec.ofNat 32 s.len)).grows { s with pool := (s.pool.addDefinition (.mk' k 0 (.Type .Prim))).2 }
  have h2 : DeclState.len { s with pool := (s.pool.addDefinition (.mk' k 0 (.Type .Prim))).2 } = s.len + 1 := by
    show (s.pool.definitions ++ [_]).length = _
    simp [DeclState.len]
  have hi : (BitVec.ofNat 32 s.len).toNat = s.len := by
    rw [BitVec.toNat_ofNat, Nat.mod_eq_of_lt (by omega)]
  exact Few.trans ((stub (T := T) (n := n) k).few s hs (by show DeclState.len { s with pool := (s.pool.addDefinition (.mk' k 0 (.Type .Prim))).2 } ≤ _; omega))
    ((hf _ (by rw [hi]; exact hs)).few _ (Nat.le_trans hs (Nat.le_trans (Nat.le_succ _) (Nat.le_of_eq h2.symm))) hl)⟩

instance defineMembers (cx : DeclCtx) (cls : Idx) (fl : ClassFlags) (v : Visibility) (b : Bool) :
    ∀ ms, FewClasses T n (defineMembers cx cls fl v b ms)
  | [] => pure' _
  | .Function f :: ms => by
    have := defineMembers cx cls fl v b ms
    unfold Redscript.defineMembers
    refine @bind' _ _ _ _ _ _ inferInstance (fun on => ?_) inferInstance inferInstance
    refine @ite _ _ _ _ _ _ _ ?_ inferInstance
    refine @bind' _ _ _ _ _ _ inferInstance (fun _ => ?_) inferInstance inferInstance
    refine @bind' _ _ _ _ _ _ inferInstance (fun k => ?_) inferInstance inferInstance
    refine bindStub fun i hi => ?_
    have : ∀ ref, FewClasses T n (Redscript.defineFunction cx.depth ⟨i, cls, some fl, none, ref, none, false, v, f⟩) := fun ref => defineFunction (.inr hi)
    infer_instance
  | .Field f :: ms => by
    have := defineMembers cx cls fl v b ms
    unfold Redscript.defineMembers
    infer_instance

instance defineBase (c : ClassSource) (b : Bool) : FewClasses T n (defineBase c b) := by
  unfold Redscript.defineBase
  split
  · infer_instance
  · split
    · refine @bind' _ _ _ _ _ _ inferInstance (fun a => ?_) inferInstance (fun a => by split <;> infer_instance)
      split <;> infer_instance
    · infer_instance

theorem defineClass {cx : DeclCtx} {i : Idx} {v : Visibility} {c : ClassSource} {b : Bool} (h : T i) : FewClasses T n (defineClass cx i v c b) := by
  have : ∀ d, FewClasses T n (DeclM.put i d) := fun d => put (.inr h)
  unfold Redscript.defineClass
  infer_instance

instance defineEnumMembers (i : Idx) : ∀ ms, FewClasses T n (defineEnumMembers i ms)
  | [] => pure' _
  | (k, v) :: ms => by
    have := defineEnumMembers i ms
    unfold Redscript.defineEnumMembers
    infer_instance

instance defineEnum (i : Idx) (e : EnumSource) : FewClasses T n (defineEnum i e) := by
  unfold Redscript.defineEnum
  infer_instance

instance annTarget (a : Annotation) : FewClasses T n (annTarget a) := readOr _ _

instance defineAddField (cx : DeclCtx) (i : Idx) (v : Visibility) (f : FieldSource) (a : Annotation) :
    FewClasses T n (defineAddField cx i v f a) := by
  unfold Redscript.defineAddField
  refine @bind' _ _ _ _ _ _ inferInstance (fun x => @bind' _ _ _ _ _ _ inferInstance (fun sym => ?_) inferInstance (fun sym => by split <;> infer_instance))
    inferInstance (fun x => @AddsDefs.bind' _ _ _ _ inferInstance fun sym => by split <;> infer_instance)
  split <;> infer_instance

instance defineGlobalLet (cx : DeclCtx) (i : Idx) (v : Visibility) (f : FieldSource) : FewClasses T n (defineGlobalLet cx i v f) := by
  unfold Redscript.defineGlobalLet
  split <;> infer_instance

instance ownSymbols (path : ModulePath) : FewClasses T n (ownSymbols path) := by
  unfold Redscript.ownSymbols
  split
  · infer_instance
  · refine ⟨fun s _ _ => ?_⟩
    unfold DeclM.update
    simp only
    split
    · exact .same rfl rfl rfl rfl
    · exact .refl

instance importOne (imp : Import) : FewClasses T n (importOne imp) := ⟨fun s hs => by
  unfold Redscript.importOne
  cases s.symbols.populateImport imp .pub s.moduleScope with
  | ok sc => exact fun _ => .same rfl rfl rfl rfl
  | error e =>
    intro hl
    exact Few.trans (s' := { s with moduleScope := s.symbols.importKept .pub s.moduleScope imp }) (.same rfl rfl rfl rfl) ((report (T := T) (n := n) e.toDecl).few { s with moduleScope := s.symbols.importKept .pub s.moduleScope imp } hs hl)⟩

instance importAll (cx : DeclCtx) : ∀ is, FewClasses T n (importAll cx is)
  | [] => pure' _
  | (imp, anns) :: is => by
    have := importAll cx is
    unfold Redscript.importAll
    infer_instance

instance parentFlags (i : Idx) : FewClasses T n (parentFlags i) := by
  unfold Redscript.parentFlags
  infer_instance

theorem defineSlot {cx : DeclCtx} {seen : List Idx} {x : Slot} (h : T x.index) : FewClasses T n (defineSlot cx seen x) := by
  cases x with
  | Function index parent base wrapped rep source v =>
    have : ∀ flags ref, FewClasses T n (Redscript.defineFunction cx.depth ⟨index, parent, flags, base, ref, wrapped, rep, v, source⟩) :=
      fun _ _ => defineFunction (.inl h)
    unfold Redscript.defineSlot; infer_instance
  | Class index source v =>
    have : FewClasses T n (Redscript.defineClass cx index v source false) := defineClass h
    unfold Redscript.defineSlot; infer_instance
  | Struct index source v =>
    have : FewClasses T n (Redscript.defineClass cx index v source true) := defineClass h
    unfold Redscript.defineSlot; infer_instance
  | Field index source v => unfold Redscript.defineSlot; infer_instance
  | Enum index source => unfold Redscript.defineSlot; infer_instance

theorem defineSlots {cx : DeclCtx} : ∀ {xs : List Slot} {seen : List Idx}, (∀ x ∈ xs, T x.index) → FewClasses T n (defineSlots cx xs seen)
  | [], _, _ => pure' _
  | x :: xs, seen, h => by
    have : FewClasses T n (Redscript.defineSlot cx seen x) := defineSlot (h x List.mem_cons_self)
    have : ∀ seen, FewClasses T n (Redscript.defineSlots cx xs seen) := fun seen => defineSlots fun x hx => h x (List.mem_cons_of_mem _ hx)
    unfold Redscript.defineSlots
    infer_instance

instance moduleScope (f : DeclState → Scope) : FewClasses T n (DeclM.update fun s => { s with moduleScope := f s }) := ⟨fun _ _ _ => .same rfl rfl rfl rfl⟩

theorem defineQueue {cx : DeclCtx} : ∀ {qs : List Queued} {seen : List Idx}, (∀ q ∈ qs, ∀ x ∈ q.slots, T x.index) → FewClasses T n (defineQueue cx qs seen)
  | [], _, _ => pure' _
  | q :: qs, seen, h => by
    have : FewClasses T n (Redscript.defineSlots cx q.slots seen) := defineSlots (h q List.mem_cons_self)
    have : ∀ seen, FewClasses T n (Redscript.defineQueue cx qs seen) := fun seen => defineQueue fun q hq => h q (List.mem_cons_of_mem _ hq)
    unfold Redscript.defineQueue
    infer_instance

end FewClasses
end Redscript
