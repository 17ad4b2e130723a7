import Verif.Unit.WrapSecond

/-!
# Defaults of fields are put off only for new definitions
-/

namespace Redscript
open DeclM

set_option synthInstance.maxSize 2000
set_option synthInstance.maxHeartbeats 400000

/-- Defaults are put off only for definitions behind `n`. -/
def Late (n : Nat) (s s' : DeclState) : Prop := ∀ b ∈ s'.defaults, b ∈ s.defaults ∨ n ≤ b.index.toNat

namespace Late
variable {n : Nat} {s s' s'' : DeclState}

theorem refl : Late n s s := fun _ h => .inl h

theorem trans (h : Late n s s') (k : Late n s' s'') : Late n s s'' := fun b hb => (k b hb).elim (h b) .inr

theorem same (h : s'.defaults = s.defaults) : Late n s s' := fun b hb => .inl (by rwa [h] at hb)

end Late

/-- A step of the second loop, begun with at least `n` definitions. -/
class LateDefaults (n : Nat) (m : DeclM α) : Prop where
  late : ∀ s : DeclState, n ≤ s.len → (m s).2.len ≤ 2 ^ 32 → Late n s (m s).2

namespace LateDefaults
variable {n : Nat}

instance pure' (a : α) : LateDefaults n (Pure.pure a : DeclM α) := ⟨fun _ _ _ => .refl⟩

instance bind' (m : DeclM α) (f : α → DeclM β) [hm : LateDefaults n m] [hf : ∀ a, LateDefaults n (f a)] [ham : AddsDefs m] [haf : ∀ a, AddsDefs (f a)] :
    LateDefaults n (m >>= f) := ⟨fun s hs => by
  show (DeclM.bind m f s).2.len ≤ _ → Late n s (DeclM.bind m f s).2
  unfold DeclM.bind
  have h1 := hm.late s hs
  have h2 := ham.grows s
  cases h : m s with
  | mk r s' =>
    rw [h] at h1 h2
    cases r with
    | error e => exact h1
    | ok a =>
      intro hl
      exact (h1 (Nat.le_trans ((haf a).grows s') hl)).trans ((hf a).late s' (Nat.le_trans hs h2) hl)⟩

instance fail (e : DeclErr) : LateDefaults n (DeclM.fail e : DeclM α) := ⟨fun _ _ _ => .refl⟩

instance read (f : DeclState → α) : LateDefaults n (DeclM.read f) := ⟨fun _ _ _ => .refl⟩

instance readOr (e : DeclErr) (f : DeclState → Option α) : LateDefaults n (DeclM.readOr e f) := ⟨fun s _ _ => by
  unfold DeclM.readOr; cases f s <;> exact .refl⟩

instance report (e : DeclErr) : LateDefaults n (DeclM.report e) := ⟨fun s _ _ => by
  unfold DeclM.report
  cases e <;> exact .same rfl⟩

instance reporting (m : DeclM α) [hm : LateDefaults n m] [ham : AddsDefs m] : LateDefaults n (DeclM.reporting m) := ⟨fun s hs => by
  unfold DeclM.reporting
  have h1 := hm.late s hs
  have h2 := ham.grows s
  cases h : m s with
  | mk r s' =>
    rw [h] at h1 h2
    cases r with
    | error e =>
      intro hl
      have h3 := (LateDefaults.bind' (n := n) (DeclM.report e) (fun _ => Pure.pure (none : Option α))).late s' (Nat.le_trans hs h2) hl
      exact (h1 (Nat.le_trans ((AddsDefs.bind' (DeclM.report e) (fun _ => Pure.pure (none : Option α))).grows s') hl)).trans h3
    | ok a => exact h1⟩

instance when (c : Bool) (m : DeclM Unit) [hm : LateDefaults n m] : LateDefaults n (DeclM.when c m) := by
  unfold DeclM.when; split
  · exact hm
  · infer_instance

instance ite (c : Prop) [Decidable c] (m m' : DeclM α) [hm : LateDefaults n m] [hm' : LateDefaults n m'] : LateDefaults n (if c then m else m') := by
  split
  · exact hm
  · exact hm'

instance diagnose (d : DeclDiag) : LateDefaults n (DeclM.diagnose d) := ⟨fun _ _ _ => .same rfl⟩

instance pushRef (i : SourceRef) : LateDefaults n (DeclM.pushRef i) := ⟨fun _ _ _ => .same rfl⟩

instance addName (t : Text) : LateDefaults n (DeclM.addName t) := ⟨fun _ _ _ => .same rfl⟩

instance addDefinition (d : Definition) : LateDefaults n (DeclM.addDefinition d) := ⟨fun _ _ _ => .same rfl⟩

instance stub (i : Idx) : LateDefaults n (DeclM.stub i) := addDefinition _

instance put (i : Idx) (d : Definition) : LateDefaults n (DeclM.put i d) := ⟨fun s _ _ => by
  unfold DeclM.put ConstantPool.putDefinition
  by_cases h : i.toNat < s.pool.definitions.length
  · rw [if_pos h]; exact .same rfl
  · rw [if_neg h]; exact .refl⟩

instance nameOf (i : Idx) : LateDefaults n (DeclM.nameOf i) := readOr _ _

instance classAt (i : Idx) : LateDefaults n (DeclM.classAt i) := readOr _ _

instance onClass (i : Idx) (g : ClassDef → ClassDef) : LateDefaults n (DeclM.onClass i g) := ⟨fun s _ _ => by
  unfold DeclM.onClass
  cases h : s.pool.modifyValue (AnyDefinition.onClass g) i with
  | none => exact .refl
  | some p => exact .same rfl⟩

instance typeIndex (t : TypeId) : LateDefaults n (typeIndex t) := ⟨fun s _ _ => by
  unfold Redscript.typeIndex
  cases h : getTypeIndex s.moduleScope s.pool t with
  | error e => cases e <;> exact .refl
  | ok r => exact .same rfl⟩

instance tryResolveType (depth : Nat) (t : TypeName) : LateDefaults n (tryResolveType depth t) := ⟨fun s => by
  unfold Redscript.tryResolveType
  cases s.moduleScope.resolveType s.pool depth t with
  | some ty => exact fun _ _ => .refl
  | none => exact (LateDefaults.bind' (DeclM.report _) (fun _ => Pure.pure TypeId.Null)).late s⟩

instance defineParams (depth : Nat) (i : Idx) : ∀ ps, LateDefaults n (defineParams depth i ps)
  | [] => pure' _
  | p :: ps => by
    have := defineParams depth i ps
    unfold Redscript.defineParams
    infer_instance

instance defineReturn (depth : Nat) (t : Option TypeName) : LateDefaults n (defineReturn depth t) := by
  unfold Redscript.defineReturn
  cases t <;> infer_instance

instance checkFunction (spec : FunctionSpec) : LateDefaults n (checkFunction spec) := by
  unfold Redscript.checkFunction
  infer_instance

instance pushBody (spec : FunctionSpec) : LateDefaults n (pushBody spec) := by
  unfold Redscript.pushBody
  cases spec.source.body with
  | none => infer_instance
  | some _ => exact ⟨fun _ _ _ => .same rfl⟩

theorem pushDefault {i cls : Idx} {f : FieldSource} (h : n ≤ i.toNat) : LateDefaults n (pushDefault i cls f) := by
  unfold Redscript.pushDefault
  cases f.default with
  | none => infer_instance
  | some _ =>
    refine ⟨fun s _ _ b hb => ?_⟩
    rcases List.mem_append.1 hb with hb | hb
    · exact .inl hb
    · rw [List.mem_singleton.1 hb]; exact .inr h

instance defineFunction (depth : Nat) (spec : FunctionSpec) : LateDefaults n (defineFunction depth spec) := by
  unfold Redscript.defineFunction
  infer_instance

theorem defineField {depth : Nat} {i cls : Idx} {fl : ClassFlags} {v : Visibility} {f : FieldSource} (h : n ≤ i.toNat) :
    LateDefaults n (defineField depth i cls fl v f) := by
  have := pushDefault (cls := cls) (f := f) h
  unfold Redscript.defineField
  infer_instance

instance defineSourceRef (loc : Option (String × BitVec 32)) : LateDefaults n (defineSourceRef loc) := by
  unfold Redscript.defineSourceRef
  cases loc with
  | none => infer_instance
  | some l =>
    obtain ⟨path, line⟩ := l
    refine ⟨fun s _ _ => ?_⟩
    simp only
    cases s.files.find? (fun e => decide (e.1 = path)) with
    | some e => exact .refl
    | none => exact .same rfl

instance conditions (cx : DeclCtx) (anns : List Annotation) : LateDefaults n (conditions cx anns) := readOr _ _

/-- What follows a new definition only has to be such a step for definitions behind `n`. -/
theorem bindStub {k : Idx} {f : Idx → DeclM β} [haf : ∀ i, AddsDefs (f i)] (hf : ∀ i : Idx, n ≤ i.toNat → LateDefaults n (f i)) :
    LateDefaults n (DeclM.stub k >>= f) := ⟨fun s hs hl => by
  have hl : (f (BitVec.ofNat 32 s.len) { s with pool := (s.pool.addDefinition (.mk' k 0 (.Type .Prim))).2 }).2.len ≤ 2 ^ 32 := hl
  show Late n s (f (BitVec.ofNat 32 s.len) { s with pool := (s.pool.addDefinition (.mk' k 0 (.Type .Prim))).2 }).2
  have h1 := (haf (BitVec.ofNat 32 s.len)).grows { s with pool := (s.pool.addDefinition (.mk' k 0 (.Type .Prim))).2 }
  have h2 : DeclState.len { s with pool := (s.pool.addDefinition (.mk' k 0 (.Type .Prim))).2 } = s.len + 1 := by
    show (s.pool.definitions ++ [_]).length = _
    simp [DeclState.len]
  have hi : (BitVec.ofNat 32 s.len).toNat = s.len := by
    rw [BitVec.toNat_ofNat, Nat.mod_eq_of_lt (by omega)]
  exact Late.trans ((stub (n := n) k).late s hs (by show DeclState.len { s with pool := (s.pool.addDefinition (.mk' k 0 (.Type .Prim))).2 } ≤ _; omega))
    ((hf _ (by rw [hi]; exact hs)).late _ (Nat.le_trans hs (Nat.le_trans (Nat.le_succ _) (Nat.le_of_eq h2.symm))) hl)⟩

instance defineMembers (cx : DeclCtx) (cls : Idx) (fl : ClassFlags) (v : Visibility) (b : Bool) :
    ∀ ms, LateDefaults n (defineMembers cx cls fl v b ms)
  | [] => pure' _
  | .Function f :: ms => by
    have := defineMembers cx cls fl v b ms
    unfold Redscript.defineMembers
    infer_instance
  | .Field f :: ms => by
    have := defineMembers cx cls fl v b ms
    unfold Redscript.defineMembers
    refine @bind' _ _ _ _ _ inferInstance (fun on => ?_) inferInstance inferInstance
    refine @ite _ _ _ _ _ _ ?_ inferInstance
    refine @bind' _ _ _ _ _ inferInstance (fun k => ?_) inferInstance inferInstance
    refine bindStub fun i hi => ?_
    have : LateDefaults n (Redscript.defineField cx.depth i cls fl v f) := defineField hi
    infer_instance

instance defineBase (c : ClassSource) (b : Bool) : LateDefaults n (defineBase c b) := by
  unfold Redscript.defineBase
  split
  · infer_instance
  · split
    · refine @bind' _ _ _ _ _ inferInstance (fun a => ?_) inferInstance (fun a => by split <;> infer_instance)
      split <;> infer_instance
    · infer_instance

instance defineClass (cx : DeclCtx) (i : Idx) (v : Visibility) (c : ClassSource) (b : Bool) : LateDefaults n (defineClass cx i v c b) := by
  unfold Redscript.defineClass
  infer_instance

instance defineEnumMembers (i : Idx) : ∀ ms, LateDefaults n (defineEnumMembers i ms)
  | [] => pure' _
  | (k, v) :: ms => by
    have := defineEnumMembers i ms
    unfold Redscript.defineEnumMembers
    infer_instance

instance defineEnum (i : Idx) (e : EnumSource) : LateDefaults n (defineEnum i e) := by
  unfold Redscript.defineEnum
  infer_instance

instance annTarget (a : Annotation) : LateDefaults n (annTarget a) := readOr _ _

theorem defineAddField {cx : DeclCtx} {i : Idx} {v : Visibility} {f : FieldSource} {a : Annotation} (h : n ≤ i.toNat) :
    LateDefaults n (defineAddField cx i v f a) := by
  have : ∀ cls fl, LateDefaults n (Redscript.defineField cx.depth i cls fl v f) := fun _ _ => defineField h
  unfold Redscript.defineAddField
  refine @bind' _ _ _ _ _ inferInstance (fun x => @bind' _ _ _ _ _ inferInstance (fun sym => ?_) inferInstance (fun sym => by split <;> infer_instance))
    inferInstance (fun x => @AddsDefs.bind' _ _ _ _ inferInstance fun sym => by split <;> infer_instance)
  split <;> infer_instance

theorem defineGlobalLet {cx : DeclCtx} {i : Idx} {v : Visibility} {f : FieldSource} (h : n ≤ i.toNat) : LateDefaults n (defineGlobalLet cx i v f) := by
  have : ∀ a, LateDefaults n (Redscript.defineAddField cx i v f a) := fun _ => defineAddField h
  unfold Redscript.defineGlobalLet
  split <;> infer_instance

instance ownSymbols (path : ModulePath) : LateDefaults n (ownSymbols path) := by
  unfold Redscript.ownSymbols
  split
  · infer_instance
  · refine ⟨fun s _ _ => ?_⟩
    unfold DeclM.update
    simp only
    split
    · exact .same rfl
    · exact .refl

instance importOne (imp : Import) : LateDefaults n (importOne imp) := ⟨fun s hs => by
  unfold Redscript.importOne
  cases s.symbols.populateImport imp .pub s.moduleScope with
  | ok sc => exact fun _ => .same rfl
  | error e =>
    intro hl
    exact Late.trans (s' := { s with moduleScope := s.symbols.importKept .pub s.moduleScope imp }) (.same rfl) ((report (n := n) e.toDecl).late { s with moduleScope := s.symbols.importKept .pub s.moduleScope imp } hs hl)⟩

instance importAll (cx : DeclCtx) : ∀ is, LateDefaults n (importAll cx is)
  | [] => pure' _
  | (imp, anns) :: is => by
    have := importAll cx is
    unfold Redscript.importAll
    infer_instance

instance parentFlags (i : Idx) : LateDefaults n (parentFlags i) := by
  unfold Redscript.parentFlags
  infer_instance

/-- The slot of an added field is behind `n`. -/
def _root_.Redscript.Slot.Behind (n : Nat) : Slot → Prop
  | .Field i _ _ => n ≤ i.toNat
  | _ => True

theorem defineSlot {cx : DeclCtx} {seen : List Idx} {x : Slot} (h : x.Behind n) : LateDefaults n (defineSlot cx seen x) := by
  cases x with
  | Function index parent base wrapped rep source v => unfold Redscript.defineSlot; infer_instance
  | Class index source v => unfold Redscript.defineSlot; infer_instance
  | Struct index source v => unfold Redscript.defineSlot; infer_instance
  | Field index source v =>
    have : LateDefaults n (Redscript.defineGlobalLet cx index v source) := defineGlobalLet h
    unfold Redscript.defineSlot; infer_instance
  | Enum index source => unfold Redscript.defineSlot; infer_instance

theorem defineSlots {cx : DeclCtx} : ∀ {xs : List Slot} {seen : List Idx}, (∀ x ∈ xs, x.Behind n) → LateDefaults n (defineSlots cx xs seen)
  | [], _, _ => pure' _
  | x :: xs, seen, h => by
    have : LateDefaults n (Redscript.defineSlot cx seen x) := defineSlot (h x List.mem_cons_self)
    have : ∀ seen, LateDefaults n (Redscript.defineSlots cx xs seen) := fun seen => defineSlots fun x hx => h x (List.mem_cons_of_mem _ hx)
    unfold Redscript.defineSlots
    infer_instance

instance moduleScope (f : DeclState → Scope) : LateDefaults n (DeclM.update fun s => { s with moduleScope := f s }) := ⟨fun _ _ _ => .same rfl⟩

theorem defineQueue {cx : DeclCtx} : ∀ {qs : List Queued} {seen : List Idx}, (∀ q ∈ qs, ∀ x ∈ q.slots, x.Behind n) → LateDefaults n (defineQueue cx qs seen)
  | [], _, _ => pure' _
  | q :: qs, seen, h => by
    have : LateDefaults n (Redscript.defineSlots cx q.slots seen) := defineSlots (h q List.mem_cons_self)
    have : ∀ seen, LateDefaults n (Redscript.defineQueue cx qs seen) := fun seen => defineQueue fun q hq => h q (List.mem_cons_of_mem _ hq)
    unfold Redscript.defineQueue
    infer_instance

end LateDefaults
end Redscript
