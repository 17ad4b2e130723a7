import Verif.Unit.DeclInv
import Verif.Unit.DeclAdds

/-!
# The invariant is kept by the steps of the declaration phase
-/

namespace Redscript
open DeclM

set_option synthInstance.maxSize 2000
set_option synthInstance.maxHeartbeats 400000

/-- A step that keeps the invariant as long as the indexes do not run out, with a property of its result. -/
def Does (p0 : ConstantPool) (ms : List SourceModule) (first : Bool) (m : DeclM α) (Q : α → Prop) : Prop :=
  ∀ s, DeclInv p0 ms first s → (m s).2.len ≤ 2 ^ 32 → DeclInv p0 ms first (m s).2 ∧ ∀ a, (m s).1 = .ok a → Q a

section
variable {p0 : ConstantPool} {ms : List SourceModule} {first : Bool}

namespace Does

theorem mono {m : DeclM α} {Q R : α → Prop} (h : Does p0 ms first m Q) (hq : ∀ a, Q a → R a) : Does p0 ms first m R :=
  fun s hs hl => ⟨(h s hs hl).1, fun a ha => hq a ((h s hs hl).2 a ha)⟩

theorem any {m : DeclM α} {Q : α → Prop} (h : Does p0 ms first m Q) : Does p0 ms first m fun _ => True :=
  h.mono fun _ _ => trivial

theorem pure {a : α} {Q : α → Prop} (h : Q a) : Does p0 ms first (Pure.pure a : DeclM α) Q :=
  fun _ hs _ => ⟨hs, fun b hb => by cases hb; exact h⟩

theorem bind {m : DeclM α} {f : α → DeclM β} {Q : α → Prop} {R : β → Prop} [hg : ∀ a, AddsDefs (f a)]
    (hm : Does p0 ms first m Q) (hf : ∀ a, Q a → Does p0 ms first (f a) R) : Does p0 ms first (m >>= f) R := by
  intro s hs hl
  have hb : (m >>= f) s = DeclM.bind m f s := rfl
  rw [hb] at hl ⊢
  unfold DeclM.bind at hl ⊢
  have hm := hm s hs
  cases h : m s with
  | mk r s' =>
    rw [h] at hl hm
    cases r with
    | error e => exact ⟨(hm hl).1, fun a ha => by cases ha⟩
    | ok a =>
      have hl' : s'.len ≤ 2 ^ 32 := Nat.le_trans ((hg a).grows s') hl
      have hm := hm hl'
      exact hf a (hm.2 a rfl) s' hm.1 hl

theorem fail {e : DeclErr} {Q : α → Prop} : Does p0 ms first (DeclM.fail e : DeclM α) Q :=
  fun _ hs _ => ⟨hs, fun b hb => by cases hb⟩

theorem read {f : DeclState → α} {Q : α → Prop} (h : ∀ s, DeclInv p0 ms first s → Q (f s)) :
    Does p0 ms first (DeclM.read f) Q :=
  fun s hs _ => ⟨hs, fun b hb => by cases hb; exact h s hs⟩

theorem readOr {e : DeclErr} {f : DeclState → Option α} {Q : α → Prop}
    (h : ∀ s a, DeclInv p0 ms first s → f s = some a → Q a) : Does p0 ms first (DeclM.readOr e f) Q := by
  intro s hs _
  unfold DeclM.readOr
  cases hf : f s with
  | none => exact ⟨hs, fun b hb => by cases hb⟩
  | some a => exact ⟨hs, fun b hb => by cases hb; exact h s a hs hf⟩

theorem update {f : DeclState → DeclState} (h : ∀ s, DeclInv p0 ms first s → DeclInv p0 ms first (f s)) :
    Does p0 ms first (DeclM.update f) fun _ => True :=
  fun s hs _ => ⟨h s hs, fun _ _ => trivial⟩

theorem report {e : DeclErr} : Does p0 ms first (DeclM.report e) fun _ => True := by
  intro s hs _
  unfold DeclM.report
  cases e <;> exact ⟨⟨hs.pool, hs.symbols, hs.scope, hs.module⟩, fun _ _ => trivial⟩

theorem reporting {m : DeclM α} {Q : α → Prop} (hm : Does p0 ms first m Q) :
    Does p0 ms first (DeclM.reporting m) fun o => ∀ a, o = some a → Q a := by
  intro s hs hl
  unfold DeclM.reporting at hl ⊢
  have hm := hm s hs
  cases h : m s with
  | mk r s' =>
    rw [h] at hl hm
    cases r with
    | ok a => exact ⟨(hm hl).1, fun b hb => by cases hb; intro c hc; cases hc; exact (hm hl).2 _ rfl⟩
    | error e =>
      have hl' : s'.len ≤ 2 ^ 32 := Nat.le_trans ((AddsDefs.bind' (DeclM.report e) (fun _ => Pure.pure (none : Option α))).grows s') hl
      have hb : Does p0 ms first (DeclM.report e >>= fun _ => Pure.pure (none : Option α)) fun o => ∀ a, o = some a → Q a :=
        bind report fun _ _ => pure (by intro a ha; cases ha)
      exact hb s' (hm hl').1 hl

theorem when {c : Bool} {m : DeclM Unit} (h : c = true → Does p0 ms first m fun _ => True) :
    Does p0 ms first (DeclM.when c m) fun _ => True := by
  unfold DeclM.when
  by_cases hc : c = true
  · rw [if_pos hc]; exact h hc
  · rw [if_neg hc]; exact pure trivial

theorem diagnose {d : DeclDiag} : Does p0 ms first (DeclM.diagnose d) fun _ => True :=
  update fun _ hs => ⟨hs.pool, hs.symbols, hs.scope, hs.module⟩

theorem pushRef {i : SourceRef} : Does p0 ms first (DeclM.pushRef i) fun _ => True :=
  update fun _ hs => ⟨hs.pool, hs.symbols, hs.scope, hs.module⟩

theorem addName {t : Text} : Does p0 ms first (DeclM.addName t) fun _ => True :=
  fun _ hs _ => ⟨⟨hs.pool.addName _, hs.symbols, hs.scope, hs.module⟩, fun _ _ => trivial⟩

/-- The index of a new definition. -/
theorem new_index {p : ConstantPool} (hp : PoolInv p0 ms first p) (hl : p.definitions.length + 1 ≤ 2 ^ 32) (d : Definition) :
    p0.definitions.length ≤ (p.addDefinition d).1.toNat := by
  show _ ≤ (BitVec.ofNat 32 p.definitions.length).toNat
  rw [BitVec.toNat_ofNat, Nat.mod_eq_of_lt (by omega)]
  exact hp.size

theorem addDefinition {d : Definition} (hd : d.value.asClass = none) :
    Does p0 ms first (DeclM.addDefinition d) fun i => p0.definitions.length ≤ i.toNat := by
  intro s hs hl
  have hl : (s.pool.definitions ++ [d]).length ≤ 2 ^ 32 := hl
  rw [List.length_append] at hl
  refine ⟨⟨hs.pool.append [d] (by simpa using hd), hs.symbols, hs.scope, hs.module⟩, fun i hi => ?_⟩
  cases hi
  exact new_index hs.pool hl d

theorem stub {n : Idx} : Does p0 ms first (DeclM.stub n) fun i => p0.definitions.length ≤ i.toNat := addDefinition rfl

theorem nameOf {i : Idx} : Does p0 ms first (DeclM.nameOf i) fun n => ∀ d, p0.definition i = some d → n = d.name :=
  readOr fun s n hs h d hd => by
    obtain ⟨d', h1, h2⟩ := hs.pool.old i d hd
    rw [h1] at h
    simp only [Option.map_some, Option.some.injEq] at h
    rw [← h, h2.name]

theorem put {i : Idx} {d : Definition} (h : p0.definitions.length ≤ i.toNat ∨
      (∀ d0, p0.definition i = some d0 → KeptAs p0 ms false i d0 d)) : Does p0 ms false (DeclM.put i d) fun _ => True := by
  intro s hs _
  unfold DeclM.put ConstantPool.putDefinition
  by_cases hi : i.toNat < s.pool.definitions.length
  · rw [if_pos hi]
    refine ⟨⟨?_, hs.symbols, hs.scope, hs.module⟩, fun _ _ => trivial⟩
    by_cases ho : i.toNat < p0.definitions.length
    · exact hs.pool.set_old i d ho (h.resolve_left (by omega))
    · exact hs.pool.set_new i d (Nat.not_lt.1 ho) (by intro hf; cases hf)
  · rw [if_neg hi]; exact ⟨hs, fun _ _ => trivial⟩

theorem classAt {i : Idx} : Does p0 ms first (DeclM.classAt i) fun _ => True := readOr fun _ _ _ _ => trivial

theorem onClass {i : Idx} {f : ClassDef → ClassDef} (fs gs : List Idx)
    (hf : f = fun c => { c with functions := c.functions ++ fs, fields := c.fields ++ gs })
    (hfs : ∀ f ∈ fs, p0.definitions.length ≤ f.toNat) (hgs : ∀ g ∈ gs, p0.definitions.length ≤ g.toNat)
    (ha : i.toNat < p0.definitions.length → fs ≠ [] → MethodsAdded p0 ms i)
    (hb : i.toNat < p0.definitions.length → gs ≠ [] → FieldsAdded p0 ms i) :
    Does p0 ms first (DeclM.onClass i f) fun _ => True := by
  intro s hs _
  unfold DeclM.onClass
  cases h : s.pool.modifyValue (AnyDefinition.onClass f) i with
  | none => exact ⟨hs, fun _ _ => trivial⟩
  | some p => exact ⟨⟨hs.pool.onClass h fs gs hf hfs hgs ha hb, hs.symbols, hs.scope, hs.module⟩, fun _ _ => trivial⟩

/-! ## Types -/

theorem _root_.Redscript.Strings.Later.keeps {S S' : Strings} (h : S.Later S') {k : Idx} {t : String}
    (ht : S.get Strings.cnameDefault k = some t) : S'.get Strings.cnameDefault k = some t := by
  obtain ⟨l, rfl⟩ := h
  unfold Strings.addAll
  induction l generalizing S with
  | nil => exact ht
  | cons x l ih => exact ih (C11_add_keeps _ _ _ _ _ ht)

theorem _root_.Redscript.PoolInv.types {p p' : ConstantPool} (h : PoolInv p0 ms first p) (k : TypesAdded p p') :
    PoolInv p0 ms first p' := by
  obtain ⟨k1, ds, k2, k3⟩ := k
  have h1 := h.append ds (fun d hd => by obtain ⟨n, t, rfl⟩ := k3 d hd; rfl)
  rw [← k2] at h1
  exact ⟨h1.size, fun i t ht => k1.keeps (h.names i t ht), h1.old, h1.fresh⟩

theorem typeIndex {t : TypeId} : Does p0 ms first (typeIndex t) fun _ => True := by
  intro s hs _
  unfold Redscript.typeIndex
  cases h : getTypeIndex s.moduleScope s.pool t with
  | error e => cases e <;> exact ⟨hs, fun _ _ => trivial⟩
  | ok r =>
    obtain ⟨i, sc, p⟩ := r
    obtain ⟨h1, h2⟩ := getTypeIndex_adds t h
    refine ⟨⟨hs.pool.types h1, hs.symbols, hs.scope, ?_⟩, fun _ _ => trivial⟩
    intro x sym hx
    have hx : sc.symbols.get x = some sym := hx
    rw [h2] at hx
    exact hs.module x sym hx

theorem tryResolveType {depth : Nat} {t : TypeName} : Does p0 ms first (tryResolveType depth t) fun _ => True := by
  intro s hs hl
  unfold Redscript.tryResolveType at hl ⊢
  cases h : s.moduleScope.resolveType s.pool depth t with
  | some ty => exact ⟨hs, fun _ _ => trivial⟩
  | none =>
    rw [h] at hl
    have hb : Does p0 ms first (DeclM.report (.compile .unresolvedType) >>= fun _ => Pure.pure TypeId.Null) fun _ => True :=
      bind report fun _ _ => pure trivial
    exact hb s hs hl

/-! ## Definitions -/

theorem defineParams {depth : Nat} {i : Idx} : ∀ {ps : List ParamSource},
    Does p0 ms first (defineParams depth i ps) fun l => l.length = ps.length
  | [] => pure rfl
  | p :: ps => by
    unfold Redscript.defineParams
    exact bind tryResolveType fun _ _ => bind typeIndex fun _ _ => bind addName fun _ _ =>
      bind (addDefinition rfl) fun _ _ => bind defineParams fun rest hr => pure (by rw [List.length_cons, List.length_cons, hr])

theorem defineReturn {depth : Nat} {t : Option TypeName} : Does p0 ms first (defineReturn depth t) fun _ => True := by
  unfold Redscript.defineReturn
  cases t with
  | none => exact pure trivial
  | some t =>
    simp only
    split
    · exact pure trivial
    · exact bind tryResolveType fun _ _ => bind typeIndex fun _ _ => pure trivial

theorem checkFunction {spec : FunctionSpec} : Does p0 ms first (checkFunction spec) fun _ => True := by
  unfold Redscript.checkFunction
  exact bind (when fun _ => report) fun _ _ => bind (when fun _ => report) fun _ _ => when fun _ => report

theorem pushBody {spec : FunctionSpec} : Does p0 ms first (pushBody spec) fun _ => True := by
  unfold Redscript.pushBody
  cases spec.source.body with
  | none => exact pure trivial
  | some _ => exact update fun _ hs => ⟨hs.pool, hs.symbols, hs.scope, hs.module⟩

theorem pushDefault {i cls : Idx} {f : FieldSource} : Does p0 ms first (pushDefault i cls f) fun _ => True := by
  unfold Redscript.pushDefault
  cases f.default with
  | none => exact pure trivial
  | some _ => exact update fun _ hs => ⟨hs.pool, hs.symbols, hs.scope, hs.module⟩

/-- A function is defined at a new index, or at the index of the function it asks to replace. -/
def _root_.Redscript.SpecOk (p0 : ConstantPool) (ms : List SourceModule) (index parent : Idx) (base : Option Idx)
    (isReplacement : Bool) (f : FunctionSource) (visibility : Visibility) : Prop :=
  p0.definitions.length ≤ index.toNat ∨
    (Declares ms (.Function f) ∧ AsksToReplace p0 f index parent ∧ isReplacement = true ∧
      visibility = visibilityOf f.declaration.qualifiers ∧
      (parent ≠ 0 → base = (p0.function index).bind (·.baseMethod)))

theorem _root_.Redscript.FunctionSpec.flags_native (spec : FunctionSpec) (r p : Bool) :
    flag FunctionFlags.isNativeBit (spec.flags r p) = spec.isNative := by
  unfold FunctionSpec.flags
  simp only [flag_setFlag, FunctionFlags.isNativeBit, FunctionFlags.hasParametersBit, FunctionFlags.hasReturnValueBit,
    FunctionFlags.isQuestBit, FunctionFlags.isConstBit, FunctionFlags.isCallbackBit, FunctionFlags.isFinalBit,
    FunctionFlags.isExecBit, FunctionFlags.isCastBit, FunctionFlags.isStaticBit, Nat.reduceLT, reduceIte, Nat.reduceEqDiff]

theorem defineFunction {depth : Nat} {spec : FunctionSpec}
    (h : SpecOk p0 ms spec.funIdx spec.classIdx spec.baseMethod spec.isReplacement spec.source spec.visibility) :
    Does p0 ms false (defineFunction depth spec) fun _ => True := by
  unfold Redscript.defineFunction
  refine bind checkFunction fun _ _ => bind defineReturn fun ret _ => bind defineParams fun params hp =>
    bind nameOf fun n hn => bind pushBody fun _ _ => bind (put ?_) fun _ _ => pushRef
  rcases h with h | ⟨h1, h2, h3, h4, h5⟩
  · exact .inl h
  · refine .inr fun d0 hd0 => .inr (.inr ⟨rfl, spec.source, spec.classIdx, spec.function ret params, h1, h2, ?_, h4, ?_, ?_, ?_⟩)
    · rw [hn d0 hd0]
    · show flag FunctionFlags.isNativeBit (spec.flags _ _) = false
      rw [spec.flags_native]
      unfold FunctionSpec.isNative
      rw [h3]; rfl
    · exact hp
    · show (if spec.isStatic then none else spec.baseMethod) = _
      by_cases hc : spec.isStatic = true
      · rw [if_pos hc, if_pos (show (spec.source.declaration.has .Static || decide (spec.classIdx = 0)) = true from hc)]
      · rw [if_neg hc, if_neg (show ¬ (spec.source.declaration.has .Static || decide (spec.classIdx = 0)) = true from hc)]
        refine h5 fun h0 => hc ?_
        unfold FunctionSpec.isStatic
        simp [h0]

theorem defineField {depth : Nat} {i cls : Idx} {fl : ClassFlags} {v : Visibility} {f : FieldSource}
    (hi : p0.definitions.length ≤ i.toNat) : Does p0 ms false (defineField depth i cls fl v f) fun _ => True := by
  unfold Redscript.defineField
  exact bind (when fun _ => report) fun _ _ => bind (when fun _ => report) fun _ _ => bind tryResolveType fun _ _ =>
    bind typeIndex fun _ _ => bind (Q := fun _ => True) (readOr fun _ _ _ _ => trivial) fun _ _ => bind nameOf fun _ _ =>
      bind pushDefault fun _ _ => bind (put (.inl hi)) fun _ _ => pushRef

theorem defineSourceRef {loc : Option (String × BitVec 32)} : Does p0 ms first (defineSourceRef loc) fun _ => True := by
  unfold Redscript.defineSourceRef
  cases loc with
  | none => exact pure trivial
  | some l =>
    obtain ⟨path, line⟩ := l
    intro s hs _
    simp only
    cases s.files.find? (fun e => decide (e.1 = path)) with
    | some e => exact ⟨hs, fun _ _ => trivial⟩
    | none => exact ⟨⟨hs.pool.append [_] (by simp [Definition.mk', AnyDefinition.asClass]), hs.symbols, hs.scope, hs.module⟩, fun _ _ => trivial⟩

theorem conditions {cx : DeclCtx} {anns : List Annotation} :
    Does p0 ms first (conditions cx anns) fun b => evalConditions cx.modules anns = some b :=
  readOr fun _ _ _ h => h

theorem ite {c : Prop} [Decidable c] {m m' : DeclM α} {Q : α → Prop} (h : c → Does p0 ms first m Q)
    (h' : ¬c → Does p0 ms first m' Q) : Does p0 ms first (if c then m else m') Q := by
  by_cases hc : c
  · rw [if_pos hc]; exact h hc
  · rw [if_neg hc]; exact h' hc

theorem defineMembers {cx : DeclCtx} {cls : Idx} {fl : ClassFlags} {v : Visibility} {b : Bool} :
    ∀ {l : List MemberSource}, Does p0 ms false (defineMembers cx cls fl v b l) fun _ => True
  | [] => pure trivial
  | .Function f :: l => by
    unfold Redscript.defineMembers
    exact bind conditions fun _ _ => ite (fun _ => bind (when fun _ => report) fun _ _ => bind addName fun _ _ =>
      bind stub fun i hi => bind defineSourceRef fun _ _ => bind (defineFunction (.inl hi)) fun _ _ =>
        bind defineMembers fun _ _ => pure trivial) fun _ => defineMembers
  | .Field f :: l => by
    unfold Redscript.defineMembers
    exact bind conditions fun _ _ => ite (fun _ => bind addName fun _ _ => bind stub fun i hi =>
      bind (defineField hi) fun _ _ => bind defineMembers fun _ _ => pure trivial) fun _ => defineMembers

theorem defineBase {c : ClassSource} {b : Bool} : Does p0 ms first (defineBase c b) fun _ => True := by
  unfold Redscript.defineBase
  refine ite (fun _ => pure trivial) fun _ => ?_
  cases c.base with
  | none => exact read fun _ _ => trivial
  | some base =>
    refine @bind _ _ _ _ _ _ _ (fun _ => True) _ (fun a => by split <;> infer_instance) (read fun _ _ => trivial) fun a _ => ?_
    cases a with
    | none => exact bind report fun _ _ => pure trivial
    | some i => exact pure trivial

theorem defineClass {cx : DeclCtx} {i : Idx} {v : Visibility} {c : ClassSource} {b : Bool}
    (hi : p0.definitions.length ≤ i.toNat) : Does p0 ms false (defineClass cx i v c b) fun _ => True := by
  unfold Redscript.defineClass
  exact bind defineMembers fun _ _ => bind defineBase fun _ _ => bind nameOf fun _ _ => bind (put (.inl hi)) fun _ _ => pushRef

theorem defineEnumMembers {i : Idx} : ∀ {l : List (Text × BitVec 64)}, Does p0 ms first (defineEnumMembers i l) fun _ => True
  | [] => pure trivial
  | (n, v) :: l => by
    unfold Redscript.defineEnumMembers
    exact bind addName fun _ _ => bind (addDefinition rfl) fun _ _ => bind defineEnumMembers fun _ _ => pure trivial

theorem defineEnum {i : Idx} {e : EnumSource} (hi : p0.definitions.length ≤ i.toNat) :
    Does p0 ms false (defineEnum i e) fun _ => True := by
  unfold Redscript.defineEnum
  exact bind defineEnumMembers fun _ _ => bind nameOf fun _ _ => bind (put (.inl hi)) fun _ _ => pushRef

theorem annTarget {a : Annotation} : Does p0 ms first (annTarget a) fun x => a.target = some x := readOr fun _ _ _ h => h

theorem defineAddField {cx : DeclCtx} {i : Idx} {v : Visibility} {f : FieldSource} {a : Annotation}
    (hi : p0.definitions.length ≤ i.toNat) (hd : Declares ms (.GlobalLet f)) (ha : a ∈ f.declaration.annotations)
    (hk : a.kind = .AddField) : Does p0 ms false (defineAddField cx i v f a) fun _ => True := by
  unfold Redscript.defineAddField
  refine @bind _ _ _ _ _ _ _ _ _ (fun x => @AddsDefs.bind' _ _ _ _ inferInstance fun sym => by split <;> infer_instance) annTarget fun x hx =>
    @bind _ _ _ _ _ _ _ (fun sym => ∀ j ∈ sym.indexes, j.toNat < p0.definitions.length → LastName p0 j x) _
      (fun sym => by split <;> infer_instance) (readOr fun s sym hs hsym => hs.module x sym hsym) fun sym hsym => ?_
  cases sym with
  | Class cls w =>
    refine bind (Q := fun _ => True) (read fun _ _ => trivial) fun found _ => ite (fun _ => diagnose) fun _ =>
      bind classAt fun c _ => bind (defineField hi) fun _ _ => onClass [] [i] (by simp) (by simp) (by simpa using hi) (by simp) ?_
    intro hlt _
    exact ⟨f, x, hd, ⟨a, ha, hk, hx⟩, hsym cls (by simp [Symbol.indexes]) hlt⟩
  | Struct _ _ => exact fail
  | Enum _ => exact fail
  | Functions _ => exact fail

theorem defineGlobalLet {cx : DeclCtx} {i : Idx} {v : Visibility} {f : FieldSource}
    (hi : p0.definitions.length ≤ i.toNat) (hd : Declares ms (.GlobalLet f)) :
    Does p0 ms false (defineGlobalLet cx i v f) fun _ => True := by
  unfold Redscript.defineGlobalLet
  cases h : f.declaration.annotations.find? (fun a => decide (a.kind = .AddField)) with
  | none => exact fail
  | some a => exact defineAddField hi hd (List.mem_of_find?_eq_some h) (by simpa using List.find?_some h)

end Does
end
end Redscript
