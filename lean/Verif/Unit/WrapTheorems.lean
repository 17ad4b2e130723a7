import Verif.Unit.WrapFinish
import Verif.Vm.Rename
import Verif.Vm.Props
import Verif.Vm.CallProps

/-!
# C36: wrappers nest in the order of their declaration (theorems)
-/

namespace Redscript

/-- The list has the bindings of the map, each once. -/
def ListsMap (m : AMap Idx Idx) (order : List (Idx × Idx)) : Prop :=
  (order.map (·.1)).Nodup ∧ ∀ k v, (k, v) ∈ order ↔ m.get k = some v

/-- A compilation, as far as wrappers are concerned. It starts with the pool `p0`; the wrappers `slots` are
declared, with other work in between, leading to `st`; the proxies are built (`p2`); the bodies are put in
(`p3`); functions and proxies are exchanged (`p4`). Hash maps are iterated in any order.

The pool is sound in that wrapped functions have parameters and locals of the right kind, and that classes
list functions that exist. No body is compiled for a slot reserved for an original. Everything fits. -/
structure WrapRun (q : AsmEnv) (p0 : ConstantPool) (slots : List WrapSlot) (st : Wraps) (bodies : List WrapBody)
    (p2 p3 p4 : ConstantPool) : Prop where
  table : p0.names.Reachable Strings.cnameDefault
  declared : Declared ⟨p0, .empty, .empty⟩ slots st
  functions : ∀ s ∈ slots, ∃ d fn, st.pool.definition s.target = some d ∧ d.value = .Function fn ∧ ParamsOk st.pool fn.parameters
  listed : ∀ i d c, st.pool.definition i = some d → d.value = .Class c → ∀ f ∈ c.functions,
    ∃ t, st.pool.defName f = some t ∧ ('$' ∈ t → p0.defName f = some t ∨ ∃ s ∈ slots, f = s.index)
  built : ∃ order, ListsMap st.wrappers order ∧ st.pool.names.strings.length + order.length + 1 < 2 ^ 32 ∧
    constructAll q st.proxies order st.pool = .ok p2
  installed : Installs p2 bodies p3
  unbodied : ∀ b ∈ bodies, ∀ f, st.proxies.get f ≠ some b.index
  locals : ∀ s ∈ slots, ∀ d fn, p3.definition s.target = some d → d.value = .Function fn → LocalsOk p3 fn.locals
  exchanged : ∃ ord order, (∀ l : List Idx, (ord l).Perm l) ∧ ListsMap st.proxies order ∧ swapAll ord order p3 = .ok p4
  room : p4.definitions.length < 2 ^ 32

section
variable {q : AsmEnv} {p0 : ConstantPool} {slots : List WrapSlot} {st : Wraps} {bodies : List WrapBody} {p2 p3 p4 : ConstantPool}

theorem WrapRun.inv (h : WrapRun q p0 slots st bodies p2 p3 p4) : WrapInv p0 slots st :=
  Declared.inv h.table rfl h.declared

/-- Reserved slots. -/
def Wraps.IsSlot (st : Wraps) (i : Idx) : Prop := ∃ f, st.proxies.get f = some i

/-- Wrapped functions. -/
def IsTarget (slots : List WrapSlot) (i : Idx) : Prop := ∃ s ∈ slots, s.target = i

theorem mem_wrappersOf {f : Idx} {s : WrapSlot} : s ∈ wrappersOf f slots ↔ s ∈ slots ∧ s.target = f := by
  unfold wrappersOf
  rw [List.mem_filter]
  simp

theorem WrapInv.target_iff (h : WrapInv p0 slots st) (f : Idx) : IsTarget slots f ↔ ∃ w, st.wrappers.get f = some w := by
  constructor
  · rintro ⟨s, hs, rfl⟩
    cases hw : st.wrappers.get s.target with
    | some w => exact ⟨w, rfl⟩
    | none =>
      have := (h.unwrapped _ hw).2
      have hm : s ∈ wrappersOf s.target slots := mem_wrappersOf.2 ⟨hs, rfl⟩
      rw [this] at hm
      cases hm
  · rintro ⟨w, hw⟩
    obtain ⟨r, _, h2, _⟩ := h.nested f w hw
    obtain ⟨s, hs⟩ := List.exists_mem_of_ne_nil _ h2
    obtain ⟨h3, h4⟩ := mem_wrappersOf.1 hs
    exact ⟨s, h3, h4⟩

theorem WrapInv.both (h : WrapInv p0 slots st) (f : Idx) : (∃ w, st.wrappers.get f = some w) ↔ ∃ r, st.proxies.get f = some r := by
  constructor
  · rintro ⟨w, hw⟩
    obtain ⟨r, hr, _⟩ := h.nested f w hw
    exact ⟨r, hr⟩
  · rintro ⟨r, hr⟩
    cases hw : st.wrappers.get f with
    | some w => exact ⟨w, rfl⟩
    | none => rw [(h.unwrapped f hw).1] at hr; cases hr

/-- The outermost wrapper is the last one. -/
theorem Nested.last : ∀ {ss : List WrapSlot} {a b : Idx}, Nested a ss b → ss ≠ [] → ∃ s ∈ ss, s.index = b
  | [s], _, _, h, _ => ⟨s, by simp, h.2.symm⟩
  | s :: s' :: ss, _, _, h, _ => by
    obtain ⟨t, h1, h2⟩ := Nested.last h.2 (by simp)
    exact ⟨t, List.mem_cons_of_mem _ h1, h2⟩

theorem WrapInv.wrapper (h : WrapInv p0 slots st) {f w : Idx} (hw : st.wrappers.get f = some w) :
    ∃ s ∈ slots, s.index = w ∧ s.target = f := by
  obtain ⟨r, _, h2, h3⟩ := h.nested f w hw
  obtain ⟨s, h4, h5⟩ := h3.last h2
  obtain ⟨h6, h7⟩ := mem_wrappersOf.1 h4
  exact ⟨s, h6, h5, h7⟩

/-- Wrappers are not wrapped themselves. -/
theorem WrapInv.wrapper_not_target (h : WrapInv p0 slots st) {s : WrapSlot} (hs : s ∈ slots) : ¬ IsTarget slots s.index := by
  rintro ⟨t, ht, he⟩
  obtain ⟨⟨x, h1, h2⟩, _⟩ := h.targets t ht
  rw [he, (h.new s hs).2.1] at h1
  cases h1
  exact h2 (dollar_wrapper _)

theorem WrapInv.slot_not_target (h : WrapInv p0 slots st) {i : Idx} (hi : st.IsSlot i) : ¬ IsTarget slots i := by
  rintro ⟨t, ht, rfl⟩
  obtain ⟨f, hf⟩ := hi
  exact (h.targets t ht).2 f hf

/-- What the proxies add. -/
theorem proxies_built (hi : WrapInv p0 slots st)
    (hfun : ∀ s ∈ slots, ∃ d fn, st.pool.definition s.target = some d ∧ d.value = .Function fn ∧ ParamsOk st.pool fn.parameters)
    (hbuilt : ∃ order, ListsMap st.wrappers order ∧ st.pool.names.strings.length + order.length + 1 < 2 ^ 32 ∧
      constructAll q st.proxies order st.pool = .ok p2) (hroom : p2.definitions.length < 2 ^ 32) :
    KeptBut st.IsSlot st.IsSlot st.pool p2 ∧
    ∀ f w, st.wrappers.get f = some w → ∃ r d fn, st.proxies.get f = some r ∧ st.pool.definition f = some d ∧ d.value = .Function fn ∧
      ProxyAt q p2 r w d fn ∧ (d.parent ≠ 0 → HasMethod p2 d.parent r) ∧ (∃ info, p2.fnInfo w = .ok info) := by
  obtain ⟨order, ⟨o1, o2⟩, o3, o4⟩ := hbuilt
  have hslot : ∀ i, SlotOf st.proxies order i ↔ st.IsSlot i := by
    intro i
    constructor
    · rintro ⟨x, _, hx⟩; exact ⟨x.1, hx⟩
    · rintro ⟨f, hf⟩
      obtain ⟨w, hw⟩ := (hi.both f).2 ⟨i, hf⟩
      exact ⟨(f, w), (o2 f w).2 hw, hf⟩
  have hdef : ∀ i, st.IsSlot i → ∃ d, st.pool.definition i = some d ∧ d.value.paramFlags = none ∧ ∀ c, d.value ≠ .Class c := by
    rintro i ⟨f, hf⟩
    exact ⟨_, (hi.reserved f i hf).2, rfl, fun c e => by cases e⟩
  obtain ⟨c1, _, c3⟩ := constructAll_spec hi.apart order st.pool o4 (by omega) hi.table o3 o1
    (fun i hs => hdef i ((hslot i).1 hs)) (by
      intro x hx
      have hw := (o2 x.1 x.2).1 hx
      obtain ⟨s, hs, hst⟩ := (hi.target_iff x.1).2 ⟨x.2, hw⟩
      obtain ⟨s', hs', hst', _⟩ := hi.wrapper hw
      refine ⟨?_, ?_, ?_⟩
      · rw [hslot]; rintro ⟨f, hf⟩; exact (hi.targets s hs).2 f (by rw [hst]; exact hf)
      · rw [hslot]; rintro ⟨f, hf⟩; exact (hi.new s' hs').2.2.1 f (by rw [hst']; exact hf)
      · have := hfun s hs
        rw [hst] at this
        exact this)
  refine ⟨c1.weaken (fun i => (hslot i).1) (fun i => (hslot i).1), fun f w hw => ?_⟩
  exact c3 (f, w) ((o2 f w).2 hw)

/-- What the proxies add. -/
theorem WrapRun.proxies (h : WrapRun q p0 slots st bodies p2 p3 p4) :
    KeptBut st.IsSlot st.IsSlot st.pool p2 ∧
    ∀ f w, st.wrappers.get f = some w → ∃ r d fn, st.proxies.get f = some r ∧ st.pool.definition f = some d ∧ d.value = .Function fn ∧
      ProxyAt q p2 r w d fn ∧ (d.parent ≠ 0 → HasMethod p2 d.parent r) ∧ (∃ info, p2.fnInfo w = .ok info) := by
  obtain ⟨ord, order', _, _, o5⟩ := h.exchanged
  have hsz := swapAll_size _ o5
  have hsz' := h.installed.spec.1
  have hroom := h.room
  exact proxies_built h.inv h.functions h.built (by omega)

/-- Facts about a slot: it stays as built until the exchange. -/
theorem WrapRun.slot_kept (h : WrapRun q p0 slots st bodies p2 p3 p4) {r : Idx} (hr : st.IsSlot r) : p3.definition r = p2.definition r := by
  obtain ⟨f, hf⟩ := hr
  obtain ⟨w, hw⟩ := (h.inv.both f).2 ⟨r, hf⟩
  obtain ⟨r', d, fn, k1, _, _, k2, _⟩ := h.proxies.2 f w hw
  rw [hf] at k1
  cases k1
  obtain ⟨name, params, code, hd, _⟩ := k2
  rw [hd, h.installed.spec.2.1 r _ hd, withBodies_none (fun b hb e => h.unbodied b hb f (by rw [e]; exact hf))]

/-- Wrapped functions until the exchange: as declared, with their bodies. -/
theorem WrapRun.target_kept (h : WrapRun q p0 slots st bodies p2 p3 p4) {f : Idx} (hf : IsTarget slots f) :
    ∃ d fn, st.pool.definition f = some d ∧ d.value = .Function fn ∧ ParamsOk st.pool fn.parameters ∧ p2.definition f = some d ∧
      p3.definition f = some (withBodies f bodies d) := by
  obtain ⟨s, hs, rfl⟩ := hf
  obtain ⟨d, fn, h1, h2, h3⟩ := h.functions s hs
  obtain ⟨fs, _, h4⟩ := h.proxies.1.defs s.target d (fun ⟨g, hg⟩ => (h.inv.targets s hs).2 g hg) h1
  rw [Definition.addMethods_function h2] at h4
  exact ⟨d, fn, h1, h2, h3, h4, h.installed.spec.2.1 _ _ h4⟩

/-- What the exchange does. -/
theorem WrapRun.swaps (h : WrapRun q p0 slots st bodies p2 p3 p4) :
    p3.definitions.length ≤ p4.definitions.length ∧ p4.names = p3.names ∧
    (∀ f r, st.proxies.get f = some r → Exchanged p3 p4 f r) ∧
    ∀ i d, ¬ IsTarget slots i → ¬ st.IsSlot i → p3.definition i = some d → p4.definition i = some d := by
  have hi := h.inv
  obtain ⟨ord, order, hord, ⟨o1, o2⟩, o3⟩ := h.exchanged
  have htarget : ∀ x ∈ order, IsTarget slots x.1 := fun x hx =>
    (hi.target_iff x.1).2 ((hi.both x.1).2 ⟨x.2, (o2 x.1 x.2).1 hx⟩)
  have hslot : ∀ x ∈ order, st.IsSlot x.2 := fun x hx => ⟨x.1, (o2 x.1 x.2).1 hx⟩
  obtain ⟨s1, s2, s3, s4⟩ := swapAll_spec hord order p3 o3 h.room o1 (by
      rw [List.nodup_iff_pairwise_ne, List.pairwise_map] at o1 ⊢
      refine o1.imp_of_mem fun {a b} ha hb hab e => hab ?_
      exact hi.apart a.1 b.1 a.2 ((o2 a.1 a.2).1 ha) (by rw [e]; exact (o2 b.1 b.2).1 hb))
    (fun x hx y hy e => hi.slot_not_target (hslot y hy) (e ▸ htarget x hx))
    (fun x hx => by
      obtain ⟨d, fn, _, h2, _, _, h5⟩ := h.target_kept (htarget x hx)
      obtain ⟨code, locals, h6⟩ := withBodies_function x.1 bodies h2
      obtain ⟨s, hs, hst⟩ := htarget x hx
      refine ⟨_, { fn with code, locals }, h5, by rw [h6], ?_⟩
      exact h.locals s hs _ _ (by rw [hst]; exact h5) (by rw [h6]))
    (fun x hx => by
      obtain ⟨w, hw⟩ := (hi.both x.1).2 ⟨x.2, (o2 x.1 x.2).1 hx⟩
      obtain ⟨r, d, fn, k1, _, _, ⟨name, params, code, k2, _⟩, _⟩ := h.proxies.2 x.1 w hw
      rw [(o2 x.1 x.2).1 hx] at k1
      cases k1
      exact ⟨_, by rw [h.slot_kept (hslot x hx)]; exact k2, fun v e => by cases e⟩)
  refine ⟨s1, s2, fun f r hr => s3 (f, r) ((o2 f r).2 hr), fun i d h1 h2 => s4 i d fun x hx => ⟨?_, ?_⟩⟩
  · rintro rfl; exact h1 (htarget x hx)
  · rintro rfl; exact h2 (hslot x hx)

/-! ## Questions about functions -/

/-- Two pools answer a question about a function alike when the function has the same name, flags and
parameters, and parameters are the same. -/
theorem fnInfo_same {p p' : ConstantPool} {w : Idx} {info : FnInfo} (h : p.fnInfo w = .ok info)
    (hw : ∀ d fn, p.definition w = some d → d.value = .Function fn → ∃ d' fn', p'.definition w = some d' ∧ d'.value = .Function fn' ∧
      d'.name = d.name ∧ All2 (fun a b => ∃ e, p.definition a = some e ∧ p'.definition b = some e) fn.parameters fn'.parameters) :
    ∃ d fn d' fn', p.definition w = some d ∧ d.value = .Function fn ∧ p'.definition w = some d' ∧ d'.value = .Function fn' ∧
      info = ⟨fn.flags, info.params, d.name⟩ ∧ p'.fnInfo w = .ok ⟨fn'.flags, info.params, d.name⟩ := by
  unfold ConstantPool.fnInfo at h ⊢
  cases hd : p.definition w with
  | none => rw [hd] at h; cases h
  | some d =>
    rw [hd] at h
    simp only at h
    cases hf : d.value.asFunction with
    | none => rw [hf] at h; cases h
    | some fn =>
      rw [hf] at h
      simp only at h
      have hv : d.value = .Function fn := by
        cases hv : d.value <;> rw [hv] at hf <;> simp [AnyDefinition.asFunction] at hf
        rw [hf]
      obtain ⟨d', fn', h1, h2, h3, h4⟩ := hw d fn hd hv
      cases hm : fn.parameters.mapM (p.definitionBy AnyDefinition.paramFlags) with
      | none => rw [hm] at h; cases h
      | some ps =>
        rw [hm] at h
        cases h
        refine ⟨d, fn, d', fn', rfl, hv, h1, h2, rfl, ?_⟩
        have e : fn'.parameters.mapM (p'.definitionBy AnyDefinition.paramFlags) = some ps := by
          clear h1 h2 hv hf hd hw
          generalize fn.parameters = as at h4 hm
          generalize fn'.parameters = bs at h4
          induction h4 generalizing ps with
          | nil => exact hm
          | @cons a b as bs hab _ ih =>
            rw [List.mapM_cons] at hm ⊢
            obtain ⟨e, e1, e2⟩ := hab
            have e1' : p.definitionBy AnyDefinition.paramFlags a = e.value.paramFlags := by
              unfold ConstantPool.definitionBy
              have : p.definitions[a.toNat]? = some e := e1
              rw [this]; rfl
            have e2' : p'.definitionBy AnyDefinition.paramFlags b = e.value.paramFlags := by
              unfold ConstantPool.definitionBy
              have : p'.definitions[b.toNat]? = some e := e2
              rw [this]; rfl
            rw [e1'] at hm
            rw [e2']
            cases hfl : e.value.paramFlags with
            | none => rw [hfl] at hm; cases hm
            | some fl =>
              rw [hfl] at hm
              cases hr : as.mapM (p.definitionBy AnyDefinition.paramFlags) with
              | none => rw [hr] at hm; cases hm
              | some rs =>
                rw [hr] at hm
                rw [ih rs hr]
                exact hm
        rw [h1]
        simp only [h2, AnyDefinition.asFunction, e, h3]

/-- Parameters are never touched. -/
theorem WrapRun.param_kept (h : WrapRun q p0 slots st bodies p2 p3 p4) {i : Idx} {d : Definition} {fl : ParameterFlags}
    (hd : p2.definition i = some d) (hf : d.value.paramFlags = some fl) : p4.definition i = some d := by
  have hv : ∀ f, d.value ≠ .Function f := fun f e => by rw [e] at hf; cases hf
  refine h.swaps.2.2.2 i d ?_ ?_ (by rw [h.installed.spec.2.1 _ _ hd, withBodies_other i bodies hv])
  · intro ht
    obtain ⟨e, fn, _, h2, _, h3, _⟩ := h.target_kept ht
    rw [hd] at h3; cases h3
    exact hv fn h2
  · rintro ⟨f, hr⟩
    obtain ⟨w, hw⟩ := (h.inv.both f).2 ⟨i, hr⟩
    obtain ⟨r, e, fn, k1, _, _, ⟨name, params, code, k2, _⟩, _⟩ := h.proxies.2 f w hw
    rw [hr] at k1; cases k1
    rw [hd] at k2; cases k2
    cases hf

/-- The definition of a wrapped function after the exchange. -/
theorem WrapRun.target_after (h : WrapRun q p0 slots st bodies p2 p3 p4) {f r w : Idx} (hr : st.proxies.get f = some r)
    (hw : st.wrappers.get f = some w) : ∃ d fn ff fm name params code, st.pool.definition f = some d ∧ d.value = .Function fn ∧
      p2.definition f = some d ∧ p2.definition r = some (proxyDef d fn name params code) ∧
      p2.names.get Strings.cnameDefault name = some (indexName "proxy$" w) ∧
      All2 (CopyOf p2 p2) fn.parameters params ∧ ParamsOk st.pool fn.parameters ∧ params.Nodup ∧
      fromBody (p2.asmEnv q) (proxyBody w params fn.returnType.isSome) = .ok code ∧
      (withBodies f bodies d).value = .Function ff ∧ ff.parameters = fn.parameters ∧ ff.flags = fn.flags ∧
      p4.definition f = some (proxyDef d fn d.name params code) ∧
      p4.definition r = some { withBodies f bodies d with name, value := .Function fm } ∧ MovedTo p3 p4 r ff fm ∧
      (d.parent ≠ 0 → HasMethod p2 d.parent r) := by
  have ht := (h.inv.target_iff f).2 ⟨w, hw⟩
  obtain ⟨r', d, fn, k1, k2, k3, ⟨name, params, code, k4, k5, k6, k7, k8⟩, k9, _⟩ := h.proxies.2 f w hw
  rw [hr] at k1; cases k1
  obtain ⟨d', fn', t1, t2, t3, t4, t5⟩ := h.target_kept ht
  obtain rfl : d = d' := by rw [k2] at t1; cases t1; rfl
  obtain rfl : fn = fn' := by rw [k3] at t2; cases t2; rfl
  obtain ⟨df, dr, ff, fm, s1, s2, s3, s4, s5, s6⟩ := h.swaps.2.2.1 f r hr
  rw [t5] at s1; cases s1
  rw [h.slot_kept ⟨f, hr⟩, k4] at s2; cases s2
  obtain ⟨c, l, hb⟩ := withBodies_function f bodies k3
  rw [hb] at s3
  cases s3
  refine ⟨d, fn, { fn with code := c, locals := l }, fm, name, params, code, k2, k3, t4, k4, k5, k6, t3, k7, k8, by rw [hb], rfl, rfl, ?_, s5, s6, k9⟩
  rw [s4, (withBodies_fields f bodies d).1]
  rfl

theorem flag_setFlag_false {n k j : Nat} (fs : BitVec n) (hne : j ≠ k) : flag j (setFlag k false fs) = flag j fs := by
  unfold flag setFlag
  simp only [Bool.false_eq_true, if_false, BitVec.getLsbD_and, BitVec.getLsbD_not, BitVec.getLsbD_twoPow]
  by_cases hj : j < n
  · have : ¬ k = j := fun e => hne e.symm
    simp [hj, this]
  · simp [hj, BitVec.getLsbD_of_ge fs j (by omega)]

theorem fnInfo_params {p : ConstantPool} {w : Idx} {info : FnInfo} (h : p.fnInfo w = .ok info) :
    ∃ d fn, p.definition w = some d ∧ d.value = .Function fn ∧ ParamsOk p fn.parameters := by
  unfold ConstantPool.fnInfo at h
  cases hd : p.definition w with
  | none => rw [hd] at h; cases h
  | some d =>
    rw [hd] at h
    simp only at h
    cases hf : d.value.asFunction with
    | none => rw [hf] at h; cases h
    | some fn =>
      rw [hf] at h
      simp only at h
      have hv : d.value = .Function fn := by
        cases hv : d.value <;> rw [hv] at hf <;> simp [AnyDefinition.asFunction] at hf
        rw [hf]
      refine ⟨d, fn, rfl, hv, ?_⟩
      cases hm : fn.parameters.mapM (p.definitionBy AnyDefinition.paramFlags) with
      | none => rw [hm] at h; cases h
      | some ps =>
        clear h hf hv hd
        generalize fn.parameters = as at hm ⊢
        induction as generalizing ps with
        | nil => intro i hi; cases hi
        | cons a as ih =>
          rw [List.mapM_cons] at hm
          cases hb : p.definitionBy AnyDefinition.paramFlags a with
          | none => rw [hb] at hm; cases hm
          | some fl =>
            rw [hb] at hm
            cases hr : as.mapM (p.definitionBy AnyDefinition.paramFlags) with
            | none => rw [hr] at hm; cases hm
            | some rs =>
              intro i hi
              rcases List.mem_cons.1 hi with rfl | hi
              · unfold ConstantPool.definitionBy at hb
                cases he : p.definitions[i.toNat]? with
                | none => rw [he] at hb; cases hb
                | some e => rw [he] at hb; exact ⟨e, fl, he, hb⟩
              · exact ih rs hr i hi

theorem All2.same {R : α → α → Prop} : ∀ {l : List α}, (∀ a ∈ l, R a a) → All2 R l l
  | [], _ => .nil
  | _ :: _, h => .cons (h _ (by simp)) (All2.same fun a ha => h a (List.mem_cons_of_mem _ ha))

theorem calleeOf_eq {a b : FnInfo} (hn : a.name = b.name)
    (hf : ∀ j, j = FunctionFlags.isFinalBit ∨ j = FunctionFlags.isStaticBit ∨ j = FunctionFlags.isNativeBit → flag j a.flags = flag j b.flags)
    (super : Bool) (f : Idx) : calleeOf a super f = calleeOf b super f := by
  unfold calleeOf
  rw [hn, hf _ (.inl rfl), hf _ (.inr (.inl rfl)), hf _ (.inr (.inr rfl))]

/-- C36: calls compiled before functions and proxies are exchanged mean the same afterwards: a function has
the name, the parameters and the kind of dispatch it had. -/
theorem C36_calls_stay_valid (h : WrapRun q p0 slots st bodies p2 p3 p4) {i : Idx} {info : FnInfo} (hi : p2.fnInfo i = .ok info) :
    p3.fnInfo i = .ok info ∧ ∃ info', p4.fnInfo i = .ok info' ∧ info'.name = info.name ∧ info'.params = info.params ∧
      ∀ super f, calleeOf info' super f = calleeOf info super f := by
  obtain ⟨d, fn, d1, d2, d3⟩ := fnInfo_params hi
  have same : ∀ {p' : ConstantPool}, (∀ i d fl, p2.definition i = some d → d.value.paramFlags = some fl → p'.definition i = some d) →
      All2 (fun a b => ∃ e, p2.definition a = some e ∧ p'.definition b = some e) fn.parameters fn.parameters := by
    intro p' hp
    refine All2.same fun a ha => ?_
    obtain ⟨e, fl, e1, e2⟩ := d3 a ha
    exact ⟨e, e1, hp a e fl e1 e2⟩
  have p3kept : ∀ i d fl, p2.definition i = some d → d.value.paramFlags = some fl → p3.definition i = some d := by
    intro i d fl h1 h2
    have hv : ∀ f, d.value ≠ .Function f := fun f e => by rw [e] at h2; cases h2
    rw [h.installed.spec.2.1 _ _ h1, withBodies_other i bodies hv]
  have p4kept : ∀ i d fl, p2.definition i = some d → d.value.paramFlags = some fl → p4.definition i = some d :=
    fun i d fl h1 h2 => h.param_kept h1 h2
  obtain ⟨c, l, hb⟩ := withBodies_function i bodies d2
  have h3 : p3.definition i = some (withBodies i bodies d) := h.installed.spec.2.1 _ _ d1
  have unique : ∀ {e g}, p2.definition i = some e → e.value = .Function g → e = d ∧ g = fn := by
    intro e g h1 h2
    rw [d1] at h1; cases h1
    rw [d2] at h2; cases h2
    exact ⟨rfl, rfl⟩
  constructor
  · obtain ⟨e, g, e', g', i1, i2, i3, i4, i5, i6⟩ := fnInfo_same hi (p' := p3) (by
      intro e g h1 h2
      obtain ⟨rfl, rfl⟩ := unique h1 h2
      exact ⟨_, { g with code := c, locals := l }, h3, by rw [hb], (withBodies_fields i bodies e).1, same p3kept⟩)
    obtain ⟨rfl, rfl⟩ := unique i1 i2
    rw [h3, hb] at i3
    cases i3
    cases i4
    rw [i6, i5]
  · by_cases ht : IsTarget slots i
    · obtain ⟨w, hw⟩ := (h.inv.target_iff i).1 ht
      obtain ⟨r, hr⟩ := (h.inv.both i).1 ⟨w, hw⟩
      obtain ⟨e, g, ff, fm, name, params, code, t1, t2, t3, t4, t5, t6, t7, t8, t9, t10, t11, t12, t13, t14, t15, t16⟩ := h.target_after hr hw
      obtain ⟨rfl, rfl⟩ := unique t3 t2
      obtain ⟨e', g', e'', g'', i1, i2, i3, i4, i5, i6⟩ := fnInfo_same hi (p' := p4) (by
        intro e' g' h1 h2
        obtain ⟨rfl, rfl⟩ := unique h1 h2
        refine ⟨_, _, t13, rfl, rfl, ?_⟩
        refine t6.mono_mem fun a ha b _ hab => ?_
        obtain ⟨x, x1, x2⟩ := hab
        obtain ⟨y, fl, y1, y2⟩ := d3 a ha
        obtain rfl : x = y := by rw [x1] at y1; cases y1; rfl
        exact ⟨x, x1, p4kept b x fl x2 y2⟩)
      obtain ⟨rfl, rfl⟩ := unique i1 i2
      rw [t13] at i3
      cases i3
      cases i4
      refine ⟨_, i6, by rw [i5], rfl, fun super f => calleeOf_eq (by rw [i5]) (fun j _ => by rw [i5]) super f⟩
    · by_cases hs : st.IsSlot i
      · obtain ⟨f, hf⟩ := hs
        obtain ⟨w, hw⟩ := (h.inv.both f).2 ⟨i, hf⟩
        obtain ⟨e, g, ff, fm, name, params, code, t1, t2, t3, t4, t5, t6, t7, t8, t9, t10, t11, t12, t13, t14, t15, t16⟩ := h.target_after hf hw
        obtain ⟨rfl, rfl⟩ := unique t4 rfl
        obtain ⟨cc, ll, hm⟩ := t15.same
        obtain ⟨e', g', e'', g'', i1, i2, i3, i4, i5, i6⟩ := fnInfo_same hi (p' := p4) (by
          intro e' g' h1 h2
          obtain ⟨rfl, rfl⟩ := unique h1 h2
          refine ⟨_, _, t14, rfl, rfl, ?_⟩
          rw [hm]
          show All2 _ params ff.parameters
          rw [t11]
          have hrev : ∀ {l m : List Idx}, All2 (CopyOf p2 p2) l m → ParamsOk p2 m →
              All2 (fun a b => ∃ e, p2.definition a = some e ∧ p4.definition b = some e) m l := by
            intro l m hl hp
            induction hl with
            | nil => exact .nil
            | cons hab _ ih =>
              refine .cons ?_ (ih fun x hx => hp x (List.mem_cons_of_mem _ hx))
              obtain ⟨x, x1, x2⟩ := hab
              obtain ⟨y, fl, y1, y2⟩ := hp _ (List.mem_cons_self ..)
              obtain rfl : x = y := by rw [x2] at y1; cases y1; rfl
              exact ⟨x, x2, p4kept _ x fl x1 y2⟩
          exact hrev t6 d3)
        obtain ⟨rfl, rfl⟩ := unique i1 i2
        rw [t14] at i3
        cases i3
        cases i4
        refine ⟨_, i6, by rw [i5], rfl, fun super f => calleeOf_eq (by rw [i5]) (fun j hj => ?_) super f⟩
        rw [i5, hm]
        simp only
        rw [flag_setFlag_false _ (by rcases hj with rfl | rfl | rfl <;> decide), t12]
      · have h4 := h.swaps.2.2.2 i _ ht hs h3
        obtain ⟨e, g, e', g', i1, i2, i3, i4, i5, i6⟩ := fnInfo_same hi (p' := p4) (by
          intro e g h1 h2
          obtain ⟨rfl, rfl⟩ := unique h1 h2
          exact ⟨_, { g with code := c, locals := l }, h4, by rw [hb], (withBodies_fields i bodies e).1, same p4kept⟩)
        obtain ⟨rfl, rfl⟩ := unique i1 i2
        rw [h4, hb] at i3
        cases i3
        cases i4
        exact ⟨_, i6, by rw [i5], rfl, fun super f => calleeOf_eq (by rw [i5]) (fun j _ => by rw [i5]) super f⟩

/-! ## The theorems -/

/-- C36: the wrappers of a function nest in the order of their declaration. The first one wraps a slot that
is new, each other one wraps the one declared before it, and the function calls the last one. -/
theorem C36_wrappers_nest (h : WrapRun q p0 slots st bodies p2 p3 p4) {f : Idx} (hf : IsTarget slots f) :
    ∃ original outermost, st.proxies.get f = some original ∧ st.wrappers.get f = some outermost ∧
      Nested original (wrappersOf f slots) outermost ∧ (original :: slots.map (·.index)).Nodup ∧
      p0.definitions.length ≤ original.toNat := by
  obtain ⟨w, hw⟩ := (h.inv.target_iff f).1 hf
  obtain ⟨r, h1, h2, h3⟩ := h.inv.nested f w hw
  refine ⟨r, w, h1, hw, h3, List.nodup_cons.2 ⟨?_, h.inv.distinct⟩, (h.inv.reserved f r h1).1⟩
  rw [List.mem_map]
  rintro ⟨s, hs, rfl⟩
  exact (h.inv.new s hs).2.2.1 f h1

theorem params_values (params : List Idx) : Expr.areValues (params.map fun i => Expr.Ident (Reference.Value (.Parameter i))) = true := by
  induction params with
  | nil => rfl
  | cons i is ih => rw [List.map_cons, Expr.areValues, ih]; rfl

theorem proxy_statements (w : Idx) (params : List Idx) (ret : Bool) :
    Expr.areStatements (proxyBody w params ret) = true ∧ Expr.allSwitchesOk (proxyBody w params ret) = true := by
  unfold proxyBody
  cases ret <;>
  · simp only [Bool.false_eq_true, if_false, if_true, Expr.areStatements, Expr.isStatement, Expr.isValue, params_values,
      Expr.allSwitchesOk, Expr.switchesOk, Bool.and_self, and_self]

/-- What running the body of a proxy does. -/
theorem proxy_runs {V S A : Type} {env : AsmEnv} {zero : Literal → Text} {P : PoolView} (ha : PoolAgrees env P zero) {w : Idx}
    {params : List Idx} {ret : Bool} {code : List (Instr Offset)} (hc : fromBody env (proxyBody w params ret) = .ok code) (hfit : Fits16 code)
    {info : FnInfo} (hw : env.function w = .ok info) (hp : ∀ fl ∈ info.params, flag ParameterFlags.isShortCircuitBit fl = false)
    (I : Interp V S A) (s : S) {val : Idx → V} (hval : ∀ i ∈ params, I.prim (.getParam i) [] s = .ok (val i, s)) (fin : Final V S A) :
    (∃ n, runBody code P I n s = some fin) ↔
      fin = match I.call (calleeOf info false w) none
          (params.map (fun i => some (val i)) ++ List.replicate (info.params.length - params.length) none) s with
        | .ok (v, s') => if ret then .returned (some v) s' else .ended s'
        | .error a => .aborted a := by
  obtain ⟨h1, h2⟩ := proxy_statements w params ret
  rw [C26_compiled_body_runs_like_the_source_partial ha h1 h2 hc hfit I s fin]
  obtain ⟨code', n, h3, _⟩ := fromBody_inv hc hfit
  -- the arguments fit the parameters
  have hlen : params.length ≤ info.params.length := by
    have : ∃ c m, asm env none (.Call (Callable.Function w) [] (params.map fun i => Expr.Ident (Reference.Value (.Parameter i)))) 0 = .ok (c, m) := by
      unfold proxyBody at h3
      simp only at h3
      rw [asmSeq] at h3
      cases ret with
      | false =>
        rw [if_neg (by simp)] at h3
        cases hx : asm env none (.Call (Callable.Function w) [] (params.map fun i => Expr.Ident (Reference.Value (.Parameter i)))) 0 with
        | error e => rw [hx] at h3; cases h3
        | ok r => exact ⟨r.1, r.2, rfl⟩
      | true =>
        rw [if_pos rfl, asm] at h3
        cases hx : asm env none (.Call (Callable.Function w) [] (params.map fun i => Expr.Ident (Reference.Value (.Parameter i)))) 0 with
        | error e => rw [hx] at h3; cases h3
        | ok r => exact ⟨r.1, r.2, rfl⟩
    obtain ⟨c, m, hx⟩ := this
    obtain ⟨info', d, hf', hl, _⟩ := asm_call_function hx
    rw [hw] at hf'; cases hf'
    simpa using hl
  -- the value of the call
  have hargs : evalArgs env I (calleeOf info false w) none (params.map fun i => Expr.Ident (Reference.Value (.Parameter i))) info.params [] s =
      .ok (params.map (fun i => some (val i)) ++ List.replicate (info.params.length - params.length) none, s) := by
    have general : ∀ (is : List Idx) (ps : List ParameterFlags) (acc : List (Option V)), is.length ≤ ps.length →
        (∀ fl ∈ ps, flag ParameterFlags.isShortCircuitBit fl = false) → (∀ i ∈ is, I.prim (.getParam i) [] s = .ok (val i, s)) →
        evalArgs env I (calleeOf info false w) none (is.map fun i => Expr.Ident (Reference.Value (.Parameter i))) ps acc s =
        .ok (acc ++ is.map (fun i => some (val i)) ++ List.replicate (ps.length - is.length) none, s) := by
      intro is
      induction is with
      | nil => intro ps acc _ _ _; simp [evalArgs]
      | cons i is ih =>
        intro ps acc hl hp hv
        cases ps with
        | nil => simp at hl
        | cons fl ps =>
          rw [List.map_cons, evalArgs, hp fl (by simp)]
          simp only [Bool.false_and, Bool.false_eq_true, if_false]
          rw [evalE]
          rw [hv i (by simp)]
          simp only [Res.ofExcept, Res.bind]
          rw [ih ps _ (by simpa using hl) (fun x hx => hp x (List.mem_cons_of_mem _ hx)) (fun x hx => hv x (List.mem_cons_of_mem _ hx))]
          simp
    have := general params info.params [] hlen hp hval
    simpa using this
  have hcall : evalE env I (.Call (Callable.Function w) [] (params.map fun i => Expr.Ident (Reference.Value (.Parameter i)))) s =
      Res.ofExcept (I.call (calleeOf info false w) none
        (params.map (fun i => some (val i)) ++ List.replicate (info.params.length - params.length) none) s) := by
    rw [evalE]
    simp only
    rw [hw]
    simp only
    rw [hargs]
    rfl
  generalize I.call (calleeOf info false w) none
    (params.map (fun i => some (val i)) ++ List.replicate (info.params.length - params.length) none) s = res at hcall ⊢
  unfold proxyBody
  simp only
  cases ret with
  | false =>
    simp only [Bool.false_eq_true, if_false]
    constructor
    · rintro ⟨o, ho, hfin⟩
      cases ho with
      | next hx hr =>
        cases hr
        cases hx with
        | expr _ hv =>
          rw [hcall] at hv
          cases res with
          | ok x => cases hv; cases hfin; rfl
          | error a => cases hv
      | stop hx hne =>
        cases hx with
        | expr _ hv => exact absurd rfl (hne _)
        | exprAbort _ hv =>
          rw [hcall] at hv
          cases res with
          | ok x => cases hv
          | error a => cases hv; cases hfin; rfl
    · rintro rfl
      cases res with
      | ok x =>
        obtain ⟨v, s'⟩ := x
        exact ⟨.normal s', .next (.expr rfl hcall) .nil, rfl⟩
      | error a => exact ⟨.aborted a, .stop (.exprAbort rfl hcall) (fun _ e => by cases e), rfl⟩
  | true =>
    simp only [if_true]
    constructor
    · rintro ⟨o, ho, hfin⟩
      cases ho with
      | next hx hr =>
        cases hx with
        | expr hc hv => cases hc
      | stop hx hne =>
        cases hx with
        | expr hc hv => cases hc
        | exprAbort hc hv => cases hc
        | returnSome hv =>
          rw [hcall] at hv
          cases res with
          | ok x => cases hv; cases hfin; rfl
          | error a => cases hv
        | returnAbort hv =>
          rw [hcall] at hv
          cases res with
          | ok x => cases hv
          | error a => cases hv; cases hfin; rfl
    · rintro rfl
      cases res with
      | ok x =>
        obtain ⟨v, s'⟩ := x
        exact ⟨.returned (some v) s', .stop (.returnSome hcall) (fun _ e => by cases e), rfl⟩
      | error a => exact ⟨.aborted a, .stop (.returnAbort hcall) (fun _ e => by cases e), rfl⟩

/-- C36: a wrapped function keeps its name, its flags and its place in its class, and calling it calls the
wrapper declared last, with the values of its parameters. -/
theorem C36_call_runs_the_last_wrapper {V S A : Type} (h : WrapRun q p0 slots st bodies p2 p3 p4) {f : Idx} (hf : IsTarget slots f) :
    ∃ original outermost d fn params code info, Nested original (wrappersOf f slots) outermost ∧
      st.pool.definition f = some d ∧ d.value = .Function fn ∧ p4.fnInfo outermost = .ok info ∧
      p4.definition f = some (proxyDef d fn d.name params code) ∧
      All2 (CopyOf p4 p4) fn.parameters params ∧ params.Nodup ∧
      ∀ (P : PoolView) (zero : Literal → Text), PoolAgrees q P zero → Fits16 code →
        (∀ fl ∈ info.params, flag ParameterFlags.isShortCircuitBit fl = false) →
        ∀ (I : Interp V S A) (s : S) (val : Idx → V), (∀ i ∈ params, I.prim (.getParam i) [] s = .ok (val i, s)) →
        ∀ fin : Final V S A, (∃ n, runBody code P I n s = some fin) ↔
          fin = match I.call (calleeOf info false outermost) none
              (params.map (fun i => some (val i)) ++ List.replicate (info.params.length - params.length) none) s with
            | .ok (v, s') => if fn.returnType.isSome then .returned (some v) s' else .ended s'
            | .error a => .aborted a := by
  obtain ⟨r, w, hr, hw, hn, _⟩ := C36_wrappers_nest h hf
  obtain ⟨d, fn, ff, fm, name, params, code, t1, t2, t3, t4, t5, t6, t7, t8, t9, t10, t11, t12, t13, t14, t15, t16⟩ := h.target_after hr hw
  obtain ⟨_, _, _, _, _, _, _, _, info, hi⟩ := h.proxies.2 f w hw
  -- the wrapper is described by the same information after the exchange
  have hi4 : p4.fnInfo w = .ok info := by
    obtain ⟨s, hs, hsi, _⟩ := h.inv.wrapper hw
    obtain ⟨e, g, e1, e2, e3⟩ := fnInfo_params hi
    obtain ⟨c, l, hb⟩ := withBodies_function w bodies e2
    have h4 : p4.definition w = some (withBodies w bodies e) := by
      refine h.swaps.2.2.2 w _ (hsi ▸ h.inv.wrapper_not_target hs) ?_ (h.installed.spec.2.1 _ _ e1)
      rintro ⟨g, hg⟩
      exact (h.inv.new s hs).2.2.1 g (hsi ▸ hg)
    obtain ⟨e', g', e'', g'', i1, i2, i3, i4, i5, i6⟩ := fnInfo_same hi (p' := p4) (by
      intro e' g' k1 k2
      rw [e1] at k1; cases k1
      rw [e2] at k2; cases k2
      refine ⟨_, { g with code := c, locals := l }, h4, by rw [hb], (withBodies_fields w bodies e).1, All2.same fun a ha => ?_⟩
      obtain ⟨x, fl, x1, x2⟩ := e3 a ha
      exact ⟨x, x1, h.param_kept x1 x2⟩)
    rw [e1] at i1; cases i1
    rw [e2] at i2; cases i2
    rw [h4, hb] at i3
    cases i3
    cases i4
    rw [i6, i5]
  refine ⟨r, w, d, fn, params, code, info, hn, t1, t2, hi4, t13, ?_, t8, ?_⟩
  · refine t6.mono_mem fun a ha b _ hab => ?_
    obtain ⟨x, x1, x2⟩ := hab
    obtain ⟨y, fl, y1, y2⟩ := t7 a ha
    have hy : p2.definition a = some y := by
      obtain ⟨fs, _, k⟩ := h.proxies.1.defs a y (fun ⟨g, hg⟩ => by
        rw [(h.inv.reserved g a hg).2] at y1; cases y1; cases y2) y1
      rw [addMethods_param y2] at k
      exact k
    obtain rfl : x = y := by rw [x1] at hy; cases hy; rfl
    exact ⟨x, h.param_kept x1 y2, h.param_kept x2 y2⟩
  · intro P zero ha hfit hsc I s val hval fin
    exact proxy_runs (env := p2.asmEnv q) ⟨ha.ty, ha.text, ha.zero⟩ t9 hfit hi hsc I s hval fin

/-- C36: the code of the original is at the slot the first wrapper wraps. It is the definition the function
had, with its compiled body if it has one, under another name, without the callback flag and with its own
copies of the locals; it runs like the original, with the copies in the place of the locals. -/
theorem C36_original_is_kept {V S A : Type} (h : WrapRun q p0 slots st bodies p2 p3 p4) {f : Idx} (hf : IsTarget slots f) :
    ∃ original outermost d ff fm name, Nested original (wrappersOf f slots) outermost ∧ st.pool.definition f = some d ∧
      (withBodies f bodies d).value = .Function ff ∧
      p4.definition original = some { withBodies f bodies d with name, value := .Function fm } ∧
      p4.names.get Strings.cnameDefault name = some (indexName "proxy$" outermost) ∧ MovedTo p3 p4 original ff fm ∧
      ∃ ρ : Idx → Idx, (∀ a ∈ ff.locals, ∀ b ∈ ff.locals, ρ a = ρ b → a = b) ∧ (∀ x, x ∈ fm.locals ↔ ∃ l ∈ ff.locals, x = ρ l) ∧
        ∀ (P : PoolView) (I : Interp V S A) (n : Nat) (s : S), runBody fm.code P I n s = runBody ff.code P (I.onLocals ρ) n s := by
  obtain ⟨r, w, hr, hw, hn, _⟩ := C36_wrappers_nest h hf
  obtain ⟨d, fn, ff, fm, name, params, code, t1, t2, t3, t4, t5, t6, t7, t8, t9, t10, t11, t12, t13, t14, t15, t16⟩ := h.target_after hr hw
  obtain ⟨ρ, r1, r2, r3, r4, r5⟩ := t15.renamed
  refine ⟨r, w, d, ff, fm, name, hn, t1, t10, t14, ?_, t15, ρ, r4, r3, fun P I n s => ?_⟩
  · rw [h.swaps.2.1]; exact h.installed.spec.2.2 _ _ t5
  · rw [r1]; exact runBody_rename ρ ff.code P I n s

/-- C36: everything else stays: definitions that are neither wrapped nor slots are as declared, with their
compiled bodies, and classes have the slots of their wrapped methods as new methods. -/
theorem C36_others_are_unaffected (h : WrapRun q p0 slots st bodies p2 p3 p4) {i : Idx} {d : Definition}
    (hd : st.pool.definition i = some d) (ht : ¬ IsTarget slots i) (hs : ¬ st.IsSlot i) :
    ∃ ms, (∀ m ∈ ms, st.IsSlot m) ∧ p4.definition i = some (withBodies i bodies (d.addMethods ms)) := by
  obtain ⟨ms, h1, h2⟩ := h.proxies.1.defs i d hs hd
  exact ⟨ms, h1, h.swaps.2.2.2 i _ ht hs (h.installed.spec.2.1 _ _ h2)⟩

/-- C36: in particular a function that is not wrapped is as declared, with its body; so are the wrappers. -/
theorem C36_other_functions_are_unaffected (h : WrapRun q p0 slots st bodies p2 p3 p4) {i : Idx} {d : Definition} {fn : FunctionDef}
    (hd : st.pool.definition i = some d) (hv : d.value = .Function fn) (ht : ¬ IsTarget slots i) :
    p4.definition i = some (withBodies i bodies d) ∧
      ((∀ b ∈ bodies, b.index ≠ i) → p4.definition i = some d) ∧
      (∀ bs b, bodies = bs ++ [b] → b.index = i → p4.definition i = some { d with value := .Function { fn with code := b.code, locals := b.locals } }) := by
  have hs : ¬ st.IsSlot i := by
    rintro ⟨f, hf⟩
    rw [(h.inv.reserved f i hf).2] at hd
    cases hd
    cases hv
  obtain ⟨ms, _, h2⟩ := C36_others_are_unaffected h hd ht hs
  rw [Definition.addMethods_function hv] at h2
  refine ⟨h2, fun hb => by rw [h2, withBodies_none hb], fun bs b hb hbi => ?_⟩
  obtain ⟨c, l, he⟩ := withBodies_function i bs hv
  rw [h2, hb, withBodies_append, if_pos hbi, he]
  rfl

/-! ## Dispatch by name -/

/-- The method a class has under a name: its own, or that of the nearest class above that has one. -/
inductive Dispatches (p : ConstantPool) (name : Text) : Idx → Idx → Prop
  | own {cls f : Idx} {d : Definition} {c : ClassDef} : p.definition cls = some d → d.value = .Class c → f ∈ c.functions →
      p.defName f = some name → Dispatches p name cls f
  | inherited {cls f : Idx} {d : Definition} {c : ClassDef} : p.definition cls = some d → d.value = .Class c →
      (∀ g ∈ c.functions, p.defName g ≠ some name) → c.base ≠ 0 → Dispatches p name c.base f → Dispatches p name cls f

/-- A name that only one of the listed methods has is dispatched to it, from all descendants of its class. -/
theorem dispatch_unique {p p' : ConstantPool} {name : Text} {cls f : Idx}
    (hcls : ∀ i d c, p.definition i = some d → d.value = .Class c → ∃ d' c', p'.definition i = some d' ∧ d'.value = .Class c' ∧ c'.base = c.base)
    (hun : ∀ i d c, p.definition i = some d → d.value = .Class c → ∀ d' c', p'.definition i = some d' → d'.value = .Class c' →
      ∀ g ∈ c'.functions, p'.defName g = some name → g = f)
    (hm : HasMethod p' cls f) (hc : ∃ d c, p.definition cls = some d ∧ d.value = .Class c) (hn : p'.defName f = some name)
    {k : Idx} (hk : p.Below k cls) : ∀ g, Dispatches p' name k g ↔ g = f := by
  have hclass : ∀ {k}, p.Below k cls → ∃ d c, p.definition k = some d ∧ d.value = .Class c := by
    intro k hk
    cases hk with
    | refl => exact hc
    | step hb _ _ =>
      obtain ⟨d, c, h1, h2, _⟩ := baseOf_definition hb
      exact ⟨d, c, h1, h2⟩
  have hsound : ∀ {k g}, Dispatches p' name k g → p.Below k cls → g = f := by
    intro k g hd
    induction hd with
    | @own cls' g d' c' h1 h2 h3 h4 =>
      intro hb
      obtain ⟨d, c, k1, k2⟩ := hclass hb
      exact hun _ d c k1 k2 d' c' h1 h2 g h3 h4
    | @inherited cls' g d' c' h1 h2 h3 h4 _ ih =>
      intro hb
      cases hb with
      | refl =>
        obtain ⟨d'', c'', m1, m2, m3⟩ := hm
        rw [h1] at m1; cases m1
        rw [h2] at m2; cases m2
        exact absurd hn (h3 f m3)
      | step hb h0 hb' =>
        obtain ⟨d, c, k1, k2, k3⟩ := baseOf_definition hb
        obtain ⟨d'', c'', k4, k5, k6⟩ := hcls _ d c k1 k2
        rw [h1] at k4; cases k4
        rw [h2] at k5; cases k5
        rw [k3] at k6
        subst k6
        exact ih hb'
  have hcomplete : Dispatches p' name k f := by
    induction hk with
    | refl =>
      obtain ⟨d, c, m1, m2, m3⟩ := hm
      exact .own m1 m2 m3 hn
    | @step y b x hb h0 hb' ih =>
      obtain ⟨d, c, k1, k2, k3⟩ := baseOf_definition hb
      obtain ⟨d', c', k4, k5, k6⟩ := hcls _ d c k1 k2
      by_cases hown : ∃ g ∈ c'.functions, p'.defName g = some name
      · obtain ⟨g, g1, g2⟩ := hown
        have := hun _ d c k1 k2 d' c' k4 k5 g g1 g2
        subst this
        exact .own k4 k5 g1 g2
      · refine .inherited k4 k5 (fun g hg e => hown ⟨g, hg, e⟩) (by rw [k6, k3]; exact h0) ?_
        rw [k6, k3]
        exact ih hm hc hclass hsound
  exact fun g => ⟨fun hd => hsound hd hk, fun e => e ▸ hcomplete⟩

theorem defName_some {p : ConstantPool} {i : Idx} {t : Text} (h : p.defName i = some t) :
    ∃ d s, p.definition i = some d ∧ p.names.get Strings.cnameDefault d.name = some s ∧ s.toList = t := by
  unfold ConstantPool.defName at h
  cases hd : p.definition i with
  | none => rw [hd] at h; cases h
  | some d =>
    rw [hd] at h
    simp only [Option.bind_some] at h
    cases hs : p.names.get Strings.cnameDefault d.name with
    | none => rw [hs] at h; cases h
    | some s => rw [hs] at h; exact ⟨d, s, rfl, hs, by cases h; rfl⟩

theorem defName_intro {p : ConstantPool} {i : Idx} {d : Definition} {s : String} (h : p.definition i = some d)
    (hs : p.names.get Strings.cnameDefault d.name = some s) : p.defName i = some s.toList := by
  unfold ConstantPool.defName
  rw [h, Option.bind_some, hs]
  rfl

/-- Texts keep their indexes. -/
theorem WrapRun.texts (h : WrapRun q p0 slots st bodies p2 p3 p4) {i : Idx} {s : String}
    (hs : st.pool.names.get Strings.cnameDefault i = some s) : p4.names.get Strings.cnameDefault i = some s := by
  rw [h.swaps.2.1]
  exact h.installed.spec.2.2 _ _ (h.proxies.1.names _ _ hs)

/-- Names stay, but for the slots. -/
theorem WrapRun.names (h : WrapRun q p0 slots st bodies p2 p3 p4) {i : Idx} (hs : ¬ st.IsSlot i) {t : Text} (ht : st.pool.defName i = some t) :
    p4.defName i = some t := by
  obtain ⟨d, s, h1, h2, rfl⟩ := defName_some ht
  by_cases hti : IsTarget slots i
  · obtain ⟨w, hw⟩ := (h.inv.target_iff i).1 hti
    obtain ⟨r, hr⟩ := (h.inv.both i).1 ⟨w, hw⟩
    obtain ⟨e, g, ff, fm, name, params, code, t1, t2, t3, t4, t5, t6, t7, t8, t9, t10, t11, t12, t13, t14, t15, t16⟩ := h.target_after hr hw
    rw [h1] at t1; cases t1
    exact defName_intro t13 (h.texts h2)
  · obtain ⟨ms, _, h4⟩ := C36_others_are_unaffected h h1 hti hs
    refine defName_intro h4 ?_
    rw [(withBodies_fields _ _ _).1, Definition.addMethods_name]
    exact h.texts h2

/-- Classes get the slots of their wrapped methods as new methods; nothing else changes. -/
theorem WrapRun.classes (h : WrapRun q p0 slots st bodies p2 p3 p4) {i : Idx} {d : Definition} {c : ClassDef}
    (hd : st.pool.definition i = some d) (hc : d.value = .Class c) :
    ∃ ms, (∀ m ∈ ms, st.IsSlot m) ∧ p4.definition i = some { d with value := .Class { c with functions := c.functions ++ ms } } := by
  have ht : ¬ IsTarget slots i := by
    intro ht
    obtain ⟨e, fn, t1, t2, _⟩ := h.target_kept ht
    rw [hd] at t1; cases t1
    rw [hc] at t2; cases t2
  have hs : ¬ st.IsSlot i := by
    rintro ⟨f, hf⟩
    rw [(h.inv.reserved f i hf).2] at hd
    cases hd
    cases hc
  obtain ⟨ms, h1, h2⟩ := C36_others_are_unaffected h hd ht hs
  refine ⟨ms, h1, ?_⟩
  have : d.addMethods ms = { d with value := .Class { c with functions := c.functions ++ ms } } := by
    unfold Definition.addMethods; rw [hc]
  rw [h2, this, withBodies_other]
  intro f e
  cases e

/-- The names with a `$` among the methods of classes. -/
theorem WrapRun.dollar_names (h : WrapRun q p0 slots st bodies p2 p3 p4) {i : Idx} {d d' : Definition} {c c' : ClassDef}
    (hd : st.pool.definition i = some d) (hc : d.value = .Class c) (hd' : p4.definition i = some d') (hc' : d'.value = .Class c')
    {g : Idx} (hg : g ∈ c'.functions) {t : Text} (ht : p4.defName g = some t) (hdollar : '$' ∈ t) :
    p0.defName g = some t ∨ (∃ s ∈ slots, g = s.index ∧ t = (indexName "wrapper$" s.wrapped).toList) ∨
      ∃ f w, st.proxies.get f = some g ∧ st.wrappers.get f = some w ∧ t = (indexName "proxy$" w).toList := by
  obtain ⟨ms, h1, h2⟩ := h.classes hd hc
  rw [hd'] at h2
  cases h2
  cases hc'
  by_cases hs : st.IsSlot g
  · obtain ⟨f, hf⟩ := hs
    obtain ⟨w, hw⟩ := (h.inv.both f).2 ⟨g, hf⟩
    refine .inr (.inr ⟨f, w, hf, hw, ?_⟩)
    obtain ⟨e, gg, ff, fm, name, params, code, t1, t2, t3, t4, t5, t6, t7, t8, t9, t10, t11, t12, t13, t14, t15, t16⟩ := h.target_after hf hw
    have : p4.names.get Strings.cnameDefault name = some (indexName "proxy$" w) := by
      rw [h.swaps.2.1]; exact h.installed.spec.2.2 _ _ t5
    rw [defName_intro t14 this] at ht
    exact (Option.some.inj ht).symm
  · have hgc : g ∈ c.functions := by
      rcases List.mem_append.1 hg with hg | hg
      · exact hg
      · exact absurd (h1 g hg) hs
    obtain ⟨t0, ht0, hwas⟩ := h.listed i d c hd hc g hgc
    rw [h.names hs ht0] at ht
    cases ht
    rcases hwas hdollar with h3 | ⟨s, h3, rfl⟩
    · exact .inl h3
    · refine .inr (.inl ⟨s, h3, rfl, ?_⟩)
      rw [(h.inv.new s h3).2.1] at ht0
      exact (Option.some.inj ht0).symm

/-- No name of the original pool looks like that of a wrapper or proxy of an index beyond it. -/
def NoIndexNames (p0 : ConstantPool) : Prop := ∀ i k, p0.definitions.length ≤ k.toNat →
  p0.defName i ≠ some (indexName "wrapper$" k).toList ∧ p0.defName i ≠ some (indexName "proxy$" k).toList

theorem Nested.wrapped : ∀ {ss : List WrapSlot} {a b : Idx}, Nested a ss b → ∀ s ∈ ss, s.wrapped = a ∨ ∃ t ∈ ss, s.wrapped = t.index
  | s :: ss, a, b, h, x, hx => by
    rcases List.mem_cons.1 hx with rfl | hx
    · exact .inl h.1
    · rcases Nested.wrapped h.2 x hx with e | ⟨t, ht, e⟩
      · exact .inr ⟨s, by simp, e⟩
      · exact .inr ⟨t, List.mem_cons_of_mem _ ht, e⟩

/-- Nothing is wrapped twice. -/
theorem Nested.wrapped_inj : ∀ {ss : List WrapSlot} {a b : Idx}, Nested a ss b → (a :: ss.map (·.index)).Nodup →
    ∀ s ∈ ss, ∀ t ∈ ss, s.wrapped = t.wrapped → s = t
  | s :: ss, a, b, h, hn, x, hx, y, hy, e => by
    have key : ∀ z ∈ ss, z.wrapped ≠ a := by
      intro z hz e
      rw [List.map_cons, List.nodup_cons] at hn
      rcases Nested.wrapped h.2 z hz with e' | ⟨t, ht, e'⟩
      · exact hn.1 (by rw [← e, e']; simp)
      · exact hn.1 (by rw [← e, e']; exact List.mem_cons_of_mem _ (List.mem_map.2 ⟨t, ht, rfl⟩))
    have ih := Nested.wrapped_inj h.2 (List.nodup_cons.1 hn).2
    rcases List.mem_cons.1 hx with hx' | hx' <;> rcases List.mem_cons.1 hy with hy' | hy'
    · rw [hx', hy']
    · subst hx'; exact absurd (e.symm.trans h.1) (key y hy')
    · subst hy'; exact absurd (e.trans h.1) (key x hx')
    · exact ih x hx' y hy' e

theorem nodup_index {ss : List WrapSlot} (h : (ss.map (·.index)).Nodup) : ∀ s ∈ ss, ∀ t ∈ ss, s.index = t.index → s = t := by
  induction ss with
  | nil => intro s hs; cases hs
  | cons a ss ih =>
    rw [List.map_cons, List.nodup_cons] at h
    intro s hs t ht e
    rcases List.mem_cons.1 hs with hs' | hs' <;> rcases List.mem_cons.1 ht with ht' | ht'
    · rw [hs', ht']
    · subst hs'; exact absurd (List.mem_map.2 ⟨t, ht', e.symm⟩) h.1
    · subst ht'; exact absurd (List.mem_map.2 ⟨s, hs', e⟩) h.1
    · exact ih h.2 s hs' t ht' e

/-- What a wrapper wraps: the slot of its function or a wrapper of it; new in any case. -/
theorem WrapInv.wrapped_cases (h : WrapInv p0 slots st) {s : WrapSlot} (hs : s ∈ slots) :
    (st.proxies.get s.target = some s.wrapped ∨ ∃ t ∈ slots, t.target = s.target ∧ s.wrapped = t.index) ∧
      p0.definitions.length ≤ s.wrapped.toNat := by
  obtain ⟨w, hw⟩ := (h.target_iff s.target).1 ⟨s, hs, rfl⟩
  obtain ⟨r, h1, h2, h3⟩ := h.nested _ w hw
  rcases h3.wrapped s (mem_wrappersOf.2 ⟨hs, rfl⟩) with e | ⟨t, ht, e⟩
  · exact ⟨.inl (by rw [h1, e]), by rw [e]; exact (h.reserved _ r h1).1⟩
  · obtain ⟨t1, t2⟩ := mem_wrappersOf.1 ht
    exact ⟨.inr ⟨t, t1, t2, e⟩, by rw [e]; exact (h.new t t1).1⟩

theorem WrapInv.wrapped_inj (h : WrapInv p0 slots st) {s t : WrapSlot} (hs : s ∈ slots) (ht : t ∈ slots) (e : s.wrapped = t.wrapped) :
    s = t := by
  have htarget : s.target = t.target := by
    rcases (h.wrapped_cases hs).1 with h1 | ⟨s', h1, h2, h3⟩ <;> rcases (h.wrapped_cases ht).1 with k1 | ⟨t', k1, k2, k3⟩
    · exact h.apart _ _ _ h1 (by rw [e]; exact k1)
    · exact absurd (by rw [h1, e, k3]) ((h.new t' k1).2.2.1 s.target)
    · exact absurd (by rw [k1, ← e, h3]) ((h.new s' h1).2.2.1 t.target)
    · have := nodup_index h.distinct s' h1 t' k1 (by rw [← h3, ← k3, e])
      rw [← h2, ← k2, this]
  obtain ⟨w, hw⟩ := (h.target_iff s.target).1 ⟨s, hs, rfl⟩
  obtain ⟨r, h1, h2, h3⟩ := h.nested _ w hw
  refine h3.wrapped_inj ?_ s (mem_wrappersOf.2 ⟨hs, rfl⟩) t (mem_wrappersOf.2 ⟨ht, htarget.symm⟩) e
  refine List.nodup_cons.2 ⟨?_, ?_⟩
  · rw [List.mem_map]
    rintro ⟨x, hx, rfl⟩
    exact (h.new x (mem_wrappersOf.1 hx).1).2.2.1 _ h1
  · exact h.distinct.sublist ((List.filter_sublist (p := fun s' => decide (s'.target = s.target)) (l := slots)).map _)

/-- C36: the name of a wrapper is dispatched to it, on every object of its class or a class below. So the
call of a wrapped method in the wrapper declared after it, or in the function itself, runs this wrapper. -/
theorem C36_wrapper_is_dispatched_to (h : WrapRun q p0 slots st bodies p2 p3 p4) (hf : NoIndexNames p0) {s : WrapSlot} (hs : s ∈ slots)
    {cls : Idx} (hb : st.pool.Below cls s.parent) : ∃ name, p4.defName s.index = some name ∧ ∀ g, Dispatches p4 name cls g ↔ g = s.index := by
  obtain ⟨n1, n2, n3, d, c, n4, n5, n6⟩ := h.inv.new s hs
  have hname := h.names (fun ⟨f, hf⟩ => n3 f hf) n2
  refine ⟨_, hname, dispatch_unique (p := st.pool) ?_ ?_ ?_ ⟨d, c, n4, n5⟩ hname hb⟩
  · intro i d c h1 h2
    obtain ⟨ms, _, h3⟩ := h.classes h1 h2
    exact ⟨_, _, h3, rfl, rfl⟩
  · intro i d c h1 h2 d' c' h3 h4 g hg ht
    rcases h.dollar_names h1 h2 h3 h4 hg ht (dollar_wrapper _) with e | ⟨t, htm, rfl, e⟩ | ⟨f, w, _, _, e⟩
    · exact absurd e (hf g s.wrapped (h.inv.wrapped_cases hs).2).1
    · rw [h.inv.wrapped_inj hs htm (indexName_inj e)]
    · exact absurd e (wrapper_ne_proxy _ _)
  · obtain ⟨ms, _, h3⟩ := h.classes n4 n5
    exact ⟨_, _, h3, rfl, List.mem_append_left _ n6⟩

/-- C36: the name under which the original is kept is dispatched to it, on every object of its class or a
class below. So the call of the wrapped method in the first wrapper runs the original. -/
theorem C36_original_is_dispatched_to (h : WrapRun q p0 slots st bodies p2 p3 p4) (hf : NoIndexNames p0) {f original : Idx}
    (ho : st.proxies.get f = some original) {d : Definition} (hd : st.pool.definition f = some d)
    {dc : Definition} {c : ClassDef} (hp : d.parent ≠ 0) (hdc : st.pool.definition d.parent = some dc) (hc : dc.value = .Class c)
    {cls : Idx} (hb : st.pool.Below cls d.parent) :
    ∃ name, p4.defName original = some name ∧ ∀ g, Dispatches p4 name cls g ↔ g = original := by
  obtain ⟨w, hw⟩ := (h.inv.both f).2 ⟨original, ho⟩
  obtain ⟨e, gg, ff, fm, name, params, code, t1, t2, t3, t4, t5, t6, t7, t8, t9, t10, t11, t12, t13, t14, t15, t16⟩ := h.target_after ho hw
  rw [hd] at t1; cases t1
  have htext : p4.names.get Strings.cnameDefault name = some (indexName "proxy$" w) := by
    rw [h.swaps.2.1]; exact h.installed.spec.2.2 _ _ t5
  have hname := defName_intro t14 htext
  obtain ⟨sw, hsw, hswi, hswt⟩ := h.inv.wrapper hw
  refine ⟨_, hname, dispatch_unique (p := st.pool) ?_ ?_ ?_ ⟨dc, c, hdc, hc⟩ hname hb⟩
  · intro i d c h1 h2
    obtain ⟨ms, _, h3⟩ := h.classes h1 h2
    exact ⟨_, _, h3, rfl, rfl⟩
  · intro i d c h1 h2 d' c' h3 h4 g hg ht
    rcases h.dollar_names h1 h2 h3 h4 hg ht (dollar_proxy _) with e | ⟨t, ht, rfl, e⟩ | ⟨f', w', k1, k2, e⟩
    · exact absurd e (hf g w (by rw [← hswi]; exact (h.inv.new sw hsw).1)).2
    · exact absurd e.symm (wrapper_ne_proxy _ _)
    · have hww := indexName_inj e
      subst hww
      obtain ⟨sw', hsw', hswi', hswt'⟩ := h.inv.wrapper k2
      have := nodup_index h.inv.distinct sw hsw sw' hsw' (by rw [hswi, hswi'])
      rw [this, hswt'] at hswt
      subst hswt
      rw [ho] at k1
      cases k1
      rfl
  · obtain ⟨dd, cc, m1, m2, m3⟩ := t16 hp
    have hns : ¬ st.IsSlot d.parent := by
      rintro ⟨g, hg⟩
      rw [(h.inv.reserved g _ hg).2] at hdc
      cases hdc
      cases hc
    have hnt : ¬ IsTarget slots d.parent := by
      intro ht
      obtain ⟨e, fn, u1, u2, _⟩ := h.target_kept ht
      rw [hdc] at u1; cases u1
      rw [hc] at u2; cases u2
    refine ⟨dd, cc, h.swaps.2.2.2 _ _ hnt hns ?_, m2, m3⟩
    rw [h.installed.spec.2.1 _ _ m1, withBodies_other]
    intro f e
    rw [m2] at e
    cases e

end

end Redscript
