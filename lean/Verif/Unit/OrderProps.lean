import Verif.Unit.CompileTheorems

/-!
# C75: the order of hash maps

`wrappers` and `proxies` (compiler/src/unit.rs:38-39) and the map of `remap_locals` (1113) are hash maps whose order of
iteration differs from run to run.
-/

namespace Redscript

/-! ## Specification -/

/-- The same compiler in another run: hash maps give their entries in other orders, all else is the same. -/
structure SameBut (B B' : Back) : Prop where
  display : B'.display = B.display
  defaults : B'.defaults = B.defaults
  proxy : B'.proxy = B.proxy
  checker : B'.checker = B.checker
  checked : B'.checked = B.checked
  desugarer : B'.desugarer = B.desugarer
  desugared : B'.desugared = B.desugared
  dsKind : B'.dsKind = B.dsKind
  passes : B'.passes = B.passes
  assembler : B'.assembler = B.assembler
  assembled : B'.assembled = B.assembled
  /-- the orders are orders of the entries -/
  lists : ∀ m, ListsMap m (B'.drain m)
  perm : ∀ l, (B'.ord l).Perm l

/-- The declarations of wrappers in the modules that are enabled. -/
def wrapEntries (ms : List SourceModule) : List (SourceModule × SourceEntry) :=
  (ms.flatMap (·.enabled (ms.filterMap (·.path)))).filter (·.2.isWrap)

/-- All wrappers in the sources are around one function; it has at most one local; and the sources do not replace it. -/
structure OneSmallTarget (ms : List SourceModule) (s : DeclState) : Prop where
  one : ∀ e ∈ wrapEntries ms, ∀ e' ∈ wrapEntries ms, ∀ w w', WrapperFor s (ms.filterMap (·.path)) e w →
    WrapperFor s (ms.filterMap (·.path)) e' w' → w.target = w'.target
  locals : ∀ e ∈ wrapEntries ms, ∀ w, WrapperFor s (ms.filterMap (·.path)) e w → ∀ fn, s.pool.function w.target = some fn → fn.locals.length ≤ 1
  own : ∀ e ∈ wrapEntries ms, ∀ w, WrapperFor s (ms.filterMap (·.path)) e w → ∀ b ∈ s.bodies, b.index ≠ w.target

/-! ## Proof -/

theorem SameBut.eq {B B' : Back} (h : SameBut B B') : B' = { B with drain := B'.drain, ord := B'.ord } := by
  cases B; cases B'
  cases h
  simp_all

theorem compileBodies_orders (B : Back) (drain : AMap Idx Idx → List (Idx × Idx)) (ord : List Idx → List Idx) : ∀ (bs : List DeclBody) (p : ConstantPool),
    ({ B with drain, ord } : Back).compileBodies bs p = B.compileBodies bs p
  | [], _ => rfl
  | b :: bs, p => by
    unfold Back.compileBodies
    have e : ({ B with drain, ord } : Back).compileFunction b p = B.compileFunction b p := rfl
    simp only [e, compileBodies_orders B drain ord bs]

theorem installAll_orders (B : Back) (drain : AMap Idx Idx → List (Idx × Idx)) (ord : List Idx → List Idx) : ∀ (fs : List CompiledFn) (p : ConstantPool),
    ({ B with drain, ord } : Back).installAll fs p = B.installAll fs p
  | [], _ => rfl
  | f :: fs, p => by
    unfold Back.installAll
    simp only [installAll_orders B drain ord fs]

/-- At most one entry has one order. -/
theorem ListsMap.unique {m : AMap Idx Idx} {l l' : List (Idx × Idx)} (h : ListsMap m l) (h' : ListsMap m l')
    (one : ∀ f g w v, m.get f = some w → m.get g = some v → f = g) : l = l' ∧ l.length ≤ 1 := by
  have key : ∀ {l : List (Idx × Idx)}, ListsMap m l → l = [] ∨ ∃ x, l = [x] := by
    intro l hl
    match l, hl with
    | [], _ => exact .inl rfl
    | [x], _ => exact .inr ⟨x, rfl⟩
    | (a, b) :: (c, d) :: l, hl =>
      have e := one a c b d ((hl.2 a b).1 (by simp)) ((hl.2 c d).1 (by simp))
      have := hl.1
      rw [e] at this
      simp at this
  rcases key h with rfl | ⟨⟨a, b⟩, rfl⟩
  · refine ⟨?_, by simp⟩
    rcases key h' with rfl | ⟨⟨a, b⟩, rfl⟩
    · rfl
    · have := (h.2 a b).2 ((h'.2 a b).1 (by simp))
      cases this
  · refine ⟨?_, by simp⟩
    have h1 := (h'.2 a b).2 ((h.2 a b).1 (by simp))
    rcases key h' with rfl | ⟨x, rfl⟩
    · cases h1
    · rw [List.mem_singleton.1 h1]

theorem values_go_length (l : List (Idx × Idx)) : ∀ seen, (AMap.values.go seen l).length ≤ l.length := by
  induction l with
  | nil => intro seen; exact Nat.le_refl _
  | cons x l ih =>
    intro seen
    obtain ⟨k, v⟩ := x
    unfold AMap.values.go
    split
    · have := ih seen; simp; omega
    · have := ih (k :: seen); simp; omega

theorem cloneLocals_length (parent : Idx) : ∀ (is : List Idx) (p : ConstantPool) (m : AMap Idx Idx) {m' : AMap Idx Idx} {p' : ConstantPool},
    cloneLocals p parent is m = some (m', p') → m'.entries.length = m.entries.length + is.length
  | [], _, _, _, _, h => by cases h; rfl
  | i :: is, p, m, m', p', h => by
    unfold cloneLocals at h
    cases hd : p.definition i with
    | none => rw [hd] at h; cases h
    | some d =>
      rw [hd] at h
      rw [cloneLocals_length parent is _ _ h]
      simp [AMap.insert]
      omega

theorem perm_few {l l' : List Idx} (h : l'.Perm l) (hl : l.length ≤ 1) : l' = l := by
  match l, hl with
  | [], _ => exact List.perm_nil.1 h
  | [x], _ => exact List.perm_singleton.1 h

theorem remapLocals_orders {ord ord' : List Idx → List Idx} (h : ∀ l, (ord l).Perm l) (h' : ∀ l, (ord' l).Perm l) {p : ConstantPool} {proxy target : Idx}
    (few : ∀ fn, p.function target = some fn → fn.locals.length ≤ 1) : remapLocals ord' p proxy target = remapLocals ord p proxy target := by
  unfold remapLocals
  split
  · rfl
  · next fn hf =>
    split
    · rfl
    · next m p1 hm =>
      have h1 := cloneLocals_length _ _ _ _ hm
      have h2 := values_go_length m.entries []
      have h3 := few fn hf
      have h4 : m.values.length ≤ 1 := by
        have : (AMap.empty : AMap Idx Idx).entries.length = 0 := rfl
        show (AMap.values.go [] m.entries).length ≤ 1
        omega
      rw [perm_few (h _) h4, perm_few (h' _) h4]

theorem swapAll_orders {ord ord' : List Idx → List Idx} (h : ∀ l, (ord l).Perm l) (h' : ∀ l, (ord' l).Perm l) {p : ConstantPool} {l : List (Idx × Idx)}
    (hl : l.length ≤ 1) (few : ∀ x ∈ l, ∀ fn, p.function x.1 = some fn → fn.locals.length ≤ 1) : swapAll ord' l p = swapAll ord l p := by
  match l, hl with
  | [], _ => rfl
  | [(f, r)], _ =>
    have few := few (f, r) (List.mem_singleton.2 rfl)
    have e : swapProxy ord' p f r = swapProxy ord p f r := by
      unfold swapProxy
      cases p.definition f with
      | none => rfl
      | some dw =>
        cases p.definition r with
        | none => rfl
        | some dp =>
          simp only
          cases hm : p.modifyValue (AnyDefinition.onFunction fun f =>
              { f with flags := setFlag FunctionFlags.isCallbackBit false f.flags }) f with
          | none => rfl
          | some p1 =>
            have : remapLocals ord' p1 r f = remapLocals ord p1 r f := by
              refine remapLocals_orders h h' fun fn hfn => ?_
              obtain ⟨d, v, m1, m2, m3, _⟩ := modifyValue_spec hm
              have m1 : p.definitions[f.toNat]? = some d := m1
              have m3 : p1.definitions[f.toNat]? = some { d with value := v } := m3
              unfold ConstantPool.function ConstantPool.definitionBy at hfn
              rw [m3] at hfn
              cases hv : d.value with
              | Function g =>
                rw [hv] at m2
                cases m2
                cases hfn
                refine few g ?_
                unfold ConstantPool.function ConstantPool.definitionBy
                rw [m1]
                exact congrArg AnyDefinition.asFunction hv
              | _ => rw [hv] at m2; cases m2
            simp only [this]
    unfold swapAll
    rw [e]
    rfl

/-- C75, as far as it holds: when the wrappers of the sources are all around one function, which has at most one local and
no new body in the sources, every run gives the same diagnostics, the same references and the same pool.
Missing: sources that wrap several functions, or a function with several locals; see the counterexample. -/
theorem C75_every_run_gives_the_same_partial {B B' : Back} {depth fuel : Nat} {ms : List SourceModule} {p : ConstantPool} {s : DeclState} {out : UnitOutput}
    (h : CleanCompile B depth fuel ms p s out) (hb : SameBut B B') (hf : OneSmallTarget ms s) : B'.compile depth fuel ms p = .ok out := by
  obtain ⟨s0, hs, hd⟩ := h.declared
  obtain ⟨_, _, ws, bodies, p1, p2, p3, p4, ds0, r3, r4, r5, r6, r7, r8, _, fs, ds, pb, c1, c2, c3, c4, c5⟩ :=
    compile_run h.table h.methods h.locals h.types h.plain hs hd h.laws h.compiled
      h.diagnostics (fun refs p4 hc => by rw [← cleanupPool_size hc]; exact h.room) h.texts
  have inv := r5.inv
  have ht : ∀ g g', IsTarget ws g → IsTarget ws g' → g = g' := by
    rintro g g' ⟨w, hw, rfl⟩ ⟨w', hw', rfl⟩
    obtain ⟨e, he, hew⟩ := r3.mem_right hw
    obtain ⟨e', he', hew'⟩ := r3.mem_right hw'
    exact hf.one e he e' he' w w' hew hew'
  have o1 : ∀ g g' w v, s.wrappers.get g = some w → s.wrappers.get g' = some v → g = g' := fun g g' w v h1 h2 =>
    ht g g' ((inv.target_iff g).2 ⟨w, h1⟩) ((inv.target_iff g').2 ⟨v, h2⟩)
  have tp : ∀ g r, s.proxies.get g = some r → IsTarget ws g := fun g r h1 => (inv.target_iff g).2 ((inv.both g).2 ⟨r, h1⟩)
  have o2 : ∀ g g' w v, s.proxies.get g = some w → s.proxies.get g' = some v → g = g' := fun g g' w v h1 h2 =>
    ht g g' (tp g w h1) (tp g' v h2)
  have e1 := (ListsMap.unique (hb.lists s.wrappers) (h.laws.lists s.wrappers) o1).1
  obtain ⟨e2, e3⟩ := ListsMap.unique (h.laws.lists s.proxies) (hb.lists s.proxies) o2
  have hfew : ∀ x ∈ B.drain s.proxies, ∀ fn, p3.function x.1 = some fn → fn.locals.length ≤ 1 := by
    intro x hx fn hfn
    have hg := ((h.laws.lists s.proxies).2 x.1 x.2).1 hx
    have hT := tp _ _ hg
    obtain ⟨d, g, t1, t2, _, _, t5⟩ := r5.target_kept hT
    obtain ⟨w, hw, hwt⟩ := hT
    obtain ⟨e, he, hew⟩ := r3.mem_right hw
    generalize x.1 = f at hfn t1 t5 hwt
    subst hwt
    rw [withBodies_none fun c hc i => by
      obtain ⟨b, hb', hbw⟩ := r7.mem_right hc
      exact hf.own e he w hew b hb' (hbw.index.symm.trans i)] at t5
    have t1 : p1.definition w.target = some d := t1
    have hs1 : s.pool.definition w.target = some d := by
      have hlt := definition_lt t1
      rw [r4.size] at hlt
      have z : s.pool.definition w.target = some s.pool.definitions[w.target.toNat] := List.getElem?_eq_getElem hlt
      rcases r4.defs _ _ z with z1 | ⟨_, _, _, z1⟩
      · rw [t1] at z1; cases z1; exact z
      · rw [t1] at z1; cases z1; cases t2
    refine hf.locals e he w hew fn ?_
    unfold ConstantPool.function ConstantPool.definitionBy at hfn ⊢
    have t5 : p3.definitions[w.target.toNat]? = some d := t5
    have hs1 : s.pool.definitions[w.target.toNat]? = some d := hs1
    rw [t5] at hfn
    rw [hs1]
    exact hfn
  have e4 : swapAll B'.ord (B'.drain s.proxies) p3 = .ok p4 := by
    rw [← e2, swapAll_orders h.laws.perm hb.perm e3 hfew]
    exact c4
  rw [hb.eq]
  unfold Back.compile Back.compileRest Back.finish
  simp only [hs, hd, r6, e1, c1, compileBodies_orders, c2, installAll_orders, c3, e4, r8]
  rw [← c5]

/-- C75: without wrappers in the sources every run gives the same. -/
theorem C75_without_wrappers {B B' : Back} {depth fuel : Nat} {ms : List SourceModule} {p : ConstantPool} {s : DeclState} {out : UnitOutput}
    (h : CleanCompile B depth fuel ms p s out) (hb : SameBut B B') (hw : wrapEntries ms = []) : B'.compile depth fuel ms p = .ok out :=
  C75_every_run_gives_the_same_partial h hb ⟨by simp [hw], by simp [hw], by simp [hw]⟩

end Redscript
