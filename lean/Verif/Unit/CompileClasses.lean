import Verif.Unit.CompileProps
import Verif.Unit.CleanupProps

/-!
# The classes of a compiled program

Between the declarations and the reordering of the classes, no base of a class changes. The reordering does not depend on
the bound of its loops, once it is large enough.
-/

namespace Redscript

/-! ## Bases -/

/-- The definition is that of a class with this base. -/
def Definition.HasBase (d : Definition) (b : Idx) : Prop := ∃ c, d.value = .Class c ∧ c.base = b

/-- The bases of the classes of the second pool are bases in the first one. -/
def BasesFrom (p p' : ConstantPool) : Prop := ∀ b, (∃ d ∈ p'.definitions, d.HasBase b) → ∃ d ∈ p.definitions, d.HasBase b

namespace BasesFrom

theorem refl (p : ConstantPool) : BasesFrom p p := fun _ h => h

theorem trans {p p' p'' : ConstantPool} (h : BasesFrom p p') (k : BasesFrom p' p'') : BasesFrom p p'' := fun b hb => h b (k b hb)

theorem of {p p' : ConstantPool} (h : ∀ d ∈ p'.definitions, ∀ b, d.HasBase b → ∃ d ∈ p.definitions, d.HasBase b) : BasesFrom p p' :=
  fun b ⟨d, hd, hb⟩ => h d hd b hb

theorem set {p p' : ConstantPool} {i : Nat} {d : Definition} (h : p'.definitions = p.definitions.set i d)
    (hd : ∀ b, d.HasBase b → ∃ e ∈ p.definitions, e.HasBase b) : BasesFrom p p' := .of fun e he b hb => by
  rw [h] at he
  rcases List.mem_or_eq_of_mem_set he with he | rfl
  · exact ⟨e, he, hb⟩
  · exact hd b hb

theorem push {p p' : ConstantPool} {d : Definition} (h : p'.definitions = p.definitions ++ [d])
    (hd : ∀ b, d.HasBase b → ∃ e ∈ p.definitions, e.HasBase b) : BasesFrom p p' := .of fun e he b hb => by
  rw [h] at he
  rcases List.mem_append.1 he with he | he
  · exact ⟨e, he, hb⟩
  · rw [List.mem_singleton.1 he] at hb
    exact hd b hb

end BasesFrom

theorem Definition.HasBase.notFunction {d : Definition} {b : Idx} {f : FunctionDef} (h : d.HasBase b) (hf : d.value = .Function f) : False := by
  obtain ⟨c, h1, _⟩ := h
  rw [hf] at h1; cases h1

theorem definition_mem {p : ConstantPool} {i : Idx} {d : Definition} (h : p.definition i = some d) : d ∈ p.definitions :=
  List.mem_of_getElem? h

theorem FieldsOnly.bases {p p' : ConstantPool} (h : FieldsOnly p p') (hl : p.definitions.length ≤ 2 ^ 32) : BasesFrom p p' := .of fun d hd b hb => by
  obtain ⟨i, hi⟩ := List.getElem?_of_mem hd
  have hlt : i < p.definitions.length := by rw [← h.size]; exact (List.getElem?_eq_some_iff.1 hi).1
  have hx : (BitVec.ofNat 32 i).toNat = i := by simp; omega
  have h1 : p.definition (BitVec.ofNat 32 i) = some p.definitions[i] := by
    unfold ConstantPool.definition; rw [hx]; exact List.getElem?_eq_getElem hlt
  have h2 : p'.definition (BitVec.ofNat 32 i) = some d := by
    unfold ConstantPool.definition; rw [hx]; exact hi
  rcases h.defs _ _ h1 with h3 | ⟨f, f', _, h3⟩
  · rw [h2] at h3; cases h3
    exact ⟨_, List.getElem_mem hlt, hb⟩
  · rw [h2] at h3; cases h3
    obtain ⟨c, h4, _⟩ := hb
    cases h4

theorem modifyValue_bases {p p' : ConstantPool} {g : AnyDefinition → Option AnyDefinition} {i : Idx} (h : p.modifyValue g i = some p')
    (hg : ∀ v c', g v = some (.Class c') → ∃ c, v = .Class c ∧ c.base = c'.base) : BasesFrom p p' := by
  unfold ConstantPool.modifyValue at h
  cases hd : p.definitions[i.toNat]? with
  | none => rw [hd] at h; cases h
  | some d =>
    rw [hd] at h
    simp only [Option.bind_some] at h
    cases hv : g d.value with
    | none => rw [hv] at h; cases h
    | some v =>
      rw [hv] at h
      cases h
      refine .set rfl fun b ⟨c', h1, h2⟩ => ?_
      have h1 : v = .Class c' := h1
      subst h1
      obtain ⟨c, h3, h4⟩ := hg _ _ hv
      exact ⟨d, List.mem_of_getElem? hd, c, h3, h4.trans h2⟩

theorem onFunction_class {g : FunctionDef → FunctionDef} (v : AnyDefinition) (c' : ClassDef) (h : AnyDefinition.onFunction g v = some (.Class c')) :
    ∃ c, v = .Class c ∧ c.base = c'.base := by
  unfold AnyDefinition.onFunction at h
  split at h <;> cases h

theorem cloneParams_bases : ∀ (is : List Idx) (p : ConstantPool) {params : List Idx} {p' : ConstantPool},
    cloneParams p is = some (params, p') → BasesFrom p p'
  | [], p, params, p', h => by cases h; exact .refl _
  | i :: is, p, params, p', h => by
    unfold cloneParams at h
    cases hd : p.definition i with
    | none => rw [hd] at h; cases h
    | some d =>
      rw [hd] at h
      simp only [Option.bind_some] at h
      cases hc : cloneParams (p.addDefinition d).2 is with
      | none => rw [hc] at h; cases h
      | some r =>
        rw [hc] at h
        cases h
        exact (BasesFrom.push (p := p) rfl fun b hb => ⟨d, definition_mem hd, hb⟩).trans (cloneParams_bases is _ (params := r.1) (p' := r.2) hc)

theorem constructProxy_bases {q : AsmEnv} {p p' : ConstantPool} {r f w : Idx} (h : constructProxy q p r f w = .ok p') : BasesFrom p p' := by
  unfold constructProxy at h
  split at h
  · cases h
  · split at h
    · cases h
    · split at h
      · cases h
      · next hc =>
        have h1 := cloneParams_bases _ _ hc
        split at h
        · cases h
        · simp only at h
          split at h
          · cases h
          · next hp =>
            unfold ConstantPool.putDefinition at hp
            split at hp
            · cases hp
              refine h1.trans ?_
              split at h
              · cases h
                exact .set rfl fun b hb => (hb.notFunction rfl).elim
              · split at h
                · cases h
                · next hpush =>
                  cases h
                  refine (BasesFrom.set rfl fun b hb => (hb.notFunction rfl).elim).trans (modifyValue_bases hpush fun v c' e => ?_)
                  unfold AnyDefinition.onClass at e
                  split at e
                  · cases e; exact ⟨_, rfl, rfl⟩
                  · cases e
            · cases hp

theorem constructAll_bases {q : AsmEnv} {proxies : AMap Idx Idx} : ∀ (ps : List (Idx × Idx)) {a b : ConstantPool},
    constructAll q proxies ps a = .ok b → BasesFrom a b
  | [], a, b, h => by cases h; exact .refl _
  | (g, v) :: ps, a, b, h => by
    unfold constructAll at h
    split at h
    · cases h
    · split at h
      · cases h
      · next hc => exact (constructProxy_bases hc).trans (constructAll_bases ps h)

theorem Grown.bases {p p' : ConstantPool} (h : Grown p p') : BasesFrom p p' := .of fun d hd b hb => by
  obtain ⟨⟨new, h1, h2⟩, _⟩ := h
  rw [h1] at hd
  rcases List.mem_append.1 hd with hd | hd
  · exact ⟨d, hd, hb⟩
  · obtain ⟨c, h3, _⟩ := hb
    have := h2 d hd
    rw [h3] at this; cases this

theorem installAll_bases {B : Back} (hB : ∀ f p, Grown p (B.assembled f p)) : ∀ {fs : List CompiledFn} {p p' : ConstantPool},
    B.installAll fs p = .ok p' → BasesFrom p p'
  | [], p, p', h => by cases h; exact .refl _
  | f :: fs, p, p', h => by
    unfold Back.installAll at h
    split at h
    · cases h
    · split at h
      · cases h
      · next p1 h1 =>
        refine ((hB f p).bases.trans ?_).trans (installAll_bases hB h)
        unfold installBody at h1
        split at h1
        · cases h1
        · next hm => cases h1; exact modifyValue_bases hm onFunction_class

theorem cloneLocals_bases {parent : Idx} : ∀ (ls : List Idx) (p : ConstantPool) (m : AMap Idx Idx) {m' : AMap Idx Idx} {p' : ConstantPool},
    cloneLocals p parent ls m = some (m', p') → BasesFrom p p'
  | [], p, m, m', p', h => by cases h; exact .refl _
  | l :: ls, p, m, m', p', h => by
    unfold cloneLocals at h
    cases hd : p.definition l with
    | none => rw [hd] at h; cases h
    | some d =>
      rw [hd] at h
      exact (BasesFrom.push (p := p) (d := { d with parent }) rfl fun b hb => ⟨d, definition_mem hd, hb⟩).trans (cloneLocals_bases ls _ _ h)

theorem rename_bases {p p' : ConstantPool} {i n : Idx} (h : p.rename i n = .ok p') : BasesFrom p p' := by
  unfold ConstantPool.rename at h
  split at h
  · next d hd => cases h; exact .set rfl fun b hb => ⟨d, List.mem_of_getElem? hd, hb⟩
  · cases h

theorem swapProxy_bases {ord : List Idx → List Idx} {p p' : ConstantPool} {f r : Idx} (h : swapProxy ord p f r = .ok p') : BasesFrom p p' := by
  unfold swapProxy at h
  split at h
  · split at h
    · cases h
    · next p1 hm =>
      refine (modifyValue_bases hm onFunction_class).trans ?_
      split at h
      · cases h
      · next p2 hr =>
        have h2 : BasesFrom p1 p2 := by
          unfold remapLocals at hr
          split at hr
          · cases hr
          · split at hr
            · cases hr
            · next hc =>
              have h1 := cloneLocals_bases _ _ _ hc
              split at hr
              · cases hr
              · split at hr
                · cases hr
                · next hm2 =>
                  cases hr
                  exact h1.trans (modifyValue_bases hm2 onFunction_class)
        refine h2.trans ?_
        split at h
        · cases h
        · next hr1 =>
          refine (rename_bases hr1).trans ?_
          split at h
          · cases h
          · next hr2 =>
            refine (rename_bases hr2).trans ?_
            split at h
            · cases h
            · next hs =>
              cases h
              unfold ConstantPool.swapDefinition at hs
              split at hs
              · next a b ha hb =>
                cases hs
                refine .of fun d hd c hc => ?_
                rcases List.mem_or_eq_of_mem_set hd with hd | rfl
                · rcases List.mem_or_eq_of_mem_set hd with hd | rfl
                  · exact ⟨d, hd, hc⟩
                  · exact ⟨_, List.mem_of_getElem? hb, hc⟩
                · exact ⟨_, List.mem_of_getElem? ha, hc⟩
              · cases hs
  · cases h

theorem swapAll_bases {ord : List Idx → List Idx} : ∀ (ps : List (Idx × Idx)) {p p' : ConstantPool},
    swapAll ord ps p = .ok p' → BasesFrom p p'
  | [], p, p', h => by cases h; exact .refl _
  | (f, r) :: ps, p, p', h => by
    unfold swapAll at h
    split at h
    · cases h
    · next hc => exact (swapProxy_bases hc).trans (swapAll_bases ps h)

/-! ## Bounds -/

/-- What a computation with a bound gives stays when the bound is raised. -/
def Settled (f : Nat → Except CleanupErr α) : Prop := ∀ n r, f n = .ok r → ∀ m, n ≤ m → f m = .ok r

theorem Settled.const (r : Except CleanupErr α) : Settled fun _ => r := fun _ _ h _ _ => h

theorem Settled.bind {f : Nat → Except CleanupErr α} {g : Nat → α → Except CleanupErr β} (hf : Settled f) (hg : ∀ a, Settled (g · a)) :
    Settled fun n => f n >>= g n := fun n r h m hm => by
  cases hx : f n with
  | error e => simp only [hx] at h; cases h
  | ok a =>
    simp only [hx] at h
    simp only [hf n a hx m hm]
    exact hg a n r h m hm

theorem Settled.foldlM {f : Nat → β → α → Except CleanupErr β} (hf : ∀ b a, Settled (f · b a)) : ∀ (l : List α) (b : β),
    Settled fun n => l.foldlM (f n) b
  | [], b => .const _
  | a :: l, b => by
    simp only [List.foldlM_cons]
    exact .bind (hf b a) fun b' => Settled.foldlM hf l b'

theorem Settled.mapM {f : Nat → α → Except CleanupErr β} (hf : ∀ a, Settled (f · a)) : ∀ (l : List α), Settled fun n => l.mapM (f n)
  | [] => by simp only [List.mapM_nil]; exact .const _
  | a :: l => by
    simp only [List.mapM_cons]
    exact .bind (hf a) fun b => .bind (Settled.mapM hf l) fun _ => .const _

theorem Settled.ite {c : Prop} [Decidable c] {f g : Nat → Except CleanupErr α} (hf : Settled f) (hg : Settled g) :
    Settled fun n => if c then f n else g n := by
  by_cases h : c
  · simpa only [if_pos h] using hf
  · simpa only [if_neg h] using hg

theorem collectSubtypes_settled (p : ConstantPool) : ∀ n i acc r, collectSubtypes p n i acc = .ok r → ∀ m, n ≤ m → collectSubtypes p m i acc = .ok r
  | 0, _, _, _, h, _, _ => by cases h
  | n + 1, i, acc, r, h, 0, hm => by omega
  | n + 1, i, acc, r, h, m + 1, hm => by
    unfold collectSubtypes at h ⊢
    have go : ∀ (l : List Idx) acc r, l.foldlM (fun acc s => collectSubtypes p n s acc) acc = .ok r →
        l.foldlM (fun acc s => collectSubtypes p m s acc) acc = .ok r := by
      intro l
      induction l with
      | nil => exact fun _ _ h => h
      | cons a l ih =>
        intro acc r h
        simp only [List.foldlM_cons] at h ⊢
        cases hx : collectSubtypes p n a acc with
        | error e => rw [hx] at h; cases h
        | ok b =>
          rw [hx] at h
          rw [collectSubtypes_settled p n a acc b hx m (by omega)]
          exact ih _ _ h
    exact go _ _ _ h

theorem climbPast_settled (p : ConstantPool) (x : Idx) : ∀ n cur r, climbPast p x n cur = .ok r → ∀ m, n ≤ m → climbPast p x m cur = .ok r
  | 0, _, _, h, _, _ => by cases h
  | n + 1, cur, r, h, 0, hm => by omega
  | n + 1, cur, r, h, m + 1, hm => by
    unfold climbPast at h ⊢
    split at h
    · split at h
      · next hb => rw [if_pos hb]; exact climbPast_settled p x n _ _ h m (by omega)
      · next hb => rw [if_neg hb]; exact h
    · exact h

theorem climbOutside_settled (p : ConstantPool) (x : Idx) (u : List Idx) : ∀ n cur r, climbOutside p x u n cur = .ok r →
    ∀ m, n ≤ m → climbOutside p x u m cur = .ok r
  | 0, _, _, h, _, _ => by cases h
  | n + 1, cur, r, h, 0, hm => by omega
  | n + 1, cur, r, h, m + 1, hm => by
    unfold climbOutside at h ⊢
    split at h
    · split at h
      · next hb => rw [if_pos hb]; exact climbOutside_settled p x u n _ _ h m (by omega)
      · next hb => rw [if_neg hb]; exact h
    · exact h

theorem supertypeCount_settled (p : ConstantPool) : ∀ n i r, supertypeCount p n i = .ok r → ∀ m, n ≤ m → supertypeCount p m i = .ok r
  | 0, _, _, h, _, _ => by cases h
  | n + 1, i, r, h, 0, hm => by omega
  | n + 1, i, r, h, m + 1, hm => by
    unfold supertypeCount at h ⊢
    split
    · next hi => rw [if_pos hi] at h; exact h
    · next hi =>
      rw [if_neg hi] at h
      split at h
      · cases h
      · next b _ =>
        cases hx : supertypeCount p n b with
        | error e => rw [hx] at h; cases h
        | ok k =>
          rw [hx] at h
          rw [supertypeCount_settled p n b k hx m (by omega)]
          exact h

theorem cleanupPool_settled (p : ConstantPool) (refs : List SourceRef) : Settled fun n => cleanupPool n p refs := by
  have h1 : Settled fun n => unsortedClasses p n := by
    refine .bind (f := fun n => (p.indexed.map (·.1)).foldlM (firstPass p n) []) (.foldlM (fun acc x => ?_) _ _) fun u => ?_
    · exact .bind (f := fun n => climbPast p x n x) (fun n r => climbPast_settled p x n x r) fun cur =>
        .ite (fun n r => collectSubtypes_settled p n cur acc r) (.const _)
    · cases u with
      | nil => exact .const _
      | cons a u =>
        exact .foldlM (fun acc x => .bind (f := fun n => climbOutside p a acc n x) (fun n r => climbOutside_settled p a acc n x r) fun cur =>
          .ite (fun n r => collectSubtypes_settled p n cur acc r) (.const _)) _ _
  have h2 : ∀ u, Settled fun n => sortedClasses p n u := fun u =>
    .bind (f := fun n => u.mapM fun i => do let k ← supertypeCount p n i; .ok (k, i)) (.mapM (f := fun n i => do let k ← supertypeCount p n i; .ok (k, i))
      (fun i => .bind (f := fun n => supertypeCount p n i) (fun n r => supertypeCount_settled p n i r) fun _ => .const _) u) fun _ => .const _
  exact .bind h1 fun u => .bind (h2 u) fun _ => .const _

theorem cleanupPool_raise {p : ConstantPool} {refs : List SourceRef} {fuel fuel' : Nat} {r : ConstantPool × List SourceRef}
    (h : cleanupPool fuel p refs = .ok r) (hf : fuel ≤ fuel') : cleanupPool fuel' p refs = .ok r := cleanupPool_settled p refs fuel r h fuel' hf

theorem cleanupPool_size {fuel : Nat} {p p' : ConstantPool} {refs refs' : List SourceRef} (h : cleanupPool fuel p refs = .ok (p', refs')) :
    p'.definitions.length = p.definitions.length := by
  have hput : ∀ (l : List (Definition × Idx)) (p p' : ConstantPool), l.foldlM putClass p = .ok p' → p'.definitions.length = p.definitions.length := by
    intro l
    induction l with
    | nil => intro p p' h; cases h; rfl
    | cons x l ih =>
      intro p p' h
      rw [List.foldlM_cons] at h
      cases hx : putClass p x with
      | error e => rw [hx] at h; cases h
      | ok q =>
        rw [hx] at h
        rw [ih q p' h]
        unfold putClass at hx
        split at hx
        · next hq => cases hx; exact putDefinition_size hq
        · cases hx
  unfold cleanupPool at h
  cases hu : unsortedClasses p fuel with
  | error e => rw [hu] at h; cases h
  | ok u =>
    rw [hu] at h
    simp only [bind, Except.bind] at h
    split at h
    · cases h
    · split at h
      · cases h
      · split at h
        · cases h
        · next hp =>
          have h1 := hput _ _ _ hp
          split at h
          · cases h; exact h1
          · cases h
            rw [← h1]
            simp [ConstantPool.mapRefs]

/-! ## Compilation -/

theorem compile_run {p : ConstantPool} (hn : p.names.Reachable Strings.cnameDefault) (hm : MethodsSound p)
    (hloc : LocalsSound p) (ht : TypeShape p) {B : Back} {depth fuel : Nat} {ms : List SourceModule}
    (hp : ∀ m ∈ ms, ∀ e ∈ m.entries, e.Plain) {s s' : DeclState} (hs : DeclState.ofPool p = some s)
    (hd : declareModules depth false ms s = (.ok (), s')) (hB : B.Laws s'.bodies) {out : UnitOutput} (hc : B.compile depth fuel ms p = .ok out)
    (hdiag : ∀ d ∈ out.diagnostics, d.isFatal = false ∧ d.isConflict = false)
    (hl : ∀ refs p4, cleanupPool fuel p4 refs = .ok (out.pool, out.refs) → p4.definitions.length < 2 ^ 32)
    (hl' : s'.pool.names.strings.length + (B.drain s'.wrappers).length + 1 < 2 ^ 32) :
    s'.diagnostics = [] ∧ (s'.bodies.map (·.index)).Nodup ∧ ∃ ws bodies p1 p2 p3 p4 ds0,
      Each2 (WrapperFor s' (ms.filterMap (·.path))) ((ms.flatMap (·.enabled (ms.filterMap (·.path)))).filter (·.2.isWrap)) ws ∧
      FieldsOnly s'.pool p1 ∧
      WrapRun B.proxy p ws ⟨p1, s'.wrappers, s'.proxies⟩ bodies p2 p3 p4 ∧
      compileDefaults B.display (B.defaults s'.pool) s'.defaults s'.pool = .ok (ds0, p1) ∧ Each2 (BodyDone B p2) s'.bodies bodies ∧
      cleanupPool fuel p4 s'.refs = .ok (out.pool, out.refs) ∧ BasesFrom p1 p4 ∧
      ∃ fs ds pb, constructAll B.proxy s'.proxies (B.drain s'.wrappers) p1 = .ok p2 ∧ B.compileBodies s'.bodies p2 = .ok (fs, ds, pb) ∧
        B.installAll fs pb = .ok p3 ∧ swapAll B.ord (B.drain s'.proxies) p3 = .ok p4 ∧
        out.diagnostics = sortDiagnostics (s'.diagnostics.map (fun d => d.kind.bare) ++ ds0.map (fun d => d.kind.bare) ++ ds) := by
  obtain ⟨s0, s0', ds0, p1, p2, fs, ds, pb, p3, p4, c1, c2, c3, c4, c5, c6, c7, c8, c9⟩ := compile_cases hc
  rw [hs] at c1; cases c1
  rw [hd] at c2; cases c2
  have hmem : ∀ d, d ∈ s'.diagnostics.map (fun d => d.kind.bare) ++ ds0.map (fun d => d.kind.bare) ++ ds → d.isFatal = false ∧ d.isConflict = false :=
    fun d h => hdiag d (by rw [c9]; exact mem_sortDiagnostics.2 h)
  have hnone : s'.diagnostics = [] := by
    cases hx : s'.diagnostics with
    | nil => rfl
    | cons d l =>
      obtain ⟨h1, h2⟩ := hmem d.kind.bare (by rw [hx]; simp)
      rcases d.serious with h | h
      · rw [h1] at h; cases h
      · rw [h2] at h; cases h
  obtain ⟨g1, g2⟩ := compileBodies_done hB (p0 := p2) (fun _ h => h) (.refl p2) c5 fun d h => (hmem d (List.mem_append_right _ h)).1
  obtain ⟨bodies, g3, g4⟩ := installAll_done hB (g1.installs .nil) c6
  rw [List.nil_append] at g3
  have hdone : Each2 (fun b (w : WrapBody) => BodyDone B p2 b w ∧ LocalsOk pb w.locals) s'.bodies bodies := by
    refine (g2.comp g4).mono ?_
    rintro b w ⟨f, _, ⟨⟨k1, pc, fn, xs, tst, st, k2, k3, k4, k5, k6, k7, k8⟩, k9⟩, k10, k11, pa, others, k12, k13⟩
    exact ⟨⟨k10.trans k1, pc, fn, f.scope, xs, tst, st, f.code, pa, others, k2, k12, k3, localScope_names k4, k5, k6, k7, k13, k11.trans k8⟩, by rw [k11]; exact k9⟩
  have hroom : p4.definitions.length < 2 ^ 32 := hl _ _ c8
  have hz3 := swapAll_size _ c7
  have hz2 := g3.spec.1
  have hz1 := constructAll_size _ c4
  have hfo := compileDefaults_fields c3
  have hdl : s'.pool.definitions.length ≤ 2 ^ 32 := by have := hfo.size; omega
  obtain ⟨qs, s1, seen, h⟩ := declared_loops hn hm.exist ht hs hd hnone hdl (by omega)
  obtain ⟨ws0, hw⟩ := h.wrapping hn hs hp
  obtain ⟨ws, w1, w2⟩ := C73_wrappers_of_a_program hn hm ht hs hp hd hnone hdl (by omega)
  refine ⟨hnone, h.distinctBodies hs, ws, bodies, p1, p2, p3, p4, ds0, w1, hfo, w2 c3 ?_, c3, hdone.mono fun _ _ h => h.1, c8,
    (constructAll_bases _ c4).trans (g1.bases.trans ((installAll_bases hB.assembled c6).trans (swapAll_bases _ c7))), fs, ds, pb, c4, c5, c6, c7, c9⟩
  have hbuilt : ∃ order, ListsMap s'.wrappers order ∧ p1.names.strings.length + order.length + 1 < 2 ^ 32 ∧
      constructAll B.proxy s'.proxies order p1 = .ok p2 := ⟨_, hB.lists _, by rw [hfo.names]; exact hl', c4⟩
  refine ⟨hbuilt, g3, fun w hw => ?_, fun i d fn hi hd hv => ?_, ⟨B.ord, _, hB.perm, hB.lists _, c7⟩, hroom⟩
  · obtain ⟨b, hb, hbw, _⟩ := hdone.mem_right hw
    exact ⟨b, hb, hbw.index.symm⟩
  · have hfew := h.few
    have hd1 : Declared ⟨p, .empty, .empty⟩ ws0 ⟨s'.pool, s'.wrappers, s'.proxies⟩ := by
      rw [hfew.wrappers, hfew.proxies]
      exact .other hw.declared (h.otherWork hn hw)
    have hd2 : Declared ⟨p, .empty, .empty⟩ ws0 ⟨p1, s'.wrappers, s'.proxies⟩ :=
      .other hd1 (hfo.otherWork (st := ⟨s'.pool, s'.wrappers, s'.proxies⟩) (Declared.inv hn rfl hd1) h.second.names)
    have hinv := Declared.inv hn rfl hd2
    have hfun : ∀ w ∈ ws0, ∃ d fn, p1.definition w.target = some d ∧ d.value = .Function fn ∧ ParamsOk p1 fn.parameters ∧ LocalsOk p1 fn.locals := by
      intro w hws
      obtain ⟨x, _, base, f, v, _, _, hmt⟩ := hw.wraps.mem_right hws
      obtain ⟨d, g, h1, h2, h3⟩ := h.targets hm hw hmt
      have h6 := h.targetLocals hloc hm hw hmt h1 h2
      refine ⟨d, g, hfo.keep h1 (by intro f e; rw [h2] at e; cases e), h2, fun j hj => ?_, fun l hl => ?_⟩
      · obtain ⟨dj, fl, h4, h5⟩ := h3 j hj
        exact ⟨dj, fl, hfo.keep h4 (by intro f e; rw [e] at h5; cases h5), h5⟩
      · obtain ⟨dl, v, h4, h5⟩ := h6 l hl
        exact ⟨dl, v, hfo.keep h4 (by intro f e; rw [e] at h5; cases h5), h5⟩
    obtain ⟨hk, _⟩ := proxies_built (p2 := p2) hinv (fun w hw => let ⟨d, fn, h1, h2, h3, _⟩ := hfun w hw; ⟨d, fn, h1, h2, h3⟩) hbuilt (by omega)
    obtain ⟨o, ho⟩ := Option.ne_none_iff_exists'.1 hi
    obtain ⟨w, hws, rfl⟩ := (hinv.target_iff i).2 ⟨o, ho⟩
    obtain ⟨d1, f1, h1, h2, _, h4⟩ := hfun w hws
    have hslot : ∀ j, Wraps.IsSlot ⟨p1, s'.wrappers, s'.proxies⟩ j → ∃ d : Definition, p1.definition j = some d ∧ ∀ v, d.value ≠ .Local v := by
      rintro j ⟨f, hf⟩
      exact ⟨_, (hinv.reserved f j hf).2, fun v e => by cases e⟩
    obtain ⟨ms1, _, h5⟩ := hk.defs _ _ (fun ⟨g, hg⟩ => (hinv.targets w hws).2 g hg) h1
    rw [Definition.addMethods_function h2] at h5
    have h6 := g3.spec.2.1 _ _ h5
    rw [hd] at h6; cases h6
    have hp2 : LocalsOk p2 f1.locals := fun l hl => by
      obtain ⟨dl, v, k1, k2⟩ := h4 l hl
      obtain ⟨ms2, _, k3⟩ := hk.defs l dl (fun hsl => by
        obtain ⟨d', k4, k5⟩ := hslot l hsl
        have k4 : p1.definition l = some d' := k4
        rw [k1] at k4; cases k4
        exact k5 v k2) k1
      refine ⟨_, v, k3, ?_⟩
      unfold Definition.addMethods
      rw [k2]; exact k2
    rcases withBodies_locals h2 hv with e | ⟨b, hb, e⟩
    · rw [e]; exact hp2.installs g3
    · rw [e]
      obtain ⟨_, _, _, k⟩ := hdone.mem_right hb
      obtain ⟨_, g5, _⟩ := installAll_done hB (.nil (p := pb)) c6
      exact k.installs g5

end Redscript
