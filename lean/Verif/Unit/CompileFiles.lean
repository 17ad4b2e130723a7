import Verif.Unit.CompileTheorems
import Verif.Unit.DeclFiles

/-!
# C76: functions record where they are written
-/

namespace Redscript

/-! ## Specification -/

/-- A list of files, each with its path, as defined in the pool. -/
structure FilesListed (p : ConstantPool) (files : List (String × Idx)) : Prop where
  defined : ∀ k e, files[k]? = some e → ∃ d, p.definition e.2 = some d ∧ d.value = .SourceFile ⟨BitVec.ofNat 32 k, 0, e.1⟩
  once : (files.map (·.1)).Nodup

/-- The function at `i` refers to the place. -/
def RecordsPlace (p : ConstantPool) (files : List (String × Idx)) (loc : Option (String × BitVec 32)) (i : Idx) : Prop :=
  ∃ g, p.function i = some g ∧ WrittenAt files loc g.source

/-- The declaration, if it is one of a function or of a class with functions, is found in the pool with references to
the places of the functions; a class may have further ones. -/
def PlacesOf (p : ConstantPool) (files : List (String × Idx)) (mods : List ModulePath) (e : SourceModule × SourceEntry) (i : Idx) : Prop :=
  match e.2 with
  | .Function f => RecordsPlace p files f.declaration.loc i
  | .Class c | .Struct c => ∃ g fs more, p.definitionBy AnyDefinition.asClass i = some g ∧ g.functions = fs ++ more ∧
      Each2 (fun (f : FunctionSource) j => RecordsPlace p files f.declaration.loc j) (methodsOn mods c.members) fs
  | _ => True

/-! ## Proof -/

theorem ofPool_files {p : ConstantPool} {s : DeclState} (hs : DeclState.ofPool p = some s) : s.files = [] := by
  unfold DeclState.ofPool at hs
  simp only [Option.bind_eq_some_iff] at hs
  obtain ⟨m, _, sc, _, hs⟩ := hs
  split at hs <;> cases hs
  rfl

theorem value_function {p : ConstantPool} {i : Idx} {d : Definition} {g : FunctionDef} (hd : p.definition i = some d) (hv : d.value = .Function g) :
    p.function i = some g := by
  have hd : p.definitions[i.toNat]? = some d := hd
  unfold ConstantPool.function ConstantPool.definitionBy
  rw [hd, Option.bind_some, hv]; rfl

section
variable {B : Back} {ms : List SourceModule} {p : ConstantPool} {s : DeclState} {out : UnitOutput} {ws : List WrapSlot} {bodies : List WrapBody}
  {p1 p2 p3 p4 : ConstantPool} {σ : Idx → Idx}

/-- A function keeps its place, wrapped or not. -/
theorem CompileRun.sources (h : CompileRun B ms p s out ws bodies p1 p2 p3 p4 σ) {i : Idx} {g : FunctionDef} (hg : s.pool.function i = some g) :
    σ i = i ∧ ∃ g', out.pool.function i = some g' ∧ g'.source = g.source := by
  obtain ⟨d, hd, hv⟩ : ∃ d, s.pool.definition i = some d ∧ d.value = .Function g := by
    unfold ConstantPool.function ConstantPool.definitionBy at hg
    rw [Option.bind_eq_some_iff] at hg
    obtain ⟨d, hd, hg⟩ := hg
    refine ⟨d, hd, ?_⟩
    unfold AnyDefinition.asFunction at hg
    split at hg
    · next f hf => cases hg; exact hf
    · cases hg
  have hd1 : p1.definition i = some d := h.kept.keep hd (by intro f e; rw [hv] at e; cases e)
  have key : ∃ d' g', p4.definition i = some d' ∧ d'.value = .Function g' ∧ g'.source = g.source := by
    by_cases hw : IsTarget ws i
    · obtain ⟨w, hw⟩ := (h.run.inv.target_iff i).1 hw
      obtain ⟨r, hr⟩ := (h.run.inv.both i).1 ⟨w, hw⟩
      obtain ⟨e, gg, ff, fm, name, params, code, t1, t2, _, _, _, _, _, _, _, _, _, _, t13, _⟩ := h.run.target_after hr hw
      have t1 : p1.definition i = some e := t1
      rw [hd1] at t1; cases t1
      rw [hv] at t2; cases t2
      exact ⟨_, _, t13, rfl, rfl⟩
    · have h4 := (C36_other_functions_are_unaffected h.run hd1 hv hw).1
      obtain ⟨code, locals, e⟩ := withBodies_function i bodies hv
      rw [e] at h4
      exact ⟨_, _, h4, rfl, rfl⟩
  obtain ⟨d', g', k1, k2, k3⟩ := key
  refine ⟨(h.unmoved k1 k2).1, { g' with code := g'.code.map (·.mapRefs σ id) }, value_function (h.unmoved k1 k2).2 ?_, k3⟩
  unfold Definition.mapRefs
  rw [k2]

/-- The definitions of files are not touched. -/
theorem CompileRun.files (h : CompileRun B ms p s out ws bodies p1 p2 p3 p4 σ) {i : Idx} {d : Definition} {f : SourceFileDef}
    (hd : s.pool.definition i = some d) (hv : d.value = .SourceFile f) : out.pool.definition i = some d := by
  have hd1 : p1.definition i = some d := h.kept.keep hd (by intro f e; rw [hv] at e; cases e)
  have ht : ¬ IsTarget ws i := fun ht => by
    obtain ⟨e, fn, t1, t2, _⟩ := h.run.target_kept ht
    have t1 : p1.definition i = some e := t1
    rw [hd1] at t1; cases t1
    rw [hv] at t2; cases t2
  have hs : ¬ Wraps.IsSlot ⟨p1, s.wrappers, s.proxies⟩ i := by
    rintro ⟨f, hf⟩
    have h2 : p1.definition i = _ := (h.run.inv.reserved f i hf).2
    rw [hd1] at h2
    cases h2
    cases hv
  obtain ⟨ms, _, h2⟩ := C36_others_are_unaffected h.run hd1 ht hs
  have e : d.addMethods ms = d := by
    unfold Definition.addMethods
    rw [hv]
  rw [e, withBodies_other i bodies (fun f e => by rw [hv] at e; cases e)] at h2
  have hσ : σ i = i := h.renumbered.fixed i (by
    cases hb : p4.baseOf i with
    | none => rfl
    | some b =>
      obtain ⟨e, c, k1, k2, _⟩ := baseOf_definition hb
      rw [h2] at k1; cases k1
      rw [hv] at k2; cases k2)
  have := h.renumbered.found i
  rw [hσ, h2] at this
  rw [this]
  show some (d.mapRefs σ id) = some d
  unfold Definition.mapRefs
  rw [hv]

theorem CompileRun.places (h : CompileRun B ms p s out ws bodies p1 p2 p3 p4 σ) {N : Scope → Prop} {at_ : Placed} {f : FunctionSource}
    (hf : IsFunction s N at_ f) : RecordsPlace out.pool s.files f.declaration.loc at_.index := by
  obtain ⟨g, h1, ⟨_, _, _, h2⟩, _⟩ := hf
  obtain ⟨_, g', k1, k2⟩ := h.sources h1.function
  exact ⟨g', k1, by rw [k2]; exact h2⟩

theorem CompileRun.classPlaces (h : CompileRun B ms p s out ws bodies p1 p2 p3 p4 σ) {N : Scope → Prop} {mods : List ModulePath} {i : Idx} {path : ModulePath}
    {c : ClassSource} {b : Bool} (hc : IsClass s N mods i path c b) :
    ∃ g fs more, out.pool.definitionBy AnyDefinition.asClass (σ i) = some g ∧ g.functions = fs ++ more ∧
      Each2 (fun (f : FunctionSource) j => RecordsPlace out.pool s.files f.declaration.loc j) (methodsOn mods c.members) fs := by
  obtain ⟨g, own, added, ⟨_, d, hd, _, hv⟩, _, _, _, _, _, _, hf, _⟩ := hc
  have hd1 : p1.definition i = some d := h.kept.keep hd (by intro f e; rw [hv] at e; cases e)
  obtain ⟨more, _, h4⟩ := h.run.classes hd1 hv
  have h5 := h.renumbered.found i
  rw [h4] at h5
  exact ⟨_, g.functions, more, value_asClass h5 rfl, rfl, hf.mono fun f j hj => h.places hj⟩

end

/-- C76: every function of the sources, be it global, a method or added with an annotation, is found in the result with a
reference to the line and the file it is written in. The files are definitions of the result with their paths, one for each
path, numbered from 0. -/
theorem C76_functions_record_their_place {B : Back} {depth fuel : Nat} {ms : List SourceModule} {p : ConstantPool} {s : DeclState} {out : UnitOutput}
    (h : CleanCompile B depth fuel ms p s out) : ∃ files, FilesListed out.pool files ∧
      ∃ is : List Idx, is.Nodup ∧ Each2 (PlacesOf out.pool files (ms.filterMap (·.path))) (ms.flatMap (·.enabled (ms.filterMap (·.path)))) is := by
  obtain ⟨ws, bodies, p1, p2, p3, p4, σ, r⟩ := C74_programs_are_compiled h
  obtain ⟨s0, hs, hd⟩ := h.declared
  obtain ⟨r1, _⟩ := compile_run h.table h.methods h.locals h.types h.plain hs hd h.laws h.compiled
    h.diagnostics (fun refs p4 hc => by rw [← cleanupPool_size hc]; exact h.room) h.texts
  have hlen : s.pool.definitions.length ≤ 2 ^ 32 := by
    obtain ⟨order, _, _, c4⟩ := r.run.built
    obtain ⟨ord, order', _, _, c7⟩ := r.run.exchanged
    have hz3 := swapAll_size _ c7
    have hz2 := r.run.installed.spec.1
    have hz1 : p1.definitions.length ≤ _ := constructAll_size _ c4
    have := r.kept.size
    have := r.run.room
    omega
  have htexts : s.pool.names.strings.length + 1 < 2 ^ 32 := by have := h.texts; omega
  obtain ⟨qs, s1, seen, hloops⟩ := declared_loops h.table h.methods.exist h.types hs hd r1 hlen htexts
  have hfiled := hloops.filed (ofPool_files hs)
  obtain ⟨is, k1, k2⟩ := C61_declarations_reach_the_pool h.table h.methods.exist h.types hs hd r1 hlen htexts
  refine ⟨s.files, ⟨fun k e he => ⟨_, r.files (hfiled.are k e he) rfl, rfl⟩, hfiled.once⟩, is.map σ, ?_, ?_⟩
  · obtain ⟨τ, t1, _⟩ := r.renumbered.inverse
    have : ∀ l : List Idx, l.Nodup → (l.map σ).Nodup := fun l => by
      induction l with
      | nil => intro _; exact List.nodup_nil
      | cons a l ih =>
        intro hl
        rw [List.nodup_cons] at hl
        rw [List.map_cons, List.nodup_cons]
        refine ⟨fun hm => ?_, ih hl.2⟩
        obtain ⟨b, hb, e⟩ := List.mem_map.1 hm
        have e := congrArg τ e
        rw [t1, t1] at e
        exact hl.1 (e ▸ hb)
    exact this is k1
  · have key : ∀ (es : List (SourceModule × SourceEntry)) (is : List Idx),
        Each2 (fun (e : SourceModule × SourceEntry) i => IsDeclared p s (ms.filterMap (·.path)) e.1 e.2 i) es is →
        Each2 (PlacesOf out.pool s.files (ms.filterMap (·.path))) es (is.map σ) := by
      intro es is hes
      induction hes with
      | nil => exact .nil
      | @cons e i _ _ hd _ ih =>
        refine .cons ?_ ih
        obtain ⟨m, e⟩ := e
        cases e with
        | Function f =>
          obtain ⟨at_, rfl, _, hf⟩ := hd
          have h1 := r.places hf
          obtain ⟨g, ⟨_, d, hd, _, hv⟩, _⟩ := hf
          have hσ : σ at_.index = at_.index := (r.sources (value_function hd hv)).1
          show RecordsPlace _ _ _ (σ at_.index)
          rw [hσ]; exact h1
        | Class c => exact r.classPlaces hd.2
        | Struct c => exact r.classPlaces hd.2
        | _ => trivial
    exact key _ _ k2

end Redscript
