import Verif.Pipeline.Props
import Verif.Unit.CompileClasses

/-!
# C74: the theorems
-/

namespace Redscript

/-! ## Specification -/

/-- A compilation without errors and conflicts: of modules `ms` with the definitions of `p`, which ends with `out`; `s` is
what the declarations alone give. -/
structure CleanCompile (B : Back) (depth fuel : Nat) (ms : List SourceModule) (p : ConstantPool) (s : DeclState) (out : UnitOutput) : Prop where
  table : p.names.Reachable Strings.cnameDefault
  methods : MethodsSound p
  locals : LocalsSound p
  types : TypeShape p
  plain : ∀ m ∈ ms, ∀ e ∈ m.entries, e.Plain
  declared : ∃ s0, DeclState.ofPool p = some s0 ∧ declareModules depth false ms s0 = (.ok (), s)
  laws : B.Laws s.bodies
  compiled : B.compile depth fuel ms p = .ok out
  diagnostics : ∀ d ∈ out.diagnostics, d.isFatal = false ∧ d.isConflict = false
  room : out.pool.definitions.length < 2 ^ 32
  texts : s.pool.names.strings.length + (B.drain s.wrappers).length + 1 < 2 ^ 32
  classes : s.pool.ClassesOk
  acyclic : s.pool.AcyclicClasses

/-- What happened in a compilation. The wrappers `ws` are those of the sources. The defaults of fields are put into the pool
(`p1`). Proxies are made (`p2`). Each body is checked without an error, desugared, assembled and put at its own index (`p3`).
Wrapped functions and proxies are exchanged (`p4`), see `C36`. Classes are renumbered, see `C37`. -/
structure CompileRun (B : Back) (ms : List SourceModule) (p : ConstantPool) (s : DeclState) (out : UnitOutput) (ws : List WrapSlot)
    (bodies : List WrapBody) (p1 p2 p3 p4 : ConstantPool) (σ : Idx → Idx) : Prop where
  wrappers : Each2 (WrapperFor s (ms.filterMap (·.path))) ((ms.flatMap (·.enabled (ms.filterMap (·.path)))).filter (·.2.isWrap)) ws
  defaults : ∃ ds, compileDefaults B.display (B.defaults s.pool) s.defaults s.pool = .ok (ds, p1)
  kept : FieldsOnly s.pool p1
  run : WrapRun B.proxy p ws ⟨p1, s.wrappers, s.proxies⟩ bodies p2 p3 p4
  distinct : (s.bodies.map (·.index)).Nodup
  done : Each2 (BodyDone B p2) s.bodies bodies
  renumbered : Renumbered p4 out.pool σ
  stay : ∀ n, p4.BasesFirstBelow n → ∀ i : Idx, i.toNat < n → σ i = i
  references : out.refs = s.refs.map (·.move σ)
  ordered : out.pool.BasesFirst

/-! ## Proof -/

theorem WrapRun.classesOk {q : AsmEnv} {p0 : ConstantPool} {slots : List WrapSlot} {st : Wraps} {bodies : List WrapBody} {p2 p3 p4 : ConstantPool}
    (h : WrapRun q p0 slots st bodies p2 p3 p4) (hb : BasesFrom st.pool p4) (hc : st.pool.ClassesOk) (ha : st.pool.AcyclicClasses) :
    p4.ClassesOk ∧ p4.AcyclicClasses := by
  have fwd : ∀ i b, st.pool.baseOf i = some b → p4.baseOf i = some b := by
    intro i b hi
    obtain ⟨d, c, h1, h2, rfl⟩ := baseOf_definition hi
    obtain ⟨ms, _, h3⟩ := h.classes h1 h2
    exact (definition_baseOf h3 rfl).trans rfl
  have bwd : ∀ i b, p4.baseOf i = some b → ∃ j, st.pool.baseOf j = some b := by
    intro i b hi
    obtain ⟨d, c, h1, h2, h3⟩ := baseOf_definition hi
    obtain ⟨e, he, c', k1, k2⟩ := hb b ⟨d, definition_mem h1, c, h2, h3⟩
    obtain ⟨j, hj⟩ := List.getElem?_of_mem he
    have hlt := (List.getElem?_eq_some_iff.1 hj).1
    have hx : (BitVec.ofNat 32 j).toNat = j := by
      have := hc.size
      simp; omega
    refine ⟨BitVec.ofNat 32 j, ?_⟩
    rw [← k2]
    exact definition_baseOf (d := e) (by unfold ConstantPool.definition; rw [hx]; exact hj) k1
  refine ⟨⟨Nat.le_of_lt h.room, ?_, fun i b hi hb0 => ?_⟩, ?_⟩
  · cases hz : p4.baseOf 0 with
    | none => rfl
    | some b =>
      exfalso
      obtain ⟨d4, c4, z1, z2, _⟩ := baseOf_definition hz
      by_cases ht : IsTarget slots 0
      · obtain ⟨w, hw⟩ := (h.inv.target_iff 0).1 ht
        obtain ⟨r, hr, _⟩ := h.inv.nested 0 w hw
        obtain ⟨d, fn', ff, fm, name, params, code, t1, t2, t3, t4, t5, t6, t7, t8, t9, t10, t11, t12, t13, _⟩ := h.target_after hr hw
        rw [z1] at t13; cases t13; cases z2
      · by_cases hs : st.IsSlot 0
        · obtain ⟨f, hr⟩ := hs
          obtain ⟨w, hw⟩ := (h.inv.both f).2 ⟨_, hr⟩
          obtain ⟨d, fn', ff, fm, name, params, code, t1, t2, t3, t4, t5, t6, t7, t8, t9, t10, t11, t12, t13, t14, _⟩ := h.target_after hr hw
          rw [z1] at t14; cases t14; cases z2
        · obtain ⟨j, hj⟩ := bwd 0 b hz
          obtain ⟨_, _, k1, _⟩ := baseOf_definition hj
          have hlt : 0 < st.pool.definitions.length := by
            have := (List.getElem?_eq_some_iff.1 k1).1
            omega
          have k2 : st.pool.definition 0 = some st.pool.definitions[0] := List.getElem?_eq_getElem hlt
          obtain ⟨ms, _, k3⟩ := C36_others_are_unaffected h k2 ht hs
          rw [z1] at k3
          have k4 : ∀ c, (st.pool.definitions[0]).value ≠ .Class c := fun c e => by
            have := definition_baseOf k2 e
            rw [hc.zero] at this; cases this
          rw [addMethods_other k4] at k3
          by_cases hf : ∃ f, (st.pool.definitions[0]).value = .Function f
          · obtain ⟨f, hf⟩ := hf
            obtain ⟨code, locals, k5⟩ := withBodies_function 0 bodies hf
            rw [k5] at k3; cases k3; cases z2
          · rw [withBodies_other 0 bodies fun f e => hf ⟨f, e⟩] at k3
            cases k3
            exact k4 _ z2
  · obtain ⟨j, hj⟩ := bwd i b hi
    obtain ⟨b', hb'⟩ := hc.base j b hj hb0
    exact ⟨b', fwd b b' hb'⟩
  · obtain ⟨r, hr⟩ := ha
    refine ⟨fun i => match p4.baseOf i with | some b => if b = 0 then 0 else r b + 1 | none => 0, fun i b hi hb0 => ?_⟩
    obtain ⟨j, hj⟩ := bwd i b hi
    obtain ⟨b', hb'⟩ := hc.base j b hj hb0
    simp only [hi, if_neg hb0, fwd b b' hb']
    split
    · omega
    · next hne => exact Nat.succ_lt_succ (hr b b' hb' hne)

theorem Each2.map_eq {R : α → β → Prop} {f : α → γ} {g : β → γ} (hR : ∀ a b, R a b → g b = f a) : ∀ {as : List α} {bs : List β},
    Each2 R as bs → bs.map g = as.map f
  | _, _, .nil => rfl
  | _, _, .cons h hs => by rw [List.map_cons, List.map_cons, hR _ _ h, hs.map_eq hR]

theorem Definition.withBody_function {d : Definition} {f : FunctionDef} (h : d.value = .Function f) (w : WrapBody) :
    d.withBody w = { d with value := .Function { f with code := w.code, locals := w.locals } } := by
  unfold Definition.withBody; rw [h]

theorem withBodies_one {i : Idx} {b : WrapBody} {d : Definition} {f : FunctionDef} (hi : b.index = i) (hf : d.value = .Function f) (bs : List WrapBody) :
    (bs.map (·.index)).Nodup → b ∈ bs → withBodies i bs d = { d with value := .Function { f with code := b.code, locals := b.locals } } := by
  induction bs with
  | nil => intro _ hb; cases hb
  | cons c bs ih =>
    intro hn hb
    rw [List.map_cons, List.nodup_cons] at hn
    rw [withBodies]
    rcases List.mem_cons.1 hb with rfl | hb
    · rw [if_pos hi, withBodies_none fun w hw e => hn.1 (List.mem_map.2 ⟨w, hw, e.trans hi.symm⟩), d.withBody_function hf]
    · rw [if_neg fun e => hn.1 (List.mem_map.2 ⟨b, hb, hi.trans e.symm⟩)]
      exact ih hn.2 hb

/-- C74: a compilation without errors and conflicts does what `CompileRun` says. -/
theorem C74_programs_are_compiled {B : Back} {depth fuel : Nat} {ms : List SourceModule} {p : ConstantPool} {s : DeclState} {out : UnitOutput}
    (h : CleanCompile B depth fuel ms p s out) : ∃ ws bodies p1 p2 p3 p4 σ, CompileRun B ms p s out ws bodies p1 p2 p3 p4 σ := by
  obtain ⟨s0, hs, hd⟩ := h.declared
  obtain ⟨r1, r2, ws, bodies, p1, p2, p3, p4, ds, r3, r4, r5, r6, r7, r8, r9, _⟩ := compile_run h.table h.methods h.locals h.types h.plain hs hd h.laws h.compiled
    h.diagnostics (fun refs p4 hc => by rw [← cleanupPool_size hc]; exact h.room) h.texts
  have hc1 : p1.ClassesOk ∧ p1.AcyclicClasses := by
    have e : ∀ i, p1.baseOf i = s.pool.baseOf i := fun i => by
      cases hb : s.pool.baseOf i with
      | some b =>
        obtain ⟨d, c, k1, k2, rfl⟩ := baseOf_definition hb
        exact definition_baseOf (r4.keep k1 (by intro f e; rw [k2] at e; cases e)) k2
      | none =>
        cases hb1 : p1.baseOf i with
        | none => rfl
        | some b =>
          obtain ⟨d1, c1, k1, k2, rfl⟩ := baseOf_definition hb1
          have hlt := definition_lt k1
          rw [r4.size] at hlt
          have k3 : s.pool.definition i = some s.pool.definitions[i.toNat] := List.getElem?_eq_getElem hlt
          rcases r4.defs i _ k3 with k4 | ⟨f, f', _, k4⟩
          · rw [k1] at k4; cases k4
            rw [definition_baseOf k3 k2] at hb; cases hb
          · rw [k1] at k4; cases k4; cases k2
    refine ⟨⟨by rw [r4.size]; exact h.classes.size, by rw [e]; exact h.classes.zero, fun i b hi hb => ?_⟩, ?_⟩
    · rw [e] at hi ⊢
      exact h.classes.base i b hi hb
    · obtain ⟨r, hr⟩ := h.acyclic
      exact ⟨r, fun i b hi => hr i b (by rw [← e]; exact hi)⟩
  obtain ⟨q1, q2⟩ := r5.classesOk r9 hc1.1 hc1.2
  obtain ⟨N, hN⟩ := C37_classes_follow_their_bases q1 q2 s.refs
  obtain ⟨p', σ, n1, n2, n3, _, n4⟩ := hN (N + fuel) (by omega)
  have this := n1.symm.trans (cleanupPool_raise r8 (fuel' := N + fuel) (by omega))
  have e1 : p' = out.pool := congrArg Prod.fst (Except.ok.inj this)
  have e2 : s.refs.map (·.move σ) = out.refs := congrArg Prod.snd (Except.ok.inj this)
  rw [e1] at n2 n3
  exact ⟨ws, bodies, p1, p2, p3, p4, σ, r3, ⟨ds, r6⟩, r4, r5, r2, r7, n3, n4, e2.symm, n2⟩

section
variable {B : Back} {ms : List SourceModule} {p : ConstantPool} {s : DeclState} {out : UnitOutput} {ws : List WrapSlot} {bodies : List WrapBody}
  {p1 p2 p3 p4 : ConstantPool} {σ : Idx → Idx}

theorem CompileRun.bodyOf (h : CompileRun B ms p s out ws bodies p1 p2 p3 p4 σ) {b : DeclBody} (hb : b ∈ s.bodies) {d : Definition} {g : FunctionDef}
    (hg : d.value = .Function g) : ∃ w ∈ bodies, BodyDone B p2 b w ∧
      withBodies b.index bodies d = { d with value := .Function { g with code := w.code, locals := w.locals } } := by
  obtain ⟨w, hw, hbw⟩ := h.done.mem_left hb
  refine ⟨w, hw, hbw, withBodies_one hbw.index hg bodies ?_ hw⟩
  rw [h.done.map_eq (f := DeclBody.index) (g := WrapBody.index) fun _ _ k => k.index]
  exact h.distinct

theorem CompileRun.unmoved (h : CompileRun B ms p s out ws bodies p1 p2 p3 p4 σ) {i : Idx} {d : Definition} {g : FunctionDef}
    (hd : p4.definition i = some d) (hg : d.value = .Function g) : σ i = i ∧ out.pool.definition i = some (d.mapRefs σ id) := by
  have hσ : σ i = i := h.renumbered.fixed i (by
    cases hb : p4.baseOf i with
    | none => rfl
    | some b =>
      obtain ⟨e, c, k1, k2, _⟩ := baseOf_definition hb
      rw [hd] at k1; cases k1
      rw [hg] at k2; cases k2)
  refine ⟨hσ, ?_⟩
  have := h.renumbered.found i
  rw [hσ, hd] at this
  exact this

/-- C74: a function that is not wrapped ends up with the code that its own body, as written, is compiled to, and with the
locals of that body; everything else of it is as declared. -/
theorem C74_functions_have_their_own_code (h : CompileRun B ms p s out ws bodies p1 p2 p3 p4 σ) {N : Scope → Prop} {at_ : Placed} {f : FunctionSource}
    (hf : IsFunction s N at_ f) {code : List (Expr SourceAst)} (hc : f.body = some code) (hw : ¬ IsTarget ws at_.index) :
    ∃ b w d g, b ∈ s.bodies ∧ b.index = at_.index ∧ b.cls = at_.parent ∧ b.wrapped = at_.wrapped ∧ b.code = code ∧ N b.scope ∧ BodyDone B p2 b w ∧
      s.pool.definition at_.index = some d ∧ d.value = .Function g ∧
      out.pool.definition at_.index = some (({ d with value := .Function { g with code := w.code, locals := w.locals } } : Definition).mapRefs σ id) := by
  obtain ⟨g, ⟨_, d, hd, _, hv⟩, _, _, _, _, _, _, _, _, _, _, _, _, _, _, _, hb⟩ := hf
  obtain ⟨b, hb, b1, b2, b3, b4, _, b5⟩ := hb code hc
  obtain ⟨w, _, hbw, hbody⟩ := h.bodyOf hb hv
  have hd1 : p1.definition at_.index = some d := h.kept.keep hd (by intro f e; rw [hv] at e; cases e)
  have h4 := (C36_other_functions_are_unaffected h.run hd1 hv hw).1
  rw [b1] at hbody
  rw [hbody] at h4
  exact ⟨b, w, d, g, hb, b1, b2, b4, b3, b5, hbw, hd, hv, (h.unmoved h4 rfl).2⟩

/-- C74: a function without a body in the sources that is not wrapped is as it was after the declarations. -/
theorem C74_other_functions_are_kept (h : CompileRun B ms p s out ws bodies p1 p2 p3 p4 σ) {i : Idx} {d : Definition} {g : FunctionDef}
    (hd : s.pool.definition i = some d) (hv : d.value = .Function g) (hb : ∀ b ∈ s.bodies, b.index ≠ i) (hw : ¬ IsTarget ws i) :
    out.pool.definition i = some (d.mapRefs σ id) := by
  have hd1 : p1.definition i = some d := h.kept.keep hd (by intro f e; rw [hv] at e; cases e)
  have h4 := (C36_other_functions_are_unaffected h.run hd1 hv hw).2.1 fun w hw => by
    obtain ⟨b, hb', hbw⟩ := h.done.mem_right hw
    rw [hbw.index]
    exact hb b hb'
  exact (h.unmoved h4 hv).2

/-- C74: the body of a function that is wrapped, too, is compiled: it is found at the index where the original is kept, with
its locals renamed. -/
theorem C74_wrapped_functions_have_their_own_code {V S A : Type} (h : CompileRun B ms p s out ws bodies p1 p2 p3 p4 σ) {b : DeclBody} (hb : b ∈ s.bodies)
    (hw : IsTarget ws b.index) : ∃ w original outermost d g fm name, BodyDone B p2 b w ∧ Nested original (wrappersOf b.index ws) outermost ∧
      s.pool.definition b.index = some d ∧ d.value = .Function g ∧
      out.pool.definition original = some (({ d with name, value := .Function fm } : Definition).mapRefs σ id) ∧
      ∃ ρ : Idx → Idx, (∀ x ∈ w.locals, ∀ y ∈ w.locals, ρ x = ρ y → x = y) ∧ (∀ x, x ∈ fm.locals ↔ ∃ l ∈ w.locals, x = ρ l) ∧
        ∀ (P : PoolView) (I : Interp V S A) (n : Nat) (x : S), runBody fm.code P I n x = runBody w.code P (I.onLocals ρ) n x := by
  obtain ⟨original, outermost, d, ff, fm, name, k1, k2, k3, k4, _, _, ρ, k5, k6, k7⟩ := C36_original_is_kept (V := V) (S := S) (A := A) h.run hw
  have k2 : p1.definition b.index = some d := k2
  obtain ⟨e, fn, t1, t2, _⟩ := h.run.target_kept hw
  have t1 : p1.definition b.index = some e := t1
  rw [k2] at t1; cases t1
  obtain ⟨w, _, hbw, hbody⟩ := h.bodyOf hb t2
  rw [hbody] at k3 k4
  cases k3
  have hd : s.pool.definition b.index = some d := by
    have hlt := definition_lt k2
    rw [h.kept.size] at hlt
    have z : s.pool.definition b.index = some s.pool.definitions[b.index.toNat] := List.getElem?_eq_getElem hlt
    rcases h.kept.defs _ _ z with z1 | ⟨f, f', _, z1⟩
    · rw [k2] at z1; cases z1; exact z
    · rw [k2] at z1; cases z1; cases t2
  exact ⟨w, original, outermost, d, fn, fm, name, hbw, k1, hd, t2, (h.unmoved k4 rfl).2, ρ, k5, k6, k7⟩

/-- C74: such a body went through what `C67` is about, if it was read from the text of a function. -/
theorem C74_bodies_are_compiled_as_text (h : CompileRun B ms p s out ws bodies p1 p2 p3 p4 σ) {F : FloatParse} {b : DeclBody} (hb : b ∈ s.bodies)
    {t : Text} (ht : ∃ n fn rest, functionRule F n t = .ok fn rest ∧ fn.body = some b.code) :
    ∃ w ∈ bodies, w.index = b.index ∧ ∃ pc fn sc pa others xs st st', Grown p2 pc ∧ Installs p2 others pa ∧ pc.function b.index = some fn ∧
      BodyNames b fn pc sc ∧
      BodyCompiled F { B.checker sc pc with permissive := false, symbols := sc.symbols, this := sc.this } (B.desugarer sc (B.checked b pc)) (pa.asmEnv (B.assembler sc pa)) sc.references t b.code xs st st' w.code := by
  obtain ⟨w, hw, hbw⟩ := h.done.mem_left hb
  obtain ⟨pc, fn, sc, xs, tst, st, body, pa, others, k1, k2, k3, k4, k5, k6, k7, k8, _⟩ := hbw.done
  exact ⟨w, hw, hbw.index, pc, fn, sc, pa, others, xs, _, st, k1, k2, k3, k4, ht, ⟨tst, k5, k6⟩, rfl, body, k7, k8⟩

end

end Redscript
