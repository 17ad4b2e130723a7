import Verif.Unit.CompileRestLoops

/-!
# Compiling changes nothing but what it is asked to change
-/

namespace Redscript

/-! ## Specification -/

/-- Some `@wrapMethod` of the sources is for the method `i`: it is a method, with the signature of the source function, of the
class that the annotation names. -/
def AsksToWrap (p : ConstantPool) (ms : List SourceModule) (i : Idx) : Prop :=
  ∃ f a cls, Declares ms (.Function f) ∧ f.placing = some a ∧ a.kind = .WrapMethod ∧ a.Names p cls ∧ MethodOf p cls i ∧
    p.defName i = some f.sig

/-- Some `@wrapMethod` is for a method whose class is `i`. -/
def AsksToWrapIn (p : ConstantPool) (ms : List SourceModule) (i : Idx) : Prop :=
  ∃ f d, AsksToWrap p ms f ∧ p.definition f = some d ∧ d.parent = i

/-- `d'` is the class `d` with new members at the end of its lists, and only such as were asked for. `q` is the pool after the
declarations. -/
def Enlarged (p q : ConstantPool) (ms : List SourceModule) (i : Idx) (d d' : Definition) : Prop :=
  ∃ c fs gs, d.value = .Class c ∧
    d' = { d with value := .Class { c with functions := c.functions ++ fs, fields := c.fields ++ gs } } ∧
    (∀ f ∈ fs, p.definitions.length ≤ f.toNat) ∧ (∀ g ∈ gs, p.definitions.length ≤ g.toNat) ∧
    (fs ≠ [] → MethodsAdded p ms i ∨ AsksToWrapIn q ms i) ∧ (gs ≠ [] → FieldsAdded p ms i)

/-- `d'` is a function with the name of `d`, and a function of the sources asks to replace `d`. -/
def ReplacedBody (p : ConstantPool) (ms : List SourceModule) (i : Idx) (d d' : Definition) : Prop :=
  ∃ f parent g, Declares ms (.Function f) ∧ AsksToReplace p f i parent ∧ d'.name = d.name ∧ d'.value = .Function g

/-- `d'` is the function `d`, which the sources ask to wrap, with other parameters and code: name, class, type, flags and all
else are as before, unless the sources ask to replace the function, too. -/
def WrappedBody (p q : ConstantPool) (ms : List SourceModule) (i : Idx) (d d' : Definition) : Prop :=
  AsksToWrap q ms i ∧ ∃ e fn params code, (e = d ∨ Replaced p ms i d e) ∧ e.value = .Function fn ∧ params.length = fn.parameters.length ∧
    d'.name = d.name ∧ d'.parent = e.parent ∧ d'.value = .Function { fn with code, locals := [], parameters := params }

/-- What can have become of an old definition `d` with the index `i`. -/
def Remains (p q : ConstantPool) (ms : List SourceModule) (i : Idx) (d d' : Definition) : Prop :=
  d' = d ∨ Enlarged p q ms i d d' ∨ ReplacedBody p ms i d d' ∨ WrappedBody p q ms i d d'

/-! ## Proof -/

section
variable {B : Back} {depth fuel : Nat} {ms : List SourceModule} {p : ConstantPool} {s : DeclState} {out : UnitOutput} {ws : List WrapSlot}
  {bodies : List WrapBody} {p1 p2 p3 p4 : ConstantPool} {σ : Idx → Idx}

theorem CompileRun.asksToWrap (h : CompileRun B ms p s out ws bodies p1 p2 p3 p4 σ) {i : Idx} (hi : IsTarget ws i) : AsksToWrap s.pool ms i := by
  obtain ⟨w, hw, rfl⟩ := hi
  obtain ⟨⟨m, e⟩, he, f, a, t, base, e1, e2, e3, e4, e5, e6, _⟩ := h.wrappers.mem_right hw
  obtain ⟨m', hm', he⟩ := List.mem_flatMap.1 (List.mem_filter.1 he).1
  obtain ⟨e', he', heq⟩ := List.mem_map.1 he
  cases heq
  obtain ⟨h1, h2⟩ := List.mem_filter.1 he'
  dsimp only at e1
  subst e1
  exact ⟨f, a, w.parent, ⟨m, hm', h1, by simpa [DeclSource.Enabled] using h2⟩, e2, e3, e4, e5, e6⟩

/-- What becomes of a definition that is neither wrapped nor new. -/
theorem CompileRun.rest (h : CompileRun B ms p s out ws bodies p1 p2 p3 p4 σ) {i : Idx} {d : Definition} (hd : p1.definition i = some d)
    (hfields : ∀ f d, IsTarget ws f → s.pool.definition f = some d → p1.definition f = some d)
    (ht : ¬ IsTarget ws i) (hi : i.toNat < p.definitions.length) :
    ∃ fs, (∀ f ∈ fs, p.definitions.length ≤ f.toNat) ∧ (fs ≠ [] → AsksToWrapIn s.pool ms i) ∧
      p4.definition i = some (withBodies i bodies (d.addMethods fs)) := by
  have hslot : ∀ f r, s.proxies.get f = some r → p.definitions.length ≤ r.toNat := fun f r hr => (h.run.inv.reserved f r hr).1
  have hs : ¬ Wraps.IsSlot ⟨p1, s.wrappers, s.proxies⟩ i := by
    rintro ⟨f, hf⟩
    have := hslot f i hf
    omega
  by_cases hW : AsksToWrapIn s.pool ms i
  · obtain ⟨fs, h1, h2⟩ := C36_others_are_unaffected h.run hd ht hs
    exact ⟨fs, fun f hf => by obtain ⟨g, hg⟩ := h1 f hf; exact hslot g f hg, fun _ => hW, h2⟩
  · refine ⟨[], by simp, by simp, ?_⟩
    rw [d.addMethods_nil]
    obtain ⟨order, ⟨o1, o2⟩, o3, o4⟩ := h.run.built
    have hlen : p2.definitions.length < 2 ^ 32 := by
      obtain ⟨_, _, _, _, o5⟩ := h.run.exchanged
      have := swapAll_size _ o5
      have := h.run.installed.spec.1
      have := h.run.room
      omega
    have hx : ∀ x ∈ order, IsTarget ws x.1 := fun x hx => (h.run.inv.target_iff x.1).2 ⟨x.2, (o2 x.1 x.2).1 hx⟩
    have h2 := constructAll_rest order p1 o4 hlen (i := i) (d := d) (fun x _ hr => hs ⟨_, hr⟩) (fun x hx' => by
      refine ⟨fun y _ hr => h.run.inv.slot_not_target ⟨_, hr⟩ (hx x hx'), ?_⟩
      obtain ⟨e, fn, k1, _⟩ := h.run.target_kept (hx x hx')
      refine ⟨e, k1, fun hp => hW ⟨x.1, e, h.asksToWrap (hx x hx'), ?_, hp⟩⟩
      have k1 : p1.definition x.1 = some e := k1
      have hk := h.kept.size
      obtain ⟨e0, he0⟩ : ∃ e0, s.pool.definition x.1 = some e0 := by
        unfold ConstantPool.definition at k1 ⊢
        have := (List.getElem?_eq_some_iff.1 k1).1
        exact ⟨_, List.getElem?_eq_getElem (by omega)⟩
      have := hfields x.1 e0 (hx x hx') he0
      rw [k1] at this; cases this
      exact he0) hd
    exact h.run.swaps.2.2.2 i _ ht hs (h.run.installed.spec.2.1 _ _ h2)

end

/-- C82: after a compilation without errors, each definition that the bundle had is found again, where the renumbering of the
classes (see `C37`) puts it, with the same references renumbered and the same texts. If in the bundle all classes were behind
their bases, nothing of it is renumbered. It is unchanged, unless the sources ask
for something else: a class that `@addField`, `@addMethod` or `@wrapMethod` is for has new members behind the old ones; a function
that is to be replaced is a function of that name; a method that is to be wrapped has other parameters and code. -/
theorem C82_nothing_else_changes {B : Back} {depth fuel : Nat} {ms : List SourceModule} {p : ConstantPool} {s : DeclState} {out : UnitOutput}
    (h : CleanCompile B depth fuel ms p s out) (hn : AllNamed p) :
    (∀ k t, p.names.get Strings.cnameDefault k = some t → out.pool.names.get Strings.cnameDefault k = some t) ∧
    ∃ σ : Idx → Idx, (∃ τ : Idx → Idx, (∀ i, τ (σ i) = i) ∧ ∀ i, σ (τ i) = i) ∧
      (∀ i d, p.definition i = some d → (∀ c, d.value ≠ .Class c) → σ i = i) ∧
      (p.BasesFirst → ∀ i : Idx, i.toNat < p.definitions.length → σ i = i) ∧
      ∀ i d, p.definition i = some d → ∃ d', out.pool.definition (σ i) = some (d'.mapRefs σ id) ∧ Remains p s.pool ms i d d' := by
  obtain ⟨ws, bodies, p1, p2, p3, p4, σ, r⟩ := C74_programs_are_compiled h
  obtain ⟨s0, hs, hd⟩ := h.declared
  obtain ⟨r1, _⟩ := compile_run h.table h.methods h.locals h.types h.plain hs hd h.laws h.compiled
    h.diagnostics (fun refs p4 hc => by rw [← cleanupPool_size hc]; exact h.room) h.texts
  have hlen : s.pool.definitions.length ≤ 2 ^ 32 := by
    obtain ⟨order, _, _, c4⟩ := r.run.built
    obtain ⟨ord, order', _, _, c7⟩ := r.run.exchanged
    have hz3 := swapAll_size _ c7
    have hz2 := r.run.installed.spec.1
    have hz1 : p1.definitions.length ≤ _ := constructAll_size _ c4
    have := r.kept.size
    have := r.run.room
    omega
  have htexts : s.pool.names.strings.length + 1 < 2 ^ 32 := by have := h.texts; omega
  obtain ⟨qs, s1, seen, hloops⟩ := declared_loops h.table h.methods.exist h.types hs hd r1 hlen htexts
  have hinv : PoolInv p ms false s.pool := by
    have := declareModules_inv (ms := ms) hn (ofPool_inv hs) (depth := depth) (permissive := false)
    rw [hd] at this
    exact this hlen
  have hdef : ∀ i : Idx, i.toNat < p.definitions.length → p1.definition i = s.pool.definition i := fun i hi => by
    obtain ⟨ds, hds⟩ := r.defaults
    refine compileDefaults_rest hds fun b hb e => ?_
    have := hloops.defaultsOk hs hn hb
    rw [e] at this
    omega
  have hfields : ∀ f d, IsTarget ws f → s.pool.definition f = some d → p1.definition f = some d := fun f d hf hd => by
    obtain ⟨e, fn, k1, k2, _⟩ := r.run.target_kept hf
    have k1 : p1.definition f = some e := k1
    rcases r.kept.defs f d hd with h1 | ⟨g, vs, _, h2⟩
    · exact h1
    · rw [k1] at h2; cases h2; cases k2
  have hlt : ∀ (i : Idx) d, p.definition i = some d → i.toNat < p.definitions.length := fun i d hd => by
    unfold ConstantPool.definition at hd
    exact (List.getElem?_eq_some_iff.1 hd).1
  have main : ∀ i d, p.definition i = some d → ∃ d', p4.definition i = some d' ∧ Remains p s.pool ms i d d' := fun i d hd => by
    have hi := hlt i d hd
    obtain ⟨e, he, hk⟩ := hinv.old i d hd
    have he1 : p1.definition i = some e := by rw [hdef i hi]; exact he
    by_cases ht : IsTarget ws i
    · obtain ⟨w, hw⟩ := (r.run.inv.target_iff i).1 ht
      obtain ⟨q, hq⟩ := (r.run.inv.both i).1 ⟨w, hw⟩
      obtain ⟨e', fn, ff, fm, name, params, code, t1, t2, _, _, _, t6, _, _, _, _, _, _, t13, _⟩ := r.run.target_after hq hw
      have t1 : p1.definition i = some e' := t1
      rw [he1] at t1; cases t1
      refine ⟨_, t13, .inr (.inr (.inr ⟨r.asksToWrap ht, e, fn, params, code, ?_, t2, t6.length_eq.symm, ?_, rfl, rfl⟩))⟩
      · rcases hk with rfl | ⟨c, fs, gs, hc, rfl, _⟩ | ⟨_, hr⟩
        · exact .inl rfl
        · cases t2
        · exact .inr hr
      · rcases hk with rfl | ⟨c, fs, gs, hc, rfl, _⟩ | ⟨_, f, parent, g, _, _, rfl, _⟩ <;> rfl
    · obtain ⟨fs, f1, f2, f4⟩ := r.rest he1 hfields ht hi
      have hbody : ∀ b ∈ bodies, b.index = i → ∃ f parent, Declares ms (.Function f) ∧ AsksToReplace p f i parent := fun b hb e => by
        obtain ⟨b', hb', k⟩ := r.done.mem_right hb
        have := hloops.bodiesOk hs hn hb'
        rw [← k.index, e] at this
        rcases this with h1 | h1
        · omega
        · exact h1
      refine ⟨_, f4, ?_⟩
      rcases hk with rfl | ⟨c, fs', gs, hc, rfl, g1, g2, g3, g4⟩ | ⟨_, f, parent, g, k1, k2, rfl, _⟩
      · cases hv : e.value with
        | Class c =>
          have ha : e.addMethods fs = { e with value := .Class { c with functions := c.functions ++ fs, fields := c.fields ++ [] } } := by
            unfold Definition.addMethods; rw [hv]; simp
          rw [ha, withBodies_other _ _ (by simp)]
          exact .inr (.inl ⟨c, fs, [], hv, rfl, f1, by simp, fun hne => .inr (f2 hne), by simp⟩)
        | Function g =>
          rw [Definition.addMethods_function hv]
          by_cases hb : ∃ b ∈ bodies, b.index = i
          · obtain ⟨b, hb, hbi⟩ := hb
            obtain ⟨f, parent, k1, k2⟩ := hbody b hb hbi
            obtain ⟨code, locals, hw⟩ := withBodies_function i bodies hv
            rw [hw]
            exact .inr (.inr (.inl ⟨f, parent, _, k1, k2, rfl, rfl⟩))
          · rw [withBodies_none fun b hb' e => hb ⟨b, hb', e⟩]
            exact .inl rfl
        | _ =>
          rw [addMethods_other (by rw [hv]; simp), withBodies_other _ _ (by rw [hv]; simp)]
          exact .inl rfl
      · have ha : ({ d with value := .Class { c with functions := c.functions ++ fs', fields := c.fields ++ gs } } : Definition).addMethods fs =
            { d with value := .Class { c with functions := c.functions ++ (fs' ++ fs), fields := c.fields ++ gs } } := by
          simp [Definition.addMethods]
        rw [ha, withBodies_other _ _ (by simp)]
        refine .inr (.inl ⟨c, fs' ++ fs, gs, hc, rfl, ?_, g2, ?_, g4⟩)
        · intro f hf
          rcases List.mem_append.1 hf with hf | hf
          · exact g1 f hf
          · exact f1 f hf
        · intro hne
          by_cases h0 : fs' = []
          · subst h0
            exact .inr (f2 (by simpa using hne))
          · exact .inl (g3 h0)
      · rw [Definition.addMethods_function (f := g) rfl]
        obtain ⟨code, locals, hw⟩ := withBodies_function i bodies (d := .mk' d.name parent (.Function g)) (f := g) rfl
        rw [hw]
        exact .inr (.inr (.inl ⟨f, parent, _, k1, k2, rfl, rfl⟩))
  refine ⟨fun k t ht => ?_, σ, r.renumbered.inverse, fun i d hd hc => ?_, fun hb => r.stay _ fun i b hi hlt h0 => ?_, fun i d hd => ?_⟩
  · rw [r.renumbered.texts.1]
    refine r.run.texts ?_
    show p1.names.get _ _ = _
    rw [r.kept.names]
    exact hinv.names k t ht
  · refine r.renumbered.fixed i ?_
    obtain ⟨d', h4, hr⟩ := main i d hd
    cases hb : p4.baseOf i with
    | none => rfl
    | some b =>
      obtain ⟨e, c, e1, e2, _⟩ := baseOf_definition hb
      rw [h4] at e1; cases e1
      rcases hr with rfl | ⟨c', _, _, h1, _⟩ | ⟨_, _, g, _, _, _, h1⟩ | ⟨_, _, _, _, _, _, _, _, _, _, h1⟩
      · exact absurd e2 (hc c)
      · exact absurd h1 (hc c')
      · rw [h1] at e2; cases e2
      · rw [h1] at e2; cases e2
  · obtain ⟨e, c, e1, e2, rfl⟩ := baseOf_definition hi
    obtain ⟨d, hd⟩ : ∃ d, p.definition i = some d := ⟨_, List.getElem?_eq_getElem hlt⟩
    obtain ⟨d', h4, hr⟩ := main i d hd
    rw [h4] at e1; cases e1
    rcases hr with rfl | ⟨c', _, _, h1, rfl, _⟩ | ⟨_, _, g, _, _, _, h1⟩ | ⟨_, _, _, _, _, _, _, _, _, _, h1⟩
    · exact hb i _ (definition_baseOf hd e2) h0
    · cases e2
      exact hb i c'.base (definition_baseOf hd h1) h0
    · rw [h1] at e2; cases e2
    · rw [h1] at e2; cases e2
  · obtain ⟨d', h4, hr⟩ := main i d hd
    have := r.renumbered.found i
    rw [h4] at this
    exact ⟨d', this, hr⟩

/-- The sources only declare: no declaration whose conditions hold has an annotation for something that exists. -/
def OnlyDeclares (ms : List SourceModule) : Prop :=
  ∀ e, Declares ms e → ∀ a ∈ e.declaration.annotations, a.kind = .If ∨ a.kind = .RuntimeProperty

theorem remains_unasked {p q : ConstantPool} {ms : List SourceModule} {i : Idx} {d d' : Definition} (h : Remains p q ms i d d')
    (hm : ¬ MethodsAdded p ms i) (hf : ¬ FieldsAdded p ms i) (hr : ∀ f parent, Declares ms (.Function f) → ¬ AsksToReplace p f i parent)
    (hw : ¬ AsksToWrap q ms i) (hc : ¬ AsksToWrapIn q ms i) : d' = d := by
  rcases h with h | ⟨c, fs, gs, h1, h2, _, _, h3, h4⟩ | ⟨f, parent, _, h1, h2, _⟩ | ⟨h1, _⟩
  · exact h
  · have e1 : fs = [] := Classical.byContradiction fun hne => (h3 hne).elim hm hc
    have e2 : gs = [] := Classical.byContradiction fun hne => hf (h4 hne)
    subst e1 e2
    rw [h2]
    simp only [List.append_nil]
    cases d
    simp only at h1
    subst h1
    rfl
  · exact absurd h2 (hr f parent h1)
  · exact absurd h1 hw

/-- C82: sources without annotations other than `@if` and `@runtimeProperty` leave every definition of the bundle as it was, up
to the renumbering of classes, which leaves all of them where they are if all classes were behind their bases. -/
theorem C82_declarations_change_nothing {B : Back} {depth fuel : Nat} {ms : List SourceModule} {p : ConstantPool} {s : DeclState} {out : UnitOutput}
    (h : CleanCompile B depth fuel ms p s out) (hn : AllNamed p) (ho : OnlyDeclares ms) :
    ∃ σ : Idx → Idx, (∃ τ : Idx → Idx, (∀ i, τ (σ i) = i) ∧ ∀ i, σ (τ i) = i) ∧
      (∀ i d, p.definition i = some d → (∀ c, d.value ≠ .Class c) → σ i = i) ∧
      (p.BasesFirst → ∀ i : Idx, i.toNat < p.definitions.length → σ i = i) ∧
      ∀ i d, p.definition i = some d → out.pool.definition (σ i) = some (d.mapRefs σ id) := by
  obtain ⟨_, σ, h1, h2, h2', h3⟩ := C82_nothing_else_changes h hn
  refine ⟨σ, h1, h2, h2', fun i d hd => ?_⟩
  obtain ⟨d', k1, k2⟩ := h3 i d hd
  have hno : ∀ f a, Declares ms (.Function f) → a ∈ f.declaration.annotations → a.kind = .If ∨ a.kind = .RuntimeProperty :=
    fun f a hf ha => ho _ hf a ha
  have hw : ∀ i, ¬ AsksToWrap s.pool ms i := by
    rintro i ⟨f, a, _, hf, ha, hk, _⟩
    rcases hno f a hf (List.mem_of_find?_eq_some ha) with e | e <;> rw [hk] at e <;> cases e
  rw [remains_unasked k2 ?_ ?_ ?_ (hw i) fun ⟨f, _, hf, _⟩ => hw f hf] at k1
  · exact k1
  · rintro ⟨f, x, hf, ⟨a, ha, hk, _⟩ | ⟨a, ha, hk, _⟩, _⟩ <;>
      rcases hno f a hf ha with e | e <;> rw [hk] at e <;> cases e
  · rintro ⟨f, x, hf, ⟨a, ha, hk, _⟩, _⟩
    rcases ho _ hf a ha with e | e <;> rw [hk] at e <;> cases e
  · rintro f parent hf ⟨_, ⟨x, c, ⟨a, ha, hk, _⟩, _⟩ | ⟨⟨a, ha, hk⟩, _⟩⟩ <;>
      rcases hno f a hf ha with e | e <;> rw [hk] at e <;> cases e

end Redscript
