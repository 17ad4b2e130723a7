import Verif.Unit.DeclLate
import Verif.Unit.SourceRefs

/-!
# What waits after the first loop, and what defaults are put into the pool
-/

namespace Redscript
open DeclM

/-- The same defaults wait afterwards. -/
class KeepsDefaults (m : DeclM α) : Prop where
  keeps : ∀ s : DeclState, (m s).2.defaults = s.defaults

namespace KeepsDefaults

instance pure' (a : α) : KeepsDefaults (Pure.pure a : DeclM α) := ⟨fun _ => rfl⟩

instance bind' (m : DeclM α) (f : α → DeclM β) [hm : KeepsDefaults m] [hf : ∀ a, KeepsDefaults (f a)] : KeepsDefaults (m >>= f) := ⟨fun s => by
  show (DeclM.bind m f s).2.defaults = s.defaults
  unfold DeclM.bind
  have h1 := hm.keeps s
  cases h : m s with
  | mk r s1 =>
    rw [h] at h1
    cases r with
    | error e => exact h1
    | ok a => exact ((hf a).keeps s1).trans h1⟩

instance fail (e : DeclErr) : KeepsDefaults (DeclM.fail e : DeclM α) := ⟨fun _ => rfl⟩
instance read (f : DeclState → α) : KeepsDefaults (DeclM.read f) := ⟨fun _ => rfl⟩
instance readOr (e : DeclErr) (f : DeclState → Option α) : KeepsDefaults (DeclM.readOr e f) := ⟨fun s => by
  unfold DeclM.readOr; cases f s <;> rfl⟩
instance diagnose (d : DeclDiag) : KeepsDefaults (DeclM.diagnose d) := ⟨fun _ => rfl⟩
instance when (c : Bool) (m : DeclM Unit) [hm : KeepsDefaults m] : KeepsDefaults (DeclM.when c m) := by
  unfold DeclM.when; split
  · exact hm
  · infer_instance
instance addName (t : Text) : KeepsDefaults (DeclM.addName t) := ⟨fun _ => rfl⟩
instance stub (i : Idx) : KeepsDefaults (DeclM.stub i) := ⟨fun _ => rfl⟩
instance classAt (i : Idx) : KeepsDefaults (DeclM.classAt i) := readOr _ _
instance annTarget (a : Annotation) : KeepsDefaults (annTarget a) := readOr _ _
instance conditions (cx : DeclCtx) (as : List Annotation) : KeepsDefaults (conditions cx as) := readOr _ _
instance onClass (i : Idx) (f : ClassDef → ClassDef) : KeepsDefaults (DeclM.onClass i f) := ⟨fun s => by
  unfold DeclM.onClass
  cases s.pool.modifyValue (AnyDefinition.onClass f) i <;> rfl⟩
instance reporting (m : DeclM α) [hm : KeepsDefaults m] : KeepsDefaults (DeclM.reporting m) := ⟨fun s => by
  have h1 := hm.keeps s
  unfold DeclM.reporting
  cases h : m s with
  | mk r s1 =>
    rw [h] at h1
    cases r with
    | ok a => exact h1
    | error e => cases e <;> exact h1⟩
instance targetClass (a : Annotation) : KeepsDefaults (targetClass a) := by
  unfold Redscript.targetClass
  refine @bind' _ _ _ _ inferInstance fun x => @bind' _ _ _ _ inferInstance fun sym => ?_
  split <;> infer_instance
instance targetMethod (cls : Idx) (name sig : Text) : KeepsDefaults (targetMethod cls name sig) := ⟨fun s => by
  unfold Redscript.targetMethod
  cases directMethods s.pool name cls with
  | none => rfl
  | some fs => dsimp only; cases byId s.pool sig fs <;> rfl⟩
instance declareWrap (cls : Idx) (name sig : Text) : KeepsDefaults (declareWrap cls name sig) := ⟨fun s => by
  unfold Redscript.declareWrap
  cases Wraps.declare ⟨s.pool, s.wrappers, s.proxies⟩ name sig cls <;> rfl⟩
instance addedBase (c : ClassDef) (sig : Text) : KeepsDefaults (addedBase c sig) := by
  unfold Redscript.addedBase
  split <;> infer_instance
instance locateWrap (a : Annotation) (f : FunctionSource) (v : Visibility) : KeepsDefaults (locateWrap a f v) := by
  unfold Redscript.locateWrap; infer_instance
instance locateReplace (a : Annotation) (f : FunctionSource) (v : Visibility) : KeepsDefaults (locateReplace a f v) := by
  unfold Redscript.locateReplace; infer_instance
instance locateGlobal (f : FunctionSource) (v : Visibility) : KeepsDefaults (locateGlobal f v) := by
  unfold Redscript.locateGlobal; infer_instance
instance locateAdd (a : Annotation) (f : FunctionSource) (v : Visibility) : KeepsDefaults (locateAdd a f v) := by
  unfold Redscript.locateAdd; infer_instance
theorem update {f : DeclState → DeclState} (h : ∀ s, (f s).defaults = s.defaults) : KeepsDefaults (DeclM.update f) := ⟨h⟩
instance locatePlain (f : FunctionSource) (path : ModulePath) (v : Visibility) : KeepsDefaults (locatePlain f path v) := by
  unfold Redscript.locatePlain
  have h1 : ∀ i, KeepsDefaults (DeclM.update fun s => { s with symbols := s.symbols.add (path.withChild f.declaration.name) (.Functions [(i, v)]) }) :=
    fun i => update fun _ => rfl
  have h2 : ∀ i, KeepsDefaults (DeclM.update fun s => { s with scope := s.scope.addSymbol f.declaration.name (.Functions [(i, v)]) }) :=
    fun i => update fun _ => rfl
  infer_instance
instance locateFunction (f : FunctionSource) (path : ModulePath) : KeepsDefaults (locateFunction f path) := by
  unfold Redscript.locateFunction
  dsimp only
  split
  · infer_instance
  · split <;> infer_instance
instance defineNamed (path : ModulePath) (name : Text) (sym : Idx → Symbol) : KeepsDefaults (defineNamed path name sym) := by
  unfold Redscript.defineNamed
  have h1 : ∀ i, KeepsDefaults (DeclM.update fun s => { s with symbols := s.symbols.insert (path.withChild name) (sym i) }) :=
    fun i => update fun _ => rfl
  have h2 : ∀ i, KeepsDefaults (DeclM.update fun s => { s with scope := s.scope.addSymbol name (sym i) }) :=
    fun i => update fun _ => rfl
  infer_instance
instance checkRedefinition (cx : DeclCtx) (path : ModulePath) : KeepsDefaults (checkRedefinition cx path) := by
  unfold Redscript.checkRedefinition; infer_instance
instance defineSymbol (cx : DeclCtx) (path : ModulePath) (e : SourceEntry) : KeepsDefaults (defineSymbol cx path e) := by
  cases e <;> unfold Redscript.defineSymbol <;> infer_instance
instance defineEntries (cx : DeclCtx) (path : ModulePath) : ∀ es, KeepsDefaults (defineEntries cx path es)
  | [] => pure' _
  | e :: es => by
    have := defineEntries cx path es
    unfold Redscript.defineEntries
    refine @bind' _ _ _ _ inferInstance fun on => ?_
    split <;> infer_instance
instance defineModules (cx : DeclCtx) : ∀ ms, KeepsDefaults (defineModules cx ms)
  | [] => pure' _
  | m :: ms => by
    have := defineModules cx ms
    unfold Redscript.defineModules
    infer_instance

end KeepsDefaults

section
variable {p : ConstantPool} {s s1 s' : DeclState} {depth : Nat} {permissive : Bool} {ms : List SourceModule} {qs : List Queued} {seen : List Idx}

theorem ofPool_defaults (hs : DeclState.ofPool p = some s) : s.defaults = [] := by
  unfold DeclState.ofPool at hs
  simp only [Option.bind_eq_some_iff] at hs
  obtain ⟨m, _, sc, _, hs⟩ := hs
  split at hs <;> cases hs
  rfl

/-- The slots are for new definitions and for functions to be replaced. -/
theorem TwoLoops.slotsOk (h : TwoLoops p depth permissive ms s s1 s' qs seen) (hs : DeclState.ofPool p = some s) (hn : AllNamed p) :
    ∀ q ∈ qs, ∀ x ∈ q.slots, SlotOk p ms x := by
  have := Does.defineModules (ms := ms) (depth := depth) (permissive := permissive) hn (l := ms) (fun _ h => h) s (ofPool_inv hs)
  rw [h.one] at this
  exact (this h.fine1.defs).2 qs rfl

/-- Bodies wait for new functions and for functions to be replaced. -/
theorem TwoLoops.bodiesOk (h : TwoLoops p depth permissive ms s s1 s' qs seen) (hs : DeclState.ofPool p = some s) (hn : AllNamed p)
    {b : DeclBody} (hb : b ∈ s'.bodies) : p.definitions.length ≤ b.index.toNat ∨
      ∃ f parent, Declares ms (.Function f) ∧ AsksToReplace p f b.index parent := by
  rcases h.few.bodies b hb with h1 | ⟨x, hx, he⟩ | h1
  · rw [h.bodies hs] at h1; cases h1
  · obtain ⟨q, hq, hx⟩ := List.mem_flatMap.1 hx
    have hok := h.slotsOk hs hn q hq x hx
    rw [← he]
    cases x with
    | Function i parent base w isR f v =>
      rcases hok with h2 | ⟨hf, h2, _⟩
      · exact .inl h2
      · exact .inr ⟨f, parent, hf, h2⟩
    | Class i c v => exact .inl hok
    | Struct i c v => exact .inl hok
    | Enum i e => exact .inl hok
    | Field i f v => exact .inl hok.1
  · refine .inl (Nat.le_trans ?_ h1)
    have := h.frame1.size
    rw [h.start] at this
    exact this

/-- Defaults wait for new fields. -/
theorem TwoLoops.defaultsOk (h : TwoLoops p depth permissive ms s s1 s' qs seen) (hs : DeclState.ofPool p = some s) (hn : AllNamed p)
    {b : DeclDefault} (hb : b ∈ s'.defaults) : p.definitions.length ≤ b.index.toNat := by
  have h0 : s1.defaults = [] := by
    have := (KeepsDefaults.defineModules ⟨ms.filterMap (·.path), depth, permissive⟩ ms).keeps s
    rw [h.one] at this
    rw [this]; exact ofPool_defaults hs
  have h1 := (LateDefaults.defineQueue (n := p.definitions.length) (cx := ⟨ms.filterMap (·.path), depth, permissive⟩) (qs := qs) (seen := [])
    fun q hq x hx => by
      have := h.slotsOk hs hn q hq x hx
      cases x with
      | Field i f v => exact this.1
      | _ => trivial).late s1 (by
        have := h.frame1.size
        rw [h.start] at this
        exact this)
  rw [h.two] at h1
  rcases h1 h.fine.defs b hb with h2 | h2
  · rw [h0] at h2; cases h2
  · exact h2

end

/-- Defaults change only their own fields. -/
theorem compileDefaults_rest {P : FloatDisplay} {E : DeclDefault → TcEnv} {i : Idx} : ∀ {ds : List DeclDefault} {p p' : ConstantPool} {diags : List TcDiag},
    compileDefaults P E ds p = .ok (diags, p') → (∀ d ∈ ds, d.index ≠ i) → p'.definition i = p.definition i
  | [], p, p', diags, h, _ => by cases h; rfl
  | d :: ds, p, p', diags, h, hi => by
    unfold compileDefaults at h
    cases hc : compileDefault P (E d) d p with
    | error e => rw [hc] at h; cases h
    | ok x =>
      obtain ⟨d1, p1⟩ := x
      rw [hc] at h
      dsimp only at h
      cases hr : compileDefaults P E ds p1 with
      | error e => rw [hr] at h; cases h
      | ok y =>
        obtain ⟨d2, p2⟩ := y
        rw [hr] at h
        cases h
        obtain ⟨t, name, value, x, st, _, _, _, hm, _⟩ := compileDefault_ok hc
        obtain ⟨_, _, _, _, _, ho, _⟩ := modifyValue_spec hm
        rw [compileDefaults_rest hr fun d' hd' => hi d' (List.mem_cons_of_mem _ hd')]
        exact ho i fun e => hi d List.mem_cons_self e.symm

theorem addMethods_parent (d : Definition) (fs : List Idx) : (d.addMethods fs).parent = d.parent := by
  unfold Definition.addMethods; split <;> rfl

/-- A proxy becomes a method of the class of the wrapped function, and of no other. -/
theorem constructProxy_rest {q : AsmEnv} {p p' : ConstantPool} {r f w : Idx} (h : constructProxy q p r f w = .ok p')
    (hl : p'.definitions.length < 2 ^ 32) : ∃ d, p.definition f = some d ∧ ∀ j e, j ≠ r → p.definition j = some e →
      (d.parent ≠ j → p'.definition j = some e) ∧ ∃ fs, p'.definition j = some (e.addMethods fs) := by
  have hsz := constructProxy_size h
  unfold constructProxy at h
  cases hd : p.definition f with
  | none => rw [hd] at h; cases h
  | some d =>
    rw [hd] at h
    simp only at h
    refine ⟨d, rfl, ?_⟩
    cases hf : d.value.asFunction with
    | none => rw [hf] at h; cases h
    | some fn =>
      rw [hf] at h
      simp only at h
      cases hc : cloneParams p fn.parameters with
      | none => rw [hc] at h; cases h
      | some x =>
        obtain ⟨params, p1⟩ := x
        rw [hc] at h
        simp only at h
        cases hb : fromBody (p1.asmEnv q) (proxyBody w params fn.returnType.isSome) with
        | error e => rw [hb] at h; cases h
        | ok code =>
          rw [hb] at h
          simp only at h
          split at h
          · cases h
          · next p2 hp =>
            have hp2 := (C12_put _ _ _).2 _ hp
            have hlen2 : p2.definitions.length = p1.definitions.length := by
              have := hp
              unfold ConstantPool.putDefinition at this
              split at this
              · cases this; simp
              · cases this
            intro j e hj he
            by_cases h0 : d.parent = 0
            · rw [if_pos h0] at h
              cases h
              obtain ⟨c1, _⟩ := cloneParams_spec _ _ hc (by omega)
              obtain ⟨fs, hfs, h1⟩ := c1.defs j e (fun x => x) he
              have hnil : fs = [] := by
                cases fs with
                | nil => rfl
                | cons a _ => exact absurd (hfs a (by simp)) (fun x => x)
              rw [hnil, e.addMethods_nil] at h1
              have h2 : p'.definition j = some e := by rw [hp2.2 j hj]; exact h1
              exact ⟨fun _ => h2, [], by rw [e.addMethods_nil]; exact h2⟩
            · rw [if_neg h0] at h
              split at h
              · cases h
              · next p3 hpf =>
                cases h
                obtain ⟨_, k2, _, k4, d5, c5, k5, k6, k7⟩ := pushFunction_spec hpf (fun _ => False) (fun _ => True) trivial
                obtain ⟨c1, _⟩ := cloneParams_spec _ _ hc (by omega)
                obtain ⟨fs, hfs, h1⟩ := c1.defs j e (fun x => x) he
                have hnil : fs = [] := by
                  cases fs with
                  | nil => rfl
                  | cons a _ => exact absurd (hfs a (by simp)) (fun x => x)
                rw [hnil, e.addMethods_nil] at h1
                have h2 : p2.definition j = some e := by rw [hp2.2 j hj]; exact h1
                by_cases hjp : j = d.parent
                · subst hjp
                  rw [h2] at k5; cases k5
                  exact ⟨fun hne => absurd rfl hne, _, k7⟩
                · have h3 := k4 j hjp
                  rw [h2] at h3
                  exact ⟨fun _ => h3, [], by rw [e.addMethods_nil]; exact h3⟩

/-- The proxies change no other classes than those of the wrapped functions. -/
theorem constructAll_rest {q : AsmEnv} {proxies : AMap Idx Idx} {i : Idx} {d : Definition} : ∀ (ps : List (Idx × Idx)) (p : ConstantPool) {p' : ConstantPool},
    constructAll q proxies ps p = .ok p' → p'.definitions.length < 2 ^ 32 → (∀ x ∈ ps, proxies.get x.1 ≠ some i) →
    (∀ x ∈ ps, (∀ y ∈ ps, proxies.get y.1 ≠ some x.1) ∧ ∃ e, p.definition x.1 = some e ∧ e.parent ≠ i) →
    p.definition i = some d → p'.definition i = some d
  | [], p, p', h, _, _, _, hd => by cases h; exact hd
  | (f, w) :: ps, p, p', h, hl, hi, hx, hd => by
    unfold constructAll at h
    cases hr : proxies.get f with
    | none => rw [hr] at h; cases h
    | some r =>
      rw [hr] at h
      simp only at h
      cases hc : constructProxy q p r f w with
      | error e => rw [hc] at h; cases h
      | ok p1 =>
        rw [hc] at h
        have hl1 : p1.definitions.length < 2 ^ 32 := Nat.lt_of_le_of_lt (constructAll_size ps h) hl
        obtain ⟨df, k1, k2⟩ := constructProxy_rest hc hl1
        obtain ⟨_, e, e1, e2⟩ := hx (f, w) List.mem_cons_self
        rw [k1] at e1; cases e1
        have hri : i ≠ r := fun e => hi (f, w) List.mem_cons_self (by rw [e]; exact hr)
        refine constructAll_rest ps p1 h hl (fun x hx' => hi x (List.mem_cons_of_mem _ hx')) (fun x hx' => ?_) ((k2 i d hri hd).1 e2)
        obtain ⟨n1, e', e1', e2'⟩ := hx x (List.mem_cons_of_mem _ hx')
        refine ⟨fun y hy => n1 y (List.mem_cons_of_mem _ hy), ?_⟩
        have hxr : x.1 ≠ r := fun e => n1 (f, w) List.mem_cons_self (by rw [e]; exact hr)
        obtain ⟨fs, h5⟩ := (k2 x.1 e' hxr e1').2
        exact ⟨_, h5, by rw [addMethods_parent]; exact e2'⟩

end Redscript
