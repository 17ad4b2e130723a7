import Verif.Unit.CompileBodies
import Verif.Unit.CompileModel

/-!
# C74: a program is compiled
-/

namespace Redscript

/-! ## Specification -/

/-- Definitions were added behind the others, none of them classes; no text was lost. -/
def Grown (p p' : ConstantPool) : Prop :=
  (∃ new, p'.definitions = p.definitions ++ new ∧ ∀ d ∈ new, d.value.asClass = none) ∧
  ∀ i s, p.names.get Strings.cnameDefault i = some s → p'.names.get Strings.cnameDefault i = some s

/-- What is relied on of the parts that are not computed: hash maps give what they hold, the passes only add to the pool,
and the locals of the given bodies are added when these are checked and desugared. -/
structure Back.Laws (B : Back) (bodies : List DeclBody) : Prop where
  lists : ∀ m, ListsMap m (B.drain m)
  perm : ∀ l, (B.ord l).Perm l
  checked : ∀ b p, Grown p (B.checked b p)
  desugared : ∀ b p, Grown p (B.desugared b p)
  assembled : ∀ f p, Grown p (B.assembled f p)
  locals : ∀ b ∈ bodies, ∀ p f ds p', B.compileFunction b p = (.ok (f, ds), p') → LocalsOk p' f.locals

/-- The functions a name means in a scope. -/
def Scope.functionsNamed (sc : Scope) (x : Text) : List (Idx × Visibility) :=
  match sc.symbols.get x with
  | some (.Functions fs) => fs
  | _ => []

/-- The names in the body of a function: those of its module; its parameters, the last one of a name if there are several;
`this` unless it is static; and in a wrapper `wrappedMethod`, besides any other functions of this name. -/
structure BodyNames (b : DeclBody) (fn : FunctionDef) (p : ConstantPool) (sc : Scope) : Prop where
  this : sc.this = if flag FunctionFlags.isStaticBit fn.flags then none else some b.cls
  function : sc.function = some b.index
  types : sc.types = b.scope.types
  parameters : ∃ names, Each2 (fun i n => p.defName i = some n) fn.parameters names ∧ ∀ x, sc.references.get x =
    match (names.zip fn.parameters).reverse.find? fun q => decide (q.1 = x) with
    | some q => some (.Parameter q.2)
    | none => b.scope.references.get x
  symbols : ∀ x, x ≠ "wrappedMethod".toList ∨ b.wrapped = none → sc.symbols.get x = b.scope.symbols.get x
  wrapped : ∀ w, b.wrapped = some w →
    sc.symbols.get "wrappedMethod".toList = some (.Functions (b.scope.functionsNamed "wrappedMethod".toList ++ [(w, .pub)]))

/-- What became of a body: it was checked without an error, desugared and assembled, and is to be put at its index.
`p` is the pool with the declarations and the proxies. The pool it is checked with has more definitions; the one it is
assembled with has the bodies of other functions too. -/
structure BodyDone (B : Back) (p : ConstantPool) (b : DeclBody) (w : WrapBody) : Prop where
  index : w.index = b.index
  done : ∃ pc fn sc xs tst st body pa others, Grown p pc ∧ Installs p others pa ∧
    pc.function b.index = some fn ∧ BodyNames b fn pc sc ∧
    ({ B.checker sc pc with permissive := false, symbols := sc.symbols, this := sc.this } : TcEnv).checkBody sc.references b.code = .ok (xs, tst) ∧
    TcDiag.compileError ∉ tst.diags ∧
    dsSeq (B.desugarer sc (B.checked b pc)) xs ⟨(B.checked b pc).definitions.length, [], []⟩ = .ok (body, st) ∧
    fromBody (pa.asmEnv (B.assembler sc pa)) body = .ok w.code ∧ w.locals = tst.locals.map (·.1) ++ st.locals.map (·.1)

/-- The diagnostics that say that two declarations are in each other's way. They do not stop the compilation. -/
def Diagnostic.isConflict (d : Diagnostic) : Bool :=
  decide (d.kind = .ReplaceMethodConflict ∨ d.kind = .FieldConflict ∨ d.kind = .AddMethodConflict)

/-! ## Proof -/

theorem addParameters_spec {p : ConstantPool} : ∀ {is : List Idx} {sc sc' : Scope}, Scope.addParameters p is sc = some sc' →
    sc'.this = sc.this ∧ sc'.function = sc.function ∧ sc'.types = sc.types ∧ sc'.symbols = sc.symbols ∧
    ∃ names, Each2 (fun i n => p.defName i = some n) is names ∧ ∀ x, sc'.references.get x =
      match (names.zip is).reverse.find? fun q => decide (q.1 = x) with
      | some q => some (.Parameter q.2)
      | none => sc.references.get x
  | [], sc, sc', h => by
    cases h
    exact ⟨rfl, rfl, rfl, rfl, [], .nil, fun _ => rfl⟩
  | i :: is, sc, sc', h => by
    unfold Scope.addParameters at h
    cases hn : p.defName i with
    | none => rw [hn] at h; cases h
    | some n =>
      rw [hn] at h
      obtain ⟨h1, h2, h3, h4, names, h5, h6⟩ := addParameters_spec h
      refine ⟨h1, h2, h3, h4, n :: names, .cons hn h5, fun x => ?_⟩
      rw [h6, List.zip_cons_cons, List.reverse_cons, List.find?_append]
      cases (names.zip is).reverse.find? fun q => decide (q.1 = x) with
      | some q => rfl
      | none =>
        simp only [Option.none_or, List.find?_cons, List.find?_nil, Scope.addParameter]
        by_cases e : n = x
        · subst e
          simp [AMap.get_insert_self]
        · simp [e, AMap.get_insert_ne _ _ (Ne.symm e)]

theorem localScope_names {b : DeclBody} {fn : FunctionDef} {p : ConstantPool} {sc : Scope} (h : b.localScope fn p = some sc) : BodyNames b fn p sc := by
  unfold DeclBody.localScope at h
  cases ha : Scope.addParameters p fn.parameters { b.scope with
      this := if flag FunctionFlags.isStaticBit fn.flags then none else some b.cls, function := some b.index } with
  | none => rw [ha] at h; cases h
  | some sc1 =>
    rw [ha] at h
    obtain ⟨h1, h2, h3, h4, h5⟩ := addParameters_spec ha
    simp only [Option.map_some, Option.some.injEq] at h
    cases hw : b.wrapped with
    | none =>
      rw [hw] at h
      subst h
      exact ⟨h1, h2, h3, h5, fun x _ => by rw [h4], fun w e => by rw [hw] at e; cases e⟩
    | some w =>
      rw [hw] at h
      simp only [Scope.addSymbol] at h
      split at h
      · next fs hfs =>
        subst h
        have hfs : b.scope.symbols.get "wrappedMethod".toList = some (.Functions fs) := by rw [h4] at hfs; exact hfs
        refine ⟨h1, h2, h3, h5, fun x hx => ?_, fun w' e => ?_⟩
        · simp only [hw, reduceCtorEq, or_false] at hx
          rw [AMap.get_insert_ne _ _ hx, h4]
        · rw [hw] at e; cases e
          rw [AMap.get_insert_self]
          unfold Scope.functionsNamed
          rw [hfs]
      · next hfs =>
        subst h
        refine ⟨h1, h2, h3, h5, fun x hx => ?_, fun w' e => ?_⟩
        · simp only [hw, reduceCtorEq, or_false] at hx
          rw [AMap.get_insert_ne _ _ hx, h4]
        · rw [hw] at e; cases e
          rw [AMap.get_insert_self]
          unfold Scope.functionsNamed
          rw [h4] at hfs
          split
          · next fs hf => exact absurd hf (hfs fs)
          · rfl

namespace Grown

theorem refl (p : ConstantPool) : Grown p p := ⟨⟨[], by simp, by simp⟩, fun _ _ h => h⟩

theorem trans {p p' p'' : ConstantPool} (h : Grown p p') (k : Grown p' p'') : Grown p p'' := by
  obtain ⟨⟨a, h1, h2⟩, h3⟩ := h
  obtain ⟨⟨b, k1, k2⟩, k3⟩ := k
  refine ⟨⟨a ++ b, by rw [k1, h1, List.append_assoc], fun d hd => ?_⟩, fun i s h => k3 i s (h3 i s h)⟩
  exact (List.mem_append.1 hd).elim (h2 d) (k2 d)

theorem keep {p p' : ConstantPool} (h : Grown p p') {i : Idx} {d : Definition} (hd : p.definition i = some d) : p'.definition i = some d := by
  obtain ⟨⟨a, h1, _⟩, _⟩ := h
  unfold ConstantPool.definition at hd ⊢
  rw [h1, List.getElem?_append_left (List.getElem?_eq_some_iff.1 hd).1]
  exact hd

theorem installs {p0 p p' : ConstantPool} {bs : List WrapBody} (h : Grown p p') (k : Installs p0 bs p) : Installs p0 bs p' := by
  obtain ⟨⟨a, h1, _⟩, h2⟩ := h
  exact .grown k h1 h2

end Grown

theorem LocalsOk.grown {p p' : ConstantPool} (h : Grown p p') {ls : List Idx} (hl : LocalsOk p ls) : LocalsOk p' ls := fun l hll => by
  obtain ⟨d, v, h1, h2⟩ := hl l hll
  exact ⟨d, v, h.keep h1, h2⟩

theorem LocalsOk.installs {p p' : ConstantPool} {bs : List WrapBody} (h : Installs p bs p') {ls : List Idx} (hl : LocalsOk p ls) :
    LocalsOk p' ls := fun l hll => by
  obtain ⟨d, v, h1, h2⟩ := hl l hll
  refine ⟨d, v, ?_, h2⟩
  rw [h.spec.2.1 _ _ h1, withBodies_other _ _ fun f e => by rw [h2] at e; cases e]

theorem TcErr.unit_fatal {e : TcErr} {d : Diagnostic} (h : e.unit = .diagnostic d) : d.isFatal = true := by
  cases e <;> cases h
  rfl

section
variable {B : Back} {bodies : List DeclBody}

/-- What a body becomes when it is compiled, before it is assembled. -/
structure FnDone (B : Back) (p : ConstantPool) (b : DeclBody) (f : CompiledFn) : Prop where
  index : f.index = b.index
  done : ∃ pc fn xs tst st, Grown p pc ∧ pc.function b.index = some fn ∧ b.localScope fn pc = some f.scope ∧
    (B.tcEnv f.scope pc).checkBody f.scope.references b.code = .ok (xs, tst) ∧ TcDiag.compileError ∉ tst.diags ∧
    dsSeq (B.desugarer f.scope (B.checked b pc)) xs ⟨(B.checked b pc).definitions.length, [], []⟩ = .ok (f.code, st) ∧
    f.locals = tst.locals.map (·.1) ++ st.locals.map (·.1)

theorem compileFunction_grown (hB : B.Laws bodies) (b : DeclBody) (p : ConstantPool) : Grown p (B.compileFunction b p).2 := by
  have h := (hB.checked b p).trans (hB.desugared b (B.checked b p))
  unfold Back.compileFunction
  split
  · exact .refl p
  · split
    · exact .refl p
    · split
      · exact hB.checked b p
      · split
        · exact h
        · exact h

theorem compileFunction_fatal {b : DeclBody} {p p' : ConstantPool} {d : Diagnostic} (h : B.compileFunction b p = (.error (.diagnostic d), p')) :
    d.isFatal = true := by
  unfold Back.compileFunction at h
  split at h
  · cases h
  · split at h
    · cases h
    · split at h
      · rename_i e _
        exact TcErr.unit_fatal (e := e) (by injection h with h _; injection h)
      · split at h
        · exact TcErr.unit_fatal (by injection h with h _; injection h)
        · cases h

theorem compileFunction_done {b : DeclBody} {p0 p p' : ConstantPool} {f : CompiledFn} {ds : List Diagnostic} (hg : Grown p0 p)
    (h : B.compileFunction b p = (.ok (f, ds), p')) (hd : ∀ d ∈ ds, d.isFatal = false) : FnDone B p0 b f := by
  unfold Back.compileFunction at h
  split at h
  · cases h
  · next fn hfn =>
    split at h
    · cases h
    · next sc hsc =>
      split at h
      · cases h
      · next xs tst hx =>
        split at h
        · cases h
        · next body st hds =>
          injection h with h _
          injection h with h
          injection h with h1 h2
          subst h1 h2
          refine ⟨rfl, p, fn, xs, tst, st, hg, hfn, hsc, hx, fun hm => ?_, hds, rfl⟩
          exact absurd (hd _ (List.mem_map.2 ⟨_, hm, rfl⟩)) (by decide)

theorem compileBodies_done (hB : B.Laws bodies) {p0 : ConstantPool} : ∀ {bs : List DeclBody} {p p' : ConstantPool} {fs : List CompiledFn}
    {ds : List Diagnostic}, (∀ b ∈ bs, b ∈ bodies) → Grown p0 p → B.compileBodies bs p = .ok (fs, ds, p') → (∀ d ∈ ds, d.isFatal = false) →
    Grown p p' ∧ Each2 (fun b f => FnDone B p0 b f ∧ LocalsOk p' f.locals) bs fs
  | [], p, p', fs, ds, _, _, h, _ => by
    cases h
    exact ⟨.refl _, .nil⟩
  | b :: bs, p, p', fs, ds, hb, hg, h, hd => by
    unfold Back.compileBodies at h
    have hg1 := compileFunction_grown hB b p
    split at h
    · next f ds1 p1 hf =>
      rw [hf] at hg1
      have hg1 : Grown p p1 := hg1
      split at h
      · cases h
      · split at h
        · cases h
        · next fs2 ds2 p2 hr =>
          cases h
          obtain ⟨r1, r2⟩ := compileBodies_done hB (fun b hm => hb b (List.mem_cons_of_mem _ hm)) (hg.trans hg1) hr
            fun d hm => hd d (List.mem_append_right _ hm)
          refine ⟨hg1.trans r1, .cons ⟨compileFunction_done hg hf fun d hm => hd d (List.mem_append_left _ (List.mem_append_left _ hm)), ?_⟩ r2⟩
          exact (hB.locals b (hb b List.mem_cons_self) _ _ _ _ hf).grown r1
    · next d p1 hf =>
      split at h
      · cases h
      · cases h
        exact absurd (hd d List.mem_cons_self) (by rw [compileFunction_fatal hf]; decide)
    · cases h

theorem installAll_done (hB : B.Laws bodies) {p0 : ConstantPool} : ∀ {fs : List CompiledFn} {bs : List WrapBody} {p p' : ConstantPool},
    Installs p0 bs p → B.installAll fs p = .ok p' → ∃ ws, Installs p0 (bs ++ ws) p' ∧
      Each2 (fun f (w : WrapBody) => w.index = f.index ∧ w.locals = f.locals ∧ ∃ pa others, Installs p0 others pa ∧
        fromBody (pa.asmEnv (B.assembler f.scope pa)) f.code = .ok w.code) fs ws
  | [], bs, p, p', hi, h => by
    cases h
    exact ⟨[], by simpa using hi, .nil⟩
  | f :: fs, bs, p, p', hi, h => by
    unfold Back.installAll at h
    split at h
    · cases h
    · next code hc =>
      split at h
      · cases h
      · next p1 h1 =>
        have hi1 := Installs.body ((hB.assembled f p).installs hi) h1
        obtain ⟨ws, r1, r2⟩ := installAll_done hB hi1 h
        exact ⟨⟨f.index, code, f.locals⟩ :: ws, by simpa using r1, .cons ⟨rfl, rfl, p, bs, hi, hc⟩ r2⟩

end

theorem mem_sortDiagnostics {ds : List Diagnostic} {d : Diagnostic} : d ∈ sortDiagnostics ds ↔ d ∈ ds :=
  (List.mergeSort_perm ds _).mem_iff

theorem DeclDiag.serious (d : DeclDiag) : d.kind.bare.isFatal = true ∨ d.kind.bare.isConflict = true := by
  cases d <;> first | exact .inl rfl | exact .inr rfl

theorem withBodies_locals {i : Idx} : ∀ {bs : List WrapBody} {d : Definition} {f g : FunctionDef}, d.value = .Function f →
    (withBodies i bs d).value = .Function g → g.locals = f.locals ∨ ∃ b ∈ bs, g.locals = b.locals
  | [], d, f, g, h1, h2 => by
    have h2 : d.value = .Function g := h2
    rw [h1] at h2; cases h2
    exact .inl rfl
  | b :: bs, d, f, g, h1, h2 => by
    unfold withBodies at h2
    split at h2
    · have h3 : (d.withBody b).value = .Function { f with code := b.code, locals := b.locals } := by
        unfold Definition.withBody; rw [h1]
      rcases withBodies_locals h3 h2 with h | ⟨c, hc, h⟩
      · exact .inr ⟨b, List.mem_cons_self, h⟩
      · exact .inr ⟨c, List.mem_cons_of_mem _ hc, h⟩
    · rcases withBodies_locals h1 h2 with h | ⟨c, hc, h⟩
      · exact .inl h
      · exact .inr ⟨c, List.mem_cons_of_mem _ hc, h⟩

theorem compile_cases {B : Back} {depth fuel : Nat} {ms : List SourceModule} {p : ConstantPool} {out : UnitOutput}
    (h : B.compile depth fuel ms p = .ok out) : ∃ s s' ds0 p1 p2 fs ds pb p3 p4, DeclState.ofPool p = some s ∧
      declareModules depth false ms s = (.ok (), s') ∧ compileDefaults B.display (B.defaults s'.pool) s'.defaults s'.pool = .ok (ds0, p1) ∧
      constructAll B.proxy s'.proxies (B.drain s'.wrappers) p1 = .ok p2 ∧ B.compileBodies s'.bodies p2 = .ok (fs, ds, pb) ∧
      B.installAll fs pb = .ok p3 ∧ swapAll B.ord (B.drain s'.proxies) p3 = .ok p4 ∧ cleanupPool fuel p4 s'.refs = .ok (out.pool, out.refs) ∧
      out.diagnostics = sortDiagnostics (s'.diagnostics.map (fun d => d.kind.bare) ++ ds0.map (fun d => d.kind.bare) ++ ds) := by
  unfold Back.compile at h
  split at h
  · cases h
  · next s hs =>
    split at h
    · cases h
    · next a s' hd =>
      cases a
      split at h
      · cases h
      · next fs ds p0 hr =>
        unfold Back.compileRest at hr
        split at hr
        · cases hr
        · next ds0 p1 h1 =>
          split at hr
          · cases hr
          · next p2 h2 =>
            split at hr
            · cases hr
            · next fs' more pb h3 =>
              cases hr
              unfold Back.finish at h
              split at h
              · cases h
              · next p3 h4 =>
                split at h
                · cases h
                · next p4 h5 =>
                  split at h
                  · cases h
                  · next p5 refs h6 =>
                    cases h
                    exact ⟨s, s', ds0, p1, p2, _, _, _, p3, p4, hs, hd, h1, h2, h3, h4, h5, h6, rfl⟩

end Redscript
