import Verif.Unit.DeclSteps
import Verif.Unit.DeclSyms

/-!
# Declarations only touch what they name
-/

namespace Redscript
open DeclM

set_option synthInstance.maxSize 2000
set_option synthInstance.maxHeartbeats 400000

/-! ## Symbols -/

section
variable {p0 : ConstantPool}

/-- The old definitions among those of a symbol have this path. -/
def PathedAt (p0 : ConstantPool) (path : ModulePath) (sym : Symbol) : Prop :=
  ∀ i ∈ sym.indexes, i.toNat < p0.definitions.length → ∃ t, p0.defName i = some t ∧ ModulePath.parse t = path

/-- The old definitions among those of a symbol have this name. -/
def NamedAs (p0 : ConstantPool) (x : Text) (sym : Symbol) : Prop :=
  ∀ i ∈ sym.indexes, i.toNat < p0.definitions.length → LastName p0 i x

/-- An old definition has this path. -/
abbrev OldPath (p0 : ConstantPool) : ModulePath → Bool → Idx → Prop := fun path _ i =>
  i.toNat < p0.definitions.length → ∃ t, p0.defName i = some t ∧ ModulePath.parse t = path

/-- An old definition has this name. -/
abbrev OldName (p0 : ConstantPool) : Text → Bool → Idx → Prop := fun x _ i => i.toNat < p0.definitions.length → LastName p0 i x

theorem oldPath_leads : Leads (OldPath p0) (OldName p0) := fun path x _ i hx h hl => by
  obtain ⟨t, h1, h2⟩ := h hl
  exact ⟨t, h1, by rw [h2]; exact hx⟩

theorem SymbolsKnown.insert {m : SymbolMap} (h : SymbolsKnown p0 m) {path : ModulePath} {sym : Symbol} (hs : PathedAt p0 path sym) :
    SymbolsKnown p0 (m.insert path sym) := SymbolsFit.insert (G := OldPath p0) h hs

theorem SymbolsKnown.add {m : SymbolMap} (h : SymbolsKnown p0 m) {path : ModulePath} {sym : Symbol} (hs : PathedAt p0 path sym) :
    SymbolsKnown p0 (m.add path sym) := SymbolsFit.add (G := OldPath p0) h hs

theorem ScopeKnown.addSymbol {sc : Scope} (h : ScopeKnown p0 sc) {x : Text} {sym : Symbol} (hs : NamedAs p0 x sym) :
    ScopeKnown p0 (sc.addSymbol x sym) := ScopeFits.addSymbol (H := OldName p0) h hs

theorem ScopeKnown.import {m : SymbolMap} (hm : SymbolsKnown p0 m) {sc sc' : Scope} (h : ScopeKnown p0 sc) {imp : Import}
    {level : Visibility} (hi : m.populateImport imp level sc = .ok sc') : ScopeKnown p0 sc' :=
  ScopeFits.import (G := OldPath p0) (H := OldName p0) oldPath_leads hm h hi

theorem ScopeKnown.kept {m : SymbolMap} (hm : SymbolsKnown p0 m) {sc : Scope} (h : ScopeKnown p0 sc) (level : Visibility) (imp : Import) :
    ScopeKnown p0 (m.importKept level sc imp) := ScopeFits.kept (G := OldPath p0) (H := OldName p0) oldPath_leads hm h level imp

theorem known_ofPool {m : SymbolMap} (h : SymbolMap.ofPool p0 = some m) : SymbolsKnown p0 m := by
  unfold SymbolMap.ofPool at h
  suffices ∀ (l : List (Idx × Definition)) (acc : Option SymbolMap), (∀ m, acc = some m → SymbolsKnown p0 m) →
      ∀ m, l.foldl (fun acc r => acc.bind fun m => (p0.defName r.1).map fun name =>
        match SymbolMap.symbolOf r.1 r.2.value with
        | none => m
        | some s => m.add (ModulePath.parse name) s) acc = some m → SymbolsKnown p0 m from
    this _ _ (by intro m hm; cases hm; intro e he; cases he) m h
  intro l
  induction l with
  | nil => intro acc hacc m hm; exact hacc m hm
  | cons r l ih =>
    intro acc hacc m hm
    rw [List.foldl_cons] at hm
    refine ih _ ?_ m hm
    intro m' hm'
    cases acc with
    | none => cases hm'
    | some m0 =>
      simp only [Option.bind_some, Option.map_eq_some_iff] at hm'
      obtain ⟨t, ht, hm'⟩ := hm'
      have h0 := hacc m0 rfl
      cases hsym : SymbolMap.symbolOf r.1 r.2.value with
      | none => rw [hsym] at hm'; cases hm'; exact h0
      | some sym =>
        rw [hsym] at hm'
        cases hm'
        refine h0.add fun i hi _ => ⟨t, ?_, rfl⟩
        have : i = r.1 := by
          unfold SymbolMap.symbolOf at hsym
          split at hsym
          · split at hsym <;> cases hsym <;> simpa [Symbol.indexes] using hi
          · cases hsym; simpa [Symbol.indexes] using hi
          · cases hsym; simpa [Symbol.indexes] using hi
          · cases hsym
        rw [this]; exact ht

theorem ofPool_inv {ms : List SourceModule} {s : DeclState} (h : DeclState.ofPool p0 = some s) : DeclInv p0 ms true s := by
  unfold DeclState.ofPool at h
  cases h1 : SymbolMap.ofPool p0 with
  | none => rw [h1] at h; cases h
  | some m =>
    rw [h1] at h
    simp only [Option.bind_some] at h
    cases h2 : Scope.ofPool p0 with
    | none => rw [h2] at h; cases h
    | some sc =>
      rw [h2] at h
      simp only [Option.bind_some] at h
      have hsc : ScopeKnown p0 sc := by
        unfold Scope.ofPool at h2
        rw [Option.map_eq_some_iff] at h2
        obtain ⟨ty, _, rfl⟩ := h2
        intro x sym hx
        have hx : (AMap.empty : AMap Text Symbol).get x = some sym := hx
        rw [AMap.get_empty] at hx; cases hx
      cases h3 : m.populateImport (.All []) .priv sc with
      | error e => rw [h3] at h; cases h
      | ok sc' =>
        rw [h3] at h
        cases h
        have := hsc.import (known_ofPool h1) h3
        exact ⟨PoolInv.refl p0 ms, known_ofPool h1, this, this⟩

end

/-! ## The first loop -/

/-- Every definition has a name in the pool. -/
def AllNamed (p : ConstantPool) : Prop := ∀ i d, p.definition i = some d → ∃ t, p.defName i = some t

/-- A slot is for a new definition, or for a function that is to be replaced. -/
def SlotOk (p0 : ConstantPool) (ms : List SourceModule) : Slot → Prop
  | .Function i parent base _ isReplacement f v => SpecOk p0 ms i parent base isReplacement f v
  | .Class i _ _ | .Struct i _ _ | .Enum i _ => p0.definitions.length ≤ i.toNat
  | .Field i f _ => p0.definitions.length ≤ i.toNat ∧ Declares ms (.GlobalLet f)

section
variable {p0 : ConstantPool} {ms : List SourceModule} {first : Bool}

/-- The names of old definitions are those they had. -/
theorem PoolInv.defName_old {p : ConstantPool} (h : PoolInv p0 ms first p) (hn : AllNamed p0) {i : Idx} {t : Text}
    (hi : i.toNat < p0.definitions.length) (ht : p.defName i = some t) : p0.defName i = some t := by
  obtain ⟨d, hd⟩ := definition_of_lt hi
  obtain ⟨u, hu⟩ := hn i d hd
  rw [h.defName hu] at ht
  rw [hu, ht]

/-- In the first loop the functions are those of before. -/
theorem PoolInv.function_old {p : ConstantPool} (h : PoolInv p0 ms true p) {i : Idx} (hi : i.toNat < p0.definitions.length) :
    p.function i = p0.function i := by
  obtain ⟨d, d', h0, h1, h2⟩ := h.old_lt hi
  unfold ConstantPool.function ConstantPool.definitionBy
  have h0 : p0.definitions[i.toNat]? = some d := h0
  have h1 : p.definitions[i.toNat]? = some d' := h1
  rw [h0, h1]
  rcases h2 with rfl | ⟨c, fs, gs, hv, rfl, _⟩ | ⟨hf, _⟩
  · rfl
  · simp only [Option.bind_some, hv, AnyDefinition.asFunction]
  · cases hf

theorem directMethods_mem {p : ConstantPool} {x : Text} {cls : Idx} {fs : List Idx} (h : directMethods p x cls = some fs) :
    ∃ c, p.definitionBy AnyDefinition.asClass cls = some c ∧ ∀ f ∈ fs, f ∈ c.functions := by
  unfold directMethods at h
  cases hc : p.definitionBy AnyDefinition.asClass cls with
  | none => rw [hc] at h; cases h
  | some c =>
    rw [hc] at h
    simp only [Option.bind_some] at h
    refine ⟨c, rfl, ?_⟩
    cases hm : c.functions.mapM fun f => (p.defName f).map fun name => (f, name) with
    | none => rw [hm] at h; cases h
    | some named =>
      rw [hm] at h
      simp only [Option.bind_some] at h
      split at h
      · cases h
      · cases h
        have key : ∀ (l : List Idx) (r : List (Idx × Text)), (l.mapM fun f => (p.defName f).map fun name => (f, name)) = some r →
            ∀ e ∈ r, e.1 ∈ l := by
          intro l
          induction l with
          | nil => intro r hr; simp at hr; subst hr; simp
          | cons f l ih =>
            intro r hr
            simp only [List.mapM_cons, Option.pure_def, Option.bind_eq_bind, Option.bind_eq_some_iff, Option.map_eq_some_iff,
              Option.some.injEq] at hr
            obtain ⟨e, ⟨n, _, rfl⟩, r', hr', rfl⟩ := hr
            intro e he
            rcases List.mem_cons.1 he with rfl | he
            · exact List.mem_cons_self
            · exact List.mem_cons_of_mem _ (ih r' hr' e he)
        intro f hf
        obtain ⟨e, he, rfl⟩ := List.mem_map.1 hf
        exact key _ _ hm e (List.mem_filter.1 he).1

theorem byId_mem {p : ConstantPool} {sig : Text} {fs : List Idx} {f : Idx} (h : byId p sig fs = some f) :
    f ∈ fs ∧ p.defName f = some sig := by
  unfold byId at h
  exact ⟨List.mem_of_find?_eq_some h, by simpa using List.find?_some h⟩

namespace Does

theorem targetClass {a : Annotation} :
    Does p0 ms first (targetClass a) fun cls => ∃ x, a.target = some x ∧ (cls.toNat < p0.definitions.length → LastName p0 cls x) := by
  unfold Redscript.targetClass
  refine @bind _ _ _ _ _ _ _ _ _ (fun x => @AddsDefs.bind' _ _ _ _ inferInstance fun sym => by split <;> infer_instance) annTarget fun x hx =>
    @bind _ _ _ _ _ _ _ (fun sym => NamedAs p0 x sym) _
      (fun sym => by split <;> infer_instance) (readOr fun s sym hs hsym => hs.scope x sym hsym) fun sym hsym => ?_
  cases sym with
  | Class cls w => exact pure ⟨x, hx, fun h => hsym cls (by simp [Symbol.indexes]) h⟩
  | Struct cls w => exact pure ⟨x, hx, fun h => hsym cls (by simp [Symbol.indexes]) h⟩
  | Enum _ => exact fail
  | Functions _ => exact fail

/-- A method that is found is new, or it is an old method of an old class. -/
theorem targetMethod (hn : AllNamed p0) {cls : Idx} {name sig : Text} :
    Does p0 ms true (targetMethod cls name sig) fun f => p0.definitions.length ≤ f.toNat ∨
      (cls.toNat < p0.definitions.length ∧ p0.defName f = some sig ∧
        ∃ c, p0.definitionBy AnyDefinition.asClass cls = some c ∧ f ∈ c.functions) := by
  intro s hs _
  unfold Redscript.targetMethod
  cases hd : directMethods s.pool name cls with
  | none => exact ⟨hs, fun a ha => by cases ha⟩
  | some fs =>
    simp only
    cases hb : byId s.pool sig fs with
    | none => exact ⟨hs, fun a ha => by cases ha⟩
    | some f =>
      refine ⟨hs, fun a ha => ?_⟩
      cases ha
      obtain ⟨h1, h2⟩ := byId_mem hb
      obtain ⟨c, h3, h4⟩ := directMethods_mem hd
      by_cases hf : f.toNat < p0.definitions.length
      · refine .inr ?_
        have hcls : cls.toNat < p0.definitions.length := by
          refine Nat.lt_of_not_le fun hge => ?_
          unfold ConstantPool.definitionBy at h3
          cases hdd : s.pool.definitions[cls.toNat]? with
          | none => rw [hdd] at h3; cases h3
          | some d =>
            rw [hdd] at h3
            have := hs.pool.fresh rfl cls d hge hdd
            simp only [Option.bind_some, this, reduceCtorEq] at h3
        obtain ⟨d0, c0, fs', gs, k1, k2, k3, k4, k5, _⟩ := hs.pool.oldClass hcls h3
        refine ⟨hcls, hs.pool.defName_old hn hf h2, c0, ?_, ?_⟩
        · unfold ConstantPool.definitionBy
          have k1 : p0.definitions[cls.toNat]? = some d0 := k1
          rw [k1]; simp only [Option.bind_some, k2, AnyDefinition.asClass]
        · have := h4 f h1
          rw [k4] at this
          rcases List.mem_append.1 this with h | h
          · exact h
          · exact absurd hf (Nat.not_lt.2 (k5 f h))
      · exact .inl (Nat.not_lt.1 hf)

theorem declareWrap {cls : Idx} {name sig : Text} (ha : cls.toNat < p0.definitions.length → MethodsAdded p0 ms cls) :
    Does p0 ms first (declareWrap cls name sig) fun w => p0.definitions.length ≤ w.index.toNat := by
  intro s hs hl
  unfold Redscript.declareWrap at hl ⊢
  cases h : Wraps.declare ⟨s.pool, s.wrappers, s.proxies⟩ name sig cls with
  | error e => exact ⟨hs, fun a ha => by cases ha⟩
  | ok r =>
    obtain ⟨w, st⟩ := r
    rw [h] at hl
    have hl : st.pool.definitions.length ≤ 2 ^ 32 := hl
    obtain ⟨wrapped, pool, proxies, pool1, pool2, nm, _, h2, _, _, h5, _, h7, h8, _⟩ := declare_spec h
    have i1 : PoolInv p0 ms first pool := by
      unfold Wraps.wrappedIdx at h2
      cases hw : s.wrappers.get w.target with
      | some v => simp only [hw, Prod.mk.injEq] at h2; rw [← h2.2.1]; exact hs.pool
      | none =>
        simp only [hw, Prod.mk.injEq] at h2
        rw [← h2.2.1]
        exact hs.pool.append [.default] (by simp [Definition.default, AnyDefinition.asClass])
    have i2 : PoolInv p0 ms first pool1 := by rw [h5]; exact i1.addName _
    have hlen : pool1.definitions.length + 1 ≤ 2 ^ 32 := by
      have := modify_length h8
      have hp2 : pool2 = (pool1.stubDefinition nm).2 := congrArg Prod.snd h7
      rw [this, hp2] at hl
      have : (pool1.definitions ++ [{ Definition.default with name := nm }]).length ≤ 2 ^ 32 := hl
      rw [List.length_append] at this
      exact this
    have hw : p0.definitions.length ≤ w.index.toNat := by
      have : w.index = (pool1.stubDefinition nm).1 := congrArg Prod.fst h7
      rw [this]
      exact new_index i2 hlen _
    have i3 : PoolInv p0 ms first pool2 := by
      have hp2 : pool2 = (pool1.stubDefinition nm).2 := congrArg Prod.snd h7
      rw [hp2]
      exact i2.append [_] (by simp [AnyDefinition.asClass])
    have i4 : PoolInv p0 ms first st.pool :=
      i3.onClass h8 [w.index] [] (by simp) (by simpa using hw) (by simp) (fun hlt _ => ha hlt) (by simp)
    exact ⟨⟨i4, hs.symbols, hs.scope, hs.module⟩, fun a ha => by cases ha; exact hw⟩

theorem locateWrap {a : Annotation} {f : FunctionSource} {v : Visibility} (hn : AllNamed p0) (hd : Declares ms (.Function f))
    (ha : a ∈ f.declaration.annotations) (hk : a.kind = .WrapMethod) :
    Does p0 ms true (locateWrap a f v) (SlotOk p0 ms) := by
  unfold Redscript.locateWrap
  refine bind (when fun _ => fail) fun _ _ => bind targetClass fun cls ⟨x, hx, hc⟩ => bind (targetMethod hn) fun _ _ =>
    bind (declareWrap fun hlt => ⟨f, x, hd, .inl ⟨a, ha, hk, hx⟩, hc hlt⟩) fun w hw => pure (.inl hw)

theorem locateReplace {a : Annotation} {f : FunctionSource} (hn : AllNamed p0) (hd : Declares ms (.Function f))
    (ha : a ∈ f.declaration.annotations) (hk : a.kind = .ReplaceMethod) :
    Does p0 ms true (locateReplace a f (visibilityOf f.declaration.qualifiers)) (SlotOk p0 ms) := by
  unfold Redscript.locateReplace
  refine bind targetClass fun cls ⟨x, hx, hc⟩ => bind (targetMethod hn) fun i hi =>
    bind (Q := fun base => i.toNat < p0.definitions.length → base = (p0.function i).bind (·.baseMethod))
      (read fun s hs hlt => by rw [hs.pool.function_old hlt]) fun base hb => pure ?_
  by_cases hlt : i.toNat < p0.definitions.length
  · rcases hi with hi | ⟨hi, h1, c, h2, h3⟩
    · exact absurd hlt (Nat.not_lt.2 hi)
    · exact .inr ⟨hd, ⟨h1, .inl ⟨x, c, ⟨a, ha, hk, hx⟩, hc hi, h2, h3⟩⟩, rfl, rfl, fun _ => hb hlt⟩
  · exact .inl (Nat.not_lt.1 hlt)

theorem locateGlobal {a : Annotation} {f : FunctionSource} (hn : AllNamed p0) (hd : Declares ms (.Function f))
    (ha : a ∈ f.declaration.annotations) (hk : a.kind = .ReplaceGlobal) :
    Does p0 ms true (locateGlobal f (visibilityOf f.declaration.qualifiers)) (SlotOk p0 ms) := by
  unfold Redscript.locateGlobal
  refine bind (Q := fun fs => ∀ i ∈ fs, i.toNat < p0.definitions.length → LastName p0 i f.declaration.name)
    (readOr fun s fs hs hfs => ?_) fun fs hfs => bind (Q := fun i => i.toNat < p0.definitions.length →
      p0.defName i = some f.sig ∧ LastName p0 i f.declaration.name) (readOr fun s i hs hi hlt => ?_) fun i hi => pure ?_
  · unfold Scope.resolveFunction at hfs
    split at hfs
    · next gs hg => cases hfs; exact hs.scope _ _ hg
    · cases hfs
  · obtain ⟨h1, h2⟩ := byId_mem hi
    exact ⟨hs.pool.defName_old hn hlt h2, hfs i h1 hlt⟩
  · by_cases hlt : i.toNat < p0.definitions.length
    · obtain ⟨h1, h2⟩ := hi hlt
      exact .inr ⟨hd, ⟨h1, .inr ⟨⟨a, ha, hk⟩, rfl, h2⟩⟩, rfl, rfl, fun h => absurd rfl h⟩
    · exact .inl (Nat.not_lt.1 hlt)

theorem addedBase {c : ClassDef} {sig : Text} : Does p0 ms first (addedBase c sig) fun _ => True := by
  unfold Redscript.addedBase
  exact ite (fun _ => bind classAt fun _ _ => readOr fun _ _ _ _ => trivial) fun _ => pure trivial

theorem locateAdd {a : Annotation} {f : FunctionSource} {v : Visibility} (hd : Declares ms (.Function f))
    (ha : a ∈ f.declaration.annotations) (hk : a.kind = .AddMethod) :
    Does p0 ms first (locateAdd a f v) (SlotOk p0 ms) := by
  unfold Redscript.locateAdd
  refine bind targetClass fun cls ⟨x, hx, hc⟩ => bind (Q := fun _ => True) (read fun _ _ => trivial) fun _ _ =>
    bind (when fun _ => diagnose) fun _ _ => bind classAt fun _ _ => bind addedBase fun _ _ => bind addName fun _ _ =>
      bind stub fun i hi => bind (onClass [i] [] (by simp) (by simpa using hi) (by simp)
        (fun hlt _ => ⟨f, x, hd, .inr ⟨a, ha, hk, hx⟩, hc hlt⟩) (by simp)) fun _ _ => pure (.inl hi)

theorem addSymbol {path : ModulePath} {sym : Symbol} (h : ∀ i ∈ sym.indexes, p0.definitions.length ≤ i.toNat) :
    Does p0 ms first (DeclM.update fun s => { s with symbols := s.symbols.add path sym }) fun _ => True :=
  update fun _ hs => ⟨hs.pool, hs.symbols.add fun i hi hl => absurd hl (Nat.not_lt.2 (h i hi)), hs.scope, hs.module⟩

theorem insertSymbol {path : ModulePath} {sym : Symbol} (h : ∀ i ∈ sym.indexes, p0.definitions.length ≤ i.toNat) :
    Does p0 ms first (DeclM.update fun s => { s with symbols := s.symbols.insert path sym }) fun _ => True :=
  update fun _ hs => ⟨hs.pool, hs.symbols.insert fun i hi hl => absurd hl (Nat.not_lt.2 (h i hi)), hs.scope, hs.module⟩

theorem scopeSymbol {x : Text} {sym : Symbol} (h : ∀ i ∈ sym.indexes, p0.definitions.length ≤ i.toNat) :
    Does p0 ms first (DeclM.update fun s => { s with scope := s.scope.addSymbol x sym }) fun _ => True :=
  update fun _ hs => ⟨hs.pool, hs.symbols, hs.scope.addSymbol fun i hi hl => absurd hl (Nat.not_lt.2 (h i hi)), hs.module⟩

theorem locatePlain {f : FunctionSource} {m : ModulePath} {v : Visibility} :
    Does p0 ms first (locatePlain f m v) (SlotOk p0 ms) := by
  unfold Redscript.locatePlain
  exact bind addName fun _ _ => bind stub fun i hi => bind (addSymbol (by simpa [Symbol.indexes] using hi)) fun _ _ =>
    bind (when fun _ => scopeSymbol (by simpa [Symbol.indexes] using hi)) fun _ _ => pure (.inl hi)

theorem locateFunction {f : FunctionSource} {m : ModulePath} (hn : AllNamed p0) (hd : Declares ms (.Function f)) :
    Does p0 ms true (locateFunction f m) (SlotOk p0 ms) := by
  unfold Redscript.locateFunction
  simp only
  cases h : f.declaration.annotations.find? (fun a => decide (a.kind = .WrapMethod ∨ a.kind = .ReplaceMethod ∨
      a.kind = .ReplaceGlobal ∨ a.kind = .AddMethod)) with
  | none => exact locatePlain
  | some a =>
    have ha := List.mem_of_find?_eq_some h
    have hk := List.find?_some h
    simp only [decide_eq_true_eq] at hk
    simp only
    rcases hk with hk | hk | hk | hk <;> rw [hk]
    · exact locateWrap hn hd ha hk
    · exact locateReplace hn hd ha hk
    · exact locateGlobal hn hd ha hk
    · exact locateAdd hd ha hk

theorem defineNamed {m : ModulePath} {x : Text} {sym : Idx → Symbol} (h : ∀ i, (sym i).indexes = [i]) :
    Does p0 ms first (defineNamed m x sym) fun i => p0.definitions.length ≤ i.toNat := by
  unfold Redscript.defineNamed
  exact bind addName fun _ _ => bind stub fun i hi => bind (insertSymbol (by rw [h]; simpa using hi)) fun _ _ =>
    bind (when fun _ => scopeSymbol (by rw [h]; simpa using hi)) fun _ _ => pure hi

theorem checkRedefinition {cx : DeclCtx} {path : ModulePath} : Does p0 ms first (checkRedefinition cx path) fun _ => True := by
  unfold Redscript.checkRedefinition
  exact bind (Q := fun _ => True) (read fun _ _ => trivial) fun _ _ => when fun _ => fail

theorem defineSymbol {cx : DeclCtx} {m : ModulePath} {e : SourceEntry} (hn : AllNamed p0) (hd : Declares ms e) :
    Does p0 ms true (defineSymbol cx m e) (SlotOk p0 ms) := by
  cases e with
  | Class c => exact bind checkRedefinition fun _ _ => bind (defineNamed fun _ => rfl) fun i hi => pure hi
  | Struct c => exact bind checkRedefinition fun _ _ => bind (defineNamed fun _ => rfl) fun i hi => pure hi
  | Function f => exact locateFunction hn hd
  | GlobalLet f => exact bind addName fun _ _ => bind stub fun i hi => pure ⟨hi, hd⟩
  | Enum e => exact bind (defineNamed fun _ => rfl) fun i hi => pure hi

theorem defineEntries {depth : Nat} {permissive : Bool} {m : SourceModule} {path : ModulePath} (hn : AllNamed p0) (hm : m ∈ ms) : ∀ {es : List SourceEntry},
    (∀ e ∈ es, e ∈ m.entries) →
    Does p0 ms true (defineEntries ⟨ms.filterMap (·.path), depth, permissive⟩ path es) fun l => ∀ s ∈ l, SlotOk p0 ms s
  | [], _ => pure (by simp)
  | e :: es, h => by
    unfold Redscript.defineEntries
    have ih := defineEntries (path := path) hn hm (es := es) (depth := depth) (permissive := permissive) fun e' he => h e' (List.mem_cons_of_mem _ he)
    refine bind conditions fun on hon => ite (fun ho => bind (reporting (defineSymbol hn ?_)) fun slot hs => bind ih fun rest hr =>
      pure ?_) fun _ => ih
    · subst ho; exact ⟨m, hm, h e List.mem_cons_self, hon⟩
    · intro s hs'
      rcases List.mem_append.1 hs' with h1 | h1
      · exact hs s (Option.mem_toList.1 h1)
      · exact hr s h1

theorem defineModules {depth : Nat} {permissive : Bool} (hn : AllNamed p0) : ∀ {l : List SourceModule}, (∀ m ∈ l, m ∈ ms) →
    Does p0 ms true (defineModules ⟨ms.filterMap (·.path), depth, permissive⟩ l) fun qs => ∀ q ∈ qs, ∀ s ∈ q.slots, SlotOk p0 ms s
  | [], _ => pure (by simp)
  | m :: l, h => by
    unfold Redscript.defineModules
    exact bind (defineEntries hn (h m List.mem_cons_self) fun _ he => he) fun slots hs =>
      bind (defineModules hn fun m' hm' => h m' (List.mem_cons_of_mem _ hm')) fun rest hr => pure (by
        intro q hq
        rcases List.mem_cons.1 hq with rfl | hq
        · exact hs
        · exact hr q hq)

/-! ## The second loop -/

theorem ownSymbols {path : ModulePath} : Does p0 ms first (ownSymbols path) fun _ => True := by
  unfold Redscript.ownSymbols
  refine ite (fun _ => pure trivial) fun _ => update fun s hs => ?_
  cases h : s.symbols.populateImport (.All path) .priv s.moduleScope with
  | error e => exact hs
  | ok sc => exact ⟨hs.pool, hs.symbols, hs.scope, hs.module.import hs.symbols h⟩

theorem importOne {imp : Import} : Does p0 ms first (importOne imp) fun _ => True := by
  intro s hs hl
  unfold Redscript.importOne at hl ⊢
  cases h : s.symbols.populateImport imp .pub s.moduleScope with
  | ok sc => exact ⟨⟨hs.pool, hs.symbols, hs.scope, hs.module.import hs.symbols h⟩, fun _ _ => trivial⟩
  | error e =>
    rw [h] at hl
    exact report _ ⟨hs.pool, hs.symbols, hs.scope, hs.module.kept hs.symbols .pub imp⟩ hl

theorem importAll {cx : DeclCtx} : ∀ {is : List (Import × List Annotation)}, Does p0 ms first (importAll cx is) fun _ => True
  | [] => pure trivial
  | (imp, anns) :: is => by
    unfold Redscript.importAll
    exact bind conditions fun _ _ => bind (when fun _ => importOne) fun _ _ => importAll

theorem parentFlags {i : Idx} : Does p0 ms first (parentFlags i) fun _ => True := by
  unfold Redscript.parentFlags
  exact ite (fun _ => bind classAt fun _ _ => pure trivial) fun _ => pure trivial

theorem defineSlot {cx : DeclCtx} {seen : List Idx} {s : Slot} (h : SlotOk p0 ms s) :
    Does p0 ms false (defineSlot cx seen s) fun _ => True := by
  cases s with
  | Function i parent base wrapped rep f v =>
    exact bind (when fun _ => diagnose) fun _ _ => bind parentFlags fun _ _ => bind defineSourceRef fun _ _ =>
      bind (reporting (defineFunction h)) fun _ _ => pure trivial
  | Class i c v => exact bind (reporting (defineClass h)) fun _ _ => pure trivial
  | Struct i c v => exact bind (reporting (defineClass h)) fun _ _ => pure trivial
  | Field i f v => exact bind (reporting (defineGlobalLet h.1 h.2)) fun _ _ => pure trivial
  | Enum i e => exact bind (reporting (defineEnum h)) fun _ _ => pure trivial

theorem defineSlots {cx : DeclCtx} : ∀ {ss : List Slot} {seen : List Idx}, (∀ s ∈ ss, SlotOk p0 ms s) →
    Does p0 ms false (defineSlots cx ss seen) fun _ => True
  | [], _, _ => pure trivial
  | s :: ss, seen, h => by
    unfold Redscript.defineSlots
    exact bind (defineSlot (h s List.mem_cons_self)) fun _ _ => defineSlots fun s' hs' => h s' (List.mem_cons_of_mem _ hs')

theorem defineQueue {cx : DeclCtx} : ∀ {qs : List Queued} {seen : List Idx}, (∀ q ∈ qs, ∀ s ∈ q.slots, SlotOk p0 ms s) →
    Does p0 ms false (defineQueue cx qs seen) fun _ => True
  | [], _, _ => pure trivial
  | q :: qs, seen, h => by
    unfold Redscript.defineQueue
    exact bind (update fun s hs => ⟨hs.pool, hs.symbols, hs.scope, hs.scope⟩) fun _ _ => bind ownSymbols fun _ _ =>
      bind importAll fun _ _ => bind (defineSlots (h q List.mem_cons_self)) fun _ _ =>
        defineQueue fun q' hq' => h q' (List.mem_cons_of_mem _ hq')

end Does

/-- The declaration phase keeps the invariant. -/
theorem declareModules_inv (hn : AllNamed p0) {depth : Nat} {permissive : Bool} {s : DeclState} (hs : DeclInv p0 ms true s)
    (hl : (declareModules depth permissive ms s).2.len ≤ 2 ^ 32) : PoolInv p0 ms false (declareModules depth permissive ms s).2.pool := by
  have hd := Does.defineModules (depth := depth) (permissive := permissive) hn (l := ms) (fun _ h => h) s hs
  have he : declareModules depth permissive ms s =
      DeclM.bind (defineModules ⟨ms.filterMap (·.path), depth, permissive⟩ ms)
        (fun queue => defineQueue ⟨ms.filterMap (·.path), depth, permissive⟩ queue []) s := rfl
  rw [he] at hl ⊢
  unfold DeclM.bind at hl ⊢
  cases h : defineModules ⟨ms.filterMap (·.path), depth, permissive⟩ ms s with
  | mk r s' =>
    rw [h] at hl hd
    cases r with
    | error e => exact (hd hl).1.pool.second
    | ok queue =>
      have hd := hd (Nat.le_trans ((AddsDefs.defineQueue _ queue []).grows s') hl)
      exact (Does.defineQueue (hd.2 queue rfl) s' ⟨hd.1.pool.second, hd.1.symbols, hd.1.scope, hd.1.module⟩ hl).1.pool

end
end Redscript
