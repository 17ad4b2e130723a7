import Verif.Unit.DeclDoneLocate
import Verif.Unit.DeclTheorems

/-!
# C61: declarations reach the pool
-/

namespace Redscript
open DeclM

/-- The methods that classes list are functions in the pool. -/
def MethodsExist (p : ConstantPool) : Prop := ∀ cls f, MethodOf p cls f → ∃ d g, p.definition f = some d ∧ d.value = .Function g

theorem MethodsExist.notClass {p : ConstantPool} (h : MethodsExist p) {cls f : Idx} (hf : MethodOf p cls f) :
    f.toNat < p.definitions.length ∧ p.definitionBy AnyDefinition.asClass f = none := by
  obtain ⟨d, g, h1, h2⟩ := h cls f hf
  exact ⟨definition_lt h1, FunctionAt.notClass ⟨d, h1, .inl ⟨g, h2⟩⟩⟩

theorem definition_of_roots {p : ConstantPool} (hl : p.definitions.length ≤ 2 ^ 32) {r : Idx × Definition} (h : r ∈ p.roots) :
    p.definition r.1 = some r.2 := by
  unfold ConstantPool.roots ConstantPool.indexed at h
  obtain ⟨⟨d, n⟩, h1, rfl⟩ := List.mem_map.1 (List.mem_filter.1 h).1
  have h2 := List.mem_zipIdx_iff_getElem?.1 (List.mem_of_mem_drop h1)
  have h3 : n < p.definitions.length := (List.getElem?_eq_some_iff.1 h2).1
  show p.definitions[(BitVec.ofNat 32 n).toNat]? = some d
  rw [BitVec.toNat_ofNat, Nat.mod_eq_of_lt (by omega)]
  exact h2

theorem first_symbols {p : ConstantPool} (hl : p.definitions.length ≤ 2 ^ 32) {m : SymbolMap} (h : SymbolMap.ofPool p = some m) :
    SymbolsFit (FirstPath [] p) m := by
  unfold SymbolMap.ofPool at h
  suffices ∀ (l : List (Idx × Definition)) (acc : Option SymbolMap), (∀ r ∈ l, r ∈ p.roots) → (∀ m, acc = some m → SymbolsFit (FirstPath [] p) m) →
      ∀ m, l.foldl (fun acc r => acc.bind fun m => (p.defName r.1).map fun name =>
        match SymbolMap.symbolOf r.1 r.2.value with
        | none => m
        | some s => m.add (ModulePath.parse name) s) acc = some m → SymbolsFit (FirstPath [] p) m from
    this _ _ (fun _ h => h) (by intro m hm; cases hm; intro e he; cases he) m h
  intro l
  induction l with
  | nil => intro acc _ hacc m hm; exact hacc m hm
  | cons r l ih =>
    intro acc hr hacc m hm
    rw [List.foldl_cons] at hm
    refine ih _ (fun r h => hr r (List.mem_cons_of_mem _ h)) ?_ m hm
    intro m' hm'
    cases acc with
    | none => cases hm'
    | some m0 =>
      simp only [Option.bind_some, Option.map_eq_some_iff] at hm'
      obtain ⟨t, ht, hm'⟩ := hm'
      have h0 := hacc m0 rfl
      cases hsym : SymbolMap.symbolOf r.1 r.2.value with
      | none => rw [hsym] at hm'; cases hm'; exact h0
      | some sym =>
        rw [hsym] at hm'
        cases hm'
        have hd : p.definitions[r.1.toNat]? = some r.2 := definition_of_roots hl (hr r List.mem_cons_self)
        refine h0.add fun i hi => ?_
        unfold SymbolMap.symbolOf at hsym
        split at hsym
        · split at hsym <;> cases hsym <;>
            (have : i = r.1 := by simpa [Symbol.indexes] using hi) <;> subst this <;>
            exact ⟨fun hb => (by cases hb), fun _ => ⟨t, ht, .inl rfl⟩⟩
        · cases hsym
          have : i = r.1 := by simpa [Symbol.indexes] using hi
          subst this
          exact ⟨fun hb => (by cases hb), fun _ => ⟨t, ht, .inl rfl⟩⟩
        · next g hg =>
          cases hsym
          have : i = r.1 := by simpa [Symbol.indexes] using hi
          subst this
          exact ⟨fun _ => ⟨defName_lt ht, by simp, _, hd, .inl ⟨g, hg⟩⟩, fun hb => by cases hb⟩
        · cases hsym

theorem types_ofPool {p : ConstantPool} {sc : Scope} (h : Scope.ofPool p = some sc) : TypesNamed sc p := by
  unfold Scope.ofPool at h
  rw [Option.map_eq_some_iff] at h
  obtain ⟨types, h, rfl⟩ := h
  suffices ∀ (l : List (Idx × Definition)) (acc : Option (AMap Text Idx)), (∀ m, acc = some m → ∀ x i, m.get x = some i → p.defName i = some x) →
      ∀ m, l.foldl (fun acc r => acc.bind fun types =>
        match r.2.value with
        | .Type _ => (p.defName r.1).map fun name => types.insert name r.1
        | _ => some types) acc = some m → ∀ x i, m.get x = some i → p.defName i = some x from
    this _ _ (by intro m hm x i hx; cases hm; rw [AMap.get_empty] at hx; cases hx) types h
  intro l
  induction l with
  | nil => intro acc hacc m hm; exact hacc m hm
  | cons r l ih =>
    intro acc hacc m hm
    rw [List.foldl_cons] at hm
    refine ih _ ?_ m hm
    intro m' hm'
    cases acc with
    | none => cases hm'
    | some m0 =>
      simp only [Option.bind_some] at hm'
      split at hm'
      · rw [Option.map_eq_some_iff] at hm'
        obtain ⟨t, ht, rfl⟩ := hm'
        intro x i hx
        by_cases hxt : x = t
        · subst hxt
          rw [AMap.get_insert_self] at hx; cases hx
          exact ht
        · rw [AMap.get_insert_ne _ _ hxt] at hx
          exact hacc m0 rfl x i hx
      · cases hm'; exact hacc _ rfl

/-- The state before the first loop. -/
theorem first_ofPool {p : ConstantPool} (hn : p.names.Reachable Strings.cnameDefault) (hm : MethodsExist p) (ht : TypeShape p)
    (hl : p.definitions.length ≤ 2 ^ 32) {s : DeclState} (h : DeclState.ofPool p = some s) : s.pool = p ∧ s.First [] := by
  unfold DeclState.ofPool at h
  cases h1 : SymbolMap.ofPool p with
  | none => rw [h1] at h; cases h
  | some m =>
    rw [h1] at h
    simp only [Option.bind_some] at h
    cases h2 : Scope.ofPool p with
    | none => rw [h2] at h; cases h
    | some sc =>
      rw [h2] at h
      simp only [Option.bind_some] at h
      have hsc : ScopeFits (FirstName [] p) sc := by
        unfold Scope.ofPool at h2
        rw [Option.map_eq_some_iff] at h2
        obtain ⟨ty, _, rfl⟩ := h2
        intro x sym hx
        have hx : (AMap.empty : AMap Text Symbol).get x = some sym := hx
        rw [AMap.get_empty] at hx; cases hx
      have htab : TypesNamed sc p := types_ofPool h2
      cases h3 : m.populateImport (.All []) .priv sc with
      | error e => rw [h3] at h; cases h
      | ok sc' =>
        rw [h3] at h
        cases h
        refine ⟨rfl, hn, by simp, fun j c hc f hf => ?_, first_symbols hl h1, hsc.import (firstPath_leads [] p) (first_symbols hl h1) h3,
          htab.of_types (populateImport_types h3), ht, C17_tables_well_formed p m h1,
          GlobalNames.start (C17_tables_well_formed p m h1) (fun x it hx => ?_) h3⟩
        rotate_left
        · obtain ⟨sym, hx, _⟩ := hx
          unfold Scope.ofPool at h2
          rw [Option.map_eq_some_iff] at h2
          obtain ⟨ty, _, rfl⟩ := h2
          have hx : (AMap.empty : AMap Text Symbol).get x = some sym := hx
          rw [AMap.get_empty] at hx; cases hx
        obtain ⟨d, g, h4, h5⟩ := hm j f ⟨c, hc, hf⟩
        exact ⟨definition_lt h4, by simp, d, h4, .inl ⟨g, h5⟩⟩

/-- Which scopes are right for what is compiled for a definition: those with the names of the module of its slot. -/
def seenBy (m : SymbolMap) (mods : List ModulePath) (qs : List Queued) (i : Idx) (sc : Scope) : Prop :=
  ∃ q ∈ qs, (∃ x ∈ q.slots, x.index = i) ∧ SeesNames m mods q.path q.imports sc

/-- Definitions belong to one module when slots are for different definitions. -/
theorem queued_unique {qs : List Queued} (h : ((qs.flatMap (·.slots)).map Slot.index).Nodup) {q q' : Queued} (hq : q ∈ qs) (hq' : q' ∈ qs)
    {x x' : Slot} (hx : x ∈ q.slots) (hx' : x' ∈ q'.slots) (he : x.index = x'.index) : q = q' := by
  induction qs with
  | nil => cases hq
  | cons r qs ih =>
    rw [List.flatMap_cons, List.map_append, List.nodup_append] at h
    obtain ⟨_, h2, h3⟩ := h
    have hlater : ∀ {y : Slot} {p : Queued}, p ∈ qs → y ∈ p.slots → y.index ∈ (qs.flatMap (·.slots)).map Slot.index :=
      fun hp hy => List.mem_map.2 ⟨_, List.mem_flatMap.2 ⟨_, hp, hy⟩, rfl⟩
    rcases List.mem_cons.1 hq with e | h1 <;> rcases List.mem_cons.1 hq' with e' | h1'
    · rw [e, e']
    · subst e; exact absurd he (h3 _ (List.mem_map.2 ⟨_, hx, rfl⟩) _ (hlater h1' hx'))
    · subst e'; exact absurd he.symm (h3 _ (List.mem_map.2 ⟨_, hx', rfl⟩) _ (hlater h1 hx))
    · exact ih h2 h1 h1'

theorem IsFunction.names {s : DeclState} {N N' : Scope → Prop} {at_ : Placed} {f : FunctionSource} (h : IsFunction s N at_ f)
    (hN : ∀ sc, N sc → N' sc) : IsFunction s N' at_ f := by
  obtain ⟨g, h1, h2, h3, h4, hty, h5, h6, h7, h8, h9, h10, hcb, hca, h11, h12, h13, h14⟩ := h
  refine ⟨g, h1, h2, h3, h4, hty, h5, h6, h7, h8, h9, h10, hcb, hca, h11, h12, h13, fun code hc => ?_⟩
  obtain ⟨b, k1, k2, k3, k4, k5, k6, k7⟩ := h14 code hc
  exact ⟨b, k1, k2, k3, k4, k5, k6, hN _ k7⟩

theorem IsField.names {s : DeclState} {N N' : Scope → Prop} {i cls : Idx} {v : Visibility} {f : FieldSource} (h : IsField s N i cls v f)
    (hN : ∀ sc, N sc → N' sc) : IsField s N' i cls v f := by
  obtain ⟨g, h1, h2, h3, h4, h5, h6, h7, h8⟩ := h
  refine ⟨g, h1, h2, h3, h4, h5, h6, h7, fun value hv => ?_⟩
  obtain ⟨b, k1, k2, k3, k4, k5⟩ := h8 value hv
  exact ⟨b, k1, k2, k3, k4, hN _ k5⟩

theorem IsClass.names {s : DeclState} {N N' : Scope → Prop} {mods : List ModulePath} {i : Idx} {path : ModulePath} {c : ClassSource} {b : Bool}
    (h : IsClass s N mods i path c b) (hN : ∀ sc, N sc → N' sc) : IsClass s N' mods i path c b := by
  obtain ⟨g, own, added, h1, h2, h3, h4, h5, h6, h7, h8, h9, h10, h11, h12, h13, h14⟩ := h
  refine ⟨g, own, added, h1, h2, h3, h4, h5, h6, h7, h8.mono fun _ _ h => h.names hN, h9, h10.mono fun _ _ h => h.names hN, h11, h12, h13, fun hb => ?_⟩
  obtain ⟨sc, k1, k2⟩ := h14 hb
  exact ⟨sc, hN _ k1, k2⟩

/-- The two loops together. -/
theorem declared_of_done {p0 : ConstantPool} {mods : List ModulePath} {s1 s : DeclState} {qs : List Queued} {seen : List Idx}
    (h : Second mods (seenBy s1.symbols mods qs) s1 (qs.flatMap (·.slots)) [] seen s) (hready : ∀ x ∈ qs.flatMap (·.slots), x.Ready s1)
    {x : Slot} {q : Queued} (hq : q ∈ qs) (hx : x ∈ q.slots) {m : SourceModule} {e : SourceEntry} (hp : q.path = m.path.getD []) (hi : q.imports = m.imports)
    (hf : x.For p0 s1.pool (m.path.getD []) e) : IsDeclared p0 s mods m e x.index := by
  have hd := h.posts x (List.mem_flatMap.2 ⟨q, hq, hx⟩)
  have hN : ∀ sc, seenBy s1.symbols mods qs x.index sc → m.Sees s mods sc := by
    rintro sc ⟨q', hq', ⟨x', hx', he⟩, hs⟩
    have := queued_unique h.distinct hq hq' hx hx' he.symm
    subst this
    unfold SourceModule.Sees
    rw [h.same.1, ← hp, ← hi]
    exact hs
  cases e <;> cases x <;> first | exact hf.elim | skip
  · obtain ⟨h1, rfl, rfl, h4⟩ := hf
    exact ⟨h1, (hd _ h4).spec.names hN⟩
  · obtain ⟨h1, rfl, rfl, h4⟩ := hf
    exact ⟨h1, (hd _ h4).spec.names hN⟩
  · obtain ⟨rfl, t, h2, h3⟩ := hf
    refine ⟨_, rfl, h3.mono (fun _ _ ht => h.keeps.frame.defName ht) fun cls c hc => ?_, (hd t h2).1.names hN⟩
    obtain ⟨gs, h4⟩ := h.keeps.frame.fields (i := cls) (fun ⟨y, hy, he⟩ => by rw [← he, (hready y hy).2.1.notClass] at hc; cases hc) hc
    exact ⟨_, h4, rfl, fun _ hg => hg⟩
  · obtain ⟨h1, rfl, rfl, h4⟩ := hf
    obtain ⟨a, cls, n, k1, k2, k3, k4, k5⟩ := hd
    exact ⟨h1, a, cls, k1, ⟨n, k2, k3⟩, k4.names hN, k5⟩
  · obtain ⟨h1, rfl, h4⟩ := hf
    exact ⟨h1, (hd _ h4).spec⟩

/-- What the two loops of a run without diagnostics leave behind: `s1` is the state between them, `qs` are the slots. -/
structure TwoLoops (p : ConstantPool) (depth : Nat) (permissive : Bool) (ms : List SourceModule) (s s1 s' : DeclState) (qs : List Queued) (seen : List Idx) : Prop where
  start : s.pool = p
  first : s.First []
  one : defineModules ⟨ms.filterMap (·.path), depth, permissive⟩ ms s = (.ok qs, s1)
  two : defineQueue ⟨ms.filterMap (·.path), depth, permissive⟩ qs [] s1 = (.ok (), s')
  fine1 : s1.Fine
  fine : s'.Fine
  frame1 : Frame1 s.pool s1.pool
  laid : Laid [] s.len s1 (qs.flatMap (·.slots))
  sources : Each2 (fun (e : SourceModule × SourceEntry) x => Slot.For p s1.pool (e.1.path.getD []) e.2 x ∧
    ∃ q ∈ qs, x ∈ q.slots ∧ q.path = e.1.path.getD [] ∧ q.imports = e.1.imports) (ms.flatMap (·.enabled (ms.filterMap (·.path)))) (qs.flatMap (·.slots))
  second : Second (ms.filterMap (·.path)) (seenBy s1.symbols (ms.filterMap (·.path)) qs) s1 (qs.flatMap (·.slots)) [] seen s'

/-- The two loops of a run without diagnostics. -/
theorem declared_loops {p : ConstantPool} (hn : p.names.Reachable Strings.cnameDefault) (hm : MethodsExist p)
    (ht : TypeShape p) {s s' : DeclState} (hs : DeclState.ofPool p = some s) {depth : Nat} {permissive : Bool} {ms : List SourceModule}
    (hd : declareModules depth permissive ms s = (.ok (), s')) (hdiag : s'.diagnostics = [])
    (hl : s'.pool.definitions.length ≤ 2 ^ 32) (hl' : s'.pool.names.strings.length + 1 < 2 ^ 32) :
    ∃ qs s1 seen, TwoLoops p depth permissive ms s s1 s' qs seen := by
  have hfine : s'.Fine := ⟨hdiag, hl, hl'⟩
  have hd : DeclM.bind (defineModules ⟨ms.filterMap (·.path), depth, permissive⟩ ms)
      (fun queue => defineQueue ⟨ms.filterMap (·.path), depth, permissive⟩ queue []) s = (.ok (), s') := hd
  unfold DeclM.bind at hd
  cases hq : defineModules ⟨ms.filterMap (·.path), depth, permissive⟩ ms s with
  | mk r s1 =>
    rw [hq] at hd
    cases r with
    | error e => cases hd
    | ok qs =>
      have hd : defineQueue ⟨ms.filterMap (·.path), depth, permissive⟩ qs [] s1 = (.ok (), s') := hd
      have hlater := (AddsDefs.defineQueue ⟨ms.filterMap (·.path), depth, permissive⟩ qs []).later s1
      rw [hd] at hlater
      have hf1 := hlater.fine hfine
      have hlater0 := (AddsDefs.defineModules ⟨ms.filterMap (·.path), depth, permissive⟩ ms).later s
      rw [hq] at hlater0
      have hf0 := hlater0.fine hf1
      have hpl : p.definitions.length ≤ 2 ^ 32 := by
        have hp : s.pool = p := by
          unfold DeclState.ofPool at hs
          simp only [Option.bind_eq_some_iff] at hs
          obtain ⟨m, _, sc, _, hs⟩ := hs
          split at hs <;> cases hs
          rfl
        rw [← hp]; exact hf0.defs
      obtain ⟨hpool, hfirst⟩ := first_ofPool hn hm ht hpl hs
      obtain ⟨hframe, hlaid, hfor⟩ := Moves.defineModules (p0 := p) hfirst (by rw [hpool]; exact .refl _) qs s1 hq hf1
      have hsecond : Second (ms.filterMap (·.path)) (seenBy s1.symbols (ms.filterMap (·.path)) qs) s1 [] (qs.flatMap (·.slots)) [] s1 :=
        ⟨hlaid.first.names, ⟨.refl _ _, fun _ h => h, fun _ h => h, fun _ h => h⟩, by simp, by simp, hlaid.ready, hlaid.apart, by simp, by simp,
          fun e he i hi => (hlaid.first.symbols e he i hi).2, fun x sym hx i hi => (hlaid.first.scope x sym hx i hi).2, hlaid.first.table, hlaid.first.shape, rfl, rfl⟩
      obtain ⟨seen, hdone⟩ := defineQueue_second hlaid.first.wf hlaid.first.global hsecond
        (fun q hq x hx sc hsc => ⟨q, hq, ⟨x, hx, rfl⟩, hsc⟩) hd hfine
      rw [List.nil_append] at hdone
      exact ⟨qs, s1, seen, hpool, hfirst, hq, hd, hf1, hfine, hframe, hlaid, hfor, hdone⟩

/-- Every declaration is in the pool. -/
theorem declared_all {p : ConstantPool} (hn : p.names.Reachable Strings.cnameDefault) (hm : MethodsExist p)
    (ht : TypeShape p) {s s' : DeclState} (hs : DeclState.ofPool p = some s) {depth : Nat} {permissive : Bool} {ms : List SourceModule}
    (hd : declareModules depth permissive ms s = (.ok (), s')) (hdiag : s'.diagnostics = [])
    (hl : s'.pool.definitions.length ≤ 2 ^ 32) (hl' : s'.pool.names.strings.length + 1 < 2 ^ 32) :
    ∃ (qs : List Queued) (s1 : DeclState), defineModules ⟨ms.filterMap (·.path), depth, permissive⟩ ms s = (.ok qs, s1) ∧ s1.Fine ∧
      s'.symbols = s1.symbols ∧ ((qs.flatMap (·.slots)).map Slot.index).Nodup ∧
      Each2 (fun (e : SourceModule × SourceEntry) i => IsDeclared p s' (ms.filterMap (·.path)) e.1 e.2 i)
        (ms.flatMap (·.enabled (ms.filterMap (·.path)))) ((qs.flatMap (·.slots)).map Slot.index) := by
  obtain ⟨qs, s1, seen, h⟩ := declared_loops hn hm ht hs hd hdiag hl hl'
  exact ⟨qs, s1, h.one, h.fine1, h.second.same.1, h.second.distinct,
    Each2.map_right (h.sources.mono_mem fun e x _ ⟨hf, q, hq, hx, hp, hi⟩ => declared_of_done h.second h.laid.ready hq hx hp hi hf)⟩

/-- C61: when the declarations go through without a diagnostic, every declaration whose conditions hold is in the
pool as it was written, and no two of them share a definition. -/
theorem C61_declarations_reach_the_pool {p : ConstantPool} (hn : p.names.Reachable Strings.cnameDefault) (hm : MethodsExist p)
    (ht : TypeShape p) {s s' : DeclState} (hs : DeclState.ofPool p = some s) {depth : Nat} {permissive : Bool} {ms : List SourceModule}
    (hd : declareModules depth permissive ms s = (.ok (), s')) (hdiag : s'.diagnostics = [])
    (hl : s'.pool.definitions.length ≤ 2 ^ 32) (hl' : s'.pool.names.strings.length + 1 < 2 ^ 32) :
    ∃ is : List Idx, is.Nodup ∧
      Each2 (fun (e : SourceModule × SourceEntry) i => IsDeclared p s' (ms.filterMap (·.path)) e.1 e.2 i)
        (ms.flatMap (·.enabled (ms.filterMap (·.path)))) is := by
  obtain ⟨qs, _, _, _, _, h1, h2⟩ := declared_all hn hm ht hs hd hdiag hl hl'
  exact ⟨_, h1, h2⟩

namespace DeclDemo

theorem names_reachable : names.Reachable Strings.cnameDefault := by
  refine .loaded (data := encCStr "None" ++ encCStr "Base" ++ encCStr "m;" ++ encCStr "Sub" ++ encCStr "g;" ++ encCStr "a" ++ encCStr "Int32")
    (n := 7) (bs := encU32 0 ++ encU32 5 ++ encU32 10 ++ encU32 13 ++ encU32 17 ++ encU32 20 ++ encU32 22) (rest := []) ?_ ?_
  · decide +kernel
  · intro d hd; simp [Strings.cnameDefault] at hd; subst hd; rfl

theorem pool_methods : MethodsExist pool := by
  rintro i f ⟨c, hc, hf⟩
  have h : pool.definitions.all (fun d => match d.value with
      | .Class c => c.functions.all fun f => (pool.function f).isSome
      | _ => true) = true := by decide +kernel
  obtain ⟨d, hd, hv⟩ := asClass_value hc
  have h1 := List.all_eq_true.1 h d (List.mem_of_getElem? hd)
  rw [hv] at h1
  have h2 := List.all_eq_true.1 h1 f hf
  rw [Option.isSome_iff_exists] at h2
  obtain ⟨g, h2⟩ := h2
  unfold ConstantPool.function ConstantPool.definitionBy at h2
  rw [Option.bind_eq_some_iff] at h2
  obtain ⟨e, h3, h4⟩ := h2
  refine ⟨e, g, h3, ?_⟩
  unfold AnyDefinition.asFunction at h4
  split at h4
  · next hv => cases h4; exact hv
  · cases h4

theorem pool_shape : TypeShape pool := by
  intro j d k g hd hg
  have h : pool.definitions.all (fun d => d.value.wraps.isNone) = true := by decide +kernel
  have := List.all_eq_true.1 h d (List.mem_of_getElem? hd)
  rw [hg] at this; cases this

/-- Sources with a class, an enum, and every annotation but `@replaceGlobal` and `@if`. -/
example : ∃ is : List Idx, is.Nodup ∧ Each2 (fun (e : SourceModule × SourceEntry) i => IsDeclared pool (after sources) [] e.1 e.2 i)
    (sources.flatMap (·.enabled [])) is ∧ is.length = 6 := by
  have h : declareModules 5 false sources start = (.ok (), after sources) := by
    have : (declareModules 5 false sources start).1.toOption = some () := by decide +kernel
    cases hd : declareModules 5 false sources start with
    | mk r s =>
      rw [hd] at this
      cases r with
      | error e => cases this
      | ok a => unfold after; rw [hd]
  obtain ⟨is, h1, h2⟩ := C61_declarations_reach_the_pool names_reachable pool_methods pool_shape start_eq h (by decide +kernel)
    (by decide +kernel) (by decide +kernel)
  refine ⟨is, h1, h2, ?_⟩
  have : (sources.flatMap (·.enabled (sources.filterMap (·.path)))).length = 6 := by decide +kernel
  rw [← h2.length]
  exact this

end DeclDemo
end Redscript
