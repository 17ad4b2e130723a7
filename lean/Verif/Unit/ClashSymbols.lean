import Verif.Unit.ClashPlain

/-!
# Classes that are declared twice
-/

namespace Redscript
open DeclM

theorem SymbolMap.get_insert (m : SymbolMap) (p q : ModulePath) (s : Symbol) :
    (m.insert p s).get q = if q = p then some s else m.get q := by
  unfold SymbolMap.get SymbolMap.insert
  rw [List.find?_append, List.find?_filter]
  by_cases h : q = p
  · subst h
    rw [if_pos rfl]
    have h1 : ∀ f : ModulePath × Symbol → Bool, (∀ a, f a = false) → m.entries.find? f = none := fun f hf => by
      rw [List.find?_eq_none]; intro a _; simp [hf a]
    rw [h1 _ fun a => by by_cases e : a.1 = q <;> simp [e]]
    simp
  · rw [if_neg h]
    have h1 : ∀ f g : ModulePath × Symbol → Bool, (∀ a, f a = g a) → m.entries.find? f = m.entries.find? g := fun f g hf => by
      rw [funext hf]
    rw [h1 _ (fun a => decide (a.1 = q)) fun a => by
      by_cases e : a.1 = q
      · simp [e, h]
      · simp [e]]
    have h2 : [(p, s)].find? (fun a => decide (a.1 = q)) = none := by
      simp [Ne.symm h]
    rw [h2, Option.or_none]

/-- 1 when the symbol at the path is a class. -/
def DeclState.classesAt (s : DeclState) (q : ModulePath) : Nat := ((s.symbols.get q).any Symbol.isClass).toNat

theorem DeclState.classesAt_le (s : DeclState) (q : ModulePath) : s.classesAt q ≤ 1 := by
  unfold DeclState.classesAt; exact Bool.toNat_le _

theorem DeclState.classesAt_congr {s s' : DeclState} (h : s'.symbols = s.symbols) (q : ModulePath) : s'.classesAt q = s.classesAt q := by
  unfold DeclState.classesAt; rw [h]

/-- What the table and the diagnostics tell about the classes declared between two states. -/
structure Counted (permissive : Bool) (s : DeclState) (l : List (SourceModule × SourceEntry)) (s' : DeclState) : Prop where
  upper : ∀ q, s'.classesAt q ≤ s.classesAt q + (Redscript.classesAt l q).length
  alarm : Redefined ∈ s'.diagnostics → Redefined ∈ s.diagnostics ∨
    (permissive = false ∧ ∃ q, 2 ≤ s.classesAt q + (Redscript.classesAt l q).length)
  keeps : Redefined ∈ s.diagnostics → Redefined ∈ s'.diagnostics
  lower : permissive = false → ∀ q, (∀ e ∈ l, entryPath e = q → ¬ e.2.Hides) →
    Redefined ∈ s'.diagnostics ∨ s.classesAt q + (Redscript.classesAt l q).length ≤ s'.classesAt q

namespace Counted
variable {permissive : Bool} {s s1 s' : DeclState} {l l' : List (SourceModule × SourceEntry)}

theorem append (h : Counted permissive s l s1) (h' : Counted permissive s1 l' s') : Counted permissive s (l ++ l') s' := by
  have hlen : ∀ q, (Redscript.classesAt (l ++ l') q).length = (Redscript.classesAt l q).length + (Redscript.classesAt l' q).length := fun q => by
    unfold Redscript.classesAt; rw [List.filter_append, List.length_append]
  refine ⟨fun q => ?_, fun hd => ?_, fun hd => h'.keeps (h.keeps hd), fun hp q hq => ?_⟩
  · have := h.upper q; have := h'.upper q; rw [hlen]; omega
  · rcases h'.alarm hd with hd | ⟨hp, q, hq⟩
    · rcases h.alarm hd with hd | ⟨hp, q, hq⟩
      · exact .inl hd
      · exact .inr ⟨hp, q, by rw [hlen]; omega⟩
    · exact .inr ⟨hp, q, by rw [hlen]; have := h.upper q; omega⟩
  · rcases h'.lower hp q fun e he => hq e (List.mem_append_right _ he) with k' | k'
    · exact .inl k'
    · rcases h.lower hp q fun e he => hq e (List.mem_append_left _ he) with k | k
      · exact .inl (h'.keeps k)
      · exact .inr (by rw [hlen]; omega)

theorem same (hs : s'.symbols = s.symbols) (hd : Redefined ∈ s'.diagnostics ↔ Redefined ∈ s.diagnostics)
    (hl : ∀ q, Redscript.classesAt l q = []) : Counted permissive s l s' := by
  have h := DeclState.classesAt_congr hs
  exact ⟨fun q => by rw [h, hl]; simp, fun k => .inl (hd.1 k), hd.2, fun _ q _ => .inr (by rw [h, hl]; simp)⟩

theorem nil : Counted permissive s [] s := same rfl .rfl fun _ => rfl

/-- A symbol that is not a class takes the place of what was there. -/
theorem hides {e : SourceModule × SourceEntry} {sym : Symbol} (he : e.2.isClass = false) (hh : e.2.Hides) (hsym : sym.isClass = false)
    (hs : ∀ q, s'.symbols.get q = if q = entryPath e then some sym else s.symbols.get q)
    (hd : s'.diagnostics = s.diagnostics) : Counted permissive s [e] s' := by
  have hl : ∀ q, Redscript.classesAt [e] q = [] := fun q => by simp [Redscript.classesAt, he]
  have hn : ∀ q, s'.classesAt q = if q = entryPath e then 0 else s.classesAt q := fun q => by
    unfold DeclState.classesAt; rw [hs]
    split
    · simp [hsym]
    · rfl
  refine ⟨fun q => ?_, fun k => .inl (hd ▸ k), fun k => hd ▸ k, fun _ q hq => .inr ?_⟩
  · rw [hn, hl]; split <;> simp
  · have hne : q ≠ entryPath e := fun k => hq e (List.mem_singleton.2 rfl) k.symm hh
    rw [hn, hl, if_neg hne]; simp

/-- A class is declared. -/
theorem cls {e : SourceModule × SourceEntry} {sym : Symbol} (he : e.2.isClass = true) (hsym : sym.isClass = true)
    (hok : permissive = true ∨ s.classesAt (entryPath e) = 0)
    (hs : ∀ q, s'.symbols.get q = if q = entryPath e then some sym else s.symbols.get q)
    (hd : s'.diagnostics = s.diagnostics) : Counted permissive s [e] s' := by
  have hl : ∀ q, (Redscript.classesAt [e] q).length = if q = entryPath e then 1 else 0 := fun q => by
    by_cases h : q = entryPath e
    · simp [Redscript.classesAt, he, h]
    · simp [Redscript.classesAt, he, h, Ne.symm h]
  have hn : ∀ q, s'.classesAt q = if q = entryPath e then 1 else s.classesAt q := fun q => by
    unfold DeclState.classesAt; rw [hs]
    split
    · simp [hsym]
    · rfl
  refine ⟨fun q => ?_, fun k => .inl (hd ▸ k), fun k => hd ▸ k, fun hp q _ => .inr ?_⟩
  · rw [hn, hl]; split <;> omega
  · rw [hn, hl]
    split
    · next h =>
      rcases hok with hok | hok
      · rw [hp] at hok; cases hok
      · rw [h, hok]; omega
    · omega

/-- A class that is there already. -/
theorem twice {e : SourceModule × SourceEntry} (he : e.2.isClass = true) (hp : permissive = false)
    (hq : s.classesAt (entryPath e) = 1) (hs : s'.symbols = s.symbols)
    (hd : s'.diagnostics = s.diagnostics ++ [Redefined]) : Counted permissive s [e] s' := by
  have h := DeclState.classesAt_congr hs
  refine ⟨fun q => by rw [h]; omega, fun _ => .inr ⟨hp, entryPath e, ?_⟩, fun k => ?_, fun _ q _ => .inl ?_⟩
  · simp [Redscript.classesAt, he, hq]
  · rw [hd]; exact List.mem_append_left _ k
  · rw [hd]; simp

end Counted

/-! ## The steps -/

theorem defineNamed_run (m : ModulePath) (n : Text) (sym : Idx → Symbol) (s : DeclState) :
    ∃ i s', defineNamed m n sym s = (.ok i, s') ∧ s'.symbols = s.symbols.insert (m.withChild n) (sym i) ∧
      s'.diagnostics = s.diagnostics := by
  unfold defineNamed
  by_cases h : m.isEmpty
  · simp only [DeclM.when, h]; exact ⟨_, _, rfl, rfl, rfl⟩
  · simp only [DeclM.when, h]; exact ⟨_, _, rfl, rfl, rfl⟩

theorem locatePlain_run (f : FunctionSource) (m : ModulePath) (v : Visibility) (s : DeclState) :
    ∃ i x s', locatePlain f m v s = (.ok x, s') ∧ s'.symbols = s.symbols.add (m.withChild f.declaration.name) (.Functions [(i, v)]) ∧
      s'.diagnostics = s.diagnostics := by
  unfold locatePlain
  by_cases h : m.isEmpty
  · simp only [DeclM.when, h]; exact ⟨_, _, _, rfl, rfl, rfl⟩
  · simp only [DeclM.when, h]; exact ⟨_, _, _, rfl, rfl, rfl⟩

theorem add_functions_get (m : SymbolMap) (p : ModulePath) (fs : List (Idx × Visibility)) :
    ∃ fs', ∀ q, (m.add p (.Functions fs)).get q = if q = p then some (.Functions fs') else m.get q := by
  unfold SymbolMap.add
  split
  · next h => cases h; exact ⟨_, fun q => SymbolMap.get_insert _ _ _ _⟩
  · exact ⟨_, fun q => SymbolMap.get_insert _ _ _ _⟩

theorem checkRedefinition_run (cx : DeclCtx) (p : ModulePath) (s : DeclState) :
    (checkRedefinition cx p s = (.ok (), s) ∧ (cx.permissive = true ∨ s.classesAt p = 0)) ∨
    (checkRedefinition cx p s = (.error (.compile .symbolRedefinition), s) ∧ cx.permissive = false ∧ s.classesAt p = 1) := by
  have key : checkRedefinition cx p s =
      if ((s.symbols.get p).any Symbol.isClass && !cx.permissive) = true then (.error (.compile .symbolRedefinition), s) else (.ok (), s) := by
    show DeclM.when _ (DeclM.fail _) s = _
    unfold DeclM.when
    split <;> rfl
  rw [key]
  unfold DeclState.classesAt
  cases (s.symbols.get p).any Symbol.isClass <;> cases cx.permissive <;> simp

theorem reporting_plain {m : DeclM α} [hm : Plain m] {permissive : Bool} {s s' : DeclState} {o : Option α} {e : SourceModule × SourceEntry}
    (he : e.2.isClass = false) (h : reporting m s = (.ok o, s')) : Counted permissive s [e] s' := by
  have h1 := (Plain.reporting m).symbols s
  have h2 := (Plain.reporting m).diags s
  rw [h] at h1 h2
  exact .same h1 h2 fun q => by simp [classesAt, he]

theorem reporting_cls {cx : DeclCtx} {e : SourceModule × SourceEntry} (he : e.2.isClass = true) {sym : Idx → Symbol}
    (hsym : ∀ i, (sym i).isClass = true) {k : Idx → Slot} {s s' : DeclState} {o : Option Slot} (n : Text) (hn : e.2.declaration.name = n)
    (h : reporting (do
      checkRedefinition cx ((e.1.path.getD []).withChild n)
      let index ← defineNamed (e.1.path.getD []) n sym
      Pure.pure (k index)) s = (.ok o, s')) : Counted cx.permissive s [e] s' := by
  subst hn
  obtain ⟨i, s1, h1, h2, h3⟩ := defineNamed_run (e.1.path.getD []) e.2.declaration.name sym s
  rcases checkRedefinition_run cx ((e.1.path.getD []).withChild e.2.declaration.name) s with ⟨hc, hok⟩ | ⟨hc, hp, hq⟩
  · have : reporting (do
        checkRedefinition cx ((e.1.path.getD []).withChild e.2.declaration.name)
        let index ← defineNamed (e.1.path.getD []) e.2.declaration.name sym
        Pure.pure (k index)) s = (.ok (some (k i)), s1) := by
      show DeclM.reporting (DeclM.bind _ fun _ => DeclM.bind _ _) s = _
      unfold DeclM.reporting DeclM.bind
      rw [hc]; dsimp only
      rw [h1]; rfl
    rw [this] at h
    cases h
    refine .cls he (hsym i) hok (fun q => ?_) h3
    rw [h2]; exact SymbolMap.get_insert _ _ _ _
  · have : reporting (do
        checkRedefinition cx ((e.1.path.getD []).withChild e.2.declaration.name)
        let index ← defineNamed (e.1.path.getD []) e.2.declaration.name sym
        Pure.pure (k index)) s = (.ok none, { s with diagnostics := s.diagnostics ++ [Redefined] }) := by
      show DeclM.reporting (DeclM.bind _ fun _ => DeclM.bind _ _) s = _
      unfold DeclM.reporting DeclM.bind
      rw [hc]; rfl
    rw [this] at h
    cases h
    exact .twice he hp hq rfl rfl

theorem defineSymbol_counted {cx : DeclCtx} {m : SourceModule} {e : SourceEntry} {s s' : DeclState} {o : Option Slot}
    (h : reporting (defineSymbol cx (m.path.getD []) e) s = (.ok o, s')) : Counted cx.permissive s [(m, e)] s' := by
  cases e with
  | Class c => exact reporting_cls (e := (m, .Class c)) rfl (sym := (.Class · (visibilityOf c.declaration.qualifiers))) (fun _ => rfl) _ rfl h
  | Struct c => exact reporting_cls (e := (m, .Struct c)) rfl (sym := (.Struct · (visibilityOf c.declaration.qualifiers))) (fun _ => rfl) _ rfl h
  | GlobalLet f =>
    have : Plain (defineSymbol cx (m.path.getD []) (.GlobalLet f)) := by unfold Redscript.defineSymbol; infer_instance
    exact reporting_plain rfl h
  | Enum d =>
    obtain ⟨i, s1, h1, h2, h3⟩ := defineNamed_run (m.path.getD []) d.declaration.name .Enum s
    have : reporting (defineSymbol cx (m.path.getD []) (.Enum d)) s = (.ok (some (.Enum i d)), s1) := by
      show DeclM.reporting (DeclM.bind _ _) s = _
      unfold DeclM.reporting DeclM.bind
      rw [h1]; rfl
    rw [this] at h
    cases h
    exact .hides (sym := .Enum i) rfl trivial rfl (fun q => by rw [h2]; exact SymbolMap.get_insert _ _ _ _) h3
  | Function f =>
    unfold Redscript.defineSymbol Redscript.locateFunction at h
    simp only at h
    split at h
    · next hp =>
      obtain ⟨i, x, s1, h1, h2, h3⟩ := locatePlain_run f (m.path.getD []) (visibilityOf f.declaration.qualifiers) s
      unfold DeclM.reporting at h
      rw [h1] at h
      cases h
      obtain ⟨fs, hfs⟩ := add_functions_get s.symbols ((m.path.getD []).withChild f.declaration.name) [(i, visibilityOf f.declaration.qualifiers)]
      exact .hides (e := (m, .Function f)) (sym := .Functions fs) rfl hp rfl (fun q => by rw [h2]; exact hfs q) h3
    · split at h <;> exact reporting_plain rfl h

theorem defineEntries_counted {cx : DeclCtx} {m : SourceModule} : ∀ {es : List SourceEntry} {s s' : DeclState} {xs : List Slot},
    defineEntries cx (m.path.getD []) es s = (.ok xs, s') →
    Counted cx.permissive s ((es.filter fun e => e.declaration.Enabled cx.modules).map fun e => (m, e)) s'
  | [], s, s', xs, h => by cases h; exact .nil
  | e :: es, s, s', xs, h => by
    have h : DeclM.bind (conditions cx e.declaration.annotations) (fun on =>
      if on then
        DeclM.bind (reporting (defineSymbol cx (m.path.getD []) e)) fun slot => DeclM.bind (defineEntries cx (m.path.getD []) es) fun rest =>
          Pure.pure (slot.toList ++ rest)
      else defineEntries cx (m.path.getD []) es) s = (.ok xs, s') := by
      unfold defineEntries at h; exact h
    unfold DeclM.bind conditions DeclM.readOr at h
    cases hc : evalConditions cx.modules e.declaration.annotations with
    | none => rw [hc] at h; cases h
    | some on =>
      rw [hc] at h
      dsimp only at h
      cases on with
      | false =>
        have : e.declaration.Enabled cx.modules = false := by simp [DeclSource.Enabled, hc]
        rw [List.filter_cons_of_neg (by simp [this])]
        exact defineEntries_counted h
      | true =>
        have : e.declaration.Enabled cx.modules = true := by simp [DeclSource.Enabled, hc]
        rw [List.filter_cons_of_pos (by simp [this]), List.map_cons]
        have h : DeclM.bind (reporting (defineSymbol cx (m.path.getD []) e)) (fun slot =>
            DeclM.bind (defineEntries cx (m.path.getD []) es) fun rest => Pure.pure (slot.toList ++ rest)) s = (.ok xs, s') := h
        unfold DeclM.bind at h
        cases hr : reporting (defineSymbol cx (m.path.getD []) e) s with
        | mk r s1 =>
          rw [hr] at h
          cases r with
          | error _ => cases h
          | ok o =>
            dsimp only at h
            cases hr2 : defineEntries cx (m.path.getD []) es s1 with
            | mk r s2 =>
              rw [hr2] at h
              cases r with
              | error _ => cases h
              | ok ys =>
                cases h
                exact (defineSymbol_counted hr).append (defineEntries_counted hr2)

theorem defineModules_counted {cx : DeclCtx} : ∀ {ms : List SourceModule} {s s' : DeclState} {qs : List Queued},
    defineModules cx ms s = (.ok qs, s') → Counted cx.permissive s (ms.flatMap (·.enabled cx.modules)) s'
  | [], s, s', qs, h => by cases h; exact .nil
  | m :: ms, s, s', qs, h => by
    have h : DeclM.bind (defineEntries cx (m.path.getD []) m.entries) (fun slots => DeclM.bind (defineModules cx ms) fun rest =>
        Pure.pure (⟨m.path.getD [], m.imports, slots⟩ :: rest)) s = (.ok qs, s') := by
      unfold defineModules at h; exact h
    unfold DeclM.bind at h
    rw [List.flatMap_cons]
    cases hr : defineEntries cx (m.path.getD []) m.entries s with
    | mk r s1 =>
      rw [hr] at h
      cases r with
      | error _ => cases h
      | ok o =>
        dsimp only at h
        cases hr2 : defineModules cx ms s1 with
        | mk r s2 =>
          rw [hr2] at h
          cases r with
          | error _ => cases h
          | ok ys =>
            cases h
            exact (defineEntries_counted hr).append (defineModules_counted hr2)

/-- All the declarations of the sources. -/
theorem declareModules_counted {depth : Nat} {permissive : Bool} {ms : List SourceModule} {s s' : DeclState}
    (h : declareModules depth permissive ms s = (.ok (), s')) : Counted permissive s (enabledIn ms) s' := by
  have h : DeclM.bind (defineModules ⟨ms.filterMap (·.path), depth, permissive⟩ ms)
      (fun queue => defineQueue ⟨ms.filterMap (·.path), depth, permissive⟩ queue []) s = (.ok (), s') := h
  unfold DeclM.bind at h
  cases hq : defineModules ⟨ms.filterMap (·.path), depth, permissive⟩ ms s with
  | mk r s1 =>
    rw [hq] at h
    cases r with
    | error e => cases h
    | ok qs =>
      have h : defineQueue ⟨ms.filterMap (·.path), depth, permissive⟩ qs [] s1 = (.ok (), s') := h
      have h1 := (Plain.defineQueue ⟨ms.filterMap (·.path), depth, permissive⟩ qs []).symbols s1
      have h2 := (Plain.defineQueue ⟨ms.filterMap (·.path), depth, permissive⟩ qs []).diags s1
      rw [h] at h1 h2
      have := (defineModules_counted hq).append (.same (l := []) h1 h2 fun _ => rfl)
      rwa [List.append_nil] at this

end Redscript
