import Verif.Unit.DeclDoneSteps

/-!
# The names code of a module is compiled with
-/

namespace Redscript
open DeclM

/-! ## Scopes -/

/-- Adding the symbol does not hide the thing. -/
def Symbol.Spares (s : Symbol) (it : Item) : Prop := it ∈ s.items ∨ (it.IsFn ∧ ∃ fs, s = .Functions fs)

theorem addAll_gives (l : List (Text × Symbol)) (sc : Scope) (n : Text) (s : Symbol) (it : Item) (hs : (n, s) ∈ l) (hit : it ∈ s.items)
    (hl : ∀ s', (n, s') ∈ l → s'.Spares it) : (sc.addAll l).Offers n it := by
  induction l generalizing sc with
  | nil => cases hs
  | cons e l ih =>
    rcases List.mem_cons.1 hs with rfl | hs
    · exact addAll_keeps l _ n it (fun s' hs' => hl s' (List.mem_cons_of_mem _ hs')) (addSymbol_new _ _ _ _ hit)
    · exact ih _ hs fun s' hs' => hl s' (List.mem_cons_of_mem _ hs')

/-- What a symbol stands for is never nothing. -/
def Symbol.Real (s : Symbol) : Prop := s.items ≠ []

theorem visible_real {level : Visibility} {s s' : Symbol} (h : s.visible level = some s') : s'.Real := by
  unfold Symbol.Real
  cases s with
  | Functions fs =>
    simp only [Symbol.visible] at h
    split at h
    · cases h
    · next hne => cases h; simpa [Symbol.items] using hne
  | Class | Struct =>
    simp only [Symbol.visible] at h
    split at h
    · cases h; simp [Symbol.items]
    · cases h
  | Enum => simp only [Symbol.visible] at h; cases h; simp [Symbol.items]

theorem Symbol.spares {s : Symbol} {it : Item} (hr : s.Real) (h : ∀ it' ∈ s.items, it' = it ∨ (it.IsFn ∧ it'.IsFn)) : s.Spares it := by
  obtain ⟨it', hit'⟩ := List.exists_mem_of_ne_nil _ hr
  rcases h it' hit' with rfl | ⟨h1, h2⟩
  · exact .inl hit'
  · refine .inr ⟨h1, ?_⟩
    cases s with
    | Functions fs => exact ⟨fs, rfl⟩
    | _ =>
      simp only [Symbol.items, List.mem_singleton] at hit'
      subst hit'
      exact h2.elim

/-- The scope is the global one with a list of symbols that stand for things the names may mean. -/
structure Opened (global : Scope) (M : Text → Item → Prop) (sc : Scope) : Prop where
  added : ∃ l, sc = global.addAll l ∧ (∀ n s, (n, s) ∈ l → s.Real ∧ ∀ it ∈ s.items, M n it)

/-- A scope with everything from the list of meanings, in so far as nothing is hidden. -/
def Offered (M : Text → Item → Prop) (sc : Scope) : Prop :=
  (∀ x it, sc.Offers x it → M x it) ∧ ∀ x it, M x it → (∀ it', M x it' → it' = it ∨ (it.IsFn ∧ it'.IsFn)) → sc.Offers x it

theorem Offered.congr {M M' : Text → Item → Prop} {sc sc' : Scope} (h : Offered M sc) (hM : ∀ x it, M x it ↔ M' x it)
    (hs : sc'.symbols = sc.symbols) : Offered M' sc' := by
  have ho : ∀ x it, sc'.Offers x it ↔ sc.Offers x it := fun x it => by unfold Scope.Offers; rw [hs]
  exact ⟨fun x it hx => (hM x it).1 (h.1 x it ((ho x it).1 hx)), fun x it hx hu =>
    (ho x it).2 (h.2 x it ((hM x it).2 hx) fun it' hx' => hu it' ((hM x it').1 hx'))⟩

/-- More symbols, and what they stand for. -/
theorem Offered.add {M A : Text → Item → Prop} {sc : Scope} (h : Offered M sc) {l : List (Text × Symbol)}
    (hl : ∀ n s, (n, s) ∈ l → s.Real) (hA : ∀ n it, A n it ↔ ∃ s, (n, s) ∈ l ∧ it ∈ s.items) :
    Offered (fun x it => M x it ∨ A x it) (sc.addAll l) := by
  refine ⟨fun x it hx => ?_, fun x it hx hu => ?_⟩
  · rcases addAll_offers l sc x it hx with hx | hx
    · exact .inl (h.1 x it hx)
    · exact .inr ((hA x it).2 hx)
  · have hsp : ∀ s', (x, s') ∈ l → s'.Spares it := fun s' hs' =>
      Symbol.spares (hl x s' hs') fun it' hit' => hu it' (.inr ((hA x it').2 ⟨s', hs', hit'⟩))
    rcases hx with hx | hx
    · exact addAll_keeps l sc x it hsp (h.2 x it hx fun it' hx' => hu it' (.inl hx'))
    · obtain ⟨s, h1, h2⟩ := (hA x it).1 hx
      exact addAll_gives l sc x s it h1 h2 hsp

/-- A successful import. -/
theorem Offered.import {M : Text → Item → Prop} {m : SymbolMap} (hm : m.Wf) {imp : Import} {level : Visibility} {sc sc' : Scope}
    (h : Offered M sc) (hi : m.populateImport imp level sc = .ok sc') :
    Offered (fun x it => M x it ∨ ∃ q, imp.Brings x q ∧ m.Declares q it ∧ it.VisibleAt level) sc' := by
  obtain ⟨l, rfl, hl⟩ := populateImport_adds m hm imp level sc sc' hi
  refine h.add (fun n s hs => ?_) fun n it => ⟨?_, ?_⟩
  · obtain ⟨_, _, _, _, hv⟩ := (hl n s).1 hs
    exact visible_real hv
  · rintro ⟨q, hq, ⟨s0, hs0, hit⟩, hv⟩
    have hg := (SymbolMap.get_eq_some hm).2 hs0
    cases hvs : s0.visible level with
    | none => exact absurd hv (visible_none hvs it hit)
    | some s => exact ⟨s, (hl n s).2 ⟨q, hq, s0, hg, hvs⟩, (visible_items hvs it).2 ⟨hit, hv⟩⟩
  · rintro ⟨s, hs, hit⟩
    obtain ⟨q, hq, s0, hg, hv⟩ := (hl n s).1 hs
    have := (visible_items hv it).1 hit
    exact ⟨q, hq, ⟨s0, (SymbolMap.get_eq_some hm).1 hg, this.1⟩, this.2⟩

theorem visibleAt_priv (it : Item) : it.VisibleAt .priv := by
  cases it with
  | enum i => trivial
  | cls i v | struct i v | fn i v => cases v <;> simp [Item.VisibleAt] <;> decide

/-- The global names are those without a module. -/
def GlobalNames (m : SymbolMap) (sc : Scope) : Prop := ∀ x it, sc.Offers x it ↔ m.Declares [x] it

/-- What is declared after a declaration. -/
theorem add_declares {m : SymbolMap} (hm : m.Wf) {p : ModulePath} (sym : Symbol) (q : ModulePath) (it : Item) :
    (m.add p sym).Declares q it ↔ (q ≠ p ∧ m.Declares q it) ∨ (q = p ∧ (it ∈ sym.items ∨ (m.Declares p it ∧ it.IsFn ∧ sym.isFunctions = true))) := by
  have hins : ∀ s', (m.insert p s').Declares q it ↔ (q ≠ p ∧ m.Declares q it) ∨ (q = p ∧ it ∈ s'.items) := by
    intro s'
    unfold SymbolMap.Declares SymbolMap.insert
    constructor
    · rintro ⟨s0, h, hit⟩
      rcases List.mem_append.1 h with h | h
      · obtain ⟨h1, h2⟩ := List.mem_filter.1 h
        exact .inl ⟨by simpa using h2, s0, h1, hit⟩
      · rw [List.mem_singleton] at h
        cases h
        exact .inr ⟨rfl, hit⟩
    · rintro (⟨h1, s0, h2, h3⟩ | ⟨rfl, h⟩)
      · exact ⟨s0, List.mem_append_left _ (List.mem_filter.2 ⟨h2, by simpa using h1⟩), h3⟩
      · exact ⟨s', List.mem_append_right _ List.mem_cons_self, h⟩
  have hget : ∀ s0, m.get p = some s0 → ∀ it, m.Declares p it ↔ it ∈ s0.items := by
    intro s0 h it
    constructor
    · rintro ⟨s1, h1, h2⟩
      rw [(SymbolMap.get_eq_some hm).2 h1] at h; cases h; exact h2
    · exact fun h1 => ⟨s0, (SymbolMap.get_eq_some hm).1 h, h1⟩
  unfold SymbolMap.add
  split
  · next fs gs hg =>
    rw [hins, hget _ hg]
    refine or_congr Iff.rfl (and_congr Iff.rfl ?_)
    simp only [Symbol.items, List.map_append, List.mem_append, Symbol.isFunctions, and_true]
    constructor
    · rintro (h | h)
      · refine .inr ⟨h, ?_⟩
        obtain ⟨x, _, rfl⟩ := List.mem_map.1 h
        trivial
      · exact .inl h
    · rintro (h | h)
      · exact .inr h
      · exact .inl h.1
  · next sym o s' hno =>
    rw [hins]
    refine or_congr Iff.rfl (and_congr Iff.rfl ⟨.inl, ?_⟩)
    rintro (h | ⟨h1, h2, h3⟩)
    · exact h
    · exfalso
      obtain ⟨s0, h4, h5⟩ := h1
      have h6 := (SymbolMap.get_eq_some hm).2 h4
      cases sym with
      | Functions gs =>
        cases s0 with
        | Functions fs => exact hno fs gs h6 rfl
        | _ =>
          simp only [Symbol.items, List.mem_singleton] at h5
          subst h5; exact h2
      | _ => cases h3

/-- What is offered after an addition. -/
theorem addSymbol_iff (sc : Scope) (n : Text) (s : Symbol) (x : Text) (it : Item) :
    (sc.addSymbol n s).Offers x it ↔ (x ≠ n ∧ sc.Offers x it) ∨ (x = n ∧ (it ∈ s.items ∨ (sc.Offers n it ∧ it.IsFn ∧ s.isFunctions = true))) := by
  by_cases hx : x = n
  · subst hx
    simp only [ne_eq, not_true_eq_false, false_and, true_and, false_or]
    constructor
    · intro h
      cases s with
      | Functions fs =>
        unfold Scope.addSymbol Scope.Offers at h
        simp only at h
        split at h
        · next gs hg =>
          obtain ⟨s0, h1, h2⟩ := h
          simp only [AMap.get_insert_self, Option.some.injEq] at h1
          subst h1
          simp only [Symbol.items, List.map_append, List.mem_append] at h2
          rcases h2 with h2 | h2
          · refine .inr ⟨⟨_, hg, h2⟩, ?_, rfl⟩
            obtain ⟨y, _, rfl⟩ := List.mem_map.1 h2
            trivial
          · exact .inl h2
        · obtain ⟨s0, h1, h2⟩ := h
          simp only [AMap.get_insert_self, Option.some.injEq] at h1
          subst h1
          exact .inl h2
      | _ =>
        obtain ⟨s0, h1, h2⟩ := h
        simp only [Scope.addSymbol, AMap.get_insert_self, Option.some.injEq] at h1
        subst h1
        exact .inl h2
    · rintro (h | ⟨h1, h2, h3⟩)
      · exact addSymbol_new _ _ _ _ h
      · cases s with
        | Functions fs => exact addSymbol_keeps_fn _ _ _ _ _ h2 h1
        | _ => cases h3
  · simp only [ne_eq, hx, not_false_eq_true, true_and, false_and, or_false]
    unfold Scope.Offers
    rw [addSymbol_other _ _ _ _ hx]

/-- Something new without a module. -/
theorem GlobalNames.add {m : SymbolMap} (hm : m.Wf) {sc : Scope} (h : GlobalNames m sc) (x : Text) (s : Symbol) :
    GlobalNames (m.add [x] s) (sc.addSymbol x s) := by
  intro y it
  rw [addSymbol_iff, add_declares hm, h y it, h x it]
  simp

/-- Something new in a module. -/
theorem GlobalNames.other {m : SymbolMap} (hm : m.Wf) {sc : Scope} (h : GlobalNames m sc) {p : ModulePath} (hp : p ≠ []) (x : Text) (s : Symbol) :
    GlobalNames (m.add (p ++ [x]) s) sc := by
  intro y it
  rw [add_declares hm, h y it]
  have : [y] ≠ p ++ [x] := by
    cases p with
    | nil => exact absurd rfl hp
    | cons a p => intro e; cases p <;> simp at e
  simp [this]

theorem insert_eq_add {m : SymbolMap} {p : ModulePath} {s : Symbol} (h : s.isFunctions = false) : m.insert p s = m.add p s := by
  unfold SymbolMap.add
  split
  · cases h
  · rfl

/-- The global names at the start. -/
theorem GlobalNames.start {m : SymbolMap} (hm : m.Wf) {sc sc' : Scope} (h0 : ∀ x it, ¬ sc.Offers x it)
    (h : m.populateImport (.All []) .priv sc = .ok sc') : GlobalNames m sc' := by
  have k0 : Offered (fun _ _ => False) sc := ⟨fun x it h => h0 x it h, fun _ _ h => h.elim⟩
  have k1 := (k0.import hm h).congr (M' := fun x it => m.Declares [x] it) (sc' := sc') (fun x it => ⟨?_, fun h => .inr ⟨_, rfl, h, visibleAt_priv it⟩⟩) rfl
  · intro x it
    refine ⟨k1.1 x it, fun hx => k1.2 x it hx fun it' hx' => ?_⟩
    obtain ⟨s, h1, h2⟩ := hx
    obtain ⟨s', h3, h4⟩ := hx'
    have h5 := (SymbolMap.get_eq_some hm).2 h1
    rw [(SymbolMap.get_eq_some hm).2 h3] at h5
    cases h5
    cases s with
    | Functions fs =>
      obtain ⟨y, _, rfl⟩ := List.mem_map.1 h2
      obtain ⟨z, _, rfl⟩ := List.mem_map.1 h4
      exact .inr ⟨trivial, trivial⟩
    | _ =>
      simp only [Symbol.items, List.mem_singleton] at h2 h4
      exact .inl (h4.trans h2.symm)
  · rintro (h | ⟨q, hq, h, _⟩)
    · exact h.elim
    · have hq : q = [] ++ [x] := hq
      rw [hq] at h; exact h

/-! ## Imports -/

section
variable {s s' : DeclState}

theorem ownSymbols_offered {path : ModulePath} {M : Text → Item → Prop} (hm : s.symbols.Wf) (h : Offered M s.moduleScope)
    (hg : ∀ x it, s.symbols.Declares [x] it → M x it)
    {u : Unit} (he : ownSymbols path s = (.ok u, s')) :
    Offered (fun x it => M x it ∨ s.symbols.Declares (path ++ [x]) it) s'.moduleScope := by
  unfold ownSymbols at he
  split at he
  · next hp =>
    cases he
    have : path = [] := by simpa using hp
    subst this
    exact h.congr (fun x it => ⟨.inl, fun k => k.elim id (hg x it)⟩) rfl
  · cases hp : s.symbols.populateImport (.All path) .priv s.moduleScope with
    | ok sc =>
      have : s' = { s with moduleScope := sc } := by
        have := congrArg Prod.snd he
        simp only [DeclM.update, hp] at this
        exact this.symm
      subst this
      refine (h.import hm hp).congr (fun x it => ⟨?_, ?_⟩) rfl
      · rintro (k | ⟨q, hq, hd, _⟩)
        · exact .inl k
        · have hq : q = path ++ [x] := hq
          rw [hq] at hd; exact .inr hd
      · rintro (k | hd)
        · exact .inl k
        · exact .inr ⟨_, rfl, hd, visibleAt_priv it⟩
    | error e =>
      have : s' = s := by
        have := congrArg Prod.snd he
        simp only [DeclM.update, hp] at this
        exact this.symm
      subst this
      refine h.congr (fun x it => ⟨.inl, fun k => k.elim id fun hd => ?_⟩) rfl
      exfalso
      obtain ⟨sym, hmem, _⟩ := hd
      unfold SymbolMap.populateImport SymbolMap.directChildren at hp
      simp only at hp
      split at hp
      · next hc =>
        split at hc
        · cases hc
        · next hno =>
          refine hno (.inr (List.any_eq_true.2 ⟨_, hmem, ?_⟩))
          exact List.isPrefixOf_iff_prefix.2 ⟨[x], rfl⟩
      · cases hp

theorem importAll_offered {cx : DeclCtx} : ∀ {is : List (Import × List Annotation)} {s s' : DeclState} {u : Unit} {M : Text → Item → Prop},
    s.symbols.Wf → Offered M s.moduleScope → importAll cx is s = (.ok u, s') → s'.Fine →
    Offered (fun x it => M x it ∨ ∃ imp anns q, (imp, anns) ∈ is ∧ evalConditions cx.modules anns = some true ∧ imp.Brings x q ∧
      s.symbols.Declares q it ∧ it.VisibleAt .pub) s'.moduleScope
  | [], s, s', u, M, hwf, hsc, hm, _ => by
    cases hm
    exact hsc.congr (fun x it => ⟨.inl, fun k => k.elim id fun ⟨_, _, _, h, _⟩ => by cases h⟩) rfl
  | (imp, anns) :: is, s, s', u, M, hwf, hsc, hm, hf => by
    have hm : DeclM.bind (conditions cx anns) (fun on => DeclM.bind (DeclM.when on (importOne imp)) fun _ => importAll cx is) s = (.ok u, s') := by
      unfold importAll at hm; exact hm
    unfold DeclM.bind at hm
    unfold conditions DeclM.readOr at hm
    cases he : evalConditions cx.modules anns with
    | none => rw [he] at hm; cases hm
    | some on =>
      rw [he] at hm
      simp only at hm
      cases on with
      | false =>
        have hm : importAll cx is s = (.ok u, s') := hm
        refine (importAll_offered hwf hsc hm hf).congr (fun x it => ⟨?_, ?_⟩) rfl
        · rintro (k | ⟨imp', anns', q, h1, h2⟩)
          · exact .inl k
          · exact .inr ⟨imp', anns', q, List.mem_cons_of_mem _ h1, h2⟩
        · rintro (k | ⟨imp', anns', q, h1, h2⟩)
          · exact .inl k
          · rcases List.mem_cons.1 h1 with h1 | h1
            · cases h1; rw [he] at h2; exact absurd h2.1 (by simp)
            · exact .inr ⟨imp', anns', q, h1, h2⟩
      | true =>
        simp only [DeclM.when, if_true] at hm
        cases hi : s.symbols.populateImport imp .pub s.moduleScope with
        | ok sc =>
          have h1 : importOne imp s = (.ok (), { s with moduleScope := sc }) := by
            unfold importOne; rw [hi]
          rw [h1] at hm
          refine (importAll_offered (s := { s with moduleScope := sc }) hwf (hsc.import hwf hi) hm hf).congr (fun x it => ⟨?_, ?_⟩) rfl
          · rintro ((k | ⟨q, h1, h2⟩) | ⟨imp', anns', q, h1, h2⟩)
            · exact .inl k
            · exact .inr ⟨imp, anns, q, List.mem_cons_self, he, h1, h2⟩
            · exact .inr ⟨imp', anns', q, List.mem_cons_of_mem _ h1, h2⟩
          · rintro (k | ⟨imp', anns', q, h1, h2⟩)
            · exact .inl (.inl k)
            · rcases List.mem_cons.1 h1 with h1 | h1
              · cases h1; exact .inl (.inr ⟨q, h2.2⟩)
              · exact .inr ⟨imp', anns', q, h1, h2⟩
        | error e =>
          exfalso
          have hb : ∀ (r : Except DeclErr Unit) (s2 : DeclState), importOne imp s = (r, s2) →
              (r ≠ .ok () ∨ s2.diagnostics ≠ []) := by
            intro r s2 h
            unfold importOne at h
            rw [hi] at h
            simp only at h
            cases e with
            | unresolvedImport p => cases h; exact .inr (by simp)
            | unresolvedModule p => cases h; exact .inr (by simp)
            | panic => cases h; exact .inl (by simp)
          cases h1 : importOne imp s with
          | mk r s2 =>
            rw [h1] at hm
            cases r with
            | error e => cases hm
            | ok a =>
              rcases hb _ _ h1 with h | h
              · exact h rfl
              · have hl := (AddsDefs.importAll cx is).later s2
                have hm : importAll cx is s2 = (.ok u, s') := hm
                rw [hm] at hl
                exact h (hl.diags hf.diags)

/-- The scope of a module, when its imports succeed. -/
theorem module_sees {cx : DeclCtx} {path : ModulePath} {imports : List (Import × List Annotation)} {s2 s3 : DeclState} {u v : Unit}
    (hwf : s.symbols.Wf) (hg : GlobalNames s.symbols s.scope) (h1 : ownSymbols path { s with moduleScope := s.scope } = (.ok u, s2))
    (h1s : s2.symbols = s.symbols) (h2 : importAll cx imports s2 = (.ok v, s3)) (hf : s3.Fine) :
    SeesNames s.symbols cx.modules path imports s3.moduleScope := by
  have k0 : Offered (fun x it => s.symbols.Declares [x] it) s.scope :=
    ⟨fun x it h => (hg x it).1 h, fun x it h _ => (hg x it).2 h⟩
  have k1 := ownSymbols_offered (s := { s with moduleScope := s.scope }) hwf k0 (fun _ _ h => h) h1
  have k2 := importAll_offered (s := s2) (by rw [h1s]; exact hwf) k1 h2 hf
  rw [h1s] at k2
  have k3 := k2.congr (M' := MayMean s.symbols cx.modules path imports) (sc' := s3.moduleScope)
    (fun x it => by unfold MayMean; exact or_assoc) rfl
  exact k3

theorem SeesNames.congr {m : SymbolMap} {mods : List ModulePath} {path : ModulePath} {imports : List (Import × List Annotation)} {sc sc' : Scope}
    (h : SeesNames m mods path imports sc) (hs : sc'.symbols = sc.symbols) : SeesNames m mods path imports sc' :=
  Offered.congr (M := MayMean m mods path imports) h (fun _ _ => Iff.rfl) hs

end
end Redscript
