import Verif.Scope.Model

/-!
# C17: imports bring in exactly the visible symbols
-/

namespace Redscript

/-! ### Specification -/

/-- One importable thing. -/
inductive Item where
  | cls (i : Idx) (v : Visibility)
  | struct (i : Idx) (v : Visibility)
  | enum (i : Idx)
  | fn (i : Idx) (v : Visibility)
  deriving DecidableEq

/-- The things a symbol stands for. -/
def Symbol.items : Symbol → List Item
  | .Class i v => [.cls i v]
  | .Struct i v => [.struct i v]
  | .Enum i => [.enum i]
  | .Functions fs => fs.map fun f => .fn f.1 f.2

/-- Visible at a level: not more hidden than the level; enums have no visibility. -/
def Item.VisibleAt (level : Visibility) : Item → Prop
  | .cls _ v | .struct _ v | .fn _ v => v.rank ≤ level.rank
  | .enum _ => True

/-- Whether it is a function. -/
def Item.IsFn : Item → Prop
  | .fn _ _ => True
  | _ => False

/-- Code in the scope can use the thing under the name. -/
def Scope.Offers (sc : Scope) (n : Text) (it : Item) : Prop :=
  ∃ s, sc.symbols.get n = some s ∧ it ∈ s.items

/-- The thing is declared at the path. -/
def SymbolMap.Declares (m : SymbolMap) (q : ModulePath) (it : Item) : Prop :=
  ∃ s, (q, s) ∈ m.entries ∧ it ∈ s.items

/-- Something is declared at the path. -/
def SymbolMap.Has (m : SymbolMap) (q : ModulePath) : Prop := ∃ s, (q, s) ∈ m.entries

/-- The paths an import statement names, with the short name each gets. -/
def Import.Brings : Import → Text → ModulePath → Prop
  | .Exact p, n, q => q = p ∧ p.getLast? = some n
  | .Selected p names, n, q => n ∈ names ∧ q = p ++ [n]
  | .All p, n, q => q = p ++ [n]

/-- Well-formed tables: one value per path, none at the root. -/
def SymbolMap.Wf (m : SymbolMap) : Prop := (m.entries.map (·.1)).Nodup ∧ [] ∉ m.entries.map (·.1)

/-! ### Tables -/

theorem SymbolMap.get_eq_some {m : SymbolMap} (h : m.Wf) {p : ModulePath} {s : Symbol} :
    m.get p = some s ↔ (p, s) ∈ m.entries := by
  unfold SymbolMap.get
  constructor
  · intro hg
    obtain ⟨e, he, rfl⟩ := Option.map_eq_some_iff.1 hg
    have h1 := List.find?_some he
    have h2 := List.mem_of_find?_eq_some he
    simp at h1
    subst h1
    exact h2
  · intro hm
    cases hf : m.entries.find? (·.1 = p) with
    | none =>
      have := List.find?_eq_none.1 hf _ hm
      simp at this
    | some e =>
      have h1 := List.find?_some hf
      have h2 := List.mem_of_find?_eq_some hf
      simp at h1
      subst h1
      have hn := h.1
      have : e.2 = s := by
        have key : ∀ (l : List (ModulePath × Symbol)), (l.map (·.1)).Nodup → e ∈ l → (e.1, s) ∈ l → e.2 = s := by
          intro l
          induction l with
          | nil => intro _ h; simp at h
          | cons x l ih =>
            intro hnd he hs
            simp only [List.map_cons, List.nodup_cons] at hnd
            rcases List.mem_cons.1 he with rfl | he
            · rcases List.mem_cons.1 hs with heq | hs
              · rw [← heq]
              · exact absurd (List.mem_map.2 ⟨_, hs, rfl⟩) hnd.1
            · rcases List.mem_cons.1 hs with heq | hs
              · exact absurd (List.mem_map.2 ⟨e, he, by rw [← heq]⟩) hnd.1
              · exact ih hnd.2 he hs
        exact key _ hn h2 hm
      simp [this]

theorem SymbolMap.get_eq_none {m : SymbolMap} (h : m.Wf) {p : ModulePath} :
    m.get p = none ↔ ¬ m.Has p := by
  constructor
  · rintro hg ⟨s, hs⟩
    rw [(SymbolMap.get_eq_some h).2 hs] at hg
    cases hg
  · intro hn
    cases hg : m.get p with
    | none => rfl
    | some s => exact absurd ⟨s, (SymbolMap.get_eq_some h).1 hg⟩ hn

theorem SymbolMap.insert_wf {m : SymbolMap} (h : m.Wf) {p : ModulePath} (hp : p ≠ []) (s : Symbol) :
    (m.insert p s).Wf := by
  unfold SymbolMap.Wf SymbolMap.insert
  simp only [List.map_append, List.map_cons, List.map_nil]
  constructor
  · rw [List.nodup_append]
    refine ⟨?_, by simp, ?_⟩
    · exact (List.Sublist.map _ List.filter_sublist).nodup h.1
    · intro a ha b hb
      simp at hb
      obtain ⟨e, he, rfl⟩ := List.mem_map.1 ha
      have := (List.mem_filter.1 he).2
      rw [hb]
      simpa using this
  · intro hmem
    rcases List.mem_append.1 hmem with hmem | hmem
    · obtain ⟨e, he, he'⟩ := List.mem_map.1 hmem
      exact h.2 (List.mem_map.2 ⟨e, (List.mem_filter.1 he).1, he'⟩)
    · simp at hmem
      exact hp hmem

theorem SymbolMap.add_wf {m : SymbolMap} (h : m.Wf) {p : ModulePath} (hp : p ≠ []) (s : Symbol) :
    (m.add p s).Wf := by
  unfold SymbolMap.add
  split <;> exact SymbolMap.insert_wf h hp _

theorem splitOnChar_ne_nil' (c : Char) (s : Text) : splitOnChar c s ≠ [] := by
  cases s with
  | nil => simp [splitOnChar]
  | cons x s =>
    rw [splitOnChar]
    split
    · simp
    · split <;> simp

theorem SymbolMap.empty_wf : (⟨[]⟩ : SymbolMap).Wf := ⟨by simp, by simp⟩

/-- C17: the tables built from a pool are well-formed. -/
theorem C17_tables_well_formed (p : ConstantPool) (m : SymbolMap) (h : SymbolMap.ofPool p = some m) :
    m.Wf := by
  unfold SymbolMap.ofPool at h
  have key : ∀ (rs : List (Idx × Definition)) (acc : Option SymbolMap), (∀ m, acc = some m → m.Wf) →
      ∀ m, rs.foldl (fun acc r => acc.bind fun m => (p.defName r.1).map fun name =>
        match SymbolMap.symbolOf r.1 r.2.value with
        | none => m
        | some s => m.add (ModulePath.parse name) s) acc = some m → m.Wf := by
    intro rs
    induction rs with
    | nil => intro acc hacc m hm; exact hacc m hm
    | cons r rs ih =>
      intro acc hacc m hm
      rw [List.foldl_cons] at hm
      refine ih _ ?_ m hm
      intro m' hm'
      obtain ⟨m0, h0, h1⟩ := Option.bind_eq_some_iff.1 hm'
      obtain ⟨name, _, h2⟩ := Option.map_eq_some_iff.1 h1
      subst h2
      have hw := hacc m0 h0
      split
      · exact hw
      · refine SymbolMap.add_wf hw ?_ _
        unfold ModulePath.parse
        simp [splitOnChar_ne_nil']
  exact key _ _ (fun m hm => by cases hm; exact SymbolMap.empty_wf) m h

/-- C17: adding a function keeps the functions already declared at the path, and other paths. -/
theorem C17_add_function_accumulates (m : SymbolMap) (hm : m.Wf) (p : ModulePath)
    (i : Idx) (v : Visibility) :
    (m.add p (.Functions [(i, v)])).Declares p (.fn i v) ∧
    (∀ j w, m.Declares p (.fn j w) → (m.add p (.Functions [(i, v)])).Declares p (.fn j w)) ∧
    (∀ q it, q ≠ p → ((m.add p (.Functions [(i, v)])).Declares q it ↔ m.Declares q it)) := by
  have hother : ∀ s q it, q ≠ p → ((m.insert p s).Declares q it ↔ m.Declares q it) := by
    intro s q it hq
    unfold SymbolMap.Declares SymbolMap.insert
    constructor
    · rintro ⟨s', hs', hit⟩
      rcases List.mem_append.1 hs' with h | h
      · exact ⟨s', (List.mem_filter.1 h).1, hit⟩
      · simp at h; exact absurd h.1 hq
    · rintro ⟨s', hs', hit⟩
      exact ⟨s', List.mem_append.2 (.inl (List.mem_filter.2 ⟨hs', by simpa using hq⟩)), hit⟩
  unfold SymbolMap.add
  split
  · next existing _ hg heq =>
    cases heq
    refine ⟨⟨_, List.mem_append.2 (.inr (List.mem_singleton.2 rfl)), by simp [Symbol.items]⟩, ?_, hother _⟩
    rintro j w ⟨s, hs, hit⟩
    have := (SymbolMap.get_eq_some hm).2 hs
    rw [hg] at this
    cases this
    refine ⟨_, List.mem_append.2 (.inr (List.mem_singleton.2 rfl)), ?_⟩
    simp only [Symbol.items, List.map_append] at hit ⊢
    exact List.mem_append.2 (.inl hit)
  · next hno =>
    refine ⟨⟨_, List.mem_append.2 (.inr (List.mem_singleton.2 rfl)), by simp [Symbol.items]⟩, ?_, hother _⟩
    rintro j w ⟨s, hs, hit⟩
    cases s with
    | Functions fs => exact absurd rfl (hno fs _ ((SymbolMap.get_eq_some hm).2 hs))
    | Class => simp [Symbol.items] at hit
    | Struct => simp [Symbol.items] at hit
    | Enum => simp [Symbol.items] at hit

/-! ### Adding symbols to a scope -/

theorem visible_items {level : Visibility} {s s' : Symbol} (h : s.visible level = some s') (it : Item) :
    it ∈ s'.items ↔ it ∈ s.items ∧ it.VisibleAt level := by
  cases s with
  | Class i v =>
    simp only [Symbol.visible] at h
    split at h
    · next hv => cases h; simp [Symbol.items]; rintro rfl; exact hv
    · cases h
  | Struct i v =>
    simp only [Symbol.visible] at h
    split at h
    · next hv => cases h; simp [Symbol.items]; rintro rfl; exact hv
    · cases h
  | Enum i =>
    simp only [Symbol.visible] at h
    cases h; simp [Symbol.items]; rintro rfl; trivial
  | Functions fs =>
    simp only [Symbol.visible] at h
    split at h
    · cases h
    · cases h
      simp only [Symbol.items, List.mem_map, List.mem_filter, decide_eq_true_eq]
      constructor
      · rintro ⟨f, ⟨h1, h2⟩, rfl⟩; exact ⟨⟨f, h1, rfl⟩, h2⟩
      · rintro ⟨⟨f, h1, rfl⟩, h2⟩; exact ⟨f, ⟨h1, h2⟩, rfl⟩

theorem visible_none {level : Visibility} {s : Symbol} (h : s.visible level = none) (it : Item)
    (hit : it ∈ s.items) : ¬ it.VisibleAt level := by
  cases s with
  | Class i v =>
    simp only [Symbol.visible] at h
    split at h
    · cases h
    · next hv => simp [Symbol.items] at hit; subst hit; exact hv
  | Struct i v =>
    simp only [Symbol.visible] at h
    split at h
    · cases h
    · next hv => simp [Symbol.items] at hit; subst hit; exact hv
  | Enum i => simp [Symbol.visible] at h
  | Functions fs =>
    simp only [Symbol.visible] at h
    split at h
    · next he =>
      intro hv
      simp only [Symbol.items, List.mem_map] at hit
      obtain ⟨f, hf, rfl⟩ := hit
      simp only [List.isEmpty_iff, List.filter_eq_nil_iff] at he
      exact he f hf (by simpa [Item.VisibleAt] using hv)
    · cases h

/-- What is offered after one addition. -/
theorem addSymbol_offers (sc : Scope) (name n : Text) (s : Symbol) (it : Item) :
    (sc.addSymbol name s).Offers n it →
      sc.Offers n it ∨ (n = name ∧ it ∈ s.items) := by
  unfold Scope.Offers Scope.addSymbol
  by_cases hn : n = name
  · subst hn
    cases s with
    | Functions fs =>
      simp only
      split
      · next existing hg =>
        simp only [AMap.get_insert_self]
        rintro ⟨t, ht, hit⟩
        cases ht
        simp only [Symbol.items, List.map_append, List.mem_append] at hit
        rcases hit with hit | hit
        · exact .inl ⟨_, hg, hit⟩
        · exact .inr ⟨trivial, hit⟩
      · simp only [AMap.get_insert_self]
        rintro ⟨t, ht, hit⟩
        cases ht
        exact .inr ⟨trivial, hit⟩
    | Class | Struct | Enum =>
      simp only [AMap.get_insert_self]
      rintro ⟨t, ht, hit⟩
      cases ht
      exact .inr ⟨trivial, hit⟩
  · have hget : ∀ v, (sc.symbols.insert name v).get n = sc.symbols.get n :=
      fun v => AMap.get_insert_ne _ v hn
    rintro ⟨t, ht, hit⟩
    left
    refine ⟨t, ?_, hit⟩
    cases s with
    | Functions fs =>
      simp only at ht
      split at ht <;> rwa [hget] at ht
    | Class | Struct | Enum => rwa [hget] at ht

theorem addSymbol_new (sc : Scope) (n : Text) (s : Symbol) (it : Item) (h : it ∈ s.items) :
    (sc.addSymbol n s).Offers n it := by
  unfold Scope.Offers Scope.addSymbol
  cases s with
  | Functions fs =>
    simp only
    split
    · refine ⟨_, AMap.get_insert_self .., ?_⟩
      simp only [Symbol.items, List.map_append, List.mem_append] at h ⊢
      exact .inr h
    · exact ⟨_, AMap.get_insert_self .., h⟩
  | Class | Struct | Enum => exact ⟨_, AMap.get_insert_self .., h⟩

theorem addSymbol_other (sc : Scope) (name n : Text) (s : Symbol) (hn : n ≠ name) :
    (sc.addSymbol name s).symbols.get n = sc.symbols.get n := by
  unfold Scope.addSymbol
  cases s with
  | Functions fs => simp only; split <;> exact AMap.get_insert_ne _ _ hn
  | Class | Struct | Enum => exact AMap.get_insert_ne _ _ hn

theorem addSymbol_keeps_fn (sc : Scope) (name n : Text) (fs : List (Idx × Visibility)) (it : Item)
    (hfn : it.IsFn) (h : sc.Offers n it) : (sc.addSymbol name (.Functions fs)).Offers n it := by
  by_cases hn : n = name
  · subst hn
    obtain ⟨s, hs, hit⟩ := h
    unfold Scope.Offers Scope.addSymbol
    cases s with
    | Functions gs =>
      simp only [hs]
      refine ⟨_, AMap.get_insert_self .., ?_⟩
      simp only [Symbol.items, List.map_append, List.mem_append] at hit ⊢
      exact .inl hit
    | Class | Struct | Enum => simp [Symbol.items] at hit; subst hit; exact hfn.elim
  · obtain ⟨s, hs, hit⟩ := h
    exact ⟨s, by rw [addSymbol_other _ _ _ _ hn]; exact hs, hit⟩

theorem addSymbol_rest (sc : Scope) (name : Text) (s : Symbol) :
    (sc.addSymbol name s).references = sc.references ∧ (sc.addSymbol name s).types = sc.types ∧
      (sc.addSymbol name s).this = sc.this ∧ (sc.addSymbol name s).function = sc.function := by
  unfold Scope.addSymbol
  cases s with
  | Functions fs => simp only; split <;> exact ⟨rfl, rfl, rfl, rfl⟩
  | Class | Struct | Enum => exact ⟨rfl, rfl, rfl, rfl⟩

/-- A sequence of additions. -/
def Scope.addAll (sc : Scope) (l : List (Text × Symbol)) : Scope :=
  l.foldl (fun sc e => sc.addSymbol e.1 e.2) sc

theorem addAll_offers (l : List (Text × Symbol)) (sc : Scope) (n : Text) (it : Item)
    (h : (sc.addAll l).Offers n it) : sc.Offers n it ∨ ∃ s, (n, s) ∈ l ∧ it ∈ s.items := by
  induction l generalizing sc with
  | nil => exact .inl h
  | cons e l ih =>
    rcases ih _ h with h | ⟨s, hs, hit⟩
    · rcases addSymbol_offers _ _ _ _ _ h with h | ⟨rfl, hit⟩
      · exact .inl h
      · exact .inr ⟨e.2, List.mem_cons_self .., hit⟩
    · exact .inr ⟨s, List.mem_cons_of_mem _ hs, hit⟩

theorem addAll_keeps (l : List (Text × Symbol)) (sc : Scope) (n : Text) (it : Item)
    (hl : ∀ s, (n, s) ∈ l → it ∈ s.items ∨ (it.IsFn ∧ ∃ fs, s = .Functions fs))
    (h : sc.Offers n it) : (sc.addAll l).Offers n it := by
  induction l generalizing sc with
  | nil => exact h
  | cons e l ih =>
    refine ih _ (fun s hs => hl s (List.mem_cons_of_mem _ hs)) ?_
    show (sc.addSymbol e.1 e.2).Offers n it
    by_cases hn : n = e.1
    · rcases hl e.2 (by rw [hn]; exact List.mem_cons_self ..) with hit | ⟨hfn, fs, hfs⟩
      · rw [hn]; exact addSymbol_new _ _ _ _ hit
      · rw [hfs]; exact addSymbol_keeps_fn _ _ _ _ _ hfn h
    · obtain ⟨s, hs, hit⟩ := h
      exact ⟨s, by rw [addSymbol_other _ _ _ _ hn]; exact hs, hit⟩

theorem addAll_complete (l : List (Text × Symbol)) (sc : Scope) (n : Text) (s : Symbol) (it : Item)
    (huniq : ∀ s', (n, s') ∈ l → s' = s) (hs : (n, s) ∈ l) (hit : it ∈ s.items) :
    (sc.addAll l).Offers n it := by
  induction l generalizing sc with
  | nil => simp at hs
  | cons e l ih =>
    rcases List.mem_cons.1 hs with rfl | hs
    · refine addAll_keeps l (sc.addSymbol n s) _ _ (fun s' hs' => .inl ?_) (addSymbol_new _ _ _ _ hit)
      rw [huniq s' (List.mem_cons_of_mem _ hs')]; exact hit
    · exact ih _ (fun s' hs' => huniq s' (List.mem_cons_of_mem _ hs')) hs

theorem addAll_other (l : List (Text × Symbol)) (sc : Scope) (n : Text) (h : ∀ s, (n, s) ∉ l) :
    (sc.addAll l).symbols.get n = sc.symbols.get n := by
  induction l generalizing sc with
  | nil => rfl
  | cons e l ih =>
    have := ih (sc.addSymbol e.1 e.2) (fun s hs => h s (List.mem_cons_of_mem _ hs))
    rw [show sc.addAll (e :: l) = (sc.addSymbol e.1 e.2).addAll l from rfl, this]
    exact addSymbol_other _ _ _ _ fun hn => h e.2 (by rw [hn]; exact List.mem_cons_self ..)

theorem addAll_rest (l : List (Text × Symbol)) (sc : Scope) :
    (sc.addAll l).references = sc.references ∧ (sc.addAll l).types = sc.types ∧
      (sc.addAll l).this = sc.this ∧ (sc.addAll l).function = sc.function := by
  induction l generalizing sc with
  | nil => exact ⟨rfl, rfl, rfl, rfl⟩
  | cons e l ih =>
    obtain ⟨h1, h2, h3, h4⟩ := ih (sc.addSymbol e.1 e.2)
    obtain ⟨g1, g2, g3, g4⟩ := addSymbol_rest sc e.1 e.2
    exact ⟨h1.trans g1, h2.trans g2, h3.trans g3, h4.trans g4⟩

/-! ### Imports as additions -/

theorem importOne_adds (m : SymbolMap) (path : ModulePath) (level : Visibility) (sc sc' : Scope)
    (h : m.importOne path level sc = .ok sc') :
    ∃ l, sc' = sc.addAll l ∧ ∀ n s, (n, s) ∈ l ↔
      path.getLast? = some n ∧ ∃ s0, m.get path = some s0 ∧ s0.visible level = some s := by
  unfold SymbolMap.importOne at h
  split at h
  · cases h
  · next sym hg =>
    split at h
    · next hv =>
      cases h
      refine ⟨[], rfl, fun n s => ⟨by simp, ?_⟩⟩
      rintro ⟨_, s0, h0, h1⟩
      rw [hg] at h0; cases h0
      rw [hv] at h1; cases h1
    · next sym' hv =>
      split at h
      · cases h
      · next name hn =>
        cases h
        refine ⟨[(name, sym')], rfl, fun n s => ⟨?_, ?_⟩⟩
        · intro hm
          simp at hm
          obtain ⟨rfl, rfl⟩ := hm
          exact ⟨hn, sym, hg, hv⟩
        · rintro ⟨h0, s0, h1, h2⟩
          rw [hn] at h0; cases h0
          rw [hg] at h1; cases h1
          rw [hv] at h2; cases h2
          exact List.mem_singleton.2 rfl

theorem importSelected_adds (m : SymbolMap) (path : ModulePath) (level : Visibility)
    (names : List Text) (sc sc' : Scope) (h : m.importSelected path level names sc = .ok sc') :
    ∃ l, sc' = sc.addAll l ∧ ∀ n s, (n, s) ∈ l ↔
      n ∈ names ∧ ∃ s0, m.get (path ++ [n]) = some s0 ∧ s0.visible level = some s := by
  induction names generalizing sc with
  | nil =>
    cases h
    exact ⟨[], rfl, by simp⟩
  | cons x names ih =>
    unfold SymbolMap.importSelected at h
    split at h
    · cases h
    · next sc1 h1 =>
      obtain ⟨l1, rfl, hl1⟩ := importOne_adds _ _ _ _ _ h1
      obtain ⟨l2, rfl, hl2⟩ := ih _ h
      refine ⟨l1 ++ l2, by simp [Scope.addAll, List.foldl_append], fun n s => ?_⟩
      rw [List.mem_append, hl1, hl2]
      simp only [ModulePath.withChild, List.getLast?_append, List.getLast?_singleton, Option.some_or,
        Option.some.injEq, List.mem_cons]
      constructor
      · rintro (⟨rfl, h⟩ | ⟨hn, h⟩)
        · exact ⟨.inl rfl, h⟩
        · exact ⟨.inr hn, h⟩
      · rintro ⟨rfl | hn, h⟩
        · exact .inl ⟨rfl, h⟩
        · exact .inr ⟨hn, h⟩

theorem directChildren_mem (m : SymbolMap) (hm : m.Wf) (p : ModulePath) (cs : List (Text × Symbol))
    (h : m.directChildren p = some cs) (n : Text) (s : Symbol) :
    (n, s) ∈ cs ↔ m.get (p ++ [n]) = some s := by
  unfold SymbolMap.directChildren at h
  split at h
  · cases h
    rw [List.mem_filterMap, SymbolMap.get_eq_some hm]
    constructor
    · rintro ⟨e, he, hc⟩
      split at hc
      · next hp =>
        obtain ⟨t, ht⟩ := List.isPrefixOf_iff_prefix.1 hp
        rw [← ht, List.drop_left] at hc
        split at hc
        · cases hc
          obtain ⟨e1, e2⟩ := e
          simp only at ht
          subst ht
          exact he
        · cases hc
      · cases hc
    · intro he
      refine ⟨_, he, ?_⟩
      rw [if_pos (List.isPrefixOf_iff_prefix.2 ⟨[n], rfl⟩)]
      simp
  · cases h

theorem foldl_importChild (level : Visibility) (cs : List (Text × Symbol)) (sc : Scope) :
    cs.foldl (SymbolMap.importChild level) sc
      = sc.addAll (cs.filterMap fun c => (c.2.visible level).map fun s => (c.1, s)) := by
  induction cs generalizing sc with
  | nil => rfl
  | cons c cs ih =>
    rw [List.foldl_cons, ih, List.filterMap_cons]
    unfold SymbolMap.importChild
    cases hv : c.2.visible level with
    | none => rfl
    | some s => rfl

/-- Every successful import is a list of additions of the visible symbols at the named paths. -/
theorem populateImport_adds (m : SymbolMap) (hm : m.Wf) (imp : Import) (level : Visibility)
    (sc sc' : Scope) (h : m.populateImport imp level sc = .ok sc') :
    ∃ l, sc' = sc.addAll l ∧ ∀ n s, (n, s) ∈ l ↔
      ∃ q, imp.Brings n q ∧ ∃ s0, m.get q = some s0 ∧ s0.visible level = some s := by
  cases imp with
  | Exact path =>
    obtain ⟨l, h1, h2⟩ := importOne_adds m path level sc sc' h
    refine ⟨l, h1, fun n s => ?_⟩
    rw [h2]
    constructor
    · rintro ⟨hn, hs⟩; exact ⟨path, ⟨rfl, hn⟩, hs⟩
    · rintro ⟨q, ⟨rfl, hn⟩, hs⟩; exact ⟨hn, hs⟩
  | Selected path names =>
    obtain ⟨l, h1, h2⟩ := importSelected_adds m path level names sc sc' h
    refine ⟨l, h1, fun n s => ?_⟩
    rw [h2]
    constructor
    · rintro ⟨hn, hs⟩; exact ⟨_, ⟨hn, rfl⟩, hs⟩
    · rintro ⟨q, ⟨hn, rfl⟩, hs⟩; exact ⟨hn, hs⟩
  | All path =>
    simp only [SymbolMap.populateImport] at h
    split at h
    · cases h
    · next cs hcs =>
      cases h
      refine ⟨_, foldl_importChild level cs sc, fun n s => ?_⟩
      rw [List.mem_filterMap]
      constructor
      · rintro ⟨⟨n', s0⟩, hc, hv⟩
        obtain ⟨s', hv', heq⟩ := Option.map_eq_some_iff.1 hv
        cases heq
        exact ⟨_, rfl, s0, (directChildren_mem m hm path cs hcs _ _).1 hc, hv'⟩
      · rintro ⟨q, rfl, s0, hg, hv⟩
        exact ⟨(n, s0), (directChildren_mem m hm path cs hcs _ _).2 hg, by simp [hv]⟩

theorem brings_unique {imp : Import} {n : Text} {q q' : ModulePath} (h : imp.Brings n q)
    (h' : imp.Brings n q') : q = q' := by
  cases imp with
  | Exact p => exact h.1.trans h'.1.symm
  | Selected p ns => exact h.2.trans h'.2.symm
  | All p => exact h.trans h'.symm

/-! ### C17 -/

/-- C17: nothing becomes available by an import except visible things declared at the paths it
names. -/
theorem C17_import_never_brings_hidden (m : SymbolMap) (hm : m.Wf) (imp : Import) (level : Visibility)
    (sc sc' : Scope) (h : m.populateImport imp level sc = .ok sc') (n : Text) (it : Item)
    (hit : sc'.Offers n it) :
    sc.Offers n it ∨ ∃ q, imp.Brings n q ∧ m.Declares q it ∧ it.VisibleAt level := by
  obtain ⟨l, rfl, hl⟩ := populateImport_adds m hm imp level sc sc' h
  rcases addAll_offers l sc n it hit with h | ⟨s, hs, hits⟩
  · exact .inl h
  · obtain ⟨q, hq, s0, hg, hv⟩ := (hl n s).1 hs
    have := (visible_items hv it).1 hits
    exact .inr ⟨q, hq, ⟨s0, (SymbolMap.get_eq_some hm).1 hg, this.1⟩, this.2⟩

/-- C17: every visible thing declared at a path the import names becomes available. -/
theorem C17_import_brings_all_visible (m : SymbolMap) (hm : m.Wf) (imp : Import) (level : Visibility)
    (sc sc' : Scope) (h : m.populateImport imp level sc = .ok sc') (n : Text) (q : ModulePath)
    (it : Item) (hq : imp.Brings n q) (hd : m.Declares q it) (hv : it.VisibleAt level) :
    sc'.Offers n it := by
  obtain ⟨l, rfl, hl⟩ := populateImport_adds m hm imp level sc sc' h
  obtain ⟨s0, hs0, hit⟩ := hd
  have hg := (SymbolMap.get_eq_some hm).2 hs0
  cases hvs : s0.visible level with
  | none => exact absurd hv (visible_none hvs it hit)
  | some s =>
    refine addAll_complete l sc n s it ?_ ((hl n s).2 ⟨q, hq, s0, hg, hvs⟩) ((visible_items hvs it).2 ⟨hit, hv⟩)
    intro s' hs'
    obtain ⟨q', hq', s1, hg1, hv1⟩ := (hl n s').1 hs'
    rw [brings_unique hq' hq, hg] at hg1
    cases hg1
    rw [hvs] at hv1
    cases hv1
    rfl

/-- C17: names the import brings nothing visible for keep their meaning; locals, parameters and types
in scope are untouched. -/
theorem C17_import_keeps_other_names (m : SymbolMap) (hm : m.Wf) (imp : Import) (level : Visibility)
    (sc sc' : Scope) (h : m.populateImport imp level sc = .ok sc') :
    (∀ n, (∀ q it, imp.Brings n q → m.Declares q it → ¬ it.VisibleAt level) →
      sc'.symbols.get n = sc.symbols.get n) ∧
    sc'.references = sc.references ∧ sc'.types = sc.types ∧ sc'.this = sc.this ∧
      sc'.function = sc.function := by
  obtain ⟨l, rfl, hl⟩ := populateImport_adds m hm imp level sc sc' h
  refine ⟨fun n hn => addAll_other l sc n fun s hs => ?_, addAll_rest l sc⟩
  obtain ⟨q, hq, s0, hg, hv⟩ := (hl n s).1 hs
  have hmem := (SymbolMap.get_eq_some hm).1 hg
  have hsne : s.items ≠ [] := by
    cases s0 with
    | Functions fs =>
      simp only [Symbol.visible] at hv
      split at hv
      · cases hv
      · next hne' => cases hv; simpa [Symbol.items] using hne'
    | Class | Struct =>
      simp only [Symbol.visible] at hv
      split at hv
      · cases hv; simp [Symbol.items]
      · cases hv
    | Enum => simp only [Symbol.visible] at hv; cases hv; simp [Symbol.items]
  obtain ⟨it, hit⟩ := List.exists_mem_of_ne_nil _ hsne
  have := (visible_items hv it).1 hit
  exact hn q it hq ⟨s0, hmem, this.1⟩ this.2

/-- C17: overloads that were already available stay available when the import brings functions under
the same name. -/
theorem C17_import_keeps_overloads (m : SymbolMap) (hm : m.Wf) (imp : Import) (level : Visibility)
    (sc sc' : Scope) (h : m.populateImport imp level sc = .ok sc') (n : Text) (it : Item)
    (hfn : it.IsFn) (hit : sc.Offers n it)
    (hfns : ∀ q it', imp.Brings n q → m.Declares q it' → it'.IsFn) : sc'.Offers n it := by
  obtain ⟨l, rfl, hl⟩ := populateImport_adds m hm imp level sc sc' h
  refine addAll_keeps l sc n it (fun s hs => .inr ⟨hfn, ?_⟩) hit
  obtain ⟨q, hq, s0, hg, hv⟩ := (hl n s).1 hs
  have hmem := (SymbolMap.get_eq_some hm).1 hg
  cases s0 with
  | Functions fs =>
    simp only [Symbol.visible] at hv
    split at hv
    · cases hv
    · exact ⟨_, (Option.some.inj hv).symm⟩
  | Class i v => exact (hfns q (.cls i v) hq ⟨_, hmem, by simp [Symbol.items]⟩).elim
  | Struct i v => exact (hfns q (.struct i v) hq ⟨_, hmem, by simp [Symbol.items]⟩).elim
  | Enum i => exact (hfns q (.enum i) hq ⟨_, hmem, by simp [Symbol.items]⟩).elim

theorem importOne_error (m : SymbolMap) (hm : m.Wf) (path : ModulePath) (level : Visibility) (sc : Scope) :
    (∃ e, m.importOne path level sc = .error e) ↔ ¬ m.Has path := by
  unfold SymbolMap.importOne
  rw [← SymbolMap.get_eq_none hm]
  split
  · next hg => exact ⟨fun _ => hg, fun _ => ⟨_, rfl⟩⟩
  · next sym hg =>
    have hne : path ≠ [] := by
      rintro rfl
      exact hm.2 (List.mem_map.2 ⟨_, (SymbolMap.get_eq_some hm).1 hg, rfl⟩)
    constructor
    · rintro ⟨e, he⟩
      split at he
      · cases he
      · split at he
        · next hl => exact absurd (List.getLast?_eq_none_iff.1 hl) hne
        · cases he
    · intro h; rw [hg] at h; cases h

theorem importSelected_error (m : SymbolMap) (hm : m.Wf) (path : ModulePath) (level : Visibility)
    (names : List Text) (sc : Scope) :
    (∃ e, m.importSelected path level names sc = .error e) ↔ ∃ n ∈ names, ¬ m.Has (path ++ [n]) := by
  induction names generalizing sc with
  | nil => simp [SymbolMap.importSelected]
  | cons x names ih =>
    have hx := importOne_error m hm (path.withChild x) level sc
    unfold SymbolMap.importSelected
    cases h1 : m.importOne (path.withChild x) level sc with
    | error e =>
      refine ⟨fun _ => ⟨x, List.mem_cons_self .., hx.1 ⟨e, h1⟩⟩, fun _ => ⟨e, rfl⟩⟩
    | ok sc1 =>
      rw [ih]
      constructor
      · rintro ⟨n, hn, hh⟩; exact ⟨n, List.mem_cons_of_mem _ hn, hh⟩
      · rintro ⟨n, hn, hh⟩
        rcases List.mem_cons.1 hn with rfl | hn
        · obtain ⟨e, he⟩ := hx.2 hh
          rw [h1] at he; cases he
        · exact ⟨n, hn, hh⟩

/-- C17: an import fails exactly when a path it names leads nowhere. -/
theorem C17_unresolved_is_an_error (m : SymbolMap) (hm : m.Wf) (imp : Import) (level : Visibility)
    (sc : Scope) :
    (∃ e, m.populateImport imp level sc = .error e) ↔
      match imp with
      | .Exact p => ¬ m.Has p
      | .Selected p names => ∃ n ∈ names, ¬ m.Has (p ++ [n])
      | .All p => p ≠ [] ∧ ∀ r, ¬ m.Has (p ++ r) := by
  cases imp with
  | Exact p => exact importOne_error m hm p level sc
  | Selected p names => exact importSelected_error m hm p level names sc
  | All p =>
    simp only [SymbolMap.populateImport, SymbolMap.directChildren]
    constructor
    · rintro ⟨e, he⟩
      split at he
      · next hn =>
        split at hn
        · cases hn
        · next hc =>
          refine ⟨fun hp => hc (.inl hp), fun r hr => hc (.inr ?_)⟩
          obtain ⟨s, hs⟩ := hr
          exact List.any_eq_true.2 ⟨_, hs, List.isPrefixOf_iff_prefix.2 ⟨r, rfl⟩⟩
      · cases he
    · rintro ⟨hp, hr⟩
      rw [if_neg]
      · exact ⟨_, rfl⟩
      · rintro (h | h)
        · exact hp h
        · obtain ⟨e, he, hpre⟩ := List.any_eq_true.1 h
          obtain ⟨r, hr'⟩ := List.isPrefixOf_iff_prefix.1 hpre
          exact hr r ⟨e.2, by rw [hr']; exact he⟩

/-- Non-vacuity: a module with a public class, a function set with a private member and a nested
module; the function already in scope is kept. -/
example :
    let m : SymbolMap := ⟨[(["M".toList, "C".toList], .Class 1 .pub),
      (["M".toList, "f".toList], .Functions [(2, .pub), (3, .priv)]),
      (["M".toList, "Sub".toList, "D".toList], .Class 4 .pub), (["M".toList, "P".toList], .Class 5 .priv)]⟩
    let sc : Scope := ⟨AMap.empty.insert "f".toList (.Functions [(9, .pub)]), .empty, .empty, none, none⟩
    m.Wf ∧ (match m.populateImport (.All ["M".toList]) .pub sc with
      | .ok sc' => decide (sc'.symbols.get "f".toList = some (.Functions [(9, .pub), (2, .pub)]) ∧
          sc'.symbols.get "C".toList = some (.Class 1 .pub) ∧ sc'.symbols.get "P".toList = none ∧
          sc'.symbols.get "D".toList = none)
      | .error _ => false) = true := by
  refine ⟨⟨by decide +kernel, by decide +kernel⟩, by decide +kernel⟩

end Redscript
