import Verif.Unit.DeclInv

/-!
# Properties of what symbols stand for
-/

namespace Redscript

section
variable {G : ModulePath → Bool → Idx → Prop} {H : Text → Bool → Idx → Prop}

theorem SymbolMap.mem_of_get {m : SymbolMap} {path : ModulePath} {sym : Symbol} (h : m.get path = some sym) :
    (path, sym) ∈ m.entries := by
  unfold SymbolMap.get at h
  rw [Option.map_eq_some_iff] at h
  obtain ⟨e, h1, rfl⟩ := h
  have h2 := List.find?_some h1
  have h3 := List.mem_of_find?_eq_some h1
  simp only [decide_eq_true_eq] at h2
  rw [← h2]; exact h3

/-- The symbol is for functions. -/
def Symbol.isFunctions : Symbol → Bool
  | .Functions _ => true
  | _ => false

/-- What a symbol stands for meets `G`, which may depend on whether it is for functions. -/
def Symbol.Fits (G : Bool → Idx → Prop) (sym : Symbol) : Prop := ∀ i ∈ sym.indexes, G sym.isFunctions i

/-- What the symbols stand for meets `G` with their paths. -/
def SymbolsFit (G : ModulePath → Bool → Idx → Prop) (m : SymbolMap) : Prop := ∀ e ∈ m.entries, e.2.Fits (G e.1)

/-- What the names in the scope stand for meets `H` with the names. -/
def ScopeFits (H : Text → Bool → Idx → Prop) (sc : Scope) : Prop := ∀ x sym, sc.symbols.get x = some sym → sym.Fits (H x)

/-- `G` for a path gives `H` for its last part. -/
def Leads (G : ModulePath → Bool → Idx → Prop) (H : Text → Bool → Idx → Prop) : Prop :=
  ∀ path x b i, path.getLast? = some x → G path b i → H x b i

theorem SymbolsFit.insert {m : SymbolMap} (h : SymbolsFit G m) {path : ModulePath} {sym : Symbol} (hs : sym.Fits (G path)) :
    SymbolsFit G (m.insert path sym) := by
  intro e he
  unfold SymbolMap.insert at he
  rcases List.mem_append.1 he with he | he
  · exact h e (List.mem_filter.1 he).1
  · rw [List.mem_singleton] at he
    subst he; exact hs

theorem SymbolsFit.get {m : SymbolMap} (h : SymbolsFit G m) {path : ModulePath} {sym : Symbol} (hg : m.get path = some sym) :
    sym.Fits (G path) := h _ (SymbolMap.mem_of_get hg)

theorem SymbolsFit.add {m : SymbolMap} (h : SymbolsFit G m) {path : ModulePath} {sym : Symbol} (hs : sym.Fits (G path)) :
    SymbolsFit G (m.add path sym) := by
  unfold SymbolMap.add
  split
  · next fs gs hg =>
    refine h.insert fun i hi => ?_
    simp only [Symbol.indexes, List.map_append, List.mem_append] at hi
    rcases hi with hi | hi
    · exact h.get hg i hi
    · exact hs i hi
  · exact h.insert hs

theorem ScopeFits.insert {sc : Scope} (h : ScopeFits H sc) {x : Text} {sym : Symbol} (hs : sym.Fits (H x)) :
    ScopeFits H { sc with symbols := sc.symbols.insert x sym } := by
  intro y s hy
  have hy : (sc.symbols.insert x sym).get y = some s := hy
  rw [AMap.get_insert] at hy
  split at hy
  · next hxy => cases hy; subst hxy; exact hs
  · exact h y s hy

theorem ScopeFits.addSymbol {sc : Scope} (h : ScopeFits H sc) {x : Text} {sym : Symbol} (hs : sym.Fits (H x)) :
    ScopeFits H (sc.addSymbol x sym) := by
  unfold Scope.addSymbol
  split
  · split
    · next fs ex hg =>
      refine h.insert fun i hi => ?_
      simp only [Symbol.indexes, List.map_append, List.mem_append] at hi
      rcases hi with hi | hi
      · exact h x _ hg i hi
      · exact hs i hi
    · exact h.insert hs
  · exact h.insert hs

theorem Symbol.Fits.visible {x : Text} {sym sym' : Symbol} {level : Visibility} (h : sym.Fits (H x)) (hv : sym.visible level = some sym') :
    sym'.Fits (H x) := by
  unfold Symbol.visible at hv
  split at hv
  · split at hv <;> cases hv; exact h
  · split at hv <;> cases hv; exact h
  · cases hv; exact h
  · simp only at hv
    split at hv <;> cases hv
    intro i hi
    refine h i ?_
    simp only [Symbol.indexes, List.mem_map] at hi ⊢
    obtain ⟨f, hf, rfl⟩ := hi
    exact ⟨f, (List.mem_filter.1 hf).1, rfl⟩

theorem ScopeFits.importOne {m : SymbolMap} (hGH : Leads G H) (hm : SymbolsFit G m) {sc sc' : Scope} (h : ScopeFits H sc) {path : ModulePath}
    {level : Visibility} (hi : m.importOne path level sc = .ok sc') : ScopeFits H sc' := by
  unfold SymbolMap.importOne at hi
  cases hg : m.get path with
  | none => rw [hg] at hi; cases hi
  | some sym =>
    rw [hg] at hi
    simp only at hi
    cases hv : sym.visible level with
    | none => rw [hv] at hi; cases hi; exact h
    | some sym' =>
      rw [hv] at hi
      simp only at hi
      cases hl : path.getLast? with
      | none => rw [hl] at hi; cases hi
      | some x =>
        rw [hl] at hi
        cases hi
        exact h.addSymbol (Symbol.Fits.visible (fun i hi => hGH _ _ _ _ hl (hm.get hg i hi)) hv)

theorem ScopeFits.importSelected {m : SymbolMap} (hGH : Leads G H) (hm : SymbolsFit G m) {path : ModulePath} {level : Visibility} :
    ∀ (ns : List Text) {sc sc' : Scope}, ScopeFits H sc → m.importSelected path level ns sc = .ok sc' → ScopeFits H sc'
  | [], sc, sc', h, hi => by cases hi; exact h
  | n :: ns, sc, sc', h, hi => by
    unfold SymbolMap.importSelected at hi
    cases h1 : m.importOne (path.withChild n) level sc with
    | error e => rw [h1] at hi; cases hi
    | ok sc1 => rw [h1] at hi; exact importSelected hGH hm ns (h.importOne hGH hm h1) hi

theorem ScopeFits.keptSelected {m : SymbolMap} (hGH : Leads G H) (hm : SymbolsFit G m) {path : ModulePath} {level : Visibility} :
    ∀ (ns : List Text) {sc : Scope}, ScopeFits H sc → ScopeFits H (m.keptSelected path level ns sc)
  | [], sc, h => h
  | n :: ns, sc, h => by
    unfold SymbolMap.keptSelected
    cases h1 : m.importOne (path.withChild n) level sc with
    | error e => exact h
    | ok sc1 => exact keptSelected hGH hm ns (h.importOne hGH hm h1)

theorem SymbolsFit.children {m : SymbolMap} (hGH : Leads G H) (hm : SymbolsFit G m) {path : ModulePath} {cs : List (Text × Symbol)}
    (h : m.directChildren path = some cs) : ∀ c ∈ cs, c.2.Fits (H c.1) := by
  unfold SymbolMap.directChildren at h
  split at h
  · cases h
    intro c hc
    obtain ⟨e, he, hx⟩ := List.mem_filterMap.1 hc
    split at hx
    · split at hx
      · next hpre name hd =>
        cases hx
        refine fun i hi => hGH e.1 _ _ _ ?_ (hm e he i hi)
        rw [← List.take_append_drop path.length e.1, hd]
        simp
      · cases hx
    · cases hx
  · cases h

theorem ScopeFits.children {level : Visibility} : ∀ (cs : List (Text × Symbol)) {sc : Scope}, ScopeFits H sc →
    (∀ c ∈ cs, c.2.Fits (H c.1)) → ScopeFits H (cs.foldl (SymbolMap.importChild level) sc)
  | [], sc, h, _ => h
  | c :: cs, sc, h, hc => by
    rw [List.foldl_cons]
    refine children cs ?_ fun d hd => hc d (List.mem_cons_of_mem _ hd)
    unfold SymbolMap.importChild
    cases hv : c.2.visible level with
    | none => exact h
    | some sym => exact h.addSymbol (Symbol.Fits.visible (hc c List.mem_cons_self) hv)

theorem ScopeFits.import {m : SymbolMap} (hGH : Leads G H) (hm : SymbolsFit G m) {sc sc' : Scope} (h : ScopeFits H sc) {imp : Import}
    {level : Visibility} (hi : m.populateImport imp level sc = .ok sc') : ScopeFits H sc' := by
  cases imp with
  | Exact path => exact h.importOne hGH hm hi
  | Selected path ns => exact ScopeFits.importSelected hGH hm ns h hi
  | All path =>
    unfold SymbolMap.populateImport at hi
    simp only at hi
    cases hc : m.directChildren path with
    | none => rw [hc] at hi; cases hi
    | some cs =>
      rw [hc] at hi
      cases hi
      exact ScopeFits.children cs h (hm.children hGH hc)

theorem ScopeFits.kept {m : SymbolMap} (hGH : Leads G H) (hm : SymbolsFit G m) {sc : Scope} (h : ScopeFits H sc) (level : Visibility) (imp : Import) :
    ScopeFits H (m.importKept level sc imp) := by
  cases imp with
  | Exact path => exact h
  | Selected path ns => exact ScopeFits.keptSelected hGH hm ns h
  | All path => exact h

end
end Redscript
