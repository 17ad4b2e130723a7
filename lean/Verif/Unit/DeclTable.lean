import Verif.Unit.DeclVisibility

/-!
# C63: code sees the names of its module

`IsDeclared` says that bodies and defaults are compiled with the names of the module they are written in, in terms
of the table of everything declared. Here is what that table holds.
-/

namespace Redscript
open DeclM

/-! ## Specification -/

/-- What a definition of the pool stands for in the table. -/
def Item.OfRoot (r : Idx × Definition) (it : Item) : Prop :=
  match r.2.value with
  | .Class c => it = if flag ClassFlags.isStructBit c.flags then .struct r.1 c.visibility else .cls r.1 c.visibility
  | .Enum _ => it = .enum r.1
  | .Function f => it = .fn r.1 f.visibility
  | _ => False

/-- The root definitions of the pool: those without a parent, under the path their name spells. -/
def FromPool (p : ConstantPool) (q : ModulePath) (it : Item) : Prop :=
  ∃ r ∈ p.roots, ∃ t, p.defName r.1 = some t ∧ q = ModulePath.parse t ∧ it.OfRoot r

/-- What a declaration with the index `i` adds to the table. Methods and fields that are added, replaced or wrapped add nothing. -/
def FromSource (m : SourceModule) (e : SourceEntry) (i : Idx) (q : ModulePath) (it : Item) : Prop :=
  q = m.path.getD [] ++ [e.declaration.name] ∧
  match e with
  | .Class c => it = .cls i (visibilityOf c.declaration.qualifiers)
  | .Struct c => it = .struct i (visibilityOf c.declaration.qualifiers)
  | .Enum _ => it = .enum i
  | .Function f => f.placing = none ∧ it = .fn i (visibilityOf f.declaration.qualifiers)
  | .GlobalLet _ => False

/-- Everything that is declared under a path. -/
def DeclaredAt (p : ConstantPool) (es : List ((SourceModule × SourceEntry) × Idx)) (q : ModulePath) (it : Item) : Prop :=
  FromPool p q it ∨ ∃ e ∈ es, FromSource e.1.1 e.1.2 e.2 q it

/-! ## Additions -/

/-- The table with more. -/
def SymbolMap.addAll (m : SymbolMap) (l : List (ModulePath × Symbol)) : SymbolMap := l.foldl (fun m e => m.add e.1 e.2) m

/-- The table holds what may be under a path unless something else that may be there hides it. -/
def Tabled (M : ModulePath → Item → Prop) (m : SymbolMap) : Prop :=
  (∀ q it, m.Declares q it → M q it) ∧ ∀ q it, M q it → (∀ it', M q it' → it' = it ∨ (it.IsFn ∧ it'.IsFn)) → m.Declares q it

theorem Tabled.congr {M M' : ModulePath → Item → Prop} {m : SymbolMap} (h : Tabled M m) (hM : ∀ q it, M q it ↔ M' q it) : Tabled M' m :=
  ⟨fun q it hx => (hM q it).1 (h.1 q it hx), fun q it hx hu => h.2 q it ((hM q it).2 hx) fun it' hx' => hu it' ((hM q it').1 hx')⟩

theorem Symbol.isFunctions_of_spares {s : Symbol} {it : Item} (h : s.Spares it) : it ∈ s.items ∨ (it.IsFn ∧ s.isFunctions = true) :=
  h.imp id fun ⟨h1, fs, e⟩ => ⟨h1, by rw [e]; rfl⟩

theorem Tabled.add {M : ModulePath → Item → Prop} {m : SymbolMap} (h : Tabled M m) (hm : m.Wf) {p : ModulePath} {s : Symbol} (hr : s.Real) :
    Tabled (fun q it => M q it ∨ (q = p ∧ it ∈ s.items)) (m.add p s) := by
  refine ⟨fun q it hx => ?_, fun q it hx hu => ?_⟩
  · rcases (add_declares hm _ _ _).1 hx with ⟨_, hx⟩ | ⟨rfl, hx | ⟨hx, _⟩⟩
    · exact .inl (h.1 q it hx)
    · exact .inr ⟨rfl, hx⟩
    · exact .inl (h.1 _ it hx)
  · rw [add_declares hm]
    have hold : M q it → m.Declares q it := fun hx => h.2 q it hx fun it' hx' => hu it' (.inl hx')
    by_cases hq : q = p
    · refine .inr ⟨hq, ?_⟩
      subst hq
      have hsp : s.Spares it := Symbol.spares hr fun it' hit' => hu it' (.inr ⟨rfl, hit'⟩)
      rcases hx with hx | hx
      · exact (Symbol.isFunctions_of_spares hsp).imp id fun ⟨h1, h2⟩ => ⟨hold hx, h1, h2⟩
      · exact .inl hx.2
    · exact .inl ⟨hq, hx.elim hold fun hx => absurd hx.1 hq⟩

theorem Tabled.addAll : ∀ {l : List (ModulePath × Symbol)} {m : SymbolMap} {M : ModulePath → Item → Prop}, Tabled M m → m.Wf →
    (∀ e ∈ l, e.1 ≠ [] ∧ e.2.Real) → Tabled (fun q it => M q it ∨ ∃ e ∈ l, q = e.1 ∧ it ∈ e.2.items) (m.addAll l) ∧ (m.addAll l).Wf
  | [], m, M, h, hm, _ => ⟨h.congr fun q it => ⟨.inl, fun k => k.elim id fun ⟨_, h, _⟩ => by cases h⟩, hm⟩
  | e :: l, m, M, h, hm, hl => by
    obtain ⟨h1, h2⟩ := hl e List.mem_cons_self
    obtain ⟨k1, k2⟩ := Tabled.addAll (l := l) (h.add hm (p := e.1) h2) (SymbolMap.add_wf hm h1 e.2) fun e he => hl e (List.mem_cons_of_mem _ he)
    refine ⟨k1.congr fun q it => ?_, k2⟩
    simp only [List.mem_cons, exists_eq_or_imp]
    exact or_assoc

/-! ## The table of a pool -/

theorem symbolOf_items {r : Idx × Definition} (it : Item) :
    it.OfRoot r ↔ ∃ sym, SymbolMap.symbolOf r.1 r.2.value = some sym ∧ it ∈ sym.items := by
  unfold Item.OfRoot SymbolMap.symbolOf
  cases r.2.value with
  | Class c =>
    dsimp only
    split <;> simp [Symbol.items]
  | Enum e => simp [Symbol.items]
  | Function f => simp [Symbol.items]
  | _ => simp

theorem symbolOf_real {i : Idx} {v : AnyDefinition} {sym : Symbol} (h : SymbolMap.symbolOf i v = some sym) : sym.Real := by
  unfold SymbolMap.symbolOf at h
  unfold Symbol.Real
  split at h
  · split at h <;> cases h <;> simp [Symbol.items]
  · cases h; simp [Symbol.items]
  · cases h; simp [Symbol.items]
  · cases h

theorem parse_ne_nil (t : Text) : ModulePath.parse t ≠ [] := by
  unfold ModulePath.parse
  simpa using splitOnChar_ne_nil' _ _

theorem tabled_ofPool {p : ConstantPool} {m : SymbolMap} (h : SymbolMap.ofPool p = some m) : Tabled (FromPool p) m := by
  unfold SymbolMap.ofPool at h
  suffices ∀ (l : List (Idx × Definition)) (m0 : SymbolMap) (M : ModulePath → Item → Prop), m0.Wf → Tabled M m0 →
      ∀ m, l.foldl (fun acc r => acc.bind fun m => (p.defName r.1).map fun name =>
        match SymbolMap.symbolOf r.1 r.2.value with
        | none => m
        | some s => m.add (ModulePath.parse name) s) (some m0) = some m →
      Tabled (fun q it => M q it ∨ ∃ r ∈ l, ∃ t, p.defName r.1 = some t ∧ q = ModulePath.parse t ∧ it.OfRoot r) m by
    refine (this p.roots ⟨[]⟩ (fun _ _ => False) SymbolMap.empty_wf ⟨fun q it hx => ?_, fun _ _ h => h.elim⟩ m h).congr
      fun q it => ⟨fun k => k.elim False.elim id, .inr⟩
    obtain ⟨_, hx, _⟩ := hx
    cases hx
  intro l
  induction l with
  | nil =>
    intro m0 M hm0 ht m hm
    cases hm
    exact ht.congr fun q it => ⟨.inl, fun k => k.elim id fun ⟨_, h, _⟩ => by cases h⟩
  | cons r l ih =>
    intro m0 M hm0 ht m hm
    rw [List.foldl_cons] at hm
    simp only [Option.bind_some] at hm
    have hnone : ∀ l : List (Idx × Definition), l.foldl (fun acc r => acc.bind fun m => (p.defName r.1).map fun name =>
        match SymbolMap.symbolOf r.1 r.2.value with
        | none => m
        | some s => m.add (ModulePath.parse name) s) none = (none : Option SymbolMap) := by
      intro l; induction l with
      | nil => rfl
      | cons r l ih => rw [List.foldl_cons]; exact ih
    cases hn : p.defName r.1 with
    | none => rw [hn, Option.map_none, hnone] at hm; cases hm
    | some t =>
      rw [hn, Option.map_some] at hm
      cases hsym : SymbolMap.symbolOf r.1 r.2.value with
      | none =>
        rw [hsym] at hm
        refine (ih m0 M hm0 ht m hm).congr fun q it => or_congr Iff.rfl ?_
        simp only [List.mem_cons, exists_eq_or_imp]
        refine ⟨.inr, fun k => k.elim (fun ⟨_, _, _, h⟩ => ?_) id⟩
        obtain ⟨s, h, _⟩ := (symbolOf_items it).1 h
        rw [hsym] at h; cases h
      | some sym =>
        rw [hsym] at hm
        refine (ih _ _ (SymbolMap.add_wf hm0 (parse_ne_nil t) sym) (ht.add hm0 (symbolOf_real hsym)) m hm).congr fun q it => ?_
        simp only [List.mem_cons, exists_eq_or_imp]
        rw [or_assoc]
        refine or_congr Iff.rfl (or_congr ⟨?_, ?_⟩ Iff.rfl)
        · rintro ⟨h1, h2⟩
          exact ⟨t, hn, h1, (symbolOf_items it).2 ⟨sym, hsym, h2⟩⟩
        · rintro ⟨t', h0, h1, h2⟩
          rw [hn] at h0; cases h0
          obtain ⟨s, h3, h4⟩ := (symbolOf_items it).1 h2
          rw [hsym] at h3; cases h3
          exact ⟨h1, h4⟩

/-! ## The table after the first loop -/

/-- The step does not touch the table. -/
class KeepsTable (m : DeclM α) : Prop where
  keeps : ∀ s : DeclState, (m s).2.symbols = s.symbols

namespace KeepsTable

instance pure' (a : α) : KeepsTable (Pure.pure a : DeclM α) := ⟨fun _ => rfl⟩

instance bind' (m : DeclM α) (f : α → DeclM β) [hm : KeepsTable m] [hf : ∀ a, KeepsTable (f a)] : KeepsTable (m >>= f) := ⟨fun s => by
  show (DeclM.bind m f s).2.symbols = s.symbols
  unfold DeclM.bind
  have h1 := hm.keeps s
  cases h : m s with
  | mk r s1 =>
    rw [h] at h1
    cases r with
    | error e => exact h1
    | ok a => exact ((hf a).keeps s1).trans h1⟩

instance fail (e : DeclErr) : KeepsTable (DeclM.fail e : DeclM α) := ⟨fun _ => rfl⟩
instance read (f : DeclState → α) : KeepsTable (DeclM.read f) := ⟨fun _ => rfl⟩
instance readOr (e : DeclErr) (f : DeclState → Option α) : KeepsTable (DeclM.readOr e f) := ⟨fun s => by
  unfold DeclM.readOr; cases f s <;> rfl⟩
instance diagnose (d : DeclDiag) : KeepsTable (DeclM.diagnose d) := ⟨fun _ => rfl⟩
instance when (c : Bool) (m : DeclM Unit) [hm : KeepsTable m] : KeepsTable (DeclM.when c m) := by
  unfold DeclM.when; split
  · exact hm
  · infer_instance
instance addName (t : Text) : KeepsTable (DeclM.addName t) := ⟨fun _ => rfl⟩
instance stub (i : Idx) : KeepsTable (DeclM.stub i) := ⟨fun _ => rfl⟩
instance classAt (i : Idx) : KeepsTable (DeclM.classAt i) := readOr _ _
instance annTarget (a : Annotation) : KeepsTable (annTarget a) := readOr _ _
instance onClass (i : Idx) (f : ClassDef → ClassDef) : KeepsTable (DeclM.onClass i f) := ⟨fun s => by
  unfold DeclM.onClass
  cases s.pool.modifyValue (AnyDefinition.onClass f) i <;> rfl⟩
instance targetClass (a : Annotation) : KeepsTable (targetClass a) := by
  unfold Redscript.targetClass
  refine @bind' _ _ _ _ inferInstance fun x => @bind' _ _ _ _ inferInstance fun sym => ?_
  split <;> infer_instance
instance targetMethod (cls : Idx) (name sig : Text) : KeepsTable (targetMethod cls name sig) := ⟨fun s => by
  unfold Redscript.targetMethod
  cases directMethods s.pool name cls with
  | none => rfl
  | some fs => dsimp only; cases byId s.pool sig fs <;> rfl⟩
instance declareWrap (cls : Idx) (name sig : Text) : KeepsTable (declareWrap cls name sig) := ⟨fun s => by
  unfold Redscript.declareWrap
  cases Wraps.declare ⟨s.pool, s.wrappers, s.proxies⟩ name sig cls <;> rfl⟩
instance addedBase (c : ClassDef) (sig : Text) : KeepsTable (addedBase c sig) := by
  unfold Redscript.addedBase
  split <;> infer_instance
instance locateWrap (a : Annotation) (f : FunctionSource) (v : Visibility) : KeepsTable (locateWrap a f v) := by
  unfold Redscript.locateWrap; infer_instance
instance locateReplace (a : Annotation) (f : FunctionSource) (v : Visibility) : KeepsTable (locateReplace a f v) := by
  unfold Redscript.locateReplace; infer_instance
instance locateGlobal (f : FunctionSource) (v : Visibility) : KeepsTable (locateGlobal f v) := by
  unfold Redscript.locateGlobal; infer_instance
instance locateAdd (a : Annotation) (f : FunctionSource) (v : Visibility) : KeepsTable (locateAdd a f v) := by
  unfold Redscript.locateAdd; infer_instance

end KeepsTable

/-- What a declaration with the index adds to the table. -/
def SourceEntry.adds (path : ModulePath) (i : Idx) : SourceEntry → List (ModulePath × Symbol)
  | .Class c => [(path ++ [c.declaration.name], .Class i (visibilityOf c.declaration.qualifiers))]
  | .Struct c => [(path ++ [c.declaration.name], .Struct i (visibilityOf c.declaration.qualifiers))]
  | .Enum e => [(path ++ [e.declaration.name], .Enum i)]
  | .Function f => if f.placing.isNone then [(path ++ [f.declaration.name], .Functions [(i, visibilityOf f.declaration.qualifiers)])] else []
  | .GlobalLet _ => []

theorem adds_fine {path : ModulePath} {i : Idx} {e : SourceEntry} : ∀ a ∈ e.adds path i, a.1 ≠ [] ∧ a.2.Real := by
  intro a ha
  cases e with
  | Function f =>
    simp only [SourceEntry.adds] at ha
    split at ha
    · rw [List.mem_singleton] at ha; subst ha; simp [Symbol.Real, Symbol.items]
    · cases ha
  | GlobalLet f => cases ha
  | _ =>
    simp only [SourceEntry.adds, List.mem_singleton] at ha
    subst ha; simp [Symbol.Real, Symbol.items]

theorem adds_iff {m : SourceModule} {e : SourceEntry} {i : Idx} {q : ModulePath} {it : Item} :
    (∃ a ∈ e.adds (m.path.getD []) i, q = a.1 ∧ it ∈ a.2.items) ↔ FromSource m e i q it := by
  unfold FromSource
  cases e with
  | Function f =>
    simp only [SourceEntry.adds, SourceEntry.declaration]
    cases f.placing <;> simp [Symbol.items]
  | GlobalLet f => simp [SourceEntry.adds]
  | _ => simp [SourceEntry.adds, Symbol.items, SourceEntry.declaration]

section
variable {s s' : DeclState}

/-- A step with a result, taken apart. -/
theorem bind_taken {m : DeclM α} {f : α → DeclM β} {b : β} (h : (m >>= f) s = (.ok b, s')) : ∃ a s1, m s = (.ok a, s1) ∧ f a s1 = (.ok b, s') := by
  have h : DeclM.bind m f s = (.ok b, s') := h
  unfold DeclM.bind at h
  cases hm : m s with
  | mk r s1 =>
    rw [hm] at h
    cases r with
    | error e => cases h
    | ok a => exact ⟨a, s1, rfl, h⟩

theorem KeepsTable.ok {m : DeclM α} [hm : KeepsTable m] {a : α} (h : m s = (.ok a, s')) : s'.symbols = s.symbols := by
  have := hm.keeps s
  rw [h] at this; exact this

theorem locateFunction_table {f : FunctionSource} {path : ModulePath} {x : Slot} (h : locateFunction f path s = (.ok x, s')) :
    s'.symbols = s.symbols.addAll ((SourceEntry.Function f).adds path x.index) := by
  unfold locateFunction at h
  cases hp : f.placing with
  | none =>
    have hp' := hp
    unfold FunctionSource.placing at hp
    rw [hp] at h
    simp only at h
    unfold locatePlain at h
    obtain ⟨n, s1, h1, h⟩ := bind_taken h
    obtain ⟨i, s2, h2, h⟩ := bind_taken h
    obtain ⟨_, s3, h3, h⟩ := bind_taken h
    obtain ⟨_, s4, h4, h⟩ := bind_taken h
    cases h
    have e4 : s'.symbols = s3.symbols := by
      unfold DeclM.when at h4
      split at h4 <;> cases h4 <;> rfl
    have e3 : s3.symbols = s2.symbols.add (path.withChild f.declaration.name) (.Functions [(i, visibilityOf f.declaration.qualifiers)]) := by
      cases h3; rfl
    rw [e4, e3, KeepsTable.ok h2, KeepsTable.ok h1]
    simp only [SourceEntry.adds, hp', Option.isNone_none, if_true]
    rfl
  | some a =>
    have hno : (SourceEntry.Function f).adds path x.index = [] := by simp [SourceEntry.adds, hp]
    rw [hno]
    unfold FunctionSource.placing at hp
    rw [hp] at h
    simp only at h
    show s'.symbols = s.symbols
    cases hk : a.kind <;> rw [hk] at h <;> exact KeepsTable.ok h

theorem defineNamed_table {path : ModulePath} {name : Text} {sym : Idx → Symbol} (hs : ∀ i, (sym i).isFunctions = false) {i : Idx}
    (h : defineNamed path name sym s = (.ok i, s')) : s'.symbols = s.symbols.addAll [(path ++ [name], sym i)] := by
  unfold defineNamed at h
  obtain ⟨n, s1, h1, h⟩ := bind_taken h
  obtain ⟨i, s2, h2, h⟩ := bind_taken h
  obtain ⟨_, s3, h3, h⟩ := bind_taken h
  obtain ⟨_, s4, h4, h⟩ := bind_taken h
  cases h
  have e4 : s'.symbols = s3.symbols := by
    unfold DeclM.when at h4
    split at h4 <;> cases h4 <;> rfl
  have e3 : s3.symbols = s2.symbols.insert (path.withChild name) (sym i) := by cases h3; rfl
  rw [e4, e3, KeepsTable.ok h2, KeepsTable.ok h1, insert_eq_add (hs i)]
  rfl

theorem defineSymbol_table {cx : DeclCtx} {path : ModulePath} {e : SourceEntry} {x : Slot} (h : defineSymbol cx path e s = (.ok x, s')) :
    s'.symbols = s.symbols.addAll (e.adds path x.index) := by
  have hcheck : ∀ {q : ModulePath} {u : Unit} {s s1 : DeclState}, checkRedefinition cx q s = (.ok u, s1) → s1.symbols = s.symbols := by
    intro q u s s1 h
    have : KeepsTable (checkRedefinition cx q) := by unfold checkRedefinition; infer_instance
    exact KeepsTable.ok h
  cases e with
  | Class c =>
    unfold defineSymbol at h
    obtain ⟨_, s1, h1, h⟩ := bind_taken h
    obtain ⟨i, s2, h2, h⟩ := bind_taken h
    cases h
    rw [defineNamed_table (fun _ => rfl) h2, hcheck h1]; rfl
  | Struct c =>
    unfold defineSymbol at h
    obtain ⟨_, s1, h1, h⟩ := bind_taken h
    obtain ⟨i, s2, h2, h⟩ := bind_taken h
    cases h
    rw [defineNamed_table (fun _ => rfl) h2, hcheck h1]; rfl
  | Enum e =>
    unfold defineSymbol at h
    obtain ⟨i, s2, h2, h⟩ := bind_taken h
    cases h
    rw [defineNamed_table (fun _ => rfl) h2]; rfl
  | Function f => exact locateFunction_table h
  | GlobalLet f =>
    unfold defineSymbol at h
    have : KeepsTable (do
      let name ← addName f.declaration.name
      let index ← stub name
      Pure.pure (Slot.Field index f (visibilityOf f.declaration.qualifiers)) : DeclM Slot) := inferInstance
    exact KeepsTable.ok h

end

/-- The additions of a list of declarations. -/
def addsOf (es : List ((SourceModule × SourceEntry) × Idx)) : List (ModulePath × Symbol) :=
  es.flatMap fun e => e.1.2.adds (e.1.1.path.getD []) e.2

theorem addAll_append (m : SymbolMap) (l l' : List (ModulePath × Symbol)) : m.addAll (l ++ l') = (m.addAll l).addAll l' :=
  List.foldl_append

theorem defineEntries_table {cx : DeclCtx} {m : SourceModule} : ∀ {es : List SourceEntry} {s s' : DeclState} {xs : List Slot},
    defineEntries cx (m.path.getD []) es s = (.ok xs, s') → s'.Fine →
    xs.length = ((es.filter fun e => e.declaration.Enabled cx.modules).map fun e => (m, e)).length ∧
    s'.symbols = s.symbols.addAll (addsOf (((es.filter fun e => e.declaration.Enabled cx.modules).map fun e => (m, e)).zip (xs.map Slot.index)))
  | [], s, s', xs, h, _ => by cases h; exact ⟨rfl, rfl⟩
  | e :: es, s, s', xs, h, hf => by
    unfold defineEntries at h
    obtain ⟨on, s1, h1, h⟩ := bind_taken h
    have hon : s1 = s ∧ e.declaration.Enabled cx.modules = on := by
      unfold conditions DeclM.readOr at h1
      unfold DeclSource.Enabled
      cases hc : evalConditions cx.modules e.declaration.annotations with
      | none => rw [hc] at h1; cases h1
      | some b => rw [hc] at h1; cases h1; exact ⟨rfl, by cases on <;> rfl⟩
    obtain ⟨rfl, hon⟩ := hon
    cases on with
    | false =>
      rw [List.filter_cons_of_neg (by rw [hon]; simp)]
      simp only [Bool.false_eq_true, if_false] at h
      exact defineEntries_table h hf
    | true =>
      rw [List.filter_cons_of_pos (p := fun e : SourceEntry => DeclSource.Enabled cx.modules e.declaration) (a := e) hon]
      simp only [if_true] at h
      obtain ⟨o, s2, h2, h⟩ := bind_taken h
      obtain ⟨rest, s3, h3, h⟩ := bind_taken h
      cases h
      obtain ⟨k1, k2⟩ := defineEntries_table h3 hf
      have hf2 : s2.Fine := by
        have := (AddsDefs.defineEntries cx (m.path.getD []) es).later s2
        rw [h3] at this; exact this.fine hf
      have ho : ∃ x, o = some x ∧ defineSymbol cx (m.path.getD []) e s1 = (.ok x, s2) := by
        unfold DeclM.reporting at h2
        cases hd : defineSymbol cx (m.path.getD []) e s1 with
        | mk r t =>
          rw [hd] at h2
          cases r with
          | ok a => cases h2; exact ⟨a, rfl, rfl⟩
          | error er =>
            exfalso
            cases er with
            | compile c => cases h2; exact absurd hf2.diags (by simp)
            | cte => cases h2; exact absurd hf2.diags (by simp)
            | pool => cases h2
            | panic => cases h2
      obtain ⟨x, rfl, ho⟩ := ho
      refine ⟨by simpa using k1, ?_⟩
      rw [k2, defineSymbol_table ho]
      simp only [Option.toList_some, List.singleton_append, List.map_cons, List.zip_cons_cons, addsOf, List.flatMap_cons]
      rw [addAll_append]

theorem defineModules_table {cx : DeclCtx} : ∀ {ms : List SourceModule} {s s' : DeclState} {qs : List Queued},
    defineModules cx ms s = (.ok qs, s') → s'.Fine →
    s'.symbols = s.symbols.addAll (addsOf ((ms.flatMap (·.enabled cx.modules)).zip ((qs.flatMap (·.slots)).map Slot.index)))
  | [], s, s', xs, h, _ => by cases h; rfl
  | m :: ms, s, s', xs, h, hf => by
    unfold defineModules at h
    obtain ⟨xs, s1, h1, h⟩ := bind_taken h
    obtain ⟨qs, s2, h2, h⟩ := bind_taken h
    cases h
    have hf1 : s1.Fine := by
      have := (AddsDefs.defineModules cx ms).later s1
      rw [h2] at this; exact this.fine hf
    obtain ⟨k1, k2⟩ := defineEntries_table h1 hf1
    rw [defineModules_table h2 hf, k2, ← addAll_append]
    unfold addsOf
    rw [← List.flatMap_append, List.flatMap_cons, List.flatMap_cons, List.map_append, List.zip_append]
    · rfl
    · rw [List.length_map]; exact k1.symm

/-- C63: when the declarations go through without a diagnostic, what is known under a path is what the pool and
the declarations put there. Only what another declaration under the same path hides may be missing: everything
but overloads of a function. Bodies and defaults are compiled with the names of their module (see `IsDeclared`
and `SeesNames`): those in this table without a module, those of the module itself, and the public ones that its
imports bring. -/
theorem C63_names_come_from_declarations {p : ConstantPool} (hn : p.names.Reachable Strings.cnameDefault) (hm : MethodsExist p)
    (ht : TypeShape p) {s s' : DeclState} (hs : DeclState.ofPool p = some s) {depth : Nat} {permissive : Bool} {ms : List SourceModule}
    (hd : declareModules depth permissive ms s = (.ok (), s')) (hdiag : s'.diagnostics = [])
    (hl : s'.pool.definitions.length ≤ 2 ^ 32) (hl' : s'.pool.names.strings.length + 1 < 2 ^ 32) :
    ∃ is : List Idx, is.Nodup ∧
      Each2 (fun (e : SourceModule × SourceEntry) i => IsDeclared p s' (ms.filterMap (·.path)) e.1 e.2 i)
        (ms.flatMap (·.enabled (ms.filterMap (·.path)))) is ∧
      (∀ q it, s'.symbols.Declares q it → DeclaredAt p ((ms.flatMap (·.enabled (ms.filterMap (·.path)))).zip is) q it) ∧
      ∀ q it, DeclaredAt p ((ms.flatMap (·.enabled (ms.filterMap (·.path)))).zip is) q it →
        (∀ it', DeclaredAt p ((ms.flatMap (·.enabled (ms.filterMap (·.path)))).zip is) q it' → it' = it ∨ (it.IsFn ∧ it'.IsFn)) →
        s'.symbols.Declares q it := by
  obtain ⟨qs, s1, h1, h2, h3, h4, h5⟩ := declared_all hn hm ht hs hd hdiag hl hl'
  refine ⟨_, h4, h5, ?_⟩
  have h0 : ∃ m, SymbolMap.ofPool p = some m ∧ s.symbols = m := by
    unfold DeclState.ofPool at hs
    simp only [Option.bind_eq_some_iff] at hs
    obtain ⟨m, hm, sc, _, hs⟩ := hs
    split at hs <;> cases hs
    exact ⟨m, hm, rfl⟩
  obtain ⟨m, h0, h0'⟩ := h0
  rw [h3, defineModules_table h1 h2, h0']
  obtain ⟨k, _⟩ := Tabled.addAll (M := FromPool p) (tabled_ofPool h0) (C17_tables_well_formed p m h0)
    (l := addsOf ((ms.flatMap (·.enabled (ms.filterMap (·.path)))).zip ((qs.flatMap (·.slots)).map Slot.index)))
    fun a ha => by
      obtain ⟨e, _, he⟩ := List.mem_flatMap.1 ha
      exact adds_fine a he
  refine k.congr fun q it => or_congr Iff.rfl ?_
  constructor
  · rintro ⟨a, ha, h⟩
    obtain ⟨e, he, ha⟩ := List.mem_flatMap.1 ha
    exact ⟨e, he, adds_iff.1 ⟨a, ha, h⟩⟩
  · rintro ⟨e, he, h⟩
    obtain ⟨a, ha, h⟩ := adds_iff.2 h
    exact ⟨a, List.mem_flatMap.2 ⟨e, he, ha⟩, h⟩

/-- C63: the body of every function, and of every method written in a class, is compiled with the names of the
module it is written in. -/
theorem C63_bodies_see_their_module {p : ConstantPool} (hn : p.names.Reachable Strings.cnameDefault) (hm : MethodsExist p)
    (ht : TypeShape p) {s s' : DeclState} (hs : DeclState.ofPool p = some s) {depth : Nat} {permissive : Bool} {ms : List SourceModule}
    (hd : declareModules depth permissive ms s = (.ok (), s')) (hdiag : s'.diagnostics = [])
    (hl : s'.pool.definitions.length ≤ 2 ^ 32) (hl' : s'.pool.names.strings.length + 1 < 2 ^ 32) {m : SourceModule} (hmod : m ∈ ms)
    {e : SourceEntry} (he : e ∈ m.entries) (hon : e.declaration.Enabled (ms.filterMap (·.path)) = true) {f : FunctionSource}
    (hf : e = .Function f ∨ ∃ c, (e = .Class c ∨ e = .Struct c) ∧ f ∈ methodsOn (ms.filterMap (·.path)) c.members)
    {code : List (Expr SourceAst)} (hb : f.body = some code) :
    ∃ b ∈ s'.bodies, b.code = code ∧ SeesNames s'.symbols (ms.filterMap (·.path)) (m.path.getD []) m.imports b.scope := by
  obtain ⟨is, _, h⟩ := C61_declarations_reach_the_pool hn hm ht hs hd hdiag hl hl'
  obtain ⟨i, _, hi⟩ := h.mem_left (a := (m, e)) (List.mem_flatMap.2 ⟨m, hmod, List.mem_map.2 ⟨e, List.mem_filter.2 ⟨he, hon⟩, rfl⟩⟩)
  have key : ∀ {at_ : Placed}, IsFunction s' (m.Sees s' (ms.filterMap (·.path))) at_ f →
      ∃ b ∈ s'.bodies, b.code = code ∧ SeesNames s'.symbols (ms.filterMap (·.path)) (m.path.getD []) m.imports b.scope := by
    rintro at_ ⟨_, _, _, _, _, _, _, _, _, _, _, _, _, _, _, _, _, h⟩
    obtain ⟨b, h1, _, _, h4, _, _, h7⟩ := h code hb
    exact ⟨b, h1, h4, h7⟩
  have hcls : ∀ {c : ClassSource} {b : Bool}, IsClass s' (m.Sees s' (ms.filterMap (·.path))) (ms.filterMap (·.path)) i (m.path.getD []) c b →
      f ∈ methodsOn (ms.filterMap (·.path)) c.members →
      ∃ b ∈ s'.bodies, b.code = code ∧ SeesNames s'.symbols (ms.filterMap (·.path)) (m.path.getD []) m.imports b.scope := by
    rintro c b ⟨_, _, _, _, _, _, _, _, _, _, h, _⟩ hfm
    obtain ⟨j, _, hj⟩ := h.mem_left hfm
    exact key hj
  rcases hf with rfl | ⟨c, rfl | rfl, hfm⟩
  · obtain ⟨at_, _, _, h⟩ := hi
    exact key h
  · exact hcls hi.2 hfm
  · exact hcls hi.2 hfm

namespace DeclDemo

/-- A module with a public and a private function, one that imports it, and one that does not. -/
def modular : List SourceModule := [
  ⟨some ["A".toList], [], [
    .Function ⟨decl [] "x" [.Public], none, [], some []⟩,
    .Function ⟨decl [] "y" [.Private], none, [], some []⟩,
    .Class ⟨decl [] "K" [.Public], some "Sub".toList, [.Function (func [] "m")]⟩]⟩,
  ⟨some ["B".toList], [(.All ["A".toList], [])], [.Function ⟨decl [] "z" [.Public], none, [], some []⟩]⟩,
  ⟨none, [], [.Function ⟨decl [] "w" [.Public], none, [], some []⟩]⟩]

/-- What can be used in the bodies: the first three are in `A`, then one each in `B` and in no module. -/
example : (declareModules 5 false modular start).1.toOption = some () ∧ (after modular).diagnostics = [] ∧
    (after modular).pool.definitions.length ≤ 2 ^ 32 ∧ (after modular).pool.names.strings.length + 1 < 2 ^ 32 ∧
    (after modular).bodies.map (fun b => ["x", "y", "z", "w", "g"].map fun n => (b.scope.resolveFunction n.toList).isSome) =
      [[true, true, false, true, true], [true, true, false, true, true], [true, true, false, true, true],
       [true, false, true, true, true], [false, false, false, true, true]] ∧
    (after modular).bodies.map (fun b => (b.scope.classFor "K".toList).isSome) = [true, true, true, true, false] := by
  decide +kernel

end DeclDemo
end Redscript
