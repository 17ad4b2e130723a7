import Verif.Unit.WrapModel
import Verif.Unit.CleanupProps
import Verif.Bundle.PoolProps
import Verif.Parser.LexProps
import Verif.Scope.Model
import Verif.Vm.Props

/-!
# C36: wrappers nest in the order of their declaration (declarations)
-/

namespace Redscript

/-! ## What the steps keep -/

/-- A definition with more methods. -/
def Definition.addMethods (fs : List Idx) (d : Definition) : Definition :=
  match d.value with
  | .Class c => { d with value := .Class { c with functions := c.functions ++ fs } }
  | _ => d

theorem Definition.addMethods_nil (d : Definition) : d.addMethods [] = d := by
  unfold Definition.addMethods
  split
  · next h => cases d; simp_all
  · rfl

theorem Definition.addMethods_add (d : Definition) (fs gs : List Idx) :
    (d.addMethods fs).addMethods gs = d.addMethods (fs ++ gs) := by
  obtain ⟨_, _, _, _, _, v⟩ := d
  cases v <;> simp [Definition.addMethods]

theorem Definition.addMethods_name (d : Definition) (fs : List Idx) : (d.addMethods fs).name = d.name := by
  obtain ⟨_, _, _, _, _, v⟩ := d
  cases v <;> rfl

theorem Definition.addMethods_function {d : Definition} {f : FunctionDef} (h : d.value = .Function f) (fs : List Idx) :
    d.addMethods fs = d := by
  obtain ⟨_, _, _, _, _, v⟩ := d
  cases v <;> first | rfl | cases h

/-- What every step leaves alone: definitions stay where they are, except those exempted, and only classes
change, by getting methods among `new`; texts keep their indexes. -/
structure KeptBut (ex new : Idx → Prop) (p p' : ConstantPool) : Prop where
  size : p.definitions.length ≤ p'.definitions.length
  defs : ∀ i d, ¬ ex i → p.definition i = some d → ∃ fs, (∀ f ∈ fs, new f) ∧ p'.definition i = some (d.addMethods fs)
  names : ∀ i s, p.names.get Strings.cnameDefault i = some s → p'.names.get Strings.cnameDefault i = some s

theorem KeptBut.refl (ex new : Idx → Prop) (p : ConstantPool) : KeptBut ex new p p :=
  ⟨Nat.le_refl _, fun _ d _ h => ⟨[], by simp, by rw [d.addMethods_nil]; exact h⟩, fun _ _ h => h⟩

theorem KeptBut.trans {ex new : Idx → Prop} {p q r : ConstantPool} (h : KeptBut ex new p q) (k : KeptBut ex new q r) :
    KeptBut ex new p r := by
  refine ⟨Nat.le_trans h.size k.size, fun i d hx hd => ?_, fun i s hs => k.names i s (h.names i s hs)⟩
  obtain ⟨fs, n1, h1⟩ := h.defs i d hx hd
  obtain ⟨gs, n2, h2⟩ := k.defs i _ hx h1
  exact ⟨fs ++ gs, fun f hf => (List.mem_append.1 hf).elim (n1 f) (n2 f), by rw [h2, d.addMethods_add]⟩

theorem KeptBut.weaken {ex ex' new new' : Idx → Prop} {p q : ConstantPool} (h : KeptBut ex new p q)
    (hx : ∀ i, ex i → ex' i) (hn : ∀ i, new i → new' i) : KeptBut ex' new' p q :=
  ⟨h.size, fun i d hi hd => (h.defs i d (fun e => hi (hx i e)) hd).imp fun _ k => ⟨fun f hf => hn f (k.1 f hf), k.2⟩, h.names⟩

theorem KeptBut.defName {ex new : Idx → Prop} {p q : ConstantPool} (h : KeptBut ex new p q) {i : Idx} {s : Text} (hx : ¬ ex i)
    (hs : p.defName i = some s) : q.defName i = some s := by
  unfold ConstantPool.defName at *
  cases hd : p.definition i with
  | none => rw [hd] at hs; cases hs
  | some d =>
    rw [hd] at hs
    obtain ⟨fs, _, h1⟩ := h.defs i d hx hd
    rw [h1]
    simp only [Option.bind_some, Definition.addMethods_name] at hs ⊢
    cases hn : p.names.get Strings.cnameDefault d.name with
    | none => rw [hn] at hs; cases hs
    | some t => rw [hn] at hs; rw [h.names _ _ hn]; exact hs

theorem definition_lt {p : ConstantPool} {i : Idx} {d : Definition} (h : p.definition i = some d) :
    i.toNat < p.definitions.length := (List.getElem?_eq_some_iff.1 h).1

theorem defName_lt {p : ConstantPool} {i : Idx} {s : Text} (h : p.defName i = some s) :
    i.toNat < p.definitions.length := by
  unfold ConstantPool.defName at h
  cases hd : p.definition i with
  | none => rw [hd] at h; cases h
  | some d => exact definition_lt hd

theorem ofNat_toNat {n : Nat} (h : n < 2 ^ 32) : (BitVec.ofNat 32 n).toNat = n := by
  rw [BitVec.toNat_ofNat, Nat.mod_eq_of_lt h]

/-- Adding a definition. -/
theorem kept_add (ex new : Idx → Prop) (p : ConstantPool) (d : Definition) : KeptBut ex new p (p.addDefinition d).2 := by
  refine ⟨by simp [ConstantPool.addDefinition], fun i d' _ h => ⟨[], by simp, ?_⟩, fun _ _ h => h⟩
  rw [d'.addMethods_nil]
  show (p.definitions ++ [d])[i.toNat]? = some d'
  rw [List.getElem?_append_left (definition_lt h)]
  exact h

theorem add_index {p : ConstantPool} (h : p.definitions.length < 2 ^ 32) (d : Definition) :
    (p.addDefinition d).1.toNat = p.definitions.length ∧ (p.addDefinition d).2.definition (p.addDefinition d).1 = some d ∧
    (p.addDefinition d).2.definitions.length = p.definitions.length + 1 ∧ (p.addDefinition d).2.names = p.names := by
  obtain ⟨_, h1, _⟩ := C12_add p d h
  exact ⟨ofNat_toNat h, h1, by simp [ConstantPool.addDefinition], rfl⟩

/-- Adding a text. -/
theorem kept_text (ex new : Idx → Prop) (p : ConstantPool) (s : String) :
    KeptBut ex new p { p with names := (p.names.add Strings.cnameDefault s).2 } :=
  ⟨Nat.le_refl _, fun _ d _ h => ⟨[], by simp, by rw [d.addMethods_nil]; exact h⟩,
    fun i t h => C11_add_keeps Strings.cnameDefault p.names s t i h⟩

/-- A change of one definition's value. -/
theorem modifyValue_spec {p p' : ConstantPool} {g : AnyDefinition → Option AnyDefinition} {i : Idx}
    (h : p.modifyValue g i = some p') : ∃ d v, p.definition i = some d ∧ g d.value = some v ∧
      p'.definition i = some { d with value := v } ∧ (∀ k, k ≠ i → p'.definition k = p.definition k) ∧
      p'.definitions.length = p.definitions.length ∧ p'.names = p.names := by
  unfold ConstantPool.modifyValue at h
  cases hd : p.definitions[i.toNat]? with
  | none => rw [hd] at h; cases h
  | some d =>
    rw [hd] at h
    simp only [Option.bind_some] at h
    cases hg : g d.value with
    | none => rw [hg] at h; cases h
    | some v =>
      rw [hg] at h
      simp only [Option.map_some, Option.some.injEq] at h
      subst h
      refine ⟨d, v, hd, hg, ?_, fun k hk => ?_, by simp, rfl⟩
      · show (p.definitions.set i.toNat _)[i.toNat]? = _
        rw [List.getElem?_set_self (List.getElem?_eq_some_iff.1 hd).1]
      · show (p.definitions.set i.toNat _)[k.toNat]? = _
        rw [List.getElem?_set_ne (fun e => hk (BitVec.eq_of_toNat_eq e.symm))]
        rfl

theorem onClass_some {g : ClassDef → ClassDef} {v v' : AnyDefinition} (h : AnyDefinition.onClass g v = some v') :
    ∃ c, v = .Class c ∧ v' = .Class (g c) := by
  cases v <;> simp [AnyDefinition.onClass] at h
  exact ⟨_, rfl, h.symm⟩

theorem onFunction_some {g : FunctionDef → FunctionDef} {v v' : AnyDefinition} (h : AnyDefinition.onFunction g v = some v') :
    ∃ c, v = .Function c ∧ v' = .Function (g c) := by
  cases v <;> simp [AnyDefinition.onFunction] at h
  exact ⟨_, rfl, h.symm⟩

/-- Adding a method to a class. -/
theorem pushFunction_spec {p p' : ConstantPool} {cls f : Idx} (h : p.pushFunction cls f = some p')
    (ex new : Idx → Prop) (hn : new f) : KeptBut ex new p p' ∧ p'.definitions.length = p.definitions.length ∧ p'.names = p.names ∧
    (∀ k, k ≠ cls → p'.definition k = p.definition k) ∧
    ∃ d c, p.definition cls = some d ∧ d.value = .Class c ∧ p'.definition cls = some (d.addMethods [f]) := by
  obtain ⟨d, v, h1, h2, h3, h4, h5, h6⟩ := modifyValue_spec h
  obtain ⟨c, hc, rfl⟩ := onClass_some h2
  have hm : ({ d with value := .Class { c with functions := c.functions ++ [f] } } : Definition) = d.addMethods [f] := by
    unfold Definition.addMethods; rw [hc]
  rw [hm] at h3
  refine ⟨⟨by omega, fun i d' _ hd => ?_, fun i s hs => by rw [h6]; exact hs⟩, h5, h6, h4, d, c, h1, hc, h3⟩
  by_cases hi : i = cls
  · subst hi
    rw [h1] at hd
    cases hd
    exact ⟨_, by simpa using hn, h3⟩
  · exact ⟨[], by simp, by rw [h4 i hi, d'.addMethods_nil]; exact hd⟩

/-! ## Names made of indexes -/

theorem digitsOf_inj {m n : Nat} (h : digitsOf 10 m = digitsOf 10 n) : m = n := by
  have h1 := (digitsOf_dec m).2.2
  have h2 := (digitsOf_dec n).2.2
  rw [h] at h1
  omega

theorem indexName_text (pre : String) (i : Idx) : (indexName pre i).toList = pre.toList ++ digitsOf 10 i.toNat := by
  simp [indexName]

theorem indexName_inj {pre : String} {i j : Idx} (h : (indexName pre i).toList = (indexName pre j).toList) : i = j := by
  rw [indexName_text, indexName_text] at h
  exact BitVec.eq_of_toNat_eq (digitsOf_inj (List.append_cancel_left h))

theorem wrapper_ne_proxy (i j : Idx) : (indexName "wrapper$" i).toList ≠ (indexName "proxy$" j).toList := by
  rw [indexName_text, indexName_text]
  intro h
  have := congrArg List.head? h
  simp at this

theorem dollar_wrapper (i : Idx) : '$' ∈ (indexName "wrapper$" i).toList := by
  rw [indexName_text]; simp

theorem dollar_proxy (i : Idx) : '$' ∈ (indexName "proxy$" i).toList := by
  rw [indexName_text]; simp

/-! ## Declarations -/

/-- What other declarations may do between wrapper declarations, and everything that happens after the last
of them until the proxies are built: indexes in use and their names stay, the slots reserved for originals
are not touched, classes keep their bases and methods. -/
structure OtherWork (st : Wraps) (p : ConstantPool) : Prop where
  size : st.pool.definitions.length ≤ p.definitions.length
  table : p.names.Reachable Strings.cnameDefault
  slots : ∀ f r, st.proxies.get f = some r → p.definition r = st.pool.definition r
  names : ∀ i s, st.pool.defName i = some s → p.defName i = some s
  classes : ∀ i d c, st.pool.definition i = some d → d.value = .Class c → ∃ d' c', p.definition i = some d' ∧
    d'.value = .Class c' ∧ c'.base = c.base ∧ ∀ f ∈ c.functions, f ∈ c'.functions

/-- A sequence of wrapper declarations, with other work in between. A name in the source has no `$`, and no
method is called `None`; the pool has room for the new definitions and names. -/
inductive Declared : Wraps → List WrapSlot → Wraps → Prop
  | nil {st : Wraps} : Declared st [] st
  | wrap {st st' st'' : Wraps} {slots : List WrapSlot} {s : WrapSlot} {ident sig : Text} {cls : Idx} :
      Declared st slots st' → st'.declare ident sig cls = .ok (s, st'') → '$' ∉ sig → sig ≠ "None".toList →
      st''.pool.definitions.length ≤ 2 ^ 32 → st'.pool.names.strings.length + 1 < 2 ^ 32 →
      Declared st (slots ++ [s]) st''
  | other {st st' : Wraps} {slots : List WrapSlot} {p : ConstantPool} :
      Declared st slots st' → OtherWork st' p → Declared st slots { st' with pool := p }

/-- `slots` are wrappers around `inner`, each around the one before it; `outer` is the last. -/
def Nested : Idx → List WrapSlot → Idx → Prop
  | inner, [], outer => outer = inner
  | inner, s :: ss, outer => s.wrapped = inner ∧ Nested s.index ss outer

/-- The wrappers of a function, in the order of their declaration. -/
def wrappersOf (f : Idx) (slots : List WrapSlot) : List WrapSlot := slots.filter fun s => decide (s.target = f)

theorem Nested.snoc : ∀ {ss : List WrapSlot} {a b : Idx} {s : WrapSlot}, Nested a ss b → s.wrapped = b →
    Nested a (ss ++ [s]) s.index
  | [], _, _, _, h, hs => ⟨by rw [hs]; exact h, rfl⟩
  | _ :: _, _, _, _, h, hs => ⟨h.1, Nested.snoc h.2 hs⟩

/-- What is known after a sequence of declarations that began with the pool `p0`. -/
structure WrapInv (p0 : ConstantPool) (slots : List WrapSlot) (st : Wraps) : Prop where
  size : p0.definitions.length ≤ st.pool.definitions.length
  table : st.pool.names.Reachable Strings.cnameDefault
  /-- no wrappers, no entries; otherwise the wrappers nest around the slot reserved for the original -/
  unwrapped : ∀ f, st.wrappers.get f = none → st.proxies.get f = none ∧ wrappersOf f slots = []
  nested : ∀ f w, st.wrappers.get f = some w → ∃ r, st.proxies.get f = some r ∧ wrappersOf f slots ≠ [] ∧
    Nested r (wrappersOf f slots) w
  /-- reserved slots are new and still empty -/
  reserved : ∀ f r, st.proxies.get f = some r → p0.definitions.length ≤ r.toNat ∧ st.pool.definition r = some .default
  apart : ∀ f f' r, st.proxies.get f = some r → st.proxies.get f' = some r → f = f'
  /-- wrappers are new, have their own names and are methods of their class -/
  new : ∀ s ∈ slots, p0.definitions.length ≤ s.index.toNat ∧
    st.pool.defName s.index = some (indexName "wrapper$" s.wrapped).toList ∧
    (∀ f, st.proxies.get f ≠ some s.index) ∧
    ∃ d c, st.pool.definition s.parent = some d ∧ d.value = .Class c ∧ s.index ∈ c.functions
  distinct : (slots.map (·.index)).Nodup
  /-- wrapped functions are neither wrappers nor reserved slots -/
  targets : ∀ s ∈ slots, (∃ t, st.pool.defName s.target = some t ∧ '$' ∉ t) ∧ ∀ f, st.proxies.get f ≠ some s.target

theorem WrapInv.init {p0 : ConstantPool} (h : p0.names.Reachable Strings.cnameDefault) :
    WrapInv p0 [] { pool := p0, wrappers := .empty, proxies := .empty } where
  size := Nat.le_refl _
  table := h
  unwrapped := fun _ _ => ⟨rfl, rfl⟩
  nested := fun _ _ h => by cases h
  reserved := fun _ _ h => by cases h
  apart := fun _ _ _ h => by cases h
  new := fun _ h => by cases h
  distinct := List.nodup_nil
  targets := fun _ h => by cases h

theorem WrapInv.other {p0 : ConstantPool} {slots : List WrapSlot} {st : Wraps} (h : WrapInv p0 slots st) {p : ConstantPool}
    (k : OtherWork st p) : WrapInv p0 slots { st with pool := p } where
  size := Nat.le_trans h.size k.size
  table := k.table
  unwrapped := h.unwrapped
  nested := h.nested
  reserved := fun f r hr => ⟨(h.reserved f r hr).1, by
    show p.definition r = _
    rw [k.slots f r hr]; exact (h.reserved f r hr).2⟩
  apart := h.apart
  new := fun s hs => by
    obtain ⟨h1, h2, h3, d, c, h4, h5, h6⟩ := h.new s hs
    obtain ⟨d', c', k1, k2, _, k3⟩ := k.classes _ d c h4 h5
    exact ⟨h1, k.names _ _ h2, h3, d', c', k1, k2, k3 _ h6⟩
  distinct := h.distinct
  targets := fun s hs => by
    obtain ⟨⟨t, h1, h2⟩, h3⟩ := h.targets s hs
    exact ⟨⟨t, k.names _ _ h1, h2⟩, h3⟩

/-- What declaring a wrapper does to the pool. -/
theorem declare_spec {st st' : Wraps} {ident sig : Text} {cls : Idx} {s : WrapSlot} (h : st.declare ident sig cls = .ok (s, st')) :
    ∃ (wrapped : Idx) (pool : ConstantPool) (proxies : AMap Idx Idx) (pool1 pool2 : ConstantPool) (name : Idx),
      st.pool.defName s.target = some sig ∧ st.wrappedIdx s.target = (wrapped, pool, proxies) ∧ s.wrapped = wrapped ∧
      s.parent = cls ∧ pool1 = { pool with names := (pool.names.add Strings.cnameDefault (indexName "wrapper$" wrapped)).2 } ∧
      name = (pool.names.add Strings.cnameDefault (indexName "wrapper$" wrapped)).1 ∧
      (s.index, pool2) = pool1.stubDefinition name ∧ pool2.pushFunction cls s.index = some st'.pool ∧
      st'.wrappers = st.wrappers.insert s.target s.index ∧ st'.proxies = proxies := by
  unfold Wraps.declare at h
  cases hf : (directMethods st.pool ident cls).bind (byId st.pool sig) with
  | none => rw [hf] at h; cases h
  | some f =>
    rw [hf] at h
    have hn : st.pool.defName f = some sig := by
      cases hm : directMethods st.pool ident cls with
      | none => rw [hm] at hf; cases hf
      | some fs =>
        rw [hm] at hf
        have := List.find?_some hf
        simpa using this
    simp only at h
    split at h
    · cases h
    · next hp =>
      simp only [Except.ok.injEq, Prod.mk.injEq] at h
      obtain ⟨rfl, rfl⟩ := h
      exact ⟨_, _, _, _, _, _, hn, rfl, rfl, rfl, rfl, rfl, rfl, hp, rfl, rfl⟩

/-- What the first part of a declaration does: reserve a slot for the original unless the function is
already wrapped. -/
theorem wrappedIdx_spec {p0 : ConstantPool} {slots : List WrapSlot} {st : Wraps} (h : WrapInv p0 slots st)
    (hl : st.pool.definitions.length < 2 ^ 32) {f wrapped : Idx} {pool : ConstantPool} {proxies : AMap Idx Idx}
    (hw : st.wrappedIdx f = (wrapped, pool, proxies)) :
    KeptBut (fun _ => False) (fun _ => True) st.pool pool ∧ pool.definitions.length ≤ st.pool.definitions.length + 1 ∧
    pool.names = st.pool.names ∧
    (∀ f' r, f' ≠ f → (proxies.get f' = some r ↔ st.proxies.get f' = some r)) ∧
    (∃ r, proxies.get f = some r ∧ Nested r (wrappersOf f slots) wrapped) ∧
    (∀ g r, proxies.get g = some r → p0.definitions.length ≤ r.toNat ∧ pool.definition r = some .default) ∧
    (∀ g r, proxies.get g = some r → st.proxies.get g = some r ∨ r.toNat = st.pool.definitions.length) ∧
    (∀ g g' r, proxies.get g = some r → proxies.get g' = some r → g = g') := by
  unfold Wraps.wrappedIdx at hw
  cases hg : st.wrappers.get f with
  | some w =>
    rw [hg] at hw
    simp only [Prod.mk.injEq] at hw
    obtain ⟨rfl, rfl, rfl⟩ := hw
    obtain ⟨r, h1, _, h3⟩ := h.nested f w hg
    exact ⟨.refl _ _ _, by omega, rfl, fun _ _ _ => Iff.rfl, ⟨r, h1, h3⟩, h.reserved, fun _ _ e => .inl e, h.apart⟩
  | none =>
    rw [hg] at hw
    simp only [Prod.mk.injEq] at hw
    obtain ⟨rfl, rfl, rfl⟩ := hw
    obtain ⟨h1, h2⟩ := h.unwrapped f hg
    obtain ⟨a1, a2, a3, a4⟩ := add_index (p := st.pool) (by omega) Definition.default
    have hlt : ∀ g r, st.proxies.get g = some r → r.toNat < st.pool.definitions.length :=
      fun g r e => definition_lt (h.reserved g r e).2
    have hk := kept_add (fun _ => False) (fun _ => True) st.pool Definition.default
    have hr : ∀ g r, (st.proxies.insert f st.pool.reserve.1).get g = some r →
        st.proxies.get g = some r ∨ (g = f ∧ r = st.pool.reserve.1) := by
      intro g r e
      rw [AMap.get_insert] at e
      split at e
      · next hgf => cases e; exact .inr ⟨hgf, rfl⟩
      · exact .inl e
    refine ⟨hk, Nat.le_of_eq a3, a4, fun f' r hne => by rw [AMap.get_insert_ne _ _ hne], ⟨st.pool.reserve.1, by simp, ?_⟩, ?_, ?_, ?_⟩
    · rw [h2]; rfl
    · intro g r e
      rcases hr g r e with e | ⟨rfl, rfl⟩
      · obtain ⟨k1, k2⟩ := h.reserved g r e
        obtain ⟨fs, _, k3⟩ := hk.defs r _ (fun x => x) k2
        exact ⟨k1, k3⟩
      · exact ⟨Nat.le_trans h.size (Nat.le_of_eq a1.symm), a2⟩
    · intro g r e
      rcases hr g r e with e | ⟨rfl, rfl⟩
      · exact .inl e
      · exact .inr a1
    · intro g g' r e e'
      have a1' : st.pool.reserve.1.toNat = st.pool.definitions.length := a1
      rcases hr g r e with k | ⟨k, kr⟩ <;> rcases hr g' _ e' with k' | ⟨k', kr'⟩
      · exact h.apart g g' r k k'
      · have := hlt g _ k
        rw [kr'] at this
        omega
      · have := hlt g' _ k'
        rw [kr] at this
        omega
      · rw [k, k']

theorem wrappersOf_snoc (f : Idx) (slots : List WrapSlot) (s : WrapSlot) :
    wrappersOf f (slots ++ [s]) = if s.target = f then wrappersOf f slots ++ [s] else wrappersOf f slots := by
  unfold wrappersOf
  rw [List.filter_append]
  by_cases h : s.target = f <;> simp [h]

theorem WrapInv.wrap {p0 : ConstantPool} {slots : List WrapSlot} {st st' : Wraps} (h : WrapInv p0 slots st)
    {ident sig : Text} {cls : Idx} {s : WrapSlot} (hd : st.declare ident sig cls = .ok (s, st')) (hs : '$' ∉ sig)
    (hn : sig ≠ "None".toList) (hl : st'.pool.definitions.length ≤ 2 ^ 32)
    (hl' : st.pool.names.strings.length + 1 < 2 ^ 32) : WrapInv p0 (slots ++ [s]) st' := by
  obtain ⟨wrapped, pool, proxies, pool1, pool2, name, h1, h2, h3, h4, h5, h6, h7, h8, h9, h10⟩ := declare_spec hd
  have hlen1 : pool1.definitions.length < 2 ^ 32 := by
    have k1 := (pushFunction_spec h8 (fun _ => False) (fun _ => True) trivial).2.1
    have k2 : pool2.definitions.length = pool1.definitions.length + 1 := by
      have : pool2 = (pool1.stubDefinition name).2 := by rw [← h7]
      rw [this]
      show (pool1.definitions ++ [_]).length = _
      simp
    omega
  have hlen0 : st.pool.definitions.length < 2 ^ 32 := by
    have k1 : st.pool.definitions.length ≤ pool.definitions.length := by
      have : pool = (st.wrappedIdx s.target).2.1 := by rw [h2]
      rw [this]
      unfold Wraps.wrappedIdx
      split
      · exact Nat.le_refl _
      · show _ ≤ (st.pool.definitions ++ [_]).length
        simp
    have : pool1.definitions.length = pool.definitions.length := by rw [h5]
    omega
  obtain ⟨w1, w2, w3, w4, ⟨r0, w5, w5'⟩, w6, w7, w8⟩ := wrappedIdx_spec h hlen0 h2
  -- the steps on the pool
  have hstub : pool1.stubDefinition name = pool1.addDefinition { name, parent := 0, unk1 := 0, unk2 := 0, unk3 := 0, value := .Type .Prim } := rfl
  rw [hstub] at h7
  obtain ⟨a1, a2, a3, a4⟩ := add_index hlen1 { name, parent := 0, unk1 := 0, unk2 := 0, unk3 := 0, value := .Type .Prim }
  have hadd := C12_add pool1 { name, parent := 0, unk1 := 0, unk2 := 0, unk3 := 0, value := .Type .Prim } hlen1
  have hka := kept_add (fun _ => False) (fun _ => True) pool1 { name, parent := 0, unk1 := 0, unk2 := 0, unk3 := 0, value := .Type .Prim }
  rw [← h7] at a1 a2 a3 a4 hadd hka
  simp only at a1 a2 a3 a4 hadd hka
  have hkt : KeptBut (fun _ => False) (fun _ => True) pool pool1 := by rw [h5]; exact kept_text _ _ _ _
  obtain ⟨b1, b2, b3, b4, dc, cc, b5, b6, b7⟩ := pushFunction_spec h8 (fun _ => False) (fun _ => True) trivial
  have hk : KeptBut (fun _ => False) (fun _ => True) st.pool st'.pool := ((w1.trans hkt).trans hka).trans b1
  have hk1 : KeptBut (fun _ => False) (fun _ => True) pool st'.pool := (hkt.trans hka).trans b1
  have hlen : pool1.definitions.length = pool.definitions.length := by rw [h5]
  -- names
  have hreach : pool1.names.Reachable Strings.cnameDefault := by
    rw [h5]; simp only; rw [w3]
    exact .add _ h.table hl'
  have htable : st'.pool.names.Reachable Strings.cnameDefault := by rw [b3, a4]; exact hreach
  have hname : pool1.names.get Strings.cnameDefault name = some (indexName "wrapper$" wrapped) := by
    rw [h5, h6]
    simp only
    rw [w3]
    exact C11_add_reads_back _ _ h.table hl' _
  have hne : s.index ≠ cls := by
    rintro rfl
    rw [a2] at b5
    cases b5
    cases b6
  have hdef : st'.pool.definition s.index = some { name, parent := 0, unk1 := 0, unk2 := 0, unk3 := 0, value := .Type .Prim } := by
    rw [b4 _ hne, a2]
  have hwname : st'.pool.defName s.index = some (indexName "wrapper$" s.wrapped).toList := by
    unfold ConstantPool.defName
    rw [hdef, b3, a4]
    simp only [Option.bind_some]
    rw [hname, h3]
    rfl
  have hnew : st.pool.definitions.length ≤ s.index.toNat := by
    rw [a1, hlen]; exact w1.size
  have hnotnew : ∀ {i t}, st.pool.defName i = some t → i ≠ s.index := by
    intro i t hi e
    have := defName_lt hi
    rw [e] at this
    omega
  have hproxy : ∀ g r, proxies.get g = some r → r.toNat < pool.definitions.length := fun g r e => definition_lt (w6 g r e).2
  have hprox' : ∀ g, proxies.get g ≠ some s.index := by
    intro g e
    have := hproxy g _ e
    rw [a1, hlen] at this
    omega
  have htarget : ∀ {i t}, st.pool.defName i = some t → (∀ g, st.proxies.get g ≠ some i) → ∀ g, proxies.get g ≠ some i := by
    intro i t hi hg g e
    rcases w7 g i e with e | e
    · exact hg g e
    · have := defName_lt hi; omega
  have htgt : ∀ g, st.proxies.get g ≠ some s.target := by
    intro g e
    have h11 := (h.reserved g _ e).2
    unfold ConstantPool.defName at h1
    rw [h11] at h1
    simp [Definition.default, Strings.get, Strings.cnameDefault] at h1
    exact hn h1.symm
  refine ⟨Nat.le_trans h.size hk.size, htable, ?_, ?_, ?_, ?_, ?_, ?_, ?_⟩
  · intro f hf
    rw [h9, AMap.get_insert] at hf
    split at hf
    · cases hf
    · next hfn =>
      obtain ⟨k1, k2⟩ := h.unwrapped f hf
      rw [wrappersOf_snoc, if_neg (fun e => hfn e.symm)]
      refine ⟨?_, k2⟩
      rw [h10]
      cases hp : proxies.get f with
      | none => rfl
      | some r => rw [(w4 f r hfn).1 hp] at k1; cases k1
  · intro f w hf
    rw [h9, AMap.get_insert] at hf
    rw [wrappersOf_snoc, h10]
    split at hf
    · next hfe =>
      subst hfe
      cases hf
      rw [if_pos rfl]
      exact ⟨r0, w5, by simp, w5'.snoc h3⟩
    · next hfn =>
      rw [if_neg (fun e => hfn e.symm)]
      obtain ⟨r, k1, k2, k3⟩ := h.nested f w hf
      exact ⟨r, (w4 f r hfn).2 k1, k2, k3⟩
  · intro g r e
    rw [h10] at e
    obtain ⟨k1, k2⟩ := w6 g r e
    obtain ⟨fs, _, k3⟩ := hk1.defs r _ (fun x => x) k2
    exact ⟨k1, k3⟩
  · intro g g' r e e'
    rw [h10] at e e'
    exact w8 g g' r e e'
  · intro t ht
    rw [List.mem_append, List.mem_singleton] at ht
    rcases ht with ht | rfl
    · obtain ⟨k1, k2, k3, d, c, k4, k5, k6⟩ := h.new t ht
      refine ⟨k1, hk.defName (fun x => x) k2, ?_, ?_⟩
      · rw [h10]; exact htarget k2 k3
      · obtain ⟨fs, _, k7⟩ := hk.defs _ d (fun x => x) k4
        refine ⟨_, { c with functions := c.functions ++ fs }, k7, ?_, ?_⟩
        · unfold Definition.addMethods; rw [k5]
        · exact List.mem_append_left _ k6
    · refine ⟨Nat.le_trans h.size hnew, hwname, by rw [h10]; exact hprox', ?_⟩
      refine ⟨_, { cc with functions := cc.functions ++ [t.index] }, by rw [h4]; exact b7, ?_, by simp⟩
      unfold Definition.addMethods; rw [b6]
  · rw [List.map_append, List.nodup_append]
    refine ⟨h.distinct, by simp, ?_⟩
    intro a ha b hb
    simp only [List.map_cons, List.map_nil, List.mem_singleton] at hb
    subst hb
    obtain ⟨t, ht, rfl⟩ := List.mem_map.1 ha
    exact hnotnew (h.new t ht).2.1
  · intro t ht
    rw [List.mem_append, List.mem_singleton] at ht
    rcases ht with ht | rfl
    · obtain ⟨⟨u, k1, k2⟩, k3⟩ := h.targets t ht
      refine ⟨⟨u, hk.defName (fun x => x) k1, k2⟩, ?_⟩
      rw [h10]; exact htarget k1 k3
    · refine ⟨⟨sig, hk.defName (fun x => x) h1, hs⟩, ?_⟩
      rw [h10]; exact htarget h1 htgt

/-- Everything known after the declarations holds. -/
theorem Declared.inv {p0 : ConstantPool} (hr : p0.names.Reachable Strings.cnameDefault) {st0 st : Wraps} {slots : List WrapSlot}
    (h0 : st0 = { pool := p0, wrappers := .empty, proxies := .empty }) (h : Declared st0 slots st) : WrapInv p0 slots st := by
  induction h with
  | nil => rw [h0]; exact .init hr
  | wrap _ hd hs hnn hl hl' ih => exact ih.wrap hd hs hnn hl hl'
  | other _ hw ih => exact ih.other hw

end Redscript
