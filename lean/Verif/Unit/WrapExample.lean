import Verif.Unit.WrapTheorems

/-!
# C36: a compilation that meets the hypotheses

A class `C` (1) with a method `m` (2) that has a parameter (3) and a local (4), and a class `D` (6) below it;
a global function `g` (5). Two wrappers of `m` are declared, with other work in between and after them.
-/

namespace Redscript

namespace WrapDemo

/-- The parts of a definition that matter here. -/
def mk (name parent : Idx) (value : AnyDefinition) : Definition := { name, parent, unk1 := 0, unk2 := 0, unk3 := 0, value }

def fn (params locals : List Idx) (code : List (Instr Offset)) : FunctionDef :=
  { visibility := .pub, flags := 0, source := none, returnType := none, unk1 := false, baseMethod := none,
    parameters := params, locals, operator := none, cast := 0, code, unk2 := [] }

def cls (base : Idx) (fs : List Idx) : AnyDefinition :=
  .Class { visibility := .pub, flags := 0, base, functions := fs, fields := [], overrides := [] }

def names : Strings :=
  ⟨["None", "C", "m;", "x", "g;", "D"],
    (((((AMap.empty.insert "None" 0).insert "C" 1).insert "m;" 2).insert "x" 3).insert "g;" 4).insert "D" 5⟩

def p0 : ConstantPool :=
  { names, tweakdbIds := .empty, resources := .empty, strings := .empty,
    definitions := [.default, mk 1 0 (cls 0 [2]), mk 2 1 (.Function (fn [3] [4] [.Assign, .Local 4, .Param 3, .Nop])),
      mk 3 2 (.Parameter ⟨0, 0⟩), mk 3 2 (.Local ⟨0, 0⟩), mk 4 0 (.Function (fn [] [] [.Nop])), mk 5 0 (cls 1 [])] }

def q : AsmEnv where
  strIdx _ _ := .error .lookup
  typeOf _ := .error .lookup
  typeIdx _ := .error .lookup
  defName _ := .error .lookup
  enumFirst _ := .error .lookup
  function _ := .error .lookup
  line _ _ := 0

/-- The value of a computation that succeeds. -/
def got (dflt : α) : Except ε α → α
  | .ok a => a
  | .error _ => dflt

theorem got_ok {dflt : α} {x : Except ε α} (h : x.toOption.isSome = true) : x = .ok (got dflt x) := by
  cases x with
  | ok a => rfl
  | error e => cases h

def slot0 : WrapSlot := ⟨0, 0, 0, none, 0⟩

/-- The definition of a wrapper takes the place of its stub. -/
def defineWrapper (p : ConstantPool) (w : Idx) : ConstantPool :=
  let define (d : Definition) : Definition := mk d.name 1 (.Function (fn [BitVec.ofNat 32 p.definitions.length] [] []))
  { p with definitions := (p.definitions ++ [mk 3 w (.Parameter ⟨0, 0⟩)]).modify w.toNat define }

def st0 : Wraps := ⟨p0, .empty, .empty⟩
def r1 : WrapSlot × Wraps := got (slot0, st0) (st0.declare "m".toList "m;".toList 1)
def st1 : Wraps := { r1.2 with pool := defineWrapper r1.2.pool r1.1.index }
def r2 : WrapSlot × Wraps := got (slot0, st0) (st1.declare "m".toList "m;".toList 1)
def st : Wraps := { r2.2 with pool := defineWrapper r2.2.pool r2.1.index }
def slots : List WrapSlot := [r1.1, r2.1]
def p2 : ConstantPool := got p0 (constructAll q st.proxies [(2, r2.1.index)] st.pool)
/-- The first body has a local, which is defined when the body is checked. -/
def local1 : Definition := mk 3 r1.1.index (.Local ⟨0, 0⟩)
def p2b : ConstantPool := { p2 with definitions := p2.definitions ++ [local1] }
def body1 : WrapBody := ⟨r1.1.index, [.Assign, .Local 13, .Param 3, .Nop], [13]⟩
def bodies : List WrapBody := [body1, ⟨r2.1.index, [.Nop, .Nop], []⟩]
def p3a : ConstantPool := got p0 (installBody p2b body1)

example : p2b.definition 13 = some local1 := by decide +kernel
def p3 : ConstantPool := got p0 (installBody p3a ⟨r2.1.index, [.Nop, .Nop], []⟩)
def p4 : ConstantPool := got p0 (swapAll id [(2, r1.1.wrapped)] p3)

example : slots = [⟨2, 8, 1, none, 7⟩, ⟨2, 10, 1, none, 8⟩] := by decide +kernel

/-! The checks that are left are finite. -/

theorem at_index {p : ConstantPool} {i : Idx} {d : Definition} (h : p.definition i = some d) :
    ∃ n, n < p.definitions.length ∧ i = BitVec.ofNat 32 n := ⟨i.toNat, definition_lt h, by simp⟩

def namesB (p p' : ConstantPool) : Bool :=
  (List.range p.definitions.length).all fun n => p.defName (BitVec.ofNat 32 n) = p'.defName (BitVec.ofNat 32 n)

theorem names_of {p p' : ConstantPool} (h : namesB p p' = true) : ∀ i s, p.defName i = some s → p'.defName i = some s := by
  intro i s hs
  obtain ⟨d, _, hd, _⟩ := defName_some hs
  obtain ⟨n, hn, rfl⟩ := at_index hd
  rw [← of_decide_eq_true (List.all_eq_true.1 h n (List.mem_range.2 hn))]
  exact hs

def freshB (p p' : ConstantPool) : Bool :=
  (List.range p'.definitions.length).all fun n => p.defName (BitVec.ofNat 32 n) = p'.defName (BitVec.ofNat 32 n) ∨
    '$' ∉ (p'.defName (BitVec.ofNat 32 n)).getD []

theorem fresh_of {p p' : ConstantPool} (h : freshB p p' = true) : ∀ i s, p'.defName i = some s → p.defName i = some s ∨ '$' ∉ s := by
  intro i s hs
  obtain ⟨d, _, hd, _⟩ := defName_some hs
  obtain ⟨n, hn, rfl⟩ := at_index hd
  rcases of_decide_eq_true (List.all_eq_true.1 h n (List.mem_range.2 hn)) with e | e
  · exact .inl (e.trans hs)
  · rw [hs] at e; exact .inr e

def classesB (p p' : ConstantPool) : Bool := (List.range p.definitions.length).all fun n =>
  match p.definitionBy AnyDefinition.asClass (BitVec.ofNat 32 n) with
  | none => true
  | some c => (p'.definition (BitVec.ofNat 32 n)).map (·.value) = some (.Class c)

theorem classes_of {p p' : ConstantPool} (h : classesB p p' = true) : ∀ i d c, p.definition i = some d → d.value = .Class c →
    ∃ d' c', p'.definition i = some d' ∧ d'.value = .Class c' ∧ c'.base = c.base ∧ ∀ f ∈ c.functions, f ∈ c'.functions := by
  intro i d c hd hc
  obtain ⟨n, hn, rfl⟩ := at_index hd
  have := List.all_eq_true.1 h n (List.mem_range.2 hn)
  have e : p.definitionBy AnyDefinition.asClass (BitVec.ofNat 32 n) = some c := by
    show (p.definition (BitVec.ofNat 32 n)).bind _ = _
    rw [hd, Option.bind_some, hc]
    rfl
  rw [e] at this
  have h1 := of_decide_eq_true this
  cases hd' : p'.definition (BitVec.ofNat 32 n) with
  | none => rw [hd'] at h1; cases h1
  | some d' =>
    rw [hd'] at h1
    exact ⟨d', c, rfl, Option.some.inj h1, rfl, fun _ h => h⟩

def listedB (slots : List WrapSlot) (p : ConstantPool) : Bool := (List.range p.definitions.length).all fun n =>
  match p.definitionBy AnyDefinition.asClass (BitVec.ofNat 32 n) with
  | none => true
  | some c => c.functions.all fun f => match p.defName f with
    | none => false
    | some t => decide ('$' ∉ t) || slots.any fun s => decide (f = s.index)

theorem listed_of {slots : List WrapSlot} {p0 p : ConstantPool} (h : listedB slots p = true) : ∀ i d c, p.definition i = some d → d.value = .Class c →
    ∀ f ∈ c.functions, ∃ t, p.defName f = some t ∧ ('$' ∈ t → p0.defName f = some t ∨ ∃ s ∈ slots, f = s.index) := by
  intro i d c hd hc f hf
  obtain ⟨n, hn, rfl⟩ := at_index hd
  have := List.all_eq_true.1 h n (List.mem_range.2 hn)
  have e : p.definitionBy AnyDefinition.asClass (BitVec.ofNat 32 n) = some c := by
    show (p.definition (BitVec.ofNat 32 n)).bind _ = _
    rw [hd, Option.bind_some, hc]
    rfl
  rw [e] at this
  have := List.all_eq_true.1 this f hf
  cases ht : p.defName f with
  | none => rw [ht] at this; cases this
  | some t =>
    rw [ht] at this
    rcases Bool.or_eq_true _ _ ▸ this with h1 | h1
    · exact ⟨t, rfl, fun h2 => absurd h2 (of_decide_eq_true h1)⟩
    · obtain ⟨s, h2, h3⟩ := List.any_eq_true.1 h1
      exact ⟨t, rfl, fun _ => .inr ⟨s, h2, of_decide_eq_true h3⟩⟩

theorem table0 : names.Reachable Strings.cnameDefault := by
  refine .loaded (data := encCStr "None" ++ encCStr "C" ++ encCStr "m;" ++ encCStr "x" ++ encCStr "g;" ++ encCStr "D") (n := 6)
    (bs := encU32 0 ++ encU32 5 ++ encU32 7 ++ encU32 10 ++ encU32 12 ++ encU32 15) (rest := []) ?_ ?_
  · decide +kernel
  · intro d hd; simp [Strings.cnameDefault] at hd; subst hd; rfl

theorem table1 : st1.pool.names.Reachable Strings.cnameDefault := by
  have h : st1.pool.names = (names.add Strings.cnameDefault (indexName "wrapper$" 7)).2 := by decide +kernel
  rw [h]
  exact .add _ table0 (by decide)

theorem table2 : st.pool.names.Reachable Strings.cnameDefault := by
  have h : st.pool.names = (st1.pool.names.add Strings.cnameDefault (indexName "wrapper$" 8)).2 := by decide +kernel
  rw [h]
  exact .add _ table1 (by decide +kernel)

theorem get_two {m : AMap Idx Idx} {v : Idx} (h : m = (AMap.empty.insert 2 v) ∨ ∃ u, m = (AMap.empty.insert 2 u).insert 2 v)
    {f r : Idx} : m.get f = some r ↔ f = 2 ∧ r = v := by
  have key : m.get f = if f = 2 then some v else none := by
    rcases h with rfl | ⟨u, rfl⟩
    · rw [AMap.get_insert]; rfl
    · rw [AMap.get_insert, AMap.get_insert]
      by_cases e : f = 2
      · rw [if_pos e, if_pos e]
      · rw [if_neg e, if_neg e, if_neg e]; rfl
  rw [key]
  by_cases e : f = 2
  · rw [if_pos e]
    exact ⟨fun h => ⟨e, (Option.some.inj h).symm⟩, fun h => by rw [h.2]⟩
  · rw [if_neg e]
    exact ⟨fun h => (by cases h), fun h => absurd h.1 e⟩

theorem proxies1 : r1.2.proxies = AMap.empty.insert 2 7 := by decide +kernel
theorem proxies2 : r2.2.proxies = AMap.empty.insert 2 7 := by decide +kernel
theorem wrappers2 : st.wrappers = (AMap.empty.insert 2 8).insert 2 10 := by decide +kernel

theorem work1 : OtherWork r1.2 st1.pool where
  size := by decide +kernel
  table := table1
  slots := fun f r h => by
    obtain ⟨_, rfl⟩ := (get_two (.inl proxies1)).1 h
    decide +kernel
  names := names_of (by decide +kernel)
  classes := classes_of (by decide +kernel)

theorem work2 : OtherWork r2.2 st.pool where
  size := by decide +kernel
  table := table2
  slots := fun f r h => by
    obtain ⟨_, rfl⟩ := (get_two (.inl proxies2)).1 h
    decide +kernel
  names := names_of (by decide +kernel)
  classes := classes_of (by decide +kernel)

theorem declared : Declared ⟨p0, .empty, .empty⟩ slots st :=
  .other (.wrap (ident := "m".toList) (sig := "m;".toList) (cls := 1) (st' := st1) (slots := [r1.1])
    (.other (.wrap (ident := "m".toList) (sig := "m;".toList) (cls := 1) (st' := st0) (slots := []) .nil (got_ok (dflt := (slot0, st0)) (by decide +kernel)) (by decide) (by decide)
      (by decide) (by decide)) work1)
    (got_ok (by decide +kernel)) (by decide) (by decide) (by decide +kernel) (by decide +kernel)) work2

theorem target {s : WrapSlot} (h : s ∈ slots) : s.target = 2 := by
  have : slots.all (fun s => decide (s.target = 2)) = true := by decide +kernel
  exact of_decide_eq_true (List.all_eq_true.1 this s h)

theorem lists {m : AMap Idx Idx} {v : Idx} (h : ∀ f r, m.get f = some r ↔ f = 2 ∧ r = v) : ListsMap m [(2, v)] :=
  ⟨by simp, fun k u => by rw [h]; simp⟩

/-- The hypotheses of C36 hold. -/
theorem run : WrapRun q p0 slots st bodies p2 p3 p4 where
  table := table0
  declared := declared
  functions := fun s hs => by
    rw [target hs]
    refine ⟨mk 2 1 (.Function (fn [3] [4] [.Assign, .Local 4, .Param 3, .Nop])), _, by decide +kernel, rfl, ?_⟩
    intro i hi
    obtain rfl : i = 3 := by simpa [fn] using hi
    exact ⟨mk 3 2 (.Parameter ⟨0, 0⟩), 0, by decide +kernel, rfl⟩
  listed := listed_of (by decide +kernel)
  built := by
    refine ⟨[(2, r2.1.index)], lists fun f r => ?_, by decide +kernel, got_ok (by decide +kernel)⟩
    have : r2.1.index = 10 := by decide +kernel
    rw [this]
    exact get_two (.inr ⟨_, wrappers2⟩)
  installed := by
    refine .body (bs := [_]) (.body (bs := []) (.grown (p'' := p2b) .nil rfl fun _ _ h => h) (got_ok (by decide +kernel))) (got_ok (by decide +kernel))
  unbodied := fun b hb f h => by
    have h1 := ((get_two (.inl proxies2)).1 h).2
    have : bodies.all (fun b => decide (b.index ≠ 7)) = true := by decide +kernel
    exact of_decide_eq_true (List.all_eq_true.1 this b hb) h1
  locals := fun s hs d f hd hf l hl => by
    rw [target hs] at hd
    have h1 : p3.definition 2 = some (mk 2 1 (.Function (fn [3] [4] [.Assign, .Local 4, .Param 3, .Nop]))) := by decide +kernel
    rw [h1] at hd
    cases hd
    cases hf
    obtain rfl : l = 4 := by simpa [fn] using hl
    exact ⟨mk 3 2 (.Local ⟨0, 0⟩), ⟨0, 0⟩, by decide +kernel, rfl⟩
  exchanged := by
    refine ⟨id, [(2, r1.1.wrapped)], fun _ => .refl _, lists fun f r => ?_, got_ok (by decide +kernel)⟩
    have : r1.1.wrapped = 7 := by decide +kernel
    rw [this]
    exact get_two (.inl proxies2)
  room := by decide +kernel

theorem no_index_names : NoIndexNames p0 := by
  have key : ∀ i t, p0.defName i = some t → '$' ∉ t := by
    intro i t h
    rcases fresh_of (p := { p0 with definitions := [] }) (p' := p0) (by decide +kernel) i t h with e | e
    · cases defName_lt e
    · exact e
  exact fun i k _ => ⟨fun h => key i _ h (dollar_wrapper k), fun h => key i _ h (dollar_proxy k)⟩

theorem below : st.pool.Below 6 1 := .step (b := 1) (by decide +kernel) (by decide) (.refl _)

/-- The wrappers nest, and the names of the wrapper and of the original reach them, on objects of the class
below, too. -/
example : Nested 7 (wrappersOf 2 slots) 10 ∧ p4.defName 2 = some "m;".toList ∧
    (∃ name, p4.defName 8 = some name ∧ ∀ g, Dispatches p4 name 6 g ↔ g = 8) ∧
    ∃ name, p4.defName 7 = some name ∧ ∀ g, Dispatches p4 name 6 g ↔ g = 7 := by
  refine ⟨?_, by decide +kernel, ?_, ?_⟩
  · have : wrappersOf 2 slots = [⟨2, 8, 1, none, 7⟩, ⟨2, 10, 1, none, 8⟩] := by decide +kernel
    rw [this]
    exact ⟨rfl, rfl, rfl⟩
  · have h := C36_wrapper_is_dispatched_to run no_index_names (s := r1.1) (by simp [slots]) (cls := 6)
      (by have : r1.1.parent = 1 := by decide +kernel
          rw [this]; exact below)
    have : r1.1.index = 8 := by decide +kernel
    rw [this] at h
    exact h
  · exact C36_original_is_dispatched_to run no_index_names (f := 2) ((get_two (.inl proxies2)).2 ⟨rfl, rfl⟩)
      (d := mk 2 1 (.Function (fn [3] [4] [.Assign, .Local 4, .Param 3, .Nop]))) (by decide +kernel)
      (dc := mk 1 0 (cls 0 [2, 8, 10])) (by decide) (by decide +kernel) rfl below

end WrapDemo

end Redscript
