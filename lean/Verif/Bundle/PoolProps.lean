import Verif.Bundle.PoolModel
import Verif.Bundle.SaveProps

/-!
# C11, C12, C13: string interning, pool updates, index mapping
-/

namespace Redscript

/-! ## C11: string interning -/

/-- The states of a string table: read from a file (whose entry 0, if the table has a default, is
that default), empty (only for tables without a default), or after an addition. -/
inductive Strings.Reachable (dflt : Option String) : Strings → Prop
  | loaded {data rest bs : Bytes} {n : BitVec 32} {S : Strings} :
      decStrings data n bs = .ok (S, rest) → (∀ d, dflt = some d → S.strings[0]? = some d) →
      Reachable dflt S
  | empty : dflt = none → Reachable dflt Strings.empty
  | add {S : Strings} (s : String) : Reachable dflt S → S.strings.length + 1 < 2 ^ 32 →
      Reachable dflt (S.add dflt s).2

/-- What the operations maintain. -/
structure Strings.Inv (dflt : Option String) (S : Strings) : Prop where
  size : S.strings.length < 2 ^ 32
  dflt : ∀ d, dflt = some d → S.strings[0]? = some d
  map : ∀ s i, S.mappings.get s = some i → S.strings[i.toNat]? = some s
  mapped : ∀ (i : Nat) (s : String), S.strings[i]? = some s → ∃ j, S.mappings.get s = some j

theorem decodeFrom_inv (data : Bytes) (offs : List (BitVec 32)) (acc S : Strings)
    (hlen : acc.strings.length + offs.length < 2 ^ 32)
    (hmap : ∀ s i, acc.mappings.get s = some i → acc.strings[i.toNat]? = some s)
    (hmapped : ∀ (i : Nat) (s : String), acc.strings[i]? = some s → ∃ j, acc.mappings.get s = some j)
    (h : Strings.decodeFrom data acc offs = .ok S) :
    S.strings.length = acc.strings.length + offs.length ∧
      (∀ s i, S.mappings.get s = some i → S.strings[i.toNat]? = some s) ∧
      (∀ (i : Nat) (s : String), S.strings[i]? = some s → ∃ j, S.mappings.get s = some j) := by
  induction offs generalizing acc with
  | nil =>
    simp only [Strings.decodeFrom, Except.ok.injEq] at h
    subst h
    exact ⟨rfl, hmap, hmapped⟩
  | cons o offs ih =>
    unfold Strings.decodeFrom Strings.decodeStep at h
    cases hc : decCStr (data.drop o.toNat) with
    | error e => rw [hc] at h; cases h
    | ok r =>
      obtain ⟨t, r⟩ := r
      rw [hc] at h
      simp only [List.length_cons] at hlen
      have := ih _ (by simp; omega) ?_ ?_ h
      · simp at this ⊢
        refine ⟨by omega, this.2⟩
      · intro s i hs
        rw [AMap.get_insert] at hs
        split at hs
        · simp only [Option.some.injEq] at hs
          subst hs
          subst s
          simp only
          rw [BitVec.toNat_ofNat, Nat.mod_eq_of_lt (by omega)]
          simp
        · have := hmap s i hs
          simp only
          rw [List.getElem?_append_left (List.getElem?_eq_some_iff.1 this).1]
          exact this
      · intro i s hs
        rw [AMap.get_insert]
        split
        · exact ⟨_, rfl⟩
        · next hne =>
          refine hmapped i s ?_
          simp only [List.getElem?_append] at hs
          split at hs
          · exact hs
          · simp [List.getElem?_singleton] at hs
            exact absurd hs.2.symm hne

theorem decList_length {α : Type} {d : Dec α} {n : Nat} {bs rest : Bytes} {as : List α}
    (h : decList d n bs = .ok (as, rest)) : as.length = n := by
  induction n generalizing bs as rest with
  | zero => simp [decList, Dec.pure] at h; simp [← h.1]
  | succ n ih =>
    unfold decList at h
    obtain ⟨a, r, -, h⟩ := Dec.bind_eq_ok.1 h
    obtain ⟨as', r', h1, h2⟩ := Dec.bind_eq_ok.1 h
    simp [Dec.pure] at h2
    rw [← h2.1, List.length_cons, ih h1]

theorem Strings.Reachable.inv {dflt : Option String} {S : Strings} (h : S.Reachable dflt) :
    S.Inv dflt := by
  induction h with
  | @loaded data rest bs n S hd h0 =>
    unfold decStrings at hd
    obtain ⟨offs, r, ho, hs⟩ := Dec.bind_eq_ok.1 hd
    have hoffs : offs.length = n.toNat := decList_length ho
    have hs' : Strings.decodeFrom data .empty offs = .ok S := by
      unfold Dec.lift at hs
      split at hs
      · next h => simp at hs; rw [h, hs.1]
      · cases hs
    have := decodeFrom_inv data offs .empty S (by simp [Strings.empty]; omega)
      (by intro s i hh; cases hh) (by intro i s hh; simp [Strings.empty] at hh) hs'
    refine ⟨?_, h0, this.2.1, this.2.2⟩
    simp [Strings.empty] at this
    omega
  | empty h =>
    refine ⟨by simp [Strings.empty], ?_, ?_, ?_⟩
    · intro d hd; rw [h] at hd; cases hd
    · intro s i hs; cases hs
    · intro i s hs; simp [Strings.empty] at hs
  | @add S s _ hlen ih =>
    unfold Strings.add
    split
    · exact ih
    · split
      · exact ih
      · next hn =>
        refine ⟨by simp; omega, ?_, ?_, ?_⟩
        · intro d hd
          have := ih.dflt d hd
          simp only
          rw [List.getElem?_append_left (List.getElem?_eq_some_iff.1 this).1]
          exact this
        · intro t i ht
          rw [AMap.get_insert] at ht
          split at ht
          · simp only [Option.some.injEq] at ht
            subst ht
            subst t
            simp only
            rw [BitVec.toNat_ofNat, Nat.mod_eq_of_lt (by omega)]
            simp
          · have := ih.map t i ht
            simp only
            rw [List.getElem?_append_left (List.getElem?_eq_some_iff.1 this).1]
            exact this
        · intro i t ht
          rw [AMap.get_insert]
          split
          · exact ⟨_, rfl⟩
          · next hne =>
            refine ih.mapped i t ?_
            simp only [List.getElem?_append] at ht
            split at ht
            · exact ht
            · simp [List.getElem?_singleton] at ht
              exact absurd ht.2.symm hne

theorem Strings.Inv.get_of_strings {dflt : Option String} {S : Strings} (h : S.Inv dflt) {i : Idx}
    {s : String} (hs : S.strings[i.toNat]? = some s) : S.get dflt i = some s := by
  unfold Strings.get
  split
  · next d =>
    split
    · next h0 =>
      subst h0
      have := h.dflt d rfl
      simp only [BitVec.ofNat_eq_ofNat, BitVec.toNat_ofNat, Nat.zero_mod] at hs
      rw [this] at hs
      exact hs
    · exact hs
  · exact hs

/-- C11: the index returned by an addition reads back as the added string. -/
theorem C11_add_reads_back (dflt : Option String) (S : Strings) (h : S.Reachable dflt)
    (hlen : S.strings.length + 1 < 2 ^ 32) (s : String) :
    (S.add dflt s).2.get dflt (S.add dflt s).1 = some s := by
  have hi := h.inv
  have hi' := (Strings.Reachable.add s h hlen).inv
  unfold Strings.add at hi' ⊢
  split
  · next hd => simp [Strings.get, hd]
  · next hd =>
    rw [if_neg hd] at hi'
    split
    · next i hg =>
      simp only [hg] at hi'
      exact hi'.get_of_strings (hi.map s i hg)
    · next hg =>
      simp only [hg] at hi'
      refine hi'.get_of_strings ?_
      simp only
      rw [BitVec.toNat_ofNat, Nat.mod_eq_of_lt (by omega)]
      simp

/-- C11: indexes that could be read before an addition read back the same string afterwards. -/
theorem C11_add_keeps (dflt : Option String) (S : Strings) (s t : String) (i : Idx)
    (h : S.get dflt i = some t) : (S.add dflt s).2.get dflt i = some t := by
  unfold Strings.add
  split
  · exact h
  · split
    · exact h
    · have : ∀ (k : Nat) (t : String), S.strings[k]? = some t → (S.strings ++ [s])[k]? = some t := by
        intro k t hk
        rw [List.getElem?_append_left (List.getElem?_eq_some_iff.1 hk).1]
        exact hk
      unfold Strings.get at h ⊢
      split at h
      · split at h
        · next h0 => rw [if_pos h0]; exact h
        · next h0 => rw [if_neg h0]; exact this _ _ h
      · exact this _ _ h

/-- A history of additions. -/
def Strings.addAll (dflt : Option String) (S : Strings) (ss : List String) : Strings :=
  ss.foldl (fun S s => (S.add dflt s).2) S

theorem Strings.addAll_get {dflt : Option String} (ss : List String) (S : Strings) (t : String) (i : Idx)
    (h : S.get dflt i = some t) : (S.addAll dflt ss).get dflt i = some t := by
  induction ss generalizing S with
  | nil => exact h
  | cons s ss ih => exact ih _ (C11_add_keeps dflt S s t i h)

theorem Strings.add_mapped {dflt : Option String} {S : Strings} {s t : String} {i : Idx}
    (hm : S.mappings.get t = some i) :
    (S.add dflt s).2.mappings.get t = some i := by
  unfold Strings.add
  split
  · exact hm
  · split
    · exact hm
    · next hg =>
      simp only
      rw [AMap.get_insert_ne]
      · exact hm
      · rintro rfl; rw [hg] at hm; cases hm

theorem Strings.addAll_mapped {dflt : Option String} (ss : List String) {S : Strings} {t : String}
    {i : Idx} (hm : S.mappings.get t = some i) :
    (S.addAll dflt ss).mappings.get t = some i := by
  induction ss generalizing S with
  | nil => exact hm
  | cons s ss ih => exact ih (Strings.add_mapped hm)

/-- C11: adding a string again, after any further additions, returns the same index and changes
nothing. -/
theorem C11_add_again (dflt : Option String) (S : Strings) (s : String) (ss : List String) :
    ((S.add dflt s).2.addAll dflt ss).add dflt s =
      ((S.add dflt s).1, (S.add dflt s).2.addAll dflt ss) := by
  by_cases hd : dflt = some s
  · have : ∀ T : Strings, T.add dflt s = (0, T) := by intro T; simp [Strings.add, hd]
    rw [this, this S]
  · have hm : (S.add dflt s).2.mappings.get s = some (S.add dflt s).1 := by
      unfold Strings.add
      rw [if_neg hd]
      split
      · next hg => exact hg
      · simp
    have := Strings.addAll_mapped (dflt := dflt) ss hm
    have key : ∀ T : Strings, ∀ i, T.mappings.get s = some i → T.add dflt s = (i, T) := by
      intro T i hT
      unfold Strings.add
      rw [if_neg hd]
      simp only [hT]
    exact key _ _ this

/-- C11: different strings have different indexes, however many additions lie between. -/
theorem C11_indexes_differ (dflt : Option String) (S : Strings) (h : S.Reachable dflt) (s t : String)
    (ss : List String) (hlen : S.strings.length + ss.length + 2 < 2 ^ 32) (hne : s ≠ t) :
    (S.add dflt s).1 ≠ (((S.add dflt s).2.addAll dflt ss).add dflt t).1 := by
  have hgrow : ∀ (T : Strings) (u : String), (T.add dflt u).2.strings.length ≤ T.strings.length + 1 := by
    intro T u
    unfold Strings.add
    split
    · simp
    · split <;> simp
  have hreach : ∀ (ss : List String) (T : Strings), T.Reachable dflt →
      T.strings.length + ss.length + 1 < 2 ^ 32 →
      (T.addAll dflt ss).Reachable dflt ∧ (T.addAll dflt ss).strings.length + 1 < 2 ^ 32 := by
    intro ss
    induction ss with
    | nil => intro T hT hl; exact ⟨hT, by simpa [Strings.addAll] using hl⟩
    | cons u us ih =>
      intro T hT hl
      simp only [List.length_cons] at hl
      have := hgrow T u
      refine ih _ (.add u hT (by omega)) ?_
      simp only
      omega
  have hS1 : (S.add dflt s).2.Reachable dflt := .add s h (by omega)
  have hg := hgrow S s
  obtain ⟨hr, hl⟩ := hreach ss _ hS1 (by omega)
  have h1 : (S.add dflt s).2.get dflt (S.add dflt s).1 = some s := C11_add_reads_back dflt S h (by omega) s
  have h2 := Strings.addAll_get ss _ _ _ h1
  have h3 := C11_add_keeps dflt _ t _ _ h2
  have h4 := C11_add_reads_back dflt _ hr hl t
  intro he
  rw [← he, h3] at h4
  exact hne (Option.some.inj h4)

/-- C11: searching for a string finds an index that reads back as it, exactly when the table holds it. -/
theorem C11_get_index (dflt : Option String) (S : Strings) (h : S.Reachable dflt) (s : String) :
    (∀ i, S.getIndex s = some i → S.get dflt i = some s) ∧
      (s ∈ S.strings → ∃ i, S.getIndex s = some i) := by
  have hi := h.inv
  refine ⟨fun i hg => hi.get_of_strings (hi.map s i hg), fun hm => ?_⟩
  obtain ⟨k, hk⟩ := List.mem_iff_getElem?.1 hm
  exact hi.mapped k s hk

/-- Non-vacuity: a table read from a file, with its default at index 0, and one addition. -/
example : ∃ S : Strings, S.Reachable Strings.cnameDefault ∧ S.strings = ["None", "b"] ∧
    (S.add Strings.cnameDefault "b").1 = 1 ∧ (S.add Strings.cnameDefault "c").1 = 2 ∧
    (S.add Strings.cnameDefault "None").1 = 0 := by
  refine ⟨⟨["None", "b"], ((AMap.empty.insert "None" 0).insert "b" 1)⟩, .loaded
    (data := encCStr "None" ++ encCStr "b") (n := 2) (bs := encU32 0 ++ encU32 5) (rest := []) ?_ ?_,
    rfl, rfl, rfl, rfl⟩
  · decide +kernel
  · intro d hd; simp [Strings.cnameDefault] at hd; subst hd; rfl

/-- The requirement on entry 0 is needed: in an empty name table the first addition returns index 0,
which reads back as `None`. -/
theorem C11_empty_names_counterexample :
    (Strings.empty.add Strings.cnameDefault "foo").2.get Strings.cnameDefault
      (Strings.empty.add Strings.cnameDefault "foo").1 = some "None" := by
  decide

/-! ## C12: pool updates -/

/-- An update of the definition table. -/
inductive PoolOp where
  | add (d : Definition)
  | put (i : Idx) (d : Definition)
  | swap (i j : Idx)
  | rename (i name : Idx)

/-- The indexes an update names. -/
def PoolOp.touches : PoolOp → Idx → Prop
  | .add _, _ => False
  | .put i _, k => k = i
  | .swap i j, k => k = i ∨ k = j
  | .rename i _, k => k = i

/-- Running an update on the model. -/
def PoolOp.run (p : ConstantPool) : PoolOp → Except Err ConstantPool
  | .add d => .ok (p.addDefinition d).2
  | .put i d => p.putDefinition i d
  | .swap i j => p.swapDefinition i j
  | .rename i n => p.rename i n

/-- Running a history of updates. -/
def PoolOp.runAll (p : ConstantPool) : List PoolOp → Except Err ConstantPool
  | [] => .ok p
  | o :: os => match o.run p with
    | .error e => .error e
    | .ok p' => PoolOp.runAll p' os

/-- C12: an added definition gets a fresh index, reads back, and every other index keeps its
definition. -/
theorem C12_add (p : ConstantPool) (d : Definition) (hlen : p.definitions.length < 2 ^ 32) :
    p.definition (p.addDefinition d).1 = none ∧
      (p.addDefinition d).2.definition (p.addDefinition d).1 = some d ∧
      ∀ k, k ≠ (p.addDefinition d).1 → (p.addDefinition d).2.definition k = p.definition k := by
  have hn : (BitVec.ofNat 32 p.definitions.length).toNat = p.definitions.length := by
    rw [BitVec.toNat_ofNat, Nat.mod_eq_of_lt hlen]
  refine ⟨?_, ?_, ?_⟩
  · simp [ConstantPool.definition, ConstantPool.addDefinition, hn]
  · simp [ConstantPool.definition, ConstantPool.addDefinition, hn]
  · intro k hk
    have : k.toNat ≠ p.definitions.length := fun h => hk (by
      simp only [ConstantPool.addDefinition]; rw [← h, BitVec.ofNat_toNat]; simp)
    simp only [ConstantPool.definition, ConstantPool.addDefinition, List.getElem?_append]
    split
    · rfl
    · rw [List.getElem?_singleton, if_neg (by omega)]
      simp; omega

/-- C12: replacing succeeds exactly at a valid index, reads back, and keeps every other index. -/
theorem C12_put (p : ConstantPool) (i : Idx) (d : Definition) :
    ((∃ p', p.putDefinition i d = .ok p') ↔ ∃ d', p.definition i = some d') ∧
      ∀ p', p.putDefinition i d = .ok p' → p'.definition i = some d ∧
        ∀ k, k ≠ i → p'.definition k = p.definition k := by
  unfold ConstantPool.putDefinition ConstantPool.definition
  refine ⟨?_, ?_⟩
  · split
    · next h => exact ⟨fun _ => ⟨_, List.getElem?_eq_getElem h⟩, fun _ => ⟨_, rfl⟩⟩
    · next h =>
      refine ⟨?_, ?_⟩
      · rintro ⟨_, h⟩; cases h
      · rintro ⟨d', hd⟩; exact absurd (List.getElem?_eq_some_iff.1 hd).1 h
  · intro p' hp
    split at hp
    · next h =>
      simp only [Except.ok.injEq] at hp
      subst hp
      refine ⟨by simp [h], fun k hk => ?_⟩
      simp only
      rw [List.getElem?_set_ne]
      intro he; exact hk (BitVec.eq_of_toNat_eq he.symm)
    · cases hp

/-- C12: renaming changes the name of one definition and nothing else. -/
theorem C12_rename (p : ConstantPool) (i n : Idx) (d : Definition) (h : p.definition i = some d) :
    ∃ p', p.rename i n = .ok p' ∧ p'.definition i = some { d with name := n } ∧
      ∀ k, k ≠ i → p'.definition k = p.definition k := by
  unfold ConstantPool.definition at *
  unfold ConstantPool.rename
  rw [h]
  refine ⟨_, rfl, ?_, fun k hk => ?_⟩
  · simp [(List.getElem?_eq_some_iff.1 h).1]
  · simp only
    rw [List.getElem?_set_ne]
    intro he; exact hk (BitVec.eq_of_toNat_eq he.symm)

/-- C12: swapping exchanges two definitions and keeps every other index. -/
theorem C12_swap (p : ConstantPool) (i j : Idx) (a b : Definition) (ha : p.definition i = some a)
    (hb : p.definition j = some b) :
    ∃ p', p.swapDefinition i j = .ok p' ∧ p'.definition i = some b ∧ p'.definition j = some a ∧
      ∀ k, k ≠ i → k ≠ j → p'.definition k = p.definition k := by
  unfold ConstantPool.definition at *
  unfold ConstantPool.swapDefinition
  rw [ha, hb]
  have hi := (List.getElem?_eq_some_iff.1 ha).1
  have hj := (List.getElem?_eq_some_iff.1 hb).1
  refine ⟨_, rfl, ?_, ?_, fun k hk1 hk2 => ?_⟩
  · simp only [List.getElem?_set]
    split
    · next he =>
      rw [he] at hb
      rw [ha] at hb
      simp [hj, hb]
    · simp
  · simp [hj]
  · simp only
    rw [List.getElem?_set_ne, List.getElem?_set_ne]
    · intro he; exact hk1 (BitVec.eq_of_toNat_eq he.symm)
    · intro he; exact hk2 (BitVec.eq_of_toNat_eq he.symm)

/-- C12: swapping twice, in either argument order, restores the pool. -/
theorem C12_swap_twice (p p' : ConstantPool) (i j : Idx) (h : p.swapDefinition i j = .ok p') :
    p'.swapDefinition i j = .ok p ∧ p'.swapDefinition j i = .ok p := by
  unfold ConstantPool.swapDefinition at h
  split at h
  · next a b ha hb =>
    simp only [Except.ok.injEq] at h
    have hda : p.definition i = some a := ha
    have hdb : p.definition j = some b := hb
    obtain ⟨p2, h2, h3, h4, -⟩ := C12_swap p i j a b hda hdb
    have hp2 : p2 = p' := by
      unfold ConstantPool.swapDefinition at h2
      rw [ha, hb] at h2
      simp only [Except.ok.injEq] at h2
      rw [← h2, ← h]
    subst hp2
    have hi := (List.getElem?_eq_some_iff.1 ha).1
    have hj := (List.getElem?_eq_some_iff.1 hb).1
    have hpd : p2.definitions = (p.definitions.set i.toNat b).set j.toNat a := by rw [← h]
    have hrest : p2 = { p with definitions := p2.definitions } := by rw [← h]
    unfold ConstantPool.definition at h3 h4
    constructor
    · unfold ConstantPool.swapDefinition
      rw [h3, h4]
      simp only [Except.ok.injEq]
      rw [hrest]
      have : ((p2.definitions.set i.toNat a).set j.toNat b) = p.definitions := by
        apply List.ext_getElem?
        intro k
        rw [hpd]
        simp only [List.getElem?_set, List.length_set]
        by_cases h1 : j.toNat = k
        · subst h1; rw [hb]; simp [hj]
        · by_cases h2 : i.toNat = k
          · subst h2; rw [ha]; simp [h1, hi]
          · simp [h1, h2]
      rw [this]
    · unfold ConstantPool.swapDefinition
      rw [h3, h4]
      simp only [Except.ok.injEq]
      rw [hrest]
      have : ((p2.definitions.set j.toNat b).set i.toNat a) = p.definitions := by
        apply List.ext_getElem?
        intro k
        rw [hpd]
        simp only [List.getElem?_set, List.length_set]
        by_cases h2 : i.toNat = k
        · subst h2; rw [ha]; simp [hi]
        · by_cases h1 : j.toNat = k
          · subst h1; rw [hb]; simp [h2, hj]
          · simp [h1, h2]
      rw [this]
  · cases h

/-- C12: over any history of updates, an index that was valid stays valid, and an index no update
names keeps its definition. Strings are never affected. -/
theorem C12_history (ops : List PoolOp) (p p' : ConstantPool) (h : PoolOp.runAll p ops = .ok p')
    (hlen : p.definitions.length + ops.length ≤ 2 ^ 32) :
    (∀ k d, p.definition k = some d → ∃ d', p'.definition k = some d') ∧
      (∀ k d, p.definition k = some d → (∀ o ∈ ops, ¬ o.touches k) → p'.definition k = some d) ∧
      p'.names = p.names ∧ p'.strings = p.strings ∧ p'.tweakdbIds = p.tweakdbIds ∧
      p'.resources = p.resources := by
  induction ops generalizing p with
  | nil =>
    simp only [PoolOp.runAll, Except.ok.injEq] at h
    subst h
    exact ⟨fun k d h => ⟨d, h⟩, fun k d h _ => h, rfl, rfl, rfl, rfl⟩
  | cons o os ih =>
    unfold PoolOp.runAll at h
    cases ho : o.run p with
    | error e => rw [ho] at h; cases h
    | ok q =>
      rw [ho] at h
      simp only [List.length_cons] at hlen
      have hstep : q.definitions.length ≤ p.definitions.length + 1 ∧
          (∀ k d, p.definition k = some d → ∃ d', q.definition k = some d') ∧
          (∀ k d, p.definition k = some d → ¬ o.touches k → q.definition k = some d) ∧
          q.names = p.names ∧ q.strings = p.strings ∧ q.tweakdbIds = p.tweakdbIds ∧
          q.resources = p.resources := by
        have hnotNew : ∀ k d d', p.definition k = some d → k ≠ (p.addDefinition d').1 := by
          intro k d d' hk he
          have := (C12_add p d' (by omega)).1
          rw [← he, hk] at this
          cases this
        cases o with
        | add d' =>
          simp only [PoolOp.run, Except.ok.injEq] at ho
          subst ho
          have := C12_add p d' (by omega)
          refine ⟨by simp [ConstantPool.addDefinition], ?_, ?_, rfl, rfl, rfl, rfl⟩
          · intro k d hk; exact ⟨d, by rw [this.2.2 k (hnotNew k d d' hk), hk]⟩
          · intro k d hk _; rw [this.2.2 k (hnotNew k d d' hk), hk]
        | put i d' =>
          have hp := (C12_put p i d').2 q ho
          simp only [PoolOp.run] at ho
          unfold ConstantPool.putDefinition at ho
          split at ho
          · simp only [Except.ok.injEq] at ho
            refine ⟨by rw [← ho]; simp, ?_, ?_, by rw [← ho], by rw [← ho], by rw [← ho], by rw [← ho]⟩
            · intro k d hk
              by_cases hki : k = i
              · exact ⟨d', hki ▸ hp.1⟩
              · exact ⟨d, by rw [hp.2 k hki, hk]⟩
            · intro k d hk ht
              rw [hp.2 k ht, hk]
          · cases ho
        | swap i j =>
          simp only [PoolOp.run] at ho
          have ho' := ho
          unfold ConstantPool.swapDefinition at ho
          split at ho
          · next a b ha hb =>
            obtain ⟨q', hq', h1, h2, h3⟩ := C12_swap p i j a b ha hb
            rw [ho'] at hq'
            simp only [Except.ok.injEq] at hq' ho
            subst hq'
            refine ⟨by rw [← ho]; simp, ?_, ?_, by rw [← ho], by rw [← ho], by rw [← ho], by rw [← ho]⟩
            · intro k d hk
              by_cases hki : k = i
              · exact ⟨b, hki ▸ h1⟩
              · by_cases hkj : k = j
                · exact ⟨a, hkj ▸ h2⟩
                · exact ⟨d, by rw [h3 k hki hkj, hk]⟩
            · intro k d hk ht
              simp only [PoolOp.touches, not_or] at ht
              rw [h3 k ht.1 ht.2, hk]
          · cases ho
        | rename i n =>
          simp only [PoolOp.run] at ho
          have ho' := ho
          unfold ConstantPool.rename at ho
          split at ho
          · next d0 hd0 =>
            obtain ⟨q', hq', h1, h2⟩ := C12_rename p i n d0 hd0
            rw [ho'] at hq'
            simp only [Except.ok.injEq] at hq' ho
            subst hq'
            refine ⟨by rw [← ho]; simp, ?_, ?_, by rw [← ho], by rw [← ho], by rw [← ho], by rw [← ho]⟩
            · intro k d hk
              by_cases hki : k = i
              · exact ⟨_, hki ▸ h1⟩
              · exact ⟨d, by rw [h2 k hki, hk]⟩
            · intro k d hk ht
              rw [h2 k ht, hk]
          · cases ho
      obtain ⟨hs1, hs2, hs3, hs4, hs5, hs6, hs7⟩ := hstep
      obtain ⟨g1, g2, g3, g4, g5, g6⟩ := ih q h (by omega)
      refine ⟨?_, ?_, by rw [g3, hs4], by rw [g4, hs5], by rw [g5, hs6], by rw [g6, hs7]⟩
      · intro k d hk
        obtain ⟨d', hd'⟩ := hs2 k d hk
        exact g1 k d' hd'
      · intro k d hk ht
        exact g2 k d (hs3 k d hk (ht o (by simp))) fun o' ho' => ht o' (by simp [ho'])

/-- C12: iterating over the pool yields each index but the placeholder's once, with the definition
that index reads as. -/
theorem C12_iteration (p : ConstantPool) (hlen : p.definitions.length ≤ 2 ^ 32) (k : Idx) (d : Definition) :
    (k, d) ∈ p.indexed ↔ k ≠ 0 ∧ p.definition k = some d := by
  unfold ConstantPool.indexed ConstantPool.definition
  simp only [List.mem_map, Prod.mk.injEq]
  constructor
  · rintro ⟨⟨d', i⟩, hm, hk, rfl⟩
    obtain ⟨n, hn⟩ := List.mem_iff_getElem?.1 hm
    rw [List.getElem?_drop, List.getElem?_zipIdx] at hn
    cases hg : p.definitions[1 + n]? with
    | none => rw [hg] at hn; cases hn
    | some e =>
      rw [hg] at hn
      simp only [Option.map_some, Option.some.injEq, Prod.mk.injEq] at hn
      obtain ⟨rfl, rfl⟩ := hn
      have hlt := (List.getElem?_eq_some_iff.1 hg).1
      simp only at hk
      have hkn : k.toNat = 1 + n := by
        rw [← hk, BitVec.toNat_ofNat, Nat.mod_eq_of_lt (by omega)]; omega
      refine ⟨?_, by simp only; rw [hkn, hg]⟩
      rintro rfl
      simp at hkn
      omega
  · rintro ⟨h0, hd⟩
    have hpos : 0 < k.toNat := by
      rcases Nat.eq_zero_or_pos k.toNat with h | h
      · exact absurd (BitVec.eq_of_toNat_eq (by simpa using h)) h0
      · exact h
    refine ⟨(d, k.toNat), ?_, by simp, rfl⟩
    apply List.mem_iff_getElem?.2
    refine ⟨k.toNat - 1, ?_⟩
    rw [List.getElem?_drop, List.getElem?_zipIdx, show 1 + (k.toNat - 1) = k.toNat by omega, hd]
    simp

/-- Non-vacuity of the pool theorems on a concrete history. -/
example : ∃ p', PoolOp.runAll .sample [.add .default, .swap 1 2, .rename 3 1, .put 1 .default] = .ok p' ∧
    p'.definitions.length = 4 ∧ ConstantPool.sample.definitions.length + 4 ≤ 2 ^ 32 ∧
    p'.definition 2 = ConstantPool.sample.definition 1 := by
  refine ⟨_, rfl, rfl, by decide, rfl⟩

/-! ## C13: renaming references -/

/-- The class operands of an instruction. -/
def Instr.classRefs : Instr L → List Idx
  | .Construct _ i => [i]
  | .New i => [i]
  | .DynamicCast i _ => [i]
  | _ => []

/-- The references of a definition to classes: base class, owner of a function or field, and class
operands of code. -/
def Definition.classRefs (d : Definition) : List Idx :=
  match d.value with
  | .Class c => [c.base]
  | .Function f => d.parent :: f.code.flatMap Instr.classRefs
  | .Field _ => [d.parent]
  | _ => []

/-- An instruction with its class operands blanked out. -/
def Instr.withoutClasses : Instr L → Instr L
  | .Construct n _ => .Construct n 0
  | .New _ => .New 0
  | .DynamicCast _ b => .DynamicCast 0 b
  | i => i

/-- A definition with its class references blanked out. -/
def Definition.withoutClasses (d : Definition) : Definition :=
  match d.value with
  | .Class c => { d with value := .Class { c with base := 0 } }
  | .Function f => { d with parent := 0, value := .Function { f with code := f.code.map Instr.withoutClasses } }
  | .Field _ => { d with parent := 0 }
  | _ => d

theorem Instr.classRefs_mapRefs (fc : Idx → Idx) (i : Instr L) :
    (i.mapRefs fc id).classRefs = i.classRefs.map fc := by
  cases i <;> rfl

theorem Instr.withoutClasses_mapRefs (fc : Idx → Idx) (i : Instr L) :
    (i.mapRefs fc id).withoutClasses = i.withoutClasses := by
  cases i <;> rfl

/-- C13: a class mapping renames every class reference of every definition and nothing else. -/
theorem C13_renames_exactly (fc : Idx → Idx) (p : ConstantPool) :
    (p.mapRefs fc id).definitions.length = p.definitions.length ∧
    (p.mapRefs fc id).names = p.names ∧ (p.mapRefs fc id).strings = p.strings ∧
    (p.mapRefs fc id).tweakdbIds = p.tweakdbIds ∧ (p.mapRefs fc id).resources = p.resources ∧
    ∀ (i : Nat) (d : Definition), p.definitions[i]? = some d →
      ∃ d', (p.mapRefs fc id).definitions[i]? = some d' ∧
        d'.classRefs = d.classRefs.map fc ∧ d'.withoutClasses = d.withoutClasses := by
  refine ⟨by simp [ConstantPool.mapRefs], rfl, rfl, rfl, rfl, ?_⟩
  intro i d hd
  refine ⟨d.mapRefs fc id, by simp [ConstantPool.mapRefs, hd], ?_, ?_⟩
  · obtain ⟨n, pa, u1, u2, u3, v⟩ := d
    cases v with
    | Function f =>
      simp only [Definition.mapRefs, Definition.classRefs, List.map_cons, List.cons.injEq, true_and]
      rw [List.flatMap_map, List.map_flatMap]
      congr 1
      funext i
      exact Instr.classRefs_mapRefs fc i
    | _ => rfl
  · obtain ⟨n, pa, u1, u2, u3, v⟩ := d
    cases v with
    | Function f =>
      simp only [Definition.mapRefs, Definition.withoutClasses, List.map_map]
      congr 4
      funext i
      exact Instr.withoutClasses_mapRefs fc i
    | _ => rfl

theorem Instr.determined (i j : Instr L) (h1 : i.withoutClasses = j.withoutClasses)
    (h2 : i.classRefs = j.classRefs) : i = j := by
  cases i <;> cases j <;>
    simp_all [Instr.withoutClasses, Instr.classRefs]

theorem Instr.withoutClasses_refs_length (i j : Instr L) (h1 : i.withoutClasses = j.withoutClasses) :
    i.classRefs.length = j.classRefs.length := by
  cases i <;> cases j <;> simp_all [Instr.withoutClasses, Instr.classRefs]

theorem code_determined (as bs : List (Instr L))
    (h1 : as.map Instr.withoutClasses = bs.map Instr.withoutClasses)
    (h2 : as.flatMap Instr.classRefs = bs.flatMap Instr.classRefs) : as = bs := by
  induction as generalizing bs with
  | nil => cases bs with
    | nil => rfl
    | cons b bs => simp at h1
  | cons a as ih => cases bs with
    | nil => simp at h1
    | cons b bs =>
      simp only [List.map_cons, List.cons.injEq] at h1
      simp only [List.flatMap_cons] at h2
      obtain ⟨e1, e2⟩ := List.append_inj h2 (Instr.withoutClasses_refs_length a b h1.1)
      rw [Instr.determined a b h1.1 e1, ih bs h1.2 e2]

/-- The two views used by `C13_renames_exactly` determine a definition, so it leaves nothing open. -/
theorem C13_views_determine (d d' : Definition) (h1 : d.classRefs = d'.classRefs)
    (h2 : d.withoutClasses = d'.withoutClasses) : d = d' := by
  obtain ⟨n, pa, u1, u2, u3, v⟩ := d
  obtain ⟨n', pa', u1', u2', u3', v'⟩ := d'
  cases v <;> cases v' <;> simp_all [Definition.classRefs, Definition.withoutClasses]
  · next c c' =>
    obtain ⟨a1, a2, a3, a4, a5, a6⟩ := c
    obtain ⟨b1, b2, b3, b4, b5, b6⟩ := c'
    simp_all
  · next f f' =>
    obtain ⟨-, -, -, -, hf⟩ := h2
    have hc : f.code = f'.code := code_determined _ _ hf.2.2.2.2.2.2.2.2.2.2.1 h1.2
    obtain ⟨a1, a2, a3, a4, a5, a6, a7, a8, a9, a10, a11, a12⟩ := f
    obtain ⟨b1, b2, b3, b4, b5, b6, b7, b8, b9, b10, b11, b12⟩ := f'
    simp_all

/-- C13: a mapping followed by its inverse restores the pool. -/
theorem C13_inverse (fc fc' ff ff' : Idx → Idx) (hc : ∀ i, fc' (fc i) = i) (hf : ∀ i, ff' (ff i) = i)
    (p : ConstantPool) : (p.mapRefs fc ff).mapRefs fc' ff' = p := by
  have hi : ∀ i : Instr Offset, (i.mapRefs fc ff).mapRefs fc' ff' = i := by
    intro i; cases i <;> simp [Instr.mapRefs, hc, hf]
  have hd : ∀ d : Definition, (d.mapRefs fc ff).mapRefs fc' ff' = d := by
    intro d
    obtain ⟨n, pa, u1, u2, u3, v⟩ := d
    cases v with
    | Function f => simp [Definition.mapRefs, hc, Function.comp_def, hi]
    | _ => simp [Definition.mapRefs, hc, hf]
  obtain ⟨a, b, c, d, e⟩ := p
  simp [ConstantPool.mapRefs, Function.comp_def, hd]

/-- C13: the positions and sizes of instructions are unaffected, so every jump keeps its target. -/
theorem C13_sizes_kept (fc ff : Idx → Idx) (i : Instr L) :
    (i.mapRefs fc ff).size = i.size ∧ (i.mapRefs fc ff).locs = i.locs := by
  cases i <;> exact ⟨rfl, rfl⟩

/-- C13: the mapping made from the pairs of a finite permutation is undone by that of the swapped
pairs. -/
theorem C13_finite_inverse (m m' : AMap Idx Idx) (h : ∀ i j, m.get i = some j → m'.get j = some i)
    (hdom : ∀ j, m.get j = none → m'.get j = none) (p : ConstantPool) :
    (p.mapRefs (multiMap m) id).mapRefs (multiMap m') id = p := by
  refine C13_inverse _ _ _ _ (fun i => ?_) (fun _ => rfl) p
  unfold multiMap
  cases hg : m.get i with
  | none => simp [hdom i hg]
  | some j => simp [h i j hg]

/-- Non-vacuity: exchanging classes 4 and 5. -/
example : let m : AMap Idx Idx := ((AMap.empty.insert 4 5).insert 5 4)
    (∀ i j, m.get i = some j → m.get j = some i) ∧ multiMap m 4 = 5 ∧
    (Instr.New 4 : Instr Offset).mapRefs (multiMap m) id = .New 5 := by
  refine ⟨?_, by decide, rfl⟩
  intro i j h
  rw [AMap.get_insert, AMap.get_insert] at h
  split at h
  · subst ‹i = 5›; simp at h; subst h; decide
  · split at h
    · subst ‹i = 4›; simp at h; subst h; decide
    · cases h

end Redscript
