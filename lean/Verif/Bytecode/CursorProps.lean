import Verif.Bytecode.Cursor
import Verif.Bytecode.Lemmas

/-!
# C06: code positions, iteration and seeking agree
-/

namespace Redscript

/-- Specification: the position of instruction `k`, the sum of the sizes of those before it. -/
def startPos (code : List (Instr L)) (k : Nat) : Nat := ((code.take k).map fun i => i.size.toNat).sum

/-- Specification: the whole body fits the 16-bit address space. -/
def Fits16 (code : List (Instr L)) : Prop := (code.map fun i => i.size.toNat).sum < 2 ^ 16

/-- Specification: no label markers (and no other instruction of size zero). -/
def NoEmpty (code : List (Instr L)) : Prop := ∀ i ∈ code, i.size ≠ 0

/-! ### Helper lemmas -/

theorem zero_add16 (x : BitVec 16) : 0 + x = x := BitVec.zero_add x

theorem startPos_zero (code : List (Instr L)) : startPos code 0 = 0 := by simp [startPos]

theorem startPos_cons_succ (i : Instr L) (code : List (Instr L)) (k : Nat) :
    startPos (i :: code) (k + 1) = i.size.toNat + startPos code k := by simp [startPos]

theorem startPos_succ (code : List (Instr L)) (k : Nat) (i : Instr L) (h : code[k]? = some i) :
    startPos code (k + 1) = startPos code k + i.size.toNat := by
  induction code generalizing k with
  | nil => simp at h
  | cons j js ih =>
    cases k with
    | zero => simp at h; subst h; simp [startPos]
    | succ k =>
      rw [startPos_cons_succ, startPos_cons_succ, ih k (by simpa using h)]
      omega

theorem startPos_mono (code : List (Instr L)) {a b : Nat} (h : a ≤ b) :
    startPos code a ≤ startPos code b := by
  induction code generalizing a b with
  | nil => simp [startPos]
  | cons j js ih =>
    cases a with
    | zero => simp [startPos_zero]
    | succ a =>
      cases b with
      | zero => omega
      | succ b =>
        rw [startPos_cons_succ, startPos_cons_succ]
        have := ih (a := a) (b := b) (by omega)
        omega

theorem startPos_le_total (code : List (Instr L)) (k : Nat) :
    startPos code k ≤ (code.map fun i => i.size.toNat).sum := by
  have := startPos_mono code (a := min k code.length) (b := code.length) (by omega)
  have h1 : startPos code code.length = (code.map fun i => i.size.toNat).sum := by simp [startPos]
  have h2 : startPos code k = startPos code (min k code.length) := by
    unfold startPos
    rw [List.take_eq_take_min]
  omega

theorem startPos_strict (code : List (Instr L)) (hne : NoEmpty code) {a b : Nat} (h : a < b)
    (hb : b ≤ code.length) : startPos code a < startPos code b := by
  have ha : a < code.length := by omega
  have h1 := startPos_succ code a _ (List.getElem?_eq_getElem ha)
  have h2 := startPos_mono code (a := a + 1) (b := b) (by omega)
  have h3 : code[a].size ≠ 0 := hne _ (List.getElem_mem ha)
  have h4 : 0 < code[a].size.toNat := by
    rcases Nat.eq_zero_or_pos code[a].size.toNat with h0 | h0
    · exact absurd (BitVec.eq_of_toNat_eq (by simpa using h0)) h3
    · exact h0
  omega

theorem runningSizes_length (s : BitVec 16) (code : List (Instr L)) :
    (CodeCursor.runningSizes s code).length = code.length := by
  induction code generalizing s with
  | nil => rfl
  | cons i is ih => simp [CodeCursor.runningSizes, ih]

theorem runningSizes_getElem? (s : BitVec 16) (code : List (Instr L)) (k : Nat)
    (hk : k < code.length) :
    (CodeCursor.runningSizes s code)[k]? = some (s + BitVec.ofNat 16 (startPos code (k + 1))) := by
  induction code generalizing s k with
  | nil => simp at hk
  | cons i is ih =>
    cases k with
    | zero =>
      simp [CodeCursor.runningSizes, startPos]
    | succ k =>
      simp only [CodeCursor.runningSizes, List.getElem?_cons_succ]
      rw [ih _ _ (by simpa using hk), startPos_cons_succ i is (k + 1)]
      congr 1
      apply BitVec.eq_of_toNat_eq
      simp only [BitVec.toNat_add, BitVec.toNat_ofNat]
      omega

theorem collect_getElem? (off : BitVec 16) (code : List (Instr L)) (k : Nat) :
    (CodeIter.collect off code)[k]? =
      code[k]?.map fun i => (off + BitVec.ofNat 16 (startPos code k), i) := by
  induction code generalizing off k with
  | nil => simp [CodeIter.collect]
  | cons i is ih =>
    cases k with
    | zero => simp [CodeIter.collect, startPos]
    | succ k =>
      simp only [CodeIter.collect, List.getElem?_cons_succ]
      rw [ih, startPos_cons_succ]
      congr 1
      funext j
      congr 1
      apply BitVec.eq_of_toNat_eq
      simp only [BitVec.toNat_add, BitVec.toNat_ofNat]
      omega

theorem collect_map_snd (off : BitVec 16) (code : List (Instr L)) :
    (CodeIter.collect off code).map Prod.snd = code := by
  induction code generalizing off with
  | nil => rfl
  | cons i is ih => simp [CodeIter.collect, ih]

theorem offsets_ordered (code : List (Instr L)) (hf : Fits16 code) (p : Nat) :
    Ordered (fun o : BitVec 16 => compare o.toNat p) (CodeCursor.runningSizes 0 code) := by
  unfold Ordered
  rw [List.pairwise_iff_getElem]
  intro i j hi hj hij
  rw [runningSizes_length] at hi hj
  have key : ∀ k (hk : k < code.length),
      (CodeCursor.runningSizes 0 code)[k]'(by rw [runningSizes_length]; exact hk) =
        BitVec.ofNat 16 (startPos code (k + 1)) := by
    intro k hk
    have := runningSizes_getElem? 0 code k hk
    rw [List.getElem?_eq_some_iff] at this
    obtain ⟨_, h⟩ := this
    rw [h]; simp
  have hval : ∀ k, (BitVec.ofNat 16 (startPos code k)).toNat = startPos code k := by
    intro k
    have h1 := startPos_le_total code k
    unfold Fits16 at hf
    rw [BitVec.toNat_ofNat]; omega
  rw [key i hi, key j hj]
  simp only [hval]
  have := startPos_mono code (a := i + 1) (b := j + 1) (by omega)
  constructor
  · intro h
    rw [Nat.compare_eq_eq] at h
    rw [ne_eq, Nat.compare_eq_lt]; omega
  · intro h
    rw [Nat.compare_eq_gt] at h ⊢
    omega

/-- Which index `get_index` returns. -/
theorem getIndex_spec (bs : BinarySearch) (code : List (Instr L)) (hf : Fits16 code)
    (c : CodeCursor L) (hc : c.offsets = CodeCursor.runningSizes 0 code) (p : Location) :
    (∀ k, c.getIndex bs p = .ok k → k ≤ code.length ∧ startPos code k = p.toNat) ∧
    (∀ e, c.getIndex bs p = .error e →
      e = .invalidInstructionOffset p ∧ ∀ k, k ≤ code.length → startPos code k ≠ p.toNat) := by
  have hval : ∀ k, (BitVec.ofNat 16 (startPos code k)).toNat = startPos code k := by
    intro k
    have h1 := startPos_le_total code k
    unfold Fits16 at hf
    rw [BitVec.toNat_ofNat]; omega
  unfold CodeCursor.getIndex
  have ho := offsets_ordered code hf p.toNat
  by_cases hp : p = 0
  · simp [hp, startPos_zero]
  · rw [if_neg hp, hc]
    have hp0 : p.toNat ≠ 0 := fun h => hp (BitVec.eq_of_toNat_eq (by simpa using h))
    cases hr : bs.run (fun o : BitVec 16 => compare o.toNat p.toNat) (CodeCursor.runningSizes 0 code) with
    | ok i =>
      obtain ⟨a, h1, h2⟩ := bs.found _ _ _ ho hr
      have hi : i < code.length := by
        have := (List.getElem?_eq_some_iff.1 h1).1
        rwa [runningSizes_length] at this
      rw [runningSizes_getElem? 0 code i hi] at h1
      simp only [Option.some.injEq] at h1
      subst h1
      rw [Nat.compare_eq_eq] at h2
      rw [zero_add16] at h2
      rw [hval] at h2
      constructor
      · intro k hk; simp at hk; subst hk; exact ⟨by omega, h2⟩
      · intro e he; cases he
    | error i =>
      obtain ⟨hle, hm⟩ := bs.missing _ _ _ ho hr
      constructor
      · intro k hk; cases hk
      · intro e he
        simp at he
        refine ⟨he.symm, ?_⟩
        intro k hk hpk
        cases k with
        | zero => rw [startPos_zero] at hpk; omega
        | succ k =>
          have h1 := runningSizes_getElem? 0 code k (by omega)
          have := hm k _ h1
          simp only [zero_add16, hpk] at this
          rcases Nat.lt_or_ge k i with h | h
          · have h2 := this.1 h
            simp at h2
          · have h2 := this.2 h
            simp at h2

/-! ### The properties -/

/-- C06: iterating visits every instruction once, in order, each at the position equal to the sum of
the sizes of the instructions before it. -/
theorem C06_iter (code : List (Instr L)) (hf : Fits16 code) :
    (CodeIter.collect 0 code).map Prod.snd = code ∧
      ∀ (k : Nat) (loc : Location) (i : Instr L), (CodeIter.collect 0 code)[k]? = some (loc, i) →
        loc.toNat = ((code.take k).map fun i => i.size.toNat).sum := by
  refine ⟨collect_map_snd _ _, ?_⟩
  intro k loc i h
  rw [collect_getElem?] at h
  simp only [Option.map_eq_some_iff, Prod.mk.injEq, zero_add16] at h
  obtain ⟨_, _, rfl, _⟩ := h
  have := startPos_le_total code k
  unfold Fits16 at hf
  rw [BitVec.toNat_ofNat, Nat.mod_eq_of_lt (by omega)]
  rfl

/-- The items above are those delivered by successive calls of `next`. -/
theorem C06_iter_next (it : CodeIter L) :
    CodeIter.collect it.offset it.slice = match it.next with
      | none => []
      | some (x, it') => x :: CodeIter.collect it'.offset it'.slice := by
  cases it with
  | mk slice offset => cases slice <;> rfl

/-- C06: seeking to the position of instruction `k` makes it the next one popped (or reports the end
of the code for `k` equal to the length), from any cursor state. -/
theorem C06_seek (bs : BinarySearch) (code : List (Instr L)) (hf : Fits16 code) (hne : NoEmpty code)
    (index k : Nat) (hk : k ≤ code.length) (p : Location) (hp : p.toNat = startPos code k) :
    ∃ c, CodeCursor.seekAbs bs { CodeCursor.new code with index } p = .ok c ∧
      c.peek = code[k]? ∧ c.pos = some p ∧
      (∀ i, code[k]? = some i → ∃ c', c.pop = .ok (i, c') ∧
        c'.pos = some (BitVec.ofNat 16 (startPos code (k + 1)))) ∧
      (k = code.length → c.pop = .error .endOfCode) := by
  obtain ⟨h1, h2⟩ := getIndex_spec bs code hf { CodeCursor.new code with index } rfl p
  unfold CodeCursor.seekAbs
  cases hg : CodeCursor.getIndex bs { CodeCursor.new code with index } p with
  | error e => exact absurd hp.symm ((h2 e hg).2 k hk)
  | ok j =>
    obtain ⟨hj, hpj⟩ := h1 j hg
    have hjk : j = k := by
      rcases Nat.lt_trichotomy j k with h | h | h
      · have := startPos_strict code hne h hk; omega
      · exact h
      · have := startPos_strict code hne h hj; omega
    subst hjk
    have hpos : ∀ m, m ≤ code.length →
        CodeCursor.pos { CodeCursor.new code with index := m } =
          some (BitVec.ofNat 16 (startPos code m)) := by
      intro m hm
      unfold CodeCursor.pos
      cases m with
      | zero => simp [startPos_zero]
      | succ m =>
        simp only [Nat.add_eq_zero_iff, Nat.one_ne_zero, and_false, if_false, Nat.add_sub_cancel]
        show (CodeCursor.runningSizes 0 code)[m]? = _
        rw [runningSizes_getElem? 0 code m (by omega)]
        simp
    refine ⟨{ CodeCursor.new code with index := j }, rfl, rfl, ?_, ?_, ?_⟩
    · rw [hpos j hk, ← hp]; simp
    · intro i hi
      refine ⟨{ CodeCursor.new code with index := j + 1 }, ?_, ?_⟩
      · simp [CodeCursor.pop, CodeCursor.new, hi]
      · have := (List.getElem?_eq_some_iff.1 hi).1
        exact hpos (j + 1) (by omega)
    · intro hjl
      simp [CodeCursor.pop, CodeCursor.new, hjl]

/-- C06: seeking to a position that is not the start of an instruction (or the end) is an error. -/
theorem C06_seek_invalid (bs : BinarySearch) (code : List (Instr L)) (hf : Fits16 code)
    (index : Nat) (p : Location) (hp : ∀ k, k ≤ code.length → startPos code k ≠ p.toNat) :
    CodeCursor.seekAbs bs { CodeCursor.new code with index } p =
      .error (.invalidInstructionOffset p) := by
  obtain ⟨h1, h2⟩ := getIndex_spec bs code hf { CodeCursor.new code with index } rfl p
  unfold CodeCursor.seekAbs
  cases hg : CodeCursor.getIndex bs { CodeCursor.new code with index } p with
  | ok j => exact absurd (h1 j hg).2 (hp j (h1 j hg).1)
  | error e => rw [(h2 e hg).1]

/-- C06: a relative seek by the offset between two instruction positions arrives at the second. -/
theorem C06_seek_rel (bs : BinarySearch) (code : List (Instr L)) (hf : Fits16 code)
    (hne : NoEmpty code) (j k : Nat) (hj : j ≤ code.length) (hk : k ≤ code.length)
    (p q : Location) (hp : p.toNat = startPos code j) (hq : q.toNat = startPos code k) :
    ∃ c, CodeCursor.seekRel bs { CodeCursor.new code with index := j } (q.relative p) = .ok c ∧
      c.peek = code[k]? := by
  obtain ⟨c0, -, -, -, -⟩ := C06_seek bs code hf hne j j hj p hp
  have hpos : CodeCursor.pos { CodeCursor.new code with index := j } = some p := by
    unfold CodeCursor.pos
    cases j with
    | zero =>
      rw [startPos_zero] at hp
      simp only [if_true, Option.some.injEq]
      exact (BitVec.eq_of_toNat_eq (by simpa using hp)).symm
    | succ m =>
      simp only [Nat.add_eq_zero_iff, Nat.one_ne_zero, and_false, if_false, Nat.add_sub_cancel]
      show (CodeCursor.runningSizes 0 code)[m]? = _
      rw [runningSizes_getElem? 0 code m (by omega), ← hp]
      simp
  have habs : (q.relative p).absolute p = q := by
    unfold Offset.absolute Location.relative
    apply BitVec.eq_of_toNat_eq
    have h1 := q.isLt
    have h2 := p.isLt
    rw [BitVec.toNat_ofInt, BitVec.toInt_eq_toNat_cond, BitVec.toNat_sub]
    split <;> omega
  unfold CodeCursor.seekRel
  rw [hpos]
  simp only [habs]
  obtain ⟨c, h1, h2, -⟩ := C06_seek bs code hf hne j k hk q hq
  exact ⟨c, h1, h2⟩

/-- C06: the instructions delivered for a range of positions are exactly those in between, with
their positions. -/
theorem C06_range (bs : BinarySearch) (code : List (Instr L)) (hf : Fits16 code) (hne : NoEmpty code)
    (index j k : Nat) (hjk : j ≤ k) (hk : k ≤ code.length) (p q : Location)
    (hp : p.toNat = startPos code j) (hq : q.toNat = startPos code k) :
    ∃ items, CodeCursor.range bs { CodeCursor.new code with index } p q = .ok items ∧
      items.map Prod.snd = (code.drop j).take (k - j) ∧
      ∀ m loc i, items[m]? = some (loc, i) → loc.toNat = startPos code (j + m) := by
  have getIdx : ∀ (a : Nat) (r : Location), a ≤ code.length → r.toNat = startPos code a →
      CodeCursor.getIndex bs { CodeCursor.new code with index } r = .ok a := by
    intro a r ha hr
    obtain ⟨h1, h2⟩ := getIndex_spec bs code hf { CodeCursor.new code with index } rfl r
    cases hg : CodeCursor.getIndex bs { CodeCursor.new code with index } r with
    | error e => exact absurd hr.symm ((h2 e hg).2 a ha)
    | ok b =>
      obtain ⟨hb, hpb⟩ := h1 b hg
      rcases Nat.lt_trichotomy b a with h | h | h
      · have := startPos_strict code hne h ha; omega
      · rw [h]
      · have := startPos_strict code hne h hb; omega
  refine ⟨CodeIter.collect p ((code.drop j).take (k - j)), ?_, collect_map_snd _ _, ?_⟩
  · unfold CodeCursor.range
    rw [getIdx j p (by omega) hp, getIdx k q hk hq]
    simp only
    rw [if_pos ⟨hjk, hk⟩]
    rfl
  · intro m loc i hm
    rw [collect_getElem?] at hm
    simp only [Option.map_eq_some_iff, Prod.mk.injEq] at hm
    obtain ⟨i', hi', hloc, rfl⟩ := hm
    have hmlen : m < k - j := by
      have := (List.getElem?_eq_some_iff.1 hi').1
      simp at this; omega
    have hs : startPos code j + startPos ((code.drop j).take (k - j)) m = startPos code (j + m) := by
      unfold startPos
      rw [List.take_take, Nat.min_eq_left (by omega), List.take_add, List.map_append,
        List.sum_append]
    have := startPos_le_total code (j + m)
    unfold Fits16 at hf
    rw [← hloc, BitVec.toNat_add, BitVec.toNat_ofNat]
    omega

/-- A body with a jump, a call and a constant; positions 0, 3, 7, 8. -/
example : Fits16 [.JumpIfFalse 5, .I16Const 4, .Return] ∧
    NoEmpty ([.JumpIfFalse 5, .I16Const 4, .Return] : List (Instr Offset)) ∧
    startPos ([.JumpIfFalse 5, .I16Const 4, .Return] : List (Instr Offset)) 2 = 6 := by
  refine ⟨by simp [Fits16, Instr.size], ?_, by simp [startPos, Instr.size]⟩
  intro i hi
  simp at hi
  rcases hi with rfl | rfl | rfl <;> simp [Instr.size]

end Redscript
