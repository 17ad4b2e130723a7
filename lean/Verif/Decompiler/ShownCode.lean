import Verif.Decompiler.ShownSpec

/-!
# Generated code by index, and the cursor over it
-/

namespace Redscript

/-- The position of the instruction with index `k`. -/
def posAt (out : List (Instr Offset)) (k : Nat) : Location := BitVec.ofNat 16 (startPos out k)

/-- The generated instructions stand in `out` from index `k` to `k'`; `ρ` gives the positions of labels. -/
def PlacedAt (out : List (Instr Offset)) (ρ : Nat → Location) : Nat → List (Instr Nat) → Nat → Prop
  | k, [], k' => k = k'
  | k, i :: is, k' =>
    if i.isTarget then (∀ l, i = .Target l → ρ l = posAt out k) ∧ PlacedAt out ρ k is k'
    else out[k]? = some (i.mapLoc fun l => (ρ l).relative (posAt out k)) ∧ PlacedAt out ρ (k + 1) is k'

/-- Code whose positions can be told apart, and reached by a forward jump from the start. -/
structure CodeOk (out : List (Instr Offset)) : Prop where
  ne : NoEmpty out
  fits : startPos out out.length < 2 ^ 15

section
variable {out : List (Instr Offset)} {ρ : Nat → Location} {k k' : Nat}

theorem PlacedAt.nil : PlacedAt out ρ k [] k' ↔ k = k' := Iff.rfl

theorem PlacedAt.cons {i : Instr Nat} {is : List (Instr Nat)} (h : i.isTarget = false) :
    PlacedAt out ρ k (i :: is) k' ↔
      out[k]? = some (i.mapLoc fun l => (ρ l).relative (posAt out k)) ∧ PlacedAt out ρ (k + 1) is k' := by
  rw [PlacedAt, h]; simp

theorem PlacedAt.target {l : Nat} {is : List (Instr Nat)} :
    PlacedAt out ρ k (.Target l :: is) k' ↔ ρ l = posAt out k ∧ PlacedAt out ρ k is k' := by
  rw [PlacedAt]
  simp [Instr.isTarget]

theorem PlacedAt.append {a b : List (Instr Nat)} :
    PlacedAt out ρ k (a ++ b) k' ↔ ∃ j, PlacedAt out ρ k a j ∧ PlacedAt out ρ j b k' := by
  induction a generalizing k with
  | nil => simp [PlacedAt]
  | cons i is ih =>
    simp only [List.cons_append, PlacedAt]
    by_cases h : i.isTarget = true
    · simp only [h, if_true, ih]
      constructor
      · rintro ⟨h1, j, h2, h3⟩; exact ⟨j, ⟨h1, h2⟩, h3⟩
      · rintro ⟨j, ⟨h1, h2⟩, h3⟩; exact ⟨h1, j, h2, h3⟩
    · simp only [h, Bool.false_eq_true, if_false, ih]
      constructor
      · rintro ⟨h1, j, h2, h3⟩; exact ⟨j, ⟨h1, h2⟩, h3⟩
      · rintro ⟨j, ⟨h1, h2⟩, h3⟩; exact ⟨h1, j, h2, h3⟩

theorem PlacedAt.listAt {code : List (Instr Nat)} (h : PlacedAt out ρ k code k') : ListAt out k code k' := by
  induction code generalizing k with
  | nil => exact h
  | cons i is ih =>
    by_cases ht : i.isTarget = true
    · obtain ⟨l, rfl⟩ := (isTarget_iff i).1 ht
      rw [PlacedAt.target] at h
      exact ListAt.target.2 (ih h.2)
    · have ht : i.isTarget = false := by simpa using ht
      rw [PlacedAt.cons ht] at h
      exact (ListAt.cons ht).2 ⟨⟨_, h.1⟩, ih h.2⟩

theorem PlacedAt.le {code : List (Instr Nat)} (h : PlacedAt out ρ k code k') : k ≤ k' := by
  induction code generalizing k with
  | nil => exact Nat.le_of_eq h
  | cons i is ih =>
    by_cases ht : i.isTarget = true
    · obtain ⟨l, rfl⟩ := (isTarget_iff i).1 ht
      rw [PlacedAt.target] at h
      exact ih h.2
    · have ht : i.isTarget = false := by simpa using ht
      rw [PlacedAt.cons ht] at h
      have := ih h.2
      omega

/-- The instructions of a piece of code, by index. -/
theorem PlacedAt.instr {code : List (Instr Nat)} (h : PlacedAt out ρ k code k') {m : Nat} (h1 : k ≤ m) (h2 : m < k') :
    ∃ i ∈ code, out[m]? = some (i.mapLoc fun l => (ρ l).relative (posAt out m)) := by
  induction code generalizing k with
  | nil => have : k = k' := h; omega
  | cons i is ih =>
    by_cases ht : i.isTarget = true
    · obtain ⟨l, rfl⟩ := (isTarget_iff i).1 ht
      rw [PlacedAt.target] at h
      obtain ⟨i, hi, h3⟩ := ih h.2 h1
      exact ⟨i, List.mem_cons_of_mem _ hi, h3⟩
    · have ht : i.isTarget = false := by simpa using ht
      rw [PlacedAt.cons ht] at h
      rcases Nat.eq_or_lt_of_le h1 with rfl | h1
      · exact ⟨i, List.mem_cons_self .., h.1⟩
      · obtain ⟨i, hi, h3⟩ := ih h.2 h1
        exact ⟨i, List.mem_cons_of_mem _ hi, h3⟩

theorem PlacedAt.mem {code : List (Instr Nat)} (h : PlacedAt out ρ k code k') {i : Instr Nat} (hi : i ∈ code)
    (ht : i.isTarget = false) :
    ∃ m, k ≤ m ∧ m < k' ∧ out[m]? = some (i.mapLoc fun l => (ρ l).relative (posAt out m)) := by
  induction code generalizing k with
  | nil => cases hi
  | cons a is ih =>
    by_cases ha : a.isTarget = true
    · obtain ⟨l, rfl⟩ := (isTarget_iff a).1 ha
      rw [PlacedAt.target] at h
      rcases List.mem_cons.1 hi with rfl | hi
      · cases ht
      · exact ih h.2 hi
    · have ha : a.isTarget = false := by simpa using ha
      rw [PlacedAt.cons ha] at h
      have := h.2.le
      rcases List.mem_cons.1 hi with rfl | hi
      · exact ⟨k, Nat.le_refl _, by omega, h.1⟩
      · obtain ⟨m, h1, h2, h3⟩ := ih h.2 hi
        exact ⟨m, by omega, h2, h3⟩

/-- Labels of a piece of code lie in it. -/
theorem PlacedAt.label {code : List (Instr Nat)} (h : PlacedAt out ρ k code k') {l : Nat} (hl : l ∈ placed code) :
    ∃ m, k ≤ m ∧ m ≤ k' ∧ ρ l = posAt out m := by
  induction code generalizing k with
  | nil => cases hl
  | cons a is ih =>
    by_cases ha : a.isTarget = true
    · obtain ⟨l', rfl⟩ := (isTarget_iff a).1 ha
      rw [PlacedAt.target] at h
      have := h.2.le
      simp only [placed, List.mem_cons] at hl
      rcases hl with rfl | hl
      · exact ⟨k, Nat.le_refl _, this, h.1⟩
      · exact ih h.2 hl
    · have ha : a.isTarget = false := by simpa using ha
      rw [PlacedAt.cons ha] at h
      rw [placed_cons _ _ ha] at hl
      obtain ⟨m, h1, h2, h3⟩ := ih h.2 hl
      exact ⟨m, by omega, h2, h3⟩

theorem PlacedAt.len {code : List (Instr Nat)} (h : PlacedAt out ρ k code k') (hk : k ≤ out.length) :
    k' ≤ out.length := by
  induction code generalizing k with
  | nil => have : k = k' := h; omega
  | cons i is ih =>
    by_cases ht : i.isTarget = true
    · obtain ⟨l, rfl⟩ := (isTarget_iff i).1 ht
      rw [PlacedAt.target] at h
      exact ih h.2 hk
    · have ht : i.isTarget = false := by simpa using ht
      rw [PlacedAt.cons ht] at h
      have := (List.getElem?_eq_some_iff.1 h.1).1
      exact ih h.2 this

theorem getElem?_lt {i : Instr Offset} (h : out[k]? = some i) : k < out.length := (List.getElem?_eq_some_iff.1 h).1

/-! ### Positions -/

theorem CodeOk.fits16 (ok : CodeOk out) : Fits16 out := by
  have h := ok.fits
  unfold Fits16
  have : startPos out out.length = (out.map fun i => i.size.toNat).sum := by simp [startPos]
  omega

theorem CodeOk.posLt (ok : CodeOk out) (k : Nat) : startPos out k < 2 ^ 15 := by
  have h := ok.fits
  have : startPos out out.length = (out.map fun i => i.size.toNat).sum := by simp [startPos]
  have := startPos_le_total out k
  omega

theorem CodeOk.pos (ok : CodeOk out) (k : Nat) : (posAt out k).toNat = startPos out k := by
  have := ok.posLt k
  unfold posAt
  rw [BitVec.toNat_ofNat]; omega

theorem CodeOk.pos_le (ok : CodeOk out) (h : k ≤ k') : (posAt out k).toNat ≤ (posAt out k').toNat := by
  rw [ok.pos, ok.pos]; exact startPos_mono out h

theorem CodeOk.pos_lt (ok : CodeOk out) (h : k < k') (h' : k' ≤ out.length) :
    (posAt out k).toNat < (posAt out k').toNat := by
  rw [ok.pos, ok.pos]; exact startPos_strict out ok.ne h h'

theorem CodeOk.pos_inj (ok : CodeOk out) (h : k ≤ out.length) (h' : k' ≤ out.length)
    (he : posAt out k = posAt out k') : k = k' := by
  rcases Nat.lt_trichotomy k k' with hl | hl | hl
  · have := ok.pos_lt hl h'; rw [he] at this; omega
  · exact hl
  · have := ok.pos_lt hl h; rw [he] at this; omega

/-- The offset of a forward jump is not negative. -/
theorem CodeOk.forward (ok : CodeOk out) (h : k ≤ k') : ¬ ((posAt out k').relative (posAt out k)).toInt < 0 := by
  have h1 := ok.pos_le h
  have h2 := ok.posLt k'
  rw [← ok.pos] at h2
  unfold Location.relative
  rw [BitVec.toInt_eq_toNat_cond, BitVec.toNat_sub]
  have := (posAt out k).isLt
  have := (posAt out k').isLt
  split <;> omega

/-- A jump by three leads to the next instruction. -/
theorem CodeOk.by_three (ok : CodeOk out) {o : Offset} {q : Location} (h : out[k]? = some (.Jump o)) :
    q.relative (posAt out k) = 3 ↔ q = posAt out (k + 1) := by
  have hs : startPos out (k + 1) = startPos out k + 3 := by
    rw [startPos_succ out k _ h]; rfl
  unfold Location.relative
  have : posAt out (k + 1) = posAt out k + 3 := by
    apply BitVec.eq_of_toNat_eq
    have := ok.posLt (k + 1)
    rw [BitVec.toNat_add, ok.pos, ok.pos, hs]
    show _ = (_ + 3) % 2 ^ 16
    omega
  rw [this]
  constructor
  · intro h; rw [← h, BitVec.add_comm, BitVec.sub_add_cancel]
  · intro h; rw [h, BitVec.add_comm, BitVec.add_sub_cancel]

/-! ### The cursor -/

theorem pos_cursor (hk : k ≤ out.length) : CodeCursor.pos (cursorAt out k) = some (posAt out k) := by
  unfold CodeCursor.pos cursorAt
  cases k with
  | zero => simp [posAt, startPos_zero]
  | succ m =>
    simp only [Nat.add_eq_zero_iff, Nat.one_ne_zero, and_false, if_false, Nat.add_sub_cancel]
    show (CodeCursor.runningSizes 0 out)[m]? = _
    rw [runningSizes_getElem? 0 out m (by omega)]
    simp [posAt]

theorem posOf_cursor (hk : k ≤ out.length) : posOf (cursorAt out k) = .ok (posAt out k) := by
  unfold posOf; rw [pos_cursor hk]

theorem getIndex_cursor (ok : CodeOk out) (bs : BinarySearch) (j : Nat) (hk : k ≤ out.length) :
    CodeCursor.getIndex bs (cursorAt out j) (posAt out k) = .ok k := by
  obtain ⟨h1, h2⟩ := getIndex_spec bs out ok.fits16 (cursorAt out j) rfl (posAt out k)
  cases hg : CodeCursor.getIndex bs (cursorAt out j) (posAt out k) with
  | error e => exact absurd (ok.pos k).symm ((h2 e hg).2 k hk)
  | ok i =>
    obtain ⟨hi, hpi⟩ := h1 i hg
    rw [ok.pos] at hpi
    rcases Nat.lt_trichotomy i k with h | h | h
    · have := startPos_strict out ok.ne h hk; omega
    · rw [h]
    · have := startPos_strict out ok.ne h hi; omega

theorem seekAbs_cursor (ok : CodeOk out) (bs : BinarySearch) (j : Nat) (hk : k ≤ out.length) :
    liftCursor (CodeCursor.seekAbs bs (cursorAt out j) (posAt out k)) = .ok (cursorAt out k) := by
  unfold CodeCursor.seekAbs
  rw [getIndex_cursor ok bs j hk]; rfl

theorem seekRel_cursor (ok : CodeOk out) (bs : BinarySearch) {j : Nat} (hj : j ≤ out.length) (hk : k ≤ out.length) :
    liftCursor (CodeCursor.seekRel bs (cursorAt out j) ((posAt out k).relative (posAt out j))) = .ok (cursorAt out k) := by
  unfold CodeCursor.seekRel
  rw [pos_cursor hj]
  simp only [C05_offset_roundtrip]
  exact seekAbs_cursor ok bs j hk

theorem range_cursor (ok : CodeOk out) (bs : BinarySearch) (j : Nat) (h : k ≤ k') (hk : k' ≤ out.length) :
    ∃ items, liftCursor (CodeCursor.range bs (cursorAt out j) (posAt out k) (posAt out k')) = .ok items ∧
      ∀ loc i, (loc, i) ∈ items ↔ ∃ m, k ≤ m ∧ m < k' ∧ out[m]? = some i ∧ loc = posAt out m := by
  refine ⟨CodeIter.collect (posAt out k) ((out.drop k).take (k' - k)), ?_, ?_⟩
  · unfold CodeCursor.range
    rw [getIndex_cursor ok bs j (by omega), getIndex_cursor ok bs j hk]
    simp only
    rw [if_pos ⟨h, hk⟩]
    rfl
  · intro loc i
    have hs : ∀ m, m ≤ k' - k → startPos out k + startPos ((out.drop k).take (k' - k)) m = startPos out (k + m) := by
      intro m hm
      unfold startPos
      rw [List.take_take, Nat.min_eq_left hm, List.take_add, List.map_append, List.sum_append]
    have hg : ∀ m, ((out.drop k).take (k' - k))[m]? = if m < k' - k then out[k + m]? else none := by
      intro m
      rw [List.getElem?_take, List.getElem?_drop]
    have hp : ∀ m, m ≤ k' - k → posAt out k + BitVec.ofNat 16 (startPos ((out.drop k).take (k' - k)) m) = posAt out (k + m) := by
      intro m hm
      unfold posAt
      rw [← hs m hm, BitVec.ofNat_add]
    rw [List.mem_iff_getElem?]
    constructor
    · rintro ⟨m, hm⟩
      rw [collect_getElem?, hg] at hm
      simp only [Option.map_eq_some_iff, Prod.mk.injEq] at hm
      obtain ⟨i', hi', hloc, rfl⟩ := hm
      split at hi'
      · rename_i hlt
        exact ⟨k + m, by omega, by omega, hi', by rw [← hloc, hp m (by omega)]⟩
      · cases hi'
    · rintro ⟨m, h1, h2, h3, rfl⟩
      refine ⟨m - k, ?_⟩
      have hkm : k + (m - k) = m := by omega
      rw [collect_getElem?, hg, if_pos (by omega), hkm, h3, Option.map_some, hp _ (by omega), hkm]

/-! ### Jumps in a range -/

theorem mapLoc_jump {i : Instr Nat} {f : Nat → Offset} {o : Offset} (h : i.mapLoc f = .Jump o) :
    ∃ l, i = .Jump l ∧ o = f l := by
  cases i <;> first | (cases h; exact ⟨_, rfl, rfl⟩) | cases h

/-- The jumps in a range, in terms of the generated code. -/
theorem PlacedAt.jumps {code : List (Instr Nat)} (h : PlacedAt out ρ k code k') {items : List (Location × Instr Offset)}
    (hi : ∀ loc i, (loc, i) ∈ items ↔ ∃ m, k ≤ m ∧ m < k' ∧ out[m]? = some i ∧ loc = posAt out m) (q : Location) :
    (∃ loc o, (loc, Instr.Jump o) ∈ items ∧ o.absolute loc = q) ↔ ∃ l, .Jump l ∈ code ∧ ρ l = q := by
  constructor
  · rintro ⟨loc, o, hm, rfl⟩
    obtain ⟨m, h1, h2, h3, rfl⟩ := (hi _ _).1 hm
    obtain ⟨i, hic, h4⟩ := h.instr h1 h2
    rw [h3] at h4
    obtain ⟨l, rfl, rfl⟩ := mapLoc_jump (Option.some.inj h4).symm
    exact ⟨l, hic, (C05_offset_roundtrip _ _).symm⟩
  · rintro ⟨l, hl, rfl⟩
    obtain ⟨m, h1, h2, h3⟩ := h.mem hl rfl
    exact ⟨posAt out m, _, (hi _ _).2 ⟨m, h1, h2, h3, rfl⟩, C05_offset_roundtrip _ _⟩

theorem jumpsTo_iff (p : Location) (items : List (Location × Instr Offset)) :
    jumpsTo p items = true ↔ ∃ loc o, (loc, Instr.Jump o) ∈ items ∧ o.absolute loc = p := by
  unfold jumpsTo
  rw [List.any_eq_true]
  constructor
  · rintro ⟨⟨loc, i⟩, hm, h⟩
    cases i <;> simp only [Bool.false_eq_true, beq_iff_eq] at h
    exact ⟨_, _, hm, h⟩
  · rintro ⟨loc, o, hm, h⟩
    exact ⟨_, hm, by simpa using h⟩

theorem findEpilogue_none {exit : Location} {items : List (Location × Instr Offset)}
    (h : ∀ loc o, (loc, Instr.Jump o) ∈ items → (o.absolute loc).toNat ≤ exit.toNat) : findEpilogue exit items = none := by
  induction items with
  | nil => rfl
  | cons a rest ih =>
    obtain ⟨loc, i⟩ := a
    have ih := ih fun loc o hm => h loc o (List.mem_cons_of_mem _ hm)
    cases i <;> simp only [findEpilogue, ih]
    have := h loc _ (List.mem_cons_self ..)
    rw [if_neg (by omega)]

theorem findEpilogue_some {exit ep : Location} {items : List (Location × Instr Offset)}
    (h : ∀ loc o, (loc, Instr.Jump o) ∈ items → (o.absolute loc).toNat ≤ exit.toNat ∨ o.absolute loc = ep)
    (hx : exit.toNat < ep.toNat) (he : ∃ loc o, (loc, Instr.Jump o) ∈ items ∧ o.absolute loc = ep) :
    findEpilogue exit items = some ep := by
  induction items with
  | nil => obtain ⟨_, _, h, _⟩ := he; cases h
  | cons a rest ih =>
    obtain ⟨loc, i⟩ := a
    have ih := ih fun loc o hm => h loc o (List.mem_cons_of_mem _ hm)
    have rest_ : (∃ loc' o, (loc', Instr.Jump o) ∈ rest ∧ o.absolute loc' = ep) ∨ ∃ o, i = .Jump o ∧ o.absolute loc = ep := by
      obtain ⟨loc', o, hm, hq⟩ := he
      rcases List.mem_cons.1 hm with he | hm
      · cases he; exact .inr ⟨o, rfl, hq⟩
      · exact .inl ⟨loc', o, hm, hq⟩
    by_cases hj : ∃ o, i = .Jump o
    · obtain ⟨o, rfl⟩ := hj
      simp only [findEpilogue]
      rcases h loc o (List.mem_cons_self ..) with h1 | h1
      · rw [if_neg (by omega)]
        rcases rest_ with h2 | ⟨o', h2, h3⟩
        · exact ih h2
        · cases h2; rw [h3] at h1; omega
      · rw [h1, if_pos hx]
    · rcases rest_ with h2 | ⟨o, rfl, _⟩
      · cases i <;> first | exact ih h2 | exact absurd ⟨_, rfl⟩ hj
      · exact absurd ⟨_, rfl⟩ hj

end

/-! ### Assembled bodies -/

/-- The code of a body stands in the result, followed by a `Nop`. -/
theorem fromBody_placed {env : AsmEnv} {body : List TypedExpr} {out : List (Instr Offset)}
    (h : fromBody env body = .ok out) (hf : startPos out out.length < 2 ^ 15) :
    CodeOk out ∧ ∃ code n ρ k, asmSeq env none body 0 = .ok (code, n) ∧ PlacedAt out ρ 0 code k ∧
      out[k]? = some .Nop ∧ out.length = k + 1 := by
  unfold fromBody at h
  split at h
  · cases h
  · rename_i code n ha
    have hl := asmSeq_labels env none body _ _ _ ha
    have hpl : placed (code ++ [.Nop]) = placed code := by simp [placed_append, placed]
    have hu := unprofiled_append code [.Nop]
    rw [asmSeq_unprofiled env none body _ _ _ ha] at hu
    obtain ⟨locs, h1, h2, _⟩ := intoCode_eq n (code ++ [.Nop]) (by
      intro i hi l hll
      rw [List.mem_append, List.mem_singleton] at hi
      rcases hi with hi | rfl
      · rcases hl.used i hi l hll with h | h
        · exact h
        · cases h
      · cases hll) (placed_unique _ (by rw [hpl]; exact hl.nodup))
    rw [h1] at h
    simp only [Except.ok.injEq] at h
    generalize hfull : code ++ [.Nop] = full at h h1 h2 hu
    have hsize : out.map (fun i => i.size) = (realInstrs full).map fun i => i.size := by
      rw [← h]
      exact collect_map_size 0 (realInstrs full) fun loc l => Location.relative (locs[l]?.getD 0) loc
    have hlen : out.length = (realInstrs full).length := by
      have := congrArg List.length hsize; simpa using this
    have hpos := startPos_congr hsize
    have hne : NoEmpty out := by
      intro o ho
      rw [← h, List.mem_map] at ho
      obtain ⟨x, hx, rfl⟩ := ho
      rw [size_mapLoc]
      exact NoEmpty_real full hu _ (collect_mem_snd _ _ _ hx)
    refine ⟨⟨hne, hf⟩, code, n, fun l => locs[l]?.getD 0, ?_⟩
    have key : ∀ (suf pre : List (Instr Nat)), pre ++ suf = full →
        PlacedAt out (fun l => locs[l]?.getD 0) (realInstrs pre).length suf (realInstrs full).length := by
      intro suf
      induction suf with
      | nil => intro pre h; rw [List.append_nil] at h; subst h; exact rfl
      | cons i is ih =>
        intro pre hp
        have hi : full[pre.length]? = some i := by rw [← hp]; simp
        have hnext := ih (pre ++ [i]) (by simpa using hp)
        have hrb : realBefore full pre.length = (realInstrs pre).length := by
          unfold realBefore; rw [← hp]; simp
        have hat : posAt out (realInstrs pre).length = BitVec.ofNat 16 (startPos full pre.length) := by
          unfold posAt
          rw [hpos, ← hrb, ← startPos_real]
        by_cases ht : i.isTarget = true
        · obtain ⟨l, rfl⟩ := (isTarget_iff i).1 ht
          refine PlacedAt.target.2 ⟨?_, ?_⟩
          · rw [h2 pre.length l hi, hat]; rfl
          · have : (realInstrs (pre ++ [.Target l])).length = (realInstrs pre).length := by
              simp [realInstrs, List.filter_append, Instr.isTarget]
            rw [← this]; exact hnext
        · have ht : i.isTarget = false := by simpa using ht
          refine (PlacedAt.cons ht).2 ⟨?_, ?_⟩
          · have hr : (realInstrs full)[(realInstrs pre).length]? = some i := by
              have e2 : realInstrs full = realInstrs pre ++ i :: realInstrs is := by
                rw [← hp]; simp [realInstrs, List.filter_append, ht]
              rw [e2]; simp
            rw [hat, ← h, List.getElem?_map, collect_getElem?, hr]
            simp only [Option.map_some, zero_add16]
            rw [← hrb, ← startPos_real]
          · have : (realInstrs (pre ++ [i])).length = (realInstrs pre).length + 1 := by
              simp [realInstrs, List.filter_append, ht]
            rw [← this]; exact hnext
    have := key full [] rfl
    rw [← hfull, PlacedAt.append] at this
    obtain ⟨j, h3, h4⟩ := this
    rw [PlacedAt.cons rfl, PlacedAt.nil] at h4
    refine ⟨j, ha, ?_, h4.1, ?_⟩
    · simpa [realInstrs] using h3
    · rw [hlen, ← hfull]; exact h4.2.symm

end Redscript
