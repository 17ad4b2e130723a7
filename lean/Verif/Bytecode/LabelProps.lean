import Verif.Bytecode.CursorProps
import Verif.Bytecode.Props

/-!
# C07: every emitted jump lands on the labelled instruction
-/

namespace Redscript

/-- Specification: an instruction without its jump operands. -/
def Instr.shape (i : Instr L) : Instr Unit := i.mapLoc fun _ => ()

/-- Specification: the instructions other than label markers. -/
def realInstrs (code : List (Instr L)) : List (Instr L) := code.filter fun i => !i.isTarget

/-- Specification: how many real instructions precede index `m`, i.e. the index (among real
instructions) of the first real instruction at or after `m`. -/
def realBefore (code : List (Instr L)) (m : Nat) : Nat := (realInstrs (code.take m)).length

/-! ### Helper lemmas -/

theorem size_mapLoc (f : L → M) (i : Instr L) : (i.mapLoc f).size = i.size := by cases i <;> rfl
theorem isTarget_mapLoc (f : L → M) (i : Instr L) : (i.mapLoc f).isTarget = i.isTarget := by
  cases i <;> rfl
theorem shape_mapLoc (f : L → M) (i : Instr L) : (i.mapLoc f).shape = i.shape := by cases i <;> rfl
theorem locs_mapLoc (f : L → M) (i : Instr L) : (i.mapLoc f).locs = i.locs.map f := by
  cases i <;> rfl

theorem isTarget_iff (i : Instr L) : i.isTarget = true ↔ ∃ l, i = .Target l := by
  cases i <;> simp [Instr.isTarget]

theorem resolveLabels_eq (loc : Location) (targets : List Location) (i : Instr Nat)
    (h : ∀ l ∈ i.locs, l < targets.length) :
    i.resolveLabels loc targets =
      some (i.mapLoc fun l => Location.relative (targets[l]?.getD 0) loc) := by
  cases i <;> first
    | rfl
    | (simp only [Instr.locs, List.mem_cons, List.not_mem_nil, or_false, forall_eq, forall_eq_or_imp] at h
       simp [Instr.resolveLabels, Instr.mapLoc, h])

theorem collect_filter (off : BitVec 16) (code : List (Instr L)) :
    (CodeIter.collect off code).filter (fun x => !x.2.isTarget) =
      CodeIter.collect off (realInstrs code) := by
  induction code generalizing off with
  | nil => rfl
  | cons i is ih =>
    have hc : CodeIter.collect off (i :: is) = (off, i) :: CodeIter.collect (off + i.size) is := rfl
    have hr : realInstrs (i :: is) = if i.isTarget then realInstrs is else i :: realInstrs is := by
      unfold realInstrs
      rw [List.filter_cons]
      cases i.isTarget <;> rfl
    rw [hc, hr, List.filter_cons]
    by_cases hi : i.isTarget = true
    · obtain ⟨l, rfl⟩ := (isTarget_iff i).1 hi
      have hz : off + (Instr.Target l).size = off := by simp [Instr.size]
      simp only [hi, Bool.not_true, Bool.false_eq_true, if_false, if_true]
      rw [ih, hz]
    · simp only [hi, Bool.not_false, if_true]
      rw [ih]; rfl

theorem startPos_real (code : List (Instr L)) (m : Nat) :
    startPos code m = startPos (realInstrs code) (realBefore code m) := by
  induction code generalizing m with
  | nil => simp [startPos, realInstrs]
  | cons i is ih =>
    cases m with
    | zero => simp [realBefore, realInstrs, startPos_zero]
    | succ m =>
      rw [startPos_cons_succ, ih]
      unfold realBefore realInstrs
      rw [List.take_succ_cons, List.filter_cons, List.filter_cons]
      by_cases hi : i.isTarget = true
      · simp only [hi, Bool.not_true, Bool.false_eq_true, if_false]
        obtain ⟨l, rfl⟩ := (isTarget_iff i).1 hi
        simp [Instr.size]
      · simp only [hi, Bool.not_false, if_true, List.length_cons]
        rw [startPos_cons_succ]

theorem recordTargets_spec (items : List (Location × Instr Nat)) (locations : List Location)
    (hb : ∀ loc l, (loc, Instr.Target l) ∈ items → l < locations.length) :
    ∃ locs, recordTargets items locations = some locs ∧ locs.length = locations.length ∧
      ∀ l, l < locations.length →
        (∀ loc, (loc, Instr.Target l) ∈ items →
          (∀ loc', (loc', Instr.Target l) ∈ items → loc' = loc) → locs[l]? = some loc) ∧
        ((∀ loc, (loc, Instr.Target l) ∉ items) → locs[l]? = locations[l]?) := by
  induction items generalizing locations with
  | nil => exact ⟨locations, rfl, rfl, by simp⟩
  | cons x rest ih =>
    obtain ⟨loc0, i⟩ := x
    by_cases hi : i.isTarget = true
    · obtain ⟨l0, rfl⟩ := (isTarget_iff i).1 hi
      have hl0 : l0 < locations.length := hb loc0 l0 (by simp)
      obtain ⟨locs, h1, h2, h3⟩ := ih (locations.set l0 loc0) (by
        intro loc l h; simpa using hb loc l (by simp [h]))
      refine ⟨locs, ?_, by simpa using h2, ?_⟩
      · simp [recordTargets, hl0, h1]
      · intro l hl
        obtain ⟨h4, h5⟩ := h3 l (by simpa using hl)
        constructor
        · intro loc hm hu
          by_cases hin : ∃ loc', (loc', Instr.Target l) ∈ rest
          · obtain ⟨loc', hin⟩ := hin
            have : loc' = loc := hu loc' (by simp [hin])
            subst this
            exact h4 loc' hin fun loc'' h'' => hu loc'' (by simp [h''])
          · have hnot : ∀ loc', (loc', Instr.Target l) ∉ rest := fun loc' h => hin ⟨loc', h⟩
            rcases List.mem_cons.1 hm with he | he
            · simp at he
              obtain ⟨rfl, rfl⟩ := he
              rw [h5 hnot]
              simp [hl]
            · exact absurd he (hnot _)
        · intro hno
          have hne : l0 ≠ l := fun h => hno loc0 (by simp [h])
          rw [h5 fun loc h => hno loc (by simp [h])]
          simp [hne]
    · obtain ⟨locs, h1, h2, h3⟩ := ih locations (by
        intro loc l h; exact hb loc l (by simp [h]))
      have hmem : ∀ loc l, (loc, Instr.Target l) ∈ (loc0, i) :: rest ↔ (loc, Instr.Target l) ∈ rest := by
        intro loc l
        simp only [List.mem_cons, Prod.mk.injEq, or_iff_right_iff_imp]
        rintro ⟨_, rfl⟩
        exact absurd rfl hi
      refine ⟨locs, ?_, h2, ?_⟩
      · cases i <;> first | exact h1 | exact absurd rfl hi
      · intro l hl
        simp only [hmem]
        exact h3 l hl

theorem resolveAll_eq (items : List (Location × Instr Nat)) (locs : List Location)
    (hb : ∀ x ∈ items, ∀ l ∈ x.2.locs, l < locs.length) :
    resolveAll items locs = some ((items.filter fun x => !x.2.isTarget).map fun x =>
      x.2.mapLoc fun l => Location.relative (locs[l]?.getD 0) x.1) := by
  induction items with
  | nil => rfl
  | cons x rest ih =>
    obtain ⟨loc, i⟩ := x
    have ih := ih fun y hy => hb y (by simp [hy])
    have hr := resolveLabels_eq loc locs i (hb (loc, i) (by simp))
    rw [List.filter_cons]
    by_cases hi : i.isTarget = true
    · obtain ⟨l, rfl⟩ := (isTarget_iff i).1 hi
      simp only [resolveAll, ih]
      simp [Instr.isTarget]
    · have : resolveAll ((loc, i) :: rest) locs = (do
          let r ← i.resolveLabels loc locs
          let rs ← resolveAll rest locs
          return r :: rs) := by
        cases i <;> first | rfl | exact absurd rfl hi
      rw [this, hr, ih]
      simp [hi]

theorem collect_mem_snd (off : BitVec 16) (code : List (Instr L)) (x : Location × Instr L)
    (h : x ∈ CodeIter.collect off code) : x.2 ∈ code := by
  rw [← collect_map_snd off code]
  exact List.mem_map_of_mem h

/-- The result of `intoCode`, in closed form, together with the label table it used. -/
theorem intoCode_eq (n : Nat) (code : List (Instr Nat)) (hb : ∀ i ∈ code, ∀ l ∈ i.locs, l < n)
    (hu : ∀ m m' l : Nat, code[m]? = some (.Target l) → code[m']? = some (.Target l) → m = m') :
    ∃ locs : List Location,
      intoCode n code = some ((CodeIter.collect 0 (realInstrs code)).map fun x =>
        x.2.mapLoc fun l => Location.relative (locs[l]?.getD 0) x.1) ∧
      (∀ m l : Nat, code[m]? = some (.Target l) → locs[l]? = some (BitVec.ofNat 16 (startPos code m))) ∧
      (∀ l : Nat, (∀ m : Nat, code[m]? ≠ some (.Target l)) → locs[l]?.getD 0 = 0) := by
  have item : ∀ (m : Nat) (i : Instr Nat), code[m]? = some i →
      (CodeIter.collect 0 code)[m]? = some (BitVec.ofNat 16 (startPos code m), i) := by
    intro m i h
    rw [collect_getElem?, h]
    simp
  have item' : ∀ loc l, (loc, Instr.Target l) ∈ CodeIter.collect 0 code →
      ∃ m : Nat, code[m]? = some (.Target l) ∧ loc = BitVec.ofNat 16 (startPos code m) := by
    intro loc l h
    obtain ⟨m, hm⟩ := List.mem_iff_getElem?.1 h
    rw [collect_getElem?] at hm
    simp only [Option.map_eq_some_iff, Prod.mk.injEq, zero_add16] at hm
    obtain ⟨i, h1, h2, rfl⟩ := hm
    exact ⟨m, h1, h2.symm⟩
  have hbt : ∀ loc l, (loc, Instr.Target l) ∈ CodeIter.collect 0 code →
      l < (List.replicate n (0 : Location)).length := by
    intro loc l h
    simpa using hb _ (collect_mem_snd _ _ _ h) l (by simp [Instr.locs])
  obtain ⟨locs, h1, h2, h3⟩ := recordTargets_spec (CodeIter.collect 0 code) (List.replicate n 0) hbt
  refine ⟨locs, ?_, ?_, ?_⟩
  · unfold intoCode
    simp only [h1, Option.bind_eq_bind, Option.bind_some]
    rw [resolveAll_eq _ _ ?_, collect_filter]
    intro x hx l hl
    rw [h2]
    simpa using hb _ (collect_mem_snd _ _ _ hx) l hl
  · intro m l hm
    have hl : l < (List.replicate n (0 : Location)).length :=
      hbt _ l (List.mem_of_getElem? (item m _ hm))
    refine (h3 l hl).1 _ (List.mem_of_getElem? (item m _ hm)) ?_
    intro loc' h'
    obtain ⟨m', hm', rfl⟩ := item' _ _ h'
    rw [hu m' m l hm' hm]
  · intro l hno
    by_cases hl : l < n
    · have hl' : l < (List.replicate n (0 : Location)).length := by simpa using hl
      rw [(h3 l hl').2 ?_]
      · rw [List.getElem?_replicate_of_lt hl]; rfl
      · intro loc h
        obtain ⟨m, hm, _⟩ := item' _ _ h
        exact hno m hm
    · have : locs[l]? = none := by
        apply List.getElem?_eq_none
        simp at h2; omega
      rw [this]; rfl

theorem startPos_congr {a : List (Instr L)} {b : List (Instr M)}
    (h : a.map (fun i => i.size) = b.map fun i => i.size) (k : Nat) : startPos a k = startPos b k := by
  have : ∀ {N : Type} (c : List (Instr N)), startPos c k =
      (((c.map fun i => i.size).take k).map fun s => s.toNat).sum := by
    intro N c
    simp [startPos, ← List.map_take, Function.comp_def]
  rw [this, this, h]

theorem collect_map_size (off : BitVec 16) (code : List (Instr Nat)) (f : Location → Nat → Offset) :
    ((CodeIter.collect off code).map fun x => x.2.mapLoc (f x.1)).map (fun i => i.size) =
      code.map fun i => i.size := by
  induction code generalizing off with
  | nil => rfl
  | cons i is ih => simp [CodeIter.collect, size_mapLoc, ih]

/-! ### The properties -/

/-- C07, shape: label resolution succeeds, keeps the real instructions in order and drops exactly the
markers. -/
theorem C07_shape (n : Nat) (code : List (Instr Nat)) (hb : ∀ i ∈ code, ∀ l ∈ i.locs, l < n)
    (hu : ∀ m m' l : Nat, code[m]? = some (.Target l) → code[m']? = some (.Target l) → m = m') :
    ∃ out, intoCode n code = some out ∧ (∀ i ∈ out, ∀ l, i ≠ .Target l) ∧
      out.map Instr.shape = (realInstrs code).map Instr.shape := by
  obtain ⟨locs, h1, -, -⟩ := intoCode_eq n code hb hu
  refine ⟨_, h1, ?_, ?_⟩
  · intro i hi l he
    obtain ⟨x, hx, rfl⟩ := List.mem_map.1 hi
    have hx2 := collect_mem_snd _ _ _ hx
    have : x.2.isTarget = false := by
      have := (List.mem_filter.1 hx2).2
      simpa using this
    rw [← isTarget_mapLoc (fun l => Location.relative (locs[l]?.getD 0) x.1), he] at this
    cases this
  · rw [List.map_map, Function.comp_def]
    simp only [shape_mapLoc]
    conv => rhs; rw [← collect_map_snd 0 (realInstrs code), List.map_map]
    rfl

/-- C07: each jump operand of the produced body, resolved against the position of its own
instruction in that body, is the position in that body of the first real instruction following the
marker of its label (the end of the body when there is none). -/
theorem C07_jumps_land (n : Nat) (code : List (Instr Nat)) (hf : Fits16 code)
    (hb : ∀ i ∈ code, ∀ l ∈ i.locs, l < n)
    (hu : ∀ m m' l : Nat, code[m]? = some (.Target l) → code[m']? = some (.Target l) → m = m')
    (out : List (Instr Offset)) (hout : intoCode n code = some out)
    (k : Nat) (i : Instr Nat) (o : Instr Offset)
    (hi : (realInstrs code)[k]? = some i) (ho : out[k]? = some o) :
    o.locs.length = i.locs.length ∧
    ∀ (j l m : Nat) (off : Offset), i.locs[j]? = some l → o.locs[j]? = some off →
      code[m]? = some (.Target l) →
      (off.absolute (BitVec.ofNat 16 (startPos out k))).toNat = startPos out (realBefore code m) := by
  obtain ⟨locs, h1, h2, -⟩ := intoCode_eq n code hb hu
  rw [h1] at hout
  simp only [Option.some.injEq] at hout
  have hsize : out.map (fun i => i.size) = (realInstrs code).map fun i => i.size := by
    rw [← hout]
    exact collect_map_size 0 (realInstrs code) fun loc l => Location.relative (locs[l]?.getD 0) loc
  have hpos := startPos_congr hsize
  rw [← hout, List.getElem?_map, collect_getElem?, hi] at ho
  simp only [Option.map_some, Option.some.injEq, zero_add16] at ho
  subst ho
  rw [locs_mapLoc]
  refine ⟨by simp, ?_⟩
  intro j l m off hl hoff hm
  rw [List.getElem?_map, hl] at hoff
  simp only [Option.map_some, Option.some.injEq] at hoff
  subst hoff
  rw [h2 m l hm, hpos, hpos, Option.getD_some, C05_offset_roundtrip, ← startPos_real]
  have := startPos_le_total code m
  unfold Fits16 at hf
  rw [BitVec.toNat_ofNat, Nat.mod_eq_of_lt (by omega)]

/-- C07, the excluded case: a jump to a label that was never marked resolves to position 0. -/
theorem C07_unmarked_label (n : Nat) (code : List (Instr Nat))
    (hb : ∀ i ∈ code, ∀ l ∈ i.locs, l < n)
    (hu : ∀ m m' l : Nat, code[m]? = some (.Target l) → code[m']? = some (.Target l) → m = m')
    (out : List (Instr Offset)) (hout : intoCode n code = some out)
    (k : Nat) (i : Instr Nat) (o : Instr Offset)
    (hi : (realInstrs code)[k]? = some i) (ho : out[k]? = some o)
    (j l : Nat) (off : Offset) (hl : i.locs[j]? = some l) (hoff : o.locs[j]? = some off)
    (hno : ∀ m : Nat, code[m]? ≠ some (.Target l)) :
    off.absolute (BitVec.ofNat 16 (startPos out k)) = 0 := by
  obtain ⟨locs, h1, -, h3⟩ := intoCode_eq n code hb hu
  rw [h1] at hout
  simp only [Option.some.injEq] at hout
  have hsize : out.map (fun i => i.size) = (realInstrs code).map fun i => i.size := by
    rw [← hout]
    exact collect_map_size 0 (realInstrs code) fun loc l => Location.relative (locs[l]?.getD 0) loc
  have hpos := startPos_congr hsize
  rw [← hout, List.getElem?_map, collect_getElem?, hi] at ho
  simp only [Option.map_some, Option.some.injEq, zero_add16] at ho
  subst ho
  rw [locs_mapLoc, List.getElem?_map, hl] at hoff
  simp only [Option.map_some, Option.some.injEq] at hoff
  subst hoff
  rw [h3 l hno, hpos, C05_offset_roundtrip]

/-- `if (true) { return }` as emitted: a conditional jump over the return to a marker. -/
example :
    let code : List (Instr Nat) := [.JumpIfFalse 0, .TrueConst, .Return, .Target 0, .Nop]
    Fits16 code ∧ (∀ i ∈ code, ∀ l ∈ i.locs, l < 1) ∧
    (∀ m m' l : Nat, code[m]? = some (.Target l) → code[m']? = some (.Target l) → m = m') ∧
    intoCode 1 code = some [.JumpIfFalse 5, .TrueConst, .Return, .Nop] := by
  refine ⟨by simp [Fits16, Instr.size], by simp [Instr.locs], ?_, by decide⟩
  have key : ∀ (m l : Nat), ([.JumpIfFalse 0, .TrueConst, .Return, .Target 0, .Nop] :
      List (Instr Nat))[m]? = some (.Target l) → m = 3 := by
    intro m l h
    rcases m with _ | _ | _ | _ | _ | m <;> simp_all
  intro m m' l h h'
  rw [key m l h, key m' l h']

end Redscript
