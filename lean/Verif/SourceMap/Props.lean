import Verif.SourceMap.Model

/-!
# C18, C19: source positions
-/

namespace Redscript

/-! ### Specification -/

/-- Where the `i`-th of a sequence of texts starts: each text occupies its bytes and one more
position for its end. -/
def startOf (sources : List Text) (i : Nat) : Nat := ((sources.take i).map fun s => byteLen s + 1).sum

/-- Adding texts one after the other. -/
def SrcFiles.addAll (sources : List Text) : SrcFiles := sources.foldl SrcFiles.add []

/-- The lines of a text, each with its newline; the last one without. -/
def linesOf : Text → List Text
  | [] => [[]]
  | c :: s =>
    if c = '\n' then ['\n'] :: linesOf s
    else match linesOf s with
      | [] => [[c]]
      | l :: ls => (c :: l) :: ls

/-- The characters after the last newline. -/
def afterLastNewline (s : Text) : Text := (s.reverse.takeWhile (· ≠ '\n')).reverse

/-! ### Lemmas -/

theorem byteLen_append (a b : Text) : byteLen (a ++ b) = byteLen a + byteLen b := by
  simp [byteLen]

theorem byteLen_cons (c : Char) (s : Text) : byteLen (c :: s) = c.utf8Size + byteLen s := by
  simp [byteLen]

theorem dropBytes_append (pre suf : Text) : dropBytes (byteLen pre) (pre ++ suf) = some suf := by
  induction pre with
  | nil => simp [byteLen, dropBytes]
  | cons c s ih =>
    have hpos := Char.utf8Size_pos c
    rw [byteLen_cons]
    obtain ⟨n, hn⟩ : ∃ n, c.utf8Size + byteLen s = n + 1 := ⟨c.utf8Size + byteLen s - 1, by omega⟩
    rw [hn, List.cons_append, dropBytes, if_pos (by omega), show n + 1 - c.utf8Size = byteLen s by omega, ih]

theorem takeBytes_append (pre suf : Text) : takeBytes (byteLen pre) (pre ++ suf) = some pre := by
  induction pre with
  | nil => simp [byteLen, takeBytes]
  | cons c s ih =>
    have hpos := Char.utf8Size_pos c
    rw [byteLen_cons]
    obtain ⟨n, hn⟩ : ∃ n, c.utf8Size + byteLen s = n + 1 := ⟨c.utf8Size + byteLen s - 1, by omega⟩
    rw [hn, List.cons_append, takeBytes, if_pos (by omega), show n + 1 - c.utf8Size = byteLen s by omega, ih]
    rfl

theorem newlineOffsets_append (base : Nat) (a b : Text) :
    newlineOffsets base (a ++ b) = newlineOffsets base a ++ newlineOffsets (base + byteLen a) b := by
  induction a generalizing base with
  | nil => simp [newlineOffsets, byteLen]
  | cons c s ih =>
    rw [List.cons_append, newlineOffsets, newlineOffsets, byteLen_cons, ih, Nat.add_assoc]
    split <;> simp

theorem newlineOffsets_bounds (base : Nat) (s : Text) :
    ∀ o ∈ newlineOffsets base s, base ≤ o ∧ o + 1 ≤ base + byteLen s := by
  induction s generalizing base with
  | nil => simp [newlineOffsets]
  | cons c s ih =>
    intro o ho
    have hpos := Char.utf8Size_pos c
    rw [newlineOffsets] at ho
    rw [byteLen_cons]
    split at ho
    · rcases List.mem_cons.1 ho with rfl | ho
      · omega
      · have := ih _ o ho; omega
    · have := ih _ o ho; omega

theorem newlineOffsets_sorted (base : Nat) (s : Text) :
    (newlineOffsets base s).Pairwise (· < ·) := by
  induction s generalizing base with
  | nil => simp [newlineOffsets]
  | cons c s ih =>
    have hpos := Char.utf8Size_pos c
    rw [newlineOffsets]
    split
    · refine List.pairwise_cons.2 ⟨fun o ho => ?_, ih _⟩
      have := newlineOffsets_bounds _ s o ho
      omega
    · exact ih _

theorem newlineOffsets_length (base : Nat) (s : Text) : (newlineOffsets base s).length = s.count '\n' := by
  induction s generalizing base with
  | nil => rfl
  | cons c s ih =>
    rw [newlineOffsets]
    split
    · next h => subst h; simp [ih]
    · next h => rw [ih, List.count_cons_of_ne (Ne.symm (by simpa using Ne.symm h))]

/-- A file placed below the 32-bit limit. -/
def SrcFile.at (low : Nat) (s : Text) : SrcFile :=
  ⟨low, (newlineOffsets 0 s).map (fun o => low + (o + 1)), low + byteLen s, s⟩

theorem SrcFile.make_eq (low : Nat) (s : Text) (h : low + byteLen s < 2 ^ 32) :
    SrcFile.make low s = SrcFile.at low s := by
  unfold SrcFile.make SrcFile.at posAdd
  congr 1
  · apply List.map_congr_left
    intro o ho
    have := newlineOffsets_bounds 0 s o ho
    rw [Nat.mod_eq_of_lt (by omega : low + o < 2 ^ 32), Nat.mod_eq_of_lt (by omega)]
    omega
  · exact Nat.mod_eq_of_lt h

theorem startOf_succ (sources : List Text) (i : Nat) (s : Text) (h : sources[i]? = some s) :
    startOf sources (i + 1) = startOf sources i + (byteLen s + 1) := by
  unfold startOf
  rw [List.take_add_one, h]
  simp

theorem startOf_le (sources : List Text) (i j : Nat) (h : i ≤ j) :
    startOf sources i ≤ startOf sources j := by
  induction h with
  | refl => exact Nat.le_refl _
  | @step m _ ih =>
    refine Nat.le_trans ih ?_
    cases hs : sources[m]? with
    | none =>
      have : sources.length ≤ m := by simpa using hs
      simp [startOf, List.take_of_length_le this, List.take_of_length_le (Nat.le_succ_of_le this)]
    | some s => rw [startOf_succ sources m s hs]; omega

theorem startOf_append (sources : List Text) (s : Text) (i : Nat) (h : i ≤ sources.length) :
    startOf (sources ++ [s]) i = startOf sources i := by
  unfold startOf
  rw [List.take_append_of_le_length h]

theorem list_snoc_induction {P : List α → Prop} (nil : P []) (snoc : ∀ l a, P l → P (l ++ [a])) :
    ∀ l, P l := by
  intro l
  have : ∀ r : List α, P r.reverse := by
    intro r
    induction r with
    | nil => exact nil
    | cons a r ih => rw [List.reverse_cons]; exact snoc _ _ ih
  simpa using this l.reverse

/-- The entries after adding all texts. -/
theorem addAll_entries (sources : List Text) :
    startOf sources sources.length ≤ 2 ^ 32 →
    (SrcFiles.addAll sources).length = sources.length ∧
      ∀ (i : Nat) (s : Text), sources[i]? = some s →
        (SrcFiles.addAll sources)[i]? = some (.at (startOf sources i) s) := by
  induction sources using list_snoc_induction with
  | nil => exact fun _ => ⟨rfl, by simp⟩
  | snoc sources s ih =>
    intro hlen
    have hs : startOf (sources ++ [s]) (sources ++ [s]).length
        = startOf sources sources.length + (byteLen s + 1) := by
      rw [List.length_append, List.length_singleton, startOf_succ _ _ s (by simp), startOf_append _ _ _ (Nat.le_refl _)]
    rw [hs] at hlen
    obtain ⟨ih1, ih2⟩ := ih (by omega)
    have hadd : SrcFiles.addAll (sources ++ [s])
        = SrcFiles.addAll sources ++ [.at (startOf sources sources.length) s] := by
      unfold SrcFiles.addAll at ih1 ih2 ⊢
      rw [List.foldl_append, List.foldl_cons, List.foldl_nil, SrcFiles.add]
      have hlow : (match (List.foldl SrcFiles.add [] sources).getLast? with
          | none => 0 | some f => posAdd f.high 1) = startOf sources sources.length := by
        rw [List.getLast?_eq_getElem?, ih1]
        rcases Nat.eq_zero_or_pos sources.length with h0 | hpos
        · have : sources = [] := List.length_eq_zero_iff.1 h0
          subst this; rfl
        · have hlt : sources.length - 1 < sources.length := by omega
          have hget := ih2 (sources.length - 1) sources[sources.length - 1] (List.getElem?_eq_getElem hlt)
          rw [hget]
          have := startOf_succ sources (sources.length - 1) _ (List.getElem?_eq_getElem hlt)
          rw [show sources.length - 1 + 1 = sources.length by omega] at this
          simp only [SrcFile.at, posAdd]
          rw [Nat.mod_eq_of_lt (by omega)]
          omega
      show _ ++ [SrcFile.make (match (List.foldl SrcFiles.add [] sources).getLast? with
          | none => 0 | some f => posAdd f.high 1) s] = _
      rw [hlow, SrcFile.make_eq _ _ (by omega)]
    rw [hadd]
    refine ⟨by simp [ih1], fun i t ht => ?_⟩
    by_cases hi : i < sources.length
    · rw [List.getElem?_append_left (by omega)] at ht ⊢
      rw [ih2 i t ht, startOf_append _ _ _ (by omega)]
    · have hlt := (List.getElem?_eq_some_iff.1 ht).1
      have : i = sources.length := by simp at hlt; omega
      subst this
      rw [List.getElem?_append_right (by omega)] at ht ⊢
      simp at ht
      subst ht
      simp [ih1, startOf_append _ _ _ (Nat.le_refl _)]

theorem comparePos_eq (l h p : Nat) : comparePos l h p = .eq ↔ l ≤ p ∧ p ≤ h := by
  by_cases h1 : l > p <;> by_cases h2 : h < p <;> simp [comparePos, h1, h2] <;> omega
theorem comparePos_gt (l h p : Nat) : comparePos l h p = .gt ↔ p < l := by
  by_cases h1 : l > p <;> by_cases h2 : h < p <;> simp [comparePos, h1, h2] <;> omega
theorem comparePos_lt (l h p : Nat) : comparePos l h p = .lt ↔ l ≤ p ∧ h < p := by
  by_cases h1 : l > p <;> by_cases h2 : h < p <;> simp [comparePos, h1, h2] <;> omega

/-- The order of the entries is the one the search expects. -/
theorem addAll_ordered (sources : List Text) (hlen : startOf sources sources.length ≤ 2 ^ 32) (pos : Nat) :
    Ordered (fun f : SrcFile => comparePos f.low f.high pos) (SrcFiles.addAll sources) := by
  obtain ⟨h1, h2⟩ := addAll_entries sources hlen
  refine List.pairwise_iff_getElem.2 fun i j hi hj hij => ?_
  have ei := h2 i _ (List.getElem?_eq_getElem (by omega : i < sources.length))
  have ej := h2 j _ (List.getElem?_eq_getElem (by omega : j < sources.length))
  rw [List.getElem?_eq_getElem hi, Option.some.injEq] at ei
  rw [List.getElem?_eq_getElem hj, Option.some.injEq] at ej
  rw [ei, ej]
  have hs := startOf_succ sources i _ (List.getElem?_eq_getElem (by omega : i < sources.length))
  have hle := startOf_le sources (i + 1) j (by omega)
  constructor
  · intro h
    rw [Ne, comparePos_lt]
    have := (comparePos_eq _ _ _).1 h
    simp only [SrcFile.at] at this ⊢; omega
  · intro h
    rw [comparePos_gt]
    have := (comparePos_gt _ _ _).1 h
    simp only [SrcFile.at] at this ⊢; omega

/-! ### C18 -/

/-- C18: the positions of the `i`-th text, its end included, map to the file holding that very text,
and that file carries the range of positions. -/
theorem C18_position_maps_to_its_file (bs : BinarySearch) (sources : List Text)
    (hlen : startOf sources sources.length ≤ 2 ^ 32) (i : Nat) (s : Text) (hi : sources[i]? = some s)
    (pos : Nat) (hlow : startOf sources i ≤ pos) (hhigh : pos ≤ startOf sources i + byteLen s) :
    ∃ f, SrcFiles.lookupFile bs (SrcFiles.addAll sources) pos = some f ∧
      (SrcFiles.addAll sources)[i]? = some f ∧ f.source = s ∧ f.low = startOf sources i ∧
      f.high = startOf sources i + byteLen s := by
  obtain ⟨h1, h2⟩ := addAll_entries sources hlen
  have hord := addAll_ordered sources hlen pos
  have hself := h2 i s hi
  have heq : comparePos (startOf sources i) (startOf sources i + byteLen s) pos = .eq := by
    rw [comparePos, if_neg (by omega), if_neg (by omega)]
  refine ⟨.at (startOf sources i) s, ?_, hself, rfl, rfl, rfl⟩
  unfold SrcFiles.lookupFile
  cases hrun : bs.run (fun f : SrcFile => comparePos f.low f.high pos) (SrcFiles.addAll sources) with
  | error k =>
    exfalso
    obtain ⟨_, hk⟩ := bs.missing _ _ _ hord hrun
    obtain ⟨ha, hb⟩ := hk i _ hself
    simp only [SrcFile.at, heq] at ha hb
    rcases Nat.lt_or_ge i k with h | h
    · cases ha h
    · cases hb h
  | ok k =>
    obtain ⟨f, hf, hc⟩ := bs.found _ _ _ hord hrun
    have hk : k < sources.length := by
      have := (List.getElem?_eq_some_iff.1 hf).1; omega
    have hfk := h2 k _ (List.getElem?_eq_getElem hk)
    rw [hf, Option.some.injEq] at hfk
    subst hfk
    have hc' := (comparePos_eq _ _ _).1 hc
    simp only [SrcFile.at] at hc'
    have hki : k = i := by
      have hsk := startOf_succ sources k _ (List.getElem?_eq_getElem hk)
      have hsi := startOf_succ sources i s hi
      rcases Nat.lt_trichotomy k i with h | h | h
      · have := startOf_le sources (k + 1) i (by omega); omega
      · exact h
      · have := startOf_le sources (i + 1) k (by omega); omega
    subst hki
    exact hself

/-- C18: positions past the last file map to no file. -/
theorem C18_past_the_end (bs : BinarySearch) (sources : List Text)
    (hlen : startOf sources sources.length ≤ 2 ^ 32) (pos : Nat)
    (hpos : startOf sources sources.length ≤ pos) :
    SrcFiles.lookupFile bs (SrcFiles.addAll sources) pos = none := by
  obtain ⟨h1, h2⟩ := addAll_entries sources hlen
  have hord := addAll_ordered sources hlen pos
  unfold SrcFiles.lookupFile
  cases hrun : bs.run (fun f : SrcFile => comparePos f.low f.high pos) (SrcFiles.addAll sources) with
  | error k => rfl
  | ok k =>
    exfalso
    obtain ⟨f, hf, hc⟩ := bs.found _ _ _ hord hrun
    have hk : k < sources.length := by
      have := (List.getElem?_eq_some_iff.1 hf).1; omega
    have hfk := h2 k _ (List.getElem?_eq_getElem hk)
    rw [hf, Option.some.injEq] at hfk
    subst hfk
    have hsk := startOf_succ sources k _ (List.getElem?_eq_getElem hk)
    have := startOf_le sources (k + 1) sources.length (by omega)
    have hc' := (comparePos_eq _ _ _).1 hc
    simp only [SrcFile.at] at hc'
    omega

/-- C18: no position is inside the ranges of two different entries, and every position up to the last
file's end is in one. -/
theorem C18_ranges_partition (sources : List Text)
    (hlen : startOf sources sources.length ≤ 2 ^ 32) (pos : Nat)
    (hpos : pos < startOf sources sources.length) :
    ∃ (i : Nat) (f : SrcFile), (SrcFiles.addAll sources)[i]? = some f ∧ f.low ≤ pos ∧ pos ≤ f.high ∧
      ∀ (j : Nat) (g : SrcFile), (SrcFiles.addAll sources)[j]? = some g → g.low ≤ pos → pos ≤ g.high → j = i := by
  obtain ⟨h1, h2⟩ := addAll_entries sources hlen
  have hex : ∀ n ≤ sources.length, pos < startOf sources n →
      ∃ i s, sources[i]? = some s ∧ startOf sources i ≤ pos ∧ pos ≤ startOf sources i + byteLen s := by
    intro n
    induction n with
    | zero => intro _ h; simp [startOf] at h
    | succ n ih =>
      intro hn h
      have hsn := startOf_succ sources n _ (List.getElem?_eq_getElem (by omega : n < sources.length))
      by_cases hp : pos < startOf sources n
      · exact ih (by omega) hp
      · exact ⟨n, _, List.getElem?_eq_getElem (by omega : n < sources.length), by omega, by omega⟩
  obtain ⟨i, s, hs, hl, hh⟩ := hex sources.length (Nat.le_refl _) hpos
  refine ⟨i, _, h2 i s hs, hl, hh, fun j g hg hgl hgh => ?_⟩
  have hj : j < sources.length := by
    have := (List.getElem?_eq_some_iff.1 hg).1; omega
  have hgj := h2 j _ (List.getElem?_eq_getElem hj)
  rw [hg, Option.some.injEq] at hgj
  subst hgj
  have hsj := startOf_succ sources j _ (List.getElem?_eq_getElem hj)
  have hsi := startOf_succ sources i s hs
  simp only [SrcFile.at] at hgl hgh
  rcases Nat.lt_trichotomy j i with h | h | h
  · have := startOf_le sources (j + 1) i (by omega); omega
  · exact h
  · have := startOf_le sources (i + 1) j (by omega); omega

/-- Non-vacuity: three texts, one of them empty, one with a multi-byte character. -/
example : startOf ["a\nb".toList, [], "éx".toList] 3 ≤ 2 ^ 32 ∧
    (SrcFiles.lookupFile .std (SrcFiles.addAll ["a\nb".toList, [], "éx".toList]) 4).map (·.source) = some [] ∧
    (SrcFiles.lookupFile .std (SrcFiles.addAll ["a\nb".toList, [], "éx".toList]) 8).map (·.source)
      = some "éx".toList ∧
    SrcFiles.lookupFile .std (SrcFiles.addAll ["a\nb".toList, [], "éx".toList]) 9 = none := by
  decide +kernel

/-! ### C19 -/

theorem lineIndex_eq (bs : BinarySearch) (low : Nat) (pre suf : Text) :
    (SrcFile.at low (pre ++ suf)).lineIndex bs (low + byteLen pre) = pre.count '\n' := by
  have hsorted := newlineOffsets_sorted 0 (pre ++ suf)
  have hord : Ordered (fun l : Nat => compare l (low + byteLen pre)) (SrcFile.at low (pre ++ suf)).lines := by
    simp only [SrcFile.at, Ordered]
    rw [List.pairwise_map]
    refine hsorted.imp fun {a b} hab => ⟨fun h => ?_, fun h => ?_⟩
    · rw [Nat.compare_eq_eq] at h; rw [Ne, Nat.compare_eq_lt]; omega
    · rw [Nat.compare_eq_gt] at h ⊢; omega
  have hsplit := newlineOffsets_append 0 pre suf
  have hlen := newlineOffsets_length 0 pre
  have hpre : ∀ (j : Nat) (a : Nat), j < pre.count '\n' → (SrcFile.at low (pre ++ suf)).lines[j]? = some a →
      a ≤ low + byteLen pre := by
    intro j a hj ha
    simp only [SrcFile.at, hsplit, List.map_append] at ha
    rw [List.getElem?_append_left (by simpa [hlen] using hj)] at ha
    obtain ⟨o, ho, rfl⟩ := List.mem_map.1 (List.mem_of_getElem? ha)
    have := newlineOffsets_bounds 0 pre o ho
    omega
  have hsuf : ∀ (j : Nat) (a : Nat), pre.count '\n' ≤ j → (SrcFile.at low (pre ++ suf)).lines[j]? = some a →
      low + byteLen pre < a := by
    intro j a hj ha
    simp only [SrcFile.at, hsplit, List.map_append] at ha
    rw [List.getElem?_append_right (by simpa [hlen] using hj)] at ha
    obtain ⟨o, ho, rfl⟩ := List.mem_map.1 (List.mem_of_getElem? ha)
    have := newlineOffsets_bounds _ suf o ho
    omega
  have hlines : pre.count '\n' ≤ (SrcFile.at low (pre ++ suf)).lines.length := by
    simp [SrcFile.at, newlineOffsets_length]
  unfold SrcFile.lineIndex
  cases hrun : bs.run (fun l : Nat => compare l (low + byteLen pre)) (SrcFile.at low (pre ++ suf)).lines with
  | ok k =>
    obtain ⟨a, ha, hc⟩ := bs.found _ _ _ hord hrun
    rw [Nat.compare_eq_eq] at hc
    subst hc
    show k + 1 = _
    rcases Nat.lt_or_ge k (pre.count '\n') with hk | hk
    · rcases Nat.lt_or_ge (k + 1) (pre.count '\n') with hk' | hk'
      · exfalso
        have hlt : k + 1 < (SrcFile.at low (pre ++ suf)).lines.length := by omega
        have h1 := hpre (k + 1) _ hk' (List.getElem?_eq_getElem hlt)
        have hs2 : (SrcFile.at low (pre ++ suf)).lines.Pairwise (· < ·) := by
          simp only [SrcFile.at]
          rw [List.pairwise_map]
          exact hsorted.imp fun {a b} hab => by omega
        have h2 := (List.pairwise_iff_getElem.1 hs2) k (k + 1) (by omega) hlt (by omega)
        rw [List.getElem?_eq_getElem (by omega), Option.some.injEq] at ha
        omega
      · omega
    · have := hsuf k _ hk ha; omega
  | error k =>
    obtain ⟨hk, hall⟩ := bs.missing _ _ _ hord hrun
    show k = _
    rcases Nat.lt_trichotomy k (pre.count '\n') with h | h | h
    · exfalso
      have hlt : k < (SrcFile.at low (pre ++ suf)).lines.length := by omega
      have h1 := (hall k _ (List.getElem?_eq_getElem hlt)).2 (Nat.le_refl _)
      have h2 := hpre k _ h (List.getElem?_eq_getElem hlt)
      rw [Nat.compare_eq_gt] at h1; omega
    · exact h
    · exfalso
      have hlt : pre.count '\n' < (SrcFile.at low (pre ++ suf)).lines.length := by omega
      have h1 := (hall _ _ (List.getElem?_eq_getElem hlt)).1 h
      have h2 := hsuf _ _ (Nat.le_refl _) (List.getElem?_eq_getElem hlt)
      rw [Nat.compare_eq_lt] at h1; omega

/-- A text splits at its last newline. -/
theorem split_last_newline (s : Text) :
    ('\n' ∉ s ∧ afterLastNewline s = s) ∨
      ∃ a, s = a ++ '\n' :: afterLastNewline s ∧ '\n' ∉ afterLastNewline s := by
  induction s using list_snoc_induction with
  | nil => left; simp [afterLastNewline]
  | snoc s c ih =>
    by_cases hc : c = '\n'
    · subst hc
      right
      exact ⟨s, by simp [afterLastNewline], by simp [afterLastNewline]⟩
    · have hstep : afterLastNewline (s ++ [c]) = afterLastNewline s ++ [c] := by
        simp [afterLastNewline, hc]
      rw [hstep]
      rcases ih with ⟨h1, h2⟩ | ⟨a, h1, h2⟩
      · left; exact ⟨by simp [h1, Ne.symm hc], by rw [h2]⟩
      · right; refine ⟨a, ?_, by simp [h2, Ne.symm hc]⟩
        conv => lhs; rw [h1]
        simp

theorem newlineOffsets_none (base : Nat) (s : Text) (h : '\n' ∉ s) : newlineOffsets base s = [] := by
  apply List.eq_nil_of_length_eq_zero
  rw [newlineOffsets_length]
  exact List.count_eq_zero.2 h

theorem sourceSlice_eq (low : Nat) (a b c : Text) :
    (SrcFile.at low (a ++ (b ++ c))).sourceSlice (low + byteLen a) (low + byteLen (a ++ b)) = some b := by
  unfold SrcFile.sourceSlice
  simp only [SrcFile.at, byteLen_append]
  rw [if_neg (by omega), show low + byteLen a - low = byteLen a by omega, dropBytes_append,
    Option.bind_some, show low + (byteLen a + byteLen b) - (low + byteLen a) = byteLen b by omega,
    takeBytes_append]

theorem utf8Size_newline : Char.utf8Size '\n' = 1 := by decide

/-- The lookup inside a file. -/
theorem lookup_at (bs : BinarySearch) (low : Nat) (pre suf : Text) :
    (SrcFile.at low (pre ++ suf)).lookup bs (low + byteLen pre)
      = some (some ⟨pre.count '\n', (afterLastNewline pre).length⟩) := by
  unfold SrcFile.lookup
  rw [lineIndex_eq]
  rw [if_neg (by simp [SrcFile.at])]
  rcases split_last_newline pre with ⟨hno, hall⟩ | ⟨a, ha, hno⟩
  · have hc : pre.count '\n' = 0 := List.count_eq_zero.2 hno
    rw [hc, hall]
    have := sourceSlice_eq low [] pre suf
    simp only [List.nil_append, byteLen, List.map_nil, List.sum_nil, Nat.add_zero] at this
    simp only [if_true, SrcFile.at] at this ⊢
    simp only [byteLen] at this ⊢
    rw [this]; rfl
  · generalize hb : afterLastNewline pre = b at *
    have hcount : pre.count '\n' = a.count '\n' + 1 := by
      rw [ha, List.count_append, List.count_cons_self, List.count_eq_zero.2 hno]
    have hline : (SrcFile.at low (pre ++ suf)).lines[pre.count '\n' - 1]? = some (low + byteLen (a ++ ['\n'])) := by
      simp only [SrcFile.at]
      rw [hcount, Nat.add_sub_cancel, ha, List.append_assoc, newlineOffsets_append, List.map_append,
        List.getElem?_append_right (by simp [newlineOffsets_length])]
      simp [newlineOffsets_length, newlineOffsets, byteLen, utf8Size_newline]
    rw [if_neg (by omega), hline]
    have := sourceSlice_eq low (a ++ ['\n']) b suf
    have e1 : a ++ ['\n'] ++ (b ++ suf) = pre ++ suf := by rw [ha]; simp
    have e2 : a ++ ['\n'] ++ b = pre := by rw [ha]; simp
    rw [e1, e2] at this
    simp only [Option.map_some]
    rw [this]; rfl

/-- C19: for every split of a file's text, the position between the parts is reported as the number
of newlines before it and the number of characters since the last one. -/
theorem C19_line_and_column (bs : BinarySearch) (low : Nat) (pre suf : Text)
    (h : low + byteLen (pre ++ suf) < 2 ^ 32) :
    (SrcFile.make low (pre ++ suf)).lookup bs (low + byteLen pre)
      = some (some ⟨pre.count '\n', (afterLastNewline pre).length⟩) := by
  rw [SrcFile.make_eq _ _ h, lookup_at]

/-- The characters since the last newline really are that. -/
theorem C19_column_spec (pre : Text) :
    '\n' ∉ afterLastNewline pre ∧
      (afterLastNewline pre = pre ∨ ∃ a, pre = a ++ '\n' :: afterLastNewline pre) := by
  rcases split_last_newline pre with ⟨h1, h2⟩ | ⟨a, h1, h2⟩
  · exact ⟨by rw [h2]; exact h1, .inl h2⟩
  · exact ⟨h2, .inr ⟨a, h1⟩⟩

/-- C19: through the whole map, a span inside the `i`-th file is located in that file. -/
theorem C19_span_location (bs : BinarySearch) (sources : List Text)
    (hlen : startOf sources sources.length ≤ 2 ^ 32) (i : Nat) (a b c : Text)
    (hi : sources[i]? = some (a ++ (b ++ c))) :
    ∃ f, f.source = a ++ (b ++ c) ∧
      SrcFiles.lookup bs (SrcFiles.addAll sources) (startOf sources i + byteLen a)
        (startOf sources i + byteLen (a ++ b))
      = some (some (f, ⟨a.count '\n', (afterLastNewline a).length⟩,
          ⟨(a ++ b).count '\n', (afterLastNewline (a ++ b)).length⟩)) := by
  obtain ⟨f, hf, hfi, hsrc, _, _⟩ := C18_position_maps_to_its_file bs sources hlen i _ hi
    (startOf sources i + byteLen a) (by omega) (by simp [byteLen_append])
  refine ⟨f, hsrc, ?_⟩
  have := (addAll_entries sources hlen).2 i _ hi
  rw [hfi, Option.some.injEq] at this
  subst this
  unfold SrcFiles.lookup
  rw [hf]
  simp only
  rw [lookup_at]
  simp only
  rw [← List.append_assoc, lookup_at]

theorem linesOf_ne_nil (s : Text) : linesOf s ≠ [] := by
  cases s with
  | nil => simp [linesOf]
  | cons c s =>
    rw [linesOf]
    split
    · simp
    · split <;> simp

/-- The lines are a division of the text in which exactly the last line has no newline at its end. -/
theorem C19_lines_spec (s : Text) :
    (linesOf s).flatten = s ∧
      ∃ init last, linesOf s = init ++ [last] ∧ '\n' ∉ last ∧
        ∀ l ∈ init, ∃ t, l = t ++ ['\n'] ∧ '\n' ∉ t := by
  induction s with
  | nil => exact ⟨rfl, [], [], rfl, by simp, by simp⟩
  | cons c s ih =>
    obtain ⟨h1, init, last, h2, h3, h4⟩ := ih
    rw [linesOf]
    split
    · next hc =>
      subst hc
      refine ⟨by simp [h1], ['\n'] :: init, last, by rw [h2]; rfl, h3, ?_⟩
      intro l hl
      rcases List.mem_cons.1 hl with rfl | hl
      · exact ⟨[], rfl, by simp⟩
      · exact h4 l hl
    · next hc =>
      split
      · next h => exact absurd h (linesOf_ne_nil s)
      · next l ls h =>
        rw [h] at h1 h2
        refine ⟨by simpa using h1, ?_⟩
        cases init with
        | nil =>
          simp at h2
          obtain ⟨rfl, rfl⟩ := h2
          exact ⟨[], c :: l, rfl, by simp [h3, Ne.symm hc], by simp⟩
        | cons i0 init =>
          simp at h2
          obtain ⟨rfl, rfl⟩ := h2
          refine ⟨(c :: l) :: init, last, rfl, h3, ?_⟩
          intro m hm
          rcases List.mem_cons.1 hm with rfl | hm
          · obtain ⟨t, ht, hn⟩ := h4 l (List.mem_cons_self ..)
            exact ⟨c :: t, by rw [ht]; rfl, by simp [hn, Ne.symm hc]⟩
          · exact h4 m (List.mem_cons_of_mem _ hm)

/-- Line starts of a text, as byte offsets: the `i`-th line begins after the first `i` lines. -/
theorem newlineOffsets_lines (base : Nat) (s : Text) (i : Nat) (hi : i + 1 < (linesOf s).length) :
    ((newlineOffsets base s)[i]?).map (· + 1) = some (base + byteLen ((linesOf s).take (i + 1)).flatten) := by
  induction s generalizing base i with
  | nil => simp [linesOf] at hi
  | cons c s ih =>
    rw [newlineOffsets]
    rw [linesOf] at hi ⊢
    split
    · next hc =>
      subst hc
      rw [if_pos rfl] at hi
      cases i with
      | zero => simp [byteLen, utf8Size_newline]
      | succ i =>
        have := ih (base + Char.utf8Size '\n') i (by simpa using hi)
        simp only [List.getElem?_cons_succ]
        rw [this]
        simp [byteLen, utf8Size_newline]; omega
    · next hc =>
      rw [if_neg hc] at hi
      cases h : linesOf s with
      | nil => exact absurd h (linesOf_ne_nil s)
      | cons l ls =>
        simp only [h] at hi ⊢
        have := ih (base + c.utf8Size) i (by rw [h]; simpa using hi)
        rw [this, h]
        simp [byteLen_append, byteLen_cons]; omega

theorem linesOf_length (s : Text) : (linesOf s).length = s.count '\n' + 1 := by
  induction s with
  | nil => rfl
  | cons c s ih =>
    rw [linesOf]
    split
    · next hc => subst hc; simp [ih]
    · next hc =>
      rw [List.count_cons_of_ne hc]
      cases h : linesOf s with
      | nil => exact absurd h (linesOf_ne_nil s)
      | cons l ls => rw [h] at ih; simpa using ih

/-- C19: the enclosing line of every line number is the text of that line with its newline. -/
theorem C19_enclosing_line (low : Nat) (s : Text) (h : low + byteLen s < 2 ^ 32) (line : Nat)
    (l : Text) (hl : (linesOf s)[line]? = some l) :
    (SrcFile.make low s).enclosingLine line = some l := by
  rw [SrcFile.make_eq _ _ h]
  have hlt := (List.getElem?_eq_some_iff.1 hl).1
  have hflat := (C19_lines_spec s).1
  have hs : s = ((linesOf s).take line).flatten ++ (l ++ ((linesOf s).drop (line + 1)).flatten) := by
    conv => lhs; rw [← hflat, ← List.take_append_drop line (linesOf s)]
    rw [List.flatten_append, List.drop_eq_getElem_cons hlt]
    rw [List.getElem?_eq_getElem hlt, Option.some.injEq] at hl
    rw [hl]; simp
  have hlow : (if line = 0 then some (SrcFile.at low s).low else (SrcFile.at low s).lines[line - 1]?)
      = some (low + byteLen ((linesOf s).take line).flatten) := by
    split
    · next h0 => subst h0; simp [SrcFile.at, byteLen]
    · next h0 =>
      have := newlineOffsets_lines 0 s (line - 1) (by omega)
      rw [show line - 1 + 1 = line by omega] at this
      simp only [SrcFile.at, List.getElem?_map]
      cases ho : (newlineOffsets 0 s)[line - 1]? with
      | none => rw [ho] at this; simp at this
      | some o => rw [ho] at this; simp at this ⊢; omega
  have htake : ((linesOf s).take (line + 1)).flatten = ((linesOf s).take line).flatten ++ l := by
    rw [List.take_add_one, hl]; simp
  have hhigh : ((SrcFile.at low s).lines[line]?).getD (SrcFile.at low s).high
      = low + byteLen (((linesOf s).take line).flatten ++ l) := by
    rw [← htake]
    by_cases hn : line + 1 < (linesOf s).length
    · have := newlineOffsets_lines 0 s line hn
      simp only [SrcFile.at, List.getElem?_map]
      cases ho : (newlineOffsets 0 s)[line]? with
      | none => rw [ho] at this; simp at this
      | some o => rw [ho] at this; simp at this ⊢; omega
    · have hll := linesOf_length s
      have : (SrcFile.at low s).lines[line]? = none := by
        rw [List.getElem?_eq_none]
        simp only [SrcFile.at, List.length_map, newlineOffsets_length]; omega
      rw [this, List.take_of_length_le (by omega), hflat]
      rfl
  unfold SrcFile.enclosingLine
  simp only
  rw [hlow, Option.bind_some, hhigh]
  have := sourceSlice_eq low ((linesOf s).take line).flatten l ((linesOf s).drop (line + 1)).flatten
  rw [← hs] at this
  exact this

/-- Non-vacuity: a multi-byte character before the position counts as one column. -/
example : (SrcFile.make 7 "a\né=x\n".toList).lookup .std 12 = some (some ⟨1, 2⟩) ∧
    (SrcFile.make 7 "a\né=x\n".toList).enclosingLine 1 = some "é=x\n".toList ∧
    (SrcFile.make 7 "a\né=x\n".toList).enclosingLine 2 = some [] ∧
    linesOf "a\né=x\n".toList = ["a\n".toList, "é=x\n".toList, []] := by
  decide +kernel

end Redscript
