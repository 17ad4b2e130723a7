import Verif.Bytecode.LabelProps
import Verif.Decompiler.ListingModel
import Verif.Scc.PrepProps

/-!
# C87: the bytecode listing tells where instructions are and where jumps lead
-/

namespace Redscript

/-! ### Specification -/

/-- The place of an instruction: the bytes of those before it. -/
def placeOf (code : List (Instr Offset)) (k : Nat) : Nat := ((code.take k).map fun i => i.size.toNat).sum

/-- A number in decimal, with a minus if it is negative. -/
def decimalInt (v : Int) : Text := if v < 0 then '-' :: Nat.toDigits 10 v.natAbs else Nat.toDigits 10 v.natAbs

/-- A text that fits on a line. -/
def OneLine (t : Text) : Prop := '\n' ∉ t ∧ t.getLast? ≠ some '\r'

/-- The text of an instruction with one or two places among its operands, and those places. -/
inductive ShowsJump : Text → List Int → Prop
  | jump (v : Int) : ShowsJump ("jump(offset { value: ".toList ++ decimalInt v ++ " })".toList) [v]
  | jumpIfFalse (v : Int) : ShowsJump ("jumpiffalse(offset { value: ".toList ++ decimalInt v ++ " })".toList) [v]
  | skip (v : Int) : ShowsJump ("skip(offset { value: ".toList ++ decimalInt v ++ " })".toList) [v]
  | context (v : Int) : ShowsJump ("context(offset { value: ".toList ++ decimalInt v ++ " })".toList) [v]
  | switchLabel (v w : Int) : ShowsJump ("switchlabel(offset { value: ".toList ++ decimalInt v ++ " }, offset { value: ".toList ++
      decimalInt w ++ " })".toList) [v, w]
  | conditional (v w : Int) : ShowsJump ("conditional(offset { value: ".toList ++ decimalInt v ++ " }, offset { value: ".toList ++
      decimalInt w ++ " })".toList) [v, w]
  | switch (type v : Int) : ShowsJump ("switch(poolindex(".toList ++ decimalInt type ++ "), offset { value: ".toList ++ decimalInt v ++
      " })".toList) [v]
  | invokeStatic (v line fn flags : Int) : ShowsJump ("invokestatic(offset { value: ".toList ++ decimalInt v ++ " }, ".toList ++
      decimalInt line ++ ", poolindex(".toList ++ decimalInt fn ++ "), ".toList ++ decimalInt flags ++ ")".toList) [v]
  | invokeVirtual (v line name flags : Int) : ShowsJump ("invokevirtual(offset { value: ".toList ++ decimalInt v ++ " }, ".toList ++
      decimalInt line ++ ", poolindex(".toList ++ decimalInt name ++ "), ".toList ++ decimalInt flags ++ ")".toList) [v]

/-- The instructions with places among their operands; a label is none. -/
def HasPlaces {L : Type} (i : Instr L) : Prop := i.locs ≠ [] ∧ i.isTarget = false

/-! ### Lines -/

theorem bufLines_flatMap {α : Type} (f : α → Text) (xs : List α) (h : ∀ x ∈ xs, OneLine (f x)) :
    bufLines [] (xs.flatMap fun x => f x ++ ['\n']) = xs.map f := by
  have e : (xs.flatMap fun x => f x ++ ['\n']) = writtenLines (xs.map fun x => (f x, false)) ++ [] := by
    unfold writtenLines
    rw [List.flatMap_map, List.append_nil]
    rfl
  rw [e, bufLines_written (by
    intro l hl
    obtain ⟨x, hx, rfl⟩ := List.mem_map.1 hl
    exact h x hx)]
  simp [bufLines]

theorem showOffset_eq (o : Offset) : showOffset o = "offset { value: ".toList ++ decimalInt o.toInt ++ " }".toList := rfl

theorem digit_ne {n : Nat} {c : Char} (h : c ∈ Nat.toDigits 10 n) : c ≠ '\n' := by
  have := Nat.isDigit_of_mem_toDigits (by decide) (by decide) h
  rintro rfl
  revert this
  decide

theorem decimalInt_plain (v : Int) : '\n' ∉ decimalInt v := by
  unfold decimalInt
  intro h
  split at h
  · rcases List.mem_cons.1 h with h | h
    · revert h; decide
    · exact digit_ne h rfl
  · exact digit_ne h rfl

theorem oneLine_paren {t : Text} (h : '\n' ∉ t) : OneLine (t ++ ")".toList) := by
  constructor
  · intro hm
    rcases List.mem_append.1 hm with hm | hm
    · exact h hm
    · revert hm; decide
  · rw [show t ++ ")".toList = t ++ [')'] from rfl, List.getLast?_concat]
    decide

theorem showOffset_plain (o : Offset) : '\n' ∉ showOffset o := by
  rw [showOffset_eq]
  intro h
  rcases List.mem_append.1 h with h | h
  · rcases List.mem_append.1 h with h | h
    · revert h; decide
    · exact decimalInt_plain _ h
  · revert h; decide

theorem notMem_append {s t : Text} (h1 : '\n' ∉ s) (h2 : '\n' ∉ t) : '\n' ∉ s ++ t := fun h => (List.mem_append.1 h).elim h1 h2

theorem decimalInt_nat (n : Nat) : decimalInt (n : Int) = Nat.toDigits 10 n := by
  unfold decimalInt
  rw [if_neg (by omega)]
  rfl

theorem digits_plain (n : Nat) : '\n' ∉ Nat.toDigits 10 n := fun h => digit_ne h rfl

theorem showIdx_plain (i : Idx) : '\n' ∉ showIdx i := notMem_append (notMem_append (by decide) (digits_plain _)) (by decide)

theorem showCall_plain (a : Offset) (b : BitVec 16) (c : Idx) (d : BitVec 16) : '\n' ∉ showCall a b c d :=
  notMem_append (notMem_append (notMem_append (notMem_append (notMem_append (notMem_append (showOffset_plain _) (by decide)) (digits_plain _)) (by decide))
    (showIdx_plain _)) (by decide)) (digits_plain _)

theorem showInstr_oneLine {other : Instr Offset → Text} {i : Instr Offset} (h : OneLine (other i)) : OneLine (showInstr other i) := by
  cases i with
  | Jump a | JumpIfFalse a | Skip a | Context a => exact oneLine_paren (notMem_append (by decide) (showOffset_plain _))
  | InvokeStatic a b c d | InvokeVirtual a b c d => exact oneLine_paren (notMem_append (by decide) (showCall_plain _ _ _ _))
  | Switch a b =>
    exact oneLine_paren (notMem_append (notMem_append (notMem_append (by decide) (showIdx_plain _)) (by decide)) (showOffset_plain _))
  | SwitchLabel a b | Conditional a b =>
    exact oneLine_paren (notMem_append (notMem_append (notMem_append (by decide) (showOffset_plain _)) (by decide)) (showOffset_plain _))
  | _ => exact h

theorem listingLine_oneLine {depth : Nat} {other : Instr Offset → Text} {x : Location × Instr Offset} (h : OneLine (other x.2)) :
    OneLine (listingLine depth other x) := by
  have h := showInstr_oneLine h
  refine ⟨?_, ?_⟩
  · refine notMem_append (notMem_append (notMem_append ?_ (fun h => digit_ne h rfl)) (by decide)) h.1
    unfold indent
    intro hm
    have := List.eq_of_mem_replicate hm
    revert this
    decide
  · unfold listingLine
    rw [List.getLast?_append]
    cases e : (showInstr other x.2).getLast? with
    | some c => rw [← e]; simpa [e] using h.2
    | none =>
      rw [List.getLast?_append]
      exact fun hh => by revert hh; simp

/-! ### The properties -/

/-- C87: the listing has one line for each instruction, in order, which begins with its place (for code of less than 64 KiB) and
goes on with its text; `other` are the texts of the instructions without places among their operands. -/
theorem C87_one_line_per_instruction (depth : Nat) (other : Instr Offset → Text) (code : List (Instr Offset))
    (hsize : placeOf code code.length < 65536) (ho : ∀ i ∈ code, OneLine (other i)) :
    (bufLines [] (codeListing depth other code)).length = code.length ∧
    ∀ (k : Nat) (i : Instr Offset), code[k]? = some i →
      (bufLines [] (codeListing depth other code))[k]? =
        some (List.replicate (2 * (depth + 1)) ' ' ++ decimalInt (placeOf code k) ++ ": ".toList ++ showInstr other i) := by
  have hf : Fits16 code := by
    unfold Fits16
    unfold placeOf at hsize
    rw [List.take_length] at hsize
    exact hsize
  have hmem : ∀ x ∈ CodeIter.collect 0 code, OneLine (listingLine depth other x) := by
    intro x hx
    refine listingLine_oneLine (ho _ ?_)
    have := congrArg (x.2 ∈ ·) (C06_iter code hf).1
    exact this ▸ List.mem_map_of_mem hx
  unfold codeListing
  rw [bufLines_flatMap _ _ hmem]
  constructor
  · have := congrArg List.length (C06_iter code hf).1
    simpa using this
  · intro k i hk
    have h2 : ((CodeIter.collect 0 code).map Prod.snd)[k]? = some i := by rw [(C06_iter code hf).1]; exact hk
    rw [List.getElem?_map, Option.map_eq_some_iff] at h2
    obtain ⟨⟨loc, j⟩, h3, rfl⟩ := h2
    rw [List.getElem?_map, h3]
    have h4 := (C06_iter code hf).2 k loc j h3
    show some (indent (depth + 1) ++ Nat.toDigits 10 loc.toNat ++ ": ".toList ++ showInstr other j) = _
    rw [h4]
    rw [decimalInt_nat]
    rfl

theorem absolute_exact {off : Offset} {p t : Nat} (hp : p < 32768) (ht : t < 32768) (h : (off.absolute (BitVec.ofNat 16 p)).toNat = t) :
    (p : Int) + off.toInt = t := by
  unfold Offset.absolute at h
  have h3 : (BitVec.ofNat 16 p).toNat = p := by rw [BitVec.toNat_ofNat]; omega
  rw [h3, BitVec.toNat_ofInt] at h
  have h1 := BitVec.toInt_lt (x := off)
  have h2 := BitVec.le_toInt off
  simp only [Nat.reduceSub, Nat.reducePow] at h1 h2 h
  omega

theorem showInstr_shows {other : Instr Offset → Text} {o : Instr Offset} (h : HasPlaces o) :
    ShowsJump (showInstr other o) (o.locs.map BitVec.toInt) := by
  have e1 : ∀ (n m : Text) (a : Offset), n ++ "offset { value: ".toList = m → n ++ showOffset a ++ ")".toList =
      m ++ decimalInt a.toInt ++ " })".toList := by
    intro n m a h
    rw [showOffset_eq, ← h, show " })".toList = " }".toList ++ ")".toList by decide]
    simp only [List.append_assoc]
  have e2 : ∀ (n m : Text) (a b : Offset), n ++ "offset { value: ".toList = m → n ++ showOffset a ++ ", ".toList ++ showOffset b ++ ")".toList =
      m ++ decimalInt a.toInt ++ " }, offset { value: ".toList ++ decimalInt b.toInt ++ " })".toList := by
    intro n m a b h
    rw [showOffset_eq, showOffset_eq, ← h, show " })".toList = " }".toList ++ ")".toList by decide,
      show " }, offset { value: ".toList = " }".toList ++ (", ".toList ++ "offset { value: ".toList) by decide]
    simp only [List.append_assoc]
  have e3 : ∀ (n m : Text) (a : Offset) (b : BitVec 16) (c : Idx) (d : BitVec 16), n ++ "offset { value: ".toList = m →
      n ++ showCall a b c d ++ ")".toList = m ++ decimalInt a.toInt ++ " }, ".toList ++ decimalInt (b.toNat : Int) ++ ", poolindex(".toList ++
        decimalInt (c.toNat : Int) ++ "), ".toList ++ decimalInt (d.toNat : Int) ++ ")".toList := by
    intro n m a b c d h
    unfold showCall showIdx
    rw [showOffset_eq, ← h, decimalInt_nat, decimalInt_nat, decimalInt_nat, show " }, ".toList = " }".toList ++ ", ".toList by decide,
      show ", poolindex(".toList = ", ".toList ++ "poolindex(".toList by decide, show "), ".toList = ")".toList ++ ", ".toList by decide]
    simp only [List.append_assoc]
  have g : ∀ {t t' : Text} {vs : List Int}, t = t' → ShowsJump t' vs → ShowsJump t vs := fun h k => h ▸ k
  cases o with
  | Jump a => exact g (e1 "jump(".toList "jump(offset { value: ".toList a (by decide)) (ShowsJump.jump a.toInt)
  | JumpIfFalse a => exact g (e1 "jumpiffalse(".toList "jumpiffalse(offset { value: ".toList a (by decide)) (ShowsJump.jumpIfFalse a.toInt)
  | Skip a => exact g (e1 "skip(".toList "skip(offset { value: ".toList a (by decide)) (ShowsJump.skip a.toInt)
  | Context a => exact g (e1 "context(".toList "context(offset { value: ".toList a (by decide)) (ShowsJump.context a.toInt)
  | SwitchLabel a b => exact g (e2 "switchlabel(".toList "switchlabel(offset { value: ".toList a b (by decide)) (ShowsJump.switchLabel a.toInt b.toInt)
  | Conditional a b => exact g (e2 "conditional(".toList "conditional(offset { value: ".toList a b (by decide)) (ShowsJump.conditional a.toInt b.toInt)
  | Switch a b =>
    refine g ?_ (ShowsJump.switch (a.toNat : Int) b.toInt)
    show "switch(".toList ++ showIdx a ++ ", ".toList ++ showOffset b ++ ")".toList = _
    rw [showOffset_eq, decimalInt_nat, show " })".toList = " }".toList ++ ")".toList by decide,
      show "), offset { value: ".toList = ")".toList ++ (", ".toList ++ "offset { value: ".toList) by decide,
      show "switch(poolindex(".toList = "switch(".toList ++ "poolindex(".toList by decide]
    unfold showIdx
    simp only [List.append_assoc]
  | InvokeStatic a b c d =>
    refine g ?_ (ShowsJump.invokeStatic a.toInt (b.toNat : Int) (c.toNat : Int) (d.toNat : Int))
    exact e3 "invokestatic(".toList "invokestatic(offset { value: ".toList a b c d (by decide)
  | InvokeVirtual a b c d =>
    refine g ?_ (ShowsJump.invokeVirtual a.toInt (b.toNat : Int) (c.toNat : Int) (d.toNat : Int))
    exact e3 "invokevirtual(".toList "invokevirtual(offset { value: ".toList a b c d (by decide)
  | Target l => exact absurd h.2 (by simp [Instr.isTarget])
  | _ => exact absurd rfl h.1

theorem hasPlaces_shape {L : Type} (i : Instr L) : HasPlaces i.shape ↔ HasPlaces i := by
  unfold HasPlaces
  cases i <;> simp [Instr.shape, Instr.mapLoc, Instr.locs, Instr.isTarget]

theorem intoCode_sizes {n : Nat} {code : List (Instr Nat)} {out : List (Instr Offset)} (hb : ∀ i ∈ code, ∀ l ∈ i.locs, l < n)
    (hu : ∀ m m' l : Nat, code[m]? = some (.Target l) → code[m']? = some (.Target l) → m = m') (hout : intoCode n code = some out) (k : Nat) :
    placeOf out k = startPos (realInstrs code) k := by
  obtain ⟨locs, h1, -, -⟩ := intoCode_eq n code hb hu
  rw [h1] at hout
  have hsize : out.map (fun i => i.size) = (realInstrs code).map fun i => i.size := by
    rw [← Option.some.inj hout]
    exact collect_map_size 0 (realInstrs code) fun loc l => Location.relative (locs[l]?.getD 0) loc
  exact startPos_congr hsize k

theorem intoCode_total {n : Nat} {code : List (Instr Nat)} {out : List (Instr Offset)} (hb : ∀ i ∈ code, ∀ l ∈ i.locs, l < n)
    (hu : ∀ m m' l : Nat, code[m]? = some (.Target l) → code[m']? = some (.Target l) → m = m') (hout : intoCode n code = some out) :
    (code.map fun i => i.size.toNat).sum = placeOf out out.length := by
  obtain ⟨out', h1, -, h3⟩ := C07_shape n code hb hu
  have e := Option.some.inj (h1.symm.trans hout)
  subst e
  have hl : out'.length = (realInstrs code).length := by simpa using congrArg List.length h3
  have h2 := startPos_real code code.length
  have h4 : realBefore code code.length = (realInstrs code).length := by simp [realBefore]
  rw [intoCode_sizes hb hu hout, hl, ← h4, ← h2]
  simp [startPos]

theorem placeOf_le (code : List (Instr Offset)) (k : Nat) : placeOf code k ≤ placeOf code code.length := by
  have h := startPos_le_total code k
  have e : placeOf code code.length = (code.map fun i => i.size.toNat).sum := by simp [placeOf]
  rw [e]
  exact h

/-- C87: in the listing of a function that was assembled to less than 32 KiB, the line of an instruction with places among its
operands shows for each of them the difference from the place of the line to the place of the line where the label was put (the first
one after it, or the end of the code). Missing: functions from 32 KiB, of which it is false. -/
theorem C87_jumps_shown_partial (depth : Nat) (other : Instr Offset → Text) {n : Nat} {code : List (Instr Nat)} {out : List (Instr Offset)}
    (hb : ∀ i ∈ code, ∀ l ∈ i.locs, l < n)
    (hu : ∀ m m' l : Nat, code[m]? = some (.Target l) → code[m']? = some (.Target l) → m = m')
    (hout : intoCode n code = some out) (hsize : placeOf out out.length < 32768) (ho : ∀ i ∈ out, OneLine (other i))
    {k : Nat} {i : Instr Nat} (hi : (realInstrs code)[k]? = some i) (hp : HasPlaces i) :
    ∃ text vs, (bufLines [] (codeListing depth other out))[k]? =
        some (List.replicate (2 * (depth + 1)) ' ' ++ decimalInt (placeOf out k) ++ ": ".toList ++ text) ∧
      ShowsJump text vs ∧ vs.length = i.locs.length ∧
      ∀ (j l m : Nat) (v : Int), i.locs[j]? = some l → vs[j]? = some v → code[m]? = some (.Target l) →
        (placeOf out k : Int) + v = placeOf out (realBefore code m) := by
  obtain ⟨out', h1, -, h3⟩ := C07_shape n code hb hu
  have e := Option.some.inj (h1.symm.trans hout)
  subst e
  have hk : (out'.map Instr.shape)[k]? = some i.shape := by rw [h3, List.getElem?_map, hi]; rfl
  rw [List.getElem?_map, Option.map_eq_some_iff] at hk
  obtain ⟨o, hok, hsh⟩ := hk
  have hpo : HasPlaces o := (hasPlaces_shape o).1 (hsh ▸ (hasPlaces_shape i).2 hp)
  have hfit : Fits16 code := by
    unfold Fits16
    rw [intoCode_total hb hu hout]
    omega
  obtain ⟨hlen, hland⟩ := C07_jumps_land n code hfit hb hu out' hout k i o hi hok
  refine ⟨_, _, (C87_one_line_per_instruction depth other out' (by omega) ho).2 k o hok, showInstr_shows hpo, by simpa using hlen, ?_⟩
  intro j l m v hl hv hm
  rw [List.getElem?_map, Option.map_eq_some_iff] at hv
  obtain ⟨off, hoff, rfl⟩ := hv
  have h1 := placeOf_le out' k
  have h2 := placeOf_le out' (realBefore code m)
  exact absolute_exact (by omega) (by omega) (hland j l m off hl hoff hm)

/-! ### Example and counterexample -/

namespace ListingDemo

/-- A loop: leave it if a condition does not hold, else go back. -/
def loop : List (Instr Nat) := [.Target 0, .JumpIfFalse 1, .TrueConst, .Nop, .Jump 0, .Target 1, .Nop]

def loopOut : List (Instr Offset) := [.JumpIfFalse 8, .TrueConst, .Nop, .Jump (-5), .Nop]

theorem loop_out : intoCode 2 loop = some loopOut := by decide

theorem loop_marks (m m' l : Nat) (h : loop[m]? = some (.Target l)) (h' : loop[m']? = some (.Target l)) : m = m' := by
  unfold loop at h h'
  match m, m' with
  | 0, 0 | 5, 5 => rfl
  | 0, 5 => cases h; cases h'
  | 5, 0 => cases h; cases h'
  | 1, _ | 2, _ | 3, _ | 4, _ | 6, _ => cases h
  | _, 1 | _, 2 | _, 3 | _, 4 | _, 6 => cases h'
  | m + 7, _ => simp at h
  | _, m' + 7 => simp at h'

/-- The jump back is at place 5 and shows -5. -/
example : ∃ text vs, (bufLines [] (codeListing 0 (fun _ => "op".toList) loopOut))[3]? = some ("  5: ".toList ++ text) ∧ ShowsJump text vs ∧
    ∀ v, vs[0]? = some v → 5 + v = 0 := by
  obtain ⟨text, vs, h1, h2, -, h3⟩ := C87_jumps_shown_partial 0 (fun _ => "op".toList) (by decide) loop_marks loop_out (by decide)
    (fun _ _ => ⟨by decide, by decide⟩) (k := 3) (i := .Jump 0) (by decide) ⟨by decide, rfl⟩
  exact ⟨text, vs, h1, h2, fun v hv => h3 0 0 0 v rfl hv rfl⟩

/-- A jump over some bytes. -/
def long (N : Nat) : List (Instr Nat) := Instr.Jump 0 :: (List.replicate N Instr.Nop ++ [Instr.Target 0])

theorem long_jump {N : Nat} (h1 : 32768 ≤ N) (h2 : N < 65000) : ∃ (out : List (Instr Offset)) (off : Offset) (m : Nat), intoCode 1 (long N) = some out ∧
    (long N)[0]? = some (.Jump 0) ∧ (long N)[m]? = some (.Target 0) ∧ out[0]? = some (.Jump off) ∧ placeOf out out.length < 65536 ∧
    (placeOf out 0 : Int) + off.toInt ≠ placeOf out (realBefore (long N) m) := by
  have hreal : realInstrs (long N) = Instr.Jump 0 :: List.replicate N Instr.Nop := by
    unfold realInstrs long
    rw [List.filter_cons_of_pos (by rfl), List.filter_append, List.filter_replicate]
    simp [Instr.isTarget]
  have hmem : ∀ i ∈ long N, i = .Jump 0 ∨ i = .Nop ∨ i = .Target 0 := by
    intro i hi
    rcases List.mem_cons.1 hi with h | h
    · exact .inl h
    · rcases List.mem_append.1 h with h | h
      · exact .inr (.inl (List.eq_of_mem_replicate h))
      · exact .inr (.inr (List.mem_singleton.1 h))
  have hb : ∀ i ∈ long N, ∀ l ∈ i.locs, l < 1 := by
    intro i hi l hl
    rcases hmem i hi with rfl | rfl | rfl <;> simp_all [Instr.locs]
  have hat : ∀ m l, (long N)[m]? = some (.Target l) → m = (N + 1) := by
    intro m l h
    match m with
    | 0 => cases h
    | m + 1 =>
      unfold long at h
      rw [List.getElem?_cons_succ, List.getElem?_append] at h
      split at h
      · rw [List.getElem?_replicate] at h
        split at h <;> cases h
      · next hlt =>
        rw [List.length_replicate] at hlt h
        have : m - N < 1 := by
          rcases Nat.lt_or_ge (m - N) 1 with h' | h'
          · exact h'
          · rw [List.getElem?_eq_none (by simpa using h')] at h
            cases h
        omega
  have hu : ∀ m m' l : Nat, (long N)[m]? = some (.Target l) → (long N)[m']? = some (.Target l) → m = m' :=
    fun m m' l h h' => (hat m l h).trans (hat m' l h').symm
  have hm : (long N)[(N + 1)]? = some (.Target 0) := by
    unfold long
    rw [List.getElem?_cons_succ, List.getElem?_append_right (by rw [List.length_replicate]; exact Nat.le_refl _), List.length_replicate,
      Nat.sub_self]
    rfl
  obtain ⟨out, h5, -, h3⟩ := C07_shape 1 (long N) hb hu
  have hk : (out.map Instr.shape)[0]? = some (.Jump ()) := by rw [h3, hreal]; rfl
  rw [List.getElem?_map, Option.map_eq_some_iff] at hk
  obtain ⟨o, hok, hsh⟩ := hk
  obtain ⟨off, rfl⟩ : ∃ off, o = .Jump off := by
    cases o with
    | Jump a => exact ⟨a, rfl⟩
    | _ => cases hsh
  have hnop : (Instr.Nop : Instr Nat).size.toNat = 1 := rfl
  have hjmp : (Instr.Jump 0 : Instr Nat).size.toNat = 3 := rfl
  have hrb : realBefore (long N) (N + 1) = (N + 1) := by
    have : (long N).take (N + 1) = Instr.Jump 0 :: List.replicate N Instr.Nop := by
      unfold long
      rw [List.take_succ_cons, List.take_append_of_le_length (by rw [List.length_replicate]; exact Nat.le_refl _),
        List.take_of_length_le (by rw [List.length_replicate]; exact Nat.le_refl _)]
    unfold realBefore realInstrs
    rw [this, List.filter_cons_of_pos (by rfl), List.filter_replicate]
    simp [Instr.isTarget]
  have htot : startPos (realInstrs (long N)) (N + 1) = 3 + N := by
    rw [hreal]
    unfold startPos
    rw [List.take_of_length_le (by rw [List.length_cons, List.length_replicate]; exact Nat.le_refl _), List.map_cons, List.map_replicate,
      List.sum_cons, List.sum_replicate_nat, hnop, hjmp, Nat.mul_one]
  have hlen : out.length = (N + 1) := by
    have := congrArg List.length h3
    rw [hreal] at this
    simpa using this
  refine ⟨out, off, (N + 1), h5, rfl, hm, hok, ?_, ?_⟩
  · rw [intoCode_sizes hb hu h5, hlen, htot]
    omega
  · rw [intoCode_sizes hb hu h5 (realBefore (long N) (N + 1)), hrb, htot]
    have h0 : placeOf out 0 = 0 := by simp [placeOf]
    have := BitVec.toInt_lt (x := off)
    simp only [Nat.reduceSub] at this
    rw [h0]
    omega

end ListingDemo

open ListingDemo in
/-- C87: in a function of 32 KiB and more a jump can show a difference that does not lead to its target. -/
theorem C87_long_jump_counterexample : ∃ (code : List (Instr Nat)) (out : List (Instr Offset)) (off : Offset) (m : Nat),
    intoCode 1 code = some out ∧ code[0]? = some (.Jump 0) ∧ code[m]? = some (.Target 0) ∧ out[0]? = some (.Jump off) ∧
    placeOf out out.length < 65536 ∧ (placeOf out 0 : Int) + off.toInt ≠ placeOf out (realBefore code m) :=
  ⟨long 32768, long_jump (by decide) (by decide)⟩

end Redscript
