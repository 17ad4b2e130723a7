import Verif.Assembler.Labels
import Verif.Vm.Machine

/-!
# Assembled code in memory

Code with labels lies in the memory of the machine when every instruction is found at its position with
labels replaced by positions, and every label is the position where it is placed. The result of
`from_body` is such a memory.
-/

namespace Redscript

/-- The code lies between positions `p` and `q`; `ρ` gives the positions of labels. -/
def CodeAt (mem : Location → Option (Instr Location)) (ρ : Nat → Location) :
    Location → List (Instr Nat) → Location → Prop
  | p, [], q => p = q
  | p, i :: is, q =>
    (match i with
      | .Target l => ρ l = p
      | i => mem p = some (i.mapLoc ρ)) ∧ CodeAt mem ρ (p + i.size) is q

section
variable {mem : Location → Option (Instr Location)} {ρ : Nat → Location} {p q : Location}

theorem CodeAt.append {a b : List (Instr Nat)} :
    CodeAt mem ρ p (a ++ b) q ↔ ∃ r, CodeAt mem ρ p a r ∧ CodeAt mem ρ r b q := by
  induction a generalizing p with
  | nil => simp [CodeAt]
  | cons i is ih => simp only [List.cons_append, CodeAt, ih]; exact ⟨fun ⟨h, r, h1, h2⟩ => ⟨r, ⟨h, h1⟩, h2⟩, fun ⟨r, ⟨h, h1⟩, h2⟩ => ⟨h, r, h1, h2⟩⟩

theorem CodeAt.target {l : Nat} {is : List (Instr Nat)} :
    CodeAt mem ρ p (.Target l :: is) q ↔ ρ l = p ∧ CodeAt mem ρ p is q := by
  have : p + (Instr.Target l : Instr Nat).size = p := by simp [Instr.size]
  simp only [CodeAt, this]

theorem CodeAt.cons {i : Instr Nat} {is : List (Instr Nat)} (h : i.isTarget = false) :
    CodeAt mem ρ p (i :: is) q ↔ mem p = some (i.mapLoc ρ) ∧ CodeAt mem ρ (p + i.size) is q := by
  simp only [CodeAt]
  cases i <;> first | exact Iff.rfl | cases h

theorem CodeAt.nil : CodeAt mem ρ p [] q ↔ p = q := Iff.rfl

end

theorem NoEmpty_real (code : List (Instr L)) (h : unprofiled code = true) : NoEmpty (realInstrs code) := by
  intro i hi
  simp only [realInstrs, List.mem_filter, Bool.not_eq_eq_eq_not, Bool.not_true] at hi
  refine size_pos i hi.2 ?_
  simp only [unprofiled, List.all_eq_true, Bool.not_eq_eq_eq_not, Bool.not_true] at h
  exact h i hi.1

theorem instrAt_startPos (out : List (Instr Offset)) (hne : NoEmpty out) (s0 : Nat)
    (hf : s0 + (out.map fun i => i.size.toNat).sum < 2 ^ 16) (k : Nat) (hk : k ≤ out.length) :
    instrAt (BitVec.ofNat 16 (s0 + startPos out k)) (BitVec.ofNat 16 s0) out = out[k]? := by
  induction out generalizing s0 k with
  | nil => simp [instrAt]
  | cons i is ih =>
    simp only [List.map_cons, List.sum_cons] at hf
    cases k with
    | zero => simp [instrAt, startPos_zero]
    | succ k =>
      rw [startPos_cons_succ]
      have hi : i.size ≠ 0 := hne i (List.mem_cons_self ..)
      have hi' : 0 < i.size.toNat := by
        rcases Nat.eq_zero_or_pos i.size.toNat with h0 | h0
        · exact absurd (BitVec.eq_of_toNat_eq (by simpa using h0)) hi
        · exact h0
      have htot := startPos_le_total is k
      have hneq : BitVec.ofNat 16 s0 ≠ BitVec.ofNat 16 (s0 + (i.size.toNat + startPos is k)) := by
        intro he
        have := congrArg BitVec.toNat he
        rw [BitVec.toNat_ofNat, BitVec.toNat_ofNat, Nat.mod_eq_of_lt (by omega), Nat.mod_eq_of_lt (by omega)] at this
        omega
      rw [instrAt, if_neg hneq]
      have hs : BitVec.ofNat 16 s0 + i.size = BitVec.ofNat 16 (s0 + i.size.toNat) := by
        apply BitVec.eq_of_toNat_eq
        simp [BitVec.toNat_add]
      rw [hs, ← Nat.add_assoc, ih (fun j hj => hne j (List.mem_cons_of_mem _ hj)) (s0 + i.size.toNat) (by omega) k
        (by simpa using hk)]
      simp

/-- Assembling and resolving labels gives code in memory. -/
theorem intoCode_codeAt (n : Nat) (code : List (Instr Nat)) (hf : Fits16 code)
    (hb : ∀ i ∈ code, ∀ l ∈ i.locs, l < n) (hu : (placed code).Nodup) (hp : unprofiled code = true) :
    ∃ out ρ, intoCode n code = some out ∧
      CodeAt (fetch out) ρ 0 code (BitVec.ofNat 16 (startPos code code.length)) ∧
      fetch out (BitVec.ofNat 16 (startPos code code.length)) = none ∧
      ∀ l, l ∉ placed code → ρ l = 0 := by
  have hu' := placed_unique code hu
  obtain ⟨locs, h1, h2, h3⟩ := intoCode_eq n code hb hu'
  refine ⟨_, fun l => locs[l]?.getD 0, h1, ?_⟩
  generalize hout : ((CodeIter.collect 0 (realInstrs code)).map fun x =>
        x.2.mapLoc fun l => Location.relative (locs[l]?.getD 0) x.1) = out
  have hsize : out.map (fun i => i.size) = (realInstrs code).map fun i => i.size := by
    rw [← hout]
    exact collect_map_size 0 (realInstrs code) fun loc l => Location.relative (locs[l]?.getD 0) loc
  have hlen : out.length = (realInstrs code).length := by
    have := congrArg List.length hsize; simpa using this
  have hpos := startPos_congr hsize
  have hne : NoEmpty out := by
    intro o ho
    rw [← hout, List.mem_map] at ho
    obtain ⟨x, hx, rfl⟩ := ho
    rw [size_mapLoc]
    exact NoEmpty_real code hp _ (collect_mem_snd _ _ _ hx)
  have hrb : ∀ m, realBefore code m ≤ (realInstrs code).length := by
    intro m
    unfold realBefore realInstrs
    exact ((List.take_sublist m code).filter _).length_le
  have htot : (out.map fun i => i.size.toNat).sum = startPos code code.length := by
    have e1 : (out.map fun i => i.size.toNat).sum = startPos out out.length := by simp [startPos]
    rw [e1, hpos, startPos_real code]
    unfold realBefore
    simp [hlen]
  have htotc : startPos code code.length = (code.map fun i => i.size.toNat).sum := by simp [startPos]
  have hfit : (0 : Nat) + (out.map fun i => i.size.toNat).sum < 2 ^ 16 := by
    rw [htot, htotc]; unfold Fits16 at hf; omega
  have hfetch : ∀ m, fetch out (BitVec.ofNat 16 (startPos code m)) =
      (out[realBefore code m]?).map fun i => i.mapLoc fun o => o.absolute (BitVec.ofNat 16 (startPos code m)) := by
    intro m
    unfold fetch
    have := instrAt_startPos out hne 0 hfit (realBefore code m) (by rw [hlen]; exact hrb m)
    rw [hpos, ← startPos_real] at this
    simp only [Nat.zero_add] at this
    rw [show (0 : Location) = BitVec.ofNat 16 0 from rfl, this]
  refine ⟨?_, ?_, ?_⟩
  · -- by induction on the rest of the code
    have key : ∀ (suf pre : List (Instr Nat)), pre ++ suf = code →
        CodeAt (fetch out) (fun l => locs[l]?.getD 0) (BitVec.ofNat 16 (startPos code pre.length)) suf
          (BitVec.ofNat 16 (startPos code code.length)) := by
      intro suf
      induction suf with
      | nil => intro pre h; rw [List.append_nil] at h; subst h; exact rfl
      | cons i is ih =>
        intro pre h
        have hi : code[pre.length]? = some i := by rw [← h]; simp
        have hnext := ih (pre ++ [i]) (by simpa using h)
        have hstep : BitVec.ofNat 16 (startPos code pre.length) + i.size =
            BitVec.ofNat 16 (startPos code (pre ++ [i]).length) := by
          rw [List.length_append, List.length_singleton, startPos_succ code pre.length i hi]
          apply BitVec.eq_of_toNat_eq
          simp [BitVec.toNat_add]
        by_cases ht : i.isTarget = true
        · obtain ⟨l, rfl⟩ := (isTarget_iff i).1 ht
          refine CodeAt.target.2 ⟨?_, ?_⟩
          · rw [h2 pre.length l hi]; rfl
          · have : BitVec.ofNat 16 (startPos code pre.length) + (Instr.Target l : Instr Nat).size =
              BitVec.ofNat 16 (startPos code pre.length) := by simp [Instr.size]
            rw [← this, hstep]; exact hnext
        · have ht : i.isTarget = false := by simpa using ht
          refine (CodeAt.cons ht).2 ⟨?_, ?_⟩
          · rw [hfetch]
            have hr : (realInstrs code)[realBefore code pre.length]? = some i := by
              have e1 : realBefore code pre.length = (realInstrs pre).length := by
                unfold realBefore; rw [← h]; simp
              have e2 : realInstrs code = realInstrs pre ++ i :: realInstrs is := by
                rw [← h]; simp [realInstrs, List.filter_append, ht]
              rw [e1, e2]; simp
            rw [← hout, List.getElem?_map, collect_getElem?, hr]
            simp only [Option.map_some, zero_add16, ← startPos_real, Option.some.injEq]
            have hmm : ∀ (f : Nat → Offset) (g : Offset → Location), (i.mapLoc f).mapLoc g = i.mapLoc (fun l => g (f l)) := by
              intro f g; cases i <;> rfl
            rw [hmm]
            congr 1
            funext l
            exact C05_offset_roundtrip _ _
          · rw [hstep]; exact hnext
    have := key code [] rfl
    simpa [startPos_zero] using this
  · rw [hfetch]
    have : realBefore code code.length = (realInstrs code).length := by simp [realBefore]
    rw [this, ← hlen]
    simp
  · intro l hl
    exact h3 l fun m hm => hl ((mem_placed code l).2 (List.mem_iff_getElem?.2 ⟨m, hm⟩))

/-- The code of a body lies in memory, followed by a `Nop` and the end. -/
theorem fromBody_codeAt {env : AsmEnv} {body : List TypedExpr} {code : List (Instr Nat)} {n : Nat}
    (h : asmSeq env none body 0 = .ok (code, n)) (hf : Fits16 (code ++ [.Nop])) :
    ∃ out ρ q, fromBody env body = .ok out ∧ CodeAt (fetch out) ρ 0 code q ∧ fetch out q = some .Nop ∧
      fetch out (q + 1) = none ∧ ∀ l, l ∉ placed code → ρ l = 0 := by
  have hl := asmSeq_labels env none body _ _ _ h
  have hpl : placed (code ++ [.Nop]) = placed code := by simp [placed_append, placed]
  obtain ⟨out, ρ, h1, h2, h3, h4⟩ := intoCode_codeAt n (code ++ [.Nop]) hf (by
    intro i hi l hll
    rw [List.mem_append, List.mem_singleton] at hi
    rcases hi with hi | rfl
    · rcases hl.used i hi l hll with h | h
      · exact h
      · cases h
    · cases hll) (by rw [hpl]; exact hl.nodup)
    (by simp [unprofiled_append, asmSeq_unprofiled env none body _ _ _ h, unprofiled_cons, unprofiled_nil, Instr.isProfiling])
  obtain ⟨q, h5, h6⟩ := CodeAt.append.1 h2
  rw [CodeAt.cons rfl, CodeAt.nil] at h6
  refine ⟨out, ρ, q, ?_, h5, h6.1, ?_, ?_⟩
  · simp [fromBody, h, h1]
  · rw [show (1 : Location) = (Instr.Nop : Instr Nat).size from rfl, h6.2]; exact h3
  · rw [hpl] at h4; exact h4

end Redscript
