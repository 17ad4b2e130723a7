import Verif.Bytecode.Props

/-!
# What a decoder returns can be encoded

Helper lemmas for C69: whatever instruction or body is read from a file can be written again.
-/

namespace Redscript

/-- Every value that `d` reads has the property, together with the number of bytes it was read from. -/
def Dec.Sat (d : Dec α) (P : α → Nat → Prop) : Prop :=
  ∀ bs a rest, d bs = .ok (a, rest) → ∃ n, bs.length = n + rest.length ∧ P a n

/-- `d` reads exactly `k` bytes. -/
def Dec.Takes (d : Dec α) (k : Nat) : Prop :=
  ∀ bs a rest, d bs = .ok (a, rest) → bs.length = k + rest.length

theorem Dec.Sat.pure {a : α} {P : α → Nat → Prop} (h : P a 0) : (Dec.pure a).Sat P := by
  intro bs b rest hb
  simp only [Dec.pure_apply, Except.ok.injEq, Prod.mk.injEq] at hb
  obtain ⟨rfl, rfl⟩ := hb
  exact ⟨0, by simp, h⟩

theorem Dec.Sat.fail {e : Err} {P : α → Nat → Prop} : (Dec.fail e : Dec α).Sat P := by
  intro bs b rest hb
  cases hb

theorem Dec.Sat.then {d : Dec α} {f : α → Dec β} {Q : α → Nat → Prop} {P : β → Nat → Prop}
    (hd : d.Sat Q) (hf : ∀ a k, Q a k → (f a).Sat fun b n => P b (k + n)) : (d.bind f).Sat P := by
  intro bs b rest hb
  obtain ⟨a, m, h1, h2⟩ := Dec.bind_eq_ok.1 hb
  obtain ⟨k, hk, hQ⟩ := hd _ _ _ h1
  obtain ⟨n, hn, hP⟩ := hf a k hQ _ _ _ h2
  exact ⟨k + n, by omega, hP⟩

theorem Dec.Takes.sat {d : Dec α} {k : Nat} (h : d.Takes k) : d.Sat fun _ n => n = k :=
  fun bs a rest hb => ⟨k, h bs a rest hb, rfl⟩

theorem Dec.Sat.fixed {d : Dec α} {f : α → Dec β} {k : Nat} {P : β → Nat → Prop}
    (hd : d.Takes k) (hf : ∀ a, (f a).Sat fun b n => P b (k + n)) : (d.bind f).Sat P :=
  hd.sat.then fun a n hn => by subst hn; exact hf a

theorem Dec.Sat.imp {d : Dec α} {P Q : α → Nat → Prop} (h : d.Sat P) (hi : ∀ a n, P a n → Q a n) :
    d.Sat Q := by
  intro bs a rest hb
  obtain ⟨n, hn, hP⟩ := h bs a rest hb
  exact ⟨n, hn, hi _ _ hP⟩

theorem Dec.Takes.map {d : Dec α} {g : α → β} {k : Nat} (h : d.Takes k) :
    (d.bind fun a => .pure (g a)).Takes k := by
  intro bs b rest hb
  obtain ⟨a, m, h1, h2⟩ := Dec.bind_eq_ok.1 hb
  simp only [Dec.pure_apply, Except.ok.injEq, Prod.mk.injEq] at h2
  obtain ⟨-, rfl⟩ := h2
  exact h _ _ _ h1

theorem leNat_takes (k : Nat) : (leNat k).Takes k := by
  induction k with
  | zero => intro bs a rest h; simp [leNat] at h; simp [h]
  | succ k ih =>
    intro bs a rest h
    unfold leNat at h
    split at h
    · cases h
    · split at h
      · next n rest' h' =>
        simp only [Except.ok.injEq, Prod.mk.injEq] at h
        obtain ⟨-, rfl⟩ := h
        have := ih _ _ _ h'
        simp only [List.length_cons]
        omega
      · cases h

theorem decU8_takes : decU8.Takes 1 := by
  intro bs a rest h
  unfold decU8 at h
  split at h
  · cases h
  · simp only [Except.ok.injEq, Prod.mk.injEq] at h
    obtain ⟨-, rfl⟩ := h
    simp [Nat.add_comm]

theorem decU16_takes : decU16.Takes 2 := (leNat_takes 2).map
theorem decU32_takes : decU32.Takes 4 := (leNat_takes 4).map
theorem decU64_takes : decU64.Takes 8 := (leNat_takes 8).map
theorem decBool_takes : decBool.Takes 1 := decU8_takes.map
theorem decIdx_takes : decIdx.Takes 4 := decU32_takes
theorem decOffset_takes (k : BitVec 16) : (decOffset k).Takes 2 := decU16_takes.map

/-- A string read with a length prefix has that many bytes. -/
theorem decStr_sat (n : Nat) : (decStr n).Sat fun s k => (strBytes s).length = n ∧ k = n := by
  intro bs s rest h
  obtain ⟨b, m, h1, h2⟩ := Dec.bind_eq_ok.1 h
  unfold decBytes at h1
  split at h1
  · next hn =>
    simp only [Except.ok.injEq, Prod.mk.injEq] at h1
    obtain ⟨rfl, rfl⟩ := h1
    unfold Dec.lift at h2
    split at h2
    · next t ht =>
      simp only [Except.ok.injEq, Prod.mk.injEq] at h2
      obtain ⟨rfl, rfl⟩ := h2
      refine ⟨n, ?_, ?_, rfl⟩
      · rw [List.length_drop]; omega
      · rw [strBytes_of_ofBytes ht, List.length_take]; omega
    · cases h2
  · cases h1

theorem decStr32_sat : decStr32.Sat fun s k => (strBytes s).length < 2 ^ 32 ∧
    k = 4 + (strBytes s).length :=
  .fixed decU32_takes fun n => (decStr_sat _).imp fun s k h => by
    have := n.isLt
    omega

theorem decStr16_sat : decStr16.Sat fun s k => (strBytes s).length < 2 ^ 16 ∧
    k = 2 + (strBytes s).length :=
  .fixed decU16_takes fun n => (decStr_sat _).imp fun s k h => by
    have := n.isLt
    omega

theorem encStr16_total {s : String} (h : (strBytes s).length < 2 ^ 16) : ∃ w, encStr16 s = .ok w := by
  simp [encStr16, encLen16, h, Enc.seq]

/-- What reading an instruction guarantees: it can be written in as many bytes as it was read from,
it accounts for at most two bytes of code per byte of the file, and a label marker has no label. -/
def ReadableInstr (i : Instr Offset) (n : Nat) : Prop :=
  (∃ w, encInstr i = .ok w ∧ w.length = n) ∧ i.size.toNat ≤ 2 * n ∧ ∀ l, i = .Target l → l = 0

theorem decBreakpoint_takes : decBreakpoint.Takes 19 := by
  intro bs a rest h
  have : decBreakpoint.Sat fun _ n => n = 19 :=
    .fixed decU16_takes fun _ => .fixed decU32_takes fun _ => .fixed decU16_takes fun _ =>
      .fixed decU16_takes fun _ => .fixed decBool_takes fun _ => .fixed decU64_takes fun _ => .pure rfl
  obtain ⟨n, hn, rfl⟩ := this _ _ _ h
  exact hn

theorem decOperands_readable (op : Byte) : (decOperands op).Sat fun i n => ReadableInstr i (1 + n) := by
  unfold decOperands
  split
  case h_52 =>
    refine .then (Q := fun p k => (strBytes p.function).length < 2 ^ 32 ∧
      k = 5 + (strBytes p.function).length) ?_ ?_
    · exact decStr32_sat.then fun s k hk => .fixed decU8_takes fun _ => .pure (by simp; omega)
    · rintro p k ⟨h1, rfl⟩
      refine .pure ⟨?_, ?_, fun l hl => by cases hl⟩
      · refine ⟨_, by simp [encInstr, encStartProfiling, encStr32, encLen32, h1, Enc.seq]; rfl, ?_⟩
        simp [encU8, encU32, leBytes_length]
        omega
      · simp only [Instr.size, BitVec.toNat_add, BitVec.toNat_ofNat]
        rw [show (1 : BitVec 16).toNat = 1 from rfl, show (5 : BitVec 16).toNat = 5 from rfl]
        omega
  all_goals first
    | exact .fail
    | exact .pure ⟨⟨_, rfl, rfl⟩, by decide, by intro l hl; cases hl <;> rfl⟩
    | skip
  all_goals
    repeat'
      first
        | refine Dec.Sat.fixed decU8_takes fun _ => ?_
        | refine Dec.Sat.fixed decU16_takes fun _ => ?_
        | refine Dec.Sat.fixed decU32_takes fun _ => ?_
        | refine Dec.Sat.fixed decU64_takes fun _ => ?_
        | refine Dec.Sat.fixed decIdx_takes fun _ => ?_
        | refine Dec.Sat.fixed (decOffset_takes _) fun _ => ?_
        | refine Dec.Sat.fixed decBreakpoint_takes fun _ => ?_
        | exact .pure ⟨⟨_, rfl, rfl⟩, by simp [Instr.size], by intro l hl; cases hl⟩

theorem decInstr_readable : decInstr.Sat ReadableInstr := .fixed decU8_takes decOperands_readable

theorem decCodeLoop_readable (m : BitVec 32) (fuel : Nat) (offset : BitVec 32) :
    (decCodeLoop m fuel offset).Sat fun code n =>
      (∀ i ∈ code, (∃ w, encInstr i = .ok w) ∧ ∀ l, i = .Target l → l = 0) ∧
      (code.map fun i => i.size.toNat).sum ≤ 2 * n ∧
      (offset < m → code ≠ []) ∧ ∀ i, code.getLast? = some i → i.size ≠ 0 := by
  induction fuel generalizing offset with
  | zero =>
    intro bs code rest h
    unfold decCodeLoop at h
    split at h
    · cases h
    · next hlt =>
      simp only [Except.ok.injEq, Prod.mk.injEq] at h
      obtain ⟨rfl, rfl⟩ := h
      exact ⟨0, by simp, by simp, by simp, fun h => absurd h hlt, by simp⟩
  | succ fuel ih =>
    intro bs code rest h
    unfold decCodeLoop at h
    split at h
    · next hlt =>
      obtain ⟨i, m1, h1, h2⟩ := Dec.bind_eq_ok.1 h
      obtain ⟨is, m2, h3, h4⟩ := Dec.bind_eq_ok.1 h2
      simp only [Dec.pure_apply, Except.ok.injEq, Prod.mk.injEq] at h4
      obtain ⟨rfl, rfl⟩ := h4
      obtain ⟨k, hk, ⟨w, hw, -⟩, hsz, ht⟩ := decInstr_readable _ _ _ h1
      obtain ⟨n, hn, hall, hsum, hne, hlast⟩ := ih _ _ _ _ h3
      refine ⟨k + n, by omega, ?_, ?_, by simp, ?_⟩
      · intro j hj
        rcases List.mem_cons.1 hj with rfl | hj
        · exact ⟨⟨w, hw⟩, ht⟩
        · exact hall j hj
      · simp only [List.map_cons, List.sum_cons]; omega
      · intro j hj
        cases is with
        | nil =>
          simp only [List.getLast?_singleton, Option.some.injEq] at hj
          subst hj
          intro h0
          rw [h0] at hne
          exact hne (by simpa using hlt) rfl
        | cons k ks =>
          rw [List.getLast?_cons_cons] at hj
          exact hlast j hj
    · next hlt =>
      simp only [Except.ok.injEq, Prod.mk.injEq] at h
      obtain ⟨rfl, rfl⟩ := h
      exact ⟨0, by simp, by simp, by simp, fun h => absurd h hlt, by simp⟩

theorem encList_total {enc : α → Enc} {as : List α} (h : ∀ a ∈ as, ∃ w, enc a = .ok w) :
    ∃ w, encList enc as = .ok w := by
  induction as with
  | nil => exact ⟨[], rfl⟩
  | cons a as ih =>
    obtain ⟨x, hx⟩ := h a (by simp)
    obtain ⟨y, hy⟩ := ih fun b hb => h b (by simp [hb])
    exact ⟨x ++ y, seq_ok.2 ⟨x, y, hx, hy, rfl⟩⟩

/-- A body that is read can be written, its label markers have no label, it does not end in an
instruction of size 0, and it accounts for at most two bytes of code per byte of the file. -/
theorem decCode_readable : decCode.Sat fun code n =>
    (∃ w, encCode code = .ok w) ∧ (∀ i ∈ code, ∀ l, i = .Target l → l = 0) ∧
      (∀ i, code.getLast? = some i → i.size ≠ 0) ∧ (code.map fun i => i.size.toNat).sum ≤ 2 * n := by
  refine .fixed decU32_takes fun m => ?_
  intro bs code rest h
  obtain ⟨n, hn, hall, hsum, -, hlast⟩ := decCodeLoop_readable _ _ _ _ _ _ h
  obtain ⟨w, hw⟩ := encList_total fun i hi => (hall i hi).1
  exact ⟨n, hn, ⟨_, seq_ok.2 ⟨_, w, rfl, hw, rfl⟩⟩, fun i hi => (hall i hi).2, hlast, by omega⟩

end Redscript
