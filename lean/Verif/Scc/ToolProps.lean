import Verif.Scc.Model
import Verif.Codec.Lemmas
import Verif.Names.Props

/-!
# Launcher helpers (C43, C44, C45, C50)
-/

namespace Redscript

/-! ## C50: timestamp file -/

/-- What was written is what is read back, whatever the file contained before. -/
theorem C50_written_is_read_back (t : BitVec 128) (old : Bytes) :
    Timestamp.read (Timestamp.write t old) = .ok (some t) := by
  have hl : (Timestamp.write t old).length ≠ 0 := by
    simp [Timestamp.write, leBytes_length]
  have ht : t.toNat < 256 ^ 16 := by have := t.isLt; simpa using this
  have h := leNat_leBytes 16 t.toNat (old.drop 16)
  rw [Nat.mod_eq_of_lt ht] at h
  simp only [Timestamp.read, hl, if_false]
  rw [show Timestamp.write t old = leBytes 16 t.toNat ++ old.drop 16 from rfl, h]
  simp

/-- The last of several timestamps written to a file is the one read back. -/
theorem C50_last_write_wins (ts : List (BitVec 128)) (t : BitVec 128) (old : Bytes) :
    Timestamp.read ((ts ++ [t]).foldl (fun f t => Timestamp.write t f) old) = .ok (some t) := by
  rw [List.foldl_append]
  exact C50_written_is_read_back t _

/-- No timestamp is read exactly from an empty file; a file that is cut short is an error, not a
timestamp. -/
theorem C50_none_iff_empty (file : Bytes) :
    (Timestamp.read file = .ok none ↔ file = []) ∧
    (0 < file.length → file.length < 16 → Timestamp.read file = .error .eof) := by
  have short : ∀ (k : Nat) (bs : Bytes), bs.length < k → leNat k bs = .error .eof := by
    intro k
    induction k with
    | zero => intro bs h; omega
    | succ k ih =>
      intro bs h
      cases bs with
      | nil => rfl
      | cons b bs => simp only [List.length_cons] at h; simp [leNat, ih bs (by omega)]
  constructor
  · constructor
    · intro h
      unfold Timestamp.read at h
      split at h
      · exact List.length_eq_zero_iff.1 ‹_›
      · split at h <;> cases h
    · rintro rfl; rfl
  · intro h0 h16
    have : ¬ file.length = 0 := by omega
    simp [Timestamp.read, this, short 16 file h16]

/-- Writing does not change the length of a file of at least 16 bytes, and otherwise leaves 16. -/
theorem C50_write_length (t : BitVec 128) (old : Bytes) :
    (Timestamp.write t old).length = max 16 old.length := by
  simp only [Timestamp.write, List.length_append, leBytes_length, List.length_drop]
  omega

example : Timestamp.read (Timestamp.write 0x0102030405060708090a0b0c0d0e0f10 [1, 2, 3]) =
    .ok (some 0x0102030405060708090a0b0c0d0e0f10) := C50_written_is_read_back _ _
example : Timestamp.read [1, 2, 3] = .error .eof := by decide +kernel

/-! ## C43: copying the error message -/

/-- With a buffer of non-zero size: nothing outside the buffer changes, the copied bytes are the first
`n` bytes of the message and are followed by a NUL, where `n` is the result; the whole message is copied
when it fits with its NUL, otherwise the buffer is filled. -/
theorem C43_copy_in_bounds (msg : Bytes) (m : Memory) (buffer : Nat) (size : BitVec 64) (h : size ≠ 0) :
    let r := copyError msg m buffer size
    (∀ a, a < buffer ∨ buffer + size.toNat ≤ a → r.1 a = m a) ∧
    (∀ i, i < r.2 → some (r.1 (buffer + i)) = msg[i]?) ∧
    r.1 (buffer + r.2) = 0 ∧
    r.2 < size.toNat ∧
    (msg.length < size.toNat → r.2 = msg.length) ∧
    (size.toNat ≤ msg.length → r.2 = size.toNat - 1) := by
  have hs : 0 < size.toNat := by
    rcases Nat.eq_zero_or_pos size.toNat with h0 | h0
    · exact absurd (BitVec.eq_of_toNat_eq (by simpa using h0)) h
    · exact h0
  have hlt := size.isLt
  have hsub : (size - 1).toNat = size.toNat - 1 := by
    rw [BitVec.toNat_sub]
    have : (1 : BitVec 64).toNat = 1 := rfl
    rw [this]
    omega
  simp only [copyError, hsub]
  generalize hk : min msg.length (size.toNat - 1) = k
  have hk1 : k ≤ msg.length := by omega
  have hk2 : k < size.toNat := by omega
  refine ⟨?_, ?_, ?_, hk2, by omega, by omega⟩
  · intro a ha
    have hne : a ≠ buffer + k := by omega
    simp only [Memory.set, hne, if_false, Memory.copy]
    split
    · rfl
    · have hge : k ≤ a - buffer := by omega
      have : (msg.take k)[a - buffer]? = none := by
        apply List.getElem?_eq_none; simp; omega
      simp [this]
  · intro i hi
    have hne : buffer + i ≠ buffer + k := by omega
    have hi' : i < msg.length := by omega
    have hnl : ¬ buffer + i < buffer := by omega
    simp only [Memory.set, hne, if_false, Memory.copy, hnl, Nat.add_sub_cancel_left]
    simp [List.getElem?_take_of_lt hi, List.getElem?_eq_getElem hi']
  · simp [Memory.set]

/-- With a buffer of size zero the statement fails: every byte of the message and the NUL are written
outside the buffer. -/
theorem C43_zero_size_counterexample (msg : Bytes) (hmsg : msg.length < 2 ^ 64) (m : Memory) (buffer : Nat) :
    let r := copyError msg m buffer 0
    (∀ i, i < msg.length → some (r.1 (buffer + i)) = msg[i]?) ∧ r.1 (buffer + msg.length) = 0 := by
  have hk : min msg.length ((0 : BitVec 64) - 1).toNat = msg.length := by
    have : ((0 : BitVec 64) - 1).toNat = 2 ^ 64 - 1 := by decide
    omega
  simp only [copyError, hk, List.take_length]
  refine ⟨?_, by simp [Memory.set]⟩
  intro i hi
  have hne : i ≠ msg.length := by omega
  have hnl : ¬ buffer + i < buffer := by omega
  simp [Memory.set, hne, Memory.copy, List.getElem?_eq_getElem hi, hnl]

example : let r := copyError [72, 101, 108, 108, 111] (fun _ => 255) 100 4
    ((List.range 6).map fun i => r.1 (99 + i)) = [255, 72, 101, 108, 0, 255] ∧ r.2 = 3 := by
  decide +kernel

/-! ## C44: user hints -/

/-- Specification: the hint applies to the error. A hint with neither pattern never applies. -/
def HintApplies {Path : Type} (h : UserHint Path) (path : Option Path) (source line : Text) : Prop :=
  (∀ p, h.file = some p → path = some p) ∧
  ((∃ pre rest, h.spanStartsWith = some pre ∧ source = pre ++ rest) ∨
   (∃ part before after, h.lineContains = some part ∧ line = before ++ part ++ after))

theorem startsWith_iff (s pre : Text) : startsWith s pre = true ↔ ∃ rest, s = pre ++ rest := by
  rw [startsWith, List.isPrefixOf_iff_prefix]
  constructor
  · rintro ⟨r, h⟩; exact ⟨r, h.symm⟩
  · rintro ⟨r, h⟩; exact ⟨r, h.symm⟩

theorem containsText_iff (s part : Text) :
    containsText s part = true ↔ ∃ before after, s = before ++ part ++ after := by
  induction s with
  | nil =>
    simp only [containsText, List.isEmpty_iff]
    constructor
    · rintro rfl; exact ⟨[], [], rfl⟩
    · rintro ⟨b, a, h⟩
      have := congrArg List.length h
      simp only [List.length_nil, List.length_append] at this
      exact List.length_eq_zero_iff.1 (by omega)
  | cons x xs ih =>
    simp only [containsText, Bool.or_eq_true, List.isPrefixOf_iff_prefix, ih]
    constructor
    · rintro (⟨r, h⟩ | ⟨b, a, h⟩)
      · exact ⟨[], r, by simpa using h.symm⟩
      · exact ⟨x :: b, a, by simp [h]⟩
    · rintro ⟨b, a, h⟩
      cases b with
      | nil => exact .inl ⟨a, by simpa using h.symm⟩
      | cons y b =>
        simp only [List.cons_append, List.cons.injEq] at h
        exact .inr ⟨b, a, h.2⟩

theorem accepts_iff {Path : Type} [DecidableEq Path] (h : UserHint Path) (path : Option Path)
    (source line : Text) : h.accepts path source line = true ↔ HintApplies h path source line := by
  obtain ⟨_, _, file, pre, part⟩ := h
  simp only [UserHint.accepts, HintApplies, Bool.and_eq_true, Bool.or_eq_true]
  apply and_congr
  · cases file with
    | none => simp
    | some p =>
      simp only [beq_iff_eq, Option.some.injEq]
      constructor
      · rintro rfl q rfl; rfl
      · intro h; exact (h p rfl).symm
  · apply or_congr
    · cases pre with
      | none => simp
      | some s => simp [startsWith_iff]
    · cases part with
      | none => simp
      | some s => simp [containsText_iff]

/-- The hints registered for a code: those of the files that mention it, in the order of the files. -/
def registered {Path : Type} (files : List (HintFile Path)) (code : Text) : List (UserHint Path) :=
  files.flatten.flatMap fun e => if e.1 = code then e.2 else []

theorem extendHints_get {Path : Type} (m : AMap Text (List (UserHint Path)))
    (es : List (Text × List (UserHint Path))) (code : Text) :
    ((es.foldl extendHints m).get code).getD [] =
      (m.get code).getD [] ++ es.flatMap fun e => if e.1 = code then e.2 else [] := by
  induction es generalizing m with
  | nil => simp
  | cons e es ih =>
    simp only [List.foldl_cons, ih, List.flatMap_cons, extendHints, AMap.get_insert]
    by_cases h : code = e.1
    · subst h; simp
    · have : ¬ e.1 = code := fun h' => h h'.symm
      simp [h, this]

theorem loadHints_get {Path : Type} (files : List (HintFile Path)) (code : Text) :
    ((loadHints files).get code).getD [] = registered files code := by
  have key : ∀ (fs : List (HintFile Path)) m, fs.foldl (fun m f => f.foldl extendHints m) m =
      fs.flatten.foldl extendHints m := by
    intro fs
    induction fs with
    | nil => intro m; rfl
    | cons f fs ih => intro m; simp [ih, List.foldl_append]
  rw [loadHints, key, extendHints_get]
  simp [registered]

/-- The hint shown is the first registered one for the code that applies to the error; none is shown
exactly when none applies. -/
theorem C44_first_applicable {Path : Type} [DecidableEq Path] (files : List (HintFile Path)) (code : Text)
    (path : Option Path) (source line : Text) :
    (∀ h, getByError (loadHints files) code path source line = some h →
      ∃ before after, registered files code = before ++ h :: after ∧ HintApplies h path source line ∧
        ∀ h' ∈ before, ¬ HintApplies h' path source line) ∧
    (getByError (loadHints files) code path source line = none ↔
      ∀ h ∈ registered files code, ¬ HintApplies h path source line) := by
  have e : getByError (loadHints files) code path source line =
      (registered files code).find? fun h => h.accepts path source line := by
    rw [← loadHints_get]
    unfold getByError
    cases (loadHints files).get code <;> rfl
  rw [e]
  constructor
  · intro h hh
    obtain ⟨ha, before, after, hs, hb⟩ := List.find?_eq_some_iff_append.1 hh
    refine ⟨before, after, hs, (accepts_iff h path source line).1 ha, fun h' hh' => ?_⟩
    have := hb h' hh'
    intro hc
    rw [(accepts_iff h' path source line).2 hc] at this
    cases this
  · rw [List.find?_eq_none]
    constructor
    · intro hn h hh hc; exact hn h hh ((accepts_iff h path source line).2 hc)
    · intro hn h hh hc; exact hn h hh ((accepts_iff h path source line).1 hc)

/-- Within one file the order in which the hash map yields the error codes does not matter. -/
theorem C44_code_order_irrelevant {Path : Type} (pre post : List (HintFile Path)) (f f' : HintFile Path)
    (nodup : (f.map (·.1)).Nodup) (perm : f.Perm f') (code : Text) :
    registered (pre ++ [f] ++ post) code = registered (pre ++ [f'] ++ post) code := by
  have key : (f.flatMap fun e => if e.1 = code then e.2 else []) =
      f'.flatMap fun e => if e.1 = code then e.2 else [] := by
    induction perm with
    | nil => rfl
    | cons x _ ih =>
      simp only [List.map_cons, List.nodup_cons] at nodup
      simp [List.flatMap_cons, ih nodup.2]
    | swap x y l =>
      simp only [List.map_cons, List.nodup_cons, List.mem_cons, not_or] at nodup
      simp only [List.flatMap_cons]
      by_cases hx : x.1 = code
      · by_cases hy : y.1 = code
        · exact absurd (hy.trans hx.symm) nodup.1.1
        · simp [hx, hy]
      · simp [hx]
    | trans p _ ih1 ih2 =>
      rw [ih1 nodup]
      exact ih2 ((p.map _).nodup_iff.1 nodup)
  simp only [registered, List.flatten_append, List.flatMap_append, List.flatten_cons, List.flatten_nil,
    List.append_nil, key]

private def exHints : List (HintFile Nat) :=
  [[("UNRESOLVED_TYPE".toList, [⟨"a".toList, [], some 1, some "Foo".toList, none⟩])],
   [("UNRESOLVED_FN".toList, []),
    ("UNRESOLVED_TYPE".toList, [⟨"b".toList, [], none, none, some "Bar".toList⟩, ⟨"c".toList, [], none, some [], none⟩])]]

example : (getByError (loadHints exHints) "UNRESOLVED_TYPE".toList (some 1) "FooBar".toList "x: Bar;".toList).map (·.id)
    = some "a".toList := by decide +kernel
example : (getByError (loadHints exHints) "UNRESOLVED_TYPE".toList (some 2) "FooBar".toList "x: Bar;".toList).map (·.id)
    = some "b".toList := by decide +kernel
example : (getByError (loadHints exHints) "UNRESOLVED_FN".toList (some 2) [] []).isNone := by decide +kernel

/-! ## C45: command line repair -/

theorem mem_splitOnChar {c : Char} {s p : Text} (h : p ∈ splitOnChar c s) :
    ∀ x ∈ p, x ∈ s ∧ x ≠ c := by
  induction s generalizing p with
  | nil => simp [splitOnChar] at h; subst h; simp
  | cons x xs ih =>
    unfold splitOnChar at h
    split at h
    · rcases List.mem_cons.1 h with rfl | h
      · simp
      · intro y hy; have := ih h y hy; exact ⟨List.mem_cons_of_mem _ this.1, this.2⟩
    · rename_i hx
      cases hs : splitOnChar c xs with
      | nil => exact absurd hs (splitOnChar_ne_nil c xs)
      | cons q qs =>
        rw [hs] at h ih
        rcases List.mem_cons.1 h with rfl | h
        · intro y hy
          rcases List.mem_cons.1 hy with rfl | hy
          · exact ⟨List.mem_cons_self, hx⟩
          · have := ih List.mem_cons_self y hy; exact ⟨List.mem_cons_of_mem _ this.1, this.2⟩
        · intro y hy; have := ih (List.mem_cons_of_mem _ h) y hy; exact ⟨List.mem_cons_of_mem _ this.1, this.2⟩

/-- A broken group is only entered after an argument was pushed. -/
def FixOk (st : List Text × Bool) : Prop := st.2 = true → st.1 ≠ []

theorem appendToLast_some {fixed : List Text} (h : fixed ≠ []) (part : Text) :
    ∃ l, fixed.getLast? = some l ∧ appendToLast fixed part = some (fixed.dropLast ++ [l ++ ' ' :: part]) := by
  have hl := List.getLast?_eq_some_getLast h
  exact ⟨_, hl, by simp [appendToLast, hl]⟩

theorem fixBroken_some {fixed : List Text} (h : fixed ≠ []) (arg : Text) :
    ∃ r, fixBroken fixed arg = some r ∧ r ≠ [] := by
  unfold fixBroken
  generalize (if arg.contains '"' then substChar '"' ['\\'] arg else arg) = b
  simp only
  split
  · split
    · exact absurd ‹_› (splitOnChar_ne_nil _ _)
    · rename_i first parts _
      obtain ⟨l, _, h2⟩ := appendToLast_some h first
      rw [h2]
      exact ⟨_, rfl, by simp⟩
  · obtain ⟨l, _, h2⟩ := appendToLast_some h b
    rw [h2]
    exact ⟨_, rfl, by simp⟩

theorem fixQuoted_ne_nil (fixed : List Text) (arg : Text) : fixQuoted fixed arg ≠ [] := by
  unfold fixQuoted
  split
  · exact absurd ‹_› (splitOnChar_ne_nil _ _)
  · simp

theorem fixStep_some {st : List Text × Bool} (h : FixOk st) (arg : Text) :
    ∃ st', fixStep st arg = some st' ∧ FixOk st' := by
  unfold fixStep
  simp only
  split
  · exact ⟨_, rfl, by intro _; simp⟩
  · split
    · exact ⟨_, rfl, by intro _; exact fixQuoted_ne_nil _ _⟩
    · rename_i h1 h2
      have hb : st.2 = true := by simpa using h2
      obtain ⟨r, hr, hn⟩ := fixBroken_some (h hb) arg
      rw [hr]
      exact ⟨_, rfl, fun _ => hn⟩

theorem fixLoop_some (args : List Text) {st : List Text × Bool} (h : FixOk st) :
    ∃ st', fixLoop st args = some st' := by
  induction args generalizing st with
  | nil => exact ⟨st, rfl⟩
  | cons a as ih =>
    obtain ⟨st', hs, hok⟩ := fixStep_some h a
    obtain ⟨st'', h''⟩ := ih hok
    exact ⟨st'', by simp [fixLoop, hs, h'']⟩

/-- The repair never panics. -/
theorem C45_never_panics (args : List Text) : fixArgs args ≠ none := by
  obtain ⟨st, h⟩ := fixLoop_some args (st := ([], false)) (by simp [FixOk])
  simp [fixArgs, h]

/-- Argument lists without quotes are passed through, except for empty arguments. -/
theorem C45_no_quotes_unchanged (args : List Text) (h : ∀ a ∈ args, '"' ∉ a) :
    fixArgs args = some (args.filter fun a => !a.isEmpty) := by
  have key : ∀ (args fixed : List Text), (∀ a ∈ args, '"' ∉ a) →
      fixLoop (fixed, false) args = some (fixed ++ args, false) := by
    intro args
    induction args with
    | nil => intro fixed _; simp [fixLoop]
    | cons a as ih =>
      intro fixed h
      have ha : a.contains '"' = false := by simpa using h a List.mem_cons_self
      have := ih (fixed ++ [a]) (fun b hb => h b (List.mem_cons_of_mem _ hb))
      simp only [fixLoop, fixStep, ha]
      simp [this]
  simp [fixArgs, key args [] h]

theorem mem_dropSpaceAfterQuote (s : Text) : ∀ x ∈ dropSpaceAfterQuote s, x ∈ s := by
  fun_induction dropSpaceAfterQuote s <;> simp_all

theorem appendToLast_no_quote {fixed r : List Text} {part : Text} (h : appendToLast fixed part = some r)
    (hf : ∀ a ∈ fixed, '"' ∉ a) (hp : '"' ∉ part) : ∀ a ∈ r, '"' ∉ a := by
  unfold appendToLast at h
  split at h
  · cases h
  · rename_i l hl
    injection h with h
    subst h
    intro a ha
    rcases List.mem_append.1 ha with ha | ha
    · exact hf a (List.dropLast_subset _ ha)
    · simp only [List.mem_singleton] at ha
      subst ha
      have := hf l (List.mem_of_getLast? hl)
      simp [this, hp]

theorem fixStep_no_quote {st st' : List Text × Bool} {arg : Text} (h : fixStep st arg = some st')
    (hf : ∀ a ∈ st.1, '"' ∉ a) : ∀ a ∈ st'.1, '"' ∉ a := by
  unfold fixStep at h
  simp only at h
  split at h
  · rename_i hc
    injection h with h
    subst h
    have : '"' ∉ arg := by
      have h1 := (Bool.and_eq_true _ _ ▸ hc).1
      simpa using h1
    intro a ha
    rcases List.mem_append.1 ha with ha | ha
    · exact hf a ha
    · simp only [List.mem_singleton] at ha; subst ha; exact this
  · split at h
    · injection h with h
      subst h
      simp only [fixQuoted]
      split
      · exact hf
      · rename_i first parts hs
        intro a ha
        rcases List.mem_append.1 ha with ha | ha
        · rcases List.mem_append.1 ha with ha | ha
          · exact hf a ha
          · simp only [List.mem_singleton] at ha
            subst ha
            intro hq
            exact (mem_splitOnChar (hs ▸ List.mem_cons_self) _ hq).2 rfl
        · obtain ⟨p, hp, hap⟩ := List.mem_flatMap.1 ha
          split at hap
          · cases hap
          · intro hq
            have hqp := (mem_splitOnChar hap _ hq).1
            exact (mem_splitOnChar (hs ▸ List.mem_cons_of_mem _ hp) _ hqp).2 rfl
    · cases hb : fixBroken st.1 arg with
      | none => simp [hb] at h
      | some r =>
        simp only [hb, Option.map_some, Option.some.injEq] at h
        subst h
        show ∀ a ∈ r, '"' ∉ a
        unfold fixBroken at hb
        have hq : '"' ∉ (if arg.contains '"' then substChar '"' ['\\'] arg else arg) := by
          split
          · simp only [substChar, List.mem_flatMap, not_exists, not_and]
            intro x _ hx
            split at hx
            · revert hx; decide
            · simp only [List.mem_singleton] at hx; exact ‹¬ x = '"'› hx.symm
          · rename_i hn; simpa using hn
        generalize (if arg.contains '"' then substChar '"' ['\\'] arg else arg) = b at hb hq
        simp only at hb
        split at hb
        · split at hb
          · cases hb
          · rename_i first parts hs
            cases hl : appendToLast st.1 first with
            | none => simp [hl] at hb
            | some q =>
              simp only [hl, Option.map_some, Option.some.injEq] at hb
              subst hb
              have hsub : ∀ p ∈ first :: parts, '"' ∉ p := fun p hp hq' =>
                hq (mem_splitOnChar (hs ▸ hp) _ hq').1
              intro a ha
              rcases List.mem_append.1 ha with ha | ha
              · exact appendToLast_no_quote hl hf (hsub first List.mem_cons_self) a ha
              · exact hsub a (List.mem_cons_of_mem _ ha)
        · exact appendToLast_no_quote hb hf hq

/-- The repaired arguments contain no quotes and none of them is empty. -/
theorem C45_result_clean (args fixed : List Text) (h : fixArgs args = some fixed) :
    ∀ a ∈ fixed, '"' ∉ a ∧ a ≠ [] := by
  have key : ∀ (args : List Text) (st st' : List Text × Bool), fixLoop st args = some st' →
      (∀ a ∈ st.1, '"' ∉ a) → ∀ a ∈ st'.1, '"' ∉ a := by
    intro args
    induction args with
    | nil => intro st st' h hf; simp [fixLoop] at h; subst h; exact hf
    | cons a as ih =>
      intro st st' h hf
      unfold fixLoop at h
      split at h
      · cases h
      · rename_i st1 h1
        exact ih st1 st' h (fixStep_no_quote h1 hf)
  unfold fixArgs at h
  cases hl : fixLoop ([], false) args with
  | none => simp [hl] at h
  | some st =>
    simp only [hl, Option.map_some, Option.some.injEq] at h
    subst h
    intro a ha
    obtain ⟨h1, h2⟩ := List.mem_filter.1 ha
    exact ⟨key args _ st hl (by simp) a h1, by simpa using h2⟩

/-- A word of a command line: not empty, without spaces and quotes. -/
def IsWord (w : Text) : Prop := w ≠ [] ∧ ' ' ∉ w ∧ '"' ∉ w

theorem substChar_clean {c : Char} {b s : Text} (h : c ∉ s) : substChar c b s = s := by
  induction s with
  | nil => rfl
  | cons x xs ih =>
    simp only [List.mem_cons, not_or] at h
    have hx : x ≠ c := fun e => h.1 e.symm
    have := ih h.2
    unfold substChar at this ⊢
    simp [hx, this]

theorem substChar_append (c : Char) (b s t : Text) : substChar c b (s ++ t) = substChar c b s ++ substChar c b t := by
  simp [substChar]

theorem dropSpaceAfterQuote_clean {s : Text} (h : '"' ∉ s) (t : Text) :
    dropSpaceAfterQuote (s ++ t) = s ++ dropSpaceAfterQuote t := by
  induction s with
  | nil => rfl
  | cons x xs ih =>
    simp only [List.mem_cons, not_or] at h
    have hx : x ≠ '"' := fun e => h.1 e.symm
    have ih := ih h.2
    cases hr : xs ++ t with
    | nil =>
      simp only [List.append_eq_nil_iff] at hr
      obtain ⟨rfl, rfl⟩ := hr
      rfl
    | cons y ys =>
      rw [hr] at ih
      simp only [List.cons_append, hr]
      rw [dropSpaceAfterQuote]
      · simp [hx, ih]

theorem joinChar_no_quote {ws : List Text} (h : ∀ w ∈ ws, '"' ∉ w) : '"' ∉ joinChar ' ' ws := by
  induction ws with
  | nil => simp [joinChar]
  | cons w ws ih =>
    cases ws with
    | nil => simpa [joinChar] using h
    | cons v vs =>
      simp only [joinChar, List.mem_append, List.mem_cons, not_or]
      exact ⟨h w List.mem_cons_self, by decide, ih fun x hx => h x (List.mem_cons_of_mem _ hx)⟩

theorem joinChar_ne_nil {ws : List Text} (hne : ws ≠ []) (h : ∀ w ∈ ws, w ≠ []) : joinChar ' ' ws ≠ [] := by
  cases ws with
  | nil => exact absurd rfl hne
  | cons w ws =>
    cases ws with
    | nil => simpa [joinChar] using h
    | cons v vs => simp [joinChar]

theorem joinChar_snoc (ws : List Text) (w : Text) (hne : ws ≠ []) :
    joinChar ' ' (ws ++ [w]) = joinChar ' ' ws ++ ' ' :: w := by
  induction ws with
  | nil => exact absurd rfl hne
  | cons v vs ih =>
    cases vs with
    | nil => rfl
    | cons u us =>
      have := ih (by simp)
      simp only [List.cons_append, joinChar] at this ⊢
      rw [this]
      simp

theorem appendToLast_snoc (fixed : List Text) (l part : Text) :
    appendToLast (fixed ++ [l]) part = some (fixed ++ [l ++ ' ' :: part]) := by
  simp [appendToLast]

theorem fixQuoted_group (fixed : List Text) (path : Text) (words : List Text) (hp : '"' ∉ path)
    (hne : words ≠ []) (hw : ∀ w ∈ words, IsWord w) :
    fixQuoted fixed (path ++ '"' :: ' ' :: joinChar ' ' words) = fixed ++ (path ++ ['\\']) :: words := by
  have hq := joinChar_no_quote (fun w h => (hw w h).2.2)
  have h1 : substChar '"' ['\\', '"'] (path ++ '"' :: ' ' :: joinChar ' ' words) =
      (path ++ ['\\']) ++ '"' :: ' ' :: joinChar ' ' words := by
    rw [substChar_append, substChar_clean hp]
    have : '"' :: ' ' :: joinChar ' ' words = ['"', ' '] ++ joinChar ' ' words := rfl
    rw [this, substChar_append, substChar_clean hq]
    simp [substChar]
  have hp' : '"' ∉ path ++ ['\\'] := by simp [hp]
  have h2 : dropSpaceAfterQuote ('"' :: ' ' :: joinChar ' ' words) = '"' :: joinChar ' ' words := by
    rw [dropSpaceAfterQuote]
    have := dropSpaceAfterQuote_clean hq []
    simp only [List.append_nil] at this
    simp [this, dropSpaceAfterQuote]
  rw [fixQuoted, h1, dropSpaceAfterQuote_clean hp', h2, splitOnChar_append _ _ _ hp', splitOnChar_clean _ _ hq]
  have hn := joinChar_ne_nil hne (fun w h => (hw w h).1)
  simp [hn, splitOnChar_join ' ' words hne (fun w h => (hw w h).2.1)]

theorem fixLoop_append (st : List Text × Bool) (as bs : List Text) :
    fixLoop st (as ++ bs) = (fixLoop st as).bind fun st => fixLoop st bs := by
  induction as generalizing st with
  | nil => rfl
  | cons a as ih =>
    simp only [List.cons_append, fixLoop]
    cases fixStep st a with
    | none => rfl
    | some st' => simp [ih]

theorem fixLoop_plain (args fixed : List Text) (h : ∀ a ∈ args, '"' ∉ a) :
    fixLoop (fixed, false) args = some (fixed ++ args, false) := by
  induction args generalizing fixed with
  | nil => simp [fixLoop]
  | cons a as ih =>
    have ha : a.contains '"' = false := by simpa using h a List.mem_cons_self
    have := ih (fixed ++ [a]) (fun b hb => h b (List.mem_cons_of_mem _ hb))
    simp only [fixLoop, fixStep, ha]
    simp [this]

theorem fixLoop_broken (ws : List Text) (fixed : List Text) (l : Text) (h : ∀ w ∈ ws, IsWord w) :
    fixLoop (fixed ++ [l], true) ws = some (fixed ++ [joinChar ' ' (l :: ws)], true) := by
  induction ws generalizing l with
  | nil => simp [fixLoop, joinChar]
  | cons w ws ih =>
    obtain ⟨-, h2, h3⟩ := h w List.mem_cons_self
    have hq : w.contains '"' = false := by simpa using h3
    have hs : w.contains ' ' = false := by simpa using h2
    have hb : fixBroken (fixed ++ [l]) w = some (fixed ++ [l ++ ' ' :: w]) := by
      unfold fixBroken
      rw [hq]
      simp only [Bool.false_eq_true, if_false]
      rw [hs]
      simp [appendToLast_snoc]
    simp only [fixLoop, fixStep, hq, hb]
    simp only [Bool.not_true, Bool.and_false, Bool.false_eq_true, if_false, Option.map_some]
    rw [ih _ fun x hx => h x (List.mem_cons_of_mem _ hx)]
    cases ws <;> simp [joinChar]

/-- The opening of a broken group: the arguments before it, the first path, the words up to the second
path, and the words of the second path but the last. -/
theorem fixLoop_open (pre mids ws : List Text) (path w : Text) (hpre : ∀ a ∈ pre, '"' ∉ a)
    (hpath : '"' ∉ path) (hmids : ∀ m ∈ mids, IsWord m) (hw : IsWord w) (hws : ∀ v ∈ ws, IsWord v) :
    fixLoop ([], false) (pre ++ (path ++ '"' :: ' ' :: joinChar ' ' (mids ++ [w])) :: ws) =
      some (pre ++ (path ++ ['\\']) :: mids ++ [joinChar ' ' (w :: ws)], true) := by
  have hq : (path ++ '"' :: ' ' :: joinChar ' ' (mids ++ [w])).contains '"' = true := by simp
  rw [fixLoop_append, fixLoop_plain _ _ hpre]
  simp only [List.nil_append, Option.bind_some, fixLoop, fixStep, hq]
  simp only [Bool.not_true, Bool.false_and, Bool.false_eq_true, if_false, Bool.not_false, if_true]
  rw [fixQuoted_group _ _ _ hpath (by simp) (by
    intro x hx
    rcases List.mem_append.1 hx with hx | hx
    · exact hmids x hx
    · simp only [List.mem_singleton] at hx; exact hx ▸ hw)]
  have := fixLoop_broken ws (pre ++ (path ++ ['\\']) :: mids) w hws
  simpa using this

theorem filter_nonempty {as : List Text} (h : ∀ a ∈ as, a ≠ []) : as.filter (fun s => !s.isEmpty) = as := by
  apply List.filter_eq_self.2
  intro a ha
  simpa using h a ha

/-- The repair undoes the damage it was written for. On Windows the command line
`pre "path\" mids "w ws last\" post`, in which both quoted paths end in a backslash, reaches the program
as the arguments on the left: the escaped quote swallows the space and all words up to the second quote.
The repaired arguments are the ones the user wrote. -/
theorem C45_recovers_two_escaped_paths (pre mids ws post : List Text) (path w last : Text)
    (hpre : ∀ a ∈ pre, a ≠ [] ∧ '"' ∉ a) (hpath : '"' ∉ path) (hmids : ∀ m ∈ mids, IsWord m)
    (hw : IsWord w) (hws : ∀ v ∈ ws, IsWord v) (hl : IsWord last) (hpost : ∀ a ∈ post, a ≠ [] ∧ '"' ∉ a) :
    fixArgs (pre ++ (path ++ '"' :: ' ' :: joinChar ' ' (mids ++ [w])) :: ws ++ (last ++ ['"']) :: post) =
      some (pre ++ (path ++ ['\\']) :: mids ++ joinChar ' ' (w :: ws ++ [last ++ ['\\']]) :: post) := by
  have hb : substChar '"' ['\\'] (last ++ ['"']) = last ++ ['\\'] := by
    rw [substChar_append, substChar_clean hl.2.2]; rfl
  have hs : (last ++ ['\\']).contains ' ' = false := by
    have := hl.2.1
    simp [this]
  have hc : (last ++ ['"']).contains '"' = true := by simp
  have hstep : fixStep (pre ++ (path ++ ['\\']) :: mids ++ [joinChar ' ' (w :: ws)], true) (last ++ ['"']) =
      some (pre ++ (path ++ ['\\']) :: mids ++ [joinChar ' ' (w :: ws ++ [last ++ ['\\']])], false) := by
    unfold fixStep fixBroken
    simp only [hc, if_true, hb, hs, Bool.false_eq_true, if_false, appendToLast_snoc, Bool.not_true,
      Bool.false_and, Option.map_some]
    rw [joinChar_snoc _ _ (by simp)]
  unfold fixArgs
  rw [fixLoop_append, fixLoop_open _ _ _ _ _ (fun a h => (hpre a h).2) hpath hmids hw hws]
  simp only [Option.bind_some, fixLoop, hstep]
  rw [fixLoop_plain _ _ (fun a h => (hpost a h).2)]
  simp only [Option.map_some]
  rw [filter_nonempty]
  · simp
  · intro a ha
    simp only [List.mem_append, List.mem_cons, List.not_mem_nil, or_false] at ha
    rcases ha with ((ha | rfl | ha) | rfl) | ha
    · exact (hpre a ha).1
    · simp
    · exact (hmids a ha).1
    · rw [joinChar_snoc _ _ (by simp)]; simp
    · exact (hpost a ha).1

/-- The other form of the damage: when only the first quoted path ends in a backslash, the closing quote
of the second opens a group that swallows the rest of the line, `pre "path\" mids "w ws last" post`. -/
theorem C45_recovers_one_escaped_path (pre mids ws post : List Text) (path w last : Text)
    (hpre : ∀ a ∈ pre, a ≠ [] ∧ '"' ∉ a) (hpath : '"' ∉ path) (hmids : ∀ m ∈ mids, IsWord m)
    (hw : IsWord w) (hws : ∀ v ∈ ws, IsWord v) (hl : IsWord last) (hpost : ∀ v ∈ post, IsWord v) :
    fixArgs (pre ++ (path ++ '"' :: ' ' :: joinChar ' ' (mids ++ [w])) :: ws ++ [joinChar ' ' (last :: post)]) =
      some (pre ++ (path ++ ['\\']) :: mids ++ joinChar ' ' (w :: ws ++ [last]) :: post) := by
  have hall : ∀ v ∈ last :: post, IsWord v := by
    intro v hv
    rcases List.mem_cons.1 hv with rfl | hv
    · exact hl
    · exact hpost v hv
  have hq : (joinChar ' ' (last :: post)).contains '"' = false := by
    simpa using joinChar_no_quote fun v hv => (hall v hv).2.2
  have hstep : fixStep (pre ++ (path ++ ['\\']) :: mids ++ [joinChar ' ' (w :: ws)], true)
      (joinChar ' ' (last :: post)) =
      some (pre ++ (path ++ ['\\']) :: mids ++ [joinChar ' ' (w :: ws ++ [last])] ++ post, true) := by
    unfold fixStep fixBroken
    simp only [hq, Bool.not_false, Bool.not_true, Bool.and_false, Bool.false_eq_true, if_false]
    rw [joinChar_snoc _ _ (by simp)]
    cases post with
    | nil =>
      have : (joinChar ' ' [last]).contains ' ' = false := by simpa [joinChar] using hl.2.1
      rw [this]
      simp only [Bool.false_eq_true, if_false, joinChar, appendToLast_snoc, Option.map_some, List.append_nil]
    | cons p ps =>
      have : (joinChar ' ' (last :: p :: ps)).contains ' ' = true := by simp [joinChar]
      rw [this, splitOnChar_join ' ' _ (by simp) fun v hv => (hall v hv).2.1]
      simp only [if_true, appendToLast_snoc, Option.map_some]
  unfold fixArgs
  rw [fixLoop_append, fixLoop_open _ _ _ _ _ (fun a h => (hpre a h).2) hpath hmids hw hws]
  simp only [Option.bind_some, fixLoop, hstep, Option.map_some]
  rw [filter_nonempty]
  · simp
  · intro a ha
    simp only [List.mem_append, List.mem_cons, List.not_mem_nil, or_false] at ha
    rcases ha with ((ha | rfl | ha) | rfl) | ha
    · exact (hpre a ha).1
    · simp
    · exact (hmids a ha).1
    · rw [joinChar_snoc _ _ (by simp)]; simp
    · exact (hpost a ha).1

/-- The repair does not recover a second escaped path without spaces: `"a b\" "c\" -x` reaches the
program as `a b" c"` and `-x`, and the last two are merged. -/
theorem C45_second_path_without_space_counterexample :
    fixArgs ["a b\" c\"".toList, "-x".toList] = some ["a b\\".toList, "c\\ -x".toList] := by
  decide +kernel

/-- `-compile "C:\a b\" -o x "C:\c d e\" -y`. -/
example : fixArgs ["-compile".toList, "C:\\a b\" -o x C:\\c".toList, "d".toList, "e\"".toList, "-y".toList] =
    some ["-compile".toList, "C:\\a b\\".toList, "-o".toList, "x".toList, "C:\\c d e\\".toList, "-y".toList] :=
  C45_recovers_two_escaped_paths ["-compile".toList] ["-o".toList, "x".toList] ["d".toList] ["-y".toList]
    "C:\\a b".toList "C:\\c".toList "e".toList (by decide) (by decide) (by unfold IsWord; decide)
    (by unfold IsWord; decide) (by unfold IsWord; decide) (by unfold IsWord; decide) (by decide)

example : fixArgs ["-compile".toList, "C:\\a b\\scripts\" C:\\c".toList, "d\\final -x".toList] =
    some ["-compile".toList, "C:\\a b\\scripts\\".toList, "C:\\c d\\final".toList, "-x".toList] := by
  decide +kernel
example : fixArgs ["-compile".toList, [], "x y".toList] = some ["-compile".toList, "x y".toList] := by
  decide +kernel

end Redscript
