import Verif.Bundle.SaveProps
import Verif.Definition.ReadBack

/-!
# C69: a file that can be read can be written back
-/

namespace Redscript

/-! ### String tables -/

/-- A table as it is after reading the given strings one by one. -/
def Strings.readFrom (acc : Strings) : List String → Strings
  | [] => acc
  | s :: ss =>
    Strings.readFrom { strings := acc.strings ++ [s]
                       mappings := acc.mappings.insert s (BitVec.ofNat 32 acc.strings.length) } ss

theorem decodeFrom_readFrom (data : Bytes) (offs : List (BitVec 32)) (acc S : Strings)
    (h : Strings.decodeFrom data acc offs = .ok S) :
    ∃ ss, S = acc.readFrom ss ∧ S.strings = acc.strings ++ ss ∧ ∀ s ∈ ss, NulFree s := by
  induction offs generalizing acc with
  | nil =>
    simp only [Strings.decodeFrom, Except.ok.injEq] at h
    exact ⟨[], h.symm, by simp [h], by simp⟩
  | cons o os ih =>
    unfold Strings.decodeFrom at h
    split at h
    · cases h
    · next acc' hstep =>
      unfold Strings.decodeStep at hstep
      split at hstep
      · cases hstep
      · next s r hs =>
        simp only [Except.ok.injEq] at hstep
        subst hstep
        obtain ⟨ss, h1, h2, h3⟩ := ih _ h
        refine ⟨s :: ss, h1, by simp [h2], ?_⟩
        intro t ht
        rcases List.mem_cons.1 ht with rfl | ht
        · obtain ⟨raw, m, g1, g2⟩ := Dec.bind_eq_ok.1 hs
          unfold Dec.lift at g2
          split at g2
          · next u hu =>
            simp only [Except.ok.injEq, Prod.mk.injEq] at g2
            obtain ⟨rfl, -⟩ := g2
            intro b hb
            rw [strBytes_of_ofBytes hu] at hb
            exact (decUntilNul_ok _ _ _ g1).2 b hb
          · cases g2
        · exact h3 t ht

/-- What is known of a table read from a file. -/
def Strings.AsRead (S : Strings) : Prop :=
  S = Strings.empty.readFrom S.strings ∧ ∀ s ∈ S.strings, NulFree s

theorem Dec.lift_eq_ok {x : Except Err α} {bs r : Bytes} {a : α} (h : Dec.lift x bs = .ok (a, r)) :
    x = .ok a ∧ r = bs := by
  unfold Dec.lift at h
  split at h
  · simp only [Except.ok.injEq, Prod.mk.injEq] at h
    exact ⟨by rw [h.1], h.2.symm⟩
  · cases h

theorem decStrings_asRead {data : Bytes} {count : BitVec 32} {bs r : Bytes} {S : Strings}
    (h : decStrings data count bs = .ok (S, r)) : S.AsRead := by
  obtain ⟨offs, m, -, h2⟩ := Dec.bind_eq_ok.1 h
  obtain ⟨h3, -⟩ := Dec.lift_eq_ok h2
  obtain ⟨ss, e1, e2, e3⟩ := decodeFrom_readFrom _ _ _ _ h3
  have : S.strings = ss := by simpa [Strings.empty] using e2
  subst this
  exact ⟨e1, e3⟩

theorem Strings.AsRead.ext {S T : Strings} (hS : S.AsRead) (hT : T.AsRead)
    (h : S.strings = T.strings) : S = T := by
  rw [hS.1, hT.1, h]

/-! ### Definitions -/

theorem decDefinitions_readable {file : Bytes} {hs : List DefinitionHeader} {ds : List Definition}
    (h : decDefinitions file hs = .ok ds) : ∀ d ∈ ds,
      (∃ w, encAnyDefinition d.value = .ok w) ∧ (file.length < 2 ^ 31 → d.value.Consistent) := by
  induction hs generalizing ds with
  | nil =>
    simp only [decDefinitions, Except.ok.injEq] at h
    subst h
    simp
  | cons x xs ih =>
    unfold decDefinitions at h
    split at h
    · cases h
    · next d hd =>
      split at h
      · cases h
      · next ds' hds =>
        simp only [Except.ok.injEq] at h
        subst h
        intro e he
        rcases List.mem_cons.1 he with rfl | he
        · unfold decDefinition at hd
          split at hd
          · cases hd
          · next v r hv =>
            simp only [Except.ok.injEq] at hd
            subst hd
            obtain ⟨n, hn, h1, h2, -⟩ := decAnyDefinition_sat _ _ _ _ hv
            refine ⟨h1, fun hl => h2 ?_⟩
            rw [List.length_drop] at hn
            omega
        · exact ih hds e he

/-- What is known of a bundle read from a file. -/
theorem load_readable {file : Bytes} {b : ScriptBundle} (h : ScriptBundle.load file = .ok b) :
    b.pool.names.AsRead ∧ b.pool.tweakdbIds.AsRead ∧ b.pool.resources.AsRead ∧
      b.pool.strings.AsRead ∧ b.pool.definitions[0]? = some .default ∧
      ∀ d ∈ b.pool.definitions.drop 1, (∃ w, encAnyDefinition d.value = .ok w) ∧
        (file.length < 2 ^ 31 → d.value.Consistent) := by
  unfold ScriptBundle.load at h
  split at h
  · next b' r hb =>
    simp only [Except.ok.injEq] at h
    subst h
    obtain ⟨hd, m0, -, h0⟩ := Dec.bind_eq_ok.1 hb
    obtain ⟨pool, m1, h1, h2⟩ := Dec.bind_eq_ok.1 h0
    simp only [Dec.pure_apply, Except.ok.injEq, Prod.mk.injEq] at h2
    obtain ⟨rfl, -⟩ := h2
    obtain ⟨data, m2, -, h1⟩ := Dec.bind_eq_ok.1 h1
    obtain ⟨names, m3, g1, h1⟩ := Dec.bind_eq_ok.1 h1
    obtain ⟨tweaks, m4, g2, h1⟩ := Dec.bind_eq_ok.1 h1
    obtain ⟨resources, m5, g3, h1⟩ := Dec.bind_eq_ok.1 h1
    obtain ⟨headers, m6, -, h1⟩ := Dec.bind_eq_ok.1 h1
    obtain ⟨strings, m7, g4, h1⟩ := Dec.bind_eq_ok.1 h1
    obtain ⟨defs, m8, g5, h1⟩ := Dec.bind_eq_ok.1 h1
    obtain ⟨g5, -⟩ := Dec.lift_eq_ok g5
    simp only [Dec.pure_apply, Except.ok.injEq, Prod.mk.injEq] at h1
    obtain ⟨rfl, -⟩ := h1
    exact ⟨decStrings_asRead g1, decStrings_asRead g2, decStrings_asRead g3, decStrings_asRead g4, rfl,
      decDefinitions_readable g5⟩
  · cases h

theorem load_saveable {file : Bytes} (hf : file.length < 2 ^ 31) {b : ScriptBundle}
    (h : ScriptBundle.load file = .ok b) : Saveable b.pool := by
  obtain ⟨h1, h2, h3, h4, h5, h6⟩ := load_readable h
  refine ⟨?_, fun d hd => (h6 d hd).2 hf, fun d hd => (h6 d hd).1, h1.2, h2.2, h3.2, h4.2⟩
  intro h0
  rw [h0] at h5
  cases h5

/-! ### The property -/

/-- C69: whatever file (of less than 2 GiB) is accepted by the reader, not only those that the
program wrote itself: the bundle can be written again, over any previous contents of the output, and
reading that (if it is below 4 GiB) gives the same string tables, with the same answers to every
lookup, the same definitions at the same indexes up to the derived presence flags, and the same
version, flags, timestamp and chunk count. -/
theorem C69_read_files_survive (crc : Bytes → BitVec 32) (file : Bytes) (hf : file.length < 2 ^ 31)
    (b : ScriptBundle) (h : ScriptBundle.load file = .ok b) (w : Writer) :
    ∃ w', b.save crc w = .ok w' ∧ (w'.buf.length < 2 ^ 32 →
      ∃ b', ScriptBundle.load w'.buf = .ok b' ∧
        b'.pool.names = b.pool.names ∧ b'.pool.tweakdbIds = b.pool.tweakdbIds ∧
        b'.pool.resources = b.pool.resources ∧ b'.pool.strings = b.pool.strings ∧
        b'.pool.definitions.length = b.pool.definitions.length ∧
        (∀ (i : Nat) (d d' : Definition), b.pool.definitions[i]? = some d →
          b'.pool.definitions[i]? = some d' → d.SameButFlags d') ∧
        b'.header.version = b.header.version ∧ b'.header.flags = b.header.flags ∧
        b'.header.timestamp = b.header.timestamp ∧ b'.header.unk3 = b.header.unk3 ∧
        b'.header.chunks = b.header.chunks) := by
  obtain ⟨w', hs, hl⟩ := C09_save_load crc b (load_saveable hf h) w
  refine ⟨w', hs, fun hlen => ?_⟩
  obtain ⟨b', l, h1, h2, h3, h4, h5, h6, h7, h8⟩ := hl hlen
  obtain ⟨r1, r2, r3, r4, r5, -⟩ := load_readable h
  obtain ⟨q1, q2, q3, q4, -, -⟩ := load_readable l
  refine ⟨b', l, q1.ext r1 h1, q2.ext r2 h2, q3.ext r3 h3, q4.ext r4 h4, h5, ?_, h8⟩
  intro i d d' hd hd'
  rcases Nat.eq_zero_or_pos i with rfl | hi
  · rw [r5] at hd
    rw [h6] at hd'
    cases hd
    cases hd'
    exact ⟨rfl, rfl⟩
  · exact h7 i d d' hi hd hd'

/-- C69: after the first time, writing and reading change nothing at all: the second file is equal to
the first byte for byte, and so is every later one. -/
theorem C69_later_files_are_identical (crc : Bytes → BitVec 32) (file : Bytes)
    (hf : file.length < 2 ^ 31) (b b' : ScriptBundle) (h : ScriptBundle.load file = .ok b)
    (w' : Writer) (hs : b.save crc ⟨[], 0⟩ = .ok w') (hlen : w'.buf.length < 2 ^ 32)
    (hl : ScriptBundle.load w'.buf = .ok b') :
    b'.save crc ⟨[], 0⟩ = .ok w' :=
  C09_resave_identical crc b b' (load_saveable hf h) w' hs hlen hl

/-- C69: what was read from a file also satisfies the layout of C10 once it is written. -/
theorem C69_written_files_are_described (crc : Bytes → BitVec 32) (file : Bytes)
    (hf : file.length < 2 ^ 31) (b : ScriptBundle) (h : ScriptBundle.load file = .ok b)
    (w w' : Writer) (hs : b.save crc w = .ok w') (hlen : w'.buf.length < 2 ^ 32) :
    ∃ hd, decHeader w'.buf = .ok (hd, w'.buf.drop 104) ∧
      hd.hash = crc (encHeader { hd with hash := 0xDEADBEEF }) ∧
      TableAt crc w'.buf hd.names 4 b.pool.names.strings.length ∧
      TableAt crc w'.buf hd.definitions 20 b.pool.definitions.length := by
  obtain ⟨hd, h1, h2, -, h3, -, -, h4, -⟩ :=
    C10_header_describes_tables crc b (load_saveable hf h) w w' hs hlen
  exact ⟨hd, h1, h2, h3, h4⟩

/-! ### A concrete case -/

namespace ReloadDemo

/-- A bundle with one class, as the program would write it. -/
def plain : ScriptBundle :=
  ⟨.sample, ⟨⟨["None", "C"], .empty⟩, .empty, .empty, .empty,
    [.default, ⟨1, 0, 0, 0, 0, .Class ⟨.pub, 1, 0, [], [], []⟩⟩]⟩⟩

/-- A file that the program would not write: the class says that it has fields and lists none. -/
def oddFile : Bytes :=
  match plain.save (fun _ => 0) ⟨[], 0⟩ with
  | .ok w => w.buf.take (w.buf.length - 6) ++ [0x21, 0, 0, 0, 0, 0, 0, 0, 0, 0]
  | .error _ => []

/-- The flag words of the classes of a bundle. -/
def classFlags (b : ScriptBundle) : List ClassFlags :=
  b.pool.definitions.filterMap fun d => match d.value with
    | .Class c => some c.flags
    | _ => none

end ReloadDemo

/-- The file of the example is read, although the program would not have written it; after one cycle
its class no longer says that it has fields. So "up to presence flags" is needed in C69. -/
theorem C69_presence_flags_counterexample :
    ∃ (file : Bytes) (b b' : ScriptBundle) (w' : Writer), file.length < 2 ^ 31 ∧
      ScriptBundle.load file = .ok b ∧ b.save (fun _ => 0) ⟨[], 0⟩ = .ok w' ∧
      w'.buf.length < 2 ^ 32 ∧ ScriptBundle.load w'.buf = .ok b' ∧
      ReloadDemo.classFlags b = [0x21] ∧ ReloadDemo.classFlags b' = [0x01] := by
  have hd : (match ScriptBundle.load ReloadDemo.oddFile with
      | .ok b => match b.save (fun _ => 0) ⟨[], 0⟩ with
        | .ok w => match ScriptBundle.load w.buf with
          | .ok b' => decide (ReloadDemo.oddFile.length < 1000 ∧ w.buf.length < 1000 ∧
              ReloadDemo.classFlags b = [0x21] ∧ ReloadDemo.classFlags b' = [0x01])
          | .error _ => false
        | .error _ => false
      | .error _ => false) = true := by decide +kernel
  cases h1 : ScriptBundle.load ReloadDemo.oddFile with
  | error e => rw [h1] at hd; cases hd
  | ok b =>
    simp only [h1] at hd
    cases h2 : b.save (fun _ => 0) ⟨[], 0⟩ with
    | error e => simp only [h2] at hd; cases hd
    | ok w =>
      simp only [h2] at hd
      cases h3 : ScriptBundle.load w.buf with
      | error e => simp only [h3] at hd; cases hd
      | ok b' =>
        simp only [h3, decide_eq_true_eq] at hd
        obtain ⟨h4, h5, h6, h7⟩ := hd
        exact ⟨_, b, b', w, Nat.lt_trans h4 (by decide), h1, h2, Nat.lt_trans h5 (by decide), h3, h6, h7⟩

end Redscript
