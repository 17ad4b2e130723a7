import Verif.Decompiler.FilesModel
import Verif.Decompiler.PrintDeclProps
import Verif.Bundle.PoolProps

/-!
# C66: the files of a decompiled bundle
-/

namespace Redscript

/-! ### What belongs where -/

/-- The definition at `i` is in the source file at `file`: it is a function from there without a class, or the class
of a function from there. -/
def FromFile (p : ConstantPool) (file i : Idx) : Prop :=
  ∃ k d f s, k ≠ 0 ∧ p.definition k = some d ∧ d.value = .Function f ∧ f.source = some s ∧ s.file = file ∧
    (d.parent = 0 ∧ i = k ∨ d.parent ≠ 0 ∧ i = d.parent)

/-- A definition that does not come from a script: an enum, a native function without a class, or a class all of
whose functions are native. -/
def FromEngine (p : ConstantPool) (d : Definition) : Prop :=
  (∃ e, d.value = .Enum e) ∨
  (∃ f, d.value = .Function f ∧ d.parent = 0 ∧ flag FunctionFlags.isNativeBit f.flags = true) ∨
  (∃ c, d.value = .Class c ∧ ∀ i ∈ c.functions, ∀ f, p.function i = some f → flag FunctionFlags.isNativeBit f.flags = true)

/-- The line a definition is sorted by: the line of a function, the least line of the functions of a class, zero if
there is none. -/
def SortedBy (p : ConstantPool) (d : Definition) (l : BitVec 32) : Prop :=
  (∃ f s, d.value = .Function f ∧ f.source = some s ∧ l = s.line) ∨
  (∃ c i f s, d.value = .Class c ∧ i ∈ c.functions ∧ p.function i = some f ∧ f.source = some s ∧ l = s.line ∧
    ∀ j ∈ c.functions, ∀ g t, p.function j = some g → g.source = some t → l ≤ t.line) ∨
  (l = 0 ∧ (∀ f, d.value = .Function f → f.source = none) ∧
    ∀ c, d.value = .Class c → ∀ j ∈ c.functions, ∀ g, p.function j = some g → g.source = none)

/-- The entry of a source file. -/
structure EntryOf (p : ConstantPool) (file : Idx) (e : FileEntry) : Prop where
  path : ∃ d s, p.definition file = some d ∧ d.value = .SourceFile s ∧ e.path = s.path
  mem : ∀ i d, (i, d) ∈ e.definitions ↔ p.definition i = some d ∧ FromFile p file i
  nodup : (e.definitions.map Prod.fst).Nodup
  sorted : e.definitions.Pairwise fun a b => ∀ l m, SortedBy p a.2 l → SortedBy p b.2 m → l ≤ m

/-- The entry of what comes from no script. -/
structure EngineEntry (p : ConstantPool) (e : FileEntry) : Prop where
  path : e.path = "orphans.script"
  mem : ∀ i d, (i, d) ∈ e.definitions ↔ i ≠ 0 ∧ p.definition i = some d ∧ FromEngine p d
  nodup : (e.definitions.map Prod.fst).Nodup

/-! ### Proofs -/

theorem mem_once {i : Idx} : ∀ {l : List Idx}, i ∈ once l ↔ i ∈ l
  | [] => Iff.rfl
  | a :: l => by
    rw [once]
    split
    · next h =>
      rw [mem_once (l := l), List.mem_cons]
      have := mem_once.1 (List.contains_iff_mem.1 h)
      constructor
      · exact Or.inr
      · rintro (rfl | h')
        · exact this
        · exact h'
    · rw [List.mem_cons, List.mem_cons, mem_once]

theorem once_nodup : ∀ l : List Idx, (once l).Nodup
  | [] => List.nodup_nil
  | a :: l => by
    rw [once]
    split
    · exact once_nodup l
    · next h => exact List.nodup_cons.2 ⟨fun h' => h (List.contains_iff_mem.2 h'), once_nodup l⟩

theorem isOrphan_iff {p : ConstantPool} {d : Definition} : p.isOrphan d = true ↔ FromEngine p d := by
  unfold ConstantPool.isOrphan FromEngine
  cases hv : d.value <;> simp [List.all_eq_true] <;> grind

theorem mem_fileRoots {p : ConstantPool} (hlen : p.definitions.length ≤ 2 ^ 32) {file i : Idx} :
    (file, i) ∈ p.fileRoots ↔ FromFile p file i := by
  unfold ConstantPool.fileRoots FromFile
  simp only [List.mem_filterMap, Option.map_eq_some_iff, Prod.mk.injEq, Prod.exists]
  constructor
  · rintro ⟨k, d, hk, s, hs, hf, hi⟩
    obtain ⟨h0, hd⟩ := (C12_iteration p hlen k d).1 hk
    unfold Definition.source at hs
    split at hs
    · next f hv =>
      refine ⟨k, d, f, s, h0, hd, hv, hs, hf, ?_⟩
      by_cases hp : d.parent = 0
      · rw [if_pos hp] at hi; exact .inl ⟨hp, hi.symm⟩
      · rw [if_neg hp] at hi; exact .inr ⟨hp, hi.symm⟩
    · cases hs
  · rintro ⟨k, d, f, s, h0, hd, hv, hs, hf, hi⟩
    refine ⟨k, d, (C12_iteration p hlen k d).2 ⟨h0, hd⟩, s, by simp [Definition.source, hv, hs], hf, ?_⟩
    rcases hi with ⟨hp, hi⟩ | ⟨hp, hi⟩
    · rw [if_pos hp, hi]
    · rw [if_neg hp, hi]

theorem mem_fileChildren {p : ConstantPool} (hlen : p.definitions.length ≤ 2 ^ 32) {file i : Idx} :
    i ∈ p.fileChildren file ↔ FromFile p file i := by
  unfold ConstantPool.fileChildren
  rw [mem_once, ← mem_fileRoots hlen]
  simp

theorem mem_fileKeys {p : ConstantPool} (hlen : p.definitions.length ≤ 2 ^ 32) {file : Idx} :
    file ∈ p.fileKeys ↔ ∃ i, FromFile p file i := by
  unfold ConstantPool.fileKeys
  rw [mem_once]
  simp [← mem_fileRoots hlen]

theorem leastLine_none : ∀ {l : List (BitVec 32)}, leastLine l = none ↔ l = []
  | [] => by simp [leastLine]
  | a :: l => by
    simp only [leastLine, reduceCtorEq, iff_false]
    split <;> simp

theorem leastLine_some : ∀ {l : List (BitVec 32)} {m}, leastLine l = some m → m ∈ l ∧ ∀ x ∈ l, m ≤ x
  | a :: l, m, h => by
    simp only [leastLine] at h
    split at h
    · next h' =>
      rw [leastLine_none] at h'
      subst h'
      cases h
      simp
    · next k hk =>
      obtain ⟨h1, h2⟩ := leastLine_some hk
      cases h
      split
      · next hlt =>
        refine ⟨List.mem_cons_of_mem _ h1, fun x hx => ?_⟩
        rcases List.mem_cons.1 hx with rfl | hx
        · exact BitVec.le_of_lt hlt
        · exact h2 x hx
      · next hlt =>
        refine ⟨List.mem_cons_self, fun x hx => ?_⟩
        rcases List.mem_cons.1 hx with rfl | hx
        · exact BitVec.le_refl _
        · exact BitVec.le_trans (BitVec.not_lt.1 hlt) (h2 x hx)

/-- There is exactly one line that a definition is sorted by. -/
theorem firstLine_sorted {p : ConstantPool} {d : Definition} {l : BitVec 32} :
    SortedBy p d l ↔ l = (p.firstLine d).getD 0 := by
  unfold ConstantPool.firstLine SortedBy
  cases hv : d.value with
  | Function f =>
    cases hs : f.source <;> simp [hs]
  | Class c =>
    simp only [reduceCtorEq, false_and, exists_false, AnyDefinition.Class.injEq, false_or, false_imp_iff]
    have hmem : ∀ x, x ∈ (c.functions.filterMap fun i => (p.function i).bind fun f => f.source.map (·.line)) ↔
        ∃ i f s, i ∈ c.functions ∧ p.function i = some f ∧ f.source = some s ∧ x = s.line := by
      intro x
      simp only [List.mem_filterMap, Option.bind_eq_some_iff, Option.map_eq_some_iff]
      constructor
      · rintro ⟨i, hi, f, hf, s, hs, rfl⟩; exact ⟨i, f, s, hi, hf, hs, rfl⟩
      · rintro ⟨i, f, s, hi, hf, hs, rfl⟩; exact ⟨i, hi, f, hf, s, hs, rfl⟩
    cases hl : leastLine (c.functions.filterMap fun i => (p.function i).bind fun f => f.source.map (·.line)) with
    | none =>
      rw [leastLine_none] at hl
      rw [hl] at hmem
      simp only [List.not_mem_nil, false_iff, not_exists, not_and] at hmem
      simp only [Option.getD_none]
      constructor
      · rintro (⟨c', i, f, s, rfl, hi, hf, hs, h, _⟩ | ⟨h, _⟩)
        · exact absurd rfl (hmem s.line i f s hi hf hs)
        · exact h
      · rintro rfl
        refine .inr ⟨rfl, fun _ => trivial, ?_⟩
        rintro c' rfl j hj g hg
        cases hs : g.source with
        | none => rfl
        | some s => exact absurd rfl (hmem s.line j g s hj hg hs)
    | some m =>
      obtain ⟨h1, h2⟩ := leastLine_some hl
      obtain ⟨i, f, s, hi, hf, hs, e⟩ := (hmem m).1 h1
      simp only [Option.getD_some]
      constructor
      · rintro (⟨c', j, g, t, rfl, hj, hg, ht, h, hle⟩ | ⟨_, _, h⟩)
        · apply BitVec.le_antisymm
          · rw [e]; exact hle i hi f s hf hs
          · exact h2 l ((hmem l).2 ⟨j, g, t, hj, hg, ht, h⟩)
        · rw [h c rfl i hi f hf] at hs; cases hs
      · rintro rfl
        exact .inl ⟨c, i, f, s, rfl, hi, hf, hs, e, fun j hj g t hg ht => h2 _ ((hmem _).2 ⟨j, g, t, hj, hg, ht, rfl⟩)⟩
  | _ => simp

theorem filterMap_fst_nodup {p : ConstantPool} : ∀ {l : List Idx}, l.Nodup →
    ((l.filterMap fun i => (p.definition i).map fun d => (i, d)).map Prod.fst).Nodup
  | [], _ => List.nodup_nil
  | i :: l, h => by
    obtain ⟨h1, h2⟩ := List.nodup_cons.1 h
    have ih := filterMap_fst_nodup (p := p) h2
    cases hd : p.definition i with
    | none => simpa [List.filterMap_cons, hd] using ih
    | some d =>
      rw [List.filterMap_cons, hd]
      simp only [Option.map_some, List.map_cons, List.nodup_cons]
      refine ⟨?_, ih⟩
      simp only [List.mem_map, List.mem_filterMap, Option.map_eq_some_iff]
      rintro ⟨_, ⟨j, hj, e, _, rfl⟩, rfl⟩
      exact h1 hj

theorem indexed_nodup {p : ConstantPool} (hlen : p.definitions.length ≤ 2 ^ 32) : (p.indexed.map Prod.fst).Nodup := by
  unfold ConstantPool.indexed
  rw [List.map_map, List.nodup_iff_pairwise_ne, List.pairwise_iff_getElem]
  intro i j hi hj hij
  simp only [List.length_map, List.length_drop, List.length_zipIdx] at hi hj
  simp only [List.getElem_map, List.getElem_drop, List.getElem_zipIdx, Function.comp_apply]
  intro h
  have := congrArg BitVec.toNat h
  rw [BitVec.toNat_ofNat, BitVec.toNat_ofNat, Nat.mod_eq_of_lt (by omega), Nat.mod_eq_of_lt (by omega)] at this
  omega

theorem filter_fst_nodup {l : List (Idx × Definition)} {f : Idx × Definition → Bool} (h : (l.map Prod.fst).Nodup) :
    ((l.filter f).map Prod.fst).Nodup :=
  h.sublist (List.filter_sublist.map _)

theorem orphans_entry {p : ConstantPool} (hlen : p.definitions.length ≤ 2 ^ 32) : EngineEntry p p.orphans where
  path := rfl
  mem i d := by
    unfold ConstantPool.orphans
    rw [List.mem_filter, C12_iteration p hlen, isOrphan_iff, and_assoc]
  nodup := filter_fst_nodup (indexed_nodup hlen)

theorem insertByKey_perm (key : α → BitVec 32) (a : α) : ∀ l : List α, (insertByKey key a l).Perm (a :: l)
  | [] => .refl _
  | b :: l => by
    rw [insertByKey]
    split
    · exact .refl _
    · exact ((insertByKey_perm key a l).cons b).trans (.swap ..)

theorem sortedByKey_perm (key : α → BitVec 32) : ∀ l : List α, (sortedByKey key l).Perm l
  | [] => .refl _
  | a :: l => (insertByKey_perm key a _).trans ((sortedByKey_perm key l).cons a)

theorem insertByKey_sorted (key : α → BitVec 32) (a : α) : ∀ {l : List α}, l.Pairwise (fun x y => key x ≤ key y) →
    (insertByKey key a l).Pairwise fun x y => key x ≤ key y
  | [], _ => by simp [insertByKey]
  | b :: l, h => by
    rw [insertByKey]
    obtain ⟨h1, h2⟩ := List.pairwise_cons.1 h
    split
    · next hab =>
      refine List.pairwise_cons.2 ⟨fun x hx => ?_, h⟩
      rcases List.mem_cons.1 hx with rfl | hx
      · exact hab
      · exact BitVec.le_trans hab (h1 x hx)
    · next hab =>
      refine List.pairwise_cons.2 ⟨fun x hx => ?_, insertByKey_sorted key a h2⟩
      rcases List.mem_cons.1 ((insertByKey_perm key a l).mem_iff.1 hx) with rfl | hx
      · exact BitVec.le_of_lt (BitVec.not_le.1 hab)
      · exact h1 x hx

theorem sortedByKey_sorted (key : α → BitVec 32) : ∀ l : List α, (sortedByKey key l).Pairwise fun x y => key x ≤ key y
  | [] => .nil
  | a :: l => insertByKey_sorted key a (sortedByKey_sorted key l)

theorem fileDefinitions_perm (o : HashOrder) (p : ConstantPool) (file : Idx) :
    (p.fileDefinitions o file).Perm ((o.order (p.fileChildren file)).filterMap fun i => (p.definition i).map fun d => (i, d)) :=
  sortedByKey_perm _ _

theorem file_entry {p : ConstantPool} (o : HashOrder) (hlen : p.definitions.length ≤ 2 ^ 32) {file : Idx} {d : Definition}
    {s : SourceFileDef} (hd : p.definition file = some d) (hs : d.value = .SourceFile s) :
    EntryOf p file ⟨s.path, p.fileDefinitions o file⟩ where
  path := ⟨d, s, hd, hs, rfl⟩
  mem i e := by
    rw [(fileDefinitions_perm o p file).mem_iff]
    simp only [List.mem_filterMap, Option.map_eq_some_iff, Prod.mk.injEq, (o.perm _).mem_iff, mem_fileChildren hlen]
    constructor
    · rintro ⟨j, hj, e', he, rfl, rfl⟩; exact ⟨he, hj⟩
    · rintro ⟨he, hj⟩; exact ⟨i, hj, e, he, rfl, rfl⟩
  nodup := by
    rw [((fileDefinitions_perm o p file).map Prod.fst).nodup_iff]
    exact filterMap_fst_nodup ((o.perm _).nodup_iff.2 (once_nodup _))
  sorted := by
    have h := sortedByKey_sorted (fun a : Idx × Definition => (p.firstLine a.2).getD 0)
      ((o.order (p.fileChildren file)).filterMap fun i => (p.definition i).map fun d => (i, d))
    refine h.imp ?_
    intro a b hab l m hl hm
    rw [firstLine_sorted] at hl hm
    rw [hl, hm]
    exact hab

theorem sourceEntries_some {p : ConstantPool} {o : HashOrder} (hlen : p.definitions.length ≤ 2 ^ 32) :
    ∀ {files : List Idx} {es}, p.sourceEntries o files = some es →
      ∃ fs, List.Sublist fs files ∧ Each2 (EntryOf p) fs es ∧
        (∀ f ∈ files, ∃ d, p.definition f = some d ∧ ((∃ s, d.value = .SourceFile s) → f ∈ fs)) ∧
        (∀ f ∈ fs, ∃ d s, p.definition f = some d ∧ d.value = .SourceFile s)
  | [], es, h => by
    cases h
    exact ⟨[], List.Sublist.refl _, .nil, by simp, by simp⟩
  | f :: files, es, h => by
    rw [ConstantPool.sourceEntries] at h
    split at h
    · cases h
    · next d hd =>
      split at h
      · next s hs =>
        rw [Option.map_eq_some_iff] at h
        obtain ⟨es', h', rfl⟩ := h
        obtain ⟨fs, h1, h2, h3, h4⟩ := sourceEntries_some hlen h'
        refine ⟨f :: fs, h1.cons_cons _, .cons (file_entry o hlen hd hs) h2, ?_, ?_⟩
        · intro g hg
          rcases List.mem_cons.1 hg with rfl | hg
          · exact ⟨d, hd, fun _ => List.mem_cons_self⟩
          · obtain ⟨d', a, b⟩ := h3 g hg
            exact ⟨d', a, fun c => List.mem_cons_of_mem _ (b c)⟩
        · intro g hg
          rcases List.mem_cons.1 hg with rfl | hg
          · exact ⟨d, s, hd, hs⟩
          · exact h4 g hg
      · next hn =>
        obtain ⟨fs, h1, h2, h3, h4⟩ := sourceEntries_some hlen h
        refine ⟨fs, h1.cons _, h2, ?_, h4⟩
        intro g hg
        rcases List.mem_cons.1 hg with rfl | hg
        · exact ⟨d, hd, fun ⟨s, hs⟩ => absurd hs (hn s)⟩
        · exact h3 g hg

theorem sourceEntries_none {p : ConstantPool} {o : HashOrder} :
    ∀ {files : List Idx}, p.sourceEntries o files = none ↔ ∃ f ∈ files, p.definition f = none
  | [] => by simp [ConstantPool.sourceEntries]
  | f :: files => by
    rw [ConstantPool.sourceEntries]
    split
    · next h => simp [h]
    · next d h =>
      split
      · simp [sourceEntries_none, h]
      · simp [sourceEntries_none, h]

/-! ### Theorems -/

/-- C66: the first entry has what comes from no script. The others are the source files that functions come from,
each once, with the functions and classes that are from there, each once and by line. -/
theorem C66_files_of_a_bundle (o : HashOrder) (p : ConstantPool) (es : List FileEntry) (hlen : p.definitions.length ≤ 2 ^ 32)
    (h : p.fileEntries o = some es) :
    ∃ e rest files, es = e :: rest ∧ EngineEntry p e ∧ files.Nodup ∧ Each2 (EntryOf p) files rest ∧
      ∀ file, file ∈ files ↔ (∃ d s, p.definition file = some d ∧ d.value = .SourceFile s) ∧ ∃ i, FromFile p file i := by
  unfold ConstantPool.fileEntries at h
  rw [Option.map_eq_some_iff] at h
  obtain ⟨rest, h, rfl⟩ := h
  obtain ⟨fs, h1, h2, h3, h4⟩ := sourceEntries_some hlen h
  have hm : ∀ f, f ∈ o.order p.fileKeys ↔ ∃ i, FromFile p f i := fun f => by
    rw [(o.perm _).mem_iff, mem_fileKeys hlen]
  refine ⟨_, rest, fs, rfl, orphans_entry hlen, ?_, h2, ?_⟩
  · exact List.Nodup.sublist h1 ((o.perm _).nodup_iff.2 (once_nodup _))
  · intro f
    constructor
    · intro hf
      exact ⟨h4 f hf, (hm f).1 (h1.subset hf)⟩
    · rintro ⟨⟨d, s, hd, hs⟩, hi⟩
      obtain ⟨d', a, b⟩ := h3 f ((hm f).2 hi)
      rw [hd] at a
      cases a
      exact b ⟨s, hs⟩

/-- C66: the tool stops without files exactly if the file of some function does not exist. -/
theorem C66_files_exist (o : HashOrder) (p : ConstantPool) (hlen : p.definitions.length ≤ 2 ^ 32) :
    p.fileEntries o = none ↔ ∃ file i, FromFile p file i ∧ p.definition file = none := by
  unfold ConstantPool.fileEntries
  rw [Option.map_eq_none_iff, sourceEntries_none]
  constructor
  · rintro ⟨f, hf, hn⟩
    rw [(o.perm _).mem_iff, mem_fileKeys hlen] at hf
    obtain ⟨i, hi⟩ := hf
    exact ⟨f, i, hi, hn⟩
  · rintro ⟨f, i, hi, hn⟩
    exact ⟨f, by rw [(o.perm _).mem_iff, mem_fileKeys hlen]; exact ⟨i, hi⟩, hn⟩

/-- How often a definition is written. -/
def timesPrinted (es : List FileEntry) (i : Idx) : Nat :=
  (es.map fun e => (e.definitions.filter fun d => d.1 = i).length).sum

/-- The source file that something comes from. -/
def InFile (p : ConstantPool) (i file : Idx) : Prop :=
  (∃ d s, p.definition file = some d ∧ d.value = .SourceFile s) ∧ FromFile p file i

theorem filter_once : ∀ {l : List (Idx × Definition)} {i : Idx}, (l.map Prod.fst).Nodup →
    ((∃ d, (i, d) ∈ l) → (l.filter fun d => d.1 = i).length = 1) ∧
    ((¬ ∃ d, (i, d) ∈ l) → (l.filter fun d => d.1 = i).length = 0)
  | [], i, _ => by simp
  | (j, d) :: l, i, h => by
    rw [List.map_cons, List.nodup_cons] at h
    obtain ⟨a, b⟩ := filter_once (i := i) h.2
    by_cases hij : j = i
    · subst hij
      have hn : ¬ ∃ d, (j, d) ∈ l := fun ⟨d, hd⟩ => h.1 (List.mem_map.2 ⟨_, hd, rfl⟩)
      rw [List.filter_cons_of_pos (by simp)]
      exact ⟨fun _ => by rw [List.length_cons, b hn], fun hn => absurd ⟨d, List.mem_cons_self⟩ hn⟩
    · rw [List.filter_cons_of_neg (by simpa using hij)]
      have e : (∃ d', (i, d') ∈ (j, d) :: l) ↔ ∃ d', (i, d') ∈ l := by
        simp only [List.mem_cons, Prod.mk.injEq]
        constructor
        · rintro ⟨d', (⟨rfl, _⟩ | h)⟩
          · exact absurd rfl hij
          · exact ⟨d', h⟩
        · rintro ⟨d', h⟩; exact ⟨d', .inr h⟩
      rw [e]
      exact ⟨a, b⟩

theorem rest_once {p : ConstantPool} {i : Idx} {d : Definition} (hd : p.definition i = some d) :
    ∀ {files : List Idx} {es : List FileEntry}, Each2 (EntryOf p) files es → files.Nodup →
      (timesPrinted es i = 0 ↔ ∀ file ∈ files, ¬ FromFile p file i) ∧
      (timesPrinted es i = 1 ↔ ∃ file ∈ files, FromFile p file i ∧ ∀ g ∈ files, FromFile p g i → g = file)
  | _, _, .nil, _ => by simp [timesPrinted]
  | _, _, .cons (a := f) (b := e) (as := fs) (bs := es) h hs, hn => by
    rw [List.nodup_cons] at hn
    obtain ⟨a, b⟩ := rest_once hd hs hn.2
    obtain ⟨c1, c0⟩ := filter_once (i := i) h.nodup
    have hx : (∃ d, (i, d) ∈ e.definitions) ↔ FromFile p f i := by
      constructor
      · rintro ⟨d', hd'⟩; exact ((h.mem i d').1 hd').2
      · intro hf; exact ⟨d, (h.mem i d).2 ⟨hd, hf⟩⟩
    rw [hx] at c1 c0
    have ht : timesPrinted (e :: es) i = (e.definitions.filter fun d => d.1 = i).length + timesPrinted es i := by
      simp [timesPrinted]
    rw [ht]
    by_cases hf : FromFile p f i
    · rw [c1 hf]
      constructor
      · constructor
        · intro h; omega
        · intro h; exact absurd hf (h f List.mem_cons_self)
      · constructor
        · intro h0
          refine ⟨f, List.mem_cons_self, hf, fun g hg hgi => ?_⟩
          rcases List.mem_cons.1 hg with rfl | hg
          · rfl
          · exact absurd hgi (a.1 (by omega) g hg)
        · rintro ⟨g, hg, hgi, hu⟩
          have h0 : timesPrinted es i = 0 := a.2 fun g' hg' hgi' => by
            have e1 := hu f List.mem_cons_self hf
            have e2 := hu g' (List.mem_cons_of_mem _ hg') hgi'
            rw [← e1] at e2
            exact hn.1 (e2 ▸ hg')
          omega
    · rw [c0 hf]
      have h0 : ∀ x, 0 + timesPrinted es i = x ↔ timesPrinted es i = x := fun x => by omega
      rw [h0, h0, a, b]
      constructor
      · constructor
        · intro h g hg
          rcases List.mem_cons.1 hg with rfl | hg
          · exact hf
          · exact h g hg
        · intro h g hg
          exact h g (List.mem_cons_of_mem _ hg)
      · constructor
        · rintro ⟨g, hg, hgi, hu⟩
          refine ⟨g, List.mem_cons_of_mem _ hg, hgi, fun g' hg' hgi' => ?_⟩
          rcases List.mem_cons.1 hg' with rfl | hg'
          · exact absurd hgi' hf
          · exact hu g' hg' hgi'
        · rintro ⟨g, hg, hgi, hu⟩
          rcases List.mem_cons.1 hg with rfl | hg
          · exact absurd hgi hf
          · exact ⟨g, hg, hgi, fun g' hg' hgi' => hu g' (List.mem_cons_of_mem _ hg') hgi'⟩

/-- C66: a definition is printed exactly once if and only if it is either from no script and has no functions from
one, or has some and all of them from one file. -/
theorem C66_printed_once_partial (o : HashOrder) (p : ConstantPool) (es : List FileEntry) (hlen : p.definitions.length ≤ 2 ^ 32)
    (h : p.fileEntries o = some es) (i : Idx) (d : Definition) (hi : i ≠ 0) (hd : p.definition i = some d) :
    timesPrinted es i = 1 ↔
      (FromEngine p d ∧ ∀ file, ¬ InFile p i file) ∨
      (¬ FromEngine p d ∧ ∃ file, InFile p i file ∧ ∀ g, InFile p i g → g = file) := by
  obtain ⟨e, rest, files, rfl, he, hn, hr, hm⟩ := C66_files_of_a_bundle o p es hlen h
  obtain ⟨a, b⟩ := rest_once (i := i) hd hr hn
  obtain ⟨c1, c0⟩ := filter_once (i := i) he.nodup
  have hx : (∃ d, (i, d) ∈ e.definitions) ↔ FromEngine p d := by
    constructor
    · rintro ⟨d', hd'⟩
      obtain ⟨_, h1, h2⟩ := (he.mem i d').1 hd'
      rw [hd] at h1
      cases h1
      exact h2
    · intro hf; exact ⟨d, (he.mem i d).2 ⟨hi, hd, hf⟩⟩
  have hf : ∀ g, (g ∈ files ∧ FromFile p g i) ↔ InFile p i g := by
    intro g
    rw [hm g, InFile]
    exact ⟨fun h => ⟨h.1.1, h.2⟩, fun h => ⟨⟨h.1, i, h.2⟩, h.2⟩⟩
  rw [hx] at c1 c0
  have ht : timesPrinted (e :: rest) i = (e.definitions.filter fun d => d.1 = i).length + timesPrinted rest i := by
    simp [timesPrinted]
  have a' : timesPrinted rest i = 0 ↔ ∀ file, ¬ InFile p i file := by
    rw [a]
    exact ⟨fun h g hg => h g ((hf g).2 hg).1 ((hf g).2 hg).2, fun h g hg hgi => h g ((hf g).1 ⟨hg, hgi⟩)⟩
  have b' : timesPrinted rest i = 1 ↔ ∃ file, InFile p i file ∧ ∀ g, InFile p i g → g = file := by
    rw [b]
    constructor
    · rintro ⟨f, h1, h2, h3⟩
      exact ⟨f, (hf f).1 ⟨h1, h2⟩, fun g hg => h3 g ((hf g).2 hg).1 ((hf g).2 hg).2⟩
    · rintro ⟨f, h1, h2⟩
      exact ⟨f, ((hf f).2 h1).1, ((hf f).2 h1).2, fun g hg hgi => h2 g ((hf g).1 ⟨hg, hgi⟩)⟩
  rw [ht, ← a', ← b']
  by_cases hE : FromEngine p d
  · rw [c1 hE]
    simp only [hE, true_and, not_true_eq_false, false_and, or_false]
    omega
  · rw [c0 hE]
    simp only [hE, false_and, not_false_eq_true, true_and, false_or]
    omega

/-! ### The order of hash maps -/

theorem mem_sourceEntries {p : ConstantPool} {o : HashOrder} : ∀ {files : List Idx} {es}, p.sourceEntries o files = some es →
    ∀ e, e ∈ es ↔ ∃ f ∈ files, ∃ d s, p.definition f = some d ∧ d.value = .SourceFile s ∧ e = ⟨s.path, p.fileDefinitions o f⟩
  | [], es, h, e => by
    cases h
    simp
  | f :: files, es, h, e => by
    rw [ConstantPool.sourceEntries] at h
    split at h
    · cases h
    · next d hd =>
      split at h
      · next s hs =>
        rw [Option.map_eq_some_iff] at h
        obtain ⟨es', h', rfl⟩ := h
        rw [List.mem_cons, mem_sourceEntries h']
        simp only [List.mem_cons, exists_eq_or_imp, hd, Option.some.injEq]
        apply or_congr _ Iff.rfl
        constructor
        · intro h; exact ⟨d, s, rfl, hs, h⟩
        · rintro ⟨_, s', rfl, hs', h⟩
          rw [hs] at hs'
          cases hs'
          exact h
      · next hn =>
        rw [mem_sourceEntries h]
        simp only [List.mem_cons, exists_eq_or_imp, hd, Option.some.injEq]
        constructor
        · exact .inr
        · rintro (⟨_, s, rfl, hs, _⟩ | h)
          · exact absurd hs (hn s)
          · exact h

/-- Different source files have different paths. -/
def PathsDiffer (p : ConstantPool) : Prop :=
  ∀ f g d e s t, p.definition f = some d → p.definition g = some e → d.value = .SourceFile s → e.value = .SourceFile t →
    s.path = t.path → f = g

/-- What is from the same source file is on different lines. -/
def LinesDiffer (p : ConstantPool) : Prop :=
  ∀ f i j d e l, FromFile p f i → FromFile p f j → p.definition i = some d → p.definition j = some e →
    SortedBy p d l → SortedBy p e l → i = j

theorem fileDefinitions_same {p : ConstantPool} (hlen : p.definitions.length ≤ 2 ^ 32) (hl : LinesDiffer p) (o o' : HashOrder)
    {f : Idx} {d : Definition} {s : SourceFileDef} (hd : p.definition f = some d) (hs : d.value = .SourceFile s) :
    p.fileDefinitions o f = p.fileDefinitions o' f := by
  have h1 := file_entry o hlen hd hs
  have h2 := file_entry o' hlen hd hs
  apply List.Perm.eq_of_pairwise (le := fun a b => ∀ l m, SortedBy p a.2 l → SortedBy p b.2 m → l ≤ m) _ h1.sorted h2.sorted
  · refine (fileDefinitions_perm o p f).trans (.trans ?_ (fileDefinitions_perm o' p f).symm)
    exact ((o.perm _).trans (o'.perm _).symm).filterMap _
  · rintro ⟨i, a⟩ ⟨j, b⟩ ha hb hab hba
    obtain ⟨a1, a2⟩ := (h1.mem i a).1 ha
    obtain ⟨b1, b2⟩ := (h2.mem j b).1 hb
    have sa := (firstLine_sorted (p := p) (d := a)).2 rfl
    have sb := (firstLine_sorted (p := p) (d := b)).2 rfl
    have e := BitVec.le_antisymm (hab _ _ sa sb) (hba _ _ sb sa)
    have hij := hl f i j a b _ a2 b2 a1 b1 sa (e ▸ sb)
    subst hij
    rw [a1] at b1
    cases b1
    rfl

theorem dumpContents_none {C : PrintCfg} {p : ConstantPool} {path : String} :
    ∀ {es : List FileEntry}, dumpContents C p path es = none ↔ ∀ e ∈ es, e.path ≠ path
  | [] => by simp [dumpContents]
  | e :: es => by
    rw [dumpContents]
    split
    · next t h =>
      simp only [reduceCtorEq, List.mem_cons, forall_eq_or_imp, false_iff, not_and]
      intro _ h'
      rw [dumpContents_none.2 h'] at h
      cases h
    · next h =>
      rw [dumpContents_none] at h
      simp only [List.mem_cons, forall_eq_or_imp, ite_eq_right_iff, reduceCtorEq, imp_false]
      exact ⟨fun h' => ⟨h', h⟩, fun h' => h'.1⟩

theorem dumpContents_some {C : PrintCfg} {p : ConstantPool} {path : String} {e : FileEntry} (hp : e.path = path) :
    ∀ {es : List FileEntry}, e ∈ es → (∀ e' ∈ es, e'.path = path → e' = e) →
      dumpContents C p path es = some (writeAll C p e.definitions).text
  | e' :: es, hm, hu => by
    rw [dumpContents]
    split
    · next t h =>
      have : e ∈ es := by
        apply Classical.byContradiction
        intro hn
        have : dumpContents C p path es = none := dumpContents_none.2 fun e' he' hp' =>
          hn (hu e' (List.mem_cons_of_mem _ he') hp' ▸ he')
        rw [this] at h
        cases h
      rw [← h]
      exact dumpContents_some hp this fun e' he' => hu e' (List.mem_cons_of_mem _ he')
    · next h =>
      rw [dumpContents_none] at h
      have : e' = e := by
        rcases List.mem_cons.1 hm with rfl | hm
        · rfl
        · exact absurd hp (h e hm)
      rw [this, if_pos hp]

/-- C66: two runs of the tool write the same files, however hash maps are ordered, if files have different paths and
what is in a file is on different lines. -/
theorem C66_same_files_partial (C : PrintCfg) (p : ConstantPool) (o o' : HashOrder) (es es' : List FileEntry)
    (hlen : p.definitions.length ≤ 2 ^ 32) (hp : PathsDiffer p) (hl : LinesDiffer p)
    (h : p.fileEntries o = some es) (h' : p.fileEntries o' = some es') (path : String) :
    dumpContents C p path es = dumpContents C p path es' := by
  unfold ConstantPool.fileEntries at h h'
  rw [Option.map_eq_some_iff] at h h'
  obtain ⟨rest, h, rfl⟩ := h
  obtain ⟨rest', h', rfl⟩ := h'
  have hm := mem_sourceEntries h
  have hm' := mem_sourceEntries h'
  have hiff : ∀ e, e ∈ rest ↔ e ∈ rest' := by
    intro e
    rw [hm, hm']
    constructor <;> rintro ⟨f, hf, d, s, hd, hs, rfl⟩
    · exact ⟨f, by rw [(o'.perm _).mem_iff, ← (o.perm _).mem_iff]; exact hf, d, s, hd, hs, by rw [fileDefinitions_same hlen hl o o' hd hs]⟩
    · exact ⟨f, by rw [(o.perm _).mem_iff, ← (o'.perm _).mem_iff]; exact hf, d, s, hd, hs, by rw [fileDefinitions_same hlen hl o o' hd hs]⟩
  have huniq : ∀ e e', e ∈ rest → e' ∈ rest → e.path = e'.path → e = e' := by
    intro e e' he he' hee
    obtain ⟨f, hf, d, s, hd, hs, rfl⟩ := (hm e).1 he
    obtain ⟨g, hg, d', s', hd', hs', rfl⟩ := (hm e').1 he'
    have hfg := hp f g d d' s s' hd hd' hs hs' hee
    subst hfg
    rw [hd] at hd'
    cases hd'
    rw [hs] at hs'
    cases hs'
    rfl
  have key : dumpContents C p path rest = dumpContents C p path rest' := by
    by_cases hex : ∃ e ∈ rest, e.path = path
    · obtain ⟨e, he, hep⟩ := hex
      rw [dumpContents_some hep he fun e' he' hp' => huniq e' e he' he (hp'.trans hep.symm),
        dumpContents_some hep ((hiff e).1 he) fun e' he' hp' => huniq e' e ((hiff e').2 he') he (hp'.trans hep.symm)]
    · rw [dumpContents_none.2 fun e he hep => hex ⟨e, he, hep⟩,
        dumpContents_none.2 fun e he hep => hex ⟨e, (hiff e).2 he, hep⟩]
  rw [dumpContents, dumpContents, key]

/-- C66: if no other file has the same path, what is written to the path of an entry reads back as what is in it. -/
theorem C66_files_read_back_partial (F : FloatParse) (C : PrintCfg) (p : ConstantPool) (es : List FileEntry) (e : FileEntry)
    (he : e ∈ es) (hu : ∀ e' ∈ es, e'.path = e.path → e' = e)
    (decls : List SourceEntry) (hs : Each2 (DefStands p C) (e.definitions.map Prod.snd) decls)
    (hw : (writeAll C p e.definitions).failed = none) :
    ∃ text N, dumpContents C p e.path es = some text ∧ ∀ n, N ≤ n → parseModule F n text = some ⟨none, [], decls⟩ := by
  obtain ⟨N, hN⟩ := C65_printed_definitions_read_back_partial F C p e.definitions decls hs hw
  exact ⟨_, N, dumpContents_some rfl he hu, hN⟩

/-! ### Cases -/

namespace FilesDemo

/-- A function without a body or parameters that comes from a line of a file. -/
def fn (flags : BitVec 32) (source : Option SourceReference) : AnyDefinition :=
  .Function ⟨.pub, flags, source, none, false, none, [], [], none, 0, [], []⟩

/-- Two source files; a class with methods on lines of the first and of `file`; an enum; functions on lines of the first and of
the second file; a native function; a function from nowhere. -/
def pool (second : String) (file : Idx) (line : BitVec 32) : ConstantPool where
  names := ⟨["None", "C", "M;", "N;", "E", "F;", "G;", "L;", "X;"], .empty⟩
  tweakdbIds := .empty
  resources := .empty
  strings := .empty
  definitions := [.default,
    .mk' 0 0 (.SourceFile ⟨1, 0, "a.script"⟩),
    .mk' 0 0 (.SourceFile ⟨2, 0, second⟩),
    .mk' 1 0 (.Class ⟨.pub, 0, 0, [4, 5], [], []⟩),
    .mk' 2 3 (fn 0 (some ⟨1, 10⟩)),
    .mk' 3 3 (fn 0 (some ⟨file, 30⟩)),
    .mk' 4 0 (.Enum ⟨0, 4, [], false⟩),
    .mk' 5 0 (fn 0 (some ⟨1, line⟩)),
    .mk' 6 0 (fn 0 (some ⟨2, 7⟩)),
    .mk' 7 0 (fn (setFlag FunctionFlags.isNativeBit true 0) none),
    .mk' 8 0 (fn 0 none)]

def asIs : HashOrder := ⟨id, fun _ => .refl _⟩

def backwards : HashOrder := ⟨List.reverse, List.reverse_perm⟩

/-- The paths, with the indexes of what is in them. -/
def indexes (o : HashOrder) (p : ConstantPool) : Option (List (String × List Nat)) :=
  (p.fileEntries o).map fun es => es.map fun e => (e.path, e.definitions.map (·.1.toNat))

example : indexes asIs (pool "b.script" 1 5) = some [("orphans.script", [6, 9]), ("a.script", [7, 3]), ("b.script", [8])] := by
  decide +kernel

example : indexes backwards (pool "b.script" 1 15) = some [("orphans.script", [6, 9]), ("b.script", [8]), ("a.script", [3, 7])] := by
  decide +kernel

example : (pool "b.script" 11 5).fileEntries asIs = none := by decide +kernel

/-- What is written to a path. -/
def written (o : HashOrder) (p : ConstantPool) (path : String) : Option Text :=
  (p.fileEntries o).bind (dumpContents DumpDemo.cfg p path)

example : written asIs (pool "b.script" 1 15) "a.script" =
    some ("\npublic class C {\n\n  public func M() -> Void;\n\n  public func N() -> Void;\n}\n\npublic func F() -> Void;\n").toList := by
  decide +kernel

theorem lines_differ : LinesDiffer (pool "b.script" 1 15) := by
  intro f i j d e l hi hj hd he hl hm
  rw [firstLine_sorted] at hl hm
  rw [← mem_fileRoots (by decide)] at hi hj
  have h : ∀ a ∈ (pool "b.script" 1 15).fileRoots, ∀ b ∈ (pool "b.script" 1 15).fileRoots, a.1 = b.1 →
      (((pool "b.script" 1 15).definition a.2).map fun d => ((pool "b.script" 1 15).firstLine d).getD 0) =
        (((pool "b.script" 1 15).definition b.2).map fun d => ((pool "b.script" 1 15).firstLine d).getD 0) → a.2 = b.2 := by
    decide +kernel
  exact h _ hi _ hj rfl (by rw [hd, he, Option.map_some, Option.map_some, ← hl, ← hm])

theorem source_at {f : Idx} {d : Definition} {s : SourceFileDef} (hd : (pool "b.script" 1 15).definition f = some d)
    (hs : d.value = .SourceFile s) : f = 1 ∧ s.path = "a.script" ∨ f = 2 ∧ s.path = "b.script" := by
  have h0 : f ≠ 0 := by
    rintro rfl
    cases hd
    cases hs
  have hm := (C12_iteration _ (by decide) f d).2 ⟨h0, hd⟩
  have h : ∀ r ∈ (pool "b.script" 1 15).indexed, ((match r.2.value with | .SourceFile s => some s.path | _ => none) = none) ∨
      (r.1 = 1 ∧ (match r.2.value with | .SourceFile s => some s.path | _ => none) = some "a.script") ∨
      (r.1 = 2 ∧ (match r.2.value with | .SourceFile s => some s.path | _ => none) = some "b.script") := by
    decide +kernel
  have := h _ hm
  simp only [hs, reduceCtorEq, false_or, Option.some.injEq] at this
  exact this

theorem paths_differ : PathsDiffer (pool "b.script" 1 15) := by
  intro f g d e s t hd he hs ht hst
  rcases source_at hd hs with ⟨rfl, h1⟩ | ⟨rfl, h1⟩ <;> rcases source_at he ht with ⟨rfl, h2⟩ | ⟨rfl, h2⟩
  · rfl
  · rw [h1, h2] at hst
    exact absurd hst (by decide)
  · rw [h1, h2] at hst
    exact absurd hst (by decide)
  · rfl

example (o : HashOrder) (es : List FileEntry) (h : (pool "b.script" 1 15).fileEntries o = some es) :
    dumpContents DumpDemo.cfg (pool "b.script" 1 15) "a.script" es =
      some ("\npublic class C {\n\n  public func M() -> Void;\n\n  public func N() -> Void;\n}\n\npublic func F() -> Void;\n").toList := by
  cases h' : (pool "b.script" 1 15).fileEntries asIs with
  | none => exact absurd h' (by decide +kernel)
  | some es' =>
    rw [C66_same_files_partial DumpDemo.cfg _ o asIs es es' (by decide) paths_differ lines_differ h h']
    have e : written asIs (pool "b.script" 1 15) "a.script" =
        some ("\npublic class C {\n\n  public func M() -> Void;\n\n  public func N() -> Void;\n}\n\npublic func F() -> Void;\n").toList := by
      decide +kernel
    rw [written, h'] at e
    exact e

example (F : FloatParse) (es : List FileEntry) (h : (pool "b.script" 1 15).fileEntries asIs = some es) :
    ∃ text N, dumpContents DumpDemo.cfg (pool "b.script" 1 15) "b.script" es = some text ∧ ∀ n, N ≤ n →
      parseModule F n text = some ⟨none, [], [.Function ⟨⟨[], [.Public], "G".toList, none⟩, some (.mk "Void".toList []), [], none⟩]⟩ := by
  obtain ⟨e, he, hp, hd⟩ : ∃ e ∈ es, e.path = "b.script" ∧ e.definitions = [(8, .mk' 6 0 (fn 0 (some ⟨2, 7⟩)))] := by
    cases h
    exact ⟨_, List.mem_cons_of_mem _ (List.mem_cons_of_mem _ List.mem_cons_self), rfl, rfl⟩
  have hu : ∀ e' ∈ es, e'.path = e.path → e' = e := by
    cases h
    rw [hp]
    simp only [List.mem_cons, List.not_mem_nil, or_false] at he ⊢
    rcases he with rfl | rfl | rfl
    · exact absurd hp (by decide)
    · exact absurd hp (by decide)
    · rintro e' (rfl | rfl | rfl) h'
      · exact absurd h' (by decide)
      · exact absurd h' (by decide)
      · rfl
  have r := C66_files_read_back_partial F DumpDemo.cfg (pool "b.script" 1 15) es e he hu
    [.Function ⟨⟨[], [.Public], "G".toList, none⟩, some (.mk "Void".toList []), [], none⟩] (by
      rw [hd]
      exact .cons (.function rfl ⟨⟨_, ⟨"G;", rfl, rfl⟩, rfl⟩, by decide, rfl, rfl, rfl, .nil, ⟨_, rfl, .inl ⟨rfl, rfl⟩⟩, .inl ⟨rfl, rfl⟩⟩) .nil)
    (by
      rw [hd]
      decide +kernel)
  rw [hp] at r
  exact r

end FilesDemo

open FilesDemo in
/-- A class with functions from two files is written to both of them. -/
theorem C66_two_files_counterexample :
    ((pool "b.script" 2 5).fileEntries asIs).map (timesPrinted · 3) = some 2 := by
  decide +kernel

open FilesDemo in
/-- A function that is not native and has no source is in no file. -/
theorem C66_lost_function_counterexample :
    ((pool "b.script" 1 5).fileEntries asIs).map (timesPrinted · 10) = some 0 := by
  decide +kernel

open FilesDemo in
/-- Of two source files with the same path, only what is in one is left. -/
theorem C66_same_path_counterexample :
    written asIs (pool "a.script" 1 5) "a.script" = some "\npublic func G() -> Void;\n".toList ∧
    ((pool "a.script" 1 5).fileEntries asIs).map (timesPrinted · 7) = some 1 := by
  decide +kernel

open FilesDemo in
/-- The order of functions on the same line depends on the order of hash maps. -/
theorem C66_same_line_counterexample :
    written asIs (pool "b.script" 1 10) "a.script" ≠ written backwards (pool "b.script" 1 10) "a.script" := by
  decide +kernel

end Redscript
