import Verif.Scc.PrepProps
import Verif.SourceMap.DirProps

/-!
# C89: script caches in different directories do not share files
-/

namespace Redscript

/-! ### Model -/

/-- `with_extension(TIMESTAMP_FILE_EXT)` (scc/lib/src/lib.rs:106). -/
def timestampOf (path : PathParts) : PathParts :=
  match path.getLast? with
  | none => []
  | some name => path.dropLast ++ [stemOf name ++ ".redscripts.ts".toList]

/-- The files that a run may change (scc/lib/src/lib.rs:48-239): the bundle, its backup, the timestamp, the
timestamp of earlier versions (renamed, scc/lib/src/lib.rs:112-119) and the output. -/
def SccSettings.touches (s : SccSettings) : List PathParts :=
  [s.cachePath, backupOf s.cachePath, timestampOf s.cachePath, s.cachePath.dropLast ++ ["redscript.ts".toList], s.outputPath]

/-! ### Specification -/

/-- A name without what follows its last dot, unless it only begins with a dot. -/
inductive StemIs : Text → Text → Prop
  | dot {stem ext : Text} : stem ≠ [] → '.' ∉ ext → StemIs (stem ++ '.' :: ext) stem
  | hidden {ext : Text} : '.' ∉ ext → StemIs ('.' :: ext) ('.' :: ext)
  | plain {name : Text} : '.' ∉ name → StemIs name name

/-! ### Proofs -/

theorem stemIs_iff {name stem : Text} : StemIs name stem ↔ stemOf name = stem := by
  constructor
  · intro h
    unfold stemOf
    cases h with
    | dot h1 h2 =>
      rename_i ext
      rw [show rsplitDot (stem ++ '.' :: ext) = some (stem, ext) from rsplitDot_some.2 ⟨rfl, h2⟩]
      simp [h1]
    | hidden h2 =>
      rename_i ext
      rw [show rsplitDot ('.' :: ext) = some ([], ext) from rsplitDot_some.2 ⟨rfl, h2⟩]
      simp
    | plain h => rw [rsplitDot_none.2 h]
  · rintro rfl
    unfold stemOf
    split
    · next b a hs =>
      obtain ⟨e, h⟩ := rsplitDot_some.1 hs
      split
      · next hb => subst hb; subst e; exact .hidden h
      · next hb => subst e; exact .dot hb h
    · next hn => exact .plain (rsplitDot_none.1 hn)

/-- C89: two caches have the same backup, and the same timestamp, exactly if they are in the same directory under names that
differ at most behind the last dot. -/
theorem C89_same_backup_iff (dir dir' : PathParts) (name name' : Text) :
    (backupOf (dir ++ [name]) = backupOf (dir' ++ [name']) ↔ dir = dir' ∧ ∃ stem, StemIs name stem ∧ StemIs name' stem) ∧
    (timestampOf (dir ++ [name]) = timestampOf (dir' ++ [name']) ↔ dir = dir' ∧ ∃ stem, StemIs name stem ∧ StemIs name' stem) := by
  have key : ∀ ext : Text, dir ++ [stemOf name ++ ext] = dir' ++ [stemOf name' ++ ext] ↔ dir = dir' ∧ ∃ stem, StemIs name stem ∧ StemIs name' stem := by
    intro ext
    constructor
    · intro h
      obtain ⟨h1, h2⟩ := List.append_inj' h rfl
      have h2 := List.append_cancel_right (List.cons.inj h2).1
      exact ⟨h1, _, stemIs_iff.2 rfl, stemIs_iff.2 h2.symm⟩
    · rintro ⟨rfl, stem, h1, h2⟩
      rw [stemIs_iff.1 h1, stemIs_iff.1 h2]
  constructor
  · unfold backupOf
    simp only [List.getLast?_concat, List.dropLast_concat]
    exact key _
  · unfold timestampOf
    simp only [List.getLast?_concat, List.dropLast_concat]
    exact key _

theorem touches_dir {s : SccSettings} {dir : PathParts} {name : Text} (h : s.cachePath = dir ++ [name]) {path : PathParts} (hp : path ∈ s.touches) :
    path = s.outputPath ∨ ∃ n, path = dir ++ [n] := by
  simp only [SccSettings.touches, List.mem_cons, List.not_mem_nil, or_false] at hp
  rcases hp with rfl | rfl | rfl | rfl | rfl
  · exact .inr ⟨name, h⟩
  · refine .inr ⟨stemOf name ++ ".redscripts.bk".toList, ?_⟩
    rw [h]
    simp [backupOf]
  · refine .inr ⟨stemOf name ++ ".redscripts.ts".toList, ?_⟩
    rw [h]
    simp [timestampOf]
  · exact .inr ⟨"redscript.ts".toList, by rw [h]; simp⟩
  · exact .inl rfl

/-- C89: runs with caches in different directories, and without separate outputs or with outputs in these directories, change no
file that the other one changes; in particular the preparation of one leaves the bundle and the backup of the other as they are.
Missing: caches in one directory. -/
theorem C89_caches_are_separate_partial {s s' : SccSettings} {dir dir' : PathParts} {name name' out out' : Text} (h : s.cachePath = dir ++ [name])
    (h' : s'.cachePath = dir' ++ [name']) (ho : s.outputPath = dir ++ [out]) (ho' : s'.outputPath = dir' ++ [out']) (hd : dir ≠ dir') :
    (∀ path ∈ s.touches, path ∉ s'.touches) ∧
    ∀ {d d' : PathDisk}, s.prepare d = some d' → ∀ path ∈ s'.touches, d' path = d path := by
  have hdis : ∀ path ∈ s.touches, path ∉ s'.touches := by
    intro path hp hp'
    obtain ⟨n, e⟩ : ∃ n, path = dir ++ [n] := (touches_dir h hp).elim (fun e => ⟨out, e.trans ho⟩) id
    obtain ⟨n', e'⟩ : ∃ n, path = dir' ++ [n] := (touches_dir h' hp').elim (fun e => ⟨out', e.trans ho'⟩) id
    exact hd (List.append_inj' (e.symm.trans e') rfl).1
  refine ⟨hdis, fun {d d'} hpr path hp => ?_⟩
  obtain ⟨k1, k2⟩ := C86_preparing_overwrites_nothing hpr
  cases hx : d path with
  | some c => exact k1 _ _ hx
  | none =>
    cases hy : d' path with
    | none => rfl
    | some c =>
      have hm : path ∈ s.touches := by
        rcases (k2 _ _ hx hy).1 with e | e <;> simp [SccSettings.touches, e]
      exact absurd hp (hdis path hm)

/-! ### Example and counterexample -/

/-- Two profiles of a mod manager. -/
example : ∀ path ∈ (SccSettings.mk ["r6".toList] (some ["p1".toList, "final.redscripts".toList]) none []).touches,
    path ∉ (SccSettings.mk ["r6".toList] (some ["p2".toList, "final.redscripts".toList]) none []).touches :=
  (C89_caches_are_separate_partial (dir := ["p1".toList]) (dir' := ["p2".toList]) (name := "final.redscripts".toList) (out := "final.redscripts".toList)
    (name' := "final.redscripts".toList) (out' := "final.redscripts".toList) rfl rfl rfl rfl (by decide)).1

/-- C89: two different caches in one directory share the backup and the timestamp; a run with the second one, whose time is not
the one recorded by the first, replaces the only copy of the original of the first one, and then the first one is taken for an
original in its compiled form. -/
theorem C89_shared_backup_counterexample : ∃ p q : PathParts, p ≠ q ∧ backupOf p = backupOf q ∧ timestampOf p = timestampOf q ∧
    ∀ (original compiled other : Bytes) (t1 t2 tb : BitVec 128) (a : RunArgs), t1 ≠ t2 → a.separate = false → a.outputTime ≠ t1 →
      (∃ es, inputOf ⟨⟨other, t2⟩, some ⟨original, tb⟩, Timestamp.write t1 [], none⟩ a = some (es, other) ∧
        ((Disk.mk ⟨other, t2⟩ (some ⟨original, tb⟩) (Timestamp.write t1 []) none).exec es).backup = some ⟨other, a.backupTime⟩) ∧
      ∃ es, inputOf ⟨⟨compiled, t1⟩, some ⟨other, a.backupTime⟩, Timestamp.write a.outputTime (Timestamp.write t1 []), none⟩ a = some (es, compiled) := by
  refine ⟨["m".toList, "mods.redscripts".toList], ["m".toList, "mods.cache".toList], by decide, by decide, by decide, ?_⟩
  intro original compiled other t1 t2 tb a ht hs ho
  constructor
  · have hr : Timestamp.read (Timestamp.write t1 []) = .ok (some t1) := C50_written_is_read_back t1 []
    refine ⟨[.backup ⟨a.tornBackup, a.tornTime⟩, .backup ⟨other, a.backupTime⟩], ?_, rfl⟩
    simp [inputOf, hr, hs, ht]
  · have hr : Timestamp.read (Timestamp.write a.outputTime (Timestamp.write t1 [])) = .ok (some a.outputTime) := C50_written_is_read_back _ _
    simp [inputOf, hr, hs, ho]

end Redscript
