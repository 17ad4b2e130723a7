import Verif.Scc.LaunchProps
import Verif.Scc.PrepSeparate

/-!
# C90: a whole launch over the files of the disk

Model of `try_compile` (scc/lib/src/lib.rs:48-97) as a whole: the preparation (`Scc/PrepModel`), the timestamp of earlier versions,
and the run (`Scc/LaunchModel`), over files by path; and the properties of the first launch and of later ones.
-/

namespace Redscript

/-! ### Model -/

/-- A file with the content, or no file. -/
def PathDisk.store (d : PathDisk) (path : PathParts) (content : Option Bytes) : PathDisk := fun x => if x = path then content else d x

/-- The timestamp of earlier versions (scc/lib/src/lib.rs:112-115). -/
def SccSettings.legacyPath (s : SccSettings) : PathParts := s.cachePath.dropLast ++ ["redscript.ts".toList]

/-- Renaming the timestamp of earlier versions, and creating the timestamp (scc/lib/src/lib.rs:117-130). -/
def SccSettings.openTimestamp (s : SccSettings) (d : PathDisk) : PathDisk :=
  match d (timestampOf s.cachePath), d s.legacyPath with
  | some _, _ => d
  | none, some c => (d.store s.legacyPath none).store (timestampOf s.cachePath) (some c)
  | none, none => d.store (timestampOf s.cachePath) (some [])

/-- `is_output_file_separate` (scc/lib/src/lib.rs:107-110), for paths that are already normal. -/
def SccSettings.separate (s : SccSettings) : Bool := decide (s.outputPath ≠ s.cachePath)

/-- The files of a run; `times` are the times of the files. -/
def SccSettings.diskOf (s : SccSettings) (times : PathParts → BitVec 128) (d : PathDisk) : Option Disk :=
  (d s.cachePath).map fun c =>
    ⟨⟨c, times s.cachePath⟩, (d (backupOf s.cachePath)).map fun b => ⟨b, times (backupOf s.cachePath)⟩, (d (timestampOf s.cachePath)).getD [],
      if s.separate then (d s.outputPath).map fun o => ⟨o, times s.outputPath⟩ else none⟩

/-- The files after a run. The four paths are taken to be different, except for an output that is the bundle. -/
def SccSettings.putBack (s : SccSettings) (disk : Disk) (d : PathDisk) : PathDisk :=
  let d := ((d.store s.cachePath (some disk.bundle.content)).store (backupOf s.cachePath) (disk.backup.map (·.content))).store
    (timestampOf s.cachePath) (some disk.ts)
  if s.separate then d.store s.outputPath (disk.output.map (·.content)) else d

/-- `try_compile` (scc/lib/src/lib.rs:48-97): the files and the result; `none` is an error before the run. What is compiled is in
`a`. -/
def SccSettings.launch (s : SccSettings) (times : PathParts → BitVec 128) (a : RunArgs) (d : PathDisk) : Option (PathDisk × RunResult) :=
  match s.prepare d with
  | none => none
  | some d1 =>
    match s.diskOf times (s.openTimestamp d1) with
    | none => none
    | some disk =>
      let plan := runPlan disk { a with separate := s.separate }
      some (s.putBack (disk.exec plan.1) (s.openTimestamp d1), plan.2)

/-! ### Specification -/

/-- The files of a cache have different paths. -/
structure SccSettings.Distinct (s : SccSettings) : Prop where
  backup : backupOf s.cachePath ≠ s.cachePath
  timestamp : timestampOf s.cachePath ≠ s.cachePath
  both : timestampOf s.cachePath ≠ backupOf s.cachePath
  outBackup : s.outputPath ≠ backupOf s.cachePath
  outTimestamp : s.outputPath ≠ timestampOf s.cachePath

/-- What the scripts of a run make of a bundle: it is read, is no compiled one, compiles, and is saved as these bytes. -/
def CompilesTo (a : RunArgs) (original saved : Bytes) : Prop :=
  ∃ b pool w, ScriptBundle.load original = .ok b ∧ isSigned b.pool = false ∧ a.compile b.pool = some pool ∧
    ScriptBundle.save a.crc { b with pool := addSignature pool } ⟨[], 0⟩ = .ok w ∧ w.buf = saved

/-! ### Proofs -/

theorem store_get (d : PathDisk) (path : PathParts) (c : Option Bytes) : d.store path c path = c := if_pos rfl

theorem store_other {d : PathDisk} {path x : PathParts} (c : Option Bytes) (h : x ≠ path) : d.store path c x = d x := if_neg h

theorem runPlan_of_input {disk : Disk} {a : RunArgs} {es : List Effect} {original saved : Bytes} (h : inputOf disk a = some (es, original))
    (hc : CompilesTo a original saved) :
    runPlan disk a = (es ++ [.output a.separate ⟨a.tornOutput, a.tornTime⟩, .output a.separate ⟨saved, a.outputTime⟩, .stamp a.outputTime],
      .success original saved) := by
  obtain ⟨b, pool, w, h1, h2, h3, h4, rfl⟩ := hc
  unfold runPlan
  simp only [h, h1, h2, h3, h4]
  rfl

/-- C90: a launch changes no other file than the bundle, its backup, its timestamp (under its present or former name) and the
output. -/
theorem C90_only_these_files {s : SccSettings} {times : PathParts → BitVec 128} {a : RunArgs} {d d' : PathDisk} {r : RunResult}
    (h : s.launch times a d = some (d', r)) {path : PathParts} (hp : path ∉ s.touches) : d' path = d path := by
  unfold SccSettings.launch at h
  split at h
  · cases h
  · next d1 h1 =>
    split at h
    · cases h
    · next disk h2 =>
      cases h
      simp only [SccSettings.touches, List.mem_cons, List.not_mem_nil, or_false, not_or] at hp
      obtain ⟨p1, p2, p3, p4, p5⟩ := hp
      have e1 : d1 path = d path := by
        obtain ⟨k1, k2⟩ := C86_preparing_overwrites_nothing h1
        cases hx : d path with
        | some c => exact k1 _ _ hx
        | none =>
          cases hy : d1 path with
          | none => rfl
          | some c => exact ((k2 _ _ hx hy).1.elim p1 p2).elim
      have e2 : s.openTimestamp d1 path = d1 path := by
        unfold SccSettings.openTimestamp
        cases d1 (timestampOf s.cachePath) with
        | some _ => rfl
        | none =>
          cases d1 s.legacyPath with
          | some c =>
            show (d1.store s.legacyPath none).store (timestampOf s.cachePath) (some c) path = _
            rw [store_other _ p3, store_other _ (show path ≠ s.legacyPath from p4)]
          | none =>
            show d1.store (timestampOf s.cachePath) (some []) path = _
            rw [store_other _ p3]
      rw [← e1, ← e2]
      unfold SccSettings.putBack
      split
      · rw [store_other _ p5, store_other _ p3, store_other _ p2, store_other _ p1]
      · rw [store_other _ p3, store_other _ p2, store_other _ p1]

/-- What a launch does when the prepared files are known. -/
theorem launch_of {s : SccSettings} {times : PathParts → BitVec 128} {a : RunArgs} {d d1 : PathDisk} {disk : Disk} {es : List Effect}
    {original saved : Bytes} (h1 : s.prepare d = some d1) (h2 : s.diskOf times (s.openTimestamp d1) = some disk)
    (h3 : inputOf disk { a with separate := s.separate } = some (es, original)) (hc : CompilesTo a original saved) :
    s.launch times a d = some (s.putBack (((disk.exec es).apply (.output s.separate ⟨saved, a.outputTime⟩)).apply (.stamp a.outputTime))
      (s.openTimestamp d1), .success original saved) := by
  unfold SccSettings.launch
  simp only [h1, h2]
  rw [runPlan_of_input h3 (show CompilesTo { a with separate := s.separate } original saved from hc)]
  have e : disk.exec (es ++ [.output s.separate ⟨a.tornOutput, a.tornTime⟩, .output s.separate ⟨saved, a.outputTime⟩, .stamp a.outputTime]) =
      ((disk.exec es).apply (.output s.separate ⟨saved, a.outputTime⟩)).apply (.stamp a.outputTime) := by
    unfold Disk.exec
    rw [List.foldl_append]
    cases s.separate <;> rfl
  show some (s.putBack (disk.exec (es ++ _)) _, _) = _
  rw [e]

theorem putBack_bundle {s : SccSettings} (hs : s.Distinct) (disk : Disk) (d : PathDisk) : s.putBack disk d s.cachePath = some disk.bundle.content := by
  unfold SccSettings.putBack
  split
  · next h =>
    have : s.cachePath ≠ s.outputPath := fun e => by simp [SccSettings.separate, e] at h
    rw [store_other _ this, store_other _ hs.timestamp.symm, store_other _ hs.backup.symm, store_get]
  · rw [store_other _ hs.timestamp.symm, store_other _ hs.backup.symm, store_get]

theorem putBack_backup {s : SccSettings} (hs : s.Distinct) (disk : Disk) (d : PathDisk) :
    s.putBack disk d (backupOf s.cachePath) = disk.backup.map (·.content) := by
  unfold SccSettings.putBack
  split
  · rw [store_other _ hs.outBackup.symm, store_other _ hs.both.symm, store_get]
  · rw [store_other _ hs.both.symm, store_get]

theorem putBack_timestamp {s : SccSettings} (hs : s.Distinct) (disk : Disk) (d : PathDisk) :
    s.putBack disk d (timestampOf s.cachePath) = some disk.ts := by
  unfold SccSettings.putBack
  split
  · rw [store_other _ hs.outTimestamp.symm, store_get]
  · rw [store_get]

theorem putBack_output {s : SccSettings} (disk : Disk) (d : PathDisk) (h : s.separate = true) :
    s.putBack disk d s.outputPath = disk.output.map (·.content) := by
  unfold SccSettings.putBack
  rw [if_pos h, store_get]

/-- C90: the first launch with a cache that does not exist yet compiles the scripts against the unmodified bundle of the game, saves
the result to the output, and keeps the unmodified bundle: as the cache if the output is another file, else as its backup. -/
theorem C90_first_launch {s : SccSettings} {times : PathParts → BitVec 128} {a : RunArgs} {d : PathDisk} {original saved : Bytes}
    (hs : s.Distinct) (ho : DefaultOriginal s.r6Dir d original) (hc : d s.cachePath = none) (hb : d (backupOf s.cachePath) = none)
    (ht : d (timestampOf s.cachePath) = none) (hl : d (s.cachePath.dropLast ++ ["redscript.ts".toList]) = none)
    (hlc : s.cachePath.dropLast ++ ["redscript.ts".toList] ≠ s.cachePath) (hlb : s.cachePath.dropLast ++ ["redscript.ts".toList] ≠ backupOf s.cachePath)
    (hcomp : CompilesTo a original saved) :
    ∃ d', s.launch times a d = some (d', .success original saved) ∧ d' s.outputPath = some saved ∧
      (s.outputPath ≠ s.cachePath → d' s.cachePath = some original) ∧
      (s.outputPath = s.cachePath → d' (backupOf s.cachePath) = some original ∧
        d' (timestampOf s.cachePath) = some (Timestamp.write a.outputTime [])) := by
  obtain ⟨d1, h1, k1, k2, -⟩ := C86_first_run_uses_the_original_partial ho hc hb
  obtain ⟨-, p2⟩ := C86_preparing_overwrites_nothing h1
  have none1 : ∀ path, d path = none → path ≠ s.cachePath → path ≠ backupOf s.cachePath → d1 path = none := by
    intro path hn n1 n2
    cases hy : d1 path with
    | none => rfl
    | some c => exact ((p2 _ _ hn hy).1.elim n1 n2).elim
  have t1 := none1 _ ht hs.timestamp hs.both
  have l1 : d1 s.legacyPath = none := none1 _ hl hlc hlb
  have hopen : s.openTimestamp d1 = d1.store (timestampOf s.cachePath) (some []) := by
    unfold SccSettings.openTimestamp
    rw [t1, l1]
  have hdisk : s.diskOf times (s.openTimestamp d1) = some ⟨⟨original, times s.cachePath⟩,
      (d1 (backupOf s.cachePath)).map fun b => ⟨b, times (backupOf s.cachePath)⟩, [],
      if s.separate then (s.openTimestamp d1 s.outputPath).map fun o => ⟨o, times s.outputPath⟩ else none⟩ := by
    unfold SccSettings.diskOf
    rw [hopen, store_other _ hs.timestamp.symm, k1, store_other _ hs.both.symm, store_get]
    rfl
  have hread : Timestamp.read [] = .ok none := rfl
  by_cases hsep : s.separate = true
  · have hne : s.outputPath ≠ s.cachePath := by simpa [SccSettings.separate] using hsep
    have hin : ∃ es, inputOf (Disk.mk ⟨original, times s.cachePath⟩ ((d1 (backupOf s.cachePath)).map fun b => ⟨b, times (backupOf s.cachePath)⟩) []
        (if s.separate then (s.openTimestamp d1 s.outputPath).map fun o => ⟨o, times s.outputPath⟩ else none)) { a with separate := s.separate } =
        some (es, original) ∧ ∀ x : Disk, (x.exec es).bundle = x.bundle := by
      unfold inputOf
      simp only [hread, hsep, if_true]
      cases d1 (backupOf s.cachePath) with
      | none => exact ⟨[], rfl, fun _ => rfl⟩
      | some b => exact ⟨[.removeBackup], by simp, fun _ => rfl⟩
    obtain ⟨es, hin, hes⟩ := hin
    refine ⟨_, launch_of h1 hdisk hin hcomp, ?_, fun _ => ?_, fun e => absurd e hne⟩
    · rw [putBack_output _ _ hsep, hsep]
      rfl
    · rw [putBack_bundle hs, hsep]
      show some ((Disk.exec _ es).bundle).content = _
      rw [hes]
  · have hsep : s.separate = false := by simpa using hsep
    have heq : s.outputPath = s.cachePath := by simpa [SccSettings.separate] using hsep
    have hin : ∃ es, inputOf (Disk.mk ⟨original, times s.cachePath⟩ ((d1 (backupOf s.cachePath)).map fun b => ⟨b, times (backupOf s.cachePath)⟩) []
        (if s.separate then (s.openTimestamp d1 s.outputPath).map fun o => ⟨o, times s.outputPath⟩ else none)) { a with separate := s.separate } =
        some (es, original) ∧ (Disk.exec (Disk.mk ⟨original, times s.cachePath⟩ ((d1 (backupOf s.cachePath)).map fun b => ⟨b, times (backupOf s.cachePath)⟩) []
        (if s.separate then (s.openTimestamp d1 s.outputPath).map fun o => ⟨o, times s.outputPath⟩ else none)) es).backup.map (·.content) = some original ∧
        ∀ x : Disk, (x.exec es).ts = x.ts := by
      unfold inputOf
      simp only [hread, hsep]
      rcases k2 with k2 | k2
      · rw [k2]
        exact ⟨[], rfl, rfl, fun _ => rfl⟩
      · rw [k2]
        exact ⟨[.backup ⟨a.tornBackup, a.tornTime⟩, .backup ⟨original, a.backupTime⟩], by simp, rfl, fun _ => rfl⟩
    obtain ⟨es, hin, hbk, hts⟩ := hin
    refine ⟨_, launch_of h1 hdisk hin hcomp, ?_, fun e => absurd heq e, fun _ => ⟨?_, ?_⟩⟩
    · rw [heq, putBack_bundle hs, hsep]
      rfl
    · rw [putBack_backup hs, ← hbk]
      generalize Disk.exec _ es = x
      rw [hsep]
      rfl
    · rw [putBack_timestamp hs, hsep]
      show some (Timestamp.write a.outputTime (Disk.exec _ es).ts) = _
      rw [hts]

/-- C90: a later launch over a cache that was compiled in place, whose time is the one that was recorded, compiles its scripts against
the unmodified bundle again, and leaves the files so that this is true of the next one: nothing of the scripts of the earlier
launches is left. -/
theorem C90_later_launch {s : SccSettings} {times : PathParts → BitVec 128} {a : RunArgs} {d : PathDisk} {original saved earlier ts : Bytes}
    {t : BitVec 128} (hs : s.Distinct) (hout : s.outputPath = s.cachePath) (hc : d s.cachePath = some earlier)
    (hb : d (backupOf s.cachePath) = some original) (ht : d (timestampOf s.cachePath) = some (Timestamp.write t ts)) (htime : times s.cachePath = t)
    (hcomp : CompilesTo a original saved) :
    ∃ d', s.launch times a d = some (d', .success original saved) ∧ d' s.cachePath = some saved ∧ d' (backupOf s.cachePath) = some original ∧
      ∃ ts', d' (timestampOf s.cachePath) = some (Timestamp.write a.outputTime ts') := by
  have h1 : s.prepare d = some d := by
    unfold SccSettings.prepare SccSettings.prepareCache
    rw [hc]
    show some (s.prepareBackup d) = some d
    unfold SccSettings.prepareBackup
    rw [hb]
    cases d (s.r6Dir ++ ["cache".toList, backupFileName]) <;> rfl
  have hsep : s.separate = false := by simp [SccSettings.separate, hout]
  have hopen : s.openTimestamp d = d := by
    unfold SccSettings.openTimestamp
    rw [ht]
  have hdisk : s.diskOf times (s.openTimestamp d) = some ⟨⟨earlier, t⟩, some ⟨original, times (backupOf s.cachePath)⟩, Timestamp.write t ts, none⟩ := by
    unfold SccSettings.diskOf
    rw [hopen, hc, hb, ht, hsep, htime]
    rfl
  have hread := C50_written_is_read_back t ts
  have hin : inputOf ⟨⟨earlier, t⟩, some ⟨original, times (backupOf s.cachePath)⟩, Timestamp.write t ts, none⟩ { a with separate := s.separate } =
      some ([], original) := by
    unfold inputOf
    simp [hread, hsep]
  refine ⟨_, launch_of h1 hdisk hin hcomp, ?_, ?_, Timestamp.write t ts, ?_⟩
  · rw [putBack_bundle hs, hsep]; rfl
  · rw [putBack_backup hs, hsep]; rfl
  · rw [putBack_timestamp hs, hsep]; rfl

/-! ### Example -/

namespace PathDemo

def compilesB (a : RunArgs) (original : Bytes) : Bool :=
  match ScriptBundle.load original with
  | .error _ => false
  | .ok b =>
    match a.compile b.pool with
    | none => false
    | some pool =>
      match ScriptBundle.save a.crc { b with pool := addSignature pool } ⟨[], 0⟩ with
      | .error _ => false
      | .ok _ => !isSigned b.pool

theorem of_compilesB {a : RunArgs} {original : Bytes} (h : compilesB a original = true) : ∃ saved, CompilesTo a original saved := by
  unfold compilesB at h
  split at h
  · cases h
  · next b h1 =>
    split at h
    · cases h
    · next pool h2 =>
      split at h
      · cases h
      · next w h3 => exact ⟨_, b, pool, w, h1, by simpa using h, h2, h3, rfl⟩

/-- A custom cache that does not exist yet. -/
def mine : SccSettings := ⟨["r6".toList], some ["my".toList, "final.redscripts".toList], none, []⟩

/-- The files of a new game. -/
def files : PathDisk := fun p => if p = ["r6".toList, "cache".toList, "final.redscripts".toList] then some LaunchDemo.game else none

theorem mine_distinct : mine.Distinct := ⟨by decide, by decide, by decide, by decide, by decide⟩

theorem files_none {p : PathParts} (h : p ≠ ["r6".toList, "cache".toList, "final.redscripts".toList]) : files p = none := if_neg h

/-- The first launch, and a second one with other scripts; both compile against the bundle of the game. -/
example : ∃ d' saved d'' saved', mine.launch (fun _ => 3) (LaunchDemo.args false true 5) files = some (d', .success LaunchDemo.game saved) ∧
    mine.launch (fun _ => 105) (LaunchDemo.args false true 7) d' = some (d'', .success LaunchDemo.game saved') := by
  obtain ⟨saved, h1⟩ := of_compilesB (a := LaunchDemo.args false true 5) (original := LaunchDemo.game) (by decide +kernel)
  obtain ⟨saved', h2⟩ := of_compilesB (a := LaunchDemo.args false true 7) (original := LaunchDemo.game) (by decide +kernel)
  obtain ⟨d', k1, k2, -, k3⟩ := C90_first_launch (times := fun _ => 3) (d := files) mine_distinct (.inr ⟨files_none (by decide), if_pos rfl⟩)
    (files_none (by decide)) (files_none (by decide)) (files_none (by decide)) (files_none (by decide)) (by decide) (by decide) h1
  obtain ⟨k3, k4⟩ := k3 rfl
  obtain ⟨d'', k5, -⟩ := C90_later_launch (times := fun _ => 105) mine_distinct rfl k2 k3 k4 rfl h2
  exact ⟨d', saved, d'', saved', k1, k5⟩

end PathDemo

end Redscript
