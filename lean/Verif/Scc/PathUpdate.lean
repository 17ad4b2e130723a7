import Verif.Scc.PathIndependent

/-!
# C91: launches after an update of the game

An update replaces the cache by a new unmodified bundle, with another time than the one recorded.
-/

namespace Redscript

/-! ### Proofs -/

/-- C91: the first launch in place after the game has replaced the cache: if the scripts compile, the cache is what they make of the new
bundle, which takes the place of the old one as the backup; so later launches use it (`C90_later_launch`). If they do not, the cache is
left, and it is the backup as well. -/
theorem C91_launch_after_update {s : SccSettings} {times : PathParts → BitVec 128} {a : RunArgs} {d : PathDisk} {updated old ts : Bytes}
    {t : BitVec 128} (hne : s.cachePath ≠ []) (hout : s.outputPath = s.cachePath) (hc : d s.cachePath = some updated)
    (hb : d (backupOf s.cachePath) = some old) (ht : d (timestampOf s.cachePath) = some (Timestamp.write t ts)) (htime : times s.cachePath ≠ t) :
    (∀ saved, CompilesTo a updated saved →
      ∃ d', s.launch times a d = some (d', .success updated saved) ∧ d' s.cachePath = some saved ∧
        d' (backupOf s.cachePath) = some updated ∧ ∃ ts', d' (timestampOf s.cachePath) = some (Timestamp.write a.outputTime ts')) ∧
    (Refuses a updated → ∃ d', s.launch times a d = some (d', .failed) ∧ d' s.cachePath = some updated ∧
        d' (backupOf s.cachePath) = some updated ∧ d' (timestampOf s.cachePath) = some (Timestamp.write t ts)) := by
  have hs := C90_in_place_is_distinct hne hout
  have h1 : s.prepare d = some d := by
    unfold SccSettings.prepare SccSettings.prepareCache
    rw [hc]
    show some (s.prepareBackup d) = some d
    unfold SccSettings.prepareBackup
    rw [hb]
    cases d (s.r6Dir ++ ["cache".toList, backupFileName]) <;> rfl
  have hsep : s.separate = false := by simp [SccSettings.separate, hout]
  have hopen : s.openTimestamp d = d := by
    unfold SccSettings.openTimestamp
    rw [ht]
  have hdisk : s.diskOf times (s.openTimestamp d) =
      some ⟨⟨updated, times s.cachePath⟩, some ⟨old, times (backupOf s.cachePath)⟩, Timestamp.write t ts, none⟩ := by
    unfold SccSettings.diskOf
    rw [hopen, hc, hb, ht, hsep]
    rfl
  have hread := C50_written_is_read_back t ts
  have hin : inputOf ⟨⟨updated, times s.cachePath⟩, some ⟨old, times (backupOf s.cachePath)⟩, Timestamp.write t ts, none⟩
      { a with separate := s.separate } =
      some ([.backup ⟨a.tornBackup, a.tornTime⟩, .backup ⟨updated, a.backupTime⟩], updated) := by
    unfold inputOf
    simp [hread, hsep, Ne.symm htime]
  constructor
  · intro saved hcomp
    refine ⟨_, launch_of h1 hdisk hin hcomp, ?_, ?_, Timestamp.write t ts, ?_⟩
    · rw [putBack_bundle hs, hsep]; rfl
    · rw [putBack_backup hs, hsep]; rfl
    · rw [putBack_timestamp hs, hsep]; rfl
  · intro hr
    refine ⟨_, launch_of_refused h1 hdisk hin hr, ?_, ?_, ?_⟩
    · rw [putBack_bundle hs]; rfl
    · rw [putBack_backup hs]; rfl
    · rw [putBack_timestamp hs]; rfl

/-! ### Example -/

namespace UpdateDemo

/-- A launch, an update of the game, and another launch, which compiles against the new bundle. -/
example : ∃ d1 d2 saved saved', NewGameDemo.plain.launch (fun _ => 1) (LaunchDemo.args false true 5) PathDemo.files =
      some (d1, .success LaunchDemo.game saved) ∧
    NewGameDemo.plain.launch (fun _ => 200) (LaunchDemo.args false true 300) (d1.store NewGameDemo.plain.cachePath (some LaunchDemo.game2)) =
      some (d2, .success LaunchDemo.game2 saved') ∧ d2 (backupOf NewGameDemo.plain.cachePath) = some LaunchDemo.game2 := by
  obtain ⟨saved, h1⟩ := PathDemo.of_compilesB (a := LaunchDemo.args false true 5) (original := LaunchDemo.game) (by decide +kernel)
  obtain ⟨saved', h2⟩ := PathDemo.of_compilesB (a := LaunchDemo.args false true 300) (original := LaunchDemo.game2) (by decide +kernel)
  obtain ⟨d1, k1, -, k2, k3⟩ := (C91_first_launch_in_place (times := fun _ => 1) (by decide) rfl NewGameDemo.plain_new).1 _ h1
  obtain ⟨d2, j1, -, j2, -⟩ := (C91_launch_after_update (s := NewGameDemo.plain) (times := fun _ => 200)
    (d := d1.store NewGameDemo.plain.cachePath (some LaunchDemo.game2)) (by decide) rfl (store_get _ _ _)
    ((store_other _ (by decide)).trans k2) ((store_other _ (by decide)).trans k3) (by decide)).1 _ h2
  exact ⟨d1, d2, saved, saved', k1, j1, j2⟩

end UpdateDemo

end Redscript
