import Verif.Scc.PrepModel
import Verif.Scc.ToolProps

/-!
# C85, C86: what a launch compiles, and against which bundle
-/

namespace Redscript

/-! ### Specification -/

/-- A line as it can be written to a file: it has no line feed and does not end in a carriage return. -/
def PlainLine (l : Text) : Prop := '\n' ∉ l ∧ l.getLast? ≠ some '\r'

/-- Lines with their endings; `true` is the one with a carriage return. -/
def writtenLines (ls : List (Text × Bool)) : Text := ls.flatMap fun l => l.1 ++ (if l.2 then ['\r', '\n'] else ['\n'])

/-- The unmodified bundle of the game is in the default cache: it is the backup, or the bundle if there is no backup. -/
def DefaultOriginal (r6 : PathParts) (d : PathDisk) (original : Bytes) : Prop :=
  d (r6 ++ ["cache".toList, "final.redscripts.bk".toList]) = some original ∨
  (d (r6 ++ ["cache".toList, "final.redscripts.bk".toList]) = none ∧ d (r6 ++ ["cache".toList, "final.redscripts".toList]) = some original)

/-! ### Lines -/

theorem bufLines_plain {l : Text} (h : '\n' ∉ l) (line s : Text) : bufLines line (l ++ s) = bufLines (line ++ l) s := by
  induction l generalizing line with
  | nil => simp
  | cons c l ih =>
    simp only [List.mem_cons, not_or] at h
    rw [List.cons_append, bufLines, if_neg (Ne.symm h.1), ih h.2]
    simp

theorem dropReturn_plain {l : Text} (h : l.getLast? ≠ some '\r') : dropReturn l = l := if_neg h

theorem bufLines_line {l : Text} (h : PlainLine l) (b : Bool) (s : Text) :
    bufLines [] (l ++ (if b then ['\r', '\n'] else ['\n']) ++ s) = l :: bufLines [] s := by
  rw [List.append_assoc, bufLines_plain h.1]
  cases b with
  | true =>
    show bufLines ([] ++ l) ('\r' :: '\n' :: s) = _
    rw [bufLines, if_neg (by decide), bufLines, if_pos rfl]
    simp [dropReturn]
  | false =>
    show bufLines ([] ++ l) ('\n' :: s) = _
    rw [bufLines, if_pos rfl]
    simp [dropReturn_plain h.2]

theorem bufLines_written {ls : List (Text × Bool)} (h : ∀ l ∈ ls, PlainLine l.1) (s : Text) :
    bufLines [] (writtenLines ls ++ s) = ls.map (·.1) ++ bufLines [] s := by
  induction ls with
  | nil => rfl
  | cons l ls ih =>
    unfold writtenLines
    rw [List.flatMap_cons, List.append_assoc]
    rw [bufLines_line (h l List.mem_cons_self)]
    rw [List.map_cons, List.cons_append]
    exact congrArg _ (ih fun x hx => h x (List.mem_cons_of_mem _ hx))

theorem bufLines_last {l : Text} (h : '\n' ∉ l) : bufLines [] l = if l = [] then [] else [l] := by
  have := bufLines_plain h [] []
  simp only [List.append_nil, List.nil_append] at this
  rw [this, bufLines]

/-! ### The properties -/

/-- C85: what is compiled is the scripts directory, if it is called `scripts`, and then the directories in the lines of the
file with script paths, in order, however each line ends; the last line (`rest`) may have no ending. The bundle is the file
that is given, or `final.redscripts` in the directory that is given, or the one of the game; the result is saved to the
output that is given, or over the bundle. Missing: other scripts
directories, and files that are not Unicode. -/
theorem C85_launch_compiles_the_paths_partial (parse : Text → PathParts) (r6 : PathParts) (o : LaunchOpts) (ls : List (Text × Bool)) (rest : Text)
    (hd : o.scriptsDir = r6 ++ ["scripts".toList]) (hp : o.scriptPaths = some (some (writtenLines ls ++ rest)))
    (hl : ∀ l ∈ ls, PlainLine l.1) (hr : '\n' ∉ rest) :
    ∃ s, o.settings parse = some s ∧ s.r6Dir = r6 ∧
      s.scriptPaths = o.scriptsDir :: (ls.map (fun l => parse l.1) ++ (if rest = [] then [] else [parse rest])) ∧
      (∀ file, o.cacheFile = some file → s.cachePath = file) ∧
      (∀ dir, o.cacheFile = none → o.cacheDir = some dir → s.cachePath = dir ++ ["final.redscripts".toList]) ∧
      (o.cacheFile = none → o.cacheDir = none → s.cachePath = r6 ++ ["cache".toList, "final.redscripts".toList]) ∧
      (∀ file, o.outputCacheFile = some file → s.outputPath = file) ∧ (o.outputCacheFile = none → s.outputPath = s.cachePath) := by
  unfold LaunchOpts.settings
  rw [if_neg (by rw [hd]; simp)]
  have hdrop : o.scriptsDir.dropLast = r6 := by rw [hd]; simp
  refine ⟨_, rfl, hdrop, ?_, ?_, ?_, ?_, ?_, ?_⟩
  · show (o.scriptsDir.dropLast ++ ["scripts".toList]) :: loadScriptPaths parse o.scriptPaths = _
    rw [hdrop, ← hd, hp]
    show _ :: (bufLines [] (writtenLines ls ++ rest)).map parse = _
    rw [bufLines_written hl, bufLines_last hr]
    split <;> simp
  · intro file h
    simp only [SccSettings.cachePath, Option.getD_some, h]
  · intro dir h1 h2
    simp only [SccSettings.cachePath, Option.getD_some, h1, h2]
    rfl
  · intro h1 h2
    simp only [SccSettings.cachePath, Option.getD_some, h1, h2, hdrop]
    rfl
  · intro file h
    simp only [SccSettings.outputPath, h, Option.getD_some]
  · intro h
    simp only [SccSettings.outputPath, h, Option.getD_none]

/-- C85: without a file with script paths only the scripts directory is compiled. -/
theorem C85_without_paths_file (parse : Text → PathParts) (r6 : PathParts) (o : LaunchOpts) (hd : o.scriptsDir = r6 ++ ["scripts".toList])
    (hp : o.scriptPaths = none) : ∃ s, o.settings parse = some s ∧ s.scriptPaths = [o.scriptsDir] := by
  unfold LaunchOpts.settings
  rw [if_neg (by rw [hd]; simp)]
  have hdrop : o.scriptsDir.dropLast = r6 := by rw [hd]; simp
  refine ⟨_, rfl, ?_⟩
  show (o.scriptsDir.dropLast ++ ["scripts".toList]) :: loadScriptPaths parse o.scriptPaths = _
  rw [hdrop, ← hd, hp]
  rfl

theorem put_get (d : PathDisk) (path : PathParts) (c : Bytes) : d.put path c path = some c := if_pos rfl

theorem put_other {d : PathDisk} {path x : PathParts} (c : Bytes) (h : x ≠ path) : d.put path c x = d x := if_neg h

/-- C86: the preparation of a run leaves every file that exists as it is, and creates at most the bundle and its backup, each as
a copy of the backup or the bundle of the default cache. -/
theorem C86_preparing_overwrites_nothing {s : SccSettings} {d d' : PathDisk} (h : s.prepare d = some d') :
    (∀ path c, d path = some c → d' path = some c) ∧
    (∀ path c, d path = none → d' path = some c → (path = s.cachePath ∨ path = backupOf s.cachePath) ∧
      (d (s.r6Dir ++ ["cache".toList, "final.redscripts.bk".toList]) = some c ∨ d (s.r6Dir ++ ["cache".toList, "final.redscripts".toList]) = some c)) := by
  have step1 : ∀ {d1}, s.prepareCache d = some d1 → d1 = d ∨ (d s.cachePath = none ∧ ∃ c, d1 = d.put s.cachePath c ∧ s.base d = some c) := by
    intro d1 h1
    unfold SccSettings.prepareCache at h1
    split at h1
    · exact .inl (Option.some.inj h1).symm
    · next hn =>
      obtain ⟨c, h2, rfl⟩ := Option.map_eq_some_iff.1 h1
      exact .inr ⟨hn, c, rfl, h2⟩
  have hbase : ∀ {c}, s.base d = some c →
      d (s.r6Dir ++ ["cache".toList, "final.redscripts.bk".toList]) = some c ∨ d (s.r6Dir ++ ["cache".toList, "final.redscripts".toList]) = some c := by
    intro c hc
    unfold SccSettings.base at hc
    split at hc
    · next hb => exact .inl (hb.trans hc)
    · exact .inr hc
  obtain ⟨d1, h1, rfl⟩ := Option.map_eq_some_iff.1 h
  have keep1 : ∀ path c, d path = some c → d1 path = some c := by
    intro path c hc
    rcases step1 h1 with rfl | ⟨hn, x, rfl, -⟩
    · exact hc
    · rw [put_other _ (by rintro rfl; rw [hn] at hc; cases hc)]
      exact hc
  have from1 : ∀ path c, d path = none → d1 path = some c → path = s.cachePath ∧ s.base d = some c := by
    intro path c hn hc
    rcases step1 h1 with rfl | ⟨-, x, rfl, hx⟩
    · rw [hn] at hc; cases hc
    · by_cases e : path = s.cachePath
      · subst e
        rw [put_get] at hc
        cases hc
        exact ⟨rfl, hx⟩
      · rw [put_other _ e, hn] at hc
        cases hc
  have step2 : s.prepareBackup d1 = d1 ∨ (d1 (backupOf s.cachePath) = none ∧
      ∃ c, s.prepareBackup d1 = d1.put (backupOf s.cachePath) c ∧ d1 (s.r6Dir ++ ["cache".toList, backupFileName]) = some c) := by
    unfold SccSettings.prepareBackup
    split
    · next c h2 h3 => exact .inr ⟨h3, c, rfl, h2⟩
    · exact .inl rfl
  constructor
  · intro path c hc
    have hc := keep1 path c hc
    rcases step2 with e | ⟨hn, x, e, -⟩
    · rw [e]; exact hc
    · rw [e, put_other _ (by rintro rfl; rw [hn] at hc; cases hc)]
      exact hc
  · intro path c hn hc
    rcases step2 with e | ⟨hn1, x, e, hx⟩
    · rw [e] at hc
      obtain ⟨k1, k2⟩ := from1 path c hn hc
      exact ⟨.inl k1, hbase k2⟩
    · rw [e] at hc
      by_cases ep : path = backupOf s.cachePath
      · refine ⟨.inr ep, ?_⟩
        rw [ep, put_get] at hc
        cases hc
        cases hb : d (s.r6Dir ++ ["cache".toList, backupFileName]) with
        | some y =>
          rw [keep1 _ _ hb] at hx
          exact .inl (hb.trans hx)
        | none => exact hbase (from1 _ _ hb hx).2
      · rw [put_other _ ep] at hc
        obtain ⟨k1, k2⟩ := from1 path c hn hc
        exact ⟨.inl k1, hbase k2⟩

/-- C86: a run with a bundle that does not exist yet is prepared from the unmodified bundle in the default cache, and compiles
against it, with or without a separate output, whatever the times of the files are. Missing: that this is the bundle of the
current version of the game, which is false. -/
theorem C86_first_run_uses_the_original_partial {s : SccSettings} {d : PathDisk} {original : Bytes} (ho : DefaultOriginal s.r6Dir d original)
    (hc : d s.cachePath = none) (hb : d (backupOf s.cachePath) = none) :
    ∃ d', s.prepare d = some d' ∧ d' s.cachePath = some original ∧ (d' (backupOf s.cachePath) = some original ∨ d' (backupOf s.cachePath) = none) ∧
      ∀ (disk : Disk) (a : RunArgs), some disk.bundle.content = d' s.cachePath → disk.backup.map (·.content) = d' (backupOf s.cachePath) →
        disk.ts = [] → ∃ es, inputOf disk a = some (es, original) := by
  have hbase : s.base d = some original := by
    unfold SccSettings.base
    rcases ho with h | ⟨h1, h2⟩
    · rw [show d (s.r6Dir ++ ["cache".toList, backupFileName]) = some original from h]
    · rw [show d (s.r6Dir ++ ["cache".toList, backupFileName]) = none from h1]
      exact h2
  have h1 : s.prepareCache d = some (d.put s.cachePath original) := by
    unfold SccSettings.prepareCache
    rw [hc, hbase]
    rfl
  have hp : s.prepare d = some (s.prepareBackup (d.put s.cachePath original)) := by
    unfold SccSettings.prepare
    rw [h1]
    rfl
  have hfall : ∀ c, (d.put s.cachePath original) (s.r6Dir ++ ["cache".toList, backupFileName]) = some c → c = original := by
    intro c hx
    by_cases e : s.r6Dir ++ ["cache".toList, backupFileName] = s.cachePath
    · rw [e, put_get] at hx
      exact (Option.some.inj hx).symm
    · rw [put_other _ e] at hx
      rcases ho with h | ⟨h, -⟩
      · rw [show d (s.r6Dir ++ ["cache".toList, backupFileName]) = some original from h] at hx
        exact (Option.some.inj hx).symm
      · rw [show d (s.r6Dir ++ ["cache".toList, backupFileName]) = none from h] at hx
        cases hx
  have hres : (s.prepareBackup (d.put s.cachePath original)) s.cachePath = some original ∧
      ((s.prepareBackup (d.put s.cachePath original)) (backupOf s.cachePath) = some original ∨
       (s.prepareBackup (d.put s.cachePath original)) (backupOf s.cachePath) = none) := by
    have step : s.prepareBackup (d.put s.cachePath original) = (d.put s.cachePath original).put (backupOf s.cachePath) original ∨
        s.prepareBackup (d.put s.cachePath original) = d.put s.cachePath original := by
      unfold SccSettings.prepareBackup
      split
      · next c k1 k2 => exact .inl (by rw [hfall c k1])
      · exact .inr rfl
    rcases step with e1 | e1
    · rw [e1]
      refine ⟨?_, .inl (put_get _ _ _)⟩
      by_cases e : s.cachePath = backupOf s.cachePath
      · rw [← e]; exact put_get _ _ _
      · rw [put_other _ e, put_get]
    · rw [e1]
      refine ⟨put_get _ _ _, ?_⟩
      by_cases e : backupOf s.cachePath = s.cachePath
      · rw [e]; exact .inl (put_get _ _ _)
      · rw [put_other _ e]; exact .inr hb
  refine ⟨_, hp, hres.1, hres.2, fun disk a k1 k2 k3 => ?_⟩
  rw [hres.1] at k1
  have k1 := Option.some.inj k1
  have hts : Timestamp.read disk.ts = .ok none := by rw [k3]; rfl
  unfold inputOf
  simp only [hts]
  cases hbk : disk.backup with
  | none =>
    split
    · exact ⟨_, by rw [k1]⟩
    · simp [k1]
  | some b =>
    have kb : b.content = original := by
      rw [hbk] at k2
      rcases hres.2 with e | e
      · rw [e] at k2; exact Option.some.inj k2
      · rw [e] at k2; cases k2
    split
    · simp [k1]
    · simp [kb]

theorem backupOf_default (dir : PathParts) : backupOf (dir ++ ["cache".toList, bundleFileName]) = dir ++ ["cache".toList, backupFileName] := by
  unfold backupOf
  have e : dir ++ ["cache".toList, bundleFileName] = (dir ++ ["cache".toList]) ++ [bundleFileName] := by simp
  rw [e, List.getLast?_concat]
  show (dir ++ ["cache".toList] ++ [bundleFileName]).dropLast ++ [stemOf bundleFileName ++ ".redscripts.bk".toList] = _
  rw [List.dropLast_concat, show stemOf bundleFileName ++ ".redscripts.bk".toList = backupFileName by decide]
  simp

/-- C86: with the default cache, where there is a bundle, the preparation changes nothing. -/
theorem C86_default_cache_is_left {s : SccSettings} {d : PathDisk} {c : Bytes} (hp : s.cachePath = s.r6Dir ++ ["cache".toList, "final.redscripts".toList])
    (hc : d s.cachePath = some c) : s.prepare d = some d := by
  have h1 : s.prepareCache d = some d := by
    unfold SccSettings.prepareCache
    rw [hc]
  unfold SccSettings.prepare
  rw [h1]
  show some (s.prepareBackup d) = some d
  congr 1
  unfold SccSettings.prepareBackup
  rw [show s.cachePath = s.r6Dir ++ ["cache".toList, bundleFileName] from hp, backupOf_default]
  cases d (s.r6Dir ++ ["cache".toList, backupFileName]) <;> rfl

/-! ### Examples and counterexamples -/

namespace PrepDemo

/-- Paths are split at slashes. -/
def parse (t : Text) : PathParts := (splitOnChar '/' t).filter fun p => !p.isEmpty

def game : PathParts := ["game".toList, "r6".toList]

/-- A file with two lines that end differently and one without an ending. -/
def opts : LaunchOpts := ⟨game ++ ["scripts".toList], some ["my".toList], some (some "a/b\r\nc d\ne".toList), none, none⟩

example : ∃ s, opts.settings parse = some s ∧
    s.scriptPaths = [game ++ ["scripts".toList], ["a".toList, "b".toList], ["c d".toList], ["e".toList]] ∧
    s.cachePath = ["my".toList, "final.redscripts".toList] := by
  obtain ⟨s, h1, -, h2, -, h3, -⟩ := C85_launch_compiles_the_paths_partial parse game opts [("a/b".toList, true), ("c d".toList, false)] "e".toList rfl
    (by decide) (by unfold PlainLine; decide) (by decide)
  exact ⟨s, h1, h2.trans (by decide), h3 _ rfl rfl⟩

/-- The default cache, where the tool has compiled before: the backup is the original. -/
def cached : PathDisk := fun p =>
  if p = game ++ ["cache".toList, "final.redscripts".toList] then some [9] else
  if p = game ++ ["cache".toList, "final.redscripts.bk".toList] then some [1] else none

def custom : SccSettings := ⟨game, some ["my".toList, "final.redscripts".toList], none, []⟩

/-- A custom bundle and its backup are created from the backup. -/
example : ∃ d', custom.prepare cached = some d' ∧ d' ["my".toList, "final.redscripts".toList] = some [1] ∧
    d' (game ++ ["cache".toList, "final.redscripts".toList]) = some [9] := by
  obtain ⟨d', h1, h2, -, -⟩ := C86_first_run_uses_the_original_partial (s := custom) (d := cached) (original := [1]) (.inl (by decide)) (by decide) (by decide)
  exact ⟨d', h1, h2, (C86_preparing_overwrites_nothing h1).1 _ _ (by decide)⟩

example : (SccSettings.mk game none none []).prepare cached = some cached :=
  C86_default_cache_is_left (c := [9]) rfl (by decide)

end PrepDemo

open PrepDemo in
/-- C85: a scripts directory with another name is not compiled; `scripts` beside it is. -/
theorem C85_scripts_directory_counterexample : ∃ (o : LaunchOpts) (s : SccSettings), o.settings parse = some s ∧
    o.scriptsDir = game ++ ["mods".toList] ∧ s.scriptPaths = [game ++ ["scripts".toList]] :=
  ⟨⟨game ++ ["mods".toList], none, none, none, none⟩, _, rfl, rfl, by decide⟩

open PrepDemo in
/-- C85: if the file with script paths cannot be read or is not Unicode, none of its directories is compiled, and the launch
goes on. -/
theorem C85_unreadable_paths_counterexample : ∃ (o : LaunchOpts) (s : SccSettings), o.scriptPaths = some none ∧ o.settings parse = some s ∧
    s.scriptPaths = [o.scriptsDir] :=
  ⟨⟨game ++ ["scripts".toList], none, some none, none, none⟩, _, rfl, rfl, by decide⟩

open PrepDemo in
/-- C86: after an update of the game, which replaces the bundle and leaves the backup, a new custom bundle is prepared from the
backup, and the run compiles against the bundle of the old version, though a run with the default cache would use the new one. -/
theorem C86_stale_backup_counterexample : ∃ (d d' : PathDisk) (old new : Bytes), old ≠ new ∧
    d (game ++ ["cache".toList, "final.redscripts".toList]) = some new ∧ d (game ++ ["cache".toList, "final.redscripts.bk".toList]) = some old ∧
    custom.prepare d = some d' ∧ d' custom.cachePath = some old ∧
    ∀ (t t' t0 : BitVec 128) (a : RunArgs), a.separate = false → t0 ≠ t →
      (∃ es, inputOf ⟨⟨old, t⟩, some ⟨old, t'⟩, [], none⟩ a = some (es, old)) ∧
      ∃ es, inputOf ⟨⟨new, t⟩, some ⟨old, t'⟩, Timestamp.write t0 [], none⟩ a = some (es, new) := by
  refine ⟨cached, _, [1], [9], by decide, by decide, by decide, rfl, by decide, fun t t' t0 a ha ht => ⟨?_, ?_⟩⟩
  · simp [inputOf, Timestamp.read, ha]
  · have hr : Timestamp.read (Timestamp.write t0 []) = .ok (some t0) := C50_written_is_read_back t0 []
    simp [inputOf, hr, ha, ht]

end Redscript
