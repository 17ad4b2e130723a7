import Verif.Scc.PathLaunch

/-!
# C91: any number of launches

What is left of a sequence of launches (`Scc/PathLaunch`), some of which may refuse their scripts, with the output in place of the
cache or in another file.
-/

namespace Redscript

/-! ### Specification -/

/-- The scripts of a run do not compile against the bundle. -/
def Refuses (a : RunArgs) (original : Bytes) : Prop :=
  ∃ b, ScriptBundle.load original = .ok b ∧ isSigned b.pool = false ∧ a.compile b.pool = none

/-- Launches one after another, the last one first, from some files and the time of the cache to others (scc/lib/src/lib.rs:48-97).
A launch that succeeds in place sets the time of the cache; for one with another output the time may be any. -/
inductive Launches (s : SccSettings) (d : PathDisk) (t : BitVec 128) : List (RunArgs × RunResult) → PathDisk → BitVec 128 → Prop
  | start : Launches s d t [] d t
  | failed {d1 d2 : PathDisk} {t1 : BitVec 128} {times : PathParts → BitVec 128} {a : RunArgs} {l : List (RunArgs × RunResult)} :
    Launches s d t l d1 t1 → times s.cachePath = t1 → s.launch times a d1 = some (d2, .failed) → Launches s d t ((a, .failed) :: l) d2 t1
  | success {d1 d2 : PathDisk} {t1 t2 : BitVec 128} {times : PathParts → BitVec 128} {a : RunArgs} {l : List (RunArgs × RunResult)}
    {input output : Bytes} :
    Launches s d t l d1 t1 → times s.cachePath = t1 → s.launch times a d1 = some (d2, .success input output) →
    (s.outputPath = s.cachePath → t2 = a.outputTime) → Launches s d t ((a, .success input output) :: l) d2 t2

/-- What the last successful launch saved, if there is one. -/
def lastSaved : List (RunArgs × RunResult) → Option Bytes
  | [] => none
  | (_, .success _ saved) :: _ => some saved
  | (_, .failed) :: l => lastSaved l

/-- Each launch ends as its own scripts make it end over the unmodified bundle, whatever the others were. -/
def EachOfOriginal (original : Bytes) (l : List (RunArgs × RunResult)) : Prop :=
  ∀ x ∈ l, (Refuses x.1 original ∧ x.2 = .failed) ∨ ∃ saved, CompilesTo x.1 original saved ∧ x.2 = .success original saved

/-- The scripts of each launch compile or do not. -/
def Decided (original : Bytes) (l : List (RunArgs × RunResult)) : Prop :=
  ∀ x ∈ l, Refuses x.1 original ∨ ∃ saved, CompilesTo x.1 original saved

/-- The backup of the default cache (scc/lib/src/lib.rs:69). -/
def SccSettings.fallback (s : SccSettings) : PathParts := s.r6Dir ++ ["cache".toList, "final.redscripts.bk".toList]

/-- The files of a cache and of the default one do not get in each other's way. -/
structure SccSettings.Apart (s : SccSettings) : Prop extends s.Distinct where
  output : s.outputPath ≠ s.cachePath
  fallbackTs : s.fallback ≠ timestampOf s.cachePath
  fallbackLegacy : s.fallback ≠ s.cachePath.dropLast ++ ["redscript.ts".toList]
  fallbackOut : s.fallback ≠ s.outputPath
  legacyBackup : s.cachePath.dropLast ++ ["redscript.ts".toList] ≠ backupOf s.cachePath

/-- The cache is the unmodified bundle, and so are the backups, if there are any; the timestamp can be read. -/
structure Unmodified (s : SccSettings) (d : PathDisk) (original : Bytes) : Prop where
  cache : d s.cachePath = some original
  backup : ∀ c, d (backupOf s.cachePath) = some c → c = original
  fallback : ∀ c, d s.fallback = some c → c = original
  timestamp : (d (timestampOf s.cachePath) = none ∧ d (s.cachePath.dropLast ++ ["redscript.ts".toList]) = none) ∨
    ∃ c v, d (timestampOf s.cachePath) = some c ∧ Timestamp.read c = .ok v

/-! ### Proofs -/

theorem refuses_not_compiles {a : RunArgs} {original saved : Bytes} (h : Refuses a original) : ¬ CompilesTo a original saved := by
  obtain ⟨b, h1, -, h2⟩ := h
  rintro ⟨b', pool, w, k1, -, k2, -⟩
  rw [h1] at k1
  cases k1
  rw [h2] at k2
  cases k2

theorem compilesTo_unique {a : RunArgs} {original saved saved' : Bytes} (h : CompilesTo a original saved) (h' : CompilesTo a original saved') :
    saved = saved' := by
  obtain ⟨b, pool, w, k1, -, k2, k3, rfl⟩ := h
  obtain ⟨b', pool', w', j1, -, j2, j3, rfl⟩ := h'
  rw [k1] at j1
  cases j1
  rw [k2] at j2
  cases j2
  rw [k3] at j3
  cases j3
  rfl

theorem runPlan_of_refused {disk : Disk} {a : RunArgs} {es : List Effect} {original : Bytes} (h : inputOf disk a = some (es, original))
    (hc : Refuses a original) : runPlan disk a = (es, .failed) := by
  obtain ⟨b, h1, h2, h3⟩ := hc
  unfold runPlan
  simp only [h, h1, h2, h3]
  rfl

theorem launch_of_refused {s : SccSettings} {times : PathParts → BitVec 128} {a : RunArgs} {d d1 : PathDisk} {disk : Disk} {es : List Effect}
    {original : Bytes} (h1 : s.prepare d = some d1) (h2 : s.diskOf times (s.openTimestamp d1) = some disk)
    (h3 : inputOf disk { a with separate := s.separate } = some (es, original)) (hc : Refuses a original) :
    s.launch times a d = some (s.putBack (disk.exec es) (s.openTimestamp d1), .failed) := by
  unfold SccSettings.launch
  simp only [h1, h2]
  rw [runPlan_of_refused h3 (show Refuses { a with separate := s.separate } original from hc)]

theorem store_same {d : PathDisk} {path : PathParts} {c : Option Bytes} (h : d path = c) : d.store path c = d := by
  funext x
  unfold PathDisk.store
  split
  · next e => rw [e, h]
  · rfl

/-- C91: a launch in place whose scripts do not compile changes no file at all, once the cache was compiled in place. -/
theorem C91_refused_launch_changes_nothing {s : SccSettings} {times : PathParts → BitVec 128} {a : RunArgs} {d : PathDisk}
    {original earlier ts : Bytes} {t : BitVec 128} (hout : s.outputPath = s.cachePath)
    (hc : d s.cachePath = some earlier) (hb : d (backupOf s.cachePath) = some original)
    (ht : d (timestampOf s.cachePath) = some (Timestamp.write t ts)) (htime : times s.cachePath = t) (hr : Refuses a original) :
    s.launch times a d = some (d, .failed) := by
  have h1 : s.prepare d = some d := by
    unfold SccSettings.prepare SccSettings.prepareCache
    rw [hc]
    show some (s.prepareBackup d) = some d
    unfold SccSettings.prepareBackup
    rw [hb]
    cases d (s.r6Dir ++ ["cache".toList, backupFileName]) <;> rfl
  have hsep : s.separate = false := by simp [SccSettings.separate, hout]
  have hopen : s.openTimestamp d = d := by
    unfold SccSettings.openTimestamp
    rw [ht]
  have hdisk : s.diskOf times (s.openTimestamp d) = some ⟨⟨earlier, t⟩, some ⟨original, times (backupOf s.cachePath)⟩, Timestamp.write t ts, none⟩ := by
    unfold SccSettings.diskOf
    rw [hopen, hc, hb, ht, hsep, htime]
    rfl
  have hread := C50_written_is_read_back t ts
  have hin : inputOf ⟨⟨earlier, t⟩, some ⟨original, times (backupOf s.cachePath)⟩, Timestamp.write t ts, none⟩ { a with separate := s.separate } =
      some ([], original) := by
    unfold inputOf
    simp [hread, hsep]
  have e : s.putBack ⟨⟨earlier, t⟩, some ⟨original, times (backupOf s.cachePath)⟩, Timestamp.write t ts, none⟩ d = d := by
    unfold SccSettings.putBack
    rw [hsep]
    show ((d.store s.cachePath (some earlier)).store (backupOf s.cachePath) (some original)).store (timestampOf s.cachePath) (some (Timestamp.write t ts)) = d
    rw [store_same hc, store_same hb, store_same ht]
  rw [launch_of_refused h1 hdisk hin hr, hopen]
  exact congrArg (fun x => some (x, RunResult.failed)) e

/-- C91: any number of launches in place, once the cache was compiled in place: each one ends as its own scripts make it end over the
unmodified bundle, and the cache is what the last successful one alone makes of it. -/
theorem C91_launches_in_place {s : SccSettings} {d d' : PathDisk} {t t' : BitVec 128} {l : List (RunArgs × RunResult)}
    {original earlier : Bytes} (hs : s.Distinct) (hout : s.outputPath = s.cachePath) (hc : d s.cachePath = some earlier)
    (hb : d (backupOf s.cachePath) = some original) (ht : ∃ ts, d (timestampOf s.cachePath) = some (Timestamp.write t ts))
    (hd : Decided original l) (h : Launches s d t l d' t') :
    EachOfOriginal original l ∧ d' s.cachePath = some ((lastSaved l).getD earlier) ∧ d' (backupOf s.cachePath) = some original ∧
      ∃ ts, d' (timestampOf s.cachePath) = some (Timestamp.write t' ts) := by
  induction h with
  | start => exact ⟨fun x hx => absurd hx List.not_mem_nil, hc, hb, ht⟩
  | @failed d1 d2 t1 times a l h1 htime hl ih =>
    obtain ⟨e1, e2, e3, ts, e4⟩ := ih fun x hx => hd x (List.mem_cons_of_mem _ hx)
    rcases hd _ (List.mem_cons_self ..) with hr | ⟨saved, hs'⟩
    · rw [C91_refused_launch_changes_nothing hout e2 e3 e4 htime hr] at hl
      cases hl
      refine ⟨fun x hx => ?_, e2, e3, ts, e4⟩
      rcases List.mem_cons.1 hx with rfl | hx
      · exact .inl ⟨hr, rfl⟩
      · exact e1 x hx
    · obtain ⟨d'', k, -⟩ := C90_later_launch hs hout e2 e3 e4 htime hs'
      rw [k] at hl
      cases hl
  | @success d1 d2 t1 t2 times a l input output h1 htime hl ht2 ih =>
    obtain ⟨e1, e2, e3, ts, e4⟩ := ih fun x hx => hd x (List.mem_cons_of_mem _ hx)
    rcases hd _ (List.mem_cons_self ..) with hr | ⟨saved, hs'⟩
    · rw [C91_refused_launch_changes_nothing hout e2 e3 e4 htime hr] at hl
      cases hl
    · obtain ⟨d'', k, k1, k2, k3⟩ := C90_later_launch hs hout e2 e3 e4 htime hs'
      rw [k] at hl
      cases hl
      refine ⟨fun x hx => ?_, k1, k2, ?_⟩
      · rcases List.mem_cons.1 hx with rfl | hx
        · exact .inr ⟨_, hs', rfl⟩
        · exact e1 x hx
      · rw [ht2 hout]
        exact k3

/-- The preparation and the timestamp, when the cache is the unmodified bundle. -/
theorem unmodified_ready {s : SccSettings} {d : PathDisk} {original : Bytes} (hs : s.Apart) (h : Unmodified s d original) :
    ∃ d1 ts v, s.prepare d = some d1 ∧ s.openTimestamp d1 (timestampOf s.cachePath) = some ts ∧ Timestamp.read ts = .ok v ∧
      (∀ c, s.openTimestamp d1 (backupOf s.cachePath) = some c → c = original) ∧
      ∀ x, x ≠ backupOf s.cachePath → x ≠ timestampOf s.cachePath → s.openTimestamp d1 x = d x := by
  have hp : ∃ d1, s.prepare d = some d1 ∧ (∀ c, d1 (backupOf s.cachePath) = some c → c = original) ∧
      ∀ x, x ≠ backupOf s.cachePath → d1 x = d x := by
    unfold SccSettings.prepare SccSettings.prepareCache
    rw [h.cache]
    refine ⟨s.prepareBackup d, rfl, ?_⟩
    unfold SccSettings.prepareBackup
    cases hf : d (s.r6Dir ++ ["cache".toList, backupFileName]) with
    | none => exact ⟨h.backup, fun _ _ => rfl⟩
    | some c =>
      cases hb : d (backupOf s.cachePath) with
      | some c' => exact ⟨h.backup, fun _ _ => rfl⟩
      | none =>
        refine ⟨fun c' hc' => ?_, fun x hx => if_neg hx⟩
        have e : (d.put (backupOf s.cachePath) c) (backupOf s.cachePath) = some c := if_pos rfl
        have hc'' : (d.put (backupOf s.cachePath) c) (backupOf s.cachePath) = some c' := hc'
        rw [e] at hc''
        cases hc''
        exact h.fallback _ hf
  obtain ⟨d1, h1, h2, h3⟩ := hp
  rcases h.timestamp with ⟨t1, t2⟩ | ⟨c, v, t1, t2⟩
  · have e : s.openTimestamp d1 = d1.store (timestampOf s.cachePath) (some []) := by
      unfold SccSettings.openTimestamp
      rw [h3 _ hs.both, t1, h3 s.legacyPath hs.legacyBackup, show d s.legacyPath = none from t2]
    refine ⟨d1, [], none, h1, by rw [e, store_get], rfl, fun c hc => ?_, fun x hx hx' => ?_⟩
    · rw [e, store_other _ hs.both.symm] at hc
      exact h2 c hc
    · rw [e, store_other _ hx', h3 x hx]
  · have e : s.openTimestamp d1 = d1 := by
      unfold SccSettings.openTimestamp
      rw [h3 _ hs.both, t1]
    rw [← h3 _ hs.both] at t1
    exact ⟨d1, c, v, h1, by rw [e, t1], t2, by rw [e]; exact h2, fun x hx _ => by rw [e, h3 x hx]⟩

theorem unmodified_putBack {s : SccSettings} {d D : PathDisk} {original : Bytes} {disk : Disk} {v : Option (BitVec 128)} (hs : s.Apart)
    (h : Unmodified s d original) (hsep : s.separate = true)
    (hD : ∀ x, x ≠ backupOf s.cachePath → x ≠ timestampOf s.cachePath → D x = d x) (h1 : disk.bundle.content = original)
    (h2 : ∀ c, disk.backup.map (·.content) = some c → c = original) (h3 : Timestamp.read disk.ts = .ok v) :
    Unmodified s (s.putBack disk D) original where
  cache := by rw [putBack_bundle hs.toDistinct, h1]
  backup := fun c hc => by
    rw [putBack_backup hs.toDistinct] at hc
    exact h2 c hc
  timestamp := .inr ⟨_, v, putBack_timestamp hs.toDistinct _ _, h3⟩
  fallback := fun c hc => by
    by_cases e1 : s.fallback = s.cachePath
    · rw [e1, putBack_bundle hs.toDistinct, h1] at hc
      cases hc
      rfl
    · by_cases e2 : s.fallback = backupOf s.cachePath
      · rw [e2, putBack_backup hs.toDistinct] at hc
        exact h2 c hc
      · unfold SccSettings.putBack at hc
        rw [if_pos hsep, store_other _ hs.fallbackOut, store_other _ hs.fallbackTs, store_other _ e2, store_other _ e1, hD _ e2 hs.fallbackTs] at hc
        exact h.fallback c hc

/-- C91: a launch with another output over the unmodified bundle leaves it unmodified; if the scripts compile, the output is what they
make of it, else the output is left. -/
theorem C91_launch_to_another_file {s : SccSettings} {times : PathParts → BitVec 128} {a : RunArgs} {d : PathDisk} {original : Bytes}
    (hs : s.Apart) (h : Unmodified s d original) :
    (∀ saved, CompilesTo a original saved →
      ∃ d', s.launch times a d = some (d', .success original saved) ∧ d' s.outputPath = some saved ∧ Unmodified s d' original) ∧
    (Refuses a original → ∃ d', s.launch times a d = some (d', .failed) ∧ d' s.outputPath = d s.outputPath ∧ Unmodified s d' original) := by
  obtain ⟨d1, ts, v, h1, h2, h3, h4, h5⟩ := unmodified_ready hs h
  have hsep : s.separate = true := by simp [SccSettings.separate, hs.output]
  have hdisk : s.diskOf times (s.openTimestamp d1) = some ⟨⟨original, times s.cachePath⟩,
      (s.openTimestamp d1 (backupOf s.cachePath)).map fun b => ⟨b, times (backupOf s.cachePath)⟩, ts,
      (d s.outputPath).map fun o => ⟨o, times s.outputPath⟩⟩ := by
    unfold SccSettings.diskOf
    rw [h5 _ hs.backup.symm hs.timestamp.symm, h.cache, h2, hsep, h5 _ hs.outBackup hs.outTimestamp]
    rfl
  have hin : ∃ es, inputOf (Disk.mk ⟨original, times s.cachePath⟩
      ((s.openTimestamp d1 (backupOf s.cachePath)).map fun b => ⟨b, times (backupOf s.cachePath)⟩) ts
      ((d s.outputPath).map fun o => ⟨o, times s.outputPath⟩)) { a with separate := s.separate } = some (es, original) ∧
      ∃ y bk, Disk.exec (Disk.mk ⟨original, times s.cachePath⟩
      ((s.openTimestamp d1 (backupOf s.cachePath)).map fun b => ⟨b, times (backupOf s.cachePath)⟩) ts
      ((d s.outputPath).map fun o => ⟨o, times s.outputPath⟩)) es = ⟨⟨original, y⟩, bk, ts, (d s.outputPath).map fun o => ⟨o, times s.outputPath⟩⟩ ∧
      ∀ c, bk.map (·.content) = some c → c = original := by
    unfold inputOf
    simp only [h3, hsep, if_true]
    cases hb : s.openTimestamp d1 (backupOf s.cachePath) with
    | none => exact ⟨[], rfl, _, none, rfl, fun _ hc => by cases hc⟩
    | some b =>
      have := h4 _ hb
      subst this
      simp only [Option.map_some]
      by_cases hv : v = some (times s.cachePath)
      · rw [if_neg (by simp [hv])]
        exact ⟨[.restoreBackup], rfl, _, none, rfl, fun _ hc => by cases hc⟩
      · rw [if_pos hv]
        exact ⟨[.removeBackup], rfl, _, none, rfl, fun _ hc => by cases hc⟩
  obtain ⟨es, hin, y, bk, hex, hbk⟩ := hin
  constructor
  · intro saved hc
    refine ⟨_, launch_of h1 hdisk hin hc, ?_, ?_⟩
    · rw [putBack_output _ _ hsep, hsep]
      rfl
    · rw [hex, hsep]
      exact unmodified_putBack hs h hsep h5 rfl hbk (C50_written_is_read_back _ _)
  · intro hr
    refine ⟨_, launch_of_refused h1 hdisk hin hr, ?_, ?_⟩
    · rw [putBack_output _ _ hsep, hex]
      cases d s.outputPath <;> rfl
    · rw [hex]
      exact unmodified_putBack hs h hsep h5 rfl hbk h3

/-- C91: any number of launches with another output: each one ends as its own scripts make it end over the unmodified bundle, the cache
stays unmodified, and the output is what the last successful one alone makes of it. -/
theorem C91_launches_to_another_file {s : SccSettings} {d d' : PathDisk} {t t' : BitVec 128} {l : List (RunArgs × RunResult)}
    {original : Bytes} (hs : s.Apart) (h0 : Unmodified s d original) (hd : Decided original l) (h : Launches s d t l d' t') :
    EachOfOriginal original l ∧ Unmodified s d' original ∧
      d' s.outputPath = match lastSaved l with | some saved => some saved | none => d s.outputPath := by
  induction h with
  | start => exact ⟨fun x hx => absurd hx List.not_mem_nil, h0, rfl⟩
  | @failed d1 d2 t1 times a l h1 htime hl ih =>
    obtain ⟨e1, e2, e3⟩ := ih fun x hx => hd x (List.mem_cons_of_mem _ hx)
    have k := C91_launch_to_another_file (times := times) (a := a) hs e2
    rcases hd _ (List.mem_cons_self ..) with hr | ⟨saved, hs'⟩
    · obtain ⟨d'', k1, k2, k3⟩ := k.2 hr
      rw [k1] at hl
      cases hl
      refine ⟨fun x hx => ?_, k3, k2.trans e3⟩
      rcases List.mem_cons.1 hx with rfl | hx
      · exact .inl ⟨hr, rfl⟩
      · exact e1 x hx
    · obtain ⟨d'', k1, -⟩ := k.1 _ hs'
      rw [k1] at hl
      cases hl
  | @success d1 d2 t1 t2 times a l input output h1 htime hl ht2 ih =>
    obtain ⟨e1, e2, e3⟩ := ih fun x hx => hd x (List.mem_cons_of_mem _ hx)
    have k := C91_launch_to_another_file (times := times) (a := a) hs e2
    rcases hd _ (List.mem_cons_self ..) with hr | ⟨saved, hs'⟩
    · obtain ⟨d'', k1, -⟩ := k.2 hr
      rw [k1] at hl
      cases hl
    · obtain ⟨d'', k1, k2, k3⟩ := k.1 _ hs'
      rw [k1] at hl
      cases hl
      refine ⟨fun x hx => ?_, k3, k2⟩
      rcases List.mem_cons.1 hx with rfl | hx
      · exact .inr ⟨_, hs', rfl⟩
      · exact e1 x hx

/-! ### Examples -/

namespace PathDemo

theorem of_refusesB {a : RunArgs} {original : Bytes} (h : (match ScriptBundle.load original with
    | .error _ => false
    | .ok b => !isSigned b.pool && (a.compile b.pool).isNone) = true) : Refuses a original := by
  split at h
  · cases h
  · next b h1 =>
    simp only [Bool.and_eq_true, Bool.not_eq_true', Option.isNone_iff_eq_none] at h
    exact ⟨b, h1, h.1, h.2⟩

/-- After the first launch in place: a launch whose scripts do not compile, and another one whose scripts do. -/
example : ∃ d t d' saved, Launches mine d t [(LaunchDemo.args false true 9, .success LaunchDemo.game saved), (LaunchDemo.args false false 7, .failed)] d' 109 ∧
    d' mine.cachePath = some saved ∧ d' (backupOf mine.cachePath) = some LaunchDemo.game := by
  obtain ⟨saved, h1⟩ := of_compilesB (a := LaunchDemo.args false true 5) (original := LaunchDemo.game) (by decide +kernel)
  obtain ⟨saved', h2⟩ := of_compilesB (a := LaunchDemo.args false true 9) (original := LaunchDemo.game) (by decide +kernel)
  have hr : Refuses (LaunchDemo.args false false 7) LaunchDemo.game := of_refusesB (by decide +kernel)
  obtain ⟨d, -, k2, -, k3⟩ := C90_first_launch (times := fun _ => 3) (d := files) mine_distinct (.inr ⟨files_none (by decide), if_pos rfl⟩)
    (files_none (by decide)) (files_none (by decide)) (files_none (by decide)) (files_none (by decide)) (by decide) (by decide) h1
  obtain ⟨k3, k4⟩ := k3 rfl
  have l1 := C91_refused_launch_changes_nothing (times := fun _ => 105) (s := mine) rfl k2 k3 k4 rfl hr
  obtain ⟨d', l2, -⟩ := C90_later_launch (times := fun _ => 105) mine_distinct rfl k2 k3 k4 rfl h2
  have hl := Launches.success (t2 := 109) (Launches.failed (t := 105) .start rfl l1) rfl l2 fun _ => rfl
  obtain ⟨-, j1, j2, -⟩ := C91_launches_in_place mine_distinct rfl k2 k3 ⟨_, k4⟩
    (by intro x hx
        simp only [List.mem_cons, List.not_mem_nil, or_false] at hx
        rcases hx with rfl | rfl
        · exact .inr ⟨_, h2⟩
        · exact .inl hr) hl
  exact ⟨d, 105, d', saved', hl, j1, j2⟩

/-- The default cache, and another output. -/
def aside : SccSettings := ⟨["r6".toList], none, some ["out".toList, "final.redscripts".toList], []⟩

theorem aside_apart : aside.Apart :=
  ⟨⟨by decide, by decide, by decide, by decide, by decide⟩, by decide, by decide, by decide, by decide, by decide⟩

theorem aside_unmodified : Unmodified aside files LaunchDemo.game :=
  ⟨if_pos rfl, fun c hc => (by rw [files_none (by decide)] at hc; cases hc), fun c hc => (by rw [files_none (by decide)] at hc; cases hc),
    .inl ⟨files_none (by decide), files_none (by decide)⟩⟩

/-- A launch with another output, and one whose scripts do not compile: the output is left. -/
example : ∃ d' saved, Launches aside files 1 [(LaunchDemo.args true false 7, .failed), (LaunchDemo.args true true 5, .success LaunchDemo.game saved)] d' 1 ∧
    d' aside.outputPath = some saved ∧ d' aside.cachePath = some LaunchDemo.game := by
  obtain ⟨saved, h1⟩ := of_compilesB (a := LaunchDemo.args true true 5) (original := LaunchDemo.game) (by decide +kernel)
  have hr : Refuses (LaunchDemo.args true false 7) LaunchDemo.game := of_refusesB (by decide +kernel)
  obtain ⟨d1, l1, -, u1⟩ := (C91_launch_to_another_file (times := fun _ => 1) aside_apart aside_unmodified).1 _ h1
  obtain ⟨d2, l2, -⟩ := (C91_launch_to_another_file (times := fun _ => 1) aside_apart u1).2 hr
  have hl := Launches.failed (Launches.success (t := 1) (t2 := 1) .start rfl l1 fun e => absurd e (by decide)) rfl l2
  obtain ⟨-, j1, j2⟩ := C91_launches_to_another_file aside_apart aside_unmodified
    (by intro x hx
        simp only [List.mem_cons, List.not_mem_nil, or_false] at hx
        rcases hx with rfl | rfl
        · exact .inl hr
        · exact .inr ⟨_, h1⟩) hl
  exact ⟨d2, saved, hl, j2, j1.cache⟩

end PathDemo

end Redscript
