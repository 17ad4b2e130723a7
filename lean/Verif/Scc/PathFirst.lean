import Verif.Scc.PathNames

/-!
# C91: launches of a new game

Any number of launches in place from the files of a game that was never launched with scripts (`Scc/PathHistory` has those after the
first success).
-/

namespace Redscript

/-! ### Specification -/

/-- The cache is the unmodified bundle, so are the backups, if there are any, and no time was recorded. -/
structure NewGame (s : SccSettings) (d : PathDisk) (original : Bytes) : Prop where
  cache : d s.cachePath = some original
  backup : ∀ c, d (backupOf s.cachePath) = some c → c = original
  fallback : ∀ c, d s.fallback = some c → c = original
  timestamp : (d (timestampOf s.cachePath) = none ∧ d (s.cachePath.dropLast ++ ["redscript.ts".toList]) = none) ∨
    d (timestampOf s.cachePath) = some []

/-! ### Proofs -/

theorem legacy_ne_backup {path : PathParts} (h : path ≠ []) : path.dropLast ++ ["redscript.ts".toList] ≠ backupOf path := by
  obtain ⟨dir, name, e⟩ : ∃ dir name, path = dir ++ [name] := ⟨_, _, (List.dropLast_concat_getLast h).symm⟩
  rw [e, backupOf_last, List.dropLast_concat]
  exact last_ne (by rw [getLast_bk]; decide)

theorem fallback_ne_timestamp {s : SccSettings} (h : s.cachePath ≠ []) : s.fallback ≠ timestampOf s.cachePath := by
  obtain ⟨dir, name, e⟩ : ∃ dir name, s.cachePath = dir ++ [name] := ⟨_, _, (List.dropLast_concat_getLast h).symm⟩
  have ef : s.fallback = (s.r6Dir ++ ["cache".toList]) ++ ["final.redscripts.bk".toList] := by
    unfold SccSettings.fallback
    rw [List.append_assoc]
    rfl
  rw [ef, e, timestampOf_last]
  exact last_ne (by rw [getLast_ts]; decide)

theorem newGame_ready {s : SccSettings} {d : PathDisk} {original : Bytes} (hs : s.Distinct) (hne : s.cachePath ≠ []) (h : NewGame s d original) :
    ∃ d1, s.prepare d = some d1 ∧ s.openTimestamp d1 (timestampOf s.cachePath) = some [] ∧
      (∀ c, s.openTimestamp d1 (backupOf s.cachePath) = some c → c = original) ∧
      ∀ x, x ≠ backupOf s.cachePath → x ≠ timestampOf s.cachePath → s.openTimestamp d1 x = d x := by
  have hp : ∃ d1, s.prepare d = some d1 ∧ (∀ c, d1 (backupOf s.cachePath) = some c → c = original) ∧
      ∀ x, x ≠ backupOf s.cachePath → d1 x = d x := by
    unfold SccSettings.prepare SccSettings.prepareCache
    rw [h.cache]
    refine ⟨s.prepareBackup d, rfl, ?_⟩
    unfold SccSettings.prepareBackup
    cases hf : d (s.r6Dir ++ ["cache".toList, backupFileName]) with
    | none => exact ⟨h.backup, fun _ _ => rfl⟩
    | some c =>
      cases hb : d (backupOf s.cachePath) with
      | some c' => exact ⟨h.backup, fun _ _ => rfl⟩
      | none =>
        refine ⟨fun c' hc' => ?_, fun x hx => if_neg hx⟩
        have e : (d.put (backupOf s.cachePath) c) (backupOf s.cachePath) = some c := if_pos rfl
        have hc'' : (d.put (backupOf s.cachePath) c) (backupOf s.cachePath) = some c' := hc'
        rw [e] at hc''
        cases hc''
        exact h.fallback _ hf
  obtain ⟨d1, h1, h2, h3⟩ := hp
  rcases h.timestamp with ⟨t1, t2⟩ | t1
  · have e : s.openTimestamp d1 = d1.store (timestampOf s.cachePath) (some []) := by
      unfold SccSettings.openTimestamp
      rw [h3 _ hs.both, t1, h3 s.legacyPath (legacy_ne_backup hne), show d s.legacyPath = none from t2]
    refine ⟨d1, h1, by rw [e, store_get], fun c hc => ?_, fun x hx hx' => ?_⟩
    · rw [e, store_other _ hs.both.symm] at hc
      exact h2 c hc
    · rw [e, store_other _ hx', h3 x hx]
  · have e : s.openTimestamp d1 = d1 := by
      unfold SccSettings.openTimestamp
      rw [h3 _ hs.both, t1]
    exact ⟨d1, h1, by rw [e, h3 _ hs.both, t1], by rw [e]; exact h2, fun x hx _ => by rw [e, h3 x hx]⟩

/-- C91: the first launch in place over the bundle of the game: if the scripts compile, the cache is what they make of it, it is kept as
the backup, and the time is recorded; if they do not, the cache is left, and the next launch is again a first one. -/
theorem C91_first_launch_in_place {s : SccSettings} {times : PathParts → BitVec 128} {a : RunArgs} {d : PathDisk} {original : Bytes}
    (hne : s.cachePath ≠ []) (hout : s.outputPath = s.cachePath) (h : NewGame s d original) :
    (∀ saved, CompilesTo a original saved →
      ∃ d', s.launch times a d = some (d', .success original saved) ∧ d' s.cachePath = some saved ∧
        d' (backupOf s.cachePath) = some original ∧ d' (timestampOf s.cachePath) = some (Timestamp.write a.outputTime [])) ∧
    (Refuses a original → ∃ d', s.launch times a d = some (d', .failed) ∧ NewGame s d' original) := by
  have hs := C90_in_place_is_distinct hne hout
  obtain ⟨d1, h1, h2, h4, h5⟩ := newGame_ready hs hne h
  have hsep : s.separate = false := by simp [SccSettings.separate, hout]
  have hdisk : s.diskOf times (s.openTimestamp d1) = some ⟨⟨original, times s.cachePath⟩,
      (s.openTimestamp d1 (backupOf s.cachePath)).map fun b => ⟨b, times (backupOf s.cachePath)⟩, [], none⟩ := by
    unfold SccSettings.diskOf
    rw [h5 _ hs.backup.symm hs.timestamp.symm, h.cache, h2, hsep]
    rfl
  have hread : Timestamp.read [] = .ok none := rfl
  have hin : ∃ es, inputOf (Disk.mk ⟨original, times s.cachePath⟩
      ((s.openTimestamp d1 (backupOf s.cachePath)).map fun b => ⟨b, times (backupOf s.cachePath)⟩) [] none) { a with separate := s.separate } =
        some (es, original) ∧
      ∃ y, Disk.exec (Disk.mk ⟨original, times s.cachePath⟩
      ((s.openTimestamp d1 (backupOf s.cachePath)).map fun b => ⟨b, times (backupOf s.cachePath)⟩) [] none) es =
        ⟨⟨original, times s.cachePath⟩, some ⟨original, y⟩, [], none⟩ := by
    unfold inputOf
    simp only [hread, hsep]
    cases hb : s.openTimestamp d1 (backupOf s.cachePath) with
    | none => exact ⟨[.backup ⟨a.tornBackup, a.tornTime⟩, .backup ⟨original, a.backupTime⟩], by simp, _, rfl⟩
    | some b =>
      have := h4 _ hb
      subst this
      exact ⟨[], rfl, _, rfl⟩
  obtain ⟨es, hin, y, hex⟩ := hin
  constructor
  · intro saved hc
    refine ⟨_, launch_of h1 hdisk hin hc, ?_, ?_, ?_⟩
    · rw [putBack_bundle hs, hex, hsep]
      rfl
    · rw [putBack_backup hs, hex, hsep]
      rfl
    · rw [putBack_timestamp hs, hex, hsep]
      rfl
  · intro hr
    refine ⟨_, launch_of_refused h1 hdisk hin hr, ?_, ?_, ?_, ?_⟩
    · rw [putBack_bundle hs, hex]
    · intro c hc
      rw [putBack_backup hs, hex] at hc
      cases hc
      rfl
    · intro c hc
      by_cases e1 : s.fallback = s.cachePath
      · rw [e1, putBack_bundle hs, hex] at hc
        cases hc
        rfl
      · by_cases e2 : s.fallback = backupOf s.cachePath
        · rw [e2, putBack_backup hs, hex] at hc
          cases hc
          rfl
        · have e3 := fallback_ne_timestamp hne
          unfold SccSettings.putBack at hc
          rw [hsep] at hc
          have hc : ((((s.openTimestamp d1).store s.cachePath _).store (backupOf s.cachePath) _).store (timestampOf s.cachePath) _) s.fallback = some c := hc
          rw [store_other _ e3, store_other _ e2, store_other _ e1, h5 _ e2 e3] at hc
          exact h.fallback c hc
    · refine .inr ?_
      rw [putBack_timestamp hs, hex]

/-- C91: any number of launches in place of a game that was never launched with scripts: each one ends as its own scripts make it end
over the unmodified bundle, and the cache is what the last successful one alone makes of it, or still the unmodified bundle. -/
theorem C91_launches_of_a_new_game {s : SccSettings} {d d' : PathDisk} {t t' : BitVec 128} {l : List (RunArgs × RunResult)}
    {original : Bytes} (hne : s.cachePath ≠ []) (hout : s.outputPath = s.cachePath) (h0 : NewGame s d original)
    (hd : Decided original l) (h : Launches s d t l d' t') :
    EachOfOriginal original l ∧ d' s.cachePath = some ((lastSaved l).getD original) ∧
      (d' (backupOf s.cachePath) = some original ∨ lastSaved l = none) := by
  have hs := C90_in_place_is_distinct hne hout
  suffices key : EachOfOriginal original l ∧ ((lastSaved l = none ∧ NewGame s d' original) ∨
      ∃ saved ts, lastSaved l = some saved ∧ d' s.cachePath = some saved ∧ d' (backupOf s.cachePath) = some original ∧
        d' (timestampOf s.cachePath) = some (Timestamp.write t' ts)) by
    obtain ⟨k1, ⟨k2, k3⟩ | ⟨saved, ts, k2, k3, k4, -⟩⟩ := key
    · exact ⟨k1, by rw [k2]; exact k3.cache, .inr k2⟩
    · exact ⟨k1, by rw [k2]; exact k3, .inl k4⟩
  have cons : ∀ {x : RunArgs × RunResult} {l : List (RunArgs × RunResult)}, EachOfOriginal original l →
      ((Refuses x.1 original ∧ x.2 = .failed) ∨ ∃ saved, CompilesTo x.1 original saved ∧ x.2 = .success original saved) →
      EachOfOriginal original (x :: l) := by
    intro x l h1 h2 y hy
    rcases List.mem_cons.1 hy with rfl | hy
    · exact h2
    · exact h1 y hy
  induction h with
  | start => exact ⟨fun x hx => absurd hx List.not_mem_nil, .inl ⟨rfl, h0⟩⟩
  | @failed d1 d2 t1 times a l h1 htime hl ih =>
    obtain ⟨e1, e2⟩ := ih fun x hx => hd x (List.mem_cons_of_mem _ hx)
    rcases e2 with ⟨e2, e3⟩ | ⟨saved, ts, e2, e3, e4, e5⟩
    · have k := C91_first_launch_in_place (times := times) (a := a) hne hout e3
      rcases hd _ (List.mem_cons_self ..) with hr | ⟨saved, hs'⟩
      · obtain ⟨d'', k1, k2⟩ := k.2 hr
        rw [k1] at hl
        cases hl
        exact ⟨cons e1 (.inl ⟨hr, rfl⟩), .inl ⟨e2, k2⟩⟩
      · obtain ⟨d'', k1, -⟩ := k.1 _ hs'
        rw [k1] at hl
        cases hl
    · rcases hd _ (List.mem_cons_self ..) with hr | ⟨saved', hs'⟩
      · rw [C91_refused_launch_changes_nothing hout e3 e4 e5 htime hr] at hl
        cases hl
        exact ⟨cons e1 (.inl ⟨hr, rfl⟩), .inr ⟨saved, ts, e2, e3, e4, e5⟩⟩
      · obtain ⟨d'', k, -⟩ := C90_later_launch hs hout e3 e4 e5 htime hs'
        rw [k] at hl
        cases hl
  | @success d1 d2 t1 t2 times a l input output h1 htime hl ht2 ih =>
    obtain ⟨e1, e2⟩ := ih fun x hx => hd x (List.mem_cons_of_mem _ hx)
    have e6 := ht2 hout
    subst e6
    rcases e2 with ⟨e2, e3⟩ | ⟨saved, ts, e2, e3, e4, e5⟩
    · have k := C91_first_launch_in_place (times := times) (a := a) hne hout e3
      rcases hd _ (List.mem_cons_self ..) with hr | ⟨saved, hs'⟩
      · obtain ⟨d'', k1, -⟩ := k.2 hr
        rw [k1] at hl
        cases hl
      · obtain ⟨d'', k1, k2, k3, k4⟩ := k.1 _ hs'
        rw [k1] at hl
        cases hl
        exact ⟨cons e1 (.inr ⟨_, hs', rfl⟩), .inr ⟨_, _, rfl, k2, k3, k4⟩⟩
    · rcases hd _ (List.mem_cons_self ..) with hr | ⟨saved', hs'⟩
      · rw [C91_refused_launch_changes_nothing hout e3 e4 e5 htime hr] at hl
        cases hl
      · obtain ⟨d'', k, k1, k2, ts', k3⟩ := C90_later_launch hs hout e3 e4 e5 htime hs'
        rw [k] at hl
        cases hl
        exact ⟨cons e1 (.inr ⟨_, hs', rfl⟩), .inr ⟨_, _, rfl, k1, k2, k3⟩⟩

/-! ### Example -/

namespace NewGameDemo

/-- The default cache, compiled in place. -/
def plain : SccSettings := ⟨["r6".toList], none, none, []⟩

theorem plain_new : NewGame plain PathDemo.files LaunchDemo.game :=
  ⟨if_pos rfl, fun c hc => (by rw [PathDemo.files_none (by decide)] at hc; cases hc),
    fun c hc => (by rw [PathDemo.files_none (by decide)] at hc; cases hc), .inl ⟨PathDemo.files_none (by decide), PathDemo.files_none (by decide)⟩⟩

/-- Scripts that do not compile, then scripts that do. -/
example : ∃ d' saved, Launches plain PathDemo.files 1 [(LaunchDemo.args false true 9, .success LaunchDemo.game saved),
    (LaunchDemo.args false false 7, .failed)] d' 109 ∧
    d' plain.cachePath = some saved := by
  obtain ⟨saved, h1⟩ := PathDemo.of_compilesB (a := LaunchDemo.args false true 9) (original := LaunchDemo.game) (by decide +kernel)
  have hr : Refuses (LaunchDemo.args false false 7) LaunchDemo.game := PathDemo.of_refusesB (by decide +kernel)
  obtain ⟨d1, l1, u1⟩ := (C91_first_launch_in_place (times := fun _ => 1) (by decide) rfl plain_new).2 hr
  obtain ⟨d2, l2, -⟩ := (C91_first_launch_in_place (times := fun _ => 1) (by decide) rfl u1).1 _ h1
  have hl := Launches.success (t2 := 109) (Launches.failed (t := 1) .start rfl l1) rfl l2 fun _ => rfl
  obtain ⟨-, j, -⟩ := C91_launches_of_a_new_game (by decide) rfl plain_new
    (by intro x hx
        simp only [List.mem_cons, List.not_mem_nil, or_false] at hx
        rcases hx with rfl | rfl
        · exact .inr ⟨_, h1⟩
        · exact .inl hr) hl
  exact ⟨d2, saved, hl, j⟩

end NewGameDemo

end Redscript
