import Verif.Scc.CApi

/-!
# C90, C91: when the files of a cache are different ones

The names of backup and timestamp are never that of the cache, so the theorems about launches apply to every cache, unless the output
is given the name of one of them.
-/

namespace Redscript

/-! ### Proofs -/

theorem stem_append_ne {name ext : Text} (hd : '.' ∈ ext) : stemOf name ++ '.' :: ext ≠ name := by
  intro e
  have len : stemOf name ≠ name := fun h => by
    have := congrArg List.length e
    rw [h] at this
    simp at this
  have hs : StemIs name (stemOf name) := stemIs_iff.2 rfl
  generalize stemOf name = st at *
  cases hs with
  | dot h1 h2 =>
    have := List.append_cancel_left e
    cases this
    exact h2 hd
  | hidden h2 => exact len rfl
  | plain h => exact len rfl

theorem backupOf_last (dir : PathParts) (name : Text) : backupOf (dir ++ [name]) = dir ++ [stemOf name ++ ".redscripts.bk".toList] := by
  simp [backupOf]

theorem timestampOf_last (dir : PathParts) (name : Text) : timestampOf (dir ++ [name]) = dir ++ [stemOf name ++ ".redscripts.ts".toList] := by
  simp [timestampOf]

theorem last_ne {dir dir' : PathParts} {a b : Text} (h : a.getLast? ≠ b.getLast?) : dir ++ [a] ≠ dir' ++ [b] := by
  intro e
  have := (List.append_inj' e rfl).2
  exact h (by rw [(List.cons.inj this).1])

theorem getLast_bk (t : Text) : (t ++ ".redscripts.bk".toList).getLast? = some 'k' := by
  rw [List.getLast?_append]
  rfl

theorem getLast_ts (t : Text) : (t ++ ".redscripts.ts".toList).getLast? = some 's' := by
  rw [List.getLast?_append]
  rfl

/-- C90: the cache, its backup and its timestamp are always different files; so all that is needed of the output is that it is not one of
the last two. -/
theorem C90_names_are_distinct {s : SccSettings} (h : s.cachePath ≠ []) (hb : s.outputPath ≠ backupOf s.cachePath)
    (ht : s.outputPath ≠ timestampOf s.cachePath) : s.Distinct := by
  obtain ⟨dir, name, e⟩ : ∃ dir name, s.cachePath = dir ++ [name] := ⟨_, _, (List.dropLast_concat_getLast h).symm⟩
  refine ⟨?_, ?_, ?_, hb, ht⟩
  · rw [e, backupOf_last]
    intro h
    exact stem_append_ne (ext := "redscripts.bk".toList) (by decide) (List.cons.inj (List.append_inj' h rfl).2).1
  · rw [e, timestampOf_last]
    intro h
    exact stem_append_ne (ext := "redscripts.ts".toList) (by decide) (List.cons.inj (List.append_inj' h rfl).2).1
  · rw [e, backupOf_last, timestampOf_last]
    exact last_ne (by rw [getLast_bk, getLast_ts]; decide)

/-- C90: they are for every cache that is compiled in place. -/
theorem C90_in_place_is_distinct {s : SccSettings} (h : s.cachePath ≠ []) (ho : s.outputPath = s.cachePath) : s.Distinct := by
  obtain ⟨dir, name, e⟩ : ∃ dir name, s.cachePath = dir ++ [name] := ⟨_, _, (List.dropLast_concat_getLast h).symm⟩
  refine C90_names_are_distinct h ?_ ?_
  · rw [ho, e, backupOf_last]
    intro h
    exact stem_append_ne (ext := "redscripts.bk".toList) (by decide) (List.cons.inj (List.append_inj' h rfl).2).1.symm
  · rw [ho, e, timestampOf_last]
    intro h
    exact stem_append_ne (ext := "redscripts.ts".toList) (by decide) (List.cons.inj (List.append_inj' h rfl).2).1.symm

/-- C91: for an output elsewhere it is enough that it is none of the cache, its backup, its timestamp and the backup of the default
cache. -/
theorem C91_names_are_apart {s : SccSettings} (h : s.cachePath ≠ []) (hc : s.outputPath ≠ s.cachePath) (hb : s.outputPath ≠ backupOf s.cachePath)
    (ht : s.outputPath ≠ timestampOf s.cachePath) (hf : s.outputPath ≠ s.r6Dir ++ ["cache".toList, "final.redscripts.bk".toList]) : s.Apart := by
  obtain ⟨dir, name, e⟩ : ∃ dir name, s.cachePath = dir ++ [name] := ⟨_, _, (List.dropLast_concat_getLast h).symm⟩
  have ef : s.fallback = (s.r6Dir ++ ["cache".toList]) ++ ["final.redscripts.bk".toList] := by
    unfold SccSettings.fallback
    rw [List.append_assoc]
    rfl
  refine ⟨C90_names_are_distinct h hb ht, hc, ?_, ?_, fun e => hf e.symm, ?_⟩
  · rw [ef, e, timestampOf_last]
    exact last_ne (by rw [getLast_ts]; decide)
  · rw [ef]
    exact last_ne (by decide)
  · rw [e, backupOf_last, List.dropLast_concat]
    exact last_ne (by rw [getLast_bk]; decide)

/-- C92: over a cache that was compiled in place, `scc` exits with success if the scripts compile, and with failure, leaving all files, if
they do not. -/
theorem C92_exit_code_in_place {parse : Text → PathParts} {message : Bytes} {times : PathParts → BitVec 128} {a : RunArgs}
    {d : PathDisk} {o : LaunchOpts} {s : SccSettings} {original earlier ts : Bytes} {t : BitVec 128} (ho : o.settings parse = some s)
    (hout : s.outputPath = s.cachePath) (hne : s.cachePath ≠ []) (hc : d s.cachePath = some earlier)
    (hb : d (backupOf s.cachePath) = some original) (ht : d (timestampOf s.cachePath) = some (Timestamp.write t ts)) (htime : times s.cachePath = t) :
    (∀ saved, CompilesTo a original saved →
      ∃ d', sccMain parse true message times a d (.opts o) = some (d', true) ∧ d' s.cachePath = some saved) ∧
    (Refuses a original → sccMain parse true message times a d (.opts o) = some (d, false)) := by
  constructor
  · intro saved hcomp
    obtain ⟨d', k1, k2, -⟩ := C90_later_launch (times := times) (C90_in_place_is_distinct hne hout) hout hc hb ht htime hcomp
    refine ⟨d', ?_, k2⟩
    simp only [sccMain, ho, k1]
    rfl
  · intro hr
    have k := C91_refused_launch_changes_nothing (times := times) hout hc hb ht htime hr
    simp only [sccMain, ho, k]
    rfl

/-! ### Examples -/

namespace NamesDemo

/-- A cache that is named as a backup would be. -/
def odd : SccSettings := ⟨["r6".toList], some ["my".toList, "a.redscripts.bk".toList], some ["my".toList, "a.redscripts".toList], []⟩

example : odd.Distinct := C90_names_are_distinct (by decide) (by decide) (by decide)
example : odd.Apart := C91_names_are_apart (by decide) (by decide) (by decide) (by decide) (by decide)

/-- A file without a name that can be split. -/
example : (SccSettings.mk ["r6".toList] (some ["my".toList, ".bk".toList]) none []).Distinct := C90_in_place_is_distinct (by decide) rfl

/-- Options for a cache that is compiled in place. -/
def inPlace : LaunchOpts := ⟨["r6".toList, "scripts".toList], none, none, some ["my".toList, "final.redscripts".toList], none⟩

/-- The first launch of `Scc/PathLaunch`, and then one of `scc` whose scripts do not compile. -/
example : ∃ d : PathDisk, d PathDemo.mine.cachePath ≠ none ∧
    sccMain (fun t => [t]) true [] (fun _ => 105) (LaunchDemo.args false false 7) d (.opts inPlace) = some (d, false) := by
  obtain ⟨saved, h1⟩ := PathDemo.of_compilesB (a := LaunchDemo.args false true 5) (original := LaunchDemo.game) (by decide +kernel)
  have hr : Refuses (LaunchDemo.args false false 7) LaunchDemo.game := PathDemo.of_refusesB (by decide +kernel)
  obtain ⟨d, -, k2, -, k3⟩ := C90_first_launch (times := fun _ => 3) (d := PathDemo.files) PathDemo.mine_distinct
    (.inr ⟨PathDemo.files_none (by decide), if_pos rfl⟩) (PathDemo.files_none (by decide)) (PathDemo.files_none (by decide))
    (PathDemo.files_none (by decide)) (PathDemo.files_none (by decide)) (by decide) (by decide) h1
  obtain ⟨k3, k4⟩ := k3 rfl
  have k2 : d PathDemo.mine.cachePath = some saved := k2
  refine ⟨d, by rw [k2]; exact Option.some_ne_none _, ?_⟩
  exact (C92_exit_code_in_place (parse := fun t => [t]) (message := []) (times := fun _ => 105) (o := inPlace) (s := PathDemo.mine) rfl rfl (by decide)
    k2 k3 k4 rfl).2 hr

end NamesDemo

end Redscript
