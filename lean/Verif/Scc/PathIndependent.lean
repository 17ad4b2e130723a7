import Verif.Scc.PathFirst

/-!
# C89: a launch does not change the outcome of one with another cache

A launch depends only on the files of its own cache and of the default one; so launches whose caches are in different directories do
not change the outcome of each other.
-/

namespace Redscript

/-! ### Specification -/

/-- The files a launch may depend on: those it may change, and the default cache. -/
def SccSettings.dependsOn (s : SccSettings) (x : PathParts) : Prop :=
  x ∈ s.touches ∨ x = s.r6Dir ++ ["cache".toList, "final.redscripts.bk".toList] ∨ x = s.r6Dir ++ ["cache".toList, "final.redscripts".toList]

/-- The files of the predicate are the same. -/
def SameFiles (k : PathParts → Prop) (d e : PathDisk) : Prop := ∀ x, k x → d x = e x

/-! ### Proofs -/

theorem store_sameFiles {k : PathParts → Prop} {d e : PathDisk} (h : SameFiles k d e) (p : PathParts) (c : Option Bytes) :
    SameFiles k (d.store p c) (e.store p c) := by
  intro x hx
  unfold PathDisk.store
  split
  · rfl
  · exact h x hx

theorem put_eq_store (d : PathDisk) (p : PathParts) (c : Bytes) : d.put p c = d.store p (some c) := rfl

/-- C89: the result of a launch and the files it leaves depend only on the files of its own cache and of the default one. -/
theorem C89_launch_depends_on_its_files {s : SccSettings} {times : PathParts → BitVec 128} {a : RunArgs} {d e : PathDisk}
    (h : SameFiles s.dependsOn d e) :
    (s.launch times a d = none ∧ s.launch times a e = none) ∨
    ∃ d' e' r, s.launch times a d = some (d', r) ∧ s.launch times a e = some (e', r) ∧ SameFiles s.dependsOn d' e' := by
  have kc : s.dependsOn s.cachePath := .inl (by simp [SccSettings.touches])
  have kb : s.dependsOn (backupOf s.cachePath) := .inl (by simp [SccSettings.touches])
  have kt : s.dependsOn (timestampOf s.cachePath) := .inl (by simp [SccSettings.touches])
  have kl : s.dependsOn s.legacyPath := .inl (by simp [SccSettings.touches, SccSettings.legacyPath])
  have ko : s.dependsOn s.outputPath := .inl (by simp [SccSettings.touches])
  have kf : s.dependsOn (s.r6Dir ++ ["cache".toList, backupFileName]) := .inr (.inl rfl)
  have kd : s.dependsOn (s.r6Dir ++ ["cache".toList, bundleFileName]) := .inr (.inr rfl)
  have p1 : (s.prepareCache d = none ∧ s.prepareCache e = none) ∨
      ∃ d' e', s.prepareCache d = some d' ∧ s.prepareCache e = some e' ∧ SameFiles s.dependsOn d' e' := by
    unfold SccSettings.prepareCache SccSettings.base
    rw [h _ kc, h _ kf, h _ kd]
    cases e s.cachePath with
    | some c => exact .inr ⟨_, _, rfl, rfl, h⟩
    | none =>
      cases e (s.r6Dir ++ ["cache".toList, backupFileName]) with
      | some c => exact .inr ⟨_, _, rfl, rfl, store_sameFiles h _ _⟩
      | none =>
        cases e (s.r6Dir ++ ["cache".toList, bundleFileName]) with
        | some c => exact .inr ⟨_, _, rfl, rfl, store_sameFiles h _ _⟩
        | none => exact .inl ⟨rfl, rfl⟩
  rcases p1 with ⟨p1, p2⟩ | ⟨d1, e1, p1, p2, h1⟩
  · left
    unfold SccSettings.launch SccSettings.prepare
    rw [p1, p2]
    exact ⟨rfl, rfl⟩
  have h2 : SameFiles s.dependsOn (s.prepareBackup d1) (s.prepareBackup e1) := by
    unfold SccSettings.prepareBackup
    rw [h1 _ kf, h1 _ kb]
    cases e1 (s.r6Dir ++ ["cache".toList, backupFileName]) with
    | none => exact h1
    | some c =>
      cases e1 (backupOf s.cachePath) with
      | none => exact store_sameFiles h1 _ _
      | some _ => exact h1
  have q1 : s.prepare d = some (s.prepareBackup d1) := by unfold SccSettings.prepare; rw [p1]; rfl
  have q2 : s.prepare e = some (s.prepareBackup e1) := by unfold SccSettings.prepare; rw [p2]; rfl
  generalize s.prepareBackup d1 = d2 at *
  generalize s.prepareBackup e1 = e2 at *
  have h3 : SameFiles s.dependsOn (s.openTimestamp d2) (s.openTimestamp e2) := by
    unfold SccSettings.openTimestamp
    rw [h2 _ kt, h2 _ kl]
    cases e2 (timestampOf s.cachePath) with
    | some _ => exact h2
    | none =>
      cases e2 s.legacyPath with
      | some c => exact store_sameFiles (store_sameFiles h2 _ _) _ _
      | none => exact store_sameFiles h2 _ _
  have hd : s.diskOf times (s.openTimestamp d2) = s.diskOf times (s.openTimestamp e2) := by
    unfold SccSettings.diskOf
    rw [h3 _ kc, h3 _ kb, h3 _ kt, h3 _ ko]
  unfold SccSettings.launch
  simp only [q1, q2, hd]
  cases s.diskOf times (s.openTimestamp e2) with
  | none => exact .inl ⟨rfl, rfl⟩
  | some disk =>
    refine .inr ⟨_, _, _, rfl, rfl, ?_⟩
    unfold SccSettings.putBack
    split
    · exact store_sameFiles (store_sameFiles (store_sameFiles (store_sameFiles h3 _ _) _ _) _ _) _ _
    · exact store_sameFiles (store_sameFiles (store_sameFiles h3 _ _) _ _) _ _

/-- C89: a launch with a cache in another directory, which is also not the one of the default cache, changes neither the result of a
launch nor the files it leaves. Missing: caches in one directory, and the default cache, from which others are made (C86). -/
theorem C89_launches_do_not_disturb_partial {s s' : SccSettings} {dir dir' : PathParts} {name name' out out' : Text}
    {times times' : PathParts → BitVec 128} {a a' : RunArgs} {d d1 : PathDisk} {r : RunResult} (h : s.cachePath = dir ++ [name])
    (h' : s'.cachePath = dir' ++ [name']) (ho : s.outputPath = dir ++ [out]) (ho' : s'.outputPath = dir' ++ [out']) (hd : dir ≠ dir')
    (hr : dir ≠ s'.r6Dir ++ ["cache".toList]) (hl : s.launch times a d = some (d1, r)) :
    (s'.launch times' a' d1 = none ∧ s'.launch times' a' d = none) ∨
    ∃ e e' r', s'.launch times' a' d1 = some (e, r') ∧ s'.launch times' a' d = some (e', r') ∧ ∀ path ∈ s'.touches, e path = e' path := by
  have same : SameFiles s'.dependsOn d1 d := by
    intro x hx
    refine C90_only_these_files hl fun hx' => ?_
    obtain ⟨n, e⟩ : ∃ n, x = dir ++ [n] := (touches_dir h hx').elim (fun e => ⟨out, e.trans ho⟩) id
    rcases hx with hx | hx | hx
    · exact (C89_caches_are_separate_partial h h' ho ho' hd).1 x hx' hx
    · rw [show s'.r6Dir ++ ["cache".toList, "final.redscripts.bk".toList] = (s'.r6Dir ++ ["cache".toList]) ++ ["final.redscripts.bk".toList] by
        rw [List.append_assoc]; rfl] at hx
      exact hr (List.append_inj' (e.symm.trans hx) rfl).1
    · rw [show s'.r6Dir ++ ["cache".toList, "final.redscripts".toList] = (s'.r6Dir ++ ["cache".toList]) ++ ["final.redscripts".toList] by
        rw [List.append_assoc]; rfl] at hx
      exact hr (List.append_inj' (e.symm.trans hx) rfl).1
  rcases C89_launch_depends_on_its_files (times := times') (a := a') same with k | ⟨e, e', r', k1, k2, k3⟩
  · exact .inl k
  · exact .inr ⟨e, e', r', k1, k2, fun path hp => k3 path (.inl hp)⟩

/-! ### Example -/

namespace IndependentDemo

/-- A launch with a custom cache, then one with the default cache: the second one ends as without the first. -/
example : ∃ d1 e saved, PathDemo.mine.launch (fun _ => 3) (LaunchDemo.args false true 5) PathDemo.files = some (d1, .success LaunchDemo.game saved) ∧
    NewGameDemo.plain.launch (fun _ => 3) (LaunchDemo.args false false 9) d1 = some (e, .failed) := by
  obtain ⟨saved, h1⟩ := PathDemo.of_compilesB (a := LaunchDemo.args false true 5) (original := LaunchDemo.game) (by decide +kernel)
  have hr : Refuses (LaunchDemo.args false false 9) LaunchDemo.game := PathDemo.of_refusesB (by decide +kernel)
  obtain ⟨d1, k1, -⟩ := C90_first_launch (times := fun _ => 3) (d := PathDemo.files) PathDemo.mine_distinct
    (.inr ⟨PathDemo.files_none (by decide), if_pos rfl⟩) (PathDemo.files_none (by decide)) (PathDemo.files_none (by decide))
    (PathDemo.files_none (by decide)) (PathDemo.files_none (by decide)) (by decide) (by decide) h1
  obtain ⟨d2, l2, -⟩ := (C91_first_launch_in_place (times := fun _ => 3) (by decide) rfl NewGameDemo.plain_new).2 hr
  rcases C89_launches_do_not_disturb_partial (s := PathDemo.mine) (s' := NewGameDemo.plain) (dir := ["my".toList]) (dir' := ["r6".toList, "cache".toList])
    (name := "final.redscripts".toList) (name' := "final.redscripts".toList) (out := "final.redscripts".toList) (out' := "final.redscripts".toList)
    (times' := fun _ => 3) (a' := LaunchDemo.args false false 9) rfl rfl rfl rfl (by decide) (by decide) k1 with k | ⟨e, e', r', j1, j2, -⟩
  · rw [l2] at k
    cases k.2
  · rw [l2] at j2
    cases j2
    exact ⟨d1, e, saved, k1, j1⟩

end IndependentDemo

end Redscript
