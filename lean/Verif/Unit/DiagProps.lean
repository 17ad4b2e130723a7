import Verif.Unit.DiagModel
import Verif.Codec.Model

/-!
# Diagnostics and persistent fields (C35, C38)
-/

namespace Redscript

/-! ## C35: delivery of diagnostics -/

/-- Specification: the diagnostics that are only warnings. -/
def IsWarning (d : Diagnostic) : Prop :=
  d.kind = .ReplaceMethodConflict ∨ d.kind = .FieldConflict ∨ d.kind = .Deprecation ∨
  d.kind = .UnusedLocal ∨ d.kind = .MissingReturn ∨ d.kind = .AddMethodConflict

instance (d : Diagnostic) : Decidable (IsWarning d) := by unfold IsWarning; infer_instance

theorem isFatal_iff (d : Diagnostic) : d.isFatal = true ↔ ¬ IsWarning d := by
  unfold Diagnostic.isFatal IsWarning
  cases d.kind <;> simp

theorem isFatal_eq (d : Diagnostic) : d.isFatal = !decide (IsWarning d) := by
  rw [Bool.eq_iff_iff, isFatal_iff]; simp

/-- A stable sort by a boolean key puts the elements with key `false` first and keeps the order within
each group. -/
theorem mergeSort_bool (key : α → Bool) (l : List α) :
    l.mergeSort (fun a b => !key a || key b) = l.filter (fun a => !key a) ++ l.filter key := by
  have htr : ∀ a b c : α, (!key a || key b) = true → (!key b || key c) = true → (!key a || key c) = true := by
    intro a b c; cases key a <;> cases key b <;> cases key c <;> simp
  have hto : ∀ a b : α, ((!key a || key b) || (!key b || key a)) = true := by
    intro a b; cases key a <;> cases key b <;> simp
  generalize hs : l.mergeSort (fun a b => !key a || key b) = s
  have hperm : s.Perm l := hs ▸ List.mergeSort_perm l _
  have hpw : s.Pairwise fun a b => (!key a || key b) = true :=
    hs ▸ List.pairwise_mergeSort (le := fun a b => !key a || key b) htr hto l
  -- a sorted list is its `false` part followed by its `true` part
  have hsplit : ∀ t : List α, t.Pairwise (fun a b => (!key a || key b) = true) →
      t = t.filter (fun a => !key a) ++ t.filter key := by
    intro t ht
    induction t with
    | nil => rfl
    | cons a t ih =>
      rw [List.pairwise_cons] at ht
      cases hk : key a with
      | false => simp only [List.filter_cons, hk]; simp; exact ih ht.2
      | true =>
        have hall : ∀ b ∈ t, key b = true := by
          intro b hb; simpa [hk] using ht.1 b hb
        have h1 : t.filter (fun a => !key a) = [] := by
          rw [List.filter_eq_nil_iff]; intro b hb; simp [hall b hb]
        have h2 : t.filter key = t := List.filter_eq_self.2 hall
        simp [hk, h1, h2]
  have hsub : ∀ p : α → Bool, (∀ a b, p a = true → p b = true → (!key a || key b) = true) →
      l.filter p = s.filter p := by
    intro p hp
    have hpw' : (l.filter p).Pairwise fun a b => (!key a || key b) = true := by
      apply List.pairwise_of_forall_mem_list
      intro a ha b hb
      exact hp a b (List.mem_filter.1 ha).2 (List.mem_filter.1 hb).2
    have h1 : (l.filter p).Sublist s :=
      hs ▸ List.sublist_mergeSort (le := fun a b => !key a || key b) htr hto hpw' List.filter_sublist
    have h2 : (l.filter p).Sublist (s.filter p) := by
      have := h1.filter p
      rwa [List.filter_filter, show (fun a => p a && p a) = p by funext a; simp] at this
    exact h2.eq_of_length ((hperm.filter p).length_eq.symm)
  rw [hsplit s hpw, hsub (fun a => !key a) (by intro a b; cases key a <;> simp),
    hsub key (by intro a b; cases key a <;> cases key b <;> simp)]

/-- Diagnostics are delivered with the warnings first; the order within both groups is kept. -/
theorem C35_warnings_first (ds : List Diagnostic) :
    sortDiagnostics ds = ds.filter (fun d => decide (IsWarning d)) ++ ds.filter (fun d => !decide (IsWarning d)) := by
  rw [sortDiagnostics, mergeSort_bool, show Diagnostic.isFatal = fun d => !decide (IsWarning d) from
    funext isFatal_eq]
  simp

/-- Compilation succeeds exactly when every diagnostic is a warning; then all of them are delivered, in
their order. -/
theorem C35_success_iff_no_fatal (ds : List Diagnostic) :
    (∀ out, compileAndReport (.ok (sortDiagnostics ds)) = .ok out ↔ (∀ d ∈ ds, IsWarning d) ∧ out = ds) := by
  intro out
  rw [C35_warnings_first]
  unfold compileAndReport
  by_cases h : ∀ d ∈ ds, IsWarning d
  · have h1 : ds.filter (fun d => decide (IsWarning d)) = ds := List.filter_eq_self.2 (by simpa using h)
    have h2 : ds.filter (fun d => !decide (IsWarning d)) = [] := by
      rw [List.filter_eq_nil_iff]; intro d hd; simp [h d hd]
    have h3 : ds.any Diagnostic.isFatal = false := by
      rw [List.any_eq_false]; intro d hd; rw [isFatal_iff]; simp [h d hd]
    simp only [h1, h2, List.append_nil, h3]
    simp [eq_comm]
    exact fun _ => h
  · have h3 : (ds.filter (fun d => decide (IsWarning d)) ++ ds.filter (fun d => !decide (IsWarning d))).any
        Diagnostic.isFatal = true := by
      rw [List.any_eq_true]
      simp only [Classical.not_forall] at h
      obtain ⟨d, hd, hw⟩ := h
      exact ⟨d, by simp [hd, hw], (isFatal_iff d).2 hw⟩
    simp [h3, h]

/-- On failure the reported list has exactly the fatal diagnostics, in their order, with code and
span. -/
theorem C35_failure_lists_fatal (ds : List Diagnostic) (e : UnitError)
    (h : compileAndReport (.ok (sortDiagnostics ds)) = .error e) :
    e = .multiple ((ds.filter fun d => !decide (IsWarning d)).map fun d => (d.code, d.span)) ∧
    ∃ d ∈ ds, ¬ IsWarning d := by
  rw [C35_warnings_first] at h
  unfold compileAndReport at h
  simp only at h
  split at h
  · rename_i hf
    injection h with h
    refine ⟨?_, ?_⟩
    · rw [← h, List.filter_append]
      have h1 : (ds.filter fun d => decide (IsWarning d)).filter Diagnostic.isFatal = [] := by
        rw [List.filter_eq_nil_iff]; intro d hd
        rw [isFatal_iff]; simpa using (List.mem_filter.1 hd).2
      have h2 : (ds.filter fun d => !decide (IsWarning d)).filter Diagnostic.isFatal =
          ds.filter fun d => !decide (IsWarning d) := by
        rw [List.filter_eq_self]; intro d hd
        rw [isFatal_iff]; simpa using (List.mem_filter.1 hd).2
      rw [h1, h2, List.nil_append]
    · obtain ⟨d, hd, hf⟩ := List.any_eq_true.1 hf
      refine ⟨d, ?_, (isFatal_iff d).1 hf⟩
      simp only [List.mem_append, List.mem_filter] at hd
      rcases hd with hd | hd <;> exact hd.1
  · cases h

/-- An error that stops the compilation is reported as a failure; if it is a syntax, compile or
conditional-compilation error, as the single entry with its code and span. -/
theorem C35_aborted_is_failure (e : UnitError) :
    ∃ e', compileAndReport (.error e) = .error e' ∧
      ∀ d, e = .diagnostic d → e' = .multiple [(d.code, d.span)] := by
  cases e with
  | diagnostic d => exact ⟨_, rfl, by intro d' h; cases h; rfl⟩
  | multiple l => exact ⟨_, rfl, by intro d' h; cases h⟩
  | other n => exact ⟨_, rfl, by intro d' h; cases h⟩

private def exDiags : List Diagnostic :=
  [⟨.CompileError, "A".toList, (1, 2)⟩, ⟨.UnusedLocal, [], (3, 4)⟩, ⟨.StatementFallthrough, [], (5, 6)⟩,
   ⟨.FieldConflict, [], (7, 8)⟩]

example : (sortDiagnostics exDiags).map (·.span) = [(3, 4), (7, 8), (1, 2), (5, 6)] := by
  rw [C35_warnings_first]; decide +kernel
example : compileAndReport (.ok (sortDiagnostics exDiags)) =
    .error (.multiple [("A".toList, (1, 2)), ("OTHER".toList, (5, 6))]) := by
  rw [C35_warnings_first]; decide +kernel
example : compileAndReport (.ok (sortDiagnostics [⟨.UnusedLocal, [], (3, 4)⟩, ⟨.MissingReturn, [], (1, 2)⟩])) =
    .ok [⟨.UnusedLocal, [], (3, 4)⟩, ⟨.MissingReturn, [], (1, 2)⟩] := by
  rw [C35_warnings_first]; decide +kernel

/-! ## C38: persistent fields -/

/-- Specification: `OccursIn s t` says that the type `s` is `t` or nested in its arguments. -/
inductive OccursIn (s : TypeName) : TypeName → Prop where
  | here : OccursIn s s
  | inArg {n as a} : a ∈ as → OccursIn s a → OccursIn s (.mk n as)

/-- The types that cannot be persistent. -/
def forbiddenPersistent : List TypeName := [.basic "String", .basic "Variant", .basic "ResRef"]

theorem isDisallowedPersistent_iff (t : TypeName) :
    t.isDisallowedPersistent = true ↔ t ∈ forbiddenPersistent := by
  obtain ⟨n, as⟩ := t
  cases as with
  | nil => 
    simp only [TypeName.isDisallowedPersistent, forbiddenPersistent, TypeName.basic, TypeName.name, TypeName.args,
      List.isEmpty_nil, Bool.true_and, Bool.or_eq_true, List.mem_cons, List.not_mem_nil,
      or_false, TypeName.mk.injEq, and_true, or_assoc]
    exact or_congr decide_eq_true_iff (or_congr decide_eq_true_iff decide_eq_true_iff)
  | cons a as => simp [TypeName.isDisallowedPersistent, forbiddenPersistent, TypeName.basic, TypeName.args]

mutual
theorem canBePersistent_iff (t : TypeName) :
    t.canBePersistent = true ↔ ∀ s ∈ forbiddenPersistent, ¬ OccursIn s t := by
  obtain ⟨n, as⟩ := t
  unfold TypeName.canBePersistent
  by_cases hd : (TypeName.mk n as).isDisallowedPersistent = true
  · simp only [hd, if_true, Bool.false_eq_true, false_iff]
    intro h
    exact h _ ((isDisallowedPersistent_iff _).1 hd) .here
  · rw [if_neg hd, canBePersistentAll_iff as]
    constructor
    · intro h s hs ho
      cases ho with
      | here => exact hd ((isDisallowedPersistent_iff _).2 hs)
      | inArg ha ho => exact h _ ha s hs ho
    · intro h a ha s hs ho
      exact h s hs (.inArg ha ho)
termination_by sizeOf t
theorem canBePersistentAll_iff (ts : List TypeName) :
    TypeName.canBePersistentAll ts = true ↔ ∀ a ∈ ts, ∀ s ∈ forbiddenPersistent, ¬ OccursIn s a := by
  match ts with
  | [] => simp [TypeName.canBePersistentAll]
  | t :: ts => simp [TypeName.canBePersistentAll, canBePersistent_iff t, canBePersistentAll_iff ts]
termination_by sizeOf ts
end

/-- A persistent field is rejected exactly when a string, variant or resource type is its type or is
nested in it; a field that is not persistent is never rejected for this reason. -/
theorem C38_rejected_iff_forbidden_inside (isPersistent : Bool) (t : TypeName) :
    reportsPersistent isPersistent t = true ↔
      isPersistent = true ∧ ∃ s ∈ [TypeName.basic "String", .basic "Variant", .basic "ResRef"], OccursIn s t := by
  unfold reportsPersistent
  rw [Bool.and_eq_true, Bool.not_eq_true']
  have := canBePersistent_iff t
  apply and_congr Iff.rfl
  rw [← Bool.not_eq_true, this]
  simp only [Classical.not_forall, Classical.not_not, exists_prop]
  rfl

example : reportsPersistent true (.mk "array".toList [.mk "array".toList [.basic "String"]]) = true := by
  decide +kernel
example : reportsPersistent true (.mk "array".toList [.mk "ref".toList [.basic "MyString"]]) = false := by
  decide +kernel

end Redscript
