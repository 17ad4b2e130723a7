import Verif.Scc.ToolProps
import Verif.SourceMap.DirProps

/-!
# C88: the directory of user hints

Model of the reading of the hint files (`UserHints::load`, scc/lib/src/hints.rs:34-54, and its caller,
scc/lib/src/lib.rs:231-234), and the property.
-/

namespace Redscript

/-! ### Model -/

/-- An entry of the directory: its name, and what reading and parsing it gives; `none` is an error in either
(scc/lib/src/hints.rs:43-46). -/
structure HintEntry (Path : Type) where
  name : Text
  parsed : Option (HintFile Path)

/-- The loop over the entries, which stops at an error (scc/lib/src/hints.rs:41-51). -/
def hintFilesOf {Path : Type} : List (HintEntry Path) → Option (List (HintFile Path))
  | [] => some []
  | e :: es =>
    if extensionOf e.name = some "toml".toList then
      match e.parsed, hintFilesOf es with
      | some f, some fs => some (f :: fs)
      | _, _ => none
    else hintFilesOf es

/-- The hints of a directory, `none` if it does not exist; an error leaves no hints (scc/lib/src/hints.rs:34-54,
scc/lib/src/lib.rs:231-234). -/
def hintsOfDir {Path : Type} : Option (List (HintEntry Path)) → AMap Text (List (UserHint Path))
  | none => AMap.empty
  | some es =>
    match hintFilesOf es with
    | some fs => loadHints fs
    | none => AMap.empty

/-! ### Specification -/

/-- A hint is in a file of the directory that is called something.toml, under the code of the error. -/
def HintInDir {Path : Type} (es : List (HintEntry Path)) (code : Text) (h : UserHint Path) : Prop :=
  ∃ e ∈ es, ∃ stem f hs, stem ≠ [] ∧ e.name = stem ++ ".toml".toList ∧ e.parsed = some f ∧ (code, hs) ∈ f ∧ h ∈ hs

/-! ### Proofs -/

theorem extension_toml {name : Text} : extensionOf name = some "toml".toList ↔ ∃ stem, stem ≠ [] ∧ name = stem ++ ".toml".toList := by
  unfold extensionOf
  constructor
  · intro h
    split at h
    · next b a hs =>
      obtain ⟨e, -⟩ := rsplitDot_some.1 hs
      split at h
      · cases h
      · next hb =>
        cases h
        exact ⟨b, hb, e⟩
    · cases h
  · rintro ⟨stem, hs, rfl⟩
    have : rsplitDot (stem ++ ".toml".toList) = some (stem, "toml".toList) := rsplitDot_some.2 ⟨rfl, by decide⟩
    rw [this]
    simp [hs]

theorem mem_registered {Path : Type} {files : List (HintFile Path)} {code : Text} {h : UserHint Path} :
    h ∈ registered files code ↔ ∃ f ∈ files, ∃ hs, (code, hs) ∈ f ∧ h ∈ hs := by
  unfold registered
  simp only [List.mem_flatMap, List.mem_flatten]
  constructor
  · rintro ⟨⟨c, hs⟩, ⟨f, hf, he⟩, hm⟩
    split at hm
    · next hc => cases hc; exact ⟨f, hf, hs, he, hm⟩
    · cases hm
  · rintro ⟨f, hf, hs, he, hm⟩
    exact ⟨(code, hs), ⟨f, hf, he⟩, by rw [if_pos rfl]; exact hm⟩

theorem hintFilesOf_mem {Path : Type} {es : List (HintEntry Path)} {fs : List (HintFile Path)} (h : hintFilesOf es = some fs) (f : HintFile Path) :
    f ∈ fs ↔ ∃ e ∈ es, (∃ stem, stem ≠ [] ∧ e.name = stem ++ ".toml".toList) ∧ e.parsed = some f := by
  induction es generalizing fs with
  | nil => cases h; simp
  | cons e es ih =>
    unfold hintFilesOf at h
    split at h
    · next hx =>
      split at h
      · next g gs hp hr =>
        cases h
        simp only [List.mem_cons, ih hr, exists_eq_or_imp, ← extension_toml, hx, hp, true_and, Option.some.injEq]
        constructor <;> rintro (h | h) <;> first | exact .inl h.symm | exact .inr h
      · cases h
    · next hx =>
      simp only [List.mem_cons, ih h, exists_eq_or_imp, ← extension_toml, hx, false_and, false_or]

theorem hintFilesOf_ok {Path : Type} {es : List (HintEntry Path)}
    (h : ∀ e ∈ es, (∃ stem, stem ≠ [] ∧ e.name = stem ++ ".toml".toList) → e.parsed ≠ none) : ∃ fs, hintFilesOf es = some fs := by
  induction es with
  | nil => exact ⟨[], rfl⟩
  | cons e es ih =>
    obtain ⟨fs, hfs⟩ := ih fun x hx => h x (List.mem_cons_of_mem _ hx)
    unfold hintFilesOf
    split
    · next hx =>
      have hp := h e List.mem_cons_self (extension_toml.1 hx)
      rw [hfs]
      cases hq : e.parsed with
      | none => exact absurd hq hp
      | some f => exact ⟨_, rfl⟩
    · exact ⟨fs, hfs⟩

/-- C88: when all files of the directory of hints that are called something.toml can be read, a hint is shown for an error exactly
if one in these files is for its code and applies, and what is shown is such a hint. Missing: directories with a file that
cannot be read, of which it is false. -/
theorem C88_hints_of_the_directory_partial {Path : Type} [DecidableEq Path] {es : List (HintEntry Path)}
    (h : ∀ e ∈ es, (∃ stem, stem ≠ [] ∧ e.name = stem ++ ".toml".toList) → e.parsed ≠ none) (code : Text) (path : Option Path) (source line : Text) :
    (∀ hint, getByError (hintsOfDir (some es)) code path source line = some hint →
      HintInDir es code hint ∧ HintApplies hint path source line) ∧
    (getByError (hintsOfDir (some es)) code path source line = none ↔
      ∀ hint, HintInDir es code hint → ¬ HintApplies hint path source line) := by
  obtain ⟨fs, hfs⟩ := hintFilesOf_ok h
  have e : hintsOfDir (some es) = loadHints fs := by simp [hintsOfDir, hfs]
  have hm : ∀ hint, hint ∈ registered fs code ↔ HintInDir es code hint := by
    intro hint
    rw [mem_registered]
    constructor
    · rintro ⟨f, hf, hs, h1, h2⟩
      obtain ⟨x, hx, ⟨stem, k1, k2⟩, k3⟩ := (hintFilesOf_mem hfs f).1 hf
      exact ⟨x, hx, stem, f, hs, k1, k2, k3, h1, h2⟩
    · rintro ⟨x, hx, stem, f, hs, k1, k2, k3, h1, h2⟩
      exact ⟨f, (hintFilesOf_mem hfs f).2 ⟨x, hx, ⟨stem, k1, k2⟩, k3⟩, hs, h1, h2⟩
  obtain ⟨h1, h2⟩ := C44_first_applicable fs code path source line
  rw [e]
  constructor
  · intro hint hh
    obtain ⟨b, a, k1, k2, -⟩ := h1 hint hh
    exact ⟨(hm hint).1 (by rw [k1]; simp), k2⟩
  · rw [h2]
    simp only [hm]

/-- C88: without the directory no hints are shown. -/
theorem C88_no_directory {Path : Type} [DecidableEq Path] (code : Text) (path : Option Path) (source line : Text) :
    getByError (hintsOfDir (Path := Path) none) code path source line = none := rfl

/-! ### Example and counterexamples -/

namespace HintDemo

def hintA : UserHint Nat := ⟨"a".toList, "update a".toList, none, some "Foo".toList, none⟩
def hintB : UserHint Nat := ⟨"b".toList, "update b".toList, none, none, some "Bar".toList⟩
def fileA : HintEntry Nat := ⟨"a.toml".toList, some [("UNRESOLVED_FN".toList, [hintA])]⟩
def fileB : HintEntry Nat := ⟨"b.v2.toml".toList, some [("UNRESOLVED_FN".toList, [hintB])]⟩
def readme : HintEntry Nat := ⟨"readme.txt".toList, none⟩
def broken : HintEntry Nat := ⟨"c.toml".toList, none⟩

/-- The hint of the second file is found; a file of another kind does no harm. -/
example : (getByError (hintsOfDir (some [fileA, readme, fileB])) "UNRESOLVED_FN".toList none "Baz()".toList "let x = Bar.Baz();".toList) ≠ none := by
  intro hn
  refine (C88_hints_of_the_directory_partial (es := [fileA, readme, fileB]) ?_ _ _ _ _).2.1 hn hintB ?_ ?_
  · intro e he hx
    simp only [List.mem_cons, List.not_mem_nil, or_false] at he
    rcases he with rfl | rfl | rfl
    · exact fun h => nomatch h
    · exact absurd (extension_toml.2 hx) (by decide)
    · exact fun h => nomatch h
  · exact ⟨fileB, by simp, "b.v2".toList, _, _, by decide, by decide, rfl, List.mem_cons_self, List.mem_cons_self⟩
  · exact (accepts_iff _ _ _ _).1 (by decide)

end HintDemo

open HintDemo in
/-- C88: one hint file that cannot be read or parsed takes away the hints of all others. -/
theorem C88_broken_file_counterexample : ∃ (es : List (HintEntry Nat)) (bad : HintEntry Nat) (code source line : Text),
    (getByError (hintsOfDir (some es)) code none source line).isSome = true ∧
    (getByError (hintsOfDir (some (es ++ [bad]))) code none source line).isSome = false :=
  ⟨[fileA, fileB], broken, "UNRESOLVED_FN".toList, "Foo()".toList, "Foo();".toList, by decide, by decide⟩

open HintDemo in
/-- C88: which of two hints in different files is shown depends on the order in which the directory is listed. -/
theorem C88_order_counterexample : ∃ (e e' : HintEntry Nat) (code source line : Text),
    (getByError (hintsOfDir (some [e, e'])) code none source line).map (·.id) ≠
    (getByError (hintsOfDir (some [e', e])) code none source line).map (·.id) :=
  ⟨fileA, fileB, "UNRESOLVED_FN".toList, "Foo()".toList, "Foo() Bar".toList, by decide⟩

end Redscript
