import Verif.SourceMap.DirModel
import Verif.Unit.DeclDoneSpec

/-!
# C84: the scripts in the given directories are compiled, and nothing else
-/

namespace Redscript

/-! ### Specification -/

/-- What is found by going down a path. -/
inductive DirNode.At : DirNode → PathParts → DirNode → Prop
  | here (n : DirNode) : At n [] n
  | inside {es : List (Text × DirNode)} {name : Text} {c x : DirNode} {rest : PathParts} : (name, c) ∈ es → At c rest x →
      At (.dir es) (name :: rest) x

/-- No directory has two entries of the same name. -/
def DirNode.Tidy (n : DirNode) : Prop := ∀ rel es, n.At rel (.dir es) → (es.map (·.1)).Nodup

/-- The name is left out at the top. -/
def SourceFilter.Excludes : SourceFilter → Text → Prop
  | .None, _ => False
  | .Exclude names, name => name ∈ names

/-- The path of a script: its name ends in `.reds`, with something before it, and the name at the top, which is that of the
directory or of the script without the ending, is not left out. -/
def SourceFilter.IsScript (f : SourceFilter) (rel : PathParts) : Prop :=
  ∃ dirs stem, stem ≠ [] ∧ rel = dirs ++ [stem ++ ".reds".toList] ∧ ¬ f.Excludes ((dirs ++ [stem]).headD [])

/-- The path and text of a source that is given by a path: the file there, or a script in the directory there. -/
def SourceRoot.Gives (f : SourceFilter) (r : SourceRoot) (path : PathParts) (text : Text) : Prop :=
  (r.node = .file (some text) ∧ path = r.path) ∨
  ∃ rel, path = r.path ++ rel ∧ f.IsScript rel ∧ r.node.At rel (.file (some text))

/-- A given path has something that should be a source but is no text. -/
def SourceRoot.Unreadable (f : SourceFilter) (r : SourceRoot) : Prop :=
  r.node = .file none ∨
  ∃ rel, f.IsScript rel ∧ (r.node.At rel (.file none) ∨ ∃ es, r.node.At rel (.dir es))

/-! ### Names -/

theorem rsplitDot_none {s : Text} : rsplitDot s = none ↔ '.' ∉ s := by
  induction s with
  | nil => simp [rsplitDot]
  | cons c s ih =>
    unfold rsplitDot
    cases h : rsplitDot s with
    | some p =>
      rw [h] at ih
      simp only [reduceCtorEq, false_iff, Classical.not_not] at ih
      simp [ih]
    | none =>
      rw [h] at ih
      have ih := ih.1 rfl
      by_cases hc : c = '.'
      · simp [hc]
      · simp [hc, ih, Ne.symm hc]

theorem rsplitDot_some {s b a : Text} : rsplitDot s = some (b, a) ↔ s = b ++ '.' :: a ∧ '.' ∉ a := by
  induction s generalizing b with
  | nil => simp [rsplitDot]
  | cons c s ih =>
    unfold rsplitDot
    cases h : rsplitDot s with
    | some p =>
      obtain ⟨b', a'⟩ := p
      simp only [Option.some.injEq, Prod.mk.injEq]
      constructor
      · rintro ⟨rfl, rfl⟩
        obtain ⟨e, k⟩ := ih.1 h
        exact ⟨by rw [e]; rfl, k⟩
      · rintro ⟨e, k⟩
        cases b with
        | nil =>
          simp only [List.nil_append, List.cons.injEq] at e
          obtain ⟨rfl, rfl⟩ := e
          rw [rsplitDot_none.2 k] at h
          cases h
        | cons x b =>
          simp only [List.cons_append, List.cons.injEq] at e
          obtain ⟨rfl, e⟩ := e
          have := ih.2 ⟨e, k⟩
          rw [h] at this
          cases this
          exact ⟨rfl, rfl⟩
    | none =>
      have hn := rsplitDot_none.1 h
      simp only
      split
      · next hc =>
        subst hc
        simp only [Option.some.injEq, Prod.mk.injEq]
        constructor
        · rintro ⟨rfl, rfl⟩
          exact ⟨rfl, hn⟩
        · rintro ⟨e, k⟩
          cases b with
          | nil => simp only [List.nil_append, List.cons.injEq, true_and] at e; exact ⟨rfl, e⟩
          | cons x b =>
            simp only [List.cons_append, List.cons.injEq] at e
            exact absurd (by rw [e.2]; simp) hn
      · next hc =>
        simp only [reduceCtorEq, false_iff]
        rintro ⟨e, -⟩
        cases b with
        | nil => simp only [List.nil_append, List.cons.injEq] at e; exact hc e.1
        | cons x b =>
          simp only [List.cons_append, List.cons.injEq] at e
          exact absurd (by rw [e.2]; simp) hn

theorem extension_reds {name : Text} : extensionOf name = some "reds".toList ↔ ∃ stem, stem ≠ [] ∧ name = stem ++ ".reds".toList := by
  unfold extensionOf
  constructor
  · intro h
    split at h
    · next b a hs =>
      obtain ⟨e, -⟩ := rsplitDot_some.1 hs
      split at h
      · cases h
      · next hb =>
        cases h
        exact ⟨b, hb, e⟩
    · cases h
  · rintro ⟨stem, hs, rfl⟩
    have : rsplitDot (stem ++ ".reds".toList) = some (stem, "reds".toList) := rsplitDot_some.2 ⟨rfl, by decide⟩
    rw [this]
    simp [hs]

theorem stem_reds {stem : Text} (h : stem ≠ []) : stemOf (stem ++ ".reds".toList) = stem := by
  unfold stemOf
  have : rsplitDot (stem ++ ".reds".toList) = some (stem, "reds".toList) := rsplitDot_some.2 ⟨rfl, by decide⟩
  rw [this]
  simp [h]

theorem apply_iff {f : SourceFilter} {rel : PathParts} : f.apply rel = true ↔ f.IsScript rel := by
  unfold SourceFilter.apply
  simp only [Bool.and_eq_true, decide_eq_true_eq]
  constructor
  · rintro ⟨h1, h2⟩
    cases hl : rel.getLast? with
    | none => rw [hl] at h1; cases h1
    | some name =>
      rw [hl] at h1
      obtain ⟨stem, hs, rfl⟩ := extension_reds.1 h1
      have hrel : rel = rel.dropLast ++ [stem ++ ".reds".toList] := by
        obtain ⟨ys, e⟩ := List.getLast?_eq_some_iff.1 hl
        rw [e]; simp
      refine ⟨rel.dropLast, stem, hs, hrel, ?_⟩
      cases f with
      | None => exact id
      | Exclude names =>
        simp only [hl, Option.map_some, stem_reds hs, Option.toList_some] at h2
        intro hx
        have hx : (rel.dropLast ++ [stem]).headD [] ∈ names := hx
        cases hd : rel.dropLast ++ [stem] with
        | nil => simp at hd
        | cons y ys =>
          rw [hd] at h2 hx
          simp only [List.head?_cons, Bool.not_eq_true', List.contains_eq_mem, decide_eq_false_iff_not] at h2
          exact h2 hx
  · rintro ⟨dirs, stem, hs, rfl, hx⟩
    refine ⟨?_, ?_⟩
    · simp only [List.getLast?_append, List.getLast?_singleton, Option.some_or, Option.bind_some]
      exact extension_reds.2 ⟨stem, hs, rfl⟩
    · cases f with
      | None => rfl
      | Exclude names =>
        simp only [List.getLast?_append, List.getLast?_singleton, Option.some_or, Option.map_some, stem_reds hs, Option.toList_some,
          List.dropLast_concat]
        cases hd : dirs ++ [stem] with
        | nil => simp at hd
        | cons y ys =>
          rw [hd] at hx
          simp only [List.head?_cons, Bool.not_eq_true', List.contains_eq_mem, decide_eq_false_iff_not]
          exact hx

/-! ### Walking -/

theorem at_file {c : Option Text} {rel : PathParts} {x : DirNode} : (DirNode.file c).At rel x ↔ rel = [] ∧ x = .file c := by
  constructor
  · intro h; cases h; exact ⟨rfl, rfl⟩
  · rintro ⟨rfl, rfl⟩; exact .here _

theorem at_fault {rel : PathParts} {x : DirNode} : DirNode.fault.At rel x ↔ rel = [] ∧ x = .fault := by
  constructor
  · intro h; cases h; exact ⟨rfl, rfl⟩
  · rintro ⟨rfl, rfl⟩; exact .here _

mutual
theorem mem_walk (rel : PathParts) : ∀ (n : DirNode) (path : PathParts) (x : DirNode),
    (path, x) ∈ n.walk rel ↔ ∃ rest, path = rel ++ rest ∧ n.At rest x ∧ x ≠ .fault
  | .file c, path, x => by
    simp only [DirNode.walk, List.mem_singleton, Prod.mk.injEq, at_file]
    constructor
    · rintro ⟨rfl, rfl⟩; exact ⟨[], by simp, ⟨rfl, rfl⟩, nofun⟩
    · rintro ⟨rest, rfl, ⟨rfl, rfl⟩, -⟩; simp
  | .fault, path, x => by
    simp only [DirNode.walk, List.not_mem_nil, false_iff, at_fault]
    rintro ⟨rest, -, ⟨-, rfl⟩, h⟩
    exact h rfl
  | .dir es, path, x => by
    simp only [DirNode.walk, List.mem_cons, Prod.mk.injEq, mem_walkEntries rel es path x]
    constructor
    · rintro (⟨rfl, rfl⟩ | ⟨name, c, rest, h1, rfl, h2, h3⟩)
      · exact ⟨[], by simp, .here _, nofun⟩
      · exact ⟨name :: rest, rfl, .inside h1 h2, h3⟩
    · rintro ⟨rest, rfl, h, h3⟩
      cases h with
      | here => exact .inl ⟨by simp, rfl⟩
      | inside h1 h2 => exact .inr ⟨_, _, _, h1, rfl, h2, h3⟩
theorem mem_walkEntries (rel : PathParts) : ∀ (es : List (Text × DirNode)) (path : PathParts) (x : DirNode),
    (path, x) ∈ walkEntries rel es ↔ ∃ name c rest, (name, c) ∈ es ∧ path = rel ++ name :: rest ∧ c.At rest x ∧ x ≠ .fault
  | [], path, x => by simp [walkEntries]
  | (name, n) :: es, path, x => by
    simp only [walkEntries, List.mem_append, mem_walk (rel ++ [name]) n path x, mem_walkEntries rel es path x]
    constructor
    · rintro (⟨rest, rfl, h2, h3⟩ | ⟨name', c, rest, h1, h⟩)
      · exact ⟨name, n, rest, by simp, by simp, h2, h3⟩
      · exact ⟨name', c, rest, by simp [h1], h⟩
    · rintro ⟨name', c, rest, h1, rfl, h2, h3⟩
      rcases List.mem_cons.1 h1 with e | h1
      · cases e
        exact .inl ⟨rest, by simp, h2, h3⟩
      · exact .inr ⟨name', c, rest, h1, rfl, h2, h3⟩
end

mutual
theorem walk_nodup (rel : PathParts) : ∀ (n : DirNode), n.Tidy → ((n.walk rel).map (·.1)).Nodup
  | .file c, _ => by simp [DirNode.walk]
  | .fault, _ => by simp [DirNode.walk]
  | .dir es, h => by
    simp only [DirNode.walk, List.map_cons, List.nodup_cons]
    refine ⟨?_, walkEntries_nodup rel es (h [] es (.here _)) fun name c hc rel' es' ha => h (name :: rel') es' (.inside hc ha)⟩
    intro hm
    obtain ⟨⟨path, x⟩, h1, h2⟩ := List.mem_map.1 hm
    obtain ⟨name, c, rest, -, h3, -⟩ := (mem_walkEntries rel es path x).1 h1
    simp only at h2
    have := congrArg List.length (h2.symm.trans h3)
    simp at this
theorem walkEntries_nodup (rel : PathParts) : ∀ (es : List (Text × DirNode)), (es.map (·.1)).Nodup → (∀ name c, (name, c) ∈ es → c.Tidy) →
    ((walkEntries rel es).map (·.1)).Nodup
  | [], _, _ => by simp [walkEntries]
  | (name, n) :: es, h1, h2 => by
    simp only [List.map_cons, List.nodup_cons] at h1
    simp only [walkEntries, List.map_append]
    refine List.nodup_append.2 ⟨walk_nodup (rel ++ [name]) n (h2 name n (by simp)), walkEntries_nodup rel es h1.2 fun a b hb => h2 a b (by simp [hb]), ?_⟩
    intro p hp q hq e
    obtain ⟨⟨p', x⟩, k1, rfl⟩ := List.mem_map.1 hp
    obtain ⟨⟨q', y⟩, k2, rfl⟩ := List.mem_map.1 hq
    obtain ⟨r1, e1, -⟩ := (mem_walk _ _ _ _).1 k1
    obtain ⟨name', c, r2, m, e2, -⟩ := (mem_walkEntries _ _ _ _).1 k2
    simp only at e
    rw [e1, e2, List.append_assoc] at e
    have e := List.append_cancel_left e
    simp only [List.singleton_append, List.cons.injEq] at e
    exact h1.1 (e.1 ▸ List.mem_map_of_mem (f := (·.1)) m)
end

/-! ### Reading -/

theorem sourcesOf_append {a b : List (PathParts × DirNode)} {r : List (PathParts × Text)} (h : sourcesOf (a ++ b) = some r) :
    ∃ x y, sourcesOf a = some x ∧ sourcesOf b = some y ∧ r = x ++ y := by
  induction a generalizing r with
  | nil => exact ⟨[], r, rfl, h, rfl⟩
  | cons e a ih =>
    match e with
    | (path, .file (some t)) =>
      simp only [List.cons_append, sourcesOf, Option.map_eq_some_iff] at h
      obtain ⟨r', h1, rfl⟩ := h
      obtain ⟨x, y, k1, k2, rfl⟩ := ih h1
      exact ⟨(path, t) :: x, y, by simp [sourcesOf, k1], k2, rfl⟩
    | (path, .file none) => simp [sourcesOf] at h
    | (path, .dir _) => simp [sourcesOf] at h
    | (path, .fault) => simp [sourcesOf] at h

theorem sourcesOf_map {l : List (PathParts × DirNode)} {r : List (PathParts × Text)} (h : sourcesOf l = some r) :
    l = r.map fun e => (e.1, .file (some e.2)) := by
  induction l generalizing r with
  | nil => cases h; rfl
  | cons e l ih =>
    match e with
    | (path, .file (some t)) =>
      simp only [sourcesOf, Option.map_eq_some_iff] at h
      obtain ⟨r', h1, rfl⟩ := h
      rw [ih h1]
      rfl
    | (path, .file none) => simp [sourcesOf] at h
    | (path, .dir _) => simp [sourcesOf] at h
    | (path, .fault) => simp [sourcesOf] at h

theorem sourcesOf_none {l : List (PathParts × DirNode)} : sourcesOf l = none ↔ ∃ path x, (path, x) ∈ l ∧ ∀ t, x ≠ .file (some t) := by
  induction l with
  | nil => simp [sourcesOf]
  | cons e l ih =>
    match e with
    | (path, .file (some t)) =>
      simp only [sourcesOf, Option.map_eq_none_iff, ih, List.mem_cons]
      constructor
      · rintro ⟨p, x, h1, h2⟩; exact ⟨p, x, .inr h1, h2⟩
      · rintro ⟨p, x, h1 | h1, h2⟩
        · cases h1; exact absurd rfl (h2 t)
        · exact ⟨p, x, h1, h2⟩
    | (path, .file none) => simp only [sourcesOf, true_iff]; exact ⟨path, .file none, by simp, nofun⟩
    | (path, .dir es) => simp only [sourcesOf, true_iff]; exact ⟨path, .dir es, by simp, nofun⟩
    | (path, .fault) => simp only [sourcesOf, true_iff]; exact ⟨path, .fault, by simp, nofun⟩

theorem not_isScript_nil {f : SourceFilter} : ¬ f.IsScript [] := by
  rintro ⟨dirs, stem, -, e, -⟩
  simp at e

theorem mem_listed {f : SourceFilter} {r : SourceRoot} {path : PathParts} {x : DirNode} : (path, x) ∈ r.listed f ↔
    ((∃ c, r.node = .file c ∧ x = .file c) ∧ path = r.path) ∨ ∃ rel, path = r.path ++ rel ∧ f.IsScript rel ∧ r.node.At rel x ∧ x ≠ .fault := by
  unfold SourceRoot.listed
  split
  · next c hc =>
    simp only [List.mem_singleton, Prod.mk.injEq, hc, at_file]
    constructor
    · rintro ⟨rfl, rfl⟩; exact .inl ⟨⟨c, rfl, rfl⟩, rfl⟩
    · rintro (⟨⟨c', h1, rfl⟩, rfl⟩ | ⟨rel, -, h, ⟨rfl, -⟩, -⟩)
      · cases h1; exact ⟨rfl, rfl⟩
      · exact absurd h not_isScript_nil
  · next hn =>
    simp only [List.mem_map, List.mem_filter, Prod.mk.injEq, Prod.exists, apply_iff]
    constructor
    · rintro ⟨p, y, ⟨h1, h2⟩, rfl, rfl⟩
      obtain ⟨rest, e, h3, h4⟩ := (mem_walk _ _ _ _).1 h1
      simp only [List.nil_append] at e
      subst e
      exact .inr ⟨p, rfl, h2, h3, h4⟩
    · rintro (⟨⟨c, h1, -⟩, -⟩ | ⟨rel, rfl, h1, h2, h3⟩)
      · exact absurd h1 (hn c)
      · exact ⟨rel, x, ⟨(mem_walk _ _ _ _).2 ⟨rel, rfl, h2, h3⟩, h1⟩, rfl, rfl⟩

theorem listed_nodup {f : SourceFilter} {r : SourceRoot} (h : r.node.Tidy) : ((r.listed f).map (·.1)).Nodup := by
  unfold SourceRoot.listed
  split
  · simp
  · have h1 := walk_nodup [] r.node h
    rw [List.map_map]
    have h2 : (((r.node.walk []).filter fun e => f.apply e.1).map (·.1)).Nodup := h1.sublist (List.filter_sublist.map _)
    have e : ((fun e : PathParts × DirNode => e.1) ∘ fun e : PathParts × DirNode => (r.path ++ e.1, e.2)) =
        (r.path ++ ·) ∘ fun e : PathParts × DirNode => e.1 := rfl
    rw [e, ← List.map_map]
    exact List.Pairwise.map (r.path ++ ·) (fun a b hab e => hab (List.append_cancel_left e)) h2

/-! ### The properties -/

/-- C84: the sources are, for each given path in order, the file there or the scripts at any depth of the directory there, each
once, under its path and with its text. -/
theorem C84_sources_are_the_scripts {roots : List SourceRoot} {f : SourceFilter} {files : List (PathParts × Text)}
    (ht : ∀ r ∈ roots, r.node.Tidy) (h : sourcesFromDirs roots f = some files) :
    ∃ parts, files = parts.flatten ∧ Each2 (fun r part => (part.map (·.1)).Nodup ∧
      ∀ path text, (path, text) ∈ part ↔ r.Gives f path text) roots parts := by
  unfold sourcesFromDirs at h
  induction roots generalizing files with
  | nil => cases h; exact ⟨[], rfl, .nil⟩
  | cons r roots ih =>
    rw [List.flatMap_cons] at h
    obtain ⟨x, y, h1, h2, rfl⟩ := sourcesOf_append h
    obtain ⟨parts, rfl, hp⟩ := ih (fun r hr => ht r (List.mem_cons_of_mem _ hr)) h2
    refine ⟨x :: parts, rfl, .cons ⟨?_, fun path text => ?_⟩ hp⟩
    · have := listed_nodup (f := f) (ht r List.mem_cons_self)
      rw [sourcesOf_map h1, List.map_map] at this
      exact this
    · have e : (path, text) ∈ x ↔ (path, DirNode.file (some text)) ∈ r.listed f := by
        rw [sourcesOf_map h1, List.mem_map]
        constructor
        · exact fun h => ⟨_, h, rfl⟩
        · rintro ⟨⟨p, t⟩, h, e⟩
          simp only [Prod.mk.injEq, DirNode.file.injEq, Option.some.injEq] at e
          obtain ⟨rfl, rfl⟩ := e
          exact h
      rw [e, mem_listed]
      unfold SourceRoot.Gives
      constructor
      · rintro (⟨⟨c, h1, h2⟩, rfl⟩ | ⟨rel, rfl, h1, h2, -⟩)
        · exact .inl ⟨h2 ▸ h1, rfl⟩
        · exact .inr ⟨rel, rfl, h1, h2⟩
      · rintro (⟨h1, rfl⟩ | ⟨rel, rfl, h1, h2⟩)
        · exact .inl ⟨⟨_, h1, rfl⟩, rfl⟩
        · exact .inr ⟨rel, rfl, h1, h2, nofun⟩

/-- C84: reading the sources fails exactly if a file that is given, or a script in a directory that is given, is no text, or a
directory has the name of a script. Missing: that only files can make it fail, which is false. -/
theorem C84_reading_fails_partial {roots : List SourceRoot} {f : SourceFilter} :
    sourcesFromDirs roots f = none ↔ ∃ r ∈ roots, r.Unreadable f := by
  unfold sourcesFromDirs
  rw [sourcesOf_none]
  constructor
  · rintro ⟨path, x, h, hx⟩
    obtain ⟨r, hr, h⟩ := List.mem_flatMap.1 h
    refine ⟨r, hr, ?_⟩
    rcases mem_listed.1 h with ⟨⟨c, h1, rfl⟩, -⟩ | ⟨rel, -, h1, h2, h3⟩
    · cases c with
      | none => exact .inl h1
      | some t => exact absurd rfl (hx t)
    · cases x with
      | file c =>
        cases c with
        | none => exact .inr ⟨rel, h1, .inl h2⟩
        | some t => exact absurd rfl (hx t)
      | dir es => exact .inr ⟨rel, h1, .inr ⟨es, h2⟩⟩
      | fault => exact absurd rfl h3
  · rintro ⟨r, hr, h | ⟨rel, h1, h2 | ⟨es, h2⟩⟩⟩
    · exact ⟨r.path, .file none, List.mem_flatMap.2 ⟨r, hr, mem_listed.2 (.inl ⟨⟨_, h, rfl⟩, rfl⟩)⟩, nofun⟩
    · exact ⟨_, .file none, List.mem_flatMap.2 ⟨r, hr, mem_listed.2 (.inr ⟨rel, rfl, h1, h2, nofun⟩)⟩, nofun⟩
    · exact ⟨_, .dir es, List.mem_flatMap.2 ⟨r, hr, mem_listed.2 (.inr ⟨rel, rfl, h1, h2, nofun⟩)⟩, nofun⟩

/-! ### Examples -/

namespace DirDemo

/-- A mod in a directory, a script beside it, a note, a hidden file and something that cannot be accessed. -/
def mods : DirNode := .dir [
  ("A".toList, .dir [("x.reds".toList, .file (some "a".toList)), ("deep.er".toList, .dir [("y.z.reds".toList, .file (some "b".toList))])]),
  ("B.reds".toList, .file (some "c".toList)), ("readme.md".toList, .file none), (".reds".toList, .file none), ("C".toList, .fault)]

theorem mods_tidy : mods.Tidy := by
  have key : ∀ p x, (p, x) ∈ mods.walk [] → (match x with
      | .dir es => decide (es.map (·.1)).Nodup
      | _ => true) = true := by
    have h : ((mods.walk []).all fun e => match e.2 with
      | .dir es => decide (es.map (·.1)).Nodup
      | _ => true) = true := by decide +kernel
    exact fun p x hx => List.all_eq_true.1 h (p, x) hx
  intro rel es h
  exact of_decide_eq_true (key rel (.dir es) ((mem_walk _ _ _ _).2 ⟨rel, rfl, h, nofun⟩))

/-- A file that is given is read whatever its name is. -/
def given : List SourceRoot := [⟨["mods".toList], mods⟩, ⟨["extra.txt".toList], .file (some "d".toList)⟩]

theorem given_tidy : ∀ r ∈ given, r.node.Tidy := by
  intro r hr
  rcases List.mem_cons.1 hr with rfl | hr
  · exact mods_tidy
  · rw [List.mem_singleton.1 hr]
    intro rel es h
    cases h

example : ∃ parts, Each2 (fun r part => (part.map (·.1)).Nodup ∧ ∀ path text, (path, text) ∈ part ↔ r.Gives .None path text) given parts ∧
    parts.flatten.map (·.2) = ["a".toList, "b".toList, "c".toList, "d".toList] := by
  have h : (sourcesFromDirs given .None).map (·.map (·.2)) = some ["a".toList, "b".toList, "c".toList, "d".toList] := by decide +kernel
  cases hs : sourcesFromDirs given .None with
  | none => rw [hs] at h; cases h
  | some files =>
    obtain ⟨parts, rfl, hp⟩ := C84_sources_are_the_scripts given_tidy hs
    rw [hs] at h
    exact ⟨parts, hp, Option.some.inj h⟩

/-- Without the mod `B`, which is a single script. -/
example : (sourcesFromDirs given (.Exclude ["B".toList])).map (·.map (·.2)) = some ["a".toList, "b".toList, "d".toList] := by decide +kernel

end DirDemo

/-- C84: a directory with the name of a script makes reading fail, though every file can be read. -/
theorem C84_directory_counterexample : ∃ r : SourceRoot, r.node.Tidy ∧ (∀ rel, ¬ r.node.At rel (.file none)) ∧ sourcesFromDirs [r] .None = none := by
  let n : DirNode := .dir [("mod.reds".toList, .dir [("x.reds".toList, .file (some "a".toList))])]
  have all : ∀ rel x, n.At rel x → (rel, x) ∈ n.walk [] ∨ x = .fault := by
    intro rel x h
    by_cases hx : x = .fault
    · exact .inr hx
    · exact .inl ((mem_walk _ _ _ _).2 ⟨rel, rfl, h, hx⟩)
  refine ⟨⟨["mods".toList], n⟩, ?_, ?_, by decide +kernel⟩
  · intro rel es h
    rcases all rel _ h with h | h
    · simp only [n, DirNode.walk, walkEntries, List.append_nil, List.mem_cons, Prod.mk.injEq, reduceCtorEq, and_false, DirNode.dir.injEq,
        List.not_mem_nil, or_false] at h
      rcases h with ⟨-, rfl⟩ | ⟨-, rfl⟩ <;> simp
    · cases h
  · intro rel h
    rcases all rel _ h with h | h
    · simp [n, DirNode.walk, walkEntries] at h
    · cases h

/-- C84: a directory that does not exist, as when its name is misspelt, is read like an empty one. -/
theorem C84_missing_directory_counterexample (path : PathParts) : sourcesFromDirs [⟨path, .fault⟩] .None = some [] := rfl

/-- C84: a script in two of the given directories is among the sources twice. -/
theorem C84_overlap_counterexample : ∃ (r : SourceRoot) (n : DirNode) (path : PathParts) (text : Text), r.node.At ["A".toList] n ∧
    sourcesFromDirs [r, ⟨r.path ++ ["A".toList], n⟩] .None = some [(path, text), (path, text)] := by
  let n : DirNode := .dir [("x.reds".toList, .file (some "a".toList))]
  exact ⟨⟨["mods".toList], .dir [("A".toList, n)]⟩, n, ["mods".toList, "A".toList, "x.reds".toList], "a".toList, .inside (by simp) (.here _), by decide +kernel⟩

end Redscript
