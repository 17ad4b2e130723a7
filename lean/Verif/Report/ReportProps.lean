import Verif.Report.PlaceProps
import Verif.Scc.ToolProps
import Verif.Unit.DiagProps

/-!
# The report of a failed build (C79)

When the scripts of a game do not compile, the player gets a report that lists the mods to blame and
what is known about the errors.
-/

namespace Redscript

/-! ### Specification -/

/-- The files have a piece of text there: it is in the file with the path, is the text `piece`, and begins in the
line `line` (with its newline). -/
def PieceAt (es : List (PathParts × Text)) (span : Nat × Nat) (path : PathParts) (piece line : Text) : Prop :=
  ∃ i a c, es[i]? = some (path, a ++ (piece ++ c)) ∧
    span = (startOf (es.map Prod.snd) i + byteLen a, startOf (es.map Prod.snd) i + byteLen (a ++ piece)) ∧
    line = afterLastNewline a ++ lineRest (piece ++ c)

/-- What is called a mod: the file or directory right in the scripts directory; of a file that is elsewhere,
its name. -/
inductive ModOf (dir : PathParts) : PathParts → Text → Prop where
  | inside (name : Text) (rest : PathParts) : ModOf dir (dir ++ name :: rest) name
  | elsewhere (parents : PathParts) (name : Text) (h : ¬ dir <+: parents ++ [name]) :
      ModOf dir (parents ++ [name]) name

/-- The hint for an error with the code: the first one registered for the code that applies. -/
def HintFor (hintFiles : List (HintFile PathParts)) (code : Text) (path : Option PathParts) (piece line : Text)
    (h : UserHint PathParts) : Prop :=
  ∃ before after, registered hintFiles code = before ++ h :: after ∧ HintApplies h path piece line ∧
    ∀ h' ∈ before, ¬ HintApplies h' path piece line

/-- The report that lists the mods and the hints. -/
def reportText (mods : List Text) (hints : List (UserHint PathParts)) : Text :=
  "REDScript compilation has failed.\n".toList ++
  (if mods = [] then [] else
    "This error has been caused by mods listed below:\n".toList ++ (mods.map bullet).flatten) ++
  (if hints = [] then
    "\nYou should check if these mods are outdated and update them if possible. They may also be \
     incompatible with the current version of the game, in which case you should remove them and \
     try again.\n".toList
   else
    "One or more of the errors found has a known solution. Here are the recommended steps:\n".toList ++
    (hints.map fun h => bullet h.message).flatten)

/-- The mods are those of the errors, each once; the hints are those for the errors, one for each id. -/
structure ReportLists (es : List (PathParts × Text)) (hintFiles : List (HintFile PathParts)) (dir : PathParts)
    (spans : List (Text × (Nat × Nat))) (mods : List Text) (hints : List (UserHint PathParts)) : Prop where
  once : mods.Nodup
  mods : ∀ m, m ∈ mods ↔ ∃ e ∈ spans, ∃ path piece line, PieceAt es e.2 path piece line ∧ ModOf dir path m
  ids : (hints.map (·.id)).Nodup
  sound : ∀ h ∈ hints, ∃ e ∈ spans, ∃ path piece line, PieceAt es e.2 path piece line ∧
    HintFor hintFiles e.1 (stripPath dir path) piece line h
  complete : ∀ e ∈ spans, ∀ path piece line, PieceAt es e.2 path piece line →
    ∀ h, HintFor hintFiles e.1 (stripPath dir path) piece line h → ∃ h' ∈ hints, h'.id = h.id

/-! ### Lemmas -/

theorem stripPath_iff (dir path rest : PathParts) : stripPath dir path = some rest ↔ path = dir ++ rest := by
  induction dir generalizing path with
  | nil => simp [stripPath, eq_comm]
  | cons d ds ih =>
    cases path with
    | nil => simp [stripPath]
    | cons c cs =>
      rw [stripPath]
      by_cases h : d = c
      · subst h; simp [ih]
      · simp [h, Ne.symm h]

theorem stripPath_none (dir path : PathParts) : stripPath dir path = none ↔ ¬ dir <+: path := by
  constructor
  · rintro h ⟨rest, hr⟩
    rw [(stripPath_iff dir path rest).2 hr.symm] at h
    cases h
  · intro h
    cases hs : stripPath dir path with
    | none => rfl
    | some rest => exact absurd ⟨rest, ((stripPath_iff _ _ _).1 hs).symm⟩ h

/-- Files have a name, and the scripts directory is not a file. -/
theorem blamedMod_iff (dir path : PathParts) (hne : path ≠ []) (hdir : path ≠ dir) (m : Text) :
    ModOf dir path m ↔ m = blamedMod dir path := by
  unfold blamedMod
  constructor
  · intro h
    cases h with
    | inside name rest =>
      rw [(stripPath_iff dir _ _).2 rfl]; rfl
    | elsewhere parents name hp =>
      rw [(stripPath_none _ _).2 hp]; simp
  · intro h
    cases hs : stripPath dir path with
    | some rest =>
      have hp := (stripPath_iff _ _ _).1 hs
      rw [hs] at h
      cases rest with
      | nil => simp at hp; exact absurd hp hdir
      | cons c cs =>
        simp at h
        rw [hp, h]
        exact .inside c cs
    | none =>
      rw [hs] at h
      have hp := (stripPath_none _ _).1 hs
      obtain ⟨xs, x, rfl⟩ : ∃ xs x, path = xs ++ [x] :=
        ⟨path.dropLast, path.getLast hne, (List.dropLast_concat_getLast hne).symm⟩
      simp at h
      rw [h]
      exact .elsewhere xs x hp

theorem mem_modInsert (m x : Text) (s : List Text) : x ∈ modInsert m s ↔ x = m ∨ x ∈ s := by
  unfold modInsert
  split
  · next h => constructor
              · exact .inr
              · rintro (rfl | h') <;> assumption
  · simp [or_comm]

theorem nodup_modInsert (m : Text) (s : List Text) (h : s.Nodup) : (modInsert m s).Nodup := by
  unfold modInsert
  split
  · exact h
  · next hm =>
    rw [List.nodup_append]
    exact ⟨h, by simp, fun a ha b hb => by
      rw [List.mem_singleton] at hb; exact fun e => hm (hb ▸ e ▸ ha)⟩

theorem mem_hintInsert {P : Type} (h x : UserHint P) (hs : List (UserHint P)) (hx : x ∈ hintInsert h hs) :
    x = h ∨ x ∈ hs := by
  unfold hintInsert at hx
  split at hx
  · exact .inr hx
  · simpa [or_comm] using hx

theorem hintInsert_keeps {P : Type} (h x : UserHint P) (hs : List (UserHint P)) (hx : x ∈ hs) :
    x ∈ hintInsert h hs := by
  unfold hintInsert
  split
  · exact hx
  · exact List.mem_append_left _ hx

theorem hintInsert_has {P : Type} (h : UserHint P) (hs : List (UserHint P)) :
    ∃ h' ∈ hintInsert h hs, h'.id = h.id := by
  unfold hintInsert
  split
  · next hm =>
    obtain ⟨h', h1, h2⟩ := List.mem_map.1 hm
    exact ⟨h', h1, h2⟩
  · exact ⟨h, by simp, rfl⟩

theorem hintInsert_nodup {P : Type} (h : UserHint P) (hs : List (UserHint P)) (hn : (hs.map (·.id)).Nodup) :
    ((hintInsert h hs).map (·.id)).Nodup := by
  unfold hintInsert
  split
  · exact hn
  · next hm =>
    rw [List.map_append, List.nodup_append]
    exact ⟨hn, by simp, fun a ha b hb => by
      simp only [List.map_cons, List.map_nil, List.mem_singleton] at hb
      exact fun e => hm (hb ▸ e ▸ ha)⟩

/-- What the report finds for a piece. -/
theorem PieceAt.found {es : List (PathParts × Text)} {span : Nat × Nat} {path : PathParts} {piece line : Text}
    (h : PieceAt es span path piece line) (hlen : startOf (es.map Prod.snd) es.length ≤ 2 ^ 32) (bs : BinarySearch) :
    ∃ loc, (NamedFiles.addAll es).locate bs span = some loc ∧ loc.path = path ∧
      loc.file.sourceSlice span.1 span.2 = some piece ∧ loc.file.enclosingLine loc.start.line = some line := by
  obtain ⟨i, a, c, hi, rfl, rfl⟩ := h
  have hfit : startOf (es.map Prod.snd) i + byteLen (a ++ (piece ++ c)) < 2 ^ 32 :=
    startOf_fits (by simpa using hlen) (by rw [List.getElem?_map, hi]; rfl)
  exact ⟨_, NamedFiles.locate_at bs es hlen i path a piece c hi, rfl, sourceSlice_eq _ a piece c,
    enclosingLine_place _ _ _ hfit⟩

theorem PieceAt.unique {es : List (PathParts × Text)} {span : Nat × Nat} {path path' : PathParts}
    {piece piece' line line' : Text} (h : PieceAt es span path piece line) (h' : PieceAt es span path' piece' line')
    (hlen : startOf (es.map Prod.snd) es.length ≤ 2 ^ 32) : path' = path ∧ piece' = piece ∧ line' = line := by
  obtain ⟨l, a1, a2, a3, a4⟩ := h.found hlen .std
  obtain ⟨l', b1, b2, b3, b4⟩ := h'.found hlen .std
  rw [a1, Option.some.injEq] at b1
  subst b1
  rw [a3] at b3
  rw [a4] at b4
  exact ⟨by rw [← a2, b2], (Option.some.inj b3).symm, (Option.some.inj b4).symm⟩

theorem getByError_iff (hintFiles : List (HintFile PathParts)) (code : Text) (path : Option PathParts)
    (piece line : Text) (h : UserHint PathParts) :
    getByError (loadHints hintFiles) code path piece line = some h ↔ HintFor hintFiles code path piece line h := by
  obtain ⟨h1, h2⟩ := C44_first_applicable hintFiles code path piece line
  constructor
  · exact h1 h
  · intro hf
    cases hg : getByError (loadHints hintFiles) code path piece line with
    | none =>
      obtain ⟨bf, af, he, ha, _⟩ := hf
      exact absurd ha (h2.1 hg h (by rw [he]; simp))
    | some g =>
      obtain ⟨bg, ag, hge, hga, hgn⟩ := h1 g hg
      obtain ⟨bf, af, he, ha, hn⟩ := hf
      rw [hge] at he
      congr 1
      rcases List.append_eq_append_iff.1 he with ⟨x, hx1, hx2⟩ | ⟨x, hx1, hx2⟩
      · cases x with
        | nil => simp at hx2; exact hx2.1
        | cons y x =>
          simp at hx2
          exact absurd (hx2.1 ▸ hga) (hn y (by rw [hx1]; simp))
      · cases x with
        | nil => simp at hx2; exact hx2.1.symm
        | cons y x =>
          simp at hx2
          exact absurd (hx2.1 ▸ ha) (hgn y (by rw [hx1]; simp))

/-- The lists of a part of the errors. -/
theorem collect_lists (bs : BinarySearch) (es : List (PathParts × Text))
    (hlen : startOf (es.map Prod.snd) es.length ≤ 2 ^ 32) (hintFiles : List (HintFile PathParts)) (dir : PathParts)
    (hpaths : ∀ e ∈ es, e.1 ≠ [] ∧ e.1 ≠ dir) (all : List (Text × (Nat × Nat))) :
    ∀ (rest pre : List (Text × (Nat × Nat))) (mods : List Text) (hints : List (UserHint PathParts)),
      (∀ e ∈ rest, ∃ path piece line, PieceAt es e.2 path piece line) →
      ReportLists es hintFiles dir pre mods hints →
      ∃ mods' hints', (ErrorReport.mk dir (NamedFiles.addAll es) (loadHints hintFiles) all).collect bs rest (mods, hints)
          = some (mods', hints') ∧ ReportLists es hintFiles dir (pre ++ rest) mods' hints' := by
  intro rest
  induction rest with
  | nil => intro pre mods hints _ h; exact ⟨mods, hints, rfl, by rwa [List.append_nil]⟩
  | cons e rest ih =>
    intro pre mods hints hpl h
    obtain ⟨code, span⟩ := e
    obtain ⟨path, piece, line, hp⟩ := hpl (code, span) (List.mem_cons_self ..)
    obtain ⟨loc, h1, h2, h3, h4⟩ := hp.found hlen bs
    have hpath : path ≠ [] ∧ path ≠ dir := by
      obtain ⟨i, a, c, hi, _, _⟩ := hp
      exact hpaths _ (List.mem_of_getElem? hi)
    rw [ErrorReport.collect]
    simp only [h1, h3, h4, Option.bind_some, h2]
    have := ih (pre ++ [(code, span)]) (modInsert (blamedMod dir path) mods)
      (match getByError (loadHints hintFiles) code (stripPath dir path) piece line with
         | some h => hintInsert h hints
         | none => hints) (fun e he => hpl e (List.mem_cons_of_mem _ he)) ?_
    · rw [List.append_assoc] at this
      exact this
    · refine ⟨nodup_modInsert _ _ h.once, ?_, ?_, ?_, ?_⟩
      · intro m
        rw [mem_modInsert, h.mods]
        constructor
        · rintro (rfl | ⟨e, he, r⟩)
          · exact ⟨(code, span), by simp, path, piece, line, hp, (blamedMod_iff _ _ hpath.1 hpath.2 _).2 rfl⟩
          · exact ⟨e, List.mem_append_left _ he, r⟩
        · rintro ⟨e, he, path', piece', line', hp', hm⟩
          rcases List.mem_append.1 he with he | he
          · exact .inr ⟨e, he, path', piece', line', hp', hm⟩
          · rw [List.mem_singleton] at he
            subst he
            obtain ⟨rfl, _, _⟩ := hp.unique hp' hlen
            exact .inl ((blamedMod_iff _ _ hpath.1 hpath.2 _).1 hm)
      · split
        · exact hintInsert_nodup _ _ h.ids
        · exact h.ids
      · intro x hx
        split at hx
        · next g hg =>
          rcases mem_hintInsert _ _ _ hx with rfl | hx
          · exact ⟨(code, span), by simp, path, piece, line, hp, (getByError_iff ..).1 hg⟩
          · obtain ⟨e, he, r⟩ := h.sound x hx
            exact ⟨e, List.mem_append_left _ he, r⟩
        · obtain ⟨e, he, r⟩ := h.sound x hx
          exact ⟨e, List.mem_append_left _ he, r⟩
      · intro e he path' piece' line' hp' x hx
        rcases List.mem_append.1 he with he | he
        · obtain ⟨h', h'1, h'2⟩ := h.complete e he path' piece' line' hp' x hx
          refine ⟨h', ?_, h'2⟩
          split
          · exact hintInsert_keeps _ _ _ h'1
          · exact h'1
        · rw [List.mem_singleton] at he
          subst he
          obtain ⟨rfl, rfl, rfl⟩ := hp.unique hp' hlen
          rw [(getByError_iff ..).2 hx]
          exact hintInsert_has _ _

theorem ReportLists.perm {es : List (PathParts × Text)} {hintFiles : List (HintFile PathParts)} {dir : PathParts}
    {spans : List (Text × (Nat × Nat))} {mods mods' : List Text} {hints hints' : List (UserHint PathParts)}
    (h : ReportLists es hintFiles dir spans mods hints) (hm : mods'.Perm mods) (hh : hints'.Perm hints) :
    ReportLists es hintFiles dir spans mods' hints' where
  once := hm.nodup_iff.2 h.once
  mods m := by rw [hm.mem_iff]; exact h.mods m
  ids := (hh.map _).nodup_iff.2 h.ids
  sound x hx := h.sound x (hh.mem_iff.1 hx)
  complete e he path piece line hp x hx := by
    obtain ⟨x', h1, h2⟩ := h.complete e he path piece line hp x hx
    exact ⟨x', hh.mem_iff.2 h1, h2⟩

/-! ### C79 -/

/-- C79: for all files, hints, errors in the files and orders of the hash tables: there is a report, and it lists
exactly the mods that have an error, each once, and for each error the first applicable hint registered for
its code, hints with one id once. -/
theorem C79_report_lists_the_mods (bs : BinarySearch) (om : AnyOrder Text) (oh : AnyOrder (UserHint PathParts))
    (es : List (PathParts × Text)) (hlen : startOf (es.map Prod.snd) es.length ≤ 2 ^ 32)
    (hintFiles : List (HintFile PathParts)) (dir : PathParts) (hpaths : ∀ e ∈ es, e.1 ≠ [] ∧ e.1 ≠ dir)
    (spans : List (Text × (Nat × Nat))) (hspans : ∀ e ∈ spans, ∃ path piece line, PieceAt es e.2 path piece line) :
    ∃ mods hints,
      (ErrorReport.mk dir (NamedFiles.addAll es) (loadHints hintFiles) spans).text bs om oh
        = some (reportText mods hints) ∧
      ReportLists es hintFiles dir spans mods hints := by
  obtain ⟨mods, hints, hc, hl⟩ := collect_lists bs es hlen hintFiles dir hpaths spans spans [] [] [] hspans
    ⟨List.nodup_nil, by simp, List.nodup_nil, by simp, by simp⟩
  refine ⟨om.order mods, oh.order hints, ?_, hl.perm (om.perm _) (oh.perm _)⟩
  unfold ErrorReport.text
  rw [hc, Option.map_some]
  have e1 : (om.order mods = []) ↔ mods.isEmpty = true := by
    rw [List.isEmpty_iff]
    exact ⟨fun h => by simpa [h] using (om.perm mods).symm, fun h => by simpa [h] using om.perm mods⟩
  have e2 : (oh.order hints = []) ↔ hints.isEmpty = true := by
    rw [List.isEmpty_iff]
    exact ⟨fun h => by simpa [h] using (oh.perm hints).symm, fun h => by simpa [h] using oh.perm hints⟩
  unfold reportText
  simp only [e1, e2, List.flatMap]

/-- C79: a build that ends with diagnostics fails with a report that blames exactly the mods with an error: mods
with nothing but warnings are not listed. -/
theorem C79_only_mods_with_errors (bs : BinarySearch) (om : AnyOrder Text) (oh : AnyOrder (UserHint PathParts))
    (es : List (PathParts × Text)) (hlen : startOf (es.map Prod.snd) es.length ≤ 2 ^ 32)
    (hintFiles : List (HintFile PathParts)) (dir : PathParts) (hpaths : ∀ e ∈ es, e.1 ≠ [] ∧ e.1 ≠ dir)
    (ds : List Diagnostic) (hds : ∀ d ∈ ds, ∃ path piece line, PieceAt es d.span path piece line)
    (e : UnitError) (he : compileAndReport (.ok (sortDiagnostics ds)) = .error e) :
    ∃ spans mods hints, reportedSpans e = some spans ∧
      (ErrorReport.mk dir (NamedFiles.addAll es) (loadHints hintFiles) spans).text bs om oh
        = some (reportText mods hints) ∧
      mods ≠ [] ∧ mods.Nodup ∧
      ∀ m, m ∈ mods ↔ ∃ d ∈ ds, ¬ IsWarning d ∧ ∃ path piece line, PieceAt es d.span path piece line ∧
        ModOf dir path m := by
  obtain ⟨rfl, d0, hd0, hw0⟩ := C35_failure_lists_fatal ds e he
  obtain ⟨mods, hints, ht, hl⟩ := C79_report_lists_the_mods bs om oh es hlen hintFiles dir hpaths
    ((ds.filter fun d => !decide (IsWarning d)).map fun d => (d.code, d.span)) (by
      intro x hx
      obtain ⟨d, hd, rfl⟩ := List.mem_map.1 hx
      exact hds d (List.mem_filter.1 hd).1)
  have hm : ∀ m, m ∈ mods ↔ ∃ d ∈ ds, ¬ IsWarning d ∧ ∃ path piece line, PieceAt es d.span path piece line ∧
        ModOf dir path m := by
    intro m
    rw [hl.mods]
    constructor
    · rintro ⟨x, hx, r⟩
      obtain ⟨d, hd, rfl⟩ := List.mem_map.1 hx
      have := List.mem_filter.1 hd
      exact ⟨d, this.1, by simpa using this.2, r⟩
    · rintro ⟨d, hd, hw, r⟩
      exact ⟨(d.code, d.span), List.mem_map.2 ⟨d, List.mem_filter.2 ⟨hd, by simpa using hw⟩, rfl⟩, r⟩
  refine ⟨_, mods, hints, rfl, ht, ?_, hl.once, hm⟩
  intro hnil
  obtain ⟨path, piece, line, hp⟩ := hds d0 hd0
  have hpath : path ≠ [] ∧ path ≠ dir := by
    obtain ⟨i, a, c, hi, _, _⟩ := hp
    exact hpaths _ (List.mem_of_getElem? hi)
  have := (hm (blamedMod dir path)).2 ⟨d0, hd0, hw0, path, piece, line, hp,
    (blamedMod_iff _ _ hpath.1 hpath.2 _).2 rfl⟩
  rw [hnil] at this
  cases this

/-- The hints that are looked up for an error that ends the build early are those registered for `OTHER`, unless
it is a compile error. -/
theorem aborted_report (d : Diagnostic) (hk : d.kind ≠ .CompileError) (e : UnitError)
    (he : compileAndReport (.error (.diagnostic d)) = .error e) :
    reportedSpans e = some [("OTHER".toList, d.span)] := by
  obtain ⟨e', h1, h2⟩ := C35_aborted_is_failure (.diagnostic d)
  rw [he] at h1
  injection h1 with h1
  rw [h1, h2 d rfl]
  unfold reportedSpans Diagnostic.code
  cases hd : d.kind <;> simp_all

/-- The full claim is that the hints registered for the code of an error are shown, syntax errors having the code
`SYNTAX_ERR` and errors in conditions the code `CTE_ERR` (scc/lib/src/lib.rs:290-291). It is false: the errors have
lost these codes before the report is made. Whatever is registered for them, and however well it applies, a build
that fails with such an error shows no hint. -/
theorem C79_syntax_hints_counterexample (bs : BinarySearch) (om : AnyOrder Text) (oh : AnyOrder (UserHint PathParts))
    (es : List (PathParts × Text)) (hlen : startOf (es.map Prod.snd) es.length ≤ 2 ^ 32)
    (hintFiles : List (HintFile PathParts)) (hother : registered hintFiles "OTHER".toList = [])
    (dir : PathParts) (hpaths : ∀ e ∈ es, e.1 ≠ [] ∧ e.1 ≠ dir)
    (d : Diagnostic) (hk : d.kind = .SyntaxError ∨ d.kind = .CteError)
    (hd : ∃ path piece line, PieceAt es d.span path piece line)
    (e : UnitError) (he : compileAndReport (.error (.diagnostic d)) = .error e) :
    reportedSpans (.diagnostic d)
      = some [(if d.kind = .SyntaxError then "SYNTAX_ERR".toList else "CTE_ERR".toList, d.span)] ∧
    ∃ spans mod, reportedSpans e = some spans ∧
      (ErrorReport.mk dir (NamedFiles.addAll es) (loadHints hintFiles) spans).text bs om oh
        = some (reportText [mod] []) := by
  refine ⟨by unfold reportedSpans; rcases hk with h | h <;> simp [h], ?_⟩
  have hs := aborted_report d (by rcases hk with h | h <;> simp [h]) e he
  obtain ⟨path, piece, line, hp⟩ := hd
  have hpath : path ≠ [] ∧ path ≠ dir := by
    obtain ⟨i, a, c, hi, _, _⟩ := hp
    exact hpaths _ (List.mem_of_getElem? hi)
  obtain ⟨mods, hints, ht, hl⟩ := C79_report_lists_the_mods bs om oh es hlen hintFiles dir hpaths
    [("OTHER".toList, d.span)] (by simpa using ⟨path, piece, line, hp⟩)
  have hm : mods = [blamedMod dir path] := by
    have hmem : ∀ m, m ∈ mods ↔ m = blamedMod dir path := by
      intro m
      rw [hl.mods]
      constructor
      · rintro ⟨x, hx, path', piece', line', hp', hmod⟩
        rw [List.mem_singleton] at hx
        subst hx
        obtain ⟨rfl, _, _⟩ := hp.unique hp' hlen
        exact (blamedMod_iff _ _ hpath.1 hpath.2 _).1 hmod
      · rintro rfl
        exact ⟨_, List.mem_singleton.2 rfl, path, piece, line, hp, (blamedMod_iff _ _ hpath.1 hpath.2 _).2 rfl⟩
    have hn := hl.once
    cases mods with
    | nil => have := (hmem (blamedMod dir path)).2 rfl; cases this
    | cons x xs =>
      have hx := (hmem x).1 (List.mem_cons_self ..)
      cases xs with
      | nil => rw [hx]
      | cons y ys =>
        have hy := (hmem y).1 (by simp)
        rw [hx, hy] at hn
        simp at hn
  have hh : hints = [] := by
    cases hints with
    | nil => rfl
    | cons h hs =>
      obtain ⟨x, hx, _, _, _, _, bf, af, hr, _⟩ := hl.sound h (List.mem_cons_self ..)
      rw [List.mem_singleton] at hx
      subst hx
      rw [hother] at hr
      simp at hr
  exact ⟨_, blamedMod dir path, hs, by rw [ht, hm, hh]⟩

/-! ### Concrete cases -/

private def exDir : PathParts := ["r6".toList, "scripts".toList]

private def exSources : List (PathParts × Text) :=
  [(["r6".toList, "scripts".toList, "Alpha".toList, "a.reds".toList], "func F() { G(); }\n".toList),
   (["r6".toList, "scripts".toList, "b.reds".toList], "class {\n".toList),
   (["mods".toList, "c.reds".toList], "func H() {}\n".toList)]

private def exHint : UserHint PathParts := ⟨"one".toList, "update G".toList, none, some "G".toList, none⟩

private def exHints : List (HintFile PathParts) :=
  [[("UNRESOLVED_FN".toList, [exHint]),
    ("SYNTAX_ERR".toList, [⟨"two".toList, "name your classes".toList, none, none, some "class".toList⟩])]]

private def exOrder (A : Type) : AnyOrder A := ⟨List.reverse, List.reverse_perm⟩

/-- Non-vacuity: an unresolved function, twice, and a warning in another mod. -/
example : (ErrorReport.mk exDir (NamedFiles.addAll exSources) (loadHints exHints)
    [("UNRESOLVED_FN".toList, (11, 14)), ("OTHER".toList, (32, 36)), ("UNRESOLVED_FN".toList, (11, 12))]).text
    .std (exOrder _) (exOrder _) = some (("REDScript compilation has failed.\nThis error has been caused by mods \
    listed below:\n- c.reds\n- Alpha\nOne or more of the errors found has a known solution. Here are the \
    recommended steps:\n- update G\n").toList) := by
  decide +kernel

private theorem exSources_pieces : PieceAt exSources (11, 14) (exSources[0].1) "G()".toList exSources[0].2 ∧
    PieceAt exSources (25, 25) (exSources[1].1) [] exSources[1].2 :=
  ⟨⟨0, "func F() { ".toList, "; }\n".toList, by decide +kernel, by decide +kernel, by decide +kernel⟩,
    ⟨1, "class ".toList, "{\n".toList, by decide +kernel, by decide +kernel, by decide +kernel⟩⟩

/-- Non-vacuity: the hypotheses hold of these files and errors, and the hint for syntax errors applies. -/
example : startOf (exSources.map Prod.snd) exSources.length ≤ 2 ^ 32 ∧
    (∀ e ∈ exSources, e.1 ≠ [] ∧ e.1 ≠ exDir) ∧ registered exHints "OTHER".toList = [] ∧
    HintFor exHints "SYNTAX_ERR".toList (stripPath exDir (exSources[1].1)) [] (exSources[1].2)
      ⟨"two".toList, "name your classes".toList, none, none, some "class".toList⟩ ∧
    ModOf exDir (exSources[0].1) "Alpha".toList ∧ ModOf exDir (exSources[2].1) "c.reds".toList := by
  refine ⟨by decide +kernel, by decide +kernel, rfl, ?_, .inside _ _, ?_⟩
  · refine ⟨[], [], rfl, ⟨by simp, .inr ⟨_, [], " {\n".toList, rfl, rfl⟩⟩, by simp⟩
  · exact .elsewhere ["mods".toList] _ (by decide +kernel)

end Redscript
