import Verif.Report.Model
import Verif.SourceMap.Props

/-!
# What a diagnostic shows (C78)

A diagnostic is about a piece of the text of a file. The message names the file, the line and the
column where the piece begins, repeats the line, and marks the piece in it.
-/

set_option maxRecDepth 4000

namespace Redscript

/-! ### Finding the place -/

theorem NamedFiles.addAll_map {P : Type} (es : List (P × Text)) :
    (NamedFiles.addAll es).map Prod.snd = SrcFiles.addAll (es.map Prod.snd) ∧
      (NamedFiles.addAll es).map Prod.fst = es.map Prod.fst := by
  induction es using list_snoc_induction with
  | nil => exact ⟨rfl, rfl⟩
  | snoc es e ih =>
    obtain ⟨ih, ihp⟩ := ih
    unfold NamedFiles.addAll at ih ihp ⊢
    unfold SrcFiles.addAll at ih ⊢
    rw [List.foldl_append, List.map_append, List.map_append, List.foldl_append, List.map_singleton,
      List.map_singleton, List.foldl_cons, List.foldl_nil, List.foldl_cons, List.foldl_nil, NamedFiles.add, SrcFiles.add,
      ← ih]
    simp only [List.map_append, List.map_cons, List.map_nil, List.getLast?_map, ihp]
    constructor
    · cases (List.foldl NamedFiles.add [] es).getLast? <;> rfl
    · trivial

/-- The entry of a file is the one that is found for the positions of its text. -/
theorem NamedFiles.find_entry {P : Type} (bs : BinarySearch) (es : List (P × Text))
    (hlen : startOf (es.map Prod.snd) es.length ≤ 2 ^ 32) (i : Nat) (p : P) (s : Text) (hi : es[i]? = some (p, s))
    (pos : Nat) (hlow : startOf (es.map Prod.snd) i ≤ pos) (hhigh : pos ≤ startOf (es.map Prod.snd) i + byteLen s) :
    bs.run (fun f : P × SrcFile => comparePos f.2.low f.2.high pos) (NamedFiles.addAll es) = .ok i ∧
      (NamedFiles.addAll es)[i]? = some (p, .at (startOf (es.map Prod.snd) i) s) := by
  obtain ⟨hmap, hfst⟩ := NamedFiles.addAll_map es
  have hlen' : startOf (es.map Prod.snd) (es.map Prod.snd).length ≤ 2 ^ 32 := by simpa using hlen
  obtain ⟨h1, h2⟩ := addAll_entries (es.map Prod.snd) hlen'
  have hord0 := addAll_ordered (es.map Prod.snd) hlen' pos
  rw [← hmap] at hord0 h1 h2
  have hord : Ordered (fun f : P × SrcFile => comparePos f.2.low f.2.high pos) (NamedFiles.addAll es) :=
    List.pairwise_map.1 hord0
  have hself := h2 i s (by rw [List.getElem?_map, hi]; rfl)
  have hentry : (NamedFiles.addAll es)[i]? = some (p, .at (startOf (es.map Prod.snd) i) s) := by
    have hp : ((NamedFiles.addAll es).map Prod.fst)[i]? = some p := by
      rw [hfst, List.getElem?_map, hi]; rfl
    rw [List.getElem?_map] at hself hp
    cases he : (NamedFiles.addAll es)[i]? with
    | none => rw [he] at hself; cases hself
    | some e =>
      rw [he] at hself hp
      simp only [Option.map_some, Option.some.injEq] at hself hp
      rw [← hself, ← hp]
  refine ⟨?_, hentry⟩
  have heq : comparePos (startOf (es.map Prod.snd) i) (startOf (es.map Prod.snd) i + byteLen s) pos = .eq := by
    rw [comparePos, if_neg (by omega), if_neg (by omega)]
  cases hrun : bs.run (fun f : P × SrcFile => comparePos f.2.low f.2.high pos) (NamedFiles.addAll es) with
  | error k =>
    exfalso
    obtain ⟨_, hk⟩ := bs.missing _ _ _ hord hrun
    obtain ⟨ha, hb⟩ := hk i _ hentry
    simp only [SrcFile.at, heq] at ha hb
    rcases Nat.lt_or_ge i k with h | h
    · cases ha h
    · cases hb h
  | ok k =>
    obtain ⟨f, hf, hc⟩ := bs.found _ _ _ hord hrun
    have hk : k < (es.map Prod.snd).length := by
      have := (List.getElem?_eq_some_iff.1 hf).1
      simp only [List.length_map] at h1 ⊢; omega
    have hfk := h2 k _ (List.getElem?_eq_getElem hk)
    rw [List.getElem?_map, hf, Option.map_some, Option.some.injEq] at hfk
    have hc' := (comparePos_eq _ _ _).1 hc
    rw [hfk] at hc'
    simp only [SrcFile.at] at hc'
    have hki : k = i := by
      have hsk := startOf_succ (es.map Prod.snd) k _ (List.getElem?_eq_getElem hk)
      have hsi := startOf_succ (es.map Prod.snd) i s (by rw [List.getElem?_map, hi]; rfl)
      rcases Nat.lt_trichotomy k i with h | h | h
      · have := startOf_le (es.map Prod.snd) (k + 1) i (by omega); omega
      · exact h
      · have := startOf_le (es.map Prod.snd) (i + 1) k (by omega); omega
    rw [hki]

/-- The place of a piece of the text of a file. -/
theorem NamedFiles.locate_at {P : Type} (bs : BinarySearch) (es : List (P × Text))
    (hlen : startOf (es.map Prod.snd) es.length ≤ 2 ^ 32) (i : Nat) (p : P) (a b c : Text)
    (hi : es[i]? = some (p, a ++ (b ++ c))) :
    (NamedFiles.addAll es).locate bs (startOf (es.map Prod.snd) i + byteLen a,
        startOf (es.map Prod.snd) i + byteLen (a ++ b))
      = some ⟨p, .at (startOf (es.map Prod.snd) i) (a ++ (b ++ c)),
          ⟨a.count '\n', (afterLastNewline a).length⟩,
          ⟨(a ++ b).count '\n', (afterLastNewline (a ++ b)).length⟩⟩ := by
  obtain ⟨hrun, hget⟩ := NamedFiles.find_entry bs es hlen i p _ hi
    (startOf (es.map Prod.snd) i + byteLen a) (by omega) (by simp [byteLen_append])
  unfold NamedFiles.locate
  simp only [hrun, hget, Option.bind_some]
  rw [lookup_at]
  have := lookup_at bs (startOf (es.map Prod.snd) i) (a ++ b) c
  rw [List.append_assoc] at this
  rw [this]
  rfl

/-! ### The line of a place -/

/-- The rest of the line a text begins with, with its newline. -/
def lineRest (t : Text) : Text := t.takeWhile (· ≠ '\n') ++ if '\n' ∈ t then ['\n'] else []

theorem linesOf_free (a t : Text) (h : '\n' ∉ a) : (linesOf (a ++ t))[0]? = some (a ++ lineRest t) := by
  induction a with
  | nil =>
    induction t with
    | nil => rfl
    | cons c t ih =>
      by_cases hc : c = '\n'
      · subst hc; simp [linesOf, lineRest]
      · simp only [List.nil_append, linesOf, if_neg hc] at ih ⊢
        cases hl : linesOf t with
        | nil => exact absurd hl (linesOf_ne_nil t)
        | cons l ls =>
          rw [hl] at ih
          simp only [List.getElem?_cons_zero, Option.some.injEq] at ih ⊢
          rw [ih, lineRest, lineRest]
          simp [hc, Ne.symm hc]
  | cons c a ih =>
    have hc : c ≠ '\n' := fun e => h (by simp [e])
    have ih := ih fun m => h (List.mem_cons_of_mem _ m)
    rw [List.cons_append, linesOf, if_neg hc]
    cases hl : linesOf (a ++ t) with
    | nil => exact absurd hl (linesOf_ne_nil _)
    | cons l ls =>
      rw [hl] at ih
      simp only [List.getElem?_cons_zero, Option.some.injEq] at ih ⊢
      rw [ih]; rfl

theorem linesOf_after (a u : Text) :
    ∃ init, init.length = a.count '\n' + 1 ∧ linesOf (a ++ '\n' :: u) = init ++ linesOf u := by
  induction a with
  | nil => exact ⟨[['\n']], rfl, by simp [linesOf]⟩
  | cons c a ih =>
    obtain ⟨init, hn, he⟩ := ih
    by_cases hc : c = '\n'
    · subst hc
      exact ⟨['\n'] :: init, by simp [hn], by simp [linesOf, he]⟩
    · cases init with
      | nil => simp at hn
      | cons x init =>
        refine ⟨(c :: x) :: init, by rw [List.count_cons_of_ne hc]; simpa using hn, ?_⟩
        rw [List.cons_append, linesOf, if_neg hc, he]
        rfl

/-- The line in which a place is: what stands before it in the line, and the rest of the line. -/
theorem linesOf_place (a t : Text) :
    (linesOf (a ++ t))[a.count '\n']? = some (afterLastNewline a ++ lineRest t) := by
  rcases split_last_newline a with ⟨hno, hall⟩ | ⟨a', ha, hno⟩
  · rw [hall, List.count_eq_zero.2 hno, linesOf_free _ _ hno]
  · generalize hb : afterLastNewline a = b at *
    have hcount : a.count '\n' = a'.count '\n' + 1 := by
      rw [ha, List.count_append, List.count_cons_self, List.count_eq_zero.2 hno]
    obtain ⟨init, hn, he⟩ := linesOf_after a' (b ++ t)
    have e : a ++ t = a' ++ '\n' :: (b ++ t) := by rw [ha]; simp
    rw [e, he, hcount, List.getElem?_append_right (by omega), hn, Nat.sub_self, linesOf_free _ _ hno]

theorem enclosingLine_place (low : Nat) (a t : Text) (h : low + byteLen (a ++ t) < 2 ^ 32) :
    (SrcFile.at low (a ++ t)).enclosingLine (a.count '\n') = some (afterLastNewline a ++ lineRest t) := by
  rw [← SrcFile.make_eq _ _ h]
  exact C19_enclosing_line low _ h _ _ (linesOf_place a t)

/-! ### What is shown of the line -/

theorem trimEnd_space (space : Char → Bool) (s : Text) (c : Char) (h : space c = true) :
    trimEnd space (s ++ [c]) = trimEnd space s := by
  simp [trimEnd, h]

theorem trimEnd_keep (space : Char → Bool) (s t : Text) (c : Char) (h : space c = false) :
    trimEnd space (s ++ [c] ++ t) = s ++ [c] ++ trimEnd space t := by
  unfold trimEnd
  have : ∀ u v : Text, (u ++ c :: v).dropWhile space = u.dropWhile space ++ c :: v := by
    intro u v
    induction u with
    | nil => simp [h]
    | cons x u ih =>
      rw [List.cons_append, List.dropWhile_cons, List.dropWhile_cons]
      split
      · exact ih
      · rfl
  have e : (s ++ [c] ++ t).reverse = t.reverse ++ c :: s.reverse := by simp
  rw [e, this]
  simp

theorem trimEnd_lineRest (space : Char → Bool) (hn : space '\n' = true) (s t : Text) :
    trimEnd space (s ++ lineRest t) = trimEnd space (s ++ t.takeWhile (· ≠ '\n')) := by
  unfold lineRest
  split
  · rw [← List.append_assoc, trimEnd_space _ _ _ hn]
  · rw [List.append_nil]

theorem startOf_fits {sources : List Text} (hlen : startOf sources sources.length ≤ 2 ^ 32) {i : Nat} {s : Text}
    (hi : sources[i]? = some s) : startOf sources i + byteLen s < 2 ^ 32 := by
  have h1 := startOf_succ sources i s hi
  have h2 := startOf_le sources (i + 1) sources.length (by
    have := (List.getElem?_eq_some_iff.1 hi).1; omega)
  omega

theorem afterLastNewline_free (a b : Text) (h : '\n' ∉ b) :
    afterLastNewline (a ++ b) = afterLastNewline a ++ b := by
  unfold afterLastNewline
  rw [List.reverse_append, List.takeWhile_append_of_pos]
  · simp
  · intro c hc
    have hc' : c ∈ b := by simpa using hc
    simp only [ne_eq, decide_not, Bool.not_eq_eq_eq_not, Bool.not_true, decide_eq_false_iff_not]
    exact fun e => h (e ▸ hc')

/-! ### C78 -/

/-- C78: for files of which any is at `i`, and a diagnostic about any piece `b` of its text: the message
is written, and it is made of the code of a compile error, the path of that file, the number of the line
and of the column where the piece begins (counted from one), the line itself without the space at its end
and with tabs as single spaces, a marker, and the description. The marker is as far to the right as the piece
and as long as the piece, or one character if the piece is empty, or three if it goes on in another line. -/
theorem C78_diagnostic_shows_its_place {P : Type} (bs : BinarySearch) (space : Char → Bool)
    (hn : space '\n' = true) (showPath : P → Text) (message : Text) (es : List (P × Text))
    (hlen : startOf (es.map Prod.snd) es.length ≤ 2 ^ 32) (i : Nat) (p : P) (a b c : Text)
    (hi : es[i]? = some (p, a ++ (b ++ c))) (d : Diagnostic)
    (hd : d.span = (startOf (es.map Prod.snd) i + byteLen a, startOf (es.map Prod.snd) i + byteLen (a ++ b))) :
    d.display bs space showPath message (NamedFiles.addAll es) = some (
      (if d.kind = .CompileError then "[".toList ++ d.cause ++ "] ".toList else []) ++
      "At ".toList ++ showPath p ++ ":".toList ++ digitsOf 10 (a.count '\n' + 1) ++ ":".toList ++
      digitsOf 10 ((afterLastNewline a).length + 1) ++ ":\n".toList ++
      untab (trimEnd space (afterLastNewline a ++ (b ++ c).takeWhile (· ≠ '\n'))) ++ "\n".toList ++
      List.replicate (afterLastNewline a).length ' ' ++
      List.replicate (if '\n' ∈ b then 3 else max b.length 1) '^' ++ "\n".toList ++
      message ++ "\n".toList) := by
  have hfit : startOf (es.map Prod.snd) i + byteLen (a ++ (b ++ c)) < 2 ^ 32 :=
    startOf_fits (by simpa using hlen) (by rw [List.getElem?_map, hi]; rfl)
  have hlen' : underlineLen ⟨a.count '\n', (afterLastNewline a).length⟩
      ⟨(a ++ b).count '\n', (afterLastNewline (a ++ b)).length⟩
      = some (if '\n' ∈ b then 3 else max b.length 1) := by
    unfold underlineLen
    by_cases hb : '\n' ∈ b
    · have : 0 < b.count '\n' := List.count_pos_iff.2 hb
      rw [if_pos hb, if_neg]
      simp only [List.count_append]; omega
    · rw [if_neg hb, if_pos (by simp [List.count_eq_zero.2 hb]), afterLastNewline_free _ _ hb]
      rw [if_neg (by simp)]
      simp
  unfold Diagnostic.display
  rw [hd, NamedFiles.locate_at bs es hlen i p a b c hi]
  simp only [Option.bind_some]
  rw [enclosingLine_place _ _ _ hfit, Option.bind_some, hlen', Option.map_some, trimEnd_lineRest _ hn]
  congr 1
  have hk : d.codePrefix = if d.kind = .CompileError then "[".toList ++ d.cause ++ "] ".toList else [] := by
    unfold Diagnostic.codePrefix
    cases d.kind <;> rfl
  rw [hk]
  simp only [FilePos.shown, List.append_assoc]

theorem untab_append (a b : Text) : untab (a ++ b) = untab a ++ untab b := by simp [untab]

theorem untab_length (a : Text) : (untab a).length = a.length := by simp [untab]

/-- C78: a piece within one line that does not end with space is marked from its first to its last character:
above the spaces of the marker stands what precedes the piece in its line, above the carets stands the
piece. -/
theorem C78_marker_is_below_the_piece {P : Type} (bs : BinarySearch) (space : Char → Bool)
    (hn : space '\n' = true) (showPath : P → Text) (message : Text) (es : List (P × Text))
    (hlen : startOf (es.map Prod.snd) es.length ≤ 2 ^ 32) (i : Nat) (p : P) (a b c : Text) (last : Char)
    (hi : es[i]? = some (p, a ++ (b ++ [last] ++ c))) (hb : '\n' ∉ b) (hlast : space last = false)
    (d : Diagnostic)
    (hd : d.span = (startOf (es.map Prod.snd) i + byteLen a,
      startOf (es.map Prod.snd) i + byteLen (a ++ (b ++ [last])))) :
    ∃ head before piece after,
      d.display bs space showPath message (NamedFiles.addAll es) = some (
        head ++ "\n".toList ++ (before ++ piece ++ after) ++ "\n".toList ++
        (List.replicate before.length ' ' ++ List.replicate piece.length '^') ++ "\n".toList ++
        message ++ "\n".toList) ∧
      before = untab (afterLastNewline a) ∧ piece = untab (b ++ [last]) := by
  have hln : last ≠ '\n' := fun e => by rw [e, hn] at hlast; cases hlast
  have hb' : '\n' ∉ b ++ [last] := by
    simp only [List.mem_append, List.mem_singleton, not_or]
    exact ⟨hb, fun e => hln e.symm⟩
  have h := C78_diagnostic_shows_its_place bs space hn showPath message es hlen i p a (b ++ [last]) c hi d hd
  have htake : (b ++ [last] ++ c).takeWhile (· ≠ '\n') = b ++ [last] ++ c.takeWhile (· ≠ '\n') := by
    rw [List.takeWhile_append_of_pos]
    intro x hx
    simp only [ne_eq, decide_not, Bool.not_eq_eq_eq_not, Bool.not_true, decide_eq_false_iff_not]
    exact fun e => hb' (e ▸ hx)
  rw [htake, if_neg hb', show max (b ++ [last]).length 1 = (b ++ [last]).length by simp] at h
  have hline : trimEnd space (afterLastNewline a ++ (b ++ [last] ++ c.takeWhile (· ≠ '\n')))
      = afterLastNewline a ++ (b ++ [last]) ++ trimEnd space (c.takeWhile (· ≠ '\n')) := by
    have := trimEnd_keep space (afterLastNewline a ++ b) (c.takeWhile (· ≠ '\n')) last hlast
    simpa only [List.append_assoc] using this
  rw [hline, untab_append, untab_append] at h
  refine ⟨(if d.kind = .CompileError then "[".toList ++ d.cause ++ "] ".toList else []) ++
      "At ".toList ++ showPath p ++ ":".toList ++ digitsOf 10 (a.count '\n' + 1) ++ ":".toList ++
      digitsOf 10 ((afterLastNewline a).length + 1) ++ ":".toList,
    untab (afterLastNewline a), untab (b ++ [last]), untab (trimEnd space (c.takeWhile (· ≠ '\n'))), ?_, rfl, rfl⟩
  rw [h, untab_length, untab_length]
  simp only [List.append_assoc]
  rfl

/-- Non-vacuity: the second of two files, a tab and a two-byte character before the piece `foo`. -/
example : Diagnostic.display .std (fun c => c == ' ' || c == '\n' || c == '\t') id "no such name".toList
    (NamedFiles.addAll [("a.reds".toList, "x".toList), ("b.reds".toList, "let a;\n\té = foo + 1;  \n".toList)])
    ⟨.CompileError, "UNRESOLVED_REF".toList, (15, 18)⟩ =
    some ("[UNRESOLVED_REF] At b.reds:2:6:\n é = foo + 1;\n     ^^^\nno such name\n".toList) := by
  decide +kernel

end Redscript
