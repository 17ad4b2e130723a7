import Verif.Parser.ReadsEntry

/-!
# Reading printed modules
-/

namespace Redscript

variable {F : FloatParse}

/-! ### What is not declared -/

section
variable {lines : Text} {anns : List Annotation} {qs : List Qualifier} {word name : Text}

theorem classRule_other (ha : AnnsRead F lines anns) (k : Nat) (hw : notQualifier word = true) (rest : Text) (hne : "class".toList ≠ word) :
    Eventually fun n => classRule F n (blanks (declText lines k qs word name ++ rest)) = .fail := by
  refine Eventually.mono (decl_other (name := name) ha k qs hw rest (by decide) hne) fun n hn => ?_
  rw [classRule, hn]
  rfl

theorem structRule_other (ha : AnnsRead F lines anns) (k : Nat) (hw : notQualifier word = true) (rest : Text) (hne : "struct".toList ≠ word) :
    Eventually fun n => structRule F n (blanks (declText lines k qs word name ++ rest)) = .fail := by
  refine Eventually.mono (decl_other (name := name) ha k qs hw rest (by decide) hne) fun n hn => ?_
  rw [structRule, hn]
  rfl

theorem fieldRule_other (ha : AnnsRead F lines anns) (k : Nat) (hw : notQualifier word = true) (rest : Text) (hne : "let".toList ≠ word) :
    Eventually fun n => fieldRule F n (blanks (declText lines k qs word name ++ rest)) = .fail := by
  refine Eventually.mono (decl_other (name := name) ha k qs hw rest (by decide) hne) fun n hn => ?_
  rw [fieldRule, hn]
  rfl

end

/-- A declaration starts with a word that is a qualifier or says what is declared. -/
theorem first_word (qs : List Qualifier) (word rest : Text) :
    ∃ w r, qualsText qs ++ (word ++ ' ' :: rest) = w ++ ' ' :: r ∧ (w = word ∨ ∃ q : Qualifier, w = q.word) := by
  cases qs with
  | nil => exact ⟨word, rest, rfl, .inl rfl⟩
  | cons q qs => exact ⟨q.word, qualsText qs ++ (word ++ ' ' :: rest), by simp [qualsText], .inr ⟨q, rfl⟩⟩

/-- What says what is declared. -/
def entryWords : List Text := ["func".toList, "class".toList, "struct".toList, "enum".toList]

theorem entryWords_ok : ∀ w ∈ entryWords, notQualifier w = true ∧ w ≠ "import".toList ∧ w ≠ "module".toList := by decide

theorem not_import (k : Nat) (qs : List Qualifier) {word : Text} (hw : word ∈ entryWords) (name rest : Text) (n : Nat) :
    modulePath n (blanks (declText [] k qs word name ++ rest)) = .fail ∧ importRule F n (blanks (declText [] k qs word name ++ rest)) = .fail := by
  obtain ⟨h1, h2, h3⟩ := entryWords_ok word hw
  have e : declText [] k qs word name ++ rest = List.replicate k ' ' ++ (qualsText qs ++ (word ++ ' ' :: (name ++ rest))) := by
    simp only [declText, List.append_assoc, List.cons_append, List.nil_append]
  obtain ⟨w, r, e2, hc⟩ := first_word qs word (name ++ rest)
  have hi : isIdent w = true ∧ "import".toList ≠ w ∧ "module".toList ≠ w := by
    rcases hc with rfl | ⟨q, rfl⟩
    · exact ⟨notQualifier_ident h1, Ne.symm h2, Ne.symm h3⟩
    · cases q <;> decide
  have hs : Starts (w ++ ' ' :: r) := (isIdent_starts hi.1).append _
  have k1 : kw "import".toList (w ++ ' ' :: r) = .fail := kw_ident (by decide) hi.1 (endsWord_space _) hi.2.1
  have k2 : kw "module".toList (w ++ ' ' :: r) = .fail := kw_ident (by decide) hi.1 (endsWord_space _) hi.2.2
  have hst : importStart F n (w ++ ' ' :: r) = .fail := by
    rw [importStart, annotations_none n (starts_notAt hs)]
    simp only [Peg.bind, hs.blanks, k1]
  rw [e, blanks_indent, e2, hs.blanks]
  constructor
  · rw [modulePath, k2]
    rfl
  · rw [importRule, hst]
    rfl

/-! ### Entries -/

/-- No entry starts here. -/
def FileEnds (rest : Text) : Prop := blanks rest = []

theorem decl_nil (n : Nat) {word : Text} (hne : word ≠ []) : declRule F n word [] = .fail := by
  rw [declRule, annotations_none n fun t e => by cases e]
  cases word with
  | nil => exact absurd rfl hne
  | cons c s => rfl

theorem entry_nil (n : Nat) : entryRule F n [] = .fail := by
  rw [entryRule, functionRule, classRule, structRule, fieldRule, enumRule, decl_nil n (by decide), decl_nil n (by decide), decl_nil n (by decide),
    decl_nil n (by decide), decl_nil n (by decide)]
  rfl

/-- A text is read as a list of entries, and not as anything that stands in front of them. -/
structure FileRead (F : FloatParse) (t : Text) (es : List SourceEntry) : Prop where
  entries : BlankRead (entryRule F) FileEnds t es
  first : ∀ n, modulePath n (blanks t) = .fail ∧ importRule F n (blanks t) = .fail

theorem FileRead.nil : FileRead F [] [] where
  entries := BlankRead.nil fun rest h => Eventually.pure fun n => by rw [h]; exact entry_nil n
  first := fun n => by
    refine ⟨rfl, ?_⟩
    have hst : importStart F n [] = .fail := by
      rw [importStart, annotations_none n fun t e => by cases e]
      rfl
    show importRule F n [] = _
    rw [importRule, hst]
    rfl

/-- A declaration that is read up to the line break behind it. -/
theorem FileRead.cons {k : Nat} {qs : List Qualifier} {word name rest : Text} (hw : word ∈ entryWords) {e : SourceEntry}
    (h : ∀ u, Eventually fun n => entryRule F n (blanks ((declText [] k qs word name ++ rest) ++ '\n' :: u)) = .ok e ('\n' :: u))
    {u : Text} {es : List SourceEntry} (h2 : FileRead F u es) :
    FileRead F (('\n' :: ((declText [] k qs word name ++ rest) ++ ['\n'])) ++ u) (e :: es) where
  entries := by
    refine BlankRead.cons (fun tail _ => ?_) h2.entries
    refine Eventually.mono (h (u ++ tail)) fun n hn => ⟨'\n' :: (u ++ tail), ?_, blanks_white (by decide)⟩
    have e : ('\n' :: ((declText [] k qs word name ++ rest) ++ ['\n'])) ++ (u ++ tail) =
      '\n' :: ((declText [] k qs word name ++ rest) ++ '\n' :: (u ++ tail)) := by simp
    rw [e, blanks_white (by decide)]
    exact hn
  first := fun n => by
    have e : ('\n' :: ((declText [] k qs word name ++ rest) ++ ['\n'])) ++ u =
      '\n' :: (declText [] k qs word name ++ (rest ++ '\n' :: u)) := by simp
    rw [e, blanks_white (by decide)]
    exact not_import k qs hw name _ n

theorem FileRead.function {f : FunctionSource} {ret : TypeName} {b : Option Text} (k : Nat) (ha : f.declaration.annotations = [])
    (hloc : f.declaration.loc = none) (hn : isIdent f.declaration.name = true) (hp : ∀ q ∈ f.parameters, q.printsSafely = true)
    (ht : f.type_ = some ret) (hv : ret.isValid = true) (hb : BodyRead F b f.body) {u : Text} {es : List SourceEntry} (h : FileRead F u es) :
    FileRead F (('\n' :: (functionText k f ret b ++ ['\n'])) ++ u) (.Function f :: es) := by
  refine FileRead.cons (by decide) (fun u => ?_) h
  refine Eventually.mono (function_read k ha hloc hn hp ht hv hb u) fun n hn => ?_
  show entryRule F n (blanks (functionText k f ret b ++ '\n' :: u)) = _
  rw [entryRule, hn]
  rfl

theorem FileRead.class {c : ClassSource} {t : Text} (ha : c.declaration.annotations = []) (hloc : c.declaration.loc = none)
    (hn : isIdent c.declaration.name = true) (hb : ∀ x, c.base = some x → isIdent x = true) (hm : MembersRead F t c.members)
    {u : Text} {es : List SourceEntry} (h : FileRead F u es) :
    FileRead F (('\n' :: (classText c "class".toList t ++ ['\n'])) ++ u) (.Class c :: es) := by
  refine FileRead.cons (by decide) (fun u => ?_) h
  have h1 := functionRule_other (F := F) AnnsRead.nil 0 c.declaration.qualifiers (word := "class".toList) (name := c.declaration.name) (by decide)
    (' ' :: (baseText c.base ++ ("{\n".toList ++ (t ++ ['}']))) ++ '\n' :: u) (by decide)
  refine Eventually.mono (Eventually.and h1 (class_read ha hloc hn hb hm ('\n' :: u))) fun n ⟨h1, h2⟩ => ?_
  simp only [classText, List.append_assoc, List.cons_append] at h1 h2 ⊢
  rw [entryRule, h1, h2]
  rfl

theorem FileRead.struct {c : ClassSource} {t : Text} (ha : c.declaration.annotations = []) (hloc : c.declaration.loc = none)
    (hn : isIdent c.declaration.name = true) (hb : c.base = none) (hm : MembersRead F t c.members)
    {u : Text} {es : List SourceEntry} (h : FileRead F u es) :
    FileRead F (('\n' :: (classText c "struct".toList t ++ ['\n'])) ++ u) (.Struct c :: es) := by
  refine FileRead.cons (by decide) (fun u => ?_) h
  have h1 := functionRule_other (F := F) AnnsRead.nil 0 c.declaration.qualifiers (word := "struct".toList) (name := c.declaration.name) (by decide)
    (' ' :: (baseText c.base ++ ("{\n".toList ++ (t ++ ['}']))) ++ '\n' :: u) (by decide)
  have h2 := classRule_other (F := F) (qs := c.declaration.qualifiers) (word := "struct".toList) (name := c.declaration.name) AnnsRead.nil 0 (by decide)
    (' ' :: (baseText c.base ++ ("{\n".toList ++ (t ++ ['}']))) ++ '\n' :: u) (by decide)
  refine Eventually.mono (Eventually.and (Eventually.and h1 h2) (struct_read ha hloc hn hb hm ('\n' :: u))) fun n ⟨⟨h1, h2⟩, h3⟩ => ?_
  simp only [classText, List.append_assoc, List.cons_append] at h1 h2 h3 ⊢
  rw [entryRule, h1, h2, h3]
  rfl

theorem FileRead.enum {name : Text} (hn : isIdent name = true) {ps : List (Text × (Text × BitVec 64))} (hp : ∀ p ∈ ps, EnumMemberRead F p.1 p.2)
    {u : Text} {es : List SourceEntry} (h : FileRead F u es) :
    FileRead F (('\n' :: (enumText name ps ++ ['\n'])) ++ u) (.Enum ⟨⟨[], [], name, none⟩, ps.map Prod.snd⟩ :: es) := by
  refine FileRead.cons (by decide) (fun u => ?_) h
  have h1 := functionRule_other (F := F) AnnsRead.nil 0 [] (word := "enum".toList) (name := name) (by decide)
    (" {\n".toList ++ (enumLines ps ++ ['}']) ++ '\n' :: u) (by decide)
  have h2 := classRule_other (F := F) (qs := []) (word := "enum".toList) (name := name) AnnsRead.nil 0 (by decide)
    (" {\n".toList ++ (enumLines ps ++ ['}']) ++ '\n' :: u) (by decide)
  have h3 := structRule_other (F := F) (qs := []) (word := "enum".toList) (name := name) AnnsRead.nil 0 (by decide)
    (" {\n".toList ++ (enumLines ps ++ ['}']) ++ '\n' :: u) (by decide)
  have h4 := fieldRule_other (F := F) (qs := []) (word := "enum".toList) (name := name) AnnsRead.nil 0 (by decide)
    (" {\n".toList ++ (enumLines ps ++ ['}']) ++ '\n' :: u) (by decide)
  refine Eventually.mono (Eventually.and (Eventually.and (Eventually.and h1 h2) (Eventually.and h3 h4)) (enum_read hn hp ('\n' :: u)))
    fun n ⟨⟨⟨h1, h2⟩, h3, h4⟩, h5⟩ => ?_
  simp only [enumText, List.append_assoc, List.cons_append] at h1 h2 h3 h4 h5 ⊢
  rw [entryRule, h1, h2, h3, h4, h5]
  rfl

/-- The whole file is read as the entries. -/
theorem FileRead.whole {t : Text} {es : List SourceEntry} (h : FileRead F t es) :
    Eventually fun n => parseModule F n t = some ⟨none, [], es⟩ := by
  refine Eventually.mono (BlankRead.whole h.entries (rest := []) rfl) fun n ⟨r, h1, h2⟩ => ?_
  obtain ⟨k1, k2⟩ := h.first n
  rw [List.append_nil] at h1
  have hi : sepBy blankSep (importRule F n) n (blanks t) = .ok [] (blanks t) := by rw [sepBy, k2]
  have hm : moduleRule F n t = .ok ⟨none, [], es⟩ [] := by
    rw [moduleRule, k1]
    simp only [Peg.opt, Peg.bind, blanks_idem, hi, h1]
    rw [h2]
    rfl
  rw [parseModule, hm]

end Redscript
