import Verif.Decompiler.PrintDecl
import Verif.Decompiler.FilesModel

/-!
# C65: printed definitions read back
-/

namespace Redscript

/-- C65: what is written for definitions is parsed as the declarations they stand for, one behind the other. -/
theorem C65_printed_definitions_read_back_partial (F : FloatParse) (C : PrintCfg) (p : ConstantPool) (ds : List (Idx × Definition))
    (es : List SourceEntry) (h : Each2 (DefStands p C) (ds.map Prod.snd) es) (hw : (writeAll C p ds).failed = none) :
    ∃ N, ∀ n, N ≤ n → parseModule F n (writeAll C p ds).text = some ⟨none, [], es⟩ := by
  obtain ⟨t, h1, h2⟩ := file_printed (F := F) C.fuel h
  rw [List.map_map] at h2
  have e := Gives.text h2 hw
  have := h1.whole
  rw [← e] at this
  exact this

/-- C65: the same for the one file that all definitions are written to. -/
theorem C65_printed_bundles_read_back_partial (F : FloatParse) (C : PrintCfg) (p : ConstantPool) (es : List SourceEntry)
    (h : Each2 (DefStands p C) ((p.roots.filter fun r =>
      match r.2.value with
      | .Class _ | .Enum _ | .Function _ => true
      | _ => false).map Prod.snd) es)
    (hw : (dumpOne C p).failed = none) :
    ∃ N, ∀ n, N ≤ n → parseModule F n (dumpOne C p).text = some ⟨none, [], es⟩ :=
  C65_printed_definitions_read_back_partial F C p _ es h hw

/-! ### A case that meets the hypotheses -/

namespace DumpDemo

def pool : ConstantPool where
  names := ⟨["None", "Int32", "Base", "Sub", "ref:Base", "count", "Get;Int32Base", "n", "base", "Kind", "A", "B", "Log;"], .empty⟩
  tweakdbIds := .empty
  resources := .empty
  strings := .empty
  definitions := [.default,
    .mk' 1 0 (.Type .Prim),
    .mk' 2 0 (.Class ⟨.pub, setFlag ClassFlags.isNativeBit true (setFlag ClassFlags.isAbstractBit true 0), 0, [], [], []⟩),
    .mk' 2 0 (.Type .Class),
    .mk' 4 0 (.Type (.Ref 3)),
    .mk' 3 0 (.Class ⟨.priv, 0, 2, [7], [6], []⟩),
    .mk' 5 5 (.Field ⟨.prot, 1, setFlag FieldFlags.isPersistentBit true 0, none, [⟨"ModSettings.min", "1"⟩], []⟩),
    .mk' 6 5 (.Function ⟨.pub, setFlag FunctionFlags.hasBodyBit true (setFlag FunctionFlags.isFinalBit true 0), none, some 1, false, none, [8, 9], [],
      none, 0, [.Return, .Param 8], []⟩),
    .mk' 7 7 (.Parameter ⟨1, 0⟩),
    .mk' 8 7 (.Parameter ⟨4, setFlag ParameterFlags.isOptionalBit true 0⟩),
    .mk' 9 0 (.Enum ⟨0, 4, [11, 12], false⟩),
    .mk' 10 10 (.EnumValue (-1)),
    .mk' 11 10 (.EnumValue 5),
    .mk' 12 0 (.Function ⟨.pub, setFlag FunctionFlags.isNativeBit true (setFlag FunctionFlags.isStaticBit true 0), none, none, false, none, [], [],
      none, 0, [], []⟩)]

def cfg : PrintCfg := ⟨false, ⟨fun _ => [], fun _ => []⟩, .std, 20⟩

example : dumpOne cfg pool =
  ⟨("\npublic abstract native class Base {\n}\n" ++
    "\nprivate class Sub extends Base {\n" ++
    "\n  @runtimeProperty(\"ModSettings.min\", \"1\")\n  protected persistent let count: Int32;\n" ++
    "\n  public final func Get(n: Int32, opt base: ref<Base>) -> Int32 {\n    return n;\n  }\n}\n" ++
    "\nenum Kind {\n  A = -1,\n  B = 5,\n}\n" ++
    "\npublic static native func Log() -> Void;\n").toList, none⟩ := by
  decide +kernel

def baseSource : ClassSource := ⟨⟨[], [.Public, .Abstract, .Native], "Base".toList, none⟩, none, []⟩

def countSource : FieldSource :=
  ⟨⟨[⟨.RuntimeProperty, [.Constant (.String .String "ModSettings.min".toList), .Constant (.String .String "1".toList)]⟩],
    [.Protected, .Persistent], "count".toList, none⟩, .mk "Int32".toList [], none⟩

def getSource : FunctionSource :=
  ⟨⟨[], [.Public, .Final], "Get".toList, none⟩, some (.mk "Int32".toList []),
    [⟨[], "n".toList, .mk "Int32".toList []⟩, ⟨[.Optional], "base".toList, .mk "ref".toList [.mk "Base".toList []]⟩],
    some [.Return (some (.Ident "n".toList))]⟩

def subSource : ClassSource :=
  ⟨⟨[], [.Private], "Sub".toList, none⟩, some "Base".toList, [.Field countSource, .Function getSource]⟩

def logSource : FunctionSource := ⟨⟨[], [.Public, .Static, .Native], "Log".toList, none⟩, some (.mk "Void".toList []), [], none⟩

/-- What is in the pool, as it is read. -/
def entries : List SourceEntry :=
  [.Class baseSource, .Class subSource, .Enum ⟨⟨[], [], "Kind".toList, none⟩, [("A".toList, -1), ("B".toList, 5)]⟩, .Function logSource]

theorem stored (i : Idx) (s : String) (h : pool.names.get Strings.cnameDefault i = some s) : StoredName pool i s.toList := ⟨s, h, rfl⟩

theorem int_stands : TypeStands pool 1 (.mk "Int32".toList []) := .named (d := .mk' 1 0 (.Type .Prim)) rfl (.inl rfl) (stored 1 "Int32" rfl) (by decide)

theorem get_stands : MethodAt pool cfg 7 getSource := by
  refine ⟨_, _, rfl, rfl, ⟨⟨_, stored 6 "Get;Int32Base" rfl, rfl⟩, by decide, rfl, rfl, rfl, ?_, ⟨_, rfl, .inr ⟨1, rfl, int_stands⟩⟩, .inr ?_⟩⟩
  · refine .cons ⟨_, _, rfl, rfl, stored 7 "n" rfl, by decide, int_stands, rfl⟩ (.cons ⟨_, _, rfl, rfl, stored 8 "base" rfl, by decide, ?_, rfl⟩ .nil)
    exact .ref rfl rfl (.named rfl (.inr rfl) (stored 2 "Base" rfl) (by decide))
  · exact ⟨[.Return (some (.Ident "n".toList))], rfl, by rfl, by rfl, rfl⟩

theorem plain (s : String) (h : escapeText s.toList = s.toList) : PlainText s := h

theorem count_stands : FieldAt pool 6 countSource :=
  ⟨_, _, rfl, rfl, ⟨stored 5 "count" rfl, by decide, rfl, .cons ⟨plain _ (by decide), plain _ (by decide), rfl⟩ .nil, rfl, int_stands, rfl,
    rfl, rfl, rfl, rfl⟩⟩

theorem stands : Each2 (DefStands pool cfg) ((pool.roots.filter fun r =>
    match r.2.value with
    | .Class _ | .Enum _ | .Function _ => true
    | _ => false).map Prod.snd) entries := by
  refine .cons (.class rfl rfl ⟨stored 2 "Base" rfl, by decide, rfl, rfl, rfl, .inl ⟨rfl, rfl⟩, [], [], .nil, .nil, rfl⟩) ?_
  refine .cons (.class rfl rfl ⟨stored 3 "Sub" rfl, by decide, rfl, rfl, rfl,
    .inr ⟨_, _, by decide, rfl, stored 2 "Base" rfl, by decide, rfl⟩, [_], [_], .cons count_stands .nil, .cons get_stands .nil, rfl⟩) ?_
  refine .cons (.enum rfl (stored 9 "Kind" rfl) (by decide) ?_) ?_
  · exact .cons ⟨_, rfl, rfl, stored 10 "A" rfl, by decide, by decide, by decide⟩
      (.cons ⟨_, rfl, rfl, stored 11 "B" rfl, by decide, by decide, by decide⟩ .nil)
  refine .cons (.function rfl ⟨⟨_, stored 12 "Log;" rfl, by decide⟩, by decide, rfl, rfl, rfl, .nil, ⟨_, rfl, .inl ⟨rfl, rfl⟩⟩, .inl ⟨rfl, rfl⟩⟩) ?_
  exact .nil

example (F : FloatParse) : ∃ N, ∀ n, N ≤ n → parseModule F n (dumpOne cfg pool).text = some ⟨none, [], entries⟩ :=
  C65_printed_bundles_read_back_partial F cfg pool entries stands (by decide +kernel)

end DumpDemo

/-! ### Definitions that are not read back -/

/-- The text is no module. -/
def Unreadable (F : FloatParse) (t : Text) : Prop := ∃ N, ∀ n, N ≤ n → parseModule F n t = none

section
variable {F : FloatParse}

theorem unreadable {t : Text} (h1 : ∀ n, modulePath n (blanks t) = .fail ∧ importRule F n (blanks t) = .fail)
    (h2 : Eventually fun n => entryRule F n (blanks t) = .fail) (hne : blanks t ≠ []) : Unreadable F t := by
  refine Eventually.mono h2 fun n hn => ?_
  obtain ⟨k1, k2⟩ := h1 n
  have hi : sepBy blankSep (importRule F n) n (blanks t) = .ok [] (blanks t) := by rw [sepBy, k2]
  have he : sepBy blankSep (entryRule F n) n (blanks t) = .ok [] (blanks t) := by rw [sepBy, hn]
  have hm : moduleRule F n t = .ok ⟨none, [], []⟩ (blanks t) := by
    rw [moduleRule, k1]
    simp only [Peg.opt, Peg.bind, blanks_idem, hi, he]
  rw [parseModule, hm]
  cases hb : blanks t with
  | nil => exact absurd hb hne
  | cons c s => rfl

theorem enumRule_other {lines : Text} {anns : List Annotation} {qs : List Qualifier} {word name : Text} (ha : AnnsRead F lines anns) (k : Nat)
    (hw : notQualifier word = true) (rest : Text) (hne : "enum".toList ≠ word) :
    Eventually fun n => enumRule F n (blanks (declText lines k qs word name ++ rest)) = .fail := by
  refine Eventually.mono (decl_other (name := name) ha k qs hw rest (by decide) hne) fun n hn => ?_
  rw [enumRule, hn]
  rfl

theorem declared_blanks (qs : List Qualifier) {word name : Text} (hw : notQualifier word = true) (rest : Text) :
    blanks ('\n' :: (declText [] 0 qs word name ++ rest)) = declText [] 0 qs word name ++ rest := by
  have hp : PlainWord (word ++ ' ' :: (name ++ rest)) := ⟨word, _, rfl, hw, endsWord_space _⟩
  have e : declText [] 0 qs word name ++ rest = qualsText qs ++ (word ++ ' ' :: (name ++ rest)) := by
    simp only [declText, List.replicate_zero, List.append_assoc, List.cons_append, List.nil_append]
  rw [blanks_white (by decide), e, (qualsText_starts qs hp.starts).blanks]

theorem declared_ne (qs : List Qualifier) {word name : Text} (hw : notQualifier word = true) (rest : Text) :
    blanks ('\n' :: (declText [] 0 qs word name ++ rest)) ≠ [] := by
  have hp : PlainWord (word ++ ' ' :: (name ++ rest)) := ⟨word, _, rfl, hw, endsWord_space _⟩
  have e : declText [] 0 qs word name ++ rest = qualsText qs ++ (word ++ ' ' :: (name ++ rest)) := by
    simp only [declText, List.replicate_zero, List.append_assoc, List.cons_append, List.nil_append]
  rw [declared_blanks qs hw, e]
  obtain ⟨c, s, e, _⟩ := qualsText_starts qs hp.starts
  rw [e]
  exact List.cons_ne_nil _ _

/-- A class whose first member is none. -/
theorem class_unreadable {qs : List Qualifier} {name body : Text} (hn : isIdent name = true)
    (hm : Eventually fun n => memberRule F n (blanks body) = .fail) (hc : lit ['}'] (blanks body) = .fail) :
    Unreadable F ('\n' :: (declText [] 0 qs "class".toList name ++ (" {\n".toList ++ body))) := by
  refine unreadable (fun n => ?_) ?_ (declared_ne qs (by decide) _)
  · rw [blanks_white (by decide)]
    exact not_import 0 qs (by decide) name _ n
  · rw [blanks_white (by decide)]
    have h1 := functionRule_other (F := F) AnnsRead.nil 0 qs (word := "class".toList) (name := name) (by decide) (" {\n".toList ++ body) (by decide)
    have h2 := decl_read (F := F) AnnsRead.nil 0 qs (word := "class".toList) (by decide) hn (rest := " {\n".toList ++ body) (endsWord_space _)
    have h3 := structRule_other (F := F) AnnsRead.nil 0 (qs := qs) (word := "class".toList) (name := name) (by decide) (" {\n".toList ++ body) (by decide)
    have h4 := fieldRule_other (F := F) AnnsRead.nil 0 (qs := qs) (word := "class".toList) (name := name) (by decide) (" {\n".toList ++ body) (by decide)
    have h5 := enumRule_other (F := F) AnnsRead.nil 0 (qs := qs) (word := "class".toList) (name := name) (by decide) (" {\n".toList ++ body) (by decide)
    refine Eventually.mono (Eventually.and (Eventually.and h1 h2) (Eventually.and (Eventually.and h3 h4) (Eventually.and h5 hm)))
      fun n ⟨⟨h1, h2⟩, ⟨h3, h4⟩, h5, hm⟩ => ?_
    have hb : blanks (" {\n".toList ++ body) = '{' :: '\n' :: body := by
      show blanks (' ' :: '{' :: '\n' :: body) = _
      rw [blanks_white (by decide)]
      exact blanks_solid (by decide) (by decide)
    have hb2 : blanks ('{' :: '\n' :: body) = '{' :: '\n' :: body := blanks_solid (by decide) (by decide)
    have hx : extendsRule ('{' :: '\n' :: body) = .fail := by
      have hk : kw "extends".toList ('{' :: '\n' :: body) = .fail := kw_ne (show 'e' ≠ '{' by decide)
      rw [extendsRule, hk]
      rfl
    have hl : lit ['{'] ('{' :: '\n' :: body) = .ok () ('\n' :: body) := lit_self ['{'] _
    have hs : sepBy blankSep (memberRule F n) n (blanks body) = .ok [] (blanks body) := by rw [sepBy, hm]
    have hcl : classRule F n (blanks (declText [] 0 qs "class".toList name ++ (" {\n".toList ++ body))) = .fail := by
      rw [classRule, h2]
      simp only [Peg.bind, hb, hx, Peg.opt, hb2, membersRule, hl, blanks_white (show isWhite '\n' = true by decide), hs, blanks_idem, hc]
    rw [entryRule, h1, hcl, h3, h4, h5]
    rfl

end

namespace DumpDemo

/-- A pool with one class that has one field. -/
def onePool (flags : FieldFlags) (type_ : PoolType) (defaults : List Property) : ConstantPool where
  names := ⟨["None", "Int32", "Box", "item", "T"], .empty⟩
  tweakdbIds := .empty
  resources := .empty
  strings := .empty
  definitions := [.default, .mk' 1 0 (.Type .Prim), .mk' 4 0 (.Type type_), .mk' 2 0 (.Class ⟨.pub, 0, 0, [], [4], []⟩),
    .mk' 3 3 (.Field ⟨.pub, 2, flags, none, [], defaults⟩)]

/-- A pool with a struct that is derived. -/
def structPool : ConstantPool where
  names := ⟨["None", "Box", "Crate"], .empty⟩
  tweakdbIds := .empty
  resources := .empty
  strings := .empty
  definitions := [.default, .mk' 1 0 (.Class ⟨.pub, setFlag ClassFlags.isStructBit true 0, 2, [], [], []⟩),
    .mk' 2 0 (.Class ⟨.pub, 0, 0, [], [], []⟩)]

/-- A pool with an enum that has a large member. -/
def enumPool : ConstantPool where
  names := ⟨["None", "Box", "Crate"], .empty⟩
  tweakdbIds := .empty
  resources := .empty
  strings := .empty
  definitions := [.default, .mk' 1 0 (.Enum ⟨0, 8, [2], false⟩), .mk' 2 1 (.EnumValue 5000000000)]

end DumpDemo

/-- A field that is inline is printed with a word that is no qualifier. -/
theorem C65_inline_field_counterexample (F : FloatParse) :
    ∃ p : ConstantPool, (dumpOne DumpDemo.cfg p).failed = none ∧ Unreadable F (dumpOne DumpDemo.cfg p).text := by
  refine ⟨DumpDemo.onePool (setFlag FieldFlags.isInlineBit true 0) .Prim [], by decide +kernel, ?_⟩
  have e : (dumpOne DumpDemo.cfg (DumpDemo.onePool (setFlag FieldFlags.isInlineBit true 0) .Prim [])).text =
      '\n' :: (declText [] 0 [.Public] "class".toList "Box".toList ++ (" {\n".toList ++
        ('\n' :: (declText [] 2 [.Public] "inline".toList "let".toList ++ " item: T;\n}\n".toList)))) := by decide +kernel
  rw [e]
  have h1 := functionRule_other (F := F) AnnsRead.nil 2 [.Public] (word := "inline".toList) (name := "let".toList) (by decide)
    " item: T;\n}\n".toList (by decide)
  have h2 := fieldRule_other (F := F) AnnsRead.nil 2 (qs := [.Public]) (word := "inline".toList) (name := "let".toList) (by decide)
    " item: T;\n}\n".toList (by decide)
  refine class_unreadable (by decide) (Eventually.mono (Eventually.and h1 h2) fun n ⟨h1, h2⟩ => ?_) ?_
  · rw [blanks_white (by decide), memberRule, h1, h2]
    rfl
  · rfl

theorem field_bad {F : FloatParse} {n : Nat} {t r r' s : Text} {d : DeclSource} {ty : TypeName} {c : Char} (h1 : declRule F n "let".toList t = .ok d r)
    (h2 : letType n (blanks r) = .ok ty r') (hb : blanks r' = c :: s) (he : c ≠ '=') (hs : c ≠ ';') : fieldRule F n t = .fail := by
  have hi : initializer F n (c :: s) = .fail := by rw [initializer, lit_ne (Ne.symm he)]; rfl
  have hb2 : blanks (c :: s) = c :: s := by rw [← hb, blanks_idem]
  rw [fieldRule, h1]
  simp only [Peg.bind, h2, hb, hi, Peg.opt, hb2, lit_ne (Ne.symm hs)]

/-- A type with arguments that are not closed is read without them. -/
theorem type_bad {x : Text} (hx : isIdent x = true) {a : TypeName} (ha : a.isValid = true) {c : Char} {s : Text} (hc : EndsType (c :: s))
    (hcomma : c ≠ ',') (hclose : c ≠ '>') (hb : blanks (c :: s) = c :: s) :
    Eventually fun n => typeRule n (x ++ '<' :: (a.pretty ++ c :: s)) = .ok (.mk x []) ('<' :: (a.pretty ++ c :: s)) := by
  have hargs : Eventually fun m => typeArgsRule m ('<' :: (a.pretty ++ c :: s)) = .fail := by
    refine Eventually.succ (Eventually.and (typeRule_read a ha hc) (Eventually.large 1)) fun n h => ?_
    have hl : lit ['<'] ('<' :: (a.pretty ++ c :: s)) = .ok () (a.pretty ++ c :: s) := lit_self ['<'] _
    obtain ⟨k, rfl⟩ : ∃ k, n = k + 1 := ⟨n - 1, by omega⟩
    have hs : commaSep (c :: s) = .fail := by rw [commaSep, lit_ne (Ne.symm hcomma)]; rfl
    have hm : sepBy commaSep (fun t => typeRule (k + 1) t) (k + 1) (a.pretty ++ c :: s) = .ok [a] (c :: s) := by
      rw [sepBy, h.1]
      simp only
      rw [sepMore, hs]
      rfl
    rw [typeArgsRule, hl]
    simp only [Peg.bind, ((pretty_starts ha).append _).blanks, hm, hb, lit_ne (Ne.symm hclose)]
  refine Eventually.succ hargs fun n h => ?_
  rw [typeRule, ident_read hx (endsWord_of (by decide))]
  simp only [Peg.bind, h, Peg.opt, Option.getD]

/-- There is no syntax for arrays of a fixed size. -/
theorem C65_static_array_counterexample (F : FloatParse) :
    ∃ p : ConstantPool, (dumpOne DumpDemo.cfg p).failed = none ∧ Unreadable F (dumpOne DumpDemo.cfg p).text := by
  refine ⟨DumpDemo.onePool 0 (.StaticArray 1 4) [], by decide +kernel, ?_⟩
  have e : (dumpOne DumpDemo.cfg (DumpDemo.onePool 0 (.StaticArray 1 4) [])).text =
      '\n' :: (declText [] 0 [.Public] "class".toList "Box".toList ++ (" {\n".toList ++
        ('\n' :: (declText [] 2 [.Public] "let".toList "item".toList ++ (": ".toList ++ ("array".toList ++ '<' ::
          ((TypeName.mk "Int32".toList []).pretty ++ ';' :: " 4>;\n}\n".toList))))))) := by decide +kernel
  rw [e]
  generalize " 4>;\n}\n".toList = s
  have h1 := functionRule_other (F := F) AnnsRead.nil 2 [.Public] (word := "let".toList) (name := "item".toList) (by decide)
    (": ".toList ++ ("array".toList ++ '<' :: ((TypeName.mk "Int32".toList []).pretty ++ ';' :: s))) (by decide)
  have h2 := decl_read (F := F) AnnsRead.nil 2 [.Public] (word := "let".toList) (name := "item".toList) (by decide) (by decide)
    (rest := ": ".toList ++ ("array".toList ++ '<' :: ((TypeName.mk "Int32".toList []).pretty ++ ';' :: s))) (endsWord_of (by decide))
  have h3 := type_bad (x := "array".toList) (by decide) (a := .mk "Int32".toList []) (by decide) (c := ';') (s := s)
    (fun c hc => by cases hc; decide) (by decide) (by decide) (blanks_solid (by decide) (by decide))
  refine class_unreadable (by decide) (Eventually.mono (Eventually.and (Eventually.and h1 h2) h3) fun n ⟨⟨h1, h2⟩, h3⟩ => ?_) ?_
  · have hl : letType n (blanks (": ".toList ++ ("array".toList ++ '<' :: ((TypeName.mk "Int32".toList []).pretty ++ ';' :: s)))) =
        .ok (.mk "array".toList []) ('<' :: ((TypeName.mk "Int32".toList []).pretty ++ ';' :: s)) := by
      have hs : Starts ("array".toList ++ '<' :: ((TypeName.mk "Int32".toList []).pretty ++ ';' :: s)) :=
        (isIdent_starts (x := "array".toList) (by decide)).append _
      generalize ht : "array".toList ++ '<' :: ((TypeName.mk "Int32".toList []).pretty ++ ';' :: s) = t at h3 hs ⊢
      have hb : blanks (": ".toList ++ t) = ':' :: ' ' :: t := blanks_solid (by decide) (by decide)
      have hl : lit [':'] (':' :: ' ' :: t) = .ok () (' ' :: t) := lit_self [':'] _
      rw [hb, letType, hl]
      simp only [Peg.bind, hs.blanks_sp, h3]
    rw [blanks_white (by decide), memberRule, h1, field_bad h2 hl (blanks_solid (by decide) (by decide)) (by decide) (by decide)]
    rfl
  · rfl

/-- An annotation of a kind that there is not is no annotation. -/
theorem annotation_unknown {F : FloatParse} {x : Text} (hx : isIdent x = true) (hk : AnnotationKind.fromStr x = none) {ps : List (Text × Expr SourceAst)}
    (h : ∀ p ∈ ps, ReadAs F 0 0 p.1 p.2) (rest : Text) :
    Eventually fun n => annotationRule F n ('@' :: (x ++ '(' :: (commaText ps ++ ')' :: rest))) = .fail := by
  refine Eventually.mono (args_read h rest) fun n hn => ?_
  have hl : ∀ s : Text, lit ['@'] ('@' :: s) = .ok () s := fun s => lit_self ['@'] s
  have hl2 : ∀ s : Text, lit ['('] ('(' :: s) = .ok () s := fun s => lit_self ['('] s
  have hb : ∀ s : Text, blanks ('(' :: s) = '(' :: s := fun s => blanks_solid (by decide) (by decide)
  rw [annotationRule, hl]
  simp only [Peg.bind, ident_read hx (endsWord_of (show isIdentChar '(' = false by decide)), hb, hl2, commaText_blanks h, hn, hk]

theorem member_at {F : FloatParse} {n : Nat} {s : Text} (ha : annotationRule F n ('@' :: s) = .fail) : memberRule F n ('@' :: s) = .fail := by
  have hd : ∀ word : Text, word = "func".toList ∨ word = "let".toList → declRule F n word ('@' :: s) = .fail := by
    intro word hw
    have h1 : annotationsRule F n ('@' :: s) = .ok [] ('@' :: s) := by rw [annotationsRule, sepBy, ha]
    have hb : blanks ('@' :: s) = '@' :: s := blanks_solid (by decide) (by decide)
    have hk : kw word ('@' :: s) = .fail := by
      rcases hw with rfl | rfl
      · exact kw_ne (show 'f' ≠ '@' by decide)
      · exact kw_ne (show 'l' ≠ '@' by decide)
    rw [declRule, h1]
    simp only [Peg.bind, hb, quals_none n (show isIdentStart '@' = false by decide), hk]
  rw [memberRule, functionRule, hd _ (.inl rfl), fieldRule, hd _ (.inr rfl)]
  rfl

/-- A field with a default is printed with an annotation that there is not. -/
theorem C65_default_counterexample (F : FloatParse) :
    ∃ p : ConstantPool, (dumpOne DumpDemo.cfg p).failed = none ∧ Unreadable F (dumpOne DumpDemo.cfg p).text := by
  refine ⟨DumpDemo.onePool 0 .Prim [⟨"Box", "x"⟩], by decide +kernel, ?_⟩
  have e : (dumpOne DumpDemo.cfg (DumpDemo.onePool 0 .Prim [⟨"Box", "x"⟩])).text =
      '\n' :: (declText [] 0 [.Public] "class".toList "Box".toList ++ (" {\n".toList ++
        ('\n' :: ' ' :: ' ' :: '@' :: ("default".toList ++ '(' :: (commaText [("Box".toList, (.Ident "Box".toList : Expr SourceAst)), ("x".toList, .Ident "x".toList)] ++
          ')' :: "\n  public let item: T;\n}\n".toList))))) := by decide +kernel
  rw [e]
  generalize "\n  public let item: T;\n}\n".toList = s
  have hr : ∀ x : Text, isIdent x = true → x ∉ reservedWords → ReadAs F 0 0 x (.Ident x) := fun x h1 h2 =>
    (reads_ident h1 h2).weaken (by omega) (by omega)
  have h1 := annotation_unknown (F := F) (x := "default".toList) (by decide) (by decide)
    (ps := [("Box".toList, .Ident "Box".toList), ("x".toList, .Ident "x".toList)]) (by
      intro x hx
      simp only [List.mem_cons, List.not_mem_nil, or_false] at hx
      rcases hx with rfl | rfl
      · exact hr _ (by decide) (by decide)
      · exact hr _ (by decide) (by decide)) s
  have hb : ∀ t : Text, blanks ('\n' :: ' ' :: ' ' :: '@' :: t) = '@' :: t := fun t => by
    rw [blanks_white (by decide), blanks_white (by decide), blanks_white (by decide)]
    exact blanks_solid (by decide) (by decide)
  refine class_unreadable (by decide) (Eventually.mono h1 fun n hn => ?_) ?_
  · rw [hb]
    exact member_at hn
  · rw [hb]
    exact lit_ne (by decide)

/-- A struct that is derived is printed with its base, which only classes have. -/
theorem C65_derived_struct_counterexample (F : FloatParse) :
    ∃ p : ConstantPool, (dumpOne DumpDemo.cfg p).failed = none ∧ Unreadable F (dumpOne DumpDemo.cfg p).text := by
  refine ⟨DumpDemo.structPool, by decide +kernel, ?_⟩
  have e : (dumpOne DumpDemo.cfg DumpDemo.structPool).text =
      '\n' :: (declText [] 0 [.Public] "struct".toList "Box".toList ++ (' ' :: 'e' :: "xtends Crate {\n}\n\npublic class Crate {\n}\n".toList)) := by
    decide +kernel
  rw [e]
  generalize "xtends Crate {\n}\n\npublic class Crate {\n}\n".toList = s
  refine unreadable (fun n => ?_) ?_ (declared_ne _ (by decide) _)
  · rw [blanks_white (by decide)]
    exact not_import 0 _ (by decide) _ _ n
  · rw [blanks_white (by decide)]
    have h1 := functionRule_other (F := F) AnnsRead.nil 0 [.Public] (word := "struct".toList) (name := "Box".toList) (by decide) (' ' :: 'e' :: s) (by decide)
    have h2 := decl_read (F := F) AnnsRead.nil 0 [.Public] (word := "struct".toList) (name := "Box".toList) (by decide) (by decide)
      (rest := ' ' :: 'e' :: s) (endsWord_space _)
    have h3 := classRule_other (F := F) AnnsRead.nil 0 (qs := [.Public]) (word := "struct".toList) (name := "Box".toList) (by decide) (' ' :: 'e' :: s) (by decide)
    have h4 := fieldRule_other (F := F) AnnsRead.nil 0 (qs := [.Public]) (word := "struct".toList) (name := "Box".toList) (by decide) (' ' :: 'e' :: s) (by decide)
    have h5 := enumRule_other (F := F) AnnsRead.nil 0 (qs := [.Public]) (word := "struct".toList) (name := "Box".toList) (by decide) (' ' :: 'e' :: s) (by decide)
    refine Eventually.mono (Eventually.and (Eventually.and h1 h2) (Eventually.and h3 (Eventually.and h4 h5)))
      fun n ⟨⟨h1, h2⟩, h3, h4, h5⟩ => ?_
    have hb : blanks (' ' :: 'e' :: s) = 'e' :: s := by
      rw [blanks_white (by decide)]
      exact blanks_solid (by decide) (by decide)
    have hst : structRule F n (blanks (declText [] 0 [.Public] "struct".toList "Box".toList ++ (' ' :: 'e' :: s))) = .fail := by
      rw [structRule, h2]
      simp only [Peg.bind, hb, membersRule, lit_ne (show '{' ≠ 'e' by decide)]
    rw [entryRule, h1, h3, hst, h4, h5]
    rfl

/-- The value of an enum member that does not fit in 32 bits is printed without the suffix it needs. -/
theorem C65_large_enum_counterexample (F : FloatParse) :
    ∃ p : ConstantPool, (dumpOne DumpDemo.cfg p).failed = none ∧ Unreadable F (dumpOne DumpDemo.cfg p).text := by
  refine ⟨DumpDemo.enumPool, by decide +kernel, ?_⟩
  have e : (dumpOne DumpDemo.cfg DumpDemo.enumPool).text =
      '\n' :: (declText [] 0 [] "enum".toList "Box".toList ++ (" {\n  ".toList ++ ("Crate".toList ++ ' ' :: '=' :: ' ' :: ("5000000000".toList ++
        (IntType.i32.suffix ++ ',' :: "\n}\n".toList))))) := by
    decide +kernel
  rw [e]
  generalize "\n}\n".toList = s
  have hnum := number_literal F .i32 false (ds := "5000000000".toList) (by decide) (by decide) (rest := ',' :: s) fun c hc => by cases hc; decide
  rw [if_neg (by decide), if_neg (by decide +kernel)] at hnum
  have hst : Starts ("5000000000".toList ++ (IntType.i32.suffix ++ ',' :: s)) := ⟨'5', _, rfl, by decide⟩
  generalize "5000000000".toList ++ (IntType.i32.suffix ++ ',' :: s) = t at hnum hst ⊢
  generalize hu : "Crate".toList ++ ' ' :: '=' :: ' ' :: t = u
  have hs : Starts u := hu ▸ (isIdent_starts (x := "Crate".toList) (by decide)).append _
  have hm : enumMember F u = .fail := by
    have hb : blanks (' ' :: '=' :: ' ' :: t) = '=' :: ' ' :: t := by
      rw [blanks_white (by decide)]
      exact blanks_solid (by decide) (by decide)
    have hl : lit ['='] ('=' :: ' ' :: t) = .ok () (' ' :: t) := lit_self ['='] _
    rw [enumMember, ← hu, ident_read (by decide) (endsWord_space _)]
    simp only [Peg.bind, hb, hl, hst.blanks_sp, hnum]
  refine unreadable (fun n => ?_) ?_ (declared_ne _ (by decide) _)
  · rw [blanks_white (by decide)]
    exact not_import 0 _ (by decide) _ _ n
  · rw [blanks_white (by decide)]
    have h1 := functionRule_other (F := F) AnnsRead.nil 0 [] (word := "enum".toList) (name := "Box".toList) (by decide) (" {\n  ".toList ++ u) (by decide)
    have h2 := decl_read (F := F) AnnsRead.nil 0 [] (word := "enum".toList) (name := "Box".toList) (by decide) (by decide)
      (rest := " {\n  ".toList ++ u) (endsWord_space _)
    have h3 := classRule_other (F := F) AnnsRead.nil 0 (qs := []) (word := "enum".toList) (name := "Box".toList) (by decide) (" {\n  ".toList ++ u) (by decide)
    have h4 := fieldRule_other (F := F) AnnsRead.nil 0 (qs := []) (word := "enum".toList) (name := "Box".toList) (by decide) (" {\n  ".toList ++ u) (by decide)
    have h5 := structRule_other (F := F) AnnsRead.nil 0 (qs := []) (word := "enum".toList) (name := "Box".toList) (by decide) (" {\n  ".toList ++ u) (by decide)
    refine Eventually.mono (Eventually.and (Eventually.and h1 h2) (Eventually.and h3 (Eventually.and h4 h5)))
      fun n ⟨⟨h1, h2⟩, h3, h4, h5⟩ => ?_
    have hb : blanks (" {\n  ".toList ++ u) = '{' :: '\n' :: ' ' :: ' ' :: u := by
      show blanks (' ' :: '{' :: '\n' :: ' ' :: ' ' :: u) = _
      rw [blanks_white (by decide)]
      exact blanks_solid (by decide) (by decide)
    have hl : lit ['{'] ('{' :: '\n' :: ' ' :: ' ' :: u) = .ok () ('\n' :: ' ' :: ' ' :: u) := lit_self ['{'] _
    have hb2 : blanks ('\n' :: ' ' :: ' ' :: u) = u := by
      rw [blanks_white (by decide), blanks_white (by decide), blanks_white (by decide), hs.blanks]
    have hsep : sepBy commaSep (enumMember F) n u = .ok [] u := by rw [sepBy, hm]
    obtain ⟨v, rfl⟩ : ∃ v, u = 'C' :: v := ⟨_, hu.symm⟩
    have hen : enumRule F n (blanks (declText [] 0 [] "enum".toList "Box".toList ++ (" {\n  ".toList ++ 'C' :: v))) = .fail := by
      rw [enumRule, h2]
      simp only [Peg.bind, hb, hl, hb2, hsep, hs.blanks, lit_ne (show ',' ≠ 'C' by decide), Peg.opt, lit_ne (show '}' ≠ 'C' by decide)]
    rw [entryRule, h1, h3, h4, h5, hen]
    rfl

end Redscript
