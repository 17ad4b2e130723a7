import Verif.Decompiler.DeclPrintModel
import Verif.Decompiler.PrintStmt
import Verif.Parser.ReadsModule
import Verif.Unit.DeclDoneSpec

/-!
# Printed definitions read back

C65: the source file that is printed for definitions of the pool is parsed as the declarations these definitions stand
for, in the same order.
-/

namespace Redscript

/-! ### What definitions stand for (specification) -/

section
variable (p : ConstantPool)

/-- The name that is stored at an index. -/
def StoredName (i : Idx) (x : Text) : Prop := ∃ s, p.names.get Strings.cnameDefault i = some s ∧ x = s.toList

/-- The type in the source for a type in the pool. There is none for arrays of a fixed size. -/
inductive TypeStands : Idx → TypeName → Prop
  | named {i : Idx} {d : Definition} {x : Text} : p.definition i = some d → (d.value = .Type .Prim ∨ d.value = .Type .Class) →
      StoredName p d.name x → isIdent x = true → TypeStands i (.mk x [])
  | ref {i k : Idx} {d : Definition} {t : TypeName} : p.definition i = some d → d.value = .Type (.Ref k) → TypeStands k t →
      TypeStands i (.mk "ref".toList [t])
  | wref {i k : Idx} {d : Definition} {t : TypeName} : p.definition i = some d → d.value = .Type (.WeakRef k) → TypeStands k t →
      TypeStands i (.mk "wref".toList [t])
  | array {i k : Idx} {d : Definition} {t : TypeName} : p.definition i = some d → d.value = .Type (.Array k) → TypeStands k t →
      TypeStands i (.mk "array".toList [t])
  | script {i k : Idx} {d : Definition} {t : TypeName} : p.definition i = some d → d.value = .Type (.ScriptRef k) → TypeStands k t →
      TypeStands i (.mk "script_ref".toList [t])

/-- A qualifier for a flag that is set. -/
def flagged (n : Nat) (w : BitVec k) (q : Qualifier) : List Qualifier := if flag n w then [q] else []

/-- The qualifier for the visibility. -/
def Visibility.qualifier : Visibility → Qualifier
  | .pub => .Public
  | .prot => .Protected
  | .priv => .Private

/-- The parameter in the source for a parameter in the pool. Its name is an identifier and not a qualifier. -/
def ParamStands (i : Idx) (s : ParamSource) : Prop :=
  ∃ d q, p.definition i = some d ∧ d.value = .Parameter q ∧ StoredName p d.name s.name ∧ notQualifier s.name = true ∧
    TypeStands p q.type_ s.type_ ∧
    s.qualifiers = flagged ParameterFlags.isConstBit q.flags .Const ++ flagged ParameterFlags.isOutBit q.flags .Out ++
      flagged ParameterFlags.isOptionalBit q.flags .Optional

/-- The qualifiers of a function. -/
def functionQualifiers (f : FunctionDef) : List Qualifier :=
  [f.visibility.qualifier] ++ flagged FunctionFlags.isFinalBit f.flags .Final ++ flagged FunctionFlags.isStaticBit f.flags .Static ++
    flagged FunctionFlags.isNativeBit f.flags .Native ++ flagged FunctionFlags.isExecBit f.flags .Exec ++
    flagged FunctionFlags.isConstBit f.flags .Const ++ flagged FunctionFlags.isQuestBit f.flags .Quest ++
    flagged FunctionFlags.isCallbackBit f.flags .Callback

/-- The function in the source for a function in the pool: the name up to the semicolon of a mangled name, and if there
is a body, the statements that are decompiled, provided they are printed safely. -/
structure FunctionStands (C : PrintCfg) (d : Definition) (f : FunctionDef) (s : FunctionSource) : Prop where
  name : ∃ x, StoredName p d.name x ∧ s.declaration.name = beforeSemicolon x
  ident : isIdent s.declaration.name = true
  qualifiers : s.declaration.qualifiers = functionQualifiers f
  annotations : s.declaration.annotations = []
  loc : s.declaration.loc = none
  parameters : Each2 (ParamStands p) f.parameters s.parameters
  returns : ∃ ret, s.type_ = some ret ∧
    ((f.returnType = none ∧ ret = .mk "Void".toList []) ∨ ∃ t, f.returnType = some t ∧ TypeStands p t ret)
  body : (flag FunctionFlags.hasBodyBit f.flags = false ∧ s.body = none) ∨
    ∃ code, flag FunctionFlags.hasBodyBit f.flags = true ∧ decompiledIn C p d f = .ok code ∧ seqSafe C.floats C.verbose code = true ∧
      s.body = some (seqMeaning C.verbose code)

/-- The text is printed the same with and without escapes. -/
def PlainText (s : String) : Prop := escapeText s.toList = s.toList

/-- The annotation in the source for a property of a field. -/
def PropertyStands (q : Property) (a : Annotation) : Prop :=
  PlainText q.name ∧ PlainText q.value ∧
    a = ⟨.RuntimeProperty, [.Constant (.String .String q.name.toList), .Constant (.String .String q.value.toList)]⟩

/-- The field in the source for a field in the pool. There is none for fields that have defaults or that are inline, replicated or
editable. -/
structure FieldStands (d : Definition) (f : FieldDef) (s : FieldSource) : Prop where
  name : StoredName p d.name s.declaration.name
  ident : isIdent s.declaration.name = true
  qualifiers : s.declaration.qualifiers = [f.visibility.qualifier] ++ flagged FieldFlags.isNativeBit f.flags .Native ++
    flagged FieldFlags.isPersistentBit f.flags .Persistent ++ flagged FieldFlags.isConstBit f.flags .Const
  annotations : Each2 PropertyStands f.attributes s.declaration.annotations
  loc : s.declaration.loc = none
  type : TypeStands p f.type_ s.type_
  default : s.default = none
  plain : f.defaults = [] ∧ flag FieldFlags.isInlineBit f.flags = false ∧ flag FieldFlags.isReplicatedBit f.flags = false ∧
    flag FieldFlags.isEditableBit f.flags = false

/-- The method in the source for an index. -/
def MethodAt (C : PrintCfg) (i : Idx) (s : FunctionSource) : Prop :=
  ∃ d f, p.definition i = some d ∧ d.value = .Function f ∧ FunctionStands p C d f s

/-- The field in the source for an index. -/
def FieldAt (i : Idx) (s : FieldSource) : Prop :=
  ∃ d f, p.definition i = some d ∧ d.value = .Field f ∧ FieldStands p d f s

/-- The class in the source for a class in the pool: first the fields, then the functions. -/
structure ClassStands (C : PrintCfg) (d : Definition) (c : ClassDef) (s : ClassSource) : Prop where
  name : StoredName p d.name s.declaration.name
  ident : isIdent s.declaration.name = true
  qualifiers : s.declaration.qualifiers = [c.visibility.qualifier] ++ flagged ClassFlags.isAbstractBit c.flags .Abstract ++
    flagged ClassFlags.isFinalBit c.flags .Final ++
    (if flag ClassFlags.isImportOnlyBit c.flags then [.ImportOnly] else flagged ClassFlags.isNativeBit c.flags .Native)
  annotations : s.declaration.annotations = []
  loc : s.declaration.loc = none
  base : (c.base = 0 ∧ s.base = none) ∨
    ∃ b x, c.base ≠ 0 ∧ p.definition c.base = some b ∧ StoredName p b.name x ∧ isIdent x = true ∧ s.base = some x
  members : ∃ fs ms, Each2 (FieldAt p) c.fields fs ∧ Each2 (MethodAt p C) c.functions ms ∧ s.members = fs.map .Field ++ ms.map .Function

/-- The member of an enum in the source for an index. It fits in 32 bits. -/
def MemberAt (i : Idx) (m : Text × BitVec 64) : Prop :=
  ∃ d, p.definition i = some d ∧ d.value = .EnumValue m.2 ∧ StoredName p d.name m.1 ∧ isIdent m.1 = true ∧
    -2147483648 ≤ m.2.toInt ∧ m.2.toInt < 2147483648

/-- The entry in the source for a definition. A struct has no base. -/
inductive DefStands (C : PrintCfg) (d : Definition) : SourceEntry → Prop
  | class {c : ClassDef} {s : ClassSource} : d.value = .Class c → flag ClassFlags.isStructBit c.flags = false → ClassStands p C d c s →
      DefStands C d (.Class s)
  | struct {c : ClassDef} {s : ClassSource} : d.value = .Class c → flag ClassFlags.isStructBit c.flags = true → c.base = 0 →
      ClassStands p C d c s → DefStands C d (.Struct s)
  | enum {e : EnumDef} {x : Text} {ms : List (Text × BitVec 64)} : d.value = .Enum e → StoredName p d.name x → isIdent x = true →
      Each2 (MemberAt p) e.members ms → DefStands C d (.Enum ⟨⟨[], [], x, none⟩, ms⟩)
  | function {f : FunctionDef} {s : FunctionSource} : d.value = .Function f → FunctionStands p C d f s → DefStands C d (.Function s)

end

/-! ### What is written -/

/-- The text is written, unless there is a panic. -/
def Gives (w : Written) (t : Text) : Prop := w = .put t ∨ w.failed = some .panic

theorem Gives.put (t : Text) : Gives (.put t) t := .inl rfl

theorem Gives.cast {w : Written} {t u : Text} (h : Gives w t) (e : t = u) : Gives w u := e ▸ h

theorem Gives.andThen {a : Written} {b : Unit → Written} {t u : Text} (ha : Gives a t) (hb : Gives (b ()) u) : Gives (a.andThen b) (t ++ u) := by
  unfold Written.andThen
  rcases ha with rfl | ha
  · rcases hb with hb | hb
    · left
      rw [hb]
      rfl
    · right
      exact hb
  · right
    rw [ha]

theorem Gives.logged {a : Written} {t : Text} (ha : Gives a t) : Gives a.logged t := by
  unfold Written.logged
  rcases ha with rfl | ha
  · exact .inl rfl
  · rw [ha]
    exact .inr ha

theorem Gives.text {w : Written} {t : Text} (h : Gives w t) (hw : w.failed = none) : w.text = t := by
  rcases h with rfl | h
  · rfl
  · rw [hw] at h
    cases h

/-- A value, unless there is a panic. -/
def GivesValue (v : Except WriteErr α) (a : α) : Prop := v = .ok a ∨ v = .error .panic

theorem Gives.withValue {v : Except WriteErr α} {a : α} {f : α → Written} {t : Text} (hv : GivesValue v a) (hf : Gives (f a) t) :
    Gives (Written.withValue v f) t := by
  rcases hv with rfl | rfl
  · exact hf
  · exact .inr rfl

theorem GivesValue.unwrapped {v : Except WriteErr α} {a : α} (h : GivesValue v a) : GivesValue (unwrapped v) a := by
  rcases h with rfl | rfl
  · exact .inl rfl
  · exact .inr rfl

theorem Gives.all : ∀ {ws : List Written} {ts : List Text}, Each2 Gives ws ts → Gives (Written.all ws) ts.flatten
  | _, _, .nil => .put []
  | _, _, .cons h hs => h.andThen (Gives.all hs)

section
variable {p : ConstantPool} {C : PrintCfg} {F : FloatParse}

theorem stored_value {i : Idx} {x : Text} (h : StoredName p i x) : p.getName i = .ok x := by
  obtain ⟨s, h, rfl⟩ := h
  rw [ConstantPool.getName, h]

theorem getDef_ok {i : Idx} {d : Definition} (h : p.definition i = some d) : p.getDef i = .ok d := by
  rw [ConstantPool.getDef, h]

/-! ### Types -/

theorem TypeStands.valid {i : Idx} {t : TypeName} (h : TypeStands p i t) : t.isValid = true := by
  induction h with
  | named h1 h2 h3 h4 => simp [TypeName.isValid, TypeName.allValid, h4]
  | ref _ _ _ ih => simp only [TypeName.isValid, TypeName.allValid, ih, Bool.and_true]; decide
  | wref _ _ _ ih => simp only [TypeName.isValid, TypeName.allValid, ih, Bool.and_true]; decide
  | array _ _ _ ih => simp only [TypeName.isValid, TypeName.allValid, ih, Bool.and_true]; decide
  | script _ _ _ ih => simp only [TypeName.isValid, TypeName.allValid, ih, Bool.and_true]; decide

theorem pretty_wrap (x : Text) (t : TypeName) : (TypeName.mk x [t]).pretty = x ++ '<' :: (t.pretty ++ ['>']) := by
  simp [TypeName.pretty, TypeName.prettyArgs]

theorem pretty_plain (x : Text) : (TypeName.mk x []).pretty = x := by simp [TypeName.pretty]

theorem formatType_some {i : Idx} {d : Definition} (h : p.definition i = some d) (n : Nat) : formatType p n i = formatTypeOf p n d := by
  rw [formatType, getDef_ok h]

theorem GivesValue.wrap {v : Except WriteErr Text} {t : TypeName} (h : GivesValue v t.pretty) (x y : Text) (hxy : y = x ++ ['<']) :
    GivesValue (v.map fun s => y ++ s ++ ">".toList) (TypeName.mk x [t]).pretty := by
  rcases h with rfl | rfl
  · left
    rw [pretty_wrap, hxy]
    simp [Except.map]
  · exact .inr rfl

theorem TypeStands.printed {i : Idx} {t : TypeName} (h : TypeStands p i t) : ∀ n, GivesValue (formatType p n i) t.pretty := by
  induction h with
  | named h1 h2 h3 h4 =>
    intro n
    rw [formatType_some h1]
    cases n with
    | zero => exact .inr rfl
    | succ n =>
      left
      rw [pretty_plain]
      rcases h2 with h2 | h2
      · simp only [formatTypeOf, h2, stored_value h3]
      · simp only [formatTypeOf, h2, stored_value h3]
  | ref h1 h2 _ ih =>
    intro n
    rw [formatType_some h1]
    cases n with
    | zero => exact .inr rfl
    | succ n =>
      have := (ih n).wrap "ref".toList "ref<".toList rfl
      simp only [formatTypeOf, h2]
      exact this
  | wref h1 h2 _ ih =>
    intro n
    rw [formatType_some h1]
    cases n with
    | zero => exact .inr rfl
    | succ n =>
      have := (ih n).wrap "wref".toList "wref<".toList rfl
      simp only [formatTypeOf, h2]
      exact this
  | array h1 h2 _ ih =>
    intro n
    rw [formatType_some h1]
    cases n with
    | zero => exact .inr rfl
    | succ n =>
      have := (ih n).wrap "array".toList "array<".toList rfl
      simp only [formatTypeOf, h2]
      exact this
  | script h1 h2 _ ih =>
    intro n
    rw [formatType_some h1]
    cases n with
    | zero => exact .inr rfl
    | succ n =>
      have := (ih n).wrap "script_ref".toList "script_ref<".toList rfl
      simp only [formatTypeOf, h2]
      exact this

/-! ### Parameters -/

theorem flag_quals (n : Nat) (w : BitVec k) (q : Qualifier) (t : String) (h : t.toList = q.word ++ [' ']) :
    flagText n w t = qualsText (flagged n w q) := by
  unfold flagText flagged
  split
  · simp [qualsText, h]
  · rfl

theorem qualsText_append (a b : List Qualifier) : qualsText (a ++ b) = qualsText a ++ qualsText b := by simp [qualsText]

theorem qualsText_cons (q : Qualifier) (qs : List Qualifier) : qualsText (q :: qs) = q.word ++ ' ' :: qualsText qs := by simp [qualsText]

theorem qualsText_nil : qualsText [] = [] := rfl

theorem ParamStands.safe {i : Idx} {s : ParamSource} (h : ParamStands p i s) : s.printsSafely = true := by
  obtain ⟨d, q, h1, h2, h3, h4, h5, h6⟩ := h
  rw [ParamSource.printsSafely, h4, h5.valid]
  rfl

theorem ParamStands.printed {i : Idx} {s : ParamSource} (h : ParamStands p i s) (n : Nat) :
    ∃ d, p.definition i = some d ∧ GivesValue (formatParam p n d) (paramText s) := by
  obtain ⟨d, q, h1, h2, h3, h4, h5, h6⟩ := h
  refine ⟨d, h1, ?_⟩
  simp only [formatParam, h2]
  rcases h5.printed n with h | h
  · rw [h]
    simp only [stored_value h3]
    left
    rw [flag_quals _ _ .Const "const " rfl, flag_quals _ _ .Out "out " rfl, flag_quals _ _ .Optional "opt " rfl, paramText, h6,
      qualsText_append, qualsText_append]
    simp only [List.append_assoc]
  · rw [h]
    exact .inr rfl

theorem params_printed (n : Nat) : ∀ {is : List Idx} {ss : List ParamSource}, Each2 (ParamStands p) is ss →
    GivesValue (formatParams p n is) (paramsText ss)
  | _, _, .nil => .inl rfl
  | _, _, .cons h hs => by
    obtain ⟨d, h1, h2⟩ := h.printed n
    have ih := params_printed n hs
    have e1 := congrArg Redscript.unwrapped (getDef_ok h1)
    cases hs with
    | nil =>
      rw [formatParams.eq_def]
      simp only [e1]
      have h3 := h2.unwrapped
      simp only [Redscript.unwrapped, paramsText, List.map_cons, List.map_nil, commaText, commaTail, List.append_nil]
      exact h3
    | cons h3 hs =>
      rw [formatParams.eq_def]
      simp only [e1]
      show GivesValue (match Redscript.unwrapped (formatParam p n d) with
        | .error e => .error e
        | .ok t => (formatParams p n _).map fun ts => t ++ ", ".toList ++ ts) _
      rcases h2.unwrapped with e | e
      · rw [e]
        rcases ih with ih | ih
        · rw [ih]
          left
          simp [Except.map, paramsText, commaText, commaTail, show ", ".toList = [',', ' '] from rfl]
        · rw [ih]
          exact .inr rfl
      · rw [e]
        exact .inr rfl

/-! ### Functions -/

theorem visibility_word (v : Visibility) : v.text = v.qualifier.word := by cases v <;> rfl

theorem void_printed : (TypeName.mk "Void".toList []).pretty = "Void".toList := pretty_plain _

theorem body_printed {d : Definition} {f : FunctionDef} {body : Option (List (Expr SourceAst))} (depth : Nat)
    (h : (flag FunctionFlags.hasBodyBit f.flags = false ∧ body = none) ∨
      ∃ code, flag FunctionFlags.hasBodyBit f.flags = true ∧ decompiledIn C p d f = .ok code ∧ seqSafe C.floats C.verbose code = true ∧
        body = some (seqMeaning C.verbose code)) :
    ∃ b, BodyRead F b body ∧
      Gives (if flag FunctionFlags.hasBodyBit f.flags then writeBody C p d f depth else Written.put ";".toList) (bodyText (2 * depth) b) := by
  rcases h with ⟨h, rfl⟩ | ⟨code, h, h2, h3, rfl⟩
  · refine ⟨none, True.intro, ?_⟩
    rw [h]
    exact .put _
  · obtain ⟨t, h4, h5⟩ := printed_seq (F := F) code (depth + 1) h3
    refine ⟨some t, h5, ?_⟩
    rw [h, if_pos rfl, writeBody, h2]
    simp only [Written.withValue, h4]
    refine Gives.cast ((Gives.put _).andThen (Gives.put _)) ?_
    simp [bodyText, indent]

theorem FunctionStands.printed {d : Definition} {f : FunctionDef} {s : FunctionSource} (h : FunctionStands p C d f s) (depth : Nat) :
    ∃ ret b, s.type_ = some ret ∧ ret.isValid = true ∧ BodyRead F b s.body ∧
      Gives (writeFunction C p depth d f) ('\n' :: (functionText (2 * depth) s ret b ++ ['\n'])) := by
  obtain ⟨x, hx, hn⟩ := h.name
  obtain ⟨ret, hr, hret⟩ := h.returns
  obtain ⟨b, hb, hbody⟩ := body_printed (F := F) depth h.body
  have hv : ret.isValid = true := by
    rcases hret with ⟨_, rfl⟩ | ⟨t, _, ht⟩
    · decide
    · exact ht.valid
  refine ⟨ret, b, hr, hv, hb, ?_⟩
  unfold writeFunction
  refine Gives.withValue (a := ret.pretty) ?_ ?_
  · rcases hret with ⟨e, rfl⟩ | ⟨t, e, ht⟩
    · rw [e, void_printed]
      exact .inl rfl
    · rw [e]
      exact (ht.printed C.fuel).unwrapped
  refine Gives.withValue (.inl (stored_value hx)) ?_
  refine Gives.withValue (params_printed C.fuel h.parameters) ?_
  refine Gives.cast ((Gives.put _).andThen (hbody.andThen (Gives.put _))) ?_
  rw [flag_quals _ _ .Final "final " rfl, flag_quals _ _ .Static "static " rfl, flag_quals _ _ .Native "native " rfl,
    flag_quals _ _ .Exec "exec " rfl, flag_quals _ _ .Const "const " rfl, flag_quals _ _ .Quest "quest " rfl,
    flag_quals _ _ .Callback "cb " rfl, functionText, declText, h.qualifiers, functionQualifiers, hn]
  simp only [qualsText_append, qualsText_cons, visibility_word, List.append_assoc, List.cons_append, List.nil_append, indent,
    show "\n".toList = ['\n'] from rfl, show " ".toList = [' '] from rfl, show "func ".toList = "func".toList ++ [' '] from rfl]

/-! ### Fields -/

theorem property_read {q : Property} {a : Annotation} (h : PropertyStands q a) (rest : Text) :
    Eventually fun n => annotationRule F n ('@' :: (("runtimeProperty(\"".toList ++ (q.name.toList ++ ("\", \"".toList ++ (q.value.toList ++
      "\")".toList)))) ++ rest)) = .ok a rest := by
  obtain ⟨h1, h2, rfl⟩ := h
  have e : ∀ s : String, PlainText s → ReadAs F 0 0 ('"' :: (s.toList ++ ['"'])) (.Constant (.String .String s.toList)) := by
    intro s hs
    have := (reads_string (F := F) ⟨fun _ => [], fun _ => []⟩ .String s.toList).weaken (l' := 0) (q' := 0) (by omega) (by omega)
    simpa [printConstant, show escapeText s.toList = s.toList from hs] using this
  have hr := args_read (F := F) (ps := [(_, _), (_, _)]) (by
    intro x hx
    simp only [List.mem_cons, List.not_mem_nil, or_false] at hx
    rcases hx with rfl | rfl
    · exact e _ h1
    · exact e _ h2) rest
  have t1 : ("runtimeProperty(\"".toList ++ (q.name.toList ++ ("\", \"".toList ++ (q.value.toList ++ "\")".toList)))) ++ rest =
      "runtimeProperty".toList ++ ('(' :: (commaText [('"' :: (q.name.toList ++ ['"']), Expr.Constant (.String .String q.name.toList)),
        ('"' :: (q.value.toList ++ ['"']), (Expr.Constant (.String .String q.value.toList) : Expr SourceAst))] ++ ')' :: rest)) := by
    simp only [commaText, commaTail, show "runtimeProperty(\"".toList = "runtimeProperty".toList ++ ['(', '"'] from rfl,
      show "\", \"".toList = ['"', ',', ' ', '"'] from rfl, show "\")".toList = ['"', ')'] from rfl, List.append_assoc, List.cons_append,
      List.nil_append]
  refine Eventually.mono hr fun n hn => ?_
  have hl : ∀ s : Text, lit ['@'] ('@' :: s) = .ok () s := fun s => lit_self ['@'] s
  have hl2 : ∀ s : Text, lit ['('] ('(' :: s) = .ok () s := fun s => lit_self ['('] s
  have hi : ∀ s : Text, identRule ("runtimeProperty".toList ++ ('(' :: s)) = .ok "runtimeProperty".toList ('(' :: s) := fun s =>
    ident_read (by decide) (endsWord_of (by decide))
  have hb : ∀ s : Text, blanks ('(' :: s) = '(' :: s := fun s => blanks_solid (by decide) (by decide)
  have hb2 : ∀ s : Text, blanks ('"' :: s) = '"' :: s := fun s => blanks_solid (by decide) (by decide)
  have hk : AnnotationKind.fromStr "runtimeProperty".toList = some .RuntimeProperty := by decide
  rw [t1, annotationRule, hl]
  simp only [Peg.bind, hi, hb, hl2]
  simp only [commaText, List.cons_append, hb2] at hn ⊢
  rw [hn]
  simp only [hk]
  rfl

theorem attributes_read (k : Nat) : ∀ {qs : List Property} {as : List Annotation}, Each2 PropertyStands qs as →
    AnnsRead F (attributeLines k qs) as
  | _, _, .nil => AnnsRead.nil
  | _, _, .cons (a := q) (as := qs) h hs => by
    have := AnnsRead.cons (2 * k) (property_read (F := F) h) (attributes_read k hs)
    have e : attributeLines k (q :: qs) = List.replicate (2 * k) ' ' ++ ('@' :: (("runtimeProperty(\"".toList ++ (q.name.toList ++
        ("\", \"".toList ++ (q.value.toList ++ "\")".toList)))) ++ '\n' :: attributeLines k qs)) := by
      simp only [attributeLines, List.flatMap_cons, indent, show "@runtimeProperty(\"".toList = '@' :: "runtimeProperty(\"".toList from rfl,
        show "\")\n".toList = "\")".toList ++ ['\n'] from rfl, List.append_assoc, List.cons_append, List.nil_append]
    rw [e]
    exact this

theorem flagText_off {n : Nat} {w : BitVec k} (h : flag n w = false) (t : String) : flagText n w t = [] := by
  rw [flagText, h]
  rfl

theorem FieldStands.printed {d : Definition} {f : FieldDef} {s : FieldSource} (h : FieldStands p d f s) (depth : Nat) :
    Gives (writeField C p depth d f) ('\n' :: (fieldText (attributeLines depth f.attributes) (2 * depth) s ++ ['\n'])) := by
  obtain ⟨h1, h2, h3, h4⟩ := h.plain
  unfold writeField
  refine Gives.withValue (h.type.printed C.fuel) ?_
  refine Gives.withValue (.inl (stored_value h.name)) ?_
  refine Gives.cast (Gives.put _) ?_
  rw [flagText_off h2, flagText_off h3, flagText_off h4, flag_quals _ _ .Native "native " rfl, flag_quals _ _ .Persistent "persistent " rfl,
    flag_quals _ _ .Const "const " rfl, h1, fieldText, declText, h.qualifiers]
  simp only [qualsText_append, qualsText_cons, visibility_word, List.append_assoc, List.cons_append, List.nil_append, indent, defaultLines,
    List.flatMap_nil, show "\n".toList = ['\n'] from rfl, show " ".toList = [' '] from rfl, show "let ".toList = "let".toList ++ [' '] from rfl,
    show ";\n".toList = [';', '\n'] from rfl]

/-! ### Classes -/

theorem def_function {d : Definition} {f : FunctionDef} (h : d.value = .Function f) (n depth : Nat) :
    writeDefinition C p (n + 1) depth d = writeFunction C p depth d f := by rw [writeDefinition, h]

theorem def_field {d : Definition} {f : FieldDef} (h : d.value = .Field f) (n depth : Nat) :
    writeDefinition C p (n + 1) depth d = writeField C p depth d f := by rw [writeDefinition, h]

theorem params_safe {is : List Idx} {qs : List ParamSource} (h : Each2 (ParamStands p) is qs) : ∀ q ∈ qs, q.printsSafely = true := by
  induction h with
  | nil =>
    intro q hq
    cases hq
  | cons h _ ih =>
    intro q hq
    rcases List.mem_cons.1 hq with rfl | hq
    · exact h.safe
    · exact ih q hq

theorem methods_printed (n depth : Nat) : ∀ {is : List Idx} {ms : List FunctionSource}, Each2 (MethodAt p C) is ms →
    ∃ t, MembersRead F t (ms.map .Function) ∧ Gives (Written.all (is.map fun i => Written.withValue (p.getDef i) fun m =>
      (writeDefinition C p n depth m).logged)) t
  | _, _, .nil => ⟨[], MembersRead.nil, .put []⟩
  | _, _, .cons (as := is) h hs => by
    obtain ⟨u, hu, hg⟩ := methods_printed n depth hs
    obtain ⟨d, f, h1, h2, h⟩ := h
    obtain ⟨ret, b, h3, h4, h5, h6⟩ := h.printed (F := F) depth
    refine ⟨_, MembersRead.function (2 * depth) h.annotations h.loc h.ident (params_safe h.parameters) h3 h4 h5 hu, ?_⟩
    refine Gives.andThen ?_ hg
    refine Gives.withValue (.inl (getDef_ok h1)) ?_
    cases n with
    | zero => exact .inr rfl
    | succ n =>
      rw [def_function h2]
      exact h6.logged

theorem fields_printed (n depth : Nat) {v : Text} {ms : List MemberSource} (hv : MembersRead F v ms) :
    ∀ {is : List Idx} {fs : List FieldSource}, Each2 (FieldAt p) is fs →
    ∃ t, MembersRead F (t ++ v) (fs.map .Field ++ ms) ∧ Gives (Written.all (is.map fun i => Written.withValue (p.getDef i) fun m =>
      writeDefinition C p n depth m)) t
  | _, _, .nil => ⟨[], hv, .put []⟩
  | _, _, .cons (as := is) h hs => by
    obtain ⟨u, hu, hg⟩ := fields_printed n depth hv hs
    obtain ⟨d, f, h1, h2, h⟩ := h
    have hm := MembersRead.field (attributes_read (F := F) depth h.annotations) (2 * depth) h.loc h.ident h.type.valid h.default hu
    rw [← List.append_assoc] at hm
    refine ⟨_, hm, ?_⟩
    refine Gives.andThen ?_ hg
    refine Gives.withValue (.inl (getDef_ok h1)) ?_
    cases n with
    | zero => exact .inr rfl
    | succ n =>
      rw [def_field h2]
      exact h.printed depth

/-- The word in front of the name of a class. -/
def classWord (c : ClassDef) : Text := if flag ClassFlags.isStructBit c.flags then "struct".toList else "class".toList

theorem head_printed {d : Definition} {c : ClassDef} {s : ClassSource} (h : ClassStands p C d c s) :
    Gives (classHead p d c) ('\n' :: (declText [] 0 s.declaration.qualifiers (classWord c) s.declaration.name ++
      (' ' :: (baseText s.base ++ "{\n".toList)))) := by
  have hb : Gives (if c.base = 0 then Written.put []
      else Written.withValue (match p.getDef c.base with
        | .ok b => p.getName b.name
        | .error e => .error e) fun b => Written.put ("extends ".toList ++ b ++ " ".toList)) (baseText s.base) := by
    rcases h.base with ⟨h1, h2⟩ | ⟨b, x, h1, h2, h3, h4, h5⟩
    · rw [if_pos h1, h2]
      exact .put []
    · rw [if_neg h1, h5, getDef_ok h2]
      refine Gives.withValue (.inl (stored_value h3)) (Gives.cast (.put _) ?_)
      rw [baseText_some, List.append_assoc]
      rfl
  unfold classHead
  refine Gives.cast ((Gives.put _).andThen (Gives.withValue (.inl (stored_value h.name)) ((Gives.put _).andThen (hb.andThen (Gives.put _))))) ?_
  have hw : (if flag ClassFlags.isStructBit c.flags then "struct ".toList else "class ".toList) = classWord c ++ [' '] := by
    unfold classWord
    split <;> rfl
  have hi : (if flag ClassFlags.isImportOnlyBit c.flags then "importonly ".toList else flagText ClassFlags.isNativeBit c.flags "native ") =
      qualsText (if flag ClassFlags.isImportOnlyBit c.flags then [.ImportOnly] else flagged ClassFlags.isNativeBit c.flags .Native) := by
    rw [flag_quals _ _ .Native "native " rfl]
    split <;> rfl
  rw [hw, hi, flag_quals _ _ .Abstract "abstract " rfl, flag_quals _ _ .Final "final " rfl, declText, h.qualifiers]
  simp only [qualsText_append, qualsText_cons, visibility_word, List.append_assoc, List.cons_append, List.nil_append,
    List.replicate_zero, show "\n".toList = ['\n'] from rfl, show " ".toList = [' '] from rfl]

theorem ClassStands.printed {d : Definition} {c : ClassDef} {s : ClassSource} (h : ClassStands p C d c s) (hd : d.value = .Class c)
    (n depth : Nat) :
    ∃ t, MembersRead F t s.members ∧ Gives (writeDefinition C p n depth d) ('\n' :: (classText s (classWord c) t ++ ['\n'])) := by
  obtain ⟨fs, ms, h1, h2, h3⟩ := h.members
  obtain ⟨t, ht, hg⟩ := methods_printed (F := F) (n - 1) (depth + 1) h2
  obtain ⟨u, hu, hg2⟩ := fields_printed (C := C) (n - 1) (depth + 1) ht h1
  refine ⟨u ++ t, ?_, ?_⟩
  · rw [h3]
    exact hu
  · cases n with
    | zero => exact .inr rfl
    | succ n =>
      rw [Nat.add_sub_cancel] at hg hg2
      simp only [writeDefinition, hd]
      refine Gives.cast ((head_printed h).andThen (hg2.andThen (hg.andThen (Gives.put _)))) ?_
      simp only [classText, List.append_assoc, List.cons_append, List.nil_append, show "}\n".toList = ['}', '\n'] from rfl]

/-! ### Enums -/

theorem enum_printed {n : Nat} : ∀ {is : List Idx} {ms : List (Text × BitVec 64)}, Each2 (MemberAt p) is ms →
    ∃ ps : List (Text × (Text × BitVec 64)), ps.map Prod.snd = ms ∧ (∀ p ∈ ps, EnumMemberRead F p.1 p.2) ∧
      Gives (Written.all (is.map fun i => Written.withValue (p.getDef i) fun m => writeDefinition C p n 1 m)) (enumLines ps)
  | _, _, .nil => ⟨[], rfl, (by intro p hp; cases hp), .put []⟩
  | _, _, .cons (b := m) (as := is) h hs => by
    obtain ⟨ps, h1, h2, h3⟩ := enum_printed (n := n) hs
    obtain ⟨d, k1, k2, k3, k4, k5⟩ := h
    refine ⟨(m.1 ++ (" = ".toList ++ showInt m.2.toInt), m) :: ps, by rw [List.map_cons, h1], ?_, ?_⟩
    · intro q hq
      rcases List.mem_cons.1 hq with rfl | hq
      · exact enumMember_read k4 m.2 k5
      · exact h2 q hq
    · refine Gives.cast (Gives.andThen (t := ' ' :: ' ' :: (m.1 ++ (" = ".toList ++ (showInt m.2.toInt ++ ",\n".toList))))
        (Gives.withValue (.inl (getDef_ok k1)) ?_) h3) ?_
      · cases n with
        | zero => exact .inr rfl
        | succ n =>
          simp only [writeDefinition, k2]
          refine Gives.withValue (.inl (stored_value k3)) (Gives.cast (.put _) ?_)
          simp [indent]
      · simp [enumLines]

/-! ### Files -/

theorem file_printed (n : Nat) : ∀ {ds : List Definition} {es : List SourceEntry}, Each2 (DefStands p C) ds es →
    ∃ t, FileRead F t es ∧ Gives (Written.all (ds.map fun d => (writeDefinition C p n 0 d).logged)) t
  | _, _, .nil => ⟨[], FileRead.nil, .put []⟩
  | _, _, .cons (a := d) h hs => by
    obtain ⟨u, hu, hg⟩ := file_printed n hs
    cases h with
    | «class» h1 h2 h3 =>
      obtain ⟨t, ht, h4⟩ := h3.printed (F := F) h1 n 0
      rw [classWord, h2] at h4
      refine ⟨_, FileRead.class h3.annotations h3.loc h3.ident ?_ ht hu, h4.logged.andThen hg⟩
      rcases h3.base with ⟨_, e⟩ | ⟨b, x, _, _, _, hx, e⟩
      · intro x hx
        rw [e] at hx
        cases hx
      · intro y hy
        rw [e] at hy
        cases hy
        exact hx
    | struct h1 h2 hb h3 =>
      obtain ⟨t, ht, h4⟩ := h3.printed (F := F) h1 n 0
      rw [classWord, h2] at h4
      refine ⟨_, FileRead.struct h3.annotations h3.loc h3.ident ?_ ht hu, h4.logged.andThen hg⟩
      rcases h3.base with ⟨_, e⟩ | ⟨b, x, hne, _⟩
      · exact e
      · exact absurd hb hne
    | enum h1 h2 h3 h4 =>
      obtain ⟨ps, k1, k2, k3⟩ := enum_printed (F := F) (C := C) (n := n - 1) h4
      subst k1
      refine ⟨_, FileRead.enum h3 k2 hu, Gives.andThen ?_ hg⟩
      refine Gives.logged ?_
      cases n with
      | zero => exact .inr rfl
      | succ n =>
        rw [Nat.add_sub_cancel] at k3
        simp only [writeDefinition, h1]
        refine Gives.withValue (.inl (stored_value h2)) (Gives.cast ((Gives.put _).andThen (k3.andThen (Gives.put _))) ?_)
        simp only [enumText, declText, qualsText_nil, List.append_assoc, List.cons_append, List.nil_append, List.replicate_zero,
          show "\nenum ".toList = '\n' :: ("enum".toList ++ [' ']) from rfl, show "}\n".toList = ['}', '\n'] from rfl]
    | function h1 h3 =>
      obtain ⟨ret, b, k1, k2, k3, k4⟩ := h3.printed (F := F) 0
      refine ⟨_, FileRead.function 0 h3.annotations h3.loc h3.ident (params_safe h3.parameters) k1 k2 k3 hu, Gives.andThen ?_ hg⟩
      refine Gives.logged ?_
      cases n with
      | zero => exact .inr rfl
      | succ n =>
        rw [def_function h1]
        exact k4

end

end Redscript
