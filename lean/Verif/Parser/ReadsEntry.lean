import Verif.Parser.ReadsDecl

/-!
# Reading printed members and entries
-/

namespace Redscript

variable {F : FloatParse}

theorem endsWord_of {c : Char} {s : Text} (h : isIdentChar c = false) : EndsWord (c :: s) := fun d hd => by cases hd; exact h

theorem letType_self {ty : TypeName} (h : ty.isValid = true) {rest : Text} (hr : EndsType rest) :
    Eventually fun n => letType n (blanks (": ".toList ++ (ty.pretty ++ rest))) = .ok ty rest := by
  refine Eventually.mono (typeRule_read ty h hr) fun n hn => ?_
  have hl : lit [':'] (':' :: ' ' :: (ty.pretty ++ rest)) = .ok () (' ' :: (ty.pretty ++ rest)) := lit_self [':'] _
  rw [show ": ".toList ++ (ty.pretty ++ rest) = ':' :: ' ' :: (ty.pretty ++ rest) from rfl, blanks_solid (by decide) (by decide), letType, hl]
  simp only [Peg.bind, ((pretty_starts h).append rest).blanks_sp, hn]

theorem colon_space : ": ".toList = [':', ' '] := rfl

/-! ### Parameters -/

/-- A parameter, as it is printed. -/
def paramText (q : ParamSource) : Text := qualsText q.qualifiers ++ (q.name ++ (": ".toList ++ q.type_.pretty))

/-- A parameter that can be read back: its name is no qualifier. -/
def ParamSource.printsSafely (q : ParamSource) : Bool := notQualifier q.name && q.type_.isValid

theorem param_plain {q : ParamSource} (h : q.printsSafely = true) (rest : Text) :
    PlainWord (q.name ++ (": ".toList ++ (q.type_.pretty ++ rest))) := by
  rw [ParamSource.printsSafely, Bool.and_eq_true] at h
  exact ⟨_, _, rfl, h.1, endsWord_of (by decide)⟩

theorem param_starts {q : ParamSource} (h : q.printsSafely = true) : Starts (paramText q) := by
  have := qualsText_starts q.qualifiers (param_plain h []).starts
  simpa [paramText] using this

theorem param_read {q : ParamSource} (h : q.printsSafely = true) {rest : Text} (hr : EndsType rest) :
    Eventually fun n => paramRule n (paramText q ++ rest) = .ok q rest := by
  have hp := param_plain h rest
  rw [ParamSource.printsSafely, Bool.and_eq_true] at h
  refine Eventually.mono (Eventually.and (quals_read q.qualifiers hp) (letType_self h.2 hr)) fun n ⟨⟨r, h1, h2⟩, h3⟩ => ?_
  have e : paramText q ++ rest = qualsText q.qualifiers ++ (q.name ++ (": ".toList ++ (q.type_.pretty ++ rest))) := by simp [paramText]
  have hi : identRule (q.name ++ (": ".toList ++ (q.type_.pretty ++ rest))) = .ok q.name (": ".toList ++ (q.type_.pretty ++ rest)) :=
    ident_read (notQualifier_ident h.1) (endsWord_of (by decide))
  rw [e, paramRule, h1]
  simp only [Peg.bind, h2, hi, h3]

theorem paramRule_close (n : Nat) (s : Text) : paramRule n (')' :: s) = .fail := by
  rw [paramRule, quals_none n (by decide)]
  simp only [Peg.bind, blanks_solid (show isWhite ')' = false by decide) (show ')' ≠ '/' by decide)]
  rfl

theorem endsType_tail {ps : List (Text × α)} {rest : Text} (hr : EndsType rest) : EndsType (commaTail ps ++ rest) := by
  cases ps with
  | nil => exact hr
  | cons p ps => exact fun c hc => by cases hc; decide

theorem paramItems_read : ∀ (qs : List ParamSource), (∀ q ∈ qs, q.printsSafely = true) → ∀ {rest : Text}, EndsType rest →
    Eventually fun n => Items (paramRule n) (qs.map fun q => (paramText q, q)) rest
  | [], _, _, _ => Eventually.pure fun _ => True.intro
  | q :: qs, h, rest, hr => by
    refine Eventually.mono (Eventually.and (param_read (h q (by simp)) (endsType_tail (ps := qs.map fun q => (paramText q, q)) hr))
      (paramItems_read qs (fun q hq => h q (by simp [hq])) hr)) fun n ⟨h1, h2⟩ => ?_
    exact ⟨((param_starts (h q (by simp))).append _).blanks, h1, h2⟩

/-- The parameters, as they are printed. -/
def paramsText (qs : List ParamSource) : Text := commaText (qs.map fun q => (paramText q, q))

theorem params_read {qs : List ParamSource} (h : ∀ q ∈ qs, q.printsSafely = true) (rest : Text) :
    Eventually fun n => sepBy commaSep (paramRule n) n (blanks (paramsText qs ++ ')' :: rest)) = .ok qs (')' :: rest) := by
  refine Eventually.mono (Eventually.and (paramItems_read qs h (rest := ')' :: rest) fun c hc => by cases hc; decide)
    (Eventually.large qs.length)) fun n ⟨hi, hl⟩ => ?_
  have hb : blanks (paramsText qs ++ ')' :: rest) = paramsText qs ++ ')' :: rest := by
    cases qs with
    | nil => exact blanks_solid (by decide) (by decide)
    | cons q qs => exact (((param_starts (h q (by simp))).append _).append _).blanks
  rw [hb, paramsText, sepBy_read (lit_ne (by decide)) (paramRule_close n rest) (by simpa using hl) hi, List.map_map]
  rw [show (Prod.snd ∘ fun q : ParamSource => (paramText q, q)) = id from rfl, List.map_id]

/-! ### Functions -/

/-- What is behind the return type. -/
def bodyText (k : Nat) : Option Text → Text
  | some t => " {\n".toList ++ (t ++ (List.replicate k ' ' ++ ['}']))
  | none => [';']

/-- The text of a body is read as the statements. -/
def BodyRead (F : FloatParse) : Option Text → Option (List (Expr SourceAst)) → Prop
  | some t, some xs => SeqRead F t xs
  | none, none => True
  | _, _ => False

theorem body_read {b : Option Text} {x : Option (List (Expr SourceAst))} (h : BodyRead F b x) (k : Nat) (rest : Text) :
    Eventually fun n => ∃ r, Peg.opt (functionBody F n (blanks (bodyText k b ++ '\n' :: rest))) (blanks (bodyText k b ++ '\n' :: rest)) = .ok x r ∧
      semicolonHere r = '\n' :: rest := by
  cases b with
  | none =>
    cases x with
    | some x => exact absurd h id
    | none =>
      refine .above 1 fun n hn => ⟨';' :: '\n' :: rest, ?_, rfl⟩
      have hb : blanks (bodyText k none ++ '\n' :: rest) = ';' :: '\n' :: rest := blanks_solid (by decide) (by decide)
      have hp : parseBlock F n (';' :: '\n' :: rest) = .fail := by
        cases n with
        | zero => omega
        | succ n => rw [parseBlock, lit_ne (by decide)]; rfl
      rw [hb, functionBody, hp, lit_ne (by decide)]
      rfl
  | some t =>
    cases x with
    | none => exact absurd h id
    | some xs =>
      refine Eventually.mono (block_read h k ('\n' :: rest)) fun n hn => ⟨'\n' :: rest, ?_, rfl⟩
      have hb : blanks (bodyText k (some t) ++ '\n' :: rest) = "{\n".toList ++ (t ++ (List.replicate k ' ' ++ '}' :: '\n' :: rest)) := by
        have e : bodyText k (some t) ++ '\n' :: rest = ' ' :: ("{\n".toList ++ (t ++ (List.replicate k ' ' ++ '}' :: '\n' :: rest))) := by
          simp [bodyText, show " {\n".toList = [' ', '{', '\n'] from rfl, show "{\n".toList = ['{', '\n'] from rfl]
        rw [e, blanks_white (by decide)]
        exact blanks_solid (by decide) (by decide)
      rw [hb, functionBody, hn]
      rfl

theorem bodyText_ends (k : Nat) (b : Option Text) (rest : Text) : EndsType (bodyText k b ++ rest) := by
  cases b with
  | none => exact fun c hc => by cases hc; decide
  | some t => exact fun c hc => by cases hc; decide

/-- A function, as it is printed. -/
def functionText (k : Nat) (f : FunctionSource) (ret : TypeName) (b : Option Text) : Text :=
  declText [] k f.declaration.qualifiers "func".toList f.declaration.name ++
    ("(".toList ++ (paramsText f.parameters ++ (") -> ".toList ++ (ret.pretty ++ bodyText k b))))

theorem function_read {f : FunctionSource} {ret : TypeName} {b : Option Text} (k : Nat) (ha : f.declaration.annotations = [])
    (hloc : f.declaration.loc = none) (hn : isIdent f.declaration.name = true) (hp : ∀ q ∈ f.parameters, q.printsSafely = true)
    (ht : f.type_ = some ret) (hv : ret.isValid = true) (hb : BodyRead F b f.body) (rest : Text) :
    Eventually fun n => functionRule F n (blanks (functionText k f ret b ++ '\n' :: rest)) = .ok f ('\n' :: rest) := by
  obtain ⟨⟨anns, qs, name, loc⟩, ty, ps, body⟩ := f
  simp only at ha hloc hn hp ht hb
  subst ha hloc ht
  have h1 := decl_read (F := F) AnnsRead.nil k qs (word := "func".toList) (by decide) hn
    (rest := "(".toList ++ (paramsText ps ++ (") -> ".toList ++ (ret.pretty ++ (bodyText k b ++ '\n' :: rest))))) (endsWord_of (by decide))
  have h2 := params_read hp (" -> ".toList ++ (ret.pretty ++ (bodyText k b ++ '\n' :: rest)))
  have h3 := typeRule_read ret hv (bodyText_ends k b ('\n' :: rest))
  have h4 := body_read hb k rest
  refine Eventually.mono (Eventually.and (Eventually.and h1 h2) (Eventually.and h3 h4)) fun n ⟨⟨h1, h2⟩, h3, r, h4, h5⟩ => ?_
  have e : functionText k ⟨⟨[], qs, name, none⟩, some ret, ps, body⟩ ret b ++ '\n' :: rest =
      declText [] k qs "func".toList name ++ ("(".toList ++ (paramsText ps ++ (") -> ".toList ++ (ret.pretty ++ (bodyText k b ++ '\n' :: rest))))) := by
    simp [functionText]
  have l1 : lit ['('] ("(".toList ++ (paramsText ps ++ (") -> ".toList ++ (ret.pretty ++ (bodyText k b ++ '\n' :: rest))))) =
      .ok () (paramsText ps ++ (')' :: (" -> ".toList ++ (ret.pretty ++ (bodyText k b ++ '\n' :: rest))))) := lit_self ['('] _
  have b1 : ∀ s : Text, blanks ("(".toList ++ s) = "(".toList ++ s := fun s => blanks_solid (by decide) (by decide)
  have b2 : ∀ s : Text, blanks (')' :: s) = ')' :: s := fun s => blanks_solid (by decide) (by decide)
  have l2 : ∀ s : Text, lit [')'] (')' :: s) = .ok () s := fun s => lit_self [')'] s
  have b3 : ∀ s : Text, blanks (" -> ".toList ++ s) = "->".toList ++ ' ' :: s := fun s => by
    show blanks (' ' :: '-' :: _) = _
    rw [blanks_white (by decide), blanks_solid (by decide) (by decide)]
    rfl
  have l3 : ∀ s : Text, lit "->".toList ("->".toList ++ s) = .ok () s := fun s => lit_self "->".toList s
  rw [e, functionRule, h1]
  simp only [Peg.bind, b1, l1, h2, b2, l2, b3, funcType, l3, ((pretty_starts hv).append _).blanks_sp, h3, Peg.opt]
  simp only [Peg.opt] at h4
  rw [h4]
  simp only [h5]

theorem functionRule_other {lines : Text} {anns : List Annotation} (ha : AnnsRead F lines anns) (k : Nat) (qs : List Qualifier)
    {word name : Text} (hw : notQualifier word = true) (rest : Text) (hne : "func".toList ≠ word) :
    Eventually fun n => functionRule F n (blanks (declText lines k qs word name ++ rest)) = .fail := by
  refine Eventually.mono (decl_other (name := name) ha k qs hw rest (by decide) hne) fun n hn => ?_
  rw [functionRule, hn]
  rfl

/-! ### Fields -/

/-- A field, as it is printed: the lines of its annotations first. -/
def fieldText (lines : Text) (k : Nat) (f : FieldSource) : Text :=
  declText lines k f.declaration.qualifiers "let".toList f.declaration.name ++ (": ".toList ++ (f.type_.pretty ++ [';']))

theorem field_read {lines : Text} {f : FieldSource} (ha : AnnsRead F lines f.declaration.annotations) (k : Nat) (hloc : f.declaration.loc = none)
    (hn : isIdent f.declaration.name = true) (hv : f.type_.isValid = true) (hd : f.default = none) (rest : Text) :
    Eventually fun n => fieldRule F n (blanks (fieldText lines k f ++ rest)) = .ok f rest := by
  obtain ⟨⟨anns, qs, name, loc⟩, ty, dflt⟩ := f
  simp only at ha hloc hn hv hd
  subst hloc hd
  have h1 := decl_read ha k qs (word := "let".toList) (by decide) hn (rest := ": ".toList ++ (ty.pretty ++ ';' :: rest)) (endsWord_of (by decide))
  have h2 := letType_self hv (rest := ';' :: rest) fun c hc => by cases hc; decide
  refine Eventually.mono (Eventually.and h1 h2) fun n ⟨h1, h2⟩ => ?_
  have e : fieldText lines k ⟨⟨anns, qs, name, none⟩, ty, none⟩ ++ rest =
      declText lines k qs "let".toList name ++ (": ".toList ++ (ty.pretty ++ ';' :: rest)) := by simp [fieldText]
  have hb : blanks (';' :: rest) = ';' :: rest := blanks_solid (by decide) (by decide)
  have hi : initializer F n (';' :: rest) = .fail := by rw [initializer, lit_ne (by decide)]; rfl
  have hl : lit [';'] (';' :: rest) = .ok () rest := lit_self [';'] _
  rw [e, fieldRule, h1]
  simp only [Peg.bind, h2, hb, hi, Peg.opt, hl]

/-! ### Members -/

/-- No member starts here. -/
def MemberEnds (rest : Text) : Prop := ∃ s, blanks rest = '}' :: s

theorem function_close (n : Nat) (s : Text) : functionRule F n ('}' :: s) = .fail := by
  rw [functionRule, decl_bad n _ (by decide) (by decide) (by intro d t e; cases e; decide) (by decide) (blanks_solid (by decide) (by decide))]
  rfl

theorem member_close (n : Nat) (s : Text) : memberRule F n ('}' :: s) = .fail := by
  rw [memberRule, function_close, fieldRule,
    decl_bad n _ (by decide) (by decide) (by intro d t e; cases e; decide) (by decide) (blanks_solid (by decide) (by decide))]
  rfl

/-- Members, each with a line break behind it. -/
def MembersRead (F : FloatParse) : Text → List MemberSource → Prop := BlankRead (memberRule F) MemberEnds

theorem MembersRead.nil : MembersRead F [] [] :=
  BlankRead.nil fun rest ⟨s, hs⟩ => Eventually.pure fun n => by rw [hs]; exact member_close n s

theorem MembersRead.function {f : FunctionSource} {ret : TypeName} {b : Option Text} (k : Nat) (ha : f.declaration.annotations = [])
    (hloc : f.declaration.loc = none) (hn : isIdent f.declaration.name = true) (hp : ∀ q ∈ f.parameters, q.printsSafely = true)
    (ht : f.type_ = some ret) (hv : ret.isValid = true) (hb : BodyRead F b f.body) {u : Text} {ms : List MemberSource}
    (h : MembersRead F u ms) : MembersRead F (('\n' :: (functionText k f ret b ++ ['\n'])) ++ u) (.Function f :: ms) := by
  refine BlankRead.cons (fun rest _ => ?_) h
  refine Eventually.mono (function_read k ha hloc hn hp ht hv hb (u ++ rest)) fun n hn => ⟨'\n' :: (u ++ rest), ?_, blanks_white (by decide)⟩
  have e : ('\n' :: (functionText k f ret b ++ ['\n'])) ++ (u ++ rest) = '\n' :: (functionText k f ret b ++ '\n' :: (u ++ rest)) := by simp
  rw [e, blanks_white (by decide), memberRule, hn]
  rfl

theorem MembersRead.field {lines : Text} {f : FieldSource} (ha : AnnsRead F lines f.declaration.annotations) (k : Nat)
    (hloc : f.declaration.loc = none) (hn : isIdent f.declaration.name = true) (hv : f.type_.isValid = true) (hd : f.default = none)
    {u : Text} {ms : List MemberSource} (h : MembersRead F u ms) :
    MembersRead F (('\n' :: (fieldText lines k f ++ ['\n'])) ++ u) (.Field f :: ms) := by
  refine BlankRead.cons (fun rest _ => ?_) h
  have h1 := field_read ha k hloc hn hv hd ('\n' :: (u ++ rest))
  have h2 := functionRule_other ha k f.declaration.qualifiers (word := "let".toList) (name := f.declaration.name) (by decide)
    ((": ".toList ++ (f.type_.pretty ++ [';'])) ++ '\n' :: (u ++ rest)) (by decide)
  refine Eventually.mono (Eventually.and h1 h2) fun n ⟨h1, h2⟩ => ⟨'\n' :: (u ++ rest), ?_, blanks_white (by decide)⟩
  have e : ('\n' :: (fieldText lines k f ++ ['\n'])) ++ (u ++ rest) = '\n' :: (fieldText lines k f ++ '\n' :: (u ++ rest)) := by simp
  have e2 : fieldText lines k f ++ '\n' :: (u ++ rest) = declText lines k f.declaration.qualifiers "let".toList f.declaration.name ++
      ((": ".toList ++ (f.type_.pretty ++ [';'])) ++ '\n' :: (u ++ rest)) := by simp [fieldText]
  rw [← e2] at h2
  rw [e, blanks_white (by decide), memberRule, h2, h1]
  rfl

theorem members_read {t : Text} {ms : List MemberSource} (h : MembersRead F t ms) (rest : Text) :
    Eventually fun n => membersRule F n ("{\n".toList ++ (t ++ '}' :: rest)) = .ok ms rest := by
  have hb : blanks ('}' :: rest) = '}' :: rest := blanks_solid (by decide) (by decide)
  refine Eventually.mono (BlankRead.whole h ⟨rest, hb⟩) fun n ⟨r, h1, h2⟩ => ?_
  have hl : lit ['{'] ("{\n".toList ++ (t ++ '}' :: rest)) = .ok () ('\n' :: (t ++ '}' :: rest)) := lit_self ['{'] _
  have hl2 : lit ['}'] ('}' :: rest) = .ok () rest := lit_self ['}'] _
  rw [membersRule, hl]
  simp only [Peg.bind, blanks_white (show isWhite '\n' = true by decide), h1, h2, hb, hl2]

/-! ### Classes -/

/-- The base class in the head of a class. -/
def baseText : Option Text → Text
  | none => []
  | some b => "extends ".toList ++ (b ++ [' '])

theorem baseText_none : baseText none = [] := rfl
theorem baseText_some (b : Text) : baseText (some b) = "extends ".toList ++ (b ++ [' ']) := rfl
theorem extends_space : "extends ".toList = "extends".toList ++ [' '] := rfl

/-- A class or a struct, as it is printed, with the text of its members. -/
def classText (c : ClassSource) (word members : Text) : Text :=
  declText [] 0 c.declaration.qualifiers word c.declaration.name ++ (' ' :: (baseText c.base ++ ("{\n".toList ++ (members ++ ['}']))))

theorem base_read {b : Option Text} (h : ∀ x, b = some x → isIdent x = true) (rest : Text) :
    ∃ r, Peg.opt (extendsRule (blanks (' ' :: (baseText b ++ ("{\n".toList ++ rest))))) (blanks (' ' :: (baseText b ++ ("{\n".toList ++ rest)))) = .ok b r ∧
      blanks r = "{\n".toList ++ rest := by
  have hb : blanks ("{\n".toList ++ rest) = "{\n".toList ++ rest := blanks_solid (by decide) (by decide)
  cases b with
  | none =>
    refine ⟨"{\n".toList ++ rest, ?_, hb⟩
    have hk : kw "extends".toList ("{\n".toList ++ rest) = .fail := by
      show kw ('e' :: _) ('{' :: _) = _
      exact kw_ne (by decide)
    rw [blanks_white (by decide), show baseText none ++ ("{\n".toList ++ rest) = "{\n".toList ++ rest from rfl, hb, extendsRule, hk]
    rfl
  | some x =>
    have hx := h x rfl
    refine ⟨' ' :: ("{\n".toList ++ rest), ?_, by rw [blanks_white (by decide), hb]⟩
    have e : baseText (some x) ++ ("{\n".toList ++ rest) = "extends".toList ++ ' ' :: (x ++ ' ' :: ("{\n".toList ++ rest)) := by
      simp only [baseText_some, extends_space, List.append_assoc, List.cons_append, List.nil_append]
    have hs : blanks ("extends".toList ++ ' ' :: (x ++ ' ' :: ("{\n".toList ++ rest))) = "extends".toList ++ ' ' :: (x ++ ' ' :: ("{\n".toList ++ rest)) :=
      blanks_solid (by decide) (by decide)
    rw [blanks_white (by decide), e, hs, extendsRule, kw_self (endsWord_space _)]
    simp only [Peg.bind, ((isIdent_starts hx).append _).blanks_sp, ident_read hx (endsWord_space _), Peg.opt]

theorem class_read {c : ClassSource} {t : Text} (ha : c.declaration.annotations = []) (hloc : c.declaration.loc = none)
    (hn : isIdent c.declaration.name = true) (hb : ∀ x, c.base = some x → isIdent x = true) (hm : MembersRead F t c.members) (rest : Text) :
    Eventually fun n => classRule F n (blanks (classText c "class".toList t ++ rest)) = .ok c rest := by
  obtain ⟨⟨anns, qs, name, loc⟩, base, ms⟩ := c
  simp only at ha hloc hn hb hm
  subst ha hloc
  have h1 := decl_read (F := F) AnnsRead.nil 0 qs (word := "class".toList) (by decide) hn
    (rest := ' ' :: (baseText base ++ ("{\n".toList ++ (t ++ '}' :: rest)))) (endsWord_space _)
  obtain ⟨r, h2, h3⟩ := base_read hb (t ++ '}' :: rest)
  refine Eventually.mono (Eventually.and h1 (members_read hm rest)) fun n ⟨h1, h4⟩ => ?_
  have e : classText ⟨⟨[], qs, name, none⟩, base, ms⟩ "class".toList t ++ rest =
      declText [] 0 qs "class".toList name ++ (' ' :: (baseText base ++ ("{\n".toList ++ (t ++ '}' :: rest)))) := by
    simp only [classText, List.append_assoc, List.cons_append, List.nil_append]
  rw [e, classRule, h1]
  simp only [Peg.bind, h2, h3, h4]

theorem struct_read {c : ClassSource} {t : Text} (ha : c.declaration.annotations = []) (hloc : c.declaration.loc = none)
    (hn : isIdent c.declaration.name = true) (hb : c.base = none) (hm : MembersRead F t c.members) (rest : Text) :
    Eventually fun n => structRule F n (blanks (classText c "struct".toList t ++ rest)) = .ok c rest := by
  obtain ⟨⟨anns, qs, name, loc⟩, base, ms⟩ := c
  simp only at ha hloc hn hb hm
  subst ha hloc hb
  have h1 := decl_read (F := F) AnnsRead.nil 0 qs (word := "struct".toList) (by decide) hn
    (rest := ' ' :: ("{\n".toList ++ (t ++ '}' :: rest))) (endsWord_space _)
  refine Eventually.mono (Eventually.and h1 (members_read hm rest)) fun n ⟨h1, h4⟩ => ?_
  have e : classText ⟨⟨[], qs, name, none⟩, none, ms⟩ "struct".toList t ++ rest =
      declText [] 0 qs "struct".toList name ++ (' ' :: ("{\n".toList ++ (t ++ '}' :: rest))) := by
    simp only [classText, baseText_none, List.append_assoc, List.cons_append, List.nil_append]
  have hb : blanks (' ' :: ("{\n".toList ++ (t ++ '}' :: rest))) = "{\n".toList ++ (t ++ '}' :: rest) := by
    rw [blanks_white (by decide)]
    exact blanks_solid (by decide) (by decide)
  rw [e, structRule, h1]
  simp only [Peg.bind, hb, h4]

/-! ### Enums -/

/-- A member of an enum in front of a comma. -/
def EnumMemberRead (F : FloatParse) (t : Text) (m : Text × BitVec 64) : Prop :=
  Starts t ∧ ∀ rest, enumMember F (t ++ ',' :: rest) = .ok m (',' :: rest)

theorem enumMember_read {name : Text} (hn : isIdent name = true) (v : BitVec 64) (hv : IntType.i32.fits v.toInt) :
    EnumMemberRead F (name ++ (" = ".toList ++ showInt v.toInt)) (name, v) := by
  refine ⟨(isIdent_starts hn).append _, fun rest => ?_⟩
  obtain ⟨h1, h2⟩ := showInt_eq v.toInt
  obtain ⟨k1, k2, _⟩ := digitsOf_dec v.toInt.natAbs
  have hc := number_literal F .i32 (decide (v.toInt < 0)) k1 k2 (rest := ',' :: rest) fun c hc => by cases hc; decide
  rw [h2, ← h1, if_pos ⟨hv, fun _ => rfl⟩] at hc
  have hs : Starts (showInt v.toInt) := by
    unfold showInt
    split
    · exact ⟨'-', _, rfl, by decide⟩
    · generalize hd : digitsOf 10 v.toInt.natAbs = ds at k1 k2
      cases ds with
      | nil => exact absurd rfl k1
      | cons c s => exact ⟨c, s, rfl, (digit_facts (k2 c (by simp))).1⟩
  have e : name ++ (" = ".toList ++ showInt v.toInt) ++ ',' :: rest = name ++ (' ' :: '=' :: ' ' :: (showInt v.toInt ++ ',' :: rest)) := by
    simp [show " = ".toList = [' ', '=', ' '] from rfl]
  have hb : blanks (' ' :: '=' :: ' ' :: (showInt v.toInt ++ ',' :: rest)) = '=' :: ' ' :: (showInt v.toInt ++ ',' :: rest) := by
    rw [blanks_white (by decide)]
    exact blanks_solid (by decide) (by decide)
  have hl : lit ['='] ('=' :: ' ' :: (showInt v.toInt ++ ',' :: rest)) = .ok () (' ' :: (showInt v.toInt ++ ',' :: rest)) := lit_self ['='] _
  simp only [IntType.suffix, List.nil_append] at hc
  rw [e, enumMember, ident_read hn (endsWord_space _)]
  simp only [Peg.bind, hb, hl, (hs.append _).blanks_sp, hc, IntType.constant]
  have : (BitVec.ofInt 32 v.toInt).signExtend 64 = v := by
    apply BitVec.eq_of_toInt_eq
    simp only [IntType.fits] at hv
    rw [BitVec.toInt_signExtend_of_le (by omega), BitVec.toInt_ofInt, Int.bmod_def]
    omega
  rw [this]

/-- The lines of the members of an enum. -/
def enumLines : List (Text × (Text × BitVec 64)) → Text
  | [] => []
  | p :: ps => ' ' :: ' ' :: (p.1 ++ (",\n".toList ++ enumLines ps))

theorem enumMember_close (s : Text) : enumMember F ('}' :: s) = .fail := rfl

theorem enumLines_blanks {ps : List (Text × (Text × BitVec 64))} (h : ∀ p ∈ ps, EnumMemberRead F p.1 p.2) (rest : Text) :
    (ps = [] ∧ blanks ('\n' :: (enumLines ps ++ '}' :: rest)) = '}' :: rest) ∨
    ∃ p qs, ps = p :: qs ∧ blanks ('\n' :: (enumLines ps ++ '}' :: rest)) = p.1 ++ (',' :: '\n' :: (enumLines qs ++ '}' :: rest)) := by
  cases ps with
  | nil =>
    refine .inl ⟨rfl, ?_⟩
    rw [blanks_white (by decide)]
    exact blanks_solid (by decide) (by decide)
  | cons p qs =>
    refine .inr ⟨p, qs, rfl, ?_⟩
    have e : enumLines (p :: qs) ++ '}' :: rest = ' ' :: ' ' :: (p.1 ++ (',' :: '\n' :: (enumLines qs ++ '}' :: rest))) := by
      simp [enumLines, show ",\n".toList = [',', '\n'] from rfl]
    rw [blanks_white (by decide), e, blanks_white (by decide), blanks_white (by decide), ((h p (by simp)).1.append _).blanks]

/-- The members behind the first: what is left is the last comma. -/
theorem enumMore_read {rest : Text} : ∀ (ps : List (Text × (Text × BitVec 64))) (fuel : Nat), ps.length < fuel →
    (∀ p ∈ ps, EnumMemberRead F p.1 p.2) →
    sepMore commaSep (enumMember F) fuel (',' :: '\n' :: (enumLines ps ++ '}' :: rest)) = .ok (ps.map Prod.snd) (',' :: '\n' :: '}' :: rest)
  | _, 0, h, _ => by omega
  | ps, fuel + 1, hf, h => by
    have hs : commaSep (',' :: '\n' :: (enumLines ps ++ '}' :: rest)) = .ok () (blanks ('\n' :: (enumLines ps ++ '}' :: rest))) := by
      unfold commaSep
      rw [show lit [','] (',' :: '\n' :: (enumLines ps ++ '}' :: rest)) = .ok () ('\n' :: (enumLines ps ++ '}' :: rest)) from lit_self [','] _]
      rfl
    rw [sepMore, hs]
    rcases enumLines_blanks h rest with ⟨rfl, e⟩ | ⟨p, qs, rfl, e⟩
    · rw [e]
      rfl
    · rw [e]
      simp only [Peg.bind, (h p (by simp)).2]
      rw [enumMore_read qs fuel (by simp only [List.length_cons] at hf; omega) fun p hp => h p (by simp [hp])]
      rfl

/-- An enum, as it is printed. -/
def enumText (name : Text) (ps : List (Text × (Text × BitVec 64))) : Text :=
  declText [] 0 [] "enum".toList name ++ (" {\n".toList ++ (enumLines ps ++ ['}']))

theorem enum_read {name : Text} (hn : isIdent name = true) {ps : List (Text × (Text × BitVec 64))} (h : ∀ p ∈ ps, EnumMemberRead F p.1 p.2)
    (rest : Text) : Eventually fun n => enumRule F n (blanks (enumText name ps ++ rest)) = .ok ⟨⟨[], [], name, none⟩, ps.map Prod.snd⟩ rest := by
  have h1 := decl_read (F := F) AnnsRead.nil 0 [] (word := "enum".toList) (by decide) hn
    (rest := ' ' :: '{' :: '\n' :: (enumLines ps ++ '}' :: rest)) (endsWord_space _)
  refine Eventually.mono (Eventually.and h1 (Eventually.large ps.length)) fun n ⟨h1, hl⟩ => ?_
  have e : enumText name ps ++ rest = declText [] 0 [] "enum".toList name ++ (' ' :: '{' :: '\n' :: (enumLines ps ++ '}' :: rest)) := by
    simp [enumText, show " {\n".toList = [' ', '{', '\n'] from rfl]
  have hb : blanks (' ' :: '{' :: '\n' :: (enumLines ps ++ '}' :: rest)) = '{' :: '\n' :: (enumLines ps ++ '}' :: rest) := by
    rw [blanks_white (by decide)]
    exact blanks_solid (by decide) (by decide)
  have l1 : ∀ s : Text, lit ['{'] ('{' :: s) = .ok () s := fun s => lit_self ['{'] s
  have l2 : ∀ s : Text, lit ['}'] ('}' :: s) = .ok () s := fun s => lit_self ['}'] s
  have l3 : ∀ s : Text, lit [','] (',' :: s) = .ok () s := fun s => lit_self [','] s
  have b1 : ∀ s : Text, blanks ('}' :: s) = '}' :: s := fun s => blanks_solid (by decide) (by decide)
  have b2 : ∀ s : Text, blanks (',' :: s) = ',' :: s := fun s => blanks_solid (by decide) (by decide)
  have b3 : ∀ s : Text, blanks ('\n' :: '}' :: s) = '}' :: s := fun s => by rw [blanks_white (by decide), b1]
  rw [e, enumRule, h1]
  simp only [Peg.bind, hb, l1]
  rcases enumLines_blanks h rest with ⟨rfl, e⟩ | ⟨p, qs, rfl, e⟩
  · rw [e, sepBy, enumMember_close]
    simp only [b1, lit_ne (show ',' ≠ '}' by decide), Peg.opt, l2]
    rfl
  · rw [e, sepBy, (h p (by simp)).2]
    simp only []
    rw [enumMore_read qs n (by simp only [List.length_cons] at hl; omega) fun p hp => h p (by simp [hp])]
    simp only [Peg.bind, b2, l3, Peg.opt, b3, l2]
    rfl

end Redscript
