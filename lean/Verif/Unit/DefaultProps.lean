import Verif.Unit.DefaultModel
import Verif.Unit.WrapProps
import Verif.Typecheck.Claim

/-!
# C70: the default values of fields
-/

namespace Redscript

/-! ## Specification -/

/-- The text that stands for a value in the field that has it as its default. -/
inductive DefaultText (P : FloatDisplay) : Expr SourceAst → String → Prop
  | text (k s) : DefaultText P (.Constant (.String k s)) (String.ofList s)
  | float (x) : DefaultText P (.Constant (.F32 x)) (String.ofList (P.f32 x))
  | double (x) : DefaultText P (.Constant (.F64 x)) (String.ofList (P.f64 x))
  | int (v) : DefaultText P (.Constant (.I32 v)) (toString v.toInt)
  | int64 (v) : DefaultText P (.Constant (.I64 v)) (toString v.toInt)
  | uint (v) : DefaultText P (.Constant (.U32 v)) (toString v.toNat)
  | uint64 (v) : DefaultText P (.Constant (.U64 v)) (toString v.toNat)
  | bool (b) : DefaultText P (.Constant (.Bool b)) (toString b)
  | member (r m) : DefaultText P (.Member (.Ident r) m) (String.ofList r ++ "." ++ String.ofList m)
  | null : DefaultText P .Null "null"

/-- A number as written and the same number as one of another type. -/
inductive SameNumber (E : TcEnv) : Constant → Constant → Prop
  | same (c) : SameNumber E c c
  | intFloat (i) : SameNumber E (.I32 i) (.F32 (E.f32OfI32 i))
  | intDouble (i) : SameNumber E (.I32 i) (.F64 (E.f64OfI32 i))
  | intLong {i : BitVec 32} {j : BitVec 64} : j.toInt = i.toInt → SameNumber E (.I32 i) (.I64 j)
  | uintLong {i : BitVec 32} {j : BitVec 64} : j.toNat = i.toNat → SameNumber E (.U32 i) (.U64 j)
  | floatDouble (x) : SameNumber E (.F32 x) (.F64 (E.f64OfF32 x))

/-- What a default means. The last two are no constants: the field of a class, without an object that has it
(`C70_field_counterexample`). -/
inductive DefaultMeans (E : TcEnv) : Expr SourceAst → TypedExpr → Prop
  | constant {c c'} : SameNumber E c c' → DefaultMeans E (.Constant c) (.Constant c')
  | null : DefaultMeans E .Null .Null
  | enumMember {n m e i} : E.symbols.get n = some (.Enum e) → E.enumMember e m = .ok i →
    DefaultMeans E (.Member (.Ident n) m) (.Member (.Ident (Reference.Symbol (.Enum e))) (MemberRef.EnumMember e i))
  | classField {n m c v f} : E.symbols.get n = some (.Class c v) → ClassHasField E.h c f →
    DefaultMeans E (.Member (.Ident n) m) (.Member (.Ident (Reference.Symbol (.Class c v))) (MemberRef.ClassField f))
  | structField {n m c v f} : E.symbols.get n = some (.Struct c v) → ClassHasField E.h c f →
    DefaultMeans E (.Member (.Ident n) m) (.Member (.Ident (Reference.Symbol (.Struct c v))) (MemberRef.StructField f))

/-! ## Texts -/

theorem digitsOf_toDigits (n : Nat) : digitsOf 10 n = Nat.toDigits 10 n := by
  induction n using Nat.strongRecOn with
  | ind n ih =>
    rw [digitsOf, Nat.toDigits_eq_if (by omega)]
    by_cases h : n < 10
    · simp [h]
    · simp only [h, false_or, show ¬(10 : Nat) < 2 by omega, dite_false, if_false]
      rw [ih (n / 10) (by omega)]

theorem digits_toString (n : Nat) : String.ofList (digitsOf 10 n) = toString n := by
  rw [digitsOf_toDigits, Nat.toString_eq_ofList_toDigits]

theorem showInt_toString (v : Int) : String.ofList (showInt v) = toString v := by
  unfold showInt
  cases v with
  | ofNat n =>
    rw [if_neg (by simp)]
    exact digits_toString n
  | negSucc n =>
    rw [if_pos (Int.negSucc_lt_zero n)]
    show String.ofList ('-' :: digitsOf 10 (n + 1)) = "-" ++ Nat.repr (n + 1)
    rw [digitsOf_toDigits, Nat.repr_eq_ofList_toDigits, String.ofList_cons]
    rfl

theorem stringify_text {P : FloatDisplay} {v : Expr SourceAst} {t : Text} (h : stringifyDefault P v = some t) :
    DefaultText P v (String.ofList t) := by
  unfold stringifyDefault at h
  split at h
  · split at h <;> cases h
    · exact .text _ _
    · exact .float _
    · exact .double _
    · rw [showInt_toString]; exact .int _
    · rw [showInt_toString]; exact .int64 _
    · rw [digits_toString]; exact .uint _
    · rw [digits_toString]; exact .uint64 _
    · rename_i b; cases b
      · exact .bool false
      · exact .bool true
  · split at h
    · cases h
      rename_i m _ r
      have : String.ofList (r ++ '.' :: m) = String.ofList r ++ "." ++ String.ofList m := by
        rw [String.ofList_append, String.ofList_cons, String.append_assoc]
        rfl
      rw [this]; exact .member _ _
    · cases h
  · cases h; exact .null
  · cases h


theorem stringify_of_text {P : FloatDisplay} {v : Expr SourceAst} {t : String} (h : DefaultText P v t) :
    ∃ u, stringifyDefault P v = some u := by
  cases h <;> exact ⟨_, rfl⟩

theorem onField_some {g : FieldDef → FieldDef} {v v' : AnyDefinition} (h : AnyDefinition.onField g v = some v') :
    ∃ c, v = .Field c ∧ v' = .Field (g c) := by
  cases v <;> simp [AnyDefinition.onField] at h
  exact ⟨_, rfl, h.symm⟩

theorem modifyValue_rest {p p' : ConstantPool} {g : AnyDefinition → Option AnyDefinition} {i : Idx}
    (h : p.modifyValue g i = some p') : ∃ ds, p' = { p with definitions := ds } := by
  unfold ConstantPool.modifyValue at h
  cases hd : p.definitions[i.toNat]? with
  | none => rw [hd] at h; cases h
  | some d =>
    rw [hd] at h
    simp only [Option.bind_some] at h
    cases hg : g d.value with
    | none => rw [hg] at h; cases h
    | some v =>
      rw [hg] at h
      simp only [Option.map_some, Option.some.injEq] at h
      exact ⟨_, h.symm⟩

/-! ## One default -/

/-- What compiling one default does. -/
theorem compileDefault_ok {P : FloatDisplay} {E : TcEnv} {d : DeclDefault} {p p' : ConstantPool} {ds : List TcDiag}
    (h : compileDefault P E d p = .ok (ds, p')) : ∃ t name value x st,
      E.field d.index = .ok t ∧ p.defName d.cls = some name ∧ DefaultText P d.value value ∧
      p.modifyValue (AnyDefinition.onField fun f => { f with defaults := [⟨String.ofList name, value⟩] }) d.index = some p' ∧
      E.checkDefault d t = .ok (x, st) ∧ ds = st.diags := by
  unfold compileDefault at h
  split at h
  · cases h
  · rename_i t ht
    split at h
    · cases h
    · rename_i name hname
      split at h
      · cases h
      · rename_i value hv
        split at h
        · cases h
        · rename_i p1 hp
          split at h
          · cases h
          · rename_i x st hx
            cases h
            exact ⟨t, name, _, x, st, ht, hname, stringify_text hv, hp, hx, rfl⟩

theorem defName_congr {p p' : ConstantPool} (hn : p'.names = p.names) {i : Idx}
    (h : (p'.definition i).map (·.name) = (p.definition i).map (·.name)) : p'.defName i = p.defName i := by
  unfold ConstantPool.defName
  rw [hn]
  cases h1 : p.definition i <;> cases h2 : p'.definition i <;> rw [h1, h2] at h <;> simp at h <;> simp [h]


/-- A default leaves everything but the defaults of its field alone. -/
theorem compileDefault_frame {P : FloatDisplay} {E : TcEnv} {d : DeclDefault} {p p' : ConstantPool} {ds : List TcDiag}
    (h : compileDefault P E d p = .ok (ds, p')) :
    (∀ i, i ≠ d.index → p'.definition i = p.definition i) ∧ p'.definitions.length = p.definitions.length ∧
    (∃ qs, p' = { p with definitions := qs }) ∧ ∀ i, p'.defName i = p.defName i := by
  obtain ⟨t, name, value, x, st, _, _, _, hp, _, _⟩ := compileDefault_ok h
  obtain ⟨def_, v, h1, _, h3, h4, h5, h6⟩ := modifyValue_spec hp
  refine ⟨h4, h5, modifyValue_rest hp, fun i => defName_congr h6 ?_⟩
  by_cases hi : i = d.index
  · subst hi; rw [h1, h3]; rfl
  · rw [h4 i hi]

/-! ## All defaults -/

/-- C70: when the defaults have been compiled, every field that is declared with one has exactly that one: under the
name of the class that declares it, with the text of the value that is written. The rest of the field is as before, and
so are all other definitions and all texts. -/
theorem C70_defaults_are_recorded (P : FloatDisplay) (E : DeclDefault → TcEnv) (ds : List DeclDefault)
    (p p' : ConstantPool) (diags : List TcDiag) (h : compileDefaults P E ds p = .ok (diags, p'))
    (hd : (ds.map (·.index)).Nodup) :
    (∀ d ∈ ds, ∃ old f name text, p.definition d.index = some old ∧ old.value = .Field f ∧ p.defName d.cls = some name ∧
      DefaultText P d.value text ∧ p'.definition d.index =
        some { old with value := .Field { f with defaults := [⟨String.ofList name, text⟩] } }) ∧
    (∀ i, (∀ d ∈ ds, i ≠ d.index) → p'.definition i = p.definition i) ∧
    p'.definitions.length = p.definitions.length ∧ ∃ qs, p' = { p with definitions := qs } := by
  induction ds generalizing p diags with
  | nil => cases h; exact ⟨fun _ hd => (by cases hd), fun _ _ => rfl, rfl, _, rfl⟩
  | cons d ds ih =>
    rw [compileDefaults] at h
    cases h1 : compileDefault P (E d) d p with
    | error e => rw [h1] at h; cases h
    | ok r =>
      obtain ⟨diags1, p1⟩ := r
      rw [h1] at h
      cases h2 : compileDefaults P E ds p1 with
      | error e => simp only [h2] at h; cases h
      | ok r =>
        obtain ⟨diags2, p2⟩ := r
        simp only [h2] at h
        cases h
        rw [List.map_cons, List.nodup_cons] at hd
        obtain ⟨ha, hb, hc, qs, hq⟩ := ih p1 diags2 h2 hd.2
        obtain ⟨fa, fb, ⟨qs1, fq⟩, fd⟩ := compileDefault_frame h1
        refine ⟨?_, ?_, hc.trans fb, qs, by rw [hq, fq]⟩
        · intro e he
          rcases List.mem_cons.1 he with rfl | he
          · obtain ⟨t, name, value, x, st, _, h4, h5, hp, _, _⟩ := compileDefault_ok h1
            obtain ⟨old, v, k1, k2, k3, _⟩ := modifyValue_spec hp
            obtain ⟨f, k4, rfl⟩ := onField_some k2
            refine ⟨old, f, name, value, k1, k4, h4, h5, ?_⟩
            rw [hb e.index fun d' hd' heq => hd.1 (List.mem_map.2 ⟨d', hd', heq.symm⟩), k3]
          · obtain ⟨old, f, name, text, k1, k2, k3, k4, k5⟩ := ha e he
            have hne : e.index ≠ d.index := fun heq => hd.1 (List.mem_map.2 ⟨e, he, heq⟩)
            exact ⟨old, f, name, text, by rw [← fa _ hne]; exact k1, k2, by rw [← fd]; exact k3, k4, k5⟩
        · intro i hi
          rw [hb i fun d' hd' => hi d' (List.mem_cons_of_mem _ hd'), fa i (hi d List.mem_cons_self)]

/-- C70: a value that is no constant, no member of something named and not null is never recorded: compiling fails. This
includes negative numbers, which are written with an operator. -/
theorem C70_other_values_are_rejected (P : FloatDisplay) (E : DeclDefault → TcEnv) (ds : List DeclDefault)
    (p : ConstantPool) (d : DeclDefault) (hd : d ∈ ds) (hv : ∀ text, ¬DefaultText P d.value text) :
    ∃ e, compileDefaults P E ds p = .error e := by
  induction ds generalizing p with
  | nil => cases hd
  | cons d' ds ih =>
    rw [compileDefaults]
    cases h1 : compileDefault P (E d') d' p with
    | error e => exact ⟨e, rfl⟩
    | ok r =>
      obtain ⟨diags1, p1⟩ := r
      rcases List.mem_cons.1 hd with rfl | hd
      · obtain ⟨_, _, _, _, _, _, _, h5, _⟩ := compileDefault_ok h1
        exact absurd h5 (hv _)
      · obtain ⟨e, he⟩ := ih p1 hd
        exact ⟨e, by simp only [he]⟩

/-! ## Types -/

theorem retype_number (E : TcEnv) (c : Constant) (n : Text) : SameNumber E c (E.retype c n) := by
  unfold TcEnv.retype
  split
  · split
    · exact .intFloat _
    · split
      · exact .intDouble _
      · split
        · exact .intLong (by rw [BitVec.toInt_signExtend_of_le (by omega)])
        · exact .same _
  · split
    · exact .uintLong (by simp; omega)
    · exact .same _
  · split
    · exact .floatDouble _
    · exact .same _
  · exact .same _

theorem fieldNamed_has {E : TcEnv} {n : Text} {c f : Idx} (h : E.fieldNamed n c = .ok f) : ClassHasField E.h c f := by
  unfold TcEnv.fieldNamed at h
  split at h
  · rename_i g hg
    cases h
    exact hasField hg
  · cases h

/-- What the checker makes of a default. -/
theorem checkDefault_means {P : FloatDisplay} {E : TcEnv} {d : DeclDefault} {t : TypeId} {x : TypedExpr} {st : TcState}
    {text : String} (ht : DefaultText P d.value text) (hr : ∀ n, d.scope.references.get n = none)
    (h : E.checkDefault d t = .ok (x, st)) (hn : TcDiag.compileError ∉ st.diags) :
    ∃ y s k, DefaultMeans E d.value y ∧ TypeIs E [] y s ∧ Converts E.h s t k ∧ x = insertConversion y t k ∧
      st.locals = [] := by
  unfold TcEnv.checkDefault TcEnv.checkAs at h
  obtain ⟨y, st1, h1, h2⟩ := Tc.bind_ok.1 h
  obtain ⟨rfl, s, k, h3, h4, h5⟩ := convertTo_ok h2 hn
  suffices H : DefaultMeans E d.value y ∧ st1.locals = [] by
    rw [H.2] at h3
    exact ⟨y, s, k, H.1, typeTree_sound h3, h4, h5, H.2⟩
  generalize hv : d.value = v at *
  have hc : ∀ c, v = .Constant c → DefaultMeans E v y ∧ st1.locals = [] := by
    rintro c rfl
    simp only [TcEnv.check] at h1
    obtain ⟨n, st2, h6, h7⟩ := Tc.bind_ok.1 h1
    obtain ⟨_, rfl⟩ := E.ask_ok.1 h6
    obtain ⟨rfl, rfl⟩ := Tc.pure_ok.1 h7
    exact ⟨.constant (retype_number E c n), rfl⟩
  cases ht with
  | member r m =>
    simp only [TcEnv.check] at h1
    obtain ⟨z, st2, h6, h7⟩ := Tc.bind_ok.1 h1
    obtain ⟨u, st3, h8, h9⟩ := Tc.bind_ok.1 h7
    obtain ⟨h8, rfl⟩ := E.typeOf_ok.1 h8
    obtain ⟨w, st4, h10, h11⟩ := Tc.bind_ok.1 h9
    obtain ⟨h10, rfl⟩ := E.ask_ok.1 h10
    obtain ⟨rfl, rfl⟩ := Tc.pure_ok.1 h11
    unfold TcEnv.checkIdent TcEnv.reference at h6
    rw [hr r] at h6
    simp only at h6
    cases hs : E.symbols.get r with
    | none =>
      rw [hs] at h6
      simp only [Option.map_none] at h6
      split at h6
      · obtain ⟨_, st5, h12, h13⟩ := Tc.bind_ok.1 h6
        cases h12
        obtain ⟨rfl, rfl⟩ := Tc.pure_ok.1 h13
        exact absurd (by simp) hn
      · cases h6
    | some sym =>
      rw [hs] at h6
      cases h6
      refine ⟨?_, rfl⟩
      cases sym with
      | Class c v =>
        cases h8
        unfold TcEnv.memberOf at h10
        simp only [TypeId.unwrapped] at h10
        split at h10
        · rename_i f hf; cases h10; exact .classField hs (fieldNamed_has hf)
        · cases h10
      | Struct c v =>
        cases h8
        unfold TcEnv.memberOf at h10
        simp only [TypeId.unwrapped] at h10
        split at h10
        · rename_i f hf; cases h10; exact .structField hs (fieldNamed_has hf)
        · cases h10
      | Enum e =>
        cases h8
        unfold TcEnv.memberOf at h10
        simp only [TypeId.unwrapped] at h10
        split at h10
        · rename_i f hf; cases h10; exact .enumMember hs hf
        · cases h10
      | Functions fs => cases h8
  | null =>
    simp only [TcEnv.check] at h1
    obtain ⟨rfl, rfl⟩ := Tc.pure_ok.1 h1
    exact ⟨.null, rfl⟩
  | _ => exact hc _ rfl


/-- The defaults one by one. -/
theorem compileDefaults_each {P : FloatDisplay} {E : DeclDefault → TcEnv} {ds : List DeclDefault} {p p' : ConstantPool}
    {diags : List TcDiag} (h : compileDefaults P E ds p = .ok (diags, p')) {d : DeclDefault} (hd : d ∈ ds) :
    ∃ q q' part, compileDefault P (E d) d q = .ok (part, q') ∧ ∀ x ∈ part, x ∈ diags := by
  induction ds generalizing p diags with
  | nil => cases hd
  | cons e ds ih =>
    rw [compileDefaults] at h
    cases h1 : compileDefault P (E e) e p with
    | error e => rw [h1] at h; cases h
    | ok r =>
      obtain ⟨diags1, p1⟩ := r
      rw [h1] at h
      cases h2 : compileDefaults P E ds p1 with
      | error e => simp only [h2] at h; cases h
      | ok r =>
        obtain ⟨diags2, p2⟩ := r
        simp only [h2] at h
        cases h
        rcases List.mem_cons.1 hd with rfl | hd
        · exact ⟨p, p1, diags1, h1, fun x hx => List.mem_append_left _ hx⟩
        · obtain ⟨q, q', part, k1, k2⟩ := ih h2 hd
          exact ⟨q, q', part, k1, fun x hx => List.mem_append_right _ (k2 x hx)⟩

/-- C70: without errors reported, every default means a value whose type converts to the type of its field: a
constant, possibly taken as a number of another type, null or a member of an enum. Nothing is declared on the way.

Not proved, because false: that it is a constant. A field of a class is accepted as well
(`C70_field_counterexample`). -/
theorem C70_defaults_fit_partial (P : FloatDisplay) (E : DeclDefault → TcEnv) (ds : List DeclDefault)
    (p p' : ConstantPool) (diags : List TcDiag) (h : compileDefaults P E ds p = .ok (diags, p'))
    (hn : TcDiag.compileError ∉ diags) (d : DeclDefault) (hd : d ∈ ds) (hr : ∀ n, d.scope.references.get n = none) :
    ∃ t y s k, (E d).field d.index = .ok t ∧ DefaultMeans (E d) d.value y ∧ TypeIs (E d) [] y s ∧
      Converts (E d).h s t k := by
  obtain ⟨q, q', part, h1, h2⟩ := compileDefaults_each h hd
  obtain ⟨t, name, value, x, st, h3, _, h5, _, h7, rfl⟩ := compileDefault_ok h1
  obtain ⟨y, s, k, k1, k2, k3, _⟩ := checkDefault_means h5 hr h7 fun hm => hn (h2 _ hm)
  exact ⟨t, y, s, k, h3, k1, k2, k3⟩

/-! ## What a text stands for -/

/-- Numbers that are neither infinite nor undefined. -/
def Finite32 (x : BitVec 32) : Prop := x.extractLsb' 23 8 ≠ 255
/-- Numbers that are neither infinite nor undefined. -/
def Finite64 (x : BitVec 64) : Prop := x.extractLsb' 52 11 ≠ 2047

/-- Reading the texts of numbers as floats: a float is found again, and an integer is rounded as the checker does. -/
structure FloatsRead (P : FloatDisplay) (E : TcEnv) (r32 : String → BitVec 32) (r64 : String → BitVec 64) : Prop where
  f32 : ∀ x, Finite32 x → r32 (String.ofList (P.f32 x)) = x
  f64 : ∀ x, Finite64 x → r64 (String.ofList (P.f64 x)) = x
  int32 : ∀ i : BitVec 32, r32 (toString i.toInt) = E.f32OfI32 i
  int64 : ∀ i : BitVec 32, r64 (toString i.toInt) = E.f64OfI32 i

/-- The types of constants are different primitive types. -/
structure ConstantTypesApart (E : TcEnv) : Prop where
  prim : ∀ c n t, ConstantOf c n → E.typeNamed (.basic n) = .ok t → ∃ i, t = .Prim i
  apart : ∀ c d n m t, ConstantOf c n → ConstantOf d m → E.typeNamed (.basic n) = .ok t →
    E.typeNamed (.basic m) = .ok t → n = m

/-- A constant, null or an enum member as the parser gives it. -/
inductive PlainDefault (E : TcEnv) : Expr SourceAst → Prop
  | constant {c} : (∀ x, c = .F32 x → Finite32 x) → (∀ x, c = .F64 x → Finite64 x) → PlainDefault E (.Constant c)
  | null : PlainDefault E .Null
  | enumMember {n m e} : E.symbols.get n = some (.Enum e) → '.' ∉ n → PlainDefault E (.Member (.Ident n) m)

theorem ofList_inj {a b : Text} (h : String.ofList a = String.ofList b) : a = b := by
  have := congrArg String.toList h
  simpa using this

theorem showInt_inj {v w : Int} (h : toString v = toString w) : v = w := by
  rw [← showInt_toString, ← showInt_toString] at h
  have h := ofList_inj h
  have hm : ∀ n : Nat, ('-' : Char) ∉ digitsOf 10 n := fun n hc => absurd ((digitsOf_dec n).2.1 _ hc) (by decide)
  unfold showInt at h
  split at h <;> split at h
  · have := digitsOf_inj (List.cons.inj h).2; omega
  · exact absurd (h ▸ List.mem_cons_self) (hm w.natAbs)
  · exact absurd (h ▸ List.mem_cons_self) (hm v.natAbs)
  · have := digitsOf_inj h; omega

theorem natText_inj {v w : Nat} (h : toString v = toString w) : v = w := by
  rw [← digits_toString, ← digits_toString] at h
  exact digitsOf_inj (ofList_inj h)

/-- What a primitive type converts to, other than a variant. -/
theorem prim_converts {h : Hierarchy} {i : Idx} {t : TypeId} {k : Conversion} (hc : Converts h (.Prim i) t k)
    (hv : t ≠ .Variant) : t = .Prim i ∨ t = .ScriptRef (.Prim i) := by
  cases hc with
  | identity w => cases w; exact .inl rfl
  | toScriptRef w => cases w; exact .inr rfl
  | toVariant _ => exact absurd rfl hv


theorem null_converts {h : Hierarchy} {t : TypeId} {k : Conversion} (hc : Converts h .Null t k) (hv : t ≠ .Variant) :
    t ≠ .Enum i ∧ t ≠ .ScriptRef (.Enum i) ∧ t ≠ .Prim i ∧ t ≠ .ScriptRef (.Prim i) := by
  cases hc with
  | identity w => cases w <;> simp
  | nullWeak => simp
  | toScriptRef w => cases w <;> simp
  | toVariant _ => exact absurd rfl hv

theorem enum_converts {h : Hierarchy} {i : Idx} {t : TypeId} {k : Conversion} (hc : Converts h (.Enum i) t k)
    (hv : t ≠ .Variant) : t = .Enum i ∨ t = .ScriptRef (.Enum i) := by
  cases hc with
  | identity w => cases w; exact .inl rfl
  | toScriptRef w => cases w; exact .inr rfl
  | toVariant _ => exact absurd rfl hv

/-- The type of a constant after checking. -/
theorem constant_typed {E : TcEnv} {c : Constant} {s : TypeId} (h : TypeIs E [] (.Constant c) s) :
    ∃ n, ConstantOf c n ∧ E.typeNamed (.basic n) = .ok s := by
  cases h with
  | constant h1 h2 => exact ⟨_, h1, h2⟩
  | valueless h => cases h

theorem boolText_inj {a b : Bool} (h : toString a = toString b) : a = b := by
  cases a <;> cases b <;> first | rfl | (revert h; decide)

/-- What the text says about a constant. -/
def Says (r32 : String → BitVec 32) (r64 : String → BitVec 64) (text : String) : Constant → Prop
  | .String _ s => text = String.ofList s
  | .F32 x => r32 text = x
  | .F64 x => r64 text = x
  | .I32 v => text = toString v.toInt
  | .I64 v => text = toString v.toInt
  | .U32 v => text = toString v.toNat
  | .U64 v => text = toString v.toNat
  | .Bool b => text = toString b

theorem says_of {P : FloatDisplay} {E : TcEnv} {r32 : String → BitVec 32} {r64 : String → BitVec 64}
    (hf : FloatsRead P E r32 r64) {a a' : Constant} {text : String} (ha : DefaultText P (.Constant a) text)
    (pa : PlainDefault E (.Constant a)) (da : ∀ x y, a = .F32 x → a' ≠ .F64 y) (sa : SameNumber E a a') :
    Says r32 r64 text a' := by
  cases pa with
  | constant fa ga =>
    cases ha with
    | text k s => cases sa; rfl
    | float x =>
      cases sa with
      | same => exact hf.f32 x (fa x rfl)
      | floatDouble => exact absurd rfl (da x _ rfl)
    | double x => cases sa; exact hf.f64 x (ga x rfl)
    | int v =>
      cases sa with
      | same => rfl
      | intFloat => exact hf.int32 v
      | intDouble => exact hf.int64 v
      | intLong h => show toString v.toInt = toString _; rw [h]
    | int64 v => cases sa; rfl
    | uint v =>
      cases sa with
      | same => rfl
      | uintLong h => show toString v.toNat = toString _; rw [h]
    | uint64 v => cases sa; rfl
    | bool b => cases sa; rfl

/-- Constants of the same type with the same text are the same. -/
theorem says_inj {r32 : String → BitVec 32} {r64 : String → BitVec 64} {a b : Constant} {n text : String}
    (sa : Says r32 r64 text a) (sb : Says r32 r64 text b) (ta : ConstantOf a n) (tb : ConstantOf b n) : a = b := by
  generalize hn : n = m at tb
  cases ta <;> cases tb <;> first
    | exact absurd hn (by decide)
    | exact congrArg _ (sa.symm.trans sb)
    | exact congrArg _ (BitVec.eq_of_toInt_eq (showInt_inj (sa.symm.trans sb)))
    | exact congrArg _ (BitVec.eq_of_toNat_eq (natText_inj (sa.symm.trans sb)))
    | exact congrArg _ (boolText_inj (sa.symm.trans sb))
    | exact congrArg _ (ofList_inj (sa.symm.trans sb))

theorem splitDot {a b c d : Text} (ha : '.' ∉ a) (hc : '.' ∉ c) (h : a ++ '.' :: b = c ++ '.' :: d) : a = c ∧ b = d := by
  induction a generalizing c with
  | nil =>
    cases c with
    | nil => cases h; exact ⟨rfl, rfl⟩
    | cons x c =>
      injection h with h1 h2
      exact absurd (h1 ▸ List.mem_cons_self) hc
  | cons y a ih =>
    cases c with
    | nil =>
      injection h with h1 h2
      exact absurd (h1 ▸ List.mem_cons_self) ha
    | cons x c =>
      injection h with h1 h2
      obtain ⟨rfl, rfl⟩ := ih (fun hm => ha (List.mem_cons_of_mem _ hm)) (fun hm => hc (List.mem_cons_of_mem _ hm)) h2
      exact ⟨by rw [h1], rfl⟩

/-- The three kinds of defaults. -/
theorem plain_cases {E : TcEnv} {v : Expr SourceAst} {y : TypedExpr} {s : TypeId} (hp : PlainDefault E v)
    (hm : DefaultMeans E v y) (ht : TypeIs E [] y s) :
    (∃ c c' n, v = .Constant c ∧ y = .Constant c' ∧ SameNumber E c c' ∧ ConstantOf c' n ∧ E.typeNamed (.basic n) = .ok s) ∨
    (v = .Null ∧ y = .Null ∧ s = .Null) ∨
    ∃ n m e i, v = .Member (.Ident n) m ∧ '.' ∉ n ∧ E.symbols.get n = some (.Enum e) ∧ E.enumMember e m = .ok i ∧
      y = .Member (.Ident (Reference.Symbol (.Enum e))) (MemberRef.EnumMember e i) ∧ s = .Enum e := by
  cases hp with
  | constant =>
    cases hm with
    | constant h =>
      obtain ⟨n, h1, h2⟩ := constant_typed ht
      exact .inl ⟨_, _, n, rfl, rfl, h, h1, h2⟩
  | null =>
    cases hm
    cases ht with
    | null => exact .inr (.inl ⟨rfl, rfl, rfl⟩)
    | valueless h => cases h
  | enumMember hs hd =>
    cases hm with
    | enumMember h1 h2 =>
      cases hs.symm.trans h1
      cases ht with
      | enumMember => exact .inr (.inr ⟨_, _, _, _, rfl, hd, hs, h2, rfl, rfl⟩)
      | valueless h => cases h
    | classField h1 _ => cases hs.symm.trans h1
    | structField h1 _ => cases hs.symm.trans h1

/-- C70: the text that is recorded tells the value. Two defaults that are accepted for the same type and recorded with the
same text have the same value, converted alike.

Not proved, because false: a variant can hold a text and a number that are written alike
(`C70_variant_counterexample`), and a number of type `Float` that is given to a `Double` is recorded with the text of
another `Double` (`C70_double_counterexample`). The fields of classes, which are accepted by mistake, are left out. -/
theorem C70_text_tells_the_value_partial (P : FloatDisplay) (E : TcEnv) (r32 : String → BitVec 32)
    (r64 : String → BitVec 64) (hf : FloatsRead P E r32 r64) (hE : ConstantTypesApart E) (a b : DeclDefault)
    (hs : a.scope = b.scope) (hr : ∀ n, a.scope.references.get n = none) (t : TypeId) (ht : t ≠ .Variant)
    (pa : PlainDefault E a.value) (pb : PlainDefault E b.value) (text : String) (ta : DefaultText P a.value text)
    (tb : DefaultText P b.value text) (x y : TypedExpr) (st st' : TcState) (ca : E.checkDefault a t = .ok (x, st))
    (cb : E.checkDefault b t = .ok (y, st')) (na : TcDiag.compileError ∉ st.diags) (nb : TcDiag.compileError ∉ st'.diags)
    (da : ∀ f u, a.value = .Constant (.F32 f) → E.typeNamed (.basic "Double") = .ok u → t ≠ u ∧ t ≠ .ScriptRef u)
    (db : ∀ f u, b.value = .Constant (.F32 f) → E.typeNamed (.basic "Double") = .ok u → t ≠ u ∧ t ≠ .ScriptRef u) : x = y := by
  obtain ⟨x', s, k, a1, a2, a3, rfl, _⟩ := checkDefault_means ta hr ca na
  obtain ⟨y', s', k', b1, b2, b3, rfl, _⟩ := checkDefault_means tb (hs ▸ hr) cb nb
  suffices H : x' = y' ∧ s = s' by
    obtain ⟨rfl, rfl⟩ := H
    rw [C21_deterministic _ _ _ _ _ a3 b3]
  generalize a.value = va at *
  generalize b.value = vb at *
  have nofloat : ∀ {c c' n u}, ConstantOf c' n → E.typeNamed (.basic n) = .ok u → (t = u ∨ t = .ScriptRef u) →
      (∀ f u, Expr.Constant (N := SourceAst) c = .Constant (.F32 f) → E.typeNamed (.basic "Double") = .ok u → t ≠ u ∧ t ≠ .ScriptRef u) →
      ∀ f g, c = .F32 f → c' ≠ .F64 g := by
    rintro c c' n u h1 h2 h3 h4 f g rfl rfl
    cases h1
    have := h4 f u rfl h2
    rcases h3 with h3 | h3
    · exact this.1 h3
    · exact this.2 h3
  rcases plain_cases pa a1 a2 with ⟨c, c', n, rfl, rfl, a4, a5, a6⟩ | ⟨rfl, rfl, rfl⟩ | ⟨n, m, e, i, rfl, a4, a5, a6, rfl, rfl⟩
  · obtain ⟨i, rfl⟩ := hE.prim _ _ _ a5 a6
    have ha := prim_converts a3 ht
    rcases plain_cases pb b1 b2 with ⟨d, d', m, rfl, rfl, b4, b5, b6⟩ | ⟨rfl, rfl, rfl⟩ | ⟨m, k, e, j, rfl, b4, b5, b6, rfl, rfl⟩
    · obtain ⟨j, rfl⟩ := hE.prim _ _ _ b5 b6
      have hb := prim_converts b3 ht
      have : i = j := by rcases ha with rfl | rfl <;> rcases hb with h | h <;> cases h <;> rfl
      subst this
      cases hE.apart _ _ _ _ _ a5 b5 a6 b6
      have k1 := says_of hf ta pa (nofloat a5 a6 ha da) a4
      have k2 := says_of hf tb pb (nofloat b5 b6 hb db) b4
      rw [says_inj k1 k2 a5 b5]
      exact ⟨rfl, rfl⟩
    · have := null_converts (i := i) b3 ht
      rcases ha with h | h
      · exact absurd h this.2.2.1
      · exact absurd h this.2.2.2
    · have hb := enum_converts b3 ht
      rcases ha with rfl | rfl <;> rcases hb with h | h <;> cases h
  · rcases plain_cases pb b1 b2 with ⟨d, d', m, rfl, rfl, b4, b5, b6⟩ | ⟨rfl, rfl, rfl⟩ | ⟨m, k, e, j, rfl, b4, b5, b6, rfl, rfl⟩
    · obtain ⟨i, rfl⟩ := hE.prim _ _ _ b5 b6
      have := null_converts (i := i) a3 ht
      rcases prim_converts b3 ht with h | h
      · exact absurd h this.2.2.1
      · exact absurd h this.2.2.2
    · exact ⟨rfl, rfl⟩
    · have := null_converts (i := e) a3 ht
      rcases enum_converts b3 ht with h | h
      · exact absurd h this.1
      · exact absurd h this.2.1
  · have ha := enum_converts a3 ht
    rcases plain_cases pb b1 b2 with ⟨d, d', m, rfl, rfl, b4, b5, b6⟩ | ⟨rfl, rfl, rfl⟩ | ⟨m', k, e', j, rfl, b4, b5, b6, rfl, rfl⟩
    · obtain ⟨i, rfl⟩ := hE.prim _ _ _ b5 b6
      have hb := prim_converts b3 ht
      rcases ha with rfl | rfl <;> rcases hb with h | h <;> cases h
    · have := null_converts (i := e) b3 ht
      rcases ha with h | h
      · exact absurd h this.1
      · exact absurd h this.2.1
    · have h1 : String.ofList n ++ "." ++ String.ofList m = String.ofList m' ++ "." ++ String.ofList k := by
        generalize hv : Expr.Member (N := SourceAst) (.Ident n) m = v at ta
        generalize hw : Expr.Member (N := SourceAst) (.Ident m') k = w at tb
        cases ta with
        | member r q =>
          cases hv
          generalize ht : String.ofList n ++ "." ++ String.ofList m = u at tb
          cases tb with
          | member r q => cases hw; rfl
          | _ => cases hw
        | _ => cases hv
      have h2 := congrArg String.toList h1
      simp only [String.toList_append, String.toList_ofList, show ".".toList = ['.'] from rfl, List.append_assoc,
        List.cons_append, List.nil_append] at h2
      obtain ⟨rfl, rfl⟩ := splitDot a4 b4 h2
      cases a5.symm.trans b5
      cases a6.symm.trans b6
      exact ⟨rfl, rfl⟩

end Redscript
