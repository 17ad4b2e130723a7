import Verif.Unit.DefaultProps
import Verif.Unit.DeclDemo
import Verif.Parser.EndsProps

/-!
# C70: examples and counterexamples
-/

namespace Redscript
namespace DefaultDemo

abbrev float : TypeId := .Prim 4
abbrev double : TypeId := .Prim 5

def typeNamed : TypeName → Except AsmErr TypeId
  | .mk n [] =>
    match String.ofList n with
    | "Float" => .ok float
    | "Double" => .ok double
    | _ => TcToy.plainType n
  | t => TcToy.typeNamed t

/-- Fields of several types (3 to 8), an enum `Mode` (60) with a member `On` and a class `Base` (1) with a field
`count`. -/
def env : TcEnv := { TcToy.tc with
  symbols := (AMap.empty.insert "Mode".toList (.Enum 60)).insert "Base".toList (.Class 1 .pub)
  typeNamed
  enumMember := fun e m => if e = 60 ∧ m = "On".toList then .ok 61 else .error .lookup
  field := fun i =>
    if i = 4 then .ok TcToy.string else if i = 5 then .ok (.Enum 60) else if i = 6 then .ok (.Ref (.Class 1))
    else if i = 7 then .ok .Variant else if i = 8 then .ok double else .ok TcToy.int
  pretty := fun t => .ok (if t = double then "Double".toList else if t = float then "Float".toList else [])
  f64OfF32 := fun f => if f = 0x3dcccccd then 0x3fb99999a0000000 else f.zeroExtend 64 }

def scope : Scope := ⟨.empty, .empty, .empty, none, none⟩

def field (n : Nat) (value : Expr SourceAst) : DeclDefault := ⟨1, BitVec.ofNat 32 n, value, scope⟩

def int (v : BitVec 32) : Expr SourceAst := .Constant (.I32 v)
def text (s : String) : Expr SourceAst := .Constant (.String .String s.toList)
def mode : Expr SourceAst := .Member (.Ident "Mode".toList) "On".toList

def defaults : List DeclDefault := [field 3 (int 5), field 4 (text "5"), field 5 mode, field 6 .Null, field 7 (.Constant (.Bool true)), field 8 (int 7)]

/-- A class and its fields. -/
def pool : ConstantPool :=
  { DeclDemo.pool with
    definitions := [.default, .mk' 1 0 (DeclDemo.cls 0 [] [3, 4, 5, 6, 7, 8]), .default] ++
      [3, 4, 5, 6, 7, 8].map fun _ => .mk' 5 1 (.Field ⟨.pub, 6, 0, none, [], []⟩) }

/-- Floats printed as the integers with the same bits. -/
def display : FloatDisplay := ⟨fun x => showInt x.toInt, fun x => showInt x.toInt⟩

/-- The defaults of a field of the pool afterwards. -/
def found (r : Except TcErr (List TcDiag × ConstantPool)) (i : Idx) : List (String × String) :=
  match r with
  | .ok (_, p) =>
    match p.definition i with
    | some ⟨_, _, _, _, _, .Field f⟩ => f.defaults.map fun d => (d.name, d.value)
    | _ => []
  | .error _ => []

def fine : Except TcErr (List TcDiag × ConstantPool) → Bool
  | .ok (ds, _) => ds.isEmpty
  | .error _ => false

theorem fine_iff {r : Except TcErr (List TcDiag × ConstantPool)} (h : fine r = true) : ∃ p, r = .ok ([], p) := by
  unfold fine at h
  split at h
  · rename_i ds p; simp at h; subst h; exact ⟨p, rfl⟩
  · cases h

theorem all_fine : fine (compileDefaults display (fun _ => env) defaults pool) = true := by decide +kernel

example : [3, 4, 5, 6, 7, 8].map (found (compileDefaults display (fun _ => env) defaults pool)) =
    [[("Base", "5")], [("Base", "5")], [("Base", "Mode.On")], [("Base", "null")], [("Base", "true")], [("Base", "7")]] := by
  decide +kernel

end DefaultDemo

example : ∃ p, compileDefaults DefaultDemo.display (fun _ => DefaultDemo.env) DefaultDemo.defaults DefaultDemo.pool = .ok ([], p) ∧
    p.definition 5 = some (.mk' 5 1 (.Field ⟨.pub, 6, 0, none, [], [⟨"Base", "Mode.On"⟩]⟩)) ∧
    p.definition 1 = DefaultDemo.pool.definition 1 ∧
    ∀ d ∈ DefaultDemo.defaults, ∃ t y s k, DefaultDemo.env.field d.index = .ok t ∧ DefaultMeans DefaultDemo.env d.value y ∧
      TypeIs DefaultDemo.env [] y s ∧ Converts DefaultDemo.env.h s t k := by
  obtain ⟨p, hp⟩ := DefaultDemo.fine_iff DefaultDemo.all_fine
  obtain ⟨h1, h2, _⟩ := C70_defaults_are_recorded _ _ _ _ _ _ hp (by decide +kernel)
  refine ⟨p, hp, ?_, h2 1 (by decide +kernel), fun d hd => C70_defaults_fit_partial _ _ _ _ _ _ hp (by simp) d hd ?_⟩
  · obtain ⟨old, f, name, text, k1, k2, k3, k4, k5⟩ := h1 (DefaultDemo.field 5 DefaultDemo.mode) (by simp [DefaultDemo.defaults])
    cases k1
    cases k2
    cases k3
    cases k4
    exact k5
  · intro n
    simp [DefaultDemo.defaults] at hd
    rcases hd with rfl | rfl | rfl | rfl | rfl | rfl <;> rfl


/-! ## What is not so -/

namespace DefaultDemo

def takes (d : DeclDefault) (t : TypeId) (p : TypedExpr → Bool) : Bool :=
  match env.checkDefault d t with
  | .ok (x, st) => p x && st.diags.isEmpty
  | .error _ => false

theorem takes_iff {d : DeclDefault} {t : TypeId} {p : TypedExpr → Bool} (h : takes d t p = true) :
    ∃ x st, env.checkDefault d t = .ok (x, st) ∧ p x = true ∧ st.diags = [] := by
  unfold takes at h
  split at h
  · rename_i x st hx
    rw [Bool.and_eq_true] at h
    exact ⟨x, st, hx, h.1, by simpa using h.2⟩
  · cases h

/-- A field of the class `Base`, without an object. -/
def isCount : TypedExpr → Bool
  | .Member (.Ident (.Symbol (.Class c _))) (.ClassField f) => c = 1 && f = 20
  | _ => false

theorem isCount_iff {x : TypedExpr} (h : isCount x = true) :
    ∃ v, x = .Member (.Ident (Reference.Symbol (.Class 1 v))) (MemberRef.ClassField 20) := by
  unfold isCount at h
  split at h
  · rename_i c v f
    simp only [Bool.and_eq_true, decide_eq_true_eq] at h
    obtain ⟨rfl, rfl⟩ := h
    exact ⟨v, rfl⟩
  · cases h

def isVariantOf (c : Constant) : TypedExpr → Bool
  | .Call (.Intrinsic .ToVariant _) _ [.Constant d] => d = c
  | _ => false

def isDouble (b : BitVec 64) : TypedExpr → Bool
  | .Constant (.F64 x) => x = b
  | _ => false

end DefaultDemo

/-- C70 in full fails: `let n: Int32 = Base.count;` is accepted as a default, though the count of no object is meant, and
recorded as the text `Base.count`. -/
theorem C70_field_counterexample : ∃ value p f,
    compileDefaults DefaultDemo.display (fun _ => DefaultDemo.env) [DefaultDemo.field 3 value] DefaultDemo.pool = .ok ([], p) ∧
    p.definition 3 = some (.mk' 5 1 (.Field f)) ∧ f.defaults = [⟨"Base", "Base.count"⟩] ∧ ∃ x v,
    DefaultMeans DefaultDemo.env value x ∧ x = .Member (.Ident (Reference.Symbol (.Class 1 v))) (MemberRef.ClassField 20) := by
  have h1 : DefaultDemo.fine (compileDefaults DefaultDemo.display (fun _ => DefaultDemo.env)
    [DefaultDemo.field 3 (.Member (.Ident "Base".toList) "count".toList)] DefaultDemo.pool) = true := by decide +kernel
  obtain ⟨p, hp⟩ := DefaultDemo.fine_iff h1
  obtain ⟨h2, _⟩ := C70_defaults_are_recorded _ _ _ _ _ _ hp (by decide +kernel)
  obtain ⟨old, f, name, text, k1, k2, k3, k4, k5⟩ := h2 _ List.mem_cons_self
  cases k1
  cases k2
  cases k3
  cases k4
  refine ⟨_, p, _, hp, k5, rfl, ?_⟩
  have h3 : DefaultDemo.takes (DefaultDemo.field 3 (.Member (.Ident "Base".toList) "count".toList)) TcToy.int
    DefaultDemo.isCount = true := by decide +kernel
  obtain ⟨x, st, h4, h5, h6⟩ := DefaultDemo.takes_iff h3
  obtain ⟨v, rfl⟩ := DefaultDemo.isCount_iff h5
  obtain ⟨y, s, k, m1, m2, m3, m4, _⟩ := checkDefault_means (P := DefaultDemo.display) (.member _ _) (fun _ => rfl) h4
    (by rw [h6]; simp)
  cases k with
  | Identity => exact ⟨_, v, m4 ▸ m1, rfl⟩
  | _ => cases m4

/-- C70 in full fails: a variant gets the text 5 as its default or the number 5, and both are recorded with the same
text. -/
theorem C70_variant_counterexample : ∃ a b x y st st',
    DefaultText DefaultDemo.display a "5" ∧ DefaultText DefaultDemo.display b "5" ∧
    DefaultDemo.env.checkDefault (DefaultDemo.field 7 a) .Variant = .ok (x, st) ∧ st.diags = [] ∧
    DefaultDemo.env.checkDefault (DefaultDemo.field 7 b) .Variant = .ok (y, st') ∧ st'.diags = [] ∧ x ≠ y := by
  have h1 : DefaultDemo.takes (DefaultDemo.field 7 (DefaultDemo.text "5")) .Variant
    (DefaultDemo.isVariantOf (.String .String ['5'])) = true := by decide +kernel
  have h2 : DefaultDemo.takes (DefaultDemo.field 7 (DefaultDemo.int 5)) .Variant
    (DefaultDemo.isVariantOf (.I32 5)) = true := by decide +kernel
  obtain ⟨x, st, h3, h4, h5⟩ := DefaultDemo.takes_iff h1
  obtain ⟨y, st', h6, h7, h8⟩ := DefaultDemo.takes_iff h2
  refine ⟨_, _, x, y, st, st', .text .String ['5'], .int 5, h3, h5, h6, h8, ?_⟩
  rintro rfl
  unfold DefaultDemo.isVariantOf at h4 h7
  split at h4
  · rename_i d
    simp only [decide_eq_true_eq] at h4 h7
    rw [h4] at h7
    cases h7
  · cases h4

/-- C70 in full fails: with floats printed as Rust prints them, `let x: Double = 0.1;` and `let x: Double = 0.1d;` are
recorded with the same text. Elsewhere in the sources the first means a number that differs from the second. -/
theorem C70_double_counterexample (P : FloatDisplay) (h32 : P.f32 0x3dcccccd = "0.1".toList)
    (h64 : P.f64 0x3fb999999999999a = "0.1".toList) : ∃ a b x y st st',
    DefaultDemo.env.f64OfF32 0x3dcccccd = 0x3fb99999a0000000 ∧ DefaultText P a "0.1" ∧ DefaultText P b "0.1" ∧
    DefaultDemo.env.checkDefault (DefaultDemo.field 8 a) DefaultDemo.double = .ok (x, st) ∧ st.diags = [] ∧
    DefaultDemo.env.checkDefault (DefaultDemo.field 8 b) DefaultDemo.double = .ok (y, st') ∧ st'.diags = [] ∧ x ≠ y := by
  have h1 : DefaultDemo.takes (DefaultDemo.field 8 (.Constant (.F32 0x3dcccccd))) DefaultDemo.double
    (DefaultDemo.isDouble 0x3fb99999a0000000) = true := by decide +kernel
  have h2 : DefaultDemo.takes (DefaultDemo.field 8 (.Constant (.F64 0x3fb999999999999a))) DefaultDemo.double
    (DefaultDemo.isDouble 0x3fb999999999999a) = true := by decide +kernel
  obtain ⟨x, st, h3, h4, h5⟩ := DefaultDemo.takes_iff h1
  obtain ⟨y, st', h6, h7, h8⟩ := DefaultDemo.takes_iff h2
  have e : String.ofList "0.1".toList = "0.1" := rfl
  refine ⟨_, _, x, y, st, st', rfl, e ▸ h32 ▸ .float _, e ▸ h64 ▸ .double _, h3, h5, h6, h8, ?_⟩
  rintro rfl
  unfold DefaultDemo.isDouble at h4 h7
  split at h4
  · simp only [decide_eq_true_eq] at h4 h7
    rw [h4] at h7
    exact absurd h7 (by decide)
  · cases h4

namespace DefaultDemo

/-- A class with one field and its default. -/
def defaultOf : Peg SourceModule → Option (Expr SourceAst)
  | .ok ⟨_, _, [.Class ⟨_, _, [.Field f]⟩]⟩ _ => f.default
  | _ => none

def isNegative : Option (Expr SourceAst) → Bool
  | some (.UnOp (.Constant (.I32 v)) .Neg) => v = 5
  | _ => false

theorem isNegative_iff {e : Option (Expr SourceAst)} (h : isNegative e = true) : e = some (.UnOp (.Constant (.I32 5)) .Neg) := by
  unfold isNegative at h
  split at h
  · simp only [decide_eq_true_eq] at h; rw [h]
  · cases h

end DefaultDemo

/-- C70: a class in whose text a field has the default -5 is read, but compiling it fails, whatever is declared. -/
theorem C70_negative_number_is_rejected (P : FloatDisplay) (E : DeclDefault → TcEnv) (p : ConstantPool) :
    ∃ value, DefaultDemo.defaultOf (readModule EndsDemo.floats "class A { let n: Int32 = -5; }".toList) = some value ∧
      ∀ d ds, d ∈ ds → d.value = value → ∃ e, compileDefaults P E ds p = .error e := by
  have h : DefaultDemo.isNegative (DefaultDemo.defaultOf (readModule EndsDemo.floats "class A { let n: Int32 = -5; }".toList)) = true := by
    decide +kernel
  refine ⟨_, DefaultDemo.isNegative_iff h, fun d ds hd hv => C70_other_values_are_rejected P E ds p d hd ?_⟩
  rw [hv]
  intro text ht
  cases ht

/-! ## Texts tell values -/

namespace DefaultDemo

noncomputable def read32 (s : String) : BitVec 32 := open Classical in
  if h : ∃ x : BitVec 32, s = toString x.toInt then h.choose else 0
noncomputable def read64 (s : String) : BitVec 64 := open Classical in
  if h : ∃ x : BitVec 64, s = toString x.toInt then h.choose else 0

theorem read32_eq (x : BitVec 32) : read32 (toString x.toInt) = x := by
  unfold read32
  have h : ∃ y : BitVec 32, toString x.toInt = toString y.toInt := ⟨x, rfl⟩
  rw [dif_pos h]
  exact (BitVec.eq_of_toInt_eq (showInt_inj h.choose_spec)).symm

theorem read64_eq (x : BitVec 64) : read64 (toString x.toInt) = x := by
  unfold read64
  have h : ∃ y : BitVec 64, toString x.toInt = toString y.toInt := ⟨x, rfl⟩
  rw [dif_pos h]
  exact (BitVec.eq_of_toInt_eq (showInt_inj h.choose_spec)).symm

theorem reads : FloatsRead display env read32 read64 where
  f32 x _ := by
    show read32 (String.ofList (showInt x.toInt)) = x
    rw [showInt_toString, read32_eq]
  f64 x _ := by
    show read64 (String.ofList (showInt x.toInt)) = x
    rw [showInt_toString, read64_eq]
  int32 i := read32_eq i
  int64 i := by
    show read64 (toString i.toInt) = i.signExtend 64
    rw [← read64_eq (i.signExtend 64), BitVec.toInt_signExtend_of_le (by omega)]

theorem apart : ConstantTypesApart env where
  prim c n t h k := by cases h <;> cases k <;> exact ⟨_, rfl⟩
  apart c d n m t h k h' k' := by
    cases h <;> cases h' <;> cases k <;> cases k' <;> rfl

end DefaultDemo


example : ∃ x st y st',
    DefaultDemo.env.checkDefault (DefaultDemo.field 8 (DefaultDemo.int 7)) DefaultDemo.double = .ok (x, st) ∧
    DefaultDemo.env.checkDefault (DefaultDemo.field 8 (.Constant (.F64 7))) DefaultDemo.double = .ok (y, st') ∧ x = y := by
  have h1 : DefaultDemo.takes (DefaultDemo.field 8 (DefaultDemo.int 7)) DefaultDemo.double fun _ => true := by decide +kernel
  have h2 : DefaultDemo.takes (DefaultDemo.field 8 (.Constant (.F64 7))) DefaultDemo.double fun _ => true := by decide +kernel
  obtain ⟨x, st, h3, _, h5⟩ := DefaultDemo.takes_iff h1
  obtain ⟨y, st', h6, _, h8⟩ := DefaultDemo.takes_iff h2
  refine ⟨x, st, y, st', h3, h6, ?_⟩
  have h9 : DefaultText DefaultDemo.display (.Constant (.F64 7)) "7" := by
    have := DefaultText.double (P := DefaultDemo.display) 7
    rwa [show String.ofList (DefaultDemo.display.f64 7) = "7" by decide +kernel] at this
  refine C70_text_tells_the_value_partial DefaultDemo.display DefaultDemo.env _ _ DefaultDemo.reads DefaultDemo.apart
    (DefaultDemo.field 8 (DefaultDemo.int 7)) (DefaultDemo.field 8 (.Constant (.F64 7))) rfl
    (fun _ => rfl) _ (by decide) (.constant (fun _ h => by cases h) (fun _ h => by cases h))
    (.constant (fun _ h => by cases h) (fun x h => by cases h; unfold Finite64; decide)) "7" (.int 7) h9 x y st st' h3 h6
    (by rw [h5]; simp) (by rw [h8]; simp) (fun f u h => by cases h) (fun f u h => by cases h)

end Redscript
