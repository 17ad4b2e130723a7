import Verif.Typecheck.Model
import Verif.Types.ConvProps

/-!
# The rules of typed bodies (specification)

When a typed body is well typed, written without reference to the type checker. It is part of the trusted base of
C56. `TypeIs` says what type an expression has, `Ok` that everything in an expression or statement gets operands
of the types it is declared with. What is declared where is asked of the same environment.
-/

namespace Redscript

/-- A value of the first type takes part in a combination of values of the second type: it can be used as one without
any change, or is null beside weak references. The second kind is not sound: null is not converted to a weak
reference there (`C22_null_weak_counterexample`). -/
inductive Joins (h : Hierarchy) : TypeId → TypeId → Prop
  | widens {a b} : Widens h a b → Joins h a b
  | weakNull (t) : Joins h .Null (.WeakRef t)
  | ref {a b} : Joins h a b → Joins h (.Ref a) (.Ref b)
  | weak {a b} : Joins h a b → Joins h (.WeakRef a) (.WeakRef b)

/-- A local declared with the first type is stored with the second: null is stored as a reference, and so are nulls in
an array. -/
inductive Stores : TypeId → TypeId → Prop
  | refl (t) : Stores t t
  | null (t) : Stores .Null (.Ref t)
  | array {a b} : Stores a b → Stores (.Array a) (.Array b)

/-- The names of the types of constants. -/
inductive ConstantOf : Constant → String → Prop
  | string (s) : ConstantOf (.String .String s) "String"
  | name (s) : ConstantOf (.String .Name s) "CName"
  | resource (s) : ConstantOf (.String .Resource s) "ResRef"
  | tweakDbId (s) : ConstantOf (.String .TweakDbId s) "TweakDBID"
  | float (x) : ConstantOf (.F32 x) "Float"
  | double (x) : ConstantOf (.F64 x) "Double"
  | int (x) : ConstantOf (.I32 x) "Int32"
  | int64 (x) : ConstantOf (.I64 x) "Int64"
  | uint (x) : ConstantOf (.U32 x) "Uint32"
  | uint64 (x) : ConstantOf (.U64 x) "Uint64"
  | bool (b) : ConstantOf (.Bool b) "Bool"

/-- The class of the object that a type refers to. -/
inductive RefersTo : TypeId → Idx → Prop
  | cls (c) : RefersTo (.Class c) c
  | str (c) : RefersTo (.Struct c) c
  | ref {t c} : RefersTo t c → RefersTo (.Ref t) c
  | weak {t c} : RefersTo t c → RefersTo (.WeakRef t) c
  | script {t c} : RefersTo t c → RefersTo (.ScriptRef t) c

/-- The enum that a type refers to. -/
inductive RefersToEnum : TypeId → Idx → Prop
  | enm (c) : RefersToEnum (.Enum c) c
  | ref {t c} : RefersToEnum t c → RefersToEnum (.Ref t) c
  | weak {t c} : RefersToEnum t c → RefersToEnum (.WeakRef t) c
  | script {t c} : RefersToEnum t c → RefersToEnum (.ScriptRef t) c

/-- A field of a class or of one above it. -/
def ClassHasField (h : Hierarchy) (c f : Idx) : Prop :=
  ∃ d v, SubClass h c d ∧ h.view d = some v ∧ ∃ n, (n, f) ∈ v.fields

/-- A method of a class or of one above it. -/
def ClassHasMethod (h : Hierarchy) (c f : Idx) : Prop :=
  ∃ d v, SubClass h c d ∧ h.view d = some v ∧ ∃ n, (n, f) ∈ v.methods

section
variable (E : TcEnv) (L : List (Idx × TypeId))

/-- The result type of a function. -/
def ResultIs (f : Idx) (t : TypeId) : Prop :=
  ∃ fn, E.function f = .ok fn ∧ (fn.ret = .ok (some t) ∨ fn.ret = .ok none ∧ t = .Void)

/-- Forms without a value. -/
inductive Valueless : TypedExpr → Prop
  | declare (l ty e) : Valueless (.Declare l ty e)
  | assign (a b) : Valueless (.Assign a b)
  | ret (e) : Valueless (.Return e)
  | seq (es) : Valueless (.Seq es)
  | switch (e cs d) : Valueless (.Switch e cs d)
  | goto (t) : Valueless (.Goto t)
  | ite (c t e) : Valueless (.If c t e)
  | while (c b) : Valueless (.While c b)
  | forIn (l a b) : Valueless (.ForIn l a b)
  | brk : Valueless .Break

/-- What type an expression has. `L` are the types of the locals. -/
inductive TypeIs : TypedExpr → TypeId → Prop
  | local {l t} : (l, t) ∈ L → TypeIs (.Ident (Reference.Value (.Local l))) t
  | param {p t} : E.param p = .ok t → TypeIs (.Ident (Reference.Value (.Parameter p))) t
  | cls (c v) : TypeIs (.Ident (Reference.Symbol (.Class c v))) (.Class c)
  | str (c v) : TypeIs (.Ident (Reference.Symbol (.Struct c v))) (.Struct c)
  | enm (c) : TypeIs (.Ident (Reference.Symbol (.Enum c))) (.Enum c)
  | constant {c n t} : ConstantOf c n → E.typeNamed (.basic n) = .ok t → TypeIs (.Constant c) t
  | array (es t) : TypeIs (.ArrayLit es (some t)) (.Array t)
  | text {s ps t} : E.typeNamed (.basic "String") = .ok t → TypeIs (.InterpolatedString s ps) t
  | castRef {e s} (t) : TypeIs e (.Ref s) → TypeIs (.Cast t e) (.Ref t)
  | castWeak {e s} (t) : TypeIs e (.WeakRef s) → TypeIs (.Cast t e) (.Ref t)
  | castScript {e s} (t) : TypeIs e (.ScriptRef s) → TypeIs (.Cast t e) (.ScriptRef t)
  | cast {e s} (t) : TypeIs e s → (∀ u, s ≠ .Ref u) → (∀ u, s ≠ .WeakRef u) → (∀ u, s ≠ .ScriptRef u) →
    TypeIs (.Cast t e) t
  | call {f t} (tys args) : ResultIs E f t → TypeIs (.Call (Callable.Function f) tys args) t
  | intrinsic (op t tys args) : TypeIs (.Call (Callable.Intrinsic op t) tys args) t
  | method {f t} (ctx args) : ResultIs E f t → TypeIs (.MethodCall ctx f args) t
  | classField {f t} (e) : E.field f = .ok t → TypeIs (.Member e (MemberRef.ClassField f)) t
  | structField {f t} (e) : E.field f = .ok t → TypeIs (.Member e (MemberRef.StructField f)) t
  | enumMember (e c m) : TypeIs (.Member e (MemberRef.EnumMember c m)) (.Enum c)
  | elem {a t} (i) : TypeIs a (.Array t) → TypeIs (.ArrayElem a i) t
  | staticElem {a t n} (i) : TypeIs a (.StaticArray t n) → TypeIs (.ArrayElem a i) t
  | newClass (c args) : TypeIs (.New (TypeId.Class c) args) (.Ref (.Class c))
  | newStruct (c args) : TypeIs (.New (TypeId.Struct c) args) (.Struct c)
  | conditional {a b s u t} (c) : TypeIs a s → TypeIs b u → Joins E.h s t → Joins E.h u t →
    TypeIs (.Conditional c a b) t
  | this {c} : E.this = some c → TypeIs .This (.Ref (.Class c))
  | super {c v} : E.this = some c → E.h.view c = some v → TypeIs .Super (.Ref (.Class v.base))
  | null : TypeIs .Null .Null
  | valueless {e} : Valueless e → TypeIs e .Void

/-- An expression gives a value that can be used as one of a type. -/
def Suits (e : TypedExpr) (t : TypeId) : Prop := ∃ s, TypeIs E L e s ∧ Widens E.h s t

/-- Arguments for the first of a list of parameters. -/
inductive FitAll : List TypedExpr → List TypeId → Prop
  | nil (ts) : FitAll [] ts
  | cons {e es t ts} : Suits E L e t → FitAll es ts → FitAll (e :: es) (t :: ts)

/-- The operands an intrinsic takes and its result. The first operand determines the others. -/
inductive IntrinsicTakes : IntrinsicOp → List TypeId → TypeId → Prop
  | equals {b} (s t) : E.typeNamed (.basic "Bool") = .ok b → IntrinsicTakes .Equals [s, t] b
  | notEquals {b} (s t) : E.typeNamed (.basic "Bool") = .ok b → IntrinsicTakes .NotEquals [s, t] b
  | clear (t) : IntrinsicTakes .ArrayClear [.Array t] .Void
  | size {i} (t) : E.typeNamed (.basic "Int32") = .ok i → IntrinsicTakes .ArraySize [.Array t] i
  | resize {i} (t) : E.typeNamed (.basic "Int32") = .ok i → IntrinsicTakes .ArrayResize [.Array t, i] .Void
  | findFirst (t) : IntrinsicTakes .ArrayFindFirst [.Array t, t] t
  | findLast (t) : IntrinsicTakes .ArrayFindLast [.Array t, t] t
  | contains {b} (t) : E.typeNamed (.basic "Bool") = .ok b → IntrinsicTakes .ArrayContains [.Array t, t] b
  | count {i} (t) : E.typeNamed (.basic "Int32") = .ok i → IntrinsicTakes .ArrayCount [.Array t, t] i
  | push (t) : IntrinsicTakes .ArrayPush [.Array t, t] .Void
  | pop (t) : IntrinsicTakes .ArrayPop [.Array t] t
  | insert {i} (t) : E.typeNamed (.basic "Int32") = .ok i → IntrinsicTakes .ArrayInsert [.Array t, i, t] .Void
  | remove {b} (t) : E.typeNamed (.basic "Bool") = .ok b → IntrinsicTakes .ArrayRemove [.Array t, t] b
  | grow {i} (t) : E.typeNamed (.basic "Int32") = .ok i → IntrinsicTakes .ArrayGrow [.Array t, i] .Void
  | erase {i b} (t) : E.typeNamed (.basic "Int32") = .ok i → E.typeNamed (.basic "Bool") = .ok b →
    IntrinsicTakes .ArrayErase [.Array t, i] b
  | last (t) : IntrinsicTakes .ArrayLast [.Array t] t
  | toString {s} (t) : E.typeNamed (.basic "String") = .ok s → IntrinsicTakes .ToString [t] s
  | enumInt {i} (c) : E.typeNamed (.basic "Int32") = .ok i → IntrinsicTakes .EnumInt [.Enum c] i
  | intEnum (t c) : IntrinsicTakes .IntEnum [t] (.Enum c)
  | toVariant {v} (t) : E.typeNamed (.basic "Variant") = .ok v → IntrinsicTakes .ToVariant [t] v
  /-- inserted where a variant is wanted -/
  | asVariant (t) : t ≠ .Variant → IntrinsicTakes .ToVariant [t] .Variant
  | fromVariant (t) : IntrinsicTakes .FromVariant [.Variant] t
  | variantTypeName {n} : E.typeNamed (.basic "CName") = .ok n → IntrinsicTakes .VariantTypeName [.Variant] n
  | variantIsRef {b} : E.typeNamed (.basic "Bool") = .ok b → IntrinsicTakes .VariantIsRef [.Variant] b
  | variantIsArray {b} : E.typeNamed (.basic "Bool") = .ok b → IntrinsicTakes .VariantIsArray [.Variant] b
  | asRef {t u} : Widens E.h t u → IntrinsicTakes .AsRef [t] (.ScriptRef u)
  | deref (t) : IntrinsicTakes .Deref [.ScriptRef t] t
  | isDefinedRef {b} (t) : E.typeNamed (.basic "Bool") = .ok b → IntrinsicTakes .IsDefined [.Ref t] b
  | isDefinedWeak {b} (t) : E.typeNamed (.basic "Bool") = .ok b → IntrinsicTakes .IsDefined [.WeakRef t] b
  | isDefinedNull {b} : E.typeNamed (.basic "Bool") = .ok b → IntrinsicTakes .IsDefined [.Null] b
  | isDefinedVariant {b} : E.typeNamed (.basic "Bool") = .ok b → IntrinsicTakes .IsDefined [.Variant] b
  | toWeak {t u} : Widens E.h t u → IntrinsicTakes .RefToWeakRef [.Ref t] (.WeakRef u)
  | nullToWeak (u) : IntrinsicTakes .RefToWeakRef [.Null] (.WeakRef u)
  | toStrong {t u} : Widens E.h t u → IntrinsicTakes .WeakRefToRef [.WeakRef t] (.Ref u)

/-- A condition. -/
def IsCondition (e : TypedExpr) : Prop := ∃ b, E.typeNamed (.basic "Bool") = .ok b ∧ Suits E L e b

mutual
/-- Everything in an expression or statement gets operands of the types it is declared with. -/
inductive Ok : TypedExpr → Prop
  | ident (r) : Ok (.Ident r)
  | constant (c) : Ok (.Constant c)
  | array {es t} : AllOk es → (∀ e ∈ es, ∃ s, TypeIs E L e s ∧ Joins E.h s t) → Ok (.ArrayLit es (some t))
  | text {s ps} : PartsOk ps → Ok (.InterpolatedString s ps)
  | declare {l s t} : (l, t) ∈ L → Stores s t → Ok (.Declare l (some s) none)
  | declareAs {l s t e} : (l, t) ∈ L → Stores s t → Ok e → Suits E L e s → Ok (.Declare l (some s) (some e))
  /-- a cast is checked when it runs; what is cast has a type, which is not a weak reference -/
  | cast {e s} (t) : Ok e → TypeIs E L e s → (∀ u, s ≠ .WeakRef u) → Ok (.Cast t e)
  | assign {a b t} : Ok a → Ok b → TypeIs E L a t → Suits E L b t → Ok (.Assign a b)
  | call {f fn ts args} (tys) : E.function f = .ok fn → fn.types = .ok ts → AllOk args → FitAll E L args ts →
    args.length ≤ fn.optional.length → (fn.optional.filter (· = false)).length ≤ args.length →
    Ok (.Call (Callable.Function f) tys args)
  | intrinsic {op t ts args} (tys) : IntrinsicTakes E op ts t → AllOk args → FitAll E L args ts →
    args.length = ts.length → Ok (.Call (Callable.Intrinsic op t) tys args)
  | method {ctx s c f fn ts args} : Ok ctx → TypeIs E L ctx s → (∀ u, s ≠ .WeakRef u) → RefersTo s c →
    ClassHasMethod E.h c f → E.function f = .ok fn → fn.types = .ok ts → AllOk args → FitAll E L args ts →
    args.length ≤ fn.optional.length → (fn.optional.filter (· = false)).length ≤ args.length →
    Ok (.MethodCall ctx f args)
  | classField {e s c f} : Ok e → TypeIs E L e s → (∀ u, s ≠ .WeakRef u) → RefersTo s c → ClassHasField E.h c f →
    Ok (.Member e (MemberRef.ClassField f))
  | structField {e s c f} : Ok e → TypeIs E L e s → (∀ u, s ≠ .WeakRef u) → RefersTo s c → ClassHasField E.h c f →
    Ok (.Member e (MemberRef.StructField f))
  | enumMember {e s c n m} : Ok e → TypeIs E L e s → (∀ u, s ≠ .WeakRef u) → RefersToEnum s c →
    E.enumMember c n = .ok m → Ok (.Member e (MemberRef.EnumMember c m))
  /-- it has a type only if `a` is an array -/
  | elem {a i int} : Ok a → Ok i → E.typeNamed (.basic "Int32") = .ok int → Suits E L i int → Ok (.ArrayElem a i)
  | newClass {c} : E.isAbstract c = .ok false → Ok (.New (TypeId.Class c) [])
  | newStruct {c fs ts args} : E.structFields c = .ok fs → fs.map E.field = ts.map .ok → AllOk args →
    FitAll E L args ts → args.length = ts.length → Ok (.New (TypeId.Struct c) args)
  | retNone : E.returns = .ok none → Ok (.Return none)
  | ret {e t} : E.returns = .ok (some t) → Ok e → Suits E L e t → Ok (.Return (some e))
  | seq {es} : AllOk es → Ok (.Seq es)
  /-- the values of the cases need not fit what is switched on (`C56_case_counterexample`) -/
  | switch {e cs d} : Ok e → CasesOk cs → BlockOk d → Ok (.Switch e cs d)
  | goto (t) : Ok (.Goto t)
  | ite {c t e} : Ok c → IsCondition E L c → AllOk t → BlockOk e → Ok (.If c t e)
  /-- it has a type only if the values have a common type -/
  | conditional {c a b s} : Ok c → IsCondition E L c → Ok a → TypeIs E L a s → Ok b → Ok (.Conditional c a b)
  | while {c b} : Ok c → IsCondition E L c → AllOk b → Ok (.While c b)
  | forIn {l a b t u} : Ok a → TypeIs E L a (.Array t) → (l, u) ∈ L → Stores t u → AllOk b → Ok (.ForIn l a b)
  | this : Ok .This
  | super : Ok .Super
  | brk : Ok .Break
  | null : Ok .Null
/-- All of a list. -/
inductive AllOk : List TypedExpr → Prop
  | nil : AllOk []
  | cons {e es} : Ok e → AllOk es → AllOk (e :: es)
/-- The parts of an interpolated string. -/
inductive PartsOk : List (TypedExpr × Text) → Prop
  | nil : PartsOk []
  | cons {e s ps} : Ok e → PartsOk ps → PartsOk ((e, s) :: ps)
/-- Cases of a switch. -/
inductive CasesOk : List (TypedExpr × List TypedExpr) → Prop
  | nil : CasesOk []
  | cons {m b cs} : Ok m → AllOk b → CasesOk cs → CasesOk ((m, b) :: cs)
/-- An optional block. -/
inductive BlockOk : Option (List TypedExpr) → Prop
  | none : BlockOk .none
  | some {b} : AllOk b → BlockOk (.some b)
end

end
end Redscript
