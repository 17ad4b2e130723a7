import Verif.Typecheck.Claim

/-!
# C57: checking only resolves names and inserts conversions
-/

namespace Redscript

/-! ## Specification -/

/-- What the names in scope stand for, and the local variables made so far. -/
structure NameEnv where
  names : Text → Option Value
  made : List Idx

/-- A local variable made for a name. The name stands for it from here on, whatever it stood for. -/
def NameEnv.declare (ρ : NameEnv) (n : Text) (l : Idx) : NameEnv :=
  ⟨fun m => if m = n then some (.Local l) else ρ.names m, ρ.made ++ [l]⟩

/-- Behind a block: the names are those from before it. -/
def NameEnv.behind (ρ ρ' : NameEnv) : NameEnv := ⟨ρ.names, ρ'.made⟩

/-- An integer or float literal where another number type is wanted. -/
inductive SameConstant (E : TcEnv) : Constant → Constant → Prop
  | same (c) : SameConstant E c c
  | float (i) : SameConstant E (.I32 i) (.F32 (E.f32OfI32 i))
  | double (i) : SameConstant E (.I32 i) (.F64 (E.f64OfI32 i))
  | int64 (i) : SameConstant E (.I32 i) (.I64 (i.signExtend 64))
  | uint64 (i) : SameConstant E (.U32 i) (.U64 (i.zeroExtend 64))
  | wider (f) : SameConstant E (.F32 f) (.F64 (E.f64OfF32 f))

/-- The expression itself or a conversion of it. -/
inductive Wrapped (x : TypedExpr) : TypedExpr → Prop
  | same : Wrapped x x
  | toWeak (t) : Wrapped x (.Call (Callable.Intrinsic .RefToWeakRef t) [] [x])
  | toStrong (t) : Wrapped x (.Call (Callable.Intrinsic .WeakRefToRef t) [] [x])
  | toScriptRef (t) : Wrapped x (.Call (Callable.Intrinsic .AsRef t) [] [x])
  | toVariant (t) : Wrapped x (.Call (Callable.Intrinsic .ToVariant t) [] [x])

/-- The expression itself or a strong reference made of it. -/
inductive Strong (x : TypedExpr) : TypedExpr → Prop
  | same : Strong x x
  | toStrong (t) : Strong x (.Call (Callable.Intrinsic .WeakRefToRef t) [] [x])

section
variable (E : TcEnv)

/-- One of the functions with a name. -/
def FunctionNamed (n : Text) (f : Idx) : Prop := ∃ fs v, E.symbols.get n = some (.Functions fs) ∧ (f, v) ∈ fs

/-- One of the methods with a name of a class or of one above it. -/
def MethodNamedIn (n : Text) (c f : Idx) : Prop :=
  ∃ d v m, SubClass E.h c d ∧ E.h.view d = some v ∧ (m, f) ∈ v.methods ∧ signatureName m = n

/-- A field with a name of a class or of one above it. -/
def FieldNamedIn (n : Text) (c f : Idx) : Prop :=
  ∃ d v, SubClass E.h c d ∧ E.h.view d = some v ∧ (n, f) ∈ v.fields

mutual
/-- The source expression in a scope, the typed expression for it, and the scope behind it. -/
inductive Elab : NameEnv → Expr SourceAst → TypedExpr → NameEnv → Prop
  | value {ρ n v} : ρ.names n = some v → Elab ρ (.Ident n) (.Ident (Reference.Value v)) ρ
  | symbol {ρ n s} : ρ.names n = none → E.symbols.get n = some s → Elab ρ (.Ident n) (.Ident (Reference.Symbol s)) ρ
  | constant {c c'} (ρ) : SameConstant E c c' → Elab ρ (.Constant c) (.Constant c') ρ
  | array {ρ es ys ρ'} (ty t) : ElabArgs ρ es ys ρ' → Elab ρ (.ArrayLit es ty) (.ArrayLit ys (some t)) ρ'
  | text {ρ ps qs ρ'} (s) : ElabParts ρ ps qs ρ' → Elab ρ (.InterpolatedString s ps) (.InterpolatedString s qs) ρ'
  | declare {ty t} (ρ n l) : E.typeNamed ty = .ok t →
    Elab ρ (.Declare n (some ty) none) (.Declare l (some t) none) (ρ.declare n l)
  /-- the name is not in scope in its own initial value -/
  | declareAs {ρ ty t e x y ρ'} (n l) : E.typeNamed ty = .ok t → Elab ρ e x ρ' → Wrapped x y →
    Elab ρ (.Declare n (some ty) (some e)) (.Declare l (some t) (some y)) (ρ'.declare n l)
  | declareInfer {ρ e x ρ'} (n l t) : Elab ρ e x ρ' →
    Elab ρ (.Declare n none (some e)) (.Declare l (some t) (some x)) (ρ'.declare n l)
  | cast {ρ ty t e x y ρ'} : E.typeNamed ty = .ok t → Elab ρ e x ρ' → Strong x y →
    Elab ρ (.Cast ty e) (.Cast t y) ρ'
  | assign {ρ a x ρ1 b y z ρ2} : Elab ρ a x ρ1 → Elab ρ1 b y ρ2 → Wrapped y z → Elab ρ (.Assign a b) (.Assign x z) ρ2
  | call {ρ f g args ys ρ'} (tys) : IntrinsicOp.ofName f = none → FunctionNamed E f g → ElabArgs ρ args ys ρ' →
    Elab ρ (.Call f tys args) (.Call (Callable.Function g) [] ys) ρ'
  | intrinsic {ρ f op args ys ρ'} (tys t) : IntrinsicOp.ofName f = some op → ElabArgs ρ args ys ρ' →
    Elab ρ (.Call f tys args) (.Call (Callable.Intrinsic op t) [] ys) ρ'
  | method {ρ a x y ρ1 f g args ys ρ2} (c) : Elab ρ a x ρ1 → Strong x y → MethodNamedIn E f c g →
    ElabArgs ρ1 args ys ρ2 → Elab ρ (.MethodCall a f args) (.MethodCall y g ys) ρ2
  | binary {ρ a b ys ρ' op g} : FunctionNamed E op.functionName g → ElabArgs ρ [a, b] ys ρ' →
    Elab ρ (.BinOp a b op) (.Call (Callable.Function g) [] ys) ρ'
  | unary {ρ a ys ρ' op g} : FunctionNamed E op.functionName g → ElabArgs ρ [a] ys ρ' →
    Elab ρ (.UnOp a op) (.Call (Callable.Function g) [] ys) ρ'
  | classField {ρ a x y ρ' n f} (c) : Elab ρ a x ρ' → Strong x y → FieldNamedIn E n c f →
    Elab ρ (.Member a n) (.Member y (MemberRef.ClassField f)) ρ'
  | structField {ρ a x y ρ' n f} (c) : Elab ρ a x ρ' → Strong x y → FieldNamedIn E n c f →
    Elab ρ (.Member a n) (.Member y (MemberRef.StructField f)) ρ'
  | enumMember {ρ a x y ρ' n m} (c) : Elab ρ a x ρ' → Strong x y → E.enumMember c n = .ok m →
    Elab ρ (.Member a n) (.Member y (MemberRef.EnumMember c m)) ρ'
  | elem {ρ a x ρ1 i y z ρ2} : Elab ρ a x ρ1 → Elab ρ1 i y ρ2 → Wrapped y z →
    Elab ρ (.ArrayElem a i) (.ArrayElem x z) ρ2
  | new {ρ ty t args ys ρ'} : E.typeNamed ty = .ok t → ElabArgs ρ args ys ρ' → Elab ρ (.New ty args) (.New t ys) ρ'
  | retNone (ρ) : Elab ρ (.Return none) (.Return none) ρ
  | ret {ρ e x y ρ'} : Elab ρ e x ρ' → Wrapped x y → Elab ρ (.Return (some e)) (.Return (some y)) ρ'
  | seq {ρ es xs ρ'} : ElabSeq ρ es xs ρ' → Elab ρ (.Seq es) (.Seq xs) ρ'
  | switch {ρ e x ρ1 cs ds ρ2 d b ρ3} : Elab ρ e x ρ1 → ElabCases ρ1 cs ds ρ2 → ElabBlock ρ2 d b ρ3 →
    Elab ρ (.Switch e cs d) (.Switch x ds b) ρ3
  | goto (ρ t) : Elab ρ (.Goto t) (.Goto t) ρ
  | ite {ρ c x y ρ1 t ts ρ2 e b ρ3} : Elab ρ c x ρ1 → Wrapped x y → ElabSeq ρ1 t ts ρ2 →
    ElabBlock (ρ1.behind ρ2) e b ρ3 → Elab ρ (.If c t e) (.If y ts b) ρ3
  | conditional {ρ c x y ρ1 a x' ρ2 b y' ρ3} : Elab ρ c x ρ1 → Wrapped x y → Elab ρ1 a x' ρ2 → Elab ρ2 b y' ρ3 →
    Elab ρ (.Conditional c a b) (.Conditional y x' y') ρ3
  | while {ρ c x y ρ1 b bs ρ2} : Elab ρ c x ρ1 → Wrapped x y → ElabSeq ρ1 b bs ρ2 →
    Elab ρ (.While c b) (.While y bs) (ρ1.behind ρ2)
  | forIn {ρ a x ρ1 b bs ρ2} (n l) : Elab ρ a x ρ1 → ElabSeq (ρ1.declare n l) b bs ρ2 →
    Elab ρ (.ForIn n a b) (.ForIn l x bs) (ρ1.behind ρ2)
  | this (ρ) : Elab ρ .This .This ρ
  | super (ρ) : Elab ρ .Super .Super ρ
  | brk (ρ) : Elab ρ .Break .Break ρ
  | null (ρ) : Elab ρ .Null .Null ρ
/-- Statements, all of them and in their order. -/
inductive ElabSeq : NameEnv → List (Expr SourceAst) → List TypedExpr → NameEnv → Prop
  | nil (ρ) : ElabSeq ρ [] [] ρ
  | cons {ρ e x ρ1 es xs ρ2} : Elab ρ e x ρ1 → ElabSeq ρ1 es xs ρ2 → ElabSeq ρ (e :: es) (x :: xs) ρ2
/-- Arguments and elements, all of them and in their order, each possibly converted. -/
inductive ElabArgs : NameEnv → List (Expr SourceAst) → List TypedExpr → NameEnv → Prop
  | nil (ρ) : ElabArgs ρ [] [] ρ
  | cons {ρ e x y ρ1 es ys ρ2} : Elab ρ e x ρ1 → Wrapped x y → ElabArgs ρ1 es ys ρ2 →
    ElabArgs ρ (e :: es) (y :: ys) ρ2
/-- The parts of an interpolated string. -/
inductive ElabParts : NameEnv → List (Expr SourceAst × Text) → List (TypedExpr × Text) → NameEnv → Prop
  | nil (ρ) : ElabParts ρ [] [] ρ
  | cons {ρ e x ρ1 s ps qs ρ2} : Elab ρ e x ρ1 → ElabParts ρ1 ps qs ρ2 → ElabParts ρ ((e, s) :: ps) ((x, s) :: qs) ρ2
/-- Cases; what is declared in one is not in scope behind it. -/
inductive ElabCases : NameEnv → List (Expr SourceAst × List (Expr SourceAst)) →
    List (TypedExpr × List TypedExpr) → NameEnv → Prop
  | nil (ρ) : ElabCases ρ [] [] ρ
  | cons {ρ m x ρ1 b bs ρ2 cs ds ρ3} : Elab ρ m x ρ1 → ElabSeq ρ1 b bs ρ2 → ElabCases (ρ1.behind ρ2) cs ds ρ3 →
    ElabCases ρ ((m, b) :: cs) ((x, bs) :: ds) ρ3
/-- An optional block. -/
inductive ElabBlock : NameEnv → Option (List (Expr SourceAst)) → Option (List TypedExpr) → NameEnv → Prop
  | none (ρ) : ElabBlock ρ none none ρ
  | some {ρ b bs ρ'} : ElabSeq ρ b bs ρ' → ElabBlock ρ (some b) (some bs) (ρ.behind ρ')
end

end

/-! ## Proof -/

/-- The names in scope in a state and the locals made. -/
def TcState.names (st : TcState) : NameEnv := ⟨fun n => st.refs.get n, st.locals.map (·.1)⟩

theorem insert_wrapped (x : TypedExpr) (t : TypeId) (c : Conversion) : Wrapped x (insertConversion x t c) := by
  cases c
  · exact .same
  · exact .toWeak t
  · exact .toStrong t
  · exact .toScriptRef t
  · exact .toVariant t

theorem strengthen_strong (x : TypedExpr) (t : TypeId) : Strong x (TcEnv.strengthen t x) := by
  cases t
  case WeakRef u => exact .toStrong _
  all_goals exact .same

theorem retype_same (E : TcEnv) (c : Constant) (n : Text) : SameConstant E c (E.retype c n) := by
  unfold TcEnv.retype
  split
  · split
    · exact .float _
    · split
      · exact .double _
      · split
        · exact .int64 _
        · exact .same _
  · split
    · exact .uint64 _
    · exact .same _
  · split
    · exact .wider _
    · exact .same _
  · exact .same _

section
variable {E : TcEnv}

/-- Without errors the step gives something that stands for the source. -/
def Faithful (x : Tc α) (P : NameEnv → α → NameEnv → Prop) : Prop :=
  ∀ st y st', x st = .ok (y, st') → NoFatal st'.diags → P st.names y st'.names

theorem checkAs_elab {m : Mode} {c : Option TypeId → Tc TypedExpr} {P : NameEnv → TypedExpr → NameEnv → Prop}
    (hc : ∀ t, Faithful (c t) P) : Faithful (E.checkAs m c) fun ρ y ρ' => ∃ x, P ρ x ρ' ∧ Wrapped x y := by
  intro st y st' h hn
  unfold TcEnv.checkAs at h
  cases m with
  | plain => exact ⟨y, hc _ _ _ _ h hn, .same⟩
  | expect t => exact ⟨y, hc _ _ _ _ h hn, .same⟩
  | convert t =>
    obtain ⟨x, st1, h1, h2⟩ := Tc.bind_ok.1 h
    obtain ⟨rfl, s, c', hs, hcv, rfl⟩ := convertTo_ok h2 hn
    exact ⟨x, hc _ _ _ _ h1 hn, insert_wrapped _ _ _⟩

/-- A mode that does not convert. -/
def Mode.keeps : Mode → Prop
  | .convert _ => False
  | _ => True

theorem checkAs_keeps {m : Mode} (hm : m.keeps) {c : Option TypeId → Tc TypedExpr}
    {P : NameEnv → TypedExpr → NameEnv → Prop} (hc : ∀ t, Faithful (c t) P) : Faithful (E.checkAs m c) P := by
  cases m with
  | plain => exact hc _
  | expect t => exact hc _
  | convert t => exact hm.elim

theorem ElabSeq.args {ρ ρ' : NameEnv} {es : List (Expr SourceAst)} {xs : List TypedExpr} (h : ElabSeq E ρ es xs ρ')
    {cs : List (Conversion × TypeId)} (hl : xs.length = cs.length) : ElabArgs E ρ es (TcEnv.converted xs cs) ρ' := by
  induction es generalizing ρ xs cs with
  | nil =>
    cases h
    exact .nil _
  | cons e es ih =>
    cases h with
    | cons h1 h2 =>
      cases cs with
      | nil => simp at hl
      | cons c cs => exact .cons h1 (insert_wrapped _ _ _) (ih h2 (by simpa using hl))

theorem conversions_length {K : List (Idx × TypeId)} {as : List TypedExpr} {ps : List TypeId}
    {cs : List (Conversion × TypeId)} (h : E.conversions K as ps = .ok (some cs)) (hl : as.length ≤ ps.length) :
    as.length = cs.length := by
  induction as generalizing ps cs with
  | nil =>
    unfold TcEnv.conversions at h
    cases h
    rfl
  | cons a as ih =>
    cases ps with
    | nil => simp at hl
    | cons p ps =>
      unfold TcEnv.conversions at h
      cases ht : typeTree (E.queries K) a with
      | error e => rw [ht] at h; cases h
      | ok t =>
        rw [ht] at h
        dsimp only at h
        cases hc : E.conversion t p with
        | error e => rw [hc] at h; cases h
        | ok r =>
          rw [hc] at h
          cases r with
          | none => cases h
          | some c =>
            dsimp only at h
            cases hr : E.conversions K as ps with
            | error e => rw [hr] at h; cases h
            | ok r =>
              rw [hr] at h
              cases r with
              | none => cases h
              | some rs =>
                cases h
                rw [List.length_cons, List.length_cons, ih hr (by simpa using hl)]

theorem overload_elab (hE : E.Lawful) {fs : List Idx} {es : List (Expr SourceAst)} {w : Option TypeId}
    {x : List TypeId → Tc (List TypedExpr)} {p : Tc (List TypedExpr)} (gp : TcGrows E p)
    (hx : ∀ ts, es.length ≤ ts.length → Faithful (x ts) fun ρ ys ρ' => ElabSeq E ρ es ys ρ' ∧ ys.length = es.length)
    (hp : Faithful p fun ρ ys ρ' => ElabSeq E ρ es ys ρ' ∧ ys.length = es.length) :
    Faithful (E.overload fs es.length w x p) fun ρ r ρ' => r.1 ∈ fs ∧ ElabArgs E ρ es r.2 ρ' := by
  intro st r st' h hn
  unfold TcEnv.overload at h
  obtain ⟨xs, st1, h1, h2⟩ := Tc.bind_ok.1 h
  obtain ⟨h1', rfl⟩ := TcEnv.give_ok.1 h1
  have hel := eligible_ok h1'
  split at h2
  · rename_i y
    obtain ⟨as, st2, h3, h4⟩ := Tc.bind_ok.1 h2
    obtain ⟨e1, e2⟩ := hel y List.mem_cons_self
    obtain ⟨_, v1, v2, v3, v4⟩ := validateCall_ok e2
    split at h4
    · rename_i cs hcs
      cases h4
      have hl := hE.types _ _ _ v1 v2
      have ha := hx _ (by omega) _ _ _ h3 hn
      exact ⟨e1, ha.1.args (conversions_length (validateArgs_ok hcs) (by omega))⟩
    · exact absurd hn (fallback_fatal gp h4)
    · exact absurd hn (fallback_fatal gp h4)
  · obtain ⟨as, st2, h3, h4⟩ := Tc.bind_ok.1 h2
    split at h4
    · rename_i f cs hcs
      cases h4
      obtain ⟨y, hy, rfl, hc⟩ := firstMatch_ok hcs
      obtain ⟨e1, e2⟩ := hel y hy
      obtain ⟨_, v1, v2, v3, v4⟩ := validateCall_ok e2
      have hl := hE.types _ _ _ v1 v2
      have ha := hp _ _ _ h3 hn
      exact ⟨e1, ha.1.args (conversions_length hc (by omega))⟩
    · exact absurd hn (fallback_fatal gp h4)
    · cases h4

theorem functions_named {n : Text} {fs : List Idx} (h : E.functions n = .ok fs) {f : Idx} (hf : f ∈ fs) :
    FunctionNamed E n f := by
  unfold TcEnv.functions at h
  split at h
  · rename_i gs hg
    cases h
    obtain ⟨m, hm, rfl⟩ := List.mem_map.1 hf
    exact ⟨gs, m.2, hg, hm⟩
  · cases h

theorem fieldNamed_resolve {h : Hierarchy} {n : Text} {c f : Idx} (hr : h.resolveField n c = some f) :
    ∃ d v, SubClass h c d ∧ h.view d = some v ∧ (n, f) ∈ v.fields := by
  fun_induction h.resolveField n c with
  | case1 => cases hr
  | case2 c v hv g hg =>
    cases hr
    have h1 := List.find?_some hg
    have h2 := List.mem_of_find?_eq_some hg
    simp only [decide_eq_true_eq] at h1
    exact ⟨c, v, .refl c, hv, h1 ▸ h2⟩
  | case3 c v hv _ hb ih =>
    obtain ⟨d, w, h1, h2⟩ := ih hr
    exact ⟨d, w, .step hv hb h1, h2⟩
  | case4 => cases hr

theorem methodNamed_collect {h : Hierarchy} {n : Text} {c f : Idx} {fs : List Idx}
    (hr : h.collectMethods n c = some fs) (hf : f ∈ fs) :
    ∃ d v m, SubClass h c d ∧ h.view d = some v ∧ (m, f) ∈ v.methods ∧ signatureName m = n := by
  fun_induction h.collectMethods n c generalizing fs with
  | case1 => cases hr; cases hf
  | case2 => cases hr
  | case3 c _ v hv hb ih =>
    dsimp only at hr
    rw [dif_pos hb] at hr
    obtain ⟨gs, hg, rfl⟩ := Option.map_eq_some_iff.1 hr
    rcases List.mem_append.1 hf with hf | hf
    · obtain ⟨m, hm, rfl⟩ := List.mem_map.1 hf
      have := List.mem_filter.1 hm
      exact ⟨c, v, m.1, .refl c, hv, this.1, by simpa using this.2⟩
    · obtain ⟨d, w, m, h1, h2⟩ := ih hg hf
      exact ⟨d, w, m, .step hv hb h1, h2⟩
  | case4 c _ v hv hb =>
    dsimp only at hr
    rw [dif_neg hb] at hr
    cases hr
    obtain ⟨m, hm, rfl⟩ := List.mem_map.1 hf
    have := List.mem_filter.1 hm
    exact ⟨c, v, m.1, .refl c, hv, this.1, by simpa using this.2⟩

theorem methodNamedIn {n : Text} {c f : Idx} {fs : List Idx} (hr : E.h.resolveMethod n c = some fs) (hf : f ∈ fs) :
    MethodNamedIn E n c f := by
  unfold Hierarchy.resolveMethod at hr
  obtain ⟨gs, hg, hr⟩ := Option.bind_eq_some_iff.1 hr
  split at hr
  · cases hr
  · cases hr; exact methodNamed_collect hg hf

theorem addLocal_names {n : Text} {t : TypeId} {l : Idx} {st st' : TcState}
    (h : E.addLocal n t st = .ok (l, st')) : st'.names = st.names.declare n l := by
  obtain ⟨u, hu, rfl, rfl⟩ := E.addLocal_ok.1 h
  unfold TcState.names NameEnv.declare
  congr 1
  rw [List.map_append]
  rfl

theorem warn_names {op : IntrinsicOp} {t : TypeId} {ys : List TypedExpr} {st st' : TcState} {u : Unit}
    (h : E.warnUnrelated op t ys st = .ok (u, st')) : st.names = st'.names := by
  have key : st.refs = st'.refs ∧ st.locals = st'.locals := by
    unfold TcEnv.warnUnrelated at h
    split at h
    · obtain ⟨s, st1, h1, h2⟩ := Tc.bind_ok.1 h
      obtain ⟨h1', rfl⟩ := E.typeOf_ok.1 h1
      cases hv : E.h.lub t s with
      | none => rw [hv] at h2; cases h2; exact ⟨rfl, rfl⟩
      | some r =>
        rw [hv] at h2
        cases r with
        | none => cases h2; exact ⟨rfl, rfl⟩
        | some v => obtain ⟨_, rfl⟩ := Tc.pure_ok.1 h2; exact ⟨rfl, rfl⟩
    · obtain ⟨s, st1, h1, h2⟩ := Tc.bind_ok.1 h
      obtain ⟨h1', rfl⟩ := E.typeOf_ok.1 h1
      cases hv : E.h.lub t s with
      | none => rw [hv] at h2; cases h2; exact ⟨rfl, rfl⟩
      | some r =>
        rw [hv] at h2
        cases r with
        | none => cases h2; exact ⟨rfl, rfl⟩
        | some v => obtain ⟨_, rfl⟩ := Tc.pure_ok.1 h2; exact ⟨rfl, rfl⟩
    · obtain ⟨_, rfl⟩ := Tc.pure_ok.1 h; exact ⟨rfl, rfl⟩
  unfold TcState.names
  rw [key.1, key.2]

theorem keeps_plain (es : List α) : ∀ m ∈ es.map (fun _ => Mode.plain), m.keeps := by
  intro m hm
  obtain ⟨_, _, rfl⟩ := List.mem_map.1 hm
  trivial

theorem keeps_expect (ts : List TypeId) : ∀ m ∈ ts.map Mode.expect, m.keeps := by
  intro m hm
  obtain ⟨_, _, rfl⟩ := List.mem_map.1 hm
  trivial

/-- The lists of a checked list. -/
def ElabBoth (E : TcEnv) (es : List (Expr SourceAst)) (ms : List Mode) (ρ : NameEnv) (ys : List TypedExpr)
    (ρ' : NameEnv) : Prop :=
  es.length ≤ ms.length → ys.length = es.length ∧ ElabArgs E ρ es ys ρ' ∧
    ((∀ m ∈ ms, m.keeps) → ElabSeq E ρ es ys ρ')

set_option maxHeartbeats 1000000 in
mutual
theorem check_elab (hE : E.Lawful) : ∀ (e : Expr SourceAst) (t : Option TypeId),
    Faithful (E.check e t) fun ρ x ρ' => Elab E ρ e x ρ'
  | .Ident n, _ => by
    intro st y st' h hn
    unfold TcEnv.check at h
    unfold TcEnv.checkIdent at h
    split at h
    · rename_i r hr
      cases h
      unfold TcEnv.reference at hr
      split at hr
      · rename_i v hv; cases hr; exact .value hv
      · rename_i hv
        obtain ⟨s, hs, rfl⟩ := Option.map_eq_some_iff.1 hr
        exact .symbol hv hs
    · split at h
      · exfalso
        obtain ⟨_, s1, h1, h⟩ := Tc.bind_ok.1 h
        obtain ⟨_, rfl⟩ := Tc.report_ok.1 h1
        obtain ⟨_, rfl⟩ := Tc.pure_ok.1 h
        exact hn (by simp)
      · cases h
  | .Constant c, none => by
    intro st y st' h hn
    unfold TcEnv.check at h
    obtain ⟨rfl, rfl⟩ := Tc.pure_ok.1 h
    exact .constant _ (.same _)
  | .Constant c, some t => by
    intro st y st' h hn
    unfold TcEnv.check at h
    obtain ⟨n, s1, h1, h⟩ := Tc.bind_ok.1 h
    obtain ⟨_, rfl⟩ := E.ask_ok.1 h1
    obtain ⟨rfl, rfl⟩ := Tc.pure_ok.1 h
    exact .constant _ (retype_same _ _ _)
  | .ArrayLit [] _, t => by
    intro st y st' h hn
    unfold TcEnv.check at h
    dsimp only at h
    split at h
    · obtain ⟨rfl, rfl⟩ := Tc.pure_ok.1 h
      exact .array _ _ (.nil _)
    · cases h
  | .ArrayLit (e :: es) _, t => by
    intro st y st' h hn
    unfold TcEnv.check at h
    obtain ⟨x, s1, h1, h⟩ := Tc.bind_ok.1 h
    obtain ⟨xs, s2, h2, h⟩ := Tc.bind_ok.1 h
    obtain ⟨a, s3, h3, h⟩ := Tc.bind_ok.1 h
    obtain ⟨ha, rfl⟩ := E.typeOf_ok.1 h3
    obtain ⟨b, s4, h4, h⟩ := Tc.bind_ok.1 h
    obtain ⟨rfl, rfl⟩ := Tc.pure_ok.1 h
    obtain ⟨rfl, j, hs⟩ := lubAll_ok h4
    have g2 := checkList_grows E es _ _ _ _ h2
    have i2 := checkList_elab hE es _ _ _ _ h2 hn (by simp)
    obtain ⟨x', i1, w1⟩ := checkAs_elab (check_elab hE e) _ _ _ h1 (hn.of_prefix g2.diags)
    exact .array _ _ (.cons i1 w1 i2.2.1)
  | .InterpolatedString s ps, _ => by
    intro st y st' h hn
    unfold TcEnv.check at h
    obtain ⟨xs, s1, h1, h⟩ := Tc.bind_ok.1 h
    obtain ⟨rfl, rfl⟩ := Tc.pure_ok.1 h
    exact .text _ (checkParts_elab hE ps _ _ _ h1 hn)
  | .Declare n none none, _ => by
    intro st y st' h hn
    unfold TcEnv.check at h
    cases h
  | .Declare n (some ty) none, _ => by
    intro st y st' h hn
    unfold TcEnv.check at h
    obtain ⟨t, s1, h1, h⟩ := Tc.bind_ok.1 h
    obtain ⟨ht, rfl⟩ := E.ask_ok.1 h1
    obtain ⟨l, s2, h2, h⟩ := Tc.bind_ok.1 h
    obtain ⟨rfl, rfl⟩ := Tc.pure_ok.1 h
    rw [addLocal_names h2]
    exact .declare _ _ _ ht
  | .Declare n none (some e), _ => by
    intro st y st' h hn
    unfold TcEnv.check at h
    obtain ⟨x, s1, h1, h⟩ := Tc.bind_ok.1 h
    obtain ⟨t, s2, h2, h⟩ := Tc.bind_ok.1 h
    obtain ⟨ht, rfl⟩ := E.typeOf_ok.1 h2
    obtain ⟨l, s3, h3, h⟩ := Tc.bind_ok.1 h
    obtain ⟨rfl, rfl⟩ := Tc.pure_ok.1 h
    have g3 := grows_addLocal n t _ _ _ h3
    rw [addLocal_names h3]
    exact .declareInfer _ _ _ (check_elab hE e _ _ _ _ h1 (hn.of_prefix g3.diags))
  | .Declare n (some ty) (some e), _ => by
    intro st y st' h hn
    unfold TcEnv.check at h
    obtain ⟨t, s1, h1, h⟩ := Tc.bind_ok.1 h
    obtain ⟨ht, rfl⟩ := E.ask_ok.1 h1
    obtain ⟨x, s2, h2, h⟩ := Tc.bind_ok.1 h
    obtain ⟨l, s3, h3, h⟩ := Tc.bind_ok.1 h
    obtain ⟨rfl, rfl⟩ := Tc.pure_ok.1 h
    have g3 := grows_addLocal n t _ _ _ h3
    rw [addLocal_names h3]
    obtain ⟨x', i2, w2⟩ := checkAs_elab (check_elab hE e) _ _ _ h2 (hn.of_prefix g3.diags)
    exact .declareAs _ _ ht i2 w2
  | .Cast ty e, _ => by
    intro st y st' h hn
    unfold TcEnv.check at h
    obtain ⟨t, s1, h1, h⟩ := Tc.bind_ok.1 h
    obtain ⟨ht, rfl⟩ := E.ask_ok.1 h1
    obtain ⟨x, s2, h2, h⟩ := Tc.bind_ok.1 h
    obtain ⟨a, s3, h3, h⟩ := Tc.bind_ok.1 h
    obtain ⟨ha, rfl⟩ := E.typeOf_ok.1 h3
    obtain ⟨rfl, rfl⟩ := Tc.pure_ok.1 h
    exact .cast ht (check_elab hE e _ _ _ _ h2 hn) (strengthen_strong _ _)
  | .Assign l r, _ => by
    intro st y st' h hn
    unfold TcEnv.check at h
    obtain ⟨x, s1, h1, h⟩ := Tc.bind_ok.1 h
    obtain ⟨t, s2, h2, h⟩ := Tc.bind_ok.1 h
    obtain ⟨ht, rfl⟩ := E.typeOf_ok.1 h2
    obtain ⟨y, s3, h3, h⟩ := Tc.bind_ok.1 h
    obtain ⟨rfl, rfl⟩ := Tc.pure_ok.1 h
    have g3 := grows_checkAs _ (check_grows E r) _ _ _ h3
    obtain ⟨y', i3, w3⟩ := checkAs_elab (check_elab hE r) _ _ _ h3 hn
    exact .assign (check_elab hE l _ _ _ _ h1 (hn.of_prefix g3.diags)) i3 w3
  | .Call f tys args, t => by
    intro st y st' h hn
    unfold TcEnv.check at h
    obtain ⟨w, s1, h1, h⟩ := Tc.bind_ok.1 h
    obtain ⟨_, rfl⟩ := E.ask_ok.1 h1
    cases ho : IntrinsicOp.ofName f with
    | some op =>
      rw [ho] at h
      obtain ⟨u, ys, rfl, i⟩ := checkIntrinsic_elab hE op w args _ _ _ h hn
      exact .intrinsic _ _ ho i
    | none =>
      rw [ho] at h
      obtain ⟨fs, s2, h2, h⟩ := Tc.bind_ok.1 h
      obtain ⟨hf, rfl⟩ := E.ask_ok.1 h2
      obtain ⟨m, s3, h3, h⟩ := Tc.bind_ok.1 h
      obtain ⟨rfl, rfl⟩ := Tc.pure_ok.1 h
      have hl := checkList_elab hE args
      obtain ⟨i1, i2⟩ := overload_elab hE (checkList_grows E args _)
        (fun ts hts st y st' h hn => by
          have := hl _ _ _ _ h hn (by rw [List.length_map]; omega)
          exact ⟨this.2.2 (keeps_expect _), this.1⟩)
        (fun st y st' h hn => by
          have := hl _ _ _ _ h hn (by rw [List.length_map]; omega)
          exact ⟨this.2.2 (keeps_plain _), this.1⟩) _ _ _ h3 hn
      exact .call _ ho (functions_named hf i1) i2
  | .MethodCall ctx f args, t => by
    intro st y st' h hn
    unfold TcEnv.check at h
    obtain ⟨x, s1, h1, h⟩ := Tc.bind_ok.1 h
    obtain ⟨a, s2, h2, h⟩ := Tc.bind_ok.1 h
    obtain ⟨ha, rfl⟩ := E.typeOf_ok.1 h2
    obtain ⟨fs, s3, h3, h⟩ := Tc.bind_ok.1 h
    obtain ⟨hfs, rfl⟩ := E.ask_ok.1 h3
    obtain ⟨m, s4, h4, h⟩ := Tc.bind_ok.1 h
    obtain ⟨rfl, rfl⟩ := Tc.pure_ok.1 h
    have hl := checkList_elab hE args
    have g4 := grows_overload fs args.length t (fun ts => checkList_grows E args _) (checkList_grows E args _) _ _ _ h4
    obtain ⟨i1, i2⟩ := overload_elab hE (checkList_grows E args _)
      (fun ts hts st y st' h hn => by
        have := hl _ _ _ _ h hn (by rw [List.length_map]; omega)
        exact ⟨this.2.2 (keeps_expect _), this.1⟩)
      (fun st y st' h hn => by
        have := hl _ _ _ _ h hn (by rw [List.length_map]; omega)
        exact ⟨this.2.2 (keeps_plain _), this.1⟩) _ _ _ h4 hn
    have i0 := check_elab hE ctx _ _ _ _ h1 (hn.of_prefix g4.diags)
    unfold TcEnv.methodsOf at hfs
    split at hfs
    · rename_i c hc
      unfold TcEnv.methods at hfs
      split at hfs
      · rename_i gs hg
        cases hfs
        exact .method c i0 (strengthen_strong _ _) (methodNamedIn hg i1) i2
      · cases hfs
    · rename_i c hc
      unfold TcEnv.methods at hfs
      split at hfs
      · rename_i gs hg
        cases hfs
        exact .method c i0 (strengthen_strong _ _) (methodNamedIn hg i1) i2
      · cases hfs
    · cases hfs
  | .BinOp l r op, t => by
    intro st y st' h hn
    unfold TcEnv.check at h
    obtain ⟨fs, s2, h2, h⟩ := Tc.bind_ok.1 h
    obtain ⟨hf, rfl⟩ := E.ask_ok.1 h2
    obtain ⟨m, s3, h3, h⟩ := Tc.bind_ok.1 h
    obtain ⟨rfl, rfl⟩ := Tc.pure_ok.1 h
    have hg1 := check_grows E l
    have hg2 := check_grows E r
    have two : ∀ a b, Faithful (do let x ← E.check l a; let y ← E.check r b; pure [x, y])
        fun ρ ys ρ' => ElabSeq E ρ [l, r] ys ρ' ∧ ys.length = 2 := by
      intro a b st ys st' h hn
      obtain ⟨x, s1, h1, h⟩ := Tc.bind_ok.1 h
      obtain ⟨y, s2, h2, h⟩ := Tc.bind_ok.1 h
      obtain ⟨rfl, rfl⟩ := Tc.pure_ok.1 h
      have g2 := hg2 _ _ _ _ h2
      have i2 := check_elab hE r _ _ _ _ h2 hn
      have i1 := check_elab hE l _ _ _ _ h1 (hn.of_prefix g2.diags)
      exact ⟨.cons i1 (.cons i2 (.nil _)), rfl⟩
    obtain ⟨i1, i2⟩ := overload_elab (es := [l, r]) hE
      (grows_bind (hg1 _) fun _ => grows_bind (hg2 _) fun _ => grows_pure _)
      (fun ts hts => by
        match ts, hts with
        | t :: u :: ts, _ => exact two _ _)
      (two _ _) _ _ _ h3 hn
    exact .binary (functions_named hf i1) i2
  | .UnOp e op, t => by
    intro st y st' h hn
    unfold TcEnv.check at h
    obtain ⟨fs, s2, h2, h⟩ := Tc.bind_ok.1 h
    obtain ⟨hf, rfl⟩ := E.ask_ok.1 h2
    obtain ⟨m, s3, h3, h⟩ := Tc.bind_ok.1 h
    obtain ⟨rfl, rfl⟩ := Tc.pure_ok.1 h
    have one : ∀ a, Faithful (do let x ← E.check e a; pure [x])
        fun ρ ys ρ' => ElabSeq E ρ [e] ys ρ' ∧ ys.length = 1 := by
      intro a st ys st' h hn
      obtain ⟨x, s1, h1, h⟩ := Tc.bind_ok.1 h
      obtain ⟨rfl, rfl⟩ := Tc.pure_ok.1 h
      exact ⟨.cons (check_elab hE e _ _ _ _ h1 hn) (.nil _), rfl⟩
    obtain ⟨i1, i2⟩ := overload_elab (es := [e]) hE
      (grows_bind (check_grows E e _) fun _ => grows_pure _)
      (fun ts hts => by
        match ts, hts with
        | t :: ts, _ => exact one _)
      (one _) _ _ _ h3 hn
    exact .unary (functions_named hf i1) i2
  | .Member ctx m, _ => by
    intro st y st' h hn
    unfold TcEnv.check at h
    obtain ⟨x, s1, h1, h⟩ := Tc.bind_ok.1 h
    obtain ⟨a, s2, h2, h⟩ := Tc.bind_ok.1 h
    obtain ⟨ha, rfl⟩ := E.typeOf_ok.1 h2
    obtain ⟨fd, s3, h3, h⟩ := Tc.bind_ok.1 h
    obtain ⟨hm, rfl⟩ := E.ask_ok.1 h3
    obtain ⟨rfl, rfl⟩ := Tc.pure_ok.1 h
    have i1 := check_elab hE ctx _ _ _ _ h1 hn
    unfold TcEnv.memberOf at hm
    split at hm
    · rename_i c hc
      unfold TcEnv.fieldNamed at hm
      cases hf : E.h.resolveField m c with
      | none => rw [hf] at hm; cases hm
      | some f => rw [hf] at hm; cases hm; exact .classField c i1 (strengthen_strong _ _) (fieldNamed_resolve hf)
    · rename_i c hc
      unfold TcEnv.fieldNamed at hm
      cases hf : E.h.resolveField m c with
      | none => rw [hf] at hm; cases hm
      | some f => rw [hf] at hm; cases hm; exact .structField c i1 (strengthen_strong _ _) (fieldNamed_resolve hf)
    · rename_i c hc
      cases hf : E.enumMember c m with
      | error e => rw [hf] at hm; cases hm
      | ok f => rw [hf] at hm; cases hm; exact .enumMember c i1 (strengthen_strong _ _) hf
    · cases hm
  | .ArrayElem a i, _ => by
    intro st y st' h hn
    unfold TcEnv.check at h
    obtain ⟨int, s1, h1, h⟩ := Tc.bind_ok.1 h
    obtain ⟨hi, rfl⟩ := E.ask_ok.1 h1
    obtain ⟨x, s2, h2, h⟩ := Tc.bind_ok.1 h
    obtain ⟨y, s3, h3, h⟩ := Tc.bind_ok.1 h
    obtain ⟨rfl, rfl⟩ := Tc.pure_ok.1 h
    have g3 := grows_checkAs _ (check_grows E i) _ _ _ h3
    obtain ⟨y', i3, w3⟩ := checkAs_elab (check_elab hE i) _ _ _ h3 hn
    exact .elem (check_elab hE a _ _ _ _ h2 (hn.of_prefix g3.diags)) i3 w3
  | .New ty args, _ => by
    intro st y st' h hn
    unfold TcEnv.check at h
    obtain ⟨t, s1, h1, h⟩ := Tc.bind_ok.1 h
    obtain ⟨ht, rfl⟩ := E.ask_ok.1 h1
    obtain ⟨ms, s2, h2, h⟩ := Tc.bind_ok.1 h
    obtain ⟨hms, rfl⟩ := TcEnv.give_ok.1 h2
    obtain ⟨xs, s3, h3, h⟩ := Tc.bind_ok.1 h
    obtain ⟨rfl, rfl⟩ := Tc.pure_ok.1 h
    have hlen : args.length ≤ ms.length := by
      unfold TcEnv.newPlan at hms
      split at hms
      · split at hms
        · cases hms
        · cases hms
        · split at hms
          · rename_i h0; cases hms; rw [h0]; exact Nat.le_refl _
          · cases hms
      · split at hms
        · cases hms
        · rename_i fs hfs
          split at hms
          · rename_i hlen
            cases hft : E.fieldTypes fs with
            | error e => rw [hft] at hms; cases hms
            | ok ts =>
              rw [hft] at hms
              cases hms
              have hlen' := congrArg List.length (fieldTypes_ok hft)
              rw [List.length_map, List.length_map] at hlen'
              rw [List.length_map]
              omega
          · cases hms
      · cases hms
    exact .new ht (checkList_elab hE args _ _ _ _ h3 hn hlen).2.1
  | .Return none, _ => by
    intro st y st' h hn
    unfold TcEnv.check at h
    obtain ⟨r, s1, h1, h⟩ := Tc.bind_ok.1 h
    obtain ⟨hr, rfl⟩ := E.ask_ok.1 h1
    cases r with
    | some t => cases h
    | none => obtain ⟨rfl, rfl⟩ := Tc.pure_ok.1 h; exact .retNone _
  | .Return (some e), _ => by
    intro st y st' h hn
    unfold TcEnv.check at h
    obtain ⟨r, s1, h1, h⟩ := Tc.bind_ok.1 h
    obtain ⟨hr, rfl⟩ := E.ask_ok.1 h1
    cases r with
    | none => cases h
    | some t =>
      obtain ⟨x, s2, h2, h⟩ := Tc.bind_ok.1 h
      obtain ⟨rfl, rfl⟩ := Tc.pure_ok.1 h
      obtain ⟨x', i2, w2⟩ := checkAs_elab (check_elab hE e) _ _ _ h2 hn
      exact .ret i2 w2
  | .Seq es, _ => by
    intro st y st' h hn
    unfold TcEnv.check at h
    obtain ⟨xs, s1, h1, h⟩ := Tc.bind_ok.1 h
    obtain ⟨rfl, rfl⟩ := Tc.pure_ok.1 h
    exact .seq ((checkList_elab hE es _ _ _ _ h1 hn (by simp)).2.2 (keeps_plain _))
  | .Switch e cs d, _ => by
    intro st y st' h hn
    unfold TcEnv.check at h
    obtain ⟨x, s1, h1, h⟩ := Tc.bind_ok.1 h
    obtain ⟨t, s2, h2, h⟩ := Tc.bind_ok.1 h
    cases E.matchedType_ok h2
    obtain ⟨ys, s3, h3, h⟩ := Tc.bind_ok.1 h
    obtain ⟨z, s4, h4, h⟩ := Tc.bind_ok.1 h
    obtain ⟨rfl, rfl⟩ := Tc.pure_ok.1 h
    have g4 := checkBlockOpt_grows E d _ _ _ h4
    have g3 := checkCases_grows E t cs _ _ _ h3
    have i4 := checkBlockOpt_elab hE d _ _ _ h4 hn
    have i3 := checkCases_elab hE t cs _ _ _ h3 (hn.of_prefix g4.diags)
    have i1 := check_elab hE e _ _ _ _ h1 (hn.of_prefix (g3.trans g4).diags)
    exact .switch i1 i3 i4
  | .Goto t, _ => by
    intro st y st' h hn
    unfold TcEnv.check at h
    obtain ⟨rfl, rfl⟩ := Tc.pure_ok.1 h
    exact .goto _ _
  | .If c t e, _ => by
    intro st y st' h hn
    unfold TcEnv.check at h
    obtain ⟨b, s1, h1, h⟩ := Tc.bind_ok.1 h
    obtain ⟨hb, rfl⟩ := E.ask_ok.1 h1
    obtain ⟨x, s2, h2, h⟩ := Tc.bind_ok.1 h
    obtain ⟨ys, s3, h3, h⟩ := Tc.bind_ok.1 h
    obtain ⟨z, s4, h4, h⟩ := Tc.bind_ok.1 h
    obtain ⟨rfl, rfl⟩ := Tc.pure_ok.1 h
    obtain ⟨s5, h5, rfl⟩ := Tc.block_ok.1 h3
    have g4 := checkBlockOpt_grows E e _ _ _ h4
    have g3 := checkList_grows E t _ _ _ _ h5
    have i4 := checkBlockOpt_elab hE e _ _ _ h4 hn
    have i3 := (checkList_elab hE t _ _ _ _ h5 (hn.of_prefix g4.diags) (by simp)).2.2 (keeps_plain _)
    obtain ⟨x', i2, w2⟩ := checkAs_elab (check_elab hE c) _ _ _ h2 (hn.of_prefix (g3.diags.trans g4.diags))
    exact .ite i2 w2 i3 i4
  | .Conditional c t e, _ => by
    intro st y st' h hn
    unfold TcEnv.check at h
    obtain ⟨b, s1, h1, h⟩ := Tc.bind_ok.1 h
    obtain ⟨hb, rfl⟩ := E.ask_ok.1 h1
    obtain ⟨x, s2, h2, h⟩ := Tc.bind_ok.1 h
    obtain ⟨y, s3, h3, h⟩ := Tc.bind_ok.1 h
    obtain ⟨ty, s4, h4, h⟩ := Tc.bind_ok.1 h
    obtain ⟨hty, rfl⟩ := E.typeOf_ok.1 h4
    obtain ⟨z, s5, h5, h⟩ := Tc.bind_ok.1 h
    obtain ⟨rfl, rfl⟩ := Tc.pure_ok.1 h
    have g5 := check_grows E e _ _ _ _ h5
    have g3 := check_grows E t _ _ _ _ h3
    have i5 := check_elab hE e _ _ _ _ h5 hn
    have i3 := check_elab hE t _ _ _ _ h3 (hn.of_prefix g5.diags)
    obtain ⟨x', i2, w2⟩ := checkAs_elab (check_elab hE c) _ _ _ h2 (hn.of_prefix (g3.trans g5).diags)
    exact .conditional i2 w2 i3 i5
  | .While c b, _ => by
    intro st y st' h hn
    unfold TcEnv.check at h
    obtain ⟨bo, s1, h1, h⟩ := Tc.bind_ok.1 h
    obtain ⟨hb, rfl⟩ := E.ask_ok.1 h1
    obtain ⟨x, s2, h2, h⟩ := Tc.bind_ok.1 h
    obtain ⟨ys, s3, h3, h⟩ := Tc.bind_ok.1 h
    obtain ⟨rfl, rfl⟩ := Tc.pure_ok.1 h
    obtain ⟨s5, h5, rfl⟩ := Tc.block_ok.1 h3
    have g3 := checkList_grows E b _ _ _ _ h5
    have i3 := (checkList_elab hE b _ _ _ _ h5 hn (by simp)).2.2 (keeps_plain _)
    obtain ⟨x', i2, w2⟩ := checkAs_elab (check_elab hE c) _ _ _ h2 (hn.of_prefix g3.diags)
    exact .while i2 w2 i3
  | .ForIn n a b, _ => by
    intro st y st' h hn
    unfold TcEnv.check at h
    obtain ⟨x, s1, h1, h⟩ := Tc.bind_ok.1 h
    obtain ⟨t, s2, h2, h⟩ := Tc.bind_ok.1 h
    obtain ⟨ht, rfl⟩ := E.typeOf_ok.1 h2
    cases t
    case Array t =>
      obtain ⟨s3, h3, rfl⟩ := Tc.block_ok.1 h
      obtain ⟨l, s4, h4, h5⟩ := Tc.bind_ok.1 h3
      obtain ⟨ys, s5, h6, h7⟩ := Tc.bind_ok.1 h5
      obtain ⟨rfl, rfl⟩ := Tc.pure_ok.1 h7
      have g4 := grows_addLocal n t _ _ _ h4
      have g6 := checkList_grows E b _ _ _ _ h6
      have i6 := (checkList_elab hE b _ _ _ _ h6 hn (by simp)).2.2 (keeps_plain _)
      rw [addLocal_names h4] at i6
      have g := g4.trans g6
      have i1 := check_elab hE a _ _ _ _ h1 (hn.of_prefix g.diags)
      exact .forIn _ _ i1 i6
    all_goals cases h
  | .This, _ => by
    intro st y st' h hn
    unfold TcEnv.check at h
    obtain ⟨rfl, rfl⟩ := Tc.pure_ok.1 h
    exact .this _
  | .Super, _ => by
    intro st y st' h hn
    unfold TcEnv.check at h
    obtain ⟨rfl, rfl⟩ := Tc.pure_ok.1 h
    exact .super _
  | .Break, _ => by
    intro st y st' h hn
    unfold TcEnv.check at h
    obtain ⟨rfl, rfl⟩ := Tc.pure_ok.1 h
    exact .brk _
  | .Null, _ => by
    intro st y st' h hn
    unfold TcEnv.check at h
    obtain ⟨rfl, rfl⟩ := Tc.pure_ok.1 h
    exact .null _
theorem checkList_elab (hE : E.Lawful) : ∀ (es : List (Expr SourceAst)) (ms : List Mode),
    Faithful (E.checkList es ms) (ElabBoth E es ms)
  | [], ms => by
    intro st y st' h hn hl
    unfold TcEnv.checkList at h
    obtain ⟨rfl, rfl⟩ := Tc.pure_ok.1 h
    exact ⟨rfl, .nil _, fun _ => .nil _⟩
  | _ :: _, [] => by
    intro st y st' h hn hl
    simp at hl
  | e :: es, m :: ms => by
    intro st y st' h hn hl
    unfold TcEnv.checkList at h
    obtain ⟨x, s1, h1, h⟩ := Tc.bind_ok.1 h
    obtain ⟨xs, s2, h2, h⟩ := Tc.bind_ok.1 h
    obtain ⟨rfl, rfl⟩ := Tc.pure_ok.1 h
    have g2 := checkList_grows E es _ _ _ _ h2
    have i2 := checkList_elab hE es _ _ _ _ h2 hn (by simpa using hl)
    obtain ⟨x', i1, w1⟩ := checkAs_elab (check_elab hE e) _ _ _ h1 (hn.of_prefix g2.diags)
    refine ⟨by rw [List.length_cons, i2.1, List.length_cons], .cons i1 w1 i2.2.1, fun hk => ?_⟩
    exact .cons (checkAs_keeps (hk m List.mem_cons_self) (check_elab hE e) _ _ _ h1 (hn.of_prefix g2.diags))
      (i2.2.2 fun m' hm => hk m' (List.mem_cons_of_mem _ hm))
theorem checkParts_elab (hE : E.Lawful) : ∀ (ps : List (Expr SourceAst × Text)),
    Faithful (E.checkParts ps) fun ρ qs ρ' => ElabParts E ρ ps qs ρ'
  | [] => by
    intro st y st' h hn
    unfold TcEnv.checkParts at h
    obtain ⟨rfl, rfl⟩ := Tc.pure_ok.1 h
    exact .nil _
  | (e, s) :: ps => by
    intro st y st' h hn
    unfold TcEnv.checkParts at h
    obtain ⟨x, s1, h1, h⟩ := Tc.bind_ok.1 h
    obtain ⟨xs, s2, h2, h⟩ := Tc.bind_ok.1 h
    obtain ⟨rfl, rfl⟩ := Tc.pure_ok.1 h
    have g2 := checkParts_grows E ps _ _ _ h2
    have i2 := checkParts_elab hE ps _ _ _ h2 hn
    have i1 := check_elab hE e _ _ _ _ h1 (hn.of_prefix g2.diags)
    exact .cons i1 i2
theorem checkCases_elab (hE : E.Lawful) (t : Option TypeId) : ∀ (cs : List (Expr SourceAst × List (Expr SourceAst))),
    Faithful (E.checkCases t cs) fun ρ ds ρ' => ElabCases E ρ cs ds ρ'
  | [] => by
    intro st y st' h hn
    unfold TcEnv.checkCases at h
    obtain ⟨rfl, rfl⟩ := Tc.pure_ok.1 h
    exact .nil _
  | (m, b) :: cs => by
    intro st y st' h hn
    unfold TcEnv.checkCases at h
    obtain ⟨x, s1, h1, h⟩ := Tc.bind_ok.1 h
    obtain ⟨ys, s2, h2, h⟩ := Tc.bind_ok.1 h
    obtain ⟨zs, s3, h3, h⟩ := Tc.bind_ok.1 h
    obtain ⟨rfl, rfl⟩ := Tc.pure_ok.1 h
    obtain ⟨s5, h5, rfl⟩ := Tc.block_ok.1 h2
    have g3 := checkCases_grows E t cs _ _ _ h3
    have g5 := checkList_grows E b _ _ _ _ h5
    have i3 := checkCases_elab hE t cs _ _ _ h3 hn
    have i5 := (checkList_elab hE b _ _ _ _ h5 (hn.of_prefix g3.diags) (by simp)).2.2 (keeps_plain _)
    have i1 := check_elab hE m _ _ _ _ h1 (hn.of_prefix (g5.diags.trans g3.diags))
    exact .cons i1 i5 i3
theorem checkBlockOpt_elab (hE : E.Lawful) : ∀ (b : Option (List (Expr SourceAst))),
    Faithful (E.checkBlockOpt b) fun ρ c ρ' => ElabBlock E ρ b c ρ'
  | none => by
    intro st y st' h hn
    unfold TcEnv.checkBlockOpt at h
    obtain ⟨rfl, rfl⟩ := Tc.pure_ok.1 h
    exact .none _
  | some b => by
    intro st y st' h hn
    unfold TcEnv.checkBlockOpt at h
    obtain ⟨ys, s1, h1, h⟩ := Tc.bind_ok.1 h
    obtain ⟨rfl, rfl⟩ := Tc.pure_ok.1 h
    obtain ⟨s5, h5, rfl⟩ := Tc.block_ok.1 h1
    exact .some ((checkList_elab hE b _ _ _ _ h5 hn (by simp)).2.2 (keeps_plain _))
theorem checkIntrinsic_elab (hE : E.Lawful) (op : IntrinsicOp) (w : Option TypeId) :
    ∀ (args : List (Expr SourceAst)), Faithful (E.checkIntrinsic op w args) fun ρ x ρ' =>
      ∃ t ys, x = .Call (Callable.Intrinsic op t) [] ys ∧ ElabArgs E ρ args ys ρ'
  | [] => by
    intro st y st' h hn
    unfold TcEnv.checkIntrinsic at h
    cases h
  | a :: rest => by
    intro st y st' h hn
    unfold TcEnv.checkIntrinsic at h
    split at h
    · rename_i hc
      obtain ⟨x, s1, h1, h⟩ := Tc.bind_ok.1 h
      obtain ⟨t, s2, h2, h⟩ := Tc.bind_ok.1 h
      obtain ⟨ht, rfl⟩ := E.typeOf_ok.1 h2
      obtain ⟨plan, s3, h3, h⟩ := Tc.bind_ok.1 h
      obtain ⟨hp, rfl⟩ := TcEnv.give_ok.1 h3
      obtain ⟨ys, s4, h4, h⟩ := Tc.bind_ok.1 h
      obtain ⟨u, s5, h5, h⟩ := Tc.bind_ok.1 h
      obtain ⟨rfl, rfl⟩ := Tc.pure_ok.1 h
      obtain ⟨ms, r⟩ := plan
      have g5 := warn_grown h5
      have w5 := warn_names h5
      have g4 := checkList_grows E rest _ _ _ _ h4
      have hl := (plan_takes hp).1
      have i4 := (checkList_elab hE rest _ _ _ _ h4 (hn.of_prefix g5.diags) (by dsimp only; omega)).2.1
      have i1 := check_elab hE a _ _ _ _ h1 (hn.of_prefix (g4.trans g5).diags)
      exact ⟨_, _, rfl, .cons i1 .same (w5 ▸ i4)⟩
    · cases h
end

/-- C57: checking changes nothing but names and conversions. In an accepted body every statement, operand and argument
stands where it stood; each name is replaced by what it refers to, the innermost declaration in scope or else the
symbol; a call refers to a function with the written name, a method call to a method with the written name of a class,
an operator to a function for the operator; numeric literals keep their value in the wanted number type; and all
that is added are conversions around single expressions. The locals recorded for the function are those made for
the declarations and loops of the body, in their order. -/
theorem C57_only_names_and_conversions (E : TcEnv) (hE : E.Lawful) (refs : AMap Text Value)
    (body : List (Expr SourceAst)) (xs : List TypedExpr) (st : TcState)
    (h : E.checkBody refs body = .ok (xs, st)) (hn : TcDiag.compileError ∉ st.diags) :
    ∃ ρ, ElabSeq E ⟨fun n => refs.get n, []⟩ body xs ρ ∧ st.locals.map (·.1) = ρ.made :=
  ⟨st.names, (checkList_elab hE _ _ _ _ _ h hn (by simp)).2.2 (keeps_plain _), rfl⟩

/-- C57: two declarations never share a local variable, as long as the pool does not hand out an index twice. -/
theorem C57_own_local_for_every_declaration (E : TcEnv) (refs : AMap Text Value)
    (body : List (Expr SourceAst)) (xs : List TypedExpr) (st : TcState)
    (h : E.checkBody refs body = .ok (xs, st))
    (ha : ∀ i j, i < st.locals.length → j < st.locals.length → E.alloc i = E.alloc j → i = j) :
    (st.locals.map (·.1)).Nodup := by
  have g := (checkList_grows E body _ _ _ _ h).ok rfl
  rw [show st.locals.map (·.1) = (List.range st.locals.length).map E.alloc from g]
  unfold List.Nodup
  rw [List.pairwise_map]
  refine List.Pairwise.imp_of_mem ?_ (List.nodup_range (n := st.locals.length))
  intro i j hi hj hij hc
  exact hij (ha i j (List.mem_range.1 hi) (List.mem_range.1 hj) hc)

example : ∃ xs, ∃ st : TcState, ∃ ρ, ElabSeq TcToy.tc ⟨fun n => TcToy.names.get n, []⟩ TcToy.body xs ρ ∧
    st.locals.map (·.1) = ρ.made ∧ 2 ≤ st.locals.length ∧ (st.locals.map (·.1)).Nodup := by
  have hs : accepted (TcToy.tc.checkBody TcToy.names TcToy.body) = true := by decide +kernel
  have hl : ((TcToy.tc.checkBody TcToy.names TcToy.body).toOption.map fun r => r.2.locals.length) = some 4 := by
    decide +kernel
  obtain ⟨xs, st, h, hd⟩ := accepted_iff hs
  obtain ⟨ρ, hρ, hm⟩ := C57_only_names_and_conversions _ TcToy.tc_lawful _ _ _ _ h (by rw [hd]; intro h; cases h)
  rw [h] at hl
  have hl' : st.locals.length = 4 := Option.some.inj hl
  refine ⟨xs, st, ρ, hρ, hm, by omega, C57_own_local_for_every_declaration _ _ _ _ _ h ?_⟩
  intro i j hi hj hij
  rw [hl'] at hi hj
  have := congrArg BitVec.toNat hij
  simp only [TcToy.tc, BitVec.toNat_ofNat] at this
  omega

end
end Redscript
