import Verif.Typecheck.Pieces

/-!
# C56: accepted bodies are well typed
-/

namespace Redscript

/-- What is used of the declarations: a function has as many parameter types as parameters, and a local is read back
from the pool with the type it was stored with (C49). -/
structure TcEnv.Lawful (E : TcEnv) : Prop where
  types : ∀ f fn ts, E.function f = .ok fn → fn.types = .ok ts → ts.length = fn.optional.length
  stored : ∀ t t', E.stored t = .ok t' → Stores t t'

/-- Without errors the step gives something well typed. -/
def Good (x : Tc α) (P : List (Idx × TypeId) → α → Prop) : Prop :=
  ∀ st y st', x st = .ok (y, st') → NoFatal st'.diags → ∀ L, st'.locals <+: L → P L y

section
variable {E : TcEnv}

theorem typeTree_later {L L' : List (Idx × TypeId)} {e : TypedExpr} {t : TypeId}
    (h : typeTree (E.queries L) e = .ok t) (hL : L <+: L') : TypeIs E L' e t := (typeTree_sound h).mono hL

/-- What a mode promises. -/
def Promised (E : TcEnv) (L : List (Idx × TypeId)) (m : Mode) (y : TypedExpr) : Prop :=
  ∀ t, m = .convert t → Suits E L y t

/-- What the modes of a list promise. -/
inductive PromisedAll (E : TcEnv) (L : List (Idx × TypeId)) : List Mode → List TypedExpr → Prop
  | nil (ms) : PromisedAll E L ms []
  | cons {m ms y ys} : Promised E L m y → PromisedAll E L ms ys → PromisedAll E L (m :: ms) (y :: ys)

theorem PromisedAll.fits {L : List (Idx × TypeId)} {ts : List TypeId} {ys : List TypedExpr}
    (h : PromisedAll E L (ts.map .convert) ys) : FitAll E L ys ts := by
  induction ts generalizing ys with
  | nil => cases h; exact .nil _
  | cons t ts ih =>
    cases h with
    | nil => exact .nil _
    | cons h1 h2 => exact .cons (h1 t rfl) (ih h2)

theorem checkAs_good {m : Mode} {c : Option TypeId → Tc TypedExpr} (hc : ∀ t, Good (c t) (Ok E)) :
    Good (E.checkAs m c) fun L y => Ok E L y ∧ Promised E L m y := by
  intro st y st' h hn L hL
  unfold TcEnv.checkAs at h
  cases m with
  | plain => exact ⟨hc _ _ _ _ h hn L hL, fun t ht => by cases ht⟩
  | expect t => exact ⟨hc _ _ _ _ h hn L hL, fun t ht => by cases ht⟩
  | convert t =>
    obtain ⟨x, st1, h1, h2⟩ := Tc.bind_ok.1 h
    obtain ⟨rfl, s, c', hs, hcv, rfl⟩ := convertTo_ok h2 hn
    have := insert_ok hcv (hc _ _ _ _ h1 hn L hL) (typeTree_later hs hL)
    exact ⟨this.1, fun u hu => by cases hu; exact this.2⟩

/-! ## Overloads -/

theorem validateCall_ok {n : Nat} {f : Idx} {x : TcEnv.Eligible} (h : E.validateCall n f = .ok (some x)) :
    x.index = f ∧ E.function f = .ok x.fn ∧ x.fn.types = .ok x.types ∧ n ≤ x.fn.optional.length ∧
      (x.fn.optional.filter (· = false)).length ≤ n := by
  unfold TcEnv.validateCall at h
  split at h
  · cases h
  · rename_i fn hf
    split at h
    · cases h
    · rename_i hc
      split at h
      · rename_i ts ht
        cases h
        have : (fn.optional.filter (· = false)) = fn.optional.filter (!·) := by
          congr 1
          funext b
          cases b <;> rfl
        dsimp only
        rw [this]
        refine ⟨rfl, hf, ht, ?_, ?_⟩ <;> omega
      · cases h

theorem eligible_ok {n : Nat} {fs : List Idx} {xs : List TcEnv.Eligible} (h : E.eligible n fs = .ok xs) :
    ∀ x ∈ xs, x.index ∈ fs ∧ E.validateCall n x.index = .ok (some x) := by
  induction fs generalizing xs with
  | nil => cases h; intro x hx; cases hx
  | cons f fs ih =>
    unfold TcEnv.eligible at h
    cases hv : E.validateCall n f with
    | error e => rw [hv] at h; cases h
    | ok r =>
      cases hr : E.eligible n fs with
      | error e => rw [hv, hr] at h; cases h
      | ok rs =>
        rw [hv, hr] at h
        dsimp only at h
        cases r with
        | none =>
          cases h
          intro x hx
          exact ⟨List.mem_cons_of_mem _ (ih hr x hx).1, (ih hr x hx).2⟩
        | some y =>
          cases h
          intro x hx
          rcases List.mem_cons.1 hx with rfl | hx
          · rw [(validateCall_ok hv).1]
            exact ⟨List.mem_cons_self, hv⟩
          · exact ⟨List.mem_cons_of_mem _ (ih hr x hx).1, (ih hr x hx).2⟩

theorem conversions_ok {K : List (Idx × TypeId)} {as : List TypedExpr} {ps : List TypeId}
    {cs : List (Conversion × TypeId)} (h : E.conversions K as ps = .ok (some cs)) {L : List (Idx × TypeId)}
    (hL : K <+: L) (ha : AllOk E L as) (hl : as.length ≤ ps.length) :
    AllOk E L (TcEnv.converted as cs) ∧ FitAll E L (TcEnv.converted as cs) ps ∧
      (TcEnv.converted as cs).length = as.length := by
  induction as generalizing ps cs with
  | nil =>
    unfold TcEnv.conversions at h
    cases h
    exact ⟨.nil, .nil _, rfl⟩
  | cons a as ih =>
    cases ps with
    | nil => simp at hl
    | cons p ps =>
      unfold TcEnv.conversions at h
      cases ht : typeTree (E.queries K) a with
      | error e => rw [ht] at h; cases h
      | ok t =>
        rw [ht] at h
        dsimp only at h
        cases hc : E.conversion t p with
        | error e => rw [hc] at h; cases h
        | ok r =>
          rw [hc] at h
          cases r with
          | none => cases h
          | some c =>
            dsimp only at h
            cases hr : E.conversions K as ps with
            | error e => rw [hr] at h; cases h
            | ok r =>
              rw [hr] at h
              cases r with
              | none => cases h
              | some rs =>
                cases h
                cases ha with
                | cons ha1 ha2 =>
                  have h1 := insert_ok (conversion_ok hc) ha1 (typeTree_later ht hL)
                  have h2 := ih hr ha2 (by simpa using hl)
                  unfold TcEnv.converted at h2 ⊢
                  rw [List.zipWith_cons_cons]
                  exact ⟨.cons h1.1 h2.1, .cons h1.2 h2.2.1, by rw [List.length_cons, h2.2.2, List.length_cons]⟩

theorem validateArgs_ok {K : List (Idx × TypeId)} {x : TcEnv.Eligible} {as : List TypedExpr} {w : Option TypeId}
    {cs : List (Conversion × TypeId)} (h : E.validateArgs K x as w = .ok (some cs)) :
    E.conversions K as x.types = .ok (some cs) := by
  unfold TcEnv.validateArgs at h
  split at h
  · split at h
    · cases h
    · cases h
    · split at h
      · cases h
      · cases h
      · exact h
  · exact h

theorem firstMatch_ok {K : List (Idx × TypeId)} {as : List TypedExpr} {w : Option TypeId} {xs : List TcEnv.Eligible}
    {f : Idx} {cs : List (Conversion × TypeId)} (h : E.firstMatch K as w xs = .ok (some (f, cs))) :
    ∃ x ∈ xs, x.index = f ∧ E.conversions K as x.types = .ok (some cs) := by
  induction xs with
  | nil => cases h
  | cons x xs ih =>
    unfold TcEnv.firstMatch at h
    cases hv : E.validateArgs K x as w with
    | error e => rw [hv] at h; cases h
    | ok r =>
      rw [hv] at h
      dsimp only at h
      cases hr : E.firstMatch K as w xs with
      | error e => rw [hr] at h; cases h
      | ok rest =>
        rw [hr] at h
        cases r with
        | some cs' => cases h; exact ⟨x, List.mem_cons_self, rfl, validateArgs_ok hv⟩
        | none =>
          cases h
          obtain ⟨y, h1, h2⟩ := ih hr
          exact ⟨y, List.mem_cons_of_mem _ h1, h2⟩

theorem fallback_fatal {fs : List Idx} {p : Tc (List TypedExpr)} (hp : TcGrows E p) {e : TcErr} {st st' : TcState}
    {r : Idx × List TypedExpr} (h : TcEnv.overload.fallback E fs p e st = .ok (r, st')) : ¬NoFatal st'.diags := by
  intro hn
  unfold TcEnv.overload.fallback at h
  split at h
  · obtain ⟨_, st1, h1, h2⟩ := Tc.bind_ok.1 h
    obtain ⟨_, rfl⟩ := Tc.report_ok.1 h1
    obtain ⟨as, st2, h3, h4⟩ := Tc.bind_ok.1 h2
    have hd := (hp _ _ _ h3).diags
    split at h4
    · obtain ⟨_, rfl⟩ := Tc.pure_ok.1 h4
      exact hn (hd.subset (by simp))
    · cases h4
  · cases h

/-- The function chosen is one of those asked for, and its parameters get what they are declared with. -/
def Chosen (E : TcEnv) (L : List (Idx × TypeId)) (fs : List Idx) (n : Nat) (r : Idx × List TypedExpr) : Prop :=
  ∃ fn ts, r.1 ∈ fs ∧ E.function r.1 = .ok fn ∧ fn.types = .ok ts ∧ AllOk E L r.2 ∧ FitAll E L r.2 ts ∧
    r.2.length = n ∧ n ≤ fn.optional.length ∧ (fn.optional.filter (· = false)).length ≤ n

theorem overload_good (hE : E.Lawful) {fs : List Idx} {n : Nat} {w : Option TypeId}
    {x : List TypeId → Tc (List TypedExpr)} {p : Tc (List TypedExpr)} (gp : TcGrows E p)
    (hx : ∀ ts, n ≤ ts.length → Good (x ts) fun L ys => AllOk E L ys ∧ ys.length = n)
    (hp : Good p fun L ys => AllOk E L ys ∧ ys.length = n) :
    Good (E.overload fs n w x p) fun L r => Chosen E L fs n r := by
  intro st r st' h hn L hL
  unfold TcEnv.overload at h
  obtain ⟨xs, st1, h1, h2⟩ := Tc.bind_ok.1 h
  obtain ⟨h1', rfl⟩ := TcEnv.give_ok.1 h1
  have hel := eligible_ok h1'
  split at h2
  · rename_i y
    obtain ⟨as, st2, h3, h4⟩ := Tc.bind_ok.1 h2
    obtain ⟨e1, e2⟩ := hel y List.mem_cons_self
    obtain ⟨_, v1, v2, v3, v4⟩ := validateCall_ok e2
    split at h4
    · rename_i cs hcs
      cases h4
      have hl := hE.types _ _ _ v1 v2
      have ha := hx _ (by omega) _ _ _ h3 hn L hL
      have := conversions_ok (validateArgs_ok hcs) hL ha.1 (by omega)
      exact ⟨y.fn, y.types, e1, v1, v2, this.1, this.2.1, by rw [this.2.2, ha.2], v3, v4⟩
    · exact absurd hn (fallback_fatal gp h4)
    · exact absurd hn (fallback_fatal gp h4)
  · obtain ⟨as, st2, h3, h4⟩ := Tc.bind_ok.1 h2
    split at h4
    · rename_i f cs hcs
      cases h4
      obtain ⟨y, hy, rfl, hc⟩ := firstMatch_ok hcs
      obtain ⟨e1, e2⟩ := hel y hy
      obtain ⟨_, v1, v2, v3, v4⟩ := validateCall_ok e2
      have hl := hE.types _ _ _ v1 v2
      have ha := hp _ _ _ h3 hn L hL
      have := conversions_ok hc hL ha.1 (by omega)
      exact ⟨y.fn, y.types, e1, v1, v2, this.1, this.2.1, by rw [this.2.2, ha.2], v3, v4⟩
    · exact absurd hn (fallback_fatal gp h4)
    · cases h4

/-! ## Intrinsics -/

theorem lubAll_ok {xs : List TypedExpr} {t u : TypeId} {st st' : TcState} (h : E.lubAll t xs st = .ok (u, st')) :
    st = st' ∧ Joins E.h t u ∧ ∀ x ∈ xs, ∃ s, typeTree (E.queries st.locals) x = .ok s ∧ Joins E.h s u := by
  induction xs generalizing t st with
  | nil =>
    unfold TcEnv.lubAll at h
    obtain ⟨rfl, rfl⟩ := Tc.pure_ok.1 h
    exact ⟨rfl, .refl _ _, by intro x hx; cases hx⟩
  | cons x xs ih =>
    unfold TcEnv.lubAll at h
    obtain ⟨s, st1, h1, h2⟩ := Tc.bind_ok.1 h
    obtain ⟨h1', rfl⟩ := E.typeOf_ok.1 h1
    cases hv : E.h.lub t s with
    | none => rw [hv] at h2; cases h2
    | some r =>
      rw [hv] at h2
      cases r with
      | none => cases h2
      | some v =>
        obtain ⟨rfl, j, hs⟩ := ih h2
        have hj := lub_joins _ _ _ _ hv
        refine ⟨rfl, hj.1.trans j, ?_⟩
        intro y hy
        rcases List.mem_cons.1 hy with rfl | hy
        · exact ⟨s, h1', hj.2.trans j⟩
        · exact hs y hy

theorem warn_ok {op : IntrinsicOp} {t : TypeId} {ys : List TypedExpr} {st st' : TcState} {u : Unit}
    (h : E.warnUnrelated op t ys st = .ok (u, st')) : st.locals = st'.locals ∧
      ((op = .Equals ∨ op = .NotEquals) → ∀ y, ys = [y] → ∃ s, typeTree (E.queries st.locals) y = .ok s) := by
  unfold TcEnv.warnUnrelated at h
  split at h
  · rename_i y
    obtain ⟨s, st1, h1, h2⟩ := Tc.bind_ok.1 h
    obtain ⟨h1', rfl⟩ := E.typeOf_ok.1 h1
    refine ⟨?_, fun _ z hz => by cases hz; exact ⟨s, h1'⟩⟩
    cases hv : E.h.lub t s with
    | none => rw [hv] at h2; cases h2; rfl
    | some r =>
      rw [hv] at h2
      cases r with
      | none => cases h2; rfl
      | some v => obtain ⟨_, rfl⟩ := Tc.pure_ok.1 h2; rfl
  · rename_i y
    obtain ⟨s, st1, h1, h2⟩ := Tc.bind_ok.1 h
    obtain ⟨h1', rfl⟩ := E.typeOf_ok.1 h1
    refine ⟨?_, fun _ z hz => by cases hz; exact ⟨s, h1'⟩⟩
    cases hv : E.h.lub t s with
    | none => rw [hv] at h2; cases h2; rfl
    | some r =>
      rw [hv] at h2
      cases r with
      | none => cases h2; rfl
      | some v => obtain ⟨_, rfl⟩ := Tc.pure_ok.1 h2; rfl
  · rename_i hne1 hne2
    obtain ⟨_, rfl⟩ := Tc.pure_ok.1 h
    refine ⟨rfl, ?_⟩
    rintro (rfl | rfl) y rfl
    · exact absurd rfl (hne1 y rfl)
    · exact absurd rfl (hne2 y rfl)

theorem named_ok {n : String} {k : TypeId → List Mode × TypeId} {r : List Mode × TypeId} (h : E.named n k = .ok r) :
    ∃ t, E.typeNamed (.basic n) = .ok t ∧ k t = r := by
  unfold TcEnv.named at h
  split at h
  · rename_i t ht; cases h; exact ⟨t, ht, rfl⟩
  · cases h

/-- The intrinsics take what the plan says. -/
theorem plan_takes {op : IntrinsicOp} {t : TypeId} {w : Option TypeId} {ms : List Mode} {r : TypeId}
    (h : E.intrinsicPlan op t w = .ok (ms, r)) : op.argCount = ms.length + 1 ∧
      ((∃ b, (op = .Equals ∨ op = .NotEquals) ∧ ms = [.expect t] ∧ E.typeNamed (.basic "Bool") = .ok b ∧ r = b) ∨
        ∃ ts, IntrinsicTakes E op (t :: ts) r ∧ ms = ts.map .convert) := by
  cases op
  case Equals =>
    obtain ⟨b, hb, h⟩ := named_ok h
    cases h
    exact ⟨rfl, .inl ⟨_, .inl rfl, rfl, hb, rfl⟩⟩
  case NotEquals =>
    obtain ⟨b, hb, h⟩ := named_ok h
    cases h
    exact ⟨rfl, .inl ⟨_, .inr rfl, rfl, hb, rfl⟩⟩
  case ToString =>
    obtain ⟨b, hb, h⟩ := named_ok h
    cases h
    exact ⟨rfl, .inr ⟨[], .toString _ hb, rfl⟩⟩
  case ToVariant =>
    obtain ⟨b, hb, h⟩ := named_ok h
    cases h
    exact ⟨rfl, .inr ⟨[], .toVariant _ hb, rfl⟩⟩
  case AsRef => cases h; exact ⟨rfl, .inr ⟨[], .asRef (.refl _), rfl⟩⟩
  case IntEnum =>
    cases w with
    | none => cases h
    | some w =>
      cases w
      case Enum c => cases h; exact ⟨rfl, .inr ⟨[], .intEnum _ _, rfl⟩⟩
      all_goals cases h
  case FromVariant =>
    cases t
    case Variant =>
      cases w with
      | none => cases h
      | some w => cases h; exact ⟨rfl, .inr ⟨[], .fromVariant _, rfl⟩⟩
    all_goals cases h
  case ArrayErase =>
    cases t
    case Array u =>
      cases hi : E.typeNamed (.basic "Int32") with
      | error e => unfold TcEnv.intrinsicPlan at h; simp only [hi] at h; cases h
      | ok i =>
        unfold TcEnv.intrinsicPlan at h
        simp only [hi] at h
        obtain ⟨b, hb, h⟩ := named_ok h
        cases h
        exact ⟨rfl, .inr ⟨[_], .erase _ hi hb, rfl⟩⟩
    all_goals cases h
  case IsDefined =>
    cases t
    case Ref u =>
      obtain ⟨b, hb, h⟩ := named_ok h
      cases h
      exact ⟨rfl, .inr ⟨[], .isDefinedRef _ hb, rfl⟩⟩
    case WeakRef u =>
      obtain ⟨b, hb, h⟩ := named_ok h
      cases h
      exact ⟨rfl, .inr ⟨[], .isDefinedWeak _ hb, rfl⟩⟩
    case Null =>
      obtain ⟨b, hb, h⟩ := named_ok h
      cases h
      exact ⟨rfl, .inr ⟨[], .isDefinedNull hb, rfl⟩⟩
    case Variant =>
      obtain ⟨b, hb, h⟩ := named_ok h
      cases h
      exact ⟨rfl, .inr ⟨[], .isDefinedVariant hb, rfl⟩⟩
    all_goals cases h
  case ArrayClear =>
    cases t
    case Array =>
      cases h
      exact ⟨rfl, .inr ⟨[], .clear _, rfl⟩⟩
    all_goals cases h
  case ArraySize =>
    cases t
    case Array =>
      obtain ⟨b, hb, h⟩ := named_ok h
      cases h
      exact ⟨rfl, .inr ⟨[], .size _ hb, rfl⟩⟩
    all_goals cases h
  case ArrayResize =>
    cases t
    case Array =>
      obtain ⟨b, hb, h⟩ := named_ok h
      cases h
      exact ⟨rfl, .inr ⟨[_], .resize _ hb, rfl⟩⟩
    all_goals cases h
  case ArrayFindFirst =>
    cases t
    case Array =>
      cases h
      exact ⟨rfl, .inr ⟨[_], .findFirst _, rfl⟩⟩
    all_goals cases h
  case ArrayFindLast =>
    cases t
    case Array =>
      cases h
      exact ⟨rfl, .inr ⟨[_], .findLast _, rfl⟩⟩
    all_goals cases h
  case ArrayContains =>
    cases t
    case Array =>
      obtain ⟨b, hb, h⟩ := named_ok h
      cases h
      exact ⟨rfl, .inr ⟨[_], .contains _ hb, rfl⟩⟩
    all_goals cases h
  case ArrayCount =>
    cases t
    case Array =>
      obtain ⟨b, hb, h⟩ := named_ok h
      cases h
      exact ⟨rfl, .inr ⟨[_], .count _ hb, rfl⟩⟩
    all_goals cases h
  case ArrayPush =>
    cases t
    case Array =>
      cases h
      exact ⟨rfl, .inr ⟨[_], .push _, rfl⟩⟩
    all_goals cases h
  case ArrayPop =>
    cases t
    case Array =>
      cases h
      exact ⟨rfl, .inr ⟨[], .pop _, rfl⟩⟩
    all_goals cases h
  case ArrayInsert =>
    cases t
    case Array =>
      obtain ⟨b, hb, h⟩ := named_ok h
      cases h
      exact ⟨rfl, .inr ⟨[_, _], .insert _ hb, rfl⟩⟩
    all_goals cases h
  case ArrayRemove =>
    cases t
    case Array =>
      obtain ⟨b, hb, h⟩ := named_ok h
      cases h
      exact ⟨rfl, .inr ⟨[_], .remove _ hb, rfl⟩⟩
    all_goals cases h
  case ArrayGrow =>
    cases t
    case Array =>
      obtain ⟨b, hb, h⟩ := named_ok h
      cases h
      exact ⟨rfl, .inr ⟨[_], .grow _ hb, rfl⟩⟩
    all_goals cases h
  case ArrayLast =>
    cases t
    case Array =>
      cases h
      exact ⟨rfl, .inr ⟨[], .last _, rfl⟩⟩
    all_goals cases h
  case EnumInt =>
    cases t
    case Enum =>
      obtain ⟨b, hb, h⟩ := named_ok h
      cases h
      exact ⟨rfl, .inr ⟨[], .enumInt _ hb, rfl⟩⟩
    all_goals cases h
  case VariantTypeName =>
    cases t
    case Variant =>
      obtain ⟨b, hb, h⟩ := named_ok h
      cases h
      exact ⟨rfl, .inr ⟨[], .variantTypeName hb, rfl⟩⟩
    all_goals cases h
  case VariantIsRef =>
    cases t
    case Variant =>
      obtain ⟨b, hb, h⟩ := named_ok h
      cases h
      exact ⟨rfl, .inr ⟨[], .variantIsRef hb, rfl⟩⟩
    all_goals cases h
  case VariantIsArray =>
    cases t
    case Variant =>
      obtain ⟨b, hb, h⟩ := named_ok h
      cases h
      exact ⟨rfl, .inr ⟨[], .variantIsArray hb, rfl⟩⟩
    all_goals cases h
  case Deref =>
    cases t
    case ScriptRef =>
      cases h
      exact ⟨rfl, .inr ⟨[], .deref _, rfl⟩⟩
    all_goals cases h
  all_goals cases h

theorem plan_ok {op : IntrinsicOp} {t : TypeId} {w : Option TypeId} {ms : List Mode} {r : TypeId}
    (h : E.intrinsicPlan op t w = .ok (ms, r)) {L : List (Idx × TypeId)} {x : TypedExpr} {ys : List TypedExpr}
    (hx : Ok E L x) (ht : TypeIs E L x t) (hy : AllOk E L ys) (hp : PromisedAll E L ms ys)
    (hl : ys.length = ms.length)
    (he : (op = .Equals ∨ op = .NotEquals) → ∀ y, ys = [y] → ∃ s, TypeIs E L y s) :
    Ok E L (.Call (Callable.Intrinsic op r) [] (x :: ys)) := by
  rcases (plan_takes h).2 with ⟨b, ho, rfl, hb, rfl⟩ | ⟨ts, hi, rfl⟩
  · match ys, hl with
    | [y], _ =>
      obtain ⟨s, hs⟩ := he ho y rfl
      rcases ho with rfl | rfl
      · exact .intrinsic _ (.equals t s hb) (.cons hx hy) (.cons ⟨_, ht, .refl _⟩ (.one hs)) rfl
      · exact .intrinsic _ (.notEquals t s hb) (.cons hx hy) (.cons ⟨_, ht, .refl _⟩ (.one hs)) rfl
  · exact .intrinsic _ hi (.cons hx hy) (.cons ⟨_, ht, .refl _⟩ hp.fits) (by simpa using hl)

theorem warn_grown {op : IntrinsicOp} {t : TypeId} {ys : List TypedExpr} {st st' : TcState} {u : Unit}
    (h : E.warnUnrelated op t ys st = .ok (u, st')) : TcGrown E st st' := grows_warn op t ys st u st' h

theorem addLocal_good (hE : E.Lawful) {n : Text} {t : TypeId} {l : Idx} {st st' : TcState}
    (h : E.addLocal n t st = .ok (l, st')) : ∃ u, Stores t u ∧ (l, u) ∈ st'.locals ∧ st'.diags = st.diags := by
  obtain ⟨u, hu, rfl, rfl⟩ := E.addLocal_ok.1 h
  exact ⟨u, hE.stored _ _ hu, by simp, rfl⟩

mutual
theorem check_good (hE : E.Lawful) : ∀ (e : Expr SourceAst) (t : Option TypeId), Good (E.check e t) (Ok E)
  | .Ident n, _ => by
    intro st y st' h hn L hL
    unfold TcEnv.check at h
    unfold TcEnv.checkIdent at h
    split at h
    · cases h; exact .ident _
    · split at h
      · exfalso
        obtain ⟨_, s1, h1, h⟩ := Tc.bind_ok.1 h
        obtain ⟨_, rfl⟩ := Tc.report_ok.1 h1
        obtain ⟨_, rfl⟩ := Tc.pure_ok.1 h
        exact hn (by simp)
      · cases h
  | .Constant c, none => by
    intro st y st' h hn L hL
    unfold TcEnv.check at h
    obtain ⟨rfl, rfl⟩ := Tc.pure_ok.1 h
    exact .constant _
  | .Constant c, some t => by
    intro st y st' h hn L hL
    unfold TcEnv.check at h
    obtain ⟨n, s1, h1, h⟩ := Tc.bind_ok.1 h
    obtain ⟨rfl, rfl⟩ := Tc.pure_ok.1 h
    exact .constant _
  | .ArrayLit [] _, t => by
    intro st y st' h hn L hL
    unfold TcEnv.check at h
    dsimp only at h
    split at h
    · obtain ⟨rfl, rfl⟩ := Tc.pure_ok.1 h
      exact .array .nil (by intro e he; cases he)
    · cases h
  | .ArrayLit (e :: es) _, t => by
    intro st y st' h hn L hL
    unfold TcEnv.check at h
    obtain ⟨x, s1, h1, h⟩ := Tc.bind_ok.1 h
    obtain ⟨xs, s2, h2, h⟩ := Tc.bind_ok.1 h
    obtain ⟨a, s3, h3, h⟩ := Tc.bind_ok.1 h
    obtain ⟨ha, rfl⟩ := E.typeOf_ok.1 h3
    obtain ⟨b, s4, h4, h⟩ := Tc.bind_ok.1 h
    obtain ⟨rfl, rfl⟩ := Tc.pure_ok.1 h
    obtain ⟨rfl, j, hs⟩ := lubAll_ok h4
    have g2 := checkList_grows E es _ _ _ _ h2
    have i2 := checkList_good hE es _ _ _ _ h2 hn L hL
    have i1 := checkAs_good (check_good hE e) _ _ _ h1 (hn.of_prefix g2.diags) L (g2.locals.trans hL)
    refine .array (.cons i1.1 i2.1) ?_
    intro y hy
    rcases List.mem_cons.1 hy with rfl | hy
    · exact ⟨a, typeTree_later ha hL, j⟩
    · obtain ⟨s, h5, h6⟩ := hs y hy
      exact ⟨s, typeTree_later h5 hL, h6⟩
  | .InterpolatedString s ps, _ => by
    intro st y st' h hn L hL
    unfold TcEnv.check at h
    obtain ⟨xs, s1, h1, h⟩ := Tc.bind_ok.1 h
    obtain ⟨rfl, rfl⟩ := Tc.pure_ok.1 h
    exact .text (checkParts_good hE ps _ _ _ h1 hn L hL)
  | .Declare n none none, _ => by
    intro st y st' h hn L hL
    unfold TcEnv.check at h
    cases h
  | .Declare n (some ty) none, _ => by
    intro st y st' h hn L hL
    unfold TcEnv.check at h
    obtain ⟨t, s1, h1, h⟩ := Tc.bind_ok.1 h
    obtain ⟨l, s2, h2, h⟩ := Tc.bind_ok.1 h
    obtain ⟨rfl, rfl⟩ := Tc.pure_ok.1 h
    obtain ⟨u, hu, hm, _⟩ := addLocal_good hE h2
    exact .declare (hL.subset hm) hu
  | .Declare n none (some e), _ => by
    intro st y st' h hn L hL
    unfold TcEnv.check at h
    obtain ⟨x, s1, h1, h⟩ := Tc.bind_ok.1 h
    obtain ⟨t, s2, h2, h⟩ := Tc.bind_ok.1 h
    obtain ⟨ht, rfl⟩ := E.typeOf_ok.1 h2
    obtain ⟨l, s3, h3, h⟩ := Tc.bind_ok.1 h
    obtain ⟨rfl, rfl⟩ := Tc.pure_ok.1 h
    obtain ⟨u, hu, hm, _⟩ := addLocal_good hE h3
    have g3 := grows_addLocal n t _ _ _ h3
    have i1 := check_good hE e _ _ _ _ h1 (hn.of_prefix g3.diags) L (g3.locals.trans hL)
    exact .declareAs (hL.subset hm) hu i1 ⟨t, typeTree_later ht (g3.locals.trans hL), .refl _⟩
  | .Declare n (some ty) (some e), _ => by
    intro st y st' h hn L hL
    unfold TcEnv.check at h
    obtain ⟨t, s1, h1, h⟩ := Tc.bind_ok.1 h
    obtain ⟨x, s2, h2, h⟩ := Tc.bind_ok.1 h
    obtain ⟨l, s3, h3, h⟩ := Tc.bind_ok.1 h
    obtain ⟨rfl, rfl⟩ := Tc.pure_ok.1 h
    obtain ⟨u, hu, hm, _⟩ := addLocal_good hE h3
    have g3 := grows_addLocal n t _ _ _ h3
    have i2 := checkAs_good (check_good hE e) _ _ _ h2 (hn.of_prefix g3.diags) L (g3.locals.trans hL)
    exact .declareAs (hL.subset hm) hu i2.1 (i2.2 _ rfl)
  | .Cast ty e, _ => by
    intro st y st' h hn L hL
    unfold TcEnv.check at h
    obtain ⟨t, s1, h1, h⟩ := Tc.bind_ok.1 h
    obtain ⟨x, s2, h2, h⟩ := Tc.bind_ok.1 h
    obtain ⟨a, s3, h3, h⟩ := Tc.bind_ok.1 h
    obtain ⟨ha, rfl⟩ := E.typeOf_ok.1 h3
    obtain ⟨rfl, rfl⟩ := Tc.pure_ok.1 h
    have i2 := check_good hE e _ _ _ _ h2 hn L hL
    obtain ⟨s, j1, j2, j3, _⟩ := strengthen_ok i2 (typeTree_later ha hL)
    exact .cast _ j1 j2 j3
  | .Assign l r, _ => by
    intro st y st' h hn L hL
    unfold TcEnv.check at h
    obtain ⟨x, s1, h1, h⟩ := Tc.bind_ok.1 h
    obtain ⟨t, s2, h2, h⟩ := Tc.bind_ok.1 h
    obtain ⟨ht, rfl⟩ := E.typeOf_ok.1 h2
    obtain ⟨y, s3, h3, h⟩ := Tc.bind_ok.1 h
    obtain ⟨rfl, rfl⟩ := Tc.pure_ok.1 h
    have g3 := grows_checkAs _ (check_grows E r) _ _ _ h3
    have i3 := checkAs_good (check_good hE r) _ _ _ h3 hn L hL
    have i1 := check_good hE l _ _ _ _ h1 (hn.of_prefix g3.diags) L (g3.locals.trans hL)
    exact .assign i1 i3.1 (typeTree_later ht (g3.locals.trans hL)) (i3.2 _ rfl)
  | .Call f tys args, t => by
    intro st y st' h hn L hL
    unfold TcEnv.check at h
    obtain ⟨w, s1, h1, h⟩ := Tc.bind_ok.1 h
    cases ho : IntrinsicOp.ofName f with
    | some op =>
      rw [ho] at h
      exact checkIntrinsic_good hE op w args _ _ _ h hn L hL
    | none =>
      rw [ho] at h
      obtain ⟨fs, s2, h2, h⟩ := Tc.bind_ok.1 h
      obtain ⟨m, s3, h3, h⟩ := Tc.bind_ok.1 h
      obtain ⟨rfl, rfl⟩ := Tc.pure_ok.1 h
      have hl := checkList_good hE args
      obtain ⟨fn, ts, _, c1, c2, c3, c4, c5, c6, c7⟩ := overload_good hE (checkList_grows E args _)
        (fun ts hts st y st' h hn L hL => ⟨(hl _ _ _ _ h hn L hL).1, by
          rw [(hl _ _ _ _ h hn L hL).2.2, List.length_map]; omega⟩)
        (fun st y st' h hn L hL => ⟨(hl _ _ _ _ h hn L hL).1, by
          rw [(hl _ _ _ _ h hn L hL).2.2, List.length_map]; omega⟩) _ _ _ h3 hn L hL
      exact .call _ c1 c2 c3 c4 (by omega) (by omega)
  | .MethodCall ctx f args, t => by
    intro st y st' h hn L hL
    unfold TcEnv.check at h
    obtain ⟨x, s1, h1, h⟩ := Tc.bind_ok.1 h
    obtain ⟨a, s2, h2, h⟩ := Tc.bind_ok.1 h
    obtain ⟨ha, rfl⟩ := E.typeOf_ok.1 h2
    obtain ⟨fs, s3, h3, h⟩ := Tc.bind_ok.1 h
    obtain ⟨hfs, rfl⟩ := E.ask_ok.1 h3
    obtain ⟨m, s4, h4, h⟩ := Tc.bind_ok.1 h
    obtain ⟨rfl, rfl⟩ := Tc.pure_ok.1 h
    have hl := checkList_good hE args
    have g4 := grows_overload fs args.length t (fun ts => checkList_grows E args _) (checkList_grows E args _) _ _ _ h4
    obtain ⟨fn, ts, c0, c1, c2, c3, c4, c5, c6, c7⟩ := overload_good hE (checkList_grows E args _)
      (fun ts hts st y st' h hn L hL => ⟨(hl _ _ _ _ h hn L hL).1, by
        rw [(hl _ _ _ _ h hn L hL).2.2, List.length_map]; omega⟩)
      (fun st y st' h hn L hL => ⟨(hl _ _ _ _ h hn L hL).1, by
        rw [(hl _ _ _ _ h hn L hL).2.2, List.length_map]; omega⟩) _ _ _ h4 hn L hL
    have i1 := check_good hE ctx _ _ _ _ h1 (hn.of_prefix g4.diags) L (g4.locals.trans hL)
    obtain ⟨s, j1, j2, j3, j4⟩ := strengthen_ok i1 (typeTree_later ha (g4.locals.trans hL))
    unfold TcEnv.methodsOf at hfs
    split at hfs
    · rename_i c hc
      unfold TcEnv.methods at hfs
      split at hfs
      · rename_i gs hg
        cases hfs
        exact .method j1 j2 j3 (refersTo (.inl (j4.trans hc))) (hasMethod hg c0) c1 c2 c3 c4 (by omega) (by omega)
      · cases hfs
    · rename_i c hc
      unfold TcEnv.methods at hfs
      split at hfs
      · rename_i gs hg
        cases hfs
        exact .method j1 j2 j3 (refersTo (.inr (j4.trans hc))) (hasMethod hg c0) c1 c2 c3 c4 (by omega) (by omega)
      · cases hfs
    · cases hfs
  | .BinOp l r op, t => by
    intro st y st' h hn L hL
    unfold TcEnv.check at h
    obtain ⟨fs, s2, h2, h⟩ := Tc.bind_ok.1 h
    obtain ⟨m, s3, h3, h⟩ := Tc.bind_ok.1 h
    obtain ⟨rfl, rfl⟩ := Tc.pure_ok.1 h
    have hg1 := check_grows E l
    have hg2 := check_grows E r
    have two : ∀ a b, Good (do let x ← E.check l a; let y ← E.check r b; pure [x, y])
        fun L ys => AllOk E L ys ∧ ys.length = 2 := by
      intro a b st ys st' h hn L hL
      obtain ⟨x, s1, h1, h⟩ := Tc.bind_ok.1 h
      obtain ⟨y, s2, h2, h⟩ := Tc.bind_ok.1 h
      obtain ⟨rfl, rfl⟩ := Tc.pure_ok.1 h
      have g2 := hg2 _ _ _ _ h2
      have i2 := check_good hE r _ _ _ _ h2 hn L hL
      have i1 := check_good hE l _ _ _ _ h1 (hn.of_prefix g2.diags) L (g2.locals.trans hL)
      exact ⟨.cons i1 (.one i2), rfl⟩
    obtain ⟨fn, ts, _, c1, c2, c3, c4, c5, c6, c7⟩ := overload_good hE
      (grows_bind (hg1 _) fun _ => grows_bind (hg2 _) fun _ => grows_pure _)
      (fun ts hts => by
        match ts, hts with
        | t :: u :: ts, _ => exact two _ _)
      (two _ _) _ _ _ h3 hn L hL
    exact .call _ c1 c2 c3 c4 (by omega) (by omega)
  | .UnOp e op, t => by
    intro st y st' h hn L hL
    unfold TcEnv.check at h
    obtain ⟨fs, s2, h2, h⟩ := Tc.bind_ok.1 h
    obtain ⟨m, s3, h3, h⟩ := Tc.bind_ok.1 h
    obtain ⟨rfl, rfl⟩ := Tc.pure_ok.1 h
    have one : ∀ a, Good (do let x ← E.check e a; pure [x]) fun L ys => AllOk E L ys ∧ ys.length = 1 := by
      intro a st ys st' h hn L hL
      obtain ⟨x, s1, h1, h⟩ := Tc.bind_ok.1 h
      obtain ⟨rfl, rfl⟩ := Tc.pure_ok.1 h
      exact ⟨.one (check_good hE e _ _ _ _ h1 hn L hL), rfl⟩
    obtain ⟨fn, ts, _, c1, c2, c3, c4, c5, c6, c7⟩ := overload_good hE
      (grows_bind (check_grows E e _) fun _ => grows_pure _)
      (fun ts hts => by
        match ts, hts with
        | t :: ts, _ => exact one _)
      (one _) _ _ _ h3 hn L hL
    exact .call _ c1 c2 c3 c4 (by omega) (by omega)
  | .Member ctx m, _ => by
    intro st y st' h hn L hL
    unfold TcEnv.check at h
    obtain ⟨x, s1, h1, h⟩ := Tc.bind_ok.1 h
    obtain ⟨a, s2, h2, h⟩ := Tc.bind_ok.1 h
    obtain ⟨ha, rfl⟩ := E.typeOf_ok.1 h2
    obtain ⟨fd, s3, h3, h⟩ := Tc.bind_ok.1 h
    obtain ⟨hm, rfl⟩ := E.ask_ok.1 h3
    obtain ⟨rfl, rfl⟩ := Tc.pure_ok.1 h
    have i1 := check_good hE ctx _ _ _ _ h1 hn L hL
    obtain ⟨s, j1, j2, j3, j4⟩ := strengthen_ok i1 (typeTree_later ha hL)
    unfold TcEnv.memberOf at hm
    split at hm
    · rename_i c hc
      unfold TcEnv.fieldNamed at hm
      cases hf : E.h.resolveField m c with
      | none => rw [hf] at hm; cases hm
      | some f => rw [hf] at hm; cases hm; exact .classField j1 j2 j3 (refersTo (.inl (j4.trans hc))) (hasField hf)
    · rename_i c hc
      unfold TcEnv.fieldNamed at hm
      cases hf : E.h.resolveField m c with
      | none => rw [hf] at hm; cases hm
      | some f => rw [hf] at hm; cases hm; exact .structField j1 j2 j3 (refersTo (.inr (j4.trans hc))) (hasField hf)
    · rename_i c hc
      cases hf : E.enumMember c m with
      | error e => rw [hf] at hm; cases hm
      | ok f => rw [hf] at hm; cases hm; exact .enumMember j1 j2 j3 (refersToEnum (j4.trans hc)) hf
    · cases hm
  | .ArrayElem a i, _ => by
    intro st y st' h hn L hL
    unfold TcEnv.check at h
    obtain ⟨int, s1, h1, h⟩ := Tc.bind_ok.1 h
    obtain ⟨hi, rfl⟩ := E.ask_ok.1 h1
    obtain ⟨x, s2, h2, h⟩ := Tc.bind_ok.1 h
    obtain ⟨y, s3, h3, h⟩ := Tc.bind_ok.1 h
    obtain ⟨rfl, rfl⟩ := Tc.pure_ok.1 h
    have g3 := grows_checkAs _ (check_grows E i) _ _ _ h3
    have i3 := checkAs_good (check_good hE i) _ _ _ h3 hn L hL
    have i1 := check_good hE a _ _ _ _ h2 (hn.of_prefix g3.diags) L (g3.locals.trans hL)
    exact .elem i1 i3.1 hi (i3.2 _ rfl)
  | .New ty args, _ => by
    intro st y st' h hn L hL
    unfold TcEnv.check at h
    obtain ⟨t, s1, h1, h⟩ := Tc.bind_ok.1 h
    obtain ⟨ms, s2, h2, h⟩ := Tc.bind_ok.1 h
    obtain ⟨hms, rfl⟩ := TcEnv.give_ok.1 h2
    obtain ⟨xs, s3, h3, h⟩ := Tc.bind_ok.1 h
    obtain ⟨rfl, rfl⟩ := Tc.pure_ok.1 h
    have i3 := checkList_good hE args _ _ _ _ h3 hn L hL
    unfold TcEnv.newPlan at hms
    split at hms
    · rename_i c
      split at hms
      · cases hms
      · cases hms
      · rename_i ha
        split at hms
        · cases hms
          have : xs = [] := by cases i3.2.1; rfl
          subst this
          exact .newClass ha
        · cases hms
    · rename_i c
      split at hms
      · cases hms
      · rename_i fs hfs
        split at hms
        · rename_i hlen
          cases hft : E.fieldTypes fs with
          | error e => rw [hft] at hms; cases hms
          | ok ts =>
            rw [hft] at hms
            cases hms
            have hmap := fieldTypes_ok hft
            have hlen' := congrArg List.length hmap
            rw [List.length_map, List.length_map] at hlen'
            refine .newStruct hfs hmap i3.1 i3.2.1.fits ?_
            rw [i3.2.2, List.length_map]
            omega
        · cases hms
    · cases hms
  | .Return none, _ => by
    intro st y st' h hn L hL
    unfold TcEnv.check at h
    obtain ⟨r, s1, h1, h⟩ := Tc.bind_ok.1 h
    obtain ⟨hr, rfl⟩ := E.ask_ok.1 h1
    cases r with
    | some t => cases h
    | none => obtain ⟨rfl, rfl⟩ := Tc.pure_ok.1 h; exact .retNone hr
  | .Return (some e), _ => by
    intro st y st' h hn L hL
    unfold TcEnv.check at h
    obtain ⟨r, s1, h1, h⟩ := Tc.bind_ok.1 h
    obtain ⟨hr, rfl⟩ := E.ask_ok.1 h1
    cases r with
    | none => cases h
    | some t =>
      obtain ⟨x, s2, h2, h⟩ := Tc.bind_ok.1 h
      obtain ⟨rfl, rfl⟩ := Tc.pure_ok.1 h
      have i2 := checkAs_good (check_good hE e) _ _ _ h2 hn L hL
      exact .ret hr i2.1 (i2.2 _ rfl)
  | .Seq es, _ => by
    intro st y st' h hn L hL
    unfold TcEnv.check at h
    obtain ⟨xs, s1, h1, h⟩ := Tc.bind_ok.1 h
    obtain ⟨rfl, rfl⟩ := Tc.pure_ok.1 h
    exact .seq (checkList_good hE es _ _ _ _ h1 hn L hL).1
  | .Switch e cs d, _ => by
    intro st y st' h hn L hL
    unfold TcEnv.check at h
    obtain ⟨x, s1, h1, h⟩ := Tc.bind_ok.1 h
    obtain ⟨t, s2, h2, h⟩ := Tc.bind_ok.1 h
    cases E.matchedType_ok h2
    obtain ⟨ys, s3, h3, h⟩ := Tc.bind_ok.1 h
    obtain ⟨z, s4, h4, h⟩ := Tc.bind_ok.1 h
    obtain ⟨rfl, rfl⟩ := Tc.pure_ok.1 h
    have g4 := checkBlockOpt_grows E d _ _ _ h4
    have g3 := checkCases_grows E t cs _ _ _ h3
    have i4 := checkBlockOpt_good hE d _ _ _ h4 hn L hL
    have i3 := checkCases_good hE t cs _ _ _ h3 (hn.of_prefix g4.diags) L (g4.locals.trans hL)
    have i1 := check_good hE e _ _ _ _ h1 (hn.of_prefix (g3.trans g4).diags) L ((g3.trans g4).locals.trans hL)
    exact .switch i1 i3 i4
  | .Goto t, _ => by
    intro st y st' h hn L hL
    unfold TcEnv.check at h
    obtain ⟨rfl, rfl⟩ := Tc.pure_ok.1 h
    exact .goto _
  | .If c t e, _ => by
    intro st y st' h hn L hL
    unfold TcEnv.check at h
    obtain ⟨b, s1, h1, h⟩ := Tc.bind_ok.1 h
    obtain ⟨hb, rfl⟩ := E.ask_ok.1 h1
    obtain ⟨x, s2, h2, h⟩ := Tc.bind_ok.1 h
    obtain ⟨ys, s3, h3, h⟩ := Tc.bind_ok.1 h
    obtain ⟨z, s4, h4, h⟩ := Tc.bind_ok.1 h
    obtain ⟨rfl, rfl⟩ := Tc.pure_ok.1 h
    obtain ⟨s5, h5, rfl⟩ := Tc.block_ok.1 h3
    have g4 := checkBlockOpt_grows E e _ _ _ h4
    have g3 := checkList_grows E t _ _ _ _ h5
    have i4 := checkBlockOpt_good hE e _ _ _ h4 hn L hL
    have i3 := checkList_good hE t _ _ _ _ h5 (hn.of_prefix g4.diags) L (g4.locals.trans hL)
    have i2 := checkAs_good (check_good hE c) _ _ _ h2 (hn.of_prefix (g3.diags.trans g4.diags)) L
      ((g3.locals.trans g4.locals).trans hL)
    exact .ite i2.1 ⟨b, hb, i2.2 _ rfl⟩ i3.1 i4
  | .Conditional c t e, _ => by
    intro st y st' h hn L hL
    unfold TcEnv.check at h
    obtain ⟨b, s1, h1, h⟩ := Tc.bind_ok.1 h
    obtain ⟨hb, rfl⟩ := E.ask_ok.1 h1
    obtain ⟨x, s2, h2, h⟩ := Tc.bind_ok.1 h
    obtain ⟨y, s3, h3, h⟩ := Tc.bind_ok.1 h
    obtain ⟨ty, s4, h4, h⟩ := Tc.bind_ok.1 h
    obtain ⟨hty, rfl⟩ := E.typeOf_ok.1 h4
    obtain ⟨z, s5, h5, h⟩ := Tc.bind_ok.1 h
    obtain ⟨rfl, rfl⟩ := Tc.pure_ok.1 h
    have g5 := check_grows E e _ _ _ _ h5
    have g3 := check_grows E t _ _ _ _ h3
    have i5 := check_good hE e _ _ _ _ h5 hn L hL
    have i3 := check_good hE t _ _ _ _ h3 (hn.of_prefix g5.diags) L (g5.locals.trans hL)
    have i2 := checkAs_good (check_good hE c) _ _ _ h2 (hn.of_prefix (g3.trans g5).diags) L
      ((g3.trans g5).locals.trans hL)
    exact .conditional i2.1 ⟨b, hb, i2.2 _ rfl⟩ i3 (typeTree_later hty (g5.locals.trans hL)) i5
  | .While c b, _ => by
    intro st y st' h hn L hL
    unfold TcEnv.check at h
    obtain ⟨bo, s1, h1, h⟩ := Tc.bind_ok.1 h
    obtain ⟨hb, rfl⟩ := E.ask_ok.1 h1
    obtain ⟨x, s2, h2, h⟩ := Tc.bind_ok.1 h
    obtain ⟨ys, s3, h3, h⟩ := Tc.bind_ok.1 h
    obtain ⟨rfl, rfl⟩ := Tc.pure_ok.1 h
    obtain ⟨s5, h5, rfl⟩ := Tc.block_ok.1 h3
    have g3 := checkList_grows E b _ _ _ _ h5
    have i3 := checkList_good hE b _ _ _ _ h5 hn L hL
    have i2 := checkAs_good (check_good hE c) _ _ _ h2 (hn.of_prefix g3.diags) L (g3.locals.trans hL)
    exact .while i2.1 ⟨bo, hb, i2.2 _ rfl⟩ i3.1
  | .ForIn n a b, _ => by
    intro st y st' h hn L hL
    unfold TcEnv.check at h
    obtain ⟨x, s1, h1, h⟩ := Tc.bind_ok.1 h
    obtain ⟨t, s2, h2, h⟩ := Tc.bind_ok.1 h
    obtain ⟨ht, rfl⟩ := E.typeOf_ok.1 h2
    cases t
    case Array t =>
      obtain ⟨s3, h3, rfl⟩ := Tc.block_ok.1 h
      obtain ⟨l, s4, h4, h5⟩ := Tc.bind_ok.1 h3
      obtain ⟨ys, s5, h6, h7⟩ := Tc.bind_ok.1 h5
      obtain ⟨rfl, rfl⟩ := Tc.pure_ok.1 h7
      obtain ⟨u, hu, hm, hd⟩ := addLocal_good hE h4
      have g4 := grows_addLocal n t _ _ _ h4
      have g6 := checkList_grows E b _ _ _ _ h6
      have i6 := checkList_good hE b _ _ _ _ h6 hn L hL
      have g := g4.trans g6
      have i1 := check_good hE a _ _ _ _ h1 (hn.of_prefix g.diags) L (g.locals.trans hL)
      exact .forIn i1 (typeTree_later ht (g.locals.trans hL)) ((g6.locals.trans hL).subset hm) hu i6.1
    all_goals cases h
  | .This, _ => by
    intro st y st' h hn L hL
    unfold TcEnv.check at h
    obtain ⟨rfl, rfl⟩ := Tc.pure_ok.1 h
    exact .this
  | .Super, _ => by
    intro st y st' h hn L hL
    unfold TcEnv.check at h
    obtain ⟨rfl, rfl⟩ := Tc.pure_ok.1 h
    exact .super
  | .Break, _ => by
    intro st y st' h hn L hL
    unfold TcEnv.check at h
    obtain ⟨rfl, rfl⟩ := Tc.pure_ok.1 h
    exact .brk
  | .Null, _ => by
    intro st y st' h hn L hL
    unfold TcEnv.check at h
    obtain ⟨rfl, rfl⟩ := Tc.pure_ok.1 h
    exact .null
theorem checkList_good (hE : E.Lawful) : ∀ (es : List (Expr SourceAst)) (ms : List Mode),
    Good (E.checkList es ms) fun L ys => AllOk E L ys ∧ PromisedAll E L ms ys ∧ ys.length = min es.length ms.length
  | [], ms => by
    intro st y st' h hn L hL
    unfold TcEnv.checkList at h
    obtain ⟨rfl, rfl⟩ := Tc.pure_ok.1 h
    exact ⟨.nil, .nil _, by simp⟩
  | _ :: _, [] => by
    intro st y st' h hn L hL
    unfold TcEnv.checkList at h
    obtain ⟨rfl, rfl⟩ := Tc.pure_ok.1 h
    exact ⟨.nil, .nil _, by simp⟩
  | e :: es, m :: ms => by
    intro st y st' h hn L hL
    unfold TcEnv.checkList at h
    obtain ⟨x, s1, h1, h⟩ := Tc.bind_ok.1 h
    obtain ⟨xs, s2, h2, h⟩ := Tc.bind_ok.1 h
    obtain ⟨rfl, rfl⟩ := Tc.pure_ok.1 h
    have g2 := checkList_grows E es _ _ _ _ h2
    have i2 := checkList_good hE es _ _ _ _ h2 hn L hL
    have i1 := checkAs_good (check_good hE e) _ _ _ h1 (hn.of_prefix g2.diags) L (g2.locals.trans hL)
    exact ⟨.cons i1.1 i2.1, .cons i1.2 i2.2.1, by simp only [List.length_cons, i2.2.2]; omega⟩
theorem checkParts_good (hE : E.Lawful) : ∀ (ps : List (Expr SourceAst × Text)), Good (E.checkParts ps) (PartsOk E)
  | [] => by
    intro st y st' h hn L hL
    unfold TcEnv.checkParts at h
    obtain ⟨rfl, rfl⟩ := Tc.pure_ok.1 h
    exact .nil
  | (e, s) :: ps => by
    intro st y st' h hn L hL
    unfold TcEnv.checkParts at h
    obtain ⟨x, s1, h1, h⟩ := Tc.bind_ok.1 h
    obtain ⟨xs, s2, h2, h⟩ := Tc.bind_ok.1 h
    obtain ⟨rfl, rfl⟩ := Tc.pure_ok.1 h
    have g2 := checkParts_grows E ps _ _ _ h2
    have i2 := checkParts_good hE ps _ _ _ h2 hn L hL
    have i1 := check_good hE e _ _ _ _ h1 (hn.of_prefix g2.diags) L (g2.locals.trans hL)
    exact .cons i1 i2
theorem checkCases_good (hE : E.Lawful) (t : Option TypeId) : ∀ (cs : List (Expr SourceAst × List (Expr SourceAst))),
    Good (E.checkCases t cs) (CasesOk E)
  | [] => by
    intro st y st' h hn L hL
    unfold TcEnv.checkCases at h
    obtain ⟨rfl, rfl⟩ := Tc.pure_ok.1 h
    exact .nil
  | (m, b) :: cs => by
    intro st y st' h hn L hL
    unfold TcEnv.checkCases at h
    obtain ⟨x, s1, h1, h⟩ := Tc.bind_ok.1 h
    obtain ⟨ys, s2, h2, h⟩ := Tc.bind_ok.1 h
    obtain ⟨zs, s3, h3, h⟩ := Tc.bind_ok.1 h
    obtain ⟨rfl, rfl⟩ := Tc.pure_ok.1 h
    obtain ⟨s5, h5, rfl⟩ := Tc.block_ok.1 h2
    have g3 := checkCases_grows E t cs _ _ _ h3
    have g5 := checkList_grows E b _ _ _ _ h5
    have i3 := checkCases_good hE t cs _ _ _ h3 hn L hL
    have i5 := checkList_good hE b _ _ _ _ h5 (hn.of_prefix g3.diags) L (g3.locals.trans hL)
    have i1 := check_good hE m _ _ _ _ h1 (hn.of_prefix (g5.diags.trans g3.diags)) L
      ((g5.locals.trans g3.locals).trans hL)
    exact .cons i1 i5.1 i3
theorem checkBlockOpt_good (hE : E.Lawful) : ∀ (b : Option (List (Expr SourceAst))),
    Good (E.checkBlockOpt b) (BlockOk E)
  | none => by
    intro st y st' h hn L hL
    unfold TcEnv.checkBlockOpt at h
    obtain ⟨rfl, rfl⟩ := Tc.pure_ok.1 h
    exact .none
  | some b => by
    intro st y st' h hn L hL
    unfold TcEnv.checkBlockOpt at h
    obtain ⟨ys, s1, h1, h⟩ := Tc.bind_ok.1 h
    obtain ⟨rfl, rfl⟩ := Tc.pure_ok.1 h
    obtain ⟨s5, h5, rfl⟩ := Tc.block_ok.1 h1
    exact .some (checkList_good hE b _ _ _ _ h5 hn L hL).1
theorem checkIntrinsic_good (hE : E.Lawful) (op : IntrinsicOp) (w : Option TypeId) :
    ∀ (args : List (Expr SourceAst)), Good (E.checkIntrinsic op w args) (Ok E)
  | [] => by
    intro st y st' h hn L hL
    unfold TcEnv.checkIntrinsic at h
    cases h
  | a :: rest => by
    intro st y st' h hn L hL
    unfold TcEnv.checkIntrinsic at h
    split at h
    · rename_i hc
      obtain ⟨x, s1, h1, h⟩ := Tc.bind_ok.1 h
      obtain ⟨t, s2, h2, h⟩ := Tc.bind_ok.1 h
      obtain ⟨ht, rfl⟩ := E.typeOf_ok.1 h2
      obtain ⟨plan, s3, h3, h⟩ := Tc.bind_ok.1 h
      obtain ⟨hp, rfl⟩ := TcEnv.give_ok.1 h3
      obtain ⟨ys, s4, h4, h⟩ := Tc.bind_ok.1 h
      obtain ⟨u, s5, h5, h⟩ := Tc.bind_ok.1 h
      obtain ⟨rfl, rfl⟩ := Tc.pure_ok.1 h
      obtain ⟨ms, r⟩ := plan
      have g5 := warn_grown h5
      have w5 := warn_ok h5
      have g4 := checkList_grows E rest _ _ _ _ h4
      have i4 := checkList_good hE rest _ _ _ _ h4 (hn.of_prefix g5.diags) L (g5.locals.trans hL)
      have i1 := check_good hE a _ _ _ _ h1 (hn.of_prefix (g4.trans g5).diags) L ((g4.trans g5).locals.trans hL)
      have hl := (plan_takes hp).1
      refine plan_ok hp i1 (typeTree_later ht ((g4.trans g5).locals.trans hL)) i4.1 i4.2.1 ?_ ?_
      · have := i4.2.2
        dsimp only at this
        omega
      · intro ho y hy
        obtain ⟨s, hs⟩ := w5.2 ho y hy
        exact ⟨s, typeTree_later hs (g5.locals.trans hL)⟩
    · cases h
end

end
end Redscript
