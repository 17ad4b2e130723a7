import Verif.Typecheck.Claim

/-!
# C58: permissive checking agrees with strict checking
-/

namespace Redscript

/-- The checker in strict (`false`) or permissive (`true`) mode. -/
def TcEnv.as (E : TcEnv) (b : Bool) : TcEnv := { E with permissive := b }

/-- What the strict step accepts the permissive step accepts with the same result, and the other way round when no error
was reported. -/
structure ModesAgree (E : TcEnv) (x y : Tc α) : Prop where
  kept : ∀ st r, x st = .ok r → y st = .ok r
  back : ∀ st a st', y st = .ok (a, st') → NoFatal st'.diags → x st = .ok (a, st')
  grows : TcGrows (E.as true) y

section
variable {E : TcEnv}

theorem agree_same {x : Tc α} (h : TcGrows (E.as true) x) : ModesAgree E x x := ⟨fun _ _ h => h, fun _ _ _ h _ => h, h⟩

theorem agree_of_eq {x y : Tc α} (he : x = y) (h : TcGrows (E.as true) y) : ModesAgree E x y := he ▸ agree_same (he ▸ h)

theorem agree_pure (a : α) : ModesAgree E (pure a) (pure a) := agree_same (grows_pure _)

theorem agree_fail (e : TcErr) : ModesAgree E (Tc.fail e : Tc α) (Tc.fail e) := agree_same (grows_fail _)

theorem agree_bind {x y : Tc α} {f g : α → Tc β} (hx : ModesAgree E x y) (hf : ∀ a, ModesAgree E (f a) (g a)) :
    ModesAgree E (x >>= f) (y >>= g) where
  kept st r h := by
    obtain ⟨b, st'⟩ := r
    obtain ⟨a, st1, h1, h2⟩ := Tc.bind_ok.1 h
    exact Tc.bind_ok.2 ⟨a, st1, hx.kept _ _ h1, (hf a).kept _ _ h2⟩
  back st b st' h hn := by
    obtain ⟨a, st1, h1, h2⟩ := Tc.bind_ok.1 h
    exact Tc.bind_ok.2 ⟨a, st1, hx.back _ _ _ h1 (hn.of_prefix ((hf a).grows _ _ _ h2).diags), (hf a).back _ _ _ h2 hn⟩
  grows := grows_bind hx.grows fun a => (hf a).grows

theorem agree_ask (r : Except AsmErr α) : ModesAgree E ((E.as false).ask r) ((E.as true).ask r) :=
  agree_same (E := E) (grows_ask (E := E.as true) r)

theorem agree_give (r : Except TcErr α) : ModesAgree E (TcEnv.give r) (TcEnv.give r) := agree_same (grows_give _)

theorem agree_typeOf (e : TypedExpr) : ModesAgree E ((E.as false).typeOf e) ((E.as true).typeOf e) :=
  agree_of_eq rfl (grows_typeOf _)

theorem agree_matchedType (e : TypedExpr) : ModesAgree E ((E.as false).matchedType e) ((E.as true).matchedType e) :=
  agree_of_eq rfl (grows_matchedType _)

theorem agree_block {x y : Tc α} (h : ModesAgree E x y) : ModesAgree E (Tc.block x) (Tc.block y) where
  kept st r hr := by
    obtain ⟨a, st'⟩ := r
    obtain ⟨st1, h1, rfl⟩ := Tc.block_ok.1 hr
    exact Tc.block_ok.2 ⟨st1, h.kept _ _ h1, rfl⟩
  back st a st' hr hn := by
    obtain ⟨st1, h1, rfl⟩ := Tc.block_ok.1 hr
    exact Tc.block_ok.2 ⟨st1, h.back _ _ _ h1 hn, rfl⟩
  grows := grows_block h.grows

theorem agree_addLocal (n : Text) (t : TypeId) : ModesAgree E ((E.as false).addLocal n t) ((E.as true).addLocal n t) :=
  agree_of_eq rfl (grows_addLocal _ _)

theorem ident_found {b : Bool} {n : Text} {st : TcState} {r : Reference} (h : E.reference n st = some r) :
    (E.as b).checkIdent n st = .ok (.Ident r, st) := by
  unfold TcEnv.checkIdent
  rw [show (E.as b).reference n st = some r from h]

theorem ident_missing {b : Bool} {n : Text} {st : TcState} (h : E.reference n st = none) :
    (E.as b).checkIdent n st =
      if b then (Tc.report .compile >>= fun _ => pure .Null) st else .error .compile := by
  unfold TcEnv.checkIdent
  rw [show (E.as b).reference n st = none from h]
  rfl

theorem agree_checkIdent (n : Text) : ModesAgree E ((E.as false).checkIdent n) ((E.as true).checkIdent n) where
  kept st r h := by
    cases hr : E.reference n st with
    | some r' => rw [ident_found hr] at h ⊢; exact h
    | none => rw [ident_missing hr] at h; cases h
  back st a st' h hn := by
    cases hr : E.reference n st with
    | some r' => rw [ident_found hr] at h ⊢; exact h
    | none =>
      exfalso
      rw [ident_missing hr, if_pos rfl] at h
      obtain ⟨_, s1, h1, h⟩ := Tc.bind_ok.1 h
      obtain ⟨_, rfl⟩ := Tc.report_ok.1 h1
      obtain ⟨_, rfl⟩ := Tc.pure_ok.1 h
      exact hn (by simp)
  grows := grows_checkIdent _

theorem agree_convertTo (t : TypeId) (e : TypedExpr) : ModesAgree E ((E.as false).convertTo t e) ((E.as true).convertTo t e) :=
  agree_of_eq rfl (grows_convertTo _ _)

theorem agree_warn (op : IntrinsicOp) (t : TypeId) (xs : List TypedExpr) :
    ModesAgree E ((E.as false).warnUnrelated op t xs) ((E.as true).warnUnrelated op t xs) :=
  agree_of_eq rfl (grows_warn _ _ _)

theorem as_lubAll (t : TypeId) (xs : List TypedExpr) : (E.as false).lubAll t xs = (E.as true).lubAll t xs := by
  induction xs generalizing t with
  | nil => rfl
  | cons x xs ih =>
    have ih : (fun t => (E.as false).lubAll t xs) = fun t => (E.as true).lubAll t xs := funext ih
    unfold TcEnv.lubAll
    change ((E.as true).typeOf x >>= fun u => match E.h.lub t u with
      | some (some t) => (fun t => (E.as false).lubAll t xs) t
      | some none => Tc.fail .compile
      | none => Tc.fail .other) = _
    rw [ih]
    rfl

theorem agree_lubAll (t : TypeId) (xs : List TypedExpr) : ModesAgree E ((E.as false).lubAll t xs) ((E.as true).lubAll t xs) :=
  agree_of_eq (as_lubAll t xs) (grows_lubAll _ _)

theorem as_eligible (n : Nat) (fs : List Idx) : (E.as false).eligible n fs = (E.as true).eligible n fs := by
  induction fs with
  | nil => rfl
  | cons f fs ih =>
    unfold TcEnv.eligible
    rw [ih]
    rfl

theorem as_conversions (L : List (Idx × TypeId)) (as : List TypedExpr) (ps : List TypeId) :
    (E.as false).conversions L as ps = (E.as true).conversions L as ps := by
  induction as generalizing ps with
  | nil => rfl
  | cons a as ih =>
    cases ps with
    | nil => rfl
    | cons p ps =>
      unfold TcEnv.conversions
      rw [ih]
      rfl

theorem as_validateArgs (L : List (Idx × TypeId)) (x : TcEnv.Eligible) (as : List TypedExpr) (w : Option TypeId) :
    (E.as false).validateArgs L x as w = (E.as true).validateArgs L x as w := by
  unfold TcEnv.validateArgs
  rw [as_conversions]
  rfl

theorem as_firstMatch (L : List (Idx × TypeId)) (as : List TypedExpr) (w : Option TypeId) (xs : List TcEnv.Eligible) :
    (E.as false).firstMatch L as w xs = (E.as true).firstMatch L as w xs := by
  induction xs with
  | nil => rfl
  | cons x xs ih =>
    unfold TcEnv.firstMatch
    rw [ih, as_validateArgs]

theorem as_named (n : String) (k : TypeId → List Mode × TypeId) : (E.as false).named n k = (E.as true).named n k := rfl

theorem as_fieldTypes (fs : List Idx) : (E.as false).fieldTypes fs = (E.as true).fieldTypes fs := by
  induction fs with
  | nil => rfl
  | cons f fs ih =>
    unfold TcEnv.fieldTypes
    rw [ih]
    rfl

theorem as_newPlan (t : TypeId) (n : Nat) : (E.as false).newPlan t n = (E.as true).newPlan t n := by
  unfold TcEnv.newPlan
  cases t
  case Struct c =>
    have : (fun fs => (E.as false).fieldTypes fs) = fun fs => (E.as true).fieldTypes fs := funext as_fieldTypes
    simp only [as_fieldTypes]
    rfl
  all_goals rfl

theorem fallback_strict (fs : List Idx) (p : Tc (List TypedExpr)) (e : TcErr) :
    TcEnv.overload.fallback (E.as false) fs p e = Tc.fail e := by
  unfold TcEnv.overload.fallback
  exact if_neg (by intro h; cases h)

theorem agree_fallback (fs : List Idx) {p q : Tc (List TypedExpr)} (h : ModesAgree E p q) (e : TcErr) :
    ModesAgree E (TcEnv.overload.fallback (E.as false) fs p e) (TcEnv.overload.fallback (E.as true) fs q e) where
  kept st r hr := by rw [fallback_strict] at hr; cases hr
  back st a st' hr hn := absurd hn (fallback_fatal h.grows hr)
  grows := grows_fallback _ h.grows _

theorem agree_overload (fs : List Idx) (n : Nat) (w : Option TypeId) {x x' : List TypeId → Tc (List TypedExpr)}
    {p p' : Tc (List TypedExpr)} (hx : ∀ ts, ModesAgree E (x ts) (x' ts)) (hp : ModesAgree E p p') :
    ModesAgree E ((E.as false).overload fs n w x p) ((E.as true).overload fs n w x' p') := by
  have one : ∀ (y : TcEnv.Eligible) (args : List TypedExpr), ModesAgree E
      (fun st => match (E.as false).validateArgs st.locals y args w with
      | .ok (some cs) => .ok ((y.index, TcEnv.converted args cs), st)
      | .ok none => TcEnv.overload.fallback (E.as false) fs p .compile st
      | .error e => TcEnv.overload.fallback (E.as false) fs p e st)
      (fun st => match (E.as true).validateArgs st.locals y args w with
      | .ok (some cs) => .ok ((y.index, TcEnv.converted args cs), st)
      | .ok none => TcEnv.overload.fallback (E.as true) fs p' .compile st
      | .error e => TcEnv.overload.fallback (E.as true) fs p' e st) := by
    intro y args
    refine ⟨fun st r h => ?_, fun st a st' h hn => ?_, fun st a st' h => ?_⟩
    · try dsimp only at h ⊢
      rw [as_validateArgs] at h
      split at h
      · exact h
      · exact (agree_fallback fs hp _).kept _ _ h
      · exact (agree_fallback fs hp _).kept _ _ h
    · try dsimp only at h ⊢
      rw [as_validateArgs]
      split at h
      · exact h
      · exact (agree_fallback fs hp _).back _ _ _ h hn
      · exact (agree_fallback fs hp _).back _ _ _ h hn
    · try dsimp only at h
      split at h
      · cases h; exact .refl _ _
      · exact (agree_fallback fs hp _).grows _ _ _ h
      · exact (agree_fallback fs hp _).grows _ _ _ h
  have many : ∀ (ys : List TcEnv.Eligible) (args : List TypedExpr), ModesAgree E
      (fun st => match (E.as false).firstMatch st.locals args w ys with
      | .ok (some (f, cs)) => .ok ((f, TcEnv.converted args cs), st)
      | .ok none => TcEnv.overload.fallback (E.as false) fs p .compile st
      | .error e => .error e)
      (fun st => match (E.as true).firstMatch st.locals args w ys with
      | .ok (some (f, cs)) => .ok ((f, TcEnv.converted args cs), st)
      | .ok none => TcEnv.overload.fallback (E.as true) fs p' .compile st
      | .error e => .error e) := by
    intro ys args
    refine ⟨fun st r h => ?_, fun st a st' h hn => ?_, fun st a st' h => ?_⟩
    · try dsimp only at h ⊢
      rw [as_firstMatch] at h
      split at h
      · exact h
      · exact (agree_fallback fs hp _).kept _ _ h
      · cases h
    · try dsimp only at h ⊢
      rw [as_firstMatch]
      split at h
      · exact h
      · exact (agree_fallback fs hp _).back _ _ _ h hn
      · cases h
    · try dsimp only at h
      split at h
      · cases h; exact .refl _ _
      · exact (agree_fallback fs hp _).grows _ _ _ h
      · cases h
  unfold TcEnv.overload
  rw [as_eligible]
  refine agree_bind (agree_give _) fun r => ?_
  split
  · exact agree_bind (hx _) fun _ => one _ _
  · exact agree_bind hp fun _ => many _ _

theorem agree_checkAs (m : Mode) {c c' : Option TypeId → Tc TypedExpr} (hc : ∀ t, ModesAgree E (c t) (c' t)) :
    ModesAgree E ((E.as false).checkAs m c) ((E.as true).checkAs m c') := by
  unfold TcEnv.checkAs
  split
  · exact hc _
  · exact hc _
  · exact agree_bind (hc _) fun _ => agree_convertTo _ _

mutual
theorem check_agree (E : TcEnv) : ∀ (e : Expr SourceAst) (t : Option TypeId), ModesAgree E ((E.as false).check e t) ((E.as true).check e t)
  | .Ident n, _ => by unfold TcEnv.check; exact agree_checkIdent _
  | .Constant c, none => by unfold TcEnv.check; exact agree_pure _
  | .Constant c, some t => by
    unfold TcEnv.check
    exact agree_bind (agree_ask _) fun _ => agree_pure _
  | .ArrayLit [] _, _ => by
    unfold TcEnv.check
    dsimp only
    split
    · exact agree_pure _
    · exact agree_fail _
  | .ArrayLit (e :: es) _, _ => by
    have h1 := check_agree E e
    have h2 := checkList_agree E es
    unfold TcEnv.check
    refine agree_bind (agree_checkAs _ h1) fun _ => agree_bind (h2 _) fun _ =>
      agree_bind (agree_typeOf _) fun _ => agree_bind (agree_lubAll _ _) fun _ => agree_pure _
  | .InterpolatedString s ps, _ => by
    have h1 := checkParts_agree E ps
    unfold TcEnv.check
    exact agree_bind h1 fun _ => agree_pure _
  | .Declare n none none, _ => by unfold TcEnv.check; exact agree_fail _
  | .Declare n (some ty) none, _ => by
    unfold TcEnv.check
    exact agree_bind (agree_ask _) fun _ => agree_bind (agree_addLocal _ _) fun _ => agree_pure _
  | .Declare n none (some e), _ => by
    have h1 := check_agree E e
    unfold TcEnv.check
    exact agree_bind (h1 _) fun _ => agree_bind (agree_typeOf _) fun _ => agree_bind (agree_addLocal _ _) fun _ =>
      agree_pure _
  | .Declare n (some ty) (some e), _ => by
    have h1 := check_agree E e
    unfold TcEnv.check
    exact agree_bind (agree_ask _) fun _ => agree_bind (agree_checkAs _ h1) fun _ =>
      agree_bind (agree_addLocal _ _) fun _ => agree_pure _
  | .Cast ty e, _ => by
    have h1 := check_agree E e
    unfold TcEnv.check
    refine agree_bind (agree_ask _) fun _ => agree_bind (h1 _) fun _ =>
      agree_bind (agree_typeOf _) fun _ => agree_pure _
  | .Assign l r, _ => by
    have h1 := check_agree E l
    have h2 := check_agree E r
    unfold TcEnv.check
    refine agree_bind (h1 _) fun _ => agree_bind (agree_typeOf _) fun _ => agree_bind (agree_checkAs _ h2) fun _ => agree_pure _
  | .Call f tys args, _ => by
    have h2 := checkList_agree E args
    unfold TcEnv.check
    refine agree_bind (agree_ask _) fun _ => ?_
    split
    · exact checkIntrinsic_agree E _ _ args
    · exact agree_bind (agree_ask _) fun _ =>
        agree_bind (agree_overload _ _ _ (fun _ => h2 _) (h2 _)) fun _ => agree_pure _
  | .MethodCall ctx f args, _ => by
    have h1 := check_agree E ctx
    have h2 := checkList_agree E args
    unfold TcEnv.check
    exact agree_bind (h1 _) fun _ => agree_bind (agree_typeOf _) fun _ => agree_bind (agree_ask _) fun _ =>
      agree_bind (agree_overload _ _ _ (fun _ => h2 _) (h2 _)) fun _ => agree_pure _
  | .BinOp l r op, _ => by
    have h1 := check_agree E l
    have h2 := check_agree E r
    unfold TcEnv.check
    refine agree_bind (agree_ask _) fun _ => agree_bind (agree_overload _ _ _ ?_ ?_) fun _ => agree_pure _
    · intro ts
      split
      · exact agree_pure _
      · exact agree_bind (h1 _) fun _ => agree_pure _
      · exact agree_bind (h1 _) fun _ => agree_bind (h2 _) fun _ => agree_pure _
    · exact agree_bind (h1 _) fun _ => agree_bind (h2 _) fun _ => agree_pure _
  | .UnOp e op, _ => by
    have h1 := check_agree E e
    unfold TcEnv.check
    refine agree_bind (agree_ask _) fun _ => agree_bind (agree_overload _ _ _ ?_ ?_) fun _ => agree_pure _
    · intro ts
      split
      · exact agree_pure _
      · exact agree_bind (h1 _) fun _ => agree_pure _
    · exact agree_bind (h1 _) fun _ => agree_pure _
  | .Member ctx m, _ => by
    have h1 := check_agree E ctx
    unfold TcEnv.check
    refine agree_bind (h1 _) fun _ => agree_bind (agree_typeOf _) fun _ => agree_bind (agree_ask _) fun _ => agree_pure _
  | .ArrayElem a i, _ => by
    have h1 := check_agree E a
    have h2 := check_agree E i
    unfold TcEnv.check
    exact agree_bind (agree_ask _) fun _ => agree_bind (h1 _) fun _ => agree_bind (agree_checkAs _ h2) fun _ => agree_pure _
  | .New ty args, _ => by
    have h2 := checkList_agree E args
    unfold TcEnv.check
    exact agree_bind (agree_ask _) fun _ => agree_bind
      (agree_of_eq (by rw [as_newPlan]) (grows_give _)) fun _ => agree_bind (h2 _) fun _ => agree_pure _
  | .Return none, _ => by
    unfold TcEnv.check
    refine agree_bind (agree_ask _) fun _ => ?_
    split
    · exact agree_fail _
    · exact agree_pure _
  | .Return (some e), _ => by
    have h1 := check_agree E e
    unfold TcEnv.check
    refine agree_bind (agree_ask _) fun _ => ?_
    split
    · exact agree_bind (agree_checkAs _ h1) fun _ => agree_pure _
    · exact agree_fail _
  | .Seq es, _ => by
    have h2 := checkList_agree E es
    unfold TcEnv.check
    exact agree_bind (h2 _) fun _ => agree_pure _
  | .Switch e cs d, _ => by
    have h1 := check_agree E e
    have h3 := checkBlockOpt_agree E d
    unfold TcEnv.check
    exact agree_bind (h1 _) fun _ => agree_bind (agree_matchedType _) fun t => agree_bind (checkCases_agree E t cs) fun _ =>
      agree_bind h3 fun _ => agree_pure _
  | .Goto t, _ => by unfold TcEnv.check; exact agree_pure _
  | .If c t e, _ => by
    have h1 := check_agree E c
    have h2 := checkList_agree E t
    have h3 := checkBlockOpt_agree E e
    unfold TcEnv.check
    exact agree_bind (agree_ask _) fun _ => agree_bind (agree_checkAs _ h1) fun _ =>
      agree_bind (agree_block (h2 _)) fun _ => agree_bind h3 fun _ => agree_pure _
  | .Conditional c t e, _ => by
    have h1 := check_agree E c
    have h2 := check_agree E t
    have h3 := check_agree E e
    unfold TcEnv.check
    exact agree_bind (agree_ask _) fun _ => agree_bind (agree_checkAs _ h1) fun _ =>
      agree_bind (h2 _) fun _ => agree_bind (agree_typeOf _) fun _ => agree_bind (h3 _) fun _ => agree_pure _
  | .While c b, _ => by
    have h1 := check_agree E c
    have h2 := checkList_agree E b
    unfold TcEnv.check
    exact agree_bind (agree_ask _) fun _ => agree_bind (agree_checkAs _ h1) fun _ =>
      agree_bind (agree_block (h2 _)) fun _ => agree_pure _
  | .ForIn n a b, _ => by
    have h1 := check_agree E a
    have h2 := checkList_agree E b
    unfold TcEnv.check
    refine agree_bind (h1 _) fun _ => agree_bind (agree_typeOf _) fun _ => ?_
    split
    · exact agree_block (agree_bind (agree_addLocal _ _) fun _ => agree_bind (h2 _) fun _ => agree_pure _)
    · exact agree_fail _
  | .This, _ => by unfold TcEnv.check; exact agree_pure _
  | .Super, _ => by unfold TcEnv.check; exact agree_pure _
  | .Break, _ => by unfold TcEnv.check; exact agree_pure _
  | .Null, _ => by unfold TcEnv.check; exact agree_pure _
theorem checkList_agree (E : TcEnv) : ∀ (es : List (Expr SourceAst)) (ms : List Mode), ModesAgree E ((E.as false).checkList es ms) ((E.as true).checkList es ms)
  | [], _ => by unfold TcEnv.checkList; exact agree_pure _
  | _ :: _, [] => by unfold TcEnv.checkList; exact agree_pure _
  | e :: es, m :: ms => by
    have h1 := check_agree E e
    have h2 := checkList_agree E es ms
    unfold TcEnv.checkList
    exact agree_bind (agree_checkAs _ h1) fun _ => agree_bind h2 fun _ => agree_pure _
theorem checkParts_agree (E : TcEnv) : ∀ (ps : List (Expr SourceAst × Text)), ModesAgree E ((E.as false).checkParts ps) ((E.as true).checkParts ps)
  | [] => by unfold TcEnv.checkParts; exact agree_pure _
  | (e, s) :: ps => by
    have h1 := check_agree E e
    have h2 := checkParts_agree E ps
    unfold TcEnv.checkParts
    exact agree_bind (h1 _) fun _ => agree_bind h2 fun _ => agree_pure _
theorem checkCases_agree (E : TcEnv) (t : Option TypeId) : ∀ (cs : List (Expr SourceAst × List (Expr SourceAst))),
    ModesAgree E ((E.as false).checkCases t cs) ((E.as true).checkCases t cs)
  | [] => by unfold TcEnv.checkCases; exact agree_pure _
  | (m, b) :: cs => by
    have h1 := check_agree E m
    have h2 := checkList_agree E b
    have h3 := checkCases_agree E t cs
    unfold TcEnv.checkCases
    exact agree_bind (h1 _) fun _ => agree_bind (agree_block (h2 _)) fun _ => agree_bind h3 fun _ => agree_pure _
theorem checkBlockOpt_agree (E : TcEnv) : ∀ (b : Option (List (Expr SourceAst))), ModesAgree E ((E.as false).checkBlockOpt b) ((E.as true).checkBlockOpt b)
  | none => by unfold TcEnv.checkBlockOpt; exact agree_pure _
  | some b => by
    have h2 := checkList_agree E b
    unfold TcEnv.checkBlockOpt
    exact agree_bind (agree_block (h2 _)) fun _ => agree_pure _
theorem checkIntrinsic_agree (E : TcEnv) (op : IntrinsicOp) (w : Option TypeId) : ∀ (args : List (Expr SourceAst)),
    ModesAgree E ((E.as false).checkIntrinsic op w args) ((E.as true).checkIntrinsic op w args)
  | [] => by unfold TcEnv.checkIntrinsic; exact agree_fail _
  | a :: rest => by
    have h1 := check_agree E a
    have h2 := checkList_agree E rest
    unfold TcEnv.checkIntrinsic
    split
    · exact agree_bind (h1 _) fun _ => agree_bind (agree_typeOf _) fun _ => agree_bind (agree_give _) fun _ =>
        agree_bind (h2 _) fun _ => agree_bind (agree_warn _ _ _) fun _ => agree_pure _
    · exact agree_fail _
end

/-- C58: a body accepted in strict mode is accepted in permissive mode, with the same result and the same warnings. -/
theorem C58_permissive_accepts_what_strict_accepts (E : TcEnv) (refs : AMap Text Value) (body : List (Expr SourceAst))
    (xs : List TypedExpr) (st : TcState) (h : (E.as false).checkBody refs body = .ok (xs, st)) :
    (E.as true).checkBody refs body = .ok (xs, st) :=
  (checkList_agree E body _).kept _ _ h

/-- C58: a body in which permissive mode finds no error is accepted in strict mode, with the same result. So a
body that strict mode rejects has an error reported in permissive mode, or is rejected there too. -/
theorem C58_permissive_reports_what_strict_rejects (E : TcEnv) (refs : AMap Text Value) (body : List (Expr SourceAst))
    (xs : List TypedExpr) (st : TcState) (h : (E.as true).checkBody refs body = .ok (xs, st))
    (hn : TcDiag.compileError ∉ st.diags) : (E.as false).checkBody refs body = .ok (xs, st) :=
  (checkList_agree E body _).back _ _ _ h hn

/-- Accepted with this many diagnostics. -/
def diagCount : Except TcErr (List TypedExpr × TcState) → Option Nat
  | .ok (_, st) => some st.diags.length
  | .error _ => none

example : diagCount ((TcToy.tc.as false).checkBody TcToy.names TcToy.body) = some 0 := by decide +kernel

/-- Permissive mode goes on behind an unknown name and a call without fitting overload. -/
example : diagCount ((TcToy.tc.as true).checkBody TcToy.names
      [.Return (some (TcToy.ident "unknown")), .Call "Log".toList [] [], .Return (some (TcToy.num 1))]) = some 3 ∧
    diagCount ((TcToy.tc.as false).checkBody TcToy.names
      [.Return (some (TcToy.ident "unknown")), .Call "Log".toList [] [], .Return (some (TcToy.num 1))]) = none := by
  decide +kernel

end
end Redscript
