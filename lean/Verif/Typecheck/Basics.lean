import Verif.Typecheck.Rules

/-!
# Steps of the type checker
-/

namespace Redscript

/-! ## Steps -/

namespace Tc

theorem bind_ok {x : Tc α} {f : α → Tc β} {st st' : TcState} {b : β} :
    (x >>= f) st = .ok (b, st') ↔ ∃ a st1, x st = .ok (a, st1) ∧ f a st1 = .ok (b, st') := by
  show Tc.bind x f st = _ ↔ _
  rw [Tc.bind]
  cases hx : x st with
  | error e => simp
  | ok r =>
    obtain ⟨a, st1⟩ := r
    constructor
    · intro h; exact ⟨a, st1, rfl, h⟩
    · rintro ⟨a', st1', h, hf⟩
      cases h
      exact hf

theorem pure_ok {a b : α} {st st' : TcState} : (pure a : Tc α) st = .ok (b, st') ↔ a = b ∧ st = st' := by
  show Tc.pure a st = _ ↔ _
  rw [Tc.pure]
  simp

theorem fail_ok {e : TcErr} {a : α} {st st' : TcState} : (fail e : Tc α) st = .ok (a, st') ↔ False := by
  simp [fail]

theorem block_ok {x : Tc α} {a : α} {st st' : TcState} :
    block x st = .ok (a, st') ↔ ∃ st1, x st = .ok (a, st1) ∧ st' = { st1 with refs := st.refs } := by
  rw [block]
  cases hx : x st with
  | error e => simp
  | ok r =>
    obtain ⟨a', st1⟩ := r
    constructor
    · intro h; cases h; exact ⟨st1, rfl, rfl⟩
    · rintro ⟨st1', h, rfl⟩; cases h; rfl

theorem report_ok {e : TcErr} {st st' : TcState} :
    report e st = .ok ((), st') ↔ e = .compile ∧ st' = { st with diags := st.diags ++ [.compileError] } := by
  cases e with
  | compile => simp [report, eq_comm]
  | other => simp [report, fail]

end Tc

namespace TcEnv
variable (E : TcEnv)

theorem ask_ok {r : Except AsmErr α} {a : α} {st st' : TcState} :
    E.ask r st = .ok (a, st') ↔ r = .ok a ∧ st = st' := by
  unfold ask
  cases r <;> simp

theorem give_ok {r : Except TcErr α} {a : α} {st st' : TcState} :
    give r st = .ok (a, st') ↔ r = .ok a ∧ st = st' := by
  unfold give
  cases r <;> simp

theorem typeOf_ok {e : TypedExpr} {t : TypeId} {st st' : TcState} :
    E.typeOf e st = .ok (t, st') ↔ typeTree (E.queries st.locals) e = .ok t ∧ st = st' := E.ask_ok

theorem matchedType_ok {e : TypedExpr} {t : Option TypeId} {st st' : TcState} :
    E.matchedType e st = .ok (t, st') → st = st' := by
  intro h; cases h; rfl

theorem addLocal_ok {n : Text} {ty : TypeId} {l : Idx} {st st' : TcState} :
    E.addLocal n ty st = .ok (l, st') ↔ ∃ t, E.stored ty = .ok t ∧ l = E.alloc st.locals.length ∧
      st' = { st with refs := st.refs.insert n (.Local l), locals := st.locals ++ [(l, t)] } := by
  rw [addLocal]
  cases hs : E.stored ty with
  | error e => simp
  | ok t =>
    simp only [Except.ok.injEq, Prod.mk.injEq, exists_eq_left']
    constructor
    · rintro ⟨rfl, rfl⟩; exact ⟨rfl, rfl⟩
    · rintro ⟨rfl, rfl⟩; exact ⟨rfl, rfl⟩

end TcEnv

/-! ## What checking adds -/

/-- The locals are those allocated so far. -/
def TcLocalsOk (E : TcEnv) (L : List (Idx × TypeId)) : Prop := L.map (·.1) = (List.range L.length).map E.alloc

/-- The checker only adds locals and diagnostics. -/
structure TcGrown (E : TcEnv) (st st' : TcState) : Prop where
  locals : st.locals <+: st'.locals
  diags : st.diags <+: st'.diags
  ok : TcLocalsOk E st.locals → TcLocalsOk E st'.locals

theorem TcGrown.refl (E : TcEnv) (st : TcState) : TcGrown E st st := ⟨List.prefix_refl _, List.prefix_refl _, id⟩

theorem TcGrown.trans {E : TcEnv} {a b c : TcState} (h1 : TcGrown E a b) (h2 : TcGrown E b c) : TcGrown E a c :=
  ⟨h1.locals.trans h2.locals, h1.diags.trans h2.diags, fun h => h2.ok (h1.ok h)⟩

/-- A step that only adds. -/
def TcGrows (E : TcEnv) (x : Tc α) : Prop := ∀ st a st', x st = .ok (a, st') → TcGrown E st st'

section
variable {E : TcEnv}

theorem grows_pure (a : α) : TcGrows E (pure a) := by
  intro st b st' h
  obtain ⟨_, rfl⟩ := Tc.pure_ok.1 h
  exact .refl _ _

theorem grows_bind {x : Tc α} {f : α → Tc β} (hx : TcGrows E x) (hf : ∀ a, TcGrows E (f a)) : TcGrows E (x >>= f) := by
  intro st b st' h
  obtain ⟨a, st1, h1, h2⟩ := Tc.bind_ok.1 h
  exact (hx _ _ _ h1).trans (hf _ _ _ _ h2)

theorem grows_fail (e : TcErr) : TcGrows E (Tc.fail e : Tc α) := by
  intro st b st' h; cases h

theorem grows_ask (r : Except AsmErr α) : TcGrows E (E.ask r) := by
  intro st b st' h
  obtain ⟨_, rfl⟩ := E.ask_ok.1 h
  exact .refl _ _

theorem grows_give (r : Except TcErr α) : TcGrows E (TcEnv.give r) := by
  intro st b st' h
  obtain ⟨_, rfl⟩ := TcEnv.give_ok.1 h
  exact .refl _ _

theorem grows_typeOf (e : TypedExpr) : TcGrows E (E.typeOf e) := by
  intro st b st' h
  obtain ⟨_, rfl⟩ := E.typeOf_ok.1 h
  exact .refl _ _

theorem grows_matchedType (e : TypedExpr) : TcGrows E (E.matchedType e) := by
  intro st b st' h
  cases E.matchedType_ok h
  exact .refl _ _

theorem grows_block {x : Tc α} (hx : TcGrows E x) : TcGrows E (Tc.block x) := by
  intro st b st' h
  obtain ⟨st1, h1, rfl⟩ := Tc.block_ok.1 h
  have := hx _ _ _ h1
  exact ⟨this.locals, this.diags, this.ok⟩

theorem grows_report (e : TcErr) : TcGrows E (Tc.report e) := by
  intro st b st' h
  obtain ⟨_, rfl⟩ := Tc.report_ok.1 h
  exact ⟨List.prefix_refl _, List.prefix_append _ _, id⟩

theorem grows_deprecate : TcGrows E Tc.deprecate := by
  intro st b st' h
  cases h
  exact ⟨List.prefix_refl _, List.prefix_append _ _, id⟩

theorem TcLocalsOk.snoc {L : List (Idx × TypeId)} (h : TcLocalsOk E L) (t : TypeId) :
    TcLocalsOk E (L ++ [(E.alloc L.length, t)]) := by
  unfold TcLocalsOk at *
  rw [List.map_append, h, List.length_append, List.length_singleton, List.range_succ, List.map_append]
  rfl

theorem grows_addLocal (n : Text) (t : TypeId) : TcGrows E (E.addLocal n t) := by
  intro st b st' h
  obtain ⟨u, _, rfl, rfl⟩ := E.addLocal_ok.1 h
  exact ⟨List.prefix_append _ _, List.prefix_refl _, fun h => h.snoc u⟩

theorem grows_checkIdent (n : Text) : TcGrows E (E.checkIdent n) := by
  intro st b st' h
  rw [TcEnv.checkIdent] at h
  split at h
  · cases h; exact .refl _ _
  · split at h
    · exact grows_bind (grows_report _) (fun _ => grows_pure _) _ _ _ h
    · cases h

theorem grows_convertTo (t : TypeId) (e : TypedExpr) : TcGrows E (E.convertTo t e) := by
  unfold TcEnv.convertTo
  refine grows_bind (grows_typeOf _) fun _ => grows_bind (grows_give _) fun r => ?_
  split
  · exact grows_pure _
  · exact grows_bind (grows_report _) fun _ => grows_pure _

theorem grows_warn (op : IntrinsicOp) (t : TypeId) (xs : List TypedExpr) : TcGrows E (E.warnUnrelated op t xs) := by
  unfold TcEnv.warnUnrelated
  split
  · refine grows_bind (grows_typeOf _) fun _ => ?_
    split
    · exact grows_pure _
    · exact grows_deprecate
  · refine grows_bind (grows_typeOf _) fun _ => ?_
    split
    · exact grows_pure _
    · exact grows_deprecate
  · exact grows_pure _

theorem grows_lubAll (t : TypeId) (xs : List TypedExpr) : TcGrows E (E.lubAll t xs) := by
  induction xs generalizing t with
  | nil => exact grows_pure _
  | cons x xs ih =>
    unfold TcEnv.lubAll
    refine grows_bind (grows_typeOf _) fun _ => ?_
    split
    · exact ih _
    · exact grows_fail _
    · exact grows_fail _

theorem grows_fallback (fs : List Idx) {p : Tc (List TypedExpr)} (hp : TcGrows E p) (e : TcErr) :
    TcGrows E (TcEnv.overload.fallback E fs p e) := by
  unfold TcEnv.overload.fallback
  split
  · refine grows_bind (grows_report _) fun _ => grows_bind hp fun _ => ?_
    split
    · exact grows_pure _
    · exact grows_fail _
  · exact grows_fail _

theorem grows_overload (fs : List Idx) (n : Nat) (w : Option TypeId) {x : List TypeId → Tc (List TypedExpr)}
    {p : Tc (List TypedExpr)} (hx : ∀ ts, TcGrows E (x ts)) (hp : TcGrows E p) : TcGrows E (E.overload fs n w x p) := by
  unfold TcEnv.overload
  refine grows_bind (grows_give _) fun r => ?_
  split
  · refine grows_bind (hx _) fun _ => ?_
    intro st a st' h
    dsimp only at h
    split at h
    · cases h; exact .refl _ _
    · exact grows_fallback fs hp _ _ _ _ h
    · exact grows_fallback fs hp _ _ _ _ h
  · refine grows_bind hp fun _ => ?_
    intro st a st' h
    dsimp only at h
    split at h
    · cases h; exact .refl _ _
    · exact grows_fallback fs hp _ _ _ _ h
    · cases h

theorem grows_checkAs (m : Mode) {c : Option TypeId → Tc TypedExpr} (hc : ∀ t, TcGrows E (c t)) :
    TcGrows E (E.checkAs m c) := by
  unfold TcEnv.checkAs
  split
  · exact hc _
  · exact hc _
  · exact grows_bind (hc _) fun _ => grows_convertTo _ _

/-- Goes through the steps of a piece of the checker. -/
macro "grows" : tactic => `(tactic|
  repeat' first
    | exact grows_pure _
    | exact grows_fail _
    | exact grows_ask _
    | exact grows_give _
    | exact grows_typeOf _
    | exact grows_matchedType _
    | exact grows_addLocal _ _
    | exact grows_checkIdent _
    | exact grows_lubAll _ _
    | exact grows_warn _ _ _
    | assumption
    | apply grows_bind
    | apply grows_block
    | apply grows_overload
    | apply grows_checkAs
    | (refine fun (_ : TypedExpr) => ?_)
    | (refine fun (_ : TypeId) => ?_)
    | (refine fun (_ : Text) => ?_)
    | (refine fun (_ : Idx) => ?_)
    | (refine fun (_ : MemberRef) => ?_)
    | (refine fun (_ : List (TypedExpr × Text)) => ?_)
    | (refine fun (_ : Option TypeId) => ?_)
    | dsimp only
    | split)

mutual
theorem check_grows (E : TcEnv) : ∀ (e : Expr SourceAst) (t : Option TypeId), TcGrows E (E.check e t)
  | .Ident n, _ => by unfold TcEnv.check; grows
  | .Constant c, _ => by unfold TcEnv.check; grows
  | .ArrayLit [] _, _ => by unfold TcEnv.check; grows
  | .ArrayLit (e :: es) _, _ => by
    have h1 := check_grows E e
    have h2 := checkList_grows E es
    unfold TcEnv.check
    refine grows_bind (grows_checkAs _ h1) fun _ => grows_bind (h2 _) fun _ => ?_
    grows
  | .InterpolatedString s ps, _ => by
    have h1 := checkParts_grows E ps
    unfold TcEnv.check; grows
  | .Declare n none none, _ => by unfold TcEnv.check; exact grows_fail _
  | .Declare n (some ty) none, _ => by
    unfold TcEnv.check
    exact grows_bind (grows_ask _) fun _ => grows_bind (grows_addLocal _ _) fun _ => grows_pure _
  | .Declare n none (some e), _ => by
    have h1 := check_grows E e
    unfold TcEnv.check
    exact grows_bind (h1 _) fun _ => grows_bind (grows_typeOf _) fun _ => grows_bind (grows_addLocal _ _) fun _ =>
      grows_pure _
  | .Declare n (some ty) (some e), _ => by
    have h1 := check_grows E e
    unfold TcEnv.check
    exact grows_bind (grows_ask _) fun _ => grows_bind (grows_checkAs _ h1) fun _ =>
      grows_bind (grows_addLocal _ _) fun _ => grows_pure _
  | .Cast ty e, _ => by
    have h1 := check_grows E e
    unfold TcEnv.check
    refine grows_bind (grows_ask _) fun _ => grows_bind (h1 _) fun _ => ?_
    grows
  | .Assign l r, _ => by
    have h1 := check_grows E l
    have h2 := check_grows E r
    unfold TcEnv.check
    refine grows_bind (h1 _) fun _ => grows_bind (grows_typeOf _) fun _ => grows_bind (grows_checkAs _ h2) fun _ => ?_
    grows
  | .Call f tys args, _ => by
    have h2 := checkList_grows E args
    unfold TcEnv.check
    refine grows_bind (grows_ask _) fun _ => ?_
    split
    · exact checkIntrinsic_grows E _ _ args
    · exact grows_bind (grows_ask _) fun _ =>
        grows_bind (grows_overload _ _ _ (fun _ => h2 _) (h2 _)) fun _ => grows_pure _
  | .MethodCall ctx f args, _ => by
    have h1 := check_grows E ctx
    have h2 := checkList_grows E args
    unfold TcEnv.check
    exact grows_bind (h1 _) fun _ => grows_bind (grows_typeOf _) fun _ => grows_bind (grows_ask _) fun _ =>
      grows_bind (grows_overload _ _ _ (fun _ => h2 _) (h2 _)) fun _ => grows_pure _
  | .BinOp l r op, _ => by
    have h1 := check_grows E l
    have h2 := check_grows E r
    unfold TcEnv.check
    refine grows_bind (grows_ask _) fun _ => grows_bind (grows_overload _ _ _ ?_ ?_) fun _ => grows_pure _
    · intro ts
      split
      · exact grows_pure _
      · exact grows_bind (h1 _) fun _ => grows_pure _
      · exact grows_bind (h1 _) fun _ => grows_bind (h2 _) fun _ => grows_pure _
    · exact grows_bind (h1 _) fun _ => grows_bind (h2 _) fun _ => grows_pure _
  | .UnOp e op, _ => by
    have h1 := check_grows E e
    unfold TcEnv.check
    refine grows_bind (grows_ask _) fun _ => grows_bind (grows_overload _ _ _ ?_ ?_) fun _ => grows_pure _
    · intro ts
      split
      · exact grows_pure _
      · exact grows_bind (h1 _) fun _ => grows_pure _
    · exact grows_bind (h1 _) fun _ => grows_pure _
  | .Member ctx m, _ => by
    have h1 := check_grows E ctx
    unfold TcEnv.check
    refine grows_bind (h1 _) fun _ => ?_
    grows
  | .ArrayElem a i, _ => by
    have h1 := check_grows E a
    have h2 := check_grows E i
    unfold TcEnv.check
    exact grows_bind (grows_ask _) fun _ => grows_bind (h1 _) fun _ => grows_bind (grows_checkAs _ h2) fun _ => grows_pure _
  | .New ty args, _ => by
    have h2 := checkList_grows E args
    unfold TcEnv.check
    exact grows_bind (grows_ask _) fun _ => grows_bind (grows_give _) fun _ => grows_bind (h2 _) fun _ => grows_pure _
  | .Return none, _ => by unfold TcEnv.check; grows
  | .Return (some e), _ => by
    have h1 := check_grows E e
    unfold TcEnv.check
    refine grows_bind (grows_ask _) fun _ => ?_
    split
    · exact grows_bind (grows_checkAs _ h1) fun _ => grows_pure _
    · exact grows_fail _
  | .Seq es, _ => by
    have h2 := checkList_grows E es
    unfold TcEnv.check
    exact grows_bind (h2 _) fun _ => grows_pure _
  | .Switch e cs d, _ => by
    have h1 := check_grows E e
    have h3 := checkBlockOpt_grows E d
    unfold TcEnv.check
    exact grows_bind (h1 _) fun _ => grows_bind (grows_matchedType _) fun t => grows_bind (checkCases_grows E t cs) fun _ =>
      grows_bind h3 fun _ => grows_pure _
  | .Goto t, _ => by unfold TcEnv.check; grows
  | .If c t e, _ => by
    have h1 := check_grows E c
    have h2 := checkList_grows E t
    have h3 := checkBlockOpt_grows E e
    unfold TcEnv.check
    exact grows_bind (grows_ask _) fun _ => grows_bind (grows_checkAs _ h1) fun _ =>
      grows_bind (grows_block (h2 _)) fun _ => grows_bind h3 fun _ => grows_pure _
  | .Conditional c t e, _ => by
    have h1 := check_grows E c
    have h2 := check_grows E t
    have h3 := check_grows E e
    unfold TcEnv.check
    exact grows_bind (grows_ask _) fun _ => grows_bind (grows_checkAs _ h1) fun _ =>
      grows_bind (h2 _) fun _ => grows_bind (grows_typeOf _) fun _ => grows_bind (h3 _) fun _ => grows_pure _
  | .While c b, _ => by
    have h1 := check_grows E c
    have h2 := checkList_grows E b
    unfold TcEnv.check
    exact grows_bind (grows_ask _) fun _ => grows_bind (grows_checkAs _ h1) fun _ =>
      grows_bind (grows_block (h2 _)) fun _ => grows_pure _
  | .ForIn n a b, _ => by
    have h1 := check_grows E a
    have h2 := checkList_grows E b
    unfold TcEnv.check
    refine grows_bind (h1 _) fun _ => grows_bind (grows_typeOf _) fun _ => ?_
    split
    · exact grows_block (grows_bind (grows_addLocal _ _) fun _ => grows_bind (h2 _) fun _ => grows_pure _)
    · exact grows_fail _
  | .This, _ => by unfold TcEnv.check; grows
  | .Super, _ => by unfold TcEnv.check; grows
  | .Break, _ => by unfold TcEnv.check; grows
  | .Null, _ => by unfold TcEnv.check; grows
theorem checkList_grows (E : TcEnv) : ∀ (es : List (Expr SourceAst)) (ms : List Mode), TcGrows E (E.checkList es ms)
  | [], _ => by unfold TcEnv.checkList; exact grows_pure _
  | _ :: _, [] => by unfold TcEnv.checkList; exact grows_pure _
  | e :: es, m :: ms => by
    have h1 := check_grows E e
    have h2 := checkList_grows E es ms
    unfold TcEnv.checkList
    exact grows_bind (grows_checkAs _ h1) fun _ => grows_bind h2 fun _ => grows_pure _
theorem checkParts_grows (E : TcEnv) : ∀ (ps : List (Expr SourceAst × Text)), TcGrows E (E.checkParts ps)
  | [] => by unfold TcEnv.checkParts; exact grows_pure _
  | (e, s) :: ps => by
    have h1 := check_grows E e
    have h2 := checkParts_grows E ps
    unfold TcEnv.checkParts
    exact grows_bind (h1 _) fun _ => grows_bind h2 fun _ => grows_pure _
theorem checkCases_grows (E : TcEnv) (t : Option TypeId) : ∀ (cs : List (Expr SourceAst × List (Expr SourceAst))),
    TcGrows E (E.checkCases t cs)
  | [] => by unfold TcEnv.checkCases; exact grows_pure _
  | (m, b) :: cs => by
    have h1 := check_grows E m
    have h2 := checkList_grows E b
    have h3 := checkCases_grows E t cs
    unfold TcEnv.checkCases
    exact grows_bind (h1 _) fun _ => grows_bind (grows_block (h2 _)) fun _ => grows_bind h3 fun _ => grows_pure _
theorem checkBlockOpt_grows (E : TcEnv) : ∀ (b : Option (List (Expr SourceAst))), TcGrows E (E.checkBlockOpt b)
  | none => by unfold TcEnv.checkBlockOpt; exact grows_pure _
  | some b => by
    have h2 := checkList_grows E b
    unfold TcEnv.checkBlockOpt
    exact grows_bind (grows_block (h2 _)) fun _ => grows_pure _
theorem checkIntrinsic_grows (E : TcEnv) (op : IntrinsicOp) (w : Option TypeId) : ∀ (args : List (Expr SourceAst)),
    TcGrows E (E.checkIntrinsic op w args)
  | [] => by unfold TcEnv.checkIntrinsic; exact grows_fail _
  | a :: rest => by
    have h1 := check_grows E a
    have h2 := checkList_grows E rest
    unfold TcEnv.checkIntrinsic
    split
    · exact grows_bind (h1 _) fun _ => grows_bind (grows_typeOf _) fun _ => grows_bind (grows_give _) fun _ =>
        grows_bind (h2 _) fun _ => grows_bind (grows_warn _ _ _) fun _ => grows_pure _
    · exact grows_fail _
end

end
end Redscript
