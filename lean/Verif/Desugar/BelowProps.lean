import Verif.Desugar.BlindProps

/-!
# Desugared code mentions only the variables so far
-/

namespace Redscript

mutual
theorem localsIn_mono {p q : Idx → Bool} (h : ∀ l, p l = true → q l = true) : ∀ (e : TypedExpr), e.localsIn p = true → e.localsIn q = true
  | .Ident (.Value (.Local l)), he => by
    rw [Expr.localsIn] at he ⊢
    exact h l he
  | .Ident (.Value (.Parameter _)), _ | .Ident (.Symbol _), _ | .Constant _, _ | .Goto _, _ | .This, _ | .Super, _ | .Break, _ | .Null, _ => rfl
  | .ArrayLit es _, he => by rw [Expr.localsIn] at he ⊢; exact allIn_mono h es he
  | .InterpolatedString _ ps, he => by rw [Expr.localsIn] at he ⊢; exact partsIn_mono h ps he
  | .Declare l _ none, he => by
    rw [Expr.localsIn, Bool.and_eq_true] at he ⊢
    exact ⟨h l he.1, rfl⟩
  | .Declare l _ (some e), he => by
    rw [Expr.localsIn, Bool.and_eq_true] at he ⊢
    exact ⟨h l he.1, localsIn_mono h e he.2⟩
  | .Cast _ e, he | .Member e _, he | .UnOp e _, he => by rw [Expr.localsIn] at he ⊢; exact localsIn_mono h e he
  | .Assign a b, he | .ArrayElem a b, he | .BinOp a b _, he => by
    rw [Expr.localsIn, Bool.and_eq_true] at he ⊢
    exact ⟨localsIn_mono h a he.1, localsIn_mono h b he.2⟩
  | .Call _ _ args, he | .New _ args, he => by rw [Expr.localsIn] at he ⊢; exact allIn_mono h args he
  | .MethodCall ctx _ args, he => by
    rw [Expr.localsIn, Bool.and_eq_true] at he ⊢
    exact ⟨localsIn_mono h ctx he.1, allIn_mono h args he.2⟩
  | .Return none, _ => rfl
  | .Return (some e), he => by rw [Expr.localsIn] at he ⊢; exact localsIn_mono h e he
  | .Seq es, he => by rw [Expr.localsIn] at he ⊢; exact allIn_mono h es he
  | .Switch e cs d, he => by
    rw [Expr.localsIn, Bool.and_eq_true, Bool.and_eq_true] at he ⊢
    exact ⟨⟨localsIn_mono h e he.1.1, casesIn_mono h cs he.1.2⟩, optIn_mono h d he.2⟩
  | .If c t e, he => by
    rw [Expr.localsIn, Bool.and_eq_true, Bool.and_eq_true] at he ⊢
    exact ⟨⟨localsIn_mono h c he.1.1, allIn_mono h t he.1.2⟩, optIn_mono h e he.2⟩
  | .Conditional c t e, he => by
    rw [Expr.localsIn, Bool.and_eq_true, Bool.and_eq_true] at he ⊢
    exact ⟨⟨localsIn_mono h c he.1.1, localsIn_mono h t he.1.2⟩, localsIn_mono h e he.2⟩
  | .While c b, he => by
    rw [Expr.localsIn, Bool.and_eq_true] at he ⊢
    exact ⟨localsIn_mono h c he.1, allIn_mono h b he.2⟩
  | .ForIn x a b, he => by
    rw [Expr.localsIn, Bool.and_eq_true, Bool.and_eq_true] at he ⊢
    exact ⟨⟨h x he.1.1, localsIn_mono h a he.1.2⟩, allIn_mono h b he.2⟩
theorem allIn_mono {p q : Idx → Bool} (h : ∀ l, p l = true → q l = true) : ∀ (es : List TypedExpr), Expr.allIn p es = true → Expr.allIn q es = true
  | [], _ => rfl
  | e :: es, he => by
    rw [Expr.allIn, Bool.and_eq_true] at he ⊢
    exact ⟨localsIn_mono h e he.1, allIn_mono h es he.2⟩
theorem partsIn_mono {p q : Idx → Bool} (h : ∀ l, p l = true → q l = true) : ∀ (ps : List (TypedExpr × Text)), Expr.partsIn p ps = true → Expr.partsIn q ps = true
  | [], _ => rfl
  | (e, _) :: es, he => by
    rw [Expr.partsIn, Bool.and_eq_true] at he ⊢
    exact ⟨localsIn_mono h e he.1, partsIn_mono h es he.2⟩
theorem optIn_mono {p q : Idx → Bool} (h : ∀ l, p l = true → q l = true) : ∀ (es : Option (List TypedExpr)), Expr.optIn p es = true → Expr.optIn q es = true
  | none, _ => rfl
  | some es, he => by rw [Expr.optIn] at he ⊢; exact allIn_mono h es he
theorem casesIn_mono {p q : Idx → Bool} (h : ∀ l, p l = true → q l = true) : ∀ (cs : List (TypedExpr × List TypedExpr)), Expr.casesIn p cs = true → Expr.casesIn q cs = true
  | [], _ => rfl
  | (e, b) :: es, he => by
    rw [Expr.casesIn, Bool.and_eq_true, Bool.and_eq_true] at he ⊢
    exact ⟨⟨localsIn_mono h e he.1.1, allIn_mono h b he.1.2⟩, casesIn_mono h es he.2⟩
end

theorem allIn_append {p : Idx → Bool} {xs ys : List TypedExpr} : Expr.allIn p (xs ++ ys) = true ↔ Expr.allIn p xs = true ∧ Expr.allIn p ys = true := by
  induction xs with
  | nil => simp [Expr.allIn]
  | cons x xs ih => simp [Expr.allIn, ih, and_assoc]

section
variable {D : DsEnv}

theorem textOf_in {str : TypeId} {e x : TypedExpr} {p : Idx → Bool} (he : e.localsIn p = true) (h : D.textOf str e = .ok x) : x.localsIn p = true := by
  have h1 : ∀ {x : TypedExpr}, x.localsIn p = true → (asRefCall str x).localsIn p = true := by
    intro x hx
    simp [asRefCall, Expr.localsIn, Expr.allIn, hx]
  have h2 : (Expr.Call (Callable.Intrinsic IntrinsicOp.ToString str) [] [e] : TypedExpr).localsIn p = true := by
    simp [Expr.localsIn, Expr.allIn, he]
  unfold DsEnv.textOf at h
  split at h
  · cases h
  · cases h
  · obtain ⟨a, _, h⟩ := except_bind_ok h
    split at h
    · cases h; exact he
    · obtain ⟨a, _, h⟩ := except_bind_ok h
      split at h
      · cases h; exact h1 he
      · cases h; exact h1 h2
  · obtain ⟨a, _, h⟩ := except_bind_ok h
    split at h
    · cases h; exact h1 he
    · cases h; exact h1 h2

theorem joinPart_in {str : TypeId} {add : Idx} {acc x : TypedExpr} {t : Text} {p : Idx → Bool} (ha : acc.localsIn p = true) (hp : x.localsIn p = true) :
    (joinPart str add acc x t).localsIn p = true := by
  unfold joinPart
  by_cases h : t.isEmpty
  · simp [h, asRefCall, Expr.localsIn, Expr.allIn, ha, hp]
  · simp [h, asRefCall, Expr.localsIn, Expr.allIn, ha, hp]

/-- The variables from `a` to `b` are among these. -/
def FreshIn (p : Idx → Bool) (a b : Nat) : Prop := ∀ l : Idx, a ≤ l.toNat → l.toNat < b → p l = true

theorem FreshIn.left {p : Idx → Bool} {a b c : Nat} (h : FreshIn p a c) (hb : b ≤ c) : FreshIn p a b := fun l h1 h2 => h l h1 (by omega)

theorem FreshIn.right {p : Idx → Bool} {a b c : Nat} (h : FreshIn p a c) (hb : a ≤ b) : FreshIn p b c := fun l h1 h2 => h l (by omega) h2

theorem push_in {p : Idx → Bool} {st : DsState} (h : Expr.allIn p st.pending = true) {e : TypedExpr} (he : e.localsIn p = true) :
    Expr.allIn p (st.push e).pending = true := by
  unfold DsState.push
  rw [allIn_append]
  exact ⟨h, by simp [Expr.allIn, he]⟩

set_option maxHeartbeats 2000000 in
mutual
/-- Desugared trees mention only the variables of the source and those added. -/
theorem dsExpr_in {p : Idx → Bool} (hg : ∀ n ty m, D.typeIndex n ty = .ok m → n ≤ m) : ∀ (e : TypedExpr) {st st' : DsState} {e' : TypedExpr},
    e.localsIn p = true → Expr.allIn p st.pending = true → FreshIn p st.next st'.next → dsExpr D e st = .ok (e', st') →
    e'.localsIn p = true ∧ Expr.allIn p st'.pending = true
  | .Ident _, st, st', e', hb, hl, hr, h => by cases h; exact ⟨hb, hl⟩
  | .Constant _, st, st', e', hb, hl, hr, h => by cases h; exact ⟨hb, hl⟩
  | .This, st, st', e', hb, hl, hr, h => by cases h; exact ⟨hb, hl⟩
  | .Super, st, st', e', hb, hl, hr, h => by cases h; exact ⟨hb, hl⟩
  | .Break, st, st', e', hb, hl, hr, h => by cases h; exact ⟨hb, hl⟩
  | .Null, st, st', e', hb, hl, hr, h => by cases h; exact ⟨hb, hl⟩
  | .Goto _, st, st', e', hb, hl, hr, h => by cases h; exact ⟨hb, hl⟩
  | .ArrayLit es none, st, st', e', hb, hl, hr, h => by cases h
  | .ArrayLit es (some t), st, st', e', hb, hl, hr, h => by
    rw [dsExpr] at h
    obtain ⟨⟨l, st1⟩, h1, h⟩ := except_bind_ok h
    obtain ⟨st2, h2, h⟩ := except_bind_ok h
    cases h
    obtain ⟨f1, f2, f3, _⟩ := dsFresh_ok hg h1
    have n2 : st1.next ≤ st'.next := (dsElems_grows hg es h2).next
    have hp : p l = true := hr l (by omega) (by omega)
    rw [Expr.localsIn] at hb
    refine ⟨by rw [Expr.localsIn]; exact hp, dsElems_in hg es hp hb ?_ ?_ h2⟩
    · exact push_in (by dsimp only; rw [f3]; exact hl) (by simp [Expr.localsIn, Expr.allIn, hp])
    · exact hr.right (show st.next ≤ st1.next by omega)
  | .InterpolatedString t ps, st, st', e', hb, hl, hr, h => by
    rw [dsExpr] at h
    obtain ⟨str, h1, h⟩ := except_bind_ok h
    obtain ⟨add, h2, h⟩ := except_bind_ok h
    rw [Expr.localsIn] at hb
    exact dsParts_in hg ps hb (by rw [Expr.localsIn]) hl hr h
  | .Declare l ty none, st, st', e', hb, hl, hr, h => by cases h; exact ⟨hb, hl⟩
  | .Declare l ty (some e), st, st', e', hb, hl, hr, h => by
    rw [dsExpr] at h
    obtain ⟨r, h1, h⟩ := except_bind_ok h
    cases h
    rw [Expr.localsIn, Bool.and_eq_true] at hb ⊢
    obtain ⟨b1, l1⟩ := dsExpr_in hg e hb.2 hl hr h1
    exact ⟨⟨hb.1, b1⟩, l1⟩
  | .Cast ty e, st, st', e', hb, hl, hr, h => by
    rw [dsExpr] at h
    obtain ⟨r, h1, h⟩ := except_bind_ok h
    cases h
    rw [Expr.localsIn] at hb ⊢
    exact dsExpr_in hg e hb hl hr h1
  | .Assign a b, st, st', e', hb, hl, hr, h => by
    rw [dsExpr] at h
    obtain ⟨r, h1, h⟩ := except_bind_ok h
    obtain ⟨r', h2, h⟩ := except_bind_ok h
    cases h
    rw [Expr.localsIn, Bool.and_eq_true] at hb ⊢
    have n1 := (dsExpr_grows hg a h1).next
    have n2 := (dsExpr_grows hg b h2).next
    obtain ⟨b1, l1⟩ := dsExpr_in hg a hb.1 hl (hr.left n2) h1
    obtain ⟨b2, l2⟩ := dsExpr_in hg b hb.2 l1 (hr.right n1) h2
    exact ⟨⟨b1, b2⟩, l2⟩
  | .Call f tys args, st, st', e', hb, hl, hr, h => by
    rw [dsExpr] at h
    obtain ⟨r, h1, h⟩ := except_bind_ok h
    cases h
    rw [Expr.localsIn] at hb ⊢
    exact dsList_in hg args hb hl hr h1
  | .MethodCall ctx f args, st, st', e', hb, hl, hr, h => by
    rw [dsExpr] at h
    obtain ⟨r, h1, h⟩ := except_bind_ok h
    obtain ⟨r', h2, h⟩ := except_bind_ok h
    cases h
    rw [Expr.localsIn, Bool.and_eq_true] at hb ⊢
    have n1 := (dsExpr_grows hg ctx h1).next
    have n2 := (dsList_grows hg args h2).next
    obtain ⟨b1, l1⟩ := dsExpr_in hg ctx hb.1 hl (hr.left n2) h1
    obtain ⟨b2, l2⟩ := dsList_in hg args hb.2 l1 (hr.right n1) h2
    exact ⟨⟨b1, b2⟩, l2⟩
  | .Member e m, st, st', e', hb, hl, hr, h => by
    rw [dsExpr] at h
    obtain ⟨r, h1, h⟩ := except_bind_ok h
    cases h
    rw [Expr.localsIn] at hb ⊢
    exact dsExpr_in hg e hb hl hr h1
  | .ArrayElem a b, st, st', e', hb, hl, hr, h => by
    rw [dsExpr] at h
    obtain ⟨r, h1, h⟩ := except_bind_ok h
    obtain ⟨r', h2, h⟩ := except_bind_ok h
    cases h
    rw [Expr.localsIn, Bool.and_eq_true] at hb ⊢
    have n1 := (dsExpr_grows hg a h1).next
    have n2 := (dsExpr_grows hg b h2).next
    obtain ⟨b1, l1⟩ := dsExpr_in hg a hb.1 hl (hr.left n2) h1
    obtain ⟨b2, l2⟩ := dsExpr_in hg b hb.2 l1 (hr.right n1) h2
    exact ⟨⟨b1, b2⟩, l2⟩
  | .New ty args, st, st', e', hb, hl, hr, h => by
    rw [dsExpr] at h
    obtain ⟨r, h1, h⟩ := except_bind_ok h
    cases h
    rw [Expr.localsIn] at hb ⊢
    exact dsList_in hg args hb hl hr h1
  | .Return none, st, st', e', hb, hl, hr, h => by cases h; exact ⟨hb, hl⟩
  | .Return (some e), st, st', e', hb, hl, hr, h => by
    rw [dsExpr] at h
    obtain ⟨r, h1, h⟩ := except_bind_ok h
    cases h
    rw [Expr.localsIn] at hb ⊢
    exact dsExpr_in hg e hb hl hr h1
  | .Seq es, st, st', e', hb, hl, hr, h => by
    rw [dsExpr] at h
    obtain ⟨r, h1, h⟩ := except_bind_ok h
    cases h
    rw [Expr.localsIn] at hb ⊢
    exact dsSeq_in hg es hb hl hr h1
  | .Switch e cs d, st, st', e', hb, hl, hr, h => by
    rw [dsExpr] at h
    obtain ⟨r, h1, h⟩ := except_bind_ok h
    obtain ⟨r', h2, h⟩ := except_bind_ok h
    obtain ⟨r'', h3, h⟩ := except_bind_ok h
    cases h
    rw [Expr.localsIn, Bool.and_eq_true, Bool.and_eq_true] at hb ⊢
    have n1 := (dsCases_grows hg cs h1).next
    have n2 := (dsOpt_grows hg d h2).next
    have n3 := (dsExpr_grows hg e h3).next
    obtain ⟨b1, l1⟩ := dsCases_in hg cs hb.1.2 hl ((hr.left n3).left n2) h1
    obtain ⟨b2, l2⟩ := dsOpt_in hg d hb.2 l1 ((hr.left n3).right n1) h2
    obtain ⟨b3, l3⟩ := dsExpr_in hg e hb.1.1 l2 ((hr.right n1).right n2) h3
    exact ⟨⟨⟨b3, b1⟩, b2⟩, l3⟩
  | .If c t e, st, st', e', hb, hl, hr, h => by
    rw [dsExpr] at h
    obtain ⟨r, h1, h⟩ := except_bind_ok h
    obtain ⟨r', h2, h⟩ := except_bind_ok h
    obtain ⟨r'', h3, h⟩ := except_bind_ok h
    cases h
    rw [Expr.localsIn, Bool.and_eq_true, Bool.and_eq_true] at hb ⊢
    have n1 := (dsSeq_grows hg t h1).next
    have n2 := (dsOpt_grows hg e h2).next
    have n3 := (dsExpr_grows hg c h3).next
    obtain ⟨b1, l1⟩ := dsSeq_in hg t hb.1.2 hl ((hr.left n3).left n2) h1
    obtain ⟨b2, l2⟩ := dsOpt_in hg e hb.2 l1 ((hr.left n3).right n1) h2
    obtain ⟨b3, l3⟩ := dsExpr_in hg c hb.1.1 l2 ((hr.right n1).right n2) h3
    exact ⟨⟨⟨b3, b1⟩, b2⟩, l3⟩
  | .Conditional c t e, st, st', e', hb, hl, hr, h => by
    rw [dsExpr] at h
    obtain ⟨r, h1, h⟩ := except_bind_ok h
    obtain ⟨r', h2, h⟩ := except_bind_ok h
    obtain ⟨r'', h3, h⟩ := except_bind_ok h
    cases h
    rw [Expr.localsIn, Bool.and_eq_true, Bool.and_eq_true] at hb ⊢
    have n1 := (dsExpr_grows hg c h1).next
    have n2 := (dsExpr_grows hg t h2).next
    have n3 := (dsExpr_grows hg e h3).next
    obtain ⟨b1, l1⟩ := dsExpr_in hg c hb.1.1 hl ((hr.left n3).left n2) h1
    obtain ⟨b2, l2⟩ := dsExpr_in hg t hb.1.2 l1 ((hr.left n3).right n1) h2
    obtain ⟨b3, l3⟩ := dsExpr_in hg e hb.2 l2 ((hr.right n1).right n2) h3
    exact ⟨⟨⟨b1, b2⟩, b3⟩, l3⟩
  | .While c body, st, st', e', hb, hl, hr, h => by
    rw [dsExpr] at h
    obtain ⟨r, h1, h⟩ := except_bind_ok h
    obtain ⟨r', h2, h⟩ := except_bind_ok h
    cases h
    rw [Expr.localsIn, Bool.and_eq_true] at hb ⊢
    have n1 := (dsSeq_grows hg body h1).next
    have n2 := (dsExpr_grows hg c h2).next
    obtain ⟨b1, l1⟩ := dsSeq_in hg body hb.2 hl (hr.left n2) h1
    obtain ⟨b2, l2⟩ := dsExpr_in hg c hb.1 l1 (hr.right n1) h2
    exact ⟨⟨b2, b1⟩, l2⟩
  | .ForIn x array body, st, st', e', hb, hl, hr, h => by
    rw [dsExpr] at h
    obtain ⟨⟨b', s1⟩, h1, h⟩ := except_bind_ok h
    obtain ⟨⟨a', s2⟩, h2, h⟩ := except_bind_ok h
    rw [Expr.localsIn, Bool.and_eq_true, Bool.and_eq_true] at hb
    have n1 : st.next ≤ s1.next := (dsSeq_grows hg body h1).next
    have n2 : s1.next ≤ s2.next := (dsExpr_grows hg array h2).next
    dsimp only at h
    split at h
    · cases h
    · obtain ⟨⟨arr, s3⟩, h3, h⟩ := except_bind_ok h
      obtain ⟨int, h4, h⟩ := except_bind_ok h
      obtain ⟨⟨cnt, s4⟩, h5, h⟩ := except_bind_ok h
      obtain ⟨add, h6, h⟩ := except_bind_ok h
      obtain ⟨less, h7, h⟩ := except_bind_ok h
      cases h
      obtain ⟨f1, f2, f3, _⟩ := dsFresh_ok hg h3
      obtain ⟨g1, g2, g3, _⟩ := dsFresh_ok hg h5
      dsimp only at hr f1 f2 f3 g1 g2 g3 ⊢
      obtain ⟨b1, l1⟩ := dsSeq_in hg body hb.2 hl (hr.left (by omega)) h1
      obtain ⟨b2, l2⟩ := dsExpr_in hg array hb.1.2 l1 ((hr.left (show s2.next ≤ s4.next by omega)).right n1) h2
      have ha := hr arr (by omega) (by omega)
      have hc := hr cnt (by omega) (by omega)
      refine ⟨?_, ?_⟩
      · simp [forInLoop, Expr.localsIn, Expr.allIn, allIn_append, hb.1.1, ha, hc, b1]
      · rw [allIn_append, g3, f3]
        exact ⟨l2, by simp [forInSetup, Expr.localsIn, Expr.allIn, ha, hc, b2]⟩
  | .BinOp a b op, st, st', e', hb, hl, hr, h => by
    rw [dsExpr] at h
    obtain ⟨r, h1, h⟩ := except_bind_ok h
    obtain ⟨r', h2, h⟩ := except_bind_ok h
    cases h
    rw [Expr.localsIn, Bool.and_eq_true] at hb ⊢
    have n1 := (dsExpr_grows hg a h1).next
    have n2 := (dsExpr_grows hg b h2).next
    obtain ⟨b1, l1⟩ := dsExpr_in hg a hb.1 hl (hr.left n2) h1
    obtain ⟨b2, l2⟩ := dsExpr_in hg b hb.2 l1 (hr.right n1) h2
    exact ⟨⟨b1, b2⟩, l2⟩
  | .UnOp e op, st, st', e', hb, hl, hr, h => by
    rw [dsExpr] at h
    obtain ⟨r, h1, h⟩ := except_bind_ok h
    cases h
    rw [Expr.localsIn] at hb ⊢
    exact dsExpr_in hg e hb hl hr h1
theorem dsList_in {p : Idx → Bool} (hg : ∀ n ty m, D.typeIndex n ty = .ok m → n ≤ m) : ∀ (es : List TypedExpr) {st st' : DsState} {es' : List TypedExpr},
    Expr.allIn p es = true → Expr.allIn p st.pending = true → FreshIn p st.next st'.next → dsList D es st = .ok (es', st') →
    Expr.allIn p es' = true ∧ Expr.allIn p st'.pending = true
  | [], st, st', es', hb, hl, hr, h => by cases h; exact ⟨rfl, hl⟩
  | e :: es, st, st', es', hb, hl, hr, h => by
    rw [dsList] at h
    obtain ⟨r, h1, h⟩ := except_bind_ok h
    obtain ⟨r', h2, h⟩ := except_bind_ok h
    cases h
    rw [Expr.allIn, Bool.and_eq_true] at hb ⊢
    have n1 := (dsExpr_grows hg e h1).next
    have n2 := (dsList_grows hg es h2).next
    obtain ⟨b1, l1⟩ := dsExpr_in hg e hb.1 hl (hr.left n2) h1
    obtain ⟨b2, l2⟩ := dsList_in hg es hb.2 l1 (hr.right n1) h2
    exact ⟨⟨b1, b2⟩, l2⟩
theorem dsElems_in {p : Idx → Bool} (hg : ∀ n ty m, D.typeIndex n ty = .ok m → n ≤ m) : ∀ (es : List TypedExpr) {l : Idx} {i : Nat} {st st' : DsState},
    p l = true → Expr.allIn p es = true → Expr.allIn p st.pending = true → FreshIn p st.next st'.next → dsElems D l i es st = .ok st' →
    Expr.allIn p st'.pending = true
  | [], l, i, st, st', hi, hb, hl, hr, h => by cases h; exact hl
  | e :: es, l, i, st, st', hi, hb, hl, hr, h => by
    rw [dsElems] at h
    obtain ⟨⟨e', st1⟩, h1, h⟩ := except_bind_ok h
    rw [Expr.allIn, Bool.and_eq_true] at hb
    have n1 : st.next ≤ st1.next := (dsExpr_grows hg e h1).next
    have n2 : st1.next ≤ st'.next := (dsElems_grows hg es h).next
    obtain ⟨b1, l1⟩ := dsExpr_in hg e hb.1 hl (hr.left n2) h1
    exact dsElems_in hg es (st := st1.push _) hi hb.2 (push_in l1 (by simp [Expr.localsIn, hi]; exact b1)) (hr.right n1) h
theorem dsParts_in {p : Idx → Bool} (hg : ∀ n ty m, D.typeIndex n ty = .ok m → n ≤ m) : ∀ (ps : List (TypedExpr × Text)) {str : TypeId} {add : Idx}
    {acc e' : TypedExpr} {st st' : DsState}, Expr.partsIn p ps = true → acc.localsIn p = true → Expr.allIn p st.pending = true →
    FreshIn p st.next st'.next → dsParts D str add ps acc st = .ok (e', st') → e'.localsIn p = true ∧ Expr.allIn p st'.pending = true
  | [], str, add, acc, e', st, st', hb, ha, hl, hr, h => by cases h; exact ⟨ha, hl⟩
  | (e, t) :: ps, str, add, acc, e', st, st', hb, ha, hl, hr, h => by
    rw [dsParts] at h
    obtain ⟨⟨e1, st1⟩, h1, h⟩ := except_bind_ok h
    obtain ⟨part, h2, h⟩ := except_bind_ok h
    rw [Expr.partsIn, Bool.and_eq_true] at hb
    have n1 : st.next ≤ st1.next := (dsExpr_grows hg e h1).next
    have n2 : st1.next ≤ st'.next := (dsParts_grows hg ps h).next
    obtain ⟨b1, l1⟩ := dsExpr_in hg e hb.1 hl (hr.left n2) h1
    exact dsParts_in hg ps hb.2 (joinPart_in ha (textOf_in b1 h2)) l1 (hr.right n1) h
theorem dsSeq_in {p : Idx → Bool} (hg : ∀ n ty m, D.typeIndex n ty = .ok m → n ≤ m) : ∀ (es : List TypedExpr) {st st' : DsState} {es' : List TypedExpr},
    Expr.allIn p es = true → Expr.allIn p st.pending = true → FreshIn p st.next st'.next → dsSeq D es st = .ok (es', st') →
    Expr.allIn p es' = true ∧ Expr.allIn p st'.pending = true
  | [], st, st', es', hb, hl, hr, h => by cases h; exact ⟨rfl, hl⟩
  | e :: es, st, st', es', hb, hl, hr, h => by
    rw [dsSeq] at h
    obtain ⟨⟨e1, st1⟩, h1, h⟩ := except_bind_ok h
    obtain ⟨⟨es1, st2⟩, h2, h⟩ := except_bind_ok h
    cases h
    rw [Expr.allIn, Bool.and_eq_true] at hb
    have n1 : st.next ≤ st1.next := (dsExpr_grows hg e h1).next
    have n2 : st1.next ≤ st2.next := (dsSeq_grows hg es h2).next
    obtain ⟨b1, l1⟩ := dsExpr_in hg e hb.1 hl (hr.left n2) h1
    obtain ⟨b2, l2⟩ := dsSeq_in hg es (st := { st1 with pending := [] }) hb.2 rfl (hr.right n1) h2
    refine ⟨?_, l2⟩
    rw [allIn_append, Expr.allIn, Bool.and_eq_true]
    exact ⟨l1, b1, b2⟩
theorem dsOpt_in {p : Idx → Bool} (hg : ∀ n ty m, D.typeIndex n ty = .ok m → n ≤ m) : ∀ (es : Option (List TypedExpr)) {st st' : DsState}
    {es' : Option (List TypedExpr)}, Expr.optIn p es = true → Expr.allIn p st.pending = true → FreshIn p st.next st'.next →
    dsOpt D es st = .ok (es', st') → Expr.optIn p es' = true ∧ Expr.allIn p st'.pending = true
  | none, st, st', es', hb, hl, hr, h => by cases h; exact ⟨rfl, hl⟩
  | some es, st, st', es', hb, hl, hr, h => by
    rw [dsOpt] at h
    obtain ⟨r, h1, h⟩ := except_bind_ok h
    cases h
    rw [Expr.optIn] at hb ⊢
    exact dsSeq_in hg es hb hl hr h1
theorem dsCases_in {p : Idx → Bool} (hg : ∀ n ty m, D.typeIndex n ty = .ok m → n ≤ m) : ∀ (cs : List (TypedExpr × List TypedExpr))
    {st st' : DsState} {cs' : List (TypedExpr × List TypedExpr)}, Expr.casesIn p cs = true → Expr.allIn p st.pending = true →
    FreshIn p st.next st'.next → dsCases D cs st = .ok (cs', st') → Expr.casesIn p cs' = true ∧ Expr.allIn p st'.pending = true
  | [], st, st', cs', hb, hl, hr, h => by cases h; exact ⟨rfl, hl⟩
  | (m, body) :: cs, st, st', cs', hb, hl, hr, h => by
    rw [dsCases] at h
    obtain ⟨r, h1, h⟩ := except_bind_ok h
    obtain ⟨r', h2, h⟩ := except_bind_ok h
    obtain ⟨r'', h3, h⟩ := except_bind_ok h
    cases h
    rw [Expr.casesIn, Bool.and_eq_true, Bool.and_eq_true] at hb ⊢
    have n1 := (dsSeq_grows hg body h1).next
    have n2 := (dsExpr_grows hg m h2).next
    have n3 := (dsCases_grows hg cs h3).next
    obtain ⟨b1, l1⟩ := dsSeq_in hg body hb.1.2 hl ((hr.left n3).left n2) h1
    obtain ⟨b2, l2⟩ := dsExpr_in hg m hb.1.1 l1 ((hr.left n3).right n1) h2
    obtain ⟨b3, l3⟩ := dsCases_in hg cs hb.2 l2 ((hr.right n1).right n2) h3
    exact ⟨⟨⟨b2, b1⟩, b3⟩, l3⟩
end

end

end Redscript
