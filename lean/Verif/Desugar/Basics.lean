import Verif.Desugar.Positions

/-!
# Desugaring: the state, types
-/

namespace Redscript

theorem except_bind_ok {ε α β : Type} {x : Except ε α} {f : α → Except ε β} {b : β} (h : (x >>= f) = .ok b) :
    ∃ a, x = .ok a ∧ f a = .ok b := by
  cases x with
  | error e => cases h
  | ok a => exact ⟨a, rfl, h⟩

section
variable {V S A : Type} {D : DsEnv}

/-- The state only grows. -/
structure Grows (st st' : DsState) : Prop where
  next : st.next ≤ st'.next
  locals : ∀ x ∈ st.locals, x ∈ st'.locals
  exprs : (∀ x ∈ st.pending, x.isExpression = true) → ∀ x ∈ st'.pending, x.isExpression = true

theorem Grows.refl (st : DsState) : Grows st st := ⟨Nat.le_refl _, fun _ h => h, fun h => h⟩

theorem Grows.push (st : DsState) {e : TypedExpr} (he : e.isExpression = true) : Grows st (st.push e) := by
  refine ⟨Nat.le_refl _, fun _ h => h, fun h x hx => ?_⟩
  rcases List.mem_append.1 hx with hx | hx
  · exact h x hx
  · rw [List.mem_singleton.1 hx]
    exact he

theorem Grows.trans {a b c : DsState} (h : Grows a b) (h' : Grows b c) : Grows a c :=
  ⟨Nat.le_trans h.next h'.next, fun x hx => h'.locals x (h.locals x hx), fun hx => h'.exprs (h.exprs hx)⟩

theorem dsFresh_ok {st st' : DsState} {ty : TypeId} {l : Idx} (hg : ∀ n ty m, D.typeIndex n ty = .ok m → n ≤ m)
    (h : D.fresh st ty = .ok (l, st')) : st.next ≤ l.toNat ∧ st'.next = l.toNat + 1 ∧ st'.pending = st.pending ∧
      st'.locals = st.locals ++ [(l, ty)] := by
  unfold DsEnv.fresh at h
  obtain ⟨n, h1, h⟩ := except_bind_ok h
  split at h
  · rename_i hn
    cases h
    have : (BitVec.ofNat 32 n).toNat = n := by rw [BitVec.toNat_ofNat]; exact Nat.mod_eq_of_lt hn
    rw [this]
    exact ⟨hg _ _ _ h1, rfl, rfl, rfl⟩
  · cases h

theorem fresh_grows {st st' : DsState} {ty : TypeId} {l : Idx} (hg : ∀ n ty m, D.typeIndex n ty = .ok m → n ≤ m)
    (h : D.fresh st ty = .ok (l, st')) : Grows st st' := by
  obtain ⟨h1, h2, h3, h4⟩ := dsFresh_ok hg h
  refine ⟨by omega, fun x hx => ?_, fun hx => by rw [h3]; exact hx⟩
  rw [h4]
  exact List.mem_append_left _ hx

mutual
theorem dsExpr_grows (hg : ∀ n ty m, D.typeIndex n ty = .ok m → n ≤ m) : ∀ (e : TypedExpr) {st st' : DsState} {e' : TypedExpr},
    dsExpr D e st = .ok (e', st') → Grows st st'
  | .Ident _, st, st', e', h => by cases h; exact .refl _
  | .Constant _, st, st', e', h => by cases h; exact .refl _
  | .This, st, st', e', h => by cases h; exact .refl _
  | .Super, st, st', e', h => by cases h; exact .refl _
  | .Break, st, st', e', h => by cases h; exact .refl _
  | .Null, st, st', e', h => by cases h; exact .refl _
  | .Goto _, st, st', e', h => by cases h; exact .refl _
  | .ArrayLit es none, st, st', e', h => by cases h
  | .ArrayLit es (some t), st, st', e', h => by
    rw [dsExpr] at h
    obtain ⟨⟨l, st1⟩, h1, h⟩ := except_bind_ok h
    obtain ⟨st2, h2, h⟩ := except_bind_ok h
    cases h
    have := dsElems_grows hg es h2
    exact ((fresh_grows hg h1).trans (Grows.push _ rfl)).trans this
  | .InterpolatedString t ps, st, st', e', h => by
    rw [dsExpr] at h
    obtain ⟨str, h1, h⟩ := except_bind_ok h
    obtain ⟨add, h2, h⟩ := except_bind_ok h
    exact dsParts_grows hg ps h
  | .Declare l ty none, st, st', e', h => by cases h; exact .refl _
  | .Declare l ty (some e), st, st', e', h => by
    rw [dsExpr] at h
    obtain ⟨r, h1, h⟩ := except_bind_ok h
    cases h
    exact dsExpr_grows hg e h1
  | .Cast ty e, st, st', e', h => by
    rw [dsExpr] at h
    obtain ⟨r, h1, h⟩ := except_bind_ok h
    cases h
    exact dsExpr_grows hg e h1
  | .Assign a b, st, st', e', h => by
    rw [dsExpr] at h
    obtain ⟨r, h1, h⟩ := except_bind_ok h
    obtain ⟨r', h2, h⟩ := except_bind_ok h
    cases h
    exact (dsExpr_grows hg a h1).trans (dsExpr_grows hg b h2)
  | .Call f tys args, st, st', e', h => by
    rw [dsExpr] at h
    obtain ⟨r, h1, h⟩ := except_bind_ok h
    cases h
    exact dsList_grows hg args h1
  | .MethodCall ctx f args, st, st', e', h => by
    rw [dsExpr] at h
    obtain ⟨r, h1, h⟩ := except_bind_ok h
    obtain ⟨r', h2, h⟩ := except_bind_ok h
    cases h
    exact (dsExpr_grows hg ctx h1).trans (dsList_grows hg args h2)
  | .Member e m, st, st', e', h => by
    rw [dsExpr] at h
    obtain ⟨r, h1, h⟩ := except_bind_ok h
    cases h
    exact dsExpr_grows hg e h1
  | .ArrayElem a b, st, st', e', h => by
    rw [dsExpr] at h
    obtain ⟨r, h1, h⟩ := except_bind_ok h
    obtain ⟨r', h2, h⟩ := except_bind_ok h
    cases h
    exact (dsExpr_grows hg a h1).trans (dsExpr_grows hg b h2)
  | .New ty args, st, st', e', h => by
    rw [dsExpr] at h
    obtain ⟨r, h1, h⟩ := except_bind_ok h
    cases h
    exact dsList_grows hg args h1
  | .Return none, st, st', e', h => by cases h; exact .refl _
  | .Return (some e), st, st', e', h => by
    rw [dsExpr] at h
    obtain ⟨r, h1, h⟩ := except_bind_ok h
    cases h
    exact dsExpr_grows hg e h1
  | .Seq es, st, st', e', h => by
    rw [dsExpr] at h
    obtain ⟨r, h1, h⟩ := except_bind_ok h
    cases h
    exact dsSeq_grows hg es h1
  | .Switch e cases dflt, st, st', e', h => by
    rw [dsExpr] at h
    obtain ⟨r, h1, h⟩ := except_bind_ok h
    obtain ⟨r', h2, h⟩ := except_bind_ok h
    obtain ⟨r'', h3, h⟩ := except_bind_ok h
    cases h
    exact ((dsCases_grows hg cases h1).trans (dsOpt_grows hg dflt h2)).trans (dsExpr_grows hg e h3)
  | .If c t e, st, st', e', h => by
    rw [dsExpr] at h
    obtain ⟨r, h1, h⟩ := except_bind_ok h
    obtain ⟨r', h2, h⟩ := except_bind_ok h
    obtain ⟨r'', h3, h⟩ := except_bind_ok h
    cases h
    exact ((dsSeq_grows hg t h1).trans (dsOpt_grows hg e h2)).trans (dsExpr_grows hg c h3)
  | .Conditional c t e, st, st', e', h => by
    rw [dsExpr] at h
    obtain ⟨r, h1, h⟩ := except_bind_ok h
    obtain ⟨r', h2, h⟩ := except_bind_ok h
    obtain ⟨r'', h3, h⟩ := except_bind_ok h
    cases h
    exact ((dsExpr_grows hg c h1).trans (dsExpr_grows hg t h2)).trans (dsExpr_grows hg e h3)
  | .While c body, st, st', e', h => by
    rw [dsExpr] at h
    obtain ⟨r, h1, h⟩ := except_bind_ok h
    obtain ⟨r', h2, h⟩ := except_bind_ok h
    cases h
    exact (dsSeq_grows hg body h1).trans (dsExpr_grows hg c h2)
  | .ForIn x array body, st, st', e', h => by
    rw [dsExpr] at h
    obtain ⟨b, h1, h⟩ := except_bind_ok h
    obtain ⟨a, h2, h⟩ := except_bind_ok h
    have h12 := (dsSeq_grows hg body h1).trans (dsExpr_grows hg array h2)
    split at h
    · cases h
    · obtain ⟨r, h3, h⟩ := except_bind_ok h
      obtain ⟨int, h4, h⟩ := except_bind_ok h
      obtain ⟨r', h5, h⟩ := except_bind_ok h
      obtain ⟨add, h6, h⟩ := except_bind_ok h
      obtain ⟨less, h7, h⟩ := except_bind_ok h
      cases h
      have h35 := (fresh_grows hg h3).trans (fresh_grows hg h5)
      exact (h12.trans h35).trans ((Grows.push _ (e := .Assign _ _) rfl).trans (Grows.push _ (e := .Assign _ _) rfl) |> fun h =>
        by simpa [DsState.push, forInSetup, List.append_assoc] using h)
  | .BinOp a b op, st, st', e', h => by
    rw [dsExpr] at h
    obtain ⟨r, h1, h⟩ := except_bind_ok h
    obtain ⟨r', h2, h⟩ := except_bind_ok h
    cases h
    exact (dsExpr_grows hg a h1).trans (dsExpr_grows hg b h2)
  | .UnOp e op, st, st', e', h => by
    rw [dsExpr] at h
    obtain ⟨r, h1, h⟩ := except_bind_ok h
    cases h
    exact dsExpr_grows hg e h1
theorem dsList_grows (hg : ∀ n ty m, D.typeIndex n ty = .ok m → n ≤ m) : ∀ (es : List TypedExpr) {st st' : DsState}
    {es' : List TypedExpr}, dsList D es st = .ok (es', st') → Grows st st'
  | [], st, st', es', h => by cases h; exact .refl _
  | e :: es, st, st', es', h => by
    rw [dsList] at h
    obtain ⟨r, h1, h⟩ := except_bind_ok h
    obtain ⟨r', h2, h⟩ := except_bind_ok h
    cases h
    exact (dsExpr_grows hg e h1).trans (dsList_grows hg es h2)
theorem dsElems_grows (hg : ∀ n ty m, D.typeIndex n ty = .ok m → n ≤ m) : ∀ (es : List TypedExpr) {l : Idx} {i : Nat}
    {st st' : DsState}, dsElems D l i es st = .ok st' → Grows st st'
  | [], l, i, st, st', h => by cases h; exact .refl _
  | e :: es, l, i, st, st', h => by
    rw [dsElems] at h
    obtain ⟨r, h1, h⟩ := except_bind_ok h
    exact ((dsExpr_grows hg e h1).trans (Grows.push _ rfl)).trans (dsElems_grows hg es h)
theorem dsParts_grows (hg : ∀ n ty m, D.typeIndex n ty = .ok m → n ≤ m) : ∀ (ps : List (TypedExpr × Text)) {str : TypeId} {add : Idx}
    {acc e' : TypedExpr} {st st' : DsState}, dsParts D str add ps acc st = .ok (e', st') → Grows st st'
  | [], str, add, acc, e', st, st', h => by cases h; exact .refl _
  | (e, t) :: ps, str, add, acc, e', st, st', h => by
    rw [dsParts] at h
    obtain ⟨r, h1, h⟩ := except_bind_ok h
    obtain ⟨p, h2, h⟩ := except_bind_ok h
    exact (dsExpr_grows hg e h1).trans (dsParts_grows hg ps h)
theorem dsSeq_grows (hg : ∀ n ty m, D.typeIndex n ty = .ok m → n ≤ m) : ∀ (es : List TypedExpr) {st st' : DsState}
    {es' : List TypedExpr}, dsSeq D es st = .ok (es', st') → Grows st st'
  | [], st, st', es', h => by cases h; exact .refl _
  | e :: es, st, st', es', h => by
    rw [dsSeq] at h
    obtain ⟨r, h1, h⟩ := except_bind_ok h
    obtain ⟨r', h2, h⟩ := except_bind_ok h
    cases h
    have := dsSeq_grows hg es h2
    exact (dsExpr_grows hg e h1).trans ⟨this.next, this.locals, fun _ => this.exprs nofun⟩
theorem dsOpt_grows (hg : ∀ n ty m, D.typeIndex n ty = .ok m → n ≤ m) : ∀ (es : Option (List TypedExpr)) {st st' : DsState}
    {es' : Option (List TypedExpr)}, dsOpt D es st = .ok (es', st') → Grows st st'
  | none, st, st', es', h => by cases h; exact .refl _
  | some es, st, st', es', h => by
    rw [dsOpt] at h
    obtain ⟨r, h1, h⟩ := except_bind_ok h
    cases h
    exact dsSeq_grows hg es h1
theorem dsCases_grows (hg : ∀ n ty m, D.typeIndex n ty = .ok m → n ≤ m) : ∀ (cs : List (TypedExpr × List TypedExpr))
    {st st' : DsState} {cs' : List (TypedExpr × List TypedExpr)}, dsCases D cs st = .ok (cs', st') → Grows st st'
  | [], st, st', cs', h => by cases h; exact .refl _
  | (m, body) :: cs, st, st', cs', h => by
    rw [dsCases] at h
    obtain ⟨b, h1, h⟩ := except_bind_ok h
    obtain ⟨r, h2, h⟩ := except_bind_ok h
    obtain ⟨r', h3, h⟩ := except_bind_ok h
    cases h
    exact ((dsSeq_grows hg body h1).trans (dsExpr_grows hg m h2)).trans (dsCases_grows hg cs h3)
end

/-! ## Types -/

/-- The added variables have their types. -/
def Typed (Q : TypeQueries) (st : DsState) : Prop := ∀ x ∈ st.locals, Q.local_ x.1 = .ok x.2

theorem Typed.mono {Q : TypeQueries} {st st' : DsState} (h : Typed Q st') (hg : Grows st st') : Typed Q st :=
  fun x hx => h x (hg.locals x hx)

theorem Typed.fresh {Q : TypeQueries} (hg : ∀ n ty m, D.typeIndex n ty = .ok m → n ≤ m) {st st' : DsState} {ty : TypeId} {l : Idx}
    (h : Typed Q st') (hf : D.fresh st ty = .ok (l, st')) : Q.local_ l = .ok ty := by
  obtain ⟨-, -, -, h4⟩ := dsFresh_ok hg hf
  exact h (l, ty) (by rw [h4]; simp)

variable {W : DsWorld V S A}

/-- The parts of an interpolated string have the type of strings. -/
theorem dsParts_type (hW : W.Laws) {str : TypeId} {add : Idx} (hs : W.D.stringTy = .ok str) (ha : W.D.addStr = .ok add) :
    ∀ (ps : List (TypedExpr × Text)) {acc e' : TypedExpr} {st st' : DsState}, typeTree W.Q acc = .ok str →
      acc.isPlain W.start = true → dsParts W.D str add ps acc st = .ok (e', st') →
      typeTree W.Q e' = .ok str ∧ e'.isPlain W.start = true
  | [], acc, e', st, st', h1, h2, h => by cases h; exact ⟨h1, h2⟩
  | (e, t) :: ps, acc, e', st, st', h1, h2, h => by
    rw [dsParts] at h
    obtain ⟨r, h3, h⟩ := except_bind_ok h
    obtain ⟨p, h4, h⟩ := except_bind_ok h
    refine dsParts_type hW hs ha ps ?_ rfl h
    rw [joinPart, typeTree, hW.sumTy add ha, hW.stringTy str hs]

/-- Desugaring keeps the types of expressions. -/
theorem dsExpr_type (hW : W.Laws) : ∀ (e : TypedExpr) {st st' : DsState} {e' : TypedExpr}, Typed W.Q st' →
    dsExpr W.D e st = .ok (e', st') → typeTree W.Q e' = typeTree W.Q e
  | .Ident _, st, st', e', ht, h => by cases h; rfl
  | .Constant _, st, st', e', ht, h => by cases h; rfl
  | .This, st, st', e', ht, h => by cases h; rfl
  | .Super, st, st', e', ht, h => by cases h; rfl
  | .Break, st, st', e', ht, h => by cases h; rfl
  | .Null, st, st', e', ht, h => by cases h; rfl
  | .Goto _, st, st', e', ht, h => by cases h; rfl
  | .ArrayLit es none, st, st', e', ht, h => by cases h
  | .ArrayLit es (some t), st, st', e', ht, h => by
    rw [dsExpr] at h
    obtain ⟨⟨l, st1⟩, h1, h⟩ := except_bind_ok h
    obtain ⟨st2, h2, h⟩ := except_bind_ok h
    cases h
    have hg := dsElems_grows hW.grows es h2
    have ht1 : Typed W.Q st1 := ht.mono ((Grows.push _ rfl).trans hg)
    exact ht1.fresh hW.grows h1
  | .InterpolatedString t ps, st, st', e', ht, h => by
    rw [dsExpr] at h
    obtain ⟨str, h1, h⟩ := except_bind_ok h
    obtain ⟨add, h2, h⟩ := except_bind_ok h
    rw [(dsParts_type hW h1 h2 ps (by rw [typeTree, hW.stringTy _ h1]) rfl h).1, typeTree, hW.stringTy _ h1]
  | .Declare l ty none, st, st', e', ht, h => by cases h; rfl
  | .Declare l ty (some e), st, st', e', ht, h => by
    rw [dsExpr] at h
    obtain ⟨r, h1, h⟩ := except_bind_ok h
    cases h; rfl
  | .Cast ty e, st, st', e', ht, h => by
    rw [dsExpr] at h
    obtain ⟨r, h1, h⟩ := except_bind_ok h
    cases h
    rw [typeTree, typeTree, dsExpr_type hW e ht h1]
  | .Assign a b, st, st', e', ht, h => by
    rw [dsExpr] at h
    obtain ⟨r, h1, h⟩ := except_bind_ok h
    obtain ⟨r', h2, h⟩ := except_bind_ok h
    cases h; rfl
  | .Call f tys args, st, st', e', ht, h => by
    rw [dsExpr] at h
    obtain ⟨r, h1, h⟩ := except_bind_ok h
    cases h; cases f <;> rfl
  | .MethodCall ctx f args, st, st', e', ht, h => by
    rw [dsExpr] at h
    obtain ⟨r, h1, h⟩ := except_bind_ok h
    obtain ⟨r', h2, h⟩ := except_bind_ok h
    cases h; rfl
  | .Member e m, st, st', e', ht, h => by
    rw [dsExpr] at h
    obtain ⟨r, h1, h⟩ := except_bind_ok h
    cases h; cases m <;> rfl
  | .ArrayElem a b, st, st', e', ht, h => by
    rw [dsExpr] at h
    obtain ⟨r, h1, h⟩ := except_bind_ok h
    obtain ⟨r', h2, h⟩ := except_bind_ok h
    cases h
    rw [typeTree, typeTree, dsExpr_type hW a (ht.mono (dsExpr_grows hW.grows b h2)) h1]
  | .New ty args, st, st', e', ht, h => by
    rw [dsExpr] at h
    obtain ⟨r, h1, h⟩ := except_bind_ok h
    cases h; cases ty <;> rfl
  | .Return none, st, st', e', ht, h => by cases h; rfl
  | .Return (some e), st, st', e', ht, h => by
    rw [dsExpr] at h
    obtain ⟨r, h1, h⟩ := except_bind_ok h
    cases h; rfl
  | .Seq es, st, st', e', ht, h => by
    rw [dsExpr] at h
    obtain ⟨r, h1, h⟩ := except_bind_ok h
    cases h; rfl
  | .Switch e cases dflt, st, st', e', ht, h => by
    rw [dsExpr] at h
    obtain ⟨r, h1, h⟩ := except_bind_ok h
    obtain ⟨r', h2, h⟩ := except_bind_ok h
    obtain ⟨r'', h3, h⟩ := except_bind_ok h
    cases h; rfl
  | .If c t e, st, st', e', ht, h => by
    rw [dsExpr] at h
    obtain ⟨r, h1, h⟩ := except_bind_ok h
    obtain ⟨r', h2, h⟩ := except_bind_ok h
    obtain ⟨r'', h3, h⟩ := except_bind_ok h
    cases h; rfl
  | .Conditional c t e, st, st', e', ht, h => by
    rw [dsExpr] at h
    obtain ⟨r, h1, h⟩ := except_bind_ok h
    obtain ⟨r', h2, h⟩ := except_bind_ok h
    obtain ⟨r'', h3, h⟩ := except_bind_ok h
    cases h
    rw [typeTree, typeTree, dsExpr_type hW t (ht.mono (dsExpr_grows hW.grows e h3)) h2, dsExpr_type hW e ht h3]
  | .While c body, st, st', e', ht, h => by
    rw [dsExpr] at h
    obtain ⟨r, h1, h⟩ := except_bind_ok h
    obtain ⟨r', h2, h⟩ := except_bind_ok h
    cases h; rfl
  | .ForIn x array body, st, st', e', ht, h => by
    rw [dsExpr] at h
    obtain ⟨b, h1, h⟩ := except_bind_ok h
    obtain ⟨a, h2, h⟩ := except_bind_ok h
    split at h
    · cases h
    · obtain ⟨r, h3, h⟩ := except_bind_ok h
      obtain ⟨int, h4, h⟩ := except_bind_ok h
      obtain ⟨r', h5, h⟩ := except_bind_ok h
      obtain ⟨add, h6, h⟩ := except_bind_ok h
      obtain ⟨less, h7, h⟩ := except_bind_ok h
      cases h; rfl
  | .BinOp a b op, st, st', e', ht, h => by
    rw [dsExpr] at h
    obtain ⟨r, h1, h⟩ := except_bind_ok h
    obtain ⟨r', h2, h⟩ := except_bind_ok h
    cases h; rfl
  | .UnOp e op, st, st', e', ht, h => by
    rw [dsExpr] at h
    obtain ⟨r, h1, h⟩ := except_bind_ok h
    cases h; rfl

/-- Expressions that are no array literals do not become one. -/
theorem dsExpr_plain (hW : W.Laws) : ∀ (e : TypedExpr) {st st' : DsState} {e' : TypedExpr},
    e.isPlain W.start = true → dsExpr W.D e st = .ok (e', st') → e'.isPlain W.start = true
  | .Ident _, st, st', e', hp, h => by cases h; exact hp
  | .Constant _, st, st', e', hp, h => by cases h; rfl
  | .This, st, st', e', hp, h => by cases h; rfl
  | .Super, st, st', e', hp, h => by cases h; rfl
  | .Break, st, st', e', hp, h => by cases h; rfl
  | .Null, st, st', e', hp, h => by cases h; rfl
  | .Goto _, st, st', e', hp, h => by cases h; rfl
  | .ArrayLit es t, st, st', e', hp, h => by cases hp
  | .InterpolatedString t ps, st, st', e', hp, h => by
    rw [dsExpr] at h
    obtain ⟨str, h1, h⟩ := except_bind_ok h
    obtain ⟨add, h2, h⟩ := except_bind_ok h
    exact (dsParts_type hW h1 h2 ps (by rw [typeTree, hW.stringTy _ h1]) rfl h).2
  | .Declare l ty none, st, st', e', hp, h => by cases h; rfl
  | .Declare l ty (some e), st, st', e', hp, h => by
    rw [dsExpr] at h
    obtain ⟨r, h1, h⟩ := except_bind_ok h
    cases h; rfl
  | .Cast ty e, st, st', e', hp, h => by
    rw [dsExpr] at h
    obtain ⟨r, h1, h⟩ := except_bind_ok h
    cases h; rfl
  | .Assign a b, st, st', e', hp, h => by
    rw [dsExpr] at h
    obtain ⟨r, h1, h⟩ := except_bind_ok h
    obtain ⟨r', h2, h⟩ := except_bind_ok h
    cases h; rfl
  | .Call f tys args, st, st', e', hp, h => by
    rw [dsExpr] at h
    obtain ⟨r, h1, h⟩ := except_bind_ok h
    cases h; rfl
  | .MethodCall ctx f args, st, st', e', hp, h => by
    rw [dsExpr] at h
    obtain ⟨r, h1, h⟩ := except_bind_ok h
    obtain ⟨r', h2, h⟩ := except_bind_ok h
    cases h; rfl
  | .Member e m, st, st', e', hp, h => by
    rw [dsExpr] at h
    obtain ⟨r, h1, h⟩ := except_bind_ok h
    cases h; rfl
  | .ArrayElem a b, st, st', e', hp, h => by
    rw [dsExpr] at h
    obtain ⟨r, h1, h⟩ := except_bind_ok h
    obtain ⟨r', h2, h⟩ := except_bind_ok h
    cases h
    have := dsExpr_plain hW a hp h1
    exact this
  | .New ty args, st, st', e', hp, h => by
    rw [dsExpr] at h
    obtain ⟨r, h1, h⟩ := except_bind_ok h
    cases h; rfl
  | .Return none, st, st', e', hp, h => by cases h; rfl
  | .Return (some e), st, st', e', hp, h => by
    rw [dsExpr] at h
    obtain ⟨r, h1, h⟩ := except_bind_ok h
    cases h; rfl
  | .Seq es, st, st', e', hp, h => by
    rw [dsExpr] at h
    obtain ⟨r, h1, h⟩ := except_bind_ok h
    cases h; rfl
  | .Switch e cases dflt, st, st', e', hp, h => by
    rw [dsExpr] at h
    obtain ⟨r, h1, h⟩ := except_bind_ok h
    obtain ⟨r', h2, h⟩ := except_bind_ok h
    obtain ⟨r'', h3, h⟩ := except_bind_ok h
    cases h; rfl
  | .If c t e, st, st', e', hp, h => by
    rw [dsExpr] at h
    obtain ⟨r, h1, h⟩ := except_bind_ok h
    obtain ⟨r', h2, h⟩ := except_bind_ok h
    obtain ⟨r'', h3, h⟩ := except_bind_ok h
    cases h; rfl
  | .Conditional c t e, st, st', e', hp, h => by cases hp
  | .While c body, st, st', e', hp, h => by
    rw [dsExpr] at h
    obtain ⟨r, h1, h⟩ := except_bind_ok h
    obtain ⟨r', h2, h⟩ := except_bind_ok h
    cases h; rfl
  | .ForIn x array body, st, st', e', hp, h => by
    rw [dsExpr] at h
    obtain ⟨b, h1, h⟩ := except_bind_ok h
    obtain ⟨a, h2, h⟩ := except_bind_ok h
    split at h
    · cases h
    · obtain ⟨r, h3, h⟩ := except_bind_ok h
      obtain ⟨int, h4, h⟩ := except_bind_ok h
      obtain ⟨r', h5, h⟩ := except_bind_ok h
      obtain ⟨add, h6, h⟩ := except_bind_ok h
      obtain ⟨less, h7, h⟩ := except_bind_ok h
      cases h; rfl
  | .BinOp a b op, st, st', e', hp, h => by
    rw [dsExpr] at h
    obtain ⟨r, h1, h⟩ := except_bind_ok h
    obtain ⟨r', h2, h⟩ := except_bind_ok h
    cases h; rfl
  | .UnOp e op, st, st', e', hp, h => by
    rw [dsExpr] at h
    obtain ⟨r, h1, h⟩ := except_bind_ok h
    cases h; rfl

end

end Redscript
