import Verif.Pipeline.Desugared

/-!
# Bodies without sugar
-/

namespace Redscript

section
variable {N : NameKind}

mutual
/-- There is no array literal, no interpolated string and no loop over an array. -/
def Expr.noSugar : Expr N → Bool
  | .ArrayLit _ _ | .InterpolatedString _ _ | .ForIn _ _ _ => false
  | .Ident _ | .Constant _ | .Null | .This | .Super | .Break | .Goto _ => true
  | .Declare _ _ init => match init with | none => true | some e => e.noSugar
  | .Return e => match e with | none => true | some e => e.noSugar
  | .Cast _ e | .Member e _ | .UnOp e _ => e.noSugar
  | .Assign a b | .ArrayElem a b | .BinOp a b _ => a.noSugar && b.noSugar
  | .Call _ _ args | .New _ args | .Seq args => Expr.allNoSugar args
  | .MethodCall c _ args => c.noSugar && Expr.allNoSugar args
  | .Conditional c a b => c.noSugar && a.noSugar && b.noSugar
  | .If c t e => c.noSugar && Expr.allNoSugar t && Expr.optNoSugar e
  | .While c b => c.noSugar && Expr.allNoSugar b
  | .Switch e cs d => e.noSugar && Expr.casesNoSugar cs && Expr.optNoSugar d
/-- The same for all elements. -/
def Expr.allNoSugar : List (Expr N) → Bool
  | [] => true
  | e :: es => e.noSugar && Expr.allNoSugar es
/-- The same for an optional block. -/
def Expr.optNoSugar : Option (List (Expr N)) → Bool
  | none => true
  | some es => Expr.allNoSugar es
/-- The same for cases. -/
def Expr.casesNoSugar : List (Expr N × List (Expr N)) → Bool
  | [] => true
  | (m, b) :: cs => m.noSugar && Expr.allNoSugar b && Expr.casesNoSugar cs
end

end

section
variable {E : TcEnv}

theorem Wrapped.plain {x y : TypedExpr} (h : Wrapped x y) (hx : x.noSugar = true) : y.noSugar = true := by
  cases h <;> simp [Expr.noSugar, Expr.allNoSugar, hx]

theorem Strong.plain {x y : TypedExpr} (h : Strong x y) (hx : x.noSugar = true) : y.noSugar = true := by
  cases h <;> simp [Expr.noSugar, Expr.allNoSugar, hx]

mutual
theorem Elab.plain : ∀ {ρ ρ' : NameEnv} {e : Expr SourceAst} {x : TypedExpr}, Elab E ρ e x ρ' →
    e.noSugar = true → x.noSugar = true
  | _, _, _, _, .value _, _ | _, _, _, _, .symbol _ _, _ | _, _, _, _, .constant _ _, _ | _, _, _, _, .declare _ _ _ _, _
  | _, _, _, _, .retNone _, _ | _, _, _, _, .goto _ _, _ | _, _, _, _, .this _, _ | _, _, _, _, .super _, _
  | _, _, _, _, .brk _, _ | _, _, _, _, .null _, _ => by simp only [Expr.noSugar]
  | _, _, _, _, .array _ _ _, he | _, _, _, _, .text _ _, he | _, _, _, _, .forIn _ _ _ _, he => by
    simp [Expr.noSugar] at he
  | _, _, _, _, .declareAs _ _ _ h hw, he => by
    simp only [Expr.noSugar] at he ⊢
    exact hw.plain (h.plain he)
  | _, _, _, _, .declareInfer _ _ _ h, he => by
    simp only [Expr.noSugar] at he ⊢
    exact h.plain he
  | _, _, _, _, .cast _ h hw, he | _, _, _, _, .classField _ h hw _, he | _, _, _, _, .structField _ h hw _, he
  | _, _, _, _, .enumMember _ h hw _, he => by
    simp only [Expr.noSugar] at he ⊢
    exact hw.plain (h.plain he)
  | _, _, _, _, .ret h hw, he => by
    simp only [Expr.noSugar] at he ⊢
    exact hw.plain (h.plain he)
  | _, _, _, _, .assign h1 h2 hw, he | _, _, _, _, .elem h1 h2 hw, he => by
    simp only [Expr.noSugar, Bool.and_eq_true] at he ⊢
    exact ⟨h1.plain he.1, hw.plain (h2.plain he.2)⟩
  | _, _, _, _, .call _ _ _ h, he | _, _, _, _, .intrinsic _ _ _ h, he | _, _, _, _, .new _ h, he => by
    simp only [Expr.noSugar] at he ⊢
    exact h.plain he
  | _, _, _, _, .seq h, he => by
    simp only [Expr.noSugar] at he ⊢
    exact h.plain he
  | _, _, _, _, .method _ h hw _ ha, he => by
    simp only [Expr.noSugar, Bool.and_eq_true] at he ⊢
    exact ⟨hw.plain (h.plain he.1), ha.plain he.2⟩
  | _, _, _, _, .binary _ h, he => by
    simp only [Expr.noSugar, Bool.and_eq_true] at he ⊢
    exact h.plain (by simp [Expr.allNoSugar, he.1, he.2])
  | _, _, _, _, .unary _ h, he => by
    simp only [Expr.noSugar] at he ⊢
    exact h.plain (by simp [Expr.allNoSugar, he])
  | _, _, _, _, .conditional h1 hw h2 h3, he => by
    simp only [Expr.noSugar, Bool.and_eq_true] at he ⊢
    exact ⟨⟨hw.plain (h1.plain he.1.1), h2.plain he.1.2⟩, h3.plain he.2⟩
  | _, _, _, _, .switch h1 h2 h3, he => by
    simp only [Expr.noSugar, Bool.and_eq_true] at he ⊢
    exact ⟨⟨h1.plain he.1.1, h2.plain he.1.2⟩, h3.plain he.2⟩
  | _, _, _, _, .ite h1 hw h2 h3, he => by
    simp only [Expr.noSugar, Bool.and_eq_true] at he ⊢
    exact ⟨⟨hw.plain (h1.plain he.1.1), h2.plain he.1.2⟩, h3.plain he.2⟩
  | _, _, _, _, .while h1 hw h2, he => by
    simp only [Expr.noSugar, Bool.and_eq_true] at he ⊢
    exact ⟨hw.plain (h1.plain he.1), h2.plain he.2⟩
theorem ElabSeq.plain : ∀ {ρ ρ' : NameEnv} {es : List (Expr SourceAst)} {xs : List TypedExpr}, ElabSeq E ρ es xs ρ' →
    Expr.allNoSugar es = true → Expr.allNoSugar xs = true
  | _, _, _, _, .nil _, _ => by rw [Expr.allNoSugar]
  | _, _, _, _, .cons h hs, he => by
    rw [Expr.allNoSugar, Bool.and_eq_true] at he ⊢
    exact ⟨h.plain he.1, hs.plain he.2⟩
theorem ElabArgs.plain : ∀ {ρ ρ' : NameEnv} {es : List (Expr SourceAst)} {xs : List TypedExpr}, ElabArgs E ρ es xs ρ' →
    Expr.allNoSugar es = true → Expr.allNoSugar xs = true
  | _, _, _, _, .nil _, _ => by rw [Expr.allNoSugar]
  | _, _, _, _, .cons h hw hs, he => by
    rw [Expr.allNoSugar, Bool.and_eq_true] at he ⊢
    exact ⟨hw.plain (h.plain he.1), hs.plain he.2⟩
theorem ElabCases.plain : ∀ {ρ ρ' : NameEnv} {cs : List (Expr SourceAst × List (Expr SourceAst))}
    {ds : List (TypedExpr × List TypedExpr)}, ElabCases E ρ cs ds ρ' →
    Expr.casesNoSugar cs = true → Expr.casesNoSugar ds = true
  | _, _, _, _, .nil _, _ => by rw [Expr.casesNoSugar]
  | _, _, _, _, .cons h hb hs, he => by
    rw [Expr.casesNoSugar, Bool.and_eq_true, Bool.and_eq_true] at he ⊢
    exact ⟨⟨h.plain he.1.1, hb.plain he.1.2⟩, hs.plain he.2⟩
theorem ElabBlock.plain : ∀ {ρ ρ' : NameEnv} {b : Option (List (Expr SourceAst))} {d : Option (List TypedExpr)},
    ElabBlock E ρ b d ρ' → Expr.optNoSugar b = true → Expr.optNoSugar d = true
  | _, _, _, _, .none _, _ => by rw [Expr.optNoSugar]
  | _, _, _, _, .some h, he => by
    rw [Expr.optNoSugar] at he ⊢
    exact h.plain he
end

variable {D : DsEnv}

mutual
theorem dsExpr_same : ∀ (e : TypedExpr), e.noSugar = true → ∀ {st : DsState}, st.pending = [] → dsExpr D e st = .ok (e, st)
  | .Ident _, _, _, _ | .Constant _, _, _, _ | .Null, _, _, _ | .This, _, _, _ | .Super, _, _, _ | .Break, _, _, _
  | .Goto _, _, _, _ | .Declare _ _ none, _, _, _ | .Return none, _, _, _ => by rw [dsExpr]
  | .ArrayLit _ _, he, _, _ | .InterpolatedString _ _, he, _, _ | .ForIn _ _ _, he, _, _ => by simp [Expr.noSugar] at he
  | .Declare _ _ (some e), he, st, hp | .Return (some e), he, st, hp | .Cast _ e, he, st, hp | .Member e _, he, st, hp
  | .UnOp e _, he, st, hp => by
    simp only [Expr.noSugar] at he
    rw [dsExpr, dsExpr_same e he hp]
    rfl
  | .Assign a b, he, st, hp | .ArrayElem a b, he, st, hp | .BinOp a b _, he, st, hp => by
    simp only [Expr.noSugar, Bool.and_eq_true] at he
    rw [dsExpr, dsExpr_same a he.1 hp]
    show (dsExpr D b st >>= _) = _
    rw [dsExpr_same b he.2 hp]
    rfl
  | .Call _ _ args, he, st, hp | .New _ args, he, st, hp => by
    simp only [Expr.noSugar] at he
    rw [dsExpr, dsList_same args he hp]
    rfl
  | .Seq es, he, st, hp => by
    simp only [Expr.noSugar] at he
    rw [dsExpr, dsSeq_same es he hp]
    rfl
  | .MethodCall c _ args, he, st, hp => by
    simp only [Expr.noSugar, Bool.and_eq_true] at he
    rw [dsExpr, dsExpr_same c he.1 hp]
    show (dsList D args st >>= _) = _
    rw [dsList_same args he.2 hp]
    rfl
  | .Conditional c a b, he, st, hp => by
    simp only [Expr.noSugar, Bool.and_eq_true] at he
    rw [dsExpr, dsExpr_same c he.1.1 hp]
    show (dsExpr D a st >>= _) = _
    rw [dsExpr_same a he.1.2 hp]
    show (dsExpr D b st >>= _) = _
    rw [dsExpr_same b he.2 hp]
    rfl
  | .If c t e, he, st, hp => by
    simp only [Expr.noSugar, Bool.and_eq_true] at he
    rw [dsExpr, dsSeq_same t he.1.2 hp]
    show (dsOpt D e st >>= _) = _
    rw [dsOpt_same e he.2 hp]
    show (dsExpr D c st >>= _) = _
    rw [dsExpr_same c he.1.1 hp]
    rfl
  | .While c b, he, st, hp => by
    simp only [Expr.noSugar, Bool.and_eq_true] at he
    rw [dsExpr, dsSeq_same b he.2 hp]
    show (dsExpr D c st >>= _) = _
    rw [dsExpr_same c he.1 hp]
    rfl
  | .Switch e cs d, he, st, hp => by
    simp only [Expr.noSugar, Bool.and_eq_true] at he
    rw [dsExpr, dsCases_same cs he.1.2 hp]
    show (dsOpt D d st >>= _) = _
    rw [dsOpt_same d he.2 hp]
    show (dsExpr D e st >>= _) = _
    rw [dsExpr_same e he.1.1 hp]
    rfl
theorem dsList_same : ∀ (es : List TypedExpr), Expr.allNoSugar es = true → ∀ {st : DsState}, st.pending = [] →
    dsList D es st = .ok (es, st)
  | [], _, _, _ => by rw [dsList]
  | e :: es, he, st, hp => by
    rw [Expr.allNoSugar, Bool.and_eq_true] at he
    rw [dsList, dsExpr_same e he.1 hp]
    show (dsList D es st >>= _) = _
    rw [dsList_same es he.2 hp]
    rfl
theorem dsSeq_same : ∀ (es : List TypedExpr), Expr.allNoSugar es = true → ∀ {st : DsState}, st.pending = [] →
    dsSeq D es st = .ok (es, st)
  | [], _, _, _ => by rw [dsSeq]
  | e :: es, he, ⟨n, p, l⟩, hp => by
    cases hp
    rw [Expr.allNoSugar, Bool.and_eq_true] at he
    rw [dsSeq, dsExpr_same e he.1 rfl]
    show (dsSeq D es ⟨n, [], l⟩ >>= _) = _
    rw [dsSeq_same es he.2 rfl]
    rfl
theorem dsOpt_same : ∀ (b : Option (List TypedExpr)), Expr.optNoSugar b = true → ∀ {st : DsState}, st.pending = [] →
    dsOpt D b st = .ok (b, st)
  | none, _, _, _ => by rw [dsOpt]
  | some es, he, st, hp => by
    rw [Expr.optNoSugar] at he
    rw [dsOpt, dsSeq_same es he hp]
    rfl
theorem dsCases_same : ∀ (cs : List (TypedExpr × List TypedExpr)), Expr.casesNoSugar cs = true → ∀ {st : DsState},
    st.pending = [] → dsCases D cs st = .ok (cs, st)
  | [], _, _, _ => by rw [dsCases]
  | (m, b) :: cs, he, st, hp => by
    rw [Expr.casesNoSugar, Bool.and_eq_true, Bool.and_eq_true] at he
    rw [dsCases, dsSeq_same b he.1.2 hp]
    show (dsExpr D m st >>= _) = _
    rw [dsExpr_same m he.1.1 hp]
    show (dsCases D cs st >>= _) = _
    rw [dsCases_same cs he.2 hp]
    rfl
end

end

end Redscript
