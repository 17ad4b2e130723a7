import Verif.Pipeline.Written

/-!
# The type checker keeps the shape of bodies
-/

namespace Redscript

section
variable {E : TcEnv}

theorem Wrapped.operand {x y : TypedExpr} (h : Wrapped x y) (hx : x.isOperand = true) : y.isOperand = true := by
  cases h <;> simp [Expr.isOperand, Expr.areOperands, hx]

theorem Strong.operand {x y : TypedExpr} (h : Strong x y) (hx : x.isOperand = true) : y.isOperand = true := by
  cases h <;> simp [Expr.isOperand, Expr.areOperands, hx]

/-- The parts of the shape that the assembler of switches depends on. -/
structure SameShape (e : Expr SourceAst) (x : TypedExpr) : Prop where
  silent : x.silent = e.silent
  opens : x.opens = e.opens
  switches : x.switchesOk = e.switchesOk
  empty : x.isEmpty = e.isEmpty

mutual
theorem Elab.operand : ∀ {ρ ρ' : NameEnv} {e : Expr SourceAst} {x : TypedExpr}, Elab E ρ e x ρ' →
    e.isOperand = true → x.isOperand = true
  | _, _, _, _, .value _, _ => by rw [Expr.isOperand]
  | _, _, _, _, .symbol _ _, _ => by rw [Expr.isOperand]
  | _, _, _, _, .constant _ _, _ => by rw [Expr.isOperand]
  | _, _, _, _, .array _ _ h, he => by
    rw [Expr.isOperand] at he ⊢
    exact h.operand he
  | _, _, _, _, .text _ h, he => by
    rw [Expr.isOperand] at he ⊢
    exact h.operand he
  | _, _, _, _, .declare _ _ _ _, he => by simp [Expr.isOperand] at he
  | _, _, _, _, .declareAs _ _ _ _ _, he => by simp [Expr.isOperand] at he
  | _, _, _, _, .declareInfer _ _ _ _, he => by simp [Expr.isOperand] at he
  | _, _, _, _, .cast _ h hw, he => by
    rw [Expr.isOperand] at he ⊢
    exact hw.operand (h.operand he)
  | _, _, _, _, .assign h1 h2 hw, he => by
    rw [Expr.isOperand, Bool.and_eq_true] at he ⊢
    exact ⟨h1.operand he.1, hw.operand (h2.operand he.2)⟩
  | _, _, _, _, .call _ _ _ h, he => by
    rw [Expr.isOperand] at he ⊢
    exact h.operand he
  | _, _, _, _, .intrinsic _ _ _ h, he => by
    rw [Expr.isOperand] at he ⊢
    exact h.operand he
  | _, _, _, _, .method _ h hw _ ha, he => by
    rw [Expr.isOperand, Bool.and_eq_true] at he ⊢
    exact ⟨hw.operand (h.operand he.1), ha.operand he.2⟩
  | _, _, _, _, .binary _ h, he => by
    rw [Expr.isOperand, Bool.and_eq_true] at he
    rw [Expr.isOperand]
    exact h.operand (by simp [Expr.areOperands, he.1, he.2])
  | _, _, _, _, .unary _ h, he => by
    have he := show Expr.isOperand _ = true by simpa only [Expr.isOperand] using he
    rw [Expr.isOperand]
    exact h.operand (by rw [Expr.areOperands, Expr.areOperands, he]; rfl)
  | _, _, _, _, .classField _ h hw _, he => by
    rw [Expr.isOperand] at he ⊢
    exact hw.operand (h.operand he)
  | _, _, _, _, .structField _ h hw _, he => by
    rw [Expr.isOperand] at he ⊢
    exact hw.operand (h.operand he)
  | _, _, _, _, .enumMember _ h hw _, he => by
    rw [Expr.isOperand] at he ⊢
    exact hw.operand (h.operand he)
  | _, _, _, _, .elem h1 h2 hw, he => by
    rw [Expr.isOperand, Bool.and_eq_true] at he ⊢
    exact ⟨h1.operand he.1, hw.operand (h2.operand he.2)⟩
  | _, _, _, _, .new _ h, he => by
    rw [Expr.isOperand] at he ⊢
    exact h.operand he
  | _, _, _, _, .retNone _, he => by simp [Expr.isOperand] at he
  | _, _, _, _, .ret _ _, he => by simp [Expr.isOperand] at he
  | _, _, _, _, .seq _, he => by simp [Expr.isOperand] at he
  | _, _, _, _, .switch _ _ _, he => by simp [Expr.isOperand] at he
  | _, _, _, _, .goto _ _, he => by simp [Expr.isOperand] at he
  | _, _, _, _, .ite _ _ _ _, he => by simp [Expr.isOperand] at he
  | _, _, _, _, .conditional h1 hw h2 h3, he => by
    rw [Expr.isOperand, Bool.and_eq_true, Bool.and_eq_true] at he ⊢
    exact ⟨⟨hw.operand (h1.operand he.1.1), h2.operand he.1.2⟩, h3.operand he.2⟩
  | _, _, _, _, .while _ _ _, he => by simp [Expr.isOperand] at he
  | _, _, _, _, .forIn _ _ _ _, he => by simp [Expr.isOperand] at he
  | _, _, _, _, .this _, _ => by rw [Expr.isOperand]
  | _, _, _, _, .super _, _ => by rw [Expr.isOperand]
  | _, _, _, _, .brk _, he => by simp [Expr.isOperand] at he
  | _, _, _, _, .null _, _ => by rw [Expr.isOperand]
theorem ElabArgs.operand : ∀ {ρ ρ' : NameEnv} {es : List (Expr SourceAst)} {xs : List TypedExpr}, ElabArgs E ρ es xs ρ' →
    Expr.areOperands es = true → Expr.areOperands xs = true
  | _, _, _, _, .nil _, _ => by rw [Expr.areOperands]
  | _, _, _, _, .cons h hw hs, he => by
    rw [Expr.areOperands, Bool.and_eq_true] at he ⊢
    exact ⟨hw.operand (h.operand he.1), hs.operand he.2⟩
theorem ElabParts.operand : ∀ {ρ ρ' : NameEnv} {ps : List (Expr SourceAst × Text)} {qs : List (TypedExpr × Text)},
    ElabParts E ρ ps qs ρ' → Expr.areParts ps = true → Expr.areParts qs = true
  | _, _, _, _, .nil _, _ => by rw [Expr.areParts]
  | _, _, _, _, .cons h hs, he => by
    rw [Expr.areParts, Bool.and_eq_true] at he ⊢
    exact ⟨h.operand he.1, hs.operand he.2⟩
end

/-- The same for blocks. -/
structure SameShapes (es : List (Expr SourceAst)) (xs : List TypedExpr) : Prop where
  silent : Expr.allSilent xs = Expr.allSilent es
  opens : Expr.opensAll xs = Expr.opensAll es
  switches : Expr.allSwitchesOk xs = Expr.allSwitchesOk es
  empty : Expr.allEmpty xs = Expr.allEmpty es

theorem SameShape.simple {e : Expr SourceAst} {x : TypedExpr} (h1 : e.silent = false) (h2 : x.silent = false)
    (h3 : e.opens = false) (h4 : x.opens = false) (h5 : e.switchesOk = true) (h6 : x.switchesOk = true)
    (h7 : e.isEmpty = false) (h8 : x.isEmpty = false) : SameShape e x :=
  ⟨by rw [h1, h2], by rw [h3, h4], by rw [h5, h6], by rw [h7, h8]⟩

mutual
theorem Elab.shape : ∀ {ρ ρ' : NameEnv} {e : Expr SourceAst} {x : TypedExpr}, Elab E ρ e x ρ' →
    e.isWritten = true → x.isWritten = true ∧ SameShape e x
  | _, _, _, _, .declare _ _ _ _, _ => ⟨by rw [Expr.isWritten], rfl, rfl, rfl, rfl⟩
  | _, _, _, _, .declareAs _ _ _ h hw, he => by
    rw [Expr.isWritten] at he ⊢
    exact ⟨hw.operand (h.operand he), rfl, rfl, rfl, rfl⟩
  | _, _, _, _, .declareInfer _ _ _ h, he => by
    rw [Expr.isWritten] at he ⊢
    exact ⟨h.operand he, rfl, rfl, rfl, rfl⟩
  | _, _, _, _, .retNone _, _ => ⟨by rw [Expr.isWritten], rfl, rfl, rfl, rfl⟩
  | _, _, _, _, .ret h hw, he => by
    rw [Expr.isWritten] at he ⊢
    exact ⟨hw.operand (h.operand he), rfl, rfl, rfl, rfl⟩
  | _, _, _, _, .seq _, he => by simp [Expr.isWritten, Expr.isOperand] at he
  | _, _, _, _, .goto _ _, he => by simp [Expr.isWritten, Expr.isOperand] at he
  | _, _, _, _, .brk _, _ => ⟨by rw [Expr.isWritten], rfl, rfl, rfl, rfl⟩
  | _, _, _, _, .switch h1 h2 h3, he => by
    rw [Expr.isWritten, Bool.and_eq_true, Bool.and_eq_true] at he
    obtain ⟨c1, c2⟩ := h2.shape he.1.2
    obtain ⟨d1, d2, d3⟩ := h3.shape he.2
    refine ⟨by rw [Expr.isWritten, h1.operand he.1.1, c1, d1]; rfl, rfl, ?_, ?_, rfl⟩
    · rw [Expr.opens, Expr.opens, d2]
    · rw [Expr.switchesOk, Expr.switchesOk, c2, d3]
  | _, _, _, _, .ite h1 hw h2 h3, he => by
    rw [Expr.isWritten, Bool.and_eq_true, Bool.and_eq_true] at he
    obtain ⟨c1, c2⟩ := h2.shape he.1.2
    obtain ⟨d1, d2, d3⟩ := h3.shape he.2
    refine ⟨by rw [Expr.isWritten, hw.operand (h1.operand he.1.1), c1, d1]; rfl, rfl, ?_, ?_, rfl⟩
    · cases h3 with
      | none => rw [Expr.opens, Expr.opens]; exact c2.opens
      | some _ => rw [Expr.opens, Expr.opens]; rw [Expr.opensOpt, Expr.opensOpt] at d2; exact d2
    · rw [Expr.switchesOk, Expr.switchesOk, c2.switches, d3]
  | _, _, _, _, .while h1 hw h2, he => by
    rw [Expr.isWritten, Bool.and_eq_true] at he
    obtain ⟨c1, c2⟩ := h2.shape he.2
    refine ⟨by rw [Expr.isWritten, hw.operand (h1.operand he.1), c1]; rfl, rfl, rfl, ?_, rfl⟩
    rw [Expr.switchesOk, Expr.switchesOk, c2.switches]
  | _, _, _, _, .forIn _ _ h1 h2, he => by
    rw [Expr.isWritten, Bool.and_eq_true] at he
    obtain ⟨c1, c2⟩ := h2.shape he.2
    refine ⟨by rw [Expr.isWritten, h1.operand he.1, c1]; rfl, rfl, rfl, ?_, rfl⟩
    rw [Expr.switchesOk, Expr.switchesOk, c2.switches]
  | _, _, _, _, .value _, _ =>
    ⟨by simp [Expr.isWritten, Expr.isOperand], .simple rfl rfl rfl rfl rfl rfl rfl rfl⟩
  | _, _, _, _, .symbol _ _, _ =>
    ⟨by simp [Expr.isWritten, Expr.isOperand], .simple rfl rfl rfl rfl rfl rfl rfl rfl⟩
  | _, _, _, _, .constant _ _, _ =>
    ⟨by simp [Expr.isWritten, Expr.isOperand], .simple rfl rfl rfl rfl rfl rfl rfl rfl⟩
  | _, _, _, _, .array a b h, he =>
    ⟨Expr.isWritten_of_operand ((Elab.array a b h).operand he), .simple rfl rfl rfl rfl rfl rfl rfl rfl⟩
  | _, _, _, _, .text a h, he =>
    ⟨Expr.isWritten_of_operand ((Elab.text a h).operand he), .simple rfl rfl rfl rfl rfl rfl rfl rfl⟩
  | _, _, _, _, .cast a b c, he =>
    ⟨Expr.isWritten_of_operand ((Elab.cast a b c).operand he), .simple rfl rfl rfl rfl rfl rfl rfl rfl⟩
  | _, _, _, _, .assign a b c, he =>
    ⟨Expr.isWritten_of_operand ((Elab.assign a b c).operand he), .simple rfl rfl rfl rfl rfl rfl rfl rfl⟩
  | _, _, _, _, .call a b c d, he =>
    ⟨Expr.isWritten_of_operand ((Elab.call a b c d).operand he), .simple rfl rfl rfl rfl rfl rfl rfl rfl⟩
  | _, _, _, _, .intrinsic a b c d, he =>
    ⟨Expr.isWritten_of_operand ((Elab.intrinsic a b c d).operand he), .simple rfl rfl rfl rfl rfl rfl rfl rfl⟩
  | _, _, _, _, .method a b c d f, he =>
    ⟨Expr.isWritten_of_operand ((Elab.method a b c d f).operand he), .simple rfl rfl rfl rfl rfl rfl rfl rfl⟩
  | _, _, _, _, .binary a b, he =>
    ⟨Expr.isWritten_of_operand ((Elab.binary a b).operand he), .simple rfl rfl rfl rfl rfl rfl rfl rfl⟩
  | _, _, _, _, .unary a b, he =>
    ⟨Expr.isWritten_of_operand ((Elab.unary a b).operand he), .simple rfl rfl rfl rfl rfl rfl rfl rfl⟩
  | _, _, _, _, .classField a b c d, he =>
    ⟨Expr.isWritten_of_operand ((Elab.classField a b c d).operand he), .simple rfl rfl rfl rfl rfl rfl rfl rfl⟩
  | _, _, _, _, .structField a b c d, he =>
    ⟨Expr.isWritten_of_operand ((Elab.structField a b c d).operand he), .simple rfl rfl rfl rfl rfl rfl rfl rfl⟩
  | _, _, _, _, .enumMember a b c d, he =>
    ⟨Expr.isWritten_of_operand ((Elab.enumMember a b c d).operand he), .simple rfl rfl rfl rfl rfl rfl rfl rfl⟩
  | _, _, _, _, .elem a b c, he =>
    ⟨Expr.isWritten_of_operand ((Elab.elem a b c).operand he), .simple rfl rfl rfl rfl rfl rfl rfl rfl⟩
  | _, _, _, _, .new a b, he =>
    ⟨Expr.isWritten_of_operand ((Elab.new a b).operand he), .simple rfl rfl rfl rfl rfl rfl rfl rfl⟩
  | _, _, _, _, .conditional a b c d, he =>
    ⟨Expr.isWritten_of_operand ((Elab.conditional a b c d).operand he), .simple rfl rfl rfl rfl rfl rfl rfl rfl⟩
  | _, _, _, _, .this _, _ => ⟨by simp [Expr.isWritten, Expr.isOperand], .simple rfl rfl rfl rfl rfl rfl rfl rfl⟩
  | _, _, _, _, .super _, _ => ⟨by simp [Expr.isWritten, Expr.isOperand], .simple rfl rfl rfl rfl rfl rfl rfl rfl⟩
  | _, _, _, _, .null _, _ => ⟨by simp [Expr.isWritten, Expr.isOperand], .simple rfl rfl rfl rfl rfl rfl rfl rfl⟩
theorem ElabSeq.shape : ∀ {ρ ρ' : NameEnv} {es : List (Expr SourceAst)} {xs : List TypedExpr}, ElabSeq E ρ es xs ρ' →
    Expr.areWritten es = true → Expr.areWritten xs = true ∧ SameShapes es xs
  | _, _, _, _, .nil _, _ => ⟨by rw [Expr.areWritten], rfl, rfl, rfl, rfl⟩
  | _, _, _, _, .cons h hs, he => by
    rw [Expr.areWritten, Bool.and_eq_true] at he
    obtain ⟨a1, a2⟩ := h.shape he.1
    obtain ⟨b1, b2⟩ := hs.shape he.2
    refine ⟨by rw [Expr.areWritten, a1, b1]; rfl, ?_, ?_, ?_, ?_⟩
    · rw [Expr.allSilent, Expr.allSilent, a2.silent, b2.silent]
    · rw [Expr.opensAll, Expr.opensAll, a2.opens, b2.opens, b2.silent]
    · rw [Expr.allSwitchesOk, Expr.allSwitchesOk, a2.switches, b2.switches]
    · rw [Expr.allEmpty, Expr.allEmpty, a2.empty, b2.empty]
theorem ElabCases.shape : ∀ {ρ ρ' : NameEnv} {cs : List (Expr SourceAst × List (Expr SourceAst))}
    {ds : List (TypedExpr × List TypedExpr)}, ElabCases E ρ cs ds ρ' →
    Expr.areWrittenCases cs = true → Expr.areWrittenCases ds = true ∧ Expr.casesOk ds = Expr.casesOk cs
  | _, _, _, _, .nil _, _ => ⟨by rw [Expr.areWrittenCases], rfl⟩
  | _, _, _, _, .cons (cs := cs) h hb hs, he => by
    rw [Expr.areWrittenCases, Bool.and_eq_true, Bool.and_eq_true] at he
    obtain ⟨a1, a2⟩ := hb.shape he.1.2
    obtain ⟨b1, b2⟩ := hs.shape he.2
    refine ⟨by rw [Expr.areWrittenCases, h.operand he.1.1, a1, b1]; rfl, ?_⟩
    rw [Expr.casesOk, Expr.casesOk, a2.switches, b2, a2.empty, a2.opens]
    cases hs with
    | nil => rfl
    | cons _ _ _ => rfl
theorem ElabBlock.shape : ∀ {ρ ρ' : NameEnv} {b : Option (List (Expr SourceAst))} {d : Option (List TypedExpr)},
    ElabBlock E ρ b d ρ' → Expr.areWrittenOpt b = true →
    Expr.areWrittenOpt d = true ∧ Expr.opensOpt d = Expr.opensOpt b ∧ Expr.optSwitchesOk d = Expr.optSwitchesOk b
  | _, _, _, _, .none _, _ => ⟨by rw [Expr.areWrittenOpt], by rw [Expr.opensOpt, Expr.opensOpt], by rw [Expr.optSwitchesOk, Expr.optSwitchesOk]⟩
  | _, _, _, _, .some h, he => by
    rw [Expr.areWrittenOpt] at he
    obtain ⟨a1, a2⟩ := h.shape he
    exact ⟨by rw [Expr.areWrittenOpt, a1], by rw [Expr.opensOpt, Expr.opensOpt, a2.opens],
      by rw [Expr.optSwitchesOk, Expr.optSwitchesOk, a2.switches]⟩
end

end

end Redscript
