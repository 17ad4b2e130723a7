import Verif.Desugar.Basics

/-!
# Setting up first, evaluating later
-/

namespace Redscript

section
variable {V S A : Type}

/-- The interpretation of the desugared program. -/
abbrev DsWorld.J (W : DsWorld V S A) : Interp (CellVal V) (S × (Idx → V)) A := W.I.withCells W.U W.M W.start W.asg

/-- Evaluating expressions for their effects. -/
def runPre (env : AsmEnv) (I : Interp V S A) : List TypedExpr → S → Res A S
  | [], s => .ok s
  | e :: es, s => (evalE env I e s).bind fun x => runPre env I es x.2

theorem runPre_append (env : AsmEnv) (I : Interp V S A) (P Q : List TypedExpr) (s : S) :
    runPre env I (P ++ Q) s = (runPre env I P s).bind (runPre env I Q) := by
  induction P generalizing s with
  | nil => rfl
  | cons e P ih =>
    rw [List.cons_append, runPre, runPre]
    cases evalE env I e s with
    | ok x => exact ih x.2
    | abort a => rfl
    | stuck => rfl

/-- Only the variables from `a` to `b` have changed. -/
def Frame (a b : Nat) (σ σ' : Idx → V) : Prop := ∀ l : Idx, l.toNat < a ∨ b ≤ l.toNat → σ' l = σ l

/-- The variables from `a` to `b` are the same. -/
def CellsAgree (a b : Nat) (σ σ' : Idx → V) : Prop := ∀ l : Idx, a ≤ l.toNat → l.toNat < b → σ' l = σ l

theorem Frame.refl (a b : Nat) (σ : Idx → V) : Frame a b σ σ := fun _ _ => rfl

theorem Frame.trans {a b : Nat} {σ σ' σ'' : Idx → V} (h : Frame a b σ σ') (h' : Frame a b σ' σ'') : Frame a b σ σ'' :=
  fun l hl => (h' l hl).trans (h l hl)

theorem Frame.widen {a b a' b' : Nat} {σ σ' : Idx → V} (h : Frame a b σ σ') (ha : a' ≤ a) (hb : b ≤ b') : Frame a' b' σ σ' :=
  fun l hl => h l (by omega)

theorem CellsAgree.refl (a b : Nat) (σ : Idx → V) : CellsAgree a b σ σ := fun _ _ _ => rfl

theorem CellsAgree.trans {a b : Nat} {σ σ' σ'' : Idx → V} (h : CellsAgree a b σ σ') (h' : CellsAgree a b σ' σ'') : CellsAgree a b σ σ'' :=
  fun l h1 h2 => (h' l h1 h2).trans (h l h1 h2)

theorem CellsAgree.narrow {a b a' b' : Nat} {σ σ' : Idx → V} (h : CellsAgree a b σ σ') (ha : a ≤ a') (hb : b' ≤ b) : CellsAgree a' b' σ σ' :=
  fun l h1 h2 => h l (by omega) (by omega)

theorem Frame.agree {a b a' b' : Nat} {σ σ' : Idx → V} (h : Frame a b σ σ') (hd : b' ≤ a ∨ b ≤ a') : CellsAgree a' b' σ σ' :=
  fun l h1 h2 => h l (by omega)

theorem Frame.setCell {a b : Nat} {σ : Idx → V} {l : Idx} {v : V} (h1 : a ≤ l.toNat) (h2 : l.toNat < b) :
    Frame a b σ (setCell σ l v) := by
  intro l' h
  unfold Redscript.setCell
  rw [if_neg]
  rintro rfl
  omega

variable {W : DsWorld V S A}

/-! ## Pure set-up -/

/-- The expressions set variables from `a` to `b` so that `good` holds, without any other effect. -/
structure Setup (W : DsWorld V S A) (a b : Nat) (P : List TypedExpr) (good : (Idx → V) → Prop) : Prop where
  run : ∀ s σ, ∃ σ', runPre W.env W.J P (s, σ) = .ok (s, σ') ∧ Frame a b σ σ' ∧ good σ'
  stable : ∀ σ σ', good σ → CellsAgree a b σ σ' → good σ'

theorem Setup.nil (W : DsWorld V S A) (a b : Nat) : Setup W a b [] fun _ => True :=
  ⟨fun _ σ => ⟨σ, rfl, .refl _ _ _, trivial⟩, fun _ _ _ _ => trivial⟩

theorem Setup.append {a m b : Nat} {P Q : List TypedExpr} {good good' : (Idx → V) → Prop} (h : Setup W a m P good)
    (h' : Setup W m b Q good') (h1 : a ≤ m) (h2 : m ≤ b) : Setup W a b (P ++ Q) fun σ => good σ ∧ good' σ where
  run s σ := by
    obtain ⟨σ1, r1, f1, g1⟩ := h.run s σ
    obtain ⟨σ2, r2, f2, g2⟩ := h'.run s σ1
    refine ⟨σ2, ?_, (f1.widen (Nat.le_refl _) h2).trans (f2.widen h1 (Nat.le_refl _)), ?_, g2⟩
    · rw [runPre_append, r1]; exact r2
    · exact h.stable _ _ g1 (f2.agree (.inl (Nat.le_refl _)))
  stable σ σ' hg ha :=
    ⟨h.stable _ _ hg.1 (ha.narrow (Nat.le_refl _) h2), h'.stable _ _ hg.2 (ha.narrow h1 (Nat.le_refl _))⟩

/-! ## Set-up with effects -/

/-- Setting up with `P` and evaluating with `ev'` after that is the same as evaluating with `ev`. Meanwhile
other variables may change. -/
def InOrder (W : DsWorld V S A) (a b : Nat) (P : List TypedExpr) (R : (Idx → V) → γ → γ' → Prop)
    (ev' : γ → S × (Idx → V) → Res A (α × (S × (Idx → V)))) (ev : γ' → S → Res A (β × S))
    (ρ : (Idx → V) → α → β → Prop) : Prop :=
  ∀ s σ,
    (∃ s1 σ1, runPre W.env W.J P (s, σ) = .ok (s1, σ1) ∧ Frame a b σ σ1 ∧
      ∀ σ2, CellsAgree a b σ1 σ2 → ∀ x y, R σ2 x y → Same ρ σ2 (ev' x (s1, σ2)) (ev y s)) ∨
    (∃ c, runPre W.env W.J P (s, σ) = .abort c ∧ ∀ y, ev y s = .abort c) ∨
    (runPre W.env W.J P (s, σ) = .stuck ∧ ∀ y, ev y s = .stuck)

/-- Setting up with `P` does everything; what is left just gives the value. -/
def Inert (W : DsWorld V S A) (a b : Nat) (P : List TypedExpr) (e' e : TypedExpr) : Prop :=
  ∀ s σ,
    (∃ s1 σ1 v, runPre W.env W.J P (s, σ) = .ok (s1, σ1) ∧ Frame a b σ σ1 ∧ evalS W.env W.I W.U e s = .ok (v, s1) ∧
      ∀ s' σ2, CellsAgree a b σ1 σ2 → ∃ x, evalE W.env W.J e' (s', σ2) = .ok (x, (s', σ2)) ∧ x.read σ2 = v) ∨
    (∃ c, runPre W.env W.J P (s, σ) = .abort c ∧ evalS W.env W.I W.U e s = .abort c) ∨
    (runPre W.env W.J P (s, σ) = .stuck ∧ evalS W.env W.I W.U e s = .stuck)

variable {a m b : Nat} {P Q : List TypedExpr} {R : (Idx → V) → γ → γ' → Prop}
  {ev' : γ → S × (Idx → V) → Res A (α × (S × (Idx → V)))} {ev : γ' → S → Res A (β × S)} {ρ : (Idx → V) → α → β → Prop}

theorem Setup.inOrder {good : (Idx → V) → Prop} (h : Setup W a b P good)
    (he : ∀ s σ, good σ → ∀ x y, R σ x y → Same ρ σ (ev' x (s, σ)) (ev y s)) : InOrder W a b P R ev' ev ρ := by
  intro s σ
  obtain ⟨σ1, r1, f1, g1⟩ := h.run s σ
  exact .inl ⟨s, σ1, r1, f1, fun σ2 ha x y hR => he s σ2 (h.stable _ _ g1 ha) x y hR⟩

/-- What comes after has only pure set-up. -/
theorem InOrder.andThen {good : (Idx → V) → Prop} {ρ' : (Idx → V) → δ → ε → Prop}
    {k' : γ → α × (S × (Idx → V)) → Res A (δ × (S × (Idx → V)))} {k : γ' → β × S → Res A (ε × S)}
    (h : InOrder W a m P R ev' ev ρ) (h' : Setup W m b Q good) (h1 : a ≤ m) (h2 : m ≤ b)
    (hk : ∀ x y u v s σ, good σ → R σ x y → (∃ t, ev' x t = .ok (u, (s, σ))) → ρ σ u v → Same ρ' σ (k' x (u, (s, σ))) (k y (v, s))) :
    InOrder W a b (P ++ Q) R (fun x t => (ev' x t).bind (k' x)) (fun y s => (ev y s).bind (k y)) ρ' := by
  intro s σ
  rw [runPre_append]
  rcases h s σ with ⟨s1, σ1, r1, f1, e1⟩ | ⟨c, r1, e1⟩ | ⟨r1, e1⟩
  · left
    obtain ⟨σ2, r2, f2, g2⟩ := h'.run s1 σ1
    refine ⟨s1, σ2, by rw [r1]; exact r2, (f1.widen (Nat.le_refl _) h2).trans (f2.widen h1 (Nat.le_refl _)), ?_⟩
    intro σ3 ha x y hR
    have hs := e1 σ3 ((f2.agree (.inl (Nat.le_refl _))).trans (ha.narrow (Nat.le_refl _) h2)) x y hR
    have hg := h'.stable _ _ g2 (ha.narrow h1 (Nat.le_refl _))
    exact hs.bind fun u v s' he hu => hk x y u v s' σ3 hg hR ⟨_, he⟩ hu
  · exact .inr (.inl ⟨c, by rw [r1]; rfl, fun y => by dsimp only; rw [e1]; rfl⟩)
  · exact .inr (.inr ⟨by rw [r1]; rfl, fun y => by dsimp only; rw [e1]; rfl⟩)

/-- What comes after has no set-up. -/
theorem InOrder.bind {ρ' : (Idx → V) → δ → ε → Prop}
    {k' : γ → α × (S × (Idx → V)) → Res A (δ × (S × (Idx → V)))} {k : γ' → β × S → Res A (ε × S)}
    (h : InOrder W a b P R ev' ev ρ)
    (hk : ∀ x y u v s σ, R σ x y → (∃ t, ev' x t = .ok (u, (s, σ))) → ρ σ u v → Same ρ' σ (k' x (u, (s, σ))) (k y (v, s))) :
    InOrder W a b P R (fun x t => (ev' x t).bind (k' x)) (fun y s => (ev y s).bind (k y)) ρ' := by
  intro s σ
  rcases h s σ with ⟨s1, σ1, r1, f1, e1⟩ | ⟨c, r1, e1⟩ | ⟨r1, e1⟩
  · exact .inl ⟨s1, σ1, r1, f1, fun σ3 ha x y hR => (e1 σ3 ha x y hR).bind fun u v s' he hu => hk x y u v s' σ3 hR ⟨_, he⟩ hu⟩
  · exact .inr (.inl ⟨c, r1, fun y => by dsimp only; rw [e1]; rfl⟩)
  · exact .inr (.inr ⟨r1, fun y => by dsimp only; rw [e1]; rfl⟩)

/-- What comes before has nothing to do once it is set up. -/
theorem Inert.andThen {e' e : TypedExpr} {R' : (Idx → V) → δ → ε → Prop}
    {ev'' : δ → CellVal V × (S × (Idx → V)) → Res A (α × (S × (Idx → V)))} {ev1 : ε → V × S → Res A (β × S)}
    {g' : δ → CellVal V → γ} {g : ε → V → γ'} (h : Inert W a m P e' e) (h' : InOrder W m b Q R ev' ev ρ) (h1 : a ≤ m) (h2 : m ≤ b)
    (hR : ∀ σ x y u v, R' σ x y → CellReads σ u v → R σ (g' x u) (g y v))
    (he' : ∀ x u t, ev'' x (u, t) = ev' (g' x u) t) (he : ∀ y v s, ev1 y (v, s) = ev (g y v) s) :
    InOrder W a b (P ++ Q) R' (fun x t => (evalE W.env W.J e' t).bind (ev'' x))
      (fun y s => (evalS W.env W.I W.U e s).bind (ev1 y)) ρ := by
  intro s σ
  rw [runPre_append]
  rcases h s σ with ⟨s1, σ1, v, r1, f1, e1, e2⟩ | ⟨c, r1, e1⟩ | ⟨r1, e1⟩
  · rcases h' s1 σ1 with ⟨s2, σ2, r2, f2, e3⟩ | ⟨c, r2, e3⟩ | ⟨r2, e3⟩
    · left
      refine ⟨s2, σ2, by rw [r1]; exact r2, (f1.widen (Nat.le_refl _) h2).trans (f2.widen h1 (Nat.le_refl _)), ?_⟩
      intro σ3 ha x y hR'
      obtain ⟨u, hu, hr⟩ := e2 s2 σ3 ((f2.agree (.inl (Nat.le_refl _))).trans (ha.narrow (Nat.le_refl _) h2))
      dsimp only
      rw [hu, e1]
      show Same ρ σ3 (ev'' x (u, (s2, σ3))) (ev1 y (v, s1))
      rw [he', he]
      exact e3 σ3 (ha.narrow h1 (Nat.le_refl _)) _ _ (hR _ _ _ _ _ hR' hr)
    · refine .inr (.inl ⟨c, by rw [r1]; exact r2, fun y => ?_⟩)
      dsimp only
      rw [e1]
      show ev1 y (v, s1) = _
      rw [he, e3]
    · refine .inr (.inr ⟨by rw [r1]; exact r2, fun y => ?_⟩)
      dsimp only
      rw [e1]
      show ev1 y (v, s1) = _
      rw [he, e3]
  · exact .inr (.inl ⟨c, by rw [r1]; rfl, fun y => by dsimp only; rw [e1]; rfl⟩)
  · exact .inr (.inr ⟨by rw [r1]; rfl, fun y => by dsimp only; rw [e1]; rfl⟩)

/-- Other parameters. -/
theorem InOrder.param {R' : (Idx → V) → δ → ε → Prop} (h : InOrder W a b P R ev' ev ρ) (g' : δ → γ) (g : ε → γ')
    (hR : ∀ σ x y, R' σ x y → R σ (g' x) (g y)) : InOrder W a b P R' (fun x => ev' (g' x)) (fun y => ev (g y)) ρ := by
  intro s σ
  rcases h s σ with ⟨s1, σ1, r1, f1, e1⟩ | ⟨c, r1, e1⟩ | ⟨r1, e1⟩
  · exact .inl ⟨s1, σ1, r1, f1, fun σ3 ha x y hx => e1 σ3 ha _ _ (hR _ _ _ hx)⟩
  · exact .inr (.inl ⟨c, r1, fun y => e1 _⟩)
  · exact .inr (.inr ⟨r1, fun y => e1 _⟩)

theorem InOrder.congr {ev'' : γ → S × (Idx → V) → Res A (α × (S × (Idx → V)))} {ev1 : γ' → S → Res A (β × S)}
    (h : InOrder W a b P R ev' ev ρ) (h' : ∀ x t, ev'' x t = ev' x t) (he : ∀ y s, ev1 y s = ev y s) :
    InOrder W a b P R ev'' ev1 ρ := by
  have h1 : ev'' = ev' := funext fun x => funext fun t => h' x t
  have h2 : ev1 = ev := funext fun x => funext fun t => he x t
  rw [h1, h2]
  exact h

/-- No parameters. -/
abbrev NoParam (V : Type) : (Idx → V) → Unit → Unit → Prop := fun _ _ _ => True

theorem Inert.inOrder {e' e : TypedExpr} (h : Inert W a b P e' e) :
    InOrder W a b P (NoParam V) (fun _ => evalE W.env W.J e') (fun _ => evalS W.env W.I W.U e) CellReads := by
  intro s σ
  rcases h s σ with ⟨s1, σ1, v, r1, f1, e1, e2⟩ | ⟨c, r1, e1⟩ | ⟨r1, e1⟩
  · refine .inl ⟨s1, σ1, r1, f1, fun σ2 ha x y _ => ?_⟩
    obtain ⟨u, hu, hr⟩ := e2 s1 σ2 ha
    dsimp only
    rw [hu, e1]
    exact .ok hr
  · exact .inr (.inl ⟨c, r1, fun _ => e1⟩)
  · exact .inr (.inr ⟨r1, fun _ => e1⟩)

/-- A value that needs no set-up and does not depend on the state. -/
theorem Inert.value {e' e : TypedExpr} {x : CellVal V} {v : V}
    (h' : ∀ s σ, evalE W.env W.J e' (s, σ) = .ok (x, (s, σ)) ∧ x.read σ = v)
    (h : ∀ s, evalS W.env W.I W.U e s = .ok (v, s)) : Inert W a b [] e' e := by
  intro s σ
  exact .inl ⟨s, σ, v, rfl, .refl _ _ _, h s, fun s' σ2 _ => ⟨x, h' s' σ2⟩⟩

/-- A constant value that is set up. -/
theorem Inert.setup {e' e : TypedExpr} {v : V} (h : Inert W a b P e' e) (hv : ∀ s, evalS W.env W.I W.U e s = .ok (v, s)) :
    ∃ good, Setup W a b P good ∧ ∀ s σ, good σ → Same CellReads σ (evalE W.env W.J e' (s, σ)) (evalS W.env W.I W.U e s) := by
  refine ⟨fun σ => ∀ s' σ2, CellsAgree a b σ σ2 → ∃ x, evalE W.env W.J e' (s', σ2) = .ok (x, (s', σ2)) ∧ x.read σ2 = v, ⟨?_, ?_⟩, ?_⟩
  · intro s σ
    rcases h s σ with ⟨s1, σ1, w, r1, f1, e1, e2⟩ | ⟨c, r1, e1⟩ | ⟨r1, e1⟩
    · rw [hv] at e1
      cases e1
      exact ⟨σ1, r1, f1, e2⟩
    · rw [hv] at e1; cases e1
    · rw [hv] at e1; cases e1
  · intro σ σ' hg ha s' σ2 ha'
    exact hg s' σ2 (ha.trans ha')
  · intro s σ hg
    obtain ⟨x, hx, hr⟩ := hg s σ (.refl _ _ _)
    rw [hx, hv]
    exact .ok hr

/-! ## Plain values -/

theorem ofExcept_ok {x : Except A α} {y : α} (h : Res.ofExcept x = .ok y) : x = .ok y := by
  cases x with
  | error a => cases h
  | ok z => cases h; rfl

theorem res_bind_ok {r : Res A α} {k : α → Res A β} {y : β} (h : r.bind k = .ok y) : ∃ x, r = .ok x ∧ k x = .ok y := by
  cases r with
  | ok a => exact ⟨a, rfl, h⟩
  | abort a => cases h
  | stuck => cases h

theorem intrinsicMeaning_form {op : IntrinsicOp} {ty : Option TypeId} {ret : TypeId} {o : Op}
    (h : intrinsicMeaning op ty ret = some o) :
    (∀ l, o ≠ .getLocal l) ∧ o ≠ .assign ∧ (∀ t, o ≠ .element t) ∧
      ∀ t, o = .intrinsic .ArrayResize t → op = .ArrayResize ∧ ty ≠ none := by
  unfold intrinsicMeaning at h
  split at h
  · cases h; exact ⟨nofun, nofun, nofun, nofun⟩
  · cases h; exact ⟨nofun, nofun, nofun, nofun⟩
  · cases h; exact ⟨nofun, nofun, nofun, nofun⟩
  · cases h; exact ⟨nofun, nofun, nofun, nofun⟩
  · cases h; exact ⟨nofun, nofun, nofun, nofun⟩
  · cases h; exact ⟨nofun, nofun, nofun, nofun⟩
  · cases h; exact ⟨nofun, nofun, nofun, nofun⟩
  · split at h <;> cases h <;> exact ⟨nofun, nofun, nofun, nofun⟩
  · cases ty with
    | none => cases h
    | some ty =>
      cases h
      refine ⟨nofun, nofun, nofun, ?_⟩
      intro t ht
      injection ht with h1 h2
      exact ⟨h1, nofun⟩

theorem prim_val {op : Op} {xs : List (CellVal V)} {t t' : S × (Idx → V)} {x : CellVal V}
    (h : Res.ofExcept (W.J.prim op xs t) = .ok (x, t')) (h1 : ∀ l, op = .getLocal l → l.toNat < W.start)
    (h2 : ∀ ty l i, op = .element ty → xs ≠ [.var l, i]) : ∃ v, x = .val v :=
  cellPrim_val (ofExcept_ok (x := cellPrim W.I W.U W.M W.start op xs t) h) h1 h2

theorem call_val {c : Callee} {recv : Option (CellVal V)} {xs : List (Option (CellVal V))} {t t' : S × (Idx → V)} {x : CellVal V}
    (h : Res.ofExcept (W.J.call c recv xs t) = .ok (x, t')) : ∃ v, x = .val v :=
  cellCall_val (ofExcept_ok (x := cellCall W.I W.M W.asg c recv xs t) h)

/-- Plain expressions have plain values. -/
theorem isPlain_val : ∀ (e : TypedExpr) {t t' : S × (Idx → V)} {x : CellVal V}, e.isPlain W.start = true →
    evalE W.env W.J e t = .ok (x, t') → ∃ v, x = .val v
  | .Ident (.Value (.Local l)), t, t', x, hp, h => by
    rw [evalE.eq_def] at h; dsimp only at h
    exact prim_val h (fun l' hl => by cases hl; exact of_decide_eq_true hp) nofun
  | .Ident (.Value (.Parameter p)), t, t', x, hp, h => by
    rw [evalE.eq_def] at h; dsimp only at h
    exact prim_val h nofun nofun
  | .Ident (.Symbol _), t, t', x, hp, h => by rw [evalE.eq_def] at h; dsimp only at h; cases h
  | .Constant _, t, t', x, hp, h => by
    rw [evalE.eq_def] at h; dsimp only at h
    exact prim_val h nofun nofun
  | .This, t, t', x, hp, h => by
    rw [evalE.eq_def] at h; dsimp only at h
    exact prim_val h nofun nofun
  | .Super, t, t', x, hp, h => by
    rw [evalE.eq_def] at h; dsimp only at h
    exact prim_val h nofun nofun
  | .Null, t, t', x, hp, h => by
    rw [evalE.eq_def] at h; dsimp only at h
    exact prim_val h nofun nofun
  | .Cast ty e, t, t', x, hp, h => by
    rw [evalE.eq_def] at h; dsimp only at h
    split at h
    · obtain ⟨y, h1, h⟩ := res_bind_ok h
      exact prim_val h nofun nofun
    · cases h
  | .Assign a b, t, t', x, hp, h => by
    rw [evalE.eq_def] at h; dsimp only at h
    obtain ⟨y, h1, h⟩ := res_bind_ok h
    obtain ⟨z, h2, h⟩ := res_bind_ok h
    exact prim_val h nofun nofun
  | .ArrayElem a i, t, t', x, hp, h => by
    rw [evalE.eq_def] at h; dsimp only at h
    split at h
    · obtain ⟨y, h1, h⟩ := res_bind_ok h
      obtain ⟨z, h2, h⟩ := res_bind_ok h
      obtain ⟨v, hv⟩ := isPlain_val a (x := y.1) (t' := y.2) hp h1
      refine prim_val h nofun fun ty l i _ he => ?_
      rw [hv] at he
      cases he
    · cases h
  | .New ty args, t, t', x, hp, h => by
    rw [evalE.eq_def] at h; dsimp only at h
    split at h
    · split at h
      · exact prim_val h nofun nofun
      · cases h
    · obtain ⟨y, h1, h⟩ := res_bind_ok h
      exact prim_val h nofun nofun
    · cases h
  | .Member e m, t, t', x, hp, h => by
    rw [evalE.eq_def] at h; dsimp only at h
    split at h
    · obtain ⟨y, h1, h⟩ := res_bind_ok h
      split at h
      · cases h; exact ⟨_, rfl⟩
      · exact prim_val h nofun nofun
    · obtain ⟨y, h1, h⟩ := res_bind_ok h
      exact prim_val h nofun nofun
    · exact prim_val h nofun nofun
  | .Call c tys args, t, t', x, hp, h => by
    rw [evalE.eq_def] at h; dsimp only at h
    split at h
    · split at h
      · obtain ⟨y, h1, h⟩ := res_bind_ok h
        exact call_val h
      · cases h
    · split at h
      · cases h
      · rename_i o ho
        obtain ⟨h1, h2, h3, h4⟩ := intrinsicMeaning_form ho
        obtain ⟨y, h5, h⟩ := res_bind_ok h
        exact prim_val h (fun l hl => absurd hl (h1 l)) (fun t l i ht => absurd ht (h3 t))
  | .MethodCall ctx f args, t, t', x, hp, h => by
    rw [evalE.eq_def] at h; dsimp only at h
    split at h
    · cases h
    · split at h
      · obtain ⟨y, h1, h⟩ := res_bind_ok h
        exact call_val h
      · obtain ⟨y, h1, h⟩ := res_bind_ok h
        split at h
        · cases h; exact ⟨_, rfl⟩
        · obtain ⟨z, h2, h⟩ := res_bind_ok h
          exact call_val h

end

end Redscript
