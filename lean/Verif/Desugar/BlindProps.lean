import Verif.Desugar.Blind

/-!
# Statements do not depend on variables they do not mention; where desugaring gets its variables
-/

namespace Redscript

section
variable {V S A : Type} {W : DsWorld V S A} {zero : Literal → Text} {p : Idx → Bool} {τ σ : Idx → V}

/-- The same ending with other variables outside `p`, which are not changed. -/
inductive BlindEnd (p : Idx → Bool) (τ σ : Idx → V) : Ending (CellVal V) (S × (Idx → V)) A → Ending (CellVal V) (S × (Idx → V)) A → Prop
  | normal {s : S} {σ' : Idx → V} : HighSame p σ σ' → BlindEnd p τ σ (.normal (s, σ')) (.normal (s, mergeCells p σ' τ))
  | broke {s : S} {σ' : Idx → V} : HighSame p σ σ' → BlindEnd p τ σ (.broke (s, σ')) (.broke (s, mergeCells p σ' τ))
  | returned {x : Option (CellVal V)} {s : S} {σ' : Idx → V} : optCellIn p x → HighSame p σ σ' →
      BlindEnd p τ σ (.returned x (s, σ')) (.returned x (s, mergeCells p σ' τ))
  | aborted {a : A} : BlindEnd p τ σ (.aborted a) (.aborted a)

theorem BlindEnd.after {σ' : Idx → V} {o o' : Ending (CellVal V) (S × (Idx → V)) A} (h : HighSame p σ σ') (h' : BlindEnd p τ σ' o o') :
    BlindEnd p τ σ o o' := by
  cases h' with
  | normal h1 => exact .normal (h.trans h1)
  | broke h1 => exact .broke (h.trans h1)
  | returned h0 h1 => exact .returned h0 (h.trans h1)
  | aborted => exact .aborted

theorem BlindEnd.catchBreak {o o' : Ending (CellVal V) (S × (Idx → V)) A} (h : BlindEnd p τ σ o o') :
    BlindEnd p τ σ o.catchBreak o'.catchBreak := by
  cases h with
  | normal h => exact .normal h
  | broke h => exact .normal h
  | returned h0 h => exact .returned h0 h
  | aborted => exact .aborted

theorem BlindEnd.not_normal {o o' : Ending (CellVal V) (S × (Idx → V)) A} (h : BlindEnd p τ σ o o') (hn : ∀ t, o ≠ .normal t) :
    ∀ t, o' ≠ .normal t := by
  cases h with
  | normal h => exact absurd rfl (hn _)
  | broke h => nofun
  | returned h0 h => nofun
  | aborted => nofun

theorem Blind.of_ok {P : α → Prop} {x : α} {t : S × (Idx → V)} {r' : Res A (α × (S × (Idx → V)))}
    (h : Blind p τ σ P (.ok (x, t)) r') : P x ∧ HighSame p σ t.2 ∧ r' = .ok (x, (t.1, mergeCells p t.2 τ)) := by
  cases h with
  | ok h1 h2 => exact ⟨h1, h2, rfl⟩

theorem Blind.of_abort {P : α → Prop} {a : A} {r' : Res A (α × (S × (Idx → V)))} (h : Blind p τ σ P (.abort a) r') : r' = .abort a := by
  cases h
  rfl

theorem runDeclare_blind (W : DsWorld V S A) (zero : Literal → Text) {l : Idx} (hl : p l = true) (ty : TypeId) (s : S) (σ τ : Idx → V) :
    Blind p τ σ (fun _ => True) ((runDeclare W.env zero W.J l ty (s, σ)).bind fun s => .ok ((), s))
      ((runDeclare W.env zero W.J l ty (s, mergeCells p σ τ)).bind fun s => .ok ((), s)) := by
  unfold runDeclare
  cases h : declareEffect W.env zero ty with
  | nothing => exact .ok trivial (.refl _ _)
  | assign op =>
    have hb : ∀ {α β γ : Type} (r : Res A α) (k : α → Res A β) (k' : β → Res A γ), (r.bind k).bind k' = r.bind fun x => (k x).bind k' := by
      intro α β γ r k k'; cases r <;> rfl
    dsimp only
    simp only [hb]
    refine (Blind.prim (op := .getLocal l) (xs := []) s (fun _ h => nomatch h) fun l' h' => by cases h'; exact hl).bind fun x s σ hp => ?_
    refine (Blind.prim (op := op) (xs := []) s (fun _ h => nomatch h) fun l' h' => ?_).bind fun v s σ hv => ?_
    · exact absurd h' ((declareEffect_op h).1 l')
    refine (Blind.prim (op := .assign) (xs := [x, v]) s (by simp [hp, hv]) fun _ h => nomatch h).bind fun _ s σ _ => ?_
    exact .ok trivial (.refl _ _)
  | clear ty =>
    have hb : ∀ {α β γ : Type} (r : Res A α) (k : α → Res A β) (k' : β → Res A γ), (r.bind k).bind k' = r.bind fun x => (k x).bind k' := by
      intro α β γ r k k'; cases r <;> rfl
    dsimp only
    simp only [hb]
    refine (Blind.prim (op := .getLocal l) (xs := []) s (fun _ h => nomatch h) fun l' h' => by cases h'; exact hl).bind fun x s σ hp => ?_
    refine (Blind.prim (op := .intrinsic .ArrayClear ty) (xs := [x]) s (by simpa using hp) fun _ h => nomatch h).bind fun v s σ hv => ?_
    exact .ok trivial (.refl _ _)

theorem selectCase_blind (W : DsWorld V S A) {ty : TypeId} {v : CellVal V} (hv : v.within p) (τ : Idx → V) :
    ∀ (cs : List (TypedExpr × List TypedExpr)), (∀ c ∈ cs, c.1.localsIn p = true) → ∀ s σ,
      Blind p τ σ (fun rest => ∀ c ∈ rest, c ∈ cs) (selectCase W.env W.J ty v cs (s, σ)) (selectCase W.env W.J ty v cs (s, mergeCells p σ τ))
  | [], h, s, σ => by rw [selectCase, selectCase]; exact .ok nofun (.refl _ _)
  | (m, body) :: cs, h, s, σ => by
    rw [selectCase, selectCase]
    refine (evalE_blind W p τ m (h (m, body) (by simp)) s σ).bind fun w s σ hw => ?_
    refine .ite (matches_merge hv hw s) ?_ ?_
    · exact .ok (fun _ h => h) (.refl _ _)
    · have := selectCase_blind W (ty := ty) hv τ cs (fun c hc => h c (List.mem_cons_of_mem _ hc)) s σ
      generalize selectCase W.env W.J ty v cs (s, σ) = a at this ⊢
      generalize selectCase W.env W.J ty v cs (s, mergeCells p σ τ) = b at this ⊢
      cases this with
      | ok h1 h2 => exact .ok (fun c hc => List.mem_cons_of_mem _ (h1 c hc)) h2
      | abort => exact .abort
      | stuck => exact .stuck

theorem optIn_getD {e : Option (List TypedExpr)} (h : Expr.optIn p e = true) : Expr.allIn p (e.getD []) = true := by
  cases e with
  | none => rfl
  | some es => exact h

/-- Statements do not depend on variables they do not mention, and do not change them. -/
theorem execAll_blind (τ : Idx → V) {es : List TypedExpr} {t : S × (Idx → V)} {o : Ending (CellVal V) (S × (Idx → V)) A} (h : ExecAll W.env zero W.J es t o) :
    Expr.allIn p es = true → ∃ o', ExecAll W.env zero W.J es (t.1, mergeCells p t.2 τ) o' ∧ BlindEnd p τ t.2 o o' := by
  have ok : ∀ {e : TypedExpr} {t t' : S × (Idx → V)} {v : CellVal V}, e.localsIn p = true → evalE W.env W.J e t = .ok (v, t') →
      v.within p ∧ HighSame p t.2 t'.2 ∧ evalE W.env W.J e (t.1, mergeCells p t.2 τ) = .ok (v, (t'.1, mergeCells p t'.2 τ)) := by
    intro e t t' v he h
    have := evalE_blind W p τ e he t.1 t.2
    rw [h] at this
    exact this.of_ok
  have ab : ∀ {e : TypedExpr} {t : S × (Idx → V)} {a : A}, e.localsIn p = true → evalE W.env W.J e t = .abort a →
      evalE W.env W.J e (t.1, mergeCells p t.2 τ) = .abort a := by
    intro e t a he h
    have := evalE_blind W p τ e he t.1 t.2
    rw [h] at this
    exact this.of_abort
  refine ExecAll.rec (env := W.env) (zero := zero) (I := W.J)
    (motive_1 := fun e t o _ => e.localsIn p = true → ∃ o', Exec W.env zero W.J e (t.1, mergeCells p t.2 τ) o' ∧ BlindEnd p τ t.2 o o')
    (motive_2 := fun es t o _ => Expr.allIn p es = true → ∃ o', ExecAll W.env zero W.J es (t.1, mergeCells p t.2 τ) o' ∧ BlindEnd p τ t.2 o o')
    ?_ ?_ ?_ ?_ ?_ ?_ ?_ ?_ ?_ ?_ ?_ ?_ ?_ ?_ ?_ ?_ ?_ ?_ ?_ ?_ ?_ ?_ ?_ h
  case _ => -- expr
    intro e t t' v he h hb
    obtain ⟨_, h2, h3⟩ := ok hb h
    exact ⟨_, .expr he h3, .normal h2⟩
  case _ =>
    intro e t a he h hb
    exact ⟨_, .exprAbort he (ab hb h), .aborted⟩
  case _ => -- declareInit
    intro l ty init t o _ ih hb
    rw [Expr.localsIn, Bool.and_eq_true] at hb
    obtain ⟨o', h1, h2⟩ := ih (by rw [Expr.localsIn, Expr.localsIn, Bool.and_eq_true]; exact hb)
    exact ⟨o', .declareInit h1, h2⟩
  case _ =>
    intro l ty t t' h hb
    have hl : p l = true := by simpa [Expr.localsIn] using hb
    have := runDeclare_blind W zero hl ty t.1 t.2 τ
    rw [h] at this
    obtain ⟨_, h2, h3⟩ := Blind.of_ok this
    refine ⟨_, .declare ?_, .normal h2⟩
    revert h3
    cases runDeclare W.env zero W.J l ty (t.1, mergeCells p t.2 τ) with
    | ok x => intro h; cases h; rfl
    | abort a => nofun
    | stuck => nofun
  case _ =>
    intro l ty t a h hb
    have hl : p l = true := by simpa [Expr.localsIn] using hb
    have := runDeclare_blind W zero hl ty t.1 t.2 τ
    rw [h] at this
    have h3 := Blind.of_abort this
    refine ⟨_, .declareAbort (a := a) ?_, .aborted⟩
    revert h3
    cases runDeclare W.env zero W.J l ty (t.1, mergeCells p t.2 τ) with
    | ok x => nofun
    | abort a => intro h; cases h; rfl
    | stuck => nofun
  case _ => intro t hb; exact ⟨_, .break_, .broke (.refl _ _)⟩
  case _ => intro t hb; exact ⟨_, .returnNone, .returned nofun (.refl _ _)⟩
  case _ =>
    intro e t t' v h hb
    rw [Expr.localsIn] at hb
    obtain ⟨h1, h2, h3⟩ := ok hb h
    exact ⟨_, .returnSome h3, .returned (by rintro y ⟨⟩; exact h1) h2⟩
  case _ =>
    intro e t a h hb
    rw [Expr.localsIn] at hb
    exact ⟨_, .returnAbort (ab hb h), .aborted⟩
  case _ =>
    intro es t o _ ih hb
    rw [Expr.localsIn] at hb
    obtain ⟨o', h1, h2⟩ := ih hb
    exact ⟨o', .seq h1, h2⟩
  case _ =>
    intro c th el t a h hb
    rw [Expr.localsIn, Bool.and_eq_true, Bool.and_eq_true] at hb
    exact ⟨_, .ifAbort (ab hb.1.1 h), .aborted⟩
  case _ =>
    intro c th el t t' v o h ht _ ih hb
    rw [Expr.localsIn, Bool.and_eq_true, Bool.and_eq_true] at hb
    obtain ⟨h1, h2, h3⟩ := ok hb.1.1 h
    obtain ⟨o', h4, h5⟩ := ih hb.1.2
    exact ⟨o', .ifTrue h3 ((truth_merge h1 _).trans ht) h4, h5.after h2⟩
  case _ =>
    intro c th el t t' v o h ht _ ih hb
    rw [Expr.localsIn, Bool.and_eq_true, Bool.and_eq_true] at hb
    obtain ⟨h1, h2, h3⟩ := ok hb.1.1 h
    obtain ⟨o', h4, h5⟩ := ih (optIn_getD hb.2)
    exact ⟨o', .ifFalse h3 ((truth_merge h1 _).trans ht) h4, h5.after h2⟩
  case _ =>
    intro c b t a h hb
    rw [Expr.localsIn, Bool.and_eq_true] at hb
    exact ⟨_, .whileAbort (ab hb.1 h), .aborted⟩
  case _ =>
    intro c b t t' v h ht hb
    rw [Expr.localsIn, Bool.and_eq_true] at hb
    obtain ⟨h1, h2, h3⟩ := ok hb.1 h
    exact ⟨_, .whileEnd h3 ((truth_merge h1 _).trans ht), .normal h2⟩
  case _ =>
    intro c b t t' t'' v o h ht _ _ ih1 ih2 hb
    have hb' := hb
    rw [Expr.localsIn, Bool.and_eq_true] at hb'
    obtain ⟨h1, h2, h3⟩ := ok hb'.1 h
    obtain ⟨o1, h4, h5⟩ := ih1 hb'.2
    obtain ⟨o2, h6, h7⟩ := ih2 hb
    cases h5 with
    | normal h5 => exact ⟨o2, .whileNext h3 ((truth_merge h1 _).trans ht) h4 h6, (h7.after h5).after h2⟩
  case _ =>
    intro c b t t' v o h ht _ hn ih hb
    rw [Expr.localsIn, Bool.and_eq_true] at hb
    obtain ⟨h1, h2, h3⟩ := ok hb.1 h
    obtain ⟨o1, h4, h5⟩ := ih hb.2
    exact ⟨_, .whileLeave h3 ((truth_merge h1 _).trans ht) h4 (h5.not_normal hn), (h5.after h2).catchBreak⟩
  case _ =>
    intro e cs d t a h hb
    rw [Expr.localsIn, Bool.and_eq_true, Bool.and_eq_true] at hb
    exact ⟨_, .switchAbort (ab hb.1.1 h), .aborted⟩
  case _ =>
    intro e cs d ty t t' v a hty h hs hb
    rw [Expr.localsIn, Bool.and_eq_true, Bool.and_eq_true, casesIn_iff] at hb
    obtain ⟨h1, h2, h3⟩ := ok hb.1.1 h
    have := selectCase_blind W (ty := ty) h1 τ cs (fun c hc => (hb.1.2 c hc).1) t'.1 t'.2
    rw [hs] at this
    exact ⟨_, .switchSelectAbort hty h3 this.of_abort, .aborted⟩
  case _ =>
    intro e cs rest d ty t t' t'' v o hty h hs _ ih hb
    rw [Expr.localsIn, Bool.and_eq_true, Bool.and_eq_true, casesIn_iff] at hb
    obtain ⟨h1, h2, h3⟩ := ok hb.1.1 h
    have := selectCase_blind W (ty := ty) h1 τ cs (fun c hc => (hb.1.2 c hc).1) t'.1 t'.2
    rw [hs] at this
    obtain ⟨h4, h5, h6⟩ := this.of_ok
    obtain ⟨o', h7, h8⟩ := ih (by
      rw [allIn_iff]
      intro x hx
      rcases List.mem_append.1 hx with hx | hx
      · obtain ⟨c, hc, hx⟩ := List.mem_flatMap.1 hx
        exact (hb.1.2 c (h4 c hc)).2 x hx
      · exact allIn_iff.1 (optIn_getD hb.2) x hx)
    exact ⟨_, .switch hty h3 h6 h7, ((h8.after h5).after h2).catchBreak⟩
  case _ => intro t hb; exact ⟨_, .nil, .normal (.refl _ _)⟩
  case _ =>
    intro e es t t' o _ _ ih1 ih2 hb
    rw [Expr.allIn, Bool.and_eq_true] at hb
    obtain ⟨o1, h4, h5⟩ := ih1 hb.1
    obtain ⟨o2, h6, h7⟩ := ih2 hb.2
    cases h5 with
    | normal h5 => exact ⟨o2, .next h4 h6, h7.after h5⟩
  case _ =>
    intro e es t o _ hn ih hb
    rw [Expr.allIn, Bool.and_eq_true] at hb
    obtain ⟨o1, h4, h5⟩ := ih hb.1
    exact ⟨o1, .stop h4 (h5.not_normal hn), h5⟩

end

end Redscript
