import Verif.Desugar.ForIn

/-!
# Code does not depend on variables it does not mention
-/

namespace Redscript

mutual
/-- All locals in a tree are among these. -/
def Expr.localsIn (p : Idx → Bool) : TypedExpr → Bool
  | .Ident r =>
    match r with
    | .Value (.Local l) => p l
    | _ => true
  | .Constant _ | .Goto _ | .This | .Super | .Break | .Null => true
  | .ArrayLit es _ => Expr.allIn p es
  | .InterpolatedString _ ps => Expr.partsIn p ps
  | .Declare l _ init =>
    p l &&
    match init with
    | none => true
    | some e => e.localsIn p
  | .Cast _ e | .Member e _ | .UnOp e _ => e.localsIn p
  | .Assign a b | .ArrayElem a b | .BinOp a b _ => a.localsIn p && b.localsIn p
  | .Call _ _ args | .New _ args => Expr.allIn p args
  | .MethodCall ctx _ args => ctx.localsIn p && Expr.allIn p args
  | .Return e =>
    match e with
    | none => true
    | some e => e.localsIn p
  | .Seq es => Expr.allIn p es
  | .Switch e cases dflt => e.localsIn p && Expr.casesIn p cases && Expr.optIn p dflt
  | .If c t e => c.localsIn p && Expr.allIn p t && Expr.optIn p e
  | .Conditional c t e => c.localsIn p && t.localsIn p && e.localsIn p
  | .While c body => c.localsIn p && Expr.allIn p body
  | .ForIn x a body => p x && a.localsIn p && Expr.allIn p body
/-- All locals in trees are among these. -/
def Expr.allIn (p : Idx → Bool) : List TypedExpr → Bool
  | [] => true
  | e :: es => e.localsIn p && Expr.allIn p es
/-- All locals in the parts of an interpolated string are among these. -/
def Expr.partsIn (p : Idx → Bool) : List (TypedExpr × Text) → Bool
  | [] => true
  | (e, _) :: ps => e.localsIn p && Expr.partsIn p ps
/-- All locals in the statements are among these if there are some. -/
def Expr.optIn (p : Idx → Bool) : Option (List TypedExpr) → Bool
  | none => true
  | some es => Expr.allIn p es
/-- All locals in cases are among these. -/
def Expr.casesIn (p : Idx → Bool) : List (TypedExpr × List TypedExpr) → Bool
  | [] => true
  | (m, body) :: cs => m.localsIn p && Expr.allIn p body && Expr.casesIn p cs
end

theorem allIn_iff {p : Idx → Bool} {es : List TypedExpr} : Expr.allIn p es = true ↔ ∀ e ∈ es, e.localsIn p = true := by
  induction es with
  | nil => simp [Expr.allIn]
  | cons e es ih => simp [Expr.allIn, ih]

theorem casesIn_iff {p : Idx → Bool} {cs : List (TypedExpr × List TypedExpr)} :
    Expr.casesIn p cs = true ↔ ∀ c ∈ cs, c.1.localsIn p = true ∧ ∀ e ∈ c.2, e.localsIn p = true := by
  induction cs with
  | nil => simp [Expr.casesIn]
  | cons c cs ih => obtain ⟨m, b⟩ := c; simp [Expr.casesIn, ih, allIn_iff]

theorem intrinsicMeaning_not_local (op : IntrinsicOp) (a : Option TypeId) (ret : TypeId) (l : Idx) :
    intrinsicMeaning op a ret ≠ some (.getLocal l) := by
  intro h
  cases op <;> cases a <;> first | (cases h; done) | (rename_i ty; cases ty <;> cases h)

section
variable {V S A : Type} {W : DsWorld V S A} {zero : Literal → Text}

/-- The variables in `p` from `σ`, the others from `τ`. -/
def mergeCells (p : Idx → Bool) (σ τ : Idx → V) : Idx → V := fun l => if p l then σ l else τ l

theorem mergeCells_self (p : Idx → Bool) (σ : Idx → V) : mergeCells p σ σ = σ := by
  funext l
  exact ite_self _

theorem mergeCells_low {p : Idx → Bool} {σ τ : Idx → V} {l : Idx} (h : p l = true) : mergeCells p σ τ l = σ l := if_pos h

theorem mergeCells_high {p : Idx → Bool} {σ τ : Idx → V} {l : Idx} (h : p l = false) : mergeCells p σ τ l = τ l := if_neg (by simp [h])

theorem setCell_merge {p : Idx → Bool} {σ τ : Idx → V} {l : Idx} (h : p l = true) (v : V) :
    setCell (mergeCells p σ τ) l v = mergeCells p (setCell σ l v) τ := by
  funext l'
  unfold mergeCells setCell
  by_cases hl : l' = l
  · subst hl
    simp [h]
  · simp [hl]

/-- A value that does not refer to variables outside `p`. -/
def CellVal.within (p : Idx → Bool) : CellVal V → Prop
  | .val _ => True
  | .var l | .elem l _ _ => p l = true

theorem CellVal.read_merge {p : Idx → Bool} {σ τ : Idx → V} {x : CellVal V} (h : x.within p) : x.read (mergeCells p σ τ) = x.read σ := by
  cases x with
  | val v => rfl
  | var l => exact if_pos h
  | elem l i v => rfl

theorem CellVal.reads_merge {p : Idx → Bool} {σ τ : Idx → V} {xs : List (CellVal V)} (h : ∀ x ∈ xs, x.within p) :
    xs.map (·.read (mergeCells p σ τ)) = xs.map (·.read σ) :=
  List.map_congr_left fun x hx => CellVal.read_merge (h x hx)

/-- An optional value that does not refer to variables outside `p`. -/
def optCellIn (p : Idx → Bool) (x : Option (CellVal V)) : Prop := ∀ y, x = some y → y.within p

theorem optCell_merge {p : Idx → Bool} {σ τ : Idx → V} {x : Option (CellVal V)} (h : optCellIn p x) :
    x.map (·.read (mergeCells p σ τ)) = x.map (·.read σ) := by
  cases x with
  | none => rfl
  | some y => exact congrArg some (CellVal.read_merge (h y rfl))

theorem optCells_merge {p : Idx → Bool} {σ τ : Idx → V} {xs : List (Option (CellVal V))} (h : ∀ x ∈ xs, optCellIn p x) :
    xs.map (Option.map (·.read (mergeCells p σ τ))) = xs.map (Option.map (·.read σ)) :=
  List.map_congr_left fun x hx => optCell_merge (h x hx)

/-- The variables outside `p` are the same. -/
def HighSame (p : Idx → Bool) (σ σ' : Idx → V) : Prop := ∀ l : Idx, p l = false → σ' l = σ l

theorem HighSame.refl (p : Idx → Bool) (σ : Idx → V) : HighSame p σ σ := fun _ _ => rfl

theorem HighSame.trans {p : Idx → Bool} {σ σ' σ'' : Idx → V} (h : HighSame p σ σ') (h' : HighSame p σ' σ'') : HighSame p σ σ'' :=
  fun l hl => (h' l hl).trans (h l hl)

theorem HighSame.set {p : Idx → Bool} {σ : Idx → V} {l : Idx} (h : p l = true) (v : V) : HighSame p σ (setCell σ l v) := by
  intro l' hl
  exact if_neg (by rintro rfl; rw [h] at hl; cases hl)

/-- The same result with other variables outside `p`, which are not changed. -/
inductive Blind (p : Idx → Bool) (τ σ : Idx → V) (P : α → Prop) : Res A (α × (S × (Idx → V))) → Res A (α × (S × (Idx → V))) → Prop
  | ok {x : α} {s : S} {σ' : Idx → V} : P x → HighSame p σ σ' → Blind p τ σ P (.ok (x, (s, σ'))) (.ok (x, (s, mergeCells p σ' τ)))
  | abort {a : A} : Blind p τ σ P (.abort a) (.abort a)
  | stuck : Blind p τ σ P .stuck .stuck

variable {p : Idx → Bool} {τ σ : Idx → V}

theorem Blind.bind {P : α → Prop} {Q : β → Prop} {r r' : Res A (α × (S × (Idx → V)))} {k k' : α × (S × (Idx → V)) → Res A (β × (S × (Idx → V)))}
    (h : Blind p τ σ P r r') (hk : ∀ x s σ', P x → Blind p τ σ' Q (k (x, (s, σ'))) (k' (x, (s, mergeCells p σ' τ)))) :
    Blind p τ σ Q (r.bind k) (r'.bind k') := by
  cases h with
  | abort => exact .abort
  | stuck => exact .stuck
  | @ok x s σ' hx hh =>
    have := hk x s σ' hx
    show Blind p τ σ Q (k (x, (s, σ'))) (k' (x, (s, mergeCells p σ' τ)))
    generalize k (x, (s, σ')) = a at this ⊢
    generalize k' (x, (s, mergeCells p σ' τ)) = b at this ⊢
    cases this with
    | ok hy hh' => exact .ok hy (hh.trans hh')
    | abort => exact .abort
    | stuck => exact .stuck

theorem Blind.lift (r : Except A (V × S)) :
    Blind p τ σ (CellVal.within p) (.ofExcept (liftCell σ r)) (.ofExcept (liftCell (mergeCells p σ τ) r)) := by
  cases r with
  | error a => exact .abort
  | ok x => exact .ok trivial (.refl _ _)

theorem Blind.prim {op : Op} {xs : List (CellVal V)} (s : S) (hx : ∀ x ∈ xs, x.within p) (hl : ∀ l, op = .getLocal l → p l = true) :
    Blind p τ σ (CellVal.within p) (.ofExcept (W.J.prim op xs (s, σ))) (.ofExcept (W.J.prim op xs (s, mergeCells p σ τ))) := by
  show Blind p τ σ (CellVal.within p) (.ofExcept (cellPrim W.I W.U W.M W.start op xs (s, σ)))
    (.ofExcept (cellPrim W.I W.U W.M W.start op xs (s, mergeCells p σ τ)))
  unfold cellPrim
  split
  · rename_i l
    dsimp only
    split
    · exact .ok (hl l rfl) (.refl _ _)
    · exact .lift _
  · rename_i l w
    have h1 : p l = true := hx (.var l) (by simp)
    have h2 : w.within p := hx w (by simp)
    dsimp only
    rw [CellVal.read_merge h2, setCell_merge h1]
    exact .ok trivial (.set h1 _)
  · rename_i l i v w
    have h1 : p l = true := hx (.elem l i v) (by simp)
    have h2 : w.within p := hx w (by simp)
    dsimp only
    rw [CellVal.read_merge h2, setCell_merge h1, mergeCells_low h1]
    exact .ok trivial (.set h1 _)
  · rename_i ty l i
    have h1 : p l = true := hx (.var l) (by simp)
    have h2 : i.within p := hx i (by simp)
    dsimp only
    rw [CellVal.read_merge h2, mergeCells_low h1]
    cases W.I.prim (.element ty) [σ l, i.read σ] s with
    | error a => exact .abort
    | ok x => exact .ok h1 (.refl _ _)
  · rename_i ty l w
    have h1 : p l = true := hx (.var l) (by simp)
    have h2 : w.within p := hx w (by simp)
    dsimp only
    rw [CellVal.read_merge h2, setCell_merge h1, mergeCells_low h1]
    exact .ok trivial (.set h1 _)
  · dsimp only
    rw [CellVal.reads_merge hx]
    exact .lift _

theorem Blind.call {c : Callee} {recv : Option (CellVal V)} {xs : List (Option (CellVal V))} (s : S) (hr : optCellIn p recv)
    (hx : ∀ x ∈ xs, optCellIn p x) :
    Blind p τ σ (CellVal.within p) (.ofExcept (W.J.call c recv xs (s, σ))) (.ofExcept (W.J.call c recv xs (s, mergeCells p σ τ))) := by
  show Blind p τ σ (CellVal.within p) (.ofExcept (cellCall W.I W.M W.asg c recv xs (s, σ)))
    (.ofExcept (cellCall W.I W.M W.asg c recv xs (s, mergeCells p σ τ)))
  unfold cellCall
  split
  · rename_i l w _
    have h1 : p l = true := hx (some (.var l)) (by simp) _ rfl
    have h2 : w.within p := hx (some w) (by simp) _ rfl
    dsimp only
    rw [CellVal.read_merge h2, setCell_merge h1, mergeCells_low h1]
    exact .ok trivial (.set h1 _)
  · dsimp only
    rw [optCell_merge hr, optCells_merge hx]
    exact .lift _

theorem truth_merge {x : CellVal V} (h : x.within p) (s : S) : W.J.truth x (s, mergeCells p σ τ) = W.J.truth x (s, σ) := by
  show W.I.truth (x.read (mergeCells p σ τ)) s = W.I.truth (x.read σ) s
  rw [CellVal.read_merge h]

theorem isNull_merge {x : CellVal V} (h : x.within p) (s : S) : W.J.isNull x (s, mergeCells p σ τ) = W.J.isNull x (s, σ) := by
  show W.I.isNull (x.read (mergeCells p σ τ)) s = W.I.isNull (x.read σ) s
  rw [CellVal.read_merge h]

theorem matches_merge {ty : TypeId} {x y : CellVal V} (h : x.within p) (h' : y.within p) (s : S) :
    W.J.matches_ ty x y (s, mergeCells p σ τ) = W.J.matches_ ty x y (s, σ) := by
  show W.I.matches_ ty (x.read (mergeCells p σ τ)) (y.read (mergeCells p σ τ)) s = W.I.matches_ ty (x.read σ) (y.read σ) s
  rw [CellVal.read_merge h, CellVal.read_merge h']

theorem demand_merge {c : Callee} {recv : Option (CellVal V)} {xs : List (Option (CellVal V))} (s : S) (hr : optCellIn p recv)
    (hx : ∀ x ∈ xs, optCellIn p x) : W.J.demand c recv xs (s, mergeCells p σ τ) = W.J.demand c recv xs (s, σ) := by
  show W.I.demand c (recv.map (·.read (mergeCells p σ τ))) (xs.map (Option.map (·.read (mergeCells p σ τ)))) s =
    W.I.demand c (recv.map (·.read σ)) (xs.map (Option.map (·.read σ))) s
  rw [optCell_merge hr, optCells_merge hx]

theorem onNull_blind (s : S) : Blind (A := A) p τ σ (CellVal.within p) (.ok (W.J.onNull (s, σ))) (.ok (W.J.onNull (s, mergeCells p σ τ))) :=
  .ok trivial (.refl _ _)

theorem Blind.ite {P : α → Prop} {c c' : Bool} {x y x' y' : Res A (α × (S × (Idx → V)))} (hc : c' = c)
    (hx : Blind p τ σ P x x') (hy : Blind p τ σ P y y') :
    Blind p τ σ P (if c = true then x else y) (if c' = true then x' else y') := by
  subst hc
  split
  · exact hx
  · exact hy

mutual
/-- Expressions do not depend on variables they do not mention, and do not change them. -/
theorem evalE_blind (W : DsWorld V S A) (p : Idx → Bool) (τ : Idx → V) : ∀ (e : TypedExpr), e.localsIn p = true → ∀ s σ,
    Blind p τ σ (CellVal.within p) (evalE W.env W.J e (s, σ)) (evalE W.env W.J e (s, mergeCells p σ τ))
  | .Ident (.Value (.Local l)), h, s, σ => by
    rw [evalE.eq_def, evalE.eq_def]
    exact .prim s nofun fun l' hl => by cases hl; simpa [Expr.localsIn] using h
  | .Ident (.Value (.Parameter i)), h, s, σ => by
    rw [evalE.eq_def, evalE.eq_def]
    exact .prim s nofun nofun
  | .Ident (.Symbol y), h, s, σ => by rw [evalE.eq_def, evalE.eq_def]; exact .stuck
  | .Constant c, h, s, σ => by rw [evalE.eq_def, evalE.eq_def]; exact .prim s nofun nofun
  | .Null, h, s, σ => by rw [evalE.eq_def, evalE.eq_def]; exact .prim s nofun nofun
  | .This, h, s, σ => by rw [evalE.eq_def, evalE.eq_def]; exact .prim s nofun nofun
  | .Super, h, s, σ => by rw [evalE.eq_def, evalE.eq_def]; exact .prim s nofun nofun
  | .Cast ty e, h, s, σ => by
    rw [evalE.eq_def, evalE.eq_def]
    dsimp only
    split
    · refine (evalE_blind W p τ e (by simpa [Expr.localsIn] using h) s σ).bind fun x s σ hx => ?_
      exact .prim s (by simpa using hx) nofun
    · exact .stuck
  | .Assign a b, h, s, σ => by
    rw [evalE.eq_def, evalE.eq_def]
    rw [Expr.localsIn, Bool.and_eq_true] at h
    refine (evalE_blind W p τ a h.1 s σ).bind fun x s σ hx => (evalE_blind W p τ b h.2 s σ).bind fun y s σ hy => ?_
    exact .prim s (by simp [hx, hy]) nofun
  | .ArrayElem a b, h, s, σ => by
    rw [evalE.eq_def, evalE.eq_def]
    rw [Expr.localsIn, Bool.and_eq_true] at h
    dsimp only
    split
    · refine (evalE_blind W p τ a h.1 s σ).bind fun x s σ hx => (evalE_blind W p τ b h.2 s σ).bind fun y s σ hy => ?_
      exact .prim s (by simp [hx, hy]) nofun
    · exact .stuck
  | .New ty args, h, s, σ => by
    rw [evalE.eq_def, evalE.eq_def]
    rw [Expr.localsIn] at h
    dsimp only
    split
    · refine .ite rfl (.prim s nofun nofun) .stuck
    · refine (evalList_blind W p τ args h s σ).bind fun xs s σ hx => ?_
      exact .prim s hx nofun
    · exact .stuck
  | .Conditional c t e, h, s, σ => by
    rw [evalE.eq_def, evalE.eq_def]
    rw [Expr.localsIn, Bool.and_eq_true, Bool.and_eq_true] at h
    refine (evalE_blind W p τ c h.1.1 s σ).bind fun x s σ hx => ?_
    exact .ite (truth_merge hx s) (evalE_blind W p τ t h.1.2 s σ) (evalE_blind W p τ e h.2 s σ)
  | .Member e m, h, s, σ => by
    rw [evalE.eq_def, evalE.eq_def]
    rw [Expr.localsIn] at h
    dsimp only
    split
    · refine (evalE_blind W p τ e h s σ).bind fun x s σ hx => ?_
      exact .ite (isNull_merge hx s) (onNull_blind s) (.prim s (by simpa using hx) nofun)
    · refine (evalE_blind W p τ e h s σ).bind fun x s σ hx => ?_
      exact .prim s (by simpa using hx) nofun
    · exact .prim s nofun nofun
  | .Call c tys args, h, s, σ => by
    rw [evalE.eq_def, evalE.eq_def]
    rw [Expr.localsIn] at h
    dsimp only
    split
    · split
      · rename_i f _ info _
        refine (evalArgs_blind W p τ (calleeOf info false f) none nofun args h info.params [] nofun s σ).bind fun xs s σ hx => ?_
        exact .call s nofun hx
      · exact .stuck
    · split
      · exact .stuck
      · rename_i op ret o ho
        refine (evalList_blind W p τ args h s σ).bind fun xs s σ hx => ?_
        refine .prim s hx fun l hl => ?_
        rw [hl] at ho
        exact absurd ho (intrinsicMeaning_not_local _ _ _ _)
  | .MethodCall ctx f args, h, s, σ => by
    rw [evalE.eq_def, evalE.eq_def]
    rw [Expr.localsIn, Bool.and_eq_true] at h
    dsimp only
    split
    · exact .stuck
    · rename_i info _
      refine .ite rfl ?_ ?_
      · refine (evalArgs_blind W p τ (.fixed f) none nofun args h.2 info.params [] nofun s σ).bind fun xs s σ hx => ?_
        exact .call s nofun hx
      · refine (evalE_blind W p τ ctx h.1 s σ).bind fun x s σ hx => ?_
        have hr : optCellIn p (some x) := by rintro y ⟨⟩; exact hx
        refine .ite (isNull_merge hx s) (onNull_blind s) ?_
        refine (evalArgs_blind W p τ (calleeOf info ctx.isSuper f) (some x) hr args h.2 info.params [] nofun s σ).bind fun xs s σ hx => ?_
        exact .call s hr hx
  | .ArrayLit _ _, h, s, σ => by rw [evalE.eq_def, evalE.eq_def]; exact .stuck
  | .InterpolatedString _ _, h, s, σ => by rw [evalE.eq_def, evalE.eq_def]; exact .stuck
  | .Declare _ _ _, h, s, σ => by rw [evalE.eq_def, evalE.eq_def]; exact .stuck
  | .Return _, h, s, σ => by rw [evalE.eq_def, evalE.eq_def]; exact .stuck
  | .Seq _, h, s, σ => by rw [evalE.eq_def, evalE.eq_def]; exact .stuck
  | .Switch _ _ _, h, s, σ => by rw [evalE.eq_def, evalE.eq_def]; exact .stuck
  | .Goto _, h, s, σ => by rw [evalE.eq_def, evalE.eq_def]; exact .stuck
  | .If _ _ _, h, s, σ => by rw [evalE.eq_def, evalE.eq_def]; exact .stuck
  | .While _ _, h, s, σ => by rw [evalE.eq_def, evalE.eq_def]; exact .stuck
  | .ForIn _ _ _, h, s, σ => by rw [evalE.eq_def, evalE.eq_def]; exact .stuck
  | .BinOp _ _ _, h, s, σ => by rw [evalE.eq_def, evalE.eq_def]; exact .stuck
  | .UnOp _ _, h, s, σ => by rw [evalE.eq_def, evalE.eq_def]; exact .stuck
  | .Break, h, s, σ => by rw [evalE.eq_def, evalE.eq_def]; exact .stuck
theorem evalList_blind (W : DsWorld V S A) (p : Idx → Bool) (τ : Idx → V) : ∀ (es : List TypedExpr), Expr.allIn p es = true → ∀ s σ,
    Blind p τ σ (fun xs => ∀ x ∈ xs, CellVal.within p x) (evalList W.env W.J es (s, σ)) (evalList W.env W.J es (s, mergeCells p σ τ))
  | [], h, s, σ => by rw [evalList, evalList]; exact .ok nofun (.refl _ _)
  | e :: es, h, s, σ => by
    rw [Expr.allIn, Bool.and_eq_true] at h
    rw [evalList, evalList]
    refine (evalE_blind W p τ e h.1 s σ).bind fun x s σ hx => (evalList_blind W p τ es h.2 s σ).bind fun xs s σ hxs => ?_
    exact .ok (by simpa using ⟨hx, hxs⟩) (.refl _ _)
theorem evalArgs_blind (W : DsWorld V S A) (p : Idx → Bool) (τ : Idx → V) (c : Callee) (recv : Option (CellVal V)) (hr : optCellIn p recv) :
    ∀ (es : List TypedExpr), Expr.allIn p es = true → ∀ ps (acc : List (Option (CellVal V))), (∀ x ∈ acc, optCellIn p x) → ∀ s σ,
    Blind p τ σ (fun xs => ∀ x ∈ xs, optCellIn p x) (evalArgs W.env W.J c recv es ps acc (s, σ))
      (evalArgs W.env W.J c recv es ps acc (s, mergeCells p σ τ))
  | [], h, ps, acc, ha, s, σ => by
    rw [evalArgs, evalArgs]
    refine .ok (fun x hx => ?_) (.refl _ _)
    rcases List.mem_append.1 hx with hx | hx
    · exact ha x hx
    · rw [List.eq_of_mem_replicate hx]; nofun
  | e :: es, h, [], acc, ha, s, σ => by rw [evalArgs, evalArgs]; exact .stuck
  | e :: es, h, q :: ps, acc, ha, s, σ => by
    rw [Expr.allIn, Bool.and_eq_true] at h
    rw [evalArgs, evalArgs]
    refine .ite (by rw [demand_merge s hr ha]) ?_ ?_
    · refine evalArgs_blind W p τ c recv hr es h.2 ps _ (fun x hx => ?_) s σ
      rcases List.mem_append.1 hx with hx | hx
      · exact ha x hx
      · rw [List.mem_singleton.1 hx]; nofun
    · refine (evalE_blind W p τ e h.1 s σ).bind fun x s σ hx => ?_
      refine evalArgs_blind W p τ c recv hr es h.2 ps _ (fun y hy => ?_) s σ
      rcases List.mem_append.1 hy with hy | hy
      · exact ha y hy
      · rw [List.mem_singleton.1 hy]; rintro z ⟨⟩; exact hx
end

end

end Redscript
