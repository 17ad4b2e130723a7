import Verif.Desugar.BelowProps

/-!
# Desugaring an expression adds to the set-up
-/

namespace Redscript

mutual
/-- There is no block in the expression. -/
def Expr.noBlocks : TypedExpr → Bool
  | .Seq _ | .Switch _ _ _ | .If _ _ _ | .While _ _ | .ForIn _ _ _ => false
  | .Ident _ | .Constant _ | .Goto _ | .This | .Super | .Break | .Null => true
  | .ArrayLit es _ => Expr.noBlocksAll es
  | .InterpolatedString _ ps => Expr.noBlocksParts ps
  | .Declare _ _ init => match init with | none => true | some e => e.noBlocks
  | .Cast _ e => e.noBlocks
  | .Assign a b => a.noBlocks && b.noBlocks
  | .Call _ _ args => Expr.noBlocksAll args
  | .MethodCall ctx _ args => ctx.noBlocks && Expr.noBlocksAll args
  | .Member e _ => e.noBlocks
  | .ArrayElem a b => a.noBlocks && b.noBlocks
  | .New _ args => Expr.noBlocksAll args
  | .Return e => match e with | none => true | some e => e.noBlocks
  | .Conditional c t e => c.noBlocks && t.noBlocks && e.noBlocks
  | .BinOp a b _ => a.noBlocks && b.noBlocks
  | .UnOp e _ => e.noBlocks
/-- There is no block in the expressions. -/
def Expr.noBlocksAll : List TypedExpr → Bool
  | [] => true
  | e :: es => e.noBlocks && Expr.noBlocksAll es
/-- There is no block in the parts of an interpolated string. -/
def Expr.noBlocksParts : List (TypedExpr × Text) → Bool
  | [] => true
  | (e, _) :: ps => e.noBlocks && Expr.noBlocksParts ps
end

section
variable {α β γ : Type}

/-- A step of desugaring adds to the set-up and does not look at it. -/
def Adds (f : DsState → Except DsErr (α × DsState)) : Prop :=
  ∀ st x st', f st = .ok (x, st') → ∃ P, st'.pending = st.pending ++ P ∧
    ∀ Y, f { st with pending := Y } = .ok (x, { st' with pending := Y ++ P })

theorem Adds.pure (x : α) : Adds fun st => .ok (x, st) := by
  intro st y st' h
  cases h
  exact ⟨[], by simp, fun Y => by simp⟩

theorem Adds.bind {f : DsState → Except DsErr (α × DsState)} {g : α → DsState → Except DsErr (β × DsState)} (hf : Adds f) (hg : ∀ x, Adds (g x)) :
    Adds fun st => f st >>= fun r => g r.1 r.2 := by
  intro st y st' h
  obtain ⟨⟨x, st1⟩, h1, h2⟩ := except_bind_ok h
  obtain ⟨P, p1, y1⟩ := hf _ _ _ h1
  obtain ⟨Q, p2, y2⟩ := hg _ _ _ _ h2
  refine ⟨P ++ Q, by rw [p2, p1, List.append_assoc], fun Y => ?_⟩
  dsimp only
  rw [y1]
  have := y2 (Y ++ P)
  rw [List.append_assoc] at this
  exact this

theorem Adds.map {f : DsState → Except DsErr (α × DsState)} (hf : Adds f) (k : α → β) : Adds fun st => f st >>= fun r => .ok (k r.1, r.2) :=
  hf.bind fun x => Adds.pure (k x)

theorem Adds.fixed {q : Except DsErr γ} {f : γ → DsState → Except DsErr (α × DsState)} (h : ∀ c, Adds (f c)) : Adds fun st => q >>= fun c => f c st := by
  cases q with
  | error e => intro _ _ _ h; cases h
  | ok c => exact h c

theorem Adds.error (e : DsErr) : Adds (α := α) fun _ => .error e := nofun

theorem Adds.push (e : TypedExpr) : Adds fun st => .ok ((), st.push e) := by
  intro st y st' h
  cases h
  exact ⟨[e], rfl, fun Y => rfl⟩

theorem Adds.fresh (D : DsEnv) (ty : TypeId) : Adds fun st => D.fresh st ty := by
  intro st y st' h
  unfold DsEnv.fresh at h ⊢
  obtain ⟨n, h1, h⟩ := except_bind_ok h
  split at h
  · rename_i hn
    cases h
    refine ⟨[], by simp, fun Y => ?_⟩
    dsimp only
    rw [h1]
    show (if n < 2 ^ 32 then _ else _) = _
    rw [if_pos hn]
    simp
  · cases h

theorem Adds.congr {f g : DsState → Except DsErr (α × DsState)} (hf : Adds f) (h : ∀ st, g st = f st) : Adds g :=
  (funext h : g = f) ▸ hf

end

variable (D : DsEnv)

mutual
theorem dsExpr_adds : ∀ (e : TypedExpr), e.noBlocks = true → Adds (dsExpr D e)
  | .Ident _, _ | .Constant _, _ | .Goto _, _ | .This, _ | .Super, _ | .Break, _ | .Null, _ => (Adds.pure _).congr fun st => by rw [dsExpr]
  | .ArrayLit es none, _ => (Adds.error .panic).congr fun st => by rw [dsExpr]
  | .ArrayLit es (some t), h => by
    rw [Expr.noBlocks] at h
    refine ((Adds.fresh D (.Array t)).bind fun l => ((Adds.push
        (.Call (.Intrinsic .ArrayResize .Void) [] [useLocal l, .Constant (.U64 (BitVec.ofNat 64 es.length))])).bind fun _ => dsElems_adds l 0 es h).map fun _ => useLocal l).congr
      fun st => ?_
    rw [dsExpr]
    cases D.fresh st (.Array t) with
    | error e => rfl
    | ok r =>
      show (dsElems D r.1 0 es _ >>= _) = ((dsElems D r.1 0 es _ >>= _) >>= _)
      cases dsElems D r.1 0 es (r.2.push
        (.Call (.Intrinsic .ArrayResize .Void) [] [useLocal r.1, .Constant (.U64 (BitVec.ofNat 64 es.length))])) <;> rfl
  | .InterpolatedString t ps, h => by
    rw [Expr.noBlocks] at h
    exact (Adds.fixed (q := D.stringTy) fun str => Adds.fixed (q := D.addStr) fun add => dsParts_adds str add ps h (.Constant (.String .String t))).congr
      fun st => by rw [dsExpr]
  | .Declare l ty none, _ => (Adds.pure _).congr fun st => by rw [dsExpr]
  | .Declare l ty (some e), h => by
    rw [Expr.noBlocks] at h
    exact ((dsExpr_adds e h).map fun e => .Declare l ty (some e)).congr fun st => by rw [dsExpr]
  | .Cast ty e, h => by
    rw [Expr.noBlocks] at h
    exact ((dsExpr_adds e h).map fun e => .Cast ty e).congr fun st => by rw [dsExpr]
  | .Assign a b, h => by
    rw [Expr.noBlocks, Bool.and_eq_true] at h
    exact ((dsExpr_adds a h.1).bind fun a => (dsExpr_adds b h.2).map fun b => .Assign a b).congr fun st => by rw [dsExpr]
  | .Call f tys args, h => by
    rw [Expr.noBlocks] at h
    exact ((dsList_adds args h).map fun es => .Call f tys es).congr fun st => by rw [dsExpr]
  | .MethodCall ctx f args, h => by
    rw [Expr.noBlocks, Bool.and_eq_true] at h
    exact ((dsExpr_adds ctx h.1).bind fun c => (dsList_adds args h.2).map fun es => .MethodCall c f es).congr fun st => by rw [dsExpr]
  | .Member e m, h => by
    rw [Expr.noBlocks] at h
    exact ((dsExpr_adds e h).map fun e => .Member e m).congr fun st => by rw [dsExpr]
  | .ArrayElem a b, h => by
    rw [Expr.noBlocks, Bool.and_eq_true] at h
    exact ((dsExpr_adds a h.1).bind fun a => (dsExpr_adds b h.2).map fun b => .ArrayElem a b).congr fun st => by rw [dsExpr]
  | .New ty args, h => by
    rw [Expr.noBlocks] at h
    exact ((dsList_adds args h).map fun es => .New ty es).congr fun st => by rw [dsExpr]
  | .Return none, _ => (Adds.pure _).congr fun st => by rw [dsExpr]
  | .Return (some e), h => by
    rw [Expr.noBlocks] at h
    exact ((dsExpr_adds e h).map fun e => .Return (some e)).congr fun st => by rw [dsExpr]
  | .Conditional c t e, h => by
    rw [Expr.noBlocks, Bool.and_eq_true, Bool.and_eq_true] at h
    exact ((dsExpr_adds c h.1.1).bind fun c => (dsExpr_adds t h.1.2).bind fun t => (dsExpr_adds e h.2).map fun e => .Conditional c t e).congr
      fun st => by rw [dsExpr]
  | .BinOp a b op, h => by
    rw [Expr.noBlocks, Bool.and_eq_true] at h
    exact ((dsExpr_adds a h.1).bind fun a => (dsExpr_adds b h.2).map fun b => .BinOp a b op).congr fun st => by rw [dsExpr]
  | .UnOp e op, h => by
    rw [Expr.noBlocks] at h
    exact ((dsExpr_adds e h).map fun e => .UnOp e op).congr fun st => by rw [dsExpr]
theorem dsList_adds : ∀ (es : List TypedExpr), Expr.noBlocksAll es = true → Adds (dsList D es)
  | [], _ => (Adds.pure _).congr fun st => by rw [dsList]
  | e :: es, h => by
    rw [Expr.noBlocksAll, Bool.and_eq_true] at h
    exact ((dsExpr_adds e h.1).bind fun e => (dsList_adds es h.2).map fun es => e :: es).congr fun st => by rw [dsList]
theorem dsElems_adds (l : Idx) (i : Nat) : ∀ (es : List TypedExpr), Expr.noBlocksAll es = true → Adds fun st => dsElems D l i es st >>= fun st => .ok ((), st)
  | [], _ => (Adds.pure ()).congr fun st => by rw [dsElems]; rfl
  | e :: es, h => by
    rw [Expr.noBlocksAll, Bool.and_eq_true] at h
    refine ((dsExpr_adds e h.1).bind fun e => (Adds.push (.Assign (.ArrayElem (useLocal l) (.Constant (.U64 (BitVec.ofNat 64 i)))) e)).bind
      fun _ => dsElems_adds l (i + 1) es h.2).congr fun st => ?_
    rw [dsElems]
    cases dsExpr D e st <;> rfl
theorem dsParts_adds (str : TypeId) (add : Idx) : ∀ (ps : List (TypedExpr × Text)), Expr.noBlocksParts ps = true → ∀ acc, Adds (dsParts D str add ps acc)
  | [], _, acc => (Adds.pure acc).congr fun st => by rw [dsParts]
  | (e, t) :: ps, h, acc => by
    rw [Expr.noBlocksParts, Bool.and_eq_true] at h
    exact ((dsExpr_adds e h.1).bind fun e => Adds.fixed (q := D.textOf str e) fun part => dsParts_adds str add ps h.2 (joinPart str add acc part t)).congr
      fun st => by rw [dsParts]
end

end Redscript
