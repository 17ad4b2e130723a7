import Verif.Pipeline.Checked
import Verif.Desugar.Claims

/-!
# What desugaring gives is what the assembler takes
-/

namespace Redscript

/-- No struct has so many fields that their number does not fit into a byte. -/
def TcEnv.SmallStructs (E : TcEnv) : Prop := ∀ c fs, E.structFields c = .ok fs → fs.length < 256

section
variable {E : TcEnv} {L : List (Idx × TypeId)} {D : DsEnv}

theorem IntrinsicTakes.operandCount {op : IntrinsicOp} {ts : List TypeId} {t : TypeId} (h : IntrinsicTakes E op ts t) :
    ts.length = op.argCount := by
  cases h <;> rfl

theorem areValues_append {xs ys : List TypedExpr} (hx : Expr.areValues xs = true) (hy : Expr.areValues ys = true) :
    Expr.areValues (xs ++ ys) = true := by
  induction xs with
  | nil => exact hy
  | cons x xs ih =>
    rw [Expr.areValues, Bool.and_eq_true] at hx
    rw [List.cons_append, Expr.areValues, hx.1, ih hx.2]
    rfl

theorem fresh_pending {st st' : DsState} {ty : TypeId} {l : Idx} (h : D.fresh st ty = .ok (l, st')) :
    st'.pending = st.pending := by
  unfold DsEnv.fresh at h
  obtain ⟨n, h1, h⟩ := except_bind_ok h
  split at h
  · cases h; rfl
  · cases h

theorem asRef_value {str : TypeId} {e : TypedExpr} (h : e.isValue = true) : (asRefCall str e).isValue = true := by
  simp [asRefCall, Expr.isValue, Expr.areValues, IntrinsicOp.argCount, h]

theorem textOf_value {str : TypeId} {e part : TypedExpr} (he : e.isValue = true) (h : D.textOf str e = .ok part) :
    part.isValue = true := by
  have ht : (Expr.Call (N := TypedAst) (Callable.Intrinsic .ToString str) [] [e]).isValue = true := by
    simp [Expr.isValue, Expr.areValues, IntrinsicOp.argCount, he]
  unfold DsEnv.textOf at h
  split at h
  · cases h
  · cases h
  · obtain ⟨p, h1, h⟩ := except_bind_ok h
    split at h
    · cases h; exact he
    · obtain ⟨p, h1, h⟩ := except_bind_ok h
      split at h
      · cases h; exact asRef_value he
      · cases h; exact asRef_value ht
  · obtain ⟨p, h1, h⟩ := except_bind_ok h
    split at h
    · cases h; exact asRef_value he
    · cases h; exact asRef_value ht

theorem joinPart_value {str : TypeId} {add : Idx} {acc part : TypedExpr} {t : Text} (h1 : acc.isValue = true)
    (h2 : part.isValue = true) : (joinPart str add acc part t).isValue = true := by
  unfold joinPart
  rw [Expr.isValue]
  simp only [Expr.areValues, Bool.and_true, Bool.and_eq_true]
  refine ⟨asRef_value h1, ?_⟩
  split
  · exact h2
  · apply asRef_value
    rw [Expr.isValue]
    simp only [Expr.areValues, Bool.and_true, Bool.and_eq_true]
    exact ⟨h2, asRef_value rfl⟩

/-- The result of a step and the set-up. -/
def KeepsValues (st st' : DsState) : Prop := Expr.areValues st.pending = true → Expr.areValues st'.pending = true

mutual
theorem dsExpr_value (hE : E.SmallStructs) : ∀ (e : TypedExpr), e.isOperand = true → Ok E L e → ∀ {st st' : DsState} {x : TypedExpr},
    dsExpr D e st = .ok (x, st') → x.isValue = true ∧ KeepsValues st st'
  | .Ident _, _, _, _, _, _, h | .Constant _, _, _, _, _, _, h | .This, _, _, _, _, _, h | .Super, _, _, _, _, _, h
  | .Null, _, _, _, _, _, h => by
    rw [dsExpr] at h
    cases h
    exact ⟨rfl, id⟩
  | .ArrayLit es none, _, _, _, _, _, h => by rw [dsExpr] at h; cases h
  | .ArrayLit es (some t), he, ho, st, st', x, h => by
    rw [Expr.isOperand] at he
    rw [dsExpr] at h
    obtain ⟨⟨l, st1⟩, h1, h⟩ := except_bind_ok h
    obtain ⟨st2, h2, h⟩ := except_bind_ok h
    cases h
    cases ho with
    | array ho _ =>
      refine ⟨rfl, fun hp => ?_⟩
      refine dsElems_value hE l 0 es he ho h2 ?_
      show Expr.areValues (st1.pending ++ [_]) = true
      rw [fresh_pending h1]
      exact areValues_append hp rfl
  | .InterpolatedString t ps, he, ho, st, st', x, h => by
    rw [Expr.isOperand] at he
    rw [dsExpr] at h
    obtain ⟨str, h1, h⟩ := except_bind_ok h
    obtain ⟨add, h2, h⟩ := except_bind_ok h
    cases ho with
    | text ho => exact dsParts_value hE str add ps he ho rfl h
  | .Cast ty e, he, ho, st, st', x, h => by
    rw [Expr.isOperand] at he
    rw [dsExpr] at h
    obtain ⟨⟨y, st1⟩, h1, h⟩ := except_bind_ok h
    cases h
    cases ho with
    | cast _ ho _ _ =>
      obtain ⟨a1, a2⟩ := dsExpr_value hE e he ho h1
      exact ⟨by rw [Expr.isValue]; exact a1, a2⟩
  | .Assign a b, he, ho, st, st', x, h => by
    rw [Expr.isOperand, Bool.and_eq_true] at he
    rw [dsExpr] at h
    obtain ⟨⟨y, st1⟩, h1, h⟩ := except_bind_ok h
    obtain ⟨⟨z, st2⟩, h2, h⟩ := except_bind_ok h
    cases h
    cases ho with
    | assign o1 o2 _ _ =>
      obtain ⟨a1, a2⟩ := dsExpr_value hE a he.1 o1 h1
      obtain ⟨b1, b2⟩ := dsExpr_value hE b he.2 o2 h2
      exact ⟨by rw [Expr.isValue, a1, b1]; rfl, fun hp => b2 (a2 hp)⟩
  | .Call f tys args, he, ho, st, st', x, h => by
    rw [Expr.isOperand] at he
    rw [dsExpr] at h
    obtain ⟨⟨ys, st1⟩, h1, h⟩ := except_bind_ok h
    cases h
    cases ho with
    | call _ _ _ ho _ _ _ =>
      obtain ⟨a1, _, a2⟩ := dsList_value hE args he ho h1
      exact ⟨by rw [Expr.isValue]; exact a1, a2⟩
    | intrinsic _ hi ho _ hl =>
      obtain ⟨a1, a3, a2⟩ := dsList_value hE args he ho h1
      refine ⟨?_, a2⟩
      rw [Expr.isValue]
      simp only [Bool.and_eq_true, decide_eq_true_eq]
      exact ⟨by rw [a3, hl, hi.operandCount], a1⟩
  | .MethodCall c f args, he, ho, st, st', x, h => by
    rw [Expr.isOperand, Bool.and_eq_true] at he
    rw [dsExpr] at h
    obtain ⟨⟨y, st1⟩, h1, h⟩ := except_bind_ok h
    obtain ⟨⟨ys, st2⟩, h2, h⟩ := except_bind_ok h
    cases h
    cases ho with
    | method o1 _ _ _ _ _ _ o2 _ _ _ =>
      obtain ⟨a1, a2⟩ := dsExpr_value hE c he.1 o1 h1
      obtain ⟨b1, _, b2⟩ := dsList_value hE args he.2 o2 h2
      exact ⟨by rw [Expr.isValue, a1, b1]; rfl, fun hp => b2 (a2 hp)⟩
  | .Member e m, he, ho, st, st', x, h => by
    rw [Expr.isOperand] at he
    rw [dsExpr] at h
    obtain ⟨⟨y, st1⟩, h1, h⟩ := except_bind_ok h
    cases h
    cases ho with
    | classField ho _ _ _ _ =>
      obtain ⟨a1, a2⟩ := dsExpr_value hE e he ho h1
      exact ⟨by simp only [Expr.isValue]; exact a1, a2⟩
    | structField ho _ _ _ _ =>
      obtain ⟨a1, a2⟩ := dsExpr_value hE e he ho h1
      exact ⟨by simp only [Expr.isValue]; exact a1, a2⟩
    | enumMember ho _ _ _ _ =>
      obtain ⟨a1, a2⟩ := dsExpr_value hE e he ho h1
      exact ⟨by simp only [Expr.isValue], a2⟩
  | .ArrayElem a b, he, ho, st, st', x, h => by
    rw [Expr.isOperand, Bool.and_eq_true] at he
    rw [dsExpr] at h
    obtain ⟨⟨y, st1⟩, h1, h⟩ := except_bind_ok h
    obtain ⟨⟨z, st2⟩, h2, h⟩ := except_bind_ok h
    cases h
    cases ho with
    | elem o1 o2 _ _ =>
      obtain ⟨a1, a2⟩ := dsExpr_value hE a he.1 o1 h1
      obtain ⟨b1, b2⟩ := dsExpr_value hE b he.2 o2 h2
      exact ⟨by rw [Expr.isValue, a1, b1]; rfl, fun hp => b2 (a2 hp)⟩
  | .New ty args, he, ho, st, st', x, h => by
    rw [Expr.isOperand] at he
    rw [dsExpr] at h
    obtain ⟨⟨ys, st1⟩, h1, h⟩ := except_bind_ok h
    cases h
    cases ho with
    | newClass _ =>
      rw [dsList] at h1
      cases h1
      exact ⟨rfl, id⟩
    | newStruct hf ht ho _ hl =>
      obtain ⟨a1, a3, a2⟩ := dsList_value hE args he ho h1
      refine ⟨?_, a2⟩
      simp only [Expr.isValue, Bool.and_eq_true, decide_eq_true_eq]
      refine ⟨?_, a1⟩
      have := hE _ _ hf
      have hm := congrArg List.length ht
      rw [List.length_map, List.length_map] at hm
      rw [a3, hl, ← hm]
      exact this
  | .Conditional c t e, he, ho, st, st', x, h => by
    rw [Expr.isOperand, Bool.and_eq_true, Bool.and_eq_true] at he
    rw [dsExpr] at h
    obtain ⟨⟨y, st1⟩, h1, h⟩ := except_bind_ok h
    obtain ⟨⟨z, st2⟩, h2, h⟩ := except_bind_ok h
    obtain ⟨⟨w, st3⟩, h3, h⟩ := except_bind_ok h
    cases h
    cases ho with
    | conditional o1 _ o2 _ o3 =>
      obtain ⟨a1, a2⟩ := dsExpr_value hE c he.1.1 o1 h1
      obtain ⟨b1, b2⟩ := dsExpr_value hE t he.1.2 o2 h2
      obtain ⟨c1, c2⟩ := dsExpr_value hE e he.2 o3 h3
      exact ⟨by rw [Expr.isValue, a1, b1, c1]; rfl, fun hp => c2 (b2 (a2 hp))⟩
  | .BinOp _ _ _, _, ho, _, _, _, _ | .UnOp _ _, _, ho, _, _, _, _ => by cases ho
  | .Declare _ _ _, he, _, _, _, _, _ | .Return _, he, _, _, _, _, _ | .Seq _, he, _, _, _, _, _
  | .Switch _ _ _, he, _, _, _, _, _ | .Goto _, he, _, _, _, _, _ | .If _ _ _, he, _, _, _, _, _
  | .While _ _, he, _, _, _, _, _ | .ForIn _ _ _, he, _, _, _, _, _ | .Break, he, _, _, _, _, _ => by
    simp [Expr.isOperand] at he
theorem dsList_value (hE : E.SmallStructs) : ∀ (es : List TypedExpr), Expr.areOperands es = true → AllOk E L es →
    ∀ {st st' : DsState} {xs : List TypedExpr}, dsList D es st = .ok (xs, st') →
    Expr.areValues xs = true ∧ xs.length = es.length ∧ KeepsValues st st'
  | [], _, _, _, _, _, h => by
    rw [dsList] at h
    cases h
    exact ⟨rfl, rfl, id⟩
  | e :: es, he, ho, st, st', xs, h => by
    rw [Expr.areOperands, Bool.and_eq_true] at he
    rw [dsList] at h
    obtain ⟨⟨y, st1⟩, h1, h⟩ := except_bind_ok h
    obtain ⟨⟨ys, st2⟩, h2, h⟩ := except_bind_ok h
    cases h
    cases ho with
    | cons o1 o2 =>
      obtain ⟨a1, a2⟩ := dsExpr_value hE e he.1 o1 h1
      obtain ⟨b1, b3, b2⟩ := dsList_value hE es he.2 o2 h2
      exact ⟨by rw [Expr.areValues, a1, b1]; rfl, by rw [List.length_cons, b3, List.length_cons], fun hp => b2 (a2 hp)⟩
theorem dsElems_value (hE : E.SmallStructs) (l : Idx) (i : Nat) : ∀ (es : List TypedExpr), Expr.areOperands es = true → AllOk E L es →
    ∀ {st st' : DsState}, dsElems D l i es st = .ok st' → KeepsValues st st'
  | [], _, _, _, _, h => by
    rw [dsElems] at h
    cases h
    exact id
  | e :: es, he, ho, st, st', h => by
    rw [Expr.areOperands, Bool.and_eq_true] at he
    rw [dsElems] at h
    obtain ⟨⟨y, st1⟩, h1, h⟩ := except_bind_ok h
    cases ho with
    | cons o1 o2 =>
      obtain ⟨a1, a2⟩ := dsExpr_value hE e he.1 o1 h1
      intro hp
      refine dsElems_value hE l (i + 1) es he.2 o2 h ?_
      show Expr.areValues (st1.pending ++ [_]) = true
      refine areValues_append (a2 hp) ?_
      simp only [Expr.areValues, Expr.isValue, Bool.and_true, Bool.true_and]
      exact a1
theorem dsParts_value (hE : E.SmallStructs) (str : TypeId) (add : Idx) : ∀ (ps : List (TypedExpr × Text)), Expr.areParts ps = true →
    PartsOk E L ps → ∀ {acc : TypedExpr}, acc.isValue = true → ∀ {st st' : DsState} {x : TypedExpr},
    dsParts D str add ps acc st = .ok (x, st') → x.isValue = true ∧ KeepsValues st st'
  | [], _, _, _, ha, _, _, _, h => by
    rw [dsParts] at h
    cases h
    exact ⟨ha, id⟩
  | (e, t) :: ps, he, ho, acc, ha, st, st', x, h => by
    rw [Expr.areParts, Bool.and_eq_true] at he
    rw [dsParts] at h
    obtain ⟨⟨y, st1⟩, h1, h⟩ := except_bind_ok h
    obtain ⟨part, h2, h⟩ := except_bind_ok h
    cases ho with
    | cons o1 o2 =>
      obtain ⟨a1, a2⟩ := dsExpr_value hE e he.1 o1 h1
      obtain ⟨b1, b2⟩ := dsParts_value hE str add ps he.2 o2 (joinPart_value ha (textOf_value a1 h2)) h
      exact ⟨b1, fun hp => b2 (a2 hp)⟩
end

/-! ## Statements -/

/-- A value is no block and no declaration. -/
theorem value_plain {e : TypedExpr} (h : e.isValue = true) : e.isStatement = true ∧ e.silent = false ∧ e.opens = false ∧
    e.switchesOk = true ∧ e.isEmpty = false := by
  cases e <;> first
    | (simp [Expr.isValue] at h; done)
    | exact ⟨by first | exact h | (unfold Expr.isStatement; exact h), rfl, rfl, rfl, rfl⟩

/-- The set-up in front of a block changes nothing that matters for switches. -/
theorem front_values {xs ys : List TypedExpr} (h : Expr.areValues xs = true) :
    (Expr.areStatements ys = true → Expr.areStatements (xs ++ ys) = true) ∧
    Expr.opensAll (xs ++ ys) = Expr.opensAll ys ∧
    (Expr.allSwitchesOk ys = true → Expr.allSwitchesOk (xs ++ ys) = true) ∧
    (Expr.allEmpty ys = false → Expr.allEmpty (xs ++ ys) = false) := by
  induction xs with
  | nil => exact ⟨id, rfl, id, id⟩
  | cons x xs ih =>
    rw [Expr.areValues, Bool.and_eq_true] at h
    obtain ⟨v1, v2, v3, v4, v5⟩ := value_plain h.1
    obtain ⟨a1, a2, a3, a4⟩ := ih h.2
    refine ⟨fun hy => ?_, ?_, fun hy => ?_, fun hy => ?_⟩
    · rw [List.cons_append, Expr.areStatements, v1, a1 hy]; rfl
    · rw [List.cons_append, Expr.opensAll, v3, a2, Bool.and_false, Bool.or_false]
    · rw [List.cons_append, Expr.allSwitchesOk, v4, a3 hy]; rfl
    · rw [List.cons_append, Expr.allEmpty, v5]; rfl

/-- What desugaring does with a statement. -/
structure StmtKept (e x : TypedExpr) (st st' : DsState) : Prop where
  statement : x.isStatement = true
  silent : x.silent = e.silent
  /-- declarations without a value have no set-up -/
  setup : e.silent = true → st'.pending = st.pending
  opens : x.opens = e.opens
  switches : e.switchesOk = true → x.switchesOk = true
  empty : x.isEmpty = false
  pending : Expr.areValues st'.pending = true

/-- What desugaring does with a block. -/
structure BlockKept (es xs : List TypedExpr) (st st' : DsState) : Prop where
  statements : Expr.areStatements xs = true
  silent : st.pending = [] → Expr.allSilent xs = Expr.allSilent es
  opens : Expr.opensAll xs = Expr.opensAll es
  switches : Expr.allSwitchesOk es = true → Expr.allSwitchesOk xs = true
  empty : Expr.allEmpty es = false → Expr.allEmpty xs = false
  pending : Expr.areValues st'.pending = true

theorem StmtKept.value {e x : TypedExpr} {st st' : DsState} (hp : Expr.areValues st.pending = true)
    (hx : x.isValue = true ∧ KeepsValues st st') (h1 : e.silent = false) (h2 : e.opens = false) : StmtKept e x st st' := by
  obtain ⟨v1, v2, v3, v4, v5⟩ := value_plain hx.1
  exact ⟨v1, by rw [v2, h1], fun h => (by rw [h1] at h; cases h), by rw [v3, h2], fun _ => v4, v5, hx.2 hp⟩

theorem operand_plain {e : TypedExpr} (h : e.isOperand = true) : e.silent = false ∧ e.opens = false := by
  cases e <;> first
    | (simp [Expr.isOperand] at h; done)
    | exact ⟨rfl, rfl⟩

/-- The loop over an array. -/
theorem forInLoop_kept {x arr cnt : Idx} {int : TypeId} {add less : Idx} {b : List TypedExpr}
    (h : Expr.areStatements b = true) : (forInLoop x arr cnt int add less b).isStatement = true ∧
    (Expr.allSwitchesOk b = true → (forInLoop x arr cnt int add less b).switchesOk = true) := by
  have hs : ∀ l : List TypedExpr, Expr.areStatements l = true → ∀ e : TypedExpr, e.isStatement = true →
      Expr.areStatements (l ++ [e]) = true := by
    intro l hl e he
    induction l with
    | nil => simp [Expr.areStatements, he]
    | cons y l ih =>
      rw [Expr.areStatements, Bool.and_eq_true] at hl
      rw [List.cons_append, Expr.areStatements, hl.1, ih hl.2]; rfl
  have hw : ∀ l : List TypedExpr, Expr.allSwitchesOk l = true → ∀ e : TypedExpr, e.switchesOk = true →
      Expr.allSwitchesOk (l ++ [e]) = true := by
    intro l hl e he
    induction l with
    | nil => simp [Expr.allSwitchesOk, he]
    | cons y l ih =>
      rw [Expr.allSwitchesOk, Bool.and_eq_true] at hl
      rw [List.cons_append, Expr.allSwitchesOk, hl.1, ih hl.2]; rfl
  unfold forInLoop
  refine ⟨?_, fun h' => ?_⟩
  · rw [Expr.isStatement, Bool.and_eq_true]
    refine ⟨rfl, ?_⟩
    rw [Expr.areStatements, Bool.and_eq_true]
    exact ⟨rfl, hs b h _ rfl⟩
  · rw [Expr.switchesOk, Expr.allSwitchesOk, Bool.and_eq_true]
    exact ⟨rfl, hw b h' _ rfl⟩

mutual
theorem dsExpr_kept (hE : E.SmallStructs) : ∀ (e : TypedExpr), e.isWritten = true → Ok E L e → ∀ {st st' : DsState} {x : TypedExpr},
    Expr.areValues st.pending = true → dsExpr D e st = .ok (x, st') → StmtKept e x st st'
  | .Declare l ty none, _, _, st, _, _, hp, h => by
    rw [dsExpr] at h
    cases h
    exact ⟨rfl, rfl, fun _ => rfl, rfl, fun _ => rfl, rfl, hp⟩
  | .Declare l ty (some e), he, ho, st, st', x, hp, h => by
    rw [Expr.isWritten] at he
    rw [dsExpr] at h
    obtain ⟨⟨y, st1⟩, h1, h⟩ := except_bind_ok h
    cases h
    cases ho with
    | declareAs _ _ ho _ =>
      obtain ⟨a1, a2⟩ := dsExpr_value hE e he ho h1
      exact ⟨by rw [Expr.isStatement]; exact a1, rfl, nofun, rfl, fun _ => rfl, rfl, a2 hp⟩
  | .Return none, _, _, st, _, _, hp, h => by
    rw [dsExpr] at h
    cases h
    exact ⟨rfl, rfl, fun _ => rfl, rfl, fun _ => rfl, rfl, hp⟩
  | .Return (some e), he, ho, st, st', x, hp, h => by
    rw [Expr.isWritten] at he
    rw [dsExpr] at h
    obtain ⟨⟨y, st1⟩, h1, h⟩ := except_bind_ok h
    cases h
    cases ho with
    | ret _ ho _ =>
      obtain ⟨a1, a2⟩ := dsExpr_value hE e he ho h1
      exact ⟨by rw [Expr.isStatement]; exact a1, rfl, nofun, rfl, fun _ => rfl, rfl, a2 hp⟩
  | .Break, _, _, st, _, _, hp, h => by
    rw [dsExpr] at h
    cases h
    exact ⟨rfl, rfl, fun _ => rfl, rfl, fun _ => rfl, rfl, hp⟩
  | .If c t e, he, ho, st, st', x, hp, h => by
    rw [Expr.isWritten, Bool.and_eq_true, Bool.and_eq_true] at he
    rw [dsExpr] at h
    obtain ⟨⟨t', st1⟩, h1, h⟩ := except_bind_ok h
    obtain ⟨⟨e', st2⟩, h2, h⟩ := except_bind_ok h
    obtain ⟨⟨c', st3⟩, h3, h⟩ := except_bind_ok h
    cases h
    cases ho with
    | ite o1 _ o2 o3 =>
      have k1 := dsSeq_kept hE t he.1.2 o2 hp h1
      obtain ⟨k2, k3, k4, k5, k6⟩ := dsOpt_kept hE e he.2 o3 k1.pending h2
      obtain ⟨a1, a2⟩ := dsExpr_value hE c he.1.1 o1 h3
      refine ⟨?_, rfl, nofun, ?_, fun hs => ?_, rfl, a2 k5⟩
      · rw [Expr.isStatement, a1, k1.statements, k2]; rfl
      · cases e with
        | none =>
          cases e' with
          | none => rw [Expr.opens, Expr.opens]; exact k1.opens
          | some _ => cases k6
        | some _ =>
          cases e' with
          | none => cases k6
          | some _ => rw [Expr.opens, Expr.opens]; rw [Expr.opensOpt, Expr.opensOpt] at k3; exact k3
      · rw [Expr.switchesOk, Bool.and_eq_true] at hs ⊢
        exact ⟨k1.switches hs.1, k4 hs.2⟩
  | .While c b, he, ho, st, st', x, hp, h => by
    rw [Expr.isWritten, Bool.and_eq_true] at he
    rw [dsExpr] at h
    obtain ⟨⟨b', st1⟩, h1, h⟩ := except_bind_ok h
    obtain ⟨⟨c', st2⟩, h2, h⟩ := except_bind_ok h
    cases h
    cases ho with
    | «while» o1 _ o2 =>
      have k1 := dsSeq_kept hE b he.2 o2 hp h1
      obtain ⟨a1, a2⟩ := dsExpr_value hE c he.1 o1 h2
      refine ⟨?_, rfl, nofun, rfl, fun hs => ?_, rfl, a2 k1.pending⟩
      · rw [Expr.isStatement, a1, k1.statements]; rfl
      · rw [Expr.switchesOk] at hs ⊢
        exact k1.switches hs
  | .ForIn l a b, he, ho, st, st', x, hp, h => by
    rw [Expr.isWritten, Bool.and_eq_true] at he
    rw [dsExpr] at h
    obtain ⟨⟨b', st1⟩, h1, h⟩ := except_bind_ok h
    obtain ⟨⟨a', st2⟩, h2, h⟩ := except_bind_ok h
    dsimp only at h
    split at h
    · cases h
    · obtain ⟨⟨r, st3⟩, h3, h⟩ := except_bind_ok h
      obtain ⟨int, h4, h⟩ := except_bind_ok h
      obtain ⟨⟨r', st4⟩, h5, h⟩ := except_bind_ok h
      obtain ⟨add, h6, h⟩ := except_bind_ok h
      obtain ⟨less, h7, h⟩ := except_bind_ok h
      cases h
      cases ho with
      | forIn o1 _ _ _ o2 =>
        have k1 := dsSeq_kept hE b he.2 o2 hp h1
        obtain ⟨a1, a2⟩ := dsExpr_value hE a he.1 o1 h2
        obtain ⟨f1, f2⟩ := forInLoop_kept (x := l) (arr := r) (cnt := r') (int := int) (add := add) (less := less) k1.statements
        refine ⟨f1, rfl, nofun, rfl, fun hs => ?_, rfl, ?_⟩
        · rw [Expr.switchesOk] at hs
          exact f2 (k1.switches hs)
        · show Expr.areValues (st4.pending ++ forInSetup r r' a') = true
          rw [fresh_pending h5, fresh_pending h3]
          refine areValues_append (a2 k1.pending) ?_
          simp only [forInSetup, Expr.areValues, Expr.isValue, Bool.and_true, Bool.true_and]
          exact a1
  | .Switch e cs d, he, ho, st, st', x, hp, h => by
    rw [Expr.isWritten, Bool.and_eq_true, Bool.and_eq_true] at he
    rw [dsExpr] at h
    obtain ⟨⟨cs', st1⟩, h1, h⟩ := except_bind_ok h
    obtain ⟨⟨d', st2⟩, h2, h⟩ := except_bind_ok h
    obtain ⟨⟨e', st3⟩, h3, h⟩ := except_bind_ok h
    cases h
    cases ho with
    | switch o1 o2 o3 =>
      obtain ⟨k1, k2, k3, _⟩ := dsCases_kept hE cs he.1.2 o2 hp h1
      obtain ⟨m1, m2, m3, m4, _⟩ := dsOpt_kept hE d he.2 o3 k3 h2
      obtain ⟨a1, a2⟩ := dsExpr_value hE e he.1.1 o1 h3
      refine ⟨?_, rfl, nofun, ?_, fun hs => ?_, rfl, a2 m4⟩
      · rw [Expr.isStatement, a1, k1, m1]; rfl
      · rw [Expr.opens, Expr.opens]; exact m2
      · rw [Expr.switchesOk, Bool.and_eq_true] at hs ⊢
        exact ⟨k2 hs.1, m3 hs.2⟩
  | .Seq _, he, _, _, _, _, _, _ | .Goto _, he, _, _, _, _, _, _ => by simp [Expr.isWritten, Expr.isOperand] at he
  | .BinOp _ _ _, _, ho, _, _, _, _, _ | .UnOp _ _, _, ho, _, _, _, _, _ => by cases ho
  | .Ident a, he, ho, _, _, _, hp, h => .value hp (dsExpr_value hE (.Ident a) he ho h) rfl rfl
  | .Constant a, he, ho, _, _, _, hp, h => .value hp (dsExpr_value hE (.Constant a) he ho h) rfl rfl
  | .ArrayLit a b, he, ho, _, _, _, hp, h => .value hp (dsExpr_value hE (.ArrayLit a b) he ho h) rfl rfl
  | .InterpolatedString a b, he, ho, _, _, _, hp, h => .value hp (dsExpr_value hE (.InterpolatedString a b) he ho h) rfl rfl
  | .Cast a b, he, ho, _, _, _, hp, h => .value hp (dsExpr_value hE (.Cast a b) he ho h) rfl rfl
  | .Assign a b, he, ho, _, _, _, hp, h => .value hp (dsExpr_value hE (.Assign a b) he ho h) rfl rfl
  | .Call a b c, he, ho, _, _, _, hp, h => .value hp (dsExpr_value hE (.Call a b c) he ho h) rfl rfl
  | .MethodCall a b c, he, ho, _, _, _, hp, h => .value hp (dsExpr_value hE (.MethodCall a b c) he ho h) rfl rfl
  | .Member a b, he, ho, _, _, _, hp, h => .value hp (dsExpr_value hE (.Member a b) he ho h) rfl rfl
  | .ArrayElem a b, he, ho, _, _, _, hp, h => .value hp (dsExpr_value hE (.ArrayElem a b) he ho h) rfl rfl
  | .New a b, he, ho, _, _, _, hp, h => .value hp (dsExpr_value hE (.New a b) he ho h) rfl rfl
  | .Conditional a b c, he, ho, _, _, _, hp, h => .value hp (dsExpr_value hE (.Conditional a b c) he ho h) rfl rfl
  | .This, he, ho, _, _, _, hp, h => .value hp (dsExpr_value hE .This rfl ho h) rfl rfl
  | .Super, he, ho, _, _, _, hp, h => .value hp (dsExpr_value hE .Super rfl ho h) rfl rfl
  | .Null, he, ho, _, _, _, hp, h => .value hp (dsExpr_value hE .Null rfl ho h) rfl rfl
theorem dsSeq_kept (hE : E.SmallStructs) : ∀ (es : List TypedExpr), Expr.areWritten es = true → AllOk E L es → ∀ {st st' : DsState}
    {xs : List TypedExpr}, Expr.areValues st.pending = true → dsSeq D es st = .ok (xs, st') → BlockKept es xs st st'
  | [], _, _, st, _, _, hp, h => by
    rw [dsSeq] at h
    cases h
    exact ⟨rfl, fun _ => rfl, rfl, fun _ => rfl, fun h => h, hp⟩
  | e :: es, he, ho, st, st', xs, hp, h => by
    rw [Expr.areWritten, Bool.and_eq_true] at he
    rw [dsSeq] at h
    obtain ⟨⟨x, st1⟩, h1, h⟩ := except_bind_ok h
    obtain ⟨⟨ys, st2⟩, h2, h⟩ := except_bind_ok h
    cases h
    cases ho with
    | cons o1 o2 =>
      have k1 := dsExpr_kept hE e he.1 o1 hp h1
      have k2 := dsSeq_kept hE es he.2 o2 (show Expr.areValues [] = true from rfl) h2
      obtain ⟨f1, f2, f3, f4⟩ := front_values (ys := x :: ys) k1.pending
      refine ⟨f1 ?_, fun hn => ?_, ?_, fun hs => f3 ?_, fun _ => f4 ?_, k2.pending⟩
      · rw [Expr.areStatements, k1.statement, k2.statements]; rfl
      · dsimp only
        cases hs : e.silent with
        | true =>
          rw [k1.setup hs, hn, List.nil_append, Expr.allSilent, Expr.allSilent, k1.silent, k2.silent rfl]
        | false =>
          rw [Expr.allSilent, hs, Bool.false_and]
          have hx : x.silent = false := by rw [k1.silent, hs]
          generalize st1.pending = p
          induction p with
          | nil => rw [List.nil_append, Expr.allSilent, hx, Bool.false_and]
          | cons y p ih => rw [List.cons_append, Expr.allSilent, ih, Bool.and_false]
      · dsimp only
        rw [f2, Expr.opensAll, Expr.opensAll, k1.opens, k2.opens, k2.silent rfl]
      · rw [Expr.allSwitchesOk, Bool.and_eq_true] at hs ⊢
        exact ⟨k1.switches hs.1, k2.switches hs.2⟩
      · rw [Expr.allEmpty, k1.empty]; rfl
theorem dsOpt_kept (hE : E.SmallStructs) : ∀ (b : Option (List TypedExpr)), Expr.areWrittenOpt b = true → BlockOk E L b → ∀ {st st' : DsState}
    {x : Option (List TypedExpr)}, Expr.areValues st.pending = true → dsOpt D b st = .ok (x, st') →
    Expr.areStatementsOpt x = true ∧ Expr.opensOpt x = Expr.opensOpt b ∧ (Expr.optSwitchesOk b = true → Expr.optSwitchesOk x = true) ∧
    Expr.areValues st'.pending = true ∧ x.isSome = b.isSome
  | none, _, _, _, _, _, hp, h => by
    rw [dsOpt] at h
    cases h
    exact ⟨rfl, rfl, id, hp, rfl⟩
  | some es, he, ho, st, st', x, hp, h => by
    rw [Expr.areWrittenOpt] at he
    rw [dsOpt] at h
    obtain ⟨⟨ys, st1⟩, h1, h⟩ := except_bind_ok h
    cases h
    cases ho with
    | some ho =>
      have k := dsSeq_kept hE es he ho hp h1
      refine ⟨?_, ?_, fun hs => ?_, k.pending, rfl⟩
      · rw [Expr.areStatementsOpt]; exact k.statements
      · rw [Expr.opensOpt, Expr.opensOpt]; exact k.opens
      · rw [Expr.optSwitchesOk] at hs ⊢; exact k.switches hs
theorem dsCases_kept (hE : E.SmallStructs) : ∀ (cs : List (TypedExpr × List TypedExpr)), Expr.areWrittenCases cs = true → CasesOk E L cs →
    ∀ {st st' : DsState} {ds : List (TypedExpr × List TypedExpr)}, Expr.areValues st.pending = true →
    dsCases D cs st = .ok (ds, st') → Expr.areCases ds = true ∧ (Expr.casesOk cs = true → Expr.casesOk ds = true) ∧
      Expr.areValues st'.pending = true ∧ ds.isEmpty = cs.isEmpty
  | [], _, _, _, _, _, hp, h => by
    rw [dsCases] at h
    cases h
    exact ⟨rfl, fun _ => rfl, hp, rfl⟩
  | (m, b) :: cs, he, ho, st, st', ds, hp, h => by
    rw [Expr.areWrittenCases, Bool.and_eq_true, Bool.and_eq_true] at he
    rw [dsCases] at h
    obtain ⟨⟨b', st1⟩, h1, h⟩ := except_bind_ok h
    obtain ⟨⟨m', st2⟩, h2, h⟩ := except_bind_ok h
    obtain ⟨⟨cs', st3⟩, h3, h⟩ := except_bind_ok h
    cases h
    cases ho with
    | cons o1 o2 o3 =>
      have k1 := dsSeq_kept hE b he.1.2 o2 hp h1
      obtain ⟨a1, a2⟩ := dsExpr_value hE m he.1.1 o1 h2
      obtain ⟨c1, c2, c3, c4⟩ := dsCases_kept hE cs he.2 o3 (a2 k1.pending) h3
      refine ⟨?_, fun hs => ?_, c3, rfl⟩
      · rw [Expr.areCases, a1, k1.statements, c1]; rfl
      · rw [Expr.casesOk, Bool.and_eq_true, Bool.and_eq_true] at hs ⊢
        refine ⟨⟨k1.switches hs.1.1, ?_⟩, c2 hs.2⟩
        have hs := hs.1.2
        dsimp only
        rw [c4]
        split at hs
        · rename_i hc
          rw [if_pos hc, k1.empty (by simpa using hs)]
          rfl
        · rename_i hc
          rw [if_neg hc, k1.opens]
          exact hs
end

end

end Redscript
