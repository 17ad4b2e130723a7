import Verif.Desugar.Order

/-!
# Expressions with constant literals
-/

namespace Redscript

section
variable {V S A : Type} {W : DsWorld V S A}

/-! ## Evaluation of the emitted calls -/

theorem evalE_local_new {l : Idx} {t : S × (Idx → V)} (h : W.start ≤ l.toNat) :
    evalE W.env W.J (useLocal l) t = .ok (.var l, t) := by
  rw [evalE.eq_def]
  show Res.ofExcept (if W.start ≤ l.toNat then _ else _) = _
  rw [if_pos h]
  rfl

theorem evalE_const (hW : W.Laws) (c : Constant) (t : S × (Idx → V)) :
    evalE W.env W.J (.Constant c) t = .ok (.val (W.M.const c), t) := by
  rw [evalE.eq_def]
  show Res.ofExcept (liftCell t.2 (W.I.prim (.const c) [] t.1)) = _
  rw [hW.const]
  rfl

theorem evalE_call2 {env : AsmEnv} {I : Interp V S A} {f : Idx} {tys : List TypeId} {x y : TypedExpr} {info : FnInfo}
    {p q : ParameterFlags} (t : S) (hf : env.function f = .ok info) (hp : info.params = [p, q]) (h1 : onDemand p = false)
    (h2 : onDemand q = false) : evalE env I (.Call (Callable.Function f) tys [x, y]) t =
      (evalE env I x t).bind fun a => (evalE env I y a.2).bind fun b =>
        .ofExcept (I.call (calleeOf info false f) none [some a.1, some b.1] b.2) := by
  rw [evalE.eq_def]
  dsimp only
  rw [hf]
  dsimp only
  rw [hp]
  unfold onDemand at h1 h2
  rw [evalArgs, h1]
  simp only [Bool.false_and, Bool.false_eq_true, if_false]
  cases evalE env I x t with
  | abort a => rfl
  | stuck => rfl
  | ok a =>
    simp only [Res.bind]
    rw [evalArgs, h2]
    simp only [Bool.false_and, Bool.false_eq_true, if_false]
    cases evalE env I y a.2 with
    | abort a => rfl
    | stuck => rfl
    | ok b =>
      simp only [Res.bind]
      rw [evalArgs]
      rfl

theorem evalE_intrinsic1 {env : AsmEnv} {I : Interp V S A} {op : IntrinsicOp} {ret ty : TypeId} {tys : List TypeId} {x : TypedExpr} {o : Op}
    (t : S) (ht : env.typeOf x = .ok ty) (ho : intrinsicMeaning op (some ty) ret = some o) :
    evalE env I (.Call (Callable.Intrinsic op ret) tys [x]) t =
      (evalE env I x t).bind fun a => .ofExcept (I.prim o [a.1] a.2) := by
  rw [evalE.eq_def]
  dsimp only
  have h1 : firstType env [x] = some ty := by simp only [firstType, ht]; rfl
  rw [h1, ho]
  dsimp only
  rw [evalList]
  cases evalE env I x t with
  | abort a => rfl
  | stuck => rfl
  | ok a => simp only [Res.bind, evalList]

/-! ## Interpolated strings -/

/-- `as_ref` gives a value with the same text. -/
theorem evalE_asRef (hW : W.Laws) {str ty : TypeId} {x : TypedExpr} (ht : typeTree W.Q x = .ok ty) :
    ∃ k, (∀ t, evalE W.env W.J (asRefCall str x) t = (evalE W.env W.J x t).bind k) ∧
      ∀ x s σ, ∃ r, k (x, (s, σ)) = .ok (.val r, (s, σ)) ∧ ∀ s', W.U.text r s' = W.U.text (x.read σ) s' := by
  refine ⟨fun a => .ofExcept (W.J.prim (.intrinsic .AsRef ty) [a.1] a.2), ?_, ?_⟩
  · intro t
    exact evalE_intrinsic1 t (by rw [hW.types]; exact ht) rfl
  · intro x s σ
    obtain ⟨r, hr⟩ := hW.asRef ty (x.read σ)
    refine ⟨r, ?_, fun s' => (hr s').2⟩
    show Res.ofExcept (liftCell σ (W.I.prim (.intrinsic .AsRef ty) [x.read σ] s)) = _
    rw [(hr s).1]
    rfl

/-- An interpolated value as a text. -/
theorem evalE_textOf (hW : W.Laws) {str ty : TypeId} {x p : TypedExpr}
    (ht : typeTree W.Q x = .ok ty) (h : W.D.textOf str x = .ok p) :
    (∃ ty', typeTree W.Q p = .ok ty') ∧ ∃ k, (∀ t, evalE W.env W.J p t = (evalE W.env W.J x t).bind k) ∧
      ∀ x s σ, ∃ r, k (x, (s, σ)) = .ok (r, (s, σ)) ∧ W.U.text (r.read σ) s = W.U.format ty (x.read σ) s := by
  have same : W.U.isText ty = true → p = x → _ := fun h1 h2 =>
    show (∃ ty', typeTree W.Q p = .ok ty') ∧ ∃ k, (∀ t, evalE W.env W.J p t = (evalE W.env W.J x t).bind k) ∧
      ∀ x s σ, ∃ r, k (x, (s, σ)) = .ok (r, (s, σ)) ∧ W.U.text (r.read σ) s = W.U.format ty (x.read σ) s by
    subst h2
    refine ⟨⟨ty, ht⟩, .ok, fun t => ?_, fun x s σ => ⟨x, rfl, ?_⟩⟩
    · cases evalE W.env W.J p t <;> rfl
    · rw [Sugar.format, if_pos h1]
  have ref : W.U.isText ty = true → p = asRefCall str x → _ := fun h1 h2 =>
    show (∃ ty', typeTree W.Q p = .ok ty') ∧ ∃ k, (∀ t, evalE W.env W.J p t = (evalE W.env W.J x t).bind k) ∧
      ∀ x s σ, ∃ r, k (x, (s, σ)) = .ok (r, (s, σ)) ∧ W.U.text (r.read σ) s = W.U.format ty (x.read σ) s by
    subst h2
    obtain ⟨k, hk, hr⟩ := evalE_asRef (str := str) hW ht
    refine ⟨⟨_, rfl⟩, k, hk, fun x s σ => ?_⟩
    obtain ⟨r, h3, h4⟩ := hr x s σ
    refine ⟨.val r, h3, ?_⟩
    rw [Sugar.format, if_pos h1]
    exact h4 s
  have other : W.U.isText ty = false → p = asRefCall str (.Call (.Intrinsic .ToString str) [] [x]) → _ := fun h1 h2 =>
    show (∃ ty', typeTree W.Q p = .ok ty') ∧ ∃ k, (∀ t, evalE W.env W.J p t = (evalE W.env W.J x t).bind k) ∧
      ∀ x s σ, ∃ r, k (x, (s, σ)) = .ok (r, (s, σ)) ∧ W.U.text (r.read σ) s = W.U.format ty (x.read σ) s by
    subst h2
    obtain ⟨k, hk, hr⟩ := evalE_asRef (str := str) (x := .Call (.Intrinsic .ToString str) [] [x]) hW (ty := str) rfl
    refine ⟨⟨_, rfl⟩, fun a => (Res.ofExcept (W.J.prim (.intrinsic .ToString ty) [a.1] a.2)).bind k, fun t => ?_, fun x s σ => ?_⟩
    · rw [hk, evalE_intrinsic1 t (by rw [hW.types]; exact ht) (o := .intrinsic .ToString ty) rfl]
      cases evalE W.env W.J x t <;> rfl
    · have h3 : Res.ofExcept (W.J.prim (.intrinsic .ToString ty) [x] (s, σ)) =
          .ok (.val (W.U.string (W.U.shown ty (x.read σ) s)), (s, σ)) := by
        show Res.ofExcept (liftCell σ (W.I.prim (.intrinsic .ToString ty) [x.read σ] s)) = _
        rw [hW.toString]
        rfl
      obtain ⟨r, h4, h5⟩ := hr (.val (W.U.string (W.U.shown ty (x.read σ) s))) s σ
      refine ⟨.val r, ?_, ?_⟩
      · dsimp only
        rw [h3]
        exact h4
      · rw [Sugar.format, if_neg (by rw [h1]; decide)]
        show W.U.text r s = _
        rw [h5]
        exact hW.text _ _
  unfold DsEnv.textOf at h
  rw [hW.dsTypes, ht] at h
  split at h
  · rename_i h1; cases h1
  · cases h
  · rename_i t h1
    cases h1
    obtain ⟨q, h2, h⟩ := except_bind_ok h
    split at h
    · rename_i h3
      cases h
      exact same ((hW.isText _).2 (.inl ⟨t, rfl, by rw [h2, h3]⟩)) rfl
    · rename_i h3
      obtain ⟨q', h4, h⟩ := except_bind_ok h
      split at h
      · rename_i h5
        cases h
        exact ref ((hW.isText _).2 (.inr (by rw [h4, h5]))) rfl
      · rename_i h5
        cases h
        refine other ?_ rfl
        cases h6 : W.U.isText (.ScriptRef t) with
        | false => rfl
        | true =>
          rcases (hW.isText _).1 h6 with ⟨t', h7, h8⟩ | h8
          · cases h7
            rw [h2] at h8
            cases h8
            exact absurd rfl h3
          · rw [h4] at h8
            cases h8
            exact absurd rfl h5
  · rename_i ty' hv hr h1
    cases h1
    obtain ⟨q, h2, h⟩ := except_bind_ok h
    split at h
    · rename_i h3
      cases h
      exact ref ((hW.isText _).2 (.inr (by rw [h2, h3]))) rfl
    · rename_i h3
      cases h
      refine other ?_ rfl
      cases h6 : W.U.isText ty with
      | false => rfl
      | true =>
        rcases (hW.isText _).1 h6 with ⟨t', h7, h8⟩ | h8
        · exact absurd h7 (by rintro rfl; exact hr t' rfl)
        · rw [h2] at h8
          cases h8
          exact absurd rfl h3

/-- A string with this text. -/
def IsString (W : DsWorld V S A) (σ : Idx → V) (x : CellVal V) (t : Text) : Prop := x.read σ = W.U.string t

/-- The sum of two texts. -/
theorem call_addStr {add : Idx} {info : FnInfo} (hf : calleeOf info false add ≠ W.asg)
    (hc : ∀ a b s, W.I.call (calleeOf info false add) none [some a, some b] s = .ok (W.U.string (W.U.text a s ++ W.U.text b s), s))
    (x y : CellVal V) (s : S) (σ : Idx → V) :
    Res.ofExcept (W.J.call (calleeOf info false add) none [some x, some y] (s, σ)) =
      .ok (.val (W.U.string (W.U.text (x.read σ) s ++ W.U.text (y.read σ) s)), (s, σ)) := by
  show Res.ofExcept (cellCall W.I W.M W.asg (calleeOf info false add) none [some x, some y] (s, σ)) = _
  unfold cellCall
  split
  · rename_i h _ _
    exact absurd (by simpa using h) hf
  · show Res.ofExcept (liftCell σ (W.I.call (calleeOf info false add) none [some (x.read σ), some (y.read σ)] s)) = _
    rw [hc]
    rfl

/-- An interpolated value with the text after it. -/
theorem evalE_combined (hW : W.Laws) {str : TypeId} {add : Idx} (hs : W.D.stringTy = .ok str) (ha : W.D.addStr = .ok add)
    {x p : TypedExpr} {ty : TypeId} {u : Text} (ht : typeTree W.Q x = .ok ty) (h : W.D.textOf str x = .ok p) :
    ∃ k2, (∀ t, evalE W.env W.J (if u.isEmpty then p
      else asRefCall str (.Call (.Function add) [] [p, asRefCall str (.Constant (.String .String u))])) t =
        (evalE W.env W.J x t).bind k2) ∧
      ∀ x s σ, ∃ r, k2 (x, (s, σ)) = .ok (r, (s, σ)) ∧ W.U.text (r.read σ) s = W.U.format ty (x.read σ) s ++ u := by
  obtain ⟨⟨ty', hty'⟩, k, hk, hr⟩ := evalE_textOf hW ht h
  obtain ⟨info, pp, q, hf, hp, hpd, hqd, hasg, hc⟩ := hW.addStr add ha
  cases u with
  | nil =>
    refine ⟨k, hk, fun x s σ => ?_⟩
    obtain ⟨r, h3, h4⟩ := hr x s σ
    exact ⟨r, h3, by rw [h4, List.append_nil]⟩
  | cons c u =>
    obtain ⟨k3, hk3, hr3⟩ := evalE_asRef (str := str) (x := .Constant (.String .String (c :: u))) hW (ty := str)
      (by rw [typeTree]; exact hW.stringTy str hs _)
    obtain ⟨k4, hk4, hr4⟩ := evalE_asRef (str := str)
      (x := .Call (.Function add) [] [p, asRefCall str (.Constant (.String .String (c :: u)))]) hW (ty := str)
      (by rw [typeTree]; rw [hW.sumTy add ha]; exact hW.stringTy str hs _)
    refine ⟨fun a => ((k a).bind fun a => (evalE W.env W.J (asRefCall str (.Constant (.String .String (c :: u)))) a.2).bind fun b =>
      .ofExcept (W.J.call (calleeOf info false add) none [some a.1, some b.1] b.2)).bind k4, fun t => ?_, fun x s σ => ?_⟩
    · simp only [List.isEmpty_cons, Bool.false_eq_true, if_false]
      rw [hk4, evalE_call2 t hf hp hpd hqd, hk]
      cases evalE W.env W.J x t <;> rfl
    · obtain ⟨r, h3, h4⟩ := hr x s σ
      obtain ⟨r', h5, h6⟩ := hr3 (.val (W.M.const (.String .String (c :: u)))) s σ
      dsimp only
      rw [h3]
      show ∃ r, Res.bind (Res.bind (evalE W.env W.J (asRefCall str (.Constant (.String .String (c :: u)))) (s, σ)) _) _ = _ ∧ _
      rw [hk3, evalE_const hW]
      show ∃ r, Res.bind (Res.bind (k3 (.val (W.M.const (.String .String (c :: u))), (s, σ))) _) _ = _ ∧ _
      rw [h5]
      show ∃ r, Res.bind (Res.ofExcept (W.J.call _ _ _ (s, σ))) _ = _ ∧ _
      rw [call_addStr hasg hc]
      obtain ⟨r'', h7, h8⟩ := hr4 (.val (W.U.string (W.U.text (r.read σ) s ++ W.U.text r' s))) s σ
      refine ⟨.val r'', h7, ?_⟩
      show W.U.text r'' s = _
      rw [h8]
      show W.U.text (W.U.string _) s = _
      rw [hW.text, h4, h6]
      show _ ++ W.U.text (W.M.const _) s = _
      rw [hW.string, hW.text]

/-- One part of an interpolated string: the text so far, then the value. -/
theorem joinPart_same (hW : W.Laws) {str : TypeId} {add : Idx} (hs : W.D.stringTy = .ok str) (ha : W.D.addStr = .ok add)
    {acc x p : TypedExpr} {ty : TypeId} {u : Text} (hacc : typeTree W.Q acc = .ok str) (ht : typeTree W.Q x = .ok ty)
    (h : W.D.textOf str x = .ok p) {s : S} {σ : Idx → V} {rA : Res A (Text × S)} {rB : S → Res A (V × S)}
    (h1 : Same (IsString W) σ (evalE W.env W.J acc (s, σ)) rA)
    (h2 : ∀ t s1, rA = .ok (t, s1) → Same CellReads σ (evalE W.env W.J x (s1, σ)) (rB s1)) :
    Same (IsString W) σ (evalE W.env W.J (joinPart str add acc p u) (s, σ))
      (rA.bind fun (t, s) => (rB s).bind fun (v, s) => .ok (t ++ (W.U.format ty v s ++ u), s)) := by
  obtain ⟨info, pp, q, hf, hp, hpd, hqd, hasg, hc⟩ := hW.addStr add ha
  obtain ⟨k1, hk1, hr1⟩ := evalE_asRef (str := str) hW hacc
  obtain ⟨k2, hk2, hr2⟩ := evalE_combined (u := u) hW hs ha ht h
  unfold joinPart
  dsimp only
  rw [evalE_call2 (s, σ) hf hp hpd hqd, hk1]
  cases hA : evalE W.env W.J acc (s, σ) with
  | abort a => rw [hA] at h1; cases h1; exact .abort
  | stuck => rw [hA] at h1; cases h1; exact .stuck
  | ok a =>
    rw [hA] at h1
    cases h1 with
    | @ok x0 t0 s1 h3 =>
      obtain ⟨r0, h4, h5⟩ := hr1 x0 s1 σ
      show Same (IsString W) σ (Res.bind (k1 (x0, (s1, σ))) _) (Res.bind (rB s1) _)
      rw [h4]
      show Same (IsString W) σ (Res.bind (evalE W.env W.J _ (s1, σ)) _) (Res.bind (rB s1) _)
      rw [hk2]
      have h6 := h2 t0 s1 rfl
      generalize rB s1 = rb at h6
      cases hB : evalE W.env W.J x (s1, σ) with
      | abort a => rw [hB] at h6; cases h6; exact .abort
      | stuck => rw [hB] at h6; cases h6; exact .stuck
      | ok a =>
        rw [hB] at h6
        cases h6 with
        | @ok x1 v1 s2 h7 =>
          obtain ⟨r1, h8, h9⟩ := hr2 x1 s2 σ
          show Same (IsString W) σ (Res.bind (k2 (x1, (s2, σ))) _) (.ok (_, s2))
          rw [h8]
          show Same (IsString W) σ (Res.ofExcept (W.J.call _ _ _ (s2, σ))) (.ok (_, s2))
          rw [call_addStr hasg hc]
          refine .ok ?_
          show W.U.string _ = W.U.string _
          show W.U.string (W.U.text r0 s2 ++ W.U.text (r1.read σ) s2) = W.U.string _
          rw [h5, h9, h7, h3, hW.text]

end

end Redscript
