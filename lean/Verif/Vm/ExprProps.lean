import Verif.Vm.Mono
import Verif.Assembler.CodeAt

/-!
# Assembled expressions compute the value of the expression
-/

namespace Redscript

/-- The pool of the machine holds what the assembler was told: types and texts at their indices, and the
reserved texts at index 0. -/
structure PoolAgrees (env : AsmEnv) (P : PoolView) (zero : Literal → Text) : Prop where
  ty : ∀ t i, env.typeIdx t = .ok i → P.ty i = t
  text : ∀ l t i, env.strIdx l t = .ok i → P.text l i = t
  zero : ∀ l, P.text l 0 = zero l

section
variable {V S A α β : Type}

/-- A fuelled computation that has a result for all large fuels. -/
def Ev (f : Nat → Option (Res A α)) (r : Res A α) : Prop := ∃ N, ∀ m, N ≤ m → f m = some r

theorem Ev.now {f : Nat → Option (Res A α)} {r : Res A α} (h : ∀ m, f (m + 1) = some r) : Ev f r :=
  ⟨1, fun m hm => by obtain ⟨k, rfl⟩ : ∃ k, m = k + 1 := ⟨m - 1, by omega⟩; exact h k⟩

theorem Ev.step {f g : Nat → Option (Res A α)} {r : Res A α} (hg : Ev g r) (h : ∀ m, f (m + 1) = g m) : Ev f r := by
  obtain ⟨N, hN⟩ := hg
  refine ⟨N + 1, fun m hm => ?_⟩
  obtain ⟨k, rfl⟩ : ∃ k, m = k + 1 := ⟨m - 1, by omega⟩
  rw [h k, hN k (by omega)]

theorem Ev.bind {f : Nat → Option (Res A α)} {r : Res A α} {k : Nat → α → Option (Res A β)} {g : α → Res A β}
    (hf : Ev f r) (hk : ∀ a, r = .ok a → Ev (fun m => k m a) (g a)) :
    Ev (fun m => Fuelled.bind (f m) (k m)) (r.bind g) := by
  obtain ⟨N, hN⟩ := hf
  cases r with
  | ok a =>
    obtain ⟨M, hM⟩ := hk a rfl
    exact ⟨max N M, fun m hm => by simp only [hN m (by omega)]; exact hM m (by omega)⟩
  | abort a => exact ⟨N, fun m hm => by simp only [hN m hm]; rfl⟩
  | stuck => exact ⟨N, fun m hm => by simp only [hN m hm]; rfl⟩

theorem Ev.congr {f : Nat → Option (Res A α)} {r r' : Res A α} (h : Ev f r) (e : r = r') : Ev f r' := e ▸ h

theorem Ev.const (r : Res A α) : Ev (fun _ => some r) r := ⟨0, fun _ _ => rfl⟩

/-- Add the position behind an expression to its result. -/
def atPos (q : Location) (r : Res A (α × S)) : Res A (α × Location × S) := r.bind fun (v, s) => .ok (v, q, s)

theorem bind_ne_stuck {r : Res A α} {k : α → Res A β} (h : r ≠ .stuck) (hk : ∀ a, r = .ok a → k a ≠ .stuck) :
    r.bind k ≠ .stuck := by
  cases r with
  | ok a => exact hk a rfl
  | abort a => intro h; cases h
  | stuck => exact absurd rfl h

theorem ofExcept_ne_stuck (x : Except A α) : Res.ofExcept x ≠ .stuck := by
  cases x <;> (intro h; cases h)

theorem atPos_bind {γ : Type} (q : Location) (r : Res A α) (k : α → Res A (γ × S)) :
    atPos q (r.bind k) = r.bind fun a => atPos q (k a) := by
  cases r <;> rfl

theorem bind_atPos {γ : Type} (q : Location) (r : Res A (α × S)) (k : α × Location × S → Res A γ) :
    (atPos q r).bind k = r.bind fun (v, s) => k (v, q, s) := by
  cases r <;> rfl

end

theorem opOf_kind {P : PoolView} {i : Instr Location} {o : Op} {k : Nat} (h : opOf P i = some (o, k)) :
    exprKind P i = .op o k := by
  unfold exprKind
  split
  · cases h
  · cases h
  · cases h
  · cases h
  · cases h
  · rw [h]

section
variable {V S A : Type} {mem : Location → Option (Instr Location)} {ρ : Nat → Location} {P : PoolView}
  {I : Interp V S A} {env : AsmEnv} {zero : Literal → Text}

/-- Code that begins with an operation runs its operands and performs the operation. -/
theorem Ev.op {p q : Location} {i : Instr Location} {o : Op} {k : Nat} {s : S} {recv : Option V}
    {r : Res A (List V × S)} (hm : mem p = some i) (ho : opOf P i = some (o, k))
    (h : Ev (fun m => vmOperands mem P I m k (p + i.size) s) (atPos q r)) :
    Ev (fun m => vmExpr mem P I m recv p s)
      (atPos q (r.bind fun (vs, s) => .ofExcept (I.prim o vs s))) := by
  refine Ev.step (g := fun m => Fuelled.bind (vmOperands mem P I m k (p + i.size) s) fun x =>
    some ((Res.ofExcept (I.prim o x.1 x.2.2)).bind fun y => .ok (y.1, x.2.1, y.2))) ?_ ?_
  · refine (Ev.bind h fun a _ => Ev.const _).congr ?_
    rw [bind_atPos, atPos_bind]
    cases r <;> rfl
  · intro m
    rw [vmExpr, hm]
    simp only [opOf_kind ho]

/-- An operation without operands. -/
theorem Ev.op0 {p : Location} {i : Instr Location} {o : Op} {s : S} {recv : Option V} (hm : mem p = some i)
    (ho : opOf P i = some (o, 0)) :
    Ev (fun m => vmExpr mem P I m recv p s) (atPos (p + i.size) (.ofExcept (I.prim o [] s))) := by
  have h : Ev (fun m => vmOperands mem P I m 0 (p + i.size) s) (atPos (p + i.size) (.ok ([], s))) :=
    Ev.now fun m => rfl
  exact (Ev.op hm ho h).congr rfl

theorem Ev.opAt {p q : Location} {i : Instr Nat} {o : Op} {k : Nat} {s : S} {recv : Option V}
    {r : Res A (List V × S)} (hm : mem p = some (i.mapLoc ρ)) (ho : opOf P (i.mapLoc ρ) = some (o, k))
    (h : Ev (fun m => vmOperands mem P I m k (p + i.size) s) (atPos q r)) :
    Ev (fun m => vmExpr mem P I m recv p s)
      (atPos q (r.bind fun (vs, s) => .ofExcept (I.prim o vs s))) :=
  Ev.op hm ho (by rw [size_mapLoc]; exact h)

theorem Ev.op0At {p : Location} {i : Instr Nat} {o : Op} {s : S} {recv : Option V} (hm : mem p = some (i.mapLoc ρ))
    (ho : opOf P (i.mapLoc ρ) = some (o, 0)) :
    Ev (fun m => vmExpr mem P I m recv p s) (atPos (p + i.size) (.ofExcept (I.prim o [] s))) := by
  rw [← size_mapLoc ρ]
  exact Ev.op0 hm ho

theorem constInstr_op (ha : PoolAgrees env P zero) {c : Constant} {i : Instr Nat} (h : env.constInstr c = .ok i) :
    opOf P (i.mapLoc ρ) = some (.const c, 0) := by
  unfold AsmEnv.constInstr at h
  split at h <;> first
    | (cases h; rfl)
    | (obtain ⟨a, ht, rfl⟩ := exceptMap_ok h
       exact congrArg (fun t => some (Op.const (.String _ t), 0)) (ha.text _ _ _ ht))

theorem elemInstr_op (ha : PoolAgrees env P zero) {e : TypedExpr} {i : Instr Nat} (h : env.elemInstr e = .ok i) :
    ∃ ty, env.typeOf e = .ok ty ∧ opOf P (i.mapLoc ρ) = some (.element ty, 2) ∧ i.isTarget = false := by
  unfold AsmEnv.elemInstr at h
  split at h
  · cases h
  · rename_i ht
    obtain ⟨a, h1, rfl⟩ := exceptMap_ok h
    exact ⟨_, ht, congrArg (fun t => some (Op.element t, 2)) (ha.ty _ _ h1), rfl⟩
  · rename_i ht
    obtain ⟨a, h1, rfl⟩ := exceptMap_ok h
    exact ⟨_, ht, congrArg (fun t => some (Op.element t, 2)) (ha.ty _ _ h1), rfl⟩
  · cases h

theorem argType_ok (ha : PoolAgrees env P zero) {args : List TypedExpr} {i : Idx} (h : env.argType args = .ok i) :
    firstType env args = some (P.ty i) := by
  cases args with
  | nil => cases h
  | cons a as =>
    simp only [AsmEnv.argType] at h
    split at h
    · cases h
    · rename_i t ht
      simp [firstType, ht, Except.toOption, ha.ty _ _ h]

theorem intrinsicInstr_op (ha : PoolAgrees env P zero) {op : IntrinsicOp} {args : List TypedExpr} {ret : TypeId}
    {i : Instr Nat} (h : env.intrinsicInstr op args ret = .ok i) :
    ∃ o, intrinsicMeaning op (firstType env args) ret = some o ∧
      opOf P (i.mapLoc ρ) = some (o, op.argCount) ∧ i.isTarget = false := by
  cases op <;> simp only [AsmEnv.intrinsicInstr] at h
  case ToString =>
    cases args with
    | nil => cases h
    | cons a as =>
      simp only at h
      split at h
      · cases h
      · rename_i ht
        cases h
        exact ⟨.intrinsic .ToString .Variant, by simp [intrinsicMeaning, firstType, ht, Except.toOption], rfl, rfl⟩
      · rename_i t _ ht
        obtain ⟨a, h1, rfl⟩ := exceptMap_ok h
        exact ⟨.intrinsic .ToString t, by simp [intrinsicMeaning, firstType, ht, Except.toOption],
          congrArg (fun t => some (Op.intrinsic .ToString t, 1)) (ha.ty _ _ h1), rfl⟩
  case IsDefined =>
    cases args with
    | nil => cases h
    | cons a as =>
      simp only at h
      split at h
      · cases h
      · rename_i ht
        cases h
        exact ⟨.isDefined .ref, by simp [intrinsicMeaning, firstType, ht, Except.toOption], rfl, rfl⟩
      · rename_i ht
        cases h
        exact ⟨.isDefined .ref, by simp [intrinsicMeaning, firstType, ht, Except.toOption], rfl, rfl⟩
      · rename_i ht
        cases h
        exact ⟨.isDefined .weakRef, by simp [intrinsicMeaning, firstType, ht, Except.toOption], rfl, rfl⟩
      · rename_i ht
        cases h
        exact ⟨.isDefined .variant, by simp [intrinsicMeaning, firstType, ht, Except.toOption], rfl, rfl⟩
      · cases h
  case IntEnum =>
    obtain ⟨a, h1, rfl⟩ := exceptMap_ok h
    exact ⟨_, rfl, congrArg (fun t => some (Op.intrinsic .IntEnum t, 1)) (ha.ty _ _ h1), rfl⟩
  case FromVariant =>
    obtain ⟨a, h1, rfl⟩ := exceptMap_ok h
    exact ⟨_, rfl, congrArg (fun t => some (Op.intrinsic .FromVariant t, 1)) (ha.ty _ _ h1), rfl⟩
  all_goals
    first
      | (obtain ⟨a, h1, rfl⟩ := exceptMap_ok h
         exact ⟨_, by rw [argType_ok ha h1]; rfl, rfl, rfl⟩)
      | (cases h; exact ⟨_, rfl, rfl, rfl⟩)

/-- What the code of an expression begins with. -/
theorem expr_first {x : Option Nat} {e : TypedExpr} {n n' : Nat} {code : List (Instr Nat)} (hv : e.isValue = true)
    (h : asm env x e n = .ok (code, n')) :
    ∃ i rest, code = i :: rest ∧ i.isTarget = false ∧ paramKind (i.mapLoc ρ) = .value ∧
      stmtKind (i.mapLoc ρ) = .expression := by
  cases e with
  | Ident r =>
    obtain ⟨rfl, ⟨l, _, rfl⟩ | ⟨l, _, rfl⟩⟩ := asm_ident h <;> exact ⟨_, _, rfl, rfl, rfl, rfl⟩
  | Constant c =>
    obtain ⟨i, hi, rfl, rfl⟩ := asm_constant h
    refine ⟨_, _, rfl, ?_⟩
    unfold AsmEnv.constInstr at hi
    split at hi <;> first | (cases hi; exact ⟨rfl, rfl, rfl⟩) | (obtain ⟨a, _, rfl⟩ := exceptMap_ok hi; exact ⟨rfl, rfl, rfl⟩)
  | Null => obtain ⟨rfl, rfl⟩ := asm_null h; exact ⟨_, _, rfl, rfl, rfl, rfl⟩
  | This => obtain ⟨rfl, rfl⟩ := asm_this h; exact ⟨_, _, rfl, rfl, rfl, rfl⟩
  | Super => obtain ⟨rfl, rfl⟩ := asm_super h; exact ⟨_, _, rfl, rfl, rfl, rfl⟩
  | Cast ty e => obtain ⟨c, d, _, h1, rfl⟩ := asm_cast h; exact ⟨_, _, rfl, rfl, rfl, rfl⟩
  | Assign a b => obtain ⟨c, d, _, h1, _, rfl⟩ := asm_assign h; exact ⟨_, _, rfl, rfl, rfl, rfl⟩
  | ArrayElem a b =>
    obtain ⟨instr, a, m, b, h0, h1, h2, rfl⟩ := asm_elem h
    refine ⟨_, _, rfl, ?_⟩
    unfold AsmEnv.elemInstr at h0
    split at h0
    · cases h0
    · obtain ⟨a, h1, rfl⟩ := exceptMap_ok h0; exact ⟨rfl, rfl, rfl⟩
    · obtain ⟨a, h1, rfl⟩ := exceptMap_ok h0; exact ⟨rfl, rfl, rfl⟩
    · cases h0
  | New ty args =>
    rcases asm_new h with ⟨c, _, rfl, rfl⟩ | ⟨c, d, _, h1, rfl⟩ <;> exact ⟨_, _, rfl, rfl, rfl, rfl⟩
  | Conditional c t e =>
    obtain ⟨cond, n1, true_, n2, false_, h1, h2, h3, rfl⟩ := asm_conditional h
    exact ⟨_, _, rfl, rfl, rfl, rfl⟩
  | Member e m =>
    rcases asm_member h with ⟨f, d, _, h1, rfl⟩ | ⟨f, d, _, h1, rfl⟩ | ⟨a, b, _, rfl, rfl⟩ <;>
      exact ⟨_, _, rfl, rfl, rfl, rfl⟩
  | Call c tys args =>
    cases c with
    | Function f =>
      obtain ⟨info, d, _, _, h1, rfl⟩ := asm_call_function h
      refine ⟨_, _, rfl, ?_⟩
      unfold AsmEnv.invokeInstr
      split <;> exact ⟨rfl, rfl, rfl⟩
    | Intrinsic op ty =>
      obtain ⟨instr, d, h0, h1, rfl⟩ := asm_call_intrinsic h
      refine ⟨_, _, rfl, ?_⟩
      cases op <;> simp only [AsmEnv.intrinsicInstr] at h0 <;>
        first
          | (obtain ⟨a, _, rfl⟩ := exceptMap_ok h0; exact ⟨rfl, rfl, rfl⟩)
          | (cases h0; exact ⟨rfl, rfl, rfl⟩)
          | (split at h0
             · cases h0
             · split at h0 <;>
                first
                  | (obtain ⟨a, _, rfl⟩ := exceptMap_ok h0; exact ⟨rfl, rfl, rfl⟩)
                  | (cases h0; exact ⟨rfl, rfl, rfl⟩)
                  | cases h0)
  | MethodCall ctx f args =>
    obtain ⟨info, _, _, ⟨_, _, d, h1, rfl⟩ | ⟨_, _, recv, n1, d, h1, h2, rfl⟩⟩ := asm_method h
    · refine ⟨_, _, rfl, ?_⟩
      unfold AsmEnv.invokeInstr
      split <;> exact ⟨rfl, rfl, rfl⟩
    · exact ⟨_, _, rfl, rfl, rfl, rfl⟩
  | _ => exact absurd (show false = true from hv) Bool.false_ne_true

theorem invokeInstr_kind (info : FnInfo) (b : Bool) (l : Nat) (f : Idx) (args : List TypedExpr) :
    exprKind P ((env.invokeInstr info b l f args).mapLoc ρ) = .invoke (ρ l) (calleeOf info b f) := by
  unfold AsmEnv.invokeInstr calleeOf
  cases b <;> cases flag FunctionFlags.isFinalBit info.flags <;> cases flag FunctionFlags.isStaticBit info.flags <;>
    cases flag FunctionFlags.isNativeBit info.flags <;> rfl

/-- Omitted parameters and the end of a call. -/
theorem vmParams_end {callee : Callee} {recv : Option V} {p q : Location} {s : S} (k : Nat) (acc : List (Option V))
    (h : CodeAt mem ρ p (List.replicate k .Nop ++ [.ParamEnd]) q) :
    Ev (fun m => vmParams mem P I m callee recv acc p s) (.ok (acc ++ List.replicate k none, q, s)) := by
  induction k generalizing p acc with
  | zero =>
    simp only [List.replicate_zero, List.nil_append] at h
    rw [CodeAt.cons rfl, CodeAt.nil] at h
    refine Ev.now fun m => ?_
    rw [vmParams, h.1]
    simp only [Instr.mapLoc, paramKind, List.replicate_zero, List.append_nil, ← h.2]
    rfl
  | succ k ih =>
    simp only [List.replicate_succ, List.cons_append] at h
    rw [CodeAt.cons rfl] at h
    have := ih (acc ++ [none]) h.2
    rw [List.append_assoc, List.singleton_append, ← List.replicate_succ] at this
    refine Ev.step this fun m => ?_
    rw [vmParams, h.1]
    rfl

/-- A call, given what its parameters evaluate to. -/
theorem vmExpr_call {info : FnInfo} {b : Bool} {l : Nat} {f : Idx} {args : List TypedExpr} {d : List (Instr Nat)}
    {recv : Option V} {p q : Location} {s : S} {r : Res A (List (Option V) × S)}
    (hc : CodeAt mem ρ p (callInstrs env info b l f args d) q)
    (h : ∀ p q, CodeAt mem ρ p (d ++ (List.replicate (info.params.length - args.length) .Nop ++ [.ParamEnd])) q →
      Ev (fun m => vmParams mem P I m (calleeOf info b f) recv [] p s) (atPos q r)) :
    Ev (fun m => vmExpr mem P I m recv p s)
      (atPos q (r.bind fun (vs, s) => .ofExcept (I.call (calleeOf info b f) recv vs s))) := by
  have hf := invokeInstr_facts env info b l f args
  unfold callInstrs at hc
  rw [CodeAt.cons hf.1] at hc
  obtain ⟨hm, hc⟩ := hc
  have hc' : CodeAt mem ρ (p + (env.invokeInstr info b l f args).size)
      ((d ++ (List.replicate (info.params.length - args.length) .Nop ++ [.ParamEnd])) ++ [.Target l]) q := by
    simpa using hc
  obtain ⟨q', h1, h2⟩ := CodeAt.append.1 hc'
  rw [CodeAt.target, CodeAt.nil] at h2
  obtain ⟨h2, rfl⟩ := h2
  have hp := h _ _ h1
  refine Ev.step (g := fun m => Fuelled.bind (vmParams mem P I m (calleeOf info b f) recv []
      (p + (env.invokeInstr info b l f args).size) s) fun x => if x.2.1 = ρ l then
        some ((Res.ofExcept (I.call (calleeOf info b f) recv x.1 x.2.2)).bind fun y => .ok (y.1, x.2.1, y.2))
      else some .stuck) ?_ ?_
  · refine (Ev.bind (g := fun x => if x.2.1 = ρ l then
        ((Res.ofExcept (I.call (calleeOf info b f) recv x.1 x.2.2)).bind fun y => .ok (y.1, x.2.1, y.2))
      else .stuck) hp fun a _ => ?_).congr ?_
    · by_cases ha : a.2.1 = ρ l
      · simp only [ha, if_true]; exact Ev.const _
      · simp only [ha, if_false]; exact Ev.const _
    · rw [bind_atPos, atPos_bind, h2]
      cases r with
      | ok a => simp only [Res.bind, if_true, atPos]
      | abort a => rfl
      | stuck => rfl
  · intro m
    rw [vmExpr, hm]
    simp only [invokeInstr_kind, size_mapLoc]

theorem bind_one (r : Res A (V × S)) (o : Op) :
    (r.bind fun (v, s) => Res.ok ([v], s)).bind (fun (vs, s) => Res.ofExcept (I.prim o vs s)) =
      r.bind fun (v, s) => .ofExcept (I.prim o [v] s) := by
  cases r <;> rfl

theorem bind_two (r : Res A (V × S)) (k : S → Res A (V × S)) (o : Op) :
    (r.bind fun (v, s) => (k s).bind fun (w, s) => Res.ok ([v, w], s)).bind
        (fun (vs, s) => Res.ofExcept (I.prim o vs s)) =
      r.bind fun (v, s) => (k s).bind fun (w, s) => .ofExcept (I.prim o [v, w] s) := by
  cases r with
  | ok a => simp only [Res.bind]; cases k a.2 <;> rfl
  | abort a => rfl
  | stuck => rfl

theorem Ev.operandsCons {k : Nat} {p r q : Location} {s : S} {e : Res A (V × S)} {es : S → Res A (List V × S)}
    (h1 : Ev (fun m => vmExpr mem P I m none p s) (atPos r e))
    (h2 : ∀ s, Ev (fun m => vmOperands mem P I m k r s) (atPos q (es s))) :
    Ev (fun m => vmOperands mem P I m (k + 1) p s)
      (atPos q (e.bind fun (v, s) => (es s).bind fun (vs, s) => .ok (v :: vs, s))) := by
  refine Ev.step (g := fun m => Fuelled.bind (vmExpr mem P I m none p s) fun x =>
    Fuelled.bind (vmOperands mem P I m k x.2.1 x.2.2) fun y => some (.ok (x.1 :: y.1, y.2.1, y.2.2))) ?_ fun m => rfl
  refine (Ev.bind (g := fun x => (atPos q (es x.2.2)).bind fun y => .ok (x.1 :: y.1, y.2.1, y.2.2)) h1 fun a ha => ?_).congr ?_
  · have hpos : a.2.1 = r := by
      cases e with
      | ok y => cases ha; rfl
      | abort _ => cases ha
      | stuck => cases ha
    rw [hpos]
    exact Ev.bind (h2 a.2.2) fun b _ => Ev.const _
  · rw [bind_atPos, atPos_bind]
    cases e with
    | ok a => simp only [Res.bind]; cases es a.2 <;> rfl
    | abort a => rfl
    | stuck => rfl

theorem Ev.operands0 {p : Location} {s : S} : Ev (fun m => vmOperands mem P I m 0 p s) (atPos p (.ok ([], s))) :=
  Ev.now fun _ => rfl

theorem Ev.operands1 {p q : Location} {s : S} {e : Res A (V × S)}
    (h1 : Ev (fun m => vmExpr mem P I m none p s) (atPos q e)) :
    Ev (fun m => vmOperands mem P I m 1 p s) (atPos q (e.bind fun (v, s) => .ok ([v], s))) :=
  Ev.operandsCons (es := fun s => .ok ([], s)) h1 fun _ => Ev.operands0

theorem Ev.operands2 {p r q : Location} {s : S} {e : Res A (V × S)} {e' : S → Res A (V × S)}
    (h1 : Ev (fun m => vmExpr mem P I m none p s) (atPos r e))
    (h2 : ∀ s, Ev (fun m => vmExpr mem P I m none r s) (atPos q (e' s))) :
    Ev (fun m => vmOperands mem P I m 2 p s)
      (atPos q (e.bind fun (v, s) => (e' s).bind fun (w, s) => .ok ([v, w], s))) := by
  refine (Ev.operandsCons (k := 1) h1 fun s => Ev.operands1 (h2 s)).congr ?_
  cases e with
  | ok a => simp only [Res.bind]; cases e' a.2 <;> rfl
  | abort a => rfl
  | stuck => rfl

/-- A member access: the object, then the member unless the object is null. -/
theorem Ev.context {x : Nat} {p r q : Location} {s : S} {e : Res A (V × S)} {k : V → S → Res A (V × S)}
    (hm : mem p = some ((Instr.Context x).mapLoc ρ)) (hx : ρ x = q)
    (h1 : Ev (fun m => vmExpr mem P I m none (p + (Instr.Context x : Instr Nat).size) s) (atPos r e))
    (h2 : ∀ v s, Ev (fun m => vmExpr mem P I m (some v) r s) (atPos q (k v s))) :
    Ev (fun m => vmExpr mem P I m none p s)
      (atPos q (e.bind fun (v, s) => if I.isNull v s then .ok (I.onNull s) else k v s)) := by
  refine Ev.step (g := fun m => Fuelled.bind (vmExpr mem P I m none (p + (Instr.Context x : Instr Nat).size) s) fun y =>
    if I.isNull y.1 y.2.2 then some (.ok ((I.onNull y.2.2).1, ρ x, (I.onNull y.2.2).2))
          else vmExpr mem P I m (some y.1) y.2.1 y.2.2) ?_ ?_
  · refine (Ev.bind (g := fun y => atPos q (if I.isNull y.1 y.2.2 then .ok (I.onNull y.2.2) else k y.1 y.2.2)) h1
      fun a ha => ?_).congr ?_
    · have hpos : a.2.1 = r := by
        cases e with
        | ok y => cases ha; rfl
        | abort _ => cases ha
        | stuck => cases ha
      rw [hpos]
      by_cases hn : I.isNull a.1 a.2.2 = true
      · simp only [hn, if_true, hx]; exact Ev.const _
      · simp only [hn]; exact h2 _ _
    · rw [bind_atPos, atPos_bind]
  · intro m
    rw [vmExpr, hm]
    rfl

theorem Ev.param {callee : Callee} {recv : Option V} {acc : List (Option V)} {p p' r q : Location} {s : S}
    {e : Res A (V × S)} {k : V → S → Res A (List (Option V) × S)}
    (h1 : Ev (fun m => vmExpr mem P I m none p' s) (atPos r e))
    (h2 : ∀ v s, Ev (fun m => vmParams mem P I m callee recv (acc ++ [some v]) r s) (atPos q (k v s)))
    (hs : ∀ m, vmParams mem P I (m + 1) callee recv acc p s = Fuelled.bind (vmExpr mem P I m none p' s) fun y =>
      vmParams mem P I m callee recv (acc ++ [some y.1]) y.2.1 y.2.2) :
    Ev (fun m => vmParams mem P I m callee recv acc p s) (atPos q (e.bind fun (v, s) => k v s)) := by
  refine Ev.step (g := fun m => Fuelled.bind (vmExpr mem P I m none p' s) fun y =>
      vmParams mem P I m callee recv (acc ++ [some y.1]) y.2.1 y.2.2) ?_ hs
  refine (Ev.bind (g := fun y => atPos q (k y.1 y.2.2)) h1 fun a ha => ?_).congr ?_
  · have hpos : a.2.1 = r := by
      cases e with
      | ok y => cases ha; rfl
      | abort _ => cases ha
      | stuck => cases ha
    rw [hpos]
    exact h2 _ _
  · rw [bind_atPos, atPos_bind]

/-- The inner part of the code of a call. -/
theorem call_inner {info : FnInfo} {b : Bool} {l : Nat} {f : Idx} {args : List TypedExpr} {d : List (Instr Nat)}
    {p q : Location} (hc : CodeAt mem ρ p (callInstrs env info b l f args d) q) :
    ∃ q', CodeAt mem ρ (p + (env.invokeInstr info b l f args).size)
      (d ++ (List.replicate (info.params.length - args.length) .Nop ++ [.ParamEnd])) q' := by
  unfold callInstrs at hc
  rw [CodeAt.cons (invokeInstr_facts env info b l f args).1] at hc
  have hc' : CodeAt mem ρ (p + (env.invokeInstr info b l f args).size)
      ((d ++ (List.replicate (info.params.length - args.length) .Nop ++ [.ParamEnd])) ++ [.Target l]) q := by
    simpa using hc.2
  obtain ⟨q', h1, _⟩ := CodeAt.append.1 hc'
  exact ⟨q', h1⟩

set_option maxHeartbeats 2000000 in
mutual
/-- Assembled expressions evaluate to the value of the expression, at the end of their code. -/
theorem vmExpr_asm (ha : PoolAgrees env P zero) : ∀ (e : TypedExpr) (x : Option Nat) (n n' : Nat)
    (code : List (Instr Nat)), e.isValue = true → asm env x e n = .ok (code, n') →
    ∀ (p q : Location), CodeAt mem ρ p code q → ∀ s : S,
      Ev (fun m => vmExpr mem P I m none p s) (atPos q (evalE env I e s)) ∧ evalE env I e s ≠ .stuck
  | .Ident r, x, n, n', code, hv, h, p, q, hc, s => by
    obtain ⟨_, ⟨l, rfl, rfl⟩ | ⟨l, rfl, rfl⟩⟩ := asm_ident h <;> rw [CodeAt.cons rfl, CodeAt.nil] at hc <;>
      obtain ⟨hm, rfl⟩ := hc <;> simp only [evalE]
    · exact ⟨Ev.op0At (o := .getLocal l) hm rfl, ofExcept_ne_stuck _⟩
    · exact ⟨Ev.op0At (o := .getParam l) hm rfl, ofExcept_ne_stuck _⟩
  | .Constant c, x, n, n', code, hv, h, p, q, hc, s => by
    obtain ⟨i, hi, _, rfl⟩ := asm_constant h
    obtain ⟨i, rest, he, ht, _⟩ := expr_first (ρ := ρ) hv h
    simp only [List.cons.injEq] at he
    obtain ⟨rfl, rfl⟩ := he
    rw [CodeAt.cons ht, CodeAt.nil] at hc
    obtain ⟨hm, rfl⟩ := hc
    simp only [evalE]
    exact ⟨Ev.op0At hm (constInstr_op ha hi), ofExcept_ne_stuck _⟩
  | .Null, x, n, n', code, hv, h, p, q, hc, s => by
    obtain ⟨_, rfl⟩ := asm_null h
    rw [CodeAt.cons rfl, CodeAt.nil] at hc
    obtain ⟨hm, rfl⟩ := hc
    simp only [evalE]
    exact ⟨Ev.op0At (o := .null) hm rfl, ofExcept_ne_stuck _⟩
  | .This, x, n, n', code, hv, h, p, q, hc, s => by
    obtain ⟨_, rfl⟩ := asm_this h
    rw [CodeAt.cons rfl, CodeAt.nil] at hc
    obtain ⟨hm, rfl⟩ := hc
    simp only [evalE]
    exact ⟨Ev.op0At (o := .this) hm rfl, ofExcept_ne_stuck _⟩
  | .Super, x, n, n', code, hv, h, p, q, hc, s => by
    obtain ⟨_, rfl⟩ := asm_super h
    rw [CodeAt.cons rfl, CodeAt.nil] at hc
    obtain ⟨hm, rfl⟩ := hc
    simp only [evalE]
    exact ⟨Ev.op0At (o := .this) hm rfl, ofExcept_ne_stuck _⟩
  | .Cast ty e, x, n, n', code, hv, h, p, q, hc, s => by
    obtain ⟨c, d, rfl, h1, rfl⟩ := asm_cast h
    rw [CodeAt.cons rfl] at hc
    simp only [Expr.isValue] at hv
    obtain ⟨k1, k2⟩ := vmExpr_asm ha e none n n' d hv h1 _ _ hc.2 s
    simp only [evalE]
    refine ⟨?_, bind_ne_stuck k2 fun _ _ => ofExcept_ne_stuck _⟩
    exact (Ev.opAt (o := .cast c) (k := 1) hc.1 rfl (Ev.operands1 k1)).congr (by rw [bind_one])
  | .Assign a b, x, n, n', code, hv, h, p, q, hc, s => by
    obtain ⟨c, m, d, h1, h2, rfl⟩ := asm_assign h
    rw [CodeAt.cons rfl] at hc
    obtain ⟨r, hc1, hc2⟩ := CodeAt.append.1 hc.2
    simp only [Expr.isValue, Bool.and_eq_true] at hv
    have k1 := vmExpr_asm ha a none n m c hv.1 h1 _ _ hc1
    have k2 := vmExpr_asm ha b none m n' d hv.2 h2 _ _ hc2
    simp only [evalE]
    refine ⟨?_, bind_ne_stuck (k1 s).2 fun y _ => bind_ne_stuck (k2 y.2).2 fun _ _ => ofExcept_ne_stuck _⟩
    exact (Ev.opAt (o := .assign) (k := 2) hc.1 rfl (Ev.operands2 (k1 s).1 fun s => (k2 s).1)).congr (by rw [bind_two])
  | .ArrayElem a b, x, n, n', code, hv, h, p, q, hc, s => by
    obtain ⟨instr, c, m, d, h0, h1, h2, rfl⟩ := asm_elem h
    obtain ⟨ty, hty, hop, ht⟩ := elemInstr_op (ρ := ρ) ha h0
    rw [CodeAt.cons ht] at hc
    obtain ⟨r, hc1, hc2⟩ := CodeAt.append.1 hc.2
    simp only [Expr.isValue, Bool.and_eq_true] at hv
    have k1 := vmExpr_asm ha a none n m c hv.1 h1 _ _ hc1
    have k2 := vmExpr_asm ha b none m n' d hv.2 h2 _ _ hc2
    simp only [evalE, hty]
    refine ⟨?_, bind_ne_stuck (k1 s).2 fun y _ => bind_ne_stuck (k2 y.2).2 fun _ _ => ofExcept_ne_stuck _⟩
    exact (Ev.opAt hc.1 hop (Ev.operands2 (k1 s).1 fun s => (k2 s).1)).congr (by rw [bind_two])
  | .New ty args, x, n, n', code, hv, h, p, q, hc, s => by
    rcases asm_new h with ⟨c, rfl, rfl, rfl⟩ | ⟨c, d, rfl, h1, rfl⟩
    · rw [CodeAt.cons rfl, CodeAt.nil] at hc
      obtain ⟨hm, rfl⟩ := hc
      simp only [Expr.isValue] at hv
      simp only [evalE, hv, if_true]
      exact ⟨Ev.op0At (o := .newObject c) hm rfl, ofExcept_ne_stuck _⟩
    · rw [CodeAt.cons rfl] at hc
      simp only [Expr.isValue, Bool.and_eq_true, decide_eq_true_eq] at hv
      obtain ⟨k1, k2⟩ := vmOperands_asm ha args none n n' d hv.2 h1 _ _ hc.2 s
      simp only [evalE]
      refine ⟨Ev.opAt (o := .construct c) (k := args.length) hc.1 ?_ k1, bind_ne_stuck k2 fun _ _ => ofExcept_ne_stuck _⟩
      show some (Op.construct c, (BitVec.ofNat 8 args.length).toNat) = _
      rw [BitVec.toNat_ofNat, Nat.mod_eq_of_lt (by omega)]
  | .Conditional c t e, x, n, n', code, hv, h, p, q, hc, s => by
    obtain ⟨cond, n1, true_, n2, false_, h1, h2, h3, rfl⟩ := asm_conditional h
    rw [CodeAt.cons rfl] at hc
    obtain ⟨hm, hc⟩ := hc
    obtain ⟨r1, hc1, hc⟩ := CodeAt.append.1 hc
    obtain ⟨r2, hc2, hc⟩ := CodeAt.append.1 hc
    rw [CodeAt.target] at hc
    obtain ⟨hr2, hc⟩ := hc
    obtain ⟨r3, hc3, hc⟩ := CodeAt.append.1 hc
    rw [CodeAt.target, CodeAt.nil] at hc
    obtain ⟨hr3, rfl⟩ := hc
    simp only [Expr.isValue, Bool.and_eq_true] at hv
    obtain ⟨k1, k1'⟩ := vmExpr_asm ha c none _ _ cond hv.1.1 h1 _ _ hc1 s
    have k2 := vmExpr_asm ha t none _ _ true_ hv.1.2 h2 _ _ hc2
    have k3 := vmExpr_asm ha e none _ _ false_ hv.2 h3 _ _ hc3
    simp only [evalE]
    refine ⟨?_, bind_ne_stuck k1' fun y _ => ?_⟩
    · refine Ev.step (g := fun m => Fuelled.bind (vmExpr mem P I m none
        (p + (Instr.Conditional n (n + 1) : Instr Nat).size) s) fun x =>
          Fuelled.bind (vmExpr mem P I m none (if I.truth x.1 x.2.2 then x.2.1 else ρ n) x.2.2) fun y =>
            some (.ok (y.1, ρ (n + 1), y.2.2))) ?_ ?_
      · refine (Ev.bind (g := fun x => atPos (ρ (n + 1)) (if I.truth x.1 x.2.2 then evalE env I t x.2.2 else evalE env I e x.2.2))
          k1 fun a haa => ?_).congr ?_
        · -- both branches end at the exit
          have hpos : a.2.1 = r1 := by
            cases hev : evalE env I c s with
            | ok y => rw [hev] at haa; cases haa; rfl
            | abort _ => rw [hev] at haa; cases haa
            | stuck => rw [hev] at haa; cases haa
          rw [hpos]
          by_cases htr : I.truth a.1 a.2.2 = true
          · simp only [htr, if_true]
            refine (Ev.bind (g := fun y => .ok (y.1, ρ (n + 1), y.2.2)) (k2 a.2.2).1 fun b _ => Ev.const _).congr ?_
            rw [bind_atPos]; rfl
          · simp only [htr, hr2]
            refine (Ev.bind (g := fun y => .ok (y.1, ρ (n + 1), y.2.2)) (k3 a.2.2).1 fun b _ => Ev.const _).congr ?_
            rw [bind_atPos]; rfl
        · rw [bind_atPos, atPos_bind, hr3]
      · intro m
        rw [vmExpr, hm]
        rfl
    · show (if I.truth y.1 y.2 = true then evalE env I t y.2 else evalE env I e y.2) ≠ .stuck
      split
      · exact (k2 _).2
      · exact (k3 _).2
  | .Member e m, x, n, n', code, hv, h, p, q, hc, s => by
    rcases asm_member h with ⟨f, d, rfl, h1, rfl⟩ | ⟨f, d, rfl, h1, rfl⟩ | ⟨a, b, rfl, rfl, rfl⟩
    · rw [CodeAt.cons rfl] at hc
      obtain ⟨hm, hc⟩ := hc
      obtain ⟨r1, hc1, hc⟩ := CodeAt.append.1 hc
      rw [CodeAt.cons rfl, CodeAt.target, CodeAt.nil] at hc
      obtain ⟨hmf, hr, rfl⟩ := hc
      simp only [Expr.isValue] at hv
      obtain ⟨k1, k1'⟩ := vmExpr_asm ha e none _ _ d hv h1 _ _ hc1 s
      simp only [evalE]
      refine ⟨?_, bind_ne_stuck k1' fun y _ => ?_⟩
      · refine (Ev.context (k := fun v s => .ofExcept (I.prim (.objectField f) [v] s)) hm hr k1 ?_)
        intro v s
        refine Ev.now fun m => ?_
        rw [vmExpr, hmf]
        rfl
      · show (if I.isNull y.1 y.2 = true then Res.ok (I.onNull y.2) else Res.ofExcept _) ≠ .stuck
        split
        · intro h; cases h
        · exact ofExcept_ne_stuck _
    · rw [CodeAt.cons rfl] at hc
      simp only [Expr.isValue] at hv
      obtain ⟨k1, k2⟩ := vmExpr_asm ha e none n n' d hv h1 _ _ hc.2 s
      simp only [evalE]
      refine ⟨?_, bind_ne_stuck k2 fun _ _ => ofExcept_ne_stuck _⟩
      exact (Ev.opAt (o := .structField f) (k := 1) hc.1 rfl (Ev.operands1 k1)).congr (by rw [bind_one])
    · rw [CodeAt.cons rfl, CodeAt.nil] at hc
      obtain ⟨hm, rfl⟩ := hc
      simp only [evalE]
      exact ⟨Ev.op0At (o := .enumMember a b) hm rfl, ofExcept_ne_stuck _⟩
  | .Call (Callable.Function f) tys args, x, n, n', code, hv, h, p, q, hc, s => by
    obtain ⟨info, d, hi, hl, h1, rfl⟩ := asm_call_function h
    simp only [Expr.isValue] at hv
    simp only [evalE, hi]
    have k := fun p q hc => vmParams_asm (recv := none) (callee := calleeOf info false f) ha args info.params _ _ d hv hl h1 p q hc [] s
    refine ⟨vmExpr_call hc fun p q hc => (k p q hc).1, bind_ne_stuck ?_ fun _ _ => ofExcept_ne_stuck _⟩
    obtain ⟨q', hq⟩ := call_inner hc
    exact (k _ _ hq).2
  | .Call (Callable.Intrinsic op ty) tys args, x, n, n', code, hv, h, p, q, hc, s => by
    obtain ⟨instr, d, h0, h1, rfl⟩ := asm_call_intrinsic h
    obtain ⟨o, hmean, hop, ht⟩ := intrinsicInstr_op (ρ := ρ) ha h0
    rw [CodeAt.cons ht] at hc
    simp only [Expr.isValue, Bool.and_eq_true, decide_eq_true_eq] at hv
    obtain ⟨k1, k2⟩ := vmOperands_asm ha args none n n' d hv.2 h1 _ _ hc.2 s
    simp only [evalE, hmean]
    rw [← hv.1] at hop
    exact ⟨Ev.opAt hc.1 hop k1, bind_ne_stuck k2 fun _ _ => ofExcept_ne_stuck _⟩
  | .MethodCall ctx f args, x, n, n', code, hv, h, p, q, hc, s => by
    simp only [Expr.isValue, Bool.and_eq_true] at hv
    obtain ⟨info, hi, hl, ⟨htn, hst, d, h1, rfl⟩ | ⟨htn, hst, recv, n1, d, h1, h2, rfl⟩⟩ := asm_method h
    · simp only [evalE, hi, htn, if_true]
      have hcal : calleeOf info true f = .fixed f := by simp [calleeOf]
      have k := fun p q hc => vmParams_asm (recv := none) (callee := calleeOf info true f) ha args info.params _ _ d hv.2 hl h1 p q hc [] s
      have k' := vmExpr_call hc fun p q hc => (k p q hc).1
      rw [hcal] at k' k
      refine ⟨k', bind_ne_stuck ?_ fun _ _ => ofExcept_ne_stuck _⟩
      obtain ⟨q', hq⟩ := call_inner hc
      exact (k _ _ hq).2
    · simp only [evalE, hi, htn, Bool.false_eq_true, if_false]
      rw [CodeAt.cons rfl] at hc
      obtain ⟨hm, hc⟩ := hc
      obtain ⟨r1, hc1, hc⟩ := CodeAt.append.1 hc
      obtain ⟨r2, hc2, hc⟩ := CodeAt.append.1 hc
      rw [CodeAt.target, CodeAt.nil] at hc
      obtain ⟨hr, rfl⟩ := hc
      obtain ⟨k1, k1'⟩ := vmExpr_asm ha ctx none _ _ recv hv.1 h1 _ _ hc1 s
      have k := fun v p q hc s => vmParams_asm (recv := some v) (callee := calleeOf info ctx.isSuper f) ha args info.params _ _ d hv.2 hl h2 p q hc [] s
      refine ⟨?_, bind_ne_stuck k1' fun y _ => ?_⟩
      · refine (Ev.context (k := fun v s => (evalArgs env I (calleeOf info ctx.isSuper f) (some v) args info.params [] s).bind
              fun (vs, s) => .ofExcept (I.call (calleeOf info ctx.isSuper f) (some v) vs s)) hm hr k1 ?_)
        intro v s
        exact vmExpr_call hc2 fun p q hc => (k v p q hc s).1
      · show (if I.isNull y.1 y.2 = true then Res.ok (I.onNull y.2) else _) ≠ .stuck
        split
        · intro h; cases h
        · refine bind_ne_stuck ?_ fun _ _ => ofExcept_ne_stuck _
          obtain ⟨q', hq⟩ := call_inner hc2
          exact (k y.1 _ _ hq y.2).2
  | .ArrayLit _ _, _, _, _, _, _, h, _, _, _, _ => by simp [asm] at h
  | .InterpolatedString _ _, _, _, _, _, _, h, _, _, _, _ => by simp [asm] at h
  | .ForIn _ _ _, _, _, _, _, _, h, _, _, _, _ => by simp [asm] at h
  | .BinOp _ _ _, _, _, _, _, _, h, _, _, _, _ => by simp [asm] at h
  | .UnOp _ _, _, _, _, _, _, h, _, _, _, _ => by simp [asm] at h
  | .Goto _, _, _, _, _, _, h, _, _, _, _ => by simp [asm] at h
  | .Declare _ _ _, _, _, _, _, hv, _, _, _, _, _ => absurd (show false = true from hv) Bool.false_ne_true
  | .Return _, _, _, _, _, hv, _, _, _, _, _ => absurd (show false = true from hv) Bool.false_ne_true
  | .Seq _, _, _, _, _, hv, _, _, _, _, _ => absurd (show false = true from hv) Bool.false_ne_true
  | .Switch _ _ _, _, _, _, _, hv, _, _, _, _, _ => absurd (show false = true from hv) Bool.false_ne_true
  | .If _ _ _, _, _, _, _, hv, _, _, _, _, _ => absurd (show false = true from hv) Bool.false_ne_true
  | .While _ _, _, _, _, _, hv, _, _, _, _, _ => absurd (show false = true from hv) Bool.false_ne_true
  | .Break, _, _, _, _, hv, _, _, _, _, _ => absurd (show false = true from hv) Bool.false_ne_true
  termination_by e => sizeOf e
theorem vmOperands_asm (ha : PoolAgrees env P zero) : ∀ (es : List TypedExpr) (x : Option Nat) (n n' : Nat)
    (code : List (Instr Nat)), Expr.areValues es = true → asmSeq env x es n = .ok (code, n') →
    ∀ (p q : Location), CodeAt mem ρ p code q → ∀ s : S,
      Ev (fun m => vmOperands mem P I m es.length p s) (atPos q (evalList env I es s)) ∧ evalList env I es s ≠ .stuck
  | [], x, n, n', code, hv, h, p, q, hc, s => by
    obtain ⟨_, rfl⟩ := asmSeq_nil h
    rw [CodeAt.nil] at hc
    subst hc
    simp only [evalList]
    exact ⟨Ev.now fun m => rfl, by intro h; cases h⟩
  | e :: es, x, n, n', code, hv, h, p, q, hc, s => by
    obtain ⟨a, m, b, h1, h2, rfl⟩ := asmSeq_cons h
    obtain ⟨r, hc1, hc2⟩ := CodeAt.append.1 hc
    simp only [Expr.areValues, Bool.and_eq_true] at hv
    obtain ⟨k1, k1'⟩ := vmExpr_asm ha e x n m a hv.1 h1 _ _ hc1 s
    have k2 := vmOperands_asm ha es x m n' b hv.2 h2 _ _ hc2
    simp only [evalList]
    refine ⟨?_, bind_ne_stuck k1' fun y _ => bind_ne_stuck (k2 y.2).2 fun _ _ h => by cases h⟩
    exact Ev.operandsCons k1 fun s => (k2 s).1
  termination_by es => sizeOf es
theorem vmParams_asm (ha : PoolAgrees env P zero) {callee : Callee} {recv : Option V} :
    ∀ (args : List TypedExpr) (ps : List ParameterFlags) (n n' : Nat)
    (code : List (Instr Nat)), Expr.areValues args = true → args.length ≤ ps.length →
    asmArgs env args ps n = .ok (code, n') →
    ∀ (p q : Location), CodeAt mem ρ p (code ++ (List.replicate (ps.length - args.length) .Nop ++ [.ParamEnd])) q →
    ∀ (acc : List (Option V)) (s : S),
      Ev (fun m => vmParams mem P I m callee recv acc p s) (atPos q (evalArgs env I callee recv args ps acc s)) ∧
        evalArgs env I callee recv args ps acc s ≠ .stuck
  | [], ps, n, n', code, hv, hl, h, p, q, hc, acc, s => by
    obtain ⟨_, rfl⟩ := asmArgs_nil h
    simp only [evalArgs]
    exact ⟨vmParams_end ps.length acc hc, by intro h; cases h⟩
  | _ :: _, [], n, n', code, hv, hl, h, p, q, hc, acc, s => by simp at hl
  | a :: as, pf :: ps, n, n', code, hv, hl, h, p, q, hc, acc, s => by
    simp only [Expr.areValues, Bool.and_eq_true] at hv
    have hsub : (pf :: ps).length - (a :: as).length = ps.length - as.length := by simp
    rw [hsub] at hc
    simp only [List.length_cons, Nat.add_le_add_iff_right] at hl
    rcases asmArgs_cons h with ⟨hf, c, m, d, h1, h2, rfl⟩ | ⟨hf, c, m, d, h1, h2, rfl⟩
    · simp only [List.cons_append, List.append_assoc] at hc
      rw [CodeAt.cons rfl] at hc
      obtain ⟨hm, hc⟩ := hc
      obtain ⟨r, hc1, hc⟩ := CodeAt.append.1 hc
      rw [CodeAt.target] at hc
      obtain ⟨hr, hc⟩ := hc
      obtain ⟨k1, k1'⟩ := vmExpr_asm ha a none _ _ c hv.1 h1 _ _ hc1 s
      have k2 := vmParams_asm ha (callee := callee) (recv := recv) as ps _ _ d hv.2 hl h2 _ _ hc
      simp only [evalArgs, hf, Bool.true_and]
      by_cases hd : I.demand callee recv acc s = true
      · simp only [hd, Bool.not_true, Bool.false_eq_true, if_false]
        refine ⟨?_, bind_ne_stuck k1' fun y _ => (k2 _ _).2⟩
        exact Ev.param k1 (fun v s => (k2 _ s).1) fun m => by
          rw [vmParams, hm]
          simp only [Instr.mapLoc, paramKind, hd, if_true]
          rfl
      · simp only [hd, Bool.not_false, if_true]
        refine ⟨Ev.step (k2 _ s).1 fun m => ?_, (k2 _ s).2⟩
        rw [vmParams, hm]
        simp only [Instr.mapLoc, paramKind, hd, Bool.false_eq_true, if_false, hr]
    · simp only [List.append_assoc] at hc
      obtain ⟨r, hc1, hc⟩ := CodeAt.append.1 hc
      obtain ⟨k1, k1'⟩ := vmExpr_asm ha a none _ _ c hv.1 h1 _ _ hc1 s
      have k2 := vmParams_asm ha (callee := callee) (recv := recv) as ps _ _ d hv.2 hl h2 _ _ hc
      simp only [evalArgs, hf, Bool.false_and, Bool.false_eq_true, if_false]
      obtain ⟨i, rest, rfl, ht, hpk, _⟩ := expr_first (ρ := ρ) hv.1 h1
      rw [CodeAt.cons ht] at hc1
      refine ⟨?_, bind_ne_stuck k1' fun y _ => (k2 _ _).2⟩
      exact Ev.param k1 (fun v s => (k2 _ s).1) fun m => by
        rw [vmParams, hc1.1]
        simp only [hpk]
  termination_by args => sizeOf args
end

end

end Redscript
