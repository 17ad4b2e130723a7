import Verif.Assembler.Inversion
import Verif.Bytecode.LabelProps

/-!
# The labels the assembler places

Every label is placed at most once and every label used is known.
-/

namespace Redscript

/-- The labels placed in a piece of code. -/
def placed : List (Instr Nat) → List Nat
  | [] => []
  | .Target l :: is => l :: placed is
  | _ :: is => placed is

theorem placed_append (a b : List (Instr Nat)) : placed (a ++ b) = placed a ++ placed b := by
  induction a with
  | nil => rfl
  | cons i is ih => cases i <;> simp [placed, ih]

theorem placed_cons (i : Instr Nat) (is : List (Instr Nat)) (h : i.isTarget = false) :
    placed (i :: is) = placed is := by
  cases i <;> first | rfl | cases h

theorem mem_placed (code : List (Instr Nat)) (l : Nat) : l ∈ placed code ↔ .Target l ∈ code := by
  induction code with
  | nil => simp [placed]
  | cons i is ih => cases i <;> simp [placed, ih]

theorem placed_unique (code : List (Instr Nat)) (h : (placed code).Nodup) (m m' l : Nat)
    (h1 : code[m]? = some (.Target l)) (h2 : code[m']? = some (.Target l)) : m = m' := by
  induction code generalizing m m' with
  | nil => simp at h1
  | cons i is ih =>
    by_cases hi : i.isTarget = true
    · obtain ⟨k, rfl⟩ := (isTarget_iff i).1 hi
      simp only [placed, List.nodup_cons, mem_placed] at h
      cases m with
      | zero =>
        simp only [List.getElem?_cons_zero, Option.some.injEq, Instr.Target.injEq] at h1
        subst h1
        cases m' with
        | zero => rfl
        | succ m' => exact absurd (List.mem_iff_getElem?.2 ⟨m', by simpa using h2⟩) h.1
      | succ m =>
        cases m' with
        | zero =>
          simp only [List.getElem?_cons_zero, Option.some.injEq, Instr.Target.injEq] at h2
          subst h2
          exact absurd (List.mem_iff_getElem?.2 ⟨m, by simpa using h1⟩) h.1
        | succ m' => rw [ih h.2 m m' (by simpa using h1) (by simpa using h2)]
    · rw [placed_cons i is (by simpa using hi)] at h
      cases m with
      | zero =>
        simp only [List.getElem?_cons_zero, Option.some.injEq] at h1
        subst h1; exact absurd rfl hi
      | succ m =>
        cases m' with
        | zero =>
          simp only [List.getElem?_cons_zero, Option.some.injEq] at h2
          subst h2; exact absurd rfl hi
        | succ m' => rw [ih h m m' (by simpa using h1) (by simpa using h2)]

/-- The code places labels of a range, each at most once, and uses labels below the range's end or an
exit label. -/
structure LabelsOk (n n' : Nat) (x : Option Nat) (code : List (Instr Nat)) : Prop where
  le : n ≤ n'
  nodup : (placed code).Nodup
  range : ∀ l ∈ placed code, n ≤ l ∧ l < n'
  used : ∀ i ∈ code, ∀ l ∈ i.locs, l < n' ∨ x = some l

/-- The same for the cases of a switch, which also place labels from before. -/
structure CaseLabelsOk (n n' : Nat) (x : Nat) (pend : Option Nat) (next next' : Nat) (code : List (Instr Nat)) : Prop where
  le : n ≤ n'
  nodup : (placed code).Nodup
  range : ∀ l ∈ placed code, l = next ∨ pend = some l ∨ (n ≤ l ∧ l < n')
  last : next' ∉ placed code ∧ (next' = next ∨ (n ≤ next' ∧ next' < n'))
  used : ∀ i ∈ code, ∀ l ∈ i.locs, l < n' ∨ x = l

theorem LabelsOk.nil (n : Nat) (x : Option Nat) : LabelsOk n n x [] :=
  ⟨Nat.le_refl _, by simp [placed], by simp [placed], by simp⟩

theorem LabelsOk.append {n m k : Nat} {x : Option Nat} {a b : List (Instr Nat)} (ha : LabelsOk n m x a)
    (hb : LabelsOk m k x b) : LabelsOk n k x (a ++ b) := by
  have l1 := ha.le
  have l2 := hb.le
  refine ⟨by omega, ?_, ?_, ?_⟩
  · rw [placed_append, List.nodup_append]
    refine ⟨ha.nodup, hb.nodup, ?_⟩
    intro p hp q hq
    have := ha.range p hp; have := hb.range q hq; omega
  · intro l hl
    rw [placed_append, List.mem_append] at hl
    rcases hl with hl | hl
    · have := ha.range l hl; omega
    · have := hb.range l hl; omega
  · intro i hi l hl
    rw [List.mem_append] at hi
    rcases hi with hi | hi
    · rcases ha.used i hi l hl with h | h
      · exact .inl (by omega)
      · exact .inr h
    · exact hb.used i hi l hl

/-- An instruction without labels. -/
theorem LabelsOk.plain {n n' : Nat} {x : Option Nat} {i : Instr Nat} {is : List (Instr Nat)} (hi : i.locs = [])
    (h : LabelsOk n n' x is) : LabelsOk n n' x (i :: is) := by
  have ht : i.isTarget = false := by
    cases hb : i.isTarget with
    | false => rfl
    | true => obtain ⟨l, rfl⟩ := (isTarget_iff i).1 hb; cases hi
  refine ⟨h.le, by rw [placed_cons i is ht]; exact h.nodup, by rw [placed_cons i is ht]; exact h.range, ?_⟩
  intro j hj l hl
  rcases List.mem_cons.1 hj with rfl | hj
  · rw [hi] at hl; cases hl
  · exact h.used j hj l hl

theorem LabelsOk.exit {n n' : Nat} {x : Option Nat} {is : List (Instr Nat)} (h : LabelsOk n n' none is) :
    LabelsOk n n' x is :=
  ⟨h.le, h.nodup, h.range, fun i hi l hl => by
    rcases h.used i hi l hl with h | h
    · exact .inl h
    · cases h⟩

theorem LabelsOk.narrow {n n' m : Nat} {x : Option Nat} {is : List (Instr Nat)} (h : LabelsOk n n' (some m) is)
    (hm : m < n') : LabelsOk n n' x is :=
  ⟨h.le, h.nodup, h.range, fun i hi l hl => by
    rcases h.used i hi l hl with h | h
    · exact .inl h
    · cases h; exact .inl hm⟩

theorem LabelsOk.widen {n n' m : Nat} {x : Option Nat} {is : List (Instr Nat)} (h : LabelsOk n n' x is)
    (hm : m ≤ n) : LabelsOk m n' x is :=
  ⟨by have := h.le; omega, h.nodup, fun l hl => by have := h.range l hl; omega, h.used⟩

/-- Place the next label at the end. -/
theorem LabelsOk.place {n n' m : Nat} {x : Option Nat} {is : List (Instr Nat)} (h : LabelsOk n n' x is)
    (hm : m < n) : LabelsOk m n' x (is ++ [.Target m]) := by
  have l1 := h.le
  refine ⟨by omega, ?_, ?_, ?_⟩
  · rw [placed_append, List.nodup_append]
    refine ⟨h.nodup, by simp [placed], ?_⟩
    intro a ha b hb
    have := h.range a ha
    simp only [placed, List.mem_singleton] at hb
    omega
  · intro l hl
    rw [placed_append, List.mem_append] at hl
    rcases hl with hl | hl
    · have := h.range l hl; omega
    · simp only [placed, List.mem_singleton] at hl; omega
  · intro i hi l hl
    rw [List.mem_append] at hi
    rcases hi with hi | hi
    · exact h.used i hi l hl
    · simp only [List.mem_singleton] at hi
      subst hi
      simp only [Instr.locs, List.mem_singleton] at hl
      exact .inl (by omega)

/-- An instruction that uses labels below the end. -/
theorem LabelsOk.use {n n' : Nat} {x : Option Nat} {i : Instr Nat} {is : List (Instr Nat)}
    (ht : i.isTarget = false) (hu : ∀ l ∈ i.locs, l < n' ∨ x = some l) (h : LabelsOk n n' x is) :
    LabelsOk n n' x (i :: is) := by
  refine ⟨h.le, by rw [placed_cons i is ht]; exact h.nodup, by rw [placed_cons i is ht]; exact h.range, ?_⟩
  intro j hj l hl
  rcases List.mem_cons.1 hj with rfl | hj
  · exact hu l hl
  · exact h.used j hj l hl

theorem elemInstr_locs {env : AsmEnv} {e : TypedExpr} {i : Instr Nat} (h : env.elemInstr e = .ok i) : i.locs = [] := by
  unfold AsmEnv.elemInstr at h
  split at h
  · cases h
  · cases ht : env.typeIdx _ with
    | error e => rw [ht] at h; cases h
    | ok v => rw [ht] at h; cases h; rfl
  · cases ht : env.typeIdx _ with
    | error e => rw [ht] at h; cases h
    | ok v => rw [ht] at h; cases h; rfl
  · cases h

theorem exceptMap_ok {r : Except AsmErr α} {f : α → β} {b : β} (h : r.map f = .ok b) : ∃ a, r = .ok a ∧ b = f a := by
  cases r with
  | error e => cases h
  | ok a => cases h; exact ⟨a, rfl, rfl⟩

theorem constInstr_locs {env : AsmEnv} {c : Constant} {i : Instr Nat} (h : env.constInstr c = .ok i) : i.locs = [] := by
  unfold AsmEnv.constInstr at h
  split at h <;> first | (cases h; rfl) | (obtain ⟨a, _, rfl⟩ := exceptMap_ok h; rfl)

theorem intrinsicInstr_locs {env : AsmEnv} {op : IntrinsicOp} {args : List TypedExpr} {ty : TypeId} {i : Instr Nat}
    (h : env.intrinsicInstr op args ty = .ok i) : i.locs = [] := by
  cases op <;> simp only [AsmEnv.intrinsicInstr] at h <;>
    first
      | (obtain ⟨a, _, rfl⟩ := exceptMap_ok h; rfl)
      | (cases h; rfl)
      | (split at h
         · cases h
         · split at h <;> first | (obtain ⟨a, _, rfl⟩ := exceptMap_ok h; rfl) | (cases h; rfl) | cases h)

theorem ite_some {p : Prop} [Decidable p] {a c : α} {r : Option α} (h : (if p then some a else r) = some c) :
    c = a ∨ r = some c := by
  by_cases hp : p
  · rw [if_pos hp] at h; cases h; exact .inl rfl
  · rw [if_neg hp] at h; exact .inr h

theorem initializer_locs {env : AsmEnv} {l : Idx} {t : TypeId} {code : List (Instr Nat)}
    (h : env.initializer l t = .ok code) : ∀ i ∈ code, i.locs = [] := by
  have hp : ∀ name c, env.primInit name = some (.ok c) → c.locs = [] := by
    intro name c hc
    unfold AsmEnv.primInit at hc
    repeat (rcases ite_some hc with h | hc; · first | (cases h; rfl) | (obtain ⟨a, _, rfl⟩ := exceptMap_ok h.symm; rfl))
    cases hc
  have three : ∀ c : Instr Nat, c.locs = [] → ∀ i ∈ [Instr.Assign, .Local l, c], i.locs = [] := by
    intro c hc i hi
    simp only [List.mem_cons, List.not_mem_nil, or_false] at hi
    rcases hi with rfl | rfl | rfl
    · rfl
    · rfl
    · exact hc
  unfold AsmEnv.initializer at h
  split at h
  · split at h
    · cases h
    · split at h
      · cases h; rename_i hc; exact three _ (hp _ _ hc)
      · cases h
      · cases h; intro i hi; cases hi
  · cases h; exact three _ rfl
  · split at h
    · cases h
    · cases h; exact three _ rfl
    · cases h; intro i hi; cases hi
  · cases h; exact three _ rfl
  · cases h; exact three _ rfl
  · split at h
    · cases h
    · cases h
      intro i hi
      simp only [List.mem_cons, List.not_mem_nil, or_false] at hi
      rcases hi with rfl | rfl <;> rfl
  · cases h; intro i hi; cases hi

theorem LabelsOk.allPlain {n : Nat} {x : Option Nat} {code : List (Instr Nat)} (h : ∀ i ∈ code, i.locs = []) :
    LabelsOk n n x code := by
  induction code with
  | nil => exact .nil n x
  | cons i is ih =>
    exact .plain (h i (List.mem_cons_self ..)) (ih fun j hj => h j (List.mem_cons_of_mem _ hj))

theorem invokeInstr_facts (env : AsmEnv) (info : FnInfo) (b : Bool) (l : Nat) (f : Idx) (args : List TypedExpr) :
    (env.invokeInstr info b l f args).isTarget = false ∧ (env.invokeInstr info b l f args).locs = [l] := by
  unfold AsmEnv.invokeInstr
  split <;> exact ⟨rfl, rfl⟩

theorem callInstrs_labels {env : AsmEnv} {info : FnInfo} {b : Bool} {n n' : Nat} {f : Idx} {args : List TypedExpr}
    {d : List (Instr Nat)} (h : LabelsOk (n + 1) n' none d) :
    LabelsOk n n' none (callInstrs env info b n f args d) := by
  have l1 := h.le
  have h1 : LabelsOk (n + 1) n' none (d ++ (List.replicate (info.params.length - args.length) .Nop ++ [.ParamEnd])) := by
    refine h.append (.allPlain ?_)
    intro i hi
    simp only [List.mem_append, List.mem_replicate, List.mem_singleton] at hi
    rcases hi with ⟨_, rfl⟩ | rfl <;> rfl
  have h2 := h1.place (Nat.lt_succ_self n)
  obtain ⟨ht, hl⟩ := invokeInstr_facts env info b n f args
  have h3 := LabelsOk.use (i := env.invokeInstr info b n f args) ht (by
    intro l hm
    rw [hl, List.mem_singleton] at hm
    exact .inl (by omega)) h2
  simpa [callInstrs] using h3

mutual
theorem asm_labels (env : AsmEnv) (x : Option Nat) : ∀ (e : TypedExpr) (n n' : Nat) (code : List (Instr Nat)),
    asm env x e n = .ok (code, n') → LabelsOk n n' x code
  | .Ident r, n, n', code, h => by
    obtain ⟨rfl, ⟨l, _, rfl⟩ | ⟨l, _, rfl⟩⟩ := asm_ident h <;> exact .plain rfl (.nil _ _)
  | .Constant c, n, n', code, h => by
    obtain ⟨i, hi, rfl, rfl⟩ := asm_constant h
    exact .plain (constInstr_locs hi) (.nil _ _)
  | .Cast ty e, n, n', code, h => by
    obtain ⟨c, d, _, h1, rfl⟩ := asm_cast h
    exact .plain rfl (asm_labels env none e _ _ _ h1).exit
  | .Declare l ty none, n, n', code, h => by
    obtain ⟨t, _, rfl, h1⟩ := asm_declare_none h
    exact .allPlain (initializer_locs h1)
  | .Declare l ty (some v), n, n', code, h => by
    obtain ⟨d, h1, rfl⟩ := asm_declare_some h
    exact .plain rfl (.plain rfl (asm_labels env none v _ _ _ h1).exit)
  | .Assign lhs rhs, n, n', code, h => by
    obtain ⟨a, m, b, h1, h2, rfl⟩ := asm_assign h
    exact .plain rfl ((asm_labels env none lhs _ _ _ h1).append (asm_labels env none rhs _ _ _ h2)).exit
  | .ArrayElem e i, n, n', code, h => by
    obtain ⟨instr, a, m, b, h0, h1, h2, rfl⟩ := asm_elem h
    exact .plain (elemInstr_locs h0) ((asm_labels env none e _ _ _ h1).append (asm_labels env none i _ _ _ h2)).exit
  | .New ty args, n, n', code, h => by
    rcases asm_new h with ⟨c, _, rfl, rfl⟩ | ⟨c, d, _, h1, rfl⟩
    · exact .plain rfl (.nil _ _)
    · exact .plain rfl (asmSeq_labels env none args _ _ _ h1).exit
  | .Return none, n, n', code, h => by
    obtain ⟨rfl, rfl⟩ := asm_return_none h
    exact .plain rfl (.plain rfl (.nil _ _))
  | .Return (some e), n, n', code, h => by
    obtain ⟨d, h1, rfl⟩ := asm_return_some h
    exact .plain rfl (asm_labels env none e _ _ _ h1).exit
  | .Seq es, n, n', code, h => asmSeq_labels env x es _ _ _ (asm_seq h)
  | .Switch e cs d, n, n', code, h => by
    obtain ⟨ty, tyIdx, subject, n1, body, next, n2, tail, _, _, h1, h2, h3, rfl⟩ := asm_switch h
    have k1 := asm_labels env none e _ _ _ h1
    have k2 := asmCases_labels env (n + 2) cs none (n + 1) next n1 n2 body h2 (by have := k1.le; omega)
      (fun l hl => by cases hl)
    have k3 := asmBlockOpt_labels env (n + 2) d _ _ _ h3
    have l1 := k1.le; have l2 := k2.le; have l3 := k3.le
    have hp : placed (.Switch tyIdx n :: (subject ++ .Target n :: (body ++ .Target next :: (tail ++ [.Target (n + 2)])))) =
        placed subject ++ n :: (placed body ++ next :: (placed tail ++ [n + 2])) := by
      simp [placed, placed_append]
    have hnext := k2.last.2
    refine ⟨by omega, ?_, ?_, ?_⟩
    · rw [hp]
      simp only [List.nodup_append, List.nodup_cons, List.mem_append, List.mem_cons, List.not_mem_nil, or_false,
        not_or, not_false_eq_true, true_and, List.nodup_nil, and_true]
      refine ⟨k1.nodup, ⟨⟨?_, ?_, ?_, ?_⟩, k2.nodup, ⟨⟨?_, ?_⟩, k3.nodup, ?_⟩, ?_⟩, ?_⟩
      · intro hm; have := k2.range _ hm; rcases this with h | h | h
        · omega
        · cases h
        · omega
      · rcases hnext with h | h <;> omega
      · intro hm; have := k3.range _ hm; omega
      · omega
      · intro hm; have := k3.range _ hm; rcases hnext with h | h <;> omega
      · rcases hnext with h | h <;> omega
      · intro a ha b hb; have := k3.range _ ha; omega
      · intro a ha b hb
        have ra := k2.range _ ha
        rcases hb with rfl | hb | rfl
        · intro he; subst he; exact k2.last.1 ha
        · have := k3.range _ hb; rcases ra with h | h | h
          · omega
          · cases h
          · omega
        · rcases ra with h | h | h
          · omega
          · cases h
          · omega
      · intro a ha b hb
        have ra := k1.range _ ha
        rcases hb with rfl | hb | rfl | hb | rfl
        · omega
        · have := k2.range _ hb; rcases this with h | h | h
          · omega
          · cases h
          · omega
        · rcases hnext with h | h <;> omega
        · have := k3.range _ hb; omega
        · omega
    · intro l hl
      rw [hp] at hl
      simp only [List.mem_append, List.mem_cons, List.not_mem_nil, or_false] at hl
      rcases hl with hl | rfl | hl | rfl | hl | rfl
      · have := k1.range _ hl; omega
      · omega
      · have := k2.range _ hl; rcases this with h | h | h
        · omega
        · cases h
        · omega
      · rcases hnext with h | h <;> omega
      · have := k3.range _ hl; omega
      · omega
    · intro i hi l hl
      simp only [List.mem_append, List.mem_cons, List.not_mem_nil, or_false] at hi
      rcases hi with rfl | hi | rfl | hi | rfl | hi | rfl
      · simp only [Instr.locs, List.mem_singleton] at hl; exact .inl (by omega)
      · rcases k1.used i hi l hl with h | h
        · exact .inl (by omega)
        · cases h
      · simp only [Instr.locs, List.mem_singleton] at hl; exact .inl (by omega)
      · rcases k2.used i hi l hl with h | h <;> exact .inl (by omega)
      · simp only [Instr.locs, List.mem_singleton] at hl
        rcases hnext with h | h <;> exact .inl (by omega)
      · rcases k3.used i hi l hl with h | h
        · exact .inl (by omega)
        · cases h; exact .inl (by omega)
      · simp only [Instr.locs, List.mem_singleton] at hl; exact .inl (by omega)
  | .If c t none, n, n', code, h => by
    obtain ⟨cond, n1, then_, h1, h2, rfl⟩ := asm_if_none h
    have k1 : LabelsOk (n + 1) n1 x cond := (asm_labels env none c _ _ _ h1).exit
    have k2 := (k1.append (asmSeq_labels env x t _ _ _ h2)).place (Nat.lt_succ_self n)
    rw [List.append_assoc] at k2
    refine .use rfl ?_ k2
    intro l hl
    simp only [Instr.locs, List.mem_singleton] at hl
    have := k1.le; have := (asmSeq_labels env x t _ _ _ h2).le
    exact .inl (by omega)
  | .If c t (some e), n, n', code, h => by
    obtain ⟨cond, n1, then_, n2, else_, h1, h2, h3, rfl⟩ := asm_if_some h
    have k1 : LabelsOk (n + 1) n1 x cond := (asm_labels env none c _ _ _ h1).exit
    have k2 := asmSeq_labels env x t _ _ _ h2
    have k3 := asmSeq_labels env x e _ _ _ h3
    have l1 := k1.le; have l2 := k2.le; have l3 := k3.le
    have k12 := k1.append k2
    have hp : placed (.JumpIfFalse n :: (cond ++ (then_ ++ .Jump n2 :: .Target n :: (else_ ++ [.Target n2])))) =
        placed (cond ++ then_) ++ n :: (placed else_ ++ [n2]) := by
      simp [placed, placed_append]
    refine ⟨by omega, ?_, ?_, ?_⟩
    · rw [hp]
      simp only [List.nodup_append, List.nodup_cons, List.mem_append, List.mem_cons, List.not_mem_nil, or_false,
        not_or, not_false_eq_true, true_and, List.nodup_nil, and_true]
      refine ⟨k12.nodup, ⟨⟨?_, ?_⟩, k3.nodup, ?_⟩, ?_⟩
      · intro hm; have := k3.range _ hm; omega
      · omega
      · intro a ha b hb; have := k3.range _ ha; omega
      · intro a ha b hb
        have := k12.range _ ha
        rcases hb with rfl | hb | rfl
        · omega
        · have := k3.range _ hb; omega
        · omega
    · intro l hl
      rw [hp] at hl
      simp only [List.mem_append, List.mem_cons, List.not_mem_nil, or_false] at hl
      rcases hl with hl | rfl | hl | rfl
      · have := k12.range _ hl; omega
      · omega
      · have := k3.range _ hl; omega
      · omega
    · intro i hi l hl
      simp only [List.mem_append, List.mem_cons, List.not_mem_nil, or_false] at hi
      rcases hi with rfl | hi | hi | rfl | rfl | hi | rfl
      · simp only [Instr.locs, List.mem_singleton] at hl; exact .inl (by omega)
      · rcases k1.used i hi l hl with h | h
        · exact .inl (by omega)
        · exact .inr h
      · rcases k2.used i hi l hl with h | h
        · exact .inl (by omega)
        · exact .inr h
      · simp only [Instr.locs, List.mem_singleton] at hl; exact .inl (by omega)
      · simp only [Instr.locs, List.mem_singleton] at hl; exact .inl (by omega)
      · exact k3.used i hi l hl
      · simp only [Instr.locs, List.mem_singleton] at hl; exact .inl (by omega)
  | .Conditional c t e, n, n', code, h => by
    obtain ⟨cond, n1, true_, n2, false_, h1, h2, h3, rfl⟩ := asm_conditional h
    have k12 := (asm_labels env none c _ _ _ h1).append (asm_labels env none t _ _ _ h2)
    have k3 := asm_labels env none e _ _ _ h3
    have l12 := k12.le; have l3 := k3.le
    have hp : placed (.Conditional n (n + 1) :: (cond ++ (true_ ++ .Target n :: (false_ ++ [.Target (n + 1)])))) =
        placed (cond ++ true_) ++ n :: (placed false_ ++ [n + 1]) := by
      simp [placed, placed_append]
    refine ⟨by omega, ?_, ?_, ?_⟩
    · rw [hp]
      simp only [List.nodup_append, List.nodup_cons, List.mem_append, List.mem_cons, List.not_mem_nil, or_false,
        not_or, not_false_eq_true, true_and, List.nodup_nil, and_true]
      refine ⟨k12.nodup, ⟨⟨?_, ?_⟩, k3.nodup, ?_⟩, ?_⟩
      · intro hm; have := k3.range _ hm; omega
      · omega
      · intro a ha b hb; have := k3.range _ ha; omega
      · intro a ha b hb
        have := k12.range _ ha
        rcases hb with rfl | hb | rfl
        · omega
        · have := k3.range _ hb; omega
        · omega
    · intro l hl
      rw [hp] at hl
      simp only [List.mem_append, List.mem_cons, List.not_mem_nil, or_false] at hl
      rcases hl with hl | rfl | hl | rfl
      · have := k12.range _ hl; omega
      · omega
      · have := k3.range _ hl; omega
      · omega
    · intro i hi l hl
      simp only [List.mem_append, List.mem_cons, List.not_mem_nil, or_false] at hi
      rcases hi with rfl | hi | hi | rfl | hi | rfl
      · simp only [Instr.locs, List.mem_cons, List.not_mem_nil, or_false] at hl; exact .inl (by omega)
      · rcases k12.used i (by simp [hi]) l hl with h | h
        · exact .inl (by omega)
        · cases h
      · rcases k12.used i (by simp [hi]) l hl with h | h
        · exact .inl (by omega)
        · cases h
      · simp only [Instr.locs, List.mem_singleton] at hl; exact .inl (by omega)
      · rcases k3.used i hi l hl with h | h
        · exact .inl (by omega)
        · cases h
      · simp only [Instr.locs, List.mem_singleton] at hl; exact .inl (by omega)
  | .While c b, n, n', code, h => by
    obtain ⟨cond, n1, body, h1, h2, rfl⟩ := asm_while h
    have k1 : LabelsOk (n + 2) n1 (some n) cond := (asm_labels env none c _ _ _ h1).exit
    have k2 := asmSeq_labels env (some n) b _ _ _ h2
    have l1 := k1.le; have l2 := k2.le
    have k12 := k1.append k2
    have hp : placed (.Target (n + 1) :: .JumpIfFalse n :: (cond ++ (body ++ [.Jump (n + 1), .Target n]))) =
        (n + 1) :: (placed (cond ++ body) ++ [n]) := by
      simp [placed, placed_append]
    refine ⟨by omega, ?_, ?_, ?_⟩
    · rw [hp]
      simp only [List.nodup_append, List.nodup_cons, List.mem_append, List.mem_cons, List.not_mem_nil, or_false,
        not_or, not_false_eq_true, true_and, List.nodup_nil, and_true]
      refine ⟨⟨?_, ?_⟩, k12.nodup, ?_⟩
      · intro hm; have := k12.range _ hm; omega
      · omega
      · intro a ha b hb; have := k12.range _ ha; omega
    · intro l hl
      rw [hp] at hl
      simp only [List.mem_append, List.mem_cons, List.not_mem_nil, or_false] at hl
      rcases hl with rfl | hl | rfl
      · omega
      · have := k12.range _ hl; omega
      · omega
    · intro i hi l hl
      simp only [List.mem_append, List.mem_cons, List.not_mem_nil, or_false] at hi
      rcases hi with rfl | rfl | hi | hi | rfl | rfl
      · simp only [Instr.locs, List.mem_singleton] at hl; exact .inl (by omega)
      · simp only [Instr.locs, List.mem_singleton] at hl; exact .inl (by omega)
      · rcases k12.used i (by simp [hi]) l hl with h | h
        · exact .inl (by omega)
        · cases h; exact .inl (by omega)
      · rcases k12.used i (by simp [hi]) l hl with h | h
        · exact .inl (by omega)
        · cases h; exact .inl (by omega)
      · simp only [Instr.locs, List.mem_singleton] at hl; exact .inl (by omega)
      · simp only [Instr.locs, List.mem_singleton] at hl; exact .inl (by omega)
  | .Member e m, n, n', code, h => by
    rcases asm_member h with ⟨f, d, _, h1, rfl⟩ | ⟨f, d, _, h1, rfl⟩ | ⟨a, b, _, rfl, rfl⟩
    · have k1 := asm_labels env none e _ _ _ h1
      have l1 := k1.le
      have k2 : LabelsOk (n + 1) n' none (d ++ [.ObjectField f]) := k1.append (.plain rfl (.nil _ _))
      have k3 : LabelsOk n n' x (d ++ [.ObjectField f] ++ [.Target n]) := (k2.place (Nat.lt_succ_self n)).exit
      rw [List.append_assoc] at k3
      refine .use rfl ?_ k3
      intro l hl
      simp only [Instr.locs, List.mem_singleton] at hl
      exact .inl (by omega)
    · exact .plain rfl (asm_labels env none e _ _ _ h1).exit
    · exact .plain rfl (.nil _ _)
  | .Call (Callable.Function f) tys args, n, n', code, h => by
    obtain ⟨info, d, _, _, h1, rfl⟩ := asm_call_function h
    exact (callInstrs_labels (asmArgs_labels env args _ _ _ _ h1)).exit
  | .Call (Callable.Intrinsic op ty) tys args, n, n', code, h => by
    obtain ⟨instr, d, h0, h1, rfl⟩ := asm_call_intrinsic h
    exact .plain (intrinsicInstr_locs h0) (asmSeq_labels env none args _ _ _ h1).exit
  | .MethodCall ctx f args, n, n', code, h => by
    obtain ⟨info, _, _, ⟨_, _, d, h1, rfl⟩ | ⟨_, _, recv, n1, d, h1, h2, rfl⟩⟩ := asm_method h
    · exact (callInstrs_labels (asmArgs_labels env args _ _ _ _ h1)).exit
    · have k1 := asm_labels env none ctx _ _ _ h1
      have k2 := callInstrs_labels (env := env) (info := info) (b := ctx.isSuper) (f := f) (args := args)
        (asmArgs_labels env args _ _ _ _ h2)
      have l1 := k1.le; have l2 := k2.le
      have k3 : LabelsOk n n' x (recv ++ callInstrs env info ctx.isSuper n1 f args d ++ [.Target n]) :=
        ((k1.append k2).place (Nat.lt_succ_self n)).exit
      rw [List.append_assoc] at k3
      refine .use rfl ?_ k3
      intro l hl
      simp only [Instr.locs, List.mem_singleton] at hl
      exact .inl (by omega)
  | .Null, n, n', code, h => by
    obtain ⟨rfl, rfl⟩ := asm_null h
    exact .plain rfl (.nil _ _)
  | .This, n, n', code, h => by
    obtain ⟨rfl, rfl⟩ := asm_this h
    exact .plain rfl (.nil _ _)
  | .Super, n, n', code, h => by
    obtain ⟨rfl, rfl⟩ := asm_super h
    exact .plain rfl (.nil _ _)
  | .Break, n, n', code, h => by
    obtain ⟨l, rfl, rfl, rfl⟩ := asm_break h
    refine .use rfl ?_ (.nil _ _)
    intro k hk
    simp only [Instr.locs, List.mem_singleton] at hk
    exact .inr (by rw [hk])
  | .ArrayLit _ _, _, _, _, h => by simp [asm] at h
  | .InterpolatedString _ _, _, _, _, h => by simp [asm] at h
  | .ForIn _ _ _, _, _, _, h => by simp [asm] at h
  | .BinOp _ _ _, _, _, _, h => by simp [asm] at h
  | .UnOp _ _, _, _, _, h => by simp [asm] at h
  | .Goto _, _, _, _, h => by simp [asm] at h
  termination_by e => sizeOf e
theorem asmSeq_labels (env : AsmEnv) (x : Option Nat) : ∀ (es : List TypedExpr) (n n' : Nat) (code : List (Instr Nat)),
    asmSeq env x es n = .ok (code, n') → LabelsOk n n' x code
  | [], n, n', code, h => by
    obtain ⟨rfl, rfl⟩ := asmSeq_nil h
    exact .nil _ _
  | e :: es, n, n', code, h => by
    obtain ⟨a, m, b, h1, h2, rfl⟩ := asmSeq_cons h
    exact (asm_labels env x e _ _ _ h1).append (asmSeq_labels env x es _ _ _ h2)
  termination_by es => sizeOf es
theorem asmArgs_labels (env : AsmEnv) : ∀ (args : List TypedExpr) (ps : List ParameterFlags) (n n' : Nat)
    (code : List (Instr Nat)), asmArgs env args ps n = .ok (code, n') → LabelsOk n n' none code
  | [], ps, n, n', code, h => by
    obtain ⟨rfl, rfl⟩ := asmArgs_nil h
    exact .nil _ _
  | a :: as, [], n, n', code, h => by
    obtain ⟨rfl, rfl⟩ := asmArgs_surplus h
    exact .nil _ _
  | a :: as, p :: ps, n, n', code, h => by
    rcases asmArgs_cons h with ⟨_, c, m, d, h1, h2, rfl⟩ | ⟨_, c, m, d, h1, h2, rfl⟩
    · have k1 := (asm_labels env none a _ _ _ h1).place (Nat.lt_succ_self n)
      have k2 := asmArgs_labels env as ps _ _ _ h2
      have k3 := k1.append k2
      rw [List.append_assoc] at k3
      refine .use rfl ?_ k3
      intro l hl
      simp only [Instr.locs, List.mem_singleton] at hl
      have := (asm_labels env none a _ _ _ h1).le
      have := k2.le
      exact .inl (by omega)
    · exact (asm_labels env none a _ _ _ h1).append (asmArgs_labels env as ps _ _ _ h2)
  termination_by args => sizeOf args
theorem asmCases_labels (env : AsmEnv) (exit : Nat) : ∀ (cs : List (TypedExpr × List TypedExpr)) (pend : Option Nat)
    (next next' n n' : Nat) (code : List (Instr Nat)), asmCases env exit pend cs next n = .ok (code, next', n') →
    next < n → (∀ l, pend = some l → l < n ∧ l ≠ next) → CaseLabelsOk n n' exit pend next next' code
  | [], pend, next, next', n, n', code, h, hn, hp => by
    obtain ⟨rfl, rfl, rfl⟩ := asmCases_nil h
    exact ⟨Nat.le_refl _, by simp [placed], by simp [placed], ⟨by simp [placed], .inl rfl⟩, by simp⟩
  | (m, body) :: cs, pend, next, next', n, n', code, h, hn, hp => by
    obtain ⟨matcher, n1, hm, h⟩ := asmCases_cons h
    have k1 := asm_labels env none m _ _ _ hm
    have l1 := k1.le
    -- the labels of the case
    obtain ⟨bl, nl, hlab⟩ : ∃ bl nl, caseLabels pend n = (bl, nl) := ⟨_, _, rfl⟩
    rw [hlab] at h hm k1 l1
    simp only at h hm k1 l1
    have hb : nl ≠ bl ∧ n ≤ nl ∧ ((pend = some bl ∧ bl < n ∧ bl ≠ next) ∨ (pend = none ∧ bl = n ∧ nl = n + 1)) := by
      cases pend with
      | none => simp only [caseLabels, Prod.mk.injEq] at hlab; obtain ⟨rfl, rfl⟩ := hlab; exact ⟨by omega, by omega, .inr ⟨rfl, rfl, rfl⟩⟩
      | some l =>
        simp only [caseLabels, Prod.mk.injEq] at hlab; obtain ⟨rfl, rfl⟩ := hlab
        have := hp _ rfl
        exact ⟨by omega, by omega, .inl ⟨rfl, this⟩⟩
    obtain ⟨hb1, hb2, hb3⟩ := hb
    have hb4 : bl ≠ next ∧ bl < nl := by rcases hb3 with ⟨_, h, h'⟩ | ⟨_, h, h'⟩ <;> omega
    have hb5 : ∀ l, l = bl → l = next ∨ pend = some l ∨ (n ≤ l ∧ l < n1) := by
      intro l hl; subst hl
      rcases hb3 with ⟨h, _⟩ | ⟨_, h, _⟩
      · exact .inr (.inl h)
      · exact .inr (.inr (by omega))
    rcases h with ⟨_, rest, hr, rfl⟩ | ⟨_, b, n2, rest, hbd, hr, rfl⟩
    · have k2 := asmCases_labels env exit cs (some bl) nl next' n1 n' rest hr (by omega)
        (fun l hl => by cases hl; omega)
      have l2 := k2.le
      have r2 : ∀ l ∈ placed rest, l = nl ∨ l = bl ∨ (n1 ≤ l ∧ l < n') := by
        intro l hl
        rcases k2.range l hl with h | h | h
        · exact .inl h
        · cases h; exact .inr (.inl rfl)
        · exact .inr (.inr h)
      have hpl : placed (.Target next :: .SwitchLabel nl bl :: (matcher ++ rest)) =
          next :: (placed matcher ++ placed rest) := by simp [placed, placed_append]
      refine ⟨by omega, ?_, ?_, ⟨?_, ?_⟩, ?_⟩
      · rw [hpl]
        simp only [List.nodup_append, List.nodup_cons, List.mem_append, not_or]
        refine ⟨⟨?_, ?_⟩, k1.nodup, k2.nodup, ?_⟩
        · intro hm; have := k1.range _ hm; omega
        · intro hm; have := r2 _ hm; omega
        · intro a ha c hc; have := k1.range _ ha; have := r2 _ hc; omega
      · intro l hl
        rw [hpl] at hl
        simp only [List.mem_append, List.mem_cons] at hl
        rcases hl with rfl | hl | hl
        · exact .inl rfl
        · have := k1.range _ hl; exact .inr (.inr (by omega))
        · rcases r2 _ hl with h | h | h
          · exact .inr (.inr (by omega))
          · rcases hb5 l h with h | h | h
            · exact .inl h
            · exact .inr (.inl h)
            · exact .inr (.inr (by omega))
          · exact .inr (.inr (by omega))
      · rw [hpl]
        simp only [List.mem_append, List.mem_cons, not_or]
        have hl := k2.last.2
        refine ⟨by rcases hl with h | h <;> omega, ?_, k2.last.1⟩
        intro hm; have := k1.range _ hm; rcases hl with h | h <;> omega
      · have hl := k2.last.2
        rcases hl with h | h <;> exact .inr (by omega)
      · intro i hi l hl
        simp only [List.mem_append, List.mem_cons] at hi
        rcases hi with rfl | rfl | hi | hi
        · simp only [Instr.locs, List.mem_singleton] at hl; exact .inl (by omega)
        · simp only [Instr.locs, List.mem_cons, List.not_mem_nil, or_false] at hl
          rcases hl with rfl | rfl <;> exact .inl (by omega)
        · rcases k1.used i hi l hl with h | h
          · exact .inl (by omega)
          · cases h
        · exact k2.used i hi l hl
    · have k3 := asmSeq_labels env (some exit) body _ _ _ hbd
      have l3 := k3.le
      have k2 := asmCases_labels env exit cs none nl next' n2 n' rest hr (by omega)
        (fun l hl => by cases hl)
      have l2 := k2.le
      have r2 : ∀ l ∈ placed rest, l = nl ∨ (n2 ≤ l ∧ l < n') := by
        intro l hl
        rcases k2.range l hl with h | h | h
        · exact .inl h
        · cases h
        · exact .inr h
      have hpl : placed (.Target next :: .SwitchLabel nl bl :: (matcher ++ .Target bl :: (b ++ rest))) =
          next :: (placed matcher ++ bl :: (placed b ++ placed rest)) := by simp [placed, placed_append]
      refine ⟨by omega, ?_, ?_, ⟨?_, ?_⟩, ?_⟩
      · rw [hpl]
        simp only [List.nodup_append, List.nodup_cons, List.mem_append, List.mem_cons, not_or]
        refine ⟨⟨?_, ?_, ?_, ?_⟩, k1.nodup, ⟨⟨?_, ?_⟩, k3.nodup, k2.nodup, ?_⟩, ?_⟩
        · intro hm; have := k1.range _ hm; omega
        · omega
        · intro hm; have := k3.range _ hm; omega
        · intro hm; have := r2 _ hm; omega
        · intro hm; have := k3.range _ hm; omega
        · intro hm; have := r2 _ hm; omega
        · intro a ha c hc; have := k3.range _ ha; have := r2 _ hc; omega
        · intro a ha c hc
          have := k1.range _ ha
          rcases hc with rfl | hc | hc
          · omega
          · have := k3.range _ hc; omega
          · have := r2 _ hc; omega
      · intro l hl
        rw [hpl] at hl
        simp only [List.mem_append, List.mem_cons] at hl
        rcases hl with rfl | hl | hl | hl | hl
        · exact .inl rfl
        · have := k1.range _ hl; exact .inr (.inr (by omega))
        · rcases hb5 l hl with h | h | h
          · exact .inl h
          · exact .inr (.inl h)
          · exact .inr (.inr (by omega))
        · have := k3.range _ hl; exact .inr (.inr (by omega))
        · rcases r2 _ hl with h | h <;> exact .inr (.inr (by omega))
      · rw [hpl]
        simp only [List.mem_append, List.mem_cons, not_or]
        have hl := k2.last.2
        refine ⟨by rcases hl with h | h <;> omega, ?_, ?_, ?_, k2.last.1⟩
        · intro hm; have := k1.range _ hm; rcases hl with h | h <;> omega
        · rcases hl with h | h <;> omega
        · intro hm; have := k3.range _ hm; rcases hl with h | h <;> omega
      · have hl := k2.last.2
        rcases hl with h | h <;> exact .inr (by omega)
      · intro i hi l hl
        simp only [List.mem_append, List.mem_cons] at hi
        rcases hi with rfl | rfl | hi | rfl | hi | hi
        · simp only [Instr.locs, List.mem_singleton] at hl; exact .inl (by omega)
        · simp only [Instr.locs, List.mem_cons, List.not_mem_nil, or_false] at hl
          rcases hl with rfl | rfl <;> exact .inl (by omega)
        · rcases k1.used i hi l hl with h | h
          · exact .inl (by omega)
          · cases h
        · simp only [Instr.locs, List.mem_singleton] at hl; exact .inl (by omega)
        · rcases k3.used i hi l hl with h | h
          · exact .inl (by omega)
          · cases h; exact .inr rfl
        · exact k2.used i hi l hl
  termination_by cs => sizeOf cs
theorem asmBlockOpt_labels (env : AsmEnv) (exit : Nat) : ∀ (d : Option (List TypedExpr)) (n n' : Nat)
    (code : List (Instr Nat)), asmBlockOpt env exit d n = .ok (code, n') → LabelsOk n n' (some exit) code
  | none, n, n', code, h => by
    obtain ⟨rfl, rfl⟩ := asmBlockOpt_none h
    exact .nil _ _
  | some b, n, n', code, h => by
    obtain ⟨d, h1, rfl⟩ := asmBlockOpt_some h
    exact .plain rfl (asmSeq_labels env (some exit) b _ _ _ h1)
  termination_by d => sizeOf d
end

/-- Profiling instructions, which carry a text; the assembler never emits them. -/
def Instr.isProfiling : Instr L → Bool
  | .StartProfiling _ => true
  | _ => false

theorem size_pos (i : Instr L) (h1 : i.isTarget = false) (h2 : i.isProfiling = false) : i.size ≠ 0 := by
  intro h0
  cases i <;> first | (simp [Instr.isTarget] at h1; done) | (simp [Instr.isProfiling] at h2; done) |
    (simp [Instr.size] at h0; done)

/-- No profiling in a piece of code. -/
def unprofiled (code : List (Instr L)) : Bool := code.all fun i => !i.isProfiling

theorem unprofiled_append (a b : List (Instr L)) : unprofiled (a ++ b) = (unprofiled a && unprofiled b) := by
  simp [unprofiled]
theorem unprofiled_cons (i : Instr L) (b : List (Instr L)) : unprofiled (i :: b) = (!i.isProfiling && unprofiled b) := by
  simp [unprofiled]
theorem unprofiled_nil : unprofiled ([] : List (Instr L)) = true := rfl

theorem constInstr_unprofiled {env : AsmEnv} {c : Constant} {i : Instr Nat} (h : env.constInstr c = .ok i) :
    i.isProfiling = false := by
  unfold AsmEnv.constInstr at h
  split at h <;> first | (cases h; rfl) | (obtain ⟨a, _, rfl⟩ := exceptMap_ok h; rfl)

theorem elemInstr_unprofiled {env : AsmEnv} {e : TypedExpr} {i : Instr Nat} (h : env.elemInstr e = .ok i) :
    i.isProfiling = false := by
  unfold AsmEnv.elemInstr at h
  split at h
  · cases h
  · obtain ⟨a, _, rfl⟩ := exceptMap_ok h; rfl
  · obtain ⟨a, _, rfl⟩ := exceptMap_ok h; rfl
  · cases h

theorem intrinsicInstr_unprofiled {env : AsmEnv} {op : IntrinsicOp} {args : List TypedExpr} {ty : TypeId} {i : Instr Nat}
    (h : env.intrinsicInstr op args ty = .ok i) : i.isProfiling = false := by
  cases op <;> simp only [AsmEnv.intrinsicInstr] at h <;>
    first
      | (obtain ⟨a, _, rfl⟩ := exceptMap_ok h; rfl)
      | (cases h; rfl)
      | (split at h
         · cases h
         · split at h <;> first | (obtain ⟨a, _, rfl⟩ := exceptMap_ok h; rfl) | (cases h; rfl) | cases h)

theorem initializer_unprofiled {env : AsmEnv} {l : Idx} {t : TypeId} {code : List (Instr Nat)}
    (h : env.initializer l t = .ok code) : unprofiled code = true := by
  have hp : ∀ name c, env.primInit name = some (.ok c) → c.isProfiling = false := by
    intro name c hc
    unfold AsmEnv.primInit at hc
    repeat (rcases ite_some hc with h | hc; · first | (cases h; rfl) | (obtain ⟨a, _, rfl⟩ := exceptMap_ok h.symm; rfl))
    cases hc
  unfold AsmEnv.initializer at h
  split at h
  · split at h
    · cases h
    · split at h
      · cases h; rename_i hc; rw [unprofiled_cons, unprofiled_cons, unprofiled_cons, hp _ _ hc]; rfl
      · cases h
      · cases h; rfl
  · cases h; rfl
  · split at h
    · cases h
    · cases h; rfl
    · cases h; rfl
  · cases h; rfl
  · cases h; rfl
  · split at h
    · cases h
    · cases h; rfl
  · cases h; rfl

theorem callInstrs_unprofiled {env : AsmEnv} {info : FnInfo} {b : Bool} {n : Nat} {f : Idx} {args : List TypedExpr}
    {d : List (Instr Nat)} (h : unprofiled d = true) : unprofiled (callInstrs env info b n f args d) = true := by
  have h1 : (env.invokeInstr info b n f args).isProfiling = false := by unfold AsmEnv.invokeInstr; split <;> rfl
  have h2 : ∀ k, unprofiled (List.replicate k (Instr.Nop : Instr Nat)) = true := by
    intro k; simp [unprofiled, Instr.isProfiling]
  rw [callInstrs, unprofiled_cons, h1, unprofiled_append, h, unprofiled_append, h2]; rfl

mutual
theorem asm_unprofiled (env : AsmEnv) (x : Option Nat) : ∀ (e : TypedExpr) (n n' : Nat) (code : List (Instr Nat)),
    asm env x e n = .ok (code, n') → unprofiled code = true
  | .Ident r, n, n', code, h => by
    obtain ⟨rfl, ⟨l, _, rfl⟩ | ⟨l, _, rfl⟩⟩ := asm_ident h <;> rfl
  | .Constant c, n, n', code, h => by
    obtain ⟨i, hi, rfl, rfl⟩ := asm_constant h
    simp [unprofiled, constInstr_unprofiled hi]
  | .Cast ty e, n, n', code, h => by
    obtain ⟨c, d, _, h1, rfl⟩ := asm_cast h
    simp [unprofiled_cons, unprofiled_append, unprofiled_nil, Instr.isProfiling, asm_unprofiled env none e _ _ _ h1]
  | .Declare l ty (some v), n, n', code, h => by
    obtain ⟨d, h1, rfl⟩ := asm_declare_some h
    simp [unprofiled_cons, unprofiled_append, unprofiled_nil, Instr.isProfiling, asm_unprofiled env none v _ _ _ h1]
  | .Declare l ty none, n, n', code, h => by
    obtain ⟨t, _, rfl, h1⟩ := asm_declare_none h
    exact initializer_unprofiled h1
  | .Assign lhs rhs, n, n', code, h => by
    obtain ⟨a, m, b, h1, h2, rfl⟩ := asm_assign h
    simp [unprofiled_cons, unprofiled_append, unprofiled_nil, Instr.isProfiling, asm_unprofiled env none lhs _ _ _ h1, asm_unprofiled env none rhs _ _ _ h2]
  | .ArrayElem e i, n, n', code, h => by
    obtain ⟨instr, a, m, b, h0, h1, h2, rfl⟩ := asm_elem h
    rw [unprofiled_cons, elemInstr_unprofiled h0, unprofiled_append, asm_unprofiled env none e _ _ _ h1,
      asm_unprofiled env none i _ _ _ h2]
    rfl
  | .New ty args, n, n', code, h => by
    rcases asm_new h with ⟨c, _, rfl, rfl⟩ | ⟨c, d, _, h1, rfl⟩
    · rfl
    · simp [unprofiled_cons, Instr.isProfiling, asmSeq_unprofiled env none args _ _ _ h1]
  | .Return none, n, n', code, h => by
    obtain ⟨rfl, rfl⟩ := asm_return_none h
    simp [unprofiled_cons, unprofiled_append, unprofiled_nil, Instr.isProfiling]
  | .Return (some e), n, n', code, h => by
    obtain ⟨d, h1, rfl⟩ := asm_return_some h
    simp [unprofiled_cons, unprofiled_append, unprofiled_nil, Instr.isProfiling, asm_unprofiled env none e _ _ _ h1]
  | .Seq es, n, n', code, h => asmSeq_unprofiled env x es _ _ _ (asm_seq h)
  | .Switch e cs d, n, n', code, h => by
    obtain ⟨ty, tyIdx, subject, n1, body, next, n2, tail, _, _, h1, h2, h3, rfl⟩ := asm_switch h
    simp [unprofiled_cons, unprofiled_append, unprofiled_nil, Instr.isProfiling, asm_unprofiled env none e _ _ _ h1, asmCases_unprofiled env (n + 2) cs _ _ _ _ _ _ h2, asmBlockOpt_unprofiled env (n + 2) d _ _ _ h3]
  | .If c t none, n, n', code, h => by
    obtain ⟨cond, n1, then_, h1, h2, rfl⟩ := asm_if_none h
    simp [unprofiled_cons, unprofiled_append, unprofiled_nil, Instr.isProfiling, asm_unprofiled env none c _ _ _ h1, asmSeq_unprofiled env x t _ _ _ h2]
  | .If c t (some e), n, n', code, h => by
    obtain ⟨cond, n1, then_, n2, else_, h1, h2, h3, rfl⟩ := asm_if_some h
    simp [unprofiled_cons, unprofiled_append, unprofiled_nil, Instr.isProfiling, asm_unprofiled env none c _ _ _ h1, asmSeq_unprofiled env x t _ _ _ h2, asmSeq_unprofiled env x e _ _ _ h3]
  | .Conditional c t e, n, n', code, h => by
    obtain ⟨cond, n1, true_, n2, false_, h1, h2, h3, rfl⟩ := asm_conditional h
    simp [unprofiled_cons, unprofiled_append, unprofiled_nil, Instr.isProfiling, asm_unprofiled env none c _ _ _ h1, asm_unprofiled env none t _ _ _ h2, asm_unprofiled env none e _ _ _ h3]
  | .While c b, n, n', code, h => by
    obtain ⟨cond, n1, body, h1, h2, rfl⟩ := asm_while h
    simp [unprofiled_cons, unprofiled_append, unprofiled_nil, Instr.isProfiling, asm_unprofiled env none c _ _ _ h1, asmSeq_unprofiled env (some n) b _ _ _ h2]
  | .Member e m, n, n', code, h => by
    rcases asm_member h with ⟨f, d, _, h1, rfl⟩ | ⟨f, d, _, h1, rfl⟩ | ⟨a, b, _, rfl, rfl⟩
    · simp [unprofiled_cons, unprofiled_append, unprofiled_nil, Instr.isProfiling, asm_unprofiled env none e _ _ _ h1]
    · simp [unprofiled_cons, Instr.isProfiling, asm_unprofiled env none e _ _ _ h1]
    · rfl
  | .Call (Callable.Function f) tys args, n, n', code, h => by
    obtain ⟨info, d, _, _, h1, rfl⟩ := asm_call_function h
    exact callInstrs_unprofiled (asmArgs_unprofiled env args _ _ _ _ h1)
  | .Call (Callable.Intrinsic op ty) tys args, n, n', code, h => by
    obtain ⟨instr, d, h0, h1, rfl⟩ := asm_call_intrinsic h
    simp [unprofiled_cons, intrinsicInstr_unprofiled h0, asmSeq_unprofiled env none args _ _ _ h1]
  | .MethodCall ctx f args, n, n', code, h => by
    obtain ⟨info, _, _, ⟨_, _, d, h1, rfl⟩ | ⟨_, _, recv, n1, d, h1, h2, rfl⟩⟩ := asm_method h
    · exact callInstrs_unprofiled (asmArgs_unprofiled env args _ _ _ _ h1)
    · simp [unprofiled_cons, unprofiled_append, unprofiled_nil, Instr.isProfiling,
        asm_unprofiled env none ctx _ _ _ h1, callInstrs_unprofiled (asmArgs_unprofiled env args _ _ _ _ h2)]
  | .Null, n, n', code, h => by
    obtain ⟨rfl, rfl⟩ := asm_null h
    simp [unprofiled_cons, unprofiled_append, unprofiled_nil, Instr.isProfiling]
  | .This, n, n', code, h => by
    obtain ⟨rfl, rfl⟩ := asm_this h
    simp [unprofiled_cons, unprofiled_append, unprofiled_nil, Instr.isProfiling]
  | .Super, n, n', code, h => by
    obtain ⟨rfl, rfl⟩ := asm_super h
    simp [unprofiled_cons, unprofiled_append, unprofiled_nil, Instr.isProfiling]
  | .Break, n, n', code, h => by
    obtain ⟨l, rfl, rfl, rfl⟩ := asm_break h
    simp [unprofiled_cons, unprofiled_append, unprofiled_nil, Instr.isProfiling]
  | .ArrayLit _ _, _, _, _, h => by simp [asm] at h
  | .InterpolatedString _ _, _, _, _, h => by simp [asm] at h
  | .ForIn _ _ _, _, _, _, h => by simp [asm] at h
  | .BinOp _ _ _, _, _, _, h => by simp [asm] at h
  | .UnOp _ _, _, _, _, h => by simp [asm] at h
  | .Goto _, _, _, _, h => by simp [asm] at h
  termination_by e => sizeOf e
theorem asmSeq_unprofiled (env : AsmEnv) (x : Option Nat) : ∀ (es : List TypedExpr) (n n' : Nat) (code : List (Instr Nat)),
    asmSeq env x es n = .ok (code, n') → unprofiled code = true
  | [], n, n', code, h => by
    obtain ⟨rfl, rfl⟩ := asmSeq_nil h
    rfl
  | e :: es, n, n', code, h => by
    obtain ⟨a, m, b, h1, h2, rfl⟩ := asmSeq_cons h
    simp [unprofiled_append, asm_unprofiled env x e _ _ _ h1, asmSeq_unprofiled env x es _ _ _ h2]
  termination_by es => sizeOf es
theorem asmArgs_unprofiled (env : AsmEnv) : ∀ (args : List TypedExpr) (ps : List ParameterFlags) (n n' : Nat)
    (code : List (Instr Nat)), asmArgs env args ps n = .ok (code, n') → unprofiled code = true
  | [], ps, n, n', code, h => by
    obtain ⟨rfl, rfl⟩ := asmArgs_nil h
    rfl
  | a :: as, [], n, n', code, h => by
    obtain ⟨rfl, rfl⟩ := asmArgs_surplus h
    rfl
  | a :: as, p :: ps, n, n', code, h => by
    rcases asmArgs_cons h with ⟨_, c, m, d, h1, h2, rfl⟩ | ⟨_, c, m, d, h1, h2, rfl⟩ <;>
    simp [unprofiled_cons, unprofiled_append, Instr.isProfiling, asm_unprofiled env none a _ _ _ h1,
      asmArgs_unprofiled env as ps _ _ _ h2]
  termination_by args => sizeOf args
theorem asmCases_unprofiled (env : AsmEnv) (exit : Nat) : ∀ (cs : List (TypedExpr × List TypedExpr)) (pend : Option Nat)
    (next next' n n' : Nat) (code : List (Instr Nat)), asmCases env exit pend cs next n = .ok (code, next', n') →
    unprofiled code = true
  | [], pend, next, next', n, n', code, h => by
    obtain ⟨rfl, rfl, rfl⟩ := asmCases_nil h
    rfl
  | (m, body) :: cs, pend, next, next', n, n', code, h => by
    obtain ⟨matcher, n1, hm, ⟨_, rest, hr, rfl⟩ | ⟨_, b, n2, rest, hbd, hr, rfl⟩⟩ := asmCases_cons h
    · simp [unprofiled_cons, unprofiled_append, Instr.isProfiling, asm_unprofiled env none m _ _ _ hm,
        asmCases_unprofiled env exit cs _ _ _ _ _ _ hr]
    · simp [unprofiled_cons, unprofiled_append, Instr.isProfiling, asm_unprofiled env none m _ _ _ hm,
        asmSeq_unprofiled env (some exit) body _ _ _ hbd, asmCases_unprofiled env exit cs _ _ _ _ _ _ hr]
  termination_by cs => sizeOf cs
theorem asmBlockOpt_unprofiled (env : AsmEnv) (exit : Nat) : ∀ (d : Option (List TypedExpr)) (n n' : Nat)
    (code : List (Instr Nat)), asmBlockOpt env exit d n = .ok (code, n') → unprofiled code = true
  | none, n, n', code, h => by
    obtain ⟨rfl, rfl⟩ := asmBlockOpt_none h
    rfl
  | some b, n, n', code, h => by
    obtain ⟨d, h1, rfl⟩ := asmBlockOpt_some h
    simp [unprofiled_cons, Instr.isProfiling, asmSeq_unprofiled env (some exit) b _ _ _ h1]
  termination_by d => sizeOf d
end

end Redscript
