import Verif.Pipeline.Props
import Verif.Typecheck.Claim

/-!
# The theorems about the whole way apply
-/

namespace Redscript.PipeDemo

open Toy (int State Val)

abbrev bool : TypeId := .Prim 3

def tyIdx (t : TypeId) : Except AsmErr Idx :=
  if t = int then .ok 2 else if t = .Array int then .ok 3 else if t = bool then .ok 4 else .error .lookup

def env : AsmEnv := { Toy.env with strIdx := fun _ _ => .error .lookup, typeIdx := tyIdx }

def pool : PoolView where
  ty := fun i => if i = 2 then int else if i = 3 then .Array int else bool
  text := fun _ _ => []

def zero : Literal → Text := fun _ => []

theorem agrees : PoolAgrees env pool zero where
  ty := fun t i h => by
    have h : tyIdx t = .ok i := h
    unfold tyIdx at h
    repeat' split at h
    all_goals cases h
    all_goals (simp only [*]; rfl)
  text := fun _ _ _ h => by cases h
  zero := fun _ => rfl

def world : DsWorld Toy.Val Toy.State Unit := { Toy.world with env := env }

theorem laws : world.Laws := { Toy.laws with assignAdd := Toy.laws.assignAdd }

def functions (f : Idx) : Except AsmErr TcFn :=
  if f = 11 then .ok (TcToy.fn [(int, false), (int, false)] (some bool))
  else if f = 13 then .ok (TcToy.fn [] (some int)) else .error .lookup

/-- The checker knows `<` and `Counted`. -/
def tc : TcEnv := { TcToy.tc with
  symbols := (AMap.empty.insert "OperatorLess".toList (.Functions [(11, .pub)])).insert
    "Counted".toList (.Functions [(13, .pub)])
  alloc := fun n => BitVec.ofNat 32 (1 + n)
  function := functions }

theorem tc_lawful : tc.Lawful where
  types f fn ts h1 h2 := by
    have h1 : functions f = .ok fn := h1
    unfold functions at h1
    repeat' split at h1
    all_goals cases h1
    all_goals (cases h2; rfl)
  stored := TcToy.tc_lawful.stored

theorem small : tc.SmallStructs := by
  intro c fs h
  cases h

def floats : FloatParse := ⟨fun _ => none, fun _ => none⟩

def text : Text :=
  "func Pick() -> Int32 { let x: Int32; for y in [Counted(), 2] { if y < 5 { x = y; } } return x; }".toList

/-- The body as read. -/
def src : List (Expr SourceAst) :=
  [.Declare "x".toList (some (.mk "Int32".toList [])) none,
   .ForIn "y".toList (.ArrayLit [.Call "Counted".toList [] [], .Constant (.I32 2)] none)
     [.If (.BinOp (.Ident "y".toList) (.Constant (.I32 5)) .Less) [.Assign (.Ident "x".toList) (.Ident "y".toList)] none],
   .Return (some (.Ident "x".toList))]

theorem read : ∃ fn, functionRule floats 40 text = .ok fn [] ∧ fn.body = some src := by
  have hb : (match functionRule floats 40 text with
      | .ok ⟨_, _, _, some [.Declare a (some (.mk b [])) none,
          .ForIn c (.ArrayLit [.Call d [] [], .Constant (.I32 e)] none)
            [.If (.BinOp (.Ident f) (.Constant (.I32 g)) .Less) [.Assign (.Ident h) (.Ident i)] none],
          .Return (some (.Ident j))]⟩ [] =>
        decide ((a, b, c, d, e) = ("x".toList, "Int32".toList, "y".toList, "Counted".toList, 2) ∧
          (f, g, h, i, j) = ("y".toList, 5, "x".toList, "y".toList, "x".toList))
      | _ => false) = true := by decide +kernel
  split at hb
  · next h =>
    refine ⟨_, h, ?_⟩
    rw [decide_eq_true_iff] at hb
    simp only [Prod.mk.injEq] at hb
    obtain ⟨⟨rfl, rfl, rfl, rfl, rfl⟩, rfl, rfl, rfl, rfl, rfl⟩ := hb
    rfl
  · cases hb

/-- The body as checked. -/
def xs : List TypedExpr :=
  [.Declare 1 (some int) none,
   .ForIn 2 (.ArrayLit [Toy.counted, .Constant (.I32 2)] (some int))
     [.If (Toy.less (useLocal 2) (.Constant (.I32 5))) [.Assign (useLocal 1) (useLocal 2)] none],
   .Return (some (useLocal 1))]

theorem checked : ∃ tst, tc.checkBody .empty src = .ok (xs, tst) ∧ TcDiag.compileError ∉ tst.diags := by
  have hb : (match tc.checkBody .empty src with
      | .ok ([.Declare a (some b) none,
          .ForIn c (.ArrayLit [.Call (.Function d) [] [], .Constant (.I32 e)] (some f))
            [.If (.Call (.Function g) [] [.Ident (Reference.Value (.Local h)), .Constant (.I32 i)])
              [.Assign (.Ident (Reference.Value (.Local j))) (.Ident (Reference.Value (.Local k)))] none],
          .Return (some (.Ident (Reference.Value (.Local l))))], tst) =>
        decide ((a, b, c, d, e, f) = (1, int, 2, 13, 2, int) ∧ (g, h, i, j, k, l) = (11, 2, 5, 1, 2, 1)) && tst.diags.isEmpty
      | _ => false) = true := by decide +kernel
  split at hb
  · next tst ht =>
    rw [Bool.and_eq_true, decide_eq_true_iff] at hb
    simp only [Prod.mk.injEq] at hb
    obtain ⟨⟨⟨rfl, rfl, rfl, rfl, rfl, rfl⟩, rfl, rfl, rfl, rfl, rfl, rfl⟩, hd⟩ := hb
    refine ⟨tst, ht, ?_⟩
    rw [List.isEmpty_iff.1 hd]
    exact nofun
  · cases hb

def code : List (Instr Offset) :=
  match dsSeq world.D xs Toy.st0 with
  | .ok (b, _) => (fromBody env b).toOption.getD []
  | .error _ => []

def after : DsState := match dsSeq world.D xs Toy.st0 with | .ok (_, st) => st | .error _ => Toy.st0

theorem compiled : BodyCompiled floats tc world.D world.env .empty text src xs Toy.st0 after code where
  read := by obtain ⟨fn, h, hb⟩ := read; exact ⟨_, fn, _, h, hb⟩
  checked := checked
  fresh := rfl
  assembled := ⟨_, rfl, rfl⟩

theorem fits : Fits16 code := by unfold Fits16; decide

theorem typed : Typed world.Q after := by
  rintro x hx
  have hx : x ∈ [(100, .Array int), (101, .Array int), (102, int)] := hx
  simp only [List.mem_cons, List.not_mem_nil, or_false] at hx
  rcases hx with rfl | rfl | rfl <;> rfl

theorem tame : ∀ e ∈ xs, Tame world e := by
  have l1 : (1 : Idx).toNat < world.start := by decide
  have l2 : (2 : Idx).toNat < world.start := by decide
  intro e he
  simp only [xs, List.mem_cons, List.not_mem_nil, or_false] at he
  rcases he with rfl | rfl | rfl
  · exact .declare l1
  · refine .forIn l2 (.array (by decide) ?_) ?_
    · intro e he
      simp only [List.mem_cons, List.not_mem_nil, or_false] at he
      rcases he with rfl | rfl
      · exact .fixed (.call (.inl rfl) nofun)
      · exact .fixed .const
    · intro e he
      rw [List.mem_singleton.1 he]
      refine .if_ (.fixed (.call (.inl rfl) ?_)) ?_ nofun
      · intro e he
        simp only [List.mem_cons, List.not_mem_nil, or_false] at he
        rcases he with rfl | rfl
        · exact .local_ l2
        · exact .const
      · intro e he
        rw [List.mem_singleton.1 he]
        exact .expr (.assignLocal l1 (.fixed (.local_ l2)))
  · exact .returnSome (.fixed (.local_ l1))

/-- A loop over an array literal with effects: every way the text can end is one of the code, and conversely. -/
example (s : State) (σ : Idx → Val) :=
  (C67_code_does_what_the_text_says_partial tc_lawful small laws compiled rfl tame (Nat.le_refl _) typed agrees fits).2.2 s σ

/-- The number a run returned, and how often `Counted` was called. -/
def result : Option (Final (CellVal Val) (State × (Idx → Val)) Unit) → Option (Nat × Option (BitVec 32))
  | some (.returned (some v) (s, σ)) =>
    some (s.count, match (v.read σ).content s with | .const (.I32 n) => some n | _ => none)
  | _ => none

def start (n : Nat) : State × (Idx → Val) := (⟨n, fun _ => .object 0⟩, fun _ => .val (.object 0))

/-- The code has more than thirty instructions; the run calls `Counted` once and returns the last element below five. -/
example : 30 < code.length ∧ result (runBody code pool world.J 100 (start 7)) = some (8, some 2) := by
  decide +kernel

/-! ### A body without sugar -/

def text2 : Text :=
  "func Count() -> Int32 { while Counted() < 9 { if 3 < Counted() { break; } } return Counted(); }".toList

def src2 : List (Expr SourceAst) :=
  [.While (.BinOp (.Call "Counted".toList [] []) (.Constant (.I32 9)) .Less)
    [.If (.BinOp (.Constant (.I32 3)) (.Call "Counted".toList [] []) .Less) [.Break] none],
   .Return (some (.Call "Counted".toList [] []))]

theorem read2 : ∃ fn, functionRule floats 40 text2 = .ok fn [] ∧ fn.body = some src2 := by
  have hb : (match functionRule floats 40 text2 with
      | .ok ⟨_, _, _, some [.While (.BinOp (.Call a [] []) (.Constant (.I32 b)) .Less)
          [.If (.BinOp (.Constant (.I32 c)) (.Call d [] []) .Less) [.Break] none], .Return (some (.Call e [] []))]⟩ [] =>
        decide ((a, b, c, d, e) = ("Counted".toList, 9, 3, "Counted".toList, "Counted".toList))
      | _ => false) = true := by decide +kernel
  split at hb
  · next h =>
    refine ⟨_, h, ?_⟩
    rw [decide_eq_true_iff] at hb
    simp only [Prod.mk.injEq] at hb
    obtain ⟨rfl, rfl, rfl, rfl, rfl⟩ := hb
    rfl
  · cases hb

def xs2 : List TypedExpr :=
  [.While (Toy.less Toy.counted (.Constant (.I32 9))) [.If (Toy.less (.Constant (.I32 3)) Toy.counted) [.Break] none],
   .Return (some Toy.counted)]

theorem checked2 : ∃ tst, tc.checkBody .empty src2 = .ok (xs2, tst) ∧ TcDiag.compileError ∉ tst.diags := by
  have hb : (match tc.checkBody .empty src2 with
      | .ok ([.While (.Call (.Function a) [] [.Call (.Function b) [] [], .Constant (.I32 c)])
          [.If (.Call (.Function d) [] [.Constant (.I32 e), .Call (.Function f) [] []]) [.Break] none],
          .Return (some (.Call (.Function g) [] []))], tst) =>
        decide ((a, b, c, d, e, f, g) = (11, 13, 9, 11, 3, 13, 13)) && tst.diags.isEmpty
      | _ => false) = true := by decide +kernel
  split at hb
  · next tst ht =>
    rw [Bool.and_eq_true, decide_eq_true_iff] at hb
    simp only [Prod.mk.injEq] at hb
    obtain ⟨⟨rfl, rfl, rfl, rfl, rfl, rfl, rfl⟩, hd⟩ := hb
    refine ⟨tst, ht, ?_⟩
    rw [List.isEmpty_iff.1 hd]
    exact nofun
  · cases hb

def code2 : List (Instr Offset) := (fromBody env xs2).toOption.getD []

theorem compiled2 : BodyCompiled floats tc world.D env .empty text2 src2 xs2 Toy.st0 Toy.st0 code2 where
  read := by obtain ⟨fn, h, hb⟩ := read2; exact ⟨_, fn, _, h, hb⟩
  checked := checked2
  fresh := rfl
  assembled := ⟨_, rfl, rfl⟩

/-- The hypotheses hold, whatever the operations mean. -/
example {V S A : Type} (I : Interp V S A) (s : S) :=
  (C67_plain_code_does_what_the_text_says_partial tc_lawful small compiled2 rfl rfl agrees
    (by unfold Fits16; decide)).2.2 I s

end Redscript.PipeDemo
