import Verif.Decompiler.ShownProps
import Verif.Decompiler.MergeProps
import Verif.Decompiler.PrintStmt
import Verif.Decompiler.DeclPrintModel
import Verif.Util.List
import Verif.Parser.DeclaredNames

/-!
# The source text of compiled functions (C77)

What is printed for the body of a function of a bundle, when its code was compiled: a block that the parser
reads as the statements of a program that does what the code does.
-/

namespace Redscript

variable {P : FloatShow} {verbose : Bool}

/-! ### Declarations and meanings -/

/-- A statement that declares nothing. -/
def Expr.isDeclare : Expr SourceAst → Bool
  | .Declare _ _ _ => true
  | _ => false

theorem undeclare_other {e : Expr SourceAst} (h : e.isDeclare = false) : undeclare e = some e := by
  cases e with
  | Declare n ty v => cases h
  | _ => rfl

theorem declares_other {e : Expr SourceAst} (h : e.isDeclare = false) : declares e = none := by
  cases e with
  | Declare n ty v => cases h
  | _ => rfl

/-- What an expression means declares nothing. -/
theorem meaning_isDeclare : ∀ e : Expr SourceAst, printsSafely P verbose e = true → (meaning verbose e).isDeclare = false
  | .Call f tys args, h => by
    rw [printsSafely] at h
    rw [meaning]
    cases hk : callKind verbose f with
    | binop op => rfl
    | unop op => rfl
    | plain name => rfl
    | hidden =>
      simp only [hk] at h
      cases args with
      | nil => rfl
      | cons a as =>
        simp only [Bool.and_eq_true, allPrintSafely] at h
        simp only [meaningFirst]
        exact meaning_isDeclare a h.2.1
  | .Declare n ty v, h => by simp [printsSafely] at h
  | .Constant c, _ => by
    rw [meaning]
    cases c with
    | I32 v => simp only [constMeaning]; split <;> rfl
    | I64 v => simp only [constMeaning]; split <;> rfl
    | _ => rfl
  | .Cast _ _, _ | .Assign _ _, _ | .MethodCall _ _ _, _ | .ArrayElem _ _, _ | .New _ _, _ | .Conditional _ _ _, _
  | .Member _ _, _ | .Ident _, _ | .ArrayLit _ _, _ | .InterpolatedString _ _, _ | .Return _, _ | .Seq _, _
  | .Switch _ _ _, _ | .Goto _, _ | .If _ _ _, _ | .While _ _, _ | .ForIn _ _ _, _ | .BinOp _ _ _, _ | .UnOp _ _, _
  | .Break, _ | .Null, _ | .This, _ | .Super, _ => by rw [meaning] <;> simp [Expr.isDeclare]
  termination_by e => sizeOf e

/-- What a statement means declares something only when it is a declaration. -/
theorem stmtMeaning_isDeclare {e : Expr SourceAst} (h : stmtSafe P verbose e = true) (hd : e.isDeclare = false) :
    (stmtMeaning verbose e).isDeclare = false := by
  cases e with
  | Declare n ty v => cases hd
  | Return v => simp only [stmtMeaning]; rfl
  | If c a b => simp only [stmtMeaning]; rfl
  | While c b => simp only [stmtMeaning]; rfl
  | Switch e cs d => simp only [stmtMeaning]; rfl
  | Break => simp only [stmtMeaning, meaning]; rfl
  | _ =>
    simp only [stmtSafe, Bool.and_eq_true] at h
    simp only [stmtMeaning]
    exact meaning_isDeclare _ h.1

theorem isEmpty_assign (l v : Expr SourceAst) : (Expr.Assign l v).isEmpty = false := by simp [Expr.isEmpty]

theorem isEmpty_declare (n : Text) (ty : Option TypeName) (v : Option (Expr SourceAst)) :
    (Expr.Declare (N := SourceAst) n ty v).isEmpty = false := by simp [Expr.isEmpty]

/-- Taking out the declarations and taking the meaning is the same in any order. -/
theorem seqMeaning_undeclare : ∀ es : List (Expr SourceAst), seqSafe P verbose es = true →
    (seqMeaning verbose es).filterMap undeclare = seqMeaning verbose (es.filterMap undeclare)
  | [], _ => rfl
  | e :: es, h => by
    rw [seqSafe, Bool.and_eq_true] at h
    have ih := seqMeaning_undeclare es h.2
    rw [seqMeaning]
    by_cases he : e.isEmpty = true
    · have hd : e.isDeclare = false := by
        cases e with
        | Declare n ty v => rw [isEmpty_declare] at he; cases he
        | _ => rfl
      rw [if_pos he, List.filterMap_cons, undeclare_other hd, ih]
      simp only [seqMeaning, if_pos he]
    · rw [if_neg he]
      have hs : stmtSafe P verbose e = true := by simpa [he] using h.1
      cases hd : e.isDeclare with
      | false =>
        rw [List.filterMap_cons, List.filterMap_cons, undeclare_other hd, undeclare_other (stmtMeaning_isDeclare hs hd), ih]
        simp only [seqMeaning, if_neg he]
      | true =>
        cases e with
        | Declare n ty v =>
          rw [List.filterMap_cons, List.filterMap_cons]
          cases v with
          | none => simp only [stmtMeaning, undeclare, Option.map_none, ih]
          | some v =>
            simp only [stmtMeaning, undeclare, Option.map_some, ih, seqMeaning, isEmpty_assign, meaning, Bool.false_eq_true, if_false]
        | _ => cases hd

/-- Taking the meaning keeps the declarations. -/
theorem seqMeaning_declares : ∀ es : List (Expr SourceAst), seqSafe P verbose es = true →
    (seqMeaning verbose es).filterMap declares = es.filterMap declares
  | [], _ => rfl
  | e :: es, h => by
    rw [seqSafe, Bool.and_eq_true] at h
    have ih := seqMeaning_declares es h.2
    rw [seqMeaning]
    by_cases he : e.isEmpty = true
    · have hd : e.isDeclare = false := by
        cases e with
        | Declare n ty v => rw [isEmpty_declare] at he; cases he
        | _ => rfl
      rw [if_pos he, List.filterMap_cons, declares_other hd, ih]
    · rw [if_neg he]
      have hs : stmtSafe P verbose e = true := by simpa [he] using h.1
      cases hd : e.isDeclare with
      | false => rw [List.filterMap_cons, List.filterMap_cons, declares_other hd, declares_other (stmtMeaning_isDeclare hs hd), ih]
      | true =>
        cases e with
        | Declare n ty v =>
          rw [List.filterMap_cons, List.filterMap_cons]
          cases ty <;> simp only [stmtMeaning, declares, ih]
        | _ => cases hd

/-! ### What the decompiler shows declares nothing -/

theorem readBack_isDeclare {D : DecEnv} {env : AsmEnv} {e : TypedExpr} {x : Expr SourceAst} (h : readBack D env e = some x) :
    x.isDeclare = false := by
  cases x with
  | Declare n ty v =>
    exfalso
    cases e with
    | Call c _ args =>
      cases c with
      | Function f =>
        simp only [readBack] at h
        obtain ⟨fn, -, h⟩ := Option.bind_eq_some_iff.1 h
        obtain ⟨as, -, h⟩ := Option.bind_eq_some_iff.1 h
        split at h
        · split at h
          · cases h
          · split at h
            · obtain ⟨t, -, h⟩ := Option.map_eq_some_iff.1 h
              cases h
            · cases h
        · cases h
      | Intrinsic op ret => simp_all [readBack, Option.bind_eq_some_iff, Option.map_eq_some_iff]
    | _ =>
      simp only [readBack] at h <;> (repeat' split at h) <;>
        simp_all [Option.bind_eq_some_iff, Option.map_eq_some_iff]
  | _ => rfl

theorem readStmt_isDeclare {D : DecEnv} {env : AsmEnv} {e : TypedExpr} {x : Expr SourceAst} (h : readStmt D env e = some x) :
    x.isDeclare = false := by
  cases e with
  | Declare l ty init =>
    cases init with
    | some v => simp [readStmt] at h
    | none =>
      simp only [readStmt] at h
      cases ty with
      | none => simp [readDeclare] at h
      | some ty =>
        unfold readDeclare at h
        split at h
        · obtain ⟨n, -, rfl⟩ := Option.map_eq_some_iff.1 h; rfl
        · obtain ⟨n, -, h⟩ := Option.bind_eq_some_iff.1 h
          obtain ⟨v, -, rfl⟩ := Option.map_eq_some_iff.1 h; rfl
        · cases h
  | Return v =>
    cases v with
    | none => simp only [readStmt] at h; cases h; rfl
    | some v =>
      simp only [readStmt] at h
      obtain ⟨v, -, rfl⟩ := Option.map_eq_some_iff.1 h; rfl
  | Break => simp only [readStmt] at h; cases h; rfl
  | Seq es =>
    simp only [readStmt] at h
    obtain ⟨v, -, rfl⟩ := Option.map_eq_some_iff.1 h; rfl
  | If c t e =>
    simp only [readStmt] at h
    obtain ⟨n, -, h⟩ := Option.bind_eq_some_iff.1 h
    obtain ⟨n, -, h⟩ := Option.bind_eq_some_iff.1 h
    obtain ⟨v, -, rfl⟩ := Option.map_eq_some_iff.1 h; rfl
  | While c b =>
    simp only [readStmt] at h
    obtain ⟨n, -, h⟩ := Option.bind_eq_some_iff.1 h
    obtain ⟨v, -, rfl⟩ := Option.map_eq_some_iff.1 h; rfl
  | Switch e cs d =>
    simp only [readStmt] at h
    obtain ⟨n, -, h⟩ := Option.bind_eq_some_iff.1 h
    obtain ⟨n, -, h⟩ := Option.bind_eq_some_iff.1 h
    obtain ⟨v, -, rfl⟩ := Option.map_eq_some_iff.1 h; rfl
  | _ =>
    simp only [readStmt] at h
    exact readBack_isDeclare h

theorem readStmts_noDeclarations {D : DecEnv} {env : AsmEnv} : ∀ {es : List TypedExpr} {xs : List (Expr SourceAst)},
    readStmts D env es = some xs → NoDeclarations xs
  | [], xs, h => by
    simp only [readStmts] at h
    cases h
    intro e he
    cases he
  | e :: es, xs, h => by
    simp only [readStmts] at h
    obtain ⟨x, h1, h⟩ := Option.bind_eq_some_iff.1 h
    obtain ⟨ys, h2, rfl⟩ := Option.map_eq_some_iff.1 h
    intro y hy n ty v hv
    rcases List.mem_cons.1 hy with rfl | hy
    · have := readStmt_isDeclare h1
      rw [hv] at this
      cases this
    · exact readStmts_noDeclarations h2 y hy n ty v hv

/-! ### The environment of the decompiler -/

/-- The names of a pool as the assembler and the decompiler see them agree: literals are under the indexes that
the assembler uses, and each function has a name, and its class and result type do. -/
theorem DecAgrees.ofPool {p : ConstantPool} {q : AsmEnv} {d : Definition}
    (ht : ∀ l t i, q.strIdx l t = .ok i → (p.decEnv d).text l i = some t)
    (hf : ∀ i, (p.function i).isSome = true → (p.decFn d i).isSome = true) : DecAgrees (p.asmEnv q) (p.decEnv d) where
  text := ht
  function := fun i info h => by
    have h : p.fnInfo i = .ok info := h
    unfold ConstantPool.fnInfo at h
    split at h
    · cases h
    · rename_i e he
      split at h
      · cases h
      · rename_i fn hfn
        split at h
        · cases h
        · rename_i ps hps
          cases h
          have hfun : p.function i = some fn := by
            have he' : p.definitions[i.toNat]? = some e := he
            unfold ConstantPool.function ConstantPool.definitionBy
            rw [he']
            exact hfn
          obtain ⟨g, hg⟩ := Option.isSome_iff_exists.1 (hf i (by rw [hfun]; rfl))
          refine ⟨g, hg, ?_⟩
          unfold ConstantPool.decFn at hg
          rw [he, hfun] at hg
          simp only [Option.bind_some] at hg
          obtain ⟨name, hname, hg⟩ := Option.bind_eq_some_iff.1 hg
          obtain ⟨parent, -, hg⟩ := Option.bind_eq_some_iff.1 hg
          obtain ⟨ret, -, rfl⟩ := Option.map_eq_some_iff.1 hg
          refine ⟨?_, rfl⟩
          unfold ConstantPool.defName at hname
          rw [he] at hname
          exact hname

/-! ### The locals of a function -/

/-- A local of a bundle with its name and the name of its type. -/
def LocalCalled (p : ConstantPool) (i : Idx) (x : Text × TypeName) : Prop :=
  ∃ d l n t, p.definition i = some d ∧ d.value = .Local l ∧ p.defName i = some n ∧ p.defName l.type_ = some t ∧
    x = (n, TypeName.fromRepr t)

theorem insertLocal_perm {n : Text} {ty : TypeName} : ∀ {l : List (Text × TypeName)}, n ∉ l.map (·.1) →
    (insertLocal n ty l).Perm ((n, ty) :: l)
  | [], _ => .refl _
  | e :: es, h => by
    rw [insertLocal]
    simp only [List.map_cons, List.mem_cons, not_or] at h
    rw [if_neg h.1]
    split
    · exact .refl _
    · exact ((insertLocal_perm h.2).cons e).trans (.swap _ _ _)

/-- The table of the locals has each of them once, when no two have the same name. -/
theorem localTypes_perm {p : ConstantPool} : ∀ {is : List Idx} {xs acc out : List (Text × TypeName)},
    All2 (LocalCalled p) is xs → ((xs ++ acc).map (·.1)).Nodup → localTypes p is acc = some out → out.Perm (xs ++ acc)
  | _, _, acc, out, .nil, _, h => by
    rw [localTypes] at h
    cases h
    exact .refl _
  | _, _, acc, out, .cons (bs := xs) hx hxs, hn, h => by
    obtain ⟨d, l, n, t, h1, h2, h3, h4, rfl⟩ := hx
    rw [localTypes, h1] at h
    simp only [h2, h3, h4, Option.bind_some] at h
    simp only [List.cons_append, List.map_cons, List.nodup_cons] at hn
    have hp : (insertLocal n (TypeName.fromRepr t) acc).Perm ((n, TypeName.fromRepr t) :: acc) :=
      insertLocal_perm fun hm => hn.1 (by simp only [List.map_append, List.mem_append]; exact .inr hm)
    have hmid : (xs ++ insertLocal n (TypeName.fromRepr t) acc).Perm ((n, TypeName.fromRepr t) :: (xs ++ acc)) :=
      (hp.append_left xs).trans List.perm_middle
    refine (localTypes_perm hxs ?_ h).trans hmid
    exact ((hmid.map (·.1)).nodup_iff).2 (by simpa using hn)

/-! ### The text of a body -/

/-- The text is read as a block with these declarations, in any order, and these statements between them: a
declaration with a value being an assignment. -/
def ReadsBlock (text : Text) (declared : List (Text × TypeName)) (stmts : List (Expr SourceAst)) : Prop :=
  ∀ (F : FloatParse) (rest : Text), ∃ block : List (Expr SourceAst), (∃ N, ∀ n, N ≤ n → parseBlock F n (text ++ rest) = .ok block rest) ∧
    (block.filterMap declares).Perm declared ∧ block.filterMap undeclare = stmts

/-- What is printed for the body of a function is read as the statements that the decompiler shows, with the
locals of its table declared. -/
theorem printed_body {P : FloatShow} {verbose : Bool} {bs : BinarySearch} {p : ConstantPool} {d : Definition} {f : FunctionDef}
    {shown : List (Expr SourceAst)} {table : List (Text × TypeName)} {N : Nat} (depth : Nat)
    (h : ∀ fuel, N ≤ fuel → decompile (p.decEnv d) bs fuel f.code = .ok shown) (hd : NoDeclarations shown)
    (hm : localTypes p f.locals [] = some table) (hr : seqSafe P verbose (mergeDeclarations table shown) = true) :
    ∃ text : Text, (∀ fuel, N ≤ fuel → writeBody ⟨verbose, P, bs, fuel⟩ p d f depth = Written.put (' ' :: text)) ∧
      ReadsBlock text table (seqMeaning verbose shown) := by
  obtain ⟨t, ht1, -⟩ := C64_printed_statements_read_back_partial ⟨fun _ => none, fun _ => none⟩ P verbose _ hr (depth + 1)
  refine ⟨"{\n".toList ++ (t ++ (indent depth ++ ['}'])), fun fuel hfuel => ?_, fun F rest => ?_⟩
  · have hdec : decompiledIn ⟨verbose, P, bs, fuel⟩ p d f = .ok (mergeDeclarations table shown) := by
      unfold decompiledIn
      rw [hm]
      simp only [decompiled, h fuel hfuel]
    unfold writeBody
    rw [hdec]
    simp only [Written.andThen, Written.put, Written.withValue, ht1]
    simp
  · obtain ⟨t', ht2, hread⟩ := C64_printed_statements_read_back_partial F P verbose _ hr (depth + 1)
    cases ht1.symm.trans ht2
    refine ⟨seqMeaning verbose (mergeDeclarations table shown), ?_, ?_, ?_⟩
    · obtain ⟨M, hM⟩ := hread (2 * depth) rest
      refine ⟨M, fun n hn => ?_⟩
      rw [← hM n hn]
      simp [indent]
    · rw [seqMeaning_declares _ hr]
      exact C46_declared_once table shown hd
    · rw [seqMeaning_undeclare _ hr, C46_statements_kept table shown hd]

/-- C77: the text printed for the body of a function whose code was compiled is a block that is read as the
statements of a program that does what the code does, from every state and for every interpretation of the
operations, and in which the locals of the function are declared once, with their types.

Missing for the full claim: locals whose names are no identifiers, which are all that this compiler gives
(`C77_compiled_locals_counterexample`), bodies that the decompiler does not recover (C71), texts that the parser does
not read (C64), locals that are used before the declaration that is printed (C46), and locals with the same name
(`C77_same_name_counterexample`). -/
theorem C77_printed_body_is_the_program_partial {V S A : Type} {env : AsmEnv} {W : PoolView} {zero : Literal → Text}
    (P : FloatShow) (verbose : Bool) (bs : BinarySearch) {p : ConstantPool} {d : Definition} {f : FunctionDef}
    {body : List TypedExpr} {shown : List (Expr SourceAst)} {locals table : List (Text × TypeName)} (depth : Nat)
    (ha : DecAgrees env (p.decEnv d)) (hp : PoolAgrees env W zero)
    (h : fromBody env body = .ok f.code) (hf : startPos f.code f.code.length < 2 ^ 15) (hs : Expr.areStatements body = true)
    (ht : Expr.allTidy env body = true) (hx : readStmts (p.decEnv d) env (shownBody env body) = some shown)
    (hl : All2 (LocalCalled p) f.locals locals) (hn : (locals.map (·.1)).Nodup)
    (hm : localTypes p f.locals [] = some table) (hr : seqSafe P verbose (mergeDeclarations table shown) = true) :
    ∃ (b : List TypedExpr) (N : Nat) (text : Text), readStmts (p.decEnv d) env b = some shown ∧
      (∀ fuel, N ≤ fuel → writeBody ⟨verbose, P, bs, fuel⟩ p d f depth = Written.put (' ' :: text)) ∧
      ReadsBlock text locals (seqMeaning verbose shown) ∧
      ∀ (I : Interp V S A) (s : S) (o : Final V S A),
        (∃ n, runBody f.code W I n s = some o) ↔ ∃ e, ExecAll env zero I b s e ∧ finalOf e = some o := by
  obtain ⟨b, N, h1, h2, h3⟩ := C71_decompiled_body_runs_like_the_code_partial (V := V) (S := S) (A := A) ha hp bs h hf hs ht hx
  obtain ⟨text, h4, h5⟩ := printed_body (P := P) (verbose := verbose) depth h2 (readStmts_noDeclarations h1) hm hr
  have htab : table.Perm locals := by
    have := localTypes_perm (acc := []) hl (by simpa using hn) hm
    simpa using this
  refine ⟨b, N, text, h1, h4, fun F rest => ?_, h3⟩
  obtain ⟨block, h6, h7, h8⟩ := h5 F rest
  exact ⟨block, h6, h7.trans htab, h8⟩

/-! ### A function that meets the hypotheses, and one that does not -/

namespace TextDemo
open VmDemo (num run loc zero)

def mk (name : Idx) (value : AnyDefinition) : Definition := { name, parent := 0, unk1 := 0, unk2 := 0, unk3 := 0, value }

def fn (flags : FunctionFlags) (locals : List Idx) (code : List (Instr Offset)) : FunctionDef :=
  { visibility := .pub, flags, source := none, returnType := none, unk1 := false, baseMethod := none,
    parameters := [], locals, operator := none, cast := 0, code, unk2 := [] }

def static : FunctionFlags := BitVec.twoPow _ FunctionFlags.isStaticBit

/-- The types `Int32` (1) and `Bool` (2), a function `Run` (3), a function `Main` (4) with two locals (5, 6). -/
def pool (second : Idx) (code : List (Instr Offset)) : ConstantPool where
  names := ⟨["None", "Int32", "Bool", "Run;", "Main;", "n", "m"], .empty⟩
  tweakdbIds := .empty
  resources := .empty
  strings := .empty
  definitions := [.default, mk 1 (.Type .Prim), mk 2 (.Type .Prim), mk 3 (.Function (fn static [] [])),
    mk 4 (.Function (fn static [5, 6] code)), mk 5 (.Local ⟨1, 0⟩), mk second (.Local ⟨2, 0⟩)]

def q : AsmEnv where
  strIdx := fun _ _ => .error .lookup
  typeOf := fun _ => .ok (.Prim 1)
  typeIdx := fun t => if t = .Prim 1 then .ok 1 else if t = .Prim 2 then .ok 2 else .error .lookup
  defName := fun i => if i = 1 then .ok "Int32".toList else if i = 2 then .ok "Bool".toList else .error .lookup
  enumFirst := fun _ => .error .lookup
  function := fun _ => .error .lookup
  line := fun _ _ => 0

def view : PoolView where
  ty := fun i => .Prim i
  text := fun _ _ => []

/-- `let n: Int32; let m: Bool; n = 3; while m { Run(); if n { break; } n = 0; }` -/
def body : List TypedExpr :=
  [.Declare 5 (some (.Prim 1)) none, .Declare 6 (some (.Prim 2)) none, .Assign (loc 5) (num 3),
   .While (loc 6) [run 3, .If (loc 5) [.Break] none, .Assign (loc 5) (num 0)]]

def code : List (Instr Offset) := (fromBody ((pool 6 []).asmEnv q) body).toOption.getD []
def main : FunctionDef := fn static [5, 6] code
def self : Definition := mk 4 (.Function main)

/-- The same with two locals of different names, or of the same. -/
def good : ConstantPool := pool 6 code
def bad : ConstantPool := pool 5 code

theorem good_compiles : fromBody (good.asmEnv q) body = .ok main.code := by rfl
theorem bad_compiles : fromBody (bad.asmEnv q) body = .ok main.code := by rfl

theorem named (i : Idx) : (((good.function i).isSome → (good.decFn self i).isSome) ∧ ((bad.function i).isSome → (bad.decFn self i).isSome)) := by
  by_cases h : i.toNat < 7
  · have : i = 0 ∨ i = 1 ∨ i = 2 ∨ i = 3 ∨ i = 4 ∨ i = 5 ∨ i = 6 := by
      have e : i = BitVec.ofNat 32 i.toNat := by simp
      generalize i.toNat = k at h e
      subst e
      rcases k with _ | _ | _ | _ | _ | _ | _ | k <;> simp_all <;> omega
    rcases this with rfl | rfl | rfl | rfl | rfl | rfl | rfl <;> decide +kernel
  · have hg : good.definitions[i.toNat]? = none := List.getElem?_eq_none (by show 7 ≤ i.toNat; omega)
    have hb : bad.definitions[i.toNat]? = none := List.getElem?_eq_none (by show 7 ≤ i.toNat; omega)
    unfold ConstantPool.function ConstantPool.definitionBy
    rw [hg, hb]
    simp

theorem good_agrees : DecAgrees (good.asmEnv q) (good.decEnv self) :=
  .ofPool (fun _ _ _ h => by cases h) fun i => (named i).1

theorem bad_agrees : DecAgrees (bad.asmEnv q) (bad.decEnv self) :=
  .ofPool (fun _ _ _ h => by cases h) fun i => (named i).2

theorem view_agrees (p : ConstantPool) : PoolAgrees (p.asmEnv q) view zero where
  ty := fun t i h => by
    have h : (if t = .Prim 1 then Except.ok 1 else if t = .Prim 2 then Except.ok 2 else Except.error AsmErr.lookup) = Except.ok i := h
    split at h
    · rename_i ht; cases h; rw [ht]; rfl
    · split at h
      · rename_i ht; cases h; rw [ht]; rfl
      · cases h
  text := fun _ _ _ h => by cases h
  zero := fun _ => rfl

def shown (m : Text) : List (Expr SourceAst) :=
  [.Assign (.Ident "n".toList) (.Constant (.I32 0)), .Assign (.Ident m) (.Constant (.Bool false)),
   .Assign (.Ident "n".toList) (.Constant (.I32 3)),
   .While (.Ident m) [.Call "Run;".toList [] [], .If (.Ident "n".toList) [.Break] none,
     .Assign (.Ident "n".toList) (.Constant (.I32 0)), .Seq []], .Seq []]

theorem good_shown : readStmts (good.decEnv self) (good.asmEnv q) (shownBody (good.asmEnv q) body) = some (shown "m".toList) := by rfl
theorem bad_shown : readStmts (bad.decEnv self) (bad.asmEnv q) (shownBody (bad.asmEnv q) body) = some (shown "n".toList) := by rfl

def int : TypeName := .mk "Int32".toList []
def bool : TypeName := .mk "Bool".toList []

def goodLocals : List (Text × TypeName) := [("n".toList, int), ("m".toList, bool)]
def badLocals : List (Text × TypeName) := [("n".toList, int), ("n".toList, bool)]

theorem good_locals : All2 (LocalCalled good) main.locals goodLocals :=
  .cons ⟨_, _, _, _, rfl, rfl, rfl, rfl, by rfl⟩ (.cons ⟨_, _, _, _, rfl, rfl, rfl, rfl, by rfl⟩ .nil)
theorem bad_locals : All2 (LocalCalled bad) main.locals badLocals :=
  .cons ⟨_, _, _, _, rfl, rfl, rfl, rfl, by rfl⟩ (.cons ⟨_, _, _, _, rfl, rfl, rfl, rfl, by rfl⟩ .nil)

theorem good_table : localTypes good main.locals [] = some [("m".toList, bool), ("n".toList, int)] := by rfl
theorem bad_table : localTypes bad main.locals [] = some [("n".toList, bool)] := by rfl

example (P : FloatShow) (bs : BinarySearch) : ∃ (b : List TypedExpr) (N : Nat) (text : Text),
    readStmts (good.decEnv self) (good.asmEnv q) b = some (shown "m".toList) ∧
    (∀ fuel, N ≤ fuel → writeBody ⟨false, P, bs, fuel⟩ good self main 0 = Written.put (' ' :: text)) ∧
    ReadsBlock text goodLocals (seqMeaning false (shown "m".toList)) ∧
    ∀ (I : Interp (BitVec 32) (List Nat) Unit) (s : List Nat) (o : Final (BitVec 32) (List Nat) Unit),
      (∃ n, runBody main.code view I n s = some o) ↔ ∃ e, ExecAll (good.asmEnv q) zero I b s e ∧ finalOf e = some o :=
  C77_printed_body_is_the_program_partial P false bs 0 good_agrees (view_agrees good) good_compiles (by decide +kernel) rfl
    (by rfl) good_shown good_locals (by decide) good_table (by rfl)

end TextDemo

open TextDemo in
/-- C77 fails for a function with two locals of the same name, which this compiler never gives but a bundle can
have: all that is asked of C77 holds, except that the names differ, and the text declares one local instead of
two, of the type `Bool`, to which it assigns numbers. -/
theorem C77_same_name_counterexample (P : FloatShow) (bs : BinarySearch) :
    DecAgrees (bad.asmEnv q) (bad.decEnv self) ∧ fromBody (bad.asmEnv q) body = .ok main.code ∧
    startPos main.code main.code.length < 2 ^ 15 ∧ Expr.areStatements body = true ∧ Expr.allTidy (bad.asmEnv q) body = true ∧
    readStmts (bad.decEnv self) (bad.asmEnv q) (shownBody (bad.asmEnv q) body) = some (shown "n".toList) ∧
    All2 (LocalCalled bad) main.locals badLocals ∧
    ∃ (N : Nat) (text : Text), (∀ fuel, N ≤ fuel → writeBody ⟨false, P, bs, fuel⟩ bad self main 0 = Written.put (' ' :: text)) ∧
      ReadsBlock text [("n".toList, bool)] (seqMeaning false (shown "n".toList)) ∧
      ∀ stmts, ¬ ReadsBlock text badLocals stmts := by
  have hf : startPos main.code main.code.length < 2 ^ 15 := by decide +kernel
  refine ⟨bad_agrees, bad_compiles, hf, rfl, rfl, bad_shown, bad_locals, ?_⟩
  obtain ⟨N, hN⟩ := C71_structure_is_recovered_partial bad_agrees bs bad_compiles hf rfl (by rfl) bad_shown
  obtain ⟨text, h1, h2⟩ := printed_body (P := P) (verbose := false) 0 hN (readStmts_noDeclarations bad_shown) bad_table (by rfl)
  refine ⟨N, text, h1, h2, fun stmts h3 => ?_⟩
  obtain ⟨x, ⟨n1, hx⟩, hx1, -⟩ := h2 ⟨fun _ => none, fun _ => none⟩ []
  obtain ⟨y, ⟨n2, hy⟩, hy1, -⟩ := h3 ⟨fun _ => none, fun _ => none⟩ []
  have hx := hx (max n1 n2) (by omega)
  rw [hy (max n1 n2) (by omega)] at hx
  cases hx
  have := (hx1.symm.trans hy1).length_eq
  cases this

/-! ### The names that the compiler gives to locals -/

/-- The name of a local in the bundle: `format!("{name}$local${idx}")` (compiler/src/typechecker.rs:676-677). -/
def localName (name : Text) (idx : Nat) : Text := name ++ "$local$".toList ++ digitsOf 10 idx

/-- The name of a local that comes from desugaring: `format!("synthetic${}", self.name_count)`
(compiler/src/sugar.rs:54). -/
def syntheticName (count : Nat) : Text := "synthetic$".toList ++ digitsOf 10 count

theorem isIdent_noDollar {x : Text} (h : '$' ∈ x) : isIdent x = false := by
  cases hx : isIdent x with
  | false => rfl
  | true => exact absurd (isIdent_chars hx '$' h) (by decide)

theorem dollar_localName (name : Text) (idx : Nat) : '$' ∈ localName name idx :=
  List.mem_append_left _ (List.mem_append_right _ (by decide))

theorem dollar_syntheticName (count : Nat) : '$' ∈ syntheticName count :=
  List.mem_append_left _ (by decide)

/-- C77 fails for every function with a local that this compiler compiled: the names that it gives to locals are no
identifiers, and whatever the text, no block that the parser reads declares them. They are printed as they are. -/
theorem C77_compiled_locals_counterexample (text : Text) (locals : List (Text × TypeName)) (stmts : List (Expr SourceAst))
    (x : Text) (ty : TypeName) (h : (x, ty) ∈ locals)
    (hx : (∃ name idx, x = localName name idx) ∨ ∃ count, x = syntheticName count) : ¬ ReadsBlock text locals stmts := by
  intro hr
  obtain ⟨block, ⟨N, hN⟩, hp, -⟩ := hr ⟨fun _ => none, fun _ => none⟩ []
  have hm : (x, ty) ∈ block.filterMap declares := hp.mem_iff.2 h
  obtain ⟨e, he, hd⟩ := List.mem_filterMap.1 hm
  have hi := parseBlock_yields _ N _ block [] (hN N (Nat.le_refl N)) e he
  have hdollar : '$' ∈ x := by
    rcases hx with ⟨name, idx, rfl⟩ | ⟨count, rfl⟩
    · exact dollar_localName name idx
    · exact dollar_syntheticName count
  unfold declares at hd
  split at hd
  · rename_i n t v
    cases hd
    have := hi _ _ _ rfl
    rw [isIdent_noDollar hdollar] at this
    cases this
  · cases hd

/-- The name of the first local `n` of a function. -/
example : localName "n".toList 0 = "n$local$0".toList := by
  rw [localName, digitsOf]; rfl

end Redscript
