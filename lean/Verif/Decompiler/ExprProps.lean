import Verif.Decompiler.Model
import Verif.Vm.ExprProps

/-!
# The decompiler reads back generated expressions (C25)
-/

namespace Redscript

/-! ### Specification -/

/-- The pool as the decompiler reads it agrees with the answers the assembler was given: texts are found at
their indices, functions have the names and flags the assembler used. -/
structure DecAgrees (env : AsmEnv) (D : DecEnv) : Prop where
  text : ∀ l t i, env.strIdx l t = .ok i → D.text l i = some t
  function : ∀ f info, env.function f = .ok info → ∃ fn, D.function f = some fn ∧
    D.text .Name info.name = some fn.name ∧ fn.isStatic = flag FunctionFlags.isStaticBit info.flags

/-- The explicit type arguments shown for an intrinsic: the result of the conversions whose result type
does not follow from the operand. -/
def intrinsicTypes (D : DecEnv) (env : AsmEnv) (op : IntrinsicOp) (ret : TypeId) : Option (List TypeName) :=
  match op with
  | .IntEnum | .FromVariant =>
    match env.typeIdx ret with
    | .ok i => (D.defName i).map fun t => [TypeName.fromRepr t]
    | .error _ => none
  | _ => some []

mutual
/-- The tree of a typed expression in terms of names: every node stays, indices are replaced by the names
of what they refer to. `super` reads as `this`. Nothing for names that are missing in the pool, for trees
that are not expressions, and for calls of methods without a receiver. -/
def readBack (D : DecEnv) (env : AsmEnv) : TypedExpr → Option (Expr SourceAst)
  | .Ident r =>
    match r with
    | .Value (.Local i) => (D.defName i).map .Ident
    | .Value (.Parameter i) => (D.defName i).map .Ident
    | _ => none
  | .Constant c => some (.Constant c)
  | .Null => some .Null
  | .This => some .This
  | .Super => some .This
  | .Cast ty e =>
    match ty with
    | .Class c => (readBack D env e).bind fun e => (D.defName c).map fun t => .Cast (TypeName.fromRepr t) e
    | _ => none
  | .Assign l r => (readBack D env l).bind fun l => (readBack D env r).map fun r => .Assign l r
  | .ArrayElem e i => (readBack D env e).bind fun e => (readBack D env i).map fun i => .ArrayElem e i
  | .New ty args =>
    match ty with
    | .Class c => (D.defName c).map fun name => .New (.mk name []) []
    | .Struct c => (readBackAll D env args).bind fun args => (D.defName c).map fun name => .New (.mk name []) args
    | _ => none
  | .Conditional c t e =>
    (readBack D env c).bind fun c => (readBack D env t).bind fun t => (readBack D env e).map fun e =>
      .Conditional c t e
  | .Member e m =>
    match m with
    | .ClassField f => (readBack D env e).bind fun e => (D.defName f).map fun name => .Member e name
    | .StructField f => (readBack D env e).bind fun e => (D.defName f).map fun name => .Member e name
    | .EnumMember en m => (D.defName en).bind fun en => (D.defName m).map fun m => .Member (.Ident en) m
  | .Call c _ args =>
    match c with
    | .Function f =>
      (D.function f).bind fun fn => (readBackAll D env args).bind fun args =>
        if fn.isStatic then
          match fn.parent with
          | some cls => some (.MethodCall (.Ident cls) fn.name args)
          | none =>
            if "Cast;".toList.isPrefixOf fn.name then
              fn.returnType.map fun t => .Call fn.name [TypeName.fromRepr t] args
            else some (.Call fn.name [] args)
        else none
    | .Intrinsic op ret =>
      (intrinsicTypes D env op ret).bind fun tys => (readBackAll D env args).map fun args => .Call op.name tys args
  | .MethodCall ctx f args =>
    (D.function f).bind fun fn => (readBackAll D env args).bind fun args =>
      if ctx.isTypeName then fn.parent.map fun cls => .MethodCall (.Ident cls) fn.name args
      else (readBack D env ctx).map fun ctx => .MethodCall ctx fn.name args
  | _ => none
/-- Arguments, in order. -/
def readBackAll (D : DecEnv) (env : AsmEnv) : List TypedExpr → Option (List (Expr SourceAst))
  | [] => some []
  | e :: es => (readBack D env e).bind fun e => (readBackAll D env es).map fun es => e :: es
end

/-- The generated instructions `gen` stand in `out` from index `k` to `k'`, without the label markers and
with any jump operands. -/
def ListAt (out : List (Instr Offset)) : Nat → List (Instr Nat) → Nat → Prop
  | k, [], k' => k = k'
  | k, i :: is, k' =>
    if i.isTarget then ListAt out k is k'
    else (∃ f : Nat → Offset, out[k]? = some (i.mapLoc f)) ∧ ListAt out (k + 1) is k'

/-- The cursor over `out` before the instruction with index `k`. -/
def cursorAt (out : List (Instr Offset)) (k : Nat) : CodeCursor Offset := { CodeCursor.new out with index := k }

/-- A reader that, for all large fuels, reads `a` from index `k` to `k'`. -/
def DecReads (f : Nat → CodeCursor Offset → Except DecErr (α × CodeCursor Offset)) (out : List (Instr Offset))
    (k k' : Nat) (a : α) : Prop :=
  ∃ N, ∀ m, N ≤ m → f m (cursorAt out k) = .ok (a, cursorAt out k')

/-! ### Proofs -/

section
variable {D : DecEnv} {bs : BinarySearch} {out : List (Instr Offset)} {env : AsmEnv} {k k' : Nat}

theorem ListAt.cons {i : Instr Nat} {is : List (Instr Nat)} (h : i.isTarget = false) :
    ListAt out k (i :: is) k' ↔ (∃ f : Nat → Offset, out[k]? = some (i.mapLoc f)) ∧ ListAt out (k + 1) is k' := by
  rw [ListAt, h]; simp

theorem ListAt.target {l : Nat} {is : List (Instr Nat)} : ListAt out k (.Target l :: is) k' ↔ ListAt out k is k' := by
  show (if (Instr.Target l : Instr Nat).isTarget then ListAt out k is k' else _) ↔ _; simp [Instr.isTarget]

theorem ListAt.nil : ListAt out k [] k' ↔ k = k' := Iff.rfl

theorem ListAt.append {a b : List (Instr Nat)} : ListAt out k (a ++ b) k' ↔ ∃ j, ListAt out k a j ∧ ListAt out j b k' := by
  induction a generalizing k with
  | nil => simp [ListAt]
  | cons i is ih =>
    simp only [List.cons_append, ListAt]
    by_cases h : i.isTarget = true
    · simp only [h, if_true, ih]
    · simp only [h, Bool.false_eq_true, if_false, ih]
      constructor
      · rintro ⟨h1, j, h2, h3⟩; exact ⟨j, ⟨h1, h2⟩, h3⟩
      · rintro ⟨j, ⟨h1, h2⟩, h3⟩; exact ⟨h1, j, h2, h3⟩

theorem posOf_at {i : Instr Offset} (h : out[k]? = some i) : ∃ p, posOf (cursorAt out k) = .ok p := by
  have hk : k < out.length := by
    rcases Nat.lt_or_ge k out.length with h' | h'
    · exact h'
    · rw [List.getElem?_eq_none h'] at h; cases h
  unfold posOf cursorAt CodeCursor.pos CodeCursor.new
  by_cases h0 : k = 0
  · simp [h0]
  · have : k - 1 < (CodeCursor.runningSizes 0 out).length := by rw [runningSizes_length]; omega
    simp only [h0, if_false]
    split
    · exact ⟨_, rfl⟩
    · rename_i hn
      rw [List.getElem?_eq_none_iff] at hn
      exact absurd this (Nat.not_lt.2 hn)

theorem pop_at {i : Instr Offset} (h : out[k]? = some i) :
    liftCursor (cursorAt out k).pop = .ok (i, cursorAt out (k + 1)) := by
  unfold liftCursor CodeCursor.pop cursorAt CodeCursor.new
  simp only [h]

theorem consumeWith_at {i : Instr Offset} (h : out[k]? = some i) : ∃ p, ∀ (m : Nat) (ctx : Option (Expr SourceAst))
    (blk : Option BlockContext), consumeWith D bs (m + 1) ctx blk (cursorAt out k) =
    (match decKind D i with
    | .node n build => do
      let (args, c) ← consumeN D bs m n (cursorAt out (k + 1))
      match build args with
      | some e => .ok (e, c)
      | none => .error .pool
    | .objectField f =>
      match D.defName f with
      | some name => .ok (.Member (ctx.getD .This) name, cursorAt out (k + 1))
      | none => .error .pool
    | .switch start => consumeSwitch D bs m (start.absolute p) (cursorAt out (k + 1))
    | .jumpIfFalse o =>
      if o.toInt < 0 then .error .panic else consumeCondJump D bs m p o blk (cursorAt out (k + 1))
    | .invokeStatic f =>
      match D.function f with
      | none => .error .pool
      | some fn => do
        let (params, c) ← consumeParams D bs m (cursorAt out (k + 1))
        let e ← staticCall fn ctx params
        .ok (e, c)
    | .invokeVirtual idx =>
      match D.text .Name idx with
      | none => .error .pool
      | some name => do
        let (params, c) ← consumeParams D bs m (cursorAt out (k + 1))
        .ok (.MethodCall (ctx.getD .This) name params, c)
    | .ret =>
      if (cursorAt out (k + 1)).peek = some .Nop then do
        let (_, c) ← liftCursor (cursorAt out (k + 1)).pop
        .ok (.Return none, c)
      else do
        let (e, c) ← consumeWith D bs m none none (cursorAt out (k + 1))
        .ok (.Return (some e), c)
    | .context => do
      let (e, c) ← consumeWith D bs m none none (cursorAt out (k + 1))
      consumeWith D bs m (some e) none c
    | .empty => .ok (emptyExpr, cursorAt out (k + 1))
    | .jump o => do
      let target := o.absolute p
      let here ← posOf (cursorAt out (k + 1))
      match blk with
      | some (.loop prologue epilogue) =>
        if target = epilogue then .ok (.Break, cursorAt out (k + 1))
        else if target = prologue ∧ here = epilogue then .ok (emptyExpr, cursorAt out (k + 1))
        else .ok (.Goto target, cursorAt out (k + 1))
      | some (.switch epilogue) =>
        if target = epilogue then .ok (.Break, cursorAt out (k + 1)) else .ok (.Goto target, cursorAt out (k + 1))
      | none => .ok (.Goto target, cursorAt out (k + 1))
    | .skip o => .ok (.Goto (o.absolute p), cursorAt out (k + 1))
    | .unexpected => .error .decompile) := by
  obtain ⟨p, hp⟩ := posOf_at h
  refine ⟨p, fun m ctx blk => ?_⟩
  rw [consumeWith, hp, pop_at h]
  rfl

/-- Reading an expression: in any block. -/
def ReadsE (D : DecEnv) (bs : BinarySearch) (ctx : Option (Expr SourceAst)) (out : List (Instr Offset)) (k k' : Nat)
    (e : Expr SourceAst) : Prop :=
  ∀ blk, DecReads (fun m => consumeWith D bs m ctx blk) out k k' e

theorem reads_node {i : Instr Offset} {n : Nat} {build : List (Expr SourceAst) → Option (Expr SourceAst)}
    {args : List (Expr SourceAst)} {e : Expr SourceAst} {ctx : Option (Expr SourceAst)} (h : out[k]? = some i)
    (hk : decKind D i = .node n build) (ha : DecReads (fun m => consumeN D bs m n) out (k + 1) k' args)
    (hb : build args = some e) : ReadsE D bs ctx out k k' e := by
  intro blk
  obtain ⟨p, hp⟩ := consumeWith_at (D := D) (bs := bs) h
  obtain ⟨N, hN⟩ := ha
  refine ⟨N + 1, fun m hm => ?_⟩
  obtain ⟨m, rfl⟩ : ∃ m', m = m' + 1 := ⟨m - 1, by omega⟩
  show consumeWith D bs (m + 1) ctx blk (cursorAt out k) = _
  rw [hp, hk]
  have h1 : consumeN D bs m n (cursorAt out (k + 1)) = _ := hN m (by omega)
  simp only [h1, bind, Except.bind, hb]

theorem reads_n_zero : DecReads (fun m => consumeN D bs m 0) out k k [] :=
  ⟨1, fun m hm => by obtain ⟨m, rfl⟩ : ∃ m', m = m' + 1 := ⟨m - 1, by omega⟩; rfl⟩

theorem reads_n_succ {n j : Nat} {e : Expr SourceAst} {es : List (Expr SourceAst)} (h1 : ReadsE D bs none out k j e)
    (h2 : DecReads (fun m => consumeN D bs m n) out j k' es) : DecReads (fun m => consumeN D bs m (n + 1)) out k k' (e :: es) := by
  obtain ⟨N1, h1⟩ := h1 none
  obtain ⟨N2, h2⟩ := h2
  refine ⟨max N1 N2 + 1, fun m hm => ?_⟩
  obtain ⟨m, rfl⟩ : ∃ m', m = m' + 1 := ⟨m - 1, by omega⟩
  have e1 : consumeWith D bs m none none (cursorAt out k) = _ := h1 m (by omega)
  have e2 : consumeN D bs m n (cursorAt out j) = _ := h2 m (by omega)
  show consumeN D bs (m + 1) (n + 1) (cursorAt out k) = _
  rw [consumeN]
  simp only [e1, bind, Except.bind, e2]

theorem reads_leaf {i : Instr Offset} {e : Expr SourceAst} {ctx : Option (Expr SourceAst)} (h : out[k]? = some i)
    {r : Option (Expr SourceAst)} (hk : decKind D i = .leaf r) (hr : r = some e) : ReadsE D bs ctx out k (k + 1) e :=
  reads_node h hk reads_n_zero hr

theorem reads_context {i : Instr Offset} {j : Nat} {ctx : Option (Expr SourceAst)} {o e : Expr SourceAst}
    (h : out[k]? = some i) (hk : decKind D i = .context) (h1 : ReadsE D bs none out (k + 1) j o)
    (h2 : ReadsE D bs (some o) out j k' e) : ReadsE D bs ctx out k k' e := by
  intro blk
  obtain ⟨p, hp⟩ := consumeWith_at (D := D) (bs := bs) h
  obtain ⟨N1, h1⟩ := h1 none
  obtain ⟨N2, h2⟩ := h2 none
  refine ⟨max N1 N2 + 1, fun m hm => ?_⟩
  obtain ⟨m, rfl⟩ : ∃ m', m = m' + 1 := ⟨m - 1, by omega⟩
  have e1 : consumeWith D bs m none none (cursorAt out (k + 1)) = _ := h1 m (by omega)
  have e2 : consumeWith D bs m (some o) none (cursorAt out j) = _ := h2 m (by omega)
  show consumeWith D bs (m + 1) ctx blk (cursorAt out k) = _
  rw [hp, hk]
  simp only [e1, bind, Except.bind, e2]

theorem peekKind_value {i : Instr (BitVec 16)} (h1 : paramKind i = .value) (h2 : stmtKind i = .expression) :
    peekKind (some i) = .other := by
  cases i <;> first | rfl | (cases h1; done) | (cases h2; done)

/-- Arguments up to the end marker. -/
abbrev ReadsP (D : DecEnv) (bs : BinarySearch) (out : List (Instr Offset)) (k k' : Nat) (es : List (Expr SourceAst)) : Prop :=
  DecReads (fun m => consumeParams D bs m) out k k' es

theorem reads_params_skip {i : Instr Offset} {es : List (Expr SourceAst)} (h : out[k]? = some i)
    (hk : peekKind (some i) = .skipOrNop) (h1 : ReadsP D bs out (k + 1) k' es) : ReadsP D bs out k k' es := by
  obtain ⟨N, hN⟩ := h1
  refine ⟨N + 1, fun m hm => ?_⟩
  obtain ⟨m, rfl⟩ : ∃ m', m = m' + 1 := ⟨m - 1, by omega⟩
  have e1 : consumeParams D bs m (cursorAt out (k + 1)) = _ := hN m (by omega)
  show consumeParams D bs (m + 1) (cursorAt out k) = _
  have hpeek : (cursorAt out k).peek = some i := h
  rw [consumeParams, hpeek, hk, pop_at h]
  simp only [bind, Except.bind, e1]

theorem reads_params_end {i : Instr Offset} (h : out[k]? = some i) (hk : peekKind (some i) = .paramEnd) :
    ReadsP D bs out k (k + 1) [] := by
  refine ⟨1, fun m hm => ?_⟩
  obtain ⟨m, rfl⟩ : ∃ m', m = m' + 1 := ⟨m - 1, by omega⟩
  show consumeParams D bs (m + 1) (cursorAt out k) = _
  have hpeek : (cursorAt out k).peek = some i := h
  rw [consumeParams, hpeek, hk, pop_at h]
  rfl

theorem reads_params_value {i : Instr Offset} {j : Nat} {e : Expr SourceAst} {es : List (Expr SourceAst)}
    (h : out[k]? = some i) (hk : peekKind (some i) = .other) (h1 : ReadsE D bs none out k j e)
    (h2 : ReadsP D bs out j k' es) : ReadsP D bs out k k' (e :: es) := by
  obtain ⟨N1, h1⟩ := h1 none
  obtain ⟨N2, h2⟩ := h2
  refine ⟨max N1 N2 + 1, fun m hm => ?_⟩
  obtain ⟨m, rfl⟩ : ∃ m', m = m' + 1 := ⟨m - 1, by omega⟩
  have e1 : consumeWith D bs m none none (cursorAt out k) = _ := h1 m (by omega)
  have e2 : consumeParams D bs m (cursorAt out j) = _ := h2 m (by omega)
  show consumeParams D bs (m + 1) (cursorAt out k) = _
  have hpeek : (cursorAt out k).peek = some i := h
  rw [consumeParams, hpeek, hk]
  simp only [bind, Except.bind, e1, e2]

theorem reads_static {i : Instr Offset} {f : Idx} {fn : DecFn} {ctx : Option (Expr SourceAst)}
    {params : List (Expr SourceAst)} {e : Expr SourceAst} (h : out[k]? = some i) (hk : decKind D i = .invokeStatic f)
    (hf : D.function f = some fn) (hp : ReadsP D bs out (k + 1) k' params) (he : staticCall fn ctx params = .ok e) :
    ReadsE D bs ctx out k k' e := by
  intro blk
  obtain ⟨p, hc⟩ := consumeWith_at (D := D) (bs := bs) h
  obtain ⟨N, hN⟩ := hp
  refine ⟨N + 1, fun m hm => ?_⟩
  obtain ⟨m, rfl⟩ : ∃ m', m = m' + 1 := ⟨m - 1, by omega⟩
  have e1 : consumeParams D bs m (cursorAt out (k + 1)) = _ := hN m (by omega)
  show consumeWith D bs (m + 1) ctx blk (cursorAt out k) = _
  rw [hc, hk]
  simp only [hf, bind, Except.bind, e1, he]

theorem reads_virtual {i : Instr Offset} {idx : Idx} {name : Text} {ctx : Option (Expr SourceAst)}
    {params : List (Expr SourceAst)} (h : out[k]? = some i) (hk : decKind D i = .invokeVirtual idx)
    (hf : D.text .Name idx = some name) (hp : ReadsP D bs out (k + 1) k' params) :
    ReadsE D bs ctx out k k' (.MethodCall (ctx.getD .This) name params) := by
  intro blk
  obtain ⟨p, hc⟩ := consumeWith_at (D := D) (bs := bs) h
  obtain ⟨N, hN⟩ := hp
  refine ⟨N + 1, fun m hm => ?_⟩
  obtain ⟨m, rfl⟩ : ∃ m', m = m' + 1 := ⟨m - 1, by omega⟩
  have e1 : consumeParams D bs m (cursorAt out (k + 1)) = _ := hN m (by omega)
  show consumeWith D bs (m + 1) ctx blk (cursorAt out k) = _
  rw [hc, hk]
  simp only [hf, bind, Except.bind, e1]

theorem constInstr_dec (ha : DecAgrees env D) {c : Constant} {i : Instr Nat} (h : env.constInstr c = .ok i)
    (f : Nat → Offset) : ∃ r, decKind D (i.mapLoc f) = .leaf r ∧ r = some (.Constant c) ∧ i.isTarget = false := by
  unfold AsmEnv.constInstr at h
  split at h <;> first
    | (cases h; exact ⟨_, rfl, rfl, rfl⟩)
    | (obtain ⟨a, ht, rfl⟩ := exceptMap_ok h
       exact ⟨_, rfl, by rw [ha.text _ _ _ ht]; rfl, rfl⟩)

theorem elemInstr_dec {e : TypedExpr} {i : Instr Nat} (h : env.elemInstr e = .ok i) (f : Nat → Offset) :
    ∃ build, decKind D (i.mapLoc f) = .node 2 build ∧ (∀ a b, build [a, b] = some (.ArrayElem a b)) ∧
      i.isTarget = false := by
  unfold AsmEnv.elemInstr at h
  split at h
  · cases h
  · obtain ⟨a, h1, rfl⟩ := exceptMap_ok h
    exact ⟨_, rfl, fun _ _ => rfl, rfl⟩
  · obtain ⟨a, h1, rfl⟩ := exceptMap_ok h
    exact ⟨_, rfl, fun _ _ => rfl, rfl⟩
  · cases h

theorem intrinsicInstr_dec {op : IntrinsicOp} {args : List TypedExpr} {ret : TypeId} {i : Instr Nat}
    (h : env.intrinsicInstr op args ret = .ok i) (f : Nat → Offset) :
    decKind D (i.mapLoc f) = .typed op (intrinsicTypes D env op ret) ∧ i.isTarget = false := by
  cases op <;> simp only [AsmEnv.intrinsicInstr] at h
  case ToString =>
    cases args with
    | nil => cases h
    | cons a as =>
      simp only at h
      split at h
      · cases h
      · cases h; exact ⟨rfl, rfl⟩
      · obtain ⟨a, h1, rfl⟩ := exceptMap_ok h; exact ⟨rfl, rfl⟩
  case IsDefined =>
    cases args with
    | nil => cases h
    | cons a as =>
      simp only at h
      split at h <;> first | (cases h; done) | (cases h; exact ⟨rfl, rfl⟩)
  case IntEnum =>
    obtain ⟨a, h1, rfl⟩ := exceptMap_ok h
    exact ⟨by simp only [intrinsicTypes, h1]; rfl, rfl⟩
  case FromVariant =>
    obtain ⟨a, h1, rfl⟩ := exceptMap_ok h
    exact ⟨by simp only [intrinsicTypes, h1]; rfl, rfl⟩
  all_goals first
    | (cases h; exact ⟨rfl, rfl⟩)
    | (obtain ⟨a, h1, rfl⟩ := exceptMap_ok h; exact ⟨rfl, rfl⟩)

theorem readsP_omitted {n l : Nat} :
    ∀ {k}, ListAt out k (List.replicate n .Nop ++ [.ParamEnd, .Target l]) k' → ReadsP D bs out k k' [] := by
  induction n with
  | zero =>
    intro k h
    rw [List.replicate_zero, List.nil_append, ListAt.cons rfl, ListAt.target, ListAt.nil] at h
    obtain ⟨⟨f, h1⟩, rfl⟩ := h
    exact reads_params_end h1 rfl
  | succ n ih =>
    intro k h
    rw [List.replicate_succ, List.cons_append, ListAt.cons rfl] at h
    obtain ⟨⟨f, h1⟩, h2⟩ := h
    exact reads_params_skip h1 rfl (ih h2)

theorem reads_call (ha : DecAgrees env D) {info : FnInfo} {b : Bool} {l : Nat} {f : Idx} {args : List TypedExpr}
    {d : List (Instr Nat)} {fn : DecFn} {params : List (Expr SourceAst)} {ctx : Option (Expr SourceAst)}
    {e : Expr SourceAst} (hi : env.function f = .ok info) (hf : D.function f = some fn)
    (hc : ListAt out k (callInstrs env info b l f args d) k')
    (hp : ∀ k, ListAt out k (d ++ (List.replicate (info.params.length - args.length) .Nop ++ [.ParamEnd, .Target l])) k' →
      ReadsP D bs out k k' params)
    (hs : staticCall fn ctx params = .ok e)
    (hv : flag FunctionFlags.isStaticBit info.flags = false → e = .MethodCall (ctx.getD .This) fn.name params) :
    ReadsE D bs ctx out k k' e := by
  have ht : (env.invokeInstr info b l f args).isTarget = false := by unfold AsmEnv.invokeInstr; split <;> rfl
  unfold callInstrs at hc
  rw [ListAt.cons ht] at hc
  obtain ⟨⟨g, h1⟩, h2⟩ := hc
  have h3 := hp _ h2
  unfold AsmEnv.invokeInstr at h1
  split at h1
  · rename_i hcond
    simp only [Bool.and_eq_true, Bool.not_eq_true'] at hcond
    obtain ⟨fn', hf', hn, _⟩ := ha.function f info hi
    rw [hf] at hf'; cases hf'
    rw [hv hcond.1.2]
    exact reads_virtual h1 rfl hn h3
  · exact reads_static h1 rfl hf h3 hs

theorem bind_some_iff' {a : Option α} {g : α → Option β} {b : β} (h : a.bind g = some b) :
    ∃ x, a = some x ∧ g x = some b := by
  cases a with
  | none => cases h
  | some x => exact ⟨x, rfl, h⟩

theorem map_some_iff' {a : Option α} {g : α → β} {b : β} (h : a.map g = some b) : ∃ x, a = some x ∧ g x = b := by
  cases a with
  | none => cases h
  | some x => exact ⟨x, rfl, by simpa using h⟩

set_option maxHeartbeats 2000000 in
mutual
theorem reads_asm (ha : DecAgrees env D) : ∀ (e : TypedExpr) (x : Option Nat) (n n' : Nat) (code : List (Instr Nat))
    (t : Expr SourceAst), e.isValue = true → asm env x e n = .ok (code, n') → readBack D env e = some t →
    ∀ k k', ListAt out k code k' → ReadsE D bs none out k k' t
  | .Ident r, x, n, n', code, t, hv, h, ht, k, k', hc => by
    obtain ⟨_, ⟨l, rfl, rfl⟩ | ⟨l, rfl, rfl⟩⟩ := asm_ident h <;> rw [ListAt.cons rfl, ListAt.nil] at hc <;>
      obtain ⟨⟨f, hm⟩, rfl⟩ := hc <;> simp only [readBack] at ht <;> exact reads_leaf hm rfl ht
  | .Constant c, x, n, n', code, t, hv, h, ht, k, k', hc => by
    obtain ⟨i, hi, _, rfl⟩ := asm_constant h
    obtain ⟨_, _, _, htg⟩ := constInstr_dec ha hi (fun _ => 0)
    rw [ListAt.cons htg, ListAt.nil] at hc
    obtain ⟨⟨f, hm⟩, rfl⟩ := hc
    simp only [readBack] at ht
    obtain ⟨r, h1, h2, _⟩ := constInstr_dec ha hi f
    exact reads_leaf hm h1 (h2.trans ht)
  | .Null, x, n, n', code, t, hv, h, ht, k, k', hc => by
    obtain ⟨_, rfl⟩ := asm_null h
    rw [ListAt.cons rfl, ListAt.nil] at hc
    obtain ⟨⟨f, hm⟩, rfl⟩ := hc
    simp only [readBack] at ht
    exact reads_leaf hm rfl ht
  | .This, x, n, n', code, t, hv, h, ht, k, k', hc => by
    obtain ⟨_, rfl⟩ := asm_this h
    rw [ListAt.cons rfl, ListAt.nil] at hc
    obtain ⟨⟨f, hm⟩, rfl⟩ := hc
    simp only [readBack] at ht
    exact reads_leaf hm rfl ht
  | .Super, x, n, n', code, t, hv, h, ht, k, k', hc => by
    obtain ⟨_, rfl⟩ := asm_super h
    rw [ListAt.cons rfl, ListAt.nil] at hc
    obtain ⟨⟨f, hm⟩, rfl⟩ := hc
    simp only [readBack] at ht
    exact reads_leaf hm rfl ht
  | .Cast ty e, x, n, n', code, t, hv, h, ht, k, k', hc => by
    obtain ⟨c, d, rfl, h1, rfl⟩ := asm_cast h
    rw [ListAt.cons rfl] at hc
    obtain ⟨⟨f, hm⟩, hc⟩ := hc
    simp only [readBack] at ht
    obtain ⟨a, ha1, ht⟩ := bind_some_iff' ht
    simp only [Expr.isValue] at hv
    exact reads_node hm rfl (reads_n_succ (reads_asm ha e none _ _ d a hv h1 ha1 _ _ hc) reads_n_zero) ht
  | .Assign a b, x, n, n', code, t, hv, h, ht, k, k', hc => by
    obtain ⟨c, m, d, h1, h2, rfl⟩ := asm_assign h
    rw [ListAt.cons rfl, ListAt.append] at hc
    obtain ⟨⟨f, hm⟩, j, hc1, hc2⟩ := hc
    simp only [readBack] at ht
    obtain ⟨ta, ha1, ht⟩ := bind_some_iff' ht
    obtain ⟨tb, hb1, ht⟩ := map_some_iff' ht
    simp only [Expr.isValue, Bool.and_eq_true] at hv
    exact reads_node hm rfl (reads_n_succ (reads_asm ha a none _ _ c ta hv.1 h1 ha1 _ _ hc1)
      (reads_n_succ (reads_asm ha b none _ _ d tb hv.2 h2 hb1 _ _ hc2) reads_n_zero)) (congrArg some ht)
  | .ArrayElem a b, x, n, n', code, t, hv, h, ht, k, k', hc => by
    obtain ⟨instr, c, m, d, h0, h1, h2, rfl⟩ := asm_elem h
    obtain ⟨_, _, _, htg⟩ := elemInstr_dec (D := D) h0 (fun _ => 0)
    rw [ListAt.cons htg, ListAt.append] at hc
    obtain ⟨⟨f, hm⟩, j, hc1, hc2⟩ := hc
    simp only [readBack] at ht
    obtain ⟨ta, ha1, ht⟩ := bind_some_iff' ht
    obtain ⟨tb, hb1, ht⟩ := map_some_iff' ht
    simp only [Expr.isValue, Bool.and_eq_true] at hv
    obtain ⟨build, hk, hb, _⟩ := elemInstr_dec (D := D) h0 f
    exact reads_node hm hk (reads_n_succ (reads_asm ha a none _ _ c ta hv.1 h1 ha1 _ _ hc1)
      (reads_n_succ (reads_asm ha b none _ _ d tb hv.2 h2 hb1 _ _ hc2) reads_n_zero))
      ((hb _ _).trans (congrArg some ht))
  | .New ty args, x, n, n', code, t, hv, h, ht, k, k', hc => by
    rcases asm_new h with ⟨c, rfl, rfl, rfl⟩ | ⟨c, d, rfl, h1, rfl⟩
    · rw [ListAt.cons rfl, ListAt.nil] at hc
      obtain ⟨⟨f, hm⟩, rfl⟩ := hc
      simp only [readBack] at ht
      exact reads_leaf hm rfl ht
    · rw [ListAt.cons rfl] at hc
      obtain ⟨⟨f, hm⟩, hc⟩ := hc
      simp only [readBack] at ht
      obtain ⟨ta, ha1, ht⟩ := bind_some_iff' ht
      simp only [Expr.isValue, Bool.and_eq_true, decide_eq_true_eq] at hv
      have hlen : (BitVec.ofNat 8 args.length).toNat = args.length := by
        rw [BitVec.toNat_ofNat, Nat.mod_eq_of_lt (by omega)]
      refine reads_node (n := (BitVec.ofNat 8 args.length).toNat) hm rfl ?_ ht
      rw [hlen]
      exact readsAll_asm ha args none _ _ d ta hv.2 h1 ha1 _ _ hc
  | .Conditional c u e, x, n, n', code, t, hv, h, ht, k, k', hc => by
    obtain ⟨cond, n1, true_, n2, false_, h1, h2, h3, rfl⟩ := asm_conditional h
    rw [ListAt.cons rfl, ListAt.append] at hc
    obtain ⟨⟨f, hm⟩, j1, hc1, hc⟩ := hc
    rw [ListAt.append] at hc
    obtain ⟨j2, hc2, hc⟩ := hc
    rw [ListAt.target, ListAt.append] at hc
    obtain ⟨j3, hc3, hc⟩ := hc
    rw [ListAt.target, ListAt.nil] at hc
    subst hc
    simp only [readBack] at ht
    obtain ⟨tc, hr1, ht⟩ := bind_some_iff' ht
    obtain ⟨tt, hr2, ht⟩ := bind_some_iff' ht
    obtain ⟨te, hr3, ht⟩ := map_some_iff' ht
    simp only [Expr.isValue, Bool.and_eq_true] at hv
    exact reads_node hm rfl (reads_n_succ (reads_asm ha c none _ _ cond tc hv.1.1 h1 hr1 _ _ hc1)
      (reads_n_succ (reads_asm ha u none _ _ true_ tt hv.1.2 h2 hr2 _ _ hc2)
      (reads_n_succ (reads_asm ha e none _ _ false_ te hv.2 h3 hr3 _ _ hc3) reads_n_zero))) (congrArg some ht)
  | .Member e m, x, n, n', code, t, hv, h, ht, k, k', hc => by
    rcases asm_member h with ⟨f, d, rfl, h1, rfl⟩ | ⟨f, d, rfl, h1, rfl⟩ | ⟨a, b, rfl, rfl, rfl⟩
    · rw [ListAt.cons rfl, ListAt.append] at hc
      obtain ⟨⟨g, hm⟩, j, hc1, hc⟩ := hc
      rw [ListAt.cons rfl, ListAt.target, ListAt.nil] at hc
      obtain ⟨⟨g2, hm2⟩, rfl⟩ := hc
      simp only [readBack] at ht
      obtain ⟨te, hr, ht⟩ := bind_some_iff' ht
      obtain ⟨name, hn, ht⟩ := map_some_iff' ht
      simp only [Expr.isValue] at hv
      refine reads_context hm rfl (reads_asm ha e none _ _ d te hv h1 hr _ _ hc1) ?_
      intro blk
      obtain ⟨p, hp⟩ := consumeWith_at (D := D) (bs := bs) hm2
      refine ⟨1, fun m hm => ?_⟩
      obtain ⟨m, rfl⟩ : ∃ m', m = m' + 1 := ⟨m - 1, by omega⟩
      show consumeWith D bs (m + 1) (some te) blk (cursorAt out j) = _
      rw [hp, show decKind D ((Instr.ObjectField f : Instr Nat).mapLoc g2) = .objectField f from rfl, ← ht]
      simp only [hn, Option.getD_some]
    · rw [ListAt.cons rfl] at hc
      obtain ⟨⟨g, hm⟩, hc⟩ := hc
      simp only [readBack] at ht
      obtain ⟨te, hr, ht⟩ := bind_some_iff' ht
      simp only [Expr.isValue] at hv
      exact reads_node hm rfl (reads_n_succ (reads_asm ha e none _ _ d te hv h1 hr _ _ hc) reads_n_zero) ht
    · rw [ListAt.cons rfl, ListAt.nil] at hc
      obtain ⟨⟨f, hm⟩, rfl⟩ := hc
      simp only [readBack] at ht
      exact reads_leaf hm rfl ht
  | .Call (Callable.Function f) tys args, x, n, n', code, t, hv, h, ht, k, k', hc => by
    obtain ⟨info, d, hi, hl, h1, rfl⟩ := asm_call_function h
    simp only [Expr.isValue] at hv
    simp only [readBack] at ht
    obtain ⟨fn, hf, ht⟩ := bind_some_iff' ht
    obtain ⟨ta, hr, ht⟩ := bind_some_iff' ht
    obtain ⟨fn', hf', _, hs⟩ := ha.function f info hi
    rw [hf] at hf'; cases hf'
    split at ht
    · rename_i hst
      rw [hst] at hs
      refine reads_call ha hi hf hc (fun k hk => readsParams_asm ha args info.params _ _ d ta hv hl h1 hr _ _ _ hk) ?_ ?_
      · simp only [staticCall, hst, if_true]
        split at ht
        · rename_i cls hp
          simp only [hp]; cases ht; rfl
        · rename_i hp
          simp only [hp]
          split at ht
          · rename_i hcast
            obtain ⟨ty, hty, rfl⟩ := map_some_iff' ht
            simp only [hcast, if_true, hty]
          · rename_i hcast
            cases ht
            simp only [hcast]; rfl
      · intro hfl; rw [hfl] at hs; cases hs
    · cases ht
  | .Call (Callable.Intrinsic op ty) tys args, x, n, n', code, t, hv, h, ht, k, k', hc => by
    obtain ⟨instr, d, h0, h1, rfl⟩ := asm_call_intrinsic h
    obtain ⟨_, htg⟩ := intrinsicInstr_dec (D := D) h0 (fun _ => 0)
    rw [ListAt.cons htg] at hc
    obtain ⟨⟨g, hm⟩, hc⟩ := hc
    obtain ⟨hk, _⟩ := intrinsicInstr_dec (D := D) h0 g
    simp only [readBack] at ht
    obtain ⟨tt, hr1, ht⟩ := bind_some_iff' ht
    obtain ⟨ta, hr2, ht⟩ := map_some_iff' ht
    simp only [Expr.isValue, Bool.and_eq_true, decide_eq_true_eq] at hv
    refine reads_node (n := op.argCount) hm hk ?_ ?_ (args := ta)
    · rw [← hv.1]
      exact readsAll_asm ha args none _ _ d ta hv.2 h1 hr2 _ _ hc
    · rw [hr1, ← ht]; rfl
  | .MethodCall c f args, x, n, n', code, t, hv, h, ht, k, k', hc => by
    simp only [Expr.isValue, Bool.and_eq_true] at hv
    simp only [readBack] at ht
    obtain ⟨fn, hf, ht⟩ := bind_some_iff' ht
    obtain ⟨ta, hr, ht⟩ := bind_some_iff' ht
    obtain ⟨info, hi, hl, ⟨htn, hst, d, h1, rfl⟩ | ⟨htn, hst, recv, n1, d, h1, h2, rfl⟩⟩ := asm_method h
    · simp only [htn, if_true] at ht
      obtain ⟨cls, hp, rfl⟩ := map_some_iff' ht
      obtain ⟨fn', hf', _, hs⟩ := ha.function f info hi
      rw [hf] at hf'; cases hf'
      rw [hst] at hs
      refine reads_call ha hi hf hc (fun k hk => readsParams_asm ha args info.params _ _ d ta hv.2 hl h1 hr _ _ _ hk) ?_ ?_
      · simp only [staticCall, hs, if_true, hp]
      · intro hfl; rw [hfl] at hst; cases hst
    · simp only [htn, Bool.false_eq_true, if_false] at ht
      obtain ⟨tc, hr2, rfl⟩ := map_some_iff' ht
      rw [ListAt.cons rfl, ListAt.append] at hc
      obtain ⟨⟨g, hm⟩, j, hc1, hc⟩ := hc
      rw [ListAt.append] at hc
      obtain ⟨j2, hc2, hc⟩ := hc
      rw [ListAt.target, ListAt.nil] at hc
      subst hc
      refine reads_context hm rfl (reads_asm ha c none _ _ recv tc hv.1 h1 hr2 _ _ hc1) ?_
      exact reads_call ha hi hf hc2 (fun k hk => readsParams_asm ha args info.params _ _ d ta hv.2 hl h2 hr _ _ _ hk)
        rfl fun _ => rfl
  | .Declare _ _ _, _, _, _, _, _, hv, _, _, _, _, _ => by simp [Expr.isValue] at hv
  | .Return _, _, _, _, _, _, hv, _, _, _, _, _ => by simp [Expr.isValue] at hv
  | .Break, _, _, _, _, _, hv, _, _, _, _, _ => by simp [Expr.isValue] at hv
  | .Seq _, _, _, _, _, _, hv, _, _, _, _, _ => by simp [Expr.isValue] at hv
  | .If _ _ _, _, _, _, _, _, hv, _, _, _, _, _ => by simp [Expr.isValue] at hv
  | .While _ _, _, _, _, _, _, hv, _, _, _, _, _ => by simp [Expr.isValue] at hv
  | .Switch _ _ _, _, _, _, _, _, hv, _, _, _, _, _ => by simp [Expr.isValue] at hv
  | .ArrayLit _ _, _, _, _, _, _, hv, _, _, _, _, _ => by simp [Expr.isValue] at hv
  | .InterpolatedString _ _, _, _, _, _, _, hv, _, _, _, _, _ => by simp [Expr.isValue] at hv
  | .ForIn _ _ _, _, _, _, _, _, hv, _, _, _, _, _ => by simp [Expr.isValue] at hv
  | .BinOp _ _ _, _, _, _, _, _, hv, _, _, _, _, _ => by simp [Expr.isValue] at hv
  | .UnOp _ _, _, _, _, _, _, hv, _, _, _, _, _ => by simp [Expr.isValue] at hv
  | .Goto _, _, _, _, _, _, hv, _, _, _, _, _ => by simp [Expr.isValue] at hv
  termination_by e => sizeOf e
theorem readsAll_asm (ha : DecAgrees env D) : ∀ (es : List TypedExpr) (x : Option Nat) (n n' : Nat)
    (code : List (Instr Nat)) (ts : List (Expr SourceAst)), Expr.areValues es = true →
    asmSeq env x es n = .ok (code, n') → readBackAll D env es = some ts →
    ∀ k k', ListAt out k code k' → DecReads (fun m => consumeN D bs m es.length) out k k' ts
  | [], x, n, n', code, ts, hv, h, ht, k, k', hc => by
    simp only [asmSeq] at h
    cases h
    simp only [readBackAll] at ht
    cases ht
    rw [ListAt.nil] at hc
    subst hc
    exact reads_n_zero
  | e :: es, x, n, n', code, ts, hv, h, ht, k, k', hc => by
    obtain ⟨c, m, d, h1, h2, rfl⟩ := asmSeq_cons h
    rw [ListAt.append] at hc
    obtain ⟨j, hc1, hc2⟩ := hc
    simp only [readBackAll] at ht
    obtain ⟨t, hr1, ht⟩ := bind_some_iff' ht
    obtain ⟨tt, hr2, rfl⟩ := map_some_iff' ht
    simp only [Expr.areValues, Bool.and_eq_true] at hv
    exact reads_n_succ (reads_asm ha e x _ _ c t hv.1 h1 hr1 _ _ hc1)
      (readsAll_asm ha es x _ _ d tt hv.2 h2 hr2 _ _ hc2)
  termination_by es => sizeOf es
theorem readsParams_asm (ha : DecAgrees env D) : ∀ (es : List TypedExpr) (ps : List ParameterFlags) (n n' : Nat)
    (code : List (Instr Nat)) (ts : List (Expr SourceAst)), Expr.areValues es = true → es.length ≤ ps.length →
    asmArgs env es ps n = .ok (code, n') → readBackAll D env es = some ts → ∀ l k k',
    ListAt out k (code ++ (List.replicate (ps.length - es.length) .Nop ++ [.ParamEnd, .Target l])) k' →
    ReadsP D bs out k k' ts
  | [], ps, n, n', code, ts, hv, hl, h, ht, l, k, k', hc => by
    obtain ⟨_, rfl⟩ := asmArgs_nil h
    simp only [readBackAll] at ht
    cases ht
    exact readsP_omitted hc
  | _ :: _, [], n, n', code, ts, hv, hl, h, ht, l, k, k', hc => by simp at hl
  | e :: es, fl :: ps, n, n', code, ts, hv, hl, h, ht, l, k, k', hc => by
    simp only [List.length_cons, Nat.add_le_add_iff_right] at hl
    simp only [List.length_cons, Nat.reduceSubDiff] at hc
    simp only [readBackAll] at ht
    obtain ⟨t, hr1, ht⟩ := bind_some_iff' ht
    obtain ⟨tt, hr2, rfl⟩ := map_some_iff' ht
    simp only [Expr.areValues, Bool.and_eq_true] at hv
    have main : ∀ (m : Nat) (c : List (Instr Nat)) (r k j : Nat), asm env none e m = .ok (c, r) → ListAt out k c j →
        ReadsP D bs out j k' tt → ReadsP D bs out k k' (t :: tt) := by
      intro m c r k j h1 hc1 hrest
      obtain ⟨i, rest, rfl, htg, _, _⟩ := expr_first (ρ := fun _ => 0) hv.1 h1
      have hc1' := hc1
      rw [ListAt.cons htg] at hc1'
      obtain ⟨⟨g, hm⟩, _⟩ := hc1'
      obtain ⟨i', rest', he, _, hpk, hsk⟩ := expr_first (ρ := g) hv.1 h1
      simp only [List.cons.injEq] at he
      obtain ⟨rfl, rfl⟩ := he
      exact reads_params_value hm (peekKind_value hpk hsk) (reads_asm ha e none _ _ _ t hv.1 h1 hr1 _ _ hc1) hrest
    rcases asmArgs_cons h with ⟨hf, c, m, d, h1, h2, rfl⟩ | ⟨hf, c, m, d, h1, h2, rfl⟩
    · simp only [List.cons_append, List.append_assoc] at hc
      rw [ListAt.cons rfl, ListAt.append] at hc
      obtain ⟨⟨g, hs⟩, j, h3, h4⟩ := hc
      rw [ListAt.target] at h4
      exact reads_params_skip hs rfl (main _ c _ _ _ h1 h3
        (readsParams_asm ha es ps _ _ d tt hv.2 hl h2 hr2 l _ _ h4))
    · rw [List.append_assoc, ListAt.append] at hc
      obtain ⟨j, h3, h4⟩ := hc
      exact main _ c _ _ _ h1 h3 (readsParams_asm ha es ps _ _ d tt hv.2 hl h2 hr2 l _ _ h4)
  termination_by es => sizeOf es
end

end

end Redscript
