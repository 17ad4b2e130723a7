import Verif.Decompiler.ShownContext

/-!
# The decompiler shows the statements

The main induction: the code of statements that can be read back is read as the statements that are shown.
-/

namespace Redscript

section
variable {D : DecEnv} {bs : BinarySearch} {env : AsmEnv} {out : List (Instr Offset)} {ρ : Nat → Location}

/-- A path ends at the end of the code. -/
theorem path_eof {T : Location} {blk : Option BlockContext} :
    PathTo D bs T blk false out out.length out.length [] := by
  refine ⟨2, fun m hm => ?_⟩
  obtain ⟨m, rfl⟩ : ∃ m', m = m' + 2 := ⟨m - 2, by omega⟩
  have hp : liftCursor (cursorAt out out.length).pop = .error (.cursor .endOfCode) := by
    unfold liftCursor CodeCursor.pop cursorAt CodeCursor.new
    simp
  have hw : consumeWith D bs (m + 1) none blk (cursorAt out out.length) = .error (.cursor .endOfCode) := by
    rw [consumeWith, posOf_cursor (Nat.le_refl _), hp]; rfl
  show consumePath D bs T blk (m + 1 + 1) false (cursorAt out out.length) = _
  rw [consumePath, posOf_cursor (Nat.le_refl _), hw]
  simp only [bind, Except.bind]
  split <;> rfl

theorem readStmt_if_none {c : TypedExpr} {t : List TypedExpr} {y : Expr SourceAst}
    (h : readStmt D env (.If c t none) = some y) :
    ∃ c' t', readBack D env c = some c' ∧ readStmts D env t = some t' ∧ y = .If c' t' none := by
  simp only [readStmt, readStmtsOpt] at h
  obtain ⟨c', hc, h⟩ := bind_some_iff' h; obtain ⟨t', ht, h⟩ := bind_some_iff' h
  cases h
  exact ⟨c', t', hc, ht, rfl⟩

theorem readStmt_if_some {c : TypedExpr} {t e : List TypedExpr} {y : Expr SourceAst}
    (h : readStmt D env (.If c t (some e)) = some y) :
    ∃ c' t' e', readBack D env c = some c' ∧ readStmts D env t = some t' ∧ readStmts D env e = some e' ∧
      y = .If c' t' (some e') := by
  simp only [readStmt, readStmtsOpt] at h
  obtain ⟨c', hc, h⟩ := bind_some_iff' h; obtain ⟨t', ht, h⟩ := bind_some_iff' h
  obtain ⟨o, ho, rfl⟩ := map_some_iff' h
  obtain ⟨e', he, rfl⟩ := map_some_iff' ho
  exact ⟨c', t', e', hc, ht, he, rfl⟩

/-- A single expression is read as it is. -/
theorem value_reads (ha : DecAgrees env D) (ok : CodeOk out) {e : TypedExpr} {x : Option Nat} {n n' : Nat}
    {code : List (Instr Nat)} (hv : e.isValue = true) (h : asm env x e n = .ok (code, n')) {k k' : Nat}
    (hc : PlacedAt out ρ k code k') (hk : k' ≤ out.length) {blk : Option BlockContext} {w : TailPos}
    {xs : List (Expr SourceAst)} (hx : readStmts D env (shownStmt env w e) = some xs) :
    ReadsL D bs blk out k k' xs := by
  obtain ⟨h1, h2, _⟩ := shownStmt_other (D := D) (env := env) (w := w) hv
  rw [h1] at hx
  obtain ⟨y, ys, hy, hys, rfl⟩ := readStmts_cons.1 hx
  rw [readStmts_nil] at hys; subst hys
  rw [h2] at hy
  obtain ⟨hlt, _⟩ := value_head hv h hc
  exact .one ok hlt hk (reads_asm ha e x n n' code y hv h hy k k' hc.listAt blk)

/-- The code of a `return`. -/
theorem return_reads (ha : DecAgrees env D) {e : Option TypedExpr} {x : Option Nat} {n n' : Nat}
    {code : List (Instr Nat)} (hs : (Expr.Return e : TypedExpr).isStatement = true)
    (h : asm env x (.Return e) n = .ok (code, n')) {k k' : Nat}
    (hc : PlacedAt out ρ k code k') {blk : Option BlockContext}
    {y : Expr SourceAst} (hx : readStmt D env (.Return e) = some y) : k < k' ∧ ReadsS D bs blk out k k' y := by
  cases e with
  | none =>
    obtain ⟨_, rfl⟩ := asm_return_none h
    rw [PlacedAt.cons rfl, PlacedAt.cons rfl, PlacedAt.nil] at hc
    obtain ⟨h1, h2, rfl⟩ := hc
    simp only [readStmt] at hx
    cases hx
    exact ⟨by omega, reads_return_none h1 h2⟩
  | some e =>
    obtain ⟨d, h1, rfl⟩ := asm_return_some h
    rw [PlacedAt.cons rfl] at hc
    simp only [readStmt] at hx
    obtain ⟨y, hy, rfl⟩ := map_some_iff' hx
    simp only [Expr.isStatement] at hs
    obtain ⟨hlt, i, hi, _, hn⟩ := value_head hs h1 hc.2
    exact ⟨by omega, reads_return_some hc.1 hi hn (reads_asm ha e none _ _ _ y hs h1 hy _ _ hc.2.listAt)⟩

/-- What is read as one statement is read as it. -/
theorem ReadsL.single {blk : Option BlockContext} {k k' : Nat} {y : Expr SourceAst} (h : ReadsL D bs blk out k k' [y])
    (ok : CodeOk out) (hk : k < k') (hk' : k' < out.length) : ReadsS D bs blk out k k' y := by
  obtain ⟨N, h⟩ := h.path (Nat.le_of_lt hk')
  refine ⟨N + 1, fun m hm => ?_⟩
  obtain ⟨m, rfl⟩ : ∃ m', m = m' + 1 := ⟨m - 1, by omega⟩
  have h1 : consumePath D bs (posAt out k') blk (m + 1 + 1) false (cursorAt out k) = .ok ([y], cursorAt out k') :=
    h (m + 1 + 1) (by omega)
  have hlt := ok.pos_lt hk (Nat.le_of_lt hk')
  rw [consumePath, posOf_cursor (by omega)] at h1
  simp only [bind, Except.bind] at h1
  rw [if_neg (by simp; omega)] at h1
  show consumeWith D bs (m + 1) none blk (cursorAt out k) = _
  cases hw : consumeWith D bs (m + 1) none blk (cursorAt out k) with
  | error e =>
    rw [hw] at h1
    split at h1
    · rename_i h2; cases h2
    · cases h1
    · cases h1
  | ok r =>
    obtain ⟨e, c⟩ := r
    rw [hw] at h1
    simp only at h1
    cases h2 : consumePath D bs (posAt out k') blk (m + 1) (endsPath e) c with
    | error e => rw [h2] at h1; cases h1
    | ok r =>
      obtain ⟨es, c'⟩ := r
      rw [h2] at h1
      simp only [Except.ok.injEq, Prod.mk.injEq, List.cons.injEq] at h1
      obtain ⟨⟨rfl, rfl⟩, rfl⟩ := h1
      rw [consumePath] at h2
      simp only [bind, Except.bind] at h2
      split at h2
      · cases h2
      · split at h2
        · simp only [Except.ok.injEq, Prod.mk.injEq, true_and] at h2
          rw [h2]
        · split at h2
          · split at h2
            · cases h2
            · simp at h2
          · simp only [Except.ok.injEq, Prod.mk.injEq, true_and] at h2
            have hc := congrArg (·.code) h2
            have hi := congrArg (·.index) h2
            simp only [cursorAt] at hc hi
            have hc : c.code = out := hc
            rw [hc] at hi
            have hi : out.length = k' := hi
            omega
          · cases h2

mutual
/-- Where `break` leads to makes no difference without one. -/
theorem asm_exit (env : AsmEnv) (x x' : Option Nat) : ∀ (e : TypedExpr) (n : Nat), e.strayBreak = false →
    asm env x e n = asm env x' e n
  | .Break, n, h => by simp [Expr.strayBreak] at h
  | .Seq es, n, h => by
    simp only [Expr.strayBreak] at h
    simp only [asm, asmSeq_exit env x x' es _ h]
  | .If c t none, n, h => by
    simp only [Expr.strayBreak, Bool.or_eq_false_iff] at h
    simp only [asm, asmSeq_exit env x x' t _ h.1, asmElse]
  | .If c t (some e), n, h => by
    simp only [Expr.strayBreak, Expr.optStrayBreak, Bool.or_eq_false_iff] at h
    simp only [asm, asmSeq_exit env x x' t _ h.1, asmElse, asmSeq_exit env x x' e _ h.2]
  | .Declare a b c, n, h => by cases c <;> cases b <;> simp only [asm]
  | .Return a, n, h => by cases a <;> simp only [asm]
  | .While a b, n, h => by simp only [asm]
  | .Switch a b c, n, h => by simp only [asm]
  | .Ident r, n, h => by simp only [asm]
  | .Constant _, n, h => by simp only [asm]
  | .Null, n, h => by simp only [asm]
  | .This, n, h => by simp only [asm]
  | .Super, n, h => by simp only [asm]
  | .Cast a b, n, h => by simp only [asm]
  | .Assign a b, n, h => by simp only [asm]
  | .ArrayElem a b, n, h => by simp only [asm]
  | .New a b, n, h => by simp only [asm]
  | .Conditional a b c, n, h => by simp only [asm]
  | .Member a b, n, h => by simp only [asm]
  | .Call a b c, n, h => by simp only [asm]
  | .MethodCall a b c, n, h => by simp only [asm]
  | .ArrayLit _ _, n, h => by simp only [asm]
  | .InterpolatedString _ _, n, h => by simp only [asm]
  | .ForIn _ _ _, n, h => by simp only [asm]
  | .BinOp _ _ _, n, h => by simp only [asm]
  | .UnOp _ _, n, h => by simp only [asm]
  | .Goto _, n, h => by simp only [asm]
  termination_by e => sizeOf e
theorem asmSeq_exit (env : AsmEnv) (x x' : Option Nat) : ∀ (es : List TypedExpr) (n : Nat),
    Expr.anyStrayBreak es = false → asmSeq env x es n = asmSeq env x' es n
  | [], n, h => by simp only [asmSeq]
  | e :: es, n, h => by
    simp only [Expr.anyStrayBreak, Bool.or_eq_false_iff] at h
    have ih : asmSeq env x es = asmSeq env x' es := funext fun n => asmSeq_exit env x x' es n h.2
    simp only [asmSeq, asm_exit env x x' e _ h.1, ih]
  termination_by es => sizeOf es
end

mutual
theorem innerBreak_stray (env : AsmEnv) : ∀ e : TypedExpr, e.strayBreak = false → e.innerBreak env = false
  | .Seq es, h => by
    simp only [Expr.strayBreak] at h
    simp only [Expr.innerBreak, innerBreakAll_stray env es h]
  | .If c t none, h => by
    simp only [Expr.strayBreak, Bool.or_eq_false_iff] at h
    simp only [Expr.innerBreak, innerBreakAll_stray env t h.1]
  | .If c t (some e), h => by
    simp only [Expr.strayBreak, Expr.optStrayBreak, Bool.or_eq_false_iff] at h
    simp only [Expr.innerBreak, h.1, innerBreakAll_stray env e h.2, Bool.or_false]
  | .Break, h => rfl
  | .Declare a b c, h => rfl
  | .Return a, h => rfl
  | .While a b, h => rfl
  | .Switch a b c, h => rfl
  | .Ident r, h => rfl
  | .Constant _, h => rfl
  | .Null, h => rfl
  | .This, h => rfl
  | .Super, h => rfl
  | .Cast a b, h => rfl
  | .Assign a b, h => rfl
  | .ArrayElem a b, h => rfl
  | .New a b, h => rfl
  | .Conditional a b c, h => rfl
  | .Member a b, h => rfl
  | .Call a b c, h => rfl
  | .MethodCall a b c, h => rfl
  | .ArrayLit _ _, h => rfl
  | .InterpolatedString _ _, h => rfl
  | .ForIn _ _ _, h => rfl
  | .BinOp _ _ _, h => rfl
  | .UnOp _ _, h => rfl
  | .Goto _, h => rfl
  termination_by e => sizeOf e
theorem innerBreakAll_stray (env : AsmEnv) : ∀ es : List TypedExpr, Expr.anyStrayBreak es = false →
    Expr.innerBreakAll env es = false
  | [], h => rfl
  | e :: es, h => by
    simp only [Expr.anyStrayBreak, Bool.or_eq_false_iff] at h
    simp only [Expr.innerBreakAll, innerBreak_stray env e h.1, h.1, innerBreakAll_stray env es h.2, ite_self, Bool.or_false]
  termination_by es => sizeOf es
end

/-- The label of the next case stands where it starts. -/
theorem cases_next {cs : List (TypedExpr × List TypedExpr)} {exit next next' n n' : Nat} {pend : Option Nat}
    {code : List (Instr Nat)} (h : asmCases env exit pend cs next n = .ok (code, next', n')) {k z : Nat}
    (hc : PlacedAt out ρ k code z) (hn : ρ next' = posAt out z) : ρ next = posAt out k := by
  cases cs with
  | nil =>
    obtain ⟨_, rfl, rfl⟩ := asmCases_nil h
    rw [PlacedAt.nil] at hc
    subst hc; exact hn
  | cons c cs =>
    obtain ⟨m, b⟩ := c
    obtain ⟨_, _, _, ⟨_, _, _, rfl⟩ | ⟨_, _, _, _, _, _, rfl⟩⟩ := asmCases_cons h
    · rw [PlacedAt.target] at hc; exact hc.1
    · rw [PlacedAt.target] at hc; exact hc.1

theorem ite_orElse (a b : Bool) (x y : α) :
    (if (a || b) = true then x else y) = if b = true then x else if a = true then x else y := by
  cases a <;> cases b <;> rfl

/-- What is known when the cases of a switch are read. -/
def CasesShow (env : AsmEnv) (dflt : Bool) (cs : List (TypedExpr × List TypedExpr)) (ep : Location)
    (blk : Option BlockContext) (w : TailPos) : Prop :=
  (blk = some (.switch ep) ∧ w = if dflt then .inner else .known) ∨
  (blk = none ∧ if breaksEarly dflt cs then w = (if dflt then .inner else .known) else
    w = (if dflt then .inner else .last) ∧ (dflt = true ∨ lastInnerBreak env cs = false))

theorem lastEnds_switch {e : TypedExpr} {cs : List (TypedExpr × List TypedExpr)} {d : Option (List TypedExpr)}
    {y : Expr SourceAst} (h : readStmt D env (.Switch e cs d) = some y) : lastEnds [y] = false := by
  simp only [readStmt] at h
  obtain ⟨_, _, h⟩ := bind_some_iff' h
  obtain ⟨_, _, h⟩ := bind_some_iff' h
  obtain ⟨_, _, rfl⟩ := map_some_iff' h
  rfl

set_option maxRecDepth 2048 in
set_option maxHeartbeats 1000000 in
mutual
theorem stmt_reads (ha : DecAgrees env D) (ok : CodeOk out) : ∀ (e : TypedExpr) (x : Option Nat) (n n' : Nat) (code : List (Instr Nat)),
    e.isStatement = true → e.tidy env = true → asm env x e n = .ok (code, n') → ∀ (k k' : Nat),
    PlacedAt out ρ k code k' → k' < out.length → (e.opens = true → NotCaseAt out k') → ∀ (blk : Option BlockContext) (w : TailPos),
    TailOk out ρ x blk w k k' e.strayBreak (e.innerBreak env) → ∀ xs, readStmts D env (shownStmt env w e) = some xs →
    ReadsL D bs blk out k k' xs
  | .Declare l ty (some v), x, n, n', code, hs, ht, h, k, k', hc, hk', hop, blk, w, htl, xs, hx => by
    have hk := Nat.le_of_lt hk'
    obtain ⟨d, h1, rfl⟩ := asm_declare_some h
    simp only [Expr.isStatement] at hs
    rw [PlacedAt.cons rfl, PlacedAt.cons rfl] at hc
    obtain ⟨c1, c2, c3⟩ := hc
    simp only [shownStmt] at hx
    obtain ⟨y, ys, hy, hys, rfl⟩ := readStmts_cons.1 hx
    rw [readStmts_nil] at hys; subst hys
    simp only [readStmt, readBack] at hy
    obtain ⟨a, hna, hy⟩ := bind_some_iff' hy
    obtain ⟨r, hr, rfl⟩ := map_some_iff' hy
    have := c3.le
    exact .one ok (by omega) hk (reads_node (n := 2) c1 rfl (reads_n_succ (reads_leaf c2 rfl hna)
      (reads_n_succ (reads_asm ha v none _ _ _ r hs h1 hr _ _ c3.listAt) reads_n_zero)) rfl blk)
  | .Declare l ty none, x, n, n', code, hs, ht, h, k, k', hc, hk', hop, blk, w, htl, xs, hx => by
    have hk := Nat.le_of_lt hk'
    obtain ⟨t, rfl, _, h1⟩ := asm_declare_none h
    have hd := stmt_head _ x _ _ _ hs h k k' hc
    simp only [shownStmt] at hx
    split at hx
    · rename_i hno
      rw [readStmts_nil] at hx; subst hx
      rw [hd.1 hno]; exact .nil
    · rename_i hno
      obtain ⟨y, ys, hy, hys, rfl⟩ := readStmts_cons.1 hx
      rw [readStmts_nil] at hys; subst hys
      simp only [readStmt] at hy
      exact .one ok (hd.2 (by simpa using hno)).1 hk (reads_initializer ha h1 hy hc.listAt blk)
  | .Return e, x, n, n', code, hs, ht, h, k, k', hc, hk', hop, blk, w, htl, xs, hx => by
    have hk := Nat.le_of_lt hk'
    simp only [shownStmt] at hx
    obtain ⟨y, ys, hy, hys, rfl⟩ := readStmts_cons.1 hx
    rw [readStmts_nil] at hys; subst hys
    obtain ⟨h1, h2⟩ := return_reads ha hs h hc hy
    exact .one ok h1 hk h2
  | .Break, x, n, n', code, hs, ht, h, k, k', hc, hk', hop, blk, w, htl, xs, hx => by
    have hk := Nat.le_of_lt hk'
    obtain ⟨l, rfl, _, rfl⟩ := asm_break h
    rw [PlacedAt.cons rfl, PlacedAt.nil] at hc
    obtain ⟨c1, rfl⟩ := hc
    have c1 : out[k]? = some (.Jump ((ρ l).relative (posAt out k))) := c1
    have b3 := ok.by_three (q := ρ l) c1
    simp only [shownStmt] at hx
    have key : (w ≠ .inner ∧ ρ l = posAt out (k + 1)) ∨
        (w = .inner ∧ ρ l ≠ posAt out (k + 1) ∧ jumpRead blk (posAt out (k + 1)) (ρ l) = .Break) := by
      unfold TailOk at htl
      split at htl
      · rcases htl with ⟨_, h⟩ | ⟨rfl, _, h⟩
        · simp [Expr.strayBreak] at h
        · exact .inl ⟨by decide, h l rfl⟩
      · obtain ⟨rfl, h1, h2, h3⟩ := htl
        refine .inr ⟨rfl, fun he => ?_, ?_⟩
        · rw [h1 l rfl] at he; rw [he] at h3; omega
        · simp [jumpRead, h1 l rfl]
      · rcases htl.2 with ⟨rfl, h⟩ | ⟨rfl, h⟩
        · refine .inr ⟨rfl, fun he => ?_, ?_⟩
          · rw [htl.1 l rfl] at he; rw [he] at h; omega
          · simp [jumpRead, htl.1 l rfl]
        · exact .inl ⟨by decide, by rw [htl.1 l rfl, h]⟩
    rcases key with ⟨hw, he⟩ | ⟨hw, hne, hj⟩
    · rw [if_neg hw, readStmts_empty] at hx
      subst hx
      refine .one ok (by omega) hk (reads_empty c1 ?_)
      simp only [decKind, b3.2 he, if_true]
    · rw [if_pos hw, readStmts_break] at hx
      subst hx
      have := reads_jump (D := D) (bs := bs) (blk := blk) c1 fun h => hne (b3.1 h)
      rw [C05_offset_roundtrip, hj] at this
      exact .one ok (by omega) hk this
  | .Seq es, x, n, n', code, hs, ht, h, k, k', hc, hk', hop, blk, w, htl, xs, hx => by
    have hk := Nat.le_of_lt hk'
    simp only [Expr.isStatement] at hs
    simp only [Expr.tidy] at ht
    simp only [Expr.opens] at hop
    simp only [Expr.strayBreak, Expr.innerBreak] at htl
    simp only [shownStmt] at hx
    exact seq_reads ha ok es x n n' code hs ht (asm_seq h) k k' hc hk' hop blk w htl xs hx
  | .If c t none, x, n, n', code, hs, ht, h, k, k', hc, hk', hop, blk, w, htl, xs, hx => by
    have hk := Nat.le_of_lt hk'
    obtain ⟨cond, n1, then_, h1, h2, rfl⟩ := asm_if_none h
    simp only [Expr.isStatement, Expr.areStatementsOpt, Bool.and_true, Bool.and_eq_true] at hs
    simp only [Expr.tidy, Expr.optTidy, Bool.and_true] at ht
    simp only [Expr.opens] at hop
    simp only [Expr.strayBreak, Expr.optStrayBreak, Bool.or_false, Expr.innerBreak] at htl
    rw [PlacedAt.cons rfl, PlacedAt.append] at hc
    obtain ⟨c1, j, c2, c3⟩ := hc
    rw [PlacedAt.append] at c3
    obtain ⟨k2, c3, c4⟩ := c3
    rw [PlacedAt.target, PlacedAt.nil] at c4
    obtain ⟨hρ, rfl⟩ := c4
    have c1 : out[k]? = some (.JumpIfFalse ((ρ n).relative (posAt out k))) := c1
    have hj := (value_head hs.1 h1 c2).1
    have hj' := c3.le
    simp only [shownStmt] at hx
    obtain ⟨y, ys, hy, hys, rfl⟩ := readStmts_cons.1 hx
    rw [readStmts_nil] at hys; subst hys
    obtain ⟨c', t', hc', ht', rfl⟩ := readStmt_if_none hy
    have ih := seq_reads ha ok t x n1 n' then_ hs.2 ht h2 j k2 c3 hk' hop blk w
      (htl.tail ok (by omega) (fun h => h) (fun h => h)) t' ht'
    have hpk := ok.pos_lt (show k < k2 by omega) hk
    refine .one ok (by omega) hk (reads_if_none ok c1 ?_ (by rw [C05_offset_roundtrip, hρ]) hk
      (reads_asm ha c none _ _ _ c' hs.1 h1 hc' _ _ c2.listAt) ?_ (ih.path hk) (readStmts_jump D env _ _ ht'))
    · rw [hρ]; exact ok.forward (by omega)
    · refine jumps_on (code := .JumpIfFalse n :: (cond ++ then_)) ok
        ((PlacedAt.cons rfl).2 ⟨c1, PlacedAt.append.2 ⟨j, c2, c3⟩⟩) hk ?_
      intro l hl
      rcases List.mem_cons.1 hl with hl | hl
      · cases hl
      rcases List.mem_append.1 hl with hl | hl
      · exact absurd hl (jumpFree_mem (value_jumpFree env none c _ _ _ hs.1 h1))
      · refine seq_on ok hs.2 h2 c3 hk (by omega) (fun hb l hx => ?_) l hl
        have := htl.exit hb hx
        omega
  | .If c t (some e), x, n, n', code, hs, ht, h, k, k', hc, hk', hop, blk, w, htl, xs, hx => by
    have hk := Nat.le_of_lt hk'
    obtain ⟨cond, n1, then_, n2, else_, h1, h2, h3, rfl⟩ := asm_if_some h
    simp only [Expr.isStatement, Expr.areStatementsOpt, Bool.and_eq_true] at hs
    simp only [Expr.tidy, Expr.optTidy, Bool.and_eq_true] at ht
    simp only [Expr.opens] at hop
    simp only [Expr.strayBreak, Expr.optStrayBreak, Expr.innerBreak] at htl
    rw [PlacedAt.cons rfl, PlacedAt.append] at hc
    obtain ⟨c1, j, c2, c3⟩ := hc
    rw [PlacedAt.append] at c3
    obtain ⟨k2, c3, c4⟩ := c3
    rw [PlacedAt.cons rfl, PlacedAt.target, PlacedAt.append] at c4
    obtain ⟨c4, hρ, k3, c5, c6⟩ := c4
    rw [PlacedAt.target, PlacedAt.nil] at c6
    obtain ⟨hρ2, rfl⟩ := c6
    have c1 : out[k]? = some (.JumpIfFalse ((ρ n).relative (posAt out k))) := c1
    have c4 : out[k2]? = some (.Jump ((ρ n2).relative (posAt out k2))) := c4
    have hj := (value_head hs.1.1 h1 c2).1
    have hj' := c3.le
    have hj'' := c5.le
    have hk2 : k2 + 1 ≤ out.length := by omega
    have hc' := fun c' (hc' : readBack D env c = some c') => reads_asm (bs := bs) (out := out) ha c none _ _ _ c' hs.1.1 h1 hc' _ _ c2.listAt
    have hfw : ¬ ((ρ n).relative (posAt out k)).toInt < 0 := by rw [hρ]; exact ok.forward (by omega)
    have habs : ((ρ n).relative (posAt out k)).absolute (posAt out k) = posAt out (k2 + 1) := by
      rw [C05_offset_roundtrip, hρ]
    have hpk := ok.pos_lt (show k < k3 by omega) hk
    have hjb : JumpsBack bs out k (k2 + 1) false := by
      refine jumps_on (code := .JumpIfFalse n :: (cond ++ (then_ ++ [.Jump n2]))) ok
        ((PlacedAt.cons rfl).2 ⟨c1, PlacedAt.append.2 ⟨j, c2, PlacedAt.append.2 ⟨k2, c3, (PlacedAt.cons (i := .Jump n2) rfl).2 ⟨c4, PlacedAt.nil.2 rfl⟩⟩⟩⟩) hk2 ?_
      intro l hl
      rcases List.mem_cons.1 hl with hl | hl
      · cases hl
      rcases List.mem_append.1 hl with hl | hl
      · exact absurd hl (jumpFree_mem (value_jumpFree env none c _ _ _ hs.1.1 h1))
      rcases List.mem_append.1 hl with hl | hl
      · refine seq_on ok hs.1.2 h2 c3 (by omega) (by omega) (fun hb l hx => ?_) l hl
        have := htl.exit (by rw [hb]; rfl) hx
        omega
      · simp only [List.mem_singleton] at hl
        cases hl
        rw [hρ2]; exact hpk
    have hNotCase : NotCaseAt out k2 := by
      intro i hi
      rw [c4] at hi; cases hi
      exact notCase_of (.inl rfl)
    have ih1 := fun ts (hts : readStmts D env (shownAll env .inner t) = some ts) =>
      seq_reads ha ok t x n1 n2 then_ hs.1.2 ht.1 h2 j k2 c3 (by omega) (fun _ => hNotCase) blk .inner
        (htl.within (inn' := Expr.innerBreakAll env t) ok hk (show k ≤ j by omega) (.inl (by omega)) (fun h => by rw [h]; rfl)
          (fun hw => by have := htl.notInner hw; simp only [Bool.or_eq_false_iff] at this; exact this.1)) ts hts
    have ih2 := fun es (hes : readStmts D env (shownAll env w e) = some es) =>
      seq_reads ha ok e x _ n' else_ hs.2 ht.2 h3 (k2 + 1) k3 c5 hk' hop blk w
        (htl.tail ok (by omega) (fun h => by rw [h, Bool.or_true]) (fun h => by rw [h, Bool.or_true])) es hes
    have b3 := ok.by_three (q := ρ n2) c4
    rw [hρ2] at c4 b3
    have hends := fun ts (hts : readStmts D env (shownAll env .inner t) = some ts) =>
      ((readStmts_ends hts).1.trans (shownAll_ends env t hs.1.2 ht.1))
    have hhead := seq_head (out := out) (ρ := ρ) e x _ _ _ hs.2 h3 (k2 + 1) k3 c5
    simp only [shownStmt] at hx
    split at hx
    · -- the branch never goes on
      rename_i hst
      obtain ⟨y, ys, hy, hys, rfl⟩ := readStmts_cons.1 hx
      obtain ⟨c', ts, hcr, hts, rfl⟩ := readStmt_if_none hy
      have hp : PathTo D bs (posAt out (k2 + 1)) blk false out j k2 ts := by
        have := ih1 ts hts (posAt out (k2 + 1)) [] k2 (Nat.le_of_lt (ok.pos_lt (by omega) hk2))
        rw [hends ts hts, hst, List.append_nil] at this
        exact this (path_stop (by omega))
      have := ReadsL.one ok (show k < k2 + 1 by omega) hk2
        (reads_if_none ok c1 hfw habs hk2 (hc' c' hcr) hjb hp (readStmts_jump D env _ _ hts))
      exact .append ok this (ih2 ys hys) (by omega) rfl
    · rename_i hst
      rw [Bool.not_eq_true] at hst
      split at hx
      · -- there is no code for `else`
        rename_i hno
        obtain ⟨y, ys, hy, hys, rfl⟩ := readStmts_cons.1 hx
        rw [readStmts_nil] at hys; subst hys
        obtain ⟨c', ts', hcr, hts', rfl⟩ := readStmt_if_none hy
        obtain ⟨ts, em, hts, hem, rfl⟩ := readStmts_append.1 hts'
        rw [readStmts_empty] at hem; subst hem
        have he := hhead.1 hno
        subst he
        have hp : PathTo D bs (posAt out (k2 + 1)) blk false out j (k2 + 1) (ts ++ [emptyExpr]) := by
          refine ih1 ts hts (posAt out (k2 + 1)) [emptyExpr] (k2 + 1) (Nat.le_of_lt (ok.pos_lt (by omega) hk2)) ?_
          rw [hends ts hts, hst]
          refine path_cons (by omega) (ok.pos_lt (by omega) hk2) (reads_empty c4 ?_) (path_end hk2 (Nat.le_refl _))
          simp only [decKind, b3.2 rfl, if_true]
        exact .one ok (by omega) hk
          (reads_if_none ok c1 hfw habs hk2 (hc' c' hcr) hjb hp (readStmts_jump D env _ _ hts'))
      · rename_i hno
        rw [Bool.not_eq_true] at hno
        have hlt := (hhead.2 hno).1
        have hne : posAt out k3 ≠ posAt out (k2 + 1) := fun h => by have := ok.pos_inj hk hk2 h; omega
        have hjump := reads_jump (D := D) (bs := bs) (blk := blk) c4 fun h => hne (b3.1 h)
        rw [C05_offset_roundtrip, htl.jumpEnd ok (by omega)] at hjump
        split at hx
        · -- the end is known
          rename_i hw
          rw [if_pos hw] at hjump
          obtain ⟨y, ys, hy, hys, rfl⟩ := readStmts_cons.1 hx
          obtain ⟨c', ts', hcr, hts', rfl⟩ := readStmt_if_none hy
          obtain ⟨ts, em, hts, hem, rfl⟩ := readStmts_append.1 hts'
          rw [readStmts_break] at hem; subst hem
          have hp : PathTo D bs (posAt out (k2 + 1)) blk false out j (k2 + 1) (ts ++ [.Break]) := by
            refine ih1 ts hts (posAt out (k2 + 1)) [.Break] (k2 + 1) (Nat.le_of_lt (ok.pos_lt (by omega) hk2)) ?_
            rw [hends ts hts, hst]
            exact path_cons (by omega) (ok.pos_lt (by omega) hk2) hjump (path_end hk2 (Nat.le_refl _))
          have := ReadsL.one ok (show k < k2 + 1 by omega) hk2
            (reads_if_none ok c1 hfw habs hk2 (hc' c' hcr) hjb hp (readStmts_jump D env _ _ hts'))
          exact .append ok this (ih2 ys hys) (by omega) rfl
        · rename_i hw
          rw [if_neg hw] at hjump
          obtain ⟨y, ys, hy, hys, rfl⟩ := readStmts_cons.1 hx
          rw [readStmts_nil] at hys; subst hys
          obtain ⟨c', ts', es, hcr, hts', hes, rfl⟩ := readStmt_if_some hy
          obtain ⟨ts, em, hts, hem, rfl⟩ := readStmts_append.1 hts'
          rw [readStmts_empty] at hem; subst hem
          have hp : PathTo D bs (posAt out (k2 + 1)) blk false out j (k2 + 1) (ts ++ [.Goto (posAt out k3)]) := by
            refine ih1 ts hts (posAt out (k2 + 1)) [.Goto (posAt out k3)] (k2 + 1) (Nat.le_of_lt (ok.pos_lt (by omega) hk2)) ?_
            rw [hends ts hts, hst]
            exact path_cons (by omega) (ok.pos_lt (by omega) hk2) hjump (path_end hk2 (Nat.le_refl _))
          exact .one ok (by omega) hk (reads_if_some ok c1 hfw habs hk2 (hc' c' hcr) hjb hp
            (resolveJump_goto (readStmts_jump D env _ _ hts)) ((ih2 es hes).path hk))
  | .While c b, x, n, n', code, hs, ht, h, k, k', hc, hk', hop, blk, w, htl, xs, hx => by
    have hk := Nat.le_of_lt hk'
    obtain ⟨cond, n1, body, h1, h2, rfl⟩ := asm_while h
    simp only [Expr.isStatement, Bool.and_eq_true] at hs
    simp only [Expr.tidy, Bool.and_eq_true, Bool.not_eq_true'] at ht
    rw [PlacedAt.target, PlacedAt.cons rfl, PlacedAt.append] at hc
    obtain ⟨hρ1, c1, j, c2, c3⟩ := hc
    rw [PlacedAt.append] at c3
    obtain ⟨k2, c3, c4⟩ := c3
    rw [PlacedAt.cons rfl, PlacedAt.target, PlacedAt.nil] at c4
    obtain ⟨c4, hρ, rfl⟩ := c4
    have c1 : out[k]? = some (.JumpIfFalse ((ρ n).relative (posAt out k))) := c1
    have c4 : out[k2]? = some (.Jump ((ρ (n + 1)).relative (posAt out k2))) := c4
    have hj := (value_head hs.1 h1 c2).1
    have hj' := c3.le
    simp only [shownStmt] at hx
    obtain ⟨y, ys, hy, hys, rfl⟩ := readStmts_cons.1 hx
    rw [readStmts_nil] at hys; subst hys
    simp only [readStmt] at hy
    obtain ⟨c', hcr, hy⟩ := bind_some_iff' hy
    obtain ⟨bs', hbs', rfl⟩ := map_some_iff' hy
    obtain ⟨ts, em, hts, hem, rfl⟩ := readStmts_append.1 hbs'
    rw [readStmts_empty] at hem; subst hem
    have hNotCase : NotCaseAt out k2 := by
      intro i hi
      rw [c4] at hi; cases hi
      exact notCase_of (.inl rfl)
    have plt := ok.pos_lt (show k2 < k2 + 1 by omega) hk
    have ih := seq_reads ha ok b (some n) n1 n' body hs.2 ht.1 h2 j k2 c3 (by omega) (fun _ => hNotCase)
      (some (.loop (posAt out k) (posAt out (k2 + 1)))) .inner
      ⟨rfl, fun l hl => by cases hl; exact hρ, ok.pos_lt (by omega) (by omega), plt⟩ ts hts
    have b3 := ok.by_three (q := ρ (n + 1)) c4
    rw [hρ1] at c4 b3
    have hne : posAt out k ≠ posAt out (k2 + 1) := fun h => by have := ok.pos_inj (by omega) hk h; omega
    have hjump := reads_jump (D := D) (bs := bs) (blk := some (.loop (posAt out k) (posAt out (k2 + 1)))) c4 fun h => hne (b3.1 h)
    rw [C05_offset_roundtrip] at hjump
    have hjr : jumpRead (some (.loop (posAt out k) (posAt out (k2 + 1)))) (posAt out (k2 + 1)) (posAt out k) = emptyExpr := by
      simp [jumpRead, hne]
    rw [hjr] at hjump
    refine .one ok (by omega) hk (reads_while c1 ?_ (t := k2 + 1) (by rw [C05_offset_roundtrip, hρ])
      (reads_asm ha c none _ _ _ c' hs.1 h1 hcr _ _ c2.listAt) ?_ ?_)
    · rw [hρ]; exact ok.forward (by omega)
    · refine jumps_back (ρ := ρ) (code := .JumpIfFalse n :: (cond ++ (body ++ [.Jump (n + 1)]))) ok
        ((PlacedAt.cons rfl).2 ⟨c1, PlacedAt.append.2 ⟨j, c2, PlacedAt.append.2 ⟨k2, c3, (PlacedAt.cons rfl).2 ⟨?_, PlacedAt.nil.2 rfl⟩⟩⟩⟩) hk
        (l := n + 1) (by simp) hρ1
      show out[k2]? = some (.Jump ((ρ (n + 1)).relative (posAt out k2)))
      rw [hρ1]; exact c4
    · refine ih (posAt out (k2 + 1)) [emptyExpr] (k2 + 1) (Nat.le_of_lt plt) ?_
      rw [(readStmts_ends hts).1.trans (shownAll_ends env b hs.2 ht.1), ht.2]
      exact path_cons (by omega) plt hjump (path_end hk (Nat.le_refl _))
  | .Switch e cs d, x, n, n', code, hs, ht, h, k, k', hc, hk', hop, blk, w, htl, xs, hx => by
    have hk := Nat.le_of_lt hk'
    obtain ⟨ty, tyIdx, subject, n1, body, next, n2, tail, _, _, h1, h2, h3, rfl⟩ := asm_switch h
    simp only [Expr.isStatement, Bool.and_eq_true] at hs
    simp only [Expr.tidy, Bool.and_eq_true, Bool.not_eq_true'] at ht
    rw [PlacedAt.cons rfl, PlacedAt.append] at hc
    obtain ⟨c1, j, c2, c3⟩ := hc
    rw [PlacedAt.target, PlacedAt.append] at c3
    obtain ⟨hρs, z, c3, c4⟩ := c3
    rw [PlacedAt.target, PlacedAt.append] at c4
    obtain ⟨hρn, k3, c4, c5⟩ := c4
    rw [PlacedAt.target, PlacedAt.nil] at c5
    obtain ⟨hρe, rfl⟩ := c5
    have c1 : out[k]? = some (.Switch tyIdx ((ρ n).relative (posAt out k))) := c1
    have hj := (value_head hs.1.1 h1 c2).1
    have hj' := c3.le
    have hj'' := c4.le
    have hsubj := fun e' (her : readBack D env e = some e') =>
      reads_asm (bs := bs) (out := out) ha e none _ _ _ e' hs.1.1 h1 her _ _ c2.listAt
    have hend := ht.2
    have hnot : (d.isSome = false → NotCaseAt out z) := by
      intro hn
      cases d with
      | some d => cases hn
      | none =>
        obtain ⟨_, rfl⟩ := asmBlockOpt_none h3
        rw [PlacedAt.nil] at c4; subst c4
        exact hop rfl
    have hep : (d.isSome = true → (posAt out z).toNat < (posAt out k3).toNat) ∧
        (d.isSome = false → posAt out z = posAt out k3) := by
      cases d with
      | some d =>
        obtain ⟨_, _, rfl⟩ := asmBlockOpt_some h3
        rw [PlacedAt.cons rfl] at c4
        have := c4.2.le
        exact ⟨fun _ => ok.pos_lt (by omega) hk, fun h => (by cases h)⟩
      | none =>
        obtain ⟨_, rfl⟩ := asmBlockOpt_none h3
        rw [PlacedAt.nil] at c4; subst c4
        exact ⟨fun h => (by cases h), fun _ => rfl⟩
    have hok : CasesShow env d.isSome cs (posAt out k3) none
        (if d.isSome then .inner else if breaksEarly false cs then .known else .last) := by
      refine .inr ⟨rfl, ?_⟩
      cases d with
      | some d => split <;> simp
      | none =>
        simp only [endFound, Bool.or_eq_true, Bool.not_eq_true'] at hend
        simp only [Option.isSome_none, Bool.false_eq_true, if_false]
        split
        · rfl
        · rename_i hb
          refine ⟨rfl, .inr ?_⟩
          rcases hend with h | h
          · exact absurd h hb
          · exact h
    have hcases := cases_reads ha ok cs (n + 2) none (n + 1) next n1 n2 body d.isSome hs.1.2 ht.1.1.1 h2 j z c3
      (by omega) hρn hnot (posAt out k3) hep hρe none _ hok
    cases d with
    | none =>
      obtain ⟨_, rfl⟩ := asmBlockOpt_none h3
      rw [PlacedAt.nil] at c4; subst c4
      simp only [shownStmt] at hx
      obtain ⟨y, ys, hy, hys, rfl⟩ := readStmts_cons.1 hx
      rw [readStmts_nil] at hys; subst hys
      simp only [readStmt, readStmtsOpt] at hy
      obtain ⟨e', her, hy⟩ := bind_some_iff' hy
      obtain ⟨cs', hcs, hy⟩ := bind_some_iff' hy
      obtain ⟨_, hd, rfl⟩ := map_some_iff' hy
      cases hd
      obtain ⟨L, l1, l2, l3, _, _, l4⟩ := hcases cs' hcs
      have hl := l1 [] (labels_end (hnot rfl))
      have hcase := l4 j [] none none [] z cases_nil
      simp only [List.append_nil, ht.1.2, Bool.false_eq_true, if_false] at hl hcase
      exact .one ok (by omega) hk (reads_switch ok c1 hρs (by omega) (hsubj e' her) hl l2 hcase)
    | some d0 =>
    cases d0 with
    | nil =>
      obtain ⟨dc, h4, rfl⟩ := asmBlockOpt_some h3
      rw [PlacedAt.cons rfl] at c4
      obtain ⟨c5, c6⟩ := c4
      have c5 : out[z]? = some .SwitchDefault := c5
      have hz := c6.le
      have hb : breaksEarly true cs = true := by simpa [endFound, Expr.anyStrayBreak] using hend
      simp only [shownStmt] at hx
      obtain ⟨y, ys, hy, hys, rfl⟩ := readStmts_cons.1 hx
      rw [readStmts_nil] at hys; subst hys
      simp only [readStmt, readStmtsOpt] at hy
      obtain ⟨e', her, hy⟩ := bind_some_iff' hy
      obtain ⟨cs', hcs, hy⟩ := bind_some_iff' hy
      obtain ⟨_, hd, rfl⟩ := map_some_iff' hy
      obtain ⟨ds, hds, rfl⟩ := map_some_iff' hd
      obtain ⟨L, l1, l2, l3, _, _, l4⟩ := hcases cs' hcs
      have hl := l1 _ (labels_default c5)
      rw [readStmts_nil] at hds; subst hds
      obtain ⟨_, rfl⟩ := asmSeq_nil h4
      rw [PlacedAt.nil] at c6; subst c6
      have hdf : CasesTo D bs [(posAt out z, posAt out z)] (some (.switch (posAt out (z + 1)))) none out z (z + 1) ([], some []) :=
        cases_default_known ok c5 (path_end hk (Nat.le_refl _))
      have hcase := l4 j _ none (some []) [] (z + 1) (by simp only [Option.isSome_some, hb, if_true]; exact hdf)
      simp only [List.append_nil, ht.1.2, Bool.false_eq_true, if_false] at hcase
      refine .one ok (by omega) hk (reads_switch ok c1 hρs (by omega) (hsubj e' her) hl ?_ hcase)
      rw [List.pairwise_append]
      refine ⟨l2, List.pairwise_singleton _ _, fun a ha b hb => ?_⟩
      simp only [List.mem_singleton] at hb
      subst hb
      exact l3 a ha
    | cons d ds =>
      obtain ⟨dc, h4, rfl⟩ := asmBlockOpt_some h3
      rw [PlacedAt.cons rfl] at c4
      obtain ⟨c5, c6⟩ := c4
      have c5 : out[z]? = some .SwitchDefault := c5
      have hz := c6.le
      have hsw : ∀ (blk : Option BlockContext) (y : Expr SourceAst) (kE : Nat) (ys : List (Expr SourceAst)) (yss : List TypedExpr),
          kE ≤ out.length → readStmts D env yss = some ys →
          CasesTo D bs [(posAt out z, posAt out z)]
            (if breaksEarly true cs then some (.switch (posAt out k3)) else none) none out z kE ([], some ys) →
          readStmt D env (.Switch e (shownCases env .inner cs) (some yss)) = some y → ReadsS D bs blk out k kE y := by
        intro blk y kE ys yss hkE hys hdf hy
        simp only [readStmt, readStmtsOpt] at hy
        obtain ⟨e', her, hy⟩ := bind_some_iff' hy
        obtain ⟨cs', hcs, hy⟩ := bind_some_iff' hy
        obtain ⟨_, hd, rfl⟩ := map_some_iff' hy
        obtain ⟨ys', hys', rfl⟩ := map_some_iff' hd
        rw [hys] at hys'; cases hys'
        obtain ⟨L, l1, l2, l3, _, _, l4⟩ := hcases cs' hcs
        have hl := l1 _ (labels_default c5)
        have hcase := l4 j _ none (some ys) [] kE hdf
        simp only [List.append_nil, ht.1.2, Bool.false_eq_true, if_false] at hcase
        refine reads_switch ok c1 hρs (by omega) (hsubj e' her) hl ?_ hcase
        rw [List.pairwise_append]
        refine ⟨l2, List.pairwise_singleton _ _, fun a ha b hb => ?_⟩
        simp only [List.mem_singleton] at hb
        subst hb
        exact l3 a ha
      simp only [Expr.areStatementsOpt] at hs
      simp only [Expr.optTidy] at ht
      simp only [Expr.opens, Expr.opensOpt] at hop
      simp only [endFound, Bool.or_eq_true, Bool.and_eq_true, Bool.not_eq_true', beq_iff_eq] at hend
      simp only [shownStmt] at hx
      by_cases hb : breaksEarly true cs = true
      · rw [if_pos hb] at hx hsw
        obtain ⟨y, ys, hy, hys, rfl⟩ := readStmts_cons.1 hx
        rw [readStmts_nil] at hys; subst hys
        have hy' := hy
        simp only [readStmt, readStmtsOpt] at hy'
        obtain ⟨_, _, hy'⟩ := bind_some_iff' hy'
        obtain ⟨_, _, hy'⟩ := bind_some_iff' hy'
        obtain ⟨_, hd, _⟩ := map_some_iff' hy'
        obtain ⟨dr, hdr, _⟩ := map_some_iff' hd
        have ih := seq_reads ha ok (d :: ds) (some (n + 2)) n2 n' dc hs.2 ht.1.1.2 h4 (z + 1) k3 c6 hk' hop
          (some (.switch (posAt out k3))) .known ⟨fun l hl => by cases hl; exact hρe, .inr ⟨rfl, rfl⟩⟩ dr hdr
        exact .one ok (by omega) hk (hsw blk y k3 dr _ hk hdr (cases_default_known ok c5 (ih.path hk)) hy)
      · obtain ⟨hst, hone⟩ := hend.resolve_left hb
        rw [if_neg hb] at hx hsw
        rw [if_neg (by rw [hst]; simp)] at hx
        obtain ⟨y, ys, hy, hys, rfl⟩ := readStmts_cons.1 hx
        have hy' := hy
        simp only [readStmt, readStmtsOpt] at hy'
        obtain ⟨_, _, hy'⟩ := bind_some_iff' hy'
        obtain ⟨_, _, hy'⟩ := bind_some_iff' hy'
        obtain ⟨_, hd, _⟩ := map_some_iff' hy'
        obtain ⟨dr, hdr, _⟩ := map_some_iff' hd
        have hdr1 : ∃ q, dr = [q] := by
          match hse : shownStmt env .inner d, hone with
          | [q], _ =>
            rw [hse] at hdr
            obtain ⟨q', qs, _, hqs, rfl⟩ := readStmts_cons.1 hdr
            rw [readStmts_nil] at hqs; subst hqs
            exact ⟨q', rfl⟩
        obtain ⟨q, rfl⟩ := hdr1
        obtain ⟨a, m, b, h5, h6, rfl⟩ := asmSeq_cons h4
        rw [PlacedAt.append] at c6
        obtain ⟨kd, c6, c7⟩ := c6
        have hz1 := c6.le
        have hz2 := c7.le
        simp only [Expr.anyStrayBreak, Bool.or_eq_false_iff] at hst
        simp only [Expr.areStatements, Bool.and_eq_true] at hs
        simp only [Expr.allTidy, Bool.and_eq_true] at ht
        simp only [Expr.opensAll, Bool.or_eq_true, Bool.and_eq_true] at hop
        have hhead := seq_head (out := out) (ρ := ρ) ds _ _ _ _ hs.2.2 h6 kd k3 c7
        have hdhead := stmt_head (out := out) (ρ := ρ) d _ _ _ _ hs.2.1 h5 (z + 1) kd c6
        have hnc : d.noCode env = false := by
          cases hnc : d.noCode env with
          | false => rfl
          | true =>
            have := (shownAll_noCode env [d] .inner (by simp [Expr.allNoCode, hnc])).1
            simp only [shownAll, List.append_nil, ite_self] at this
            rw [this] at hone; cases hone
        have hlt := (hdhead.2 hnc).1
        have ih1 := stmt_reads ha ok d (some (n + 2)) n2 m a hs.2.1 ht.1.1.2.1.1 h5 (z + 1) kd c6 (by omega)
          (fun ho => by
            by_cases hno : Expr.allNoCode env ds = true
            · rw [hhead.1 hno]
              exact hop (.inr ⟨(shownAll_noCode env ds w hno).2.2.2, ho⟩)
            · rw [Bool.not_eq_true] at hno
              obtain ⟨_, i, hi, hi'⟩ := hhead.2 hno
              intro i' h'; rw [hi] at h'; cases h'; exact hi') none .inner (.inl ⟨rfl, hst.1⟩) [q] hdr
        have hone := ih1.single ok hlt (by omega)
        rw [asmSeq_exit env (some (n + 2)) x ds _ hst.2] at h6
        have htl' : TailOk out ρ x blk w kd k3 (Expr.anyStrayBreak ds) (Expr.innerBreakAll env ds) := by
          rw [hst.2, innerBreakAll_stray env ds hst.2]
          exact htl.tail ok (by omega) (fun h => by cases h) (fun h => by cases h)
        have ih2 := seq_reads ha ok ds x m n' b hs.2.2 ht.1.1.2.1.2 h6 kd k3 c7 hk' (fun h => hop (.inl h)) blk w htl' ys hys
        have hy0 := hsw blk y kd [q] _ (by omega) hdr (cases_default_one ok c5 hone) hy
        refine .append ok (.one ok (by omega) (by omega) hy0) ih2 hz2 ?_
        rw [lastEnds_switch hy]
  | .Ident r, x, n, n', code, hs, ht, h, k, k', hc, hk, hop, blk, w, htl, xs, hx => value_reads ha ok hs h hc (Nat.le_of_lt hk) hx
  | .Constant _, x, n, n', code, hs, ht, h, k, k', hc, hk, hop, blk, w, htl, xs, hx => value_reads ha ok hs h hc (Nat.le_of_lt hk) hx
  | .Null, x, n, n', code, hs, ht, h, k, k', hc, hk, hop, blk, w, htl, xs, hx => value_reads ha ok hs h hc (Nat.le_of_lt hk) hx
  | .This, x, n, n', code, hs, ht, h, k, k', hc, hk, hop, blk, w, htl, xs, hx => value_reads ha ok hs h hc (Nat.le_of_lt hk) hx
  | .Super, x, n, n', code, hs, ht, h, k, k', hc, hk, hop, blk, w, htl, xs, hx => value_reads ha ok hs h hc (Nat.le_of_lt hk) hx
  | .Cast _ _, x, n, n', code, hs, ht, h, k, k', hc, hk, hop, blk, w, htl, xs, hx => value_reads ha ok hs h hc (Nat.le_of_lt hk) hx
  | .Assign _ _, x, n, n', code, hs, ht, h, k, k', hc, hk, hop, blk, w, htl, xs, hx => value_reads ha ok hs h hc (Nat.le_of_lt hk) hx
  | .ArrayElem _ _, x, n, n', code, hs, ht, h, k, k', hc, hk, hop, blk, w, htl, xs, hx => value_reads ha ok hs h hc (Nat.le_of_lt hk) hx
  | .New _ _, x, n, n', code, hs, ht, h, k, k', hc, hk, hop, blk, w, htl, xs, hx => value_reads ha ok hs h hc (Nat.le_of_lt hk) hx
  | .Conditional _ _ _, x, n, n', code, hs, ht, h, k, k', hc, hk, hop, blk, w, htl, xs, hx => value_reads ha ok hs h hc (Nat.le_of_lt hk) hx
  | .Member _ _, x, n, n', code, hs, ht, h, k, k', hc, hk, hop, blk, w, htl, xs, hx => value_reads ha ok hs h hc (Nat.le_of_lt hk) hx
  | .Call _ _ _, x, n, n', code, hs, ht, h, k, k', hc, hk, hop, blk, w, htl, xs, hx => value_reads ha ok hs h hc (Nat.le_of_lt hk) hx
  | .MethodCall _ _ _, x, n, n', code, hs, ht, h, k, k', hc, hk, hop, blk, w, htl, xs, hx => value_reads ha ok hs h hc (Nat.le_of_lt hk) hx
  | .ArrayLit _ _, x, n, n', code, hs, ht, h, k, k', hc, hk, hop, blk, w, htl, xs, hx => by cases hs
  | .InterpolatedString _ _, x, n, n', code, hs, ht, h, k, k', hc, hk, hop, blk, w, htl, xs, hx => by cases hs
  | .ForIn _ _ _, x, n, n', code, hs, ht, h, k, k', hc, hk, hop, blk, w, htl, xs, hx => by cases hs
  | .BinOp _ _ _, x, n, n', code, hs, ht, h, k, k', hc, hk, hop, blk, w, htl, xs, hx => by cases hs
  | .UnOp _ _, x, n, n', code, hs, ht, h, k, k', hc, hk, hop, blk, w, htl, xs, hx => by cases hs
  | .Goto _, x, n, n', code, hs, ht, h, k, k', hc, hk, hop, blk, w, htl, xs, hx => by cases hs
  termination_by e => sizeOf e
theorem seq_reads (ha : DecAgrees env D) (ok : CodeOk out) : ∀ (es : List TypedExpr) (x : Option Nat) (n n' : Nat) (code : List (Instr Nat)),
    Expr.areStatements es = true → Expr.allTidy env es = true → asmSeq env x es n = .ok (code, n') → ∀ (k k' : Nat),
    PlacedAt out ρ k code k' → k' < out.length → (Expr.opensAll es = true → NotCaseAt out k') → ∀ (blk : Option BlockContext) (w : TailPos),
    TailOk out ρ x blk w k k' (Expr.anyStrayBreak es) (Expr.innerBreakAll env es) → ∀ xs, readStmts D env (shownAll env w es) = some xs →
    ReadsL D bs blk out k k' xs
  | [], x, n, n', code, hs, ht, h, k, k', hc, hk', hop, blk, w, htl, xs, hx => by
    have hk := Nat.le_of_lt hk'
    obtain ⟨_, rfl⟩ := asmSeq_nil h
    rw [PlacedAt.nil] at hc; subst hc
    simp only [shownAll] at hx
    rw [readStmts_nil] at hx; subst hx
    exact .nil
  | e :: es, x, n, n', code, hs, ht, h, k, k', hc, hk', hop, blk, w, htl, xs, hx => by
    have hk := Nat.le_of_lt hk'
    obtain ⟨a, m, b, h1, h2, rfl⟩ := asmSeq_cons h
    simp only [Expr.areStatements, Bool.and_eq_true] at hs
    simp only [Expr.allTidy, Bool.and_eq_true] at ht
    simp only [Expr.opensAll, Bool.or_eq_true, Bool.and_eq_true] at hop
    simp only [Expr.anyStrayBreak, Expr.innerBreakAll] at htl
    rw [PlacedAt.append] at hc
    obtain ⟨j, c1, c2⟩ := hc
    have l1 := c1.le
    have l2 := c2.le
    simp only [shownAll] at hx
    obtain ⟨ys, zs, hys, hzs, rfl⟩ := readStmts_append.1 hx
    have hhead := seq_head (out := out) (ρ := ρ) es x _ _ _ hs.2 h2 j k' c2
    have ih2 := seq_reads ha ok es x m n' b hs.2 ht.1.2 h2 j k' c2 hk' (fun h => hop (.inl h)) blk w
      (htl.tail ok l1 (fun h => by rw [h, Bool.or_true]) (fun h => by rw [h, Bool.or_true])) zs hzs
    by_cases hno : Expr.allNoCode env es = true
    · have hje := hhead.1 hno
      subst hje
      obtain ⟨s1, _, _, s4⟩ := shownAll_noCode env es w hno
      rw [if_pos hno] at hys htl
      rw [s1, readStmts_nil] at hzs
      subst hzs
      rw [List.append_nil]
      exact stmt_reads ha ok e x n m a hs.1 ht.1.1 h1 k j c1 hk' (fun h => hop (.inr ⟨s4, h⟩)) blk w
        (htl.tail ok (Nat.le_refl _) (fun h => by rw [h]; rfl) (fun h => by rw [h]; rfl)) ys hys
    · rw [if_neg hno] at hys htl
      rw [Bool.not_eq_true] at hno
      obtain ⟨hlt, i, hi, hi'⟩ := hhead.2 hno
      have hst : e.stops = false := by
        have := ht.2
        rw [hno, Bool.or_false, Bool.not_eq_true'] at this
        exact this
      have ih1 := stmt_reads ha ok e x n m a hs.1 ht.1.1 h1 k j c1 (by omega)
        (fun _ i' h' => by rw [hi] at h'; cases h'; exact hi') blk .inner
        (htl.within ok hk (Nat.le_refl _) (.inl hlt) (fun h => by rw [h]; rfl)
          (fun hw => by have := htl.notInner hw; simp only [Bool.or_eq_false_iff] at this; exact this.1)) ys hys
      exact .append ok ih1 ih2 l2 (by rw [(readStmts_ends hys).1, shownStmt_ends env e hs.1 ht.1.1, hst])
  termination_by es => sizeOf es
theorem cases_reads (ha : DecAgrees env D) (ok : CodeOk out) : ∀ (cs : List (TypedExpr × List TypedExpr)) (exit : Nat)
    (pend : Option Nat) (next next' n n' : Nat) (code : List (Instr Nat)) (dflt : Bool), Expr.areCases cs = true →
    Expr.casesTidy env dflt cs = true →
    asmCases env exit pend cs next n = .ok (code, next', n') → ∀ (k z : Nat), PlacedAt out ρ k code z → z < out.length →
    ρ next' = posAt out z → (dflt = false → NotCaseAt out z) → ∀ ep : Location,
    (dflt = true → (posAt out z).toNat < ep.toNat) ∧ (dflt = false → posAt out z = ep) → ρ exit = ep →
    ∀ (blk : Option BlockContext) (w : TailPos), CasesShow env dflt cs ep blk w → ∀ rs,
    readCases D env (shownCases env w cs) = some rs →
    ∃ L : List (Location × Location), (∀ L', LabelsFrom bs out z L' → LabelsFrom bs out k (L ++ L')) ∧
      L.Pairwise (fun a b => a.2.toNat ≤ b.2.toNat) ∧ (∀ p ∈ L, p.2.toNat ≤ (posAt out z).toNat) ∧
      (cs = [] → L = []) ∧ (cs ≠ [] → ∃ s, k < s ∧ s ≤ z ∧ ρ (caseLabels pend n).1 = posAt out s ∧
        ∀ p ∈ L, (posAt out s).toNat ≤ p.2.toNat) ∧
      ∀ (kc : Nat) (L' : List (Location × Location)) (d d' : Option (List (Expr SourceAst)))
        (rs' : List (Expr SourceAst × List (Expr SourceAst))) (kE : Nat),
        CasesTo D bs L' (if breaksEarly dflt cs then some (.switch ep) else blk) d out z kE (rs', d') →
        CasesTo D bs (L ++ L') blk d out (if cs.isEmpty then z else kc) kE (rs ++ rs', d')
  | [], exit, pend, next, next', n, n', code, dflt, hs, ht, h, k, z, hc, hz', hn, hnot, ep, hep, hex, blk, w, hok, rs, hx => by
    have hz := Nat.le_of_lt hz'
    obtain ⟨_, _, rfl⟩ := asmCases_nil h
    rw [PlacedAt.nil] at hc; subst hc
    simp only [shownCases, readCases] at hx
    cases hx
    refine ⟨[], fun L' h => h, .nil, fun p hp => (by cases hp), fun _ => rfl, fun h => absurd rfl h, ?_⟩
    intro kc L' d d' rs' kE h
    simpa [breaksEarly] using h
  | (m, b) :: cs, exit, pend, next, next', n, n', code, dflt, hs, ht, h, k, z, hc, hz', hn, hnot, ep, hep, hex, blk, w, hok, rs, hx => by
    have hz := Nat.le_of_lt hz'
    simp only [Expr.areCases, Bool.and_eq_true] at hs
    simp only [Expr.casesTidy, Bool.and_eq_true] at ht
    simp only [shownCases, readCases] at hx
    obtain ⟨m', hm', hx⟩ := bind_some_iff' hx
    obtain ⟨b', hb', hx⟩ := bind_some_iff' hx
    obtain ⟨rs, hrs, rfl⟩ := map_some_iff' hx
    obtain ⟨matcher, n1, hm, ⟨hemp, rest, hr, rfl⟩ | ⟨hemp, bc, n2, rest, hb, hr, rfl⟩⟩ := asmCases_cons h
    · -- the body is empty
      rw [PlacedAt.target, PlacedAt.cons rfl, PlacedAt.append] at hc
      obtain ⟨hρ, c1, c, c2, c3⟩ := hc
      have c1 : out[k]? = some (.SwitchLabel ((ρ (caseLabels pend n).2).relative (posAt out k)) ((ρ (caseLabels pend n).1).relative (posAt out k))) := c1
      have hlt := (value_head hs.1.1 hm c2).1
      have hle := c3.le
      have hnx := cases_next hr c3 hn
      have hne : cs ≠ [] := by
        intro hcs
        have := ht.1.2
        rw [hcs, hemp] at this
        simp at this
      have hie : cs.isEmpty = false := by cases cs <;> simp_all
      have hno := allEmpty_noCode env b hemp
      obtain ⟨s1, _, s3, _⟩ := shownAll_noCode env b (if cs.isEmpty then w else .inner) hno
      rw [s1, readStmts_nil] at hb'
      subst hb'
      have hbe : breaksEarly dflt ((m, b) :: cs) = breaksEarly dflt cs := by simp [breaksEarly, s3]
      have hli : lastInnerBreak env ((m, b) :: cs) = lastInnerBreak env cs := by simp [lastInnerBreak, hie]
      have hok' : CasesShow env dflt cs ep blk w := by
        unfold CasesShow at hok ⊢
        rw [hbe, hli] at hok; exact hok
      obtain ⟨L, l1, l2, l3, l0, l4, l5⟩ := cases_reads ha ok cs exit (some (caseLabels pend n).1) (caseLabels pend n).2 next' n1 n' rest dflt
        hs.2 ht.2 hr c z c3 hz' hn hnot ep hep hex blk w hok' rs hrs
      obtain ⟨s, hs1, hs2, hs3, hs4⟩ := l4 hne
      have hs3 : ρ (caseLabels pend n).1 = posAt out s := hs3
      refine ⟨(posAt out k, ρ (caseLabels pend n).1) :: L, ?_, ?_, ?_, fun h => (by cases h), ?_, ?_⟩
      · intro L' hL'
        exact labels_label ok c1 hnx (by omega) (l1 L' hL')
      · rw [List.pairwise_cons]
        exact ⟨fun p hp => by rw [hs3]; exact hs4 p hp, l2⟩
      · intro p hp
        rcases List.mem_cons.1 hp with rfl | hp
        · simp only [hs3]; exact ok.pos_le hs2
        · exact l3 p hp
      · intro _
        refine ⟨s, by omega, hs2, hs3, fun p hp => ?_⟩
        rcases List.mem_cons.1 hp with rfl | hp
        · simp only [hs3]; exact Nat.le_refl _
        · exact hs4 p hp
      · intro kc L' d d' rs' kE hC
        rw [hbe] at hC
        have hrest := l5 s L' d d' rs' kE hC
        rw [hie, if_neg (by simp)] at hrest
        have hps := ok.pos_lt hs1 (by omega)
        refine cases_label ok c1 hnx hs3 (by omega)
          (reads_asm ha m none _ _ _ m' hs.1.1 hm hm' _ _ c2.listAt) ?_
          (path_end (by omega) (Nat.le_of_lt hps)) rfl hrest
        intro j
        rw [if_neg]
        rintro ⟨_, h⟩
        rw [hnx, hs3] at h; omega
    · -- the body has code
      rw [PlacedAt.target, PlacedAt.cons rfl, PlacedAt.append] at hc
      obtain ⟨hρ, c1, s, c2, c3⟩ := hc
      rw [PlacedAt.target, PlacedAt.append] at c3
      obtain ⟨hs3, c, c3, c4⟩ := c3
      have c1 : out[k]? = some (.SwitchLabel ((ρ (caseLabels pend n).2).relative (posAt out k)) ((ρ (caseLabels pend n).1).relative (posAt out k))) := c1
      have hlt := (value_head hs.1.1 hm c2).1
      have hle := c4.le
      have hle' := c3.le
      have hnx := cases_next hr c4 hn
      have hz0 : cs = [] → c = z := by
        intro h0
        subst h0
        obtain ⟨_, _, rfl⟩ := asmCases_nil hr
        exact c4
      -- the block found here
      let blkm : Option BlockContext :=
        if Expr.anyStrayBreak b && (dflt || !cs.isEmpty) then some (.switch ep) else blk
      have hok' : CasesShow env dflt cs ep blkm w := by
        unfold CasesShow at hok ⊢
        rcases hok with ⟨rfl, hw⟩ | ⟨rfl, hw⟩
        · refine .inl ⟨?_, hw⟩
          show (if _ then _ else _) = _
          split <;> rfl
        · by_cases hq : (Expr.anyStrayBreak b && (dflt || !cs.isEmpty)) = true
          · refine .inl ⟨if_pos hq, ?_⟩
            rw [if_pos (by simp only [breaksEarly, hq, Bool.true_or])] at hw
            exact hw
          · refine .inr ⟨if_neg hq, ?_⟩
            rw [Bool.not_eq_true] at hq
            have hbe : breaksEarly dflt ((m, b) :: cs) = breaksEarly dflt cs := by simp [breaksEarly, hq]
            rw [hbe] at hw
            split at hw
            · rename_i h; rw [if_pos h]; exact hw
            · rename_i h
              rw [if_neg h]
              refine ⟨hw.1, ?_⟩
              rcases hw.2 with h | h
              · exact .inl h
              · refine .inr ?_
                cases cs with
                | nil => rfl
                | cons a as => simpa [lastInnerBreak] using h
      obtain ⟨L, l1, l2, l3, l0, l4, l5⟩ := cases_reads ha ok cs exit none (caseLabels pend n).2 next' n2 n' rest dflt
        hs.2 ht.2 hr c z c4 hz' hn hnot ep hep hex blkm w hok' rs hrs
      have hcz : cs ≠ [] → c < z := fun h => by obtain ⟨s', a1, a2, _⟩ := l4 h; omega
      have hcep : (dflt || !cs.isEmpty) = true → (posAt out c).toNat < ep.toNat := by
        intro hd
        cases hcs : cs with
        | nil =>
          rw [hcs] at hd
          have hd : dflt = true := by simpa using hd
          rw [hz0 hcs]; exact hep.1 hd
        | cons a as =>
          have := ok.pos_lt (hcz (by rw [hcs]; simp)) hz
          cases dflt with
          | true => have := hep.1 rfl; omega
          | false => rw [← hep.2 rfl]; exact this
      have hstay := (seq_jumps env b (some exit) n1 n2 bc hs.1.2 hb)
      have hcl : ∀ l, .Jump l ∈ bc → (ρ l).toNat ≤ (posAt out c).toNat ∨ (Expr.anyStrayBreak b = true ∧ ρ l = ep) := by
        intro l hl
        rcases hstay.stay l hl with h | ⟨h, h'⟩
        · obtain ⟨q, q1, q2, q3⟩ := c3.label h
          rw [q3]; exact .inl (ok.pos_le q2)
        · cases h'; exact .inr ⟨h, hex⟩
      have hfound : BlockFound bs out blk (posAt out s) (posAt out c) blkm := by
        intro j
        by_cases hq : blk = none ∧ (posAt out s).toNat < (posAt out c).toNat
        · rw [if_pos hq]
          obtain ⟨items, i1, i2⟩ := range_cursor ok bs j hle' (by omega)
          rw [i1]
          show Except.ok _ = Except.ok (if _ then _ else _)
          congr 1
          have hjump := c3.jumps i2
          by_cases hb2 : (Expr.anyStrayBreak b && (dflt || !cs.isEmpty)) = true
          · rw [if_pos hb2]
            rw [Bool.and_eq_true] at hb2
            rw [findEpilogue_some (ep := ep) ?_ (hcep hb2.2) ?_]
            · rfl
            · intro loc o hmem
              obtain ⟨l, hl1, hl2⟩ := (hjump _).1 ⟨loc, o, hmem, rfl⟩
              rw [← hl2]
              rcases hcl l hl1 with h | ⟨_, h⟩
              · exact .inl h
              · exact .inr h
            · obtain ⟨l, hl1, hl2⟩ := hstay.leave hb2.1
              cases hl1
              exact (hjump ep).2 ⟨exit, hl2, hex⟩
          · rw [if_neg hb2, hq.1]
            rw [findEpilogue_none]
            · rfl
            · intro loc o hmem
              obtain ⟨l, hl1, hl2⟩ := (hjump _).1 ⟨loc, o, hmem, rfl⟩
              rw [← hl2]
              rcases hcl l hl1 with h | ⟨h1, h⟩
              · exact h
              · rw [h1, Bool.true_and, Bool.not_eq_true, Bool.or_eq_false_iff] at hb2
                have hcs : cs = [] := by
                  cases cs with
                  | nil => rfl
                  | cons a as => simp at hb2
                rw [h, ← hep.2 hb2.1, hz0 hcs]
                exact Nat.le_refl _
        · rw [if_neg hq]
          show Except.ok _ = Except.ok (if _ then _ else _)
          congr 1
          by_cases hb2 : (Expr.anyStrayBreak b && (dflt || !cs.isEmpty)) = true
          · rw [if_pos hb2]
            rw [Bool.and_eq_true] at hb2
            obtain ⟨l, _, hl2⟩ := hstay.leave hb2.1
            obtain ⟨q, q1, q2, _⟩ := c3.mem hl2 rfl
            have := ok.pos_lt (show s < c by omega) (by omega)
            rcases hok with ⟨h, _⟩ | ⟨h, _⟩
            · exact h
            · exact absurd ⟨h, this⟩ hq
          · rw [if_neg hb2]
      have htail : TailOk out ρ (some exit) blkm (if cs.isEmpty then w else .inner) s c (Expr.anyStrayBreak b) (Expr.innerBreakAll env b) := by
        unfold CasesShow at hok'
        by_cases hb2 : (Expr.anyStrayBreak b && (dflt || !cs.isEmpty)) = true
        · have hbm : blkm = some (.switch ep) := if_pos hb2
          rw [Bool.and_eq_true] at hb2
          rw [hbm] at hok' ⊢
          have hw : w = if dflt then .inner else .known := by
            rcases hok' with ⟨_, h⟩ | ⟨h, _⟩
            · exact h
            · cases h
          refine ⟨fun l hl => by cases hl; exact hex, ?_⟩
          refine .inl ⟨?_, hcep hb2.2⟩
          cases cs with
          | nil =>
            have : dflt = true := by simpa using hb2.2
            simp [hw, this]
          | cons a as => rfl
        · have hbm : blkm = blk := if_neg hb2
          rw [Bool.not_eq_true, Bool.and_eq_false_iff] at hb2
          rcases hok with ⟨h1, hw⟩ | ⟨h1, hw⟩
          · rw [hbm, h1]
            refine ⟨fun l hl => by cases hl; exact hex, ?_⟩
            by_cases hd : (dflt || !cs.isEmpty) = true
            · refine .inl ⟨?_, hcep hd⟩
              cases cs with
              | nil =>
                have : dflt = true := by simpa using hd
                simp [hw, this]
              | cons a as => rfl
            · rw [Bool.not_eq_true, Bool.or_eq_false_iff] at hd
              have hcs : cs = [] := by
                cases cs with
                | nil => rfl
                | cons a as => simp at hd
              refine .inr ⟨?_, ?_⟩
              · simp [hw, hcs, hd.1]
              · rw [hz0 hcs]; exact hep.2 hd.1
          · rw [hbm, h1]
            by_cases hd : (dflt || !cs.isEmpty) = true
            · have hb3 : Expr.anyStrayBreak b = false := by
                rcases hb2 with h | h
                · exact h
                · rw [hd] at h; cases h
              refine .inl ⟨?_, hb3⟩
              cases cs with
              | nil =>
                have : dflt = true := by simpa using hd
                subst this
                simp only [if_true] at hw
                split at hw
                · simpa using hw
                · simpa using hw.1
              | cons a as => rfl
            · rw [Bool.not_eq_true, Bool.or_eq_false_iff] at hd
              have hcs : cs = [] := by
                cases cs with
                | nil => rfl
                | cons a as => simp at hd
              subst hcs
              have hd1 := hd.1
              subst hd1
              simp only [breaksEarly, List.isEmpty_nil, Bool.not_true, Bool.or_false, Bool.and_false, Bool.false_eq_true, if_false,
                lastInnerBreak, if_true, false_or] at hw
              refine .inr ⟨by simpa using hw.1, hw.2, fun l hl => ?_⟩
              cases hl
              rw [hex, hz0 rfl]; exact (hep.2 rfl).symm
      have hopen : Expr.opensAll b = true → NotCaseAt out c := by
        intro ho
        have := ht.1.2
        cases hcs : cs with
        | nil =>
          rw [hcs, ho] at this
          have hd : dflt = false := by
            cases dflt with
            | false => rfl
            | true => simp at this
          rw [hz0 hcs]; exact hnot hd
        | cons a as =>
          rw [hcs, ho] at this
          simp at this
      have ihb := seq_reads ha ok b (some exit) n1 n2 bc hs.1.2 ht.1.1 hb s c c3 (by omega) hopen blkm _ htail b' hb'
      have hfirst : ∀ p ∈ L, (posAt out s).toNat ≤ p.2.toNat := by
        intro p hp
        cases hcs : cs with
        | nil =>
          rw [l0 hcs] at hp; cases hp
        | cons a as =>
          obtain ⟨s', a1, a2, a3, a4⟩ := l4 (by rw [hcs]; simp)
          have := a4 p hp
          have := ok.pos_le (out := out) (show s ≤ s' by omega)
          omega
      refine ⟨(posAt out k, ρ (caseLabels pend n).1) :: L, ?_, ?_, ?_, fun h => (by cases h), ?_, ?_⟩
      · intro L' hL'
        exact labels_label ok c1 hnx (by omega) (l1 L' hL')
      · rw [List.pairwise_cons]
        exact ⟨fun p hp => by rw [hs3]; exact hfirst p hp, l2⟩
      · intro p hp
        rcases List.mem_cons.1 hp with rfl | hp
        · simp only [hs3]; exact ok.pos_le (by omega)
        · exact l3 p hp
      · intro _
        refine ⟨s, by omega, by omega, hs3, fun p hp => ?_⟩
        rcases List.mem_cons.1 hp with rfl | hp
        · simp only [hs3]; exact Nat.le_refl _
        · exact hfirst p hp
      · intro kc L' d d' rs' kE hC
        have hC' : CasesTo D bs L' (if breaksEarly dflt cs then some (.switch ep) else blkm) d out z kE (rs', d') := by
          have : (if breaksEarly dflt ((m, b) :: cs) then some (.switch ep) else blk) =
              (if breaksEarly dflt cs then some (.switch ep) else blkm) := by
            show (if breaksEarly dflt ((m, b) :: cs) then some (BlockContext.switch ep) else blk) =
              (if breaksEarly dflt cs then some (.switch ep) else if Expr.anyStrayBreak b && (dflt || !cs.isEmpty) then some (.switch ep) else blk)
            simp only [breaksEarly]
            exact ite_orElse ..
          rw [← this]; exact hC
        have hrest := l5 c L' d d' rs' kE hC'
        have hcc : (if cs.isEmpty then z else c) = c := by
          cases cs with
          | nil => exact (hz0 rfl).symm
          | cons a as => rfl
        rw [hcc] at hrest
        exact cases_label ok c1 hnx hs3 (by omega)
          (reads_asm ha m none _ _ _ m' hs.1.1 hm hm' _ _ c2.listAt) (by rw [hnx, hs3]; exact hfound)
          (ihb.path (by omega)) (readStmts_ends hb').2 hrest
  termination_by cs => sizeOf cs
end

/-- The decompiler shows a body that can be read back. -/
theorem body_reads (ha : DecAgrees env D) {body : List TypedExpr} (h : fromBody env body = .ok out)
    (hf : startPos out out.length < 2 ^ 15) (hs : Expr.areStatements body = true) (ht : Expr.allTidy env body = true)
    {xs : List (Expr SourceAst)} (hx : readStmts D env (shownBody env body) = some xs) :
    ∃ N, ∀ m, N ≤ m → decompile D bs m out = .ok xs := by
  obtain ⟨ok, code, n, ρ, k, h1, h2, h3, h4⟩ := fromBody_placed h hf
  have hb := strays_rejected env body 0 h1
  obtain ⟨ts, es, hts, hes, rfl⟩ := readStmts_append.1 hx
  have hnot : NotCaseAt out k := by
    intro i hi
    rw [h3] at hi; cases hi
    exact notCase_of (.inr rfl)
  have hr := seq_reads (bs := bs) ha ok body none 0 n code hs ht h1 0 k h2 (by omega) (fun _ => hnot) none .inner
    (.inl ⟨rfl, hb⟩) ts hts
  have hT : (BitVec.allOnes 16).toNat = 65535 := by decide
  have hp : PathTo D bs (BitVec.allOnes 16) none (lastEnds ts) out k (if Expr.stopsAny body then k else k + 1) es := by
    rw [(readStmts_ends hts).1, shownAll_ends env body hs ht]
    by_cases hst : Expr.stopsAny body = true
    · rw [if_pos hst, readStmts_nil] at hes
      subst hes
      rw [hst]
      exact path_stop (by omega)
    · rw [if_neg hst, readStmts_empty] at hes
      subst hes
      rw [Bool.not_eq_true] at hst
      rw [hst, if_neg (by simp)]
      refine path_cons (by omega) ?_ (reads_empty h3 rfl) ?_
      · have := ok.posLt k
        rw [ok.pos, hT]; omega
      · rw [← h4]; exact path_eof
  obtain ⟨N, hN⟩ := hr (BitVec.allOnes 16) es _ (by have := ok.posLt k; rw [ok.pos, hT]; omega) hp
  refine ⟨N, fun m hm => ?_⟩
  have e1 : consumePath D bs (BitVec.allOnes 16) none m false (cursorAt out 0) = _ := hN m hm
  have e0 : cursorAt out 0 = CodeCursor.new out := rfl
  rw [e0] at e1
  unfold decompile
  rw [e1]

end

end Redscript
