import Verif.Pipeline.Plain
import Verif.Parser.DeclRules
import Verif.Vm.Props

/-!
# C67: from the text of a function to what its code does
-/

namespace Redscript

/-! ## Specification -/

section
variable {V S A : Type}

/-- The same end of a run; the variables from `a` to `b`, which the source does not have, may have changed. -/
inductive EndsAlike (a b : Nat) (σ : Idx → V) : Final (CellVal V) (S × (Idx → V)) A → Final V S A → Prop
  | ended {s : S} {σ' : Idx → V} : Frame a b σ σ' → EndsAlike a b σ (.ended (s, σ')) (.ended s)
  | returned {s : S} {σ' : Idx → V} {x : Option (CellVal V)} {v : Option V} : Frame a b σ σ' → x.map (·.read σ') = v →
      EndsAlike a b σ (.returned x (s, σ')) (.returned v s)
  | aborted {c : A} : EndsAlike a b σ (.aborted c) (.aborted c)

/-- What is done with the body of a function: it is read from the text of the function, checked in a scope with some
names, desugared and assembled (compiler/src/parser.rs:287-293; compiler/src/unit.rs:971-1016, 299-300). Reading takes
the text that declares the function; that declarations are read from a whole file is C65. The checker gave no error. -/
structure BodyCompiled (F : FloatParse) (E : TcEnv) (D : DsEnv) (env : AsmEnv) (refs : AMap Text Value) (t : Text)
    (body : List (Expr SourceAst)) (xs : List TypedExpr) (st st' : DsState) (out : List (Instr Offset)) : Prop where
  read : ∃ n fn rest, functionRule F n t = .ok fn rest ∧ fn.body = some body
  checked : ∃ tst, E.checkBody refs body = .ok (xs, tst) ∧ TcDiag.compileError ∉ tst.diags
  fresh : st.pending = []
  assembled : ∃ body', dsSeq D xs st = .ok (body', st') ∧ fromBody env body' = .ok out

end

/-! ## Proof -/

section
variable {F : FloatParse} {E : TcEnv}

theorem functionBody_written (n : Nat) (s : Text) :
    Peg.Holds (fun es => ∀ e ∈ es, e.isWritten = true) (functionBody F n s) := by
  rw [functionBody]
  refine .orElse ((writtenRules n).block s) (.after fun _ r => .bind ((operandRules n).expr 0 _) fun e r he => .ok fun x hx => ?_)
  rw [List.mem_singleton.1 hx, Expr.isWritten]
  exact he

/-- C67: the body of every function read is made of statements, and these of statements and expressions. -/
theorem C67_read_bodies_are_statements (n : Nat) (t rest : Text) (fn : FunctionSource) (body : List (Expr SourceAst))
    (h : functionRule F n t = .ok fn rest) (hb : fn.body = some body) : Expr.areWritten body = true := by
  have : Peg.Holds (fun f : FunctionSource => ∀ b, f.body = some b → Expr.areWritten b = true) (functionRule F n t) := by
    rw [functionRule]
    exact .after fun _ r => .after fun _ r => .after fun _ r => .after fun _ r => .after fun _ r =>
      .bind (.opt (functionBody_written n _)) fun o r ho => .ok fun b hb => areWritten_of (ho b hb)
  exact this fn rest h body hb

variable {D : DsEnv} {env : AsmEnv} {refs : AMap Text Value} {t : Text} {body : List (Expr SourceAst)}
  {xs : List TypedExpr} {st st' : DsState} {out : List (Instr Offset)}

/-- C67: what is assembled for the body of a function that was read and checked has the shape the assembler relies on;
where the switches of the source stand in a way that is compiled correctly, those assembled do. -/
theorem C67_assembled_bodies_have_the_right_shape (hE : E.Lawful) (hS : E.SmallStructs)
    (h : BodyCompiled F E D env refs t body xs st st' out) (hw : Expr.allSwitchesOk body = true) :
    ∃ body', dsSeq D xs st = .ok (body', st') ∧ fromBody env body' = .ok out ∧ Expr.areStatements body' = true ∧
      Expr.allSwitchesOk body' = true := by
  obtain ⟨n, fn, rest, h1, h2⟩ := h.read
  obtain ⟨tst, h3, h4⟩ := h.checked
  obtain ⟨body', h5, h6⟩ := h.assembled
  obtain ⟨ρ, h7, _⟩ := C57_only_names_and_conversions E hE refs body xs tst h3 h4
  have ok := (checkList_good hE _ _ _ _ _ h3 h4 _ (List.prefix_refl _)).1
  obtain ⟨w, sh⟩ := h7.shape (C67_read_bodies_are_statements n t rest fn body h1 h2)
  have k := dsSeq_kept hS xs w ok (by rw [h.fresh]; rfl) h5
  exact ⟨body', h5, h6, k.statements, k.switches (by rw [sh.switches]; exact hw)⟩

variable {V S A : Type} {W : DsWorld V S A} {zero : Literal → Text} {P : PoolView}

/-- The end of a run for an ending. -/
theorem Alike.final {a b : Nat} {σ : Idx → V} {o' : Ending (CellVal V) (S × (Idx → V)) A} {o : Ending V S A}
    (h : Alike a b σ o' o) :
    (∀ f', finalOf o' = some f' → ∃ f, finalOf o = some f ∧ EndsAlike a b σ f' f) ∧
      ∀ f, finalOf o = some f → ∃ f', finalOf o' = some f' ∧ EndsAlike a b σ f' f := by
  cases h with
  | normal h => exact ⟨fun f hf => by cases hf; exact ⟨_, rfl, .ended h⟩, fun f hf => by cases hf; exact ⟨_, rfl, .ended h⟩⟩
  | broke h => exact ⟨nofun, nofun⟩
  | returned h hr =>
    exact ⟨fun f hf => by cases hf; exact ⟨_, rfl, .returned h hr⟩, fun f hf => by cases hf; exact ⟨_, rfl, .returned h hr⟩⟩
  | aborted => exact ⟨fun f hf => by cases hf; exact ⟨_, rfl, .aborted⟩, fun f hf => by cases hf; exact ⟨_, rfl, .aborted⟩⟩

/-- C67: the code made from the text of a function does what the text says. The text is read, checked, desugared and
assembled, all without error. Then each way a run of the code can end is one in which the checked body ends, with the
same state and result, and the other way round; and the code runs forever exactly when the body does. The checked body
is the body as read with names replaced and conversions added, and is well typed.

Not proved, because false: the same for bodies with array literals elsewhere than where desugaring keeps their order
(C32), and for switches whose last case is empty or whose inner switches lack a default (C28); code of 32 KB and more
(C23). -/
theorem C67_code_does_what_the_text_says_partial (hE : E.Lawful) (hS : E.SmallStructs) (hW : W.Laws)
    (h : BodyCompiled F E W.D W.env refs t body xs st st' out) (hw : Expr.allSwitchesOk body = true)
    (ht : ∀ e ∈ xs, Tame W e) (hst : W.start ≤ st.next) (hty : Typed W.Q st')
    (ha : PoolAgrees W.env P zero) (hf : Fits16 out) :
    (∃ ρ, ElabSeq E ⟨fun n => refs.get n, []⟩ body xs ρ) ∧ (∃ L, AllOk E L xs) ∧ ∀ (s : S) (σ : Idx → V),
      (∀ n f', runBody out P W.J n (s, σ) = some f' →
        ∃ o f, RunsAll W.env zero W.I W.U xs s o ∧ finalOf o = some f ∧ EndsAlike st.next st'.next σ f' f) ∧
      (∀ o f, RunsAll W.env zero W.I W.U xs s o → finalOf o = some f →
        ∃ n f', runBody out P W.J n (s, σ) = some f' ∧ EndsAlike st.next st'.next σ f' f) ∧
      ((∀ n, runBody out P W.J n (s, σ) = none) ↔ ∀ o, ¬ RunsAll W.env zero W.I W.U xs s o) := by
  obtain ⟨body', h5, h6, k1, k2⟩ := C67_assembled_bodies_have_the_right_shape hE hS h hw
  obtain ⟨tst, h3, h4⟩ := h.checked
  obtain ⟨ρ, h7, _⟩ := C57_only_names_and_conversions E hE refs body xs tst h3 h4
  refine ⟨⟨ρ, h7⟩, ⟨_, (checkList_good hE _ _ _ _ _ h3 h4 _ (List.prefix_refl _)).1⟩, fun s σ => ?_⟩
  have b := C32_desugaring_preserves_evaluation_partial (zero := zero) hW ht hst h.fresh hty h5 s σ
  have key := C26_compiled_body_runs_like_the_source_partial ha k1 k2 h6 hf W.J (s, σ)
  refine ⟨fun n f' hr => ?_, fun o f ho hf' => ?_, ?_⟩
  · obtain ⟨o', ho', hf'⟩ := (key f').1 ⟨n, hr⟩
    obtain ⟨o, ho, al⟩ := b.fwd o' ho'
    obtain ⟨f, hf, e⟩ := al.final.1 f' hf'
    exact ⟨o, f, ho, hf, e⟩
  · obtain ⟨o', ho', al⟩ := b.bwd o ho
    obtain ⟨f', hf'', e⟩ := al.final.2 f hf'
    obtain ⟨n, hr⟩ := (key f').2 ⟨o', ho', hf''⟩
    exact ⟨n, f', hr, e⟩
  · rw [C26_runs_forever_like_the_source_partial ha k1 k2 h6 hf W.J (s, σ)]
    constructor
    · intro hn o ho
      obtain ⟨o', ho', _⟩ := b.bwd o ho
      exact hn o' ho'
    · intro hn o' ho'
      obtain ⟨o, ho, _⟩ := b.fwd o' ho'
      exact hn o ho

/-- C67 for bodies without array literals, interpolated strings and loops over arrays: nothing has to be assumed about
what the operations of the machine mean, or about where things stand in the body, except for the switches. -/
theorem C67_plain_code_does_what_the_text_says_partial (hE : E.Lawful) (hS : E.SmallStructs)
    (h : BodyCompiled F E D env refs t body xs st st' out) (hw : Expr.allSwitchesOk body = true)
    (hp : Expr.allNoSugar body = true) (ha : PoolAgrees env P zero) (hf : Fits16 out) :
    (∃ ρ, ElabSeq E ⟨fun n => refs.get n, []⟩ body xs ρ) ∧ (∃ L, AllOk E L xs) ∧ ∀ (I : Interp V S A) (s : S),
      (∀ f, (∃ n, runBody out P I n s = some f) ↔ ∃ o, ExecAll env zero I xs s o ∧ finalOf o = some f) ∧
      ((∀ n, runBody out P I n s = none) ↔ ∀ o, ¬ ExecAll env zero I xs s o) := by
  obtain ⟨body', h5, h6, k1, k2⟩ := C67_assembled_bodies_have_the_right_shape hE hS h hw
  obtain ⟨tst, h3, h4⟩ := h.checked
  obtain ⟨ρ, h7, _⟩ := C57_only_names_and_conversions E hE refs body xs tst h3 h4
  have := dsSeq_same (D := D) xs (h7.plain hp) h.fresh
  rw [h5] at this
  cases this
  exact ⟨⟨ρ, h7⟩, ⟨_, (checkList_good hE _ _ _ _ _ h3 h4 _ (List.prefix_refl _)).1⟩, fun I s =>
    ⟨fun f => C26_compiled_body_runs_like_the_source_partial ha k1 k2 h6 hf I s f,
      C26_runs_forever_like_the_source_partial ha k1 k2 h6 hf I s⟩⟩

end

end Redscript
