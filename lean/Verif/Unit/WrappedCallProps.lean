import Verif.Typecheck.Elab
import Verif.Unit.CompileTheorems

/-!
# C80: what `wrappedMethod` calls
-/

namespace Redscript

/-! ## Specification -/

section
variable {N : NameKind} {C : Type} (f : N.Callable → Option C) (o : Text → Option C)

mutual
/-- What an expression calls by the name of a function, operators among it, each call before the ones in its arguments. `f`
says what a callee is, `o` what the function of an operator is. Methods that are called on objects are left out. -/
def Expr.called : Expr N → List C
  | .Ident _ => []
  | .Constant _ => []
  | .ArrayLit es _ => calledAll es
  | .InterpolatedString _ ps => calledParts ps
  | .Declare _ _ e => calledOpt e
  | .Cast _ e => e.called
  | .Assign a b => a.called ++ b.called
  | .Call g _ args => (f g).toList ++ calledAll args
  | .MethodCall a _ args => a.called ++ calledAll args
  | .Member a _ => a.called
  | .ArrayElem a b => a.called ++ b.called
  | .New _ args => calledAll args
  | .Return e => calledOpt e
  | .Seq es => calledAll es
  | .Switch e cs d => e.called ++ calledCases cs ++ calledBlock d
  | .Goto _ => []
  | .If c t e => c.called ++ calledAll t ++ calledBlock e
  | .Conditional c a b => c.called ++ a.called ++ b.called
  | .While c b => c.called ++ calledAll b
  | .ForIn _ a b => a.called ++ calledAll b
  | .BinOp a b op => (o op.functionName).toList ++ (a.called ++ b.called)
  | .UnOp a op => (o op.functionName).toList ++ a.called
  | .This => []
  | .Super => []
  | .Break => []
  | .Null => []
/-- In each of some expressions. -/
def calledAll : List (Expr N) → List C
  | [] => []
  | e :: es => e.called ++ calledAll es
/-- In the parts of an interpolated string. -/
def calledParts : List (Expr N × Text) → List C
  | [] => []
  | (e, _) :: ps => e.called ++ calledParts ps
/-- In the cases of a switch. -/
def calledCases : List (Expr N × List (Expr N)) → List C
  | [] => []
  | (e, b) :: cs => e.called ++ calledAll b ++ calledCases cs
/-- In an optional expression. -/
def calledOpt : Option (Expr N) → List C
  | none => []
  | some e => e.called
/-- In an optional block. -/
def calledBlock : Option (List (Expr N)) → List C
  | none => []
  | some es => calledAll es
end

end

/-- A callee in a source text. Intrinsics are not functions. -/
def calleeName (g : Text) : Option Text := if IntrinsicOp.ofName g = none then some g else none

/-- A callee in a checked text. -/
def Callable.callee : Callable → Option Idx
  | .Function i => some i
  | .Intrinsic _ _ => none

/-- The names of the functions that a source text calls. -/
def namesCalled (body : List (Expr SourceAst)) : List Text := calledAll calleeName some body

/-- The functions that a checked text calls. -/
def functionsCalled (body : List TypedExpr) : List Idx := calledAll (N := TypedAst) Callable.callee (fun _ => none) body

/-- The code `c` was made of the checked text `xs`, this one of the body `b`; see `BodyDone`. -/
def MadeOf (B : Back) (p : ConstantPool) (b : DeclBody) (xs : List TypedExpr) (c : WrapBody) : Prop :=
  ∃ pc fn sc tst st body pa others, Grown p pc ∧ Installs p others pa ∧ pc.function b.index = some fn ∧ BodyNames b fn pc sc ∧
    ({ B.checker sc pc with permissive := false, symbols := sc.symbols, this := sc.this } : TcEnv).checkBody sc.references b.code = .ok (xs, tst) ∧
    TcDiag.compileError ∉ tst.diags ∧
    dsSeq (B.desugarer sc (B.checked b pc)) xs ⟨(B.checked b pc).definitions.length, [], []⟩ = .ok (body, st) ∧
    fromBody (pa.asmEnv (B.assembler sc pa)) body = .ok c.code ∧ c.locals = tst.locals.map (·.1) ++ st.locals.map (·.1)

/-! ## Proof -/

theorem All2.append' {R : α → β → Prop} {as as' : List α} {bs bs' : List β} (h : All2 R as bs) (h' : All2 R as' bs') :
    All2 R (as ++ as') (bs ++ bs') := by
  induction h with
  | nil => exact h'
  | cons h1 _ ih => exact .cons h1 ih

theorem Wrapped.called {x y : TypedExpr} (h : Wrapped x y) {o : Text → Option Idx} : y.called Callable.callee o = x.called Callable.callee o := by
  cases h <;> simp [Expr.called, calledAll, Callable.callee]

theorem Strong.called {x y : TypedExpr} (h : Strong x y) {o : Text → Option Idx} : y.called Callable.callee o = x.called Callable.callee o := by
  cases h <;> simp [Expr.called, calledAll, Callable.callee]

section
variable {E : TcEnv}

mutual
theorem Elab.called {ρ ρ' e x} : Elab E ρ e x ρ' → All2 (FunctionNamed E) (e.called calleeName some) (x.called Callable.callee fun _ => none)
  | .value _ => .nil
  | .symbol _ _ => .nil
  | .constant _ _ => .nil
  | .array _ _ h => ElabArgs.called h
  | .text _ h => ElabParts.called h
  | .declare _ _ _ _ => .nil
  | .declareAs _ _ _ h w => by
    have := h.called
    rw [← w.called] at this; exact this
  | .declareInfer _ _ _ h => by
    have := h.called
    exact this
  | .cast _ h w => by
    have := h.called
    rw [← w.called] at this; exact this
  | .assign h1 h2 w => by
    have a := h1.called
    have b := h2.called
    rw [← w.called] at b
    exact a.append' b
  | .call _ h1 h2 h3 => by
    have e : calleeName _ = some _ := if_pos h1
    rw [Expr.called, e]
    exact .cons h2 (ElabArgs.called h3)
  | .intrinsic _ _ h1 h3 => by
    have e : calleeName _ = none := if_neg (by rw [h1]; exact Option.some_ne_none _)
    rw [Expr.called, e]
    exact ElabArgs.called h3
  | .method _ h1 w _ h2 => by
    have a := h1.called
    rw [← w.called] at a
    exact a.append' (ElabArgs.called h2)
  | .binary h1 h2 => by
    have := ElabArgs.called h2
    simp only [calledAll, List.append_nil] at this
    exact .cons h1 this
  | .unary h1 h2 => by
    have := ElabArgs.called h2
    simp only [calledAll, List.append_nil] at this
    exact .cons h1 this
  | .classField _ h w _ => by
    have a := h.called
    rw [← w.called] at a; exact a
  | .structField _ h w _ => by
    have a := h.called
    rw [← w.called] at a; exact a
  | .enumMember _ h w _ => by
    have a := h.called
    rw [← w.called] at a; exact a
  | .elem h1 h2 w => by
    have a := h1.called
    have b := h2.called
    rw [← w.called] at b
    exact a.append' b
  | .new _ h => ElabArgs.called h
  | .retNone _ => .nil
  | .ret h w => by
    have a := h.called
    rw [← w.called] at a; exact a
  | .seq h => ElabSeq.called h
  | .switch h1 h2 h3 => (h1.called.append' (ElabCases.called h2)).append' (ElabBlock.called h3)
  | .goto _ _ => .nil
  | .ite h1 w h2 h3 => by
    have a := h1.called
    rw [← w.called] at a
    exact (a.append' (ElabSeq.called h2)).append' (ElabBlock.called h3)
  | .conditional h1 w h2 h3 => by
    have a := h1.called
    rw [← w.called] at a
    exact (a.append' h2.called).append' h3.called
  | .while h1 w h2 => by
    have a := h1.called
    rw [← w.called] at a
    exact a.append' (ElabSeq.called h2)
  | .forIn _ _ h1 h2 => h1.called.append' (ElabSeq.called h2)
  | .this _ => .nil
  | .super _ => .nil
  | .brk _ => .nil
  | .null _ => .nil
theorem ElabSeq.called {ρ ρ' es xs} : ElabSeq E ρ es xs ρ' → All2 (FunctionNamed E) (calledAll calleeName some es) (calledAll (N := TypedAst) Callable.callee (fun _ => none) xs)
  | .nil _ => .nil
  | .cons h hs => h.called.append' (ElabSeq.called hs)
theorem ElabArgs.called {ρ ρ' es xs} : ElabArgs E ρ es xs ρ' → All2 (FunctionNamed E) (calledAll calleeName some es) (calledAll (N := TypedAst) Callable.callee (fun _ => none) xs)
  | .nil _ => .nil
  | .cons h w hs => by
    have a := h.called
    rw [← w.called] at a
    exact a.append' (ElabArgs.called hs)
theorem ElabParts.called {ρ ρ' es xs} : ElabParts E ρ es xs ρ' → All2 (FunctionNamed E) (calledParts calleeName some es) (calledParts (N := TypedAst) Callable.callee (fun _ => none) xs)
  | .nil _ => .nil
  | .cons h hs => h.called.append' (ElabParts.called hs)
theorem ElabCases.called {ρ ρ' es xs} : ElabCases E ρ es xs ρ' → All2 (FunctionNamed E) (calledCases calleeName some es) (calledCases (N := TypedAst) Callable.callee (fun _ => none) xs)
  | .nil _ => .nil
  | .cons h h' hs => (h.called.append' (ElabSeq.called h')).append' (ElabCases.called hs)
theorem ElabBlock.called {ρ ρ' es xs} : ElabBlock E ρ es xs ρ' → All2 (FunctionNamed E) (calledBlock calleeName some es) (calledBlock (N := TypedAst) Callable.callee (fun _ => none) xs)
  | .none _ => .nil
  | .some h => ElabSeq.called h
end

/-- C57: the calls in an accepted body are, one for one and in their order, the calls in the checked one, each to a function
with the name that is called. -/
theorem C57_calls_keep_their_names (hE : E.Lawful) {refs : AMap Text Value} {body : List (Expr SourceAst)} {xs : List TypedExpr} {st : TcState}
    (h : E.checkBody refs body = .ok (xs, st)) (hn : TcDiag.compileError ∉ st.diags) :
    All2 (FunctionNamed E) (namesCalled body) (functionsCalled xs) := by
  obtain ⟨ρ, hs, _⟩ := C57_only_names_and_conversions E hE refs body xs st h hn
  exact hs.called

end

theorem All2.imp' {R S : α → β → Prop} {as : List α} {bs : List β} (h : All2 R as bs) (hi : ∀ a b, R a b → S a b) : All2 S as bs := by
  induction h with
  | nil => exact .nil
  | cons h1 _ ih => exact .cons (hi _ _ h1) ih

/-- What the names `wrappedMethod` in the body of a wrapper become. -/
theorem BodyDone.wrappedCalls {B : Back} (hE : ∀ sc pc, ({ B.checker sc pc with permissive := false, symbols := sc.symbols, this := sc.this } : TcEnv).Lawful)
    {p : ConstantPool} {b : DeclBody} {c : WrapBody} (h : BodyDone B p b c) {w : Idx} (hw : b.wrapped = some w) :
    ∃ xs, MadeOf B p b xs c ∧ All2 (fun n g => n = "wrappedMethod".toList →
      g = w ∨ g ∈ (b.scope.functionsNamed "wrappedMethod".toList).map (·.1)) (namesCalled b.code) (functionsCalled xs) := by
  obtain ⟨pc, fn, sc, xs, tst, st, body, pa, others, k1, k2, k3, k4, k5, k6, k7⟩ := h.done
  refine ⟨xs, ⟨pc, fn, sc, tst, st, body, pa, others, k1, k2, k3, k4, k5, k6, k7⟩, ?_⟩
  refine (C57_calls_keep_their_names (hE sc pc) k5 k6).imp' ?_
  rintro n g ⟨fs, v, h1, h2⟩ rfl
  have h1 : sc.symbols.get "wrappedMethod".toList = some (.Functions fs) := h1
  rw [k4.wrapped w hw] at h1
  cases h1
  rcases List.mem_append.1 h2 with h2 | h2
  · exact .inr (List.mem_map.2 ⟨_, h2, rfl⟩)
  · rw [List.mem_singleton] at h2
    cases h2
    exact .inl rfl

/-- C80 (partial): in a compilation without errors and conflicts each wrapper in the sources that has a body is compiled to code
that is made of its body, and each `wrappedMethod(...)` in it, in the order of the text, has become a call to what the wrapper is
around (`w.wrapped`: the original or the wrapper before it, see `C36` and `C73`), as long as the scope of the body
(see `C63`) has no function with the name `wrappedMethod`. Missing: if it has one, that may be called instead. -/
theorem C80_wrapped_method_is_what_is_wrapped_partial {B : Back} {ms : List SourceModule} {p : ConstantPool} {s : DeclState} {out : UnitOutput}
    {ws : List WrapSlot} {bodies : List WrapBody} {p1 p2 p3 p4 : ConstantPool} {σ : Idx → Idx}
    (h : CompileRun B ms p s out ws bodies p1 p2 p3 p4 σ)
    (hE : ∀ sc pc, ({ B.checker sc pc with permissive := false, symbols := sc.symbols, this := sc.this } : TcEnv).Lawful)
    {e : SourceModule × SourceEntry} {w : WrapSlot} (hw : WrapperFor s (ms.filterMap (·.path)) e w)
    {f : FunctionSource} {code : List (Expr SourceAst)} (hf : e.2 = .Function f) (hc : f.body = some code)
    (hs : ∀ b ∈ s.bodies, b.index = w.index → b.scope.functionsNamed "wrappedMethod".toList = []) :
    ∃ b c xs, b ∈ s.bodies ∧ b.index = w.index ∧ b.code = code ∧ c ∈ bodies ∧ c.index = w.index ∧ MadeOf B p2 b xs c ∧
      All2 (fun n g => n = "wrappedMethod".toList → g = w.wrapped) (namesCalled code) (functionsCalled xs) := by
  obtain ⟨f', a, t, base, h1, h2, h3, h4, h5, h6, h7, h8⟩ := hw
  rw [hf] at h1; cases h1
  obtain ⟨g, _, _, _, _, _, _, _, _, _, _, _, _, _, _, _, _, hb⟩ := h8
  obtain ⟨b, hb, b1, b2, b3, b4, _, b5⟩ := hb code hc
  obtain ⟨c, hc', hbc⟩ := h.done.mem_left hb
  obtain ⟨xs, k1, k2⟩ := hbc.wrappedCalls hE b4
  refine ⟨b, c, xs, hb, b1, b3, hc', hbc.index.trans b1, k1, ?_⟩
  rw [← b3]
  refine k2.imp' fun n g k hn => ?_
  rcases k hn with k | k
  · exact k
  · rw [hs b hb b1] at k; cases k

end Redscript
