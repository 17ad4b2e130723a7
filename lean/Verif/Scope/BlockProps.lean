import Verif.Names.Props
import Verif.Scope.BlockModel

/-!
# C24: names resolve to the innermost declaration
-/

namespace Redscript

set_option linter.unusedSimpArgs false

/-! ### Specification

`declared` lists the locals a piece of code adds to the block it stands in, `allDeclared` every local
declared anywhere inside. `Scoped` says that every name used as a value denotes the most recent
declaration visible at that point: blocks see the enclosing declarations made before them, and what
they declare is not seen outside. -/

/-- Visible values, most recent first. -/
abbrev Env := List (Text × Value)

/-- The value a name denotes: the most recent one. -/
def Env.find (env : Env) (n : Text) : Option Value := (List.find? (fun e => e.1 = n) env).map (·.2)

/-- After further declarations, given in source order. -/
def Env.extend (alloc : Nat → Idx) (env : Env) (ds : List (Text × Nat)) : Env :=
  (ds.map fun d => (d.1, Value.Local (alloc d.2))).reverse ++ env

mutual
/-- Locals added to the enclosing block. -/
def declared : Expr NamedAst → List (Text × Nat)
  | .Ident _ => []
  | .Constant _ => []
  | .ArrayLit es _ => declaredList es
  | .InterpolatedString _ ps => declaredParts ps
  | .Declare l _ i => declaredOpt i ++ [l]
  | .Cast _ e => declared e
  | .Assign l r => declared l ++ declared r
  | .Call _ _ as => declaredList as
  | .MethodCall c _ as => declared c ++ declaredList as
  | .Member c _ => declared c
  | .ArrayElem a i => declared a ++ declared i
  | .New _ as => declaredList as
  | .Return e => declaredOpt e
  | .Seq es => declaredList es
  | .Switch e cs _ => declared e ++ declaredCases cs
  | .Goto _ => []
  | .If c _ _ => declared c
  | .Conditional c t e => declared c ++ declared t ++ declared e
  | .While c _ => declared c
  | .ForIn _ a _ => declared a
  | .BinOp l r _ => declared l ++ declared r
  | .UnOp e _ => declared e
  | .This => []
  | .Super => []
  | .Break => []
  | .Null => []
def declaredList : List (Expr NamedAst) → List (Text × Nat)
  | [] => []
  | e :: es => declared e ++ declaredList es
def declaredParts : List (Expr NamedAst × Text) → List (Text × Nat)
  | [] => []
  | (e, _) :: es => declared e ++ declaredParts es
def declaredOpt : Option (Expr NamedAst) → List (Text × Nat)
  | none => []
  | some e => declared e
def declaredCases : List (Expr NamedAst × List (Expr NamedAst)) → List (Text × Nat)
  | [] => []
  | (m, _) :: cs => declared m ++ declaredCases cs
end

mutual
/-- Every local declared inside, in source order. -/
def allDeclared : Expr NamedAst → List (Text × Nat)
  | .Ident _ => []
  | .Constant _ => []
  | .ArrayLit es _ => allDeclaredList es
  | .InterpolatedString _ ps => allDeclaredParts ps
  | .Declare l _ i => allDeclaredOpt i ++ [l]
  | .Cast _ e => allDeclared e
  | .Assign l r => allDeclared l ++ allDeclared r
  | .Call _ _ as => allDeclaredList as
  | .MethodCall c _ as => allDeclared c ++ allDeclaredList as
  | .Member c _ => allDeclared c
  | .ArrayElem a i => allDeclared a ++ allDeclared i
  | .New _ as => allDeclaredList as
  | .Return e => allDeclaredOpt e
  | .Seq es => allDeclaredList es
  | .Switch e cs d => (allDeclared e ++ allDeclaredCases cs) ++ allDeclaredBlockOpt d
  | .Goto _ => []
  | .If c t e => (allDeclared c ++ allDeclaredList t) ++ allDeclaredBlockOpt e
  | .Conditional c t e => (allDeclared c ++ allDeclared t) ++ allDeclared e
  | .While c b => allDeclared c ++ allDeclaredList b
  | .ForIn l a b => (allDeclared a ++ [l]) ++ allDeclaredList b
  | .BinOp l r _ => allDeclared l ++ allDeclared r
  | .UnOp e _ => allDeclared e
  | .This => []
  | .Super => []
  | .Break => []
  | .Null => []
def allDeclaredList : List (Expr NamedAst) → List (Text × Nat)
  | [] => []
  | e :: es => allDeclared e ++ allDeclaredList es
def allDeclaredParts : List (Expr NamedAst × Text) → List (Text × Nat)
  | [] => []
  | (e, _) :: es => allDeclared e ++ allDeclaredParts es
def allDeclaredOpt : Option (Expr NamedAst) → List (Text × Nat)
  | none => []
  | some e => allDeclared e
def allDeclaredCases : List (Expr NamedAst × List (Expr NamedAst)) → List (Text × Nat)
  | [] => []
  | (m, b) :: cs => (allDeclared m ++ allDeclaredList b) ++ allDeclaredCases cs
def allDeclaredBlockOpt : Option (List (Expr NamedAst)) → List (Text × Nat)
  | none => []
  | some b => allDeclaredList b
end

section
variable (alloc : Nat → Idx) (syms : AMap Text Symbol)

mutual
/-- Every name used as a value denotes the innermost, most recent declaration, else the symbol. -/
def Scoped (env : Env) : Expr NamedAst → Prop
  | .Ident r => match env.find r.1 with
    | some v => r.2 = .Value v
    | none => ∃ s, syms.get r.1 = some s ∧ r.2 = .Symbol s
  | .Constant _ => True
  | .ArrayLit es _ => ScopedList env es
  | .InterpolatedString _ ps => ScopedParts env ps
  | .Declare _ _ i => ScopedOpt env i
  | .Cast _ e => Scoped env e
  | .Assign l r => Scoped env l ∧ Scoped (env.extend alloc (declared l)) r
  | .Call _ _ as => ScopedList env as
  | .MethodCall c _ as => Scoped env c ∧ ScopedList (env.extend alloc (declared c)) as
  | .Member c _ => Scoped env c
  | .ArrayElem a i => Scoped env a ∧ Scoped (env.extend alloc (declared a)) i
  | .New _ as => ScopedList env as
  | .Return e => ScopedOpt env e
  | .Seq es => ScopedList env es
  | .Switch e cs d => (Scoped env e ∧ ScopedCases (env.extend alloc (declared e)) cs) ∧ ScopedBlockOpt (env.extend alloc (declared e ++ declaredCases cs)) d
  | .Goto _ => True
  | .If c t e => (Scoped env c ∧ ScopedList (env.extend alloc (declared c)) t) ∧ ScopedBlockOpt (env.extend alloc (declared c)) e
  | .Conditional c t e => (Scoped env c ∧ Scoped (env.extend alloc (declared c)) t) ∧ Scoped (env.extend alloc (declared c ++ declared t)) e
  | .While c b => Scoped env c ∧ ScopedList (env.extend alloc (declared c)) b
  | .ForIn l a b => Scoped env a ∧ ScopedList (env.extend alloc (declared a ++ [l])) b
  | .BinOp l r _ => Scoped env l ∧ Scoped (env.extend alloc (declared l)) r
  | .UnOp e _ => Scoped env e
  | .This => True
  | .Super => True
  | .Break => True
  | .Null => True
def ScopedList (env : Env) : List (Expr NamedAst) → Prop
  | [] => True
  | e :: es => Scoped env e ∧ ScopedList (env.extend alloc (declared e)) es
def ScopedParts (env : Env) : List (Expr NamedAst × Text) → Prop
  | [] => True
  | (e, _) :: es => Scoped env e ∧ ScopedParts (env.extend alloc (declared e)) es
def ScopedOpt (env : Env) : Option (Expr NamedAst) → Prop
  | none => True
  | some e => Scoped env e
def ScopedCases (env : Env) : List (Expr NamedAst × List (Expr NamedAst)) → Prop
  | [] => True
  | (m, b) :: cs => (Scoped env m ∧ ScopedList (env.extend alloc (declared m)) b) ∧
    ScopedCases (env.extend alloc (declared m)) cs
def ScopedBlockOpt (env : Env) : Option (List (Expr NamedAst)) → Prop
  | none => True
  | some b => ScopedList env b
end
end

mutual
/-- Forgetting what the names were resolved to. -/
def erase : Expr NamedAst → Expr SourceAst
  | .Ident r => .Ident r.1
  | .Constant c => .Constant c
  | .ArrayLit es ty => .ArrayLit (eraseList es) ty
  | .InterpolatedString s ps => .InterpolatedString s (eraseParts ps)
  | .Declare l ty i => .Declare l.1 ty (eraseOpt i)
  | .Cast ty e => .Cast ty (erase e)
  | .Assign l r => .Assign (erase l) (erase r)
  | .Call f ts as => .Call f ts (eraseList as)
  | .MethodCall c f as => .MethodCall (erase c) f (eraseList as)
  | .Member c m => .Member (erase c) m
  | .ArrayElem a i => .ArrayElem (erase a) (erase i)
  | .New ty as => .New ty (eraseList as)
  | .Return e => .Return (eraseOpt e)
  | .Seq es => .Seq (eraseList es)
  | .Switch e cs d => .Switch (erase e) (eraseCases cs) (eraseBlockOpt d)
  | .Goto t => .Goto t
  | .If c t e => .If (erase c) (eraseList t) (eraseBlockOpt e)
  | .Conditional c t e => .Conditional (erase c) (erase t) (erase e)
  | .While c b => .While (erase c) (eraseList b)
  | .ForIn l a b => .ForIn l.1 (erase a) (eraseList b)
  | .BinOp l r op => .BinOp (erase l) (erase r) op
  | .UnOp e op => .UnOp (erase e) op
  | .This => .This
  | .Super => .Super
  | .Break => .Break
  | .Null => .Null
def eraseList : List (Expr NamedAst) → List (Expr SourceAst)
  | [] => []
  | e :: es => erase e :: eraseList es
def eraseParts : List (Expr NamedAst × Text) → List (Expr SourceAst × Text)
  | [] => []
  | (e, t) :: es => (erase e, t) :: eraseParts es
def eraseOpt : Option (Expr NamedAst) → Option (Expr SourceAst)
  | none => none
  | some e => some (erase e)
def eraseCases : List (Expr NamedAst × List (Expr NamedAst)) → List (Expr SourceAst × List (Expr SourceAst))
  | [] => []
  | (m, b) :: cs => (erase m, eraseList b) :: eraseCases cs
def eraseBlockOpt : Option (List (Expr NamedAst)) → Option (List (Expr SourceAst))
  | none => none
  | some b => some (eraseList b)
end

/-! ### Proof -/

theorem Env.extend_nil (alloc : Nat → Idx) (env : Env) : env.extend alloc [] = env := rfl

theorem Env.extend_append (alloc : Nat → Idx) (env : Env) (a b : List (Text × Nat)) :
    env.extend alloc (a ++ b) = (env.extend alloc a).extend alloc b := by
  simp [Env.extend]

/-- The scope knows exactly the values of the environment. -/
def Agree (env : Env) (sc : Scope) : Prop := ∀ n, sc.references.get n = env.find n

theorem Agree.addLocal {alloc : Nat → Idx} {env : Env} {sc : Scope} (h : Agree env sc) (n : Text) (k : Nat) :
    Agree (env.extend alloc [(n, k)]) (addNextLocal alloc n sc k) := by
  intro m
  simp only [addNextLocal, Scope.addLocal, Env.extend, Env.find, AMap.get_insert, List.map_cons, List.map_nil,
    List.reverse_singleton, List.singleton_append, List.find?_cons]
  by_cases hm : m = n
  · subst hm; simp
  · have : n ≠ m := Ne.symm hm
    simp [hm, this]
    exact h m

/-- What checking a piece of code guarantees. -/
structure Step (alloc : Nat → Idx) (env : Env) (sc sc' : Scope) (k k' : Nat) (good : Prop)
    (decl all : List (Text × Nat)) : Prop where
  names : good
  agree : Agree (env.extend alloc decl) sc'
  syms : sc'.symbols = sc.symbols
  all : all.map (·.2) = List.range' k (k' - k)
  le : k ≤ k'

namespace Step
variable {alloc : Nat → Idx} {env : Env} {sc sc1 sc2 : Scope} {k k1 k2 : Nat} {s1 s2 : Prop}
  {d1 d2 a1 a2 : List (Text × Nat)}

theorem skip (h : Agree env sc) (s : s1) : Step alloc env sc sc k k s1 [] [] :=
  ⟨s, h, rfl, by simp, Nat.le_refl _⟩

theorem comp (h1 : Step alloc env sc sc1 k k1 s1 d1 a1)
    (h2 : Step alloc (env.extend alloc d1) sc1 sc2 k1 k2 s2 d2 a2) :
    Step alloc env sc sc2 k k2 (s1 ∧ s2) (d1 ++ d2) (a1 ++ a2) := by
  refine ⟨⟨h1.names, h2.names⟩, ?_, h2.syms.trans h1.syms, ?_, Nat.le_trans h1.le h2.le⟩
  · rw [Env.extend_append]; exact h2.agree
  · have hle1 := h1.le
    have hle2 := h2.le
    rw [List.map_append, h1.all, h2.all]
    have := List.range'_append_1 (s := k) (m := k1 - k) (n := k2 - k1)
    rw [show k + (k1 - k) = k1 by omega] at this
    rw [this]
    congr 1
    omega

/-- Leaving a block: its declarations are forgotten. -/
theorem leave (hsc : Agree env sc) (h : Step alloc env sc sc1 k k1 s1 d1 a1) :
    Step alloc env sc sc k k1 s1 [] a1 := ⟨h.names, hsc, rfl, h.all, h.le⟩

end Step

theorem bind3 {o : Option (α × Scope × Nat)} {g : α × Scope × Nat → Option γ} {r : γ}
    (h : o.bind g = some r) : ∃ a sc k, o = some (a, sc, k) ∧ g (a, sc, k) = some r := by
  obtain ⟨⟨a, sc, k⟩, h1, h2⟩ := Option.bind_eq_some_iff.1 h
  exact ⟨a, sc, k, h1, h2⟩

theorem map3 {o : Option (α × Scope × Nat)} {f : α × Scope × Nat → γ} {r : γ}
    (h : o.map f = some r) : ∃ a sc k, o = some (a, sc, k) ∧ f (a, sc, k) = r := by
  obtain ⟨⟨a, sc, k⟩, h1, h2⟩ := Option.map_eq_some_iff.1 h
  exact ⟨a, sc, k, h1, h2⟩

section
variable {alloc : Nat → Idx}
mutual

theorem chk_step (e : Expr SourceAst) (sc : Scope) (k : Nat) (e' : Expr NamedAst) (sc' : Scope) (k' : Nat)
    (env : Env) (ag : Agree env sc) (h : chk alloc e sc k = some (e', sc', k')) :
    Step alloc env sc sc' k k' (Scoped alloc sc.symbols env e') (declared e') (allDeclared e') := by
  match e with
  | .Ident n =>
    simp only [chk] at h
    obtain ⟨r, hr, heq⟩ := Option.map_eq_some_iff.1 h
    cases heq
    refine .skip ag ?_
    simp only [Scoped]
    unfold Scope.resolveReference at hr
    rw [ag n] at hr
    cases hf : env.find n with
    | some v => rw [hf] at hr; cases hr; rfl
    | none =>
      rw [hf] at hr
      obtain ⟨s, hs, heq⟩ := Option.map_eq_some_iff.1 hr
      exact ⟨s, hs, heq.symm⟩
  | .Constant _ =>
    simp only [chk] at h; cases h
    exact .skip ag trivial
  | .ArrayLit v0 v1 =>
    simp only [chk] at h
    obtain ⟨x0, scm, km, g0, heq⟩ := map3 h
    cases heq
    have s0 := chkList_step v0 _ _ x0 _ _ _ ag g0
    exact s0
  | .InterpolatedString v0 v1 =>
    simp only [chk] at h
    obtain ⟨x0, scm, km, g0, heq⟩ := map3 h
    cases heq
    have s0 := chkParts_step v1 _ _ x0 _ _ _ ag g0
    exact s0
  | .Declare v0 v1 v2 =>
    simp only [chk] at h
    obtain ⟨⟨i, sc1, k1⟩, h1, heq⟩ := Option.map_eq_some_iff.1 h
    cases heq
    have s1 := chkOpt_step v2 sc k i sc1 k1 env ag h1
    have s2 : Step alloc (env.extend alloc (declaredOpt i)) sc1 (addNextLocal alloc v0 sc1 k1) k1 (k1 + 1) True
        [(v0, k1)] [(v0, k1)] :=
      ⟨trivial, s1.agree.addLocal _ _, rfl, by simp, by omega⟩
    have := s1.comp s2
    simp only [and_true] at this
    exact this
  | .Cast v0 v1 =>
    simp only [chk] at h
    obtain ⟨x0, scm, km, g0, heq⟩ := map3 h
    cases heq
    have s0 := chk_step v1 _ _ x0 _ _ _ ag g0
    exact s0
  | .Assign v0 v1 =>
    simp only [chk] at h
    obtain ⟨x0, sc0, k0, g0, n0⟩ := bind3 h
    obtain ⟨x1, scm, km, g1, heq⟩ := map3 n0
    cases heq
    have s0 := chk_step v0 _ _ x0 _ _ _ ag g0
    have s1 := chk_step v1 _ _ x1 _ _ _ s0.agree g1
    have := (s0.comp s1)
    simp only [s0.syms, List.append_nil] at this
    exact this
  | .Call v0 v1 v2 =>
    simp only [chk] at h
    obtain ⟨x0, scm, km, g0, heq⟩ := map3 h
    cases heq
    have s0 := chkList_step v2 _ _ x0 _ _ _ ag g0
    exact s0
  | .MethodCall v0 v1 v2 =>
    simp only [chk] at h
    obtain ⟨x0, sc0, k0, g0, n0⟩ := bind3 h
    obtain ⟨x1, scm, km, g1, heq⟩ := map3 n0
    cases heq
    have s0 := chk_step v0 _ _ x0 _ _ _ ag g0
    have s1 := chkList_step v2 _ _ x1 _ _ _ s0.agree g1
    have := (s0.comp s1)
    simp only [s0.syms, List.append_nil] at this
    exact this
  | .Member v0 v1 =>
    simp only [chk] at h
    obtain ⟨x0, scm, km, g0, heq⟩ := map3 h
    cases heq
    have s0 := chk_step v0 _ _ x0 _ _ _ ag g0
    exact s0
  | .ArrayElem v0 v1 =>
    simp only [chk] at h
    obtain ⟨x0, sc0, k0, g0, n0⟩ := bind3 h
    obtain ⟨x1, scm, km, g1, heq⟩ := map3 n0
    cases heq
    have s0 := chk_step v0 _ _ x0 _ _ _ ag g0
    have s1 := chk_step v1 _ _ x1 _ _ _ s0.agree g1
    have := (s0.comp s1)
    simp only [s0.syms, List.append_nil] at this
    exact this
  | .New v0 v1 =>
    simp only [chk] at h
    obtain ⟨x0, scm, km, g0, heq⟩ := map3 h
    cases heq
    have s0 := chkList_step v1 _ _ x0 _ _ _ ag g0
    exact s0
  | .Return v0 =>
    simp only [chk] at h
    obtain ⟨x0, scm, km, g0, heq⟩ := map3 h
    cases heq
    have s0 := chkOpt_step v0 _ _ x0 _ _ _ ag g0
    exact s0
  | .Seq v0 =>
    simp only [chk] at h
    obtain ⟨x0, scm, km, g0, heq⟩ := map3 h
    cases heq
    have s0 := chkList_step v0 _ _ x0 _ _ _ ag g0
    exact s0
  | .Switch v0 v1 v2 =>
    simp only [chk] at h
    obtain ⟨x0, sc0, k0, g0, n0⟩ := bind3 h
    obtain ⟨x1, sc1, k1, g1, n1⟩ := bind3 n0
    obtain ⟨⟨x2, k2⟩, g2, heq⟩ := Option.map_eq_some_iff.1 n1
    cases heq
    have s0 := chk_step v0 _ _ x0 _ _ _ ag g0
    have s1 := chkCases_step v1 _ _ x1 _ _ _ s0.agree g1
    have s2 := chkBlockOpt_step v2 _ _ x2 _ _ s1.agree g2
    have := (s0.comp s1).comp (by first | simpa only [Env.extend_append, List.append_nil] using s2 | exact s2)
    simp only [s0.syms, s1.syms, List.append_nil, ← Env.extend_append, ← List.append_assoc] at this
    exact this
  | .Goto _ =>
    simp only [chk] at h; cases h
    exact .skip ag trivial
  | .If v0 v1 v2 =>
    simp only [chk] at h
    obtain ⟨x0, sc0, k0, g0, n0⟩ := bind3 h
    obtain ⟨x1, sd1, k1, g1, n1⟩ := bind3 n0
    obtain ⟨⟨x2, k2⟩, g2, heq⟩ := Option.map_eq_some_iff.1 n1
    cases heq
    have s0 := chk_step v0 _ _ x0 _ _ _ ag g0
    have s1 := (chkList_step v1 _ _ x1 _ _ _ s0.agree g1).leave s0.agree
    have s2 := chkBlockOpt_step v2 _ _ x2 _ _ s0.agree g2
    have := (s0.comp s1).comp (by first | simpa only [Env.extend_append, List.append_nil] using s2 | exact s2)
    simp only [s0.syms, s1.syms, List.append_nil, ← Env.extend_append, ← List.append_assoc] at this
    exact this
  | .Conditional v0 v1 v2 =>
    simp only [chk] at h
    obtain ⟨x0, sc0, k0, g0, n0⟩ := bind3 h
    obtain ⟨x1, sc1, k1, g1, n1⟩ := bind3 n0
    obtain ⟨x2, scm, km, g2, heq⟩ := map3 n1
    cases heq
    have s0 := chk_step v0 _ _ x0 _ _ _ ag g0
    have s1 := chk_step v1 _ _ x1 _ _ _ s0.agree g1
    have s2 := chk_step v2 _ _ x2 _ _ _ s1.agree g2
    have := (s0.comp s1).comp (by first | simpa only [Env.extend_append, List.append_nil] using s2 | exact s2)
    simp only [s0.syms, s1.syms, List.append_nil, ← Env.extend_append, ← List.append_assoc] at this
    exact this
  | .While v0 v1 =>
    simp only [chk] at h
    obtain ⟨x0, sc0, k0, g0, n0⟩ := bind3 h
    obtain ⟨⟨x1, sd1, k1⟩, g1, heq⟩ := Option.map_eq_some_iff.1 n0
    cases heq
    have s0 := chk_step v0 _ _ x0 _ _ _ ag g0
    have s1 := (chkList_step v1 _ _ x1 _ _ _ s0.agree g1).leave s0.agree
    have := (s0.comp s1)
    simp only [s0.syms, List.append_nil] at this
    exact this
  | .ForIn v0 v1 v2 =>
    simp only [chk] at h
    obtain ⟨a, sc1, k1, h1, h2⟩ := bind3 h
    obtain ⟨⟨b, sc2, k2⟩, h3, heq⟩ := Option.map_eq_some_iff.1 h2
    cases heq
    have s1 := chk_step v1 sc k a sc1 k1 env ag h1
    have s2 := chkList_step v2 _ _ b sc2 k2 _ (s1.agree.addLocal v0 k1) h3
    have s3 : Step alloc (env.extend alloc (declared a)) sc1 (addNextLocal alloc v0 sc1 k1) k1 (k1 + 1) True
        [(v0, k1)] [(v0, k1)] :=
      ⟨trivial, s1.agree.addLocal _ _, rfl, by simp, by omega⟩
    have := s1.comp ((s3.comp s2).leave s1.agree)
    simp only [true_and, List.append_nil, ← Env.extend_append, addNextLocal, Scope.addLocal, s1.syms,
      ← List.append_assoc] at this
    exact this
  | .BinOp v0 v1 v2 =>
    simp only [chk] at h
    obtain ⟨x0, sc0, k0, g0, n0⟩ := bind3 h
    obtain ⟨x1, scm, km, g1, heq⟩ := map3 n0
    cases heq
    have s0 := chk_step v0 _ _ x0 _ _ _ ag g0
    have s1 := chk_step v1 _ _ x1 _ _ _ s0.agree g1
    have := (s0.comp s1)
    simp only [s0.syms, List.append_nil] at this
    exact this
  | .UnOp v0 v1 =>
    simp only [chk] at h
    obtain ⟨x0, scm, km, g0, heq⟩ := map3 h
    cases heq
    have s0 := chk_step v0 _ _ x0 _ _ _ ag g0
    exact s0
  | .This =>
    simp only [chk] at h; cases h
    exact .skip ag trivial
  | .Super =>
    simp only [chk] at h; cases h
    exact .skip ag trivial
  | .Break =>
    simp only [chk] at h; cases h
    exact .skip ag trivial
  | .Null =>
    simp only [chk] at h; cases h
    exact .skip ag trivial
  termination_by sizeOf e
theorem chkList_step (e : List (Expr SourceAst)) (sc : Scope) (k : Nat) (e' : List (Expr NamedAst)) (sc' : Scope)
    (k' : Nat) (env : Env) (ag : Agree env sc) (h : chkList alloc e sc k = some (e', sc', k')) :
    Step alloc env sc sc' k k' (ScopedList alloc sc.symbols env e') (declaredList e') (allDeclaredList e') := by
  match e with
  | [] => simp only [chkList] at h; cases h; exact .skip ag trivial
  | e :: es =>
    simp only [chkList] at h
    obtain ⟨x0, sc0, k0, g0, n0⟩ := bind3 h
    obtain ⟨x1, scm, km, g1, heq⟩ := map3 n0
    cases heq
    have s0 := chk_step e _ _ x0 _ _ _ ag g0
    have s1 := chkList_step es _ _ x1 _ _ _ s0.agree g1
    have := s0.comp s1
    simp only [s0.syms] at this
    exact this
  termination_by sizeOf e
theorem chkParts_step (e : List (Expr SourceAst × Text)) (sc : Scope) (k : Nat) (e' : List (Expr NamedAst × Text))
    (sc' : Scope) (k' : Nat) (env : Env) (ag : Agree env sc) (h : chkParts alloc e sc k = some (e', sc', k')) :
    Step alloc env sc sc' k k' (ScopedParts alloc sc.symbols env e') (declaredParts e') (allDeclaredParts e') := by
  match e with
  | [] => simp only [chkParts] at h; cases h; exact .skip ag trivial
  | (e, t) :: es =>
    simp only [chkParts] at h
    obtain ⟨x0, sc0, k0, g0, n0⟩ := bind3 h
    obtain ⟨x1, scm, km, g1, heq⟩ := map3 n0
    cases heq
    have s0 := chk_step e _ _ x0 _ _ _ ag g0
    have s1 := chkParts_step es _ _ x1 _ _ _ s0.agree g1
    have := s0.comp s1
    simp only [s0.syms] at this
    exact this
  termination_by sizeOf e
theorem chkOpt_step (e : Option (Expr SourceAst)) (sc : Scope) (k : Nat) (e' : Option (Expr NamedAst))
    (sc' : Scope) (k' : Nat) (env : Env) (ag : Agree env sc) (h : chkOpt alloc e sc k = some (e', sc', k')) :
    Step alloc env sc sc' k k' (ScopedOpt alloc sc.symbols env e') (declaredOpt e') (allDeclaredOpt e') := by
  match e with
  | none => simp only [chkOpt] at h; cases h; exact .skip ag trivial
  | some e =>
    simp only [chkOpt] at h
    obtain ⟨x1, scm, km, g1, heq⟩ := map3 h
    cases heq
    exact chk_step e _ _ x1 _ _ _ ag g1
  termination_by sizeOf e
theorem chkCases_step (e : List (Expr SourceAst × List (Expr SourceAst))) (sc : Scope) (k : Nat)
    (e' : List (Expr NamedAst × List (Expr NamedAst)))
    (sc' : Scope) (k' : Nat) (env : Env) (ag : Agree env sc) (h : chkCases alloc e sc k = some (e', sc', k')) :
    Step alloc env sc sc' k k' (ScopedCases alloc sc.symbols env e') (declaredCases e') (allDeclaredCases e') := by
  match e with
  | [] => simp only [chkCases] at h; cases h; exact .skip ag trivial
  | (m, b) :: cs =>
    simp only [chkCases] at h
    obtain ⟨x0, sc0, k0, g0, n0⟩ := bind3 h
    obtain ⟨x1, sd1, k1, g1, n1⟩ := bind3 n0
    obtain ⟨x2, scm, km, g2, heq⟩ := map3 n1
    cases heq
    have s0 := chk_step m _ _ x0 _ _ _ ag g0
    have s1 := (chkList_step b _ _ x1 _ _ _ s0.agree g1).leave s0.agree
    have s2 := chkCases_step cs _ _ x2 _ _ _ s0.agree g2
    have := (s0.comp s1).comp (by simpa only [Env.extend_append, List.append_nil] using s2)
    simp only [s0.syms, s1.syms, List.append_nil, ← Env.extend_append] at this
    exact this
  termination_by sizeOf e
theorem chkBlockOpt_step (e : Option (List (Expr SourceAst))) (sc : Scope) (k : Nat)
    (e' : Option (List (Expr NamedAst))) (k' : Nat) (env : Env) (ag : Agree env sc)
    (h : chkBlockOpt alloc e sc k = some (e', k')) :
    Step alloc env sc sc k k' (ScopedBlockOpt alloc sc.symbols env e') [] (allDeclaredBlockOpt e') := by
  match e with
  | none => simp only [chkBlockOpt] at h; cases h; exact .skip ag trivial
  | some b =>
    simp only [chkBlockOpt] at h
    obtain ⟨⟨x, sd, k1⟩, g, heq⟩ := Option.map_eq_some_iff.1 h
    cases heq
    exact (chkList_step b _ _ x _ _ _ ag g).leave ag
  termination_by sizeOf e
end
end

section
variable {alloc : Nat → Idx}
mutual
theorem chk_erase (e : Expr SourceAst) (sc : Scope) (k : Nat) (e' : Expr NamedAst) (sc' : Scope) (k' : Nat)
    (h : chk alloc e sc k = some (e', sc', k')) : erase e' = e := by
  match e with
  | .Ident n =>
    simp only [chk] at h
    obtain ⟨r, hr, heq⟩ := Option.map_eq_some_iff.1 h
    cases heq
    rfl
  | .Constant _ =>
    simp only [chk] at h; cases h; rfl
  | .ArrayLit v0 v1 =>
    simp only [chk] at h
    obtain ⟨x0, sc0, k0, g0, heq⟩ := map3 h
    cases heq
    have r0 := chkList_erase v0 _ _ _ _ _ g0
    simp only [erase, r0]
  | .InterpolatedString v0 v1 =>
    simp only [chk] at h
    obtain ⟨x0, sc0, k0, g0, heq⟩ := map3 h
    cases heq
    have r0 := chkParts_erase v1 _ _ _ _ _ g0
    simp only [erase, r0]
  | .Declare v0 v1 v2 =>
    simp only [chk] at h
    obtain ⟨x0, sc0, k0, g0, heq⟩ := map3 h
    cases heq
    have r0 := chkOpt_erase v2 _ _ _ _ _ g0
    simp only [erase, r0]
  | .Cast v0 v1 =>
    simp only [chk] at h
    obtain ⟨x0, sc0, k0, g0, heq⟩ := map3 h
    cases heq
    have r0 := chk_erase v1 _ _ _ _ _ g0
    simp only [erase, r0]
  | .Assign v0 v1 =>
    simp only [chk] at h
    obtain ⟨x0, sc0, k0, g0, n0⟩ := bind3 h
    obtain ⟨x1, sc1, k1, g1, heq⟩ := map3 n0
    cases heq
    have r0 := chk_erase v0 _ _ _ _ _ g0
    have r1 := chk_erase v1 _ _ _ _ _ g1
    simp only [erase, r0, r1]
  | .Call v0 v1 v2 =>
    simp only [chk] at h
    obtain ⟨x0, sc0, k0, g0, heq⟩ := map3 h
    cases heq
    have r0 := chkList_erase v2 _ _ _ _ _ g0
    simp only [erase, r0]
  | .MethodCall v0 v1 v2 =>
    simp only [chk] at h
    obtain ⟨x0, sc0, k0, g0, n0⟩ := bind3 h
    obtain ⟨x1, sc1, k1, g1, heq⟩ := map3 n0
    cases heq
    have r0 := chk_erase v0 _ _ _ _ _ g0
    have r1 := chkList_erase v2 _ _ _ _ _ g1
    simp only [erase, r0, r1]
  | .Member v0 v1 =>
    simp only [chk] at h
    obtain ⟨x0, sc0, k0, g0, heq⟩ := map3 h
    cases heq
    have r0 := chk_erase v0 _ _ _ _ _ g0
    simp only [erase, r0]
  | .ArrayElem v0 v1 =>
    simp only [chk] at h
    obtain ⟨x0, sc0, k0, g0, n0⟩ := bind3 h
    obtain ⟨x1, sc1, k1, g1, heq⟩ := map3 n0
    cases heq
    have r0 := chk_erase v0 _ _ _ _ _ g0
    have r1 := chk_erase v1 _ _ _ _ _ g1
    simp only [erase, r0, r1]
  | .New v0 v1 =>
    simp only [chk] at h
    obtain ⟨x0, sc0, k0, g0, heq⟩ := map3 h
    cases heq
    have r0 := chkList_erase v1 _ _ _ _ _ g0
    simp only [erase, r0]
  | .Return v0 =>
    simp only [chk] at h
    obtain ⟨x0, sc0, k0, g0, heq⟩ := map3 h
    cases heq
    have r0 := chkOpt_erase v0 _ _ _ _ _ g0
    simp only [erase, r0]
  | .Seq v0 =>
    simp only [chk] at h
    obtain ⟨x0, sc0, k0, g0, heq⟩ := map3 h
    cases heq
    have r0 := chkList_erase v0 _ _ _ _ _ g0
    simp only [erase, r0]
  | .Switch v0 v1 v2 =>
    simp only [chk] at h
    obtain ⟨x0, sc0, k0, g0, n0⟩ := bind3 h
    obtain ⟨x1, sc1, k1, g1, n1⟩ := bind3 n0
    obtain ⟨⟨x2, k2⟩, g2, heq⟩ := Option.map_eq_some_iff.1 n1
    cases heq
    have r0 := chk_erase v0 _ _ _ _ _ g0
    have r1 := chkCases_erase v1 _ _ _ _ _ g1
    have r2 := chkBlockOpt_erase v2 _ _ _ _ g2
    simp only [erase, r0, r1, r2]
  | .Goto _ =>
    simp only [chk] at h; cases h; rfl
  | .If v0 v1 v2 =>
    simp only [chk] at h
    obtain ⟨x0, sc0, k0, g0, n0⟩ := bind3 h
    obtain ⟨x1, sc1, k1, g1, n1⟩ := bind3 n0
    obtain ⟨⟨x2, k2⟩, g2, heq⟩ := Option.map_eq_some_iff.1 n1
    cases heq
    have r0 := chk_erase v0 _ _ _ _ _ g0
    have r1 := chkList_erase v1 _ _ _ _ _ g1
    have r2 := chkBlockOpt_erase v2 _ _ _ _ g2
    simp only [erase, r0, r1, r2]
  | .Conditional v0 v1 v2 =>
    simp only [chk] at h
    obtain ⟨x0, sc0, k0, g0, n0⟩ := bind3 h
    obtain ⟨x1, sc1, k1, g1, n1⟩ := bind3 n0
    obtain ⟨x2, sc2, k2, g2, heq⟩ := map3 n1
    cases heq
    have r0 := chk_erase v0 _ _ _ _ _ g0
    have r1 := chk_erase v1 _ _ _ _ _ g1
    have r2 := chk_erase v2 _ _ _ _ _ g2
    simp only [erase, r0, r1, r2]
  | .While v0 v1 =>
    simp only [chk] at h
    obtain ⟨x0, sc0, k0, g0, n0⟩ := bind3 h
    obtain ⟨x1, sc1, k1, g1, heq⟩ := map3 n0
    cases heq
    have r0 := chk_erase v0 _ _ _ _ _ g0
    have r1 := chkList_erase v1 _ _ _ _ _ g1
    simp only [erase, r0, r1]
  | .ForIn v0 v1 v2 =>
    simp only [chk] at h
    obtain ⟨x0, sc0, k0, g0, n0⟩ := bind3 h
    obtain ⟨x1, sc1, k1, g1, heq⟩ := map3 n0
    cases heq
    have r0 := chk_erase v1 _ _ _ _ _ g0
    have r1 := chkList_erase v2 _ _ _ _ _ g1
    simp only [erase, r0, r1]
  | .BinOp v0 v1 v2 =>
    simp only [chk] at h
    obtain ⟨x0, sc0, k0, g0, n0⟩ := bind3 h
    obtain ⟨x1, sc1, k1, g1, heq⟩ := map3 n0
    cases heq
    have r0 := chk_erase v0 _ _ _ _ _ g0
    have r1 := chk_erase v1 _ _ _ _ _ g1
    simp only [erase, r0, r1]
  | .UnOp v0 v1 =>
    simp only [chk] at h
    obtain ⟨x0, sc0, k0, g0, heq⟩ := map3 h
    cases heq
    have r0 := chk_erase v0 _ _ _ _ _ g0
    simp only [erase, r0]
  | .This =>
    simp only [chk] at h; cases h; rfl
  | .Super =>
    simp only [chk] at h; cases h; rfl
  | .Break =>
    simp only [chk] at h; cases h; rfl
  | .Null =>
    simp only [chk] at h; cases h; rfl
  termination_by sizeOf e
theorem chkList_erase (e : List (Expr SourceAst)) (sc : Scope) (k : Nat) (e' : List (Expr NamedAst)) (sc' : Scope) (k' : Nat)
    (h : chkList alloc e sc k = some (e', sc', k')) : eraseList e' = e := by
  match e with
  | [] => simp only [chkList] at h; cases h; rfl
  | x :: xs =>
    simp only [chkList] at h
    obtain ⟨x0, sc0, k0, g0, n0⟩ := bind3 h
    obtain ⟨x1, sc1, k1, g1, heq⟩ := map3 n0
    cases heq
    have r0 := chk_erase x _ _ _ _ _ g0
    have r1 := chkList_erase xs _ _ _ _ _ g1
    simp only [eraseList, r0, r1]
  termination_by sizeOf e
theorem chkParts_erase (e : List (Expr SourceAst × Text)) (sc : Scope) (k : Nat) (e' : List (Expr NamedAst × Text)) (sc' : Scope) (k' : Nat)
    (h : chkParts alloc e sc k = some (e', sc', k')) : eraseParts e' = e := by
  match e with
  | [] => simp only [chkParts] at h; cases h; rfl
  | (x, t) :: xs =>
    simp only [chkParts] at h
    obtain ⟨x0, sc0, k0, g0, n0⟩ := bind3 h
    obtain ⟨x1, sc1, k1, g1, heq⟩ := map3 n0
    cases heq
    have r0 := chk_erase x _ _ _ _ _ g0
    have r1 := chkParts_erase xs _ _ _ _ _ g1
    simp only [eraseParts, r0, r1]
  termination_by sizeOf e
theorem chkOpt_erase (e : Option (Expr SourceAst)) (sc : Scope) (k : Nat) (e' : Option (Expr NamedAst)) (sc' : Scope) (k' : Nat)
    (h : chkOpt alloc e sc k = some (e', sc', k')) : eraseOpt e' = e := by
  match e with
  | none => simp only [chkOpt] at h; cases h; rfl
  | some x =>
    simp only [chkOpt] at h
    obtain ⟨x0, sc0, k0, g0, heq⟩ := map3 h
    cases heq
    have r0 := chk_erase x _ _ _ _ _ g0
    simp only [eraseOpt, r0]
  termination_by sizeOf e
theorem chkCases_erase (e : List (Expr SourceAst × List (Expr SourceAst))) (sc : Scope) (k : Nat) (e' : List (Expr NamedAst × List (Expr NamedAst))) (sc' : Scope) (k' : Nat)
    (h : chkCases alloc e sc k = some (e', sc', k')) : eraseCases e' = e := by
  match e with
  | [] => simp only [chkCases] at h; cases h; rfl
  | (m, b) :: xs =>
    simp only [chkCases] at h
    obtain ⟨x0, sc0, k0, g0, n0⟩ := bind3 h
    obtain ⟨x1, sc1, k1, g1, n1⟩ := bind3 n0
    obtain ⟨x2, sc2, k2, g2, heq⟩ := map3 n1
    cases heq
    have r0 := chk_erase m _ _ _ _ _ g0
    have r1 := chkList_erase b _ _ _ _ _ g1
    have r2 := chkCases_erase xs _ _ _ _ _ g2
    simp only [eraseCases, r0, r1, r2]
  termination_by sizeOf e
theorem chkBlockOpt_erase (e : Option (List (Expr SourceAst))) (sc : Scope) (k : Nat) (e' : Option (List (Expr NamedAst))) (k' : Nat)
    (h : chkBlockOpt alloc e sc k = some (e', k')) : eraseBlockOpt e' = e := by
  match e with
  | none => simp only [chkBlockOpt] at h; cases h; rfl
  | some x =>
    simp only [chkBlockOpt] at h
    obtain ⟨x0, sc0, k0, g0, heq⟩ := map3 h
    cases heq
    have r0 := chkList_erase x _ _ _ _ _ g0
    simp only [eraseBlockOpt, r0]
  termination_by sizeOf e
end
end

/-! ### C24 -/

/-- The scope of a function body: parameters in order over the module's symbols
(compiler/src/unit.rs:980-989). -/
def Scope.withParams (sc : Scope) (ps : List (Text × Idx)) : Scope :=
  ps.foldl (fun sc p => sc.addParameter p.1 p.2) sc

/-- The parameters as an environment, the last one most recent. -/
def paramEnv (ps : List (Text × Idx)) : Env := (ps.map fun p => (p.1, Value.Parameter p.2)).reverse

theorem withParams_agree (ps : List (Text × Idx)) (env : Env) (sc : Scope) (h : Agree env sc) :
    Agree (paramEnv ps ++ env) (sc.withParams ps) ∧ (sc.withParams ps).symbols = sc.symbols := by
  induction ps generalizing env sc with
  | nil => exact ⟨h, rfl⟩
  | cons p ps ih =>
    have h1 : Agree ((p.1, .Parameter p.2) :: env) (sc.addParameter p.1 p.2) := by
      intro n
      simp only [Scope.addParameter, AMap.get_insert, Env.find, List.find?_cons]
      by_cases hn : n = p.1
      · subst hn; simp
      · have := Ne.symm hn
        simp [hn, this]
        exact h n
    have := ih _ _ h1
    have h2 : (sc.addParameter p.1 p.2).symbols = sc.symbols := rfl
    rw [h2] at this
    simpa [paramEnv, Scope.withParams] using this

/-- C24: in every checked function body each name used as a value denotes the most recently declared
local of an enclosing block, else the parameter, else the symbol of that name; no declaration is
visible outside its block; the tree is otherwise unchanged; every declaration gets its own local. -/
theorem C24_innermost_declaration (alloc : Nat → Idx) (sc : Scope) (hsc : Agree [] sc)
    (ps : List (Text × Idx)) (body : List (Expr SourceAst)) (out : List (Expr NamedAst)) (sc' : Scope) (k : Nat)
    (h : chkList alloc body (sc.withParams ps) 0 = some (out, sc', k)) :
    ScopedList alloc sc.symbols (paramEnv ps) out ∧ eraseList out = body ∧
      (allDeclaredList out).map (·.2) = List.range k := by
  obtain ⟨h1, h2⟩ := withParams_agree ps [] sc hsc
  rw [List.append_nil] at h1
  have := chkList_step body _ _ _ _ _ _ h1 h
  refine ⟨h2 ▸ this.names, chkList_erase _ _ _ _ _ _ h, ?_⟩
  rw [this.all, List.range_eq_range', Nat.sub_zero]

/-- C24: whatever a block declares, the names visible after it are those visible before it, provided
its head (condition, array or matched value and case labels) declares nothing. -/
theorem C24_blocks_do_not_leak (alloc : Nat → Idx) (e : Expr SourceAst) (sc sc' : Scope) (k k' : Nat)
    (e' : Expr NamedAst) (h : chk alloc e sc k = some (e', sc', k'))
    (hblock : match e' with
      | .If c _ _ | .While c _ | .ForIn _ c _ => declared c = []
      | .Switch c cs _ => declared c = [] ∧ ∀ m ∈ cs, declared m.1 = []
      | _ => False) (n : Text) :
    sc'.resolveReference n = sc.resolveReference n := by
  -- an environment that agrees with the scope
  have hex : ∃ env, Agree env sc := by
    refine ⟨sc.references.entries, fun m => ?_⟩
    unfold AMap.get Env.find
    generalize sc.references.entries = l
    induction l with
    | nil => rfl
    | cons x l ih =>
      obtain ⟨a, b⟩ := x
      rw [AMap.get.go, List.find?_cons]
      by_cases hm : m = a
      · subst hm; simp
      · have := Ne.symm hm
        simp [hm, this]
        simpa using ih
  obtain ⟨env, hag⟩ := hex
  have hs := chk_step e sc k e' sc' k' env hag h
  have hd : declared e' = [] := by
    cases e' with
    | If c t e => simpa [declared] using hblock
    | While c b => simpa [declared] using hblock
    | ForIn l a b => simpa [declared] using hblock
    | Switch c cs d =>
      obtain ⟨h1, h2⟩ := hblock
      rw [declared, h1, List.nil_append]
      clear h hs h1
      induction cs with
      | nil => rfl
      | cons x cs ih =>
        rw [declaredCases, h2 x (by simp), List.nil_append]
        exact ih fun m hm => h2 m (List.mem_cons_of_mem _ hm)
    | _ => exact hblock.elim
  have hag' := hs.agree
  rw [hd, Env.extend_nil] at hag'
  unfold Scope.resolveReference
  rw [hag' n, ← hag n, hs.syms]

/-- Non-vacuity: `let x; if true { let x; x; } x; p;` -/
example :
    let x := "x".toList; let p := "p".toList
    let sc : Scope := ⟨.empty, .empty, .empty, none, none⟩
    let body : List (Expr SourceAst) := [.Declare x none (some (.Ident p)),
      .If (.Constant (.Bool true)) [.Declare x none none, .Ident x] none, .Ident x, .Ident p]
    (match chkList (BitVec.ofNat 32 ·) body (sc.withParams [(p, 7)]) 0 with
    | some ([_, .If _ [_, .Ident r1] none, .Ident r2, .Ident r3], _, k) =>
      decide (r1.2 = .Value (.Local 1) ∧ r2.2 = .Value (.Local 0) ∧ r3.2 = .Value (.Parameter 7) ∧ k = 2)
    | _ => false) = true := by
  decide +kernel

/-! #### Members -/

/-- The classes from a class up to its root, nearest first. -/
inductive Ancestors (h : Hierarchy) : Idx → List ClassView → Prop
  | root {c v} : h.view c = some v → v.base = 0 → Ancestors h c [v]
  | step {c v as} : h.view c = some v → v.base ≠ 0 → Ancestors h v.base as → Ancestors h c (v :: as)

/-- `x` is the first entry of the list with that name. -/
def FirstNamed (l : List (Text × Idx)) (n : Text) (x : Idx) : Prop :=
  ∃ before after, l = before ++ (n, x) :: after ∧ ∀ y ∈ before, y.1 ≠ n

theorem firstNamed_of_find (l : List (Text × Idx)) (n : Text) (f : Text × Idx)
    (h : l.find? (fun y => decide (y.1 = n)) = some f) : FirstNamed l n f.2 := by
  induction l with
  | nil => cases h
  | cons y l ih =>
    rw [List.find?_cons] at h
    by_cases hy : y.1 = n
    · simp [hy] at h
      subst h
      subst hy
      exact ⟨[], l, rfl, by simp⟩
    · simp [hy] at h
      obtain ⟨b, a, he, hb⟩ := ih (by simpa using h)
      refine ⟨y :: b, a, by simp [he], ?_⟩
      intro z hz
      rcases List.mem_cons.1 hz with rfl | hz
      · exact hy
      · exact hb z hz

theorem not_named_of_find (l : List (Text × Idx)) (n : Text)
    (h : l.find? (fun y => decide (y.1 = n)) = none) : ∀ y ∈ l, y.1 ≠ n := by
  simpa using List.find?_eq_none.1 h

/-- C24: the field found is the first of that name when the classes are searched from the object's
class upwards: the declaration of the nearest class. -/
theorem C24_nearest_field (h : Hierarchy) (ident : Text) (c i : Idx) (as : List ClassView)
    (ha : Ancestors h c as) (hr : h.resolveField ident c = some i) :
    FirstNamed (as.flatMap (·.fields)) ident i := by
  induction ha with
  | root hv hb =>
    rename_i c v
    rw [Hierarchy.resolveField] at hr
    split at hr
    · cases hr
    rename_i v' hv'
    rw [hv] at hv'; cases hv'
    split at hr
    · rename_i f hf
      cases hr
      simpa using firstNamed_of_find _ _ _ hf
    · simp [hb] at hr
  | step hv hb _ ih =>
    rename_i c v as _
    rw [Hierarchy.resolveField] at hr
    split at hr
    · cases hr
    rename_i v' hv'
    rw [hv] at hv'; cases hv'
    split at hr
    · rename_i f hf
      cases hr
      obtain ⟨b, a, he, hn⟩ := firstNamed_of_find _ _ _ hf
      exact ⟨b, a ++ as.flatMap (·.fields), by simp [he], hn⟩
    · rename_i hf
      rw [dif_pos hb] at hr
      obtain ⟨b, a, he, hn⟩ := ih hr
      refine ⟨v.fields ++ b, a, by simp [he], ?_⟩
      intro y hy
      rcases List.mem_append.1 hy with hy | hy
      · exact not_named_of_find _ _ hf y hy
      · exact hn y hy

/-- C24: a field is reported missing only when no class up the chain declares it. -/
theorem C24_missing_field (h : Hierarchy) (ident : Text) (c : Idx) (as : List ClassView)
    (ha : Ancestors h c as) (hr : h.resolveField ident c = none) :
    ∀ v ∈ as, ∀ f ∈ v.fields, f.1 ≠ ident := by
  induction ha with
  | root hv hb =>
    rename_i c v
    rw [Hierarchy.resolveField] at hr
    split at hr
    · rename_i hv'; rw [hv] at hv'; cases hv'
    rename_i v' hv'
    rw [hv] at hv'; cases hv'
    split at hr
    · cases hr
    · rename_i hf
      intro u hu
      rw [List.mem_singleton] at hu
      subst hu
      exact not_named_of_find _ _ hf
  | step hv hb _ ih =>
    rename_i c v as _
    rw [Hierarchy.resolveField] at hr
    split at hr
    · rename_i hv'; rw [hv] at hv'; cases hv'
    rename_i v' hv'
    rw [hv] at hv'; cases hv'
    split at hr
    · cases hr
    · rename_i hf
      rw [dif_pos hb] at hr
      intro u hu
      rcases List.mem_cons.1 hu with rfl | hu
      · exact not_named_of_find _ _ hf
      · exact ih hr u hu

/-- A method's definition name is its name, or its name followed by `;` and the parameter types. -/
def MethodNamed (ident : Text) (m : Text × Idx) : Prop :=
  m.1 = ident ∨ ∃ rest, m.1 = ident ++ ';' :: rest

theorem signatureName_eq_iff (ident : Text) (hi : ';' ∉ ident) (m : Text × Idx) :
    signatureName m.1 = ident ↔ MethodNamed ident m := by
  constructor
  · intro h
    unfold signatureName at h
    unfold MethodNamed
    revert ident
    generalize m.1 = l
    induction l with
    | nil => intro ident _ h; subst h; exact .inl rfl
    | cons x l ih =>
      intro ident hi h
      rw [beforeSemicolon] at h
      by_cases hx : x = ';'
      · rw [if_pos hx] at h
        subst h; subst hx
        exact .inr ⟨l, rfl⟩
      · rw [if_neg hx] at h
        subst h
        rcases ih _ (fun hc => hi (List.mem_cons_of_mem _ hc)) rfl with he | ⟨r, he⟩
        · exact .inl (by rw [← he])
        · exact .inr ⟨r, by rw [List.cons_append, ← he]⟩
  · have hc : ∀ c ∈ ident, c ≠ ';' := fun c hc he => hi (he ▸ hc)
    rintro (he | ⟨r, he⟩)
    · unfold signatureName; rw [he]; exact beforeSemicolon_clean _ hc
    · unfold signatureName; rw [he]; exact beforeSemicolon_append _ _ hc

/-- C24: the candidates of a method call are all methods of that name up the inheritance chain, those
of the nearest class first and in declaration order within a class. -/
theorem C24_methods_nearest_first (h : Hierarchy) (ident : Text) (hi : ';' ∉ ident) (c : Idx) (hc : c ≠ 0)
    (as : List ClassView) (ha : Ancestors h c as) :
    ∃ found : List (Text × Idx), found.Sublist (as.flatMap (·.methods)) ∧
      (∀ m, m ∈ found ↔ m ∈ as.flatMap (·.methods) ∧ MethodNamed ident m) ∧
      h.resolveMethod ident c = if found = [] then none else some (found.map (·.2)) := by
  have key : h.collectMethods ident c =
      some (((as.flatMap (·.methods)).filter fun m => signatureName m.1 = ident).map (·.2)) := by
    induction ha with
    | root hv hb =>
      rename_i c v
      rw [Hierarchy.collectMethods, if_neg hc]
      split
      · rename_i hv'; rw [hv] at hv'; cases hv'
      rename_i v' hv'
      rw [hv] at hv'; cases hv'
      simp [hb]
    | step hv hb _ ih =>
      rename_i c v as _
      rw [Hierarchy.collectMethods, if_neg hc]
      split
      · rename_i hv'; rw [hv] at hv'; cases hv'
      rename_i v' hv'
      rw [hv] at hv'; cases hv'
      simp only [dif_pos hb, ih hb]
      simp
  refine ⟨_, List.filter_sublist (p := fun m : Text × Idx => signatureName m.1 = ident), ?_, ?_⟩
  · intro m
    rw [List.mem_filter]
    simp only [decide_eq_true_eq, signatureName_eq_iff ident hi m]
  · rw [Hierarchy.resolveMethod, key, Option.bind_some]
    simp only [List.isEmpty_iff, List.map_eq_nil_iff]

/-- Non-vacuity: class 2 extends class 1; both declare a field `f`; methods `m` are overloaded. -/
private def exH : Hierarchy where
  view c := if c = 1 then some ⟨0, [("f".toList, 10), ("g".toList, 11)], [("m;Int".toList, 20)]⟩
    else if c = 2 then some ⟨1, [("f".toList, 12)], [("m;".toList, 21), ("mm;".toList, 22), ("m".toList, 23)]⟩ else none
  rank c := c.toNat
  drops := by
    intro c v hv hb
    by_cases h1 : c = 1
    · subst h1; simp at hv; subst hv; simp at hb
    · by_cases h2 : c = 2
      · subst h2; simp at hv; subst hv; simp
      · rw [if_neg h1, if_neg h2] at hv; cases hv

example : ∃ as, Ancestors exH 2 as := ⟨_, .step rfl (by decide) (.root rfl rfl)⟩
example : exH.resolveField "f".toList 2 = some 12 ∧ exH.resolveField "g".toList 2 = some 11 ∧
    exH.resolveField "h".toList 2 = none ∧ exH.resolveMethod "m".toList 2 = some [21, 23, 20] := by
  decide +kernel

end Redscript
