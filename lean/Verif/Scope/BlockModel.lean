import Verif.Ast.Model
import Verif.Scope.Model

/-!
# Scopes during type checking (model)

The scope handling of `TypeChecker::check` (compiler/src/typechecker.rs:34-362): which scope each
subexpression is checked in, where locals are added and where scopes are copied. Types, conversions and
overloads are left out; arguments of calls are taken to be checked once, in order, in the current scope
(compiler/src/typechecker.rs:561-565, 576). Names that are not values (functions, members, types) are
left as they are. The output tree keeps the source name beside each resolved reference and local; a
local is identified by its position in `TypeChecker::locals`, `alloc` gives its pool index.
-/

namespace Redscript

/-- The tree after name resolution. -/
abbrev NamedAst : NameKind :=
  { Reference := Text × Reference, Callable := Text, Local := Text × Nat, Function := Text,
    Member := Text, Ty := TypeName }

section
variable (alloc : Nat → Idx)

/-- `TypeChecker::add_local` (compiler/src/typechecker.rs:675-687): the next local. -/
def addNextLocal (name : Text) (sc : Scope) (k : Nat) : Scope := sc.addLocal name (alloc k)

mutual
/-- `TypeChecker::check` (compiler/src/typechecker.rs:34-354). `none` is an unresolved reference in
non-permissive mode. Results are the resolved tree, the scope and the number of locals. -/
def chk : Expr SourceAst → Scope → Nat → Option (Expr NamedAst × Scope × Nat)
  | .Ident n, sc, k => (sc.resolveReference n).map fun r => (.Ident (n, r), sc, k)
  | .Constant c, sc, k => some (.Constant c, sc, k)
  | .ArrayLit es ty, sc, k => (chkList es sc k).map fun (es, sc, k) => (.ArrayLit es ty, sc, k)
  | .InterpolatedString s ps, sc, k =>
    (chkParts ps sc k).map fun (ps, sc, k) => (.InterpolatedString s ps, sc, k)
  | .Declare n ty init, sc, k =>
    (chkOpt init sc k).map fun (init, sc, k) => (.Declare (n, k) ty init, addNextLocal alloc n sc k, k + 1)
  | .Cast ty e, sc, k => (chk e sc k).map fun (e, sc, k) => (.Cast ty e, sc, k)
  | .Assign l r, sc, k => (chk l sc k).bind fun (l, sc, k) => (chk r sc k).map fun (r, sc, k) => (.Assign l r, sc, k)
  | .Call f ts as, sc, k => (chkList as sc k).map fun (as, sc, k) => (.Call f ts as, sc, k)
  | .MethodCall c f as, sc, k => (chk c sc k).bind fun (c, sc, k) =>
    (chkList as sc k).map fun (as, sc, k) => (.MethodCall c f as, sc, k)
  | .Member c m, sc, k => (chk c sc k).map fun (c, sc, k) => (.Member c m, sc, k)
  | .ArrayElem a i, sc, k => (chk a sc k).bind fun (a, sc, k) => (chk i sc k).map fun (i, sc, k) => (.ArrayElem a i, sc, k)
  | .New ty as, sc, k => (chkList as sc k).map fun (as, sc, k) => (.New ty as, sc, k)
  | .Return e, sc, k => (chkOpt e sc k).map fun (e, sc, k) => (.Return e, sc, k)
  | .Seq es, sc, k => (chkList es sc k).map fun (es, sc, k) => (.Seq es, sc, k)
  | .Switch e cs d, sc, k => (chk e sc k).bind fun (e, sc, k) => (chkCases cs sc k).bind fun (cs, sc, k) =>
    (chkBlockOpt d sc k).map fun (d, k) => (.Switch e cs d, sc, k)
  | .Goto t, sc, k => some (.Goto t, sc, k)
  | .If c t e, sc, k => (chk c sc k).bind fun (c, sc, k) => (chkList t sc k).bind fun (t, _, k) =>
    (chkBlockOpt e sc k).map fun (e, k) => (.If c t e, sc, k)
  | .Conditional c t e, sc, k => (chk c sc k).bind fun (c, sc, k) => (chk t sc k).bind fun (t, sc, k) =>
    (chk e sc k).map fun (e, sc, k) => (.Conditional c t e, sc, k)
  | .While c b, sc, k => (chk c sc k).bind fun (c, sc, k) =>
    (chkList b sc k).map fun (b, _, k) => (.While c b, sc, k)
  | .ForIn n a b, sc, k => (chk a sc k).bind fun (a, sc, k) =>
    (chkList b (addNextLocal alloc n sc k) (k + 1)).map fun (b, _, k') => (.ForIn (n, k) a b, sc, k')
  | .BinOp l r op, sc, k => (chk l sc k).bind fun (l, sc, k) => (chk r sc k).map fun (r, sc, k) => (.BinOp l r op, sc, k)
  | .UnOp e op, sc, k => (chk e sc k).map fun (e, sc, k) => (.UnOp e op, sc, k)
  | .This, sc, k => some (.This, sc, k)
  | .Super, sc, k => some (.Super, sc, k)
  | .Break, sc, k => some (.Break, sc, k)
  | .Null, sc, k => some (.Null, sc, k)
/-- `check_seq` (compiler/src/typechecker.rs:356-362); also the loops over arguments. -/
def chkList : List (Expr SourceAst) → Scope → Nat → Option (List (Expr NamedAst) × Scope × Nat)
  | [], sc, k => some ([], sc, k)
  | e :: es, sc, k => (chk e sc k).bind fun (e, sc, k) => (chkList es sc k).map fun (es, sc, k) => (e :: es, sc, k)
/-- The parts of an interpolated string (compiler/src/typechecker.rs:94-98). -/
def chkParts : List (Expr SourceAst × Text) → Scope → Nat → Option (List (Expr NamedAst × Text) × Scope × Nat)
  | [], sc, k => some ([], sc, k)
  | (e, t) :: es, sc, k => (chk e sc k).bind fun (e, sc, k) =>
    (chkParts es sc k).map fun (es, sc, k) => ((e, t) :: es, sc, k)
/-- Optional initialisers and results (compiler/src/typechecker.rs:100-113, 263-280). -/
def chkOpt : Option (Expr SourceAst) → Scope → Nat → Option (Option (Expr NamedAst) × Scope × Nat)
  | none, sc, k => some (none, sc, k)
  | some e, sc, k => (chk e sc k).map fun (e, sc, k) => (some e, sc, k)
/-- Switch cases (compiler/src/typechecker.rs:286-290): matchers in the scope itself, bodies in a copy. -/
def chkCases : List (Expr SourceAst × List (Expr SourceAst)) → Scope → Nat →
    Option (List (Expr NamedAst × List (Expr NamedAst)) × Scope × Nat)
  | [], sc, k => some ([], sc, k)
  | (m, b) :: cs, sc, k => (chk m sc k).bind fun (m, sc, k) => (chkList b sc k).bind fun (b, _, k) =>
    (chkCases cs sc k).map fun (cs, sc, k) => ((m, b) :: cs, sc, k)
/-- `else` and `default` bodies (compiler/src/typechecker.rs:291-293, 302-304), in a copy. -/
def chkBlockOpt : Option (List (Expr SourceAst)) → Scope → Nat → Option (Option (List (Expr NamedAst)) × Nat)
  | none, _, k => some (none, k)
  | some b, sc, k => (chkList b sc k).map fun (b, _, k) => (some b, k)
end
end

end Redscript
