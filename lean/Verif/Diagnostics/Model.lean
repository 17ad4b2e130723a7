import Verif.Typed.Model

/-!
# Diagnostic passes (model)

Model of `visit_expr!` (compiler/src/transform.rs:248-340) and of the passes in
compiler/src/diagnostics. Spans are dropped: a diagnostic carries the expression whose span it reports.
-/

namespace Redscript

mutual
/-- A visitor whose `on_expr` pushes `f expr` and then calls `visit_expr!`
(compiler/src/transform.rs:248-340): the pushed results in order. -/
def visit (f : TypedExpr → List R) : TypedExpr → List R
  | .Ident r => f (.Ident r)
  | .Constant c => f (.Constant c)
  | .ArrayLit es ty => f (.ArrayLit es ty) ++ visitList f es
  | .InterpolatedString s parts => f (.InterpolatedString s parts) ++ visitParts f parts
  | .Declare l ty init => f (.Declare l ty init) ++ visitOpt f init
  | .Cast ty e => f (.Cast ty e) ++ visit f e
  | .Assign l r => f (.Assign l r) ++ (visit f l ++ visit f r)
  | .Call c tys args => f (.Call c tys args) ++ visitList f args
  | .MethodCall ctx fn args => f (.MethodCall ctx fn args) ++ (visit f ctx ++ visitList f args)
  | .Member ctx m => f (.Member ctx m) ++ visit f ctx
  | .ArrayElem e idx => f (.ArrayElem e idx) ++ (visit f e ++ visit f idx)
  | .New ty args => f (.New ty args) ++ visitList f args
  | .Return e => f (.Return e) ++ visitOpt f e
  | .Seq es => f (.Seq es) ++ visitList f es
  | .Switch e cases dflt => f (.Switch e cases dflt) ++ (visit f e ++ (visitCases f cases ++ visitBlockOpt f dflt))
  | .Goto t => f (.Goto t)
  | .If c t e => f (.If c t e) ++ (visit f c ++ (visitList f t ++ visitBlockOpt f e))
  | .Conditional c t e => f (.Conditional c t e) ++ (visit f c ++ (visit f t ++ visit f e))
  | .While c body => f (.While c body) ++ (visit f c ++ visitList f body)
  | .ForIn l a body => f (.ForIn l a body) ++ (visit f a ++ visitList f body)
  | .BinOp l r op => f (.BinOp l r op) ++ (visit f l ++ visit f r)
  | .UnOp e op => f (.UnOp e op) ++ visit f e
  | .This => f .This
  | .Super => f .Super
  | .Break => f .Break
  | .Null => f .Null
/-- Visiting in order (`visit_seq`, compiler/src/transform.rs:342-346). -/
def visitList (f : TypedExpr → List R) : List TypedExpr → List R
  | [] => []
  | e :: es => visit f e ++ visitList f es
/-- The interpolated expressions (compiler/src/transform.rs:256-260). -/
def visitParts (f : TypedExpr → List R) : List (TypedExpr × Text) → List R
  | [] => []
  | (e, _) :: ps => visit f e ++ visitParts f ps
/-- An optional operand. -/
def visitOpt (f : TypedExpr → List R) : Option TypedExpr → List R
  | none => []
  | some e => visit f e
/-- The cases of a switch (compiler/src/transform.rs:297-300). -/
def visitCases (f : TypedExpr → List R) : List (TypedExpr × List TypedExpr) → List R
  | [] => []
  | (m, body) :: cs => visit f m ++ (visitList f body ++ visitCases f cs)
/-- An optional block. -/
def visitBlockOpt (f : TypedExpr → List R) : Option (List TypedExpr) → List R
  | none => []
  | some b => visitList f b
end

/-- The test of `StatementFallthroughVisitor` on one case
(compiler/src/diagnostics/stmt_fallthrough.rs:27). -/
def fallsThrough (body : List TypedExpr) : Bool :=
  match body.getLast? with
  | none => false
  | some .Break => false
  | some (.Return _) => false
  | some _ => true

/-- What the visitor pushes for one expression (compiler/src/diagnostics/stmt_fallthrough.rs:24-31). -/
def fallthroughHere : TypedExpr → List TypedExpr
  | .Switch _ cases _ => (cases.dropLast.filter fun c => fallsThrough c.2).map (·.1)
  | _ => []

/-- `StatementFallthroughCheck` (compiler/src/diagnostics/stmt_fallthrough.rs:10-33). -/
def fallthroughCheck (body : TypedExpr) : List TypedExpr := visit fallthroughHere body

/-- The declared locals (compiler/src/diagnostics/unused_local.rs:52-54). -/
def declaredHere : TypedExpr → List Idx
  | .Declare l _ _ => [l]
  | .ForIn l _ _ => [l]
  | _ => []

/-- The used locals (compiler/src/diagnostics/unused_local.rs:55-57). -/
def usedHere : TypedExpr → List Idx
  | .Ident (.Value (.Local l)) => [l]
  | _ => []

/-- `UnusedLocalCheck` (compiler/src/diagnostics/unused_local.rs:14-46). The reported declaration is
identified by its local; the set of used locals is a list. -/
def unusedLocals (body : List TypedExpr) : List Idx :=
  (visitList declaredHere body).filter fun l => !(visitList usedHere body).contains l

/-- The intrinsics that need a place as their first argument
(compiler/src/diagnostics/invalid_temp_use.rs:31-37). -/
def needsPlace : IntrinsicOp → Bool
  | .ArrayContains | .ArrayCount | .ArrayFindFirst | .ArrayFindLast | .ArrayLast | .ArrayPop
  | .ArraySize => true
  | _ => false

/-- What `InvalidUseOfTemporaryVisitor` pushes for one expression
(compiler/src/diagnostics/invalid_temp_use.rs:22-43). -/
def invalidTempHere : TypedExpr → List TypedExpr
  | .Member inner (.StructField _) => if inner.isPrvalue then [inner] else []
  | .ArrayElem inner _ => if inner.isPrvalue then [inner] else []
  | .Call (.Intrinsic op _) _ (inner :: _) => if needsPlace op && inner.isPrvalue then [inner] else []
  | _ => []

/-- `InvalidUseOfTemporaryCheck` (compiler/src/diagnostics/invalid_temp_use.rs:10-47). -/
def invalidTempCheck (body : TypedExpr) : List TypedExpr := visit invalidTempHere body

mutual
/-- `does_always_return` (compiler/src/diagnostics/missing_return.rs:18-35). -/
def alwaysReturns : TypedExpr → Bool
  | .Return _ => true
  | .Seq es => seqReturns es
  | .Switch _ cases dflt => casesReturn cases && blockOptReturns dflt
  | .If _ t (some e) => seqReturns t && seqReturns e
  | _ => false
/-- `does_seq_return` (compiler/src/diagnostics/missing_return.rs:37-39). -/
def seqReturns : List TypedExpr → Bool
  | [] => false
  | e :: es => alwaysReturns e || seqReturns es
/-- `cases.iter().all(..)` (compiler/src/diagnostics/missing_return.rs:23). -/
def casesReturn : List (TypedExpr × List TypedExpr) → Bool
  | [] => true
  | (_, body) :: cs => seqReturns body && casesReturn cs
/-- `default.as_ref().map_or(true, ..)` (compiler/src/diagnostics/missing_return.rs:24). -/
def blockOptReturns : Option (List TypedExpr) → Bool
  | none => true
  | some b => seqReturns b
end

/-- `MissingReturnCheck` (compiler/src/diagnostics/missing_return.rs:8-16): whether it warns. -/
def missingReturn (hasReturnValue wasCallback : Bool) (body : List TypedExpr) : Bool :=
  hasReturnValue && !wasCallback && !seqReturns body

end Redscript
