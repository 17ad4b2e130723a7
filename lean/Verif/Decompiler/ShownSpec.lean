import Verif.Decompiler.ExprProps
import Verif.Vm.Props

/-!
# What a decompiled body shows (specification)

The body a reader of the decompiled source sees, given the typed body that was compiled: blocks are
flattened, jumps that end a branch or a loop leave an empty statement, branches that never go on have their
`else` behind them, a jump out of a switch is a `break`, and the default of a switch without any `break`
ends with its first statement: the others stand behind the switch. `ShownMeaning` proves that this is the same
program; `ShownReads` that the decompiler shows it.
-/

namespace Redscript

/-! ### Statements that never go on, and statements without code -/

/-- Whether a case other than the last arm of a switch has a `break`. `dflt`: the switch has a default. -/
def breaksEarly (dflt : Bool) : List (TypedExpr × List TypedExpr) → Bool
  | [] => false
  | (_, b) :: cs => (Expr.anyStrayBreak b && (dflt || !cs.isEmpty)) || breaksEarly dflt cs

mutual
/-- Statements that end with `return` or `break` on all ways, or that are a switch without any `break` whose
default ends so, behind its first statement. -/
def Expr.stops : TypedExpr → Bool
  | .Return _ | .Break => true
  | .Seq es => Expr.stopsAny es
  | .If _ t e =>
    match e with
    | none => false
    | some e => Expr.stopsAny t && Expr.stopsAny e
  | .Switch _ cs d =>
    match d with
    | some (d :: ds) => !breaksEarly true cs && !Expr.anyStrayBreak (d :: ds) && Expr.stopsAny ds
    | _ => false
  | _ => false
/-- One of the statements never goes on. -/
def Expr.stopsAny : List TypedExpr → Bool
  | [] => false
  | e :: es => e.stops || Expr.stopsAny es
end

mutual
/-- Statements without effect, for which nothing is emitted: declarations of locals of a type without an
initial value, and blocks of them. -/
def Expr.noCode (env : AsmEnv) : TypedExpr → Bool
  | .Declare l ty init =>
    match init, ty with
    | none, some ty =>
      match env.initializer l ty with
      | .ok [] => true
      | _ => false
    | _, _ => false
  | .Seq es => Expr.allNoCode env es
  | _ => false
/-- All of the statements. -/
def Expr.allNoCode (env : AsmEnv) : List TypedExpr → Bool
  | [] => true
  | e :: es => e.noCode env && Expr.allNoCode env es
end

/-! ### Breaks of a switch -/

mutual
/-- Whether a statement at the end of a switch has a `break` of this switch that is not at its end. -/
def Expr.innerBreak (env : AsmEnv) : TypedExpr → Bool
  | .Seq es => Expr.innerBreakAll env es
  | .If _ t e =>
    match e with
    | none => Expr.innerBreakAll env t
    | some e => Expr.anyStrayBreak t || Expr.innerBreakAll env e
  | _ => false
/-- Whether a block at the end of a switch has a `break` of this switch that is not at its end. -/
def Expr.innerBreakAll (env : AsmEnv) : List TypedExpr → Bool
  | [] => false
  | e :: es => (if Expr.allNoCode env es then e.innerBreak env else e.strayBreak) || Expr.innerBreakAll env es
end

/-- Whether the last case has a `break` that is not at its end. -/
def lastInnerBreak (env : AsmEnv) : List (TypedExpr × List TypedExpr) → Bool
  | [] => false
  | (_, b) :: cs => if cs.isEmpty then Expr.innerBreakAll env b else lastInnerBreak env cs

/-! ### The body that is shown -/

/-- Where a statement stands: at the end of a switch whose end is not known (`last`) or known (`known`) from
a `break`, or elsewhere. -/
inductive TailPos where
  | inner | last | known
  deriving DecidableEq, Repr

mutual
/-- How a statement is shown. -/
def shownStmt (env : AsmEnv) (w : TailPos) : TypedExpr → List TypedExpr
  | .Declare l ty init =>
    match init with
    | some v => [.Assign (.Ident (Reference.Value (.Local l))) v]
    | none => if Expr.noCode env (.Declare l ty none) then [] else [.Declare l ty none]
  | .Break => if w = .inner then [.Break] else [.Seq []]
  | .Seq es => shownAll env w es
  | .If c t e =>
    match e with
    | none => [.If c (shownAll env w t) none]
    | some e =>
      if Expr.stopsAny t then .If c (shownAll env .inner t) none :: shownAll env w e
      else if Expr.allNoCode env e then [.If c (shownAll env .inner t ++ [.Seq []]) none]
      else if w = .known then .If c (shownAll env .inner t ++ [.Break]) none :: shownAll env w e
      else [.If c (shownAll env .inner t ++ [.Seq []]) (some (shownAll env w e))]
  | .While c b => [.While c (shownAll env .inner b ++ [.Seq []])]
  | .Switch e cs d =>
    match d with
    | none => [.Switch e (shownCases env (if breaksEarly false cs then .known else .last) cs) none]
    | some [] => [.Switch e (shownCases env .inner cs) (some [])]
    | some (d :: ds) =>
      if breaksEarly true cs then [.Switch e (shownCases env .inner cs) (some (shownAll env .known (d :: ds)))]
      else if Expr.anyStrayBreak (d :: ds) then [.Switch e (shownCases env .inner cs) (some (shownAll env .inner (d :: ds)))]
      else .Switch e (shownCases env .inner cs) (some (shownStmt env .inner d)) :: shownAll env w ds
  | e => [e]
/-- How statements are shown. -/
def shownAll (env : AsmEnv) (w : TailPos) : List TypedExpr → List TypedExpr
  | [] => []
  | e :: es => shownStmt env (if Expr.allNoCode env es then w else .inner) e ++ shownAll env w es
/-- How cases are shown; `w` is where the last one stands. -/
def shownCases (env : AsmEnv) (w : TailPos) : List (TypedExpr × List TypedExpr) → List (TypedExpr × List TypedExpr)
  | [] => []
  | (m, b) :: cs => (m, shownAll env (if cs.isEmpty then w else .inner) b) :: shownCases env w cs
end

/-- How a body is shown: an empty statement marks the end. -/
def shownBody (env : AsmEnv) (body : List TypedExpr) : List TypedExpr :=
  shownAll env .inner body ++ (if Expr.stopsAny body then [] else [.Seq []])

/-! ### Bodies that can be read back -/

/-- The end of a switch can be found: a case before the last arm breaks, or the end is not needed since no
`break` occurs (other than at the end of the last case) and the default is absent or starts with what is
shown as one statement. -/
def endFound (env : AsmEnv) (cs : List (TypedExpr × List TypedExpr)) : Option (List TypedExpr) → Bool
  | none => breaksEarly false cs || !lastInnerBreak env cs
  | some d => breaksEarly true cs || (!Expr.anyStrayBreak d &&
      match d with
      | [] => false
      | d :: _ => (shownStmt env .inner d).length == 1)

mutual
/-- Statements that can be read back: nothing stands behind a statement that never goes on, loops go on,
switches have a case and an end that can be found, and the last case of a switch is not empty. A switch
without default does not stand at the end of another case or default that is followed by an arm. -/
def Expr.tidy (env : AsmEnv) : TypedExpr → Bool
  | .Seq es => Expr.allTidy env es
  | .If _ t e => Expr.allTidy env t && Expr.optTidy env e
  | .While _ b => Expr.allTidy env b && !Expr.stopsAny b
  | .Switch _ cs d =>
    Expr.casesTidy env d.isSome cs && Expr.optTidy env d && !cs.isEmpty && endFound env cs d
  | _ => true
/-- All of the statements. -/
def Expr.allTidy (env : AsmEnv) : List TypedExpr → Bool
  | [] => true
  | e :: es => e.tidy env && Expr.allTidy env es && (!e.stops || Expr.allNoCode env es)
/-- An optional block. -/
def Expr.optTidy (env : AsmEnv) : Option (List TypedExpr) → Bool
  | none => true
  | some es => Expr.allTidy env es
/-- The cases of a switch. -/
def Expr.casesTidy (env : AsmEnv) (dflt : Bool) : List (TypedExpr × List TypedExpr) → Bool
  | [] => true
  | (_, b) :: cs =>
    Expr.allTidy env b && (if cs.isEmpty then !Expr.allEmpty b && (!dflt || !Expr.opensAll b) else !Expr.opensAll b) &&
      Expr.casesTidy env dflt cs
end

/-! ### Names instead of indices -/

/-- The zero value of a primitive type, as written in source. -/
def zeroValue (D : DecEnv) (name : Text) : Option (Expr SourceAst) :=
  if name = "Bool".toList then some (.Constant (.Bool false))
  else if name = "Int8".toList then some (.Constant (.I32 0))
  else if name = "Int16".toList then some (.Constant (.I32 0))
  else if name = "Int32".toList then some (.Constant (.I32 0))
  else if name = "Int64".toList then some (.Constant (.I64 0))
  else if name = "Uint8".toList then some (.Constant (.U32 0))
  else if name = "Uint16".toList then some (.Constant (.U32 0))
  else if name = "Uint32".toList then some (.Constant (.U32 0))
  else if name = "Uint64".toList then some (.Constant (.U64 0))
  else if name = "Float".toList then some (.Constant (.F32 0))
  else if name = "Double".toList then some (.Constant (.F64 0))
  else if name = "String".toList then some (.Constant (.String .String []))
  else if name = "CName".toList then (D.text .Name 0).map fun t => .Constant (.String .Name t)
  else if name = "TweakDBID".toList then (D.text .TweakDbId 0).map fun t => .Constant (.String .TweakDbId t)
  else if name = "ResRef".toList then (D.text .Resource 0).map fun t => .Constant (.String .Resource t)
  else none

/-- The value a local of a type starts with, as written in source. -/
def initialValue (D : DecEnv) (env : AsmEnv) : TypeId → Option (Expr SourceAst)
  | .Prim i =>
    match env.defName i with
    | .ok name => zeroValue D name
    | .error _ => none
  | .Struct s => (D.defName s).map fun name => .New (.mk name []) []
  | .Enum i =>
    match env.enumFirst i with
    | .ok (some m) => (D.defName i).bind fun en => (D.defName m).map fun mn => .Member (.Ident en) mn
    | _ => none
  | .Ref _ | .WeakRef _ => some .Null
  | _ => none

/-- A declaration without a value: the assignment of the value the local starts with, or clearing the
array. -/
def readDeclare (D : DecEnv) (env : AsmEnv) (l : Idx) : Option TypeId → Option (Expr SourceAst)
  | some (.Array _) => (D.defName l).map fun n => .Call "ArrayClear".toList [] [.Ident n]
  | some ty => (D.defName l).bind fun n => (initialValue D env ty).map fun v => .Assign (.Ident n) v
  | none => none

mutual
/-- A statement in terms of names; every node stays. -/
def readStmt (D : DecEnv) (env : AsmEnv) : TypedExpr → Option (Expr SourceAst)
  | .Declare l ty init =>
    match init with
    | none => readDeclare D env l ty
    | some _ => none
  | .Return e =>
    match e with
    | none => some (.Return none)
    | some e => (readBack D env e).map fun e => .Return (some e)
  | .Break => some .Break
  | .Seq es => (readStmts D env es).map .Seq
  | .If c t e =>
    (readBack D env c).bind fun c => (readStmts D env t).bind fun t => (readStmtsOpt D env e).map fun e => .If c t e
  | .While c b => (readBack D env c).bind fun c => (readStmts D env b).map fun b => .While c b
  | .Switch e cs d =>
    (readBack D env e).bind fun e => (readCases D env cs).bind fun cs => (readStmtsOpt D env d).map fun d =>
      .Switch e cs d
  | e => readBack D env e
/-- Statements, in order. -/
def readStmts (D : DecEnv) (env : AsmEnv) : List TypedExpr → Option (List (Expr SourceAst))
  | [] => some []
  | e :: es => (readStmt D env e).bind fun e => (readStmts D env es).map fun es => e :: es
/-- An optional block. -/
def readStmtsOpt (D : DecEnv) (env : AsmEnv) : Option (List TypedExpr) → Option (Option (List (Expr SourceAst)))
  | none => some none
  | some es => (readStmts D env es).map some
/-- Cases, in order. -/
def readCases (D : DecEnv) (env : AsmEnv) : List (TypedExpr × List TypedExpr) →
    Option (List (Expr SourceAst × List (Expr SourceAst)))
  | [] => some []
  | (m, b) :: cs =>
    (readBack D env m).bind fun m => (readStmts D env b).bind fun b => (readCases D env cs).map fun cs => (m, b) :: cs
end

end Redscript
