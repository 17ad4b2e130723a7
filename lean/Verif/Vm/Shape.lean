import Verif.Vm.Source

/-!
# Shapes of bodies (specification)

Which trees are bodies, and where a switch may stand for its generated code to be right. The restrictions on
switches are not guaranteed by the compiler: C28 shows that bodies outside of them are miscompiled.
-/

namespace Redscript

mutual
/-- Trees that are statements: expressions with a value, and the statement forms over them. The type
checker produces only such trees for bodies (compiler/src/typechecker.rs:34-354). -/
def Expr.isStatement : TypedExpr → Bool
  | .Declare _ _ init =>
    match init with
    | some e => e.isValue
    | none => true
  | .Return e =>
    match e with
    | some e => e.isValue
    | none => true
  | .Break => true
  | .Seq es => Expr.areStatements es
  | .If c t e => c.isValue && Expr.areStatements t && Expr.areStatementsOpt e
  | .While c b => c.isValue && Expr.areStatements b
  | .Switch e cases dflt => e.isValue && Expr.areCases cases && Expr.areStatementsOpt dflt
  | e => e.isValue
/-- All elements are statements. -/
def Expr.areStatements : List TypedExpr → Bool
  | [] => true
  | e :: es => e.isStatement && Expr.areStatements es
/-- The statements of an optional block. -/
def Expr.areStatementsOpt : Option (List TypedExpr) → Bool
  | none => true
  | some es => Expr.areStatements es
/-- Cases compare with expressions and have statements as bodies. -/
def Expr.areCases : List (TypedExpr × List TypedExpr) → Bool
  | [] => true
  | (m, b) :: cs => m.isValue && Expr.areStatements b && Expr.areCases cs
end

variable {N : NameKind}

mutual
/-- Statements that may have no code of their own: declarations without a value. -/
def Expr.silent : Expr N → Bool
  | .Declare _ _ init => init.isNone
  | .Seq es => Expr.allSilent es
  | _ => false
/-- All elements are silent. -/
def Expr.allSilent : List (Expr N) → Bool
  | [] => true
  | e :: es => e.silent && Expr.allSilent es
end

mutual
/-- Whether a statement may end with a switch without default. -/
def Expr.opens : Expr N → Bool
  | .Switch _ _ dflt => Expr.opensOpt dflt
  | .If _ t e =>
    match e with
    | none => Expr.opensAll t
    | some e => Expr.opensAll e
  | .Seq es => Expr.opensAll es
  | _ => false
/-- Whether a block may end with a switch without default. -/
def Expr.opensAll : List (Expr N) → Bool
  | [] => false
  | e :: es => Expr.opensAll es || (Expr.allSilent es && e.opens)
/-- Whether a switch with this default may end with a switch without default. -/
def Expr.opensOpt : Option (List (Expr N)) → Bool
  | none => true
  | some d => Expr.opensAll d
end

mutual
/-- Switches stand where their code is right: the last case of a switch is not empty, and a case that is
followed by another one does not end with a switch without default. -/
def Expr.switchesOk : Expr N → Bool
  | .Seq es => Expr.allSwitchesOk es
  | .If _ t e => Expr.allSwitchesOk t && Expr.optSwitchesOk e
  | .While _ b | .ForIn _ _ b => Expr.allSwitchesOk b
  | .Switch _ cases dflt => Expr.casesOk cases && Expr.optSwitchesOk dflt
  | _ => true
/-- All switches of a block. -/
def Expr.allSwitchesOk : List (Expr N) → Bool
  | [] => true
  | e :: es => e.switchesOk && Expr.allSwitchesOk es
/-- All switches of an optional block. -/
def Expr.optSwitchesOk : Option (List (Expr N)) → Bool
  | none => true
  | some es => Expr.allSwitchesOk es
/-- The cases of a switch. -/
def Expr.casesOk : List (Expr N × List (Expr N)) → Bool
  | [] => true
  | (_, b) :: cs =>
    Expr.allSwitchesOk b && (if cs.isEmpty then !Expr.allEmpty b else !Expr.opensAll b) && Expr.casesOk cs
end

end Redscript
