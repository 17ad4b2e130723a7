import Verif.Parser.LexModel

/-!
# Expressions and statements of the parser (model)

Model of the rules for expressions and statements (compiler/src/parser.rs:264-277, 349-479). The recursion of the
rules is bounded by a number of steps. What the parser does is what the model does with every number that is not
used up; C68 says that there is one for every text.

The `precedence!` block (compiler/src/parser.rs:390-479) is expanded as the `peg` library documents it. An
expression starts with a prefix operator or an atom, tried in the order of the source. Then, as long as one
matches, an operator of at least the wanted level is applied; the levels and the operators in them are tried in
the order of the source, and the operand of a left associative operator is of the next level, that of a right
associative one of the same level. The value of `pos()` and spans are dropped.
-/

namespace Redscript

/-- Continue behind a match. -/
def Peg.bind (p : Peg α) (f : α → Text → Peg β) : Peg β :=
  match p with
  | .ok a r => f a r
  | .fail => .fail
  | .panic => .panic
  | .stuck => .stuck

/-- A literal text. -/
def lit (t s : Text) : Peg Unit :=
  match litRule t s with
  | some r => .ok () r
  | none => .fail

/-- `keyword` as a rule. -/
def kw (t s : Text) : Peg Unit :=
  match keyword t s with
  | some r => .ok () r
  | none => .fail

/-- `x()?` -/
def Peg.opt (p : Peg α) (s : Text) : Peg (Option α) :=
  match p with
  | .ok a r => .ok (some a) r
  | .fail => .ok none s
  | .panic => .panic
  | .stuck => .stuck

/-- The first alternative that does not fail. -/
def firstOk : List β → (β → Peg α) → Peg α
  | [], _ => .fail
  | b :: bs, f => (f b).orElse fun _ => firstOk bs f

/-- The rounds of `x ** sep` behind the first. -/
def sepMore (sep : Text → Peg Unit) (x : Text → Peg α) : Nat → Text → Peg (List α)
  | 0, _ => .stuck
  | fuel + 1, s =>
    match (sep s).bind fun _ r => x r with
    | .ok a r => (sepMore sep x fuel r).bind fun as r => .ok (a :: as) r
    | .fail => .ok [] s
    | .panic => .panic
    | .stuck => .stuck

/-- `x ** sep` -/
def sepBy (sep : Text → Peg Unit) (x : Text → Peg α) (fuel : Nat) (s : Text) : Peg (List α) :=
  match x s with
  | .ok a r => (sepMore sep x fuel r).bind fun as r => .ok (a :: as) r
  | .fail => .ok [] s
  | .panic => .panic
  | .stuck => .stuck

/-- `"," _` -/
def commaSep (s : Text) : Peg Unit := (lit [','] s).bind fun _ r => .ok () (blanks r)

/-- `_` as a rule, which always matches. -/
def blankSep (s : Text) : Peg Unit := .ok () (blanks s)

mutual
/-- `type_` (compiler/src/parser.rs:266-267). -/
def typeRule : Nat → Text → Peg TypeName
  | 0, _ => .stuck
  | n + 1, s => (identRule s).bind fun name r =>
    (Peg.opt (typeArgsRule n r) r).bind fun args r => .ok (.mk name (args.getD [])) r
/-- `type_args` (compiler/src/parser.rs:268). -/
def typeArgsRule : Nat → Text → Peg (List TypeName)
  | 0, _ => .stuck
  | n + 1, s => (lit ['<'] s).bind fun _ r =>
    (sepBy commaSep (fun t => typeRule n t) n (blanks r)).bind fun args r =>
    (lit ['>'] (blanks r)).bind fun _ r => .ok args r
end

/-- The compound assignments, level 0 (compiler/src/parser.rs:399-404). -/
def assignOps : List (Text × BinOp) :=
  [("+=".toList, .AssignAdd), ("-=".toList, .AssignSubtract), ("*=".toList, .AssignMultiply), ("/=".toList, .AssignDivide),
   ("|=".toList, .AssignOr), ("&=".toList, .AssignAnd)]

/-- The left associative operators with their levels (compiler/src/parser.rs:406-429). -/
def binaryOps : List (Nat × Text × BinOp) :=
  [(1, "||".toList, .LogicOr), (2, "&&".toList, .LogicAnd), (3, "|".toList, .Or), (4, "^".toList, .Xor), (5, "&".toList, .And),
   (6, "==".toList, .Equal), (6, "!=".toList, .NotEqual), (7, "<".toList, .Less), (7, "<=".toList, .LessEqual),
   (7, ">".toList, .Greater), (7, ">=".toList, .GreaterEqual), (8, "+".toList, .Add), (8, "-".toList, .Subtract),
   (9, "*".toList, .Multiply), (9, "/".toList, .Divide), (9, "%".toList, .Modulo)]

/-- The prefix operators, level 10 (compiler/src/parser.rs:431-433). -/
def prefixOps : List (Text × UnOp) := [("!".toList, .LogicNot), ("~".toList, .BitNot), ("-".toList, .Neg)]

/-- The words that are expressions (compiler/src/parser.rs:459-466). -/
def wordAtoms : List (Text × Expr SourceAst) := [("null".toList, .Null), ("this".toList, .This), ("super".toList, .Super)]

mutual
/-- `expr` (compiler/src/parser.rs:390-479), of at least some level. -/
def parseExpr (F : FloatParse) : Nat → Nat → Text → Peg (Expr SourceAst)
  | 0, _, _ => .stuck
  | n + 1, min, s => (parseAtom F n s).bind fun e r => infixLoop F n min e r
/-- The loop over the operators behind an expression. -/
def infixLoop (F : FloatParse) : Nat → Nat → Expr SourceAst → Text → Peg (Expr SourceAst)
  | 0, _, _, _ => .stuck
  | n + 1, min, e, s =>
    match infixStep F n min e s with
    | .ok e r => infixLoop F n min e r
    | .fail => .ok e s
    | .panic => .panic
    | .stuck => .stuck
/-- The operators behind an expression (compiler/src/parser.rs:391-429, 439-454). -/
def infixStep (F : FloatParse) : Nat → Nat → Expr SourceAst → Text → Peg (Expr SourceAst)
  | 0, _, _, _ => .stuck
  | n + 1, min, e, s =>
    -- level 0
    (if 0 < min then .fail
     else
      ((lit ['?'] (blanks s)).bind fun _ r =>
        (parseExpr F n 0 (blanks r)).bind fun y r =>
        (lit [':'] (blanks r)).bind fun _ r =>
        (parseExpr F n 0 (blanks r)).bind fun z r => .ok (.Conditional e y z) r).orElse fun _ =>
      ((lit ['='] (blanks s)).bind fun _ r =>
        (parseExpr F n 0 (blanks r)).bind fun y r => .ok (.Assign e y) r).orElse fun _ =>
      firstOk assignOps fun x =>
        (lit x.1 (blanks s)).bind fun _ r =>
        (parseExpr F n 0 (blanks r)).bind fun y r => .ok (.BinOp e y x.2) r).orElse fun _ =>
    -- levels 1 to 9
    (firstOk binaryOps fun x =>
      if x.1 < min then .fail
      else
        (lit x.2.1 (blanks s)).bind fun _ r =>
        (parseExpr F n (x.1 + 1) (blanks r)).bind fun y r => .ok (.BinOp e y x.2.2) r).orElse fun _ =>
    -- level 11
    (if 11 < min then .fail
     else
      ((lit ['['] (blanks s)).bind fun _ r =>
        (parseExpr F n 0 (blanks r)).bind fun i r =>
        (lit [']'] (blanks r)).bind fun _ r => .ok (.ArrayElem e i) r).orElse fun _ =>
      ((lit ['.'] (blanks s)).bind fun _ r =>
        (identRule (blanks r)).bind fun f r =>
        (lit ['('] (blanks r)).bind fun _ r =>
        (parseArgs F n (blanks r)).bind fun args r => .ok (.MethodCall e f args) r).orElse fun _ =>
      ((lit ['.'] (blanks s)).bind fun _ r =>
        (identRule (blanks r)).bind fun m r => .ok (.Member e m) r).orElse fun _ =>
      ((kw "as".toList (blanks s)).bind fun _ r =>
        (typeRule n (blanks r)).bind fun ty r => .ok (.Cast ty e) r))
/-- `commasep(<expr()>) _ ")"` (compiler/src/parser.rs:435, 443, 473). -/
def parseArgs (F : FloatParse) : Nat → Text → Peg (List (Expr SourceAst))
  | 0, _ => .stuck
  | n + 1, s =>
    (sepBy commaSep (fun t => parseExpr F n 0 t) n s).bind fun args r =>
    (lit [')'] (blanks r)).bind fun _ r => .ok args r
/-- The prefix operators and the atoms (compiler/src/parser.rs:431-437, 455-478). -/
def parseAtom (F : FloatParse) : Nat → Text → Peg (Expr SourceAst)
  | 0, _ => .stuck
  | n + 1, s =>
    (firstOk prefixOps fun x =>
      (lit x.1 s).bind fun _ r =>
      (parseExpr F n 11 (blanks r)).bind fun e r => .ok (.UnOp e x.2) r).orElse fun _ =>
    ((kw "new".toList s).bind fun _ r =>
      (identRule (blanks r)).bind fun id r =>
      (lit ['('] (blanks r)).bind fun _ r =>
      (parseArgs F n (blanks r)).bind fun args r => .ok (.New (.mk id []) args) r).orElse fun _ =>
    ((lit ['['] s).bind fun _ r =>
      (sepBy commaSep (fun t => parseExpr F n 0 t) n (blanks r)).bind fun es r =>
      (lit [']'] (blanks r)).bind fun _ r => .ok (.ArrayLit es none) r).orElse fun _ =>
    ((lit ['('] s).bind fun _ r =>
      (parseExpr F n 0 (blanks r)).bind fun e r =>
      (lit [')'] (blanks r)).bind fun _ r => .ok e r).orElse fun _ =>
    (firstOk wordAtoms fun x => (kw x.1 s).bind fun _ r => .ok x.2 r).orElse fun _ =>
    ((lit ['s', '"'] s).bind fun _ r =>
      (stringContents r).bind fun start r =>
      (sepBy (fun t => .ok () t) (fun t => parsePart F n t) n r).bind fun parts r =>
      (lit ['"'] r).bind fun _ r => .ok (.InterpolatedString start parts) r).orElse fun _ =>
    ((constantRule F s).bind fun c r => .ok (.Constant c) r).orElse fun _ =>
    ((identRule s).bind fun f r =>
      (Peg.opt (typeArgsRule n (blanks r)) (blanks r)).bind fun tys r =>
      (lit ['('] (blanks r)).bind fun _ r =>
      (parseArgs F n (blanks r)).bind fun args r => .ok (.Call f (tys.getD []) args) r).orElse fun _ =>
    ((identRule s).bind fun id r => .ok (.Ident id) r)
/-- `string_part` (compiler/src/parser.rs:248-252). -/
def parsePart (F : FloatParse) : Nat → Text → Peg (Expr SourceAst × Text)
  | 0, _ => .stuck
  | n + 1, s =>
    (lit ['\\', '('] s).bind fun _ r =>
    (parseExpr F n 0 (blanks r)).bind fun e r =>
    (lit [')'] (blanks r)).bind fun _ r =>
    (stringContents r).bind fun t r => .ok (e, t) r
end

/-- `let_type` (compiler/src/parser.rs:270). -/
def letType (n : Nat) (s : Text) : Peg TypeName := (lit [':'] s).bind fun _ r => typeRule n (blanks r)

/-- `initializer` (compiler/src/parser.rs:273). -/
def initializer (F : FloatParse) (n : Nat) (s : Text) : Peg (Expr SourceAst) :=
  (lit ['='] s).bind fun _ r => parseExpr F n 0 (blanks r)

/-- `let` (compiler/src/parser.rs:275-277). -/
def letRule (F : FloatParse) (n : Nat) (s : Text) : Peg (Expr SourceAst) :=
  (kw "let".toList s).bind fun _ r =>
  (identRule (blanks r)).bind fun name r =>
  (Peg.opt (letType n (blanks r)) (blanks r)).bind fun ty r =>
  (Peg.opt (initializer F n (blanks r)) (blanks r)).bind fun val r =>
  (lit [';'] (blanks r)).bind fun _ r => .ok (.Declare name ty val) r

/-- `_ ";"?` -/
def optSemicolon (s : Text) : Text :=
  match blanks s with
  | ';' :: r => r
  | r => r

mutual
/-- `stmt` (compiler/src/parser.rs:375-388). -/
def parseStmt (F : FloatParse) : Nat → Text → Peg (Expr SourceAst)
  | 0, _ => .stuck
  | n + 1, s =>
    -- while_ (360-362)
    ((kw "while".toList s).bind fun _ r =>
      (parseExpr F n 0 (blanks r)).bind fun c r =>
      (parseBlock F n (blanks r)).bind fun body r => .ok (.While c body) (optSemicolon r)).orElse fun _ =>
    -- for_ (364-366)
    ((kw "for".toList s).bind fun _ r =>
      (identRule (blanks r)).bind fun x r =>
      (kw "in".toList (blanks r)).bind fun _ r =>
      (parseExpr F n 0 (blanks r)).bind fun a r =>
      (parseBlock F n (blanks r)).bind fun body r => .ok (.ForIn x a body) (optSemicolon r)).orElse fun _ =>
    (parseIf F n s).orElse fun _ =>
    -- switch, default (349-351, 357-358)
    ((kw "switch".toList s).bind fun _ r =>
      (parseExpr F n 0 (blanks r)).bind fun e r =>
      (lit ['{'] (blanks r)).bind fun _ r =>
      (sepBy blankSep (fun t => parseCase F n t) n (blanks r)).bind fun cases r =>
      (Peg.opt ((kw "default".toList (blanks r)).bind fun _ r =>
        (lit [':'] (blanks r)).bind fun _ r => parseSeq F n (blanks r)) (blanks r)).bind fun dflt r =>
      (lit ['}'] (blanks r)).bind fun _ r => .ok (.Switch e cases dflt) (optSemicolon r)).orElse fun _ =>
    ((kw "return".toList s).bind fun _ r =>
      (Peg.opt (parseExpr F n 0 (blanks r)) (blanks r)).bind fun val r =>
      (lit [';'] (blanks r)).bind fun _ r => .ok (.Return val) r).orElse fun _ =>
    ((kw "break".toList s).bind fun _ r => (lit [';'] (blanks r)).bind fun _ r => .ok .Break r).orElse fun _ =>
    (letRule F n s).orElse fun _ =>
    ((parseExpr F n 0 s).bind fun e r => (lit [';'] (blanks r)).bind fun _ r => .ok e r)
/-- `if_` and `else_` (compiler/src/parser.rs:368-373). -/
def parseIf (F : FloatParse) : Nat → Text → Peg (Expr SourceAst)
  | 0, _ => .stuck
  | n + 1, s =>
    (kw "if".toList s).bind fun _ r =>
    (parseExpr F n 0 (blanks r)).bind fun c r =>
    (parseBlock F n (blanks r)).bind fun a r =>
    (Peg.opt
      (((kw "else".toList (blanks r)).bind fun _ r => parseBlock F n (blanks r)).orElse fun _ =>
        ((kw "else".toList (blanks r)).bind fun _ r => (parseIf F n (blanks r)).bind fun e r => .ok [e] r)) (blanks r)).bind
      fun b r => .ok (.If c a b) (optSemicolon r)
/-- `"{" _ seq() _ "}"` -/
def parseBlock (F : FloatParse) : Nat → Text → Peg (List (Expr SourceAst))
  | 0, _ => .stuck
  | n + 1, s =>
    (lit ['{'] s).bind fun _ r =>
    (parseSeq F n (blanks r)).bind fun body r =>
    (lit ['}'] (blanks r)).bind fun _ r => .ok body r
/-- `seq` (compiler/src/parser.rs:264). -/
def parseSeq (F : FloatParse) : Nat → Text → Peg (List (Expr SourceAst))
  | 0, _ => .stuck
  | n + 1, s => sepBy blankSep (fun t => parseStmt F n t) n s
/-- `case` (compiler/src/parser.rs:353-355). -/
def parseCase (F : FloatParse) : Nat → Text → Peg (Expr SourceAst × List (Expr SourceAst))
  | 0, _ => .stuck
  | n + 1, s =>
    (kw "case".toList s).bind fun _ r =>
    (parseExpr F n 0 (blanks r)).bind fun m r =>
    (lit [':'] (blanks r)).bind fun _ r =>
    (parseSeq F n (blanks r)).bind fun body r => .ok (m, body) r
end

end Redscript
