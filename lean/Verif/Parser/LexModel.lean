import Verif.Ast.Model

/-!
# Comments, literals and their printed forms (model)

Model of the lexical rules of the parser (compiler/src/parser.rs:167-178, 193-262) and of the printer of
constants (decompiler/src/print.rs:254-268). A rule of the grammar is a function from the text that is left to
the outcome: failure, a match with its value and the text behind it, or a panic of its action. Rules that may
need many steps are given a number of them; using it up is an outcome of its own.
-/

namespace Redscript

/-- The outcome of a grammar rule. -/
inductive Peg (α : Type) where
  | fail
  | ok (a : α) (rest : Text)
  | panic
  /-- the number of steps was used up -/
  | stuck
  deriving DecidableEq, Repr

/-- Try a rule, and another one when it fails: `a / b`. -/
def Peg.orElse (p : Peg α) (q : Unit → Peg α) : Peg α :=
  match p with
  | .fail => q ()
  | p => p

/-! ### Blanks and comments -/

mutual
/-- `comment` (compiler/src/parser.rs:171-176), which yields the text behind it. The first argument bounds the
recursion; it is larger than the text. -/
def commentRule : Nat → Text → Option Text
  | fuel + 1, '/' :: '*' :: s => commentContents fuel s
  | _, _ => none
/-- `comment_content()* comment_end()` (compiler/src/parser.rs:172-176). -/
def commentContents : Nat → Text → Option Text
  | 0, _ => none
  | fuel + 1, s =>
    match commentContent fuel s with
    | some rest => commentContents fuel rest
    | none =>
      match s with
      | '*' :: '/' :: rest => some rest
      | _ => none
/-- `comment_content` (compiler/src/parser.rs:173-174). -/
def commentContent : Nat → Text → Option Text
  | 0, _ => none
  | fuel + 1, s =>
    match commentRule fuel s with
    | some rest => some rest
    | none =>
      match s with
      | '/' :: '*' :: _ => none
      | '*' :: '/' :: _ => none
      | _ :: rest => some rest
      | [] => none
end

/-- `comment` on a text of any length. Each character takes at most three steps. -/
def comment (s : Text) : Option Text := commentRule (3 * s.length + 3) s

/-- `line_comment` (compiler/src/parser.rs:178). -/
def lineComment : Text → Option Text
  | '/' :: '/' :: s => some (s.dropWhile (· ≠ '\n'))
  | _ => none

/-- One round of `_` (compiler/src/parser.rs:167). -/
def blank (s : Text) : Option Text :=
  match s with
  | ' ' :: r | '\n' :: r | '\r' :: r | '\t' :: r => some r
  | s =>
    match comment s with
    | some r => some r
    | none => lineComment s

/-- `_` (compiler/src/parser.rs:167). The first argument bounds the number of rounds. -/
def blanksUpTo : Nat → Text → Text
  | 0, s => s
  | fuel + 1, s =>
    match blank s with
    | some r => blanksUpTo fuel r
    | none => s

/-- `_` on a text of any length: every round takes a character. -/
def blanks (s : Text) : Text := blanksUpTo s.length s

/-! ### Identifiers and keywords -/

/-- A character an identifier can start with (compiler/src/parser.rs:214). -/
def isIdentStart (c : Char) : Bool :=
  ('a' ≤ c && c ≤ 'z') || ('A' ≤ c && c ≤ 'Z') || c == '_'

/-- `['0'..='9']` -/
def isDec (c : Char) : Bool := '0' ≤ c && c ≤ '9'

/-- A character an identifier can go on with (compiler/src/parser.rs:214, 219). -/
def isIdentChar (c : Char) : Bool := isDec c || isIdentStart c

/-- `ident` (compiler/src/parser.rs:212-216). -/
def identRule : Text → Peg Text
  | c :: s => if isIdentStart c then .ok (c :: s.takeWhile isIdentChar) (s.dropWhile isIdentChar) else .fail
  | [] => .fail

/-- A text at the front: the rest behind it. -/
def litRule : Text → Text → Option Text
  | [], s => some s
  | c :: cs, d :: s => if c = d then litRule cs s else none
  | _ :: _, [] => none

/-- `keyword` (compiler/src/parser.rs:218-219). -/
def keyword (k s : Text) : Option Text :=
  match litRule k s with
  | some [] => some []
  | some (c :: r) => if isIdentChar c then none else some (c :: r)
  | none => none

/-! ### Numbers -/

/-- The value of a digit in the bases up to sixteen. -/
def digitVal (c : Char) : Nat :=
  if isDec c then c.toNat - '0'.toNat
  else if 'a' ≤ c then c.toNat - 'a'.toNat + 10
  else c.toNat - 'A'.toNat + 10

/-- The value of digits, the most significant first: the loop of `from_str_radix` of the Rust library. -/
def digitsVal (base : Nat) (ds : Text) : Nat := ds.foldl (fun n c => n * base + digitVal c) 0

/-- `str::parse` for a signed integer of the Rust library, of `w` bits: an optional sign and digits, within
the range of the type. The text is an optional minus and digits here. -/
def parseSigned (w : Nat) (s : Text) : Option (BitVec w) :=
  match s with
  | '-' :: ds =>
    if ds ≠ [] ∧ ds.all isDec ∧ digitsVal 10 ds ≤ 2 ^ (w - 1) then some (BitVec.ofInt w (-(digitsVal 10 ds : Int)))
    else none
  | ds => if ds ≠ [] ∧ ds.all isDec ∧ digitsVal 10 ds < 2 ^ (w - 1) then some (BitVec.ofNat w (digitsVal 10 ds)) else none

/-- `str::parse` for an unsigned integer of the Rust library, which accepts no minus. -/
def parseUnsigned (w : Nat) (ds : Text) : Option (BitVec w) :=
  if ds ≠ [] ∧ ds.all isDec ∧ digitsVal 10 ds < 2 ^ w then some (BitVec.ofNat w (digitsVal 10 ds)) else none

/-- `str::parse` for floats, which is not modelled. -/
structure FloatParse where
  f32 : Text → Option (BitVec 32)
  f64 : Text → Option (BitVec 64)

/-- `['0'..='9' | '.']` -/
def isNumChar (c : Char) : Bool := isDec c || c == '.'

/-- The action of `number` (compiler/src/parser.rs:222-227). -/
def numberValue (F : FloatParse) (s : Text) (unsigned : Bool) (postfix_ : Option Char) : Option Constant :=
  if postfix_ = some 'd' then (F.f64 s).map .F64
  else if s.contains '.' then (F.f32 s).map .F32
  else if postfix_ = some 'l' ∧ unsigned then (parseUnsigned 64 s).map .U64
  else if unsigned then (parseUnsigned 32 s).map .U32
  else if postfix_ = some 'l' then (parseSigned 64 s).map .I64
  else (parseSigned 32 s).map .I32

/-- An optional character: whether it is there, and the rest. -/
def optChar (c : Char) : Text → Bool × Text
  | d :: s => if c = d then (true, s) else (false, d :: s)
  | [] => (false, [])

/-- The postfix of a number (compiler/src/parser.rs:221). -/
def numPostfix : Text → Option Char × Text
  | 'l' :: s => (some 'l', s)
  | 'd' :: s => (some 'd', s)
  | s => (none, s)

/-- `number` (compiler/src/parser.rs:220-228). -/
def numberRule (F : FloatParse) (s : Text) : Peg Constant :=
  let (minus, s1) := optChar '-' s
  let ds := s1.takeWhile isNumChar
  let s2 := s1.dropWhile isNumChar
  if ds = [] then .fail
  else
    let (unsigned, s3) := optChar 'u' s2
    let (postfix_, s4) := numPostfix s3
    match numberValue F (if minus then '-' :: ds else ds) unsigned postfix_ with
    | some c => .ok c s4
    | none => .fail

/-! ### Strings -/

/-- `['a'..='f' | 'A'..='F' | '0'..='9']` -/
def isHex (c : Char) : Bool := ('a' ≤ c && c ≤ 'f') || ('A' ≤ c && c ≤ 'F') || isDec c

/-- At most `n` hexadecimal digits, as many as there are, and the rest. -/
def takeHex : Nat → Text → Text × Text
  | n + 1, c :: s =>
    if isHex c then
      let (ds, r) := takeHex n s
      (c :: ds, r)
    else ([], c :: s)
  | _, s => ([], s)

/-- `char::from_u32` -/
def charFromU32 (n : Nat) : Option Char :=
  if h : n < 0xD800 ∨ (0xDFFF < n ∧ n < 0x110000) then some ⟨⟨n, by omega⟩, by
    rcases h with h | ⟨h1, h2⟩
    · exact Or.inl h
    · exact Or.inr ⟨h1, h2⟩⟩
  else none

/-- `\u{…}`, behind the brace (compiler/src/parser.rs:238-240). At most six digits fit a `u32`, so only
`char::from_u32` can fail, which panics. -/
def unicodeEscape (s : Text) : Peg Char :=
  match takeHex 6 s with
  | ([], _) => .fail
  | (ds, '}' :: r) =>
    match charFromU32 (digitsVal 16 ds) with
    | some c => .ok c r
    | none => .panic
  | _ => .fail

/-- `escaped_char` (compiler/src/parser.rs:230-240). -/
def escapedChar : Text → Peg Char
  | '\\' :: 'n' :: s => .ok '\n' s
  | '\\' :: 'r' :: s => .ok '\r' s
  | '\\' :: 't' :: s => .ok '\t' s
  | '\\' :: '\'' :: s => .ok '\'' s
  | '\\' :: '"' :: s => .ok '"' s
  | '\\' :: '\\' :: s => .ok '\\' s
  | '\\' :: 'u' :: '{' :: s => unicodeEscape s
  | c :: s => if c = '\\' ∨ c = '"' then .fail else .ok c s
  | [] => .fail

/-- `string_contents` (compiler/src/parser.rs:242-243). The first argument bounds the number of characters. -/
def stringContentsUpTo : Nat → Text → Peg Text
  | 0, s => .ok [] s
  | fuel + 1, s =>
    match escapedChar s with
    | .fail => .ok [] s
    | .panic => .panic
    | .stuck => .stuck
    | .ok c r =>
      match stringContentsUpTo fuel r with
      | .ok cs r => .ok (c :: cs) r
      | p => p

/-- `string_contents` on a text of any length. -/
def stringContents (s : Text) : Peg Text := stringContentsUpTo s.length s

/-- `escaped_string` (compiler/src/parser.rs:245-246). -/
def escapedString : Text → Peg Text
  | '"' :: s =>
    match stringContents s with
    | .ok cs ('"' :: r) => .ok cs r
    | .panic => .panic
    | .stuck => .stuck
    | _ => .fail
  | _ => .fail

/-- `literal_type()?` (compiler/src/parser.rs:197-200, 261). -/
def literalType : Text → Literal × Text
  | 'n' :: s => (.Name, s)
  | 'r' :: s => (.Resource, s)
  | 't' :: s => (.TweakDbId, s)
  | s => (.String, s)

/-- `constant` (compiler/src/parser.rs:257-262). -/
def constantRule (F : FloatParse) (s : Text) : Peg Constant :=
  match keyword "true".toList s with
  | some r => .ok (.Bool true) r
  | none =>
    match keyword "false".toList s with
    | some r => .ok (.Bool false) r
    | none =>
      match numberRule F s with
      | .ok c r => .ok c r
      | .panic => .panic
      | .stuck => .stuck
      | .fail =>
        let (ty, s) := literalType s
        match escapedString s with
        | .ok cs r => .ok (.String ty cs) r
        | .panic => .panic
        | .stuck => .stuck
        | .fail => .fail

/-! ### Printing -/

/-- Digits of a number, the most significant first, without leading zeros. -/
def digitsOf (base n : Nat) : Text :=
  if _h : n < base ∨ base < 2 then [n.digitChar]
  else digitsOf base (n / base) ++ [(n % base).digitChar]
termination_by n
decreasing_by exact Nat.div_lt_self (by omega) (by omega)

/-- `char::escape_default` of the Rust library. -/
def escapeChar (c : Char) : Text :=
  if c = '\t' then "\\t".toList
  else if c = '\r' then "\\r".toList
  else if c = '\n' then "\\n".toList
  else if c = '\'' ∨ c = '"' ∨ c = '\\' then ['\\', c]
  else if ' ' ≤ c ∧ c ≤ '~' then [c]
  else "\\u{".toList ++ digitsOf 16 c.toNat ++ ['}']

/-- `str::escape_default` of the Rust library. -/
def escapeText (s : Text) : Text := s.flatMap escapeChar

/-- `Display` of a signed integer of the Rust library. -/
def showInt (v : Int) : Text :=
  if v < 0 then '-' :: digitsOf 10 v.natAbs else digitsOf 10 v.natAbs

/-- The formats of floats, which are not modelled. -/
structure FloatShow where
  /-- `{:.2}` -/
  f32 : BitVec 32 → Text
  /-- `{:.2}` -/
  f64 : BitVec 64 → Text

/-- Printing a constant (decompiler/src/print.rs:254-268). -/
def printConstant (P : FloatShow) : Constant → Text
  | .String .String s => '"' :: escapeText s ++ ['"']
  | .String .Name s => 'n' :: '"' :: escapeText s ++ ['"']
  | .String .Resource s => 'r' :: '"' :: escapeText s ++ ['"']
  | .String .TweakDbId s => 't' :: '"' :: escapeText s ++ ['"']
  | .I32 v => showInt v.toInt
  | .I64 v => showInt v.toInt ++ ['l']
  | .U32 v => digitsOf 10 v.toNat ++ ['u']
  | .U64 v => digitsOf 10 v.toNat ++ ['u']
  | .F32 v => P.f32 v
  | .F64 v => P.f64 v ++ ['d']
  | .Bool true => "true".toList
  | .Bool false => "false".toList

end Redscript
