import Verif.Codec.Model
import Verif.Names.Model
import Verif.Util.AMap

/-!
# Launcher helpers (model)

Model of the timestamp file (scc/lib/src/timestamp.rs), of the user hints (scc/lib/src/hints.rs), of
`scc_copy_error` (scc/lib/src/api.rs:71-84) and of `fix_args` (scc/cli/src/opts.rs:6-50).
-/

namespace Redscript

/-! ## Timestamp file -/

/-- `CompileTimestamp::read` (scc/lib/src/timestamp.rs:13-21) on a file with the given contents. -/
def Timestamp.read (file : Bytes) : Except Err (Option (BitVec 128)) :=
  if file.length = 0 then .ok none
  else match leNat 16 file with
    | .ok (n, _) => .ok (some (BitVec.ofNat 128 n))
    | .error e => .error e

/-- `CompileTimestamp::write` (scc/lib/src/timestamp.rs:23-27): the contents of the file afterwards.
The bytes overwrite the start of the file, which is not truncated. -/
def Timestamp.write (t : BitVec 128) (file : Bytes) : Bytes :=
  leBytes 16 t.toNat ++ file.drop 16

/-! ## Copying the error message -/

/-- Memory, by address. -/
abbrev Memory := Nat → Byte

/-- `ptr::copy_nonoverlapping(src, buffer, len)`. -/
def Memory.copy (m : Memory) (buffer : Nat) (src : Bytes) : Memory := fun a =>
  if a < buffer then m a else (src[a - buffer]?).getD (m a)

/-- `ptr::write`. -/
def Memory.set (m : Memory) (addr : Nat) (b : Byte) : Memory := fun a => if a = addr then b else m a

/-- `scc_copy_error` for an error (scc/lib/src/api.rs:71-84), given the bytes of the message: memory
afterwards and the result. `buffer_size - 1` wraps, as in the release profile (Cargo.toml:54-56); a
build with overflow checks would panic instead. -/
def copyError (msg : Bytes) (m : Memory) (buffer : Nat) (size : BitVec 64) : Memory × Nat :=
  let maxLen := min msg.length (size - 1).toNat
  ((m.copy buffer (msg.take maxLen)).set (buffer + maxLen) 0, maxLen)

/-! ## User hints -/

/-- `UserHint` (scc/lib/src/hints.rs:9-16). Paths are an arbitrary type with equality. -/
structure UserHint (Path : Type) where
  id : Text
  message : Text
  file : Option Path
  spanStartsWith : Option Text
  lineContains : Option Text

/-- `str::starts_with`. -/
def startsWith (s pre : Text) : Bool := pre.isPrefixOf s

/-- `str::contains`. -/
def containsText (s part : Text) : Bool :=
  match s with
  | [] => part.isEmpty
  | x :: xs => part.isPrefixOf (x :: xs) || containsText xs part

/-- The predicate of `get_by_error` (scc/lib/src/hints.rs:63-65). -/
def UserHint.accepts {Path : Type} [DecidableEq Path] (h : UserHint Path) (path : Option Path)
    (source line : Text) : Bool :=
  (match h.file with
   | none => true
   | some p => some p == path) &&
  ((match h.spanStartsWith with
    | some s => startsWith source s
    | none => false) ||
   (match h.lineContains with
    | some s => containsText line s
    | none => false))

/-- One parsed hint file: error codes with their hints, in the order the hash map yields them. -/
abbrev HintFile (Path : Type) := List (Text × List (UserHint Path))

/-- `hints.entry(key).or_default().extend(val)` (scc/lib/src/hints.rs:48). -/
def extendHints {Path : Type} (m : AMap Text (List (UserHint Path))) (e : Text × List (UserHint Path)) :
    AMap Text (List (UserHint Path)) :=
  m.insert e.1 ((m.get e.1).getD [] ++ e.2)

/-- `UserHints::load` (scc/lib/src/hints.rs:34-54), given the parsed files in directory order. Reading
and parsing the files is not modelled. -/
def loadHints {Path : Type} (files : List (HintFile Path)) : AMap Text (List (UserHint Path)) :=
  files.foldl (fun m f => f.foldl extendHints m) AMap.empty

/-- `UserHints::get_by_error` (scc/lib/src/hints.rs:56-67). -/
def getByError {Path : Type} [DecidableEq Path] (hints : AMap Text (List (UserHint Path))) (code : Text)
    (path : Option Path) (source line : Text) : Option (UserHint Path) :=
  match hints.get code with
  | none => none
  | some hs => hs.find? fun h => h.accepts path source line

/-! ## Command line repair -/

/-- `str::replace` of one character. -/
def substChar (c : Char) (by_ : Text) (s : Text) : Text := s.flatMap fun x => if x = c then by_ else [x]

/-- `replace("\" ", "\"")` (scc/cli/src/opts.rs:16): drop one space after each quote. -/
def dropSpaceAfterQuote : Text → Text
  | [] => []
  | [x] => [x]
  | x :: y :: rest =>
    if x = '"' && y = ' ' then '"' :: dropSpaceAfterQuote rest else x :: dropSpaceAfterQuote (y :: rest)

/-- `*last = format!("{} {}", last, part)` (scc/cli/src/opts.rs:32-33, 38-39); `none` is the panic of
`unwrap` on an empty vector. -/
def appendToLast (fixed : List Text) (part : Text) : Option (List Text) :=
  match fixed.getLast? with
  | none => none
  | some l => some (fixed.dropLast ++ [l ++ ' ' :: part])

/-- The branch for an argument with a quote outside a broken group (scc/cli/src/opts.rs:15-26). -/
def fixQuoted (fixed : List Text) (arg : Text) : List Text :=
  match splitOnChar '"' (dropSpaceAfterQuote (substChar '"' ['\\', '"'] arg)) with
  | [] => fixed
  | first :: parts =>
    fixed ++ [first] ++ parts.flatMap fun p => if p.isEmpty then [] else splitOnChar ' ' p

/-- The branch inside a broken group (scc/cli/src/opts.rs:27-41). -/
def fixBroken (fixed : List Text) (arg : Text) : Option (List Text) :=
  let brokenArg := if arg.contains '"' then substChar '"' ['\\'] arg else arg
  if brokenArg.contains ' ' then
    match splitOnChar ' ' brokenArg with
    | [] => none
    | first :: parts => (appendToLast fixed first).map (· ++ parts)
  else appendToLast fixed brokenArg

/-- One round of the loop of `fix_args` (scc/cli/src/opts.rs:11-45). -/
def fixStep (st : List Text × Bool) (arg : Text) : Option (List Text × Bool) :=
  let containsQuote := arg.contains '"'
  let broken := if containsQuote then !st.2 else st.2
  if !containsQuote && !st.2 then some (st.1 ++ [arg], broken)
  else if !st.2 then some (fixQuoted st.1 arg, broken)
  else (fixBroken st.1 arg).map (·, broken)

/-- The loop of `fix_args`. -/
def fixLoop : List Text × Bool → List Text → Option (List Text × Bool)
  | st, [] => some st
  | st, a :: as =>
    match fixStep st a with
    | none => none
    | some st => fixLoop st as

/-- `fix_args` (scc/cli/src/opts.rs:6-50); `none` is a panic. -/
def fixArgs (args : List Text) : Option (List Text) :=
  (fixLoop ([], false) args).map fun st => st.1.filter fun s => !s.isEmpty

end Redscript
