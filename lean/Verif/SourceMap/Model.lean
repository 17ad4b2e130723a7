import Verif.Util.BinarySearch
import Verif.Names.Model

/-!
# Source map (model)

Model of `compiler/src/source_map.rs` and of `Pos`/`Span` (core/src/ast.rs:306-379). Positions are
natural numbers; arithmetic on them wraps at 32 bits. Source text is a list of characters whose byte
length is its UTF-8 length. File paths are not modelled. Panics are `none` results of the outer option.
-/

namespace Redscript

/-- `str::len`: bytes of the UTF-8 form. -/
def byteLen (s : Text) : Nat := (s.map Char.utf8Size).sum

/-- `Add<usize> for Pos` (core/src/ast.rs:324-331), release build. -/
def posAdd (p n : Nat) : Nat := (p + n) % 2 ^ 32

/-- `Span::compare_pos` (core/src/ast.rs:370-378). -/
def comparePos (low high pos : Nat) : Ordering :=
  if low > pos then .gt else if high < pos then .lt else .eq

/-- `Span::merge` (core/src/ast.rs:362-364) on `(low, high)`. -/
def spanMerge (a b : Nat × Nat) : Nat × Nat := (min a.1 b.1, max a.2 b.2)

/-- `Span::contains` (core/src/ast.rs:366-368). -/
def spanContains (a : Nat × Nat) (pos : Nat) : Bool := decide (a.1 ≤ pos) && decide (a.2 > pos)

/-- `File` (compiler/src/source_map.rs:109-115); `NonEmptyVec(low, lines)` is the two fields. -/
structure SrcFile where
  low : Nat
  lines : List Nat
  high : Nat
  source : Text
  deriving DecidableEq, Repr

/-- `source.match_indices('\n')` (compiler/src/source_map.rs:46): the byte offsets of newlines, the
text starting at byte `base`. -/
def newlineOffsets (base : Nat) : Text → List Nat
  | [] => []
  | c :: s =>
    if c = '\n' then base :: newlineOffsets (base + c.utf8Size) s
    else newlineOffsets (base + c.utf8Size) s

/-- The file built by `Files::add` (compiler/src/source_map.rs:42-55) for a text starting at `low`. -/
def SrcFile.make (low : Nat) (source : Text) : SrcFile :=
  { low, high := posAdd low (byteLen source), source,
    lines := (newlineOffsets 0 source).map fun offset => posAdd (posAdd low offset) 1 }

/-- `Files` (compiler/src/source_map.rs:10-13). -/
abbrev SrcFiles := List SrcFile

/-- `Files::add` (compiler/src/source_map.rs:42-56). -/
def SrcFiles.add (fs : SrcFiles) (source : Text) : SrcFiles :=
  let low := match fs.getLast? with
    | none => 0
    | some f => posAdd f.high 1
  fs ++ [.make low source]

/-- `Files::lookup_file` (compiler/src/source_map.rs:58-64). -/
def SrcFiles.lookupFile (bs : BinarySearch) (fs : SrcFiles) (pos : Nat) : Option SrcFile :=
  match bs.run (fun f : SrcFile => comparePos f.low f.high pos) fs with
  | .ok i => fs[i]?
  | .error _ => none

/-- The text from byte `n`; `none` when that is past the end or inside a character (a panic). -/
def dropBytes : Nat → Text → Option Text
  | 0, s => some s
  | _ + 1, [] => none
  | n + 1, c :: s => if c.utf8Size ≤ n + 1 then dropBytes (n + 1 - c.utf8Size) s else none
termination_by _ s => s.length

/-- The text up to byte `n`. -/
def takeBytes : Nat → Text → Option Text
  | 0, _ => some []
  | _ + 1, [] => none
  | n + 1, c :: s =>
    if c.utf8Size ≤ n + 1 then (takeBytes (n + 1 - c.utf8Size) s).map (c :: ·) else none
termination_by _ s => s.length

/-- `File::source_slice` (compiler/src/source_map.rs:167-171), with the positions relative to the
file's start computed first; a negative difference or reversed range panics. -/
def SrcFile.sourceSlice (f : SrcFile) (low high : Nat) : Option Text :=
  if low < f.low ∨ high < f.low ∨ high < low then none
  else (dropBytes (low - f.low) f.source).bind (takeBytes (high - low))

/-- `FilePos` (compiler/src/source_map.rs:194-198). -/
structure FilePos where
  line : Nat
  col : Nat
  deriving DecidableEq, Repr

/-- The index computed by `File::lookup` (compiler/src/source_map.rs:141-142). -/
def SrcFile.lineIndex (bs : BinarySearch) (f : SrcFile) (pos : Nat) : Nat :=
  match bs.run (fun l : Nat => compare l pos) f.lines with
  | .ok p => p + 1
  | .error i => i

/-- `File::lookup` (compiler/src/source_map.rs:140-154). The outer `none` is a panic. -/
def SrcFile.lookup (bs : BinarySearch) (f : SrcFile) (pos : Nat) : Option (Option FilePos) :=
  let index := f.lineIndex bs pos
  if pos < f.low then some none
  else
    let start := if index = 0 then some (0, f.low) else (f.lines[index - 1]?).map fun l => (index, l)
    match start with
    | none => some none
    | some (line, low) => (f.sourceSlice low pos).map fun s => some { line, col := s.length }

/-- `File::enclosing_line` (compiler/src/source_map.rs:156-165). -/
def SrcFile.enclosingLine (f : SrcFile) (line : Nat) : Option Text :=
  let low := if line = 0 then some f.low else f.lines[line - 1]?
  low.bind fun low => f.sourceSlice low ((f.lines[line]?).getD f.high)

/-- `Files::lookup` (compiler/src/source_map.rs:66-72). The outer `none` is a panic. -/
def SrcFiles.lookup (bs : BinarySearch) (fs : SrcFiles) (low high : Nat) :
    Option (Option (SrcFile × FilePos × FilePos)) :=
  match SrcFiles.lookupFile bs fs low with
  | none => some none
  | some f =>
    match f.lookup bs low with
    | none => none
    | some none => some none
    | some (some start) =>
      match f.lookup bs high with
      | none => none
      | some none => some none
      | some (some stop) => some (some (f, start, stop))

end Redscript
