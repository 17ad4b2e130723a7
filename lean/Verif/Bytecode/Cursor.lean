import Verif.Bytecode.Model
import Verif.Util.BinarySearch

/-!
# Code cursor, code iterator and label resolution (model)

Model of `CodeCursor`, `CodeIter` (`core/src/bytecode.rs`) and of `Assembler::into_code`
(`compiler/src/assembler.rs`).
-/

namespace Redscript

/-- `CursorError` (core/src/bytecode.rs:1272-1278); `panic` is an out-of-range slice. -/
inductive CursorError where
  | invalidInstructionOffset (loc : Location)
  | endOfCode
  | panic
  deriving DecidableEq, Repr

/-- `CodeCursor` (core/src/bytecode.rs:1167-1172). -/
structure CodeCursor (L : Type) where
  code : List (Instr L)
  offsets : List (BitVec 16)
  index : Nat

namespace CodeCursor

/-- The loop of `CodeCursor::new` (core/src/bytecode.rs:1176-1181): the running `u16` sum (wrapping)
after each instruction. -/
def runningSizes (size : BitVec 16) : List (Instr L) → List (BitVec 16)
  | [] => []
  | i :: is => (size + i.size) :: runningSizes (size + i.size) is

/-- `CodeCursor::new` (core/src/bytecode.rs:1175-1188). -/
def new (code : List (Instr L)) : CodeCursor L := { code, offsets := runningSizes 0 code, index := 0 }

/-- `CodeCursor::pop` (core/src/bytecode.rs:1190-1194). -/
def pop (c : CodeCursor L) : Except CursorError (Instr L × CodeCursor L) :=
  match c.code[c.index]? with
  | some i => .ok (i, { c with index := c.index + 1 })
  | none => .error .endOfCode

/-- `CodeCursor::peek` (core/src/bytecode.rs:1196-1199). -/
def peek (c : CodeCursor L) : Option (Instr L) := c.code[c.index]?

/-- `CodeCursor::pos` (core/src/bytecode.rs:1201-1207); `none` is the index panic. -/
def pos (c : CodeCursor L) : Option Location :=
  if c.index = 0 then some 0 else c.offsets[c.index - 1]?

/-- `CodeCursor::get_index` (core/src/bytecode.rs:1225-1235). `binary_search_by` is any search
meeting its documented contract. -/
def getIndex (bs : BinarySearch) (c : CodeCursor L) (position : Location) :
    Except CursorError Nat :=
  if position = 0 then .ok 0
  else match bs.run (fun o : BitVec 16 => compare o.toNat position.toNat) c.offsets with
    | .ok i => .ok (i + 1)
    | .error _ => .error (.invalidInstructionOffset position)

/-- `CodeCursor::seek_abs` (core/src/bytecode.rs:1216-1219). -/
def seekAbs (bs : BinarySearch) (c : CodeCursor L) (position : Location) :
    Except CursorError (CodeCursor L) :=
  match c.getIndex bs position with
  | .ok i => .ok { c with index := i }
  | .error e => .error e

/-- `CodeCursor::seek_rel` (core/src/bytecode.rs:1221-1223). -/
def seekRel (bs : BinarySearch) (c : CodeCursor L) (offset : Offset) :
    Except CursorError (CodeCursor L) :=
  match c.pos with
  | some p => c.seekAbs bs (offset.absolute p)
  | none => .error .panic

end CodeCursor

/-- `CodeIter` (core/src/bytecode.rs:1238-1255). -/
structure CodeIter (L : Type) where
  slice : List (Instr L)
  offset : BitVec 16

namespace CodeIter

/-- `CodeIter::new` (core/src/bytecode.rs:1245-1247). -/
def new (code : List (Instr L)) : CodeIter L := { slice := code, offset := 0 }

/-- `CodeIter::next` (core/src/bytecode.rs:1257-1270). -/
def next (it : CodeIter L) : Option ((Location × Instr L) × CodeIter L) :=
  match it.slice with
  | [] => none
  | i :: is => some ((it.offset, i), { slice := is, offset := it.offset + i.size })

/-- Collecting an iterator: call `next` until it returns `None`. The recursion follows the slice,
which shrinks by one in every step. -/
def collect (offset : BitVec 16) : List (Instr L) → List (Location × Instr L)
  | [] => []
  | i :: is => (offset, i) :: collect (offset + i.size) is

end CodeIter

/-- `CodeCursor::range` (core/src/bytecode.rs:1209-1214): the items of the returned iterator.
`code[start..end]` panics when `start > end`; `end` is at most the code length for any index
returned by `get_index`. -/
def CodeCursor.range (bs : BinarySearch) (c : CodeCursor L) (from_ to : Location) :
    Except CursorError (List (Location × Instr L)) :=
  match c.getIndex bs from_ with
  | .error e => .error e
  | .ok start =>
    match c.getIndex bs to with
    | .error e => .error e
    | .ok stop =>
      if start ≤ stop ∧ stop ≤ c.code.length then
        .ok (CodeIter.collect from_ ((c.code.drop start).take (stop - start)))
      else .error .panic

/-! ## Label resolution -/

/-- The first loop of `into_code` (compiler/src/assembler.rs:582-586): record the position of every
label marker; later markers of the same label overwrite earlier ones. `none` is the index panic. -/
def recordTargets (items : List (Location × Instr Nat)) (locations : List Location) :
    Option (List Location) :=
  match items with
  | [] => some locations
  | (loc, .Target label) :: rest =>
    if label < locations.length then recordTargets rest (locations.set label loc) else none
  | _ :: rest => recordTargets rest locations

/-- The second loop of `into_code` (compiler/src/assembler.rs:588-591): drop the markers and resolve
the operands of the other instructions. -/
def resolveAll (items : List (Location × Instr Nat)) (locations : List Location) :
    Option (List (Instr Offset)) :=
  match items with
  | [] => some []
  | (_, .Target _) :: rest => resolveAll rest locations
  | (loc, i) :: rest => do
    let r ← i.resolveLabels loc locations
    let rs ← resolveAll rest locations
    return r :: rs

/-- `Assembler::into_code` (compiler/src/assembler.rs:577-593): `labels` is the number of labels
created, `code` the emitted instructions; `none` is a panic. -/
def intoCode (labels : Nat) (code : List (Instr Nat)) : Option (List (Instr Offset)) := do
  let items := CodeIter.collect 0 code
  let locations ← recordTargets items (List.replicate labels 0)
  resolveAll items locations

end Redscript
