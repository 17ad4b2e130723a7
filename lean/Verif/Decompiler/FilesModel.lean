import Verif.Decompiler.DeclPrintModel
import Verif.Bundle.PoolModel

/-!
# Files of the decompiler (model)

Model of `FileIndex` (decompiler/src/files.rs) and of how the command line tool writes definitions to one file or to
many (cli/src/main.rs:142-170). The order in which hash maps and sets are visited is not known; it is a parameter.
-/

namespace Redscript

/-- `Definition::source` (core/src/definition.rs:59-64). -/
def Definition.source (d : Definition) : Option SourceReference :=
  match d.value with
  | .Function f => f.source
  | _ => none

/-- `Iterator::min` over lines. -/
def leastLine : List (BitVec 32) → Option (BitVec 32)
  | [] => none
  | l :: ls =>
    match leastLine ls with
    | none => some l
    | some m => some (if m < l then m else l)

/-- `Definition::first_line` (core/src/definition.rs:66-84). -/
def ConstantPool.firstLine (p : ConstantPool) (d : Definition) : Option (BitVec 32) :=
  match d.value with
  | .Function f => f.source.map (·.line)
  | .Class c => leastLine (c.functions.filterMap fun i => (p.function i).bind fun f => f.source.map (·.line))
  | _ => none

/-- The order in which a hash map or set is visited. -/
structure HashOrder where
  order : List Idx → List Idx
  perm : ∀ l, (order l).Perm l

/-- What is inserted, once each. -/
def once : List Idx → List Idx
  | [] => []
  | i :: is => if (once is).contains i then once is else i :: once is

/-- The files and the definitions in them (decompiler/src/files.rs:15-32): a function with a source belongs to its file,
and is represented by its class if it has one. -/
def ConstantPool.fileRoots (p : ConstantPool) : List (Idx × Idx) :=
  p.indexed.filterMap fun r => r.2.source.map fun s => (s.file, if r.2.parent = 0 then r.1 else r.2.parent)

/-- The keys of `file_map`. -/
def ConstantPool.fileKeys (p : ConstantPool) : List Idx := once (p.fileRoots.map Prod.fst)

/-- The values of `file_map`. -/
def ConstantPool.fileChildren (p : ConstantPool) (file : Idx) : List Idx :=
  once ((p.fileRoots.filter fun r => r.1 = file).map Prod.snd)

/-- `FileEntry` (decompiler/src/files.rs:83-86). The definitions are references, here with the index they refer to. -/
structure FileEntry where
  path : String
  definitions : List (Idx × Definition)

/-- What has no source (decompiler/src/files.rs:64-73). -/
def ConstantPool.isOrphan (p : ConstantPool) (d : Definition) : Bool :=
  match d.value with
  | .Class c => (c.functions.filterMap p.function).all fun f => flag FunctionFlags.isNativeBit f.flags
  | .Enum _ => true
  | .Function f => d.parent == 0 && flag FunctionFlags.isNativeBit f.flags
  | _ => false

/-- `orphans` (decompiler/src/files.rs:60-79). -/
def ConstantPool.orphans (p : ConstantPool) : FileEntry := ⟨"orphans.script", p.indexed.filter fun r => p.isOrphan r.2⟩

/-- Put `a` in front of the first of what has no lesser key. -/
def insertByKey (key : α → BitVec 32) (a : α) : List α → List α
  | [] => [a]
  | b :: l => if key a ≤ key b then a :: b :: l else b :: insertByKey key a l

/-- `Itertools::sorted_by_key`, a stable sort. -/
def sortedByKey (key : α → BitVec 32) : List α → List α
  | [] => []
  | a :: l => insertByKey key a (sortedByKey key l)

/-- The definitions of a file, by their first line (decompiler/src/files.rs:39-43). -/
def ConstantPool.fileDefinitions (o : HashOrder) (p : ConstantPool) (file : Idx) : List (Idx × Definition) :=
  sortedByKey (fun a => (p.firstLine a.2).getD 0)
    ((o.order (p.fileChildren file)).filterMap fun i => (p.definition i).map fun d => (i, d))

/-- The entries of the files (decompiler/src/files.rs:37-53). Nothing is a panic: a file that is not in the pool. -/
def ConstantPool.sourceEntries (o : HashOrder) (p : ConstantPool) : List Idx → Option (List FileEntry)
  | [] => some []
  | file :: files =>
    match p.definition file with
    | none => none
    | some d =>
      match d.value with
      | .SourceFile s => (p.sourceEntries o files).map fun es => ⟨s.path, p.fileDefinitions o file⟩ :: es
      | _ => p.sourceEntries o files

/-- `FileIndex::from_pool(pool).iter()` (decompiler/src/files.rs:15-58). -/
def ConstantPool.fileEntries (o : HashOrder) (p : ConstantPool) : Option (List FileEntry) :=
  (p.sourceEntries o (o.order p.fileKeys)).map fun es => p.orphans :: es

/-- What is written for some definitions (cli/src/main.rs:151-155, 165-169): one that fails is logged. -/
def writeAll (C : PrintCfg) (p : ConstantPool) (ds : List (Idx × Definition)) : Written :=
  Written.all (ds.map fun d => (writeDefinition C p C.fuel 0 d.2).logged)

/-- What is written to one file (cli/src/main.rs:158-169). -/
def dumpOne (C : PrintCfg) (p : ConstantPool) : Written :=
  writeAll C p (p.roots.filter fun r =>
    match r.2.value with
    | .Class _ | .Enum _ | .Function _ => true
    | _ => false)

/-- The files that are written, and what is in them (cli/src/main.rs:142-156). A file that is created again is
empty. Directories and paths that are joined are not modelled. -/
def dumpContents (C : PrintCfg) (p : ConstantPool) (path : String) : List FileEntry → Option Text
  | [] => none
  | e :: es =>
    match dumpContents C p path es with
    | some t => some t
    | none => if e.path = path then some (writeAll C p e.definitions).text else none

end Redscript
