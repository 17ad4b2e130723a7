import Verif.Scc.Model
import Verif.Bundle.PoolModel

/-!
# A run of the compiler over the files of the game (model)

Model of `try_compile_files` (scc/lib/src/lib.rs:99-239): which bundle is read, which files are written and
in which order. The paths are those of the default installation, where the bundle exists and `try_compile`
(scc/lib/src/lib.rs:48-97) copies nothing; the legacy name of the timestamp file and the lock are left out.
Opening and reading files that exist does not fail; logging is left out.
-/

namespace Redscript

/-- A file with the time of its last change. -/
structure SccFile where
  content : Bytes
  mtime : BitVec 128
  deriving DecidableEq

/-- The files of the game: the bundle, its backup, the contents of the timestamp file (which is created empty
when missing, scc/lib/src/lib.rs:123-131) and the separate output, if there is one. -/
structure Disk where
  bundle : SccFile
  backup : Option SccFile
  ts : Bytes
  output : Option SccFile

/-- The arguments and the environment of a run: whether the output goes to another file, what the compiler
makes of a pool with the scripts of this run (`none` is a compile error), the checksum function, the times
the files get that it writes, and what an interrupted write leaves of the backup and of the output. -/
structure RunArgs where
  separate : Bool
  compile : ConstantPool → Option ConstantPool
  crc : Bytes → BitVec 32
  backupTime : BitVec 128
  outputTime : BitVec 128
  tornTime : BitVec 128
  tornBackup : Bytes
  tornOutput : Bytes

/-- A change to the files. -/
inductive Effect where
  | backup (f : SccFile)
  | removeBackup
  | restoreBackup
  | output (separate : Bool) (f : SccFile)
  | stamp (t : BitVec 128)

/-- The files after a change: `fs::copy`, `fs::remove_file` and `fs::rename` of the backup, writing the
output, `CompileTimestamp::write`. -/
def Disk.apply (d : Disk) : Effect → Disk
  | .backup f => { d with backup := some f }
  | .removeBackup => { d with backup := none }
  | .restoreBackup =>
    match d.backup with
    | some b => { d with bundle := b, backup := none }
    | none => d
  | .output true f => { d with output := some f }
  | .output false f => { d with bundle := f }
  | .stamp t => { d with ts := Timestamp.write t d.ts }

/-- The files after several changes. -/
def Disk.exec (d : Disk) (es : List Effect) : Disk := es.foldl Disk.apply d

/-- `REDSCRIPT_SIGNATURE_DEF` (scc/lib/src/lib.rs:34). -/
def signatureDef : String := "$REDSCRIPT_SIGNATURE"

/-- `check_for_redscript_signature_def` (scc/lib/src/lib.rs:273-275). -/
def isSigned (p : ConstantPool) : Bool := (p.names.getIndex signatureDef).isSome

/-- `add_redscript_signature_def` (scc/lib/src/lib.rs:261-271). -/
def addSignature (p : ConstantPool) : ConstantPool :=
  let (name, names) := p.names.add Strings.cnameDefault signatureDef
  ({ p with names }.addDefinition
    { name, parent := 0, unk1 := 0, unk2 := 0, unk3 := 0
      value := .Enum { flags := 0, size := 0, members := [], unk1 := false } }).2

/-- Which file is compiled against, and the changes made before (scc/lib/src/lib.rs:133-180). `none` is an
error. A copy passes through a torn state. -/
def inputOf (d : Disk) (a : RunArgs) : Option (List Effect × Bytes) :=
  match Timestamp.read d.ts with
  | .error _ => none
  | .ok saved =>
    if a.separate then
      match d.backup with
      | some b =>
        if saved ≠ some d.bundle.mtime then some ([.removeBackup], d.bundle.content)
        else some ([.restoreBackup], b.content)
      | none => some ([], d.bundle.content)
    else
      match saved, d.backup with
      | none, some b => some ([], b.content)
      | saved, backup =>
        if saved ≠ some d.bundle.mtime then
          some ([.backup ⟨a.tornBackup, a.tornTime⟩, .backup ⟨d.bundle.content, a.backupTime⟩], d.bundle.content)
        else
          match backup with
          | none => none
          | some b => some ([], b.content)

/-- How a run ends: with an error, or after compiling the bundle `input` to `output`. -/
inductive RunResult where
  | failed
  | success (input output : Bytes)
  deriving DecidableEq

/-- The changes of a complete run, in order, and its result (scc/lib/src/lib.rs:99-239). The output file is
emptied, then written, then the time of the output is recorded. -/
def runPlan (d : Disk) (a : RunArgs) : List Effect × RunResult :=
  match inputOf d a with
  | none => ([], .failed)
  | some (es, input) =>
    match ScriptBundle.load input with
    | .error _ => (es, .failed)
    | .ok b =>
      if isSigned b.pool then (es, .failed)
      else
        match a.compile b.pool with
        | none => (es, .failed)
        | some pool =>
          match ScriptBundle.save a.crc { b with pool := addSignature pool } ⟨[], 0⟩ with
          | .error _ => (es ++ [.output a.separate ⟨a.tornOutput, a.tornTime⟩], .failed)
          | .ok w =>
            (es ++ [.output a.separate ⟨a.tornOutput, a.tornTime⟩, .output a.separate ⟨w.buf, a.outputTime⟩,
              .stamp a.outputTime], .success input w.buf)

end Redscript
