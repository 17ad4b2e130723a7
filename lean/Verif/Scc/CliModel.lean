import Verif.Bundle.Model
import Verif.Unit.CompileModel

/-!
# The compile and lint commands (model)

Model of `compile`, `lint` and `load_bundle` of cli/src/main.rs. The options are taken as parsed; logging is left out except
for the message that the output was saved.
-/

namespace Redscript

/-- The files by path (the paths that cli/src/main.rs:54-78 takes). -/
abbrev CliDisk := String → Option Bytes

/-- `File::create` and what is written to it (cli/src/main.rs:117-120): the old content is gone. -/
def CliDisk.write (d : CliDisk) (path : String) (content : Bytes) : CliDisk := fun x => if x = path then some content else d x

/-- What surrounds a command (cli/src/main.rs:106-129): the checksum function, the later phases of the compiler and the bounds of their loops, whether
the output can be created, and what is in the output when saving stops with a panic. -/
structure CliEnv where
  crc : Bytes → BitVec 32
  back : Back
  depth : Nat
  fuel : Nat
  creatable : Bool
  torn : Bytes

/-- `CompileOpts` (cli/src/main.rs:54-67). In place of `src` there is what is found there: nothing when the files cannot be
read (compiler/src/source_map.rs:24-47), otherwise the modules or the first syntax error (`parse`,
compiler/src/unit.rs:141-151). -/
structure CompileOpts where
  src : Option (Except UnitError (List SourceModule))
  bundle : String
  output : String

/-- What a command leaves (cli/src/main.rs:80-129): the files, whether it exits with success, and whether it says that it was successful. -/
structure CliRun where
  disk : CliDisk
  exit : Bool
  says : Bool

/-- `load_bundle` (cli/src/main.rs:194-200). -/
def loadBundle (d : CliDisk) (path : String) : Option ScriptBundle :=
  match d path with
  | none => none
  | some file =>
    match ScriptBundle.load file with
    | .ok b => some b
    | .error _ => none

/-- `compile_files` (compiler/src/unit.rs:85-87). -/
def Back.compileFiles (B : Back) (depth fuel : Nat) (parsed : Except UnitError (List SourceModule)) (p : ConstantPool) :
    Except UnitError UnitOutput :=
  match parsed with
  | .error e => .error e
  | .ok ms => B.compile depth fuel ms p

/-- `compile_and_report` (compiler/src/unit.rs:109-139), see `compileAndReport`. -/
def Back.compileAndReport (B : Back) (depth fuel : Nat) (parsed : Except UnitError (List SourceModule)) (p : ConstantPool) :
    Except UnitError UnitOutput :=
  match B.compileFiles depth fuel parsed p with
  | .error e =>
    match Redscript.compileAndReport (.error e) with
    | .error e => .error e
    | .ok _ => .error e
  | .ok out =>
    match Redscript.compileAndReport (.ok out.diagnostics) with
    | .error e => .error e
    | .ok _ => .ok out

/-- `compile` (cli/src/main.rs:106-129) and `main` (cli/src/main.rs:80-87). An error that is returned ends the program without
success, as does a panic while saving; then the output has been created already. A failed compilation ends with success (lines
124-128). Simplified: a panic of the compiler itself is an error here (see `Back.compile`), and writing to the disk does not fail. -/
def cliCompile (E : CliEnv) (opts : CompileOpts) (d : CliDisk) : CliRun :=
  match loadBundle d opts.bundle with
  | none => ⟨d, false, false⟩
  | some b =>
    match opts.src with
    | none => ⟨d, false, false⟩
    | some parsed =>
      match DeclState.ofPool b.pool with
      | none => ⟨d, false, false⟩
      | some _ =>
        match E.back.compileAndReport E.depth E.fuel parsed b.pool with
        | .error _ => ⟨d, true, false⟩
        | .ok out =>
          if E.creatable then
            match ScriptBundle.save E.crc { b with pool := out.pool } ⟨[], 0⟩ with
            | .error _ => ⟨d.write opts.output E.torn, false, false⟩
            | .ok w => ⟨d.write opts.output w.buf, true, true⟩
          else ⟨d, false, false⟩

/-- `lint` (cli/src/main.rs:174-192); `bundle` is an option. -/
def cliLint (E : CliEnv) (src : Option (Except UnitError (List SourceModule))) (bundle : Option String) (d : CliDisk) : CliRun :=
  match bundle with
  | none => ⟨d, true, false⟩
  | some path =>
    match loadBundle d path with
    | none => ⟨d, false, false⟩
    | some b =>
      match src with
      | none => ⟨d, false, false⟩
      | some parsed =>
        match DeclState.ofPool b.pool with
        | none => ⟨d, false, false⟩
        | some _ =>
          match E.back.compileAndReport E.depth E.fuel parsed b.pool with
          | .error _ => ⟨d, true, false⟩
          | .ok _ => ⟨d, true, true⟩

end Redscript
