import Verif.Scc.LaunchModel
import Verif.SourceMap.DirModel

/-!
# The launcher and the preparation of a run (model)

Model of `run` and `load_script_paths` of scc/cli/src/main.rs and of the first part of `try_compile` (scc/lib/src/lib.rs:48-75):
which directories are compiled, which bundle is used, and which files are copied before. The options are taken as parsed.
-/

namespace Redscript

/-- `Opts` (scc/cli/src/opts.rs:53-67), those that matter. In place of the path of the file with script paths there is its
text: `some none` if it cannot be opened or is not Unicode. -/
structure LaunchOpts where
  scriptsDir : PathParts
  cacheDir : Option PathParts
  scriptPaths : Option (Option Text)
  cacheFile : Option PathParts
  outputCacheFile : Option PathParts

/-- `SccSettings` (scc/lib/src/api.rs:167-172). -/
structure SccSettings where
  r6Dir : PathParts
  customCache : Option PathParts
  outputCache : Option PathParts
  additional : List PathParts
  deriving DecidableEq

/-- A carriage return at the end of a line is dropped (`BufRead::lines`, used in scc/cli/src/main.rs:85). -/
def dropReturn (line : Text) : Text := if line.getLast? = some '\r' then line.dropLast else line

/-- `BufRead::lines` (used in scc/cli/src/main.rs:85); the first argument is what was read of the line. -/
def bufLines (line : Text) : Text → List Text
  | [] => if line = [] then [] else [line]
  | c :: s => if c = '\n' then dropReturn line :: bufLines [] s else bufLines (line ++ [c]) s

/-- `load_script_paths` and what is made of its failure (scc/cli/src/main.rs:58-64, 83-88); `parse` is `PathBuf::from`. -/
def loadScriptPaths (parse : Text → PathParts) : Option (Option Text) → List PathParts
  | some (some text) => (bufLines [] text).map parse
  | _ => []

/-- `BUNDLE_FILE_NAME` (scc/cli/src/main.rs:56, scc/lib/src/lib.rs:25). -/
def bundleFileName : Text := "final.redscripts".toList

/-- `BACKUP_FILE_NAME` (scc/lib/src/lib.rs:26). -/
def backupFileName : Text := "final.redscripts.bk".toList

/-- The settings that `main` and `run` make of the options (scc/cli/src/main.rs:34-77); `none` is a panic. -/
def LaunchOpts.settings (parse : Text → PathParts) (o : LaunchOpts) : Option SccSettings :=
  if o.scriptsDir = [] then none
  else
    let r6Dir := o.scriptsDir.dropLast
    let custom := match o.cacheFile, o.cacheDir with
      | some file, _ => file
      | none, some dir => dir ++ [bundleFileName]
      | none, none => r6Dir ++ ["cache".toList, bundleFileName]
    some ⟨r6Dir, some custom, o.outputCacheFile, loadScriptPaths parse o.scriptPaths⟩

/-- The paths that are compiled (scc/lib/src/lib.rs:55-57). -/
def SccSettings.scriptPaths (s : SccSettings) : List PathParts := (s.r6Dir ++ ["scripts".toList]) :: s.additional

/-- The bundle (scc/lib/src/lib.rs:49-54). -/
def SccSettings.cachePath (s : SccSettings) : PathParts := s.customCache.getD (s.r6Dir ++ ["cache".toList, bundleFileName])

/-- Where the compiled bundle is saved (scc/lib/src/lib.rs:70). -/
def SccSettings.outputPath (s : SccSettings) : PathParts := s.outputCache.getD s.cachePath

/-- `with_extension(BACKUP_FILE_EXT)` (scc/lib/src/lib.rs:68). -/
def backupOf (path : PathParts) : PathParts :=
  match path.getLast? with
  | none => []
  | some name => path.dropLast ++ [stemOf name ++ ".redscripts.bk".toList]

/-- The files by path (scc/lib/src/lib.rs:48-75). -/
abbrev PathDisk := PathParts → Option Bytes

/-- `fs::copy` to a path (scc/lib/src/lib.rs:65, 74). -/
def PathDisk.put (d : PathDisk) (path : PathParts) (content : Bytes) : PathDisk := fun x => if x = path then some content else d x

/-- `get_base_bundle_path` (scc/lib/src/lib.rs:252-259) and its content. -/
def SccSettings.base (s : SccSettings) (d : PathDisk) : Option Bytes :=
  match d (s.r6Dir ++ ["cache".toList, backupFileName]) with
  | some c => some c
  | none => d (s.r6Dir ++ ["cache".toList, bundleFileName])

/-- The copy of the bundle, if there is none (scc/lib/src/lib.rs:59-66). Creating directories is left out. -/
def SccSettings.prepareCache (s : SccSettings) (d : PathDisk) : Option PathDisk :=
  match d s.cachePath with
  | some _ => some d
  | none => (s.base d).map (d.put s.cachePath)

/-- The copy of the backup, if there is none (scc/lib/src/lib.rs:68-75). -/
def SccSettings.prepareBackup (s : SccSettings) (d : PathDisk) : PathDisk :=
  match d (s.r6Dir ++ ["cache".toList, backupFileName]), d (backupOf s.cachePath) with
  | some c, none => d.put (backupOf s.cachePath) c
  | _, _ => d

/-- The first part of `try_compile` (scc/lib/src/lib.rs:48-75); `none` is an error. -/
def SccSettings.prepare (s : SccSettings) (d : PathDisk) : Option PathDisk := (s.prepareCache d).map s.prepareBackup

end Redscript
