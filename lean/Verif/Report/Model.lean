import Verif.SourceMap.Model
import Verif.Unit.DiagModel
import Verif.Parser.LexModel
import Verif.Scc.Model

/-!
# Messages about errors (model)

Model of `Diagnostic::display` (compiler/src/diagnostics.rs:67-90) and of `ErrorReport`
(scc/lib/src/lib.rs:274-357). The texts that describe a problem are a parameter. Writing to the
output does not fail. Panics are `none`.
-/

namespace Redscript

/-- `Files` (compiler/src/source_map.rs:10-13) with the paths of its files, which `SrcFiles` leaves
out. Paths are any type. -/
abbrev NamedFiles (P : Type) := List (P × SrcFile)

/-- `Files::add` (compiler/src/source_map.rs:42-56). -/
def NamedFiles.add {P : Type} (fs : NamedFiles P) (e : P × Text) : NamedFiles P :=
  let low := match fs.getLast? with
    | none => 0
    | some f => posAdd f.2.high 1
  fs ++ [(e.1, .make low e.2)]

/-- `Files::from_files` (compiler/src/source_map.rs:29-36), given what the files contain. -/
def NamedFiles.addAll {P : Type} (es : List (P × Text)) : NamedFiles P := es.foldl NamedFiles.add []

/-- `SourceLoc` (compiler/src/source_map.rs:206-211). -/
structure SourceLoc (P : Type) where
  path : P
  file : SrcFile
  start : FilePos
  stop : FilePos

/-- `Files::lookup` (compiler/src/source_map.rs:58-72) followed by the `expect` of its callers
(compiler/src/diagnostics.rs:68, scc/lib/src/lib.rs:312): `none` is a panic of either. -/
def NamedFiles.locate {P : Type} (bs : BinarySearch) (fs : NamedFiles P) (span : Nat × Nat) :
    Option (SourceLoc P) :=
  match bs.run (fun f : P × SrcFile => comparePos f.2.low f.2.high span.1) fs with
  | .error _ => none
  | .ok i =>
    (fs[i]?).bind fun f =>
    (f.2.lookup bs span.1).join.bind fun start =>
    (f.2.lookup bs span.2).join.map fun stop => ⟨f.1, f.2, start, stop⟩

/-- `str::trim_end`, `space` being `char::is_whitespace`. -/
def trimEnd (space : Char → Bool) (s : Text) : Text := (s.reverse.dropWhile space).reverse

/-- `replace('\t', " ")` (compiler/src/diagnostics.rs:69). -/
def untab (s : Text) : Text := s.map fun c => if c = '\t' then ' ' else c

/-- `underline_len` (compiler/src/diagnostics.rs:72-76). The difference of the columns wraps, and so
many characters cannot be allocated: a panic. -/
def underlineLen (start stop : FilePos) : Option Nat :=
  if start.line = stop.line then
    if stop.col < start.col then none else some (max (stop.col - start.col) 1)
  else some 3

/-- `Display` of `FilePos` (compiler/src/source_map.rs:200-204). -/
def FilePos.shown (p : FilePos) : Text :=
  digitsOf 10 (p.line + 1) ++ ":".toList ++ digitsOf 10 (p.col + 1)

/-- The code of a compile error in brackets (compiler/src/diagnostics.rs:79-81). -/
def Diagnostic.codePrefix (d : Diagnostic) : Text :=
  match d.kind with
  | .CompileError => "[".toList ++ d.cause ++ "] ".toList
  | _ => []

/-- `Diagnostic::display` (compiler/src/diagnostics.rs:67-90). `showPath` is `Path::display`,
`message` the text of the diagnostic. -/
def Diagnostic.display {P : Type} (bs : BinarySearch) (space : Char → Bool) (showPath : P → Text)
    (message : Text) (fs : NamedFiles P) (d : Diagnostic) : Option Text :=
  (fs.locate bs d.span).bind fun loc =>
  (loc.file.enclosingLine loc.start.line).bind fun line =>
  (underlineLen loc.start loc.stop).map fun len =>
    d.codePrefix ++ "At ".toList ++ showPath loc.path ++ ":".toList ++ loc.start.shown ++ ":\n".toList ++
    untab (trimEnd space line) ++ "\n".toList ++
    List.replicate loc.start.col ' ' ++ List.replicate len '^' ++ "\n".toList ++
    message ++ "\n".toList

/-! ## The report of a failed build -/

/-- A path: its components. `..` and prefixes do not occur in the paths of script files. -/
abbrev PathParts := List Text

/-- `Path::strip_prefix`. -/
def stripPath : PathParts → PathParts → Option PathParts
  | [], path => some path
  | _ :: _, [] => none
  | d :: ds, c :: cs => if d = c then stripPath ds cs else none

/-- `cause` (scc/lib/src/lib.rs:314-318). The path without a component is the empty text. -/
def blamedMod (dir path : PathParts) : Text :=
  match (stripPath dir path).bind List.head? with
  | some c => c
  | none => (path.getLast?).getD []

/-- `ErrorReport` (scc/lib/src/lib.rs:274-280). -/
structure ErrorReport where
  dir : PathParts
  files : NamedFiles PathParts
  hints : AMap Text (List (UserHint PathParts))
  spans : List (Text × (Nat × Nat))

/-- The codes and spans of `ErrorReport::from_error` (scc/lib/src/lib.rs:283-304); `none` where it
gives up with another error. Diagnostics stand for the errors they are made from. -/
def reportedSpans : UnitError → Option (List (Text × (Nat × Nat)))
  | .diagnostic d =>
    some [(match d.kind with
      | .SyntaxError => "SYNTAX_ERR".toList
      | .CteError => "CTE_ERR".toList
      | _ => d.cause, d.span)]
  | .multiple spans => some spans
  | .other _ => none

/-- `HashSet::insert`, the set being a list. -/
def modInsert (m : Text) (s : List Text) : List Text := if m ∈ s then s else s ++ [m]

/-- `entry(act.id()).or_insert(act)` (scc/lib/src/lib.rs:325), the map being a list of hints. -/
def hintInsert {P : Type} (h : UserHint P) (hs : List (UserHint P)) : List (UserHint P) :=
  if h.id ∈ hs.map (·.id) then hs else hs ++ [h]

/-- The loop of `fmt` (scc/lib/src/lib.rs:308-327): the offending mods and the matched hints. -/
def ErrorReport.collect (bs : BinarySearch) (r : ErrorReport) :
    List (Text × (Nat × Nat)) → List Text × List (UserHint PathParts) →
      Option (List Text × List (UserHint PathParts))
  | [], acc => some acc
  | (code, span) :: rest, (mods, hints) =>
    (r.files.locate bs span).bind fun loc =>
    (loc.file.sourceSlice span.1 span.2).bind fun source =>
    (loc.file.enclosingLine loc.start.line).bind fun line =>
      r.collect bs rest
        (modInsert (blamedMod r.dir loc.path) mods,
         match getByError r.hints code (stripPath r.dir loc.path) source line with
         | some h => hintInsert h hints
         | none => hints)

/-- The order in which a hash set or map yields what it holds. -/
structure AnyOrder (A : Type) where
  order : List A → List A
  perm : ∀ l, (order l).Perm l

/-- One `writeln!(f, "- {}", _)`. -/
def bullet (t : Text) : Text := "- ".toList ++ t ++ "\n".toList

/-- `fmt` of `ErrorReport` (scc/lib/src/lib.rs:306-357). -/
def ErrorReport.text (bs : BinarySearch) (om : AnyOrder Text) (oh : AnyOrder (UserHint PathParts))
    (r : ErrorReport) : Option Text :=
  (r.collect bs r.spans ([], [])).map fun (mods, hints) =>
    "REDScript compilation has failed.\n".toList ++
    (if mods.isEmpty then []
     else "This error has been caused by mods listed below:\n".toList ++ (om.order mods).flatMap bullet) ++
    (if hints.isEmpty then
       "\nYou should check if these mods are outdated and update them if possible. They may also be \
        incompatible with the current version of the game, in which case you should remove them and \
        try again.\n".toList
     else
       "One or more of the errors found has a known solution. Here are the recommended steps:\n".toList ++
       (oh.order hints).flatMap fun h => bullet h.message)

end Redscript
