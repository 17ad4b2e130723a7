import Verif.Report.Model

/-!
# Reading source directories (model)

Model of `Files::from_dirs`, `from_files`, `filtered_file_iter` and `SourceFilter` (compiler/src/source_map.rs:20-36, 82-94,
229-254). Names of files are texts; paths are lists of names. What follows from the position of a file among the sources is in
SourceMap/Model.
-/

namespace Redscript

/-- What is on the disk below a path, links followed (compiler/src/source_map.rs:86-87): a file with its text, if it can be
read as one, a directory with its entries in the order in which it lists them, or something that cannot be accessed. -/
inductive DirNode where
  | file (content : Option Text)
  | dir (entries : List (Text × DirNode))
  | fault

mutual
/-- `WalkDir` without the errors (compiler/src/source_map.rs:86-90): a directory comes before its entries. Paths are relative
to the start. -/
def DirNode.walk (rel : PathParts) : DirNode → List (PathParts × DirNode)
  | .file c => [(rel, .file c)]
  | .dir es => (rel, .dir es) :: walkEntries rel es
  | .fault => []
/-- The entries of a directory in order (compiler/src/source_map.rs:86-90). -/
def walkEntries (rel : PathParts) : List (Text × DirNode) → List (PathParts × DirNode)
  | [] => []
  | (name, n) :: es => n.walk (rel ++ [name]) ++ walkEntries rel es
end

/-- A name split at its last dot; as `rsplitn(2, '.')` in `Path::extension` (used in compiler/src/source_map.rs:236, 240). -/
def rsplitDot : Text → Option (Text × Text)
  | [] => none
  | c :: cs =>
    match rsplitDot cs with
    | some (b, a) => some (c :: b, a)
    | none => if c = '.' then some ([], cs) else none

/-- `Path::extension` of a file name (used in compiler/src/source_map.rs:236): a dot at the start begins none. -/
def extensionOf (name : Text) : Option Text :=
  match rsplitDot name with
  | some (b, a) => if b = [] then none else some a
  | none => none

/-- The name that `Path::with_extension("")` leaves (used in compiler/src/source_map.rs:240). -/
def stemOf (name : Text) : Text :=
  match rsplitDot name with
  | some (b, _) => if b = [] then name else b
  | none => name

/-- `SourceFilter` (compiler/src/source_map.rs:229-232). -/
inductive SourceFilter where
  | None
  | Exclude (names : List Text)

/-- `SourceFilter::apply` (compiler/src/source_map.rs:235-253). -/
def SourceFilter.apply (f : SourceFilter) (rel : PathParts) : Bool :=
  let correct := decide (rel.getLast?.bind extensionOf = some "reds".toList)
  let matching := match f with
    | .None => true
    | .Exclude names =>
      match (rel.dropLast ++ (rel.getLast?.map stemOf).toList).head? with
      | some name => !names.contains name
      | none => false
  correct && matching

/-- A path that is given as a source and what is there (compiler/src/source_map.rs:20-23). -/
structure SourceRoot where
  path : PathParts
  node : DirNode

/-- `filtered_file_iter` (compiler/src/source_map.rs:82-94). -/
def SourceRoot.listed (f : SourceFilter) (r : SourceRoot) : List (PathParts × DirNode) :=
  match r.node with
  | .file c => [(r.path, .file c)]
  | n => ((n.walk []).filter fun e => f.apply e.1).map fun e => (r.path ++ e.1, e.2)

/-- `Files::from_files` (compiler/src/source_map.rs:29-36): the paths with their texts, or nothing if `read_to_string` fails,
which it does for a directory. -/
def sourcesOf : List (PathParts × DirNode) → Option (List (PathParts × Text))
  | [] => some []
  | (path, .file (some text)) :: es => (sourcesOf es).map ((path, text) :: ·)
  | _ => none

/-- `Files::from_dirs` (compiler/src/source_map.rs:20-23). -/
def sourcesFromDirs (roots : List SourceRoot) (f : SourceFilter) : Option (List (PathParts × Text)) :=
  sourcesOf (roots.flatMap (·.listed f))

end Redscript
