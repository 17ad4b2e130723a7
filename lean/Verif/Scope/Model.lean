import Verif.Bundle.PoolModel
import Verif.Names.Model

/-!
# Symbols and scopes (model)

Model of `compiler/src/symbol.rs` (the symbol table and imports) and of the symbol and reference
parts of `compiler/src/scope.rs`. Spans and the texts of errors are dropped.
-/

namespace Redscript

/-- The derived order of `Visibility` (core/src/definition.rs:744-749), as numbers. -/
def Visibility.rank : Visibility → Nat
  | .pub => 0
  | .prot => 1
  | .priv => 2

/-- `Symbol` (compiler/src/symbol.rs:117-123). -/
inductive Symbol where
  | Class (i : Idx) (v : Visibility)
  | Struct (i : Idx) (v : Visibility)
  | Enum (i : Idx)
  | Functions (fs : List (Idx × Visibility))
  deriving DecidableEq, Repr

/-- `Symbol::visible` (compiler/src/symbol.rs:126-141). -/
def Symbol.visible (level : Visibility) : Symbol → Option Symbol
  | .Class i v => if v.rank ≤ level.rank then some (.Class i v) else none
  | .Struct i v => if v.rank ≤ level.rank then some (.Struct i v) else none
  | .Enum i => some (.Enum i)
  | .Functions fs =>
    let visible := fs.filter fun f => f.2.rank ≤ level.rank
    if visible.isEmpty then none else some (.Functions visible)

/-- `SymbolMap` (compiler/src/symbol.rs:14-17): the trie as the list of its paths with a value. The
order of the list stands for the trie's iteration order, which is arbitrary. -/
structure SymbolMap where
  entries : List (ModulePath × Symbol)
  deriving DecidableEq, Repr

namespace SymbolMap

/-- `SequenceTrie::get`. -/
def get (m : SymbolMap) (p : ModulePath) : Option Symbol := (m.entries.find? (·.1 = p)).map (·.2)

/-- `SequenceTrie::insert`: replaces the value at the path. -/
def insert (m : SymbolMap) (p : ModulePath) (s : Symbol) : SymbolMap :=
  ⟨m.entries.filter (·.1 ≠ p) ++ [(p, s)]⟩

/-- `add_class`, `add_struct`, `add_enum` (compiler/src/symbol.rs:48-58) insert; `add_function`
(60-69) extends an existing function set. This is also the loop body of `SymbolMap::new` (35-42). -/
def add (m : SymbolMap) (p : ModulePath) (s : Symbol) : SymbolMap :=
  match m.get p, s with
  | some (.Functions existing), .Functions new => m.insert p (.Functions (existing ++ new))
  | _, s => m.insert p s

/-- core/src/definition.rs:676. -/
def _root_.Redscript.ClassFlags.isStructBit : Nat := 3

/-- The symbol of a root definition (compiler/src/symbol.rs:25-33). -/
def symbolOf (i : Idx) : AnyDefinition → Option Symbol
  | .Class c => if flag ClassFlags.isStructBit c.flags then some (.Struct i c.visibility) else some (.Class i c.visibility)
  | .Enum _ => some (.Enum i)
  | .Function f => some (.Functions [(i, f.visibility)])
  | _ => none

/-- `ConstantPool::def_name` (core/src/bundle.rs:314-316). -/
def _root_.Redscript.ConstantPool.defName (p : ConstantPool) (i : Idx) : Option Text :=
  (p.definition i).bind fun d => (p.names.get Strings.cnameDefault d.name).map String.toList

/-- `SymbolMap::new` (compiler/src/symbol.rs:20-46); `none` is a pool error. -/
def ofPool (p : ConstantPool) : Option SymbolMap :=
  p.roots.foldl (fun acc r => acc.bind fun m =>
    (p.defName r.1).map fun name =>
      match symbolOf r.1 r.2.value with
      | none => m
      | some s => m.add (ModulePath.parse name) s) (some ⟨[]⟩)

/-- `get_direct_children` (compiler/src/symbol.rs:104-115). A trie node exists when some path with a
value passes through it; the root always exists. -/
def directChildren (m : SymbolMap) (p : ModulePath) : Option (List (Text × Symbol)) :=
  if p = [] ∨ m.entries.any (fun e => p.isPrefixOf e.1) then
    some (m.entries.filterMap fun e =>
      if p.isPrefixOf e.1 then
        match e.1.drop p.length with
        | [name] => some (name, e.2)
        | _ => none
      else none)
  else none

end SymbolMap

/-- `Value` (compiler/src/scope.rs:281-285). -/
inductive Value where
  | Local (i : Idx)
  | Parameter (i : Idx)
  deriving DecidableEq, Repr

/-- `Reference` (compiler/src/scope.rs:287-291). -/
inductive Reference where
  | Value (v : Value)
  | Symbol (s : Symbol)
  deriving DecidableEq, Repr

/-- `Scope` (compiler/src/scope.rs:10-18). -/
structure Scope where
  symbols : AMap Text Symbol
  references : AMap Text Value
  types : AMap Text Idx
  this : Option Idx
  function : Option Idx

namespace Scope

/-- `Scope::add_local` (compiler/src/scope.rs:48-50). -/
def addLocal (s : Scope) (name : Text) (i : Idx) : Scope :=
  { s with references := s.references.insert name (.Local i) }

/-- `Scope::add_parameter` (compiler/src/scope.rs:52-54). -/
def addParameter (s : Scope) (name : Text) (i : Idx) : Scope :=
  { s with references := s.references.insert name (.Parameter i) }

/-- `Scope::add_symbol` (compiler/src/scope.rs:60-77). -/
def addSymbol (s : Scope) (name : Text) (sym : Symbol) : Scope :=
  match sym with
  | .Functions funs =>
    match s.symbols.get name with
    | some (.Functions existing) => { s with symbols := s.symbols.insert name (.Functions (existing ++ funs)) }
    | _ => { s with symbols := s.symbols.insert name (.Functions funs) }
  | _ => { s with symbols := s.symbols.insert name sym }

/-- `Scope::resolve_function` (compiler/src/scope.rs:79-87). -/
def resolveFunction (s : Scope) (name : Text) : Option (List Idx) :=
  match s.symbols.get name with
  | some (.Functions fs) => some (fs.map (·.1))
  | _ => none

/-- `Scope::resolve_reference` (compiler/src/scope.rs:178-196). -/
def resolveReference (s : Scope) (name : Text) : Option Reference :=
  match s.references.get name with
  | some v => some (.Value v)
  | none => (s.symbols.get name).map .Symbol

end Scope

/-- `Import` (compiler/src/symbol.rs:144-149), without annotations and spans. -/
inductive Import where
  | Exact (path : ModulePath)
  | Selected (path : ModulePath) (names : List Text)
  | All (path : ModulePath)
  deriving Repr

/-- Failures of `populate_import`. -/
inductive ImportErr where
  | unresolvedImport (path : ModulePath)
  | unresolvedModule (path : ModulePath)
  | panic
  deriving DecidableEq, Repr

namespace SymbolMap

/-- One resolved symbol (compiler/src/symbol.rs:74-76 and 88-90). -/
def importOne (m : SymbolMap) (path : ModulePath) (level : Visibility) (sc : Scope) :
    Except ImportErr Scope :=
  match m.get path with
  | none => .error (.unresolvedImport path)
  | some sym =>
    match sym.visible level with
    | none => .ok sc
    | some sym =>
      match path.getLast? with
      | none => .error .panic
      | some name => .ok (sc.addSymbol name sym)

/-- The loop over selected names (compiler/src/symbol.rs:86-91). -/
def importSelected (m : SymbolMap) (path : ModulePath) (level : Visibility) :
    List Text → Scope → Except ImportErr Scope
  | [], sc => .ok sc
  | n :: ns, sc =>
    match m.importOne (path.withChild n) level sc with
    | .error e => .error e
    | .ok sc => m.importSelected path level ns sc

/-- The body of the loop over a module's children (compiler/src/symbol.rs:79-83). -/
def importChild (level : Visibility) (sc : Scope) (c : Text × Symbol) : Scope :=
  match c.2.visible level with
  | none => sc
  | some sym => sc.addSymbol c.1 sym

/-- `SymbolMap::populate_import` (compiler/src/symbol.rs:71-95). -/
def populateImport (m : SymbolMap) (imp : Import) (level : Visibility) (sc : Scope) :
    Except ImportErr Scope :=
  match imp with
  | .Exact path => m.importOne path level sc
  | .All path =>
    match m.directChildren path with
    | none => .error (.unresolvedModule path)
    | some cs => .ok (cs.foldl (importChild level) sc)
  | .Selected path names => m.importSelected path level names sc

end SymbolMap

/-! ## Members of classes -/

/-- What `resolve_field` and `resolve_method` read of a class (compiler/src/scope.rs:94, 136): its
base, its fields and its methods with the names of their definitions. -/
structure ClassView where
  base : Idx
  fields : List (Text × Idx)
  methods : List (Text × Idx)
  deriving DecidableEq, Repr

/-- The names of a list of definitions; `none` is a pool error. -/
def ConstantPool.named (p : ConstantPool) : List Idx → Option (List (Text × Idx))
  | [] => some []
  | i :: is => (p.defName i).bind fun n => (p.named is).map fun ns => (n, i) :: ns

/-- `ConstantPool::class` (core/src/bundle.rs:261-263) with the names of the members. The Rust code
looks the names up one at a time and stops at the first match, so it can succeed where this view
fails because of a later unnamed member. -/
def ConstantPool.classView (p : ConstantPool) (i : Idx) : Option ClassView :=
  (p.definition i).bind fun d =>
    match d.value with
    | .Class c => (p.named c.fields).bind fun fs => (p.named c.functions).map fun ms =>
        { base := c.base, fields := fs, methods := ms }
    | _ => none

/-- An acyclic class hierarchy: the view of every class, and a rank that drops from a class to its
base (`PoolIndex::UNDEFINED` is 0). Rust recurses without bound on a cyclic hierarchy. -/
structure Hierarchy where
  view : Idx → Option ClassView
  rank : Idx → Nat
  drops : ∀ c v, view c = some v → v.base ≠ 0 → rank v.base < rank c

namespace Hierarchy

/-- `Scope::resolve_field` (compiler/src/scope.rs:89-109); `none` is an error. -/
def resolveField (h : Hierarchy) (ident : Text) (c : Idx) : Option Idx :=
  match _hv : h.view c with
  | none => none
  | some v =>
    match v.fields.find? (·.1 = ident) with
    | some f => some f.2
    | none => if _hb : v.base ≠ 0 then h.resolveField ident v.base else none
termination_by h.rank c
decreasing_by exact h.drops c v _hv _hb

/-- The loop of `Scope::resolve_method` (compiler/src/scope.rs:132-142). -/
def collectMethods (h : Hierarchy) (ident : Text) (c : Idx) : Option (List Idx) :=
  if c = 0 then some []
  else match _hv : h.view c with
    | none => none
    | some v =>
      let own := (v.methods.filter fun m => signatureName m.1 = ident).map (·.2)
      if _hb : v.base ≠ 0 then (h.collectMethods ident v.base).map (own ++ ·) else some own
termination_by h.rank c
decreasing_by exact h.drops c v _hv _hb

/-- `Scope::resolve_method` (compiler/src/scope.rs:126-152). -/
def resolveMethod (h : Hierarchy) (ident : Text) (c : Idx) : Option (List Idx) :=
  (h.collectMethods ident c).bind fun fs => if fs.isEmpty then none else some fs

end Hierarchy
end Redscript
