import Verif.Scope.Model

/-!
# Types and conversions (model)

Model of `TypeId` (compiler/src/scope.rs:293-341), of the conversion rules, least upper bounds and
overload resolution of `compiler/src/typechecker.rs`, and of the type index functions of
`compiler/src/scope.rs`. Spans and the texts of errors are dropped.
-/

namespace Redscript

/-- `TypeId` (compiler/src/scope.rs:293-307). -/
inductive TypeId where
  | Prim (i : Idx)
  | Class (i : Idx)
  | Struct (i : Idx)
  | Enum (i : Idx)
  | Ref (t : TypeId)
  | WeakRef (t : TypeId)
  | Array (t : TypeId)
  | StaticArray (t : TypeId) (n : BitVec 32)
  | ScriptRef (t : TypeId)
  | Variant
  | Null
  | Void
  deriving DecidableEq, Repr

/-- `Conversion` (compiler/src/typechecker.rs:1011-1018). -/
inductive Conversion where
  | Identity
  | RefToWeakRef
  | WeakRefToRef
  | ToScriptRef
  | ToVariant
  deriving DecidableEq, Repr

/-! ## Conversions -/

namespace Hierarchy

/-- The rank of the class or struct a type refers to, for termination only. -/
def typeRank (h : Hierarchy) : TypeId → Nat
  | .Class c | .Struct c => h.rank c
  | .Ref t | .WeakRef t => h.typeRank t
  | _ => 0

/-- `Option::filter(|conv| *conv == Conversion::Identity)` (compiler/src/typechecker.rs:863, 866). -/
def onlyIdentity : Option Conversion → Option Conversion
  | some .Identity => some .Identity
  | _ => none

/-- `find_conversion` (compiler/src/typechecker.rs:838-885). The outer `none` is a pool error. -/
def findConversion (h : Hierarchy) (a b : TypeId) : Option (Option Conversion) :=
  if a = b then some (some .Identity)
  else match a, b with
    | .Null, .Ref _ => some (some .Identity)
    | .Null, .WeakRef _ => some (some .RefToWeakRef)
    | .Class c, .Class d =>
      match _hv : h.view c with
      | none => none
      | some v => if _hb : v.base ≠ 0 then h.findConversion (.Class v.base) (.Class d) else some none
    | .Struct c, .Struct d =>
      match _hv : h.view c with
      | none => none
      | some v => if _hb : v.base ≠ 0 then h.findConversion (.Struct v.base) (.Struct d) else some none
    | .Ref a, .Ref b => (h.findConversion a b).map onlyIdentity
    | .WeakRef a, .WeakRef b => (h.findConversion a b).map onlyIdentity
    | .WeakRef a, .Ref b =>
      (h.findConversion a b).map fun r => if r = some .Identity then some .WeakRefToRef else none
    | .Ref a, .WeakRef b =>
      (h.findConversion a b).map fun r => if r = some .Identity then some .RefToWeakRef else none
    | a, .ScriptRef b =>
      (h.findConversion a b).map fun r => if r = some .Identity then some .ToScriptRef else none
    | _, .Variant => some (some .ToVariant)
    | _, _ => some none
termination_by sizeOf b + h.typeRank a
decreasing_by
  · have := h.drops c v _hv _hb
    simp only [typeRank]
    simp +arith
    omega
  · have := h.drops c v _hv _hb
    simp only [typeRank]
    simp +arith
    omega
  all_goals simp +arith [typeRank]

/-! ## Least upper bounds -/

/-- `collect_supertypes` (compiler/src/typechecker.rs:795-807): root first. -/
def collectSupertypes (h : Hierarchy) (c : Idx) : Option (List Idx) :=
  if c = 0 then some []
  else match _hv : h.view c with
    | none => none
    | some v =>
      if _hb : v.base ≠ 0 then (h.collectSupertypes v.base).map (· ++ [c]) else some [c]
termination_by h.rank c
decreasing_by exact h.drops c v _hv _hb

/-- `.zip(..).take_while(|(a, b)| a == b).last()` (compiler/src/typechecker.rs:814). -/
def lastCommon : List Idx → List Idx → Option Idx
  | a :: as, b :: bs => if a = b then some ((lastCommon as bs).getD a) else none
  | _, _ => none

/-- `lub_class` (compiler/src/typechecker.rs:811-821). The outer `none` is a pool error, the inner one
`UnificationFailed`. -/
def lubClass (h : Hierarchy) (a b : Idx) : Option (Option Idx) :=
  (h.collectSupertypes a).bind fun as => (h.collectSupertypes b).map fun bs => lastCommon as bs

/-- `lub` (compiler/src/typechecker.rs:810-836). -/
def lub (h : Hierarchy) (a b : TypeId) : Option (Option TypeId) :=
  if a = b then some (some a)
  else match a, b with
    | .Ref a, .Null | .Null, .Ref a => some (some (.Ref a))
    | .WeakRef a, .Null | .Null, .WeakRef a => some (some (.WeakRef a))
    | .Ref a, .Ref b => (h.lub a b).map (·.map .Ref)
    | .WeakRef a, .WeakRef b => (h.lub a b).map (·.map .WeakRef)
    | .Class a, .Class b => (h.lubClass a b).map (·.map .Class)
    | .Struct a, .Struct b => (h.lubClass a b).map (·.map .Struct)
    | _, _ => some none
termination_by sizeOf a

end Hierarchy

/-! ## Overload resolution -/

/-- What overload resolution reads of a function (compiler/src/typechecker.rs:615-672): the types of its
parameters with their `optional` flag, whether it is a cast function, and its return type. -/
structure Candidate where
  index : Idx
  params : List (TypeId × Bool)
  cast : Bool
  ret : Option TypeId
  deriving DecidableEq, Repr

/-- Failures. -/
inductive OverloadErr where
  | noMatch
  | other
  deriving DecidableEq, Repr

/-- `FunctionMatch` (compiler/src/typechecker.rs:948-963): the function, the types of the checked
arguments and their conversions. -/
structure FunctionMatch where
  index : Idx
  args : List TypeId
  convs : List Conversion
  deriving DecidableEq, Repr

/-- An argument: the type of the checked expression, which may depend on the expected type; `none` is an
error while checking it. Effects of checking (locals, diagnostics) are not modelled. -/
abbrev Arg := Option TypeId → Option TypeId

namespace Candidate

/-- The number of parameters that are not optional (compiler/src/typechecker.rs:620). -/
def minParams (c : Candidate) : Nat := (c.params.filter fun p => !p.2).length

/-- `validate_call` (compiler/src/typechecker.rs:608-635): the count check. -/
def validateCall (c : Candidate) (argCount : Nat) : Bool :=
  !(argCount < c.minParams || argCount > c.params.length)

end Candidate

/-- The conversions of the arguments (compiler/src/typechecker.rs:660-671). The outer `none` is a pool
error, the inner one `ParameterMismatch`. `izip!` stops at the shorter list. -/
def convertArgs (h : Hierarchy) : List TypeId → List TypeId → Option (Option (List Conversion))
  | a :: as, p :: ps =>
    (h.findConversion a p).bind fun r =>
      match r with
      | none => some none
      | some c => (convertArgs h as ps).map (·.map (c :: ·))
  | _, _ => some (some [])

/-- `validate_args` (compiler/src/typechecker.rs:637-673). -/
def validateArgs (h : Hierarchy) (c : Candidate) (args : List TypeId) (wanted : Option TypeId) :
    Option (Option (List Conversion)) :=
  match c.cast, wanted with
  | true, some w =>
    match c.ret with
    | none => none
    | some r => (h.findConversion r w).bind fun conv =>
      if conv.isNone then some none else convertArgs h args (c.params.map (·.1))
  | _, _ => convertArgs h args (c.params.map (·.1))

/-- Checking the arguments against expected types (compiler/src/typechecker.rs:561-565); `zip` stops at
the shorter list. -/
def checkWith : List Arg → List TypeId → Option (List TypeId)
  | a :: as, t :: ts => (a (some t)).bind fun x => (checkWith as ts).map (x :: ·)
  | _, _ => some []

/-- Checking the arguments without expectation (compiler/src/typechecker.rs:577, 599). -/
def checkPlain : List Arg → Option (List TypeId)
  | [] => some []
  | a :: as => (a none).bind fun x => (checkPlain as).map (x :: ·)

/-- The loop over the eligible overloads (compiler/src/typechecker.rs:579-586): all of them are
validated, in order. -/
def allMatches (h : Hierarchy) (args : List TypeId) (wanted : Option TypeId) :
    List Candidate → Option (List (Candidate × List Conversion))
  | [] => some []
  | c :: cs => (validateArgs h c args wanted).bind fun r =>
    (allMatches h args wanted cs).map fun ms =>
      match r with
      | none => ms
      | some convs => (c, convs) :: ms

/-- `resolve_overload` up to the permissive fallback (compiler/src/typechecker.rs:538-593). -/
def resolveStrict (h : Hierarchy) (cands : List Candidate) (args : List Arg) (wanted : Option TypeId) :
    Except OverloadErr FunctionMatch :=
  match cands.filter (·.validateCall args.length) with
  | [c] =>
    match checkWith args (c.params.map (·.1)) with
    | none => .error .other
    | some ts =>
      match validateArgs h c ts wanted with
      | none => .error .other
      | some none => .error .noMatch
      | some (some convs) => .ok ⟨c.index, ts, convs⟩
  | eligible =>
    match checkPlain args with
    | none => .error .other
    | some ts =>
      match allMatches h ts wanted eligible with
      | none => .error .other
      | some [] => .error .noMatch
      | some ((c, convs) :: _) => .ok ⟨c.index, ts, convs⟩

/-- `resolve_overload` (compiler/src/typechecker.rs:538-606): the result and whether an error was
reported as a diagnostic. The permissive fallback takes the first candidate; with no candidates
`overloads.functions[0]` would panic (`other`). In Rust some `other` errors of a single eligible
overload reach the fallback as well; they are kept as errors here. -/
def resolveOverload (h : Hierarchy) (permissive : Bool) (cands : List Candidate) (args : List Arg)
    (wanted : Option TypeId) : Except OverloadErr (FunctionMatch × Bool) :=
  match resolveStrict h cands args wanted with
  | .ok m => .ok (m, false)
  | .error e =>
    if permissive && e == .noMatch then
      match checkPlain args, cands with
      | some ts, c :: _ => .ok (⟨c.index, ts, ts.map fun _ => .Identity⟩, true)
      | _, _ => .error .other
    else .error e

/-! ## Type indexes -/

/-- `TypeId::repr` (compiler/src/scope.rs:317-332); `none` is a pool error. Sizes are decimal. -/
def TypeId.repr (p : ConstantPool) : TypeId → Option Text
  | .Prim i | .Class i | .Struct i | .Enum i => p.defName i
  | .Ref t => (t.repr p).map ("ref:".toList ++ ·)
  | .WeakRef t => (t.repr p).map ("wref:".toList ++ ·)
  | .Array t => (t.repr p).map ("array:".toList ++ ·)
  | .StaticArray t n => (t.repr p).map (· ++ '[' :: ((toString n.toNat).toList ++ [']']))
  | .ScriptRef t => (t.repr p).map ("script_ref:".toList ++ ·)
  | .Variant => some "Variant".toList
  | .Null => some "ref:IScriptable".toList
  | .Void => none

/-- `Definition::type_` (core/src/definition.rs:59-68). -/
def typeDefinition (name : Idx) (t : PoolType) : Definition :=
  { name, parent := 0, unk1 := 0, unk2 := 0, unk3 := 0, value := .Type t }

/-- The common part of `Scope::get_type_index` (compiler/src/scope.rs:199-203, 213-217): look the name
up, else add the name, then what `inner` adds, then the definition. -/
def typeEntry (sc : Scope) (p : ConstantPool) (name : Option Text)
    (inner : Scope → ConstantPool → Except Err (PoolType × Scope × ConstantPool)) :
    Except Err (Idx × Scope × ConstantPool) :=
  match name with
  | none => .error .invalid
  | some name =>
    match sc.types.get name with
    | some i => .ok (i, sc, p)
    | none =>
      let r := p.names.add Strings.cnameDefault (String.ofList name)
      match inner sc { p with names := r.2 } with
      | .error e => .error e
      | .ok (v, sc, p) =>
        let q := p.addDefinition (typeDefinition r.1 v)
        .ok (q.1, { sc with types := (sc.types.insert name q.1) }, q.2)

/-- `Scope::get_type_index` (compiler/src/scope.rs:198-219). The name is added to the pool before the
inner types are looked up, as in the Rust code. -/
def getTypeIndex (sc : Scope) (p : ConstantPool) (t : TypeId) : Except Err (Idx × Scope × ConstantPool) :=
  match t with
  | .Prim _ | .Variant => typeEntry sc p (t.repr p) fun sc p => .ok (.Prim, sc, p)
  | .Class _ | .Struct _ | .Enum _ => typeEntry sc p (t.repr p) fun sc p => .ok (.Class, sc, p)
  | .Ref t => typeEntry sc p (TypeId.repr p (.Ref t)) fun sc p =>
    (getTypeIndex sc p t).map fun r => (.Ref r.1, r.2)
  | .WeakRef t => typeEntry sc p (TypeId.repr p (.WeakRef t)) fun sc p =>
    (getTypeIndex sc p t).map fun r => (.WeakRef r.1, r.2)
  | .Array t => typeEntry sc p (TypeId.repr p (.Array t)) fun sc p =>
    (getTypeIndex sc p t).map fun r => (.Array r.1, r.2)
  | .StaticArray t n => typeEntry sc p (TypeId.repr p (.StaticArray t n)) fun sc p =>
    (getTypeIndex sc p t).map fun r => (.StaticArray r.1 n, r.2)
  | .ScriptRef t => typeEntry sc p (TypeId.repr p (.ScriptRef t)) fun sc p =>
    (getTypeIndex sc p t).map fun r => (.ScriptRef r.1, r.2)
  | .Null | .Void => typeEntry sc p (t.repr p) fun _ _ => .error .panic

/-- The symbol a class type name stands for (compiler/src/scope.rs:250-255): looked up by the part of
the name after the last dot. -/
def Scope.classNamed (sc : Scope) (name : Text) : Option TypeId :=
  match sc.symbols.get ((splitOnChar '.' name).getLast?.getD []) with
  | some (.Class i _) => some (.Class i)
  | some (.Struct i _) => some (.Struct i)
  | some (.Enum i) => some (.Enum i)
  | _ => none

/-- `Scope::resolve_type_from_pool` (compiler/src/scope.rs:241-278). `depth` bounds the recursion, which
in Rust is bounded by the stack; `none` is an error (or an exhausted bound). -/
def resolveTypeFromPool (sc : Scope) (p : ConstantPool) : (depth : Nat) → Idx → Option TypeId
  | 0, _ => none
  | n + 1, i =>
    match p.definition i with
    | some d =>
      match d.value with
      | .Type .Prim => (p.defName i).map fun name =>
          if name = "Variant".toList then .Variant else .Prim i
      | .Type .Class => (p.defName i).bind sc.classNamed
      | .Type (.Ref t) => (resolveTypeFromPool sc p n t).map .Ref
      | .Type (.WeakRef t) => (resolveTypeFromPool sc p n t).map .WeakRef
      | .Type (.Array t) => (resolveTypeFromPool sc p n t).map .Array
      | .Type (.StaticArray t k) => (resolveTypeFromPool sc p n t).map (.StaticArray · k)
      | .Type (.ScriptRef t) => (resolveTypeFromPool sc p n t).map .ScriptRef
      | _ => none
    | none => none

end Redscript
