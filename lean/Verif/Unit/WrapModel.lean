import Verif.Unit.CleanupModel
import Verif.Assembler.Model
import Verif.Names.Model
import Verif.Parser.LexModel

/-!
# Method wrappers (model)

Model of how `CompilationUnit` handles `@wrapMethod` (compiler/src/unit.rs): the bookkeeping when a wrapper
is declared (786-840), the proxies built before bodies are compiled (270-274, 1058-1103), the compiled
bodies put into the pool (298-304) and the exchange of proxies with the functions they stand for (306-320,
1105-1130).

Not modelled here: resolving the class name of the annotation (a parameter), annotations and their
arguments, and what happens to other declarations; the theorems allow for it between the steps.
-/

namespace Redscript

/-- The ways the steps fail, by kind. -/
inductive WrapErr where
  /-- An error of the pool (`?` on its results). -/
  | pool
  /-- `Cause::NoMethodWithMatchingSignature`, `Cause::NoMethodWithMatchingName` -/
  | noMethod
  /-- An error of the assembler. -/
  | assemble
  | panic
  deriving DecidableEq, Repr

/-- core/src/definition.rs:706. -/
def FunctionFlags.isCallbackBit : Nat := 6

/-- `as_function`, `into_function` (core/src/definition.rs:135-178, derived). -/
def AnyDefinition.asFunction : AnyDefinition → Option FunctionDef
  | .Function f => some f
  | _ => none

/-- `as_function_mut` (core/src/definition.rs:135-178, derived) with an update. -/
def AnyDefinition.onFunction (g : FunctionDef → FunctionDef) : AnyDefinition → Option AnyDefinition
  | .Function f => some (.Function (g f))
  | _ => none

/-- The flags of a parameter, with `as_parameter` (core/src/definition.rs:135-178, derived). -/
def AnyDefinition.paramFlags : AnyDefinition → Option ParameterFlags
  | .Parameter p => some p.flags
  | _ => none

/-- `function` (core/src/bundle.rs:261-268). -/
def ConstantPool.function (p : ConstantPool) (i : Idx) : Option FunctionDef := p.definitionBy AnyDefinition.asFunction i

/-- A name made of a prefix and an index: `format!("wrapper${wrapped_idx}")` (compiler/src/unit.rs:823),
`format!("proxy${wrapper}")` (compiler/src/unit.rs:1097), with the `Display` of indexes
(core/src/bundle.rs:717-721). -/
def indexName (pre : String) (i : Idx) : String := String.ofList (pre.toList ++ digitsOf 10 i.toNat)

/-- `resolve_direct_method` (compiler/src/scope.rs:154-176): the functions of the class itself with the
name; `none` for any error. -/
def directMethods (p : ConstantPool) (ident : Text) (cls : Idx) : Option (List Idx) :=
  (p.definitionBy AnyDefinition.asClass cls).bind fun c =>
    (c.functions.mapM fun f => (p.defName f).map fun name => (f, name)).bind fun named =>
      let found := (named.filter fun x => decide (signatureName x.2 = ident)).map (·.1)
      if found.isEmpty then none else some found

/-- `by_id` (compiler/src/scope.rs:356-363): the first with the signature. -/
def byId (p : ConstantPool) (sig : Text) (fs : List Idx) : Option Idx :=
  fs.find? fun f => decide (p.defName f = some sig)

/-- The part of `Slot::Function` that matters for wrappers (compiler/src/unit.rs:830-838), with the
function that is wrapped. -/
structure WrapSlot where
  /-- `fun_idx` -/
  target : Idx
  /-- `index` -/
  index : Idx
  parent : Idx
  base : Option Idx
  /-- what `wrappedMethod` means in the body (compiler/src/unit.rs:989-992) -/
  wrapped : Idx
  deriving DecidableEq, Repr

/-- The part of `CompilationUnit` that matters for wrappers (compiler/src/unit.rs:29-45). -/
structure Wraps where
  pool : ConstantPool
  wrappers : AMap Idx Idx
  proxies : AMap Idx Idx

/-- What the declaration wraps: the wrapper declared before, or a new slot for the original
(compiler/src/unit.rs:815-821). -/
def Wraps.wrappedIdx (st : Wraps) (f : Idx) : Idx × ConstantPool × AMap Idx Idx :=
  match st.wrappers.get f with
  | some w => (w, st.pool, st.proxies)
  | none => (st.pool.reserve.1, st.pool.reserve.2, st.proxies.insert f st.pool.reserve.1)

/-- Add a function to a class (compiler/src/unit.rs:828, 1100). -/
def ConstantPool.pushFunction (p : ConstantPool) (cls f : Idx) : Option ConstantPool :=
  p.modifyValue (AnyDefinition.onClass fun c => { c with functions := c.functions ++ [f] }) cls

/-- Declaring a wrapper for the method of class `cls` with a name and signature
(compiler/src/unit.rs:798-839). -/
def Wraps.declare (st : Wraps) (ident sig : Text) (cls : Idx) : Except WrapErr (WrapSlot × Wraps) :=
  match (directMethods st.pool ident cls).bind (byId st.pool sig) with
  | none => .error .noMethod
  | some f =>
    let (wrapped, pool, proxies) := st.wrappedIdx f
    let (name, names) := pool.names.add Strings.cnameDefault (indexName "wrapper$" wrapped)
    let (w, pool) := { pool with names }.stubDefinition name
    let base := (pool.function f).bind (·.baseMethod)
    match pool.pushFunction cls w with
    | none => .error .pool
    | some pool =>
      .ok (⟨f, w, cls, base, wrapped⟩, { pool, wrappers := st.wrappers.insert f w, proxies })

/-! ## Proxies -/

/-- What `assemble_call` asks about a function (compiler/src/assembler.rs:387-393, 411). -/
def ConstantPool.fnInfo (p : ConstantPool) (f : Idx) : Except AsmErr FnInfo :=
  match p.definition f with
  | none => .error .lookup
  | some d =>
    match d.value.asFunction with
    | none => .error .lookup
    | some fn =>
      match fn.parameters.mapM (p.definitionBy AnyDefinition.paramFlags) with
      | none => .error .lookup
      | some params => .ok ⟨fn.flags, params, d.name⟩

/-- The scope and a pool as the assembler sees them: functions are those of the pool, the other questions
are answered by `q`. -/
def ConstantPool.asmEnv (p : ConstantPool) (q : AsmEnv) : AsmEnv := { q with function := p.fnInfo }

/-- The loop that copies the parameters (compiler/src/unit.rs:1071-1076). -/
def cloneParams (p : ConstantPool) : List Idx → Option (List Idx × ConstantPool)
  | [] => some ([], p)
  | i :: is =>
    (p.definition i).bind fun d =>
      (cloneParams (p.addDefinition d).2 is).map fun r => ((p.addDefinition d).1 :: r.1, r.2)

/-- The body of a proxy (compiler/src/unit.rs:1075-1088). -/
def proxyBody (wrapper : Idx) (params : List Idx) (returns : Bool) : List TypedExpr :=
  let call : TypedExpr := .Call (.Function wrapper) [] (params.map fun i => .Ident (.Value (.Parameter i)))
  [if returns then .Return (some call) else call]

/-- `construct_proxy` (compiler/src/unit.rs:1058-1103). -/
def constructProxy (q : AsmEnv) (p : ConstantPool) (slot wrapped wrapper : Idx) : Except WrapErr ConstantPool :=
  match p.definition wrapped with
  | none => .error .pool
  | some d =>
    match d.value.asFunction with
    | none => .error .panic
    | some fn =>
      match cloneParams p fn.parameters with
      | none => .error .pool
      | some (params, p) =>
        match fromBody (p.asmEnv q) (proxyBody wrapper params fn.returnType.isSome) with
        | .error _ => .error .assemble
        | .ok code =>
          let (name, names) := p.names.add Strings.cnameDefault (indexName "proxy$" wrapper)
          let compiled := { fn with code, locals := [], parameters := params }
          match { p with names }.putDefinition slot
              { name, parent := d.parent, unk1 := 0, unk2 := 0, unk3 := 0, value := .Function compiled } with
          | .error _ => .error .panic
          | .ok p =>
            if d.parent = 0 then .ok p
            else
              match p.pushFunction d.parent slot with
              | none => .error .pool
              | some p => .ok p

/-- The loop that creates the proxies (compiler/src/unit.rs:270-274), for the order in which the hash map
`wrappers` is drained. -/
def constructAll (q : AsmEnv) (proxies : AMap Idx Idx) : List (Idx × Idx) → ConstantPool → Except WrapErr ConstantPool
  | [], p => .ok p
  | (wrapped, wrapper) :: rest, p =>
    match proxies.get wrapped with
    | none => .error .panic
    | some proxy =>
      match constructProxy q p proxy wrapped wrapper with
      | .error e => .error e
      | .ok p => constructAll q proxies rest p

/-! ## Finishing -/

/-- A compiled and assembled function body (compiler/src/unit.rs:1006-1013, 300). -/
structure WrapBody where
  index : Idx
  code : List (Instr Offset)
  locals : List Idx

/-- Putting a body into the pool (compiler/src/unit.rs:301-303). -/
def installBody (p : ConstantPool) (b : WrapBody) : Except WrapErr ConstantPool :=
  match p.modifyValue (AnyDefinition.onFunction fun f => { f with code := b.code, locals := b.locals }) b.index with
  | none => .error .pool
  | some p => .ok p

/-- The values of a hash map, in some order: those of the bindings that were not replaced. -/
def AMap.values [DecidableEq K] (m : AMap K V) : List V :=
  go [] m.entries
where
  /-- Skip the keys seen. -/
  go (seen : List K) : List (K × V) → List V
    | [] => []
    | (k, v) :: rest => if k ∈ seen then go seen rest else v :: go (k :: seen) rest

/-- The loop that copies the locals (compiler/src/unit.rs:1115-1119). -/
def cloneLocals (p : ConstantPool) (parent : Idx) : List Idx → AMap Idx Idx → Option (AMap Idx Idx × ConstantPool)
  | [], m => some (m, p)
  | i :: is, m =>
    (p.definition i).bind fun d =>
      cloneLocals (p.addDefinition { d with parent }).2 parent is (m.insert i (p.addDefinition { d with parent }).1)

/-- The loop that replaces the locals in the code (compiler/src/unit.rs:1124-1128); `none` is the panic of
`unwrap`. -/
def remapCode (m : AMap Idx Idx) : List (Instr Offset) → Option (List (Instr Offset))
  | [] => some []
  | .Local l :: is => (m.get l).bind fun l' => (remapCode m is).map (.Local l' :: ·)
  | i :: is => (remapCode m is).map (i :: ·)

/-- `remap_locals` (compiler/src/unit.rs:1105-1130). `ord` is the order in which the hash map gives its
values. -/
def remapLocals (ord : List Idx → List Idx) (p : ConstantPool) (proxy target : Idx) : Except WrapErr ConstantPool :=
  match p.function target with
  | none => .error .pool
  | some fn =>
    match cloneLocals p proxy fn.locals .empty with
    | none => .error .pool
    | some (m, p) =>
      match remapCode m fn.code with
      | none => .error .panic
      | some code =>
        match p.modifyValue (AnyDefinition.onFunction fun f => { f with locals := ord m.values, code }) target with
        | none => .error .pool
        | some p => .ok p

/-- One round of the loop that exchanges a function and its proxy (compiler/src/unit.rs:308-319). -/
def swapProxy (ord : List Idx → List Idx) (p : ConstantPool) (wrapped proxy : Idx) : Except WrapErr ConstantPool :=
  match p.definition wrapped, p.definition proxy with
  | some dw, some dp =>
    match p.modifyValue (AnyDefinition.onFunction fun f =>
        { f with flags := setFlag FunctionFlags.isCallbackBit false f.flags }) wrapped with
    | none => .error .pool
    | some p =>
      match remapLocals ord p proxy wrapped with
      | .error e => .error e
      | .ok p =>
        match p.rename wrapped dp.name with
        | .error _ => .error .panic
        | .ok p =>
          match p.rename proxy dw.name with
          | .error _ => .error .panic
          | .ok p =>
            match p.swapDefinition wrapped proxy with
            | .error _ => .error .panic
            | .ok p => .ok p
  | _, _ => .error .pool

/-- The loop over the hash map `proxies` (compiler/src/unit.rs:307-320), for the order in which it is
iterated. -/
def swapAll (ord : List Idx → List Idx) : List (Idx × Idx) → ConstantPool → Except WrapErr ConstantPool
  | [], p => .ok p
  | (wrapped, proxy) :: rest, p =>
    match swapProxy ord p wrapped proxy with
    | .error e => .error e
    | .ok p => swapAll ord rest p

end Redscript
