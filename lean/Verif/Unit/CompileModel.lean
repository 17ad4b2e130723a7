import Verif.Unit.DefaultModel

/-!
# The compilation of a program (model)

Model of `CompilationUnit::compile` (compiler/src/unit.rs:80-83): of `compile_modules` (152-296) with desugaring and
without permissiveness, of `compile_function` (971-1016) and of `finish` (298-331). The declarations, the defaults, the
proxies, the exchange of wrapped functions and the reordering of classes are those of `DeclModel`, `DefaultModel`,
`WrapModel` and `CleanupModel`; the checker, desugaring and the assembler are those of their models.

Messages and spans are left out of the diagnostics. Errors that end the compilation are told apart only as far as
`Diagnostic::from_error` needs it where it is called; panics and loops that do not end are errors too.
-/

namespace Redscript

/-- A diagnostic of which only the kind is known. -/
def DiagKind.bare (k : DiagKind) : Diagnostic := ⟨k, [], (0, 0)⟩

/-- The cases of `Diagnostic` (compiler/src/diagnostics.rs:18-53) the declarations produce. -/
def DeclDiag.kind : DeclDiag → DiagKind
  | .replaceMethodConflict _ => .ReplaceMethodConflict
  | .fieldConflict => .FieldConflict
  | .addMethodConflict => .AddMethodConflict
  | .error _ => .CompileError
  | .cte => .CteError

/-- The cases of `Diagnostic` (compiler/src/diagnostics.rs:18-53) the checker produces. -/
def TcDiag.kind : TcDiag → DiagKind
  | .compileError => .CompileError
  | .deprecation => .Deprecation

/-- `Error` of an error of the checker (compiler/src/error.rs). -/
def TcErr.unit : TcErr → UnitError
  | .compile => .diagnostic (DiagKind.bare .CompileError)
  | .other => .other 0

/-- `Error` of an error of a declaration that was not reported (compiler/src/error.rs). -/
def DeclErr.unit : DeclErr → UnitError
  | .compile _ => .diagnostic (DiagKind.bare .CompileError)
  | .cte => .diagnostic (DiagKind.bare .CteError)
  | _ => .other 0

/-- `CompiledFunction` (compiler/src/unit.rs:1248-1255) without the span. -/
structure CompiledFn where
  index : Idx
  code : List TypedExpr
  locals : List Idx
  scope : Scope

/-- What the model does not compute: the orders of hash maps, the texts of floats, what the passes ask of the pool and
the scope, and the pool after them. The models of the passes ask their questions of an environment; here the environment
depends on the pool the pass starts with. -/
structure Back where
  /-- the order in which `wrappers` and `proxies` are gone through (compiler/src/unit.rs:271, 307) -/
  drain : AMap Idx Idx → List (Idx × Idx)
  /-- the order in which `remap_locals` gets the new locals (compiler/src/unit.rs:1122) -/
  ord : List Idx → List Idx
  /-- the texts of floats (compiler/src/unit.rs:1019-1042) -/
  display : FloatDisplay
  /-- what the checker asks for a default (compiler/src/unit.rs:1053-1054) -/
  defaults : ConstantPool → DeclDefault → TcEnv
  /-- what the assembler asks for the proxies (compiler/src/unit.rs:1089) -/
  proxy : AsmEnv
  /-- what the checker asks for a body (compiler/src/unit.rs:995-997) -/
  checker : Scope → ConstantPool → TcEnv
  /-- the pool after a body was checked: locals and types are added -/
  checked : DeclBody → ConstantPool → ConstantPool
  /-- what desugaring asks (compiler/src/unit.rs:1000-1002) -/
  desugarer : Scope → ConstantPool → DsEnv
  /-- the pool after a body was desugared -/
  desugared : DeclBody → ConstantPool → ConstantPool
  /-- which errors of desugaring are compile errors -/
  dsKind : DsErr → TcErr
  /-- the diagnostic passes (compiler/src/unit.rs:285-287) -/
  passes : List TypedExpr → FunctionFlags → Bool → List Diagnostic
  /-- what the assembler asks for a body (compiler/src/unit.rs:300) -/
  assembler : Scope → ConstantPool → AsmEnv
  /-- the pool after a body was assembled: texts are added -/
  assembled : CompiledFn → ConstantPool → ConstantPool

/-! ## Bodies -/

/-- The parameters of a function become names (compiler/src/unit.rs:985-988). -/
def Scope.addParameters (p : ConstantPool) : List Idx → Scope → Option Scope
  | [], sc => some sc
  | i :: is, sc => (p.defName i).bind fun name => Scope.addParameters p is (sc.addParameter name i)

/-- The scope in which a body is checked (compiler/src/unit.rs:979-993). -/
def DeclBody.localScope (b : DeclBody) (fn : FunctionDef) (p : ConstantPool) : Option Scope :=
  (Scope.addParameters p fn.parameters { b.scope with
    this := if flag FunctionFlags.isStaticBit fn.flags then none else some b.cls, function := some b.index }).map fun sc =>
      match b.wrapped with
      | some wrapped => sc.addSymbol "wrappedMethod".toList (.Functions [(wrapped, .pub)])
      | none => sc

/-- The environment of the checker for a scope (compiler/src/unit.rs:995). -/
def Back.tcEnv (B : Back) (sc : Scope) (p : ConstantPool) : TcEnv :=
  { B.checker sc p with permissive := false, symbols := sc.symbols, this := sc.this }

/-- `compile_function` (compiler/src/unit.rs:971-1016) with desugaring. The pool stays changed when it fails. -/
def Back.compileFunction (B : Back) (b : DeclBody) (p : ConstantPool) :
    Except UnitError (CompiledFn × List Diagnostic) × ConstantPool :=
  match p.function b.index with
  | none => (.error (.other 0), p)
  | some fn =>
    match b.localScope fn p with
    | none => (.error (.other 0), p)
    | some sc =>
      match (B.tcEnv sc p).checkBody sc.references b.code with
      | .error e => (.error e.unit, B.checked b p)
      | .ok (xs, tst) =>
        match dsSeq (B.desugarer sc (B.checked b p)) xs ⟨(B.checked b p).definitions.length, [], []⟩ with
        | .error e => (.error (B.dsKind e).unit, B.desugared b (B.checked b p))
        | .ok (body, st) =>
          (.ok (⟨b.index, body, tst.locals.map (·.1) ++ st.locals.map (·.1), sc⟩, tst.diags.map fun d => d.kind.bare),
            B.desugared b (B.checked b p))

/-- The loop over `function_bodies` (compiler/src/unit.rs:277-294). -/
def Back.compileBodies (B : Back) : List DeclBody → ConstantPool →
    Except UnitError (List CompiledFn × List Diagnostic × ConstantPool)
  | [], p => .ok ([], [], p)
  | b :: bs, p =>
    match B.compileFunction b p with
    | (.ok (f, ds), p) =>
      match p.function f.index with
      | none => .error (.other 0)
      | some fn =>
        match B.compileBodies bs p with
        | .error e => .error e
        | .ok (fs, more, p) => .ok (f :: fs, ds ++ B.passes f.code fn.flags b.wasCallback ++ more, p)
    | (.error (.diagnostic d), p) =>
      match B.compileBodies bs p with
      | .error e => .error e
      | .ok (fs, more, p) => .ok (fs, d :: more, p)
    | (.error e, _) => .error e

/-- The loop of `finish` over the functions (compiler/src/unit.rs:299-304). -/
def Back.installAll (B : Back) : List CompiledFn → ConstantPool → Except UnitError ConstantPool
  | [], p => .ok p
  | f :: fs, p =>
    match fromBody (p.asmEnv (B.assembler f.scope p)) f.code with
    | .error _ => .error (.other 0)
    | .ok code =>
      match installBody (B.assembled f p) ⟨f.index, code, f.locals⟩ with
      | .error _ => .error (.other 0)
      | .ok p => B.installAll fs p

/-! ## Programs -/

/-- `CompilationOutput` (compiler/src/unit.rs:1315-1319) and the pool. -/
structure UnitOutput where
  diagnostics : List Diagnostic
  refs : List SourceRef
  pool : ConstantPool

/-- The part of `compile_modules` after the declarations (compiler/src/unit.rs:265-295). -/
def Back.compileRest (B : Back) (s : DeclState) : Except UnitError (List CompiledFn × List Diagnostic × ConstantPool) :=
  match compileDefaults B.display (B.defaults s.pool) s.defaults s.pool with
  | .error e => .error e.unit
  | .ok (ds, p) =>
    match constructAll B.proxy s.proxies (B.drain s.wrappers) p with
    | .error _ => .error (.other 0)
    | .ok p =>
      match B.compileBodies s.bodies p with
      | .error e => .error e
      | .ok (fs, more, p) => .ok (fs, s.diagnostics.map (fun d => d.kind.bare) ++ ds.map (fun d => d.kind.bare) ++ more, p)

/-- `finish` (compiler/src/unit.rs:298-331); `fuel` bounds the loops of `cleanup_pool`. -/
def Back.finish (B : Back) (fuel : Nat) (proxies : AMap Idx Idx) (refs : List SourceRef) (fs : List CompiledFn) (ds : List Diagnostic)
    (p : ConstantPool) : Except UnitError UnitOutput :=
  match B.installAll fs p with
  | .error e => .error e
  | .ok p =>
    match swapAll B.ord (B.drain proxies) p with
    | .error _ => .error (.other 0)
    | .ok p =>
      match cleanupPool fuel p refs with
      | .error _ => .error (.other 0)
      | .ok (p, refs) => .ok ⟨sortDiagnostics ds, refs, p⟩

/-- `CompilationUnit::new` and `compile` (compiler/src/unit.rs:55-83). -/
def Back.compile (B : Back) (depth fuel : Nat) (ms : List SourceModule) (p : ConstantPool) : Except UnitError UnitOutput :=
  match DeclState.ofPool p with
  | none => .error (.other 0)
  | some s =>
    match declareModules depth false ms s with
    | (.error e, _) => .error e.unit
    | (.ok _, s) =>
      match B.compileRest s with
      | .error e => .error e
      | .ok (fs, ds, p) => B.finish fuel s.proxies s.refs fs ds p

end Redscript
