import Verif.Assembler.Model

/-!
# What a typed body means (specification)

A structured meaning for typed bodies, written without reference to the code the assembler emits. It is
part of the trusted base of C26 to C29.

The meaning of single operations is left open: values, states and the effect of each operation are
parameters (`Interp`). An operation may abort at any point, with anything it knows by then; so two
programs that agree for all interpretations perform the same operations with the same operands in the
same order, also when they do not end.
-/

namespace Redscript

/-- Where the meaning of an `is defined` test depends on the kind of its operand. -/
inductive DefinedKind where
  | ref | weakRef | variant
  deriving DecidableEq, Repr

/-- Operations, as written in the source. -/
inductive Op where
  | getLocal (l : Idx)
  | getParam (p : Idx)
  | const (c : Constant)
  /-- The zeros of the small integer types; the others are constants. -/
  | int8Zero | int16Zero | uint8Zero | uint16Zero
  | null
  | weakNull
  | this
  | enumMember (enum_ member : Idx)
  | cast (class_ : Idx)
  | assign
  | element (ty : TypeId)
  | newObject (class_ : Idx)
  | construct (struct_ : Idx)
  | objectField (f : Idx)
  | structField (f : Idx)
  /-- An intrinsic at a type: the type of its first operand, or its result for conversions. -/
  | intrinsic (op : IntrinsicOp) (ty : TypeId)
  /-- Intrinsics that do not depend on a type. -/
  | untyped (op : IntrinsicOp)
  | isDefined (k : DefinedKind)
  deriving DecidableEq, Repr

/-- The function a call runs: a fixed one, or the one the receiver's class has under a name. -/
inductive Callee where
  | fixed (f : Idx)
  | dispatched (name : Idx)
  deriving DecidableEq, Repr

/-- An interpretation of the operations over values `V`, states `S` and reasons to abort `A`. -/
structure Interp (V S A : Type) where
  /-- An operation on its operands. -/
  prim : Op → List V → S → Except A (V × S)
  /-- A call with an optional receiver; arguments may be omitted or not demanded. -/
  call : Callee → Option V → List (Option V) → S → Except A (V × S)
  /-- Whether a callee demands its next short-circuit argument, given the ones before. -/
  demand : Callee → Option V → List (Option V) → S → Bool
  /-- Reading a condition. -/
  truth : V → S → Bool
  /-- Whether a receiver is null. -/
  isNull : V → S → Bool
  /-- The value of a member access on null. -/
  onNull : S → V × S
  /-- Comparing the value of a switch with a case. -/
  matches_ : TypeId → V → V → S → Bool

/-- The result of evaluating an expression: a value and a state, an abort, or nothing for trees that are
not expressions. -/
inductive Res (A : Type) (α : Type) where
  | ok (a : α)
  | abort (a : A)
  | stuck

namespace Res

/-- Continue after success. -/
def bind (r : Res A α) (k : α → Res A β) : Res A β :=
  match r with
  | .ok a => k a
  | .abort a => .abort a
  | .stuck => .stuck

/-- The result of an operation. -/
def ofExcept : Except A α → Res A α
  | .ok a => .ok a
  | .error a => .abort a

end Res

/-- The operation of an intrinsic, given the static type of its first operand when it has one, and of its
result. -/
def intrinsicMeaning (op : IntrinsicOp) (argTy : Option TypeId) (ret : TypeId) : Option Op :=
  match op with
  | .VariantIsRef | .VariantIsArray | .VariantTypeName | .RefToWeakRef | .WeakRefToRef => some (.untyped op)
  | .IntEnum | .FromVariant => some (.intrinsic op ret)
  | .IsDefined =>
    match argTy with
    | some (.Ref _) | some .Null => some (.isDefined .ref)
    | some (.WeakRef _) => some (.isDefined .weakRef)
    | some .Variant => some (.isDefined .variant)
    | _ => none
  | _ => argTy.map (.intrinsic op ·)

/-- The static type of the first of a list of operands. -/
def firstType (env : AsmEnv) (args : List TypedExpr) : Option TypeId :=
  match args with
  | [] => none
  | a :: _ => (env.typeOf a).toOption

/-- The operation giving the initial value of a local of a named primitive type. `zero` are the texts of
the reserved entries of the text pools. -/
def primDefault (zero : Literal → Text) (name : Text) : Option Op :=
  [("Bool", Op.const (.Bool false)), ("Int8", .int8Zero), ("Int16", .int16Zero), ("Int32", .const (.I32 0)),
   ("Int64", .const (.I64 0)), ("Uint8", .uint8Zero), ("Uint16", .uint16Zero), ("Uint32", .const (.U32 0)),
   ("Uint64", .const (.U64 0)), ("Float", .const (.F32 0)), ("Double", .const (.F64 0)),
   ("String", .const (.String .String [])), ("CName", .const (.String .Name (zero .Name))),
   ("TweakDBID", .const (.String .TweakDbId (zero .TweakDbId))),
   ("ResRef", .const (.String .Resource (zero .Resource)))].find? (fun x => x.1.toList = name) |>.map (·.2)

/-- What declaring a local without a value does. -/
inductive DeclareEffect where
  | nothing
  /-- assign the value of the operation -/
  | assign (op : Op)
  /-- clear the array of this type -/
  | clear (ty : TypeId)

/-- Declaring a local of a type: locals of primitive, struct, enum and reference types get the zero value
of the type, dynamic arrays are cleared, others are left alone. -/
def declareEffect (env : AsmEnv) (zero : Literal → Text) : TypeId → DeclareEffect
  | .Prim i =>
    match env.defName i with
    | .ok name =>
      match primDefault zero name with
      | some op => .assign op
      | none => .nothing
    | .error _ => .nothing
  | .Struct s => .assign (.construct s)
  | .Enum i =>
    match env.enumFirst i with
    | .ok (some m) => .assign (.enumMember i m)
    | _ => .nothing
  | .Ref _ => .assign .null
  | .WeakRef _ => .assign .weakNull
  | .Array t => .clear (.Array t)
  | _ => .nothing

/-- The function run by a call: calls of methods that are neither final nor static nor native are
dispatched on the receiver unless the receiver is `super`. -/
def calleeOf (info : FnInfo) (super : Bool) (f : Idx) : Callee :=
  if super || flag FunctionFlags.isFinalBit info.flags || flag FunctionFlags.isStaticBit info.flags ||
    flag FunctionFlags.isNativeBit info.flags then .fixed f else .dispatched info.name

mutual
/-- Trees that are expressions with a value: intrinsics have all their operands, objects are created
without arguments and structs with less than 256. The type checker produces only such trees where a value
is needed (compiler/src/typechecker.rs:34-354; 238-247 for constructors, 365-376 for intrinsics). -/
def Expr.isValue : TypedExpr → Bool
  | .Ident _ | .Constant _ | .Null | .This | .Super => true
  | .Cast _ e => e.isValue
  | .Assign a b => a.isValue && b.isValue
  | .ArrayElem a b => a.isValue && b.isValue
  | .New ty args =>
    match ty with
    | .Class _ => args.isEmpty
    | _ => decide (args.length < 256) && Expr.areValues args
  | .Conditional c t e => c.isValue && t.isValue && e.isValue
  | .Member e m =>
    match m with
    | .EnumMember _ _ => true
    | _ => e.isValue
  | .Call c _ args =>
    match c with
    | .Function _ => Expr.areValues args
    | .Intrinsic op _ => decide (args.length = op.argCount) && Expr.areValues args
  | .MethodCall ctx _ args => ctx.isValue && Expr.areValues args
  | _ => false
/-- All elements are expressions with a value. -/
def Expr.areValues : List TypedExpr → Bool
  | [] => true
  | e :: es => e.isValue && Expr.areValues es
end

section
variable {V S A : Type}

mutual
/-- The value of an expression. Operands are evaluated left to right. Forms that are not expressions, or
are removed by desugaring, have none (`stuck`). -/
def evalE (env : AsmEnv) (I : Interp V S A) : TypedExpr → S → Res A (V × S)
  | .Ident r, s =>
    match r with
    | .Value (.Local l) => .ofExcept (I.prim (.getLocal l) [] s)
    | .Value (.Parameter p) => .ofExcept (I.prim (.getParam p) [] s)
    | _ => .stuck
  | .Constant c, s => .ofExcept (I.prim (.const c) [] s)
  | .Null, s => .ofExcept (I.prim .null [] s)
  | .This, s => .ofExcept (I.prim .this [] s)
  | .Super, s => .ofExcept (I.prim .this [] s)
  | .Cast ty e, s =>
    match ty with
    | .Class c => (evalE env I e s).bind fun (v, s) => .ofExcept (I.prim (.cast c) [v] s)
    | _ => .stuck
  | .Assign lhs rhs, s =>
    (evalE env I lhs s).bind fun (l, s) => (evalE env I rhs s).bind fun (r, s) =>
      .ofExcept (I.prim .assign [l, r] s)
  | .ArrayElem e i, s =>
    match env.typeOf e with
    | .ok ty =>
      (evalE env I e s).bind fun (a, s) => (evalE env I i s).bind fun (i, s) =>
        .ofExcept (I.prim (.element ty) [a, i] s)
    | .error _ => .stuck
  | .New ty args, s =>
    match ty with
    | .Class c => if args.isEmpty then .ofExcept (I.prim (.newObject c) [] s) else .stuck
    | .Struct c => (evalList env I args s).bind fun (vs, s) => .ofExcept (I.prim (.construct c) vs s)
    | _ => .stuck
  | .Conditional c t e, s =>
    (evalE env I c s).bind fun (v, s) => if I.truth v s then evalE env I t s else evalE env I e s
  | .Member e m, s =>
    match m with
    | .ClassField f =>
      (evalE env I e s).bind fun (v, s) =>
        if I.isNull v s then .ok (I.onNull s) else .ofExcept (I.prim (.objectField f) [v] s)
    | .StructField f => (evalE env I e s).bind fun (v, s) => .ofExcept (I.prim (.structField f) [v] s)
    | .EnumMember en m => .ofExcept (I.prim (.enumMember en m) [] s)
  | .Call c _ args, s =>
    match c with
    | .Function f =>
      match env.function f with
      | .ok info =>
        (evalArgs env I (calleeOf info false f) none args info.params [] s).bind fun (vs, s) =>
          .ofExcept (I.call (calleeOf info false f) none vs s)
      | .error _ => .stuck
    | .Intrinsic op ret =>
      match intrinsicMeaning op (firstType env args) ret with
      | none => .stuck
      | some o => (evalList env I args s).bind fun (vs, s) => .ofExcept (I.prim o vs s)
  | .MethodCall ctx f args, s =>
    match env.function f with
    | .error _ => .stuck
    | .ok info =>
      if ctx.isTypeName then
        (evalArgs env I (.fixed f) none args info.params [] s).bind fun (vs, s) =>
          .ofExcept (I.call (.fixed f) none vs s)
      else
        (evalE env I ctx s).bind fun (v, s) =>
          if I.isNull v s then .ok (I.onNull s)
          else
            (evalArgs env I (calleeOf info ctx.isSuper f) (some v) args info.params [] s).bind
              fun (vs, s) => .ofExcept (I.call (calleeOf info ctx.isSuper f) (some v) vs s)
  | _, _ => .stuck
/-- The values of operands, left to right. -/
def evalList (env : AsmEnv) (I : Interp V S A) : List TypedExpr → S → Res A (List V × S)
  | [], s => .ok ([], s)
  | e :: es, s =>
    (evalE env I e s).bind fun (v, s) => (evalList env I es s).bind fun (vs, s) => .ok (v :: vs, s)
/-- The values for all parameters, in order: arguments for short-circuit parameters are evaluated on
demand, parameters without arguments are omitted. `acc` are the values so far. -/
def evalArgs (env : AsmEnv) (I : Interp V S A) (callee : Callee) (recv : Option V) :
    List TypedExpr → List ParameterFlags → List (Option V) → S → Res A (List (Option V) × S)
  | [], ps, acc, s => .ok (acc ++ List.replicate ps.length none, s)
  | _ :: _, [], _, _ => .stuck
  | a :: as, p :: ps, acc, s =>
    if flag ParameterFlags.isShortCircuitBit p && !I.demand callee recv acc s then
      evalArgs env I callee recv as ps (acc ++ [none]) s
    else
      (evalE env I a s).bind fun (v, s) => evalArgs env I callee recv as ps (acc ++ [some v]) s
end

/-- How a statement ends. -/
inductive Ending (V S A : Type) where
  | normal (s : S)
  | broke (s : S)
  | returned (v : Option V) (s : S)
  | aborted (a : A)

/-- A `break` ends here. -/
def Ending.catchBreak : Ending V S A → Ending V S A
  | .broke s => .normal s
  | o => o

/-- The case a switch selects: comparing with the matchers in order, the first that matches and the cases
after it; nothing when none matches. -/
def selectCase (env : AsmEnv) (I : Interp V S A) (ty : TypeId) (v : V) :
    List (TypedExpr × List TypedExpr) → S → Res A (List (TypedExpr × List TypedExpr) × S)
  | [], s => .ok ([], s)
  | (m, body) :: cs, s =>
    (evalE env I m s).bind fun (w, s) =>
      if I.matches_ ty v w s then .ok ((m, body) :: cs, s) else selectCase env I ty v cs s

/-- Declaring a local without a value. -/
def runDeclare (env : AsmEnv) (zero : Literal → Text) (I : Interp V S A) (l : Idx) (ty : TypeId) (s : S) : Res A S :=
  match declareEffect env zero ty with
  | .nothing => .ok s
  | .assign op =>
    (Res.ofExcept (I.prim (.getLocal l) [] s)).bind fun (place, s) =>
      (Res.ofExcept (I.prim op [] s)).bind fun (v, s) =>
        (Res.ofExcept (I.prim .assign [place, v] s)).bind fun (_, s) => .ok s
  | .clear ty =>
    (Res.ofExcept (I.prim (.getLocal l) [] s)).bind fun (place, s) =>
      (Res.ofExcept (I.prim (.intrinsic .ArrayClear ty) [place] s)).bind fun (_, s) => .ok s

/-- Expression forms: those with a value. -/
def Expr.isExpression : TypedExpr → Bool
  | .Ident _ | .Constant _ | .Null | .This | .Super | .Cast _ _ | .Assign _ _ | .ArrayElem _ _ | .New _ _
  | .Conditional _ _ _ | .Member _ _ | .Call _ _ _ | .MethodCall _ _ _ => true
  | _ => false

mutual
/-- Running a statement from a state ends with an outcome. Statements that run forever have none. -/
inductive Exec (env : AsmEnv) (zero : Literal → Text) (I : Interp V S A) :
    TypedExpr → S → Ending V S A → Prop
  /-- An expression is evaluated for its effects. -/
  | expr {e : TypedExpr} {s s' : S} {v : V} : e.isExpression = true → evalE env I e s = .ok (v, s') →
      Exec env zero I e s (.normal s')
  | exprAbort {e : TypedExpr} {s : S} {a : A} : e.isExpression = true → evalE env I e s = .abort a →
      Exec env zero I e s (.aborted a)
  /-- `let l = init` assigns the value to the local. -/
  | declareInit {l : Idx} {ty : Option TypeId} {init : TypedExpr} {s : S} {o : Ending V S A} :
      Exec env zero I (.Assign (.Ident (Reference.Value (.Local l))) init) s o →
      Exec env zero I (.Declare l ty (some init)) s o
  /-- `let l: ty` sets the local to the zero value of its type. -/
  | declare {l : Idx} {ty : TypeId} {s s' : S} : runDeclare env zero I l ty s = .ok s' →
      Exec env zero I (.Declare l (some ty) none) s (.normal s')
  | declareAbort {l : Idx} {ty : TypeId} {s : S} {a : A} : runDeclare env zero I l ty s = .abort a →
      Exec env zero I (.Declare l (some ty) none) s (.aborted a)
  | break_ {s : S} : Exec env zero I .Break s (.broke s)
  | returnNone {s : S} : Exec env zero I (.Return none) s (.returned none s)
  | returnSome {e : TypedExpr} {s s' : S} {v : V} : evalE env I e s = .ok (v, s') →
      Exec env zero I (.Return (some e)) s (.returned (some v) s')
  | returnAbort {e : TypedExpr} {s : S} {a : A} : evalE env I e s = .abort a →
      Exec env zero I (.Return (some e)) s (.aborted a)
  | seq {es : List TypedExpr} {s : S} {o : Ending V S A} : ExecAll env zero I es s o →
      Exec env zero I (.Seq es) s o
  | ifAbort {c : TypedExpr} {t : List TypedExpr} {e : Option (List TypedExpr)} {s : S} {a : A} :
      evalE env I c s = .abort a → Exec env zero I (.If c t e) s (.aborted a)
  | ifTrue {c : TypedExpr} {t : List TypedExpr} {e : Option (List TypedExpr)} {s s' : S} {v : V}
      {o : Ending V S A} : evalE env I c s = .ok (v, s') → I.truth v s' = true →
      ExecAll env zero I t s' o → Exec env zero I (.If c t e) s o
  | ifFalse {c : TypedExpr} {t : List TypedExpr} {e : Option (List TypedExpr)} {s s' : S} {v : V}
      {o : Ending V S A} : evalE env I c s = .ok (v, s') → I.truth v s' = false →
      ExecAll env zero I (e.getD []) s' o → Exec env zero I (.If c t e) s o
  | whileAbort {c : TypedExpr} {body : List TypedExpr} {s : S} {a : A} :
      evalE env I c s = .abort a → Exec env zero I (.While c body) s (.aborted a)
  | whileEnd {c : TypedExpr} {body : List TypedExpr} {s s' : S} {v : V} :
      evalE env I c s = .ok (v, s') → I.truth v s' = false →
      Exec env zero I (.While c body) s (.normal s')
  /-- The body completes and the loop goes on. -/
  | whileNext {c : TypedExpr} {body : List TypedExpr} {s s' s'' : S} {v : V} {o : Ending V S A} :
      evalE env I c s = .ok (v, s') → I.truth v s' = true → ExecAll env zero I body s' (.normal s'') →
      Exec env zero I (.While c body) s'' o → Exec env zero I (.While c body) s o
  /-- The body breaks, returns or aborts. -/
  | whileLeave {c : TypedExpr} {body : List TypedExpr} {s s' : S} {v : V} {o : Ending V S A} :
      evalE env I c s = .ok (v, s') → I.truth v s' = true → ExecAll env zero I body s' o →
      (∀ s'', o ≠ .normal s'') → Exec env zero I (.While c body) s o.catchBreak
  | switchAbort {e : TypedExpr} {cases : List (TypedExpr × List TypedExpr)} {dflt : Option (List TypedExpr)}
      {s : S} {a : A} : evalE env I e s = .abort a → Exec env zero I (.Switch e cases dflt) s (.aborted a)
  | switchSelectAbort {e : TypedExpr} {cases : List (TypedExpr × List TypedExpr)}
      {dflt : Option (List TypedExpr)} {ty : TypeId} {s s' : S} {v : V} {a : A} :
      env.typeOf e = .ok ty → evalE env I e s = .ok (v, s') → selectCase env I ty v cases s' = .abort a →
      Exec env zero I (.Switch e cases dflt) s (.aborted a)
  /-- The bodies from the first matching case on are run in sequence, the default last. -/
  | switch {e : TypedExpr} {cases rest : List (TypedExpr × List TypedExpr)}
      {dflt : Option (List TypedExpr)} {ty : TypeId} {s s' s'' : S} {v : V} {o : Ending V S A} :
      env.typeOf e = .ok ty → evalE env I e s = .ok (v, s') →
      selectCase env I ty v cases s' = .ok (rest, s'') →
      ExecAll env zero I (rest.flatMap (·.2) ++ dflt.getD []) s'' o →
      Exec env zero I (.Switch e cases dflt) s o.catchBreak
/-- Running statements one after the other. -/
inductive ExecAll (env : AsmEnv) (zero : Literal → Text) (I : Interp V S A) :
    List TypedExpr → S → Ending V S A → Prop
  | nil {s : S} : ExecAll env zero I [] s (.normal s)
  | next {e : TypedExpr} {es : List TypedExpr} {s s' : S} {o : Ending V S A} :
      Exec env zero I e s (.normal s') → ExecAll env zero I es s' o → ExecAll env zero I (e :: es) s o
  | stop {e : TypedExpr} {es : List TypedExpr} {s : S} {o : Ending V S A} :
      Exec env zero I e s o → (∀ s', o ≠ .normal s') → ExecAll env zero I (e :: es) s o
end

end

end Redscript
