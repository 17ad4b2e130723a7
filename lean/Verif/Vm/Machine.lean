import Verif.Vm.Source

/-!
# The virtual machine (specification)

What running a code body does. The game's virtual machine is not part of the repository; this
specification follows how the decompiler (decompiler/src/lib.rs:112-200, 206-449) reads the same
instructions, and is part of the trusted base of C26 to C29.

A body is read as a memory: the instruction that starts at each position, with its jump operands made
absolute. Expressions are read by recursive descent. All functions take fuel and return `none` when it
runs out.
-/

namespace Redscript

/-- The instruction that starts at position `pc` of a body whose first instruction is at `start`. -/
def instrAt (pc : Location) : Location → List (Instr Offset) → Option (Instr Offset)
  | _, [] => none
  | start, i :: is => if start = pc then some i else instrAt pc (start + i.size) is

/-- The instruction at a position, with absolute jump operands. -/
def fetch (code : List (Instr Offset)) (pc : Location) : Option (Instr Location) :=
  (instrAt pc 0 code).map fun i => i.mapLoc fun o => o.absolute pc

/-- What the operands of the pool mean to the machine: the type and the texts stored at an index. -/
structure PoolView where
  ty : Idx → TypeId
  text : Literal → Idx → Text

/-- Instructions that perform an operation on a number of operands that follow them. -/
def opOf (P : PoolView) : Instr Location → Option (Op × Nat)
  | .Null => some (.null, 0)
  | .WeakRefNull => some (.weakNull, 0)
  | .I32One => some (.const (.I32 1), 0)
  | .I32Zero => some (.const (.I32 0), 0)
  | .I8Const v => if v = 0 then some (.int8Zero, 0) else none
  | .I16Const v => if v = 0 then some (.int16Zero, 0) else none
  | .U8Const v => if v = 0 then some (.uint8Zero, 0) else none
  | .U16Const v => if v = 0 then some (.uint16Zero, 0) else none
  | .I32Const v => some (.const (.I32 v), 0)
  | .I64Const v => some (.const (.I64 v), 0)
  | .U32Const v => some (.const (.U32 v), 0)
  | .U64Const v => some (.const (.U64 v), 0)
  | .F32Const v => some (.const (.F32 v), 0)
  | .F64Const v => some (.const (.F64 v), 0)
  | .StringConst i => some (.const (.String .String (P.text .String i)), 0)
  | .NameConst i => some (.const (.String .Name (P.text .Name i)), 0)
  | .TweakDbIdConst i => some (.const (.String .TweakDbId (P.text .TweakDbId i)), 0)
  | .ResourceConst i => some (.const (.String .Resource (P.text .Resource i)), 0)
  | .TrueConst => some (.const (.Bool true), 0)
  | .FalseConst => some (.const (.Bool false), 0)
  | .EnumConst e m => some (.enumMember e m, 0)
  | .Assign => some (.assign, 2)
  | .Local l => some (.getLocal l, 0)
  | .Param p => some (.getParam p, 0)
  | .This => some (.this, 0)
  | .New c => some (.newObject c, 0)
  | .Construct n c => some (.construct c, n.toNat)
  | .StructField f => some (.structField f, 1)
  | .DynamicCast c _ => some (.cast c, 1)
  | .ArrayElement t => some (.element (P.ty t), 2)
  | .StaticArrayElement t => some (.element (P.ty t), 2)
  | .Equals t => some (.intrinsic .Equals (P.ty t), 2)
  | .NotEquals t => some (.intrinsic .NotEquals (P.ty t), 2)
  | .ArrayClear t => some (.intrinsic .ArrayClear (P.ty t), 1)
  | .ArraySize t => some (.intrinsic .ArraySize (P.ty t), 1)
  | .ArrayResize t => some (.intrinsic .ArrayResize (P.ty t), 2)
  | .ArrayFindFirst t => some (.intrinsic .ArrayFindFirst (P.ty t), 2)
  | .ArrayFindLast t => some (.intrinsic .ArrayFindLast (P.ty t), 2)
  | .ArrayContains t => some (.intrinsic .ArrayContains (P.ty t), 2)
  | .ArrayCount t => some (.intrinsic .ArrayCount (P.ty t), 2)
  | .ArrayPush t => some (.intrinsic .ArrayPush (P.ty t), 2)
  | .ArrayPop t => some (.intrinsic .ArrayPop (P.ty t), 1)
  | .ArrayInsert t => some (.intrinsic .ArrayInsert (P.ty t), 3)
  | .ArrayRemove t => some (.intrinsic .ArrayRemove (P.ty t), 2)
  | .ArrayGrow t => some (.intrinsic .ArrayGrow (P.ty t), 2)
  | .ArrayErase t => some (.intrinsic .ArrayErase (P.ty t), 2)
  | .ArrayLast t => some (.intrinsic .ArrayLast (P.ty t), 1)
  | .ArraySort t => some (.intrinsic .ArraySort (P.ty t), 1)
  | .ArraySortByPredicate t => some (.intrinsic .ArraySortByPredicate (P.ty t), 2)
  | .ToString t => some (.intrinsic .ToString (P.ty t), 1)
  | .VariantToString => some (.intrinsic .ToString .Variant, 1)
  | .EnumToI32 t n => if n = 4 then some (.intrinsic .EnumInt (P.ty t), 1) else none
  | .I32ToEnum t n => if n = 4 then some (.intrinsic .IntEnum (P.ty t), 1) else none
  | .ToVariant t => some (.intrinsic .ToVariant (P.ty t), 1)
  | .FromVariant t => some (.intrinsic .FromVariant (P.ty t), 1)
  | .VariantIsRef => some (.untyped .VariantIsRef, 1)
  | .VariantIsArray => some (.untyped .VariantIsArray, 1)
  | .VariantTypeName => some (.untyped .VariantTypeName, 1)
  | .RefToWeakRef => some (.untyped .RefToWeakRef, 1)
  | .WeakRefToRef => some (.untyped .WeakRefToRef, 1)
  | .AsRef t => some (.intrinsic .AsRef (P.ty t), 1)
  | .Deref t => some (.intrinsic .Deref (P.ty t), 1)
  | .RefToBool => some (.isDefined .ref, 1)
  | .WeakRefToBool => some (.isDefined .weakRef, 1)
  | .VariantIsDefined => some (.isDefined .variant, 1)
  | _ => none

/-- The kinds of instructions that begin an expression. -/
inductive ExprKind where
  | conditional (onFalse exit : Location)
  | context (exit : Location)
  | objectField (f : Idx)
  | invoke (exit : Location) (callee : Callee)
  | op (o : Op) (operands : Nat)
  | other

/-- How expressions are read (decompiler/src/lib.rs:206-449). -/
def exprKind (P : PoolView) : Instr Location → ExprKind
  | .Conditional onFalse exit => .conditional onFalse exit
  | .Context exit => .context exit
  | .ObjectField f => .objectField f
  | .InvokeStatic exit _ f _ => .invoke exit (.fixed f)
  | .InvokeVirtual exit _ name _ => .invoke exit (.dispatched name)
  | i =>
    match opOf P i with
    | some (o, k) => .op o k
    | none => .other

/-- The kinds of instructions between the parameters of a call. -/
inductive ParamKind where
  | paramEnd
  | omitted
  | skip (behind : Location)
  | value

/-- How parameters are read (decompiler/src/lib.rs:97-110, 366-371). -/
def paramKind : Instr Location → ParamKind
  | .ParamEnd => .paramEnd
  | .Nop => .omitted
  | .Skip behind => .skip behind
  | _ => .value

/-- The kinds of instructions that begin a statement. -/
inductive StmtKind where
  | nop
  | jump (to : Location)
  | jumpIfFalse (to : Location)
  | switch (ty : Idx) (first : Location)
  | label (next body : Location)
  | ret
  | expression

/-- How statements are read (decompiler/src/lib.rs:112-200, 211-243). -/
def stmtKind : Instr Location → StmtKind
  | .Nop => .nop
  | .SwitchDefault => .nop
  | .Jump to => .jump to
  | .JumpIfFalse to => .jumpIfFalse to
  | .Switch ty first => .switch ty first
  | .SwitchLabel next body => .label next body
  | .Return => .ret
  | _ => .expression

section
variable {V S A : Type}

/-- Continue a fuelled computation. -/
def Fuelled.bind (r : Option (Res A α)) (k : α → Option (Res A β)) : Option (Res A β) :=
  match r with
  | none => none
  | some (.ok a) => k a
  | some (.abort a) => some (.abort a)
  | some .stuck => some .stuck

mutual
/-- Evaluate the expression at `pc`: its value, the position after it and the state. `recv` is the
object of an enclosing `Context`. -/
def vmExpr (mem : Location → Option (Instr Location)) (P : PoolView) (I : Interp V S A) :
    Nat → Option V → Location → S → Option (Res A (V × Location × S))
  | 0, _, _, _ => none
  | fuel + 1, recv, pc, s =>
    match mem pc with
    | none => some .stuck
    | some i =>
      match exprKind P i with
      | .conditional onFalse exit =>
        -- the condition, then one of the branches; both end at `exit`
        Fuelled.bind (vmExpr mem P I fuel none (pc + i.size) s) fun (v, pc, s) =>
          Fuelled.bind (vmExpr mem P I fuel none (if I.truth v s then pc else onFalse) s) fun (v, _, s) =>
            some (.ok (v, exit, s))
      | .context exit =>
        -- the object, then the member; the member is skipped for null
        Fuelled.bind (vmExpr mem P I fuel none (pc + i.size) s) fun (v, pc, s) =>
          if I.isNull v s then some (.ok ((I.onNull s).1, exit, (I.onNull s).2))
          else vmExpr mem P I fuel (some v) pc s
      | .objectField f =>
        match recv with
        | some v => some ((Res.ofExcept (I.prim (.objectField f) [v] s)).bind fun (v, s) => .ok (v, pc + i.size, s))
        | none => some .stuck
      | .invoke exit callee =>
        -- the parameters, then the call, at the end of the call
        Fuelled.bind (vmParams mem P I fuel callee recv [] (pc + i.size) s) fun (vs, pc, s) =>
          if pc = exit then
            some ((Res.ofExcept (I.call callee recv vs s)).bind fun (v, s) => .ok (v, pc, s))
          else some .stuck
      | .op o k =>
        Fuelled.bind (vmOperands mem P I fuel k (pc + i.size) s) fun (vs, pc, s) =>
          some ((Res.ofExcept (I.prim o vs s)).bind fun (v, s) => .ok (v, pc, s))
      | .other => some .stuck
/-- Evaluate `k` operands one after the other. -/
def vmOperands (mem : Location → Option (Instr Location)) (P : PoolView) (I : Interp V S A) :
    Nat → Nat → Location → S → Option (Res A (List V × Location × S))
  | 0, _, _, _ => none
  | _ + 1, 0, pc, s => some (.ok ([], pc, s))
  | fuel + 1, k + 1, pc, s =>
    Fuelled.bind (vmExpr mem P I fuel none pc s) fun (v, pc, s) =>
      Fuelled.bind (vmOperands mem P I fuel k pc s) fun (vs, pc, s) => some (.ok (v :: vs, pc, s))
/-- Read the parameters of a call up to the end marker: `Nop` is an omitted parameter, `Skip` precedes a
parameter the callee may not demand. -/
def vmParams (mem : Location → Option (Instr Location)) (P : PoolView) (I : Interp V S A) :
    Nat → Callee → Option V → List (Option V) → Location → S → Option (Res A (List (Option V) × Location × S))
  | 0, _, _, _, _, _ => none
  | fuel + 1, callee, recv, acc, pc, s =>
    match mem pc with
    | none => some .stuck
    | some i =>
      match paramKind i with
      | .paramEnd => some (.ok (acc, pc + i.size, s))
      | .omitted => vmParams mem P I fuel callee recv (acc ++ [none]) (pc + i.size) s
      | .skip behind =>
        if I.demand callee recv acc s then
          Fuelled.bind (vmExpr mem P I fuel none (pc + i.size) s) fun (v, pc, s) =>
            vmParams mem P I fuel callee recv (acc ++ [some v]) pc s
        else vmParams mem P I fuel callee recv (acc ++ [none]) behind s
      | .value =>
        Fuelled.bind (vmExpr mem P I fuel none pc s) fun (v, pc, s) =>
          vmParams mem P I fuel callee recv (acc ++ [some v]) pc s
end

/-- How running a body ends. -/
inductive Final (V S A : Type) where
  /-- The end of the code is reached. -/
  | ended (s : S)
  | returned (v : Option V) (s : S)
  | aborted (a : A)
  | stuck

/-- Use the result of an expression in a run. -/
def Run.eval (r : Option (Res A α)) (k : α → Option (Final V S A)) : Option (Final V S A) :=
  match r with
  | none => none
  | some (.ok a) => k a
  | some (.abort a) => some (.aborted a)
  | some .stuck => some .stuck

/-- Whether what follows a `Return` says that there is no value. -/
def returnsNothing : Option (Instr Location) → Bool
  | some .Nop => true
  | _ => false

mutual
/-- Run from position `pc`. -/
def vmRun (mem : Location → Option (Instr Location)) (P : PoolView) (I : Interp V S A) :
    Nat → Location → S → Option (Final V S A)
  | 0, _, _ => none
  | fuel + 1, pc, s =>
    match mem pc with
    | none => some (.ended s)
    | some i =>
      match stmtKind i with
      | .nop => vmRun mem P I fuel (pc + i.size) s
      | .jump to => vmRun mem P I fuel to s
      | .jumpIfFalse to =>
        Run.eval (vmExpr mem P I fuel none (pc + i.size) s) fun (v, pc, s) =>
          vmRun mem P I fuel (if I.truth v s then pc else to) s
      | .switch ty first =>
        Run.eval (vmExpr mem P I fuel none (pc + i.size) s) fun (v, _, s) =>
          vmDispatch mem P I fuel (P.ty ty) v first s
      -- reached by falling through from the case before
      | .label _ body => vmRun mem P I fuel body s
      | .ret =>
        if returnsNothing (mem (pc + i.size)) then some (.returned none s)
        else Run.eval (vmExpr mem P I fuel none (pc + i.size) s) fun (v, _, s) => some (.returned (some v) s)
      | .expression => Run.eval (vmExpr mem P I fuel none pc s) fun (_, pc, s) => vmRun mem P I fuel pc s
/-- Find the case for a value: the labels form a chain that ends at the first position that is not a
label. -/
def vmDispatch (mem : Location → Option (Instr Location)) (P : PoolView) (I : Interp V S A) :
    Nat → TypeId → V → Location → S → Option (Final V S A)
  | 0, _, _, _, _ => none
  | fuel + 1, ty, v, pc, s =>
    match mem pc with
    | none => vmRun mem P I fuel pc s
    | some i =>
      match stmtKind i with
      | .label next body =>
        Run.eval (vmExpr mem P I fuel none (pc + i.size) s) fun (w, _, s) =>
          if I.matches_ ty v w s then vmRun mem P I fuel body s else vmDispatch mem P I fuel ty v next s
      | _ => vmRun mem P I fuel pc s
end

/-- Running a body from its beginning. -/
def runBody (code : List (Instr Offset)) (P : PoolView) (I : Interp V S A) (fuel : Nat) (s : S) :
    Option (Final V S A) :=
  vmRun (fetch code) P I fuel 0 s

end

end Redscript
