import Verif.Unit.RefModel

/-!
# Reordering of classes (model)

Model of `cleanup_pool` (compiler/src/unit.rs:1132-1208), which moves classes that are stored before their base
classes. Sets of indexes are strictly ascending lists, as `BTreeSet` iterates them. The loops are bounded by
fuel; running out of it stands for a loop that does not end.
-/

namespace Redscript

/-- How the function can fail. -/
inductive CleanupErr where
  | diverges
  | panic
  deriving DecidableEq, Repr

/-- `BTreeSet::insert`. -/
def setInsert (x : Idx) : List Idx → List Idx
  | [] => [x]
  | y :: ys => if x.toNat < y.toNat then x :: y :: ys else if x = y then y :: ys else y :: setInsert x ys

/-- `AnyDefinition::as_class` -/
def AnyDefinition.asClass : AnyDefinition → Option ClassDef
  | .Class c => some c
  | _ => none

/-- `pool.class(i)` (core/src/bundle.rs:295-297), of which only the base is used; nothing when the index is not
that of a class. -/
def ConstantPool.baseOf (p : ConstantPool) (i : Idx) : Option Idx := (p.definitionBy AnyDefinition.asClass i).map (·.base)

/-- The entry of a class in `hierarchy` (compiler/src/unit.rs:1147-1154): the classes with this base, in the
order of the pool. -/
def ConstantPool.subclasses (p : ConstantPool) (b : Idx) : List Idx :=
  p.indexed.filterMap fun (i, d) =>
    match d.value with
    | .Class c => if c.base ≠ 0 ∧ c.base = b then some i else none
    | _ => none

/-- `collect_subtypes` (compiler/src/unit.rs:1135-1144). -/
def collectSubtypes (p : ConstantPool) : Nat → Idx → List Idx → Except CleanupErr (List Idx)
  | 0, _, _ => .error .diverges
  | fuel + 1, i, acc => (p.subclasses i).foldlM (fun acc s => collectSubtypes p fuel s acc) (setInsert i acc)

/-- The first loop upwards (compiler/src/unit.rs:1160-1166). -/
def climbPast (p : ConstantPool) (x : Idx) : Nat → Idx → Except CleanupErr Idx
  | 0, _ => .error .diverges
  | fuel + 1, cur =>
    match p.baseOf cur with
    | some b => if x.toNat < b.toNat then climbPast p x fuel b else .ok cur
    | none => .ok cur

/-- The second loop upwards (compiler/src/unit.rs:1176-1183). -/
def climbOutside (p : ConstantPool) (min : Idx) (unsorted : List Idx) : Nat → Idx → Except CleanupErr Idx
  | 0, _ => .error .diverges
  | fuel + 1, cur =>
    match p.baseOf cur with
    | some b => if min.toNat < b.toNat ∧ ¬ b ∈ unsorted then climbOutside p min unsorted fuel b else .ok cur
    | none => .ok cur

/-- The body of the first pass (compiler/src/unit.rs:1159-1170). -/
def firstPass (p : ConstantPool) (fuel : Nat) (acc : List Idx) (x : Idx) : Except CleanupErr (List Idx) := do
  let cur ← climbPast p x fuel x
  if cur ≠ x then collectSubtypes p fuel cur acc else .ok acc

/-- The body of the second pass (compiler/src/unit.rs:1175-1187). -/
def secondPass (p : ConstantPool) (fuel : Nat) (min : Idx) (acc : List Idx) (x : Idx) : Except CleanupErr (List Idx) := do
  let cur ← climbOutside p min acc fuel x
  if cur ≠ x then collectSubtypes p fuel cur acc else .ok acc

/-- The set of classes to be moved (compiler/src/unit.rs:1156-1188). -/
def unsortedClasses (p : ConstantPool) (fuel : Nat) : Except CleanupErr (List Idx) := do
  let unsorted ← (p.indexed.map (·.1)).foldlM (firstPass p fuel) []
  match unsorted with
  | [] => .ok []
  | min :: _ => unsorted.foldlM (secondPass p fuel min) unsorted

/-- `collect_supertypes` (compiler/src/typechecker.rs:795-807), of which only the length is used. -/
def supertypeCount (p : ConstantPool) : Nat → Idx → Except CleanupErr Nat
  | 0, _ => .error .diverges
  | fuel + 1, i =>
    if i = 0 then .ok 0
    else
      match p.baseOf i with
      | none => .error .panic
      | some b => do
        let n ← supertypeCount p fuel b
        .ok (n + 1)

/-- `sorted` (compiler/src/unit.rs:1190-1192), a stable sort. -/
def sortedClasses (p : ConstantPool) (fuel : Nat) (unsorted : List Idx) : Except CleanupErr (List Idx) := do
  let keyed ← unsorted.mapM fun i => do
    let n ← supertypeCount p fuel i
    .ok (n, i)
  .ok ((keyed.mergeSort fun a b => decide (a.1 ≤ b.1)).map (·.2))

/-- `pool.definition(k).unwrap().clone()` (compiler/src/unit.rs:1195). -/
def cloneDef (p : ConstantPool) (i : Idx) : Except CleanupErr Definition :=
  match p.definition i with
  | some d => .ok d
  | none => .error .panic

/-- `pool.put_definition(*target, def)` (compiler/src/unit.rs:1199). -/
def putClass (p : ConstantPool) (x : Definition × Idx) : Except CleanupErr ConstantPool :=
  match p.putDefinition x.2 x.1 with
  | .ok p => .ok p
  | .error _ => .error .panic

/-- `collect` into a hash map. -/
def AMap.ofPairs [DecidableEq K] (l : List (K × V)) : AMap K V := l.foldl (fun m kv => m.insert kv.1 kv.2) .empty

/-- `cleanup_pool` (compiler/src/unit.rs:1134-1208). The last argument are the source references. -/
def cleanupPool (fuel : Nat) (p : ConstantPool) (refs : List SourceRef) :
    Except CleanupErr (ConstantPool × List SourceRef) := do
  let unsorted ← unsortedClasses p fuel
  let sorted ← sortedClasses p fuel unsorted
  let definitions ← sorted.mapM (cloneDef p)
  let p ← (definitions.zip unsorted).foldlM putClass p
  if unsorted = [] then .ok (p, refs)
  else
    let mapper := multiMap (AMap.ofPairs (sorted.zip unsorted))
    .ok (p.mapRefs mapper id, refs.map (·.move mapper))

end Redscript
