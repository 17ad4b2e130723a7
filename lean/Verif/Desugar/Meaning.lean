import Verif.Vm.Sim

/-!
# What sugar means (specification)

The meaning of typed bodies of `Verif.Vm.Source`, extended by array literals, interpolated strings and
loops over arrays. It is part of the trusted base of C30 to C32. It is written without reference to
desugaring: a literal is built where it stands, when its turn comes.
-/

namespace Redscript

/-- What is needed to say what sugar means. -/
structure Sugar (V S : Type) where
  /-- The array of an element type with these elements. -/
  array : TypeId → List V → V
  /-- The content of a value: of the variable if the value is one, else the value. -/
  load : V → S → V
  /-- The elements of an array. -/
  items : V → List V
  /-- The string of a text. -/
  string : Text → V
  /-- The types that are texts already: `String` and `script_ref<String>`. -/
  isText : TypeId → Bool
  /-- The text of a value of such a type. -/
  text : V → S → Text
  /-- The text for a value of another type. -/
  shown : TypeId → V → S → Text

/-- The text for a value of a type. -/
def Sugar.format (U : Sugar V S) (ty : TypeId) (v : V) (s : S) : Text :=
  if U.isText ty then U.text v s else U.shown ty v s

section
variable {V S A : Type}

mutual
/-- The value of an expression: `evalE` with array literals and interpolated strings. -/
def evalS (env : AsmEnv) (I : Interp V S A) (U : Sugar V S) : TypedExpr → S → Res A (V × S)
  | .Ident r, s =>
    match r with
    | .Value (.Local l) => .ofExcept (I.prim (.getLocal l) [] s)
    | .Value (.Parameter p) => .ofExcept (I.prim (.getParam p) [] s)
    | _ => .stuck
  | .Constant c, s => .ofExcept (I.prim (.const c) [] s)
  | .Null, s => .ofExcept (I.prim .null [] s)
  | .This, s => .ofExcept (I.prim .this [] s)
  | .Super, s => .ofExcept (I.prim .this [] s)
  /- The elements are evaluated in order; each is read before the next is evaluated. -/
  | .ArrayLit es ty, s =>
    match ty with
    | some ty => (evalElems env I U es s).bind fun (vs, s) => .ok (U.array ty vs, s)
    | none => .stuck
  /- The parts are evaluated in order; the text of each is taken before the next is evaluated. -/
  | .InterpolatedString start parts, s =>
    (evalParts env I U parts s).bind fun (t, s) => .ok (U.string (start ++ t), s)
  | .Cast ty e, s =>
    match ty with
    | .Class c => (evalS env I U e s).bind fun (v, s) => .ofExcept (I.prim (.cast c) [v] s)
    | _ => .stuck
  | .Assign lhs rhs, s =>
    (evalS env I U lhs s).bind fun (l, s) => (evalS env I U rhs s).bind fun (r, s) =>
      .ofExcept (I.prim .assign [l, r] s)
  | .ArrayElem e i, s =>
    match env.typeOf e with
    | .ok ty =>
      (evalS env I U e s).bind fun (a, s) => (evalS env I U i s).bind fun (i, s) =>
        .ofExcept (I.prim (.element ty) [a, i] s)
    | .error _ => .stuck
  | .New ty args, s =>
    match ty with
    | .Class c => if args.isEmpty then .ofExcept (I.prim (.newObject c) [] s) else .stuck
    | .Struct c => (evalSList env I U args s).bind fun (vs, s) => .ofExcept (I.prim (.construct c) vs s)
    | _ => .stuck
  | .Conditional c t e, s =>
    (evalS env I U c s).bind fun (v, s) => if I.truth v s then evalS env I U t s else evalS env I U e s
  | .Member e m, s =>
    match m with
    | .ClassField f =>
      (evalS env I U e s).bind fun (v, s) =>
        if I.isNull v s then .ok (I.onNull s) else .ofExcept (I.prim (.objectField f) [v] s)
    | .StructField f => (evalS env I U e s).bind fun (v, s) => .ofExcept (I.prim (.structField f) [v] s)
    | .EnumMember en m => .ofExcept (I.prim (.enumMember en m) [] s)
  | .Call c _ args, s =>
    match c with
    | .Function f =>
      match env.function f with
      | .ok info =>
        (evalSArgs env I U (calleeOf info false f) none args info.params [] s).bind fun (vs, s) =>
          .ofExcept (I.call (calleeOf info false f) none vs s)
      | .error _ => .stuck
    | .Intrinsic op ret =>
      match intrinsicMeaning op (firstType env args) ret with
      | none => .stuck
      | some o => (evalSList env I U args s).bind fun (vs, s) => .ofExcept (I.prim o vs s)
  | .MethodCall ctx f args, s =>
    match env.function f with
    | .error _ => .stuck
    | .ok info =>
      if ctx.isTypeName then
        (evalSArgs env I U (.fixed f) none args info.params [] s).bind fun (vs, s) =>
          .ofExcept (I.call (.fixed f) none vs s)
      else
        (evalS env I U ctx s).bind fun (v, s) =>
          if I.isNull v s then .ok (I.onNull s)
          else
            (evalSArgs env I U (calleeOf info ctx.isSuper f) (some v) args info.params [] s).bind
              fun (vs, s) => .ofExcept (I.call (calleeOf info ctx.isSuper f) (some v) vs s)
  | _, _ => .stuck
/-- The values of operands, left to right. -/
def evalSList (env : AsmEnv) (I : Interp V S A) (U : Sugar V S) : List TypedExpr → S → Res A (List V × S)
  | [], s => .ok ([], s)
  | e :: es, s =>
    (evalS env I U e s).bind fun (v, s) => (evalSList env I U es s).bind fun (vs, s) => .ok (v :: vs, s)
/-- The contents of the elements of a literal, left to right. -/
def evalElems (env : AsmEnv) (I : Interp V S A) (U : Sugar V S) : List TypedExpr → S → Res A (List V × S)
  | [], s => .ok ([], s)
  | e :: es, s =>
    (evalS env I U e s).bind fun (v, s) => (evalElems env I U es s).bind fun (vs, s') => .ok (U.load v s :: vs, s')
/-- The text of the parts of an interpolated string, left to right. -/
def evalParts (env : AsmEnv) (I : Interp V S A) (U : Sugar V S) : List (TypedExpr × Text) → S → Res A (Text × S)
  | [], s => .ok ([], s)
  | (e, text) :: ps, s =>
    match env.typeOf e with
    | .ok ty =>
      (evalS env I U e s).bind fun (v, s) => (evalParts env I U ps s).bind fun (t, s') =>
        .ok (U.format ty v s ++ text ++ t, s')
    | .error _ => .stuck
/-- The values for all parameters, in order, as for `evalArgs`. -/
def evalSArgs (env : AsmEnv) (I : Interp V S A) (U : Sugar V S) (callee : Callee) (recv : Option V) :
    List TypedExpr → List ParameterFlags → List (Option V) → S → Res A (List (Option V) × S)
  | [], ps, acc, s => .ok (acc ++ List.replicate ps.length none, s)
  | _ :: _, [], _, _ => .stuck
  | a :: as, p :: ps, acc, s =>
    if flag ParameterFlags.isShortCircuitBit p && !I.demand callee recv acc s then
      evalSArgs env I U callee recv as ps (acc ++ [none]) s
    else
      (evalS env I U a s).bind fun (v, s) => evalSArgs env I U callee recv as ps (acc ++ [some v]) s
end

/-- Assigning a value to a local. -/
def assignLocal (I : Interp V S A) (l : Idx) (x : V) (s : S) : Res A S :=
  (Res.ofExcept (I.prim (.getLocal l) [] s)).bind fun (place, s) =>
    (Res.ofExcept (I.prim .assign [place, x] s)).bind fun (_, s) => .ok s

/-- Evaluating something for its effects. -/
def Effected (r : Res A S) (o : Ending V S A) : Prop :=
  (∃ s, r = .ok s ∧ o = .normal s) ∨ ∃ a, r = .abort a ∧ o = .aborted a

/-- Something that uses the value of an expression. -/
def Using (r : Res A (V × S)) (k : V → S → Ending V S A → Prop) (o : Ending V S A) : Prop :=
  (∃ v s, r = .ok (v, s) ∧ k v s o) ∨ ∃ a, r = .abort a ∧ o = .aborted a

/-- One after the other. -/
def Then (B C : S → Ending V S A → Prop) (s : S) (o : Ending V S A) : Prop :=
  (∃ s', B s (.normal s') ∧ C s' o) ∨ (B s o ∧ ∀ s', o ≠ .normal s')

/-- Something is done for each element, in order. A `break` ends this. -/
def Visit (step : V → S → Ending V S A → Prop) : List V → S → Ending V S A → Prop
  | [], s, o => o = .normal s
  | x :: xs, s, o =>
    (∃ s', step x s (.normal s') ∧ Visit step xs s' o) ∨
      ∃ o', step x s o' ∧ (∀ s', o' ≠ .normal s') ∧ o = o'.catchBreak

/-- Expression forms, with sugar. -/
def Expr.isExpressionS : TypedExpr → Bool
  | .ArrayLit _ _ | .InterpolatedString _ _ => true
  | e => e.isExpression

mutual
/-- Running a statement from a state ends with an outcome: `Exec` with sugar. `while` is `Loop`. -/
def Runs (env : AsmEnv) (zero : Literal → Text) (I : Interp V S A) (U : Sugar V S) :
    TypedExpr → S → Ending V S A → Prop
  | .Declare l ty init, s, o =>
    match init, ty with
    | some init, _ =>
      Effected ((evalS env I U (.Assign (.Ident (Reference.Value (.Local l))) init) s).bind fun (_, s) => .ok s) o
    | none, some ty => Effected (runDeclare env zero I l ty s) o
    | none, none => False
  | .Break, s, o => o = .broke s
  | .Return e, s, o =>
    match e with
    | none => o = .returned none s
    | some e => Using (evalS env I U e s) (fun v s o => o = .returned (some v) s) o
  | .Seq es, s, o => RunsAll env zero I U es s o
  | .If c t e, s, o =>
    Using (evalS env I U c s)
      (fun v s o => (I.truth v s = true ∧ RunsAll env zero I U t s o) ∨ (I.truth v s = false ∧ RunsOpt env zero I U e s o)) o
  | .While c body, s, o => Loop I (evalS env I U c) (RunsAll env zero I U body) s o
  /- The array is evaluated once. The body runs for each element the array has then. -/
  | .ForIn x array body, s, o =>
    Using (evalS env I U array s)
      (fun v s o => Visit (fun y => Then (fun s o => Effected (assignLocal I x y s) o) (RunsAll env zero I U body))
        (U.items (U.load v s)) s o) o
  | .Switch e cases dflt, s, o =>
    match env.typeOf e with
    | .error _ => False
    | .ok ty => ∃ o', o = o'.catchBreak ∧ Using (evalS env I U e s)
      (fun v s o => RunsSwitch env zero I U ty v (RunsOpt env zero I U dflt) cases s o) o'
  | .ArrayLit es ty, s, o => Effected ((evalS env I U (.ArrayLit es ty) s).bind fun (_, s) => .ok s) o
  | .InterpolatedString t ps, s, o => Effected ((evalS env I U (.InterpolatedString t ps) s).bind fun (_, s) => .ok s) o
  | e, s, o => e.isExpression = true ∧ Effected ((evalS env I U e s).bind fun (_, s) => .ok s) o
/-- Running statements one after the other. -/
def RunsAll (env : AsmEnv) (zero : Literal → Text) (I : Interp V S A) (U : Sugar V S) :
    List TypedExpr → S → Ending V S A → Prop
  | [], s, o => o = .normal s
  | e :: es, s, o => Then (Runs env zero I U e) (RunsAll env zero I U es) s o
/-- Running the statements if there are some. -/
def RunsOpt (env : AsmEnv) (zero : Literal → Text) (I : Interp V S A) (U : Sugar V S) :
    Option (List TypedExpr) → S → Ending V S A → Prop
  | none, s, o => o = .normal s
  | some es, s, o => RunsAll env zero I U es s o
/-- Comparing the value of a switch with the matchers in order; from the first that matches on the bodies
are run, then the default. -/
def RunsSwitch (env : AsmEnv) (zero : Literal → Text) (I : Interp V S A) (U : Sugar V S) (ty : TypeId) (v : V)
    (dflt : S → Ending V S A → Prop) : List (TypedExpr × List TypedExpr) → S → Ending V S A → Prop
  | [], s, o => dflt s o
  | (m, body) :: cs, s, o =>
    Using (evalS env I U m s) (fun w s o =>
      (I.matches_ ty v w s = true ∧ Then (RunsAll env zero I U body) (RunsBodies env zero I U dflt cs) s o) ∨
        (I.matches_ ty v w s = false ∧ RunsSwitch env zero I U ty v dflt cs s o)) o
/-- The bodies of the cases, then the default. -/
def RunsBodies (env : AsmEnv) (zero : Literal → Text) (I : Interp V S A) (U : Sugar V S)
    (dflt : S → Ending V S A → Prop) : List (TypedExpr × List TypedExpr) → S → Ending V S A → Prop
  | [], s, o => dflt s o
  | (_, body) :: cs, s, o => Then (RunsAll env zero I U body) (RunsBodies env zero I U dflt cs) s o
end

end

end Redscript
