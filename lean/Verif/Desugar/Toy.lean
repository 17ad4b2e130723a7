import Verif.Desugar.ForIn

/-!
# A world in which the laws hold

Used to show that the hypotheses of the theorems about desugaring can be met, and for counterexamples.
-/

namespace Redscript.Toy

/-- Contents of variables. -/
inductive Base where
  | const (c : Constant)
  | array (t : TypeId) (vs : List Base)
  | object (n : Nat)

/-- Values: contents or variables. -/
inductive Val where
  | val (b : Base)
  | place (l : Idx)

/-- A counter and the contents of the variables. -/
structure State where
  count : Nat
  vars : Idx → Base

def Val.content (s : State) : Val → Base
  | .val b => b
  | .place l => s.vars l

/-- The content if there is one without looking at the variables. -/
def Val.strip : Val → Base
  | .val b => b
  | .place _ => .object 0

def Base.items : Base → List Base
  | .array _ vs => if vs.length < 2 ^ 31 then vs else []
  | _ => []

def Base.text : Base → Text
  | .const (.String .String t) => t
  | _ => []

def Base.shown : Base → Text
  | .const (.I32 n) => (toString n.toNat).toList
  | _ => "?".toList

def Base.truth : Base → Bool
  | .const (.Bool b) => b
  | _ => false

def Base.elem (b i : Base) : Option Base :=
  match b, i with
  | .array _ vs, .const (.U64 i) => vs[i.toNat]?
  | .array t vs, .const (.I32 i) => (Base.array t vs).items[i.toNat]?
  | _, _ => none

def prim (op : Op) (args : List Val) (s : State) : Except Unit (Val × State) :=
  match op, args with
  | .const c, [] => .ok (.val (.const c), s)
  | .null, [] => .ok (.val (.object 0), s)
  | .this, [] => .ok (.val (.object 1), s)
  | .getLocal l, [] => .ok (.place l, s)
  | .assign, [.place l, v] =>
    .ok (.val (v.content s), { s with vars := fun l' => if l' = l then v.content s else s.vars l' })
  | .element _, [a, i] =>
    match (a.content s).elem (i.content s) with
    | some b => .ok (.val b, s)
    | none => .error ()
  | .intrinsic .ArraySize _, [a] => .ok (.val (.const (.I32 (BitVec.ofNat 32 (a.content s).items.length))), s)
  | .intrinsic .AsRef _, [v] => .ok (v, s)
  | .intrinsic .ToString _, [v] => .ok (.val (.const (.String .String (v.content s).shown)), s)
  | _, _ => .error ()

/-- The functions: `+=`, `<`, the sum of texts, and one that counts its calls; others do nothing. -/
def call (c : Callee) (_ : Option Val) (args : List (Option Val)) (s : State) : Except Unit (Val × State) :=
  match c, args with
  | .fixed 11, [some a, some b] =>
    match a.content s, b.content s with
    | .const (.I32 a), .const (.I32 b) => .ok (.val (.const (.Bool (a.slt b))), s)
    | _, _ => .error ()
  | .fixed 12, [some a, some b] => .ok (.val (.const (.String .String ((a.content s).text ++ (b.content s).text))), s)
  | .fixed 13, [] => .ok (.val (.const (.I32 (BitVec.ofNat 32 s.count))), { s with count := s.count + 1 })
  | _, _ => .ok (.val (.object 0), s)

def interp : Interp Val State Unit where
  prim := prim
  call := call
  demand _ _ _ _ := true
  truth v s := (v.content s).truth
  isNull v s := match v.content s with | .object 0 => true | _ => false
  onNull s := (.val (.object 0), s)
  matches_ _ v w s :=
    match v.content s, w.content s with
    | .const a, .const b => decide (a = b)
    | _, _ => false

/-- `String` and `Int32`. -/
abbrev string : TypeId := .Prim 1
abbrev int : TypeId := .Prim 2

def queries : TypeQueries where
  local_ l := .ok (if l = 100 ∨ l = 101 then .Array int else int)
  param _ := .ok int
  field _ := .ok int
  result f := .ok (if f = 12 then string else int)
  constant c := match c with | .String _ _ => .ok string | _ => .ok int
  this := none
  base := .error .unexpectedToken
  lub a _ := .ok a

def env : AsmEnv where
  strIdx _ _ := .ok 0
  typeOf := typeTree queries
  typeIdx _ := .ok 0
  defName _ := .ok []
  enumFirst _ := .ok none
  function f := .ok { flags := 1, params := if f = 13 then [] else [0, 0], name := 0 }
  line _ _ := 0

def dsEnv : DsEnv where
  typeOf := typeTree queries
  typeIndex n _ := .ok n
  pretty ty := .ok (if ty = string then "String".toList else [])
  stringTy := .ok string
  intTy := .ok int
  addStr := .ok 12
  assignAdd := .ok 10
  less := .ok 11

def sugar : Sugar Val State where
  array t vs := .val (.array t (vs.map Val.strip))
  load v s := .val (v.content s)
  items v := v.strip.items.map .val
  string t := .val (.const (.String .String t))
  isText ty := ty = string || ty = .ScriptRef string
  text v s := (v.content s).text
  shown _ v s := (v.content s).shown

def cells : Cells Val where
  const c := .val (.const c)
  resize ty _ n :=
    match ty, n with
    | .Array t, .val (.const (.U64 n)) => .val (.array t (List.replicate n.toNat (.object 0)))
    | _, _ => .val (.object 0)
  set a i v :=
    match a, i with
    | .val (.array t vs), .val (.const (.U64 i)) => .val (.array t (vs.set i.toNat v.strip))
    | _, _ => a
  add a b :=
    match a, b with
    | .val (.const (.I32 a)), .val (.const (.I32 b)) => .val (.const (.I32 (a + b)))
    | _, _ => a

/-- The definitions from 100 on are free. -/
def world : DsWorld Val State Unit where
  env := env
  I := interp
  U := sugar
  M := cells
  D := dsEnv
  Q := queries
  start := 100
  asg := .fixed 10

theorem items_length (b : Base) : b.items.length < 2 ^ 31 := by
  cases b with
  | array t vs =>
    rw [Base.items]
    split
    · assumption
    · decide
  | const c => exact Nat.two_pow_pos 31
  | object n => exact Nat.two_pow_pos 31

theorem laws : world.Laws where
  types := rfl
  dsTypes := rfl
  grows := by rintro n ty m h; cases h; exact Nat.le_refl _
  const _ _ := rfl
  null := ⟨_, fun _ => rfl⟩
  this := ⟨.val (.object 1), fun _ => ⟨rfl, rfl⟩⟩
  place l _ := ⟨.place l, fun _ => rfl⟩
  loadConst _ _ := rfl
  loadArray _ _ _ := rfl
  resize t a n := ⟨List.replicate n.toNat (.val (.object 0)), by simp, by
    show Val.val (.array t _) = Val.val (.array t _)
    simp [Val.strip]⟩
  set t vs i v hi hi' := by
    show Val.val (.array t _) = Val.val (.array t _)
    rw [BitVec.toNat_ofNat, Nat.mod_eq_of_lt hi', List.map_set]
  elem t vs i s hi hi' := by
    refine ⟨.val ((vs.map Val.strip)[i]'(by simpa using hi)), ?_⟩
    show (match (vs.map Val.strip)[(BitVec.ofNat 64 i).toNat]? with
      | some b => Except.ok (Val.val b, s)
      | none => .error ()) = _
    rw [BitVec.toNat_ofNat, Nat.mod_eq_of_lt hi', List.getElem?_eq_getElem (by simpa using hi)]
  few v s := by
    show (((v.content s).items).map Val.val).length < 2 ^ 31
    rw [List.length_map]
    exact items_length _
  size ty v s' s := by
    show Except.ok (Val.val (.const (.I32 (BitVec.ofNat 32 (v.content s').items.length))), s) =
      .ok (Val.val (.const (.I32 (BitVec.ofNat 32 (((v.content s').items).map Val.val).length))), s)
    rw [List.length_map]
  get ty v s' s k x h := by
    have h : (((v.content s').items).map Val.val)[k]? = some x := h
    have hl := items_length (v.content s')
    rw [List.getElem?_map, Option.map_eq_some_iff] at h
    obtain ⟨b, hb, rfl⟩ := h
    show (match (v.content s').elem (.const (.I32 (BitVec.ofNat 32 k))) with
      | some b => Except.ok (Val.val b, s)
      | none => .error ()) = _
    have hk := (List.getElem?_eq_some_iff.1 hb).1
    have : (v.content s').elem (.const (.I32 (BitVec.ofNat 32 k))) = some b := by
      cases hc : v.content s' with
      | array t vs =>
        show (Base.array t vs).items[(BitVec.ofNat 32 k).toNat]? = some b
        rw [BitVec.toNat_ofNat, Nat.mod_eq_of_lt (by omega), ← hc]
        exact hb
      | const c => rw [hc] at hb; cases hb
      | object n => rw [hc] at hb; cases hb
    rw [this]
  add _ _ := rfl
  assignAdd := by rintro f h; cases h; exact ⟨_, 0, 0, rfl, rfl, rfl, rfl, rfl⟩
  less := by
    rintro f h
    cases h
    exact ⟨_, 0, 0, rfl, rfl, rfl, rfl, by decide, fun a b s => ⟨_, rfl, rfl⟩⟩
  string _ := rfl
  text _ _ := rfl
  asRef ty v := ⟨v, fun s => ⟨rfl, rfl⟩⟩
  toString _ _ _ := rfl
  addStr := by
    rintro f h
    cases h
    exact ⟨_, 0, 0, rfl, rfl, rfl, rfl, by decide, fun a b s => rfl⟩
  isText ty := by
    have hp : ∀ t, world.D.pretty t = .ok "String".toList ↔ t = string := by
      intro t
      show (Except.ok (if t = string then "String".toList else []) : Except DsErr Text) = .ok "String".toList ↔ _
      split
      · simp [*]
      · simp [*]
    show (decide (ty = string) || decide (ty = .ScriptRef string)) = true ↔ _
    rw [Bool.or_eq_true, decide_eq_true_iff, decide_eq_true_iff]
    simp only [hp]
    constructor
    · rintro (h | h)
      · exact .inr h
      · exact .inl ⟨_, h, rfl⟩
    · rintro (⟨t, h, rfl⟩ | h)
      · exact .inr h
      · exact .inl h
  stringTy := by rintro _ h t; cases h; rfl
  sumTy := by rintro f h; cases h; rfl

end Redscript.Toy
