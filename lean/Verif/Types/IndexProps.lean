import Verif.Types.Model
import Verif.Bundle.PoolProps
import Verif.Names.Props

/-!
# C49: type indexes
-/

namespace Redscript

/-- The pool has a type definition of that kind and name at the index. -/
def TypeEntry (p : ConstantPool) (j : Idx) (k : PoolType) (n : Text) : Prop :=
  ∃ d, p.definition j = some d ∧ d.value = .Type k ∧ p.defName j = some n

/-- The part of a name after its last dot. -/
def LastPart (n last : Text) : Prop := '.' ∉ last ∧ (n = last ∨ ∃ module, n = module ++ '.' :: last)

/-- The scope has the class, struct or enum under the last part of the name. -/
def KnownAs (sc : Scope) (n : Text) (t : TypeId) : Prop :=
  ∃ last, LastPart n last ∧
    ((∃ i v, t = .Class i ∧ sc.symbols.get last = some (.Class i v)) ∨
     (∃ i v, t = .Struct i ∧ sc.symbols.get last = some (.Struct i v)) ∨
     (∃ i, t = .Enum i ∧ sc.symbols.get last = some (.Enum i)))

theorem LastPart.split {n last : Text} (h : LastPart n last) : (splitOnChar '.' n).getLast? = some last := by
  obtain ⟨hl, rfl | ⟨m, rfl⟩⟩ := h
  · rw [splitOnChar_clean _ _ hl]; rfl
  · induction m with
    | nil => simp [splitOnChar, splitOnChar_clean _ _ hl]
    | cons x m ih =>
      rw [List.cons_append, splitOnChar]
      split
      · have := splitOnChar_ne_nil '.' (m ++ '.' :: last)
        cases hs : splitOnChar '.' (m ++ '.' :: last) with
        | nil => exact absurd hs this
        | cons q qs => rw [hs] at ih; simpa [List.getLast?_cons_cons] using ih
      · cases hs : splitOnChar '.' (m ++ '.' :: last) with
        | nil => exact absurd hs (splitOnChar_ne_nil _ _)
        | cons q qs =>
          rw [hs] at ih
          cases qs with
          | cons r rs => simpa [List.getLast?_cons_cons] using ih
          | nil =>
            -- there is a dot, so there are at least two parts
            exfalso
            have hj := join_splitOnChar '.' (m ++ '.' :: last)
            rw [hs] at hj
            simp only [joinChar] at hj
            have hq : q = last := by simpa using ih
            subst hq
            apply hl
            rw [hj]
            simp

theorem KnownAs.classNamed {sc : Scope} {n : Text} {t : TypeId} (h : KnownAs sc n t) :
    sc.classNamed n = some t := by
  obtain ⟨last, hl, h⟩ := h
  unfold Scope.classNamed
  rw [hl.split]
  rcases h with ⟨i, v, rfl, h⟩ | ⟨i, v, rfl, h⟩ | ⟨i, rfl, h⟩ <;> simp [h]

/-- A named type that can be referred to: a primitive type known to the scope, `Variant`, or a class,
struct or enum that the scope knows under the last part of its name; names contain no colon, and a type
entry of that name, if there is one already, is of the right kind. -/
inductive Leaf (sc : Scope) (p : ConstantPool) : TypeId → Text → Prop
  | prim {i n} : TypeEntry p i .Prim n → sc.types.get n = some i → n ≠ "Variant".toList → ':' ∉ n →
      Leaf sc p (.Prim i) n
  | variant : (∀ j, sc.types.get "Variant".toList = some j → TypeEntry p j .Prim "Variant".toList) →
      Leaf sc p .Variant "Variant".toList
  | named {t n} : (∃ i, (t = .Class i ∨ t = .Struct i ∨ t = .Enum i) ∧ p.defName i = some n) →
      KnownAs sc n t → n ≠ "Variant".toList → ':' ∉ n →
      (∀ j, sc.types.get n = some j → TypeEntry p j .Class n) → Leaf sc p t n

/-- The types of the property with their names: references, weak references, script references and
arrays over named types. -/
inductive Named (sc : Scope) (p : ConstantPool) : TypeId → Text → Prop
  | leaf {t n} : Leaf sc p t n → Named sc p t n
  | ref {t n} : Named sc p t n → Named sc p (.Ref t) ("ref:".toList ++ n)
  | wref {t n} : Named sc p t n → Named sc p (.WeakRef t) ("wref:".toList ++ n)
  | array {t n} : Named sc p t n → Named sc p (.Array t) ("array:".toList ++ n)
  | script {t n} : Named sc p t n → Named sc p (.ScriptRef t) ("script_ref:".toList ++ n)

/-- What the scope's table of types and the pool maintain: an entry for a composite name is a
definition of that kind whose inner index is the entry of the inner name. -/
structure TypesInv (sc : Scope) (p : ConstantPool) : Prop where
  names : p.names.Reachable Strings.cnameDefault
  ref : ∀ n j, sc.types.get ("ref:".toList ++ n) = some j →
    ∃ k, sc.types.get n = some k ∧ TypeEntry p j (.Ref k) ("ref:".toList ++ n)
  wref : ∀ n j, sc.types.get ("wref:".toList ++ n) = some j →
    ∃ k, sc.types.get n = some k ∧ TypeEntry p j (.WeakRef k) ("wref:".toList ++ n)
  array : ∀ n j, sc.types.get ("array:".toList ++ n) = some j →
    ∃ k, sc.types.get n = some k ∧ TypeEntry p j (.Array k) ("array:".toList ++ n)
  script : ∀ n j, sc.types.get ("script_ref:".toList ++ n) = some j →
    ∃ k, sc.types.get n = some k ∧ TypeEntry p j (.ScriptRef k) ("script_ref:".toList ++ n)

/-- The number of constructors of a type. -/
def TypeId.depth : TypeId → Nat
  | .Ref t | .WeakRef t | .Array t | .StaticArray t _ | .ScriptRef t => t.depth + 1
  | _ => 1

theorem Leaf.depth {sc : Scope} {p : ConstantPool} {t : TypeId} {n : Text} (h : Leaf sc p t n) : t.depth = 1 := by
  cases h with
  | prim => rfl
  | variant => rfl
  | named h => obtain ⟨i, rfl | rfl | rfl, _⟩ := h <;> rfl

theorem Named.repr {sc : Scope} {p : ConstantPool} {t : TypeId} {n : Text} (h : Named sc p t n) :
    t.repr p = some n := by
  induction h with
  | leaf h => cases h with
    | prim h => obtain ⟨_, _, _, h⟩ := h; exact h
    | variant => rfl
    | named h => obtain ⟨i, rfl | rfl | rfl, h⟩ := h <;> exact h
  | ref _ ih => simp [TypeId.repr, ih]
  | wref _ ih => simp [TypeId.repr, ih]
  | array _ ih => simp [TypeId.repr, ih]
  | script _ ih => simp [TypeId.repr, ih]

/-- Reading back an entry. -/
theorem Named.readback {sc : Scope} {p : ConstantPool} (hi : TypesInv sc p) {t : TypeId} {n : Text}
    (h : Named sc p t n) {j : Idx} (hj : sc.types.get n = some j) (depth : Nat) (hd : t.depth ≤ depth) :
    resolveTypeFromPool sc p depth j = some t := by
  induction h generalizing j depth with
  | leaf h =>
    have h1 := h.depth
    cases depth with
    | zero => omega
    | succ m =>
      cases h with
      | prim he hg hv _ =>
        rw [hg] at hj; cases hj
        obtain ⟨d, h1, h2, h3⟩ := he
        simp only [resolveTypeFromPool, h1, h2, h3, Option.map_some, if_neg hv]
      | variant he =>
        obtain ⟨d, h1, h2, h3⟩ := he j hj
        simp only [resolveTypeFromPool, h1, h2, h3, Option.map_some]; rfl
      | named _ hc _ _ he =>
        obtain ⟨d, h1, h2, h3⟩ := he j hj
        simp only [resolveTypeFromPool, h1, h2, h3, Option.bind_some, hc.classNamed]
  | ref _ ih =>
    obtain ⟨k, hk, d, h1, h2, h3⟩ := hi.ref _ _ hj
    simp only [TypeId.depth] at hd
    cases depth with
    | zero => omega
    | succ m => simp only [resolveTypeFromPool, h1, h2, ih hk m (by omega), Option.map_some]
  | wref _ ih =>
    obtain ⟨k, hk, d, h1, h2, h3⟩ := hi.wref _ _ hj
    simp only [TypeId.depth] at hd
    cases depth with
    | zero => omega
    | succ m => simp only [resolveTypeFromPool, h1, h2, ih hk m (by omega), Option.map_some]
  | array _ ih =>
    obtain ⟨k, hk, d, h1, h2, h3⟩ := hi.array _ _ hj
    simp only [TypeId.depth] at hd
    cases depth with
    | zero => omega
    | succ m => simp only [resolveTypeFromPool, h1, h2, ih hk m (by omega), Option.map_some]
  | script _ ih =>
    obtain ⟨k, hk, d, h1, h2, h3⟩ := hi.script _ _ hj
    simp only [TypeId.depth] at hd
    cases depth with
    | zero => omega
    | succ m => simp only [resolveTypeFromPool, h1, h2, ih hk m (by omega), Option.map_some]

/-- What a call leaves in place: symbols, definitions, names and type entries stay; new entries are
composite or of the right kind. -/
structure Ext (sc : Scope) (p : ConstantPool) (sc' : Scope) (p' : ConstantPool) : Prop where
  syms : sc'.symbols = sc.symbols
  defs : ∀ k d, p.definition k = some d → p'.definition k = some d
  names : ∀ k s, p.names.get Strings.cnameDefault k = some s → p'.names.get Strings.cnameDefault k = some s
  types : ∀ n j, sc.types.get n = some j → sc'.types.get n = some j
  fresh : ∀ n j, sc'.types.get n = some j → sc.types.get n = some j ∨ ':' ∈ n ∨
    (n = "Variant".toList ∧ TypeEntry p' j .Prim n) ∨ (n ≠ "Variant".toList ∧ TypeEntry p' j .Class n)

namespace Ext

variable {sc sc' sc'' : Scope} {p p' p'' : ConstantPool}

theorem defName (h : Ext sc p sc' p') {k : Idx} {n : Text} (hn : p.defName k = some n) :
    p'.defName k = some n := by
  unfold ConstantPool.defName at hn ⊢
  obtain ⟨d, hd, hn⟩ := Option.bind_eq_some_iff.1 hn
  obtain ⟨s, hs, rfl⟩ := Option.map_eq_some_iff.1 hn
  rw [h.defs k d hd, Option.bind_some, h.names _ _ hs]
  rfl

theorem entry (h : Ext sc p sc' p') {j : Idx} {k : PoolType} {n : Text} (he : TypeEntry p j k n) :
    TypeEntry p' j k n := by
  obtain ⟨d, h1, h2, h3⟩ := he
  exact ⟨d, h.defs _ _ h1, h2, h.defName h3⟩

theorem refl (sc : Scope) (p : ConstantPool) : Ext sc p sc p :=
  ⟨rfl, fun _ _ h => h, fun _ _ h => h, fun _ _ h => h, fun _ _ h => .inl h⟩

theorem trans (h1 : Ext sc p sc' p') (h2 : Ext sc' p' sc'' p'') : Ext sc p sc'' p'' := by
  refine ⟨h2.syms.trans h1.syms, fun k d h => h2.defs k d (h1.defs k d h), fun k d h => h2.names k d (h1.names k d h),
    fun k d h => h2.types k d (h1.types k d h), ?_⟩
  intro n j hj
  rcases h2.fresh n j hj with h | h | h
  · rcases h1.fresh n j h with h | h | ⟨h, he⟩ | ⟨h, he⟩
    · exact .inl h
    · exact .inr (.inl h)
    · exact .inr (.inr (.inl ⟨h, h2.entry he⟩))
    · exact .inr (.inr (.inr ⟨h, h2.entry he⟩))
  · exact .inr (.inl h)
  · exact .inr (.inr h)

theorem leaf (h : Ext sc p sc' p') {t : TypeId} {n : Text} (hl : Leaf sc p t n) : Leaf sc' p' t n := by
  cases hl with
  | prim he hg hv hc => exact .prim (h.entry he) (h.types _ _ hg) hv hc
  | variant he =>
    refine .variant fun j hj => ?_
    rcases h.fresh _ j hj with h' | h' | ⟨_, h'⟩ | ⟨h', _⟩
    · exact h.entry (he j h')
    · simp at h'
    · exact h'
    · exact absurd rfl h'
  | named hn hc hv hcol he =>
    obtain ⟨i, ht, hd⟩ := hn
    refine .named ⟨i, ht, h.defName hd⟩ ?_ hv hcol fun j hj => ?_
    · unfold KnownAs at hc ⊢
      rw [h.syms]; exact hc
    · rcases h.fresh _ j hj with h' | h' | ⟨h', _⟩ | ⟨_, h'⟩
      · exact h.entry (he j h')
      · exact absurd h' hcol
      · exact absurd h' hv
      · exact h'

theorem named (h : Ext sc p sc' p') {t : TypeId} {n : Text} (hl : Named sc p t n) : Named sc' p' t n := by
  induction hl with
  | leaf hl => exact .leaf (h.leaf hl)
  | ref _ ih => exact .ref ih
  | wref _ ih => exact .wref ih
  | array _ ih => exact .array ih
  | script _ ih => exact .script ih

end Ext

/-- Adding the name of a type. -/
theorem addName_ext (sc : Scope) (p : ConstantPool) (hi : TypesInv sc p) (name : Text)
    (hlen : p.names.strings.length + 1 < 2 ^ 32) :
    let r := p.names.add Strings.cnameDefault (String.ofList name)
    let p' := { p with names := r.2 }
    TypesInv sc p' ∧ Ext sc p sc p' ∧ r.2.get Strings.cnameDefault r.1 = some (String.ofList name) ∧
      r.2.strings.length ≤ p.names.strings.length + 1 := by
  intro r p'
  have hext : Ext sc p sc p' :=
    ⟨rfl, fun _ _ h => h, fun k s h => C11_add_keeps _ _ _ _ _ h, fun _ _ h => h, fun _ _ h => .inl h⟩
  refine ⟨⟨.add _ hi.names hlen, ?_, ?_, ?_, ?_⟩, hext, C11_add_reads_back _ _ hi.names hlen _, ?_⟩
  · intro n j hj
    obtain ⟨k, h1, h2⟩ := hi.ref n j hj
    exact ⟨k, h1, hext.entry h2⟩
  · intro n j hj
    obtain ⟨k, h1, h2⟩ := hi.wref n j hj
    exact ⟨k, h1, hext.entry h2⟩
  · intro n j hj
    obtain ⟨k, h1, h2⟩ := hi.array n j hj
    exact ⟨k, h1, hext.entry h2⟩
  · intro n j hj
    obtain ⟨k, h1, h2⟩ := hi.script n j hj
    exact ⟨k, h1, hext.entry h2⟩
  · simp only [r, Strings.add]
    split
    · simp
    · split <;> simp

/-- The definition added under a name is of the kind the name says. -/
structure Fits (sc : Scope) (n0 : Text) (v : PoolType) : Prop where
  ref : ∀ n, n0 = "ref:".toList ++ n → ∃ k, v = .Ref k ∧ sc.types.get n = some k
  wref : ∀ n, n0 = "wref:".toList ++ n → ∃ k, v = .WeakRef k ∧ sc.types.get n = some k
  array : ∀ n, n0 = "array:".toList ++ n → ∃ k, v = .Array k ∧ sc.types.get n = some k
  script : ∀ n, n0 = "script_ref:".toList ++ n → ∃ k, v = .ScriptRef k ∧ sc.types.get n = some k
  plain : ':' ∉ n0 → (n0 = "Variant".toList ∧ v = .Prim) ∨ (n0 ≠ "Variant".toList ∧ v = .Class)

theorem addEntry_ext (sc : Scope) (p : ConstantPool) (hi : TypesInv sc p) (n0 : Text) (nameIdx : Idx) (v : PoolType)
    (hn0 : sc.types.get n0 = none) (hname : p.names.get Strings.cnameDefault nameIdx = some (String.ofList n0))
    (hlen : p.definitions.length < 2 ^ 32) (hf : Fits sc n0 v) :
    let r := p.addDefinition (typeDefinition nameIdx v)
    let sc' := { sc with types := sc.types.insert n0 r.1 }
    TypesInv sc' r.2 ∧ Ext sc p sc' r.2 ∧ sc'.types.get n0 = some r.1 := by
  intro r sc'
  have hdef : r.2.definition r.1 = some (typeDefinition nameIdx v) := by
    simp only [r, ConstantPool.addDefinition, ConstantPool.definition]
    rw [BitVec.toNat_ofNat, Nat.mod_eq_of_lt hlen]
    simp
  have hentry : TypeEntry r.2 r.1 v n0 := by
    refine ⟨_, hdef, rfl, ?_⟩
    unfold ConstantPool.defName
    rw [hdef, Option.bind_some]
    have : r.2.names.get Strings.cnameDefault (typeDefinition nameIdx v).name = some (String.ofList n0) := hname
    rw [this]
    simp
  have hdefs : ∀ k d, p.definition k = some d → r.2.definition k = some d := by
    intro k d h
    simp only [r, ConstantPool.addDefinition, ConstantPool.definition] at h ⊢
    rw [List.getElem?_append_left (List.getElem?_eq_some_iff.1 h).1]
    exact h
  have htypes : ∀ n j, sc.types.get n = some j → sc'.types.get n = some j := by
    intro n j h
    simp only [sc', AMap.get_insert]
    rw [if_neg]
    · exact h
    · rintro rfl; rw [hn0] at h; cases h
  have hext : Ext sc p sc' r.2 := by
    refine ⟨rfl, hdefs, fun _ _ h => h, htypes, ?_⟩
    intro n j hj
    simp only [sc', AMap.get_insert] at hj
    split at hj
    · rename_i he
      subst he
      cases hj
      by_cases hc : ':' ∈ n
      · exact .inr (.inl hc)
      · rcases hf.plain hc with ⟨h, rfl⟩ | ⟨h, rfl⟩
        · exact .inr (.inr (.inl ⟨h, hentry⟩))
        · exact .inr (.inr (.inr ⟨h, hentry⟩))
    · exact .inl hj
  refine ⟨⟨hi.names, ?_, ?_, ?_, ?_⟩, hext, by simp only [sc', AMap.get_insert_self]⟩
  · intro n j hj
    simp only [sc', AMap.get_insert] at hj
    split at hj
    · rename_i he
      cases hj
      obtain ⟨k, rfl, hk⟩ := hf.ref n he.symm
      exact ⟨k, htypes _ _ hk, he ▸ hentry⟩
    · obtain ⟨k, h1, h2⟩ := hi.ref n j hj
      exact ⟨k, htypes _ _ h1, hext.entry h2⟩
  · intro n j hj
    simp only [sc', AMap.get_insert] at hj
    split at hj
    · rename_i he
      cases hj
      obtain ⟨k, rfl, hk⟩ := hf.wref n he.symm
      exact ⟨k, htypes _ _ hk, he ▸ hentry⟩
    · obtain ⟨k, h1, h2⟩ := hi.wref n j hj
      exact ⟨k, htypes _ _ h1, hext.entry h2⟩
  · intro n j hj
    simp only [sc', AMap.get_insert] at hj
    split at hj
    · rename_i he
      cases hj
      obtain ⟨k, rfl, hk⟩ := hf.array n he.symm
      exact ⟨k, htypes _ _ hk, he ▸ hentry⟩
    · obtain ⟨k, h1, h2⟩ := hi.array n j hj
      exact ⟨k, htypes _ _ h1, hext.entry h2⟩
  · intro n j hj
    simp only [sc', AMap.get_insert] at hj
    split at hj
    · rename_i he
      cases hj
      obtain ⟨k, rfl, hk⟩ := hf.script n he.symm
      exact ⟨k, htypes _ _ hk, he ▸ hentry⟩
    · obtain ⟨k, h1, h2⟩ := hi.script n j hj
      exact ⟨k, htypes _ _ h1, hext.entry h2⟩

/-- The outcome of a call. -/
structure Outcome (sc : Scope) (p : ConstantPool) (t : TypeId) (n : Text) (i : Idx) (sc' : Scope)
    (p' : ConstantPool) : Prop where
  inv : TypesInv sc' p'
  ext : Ext sc p sc' p'
  entry : sc'.types.get n = some i
  longer : ∀ x : Text, n.length < x.length → sc'.types.get x = sc.types.get x
  defs : p'.definitions.length ≤ p.definitions.length + t.depth
  strings : p'.names.strings.length ≤ p.names.strings.length + t.depth

/-- A composite type: the name is added, then the inner type, then the definition. -/
theorem composite_outcome {sc : Scope} {p : ConstantPool} (hi : TypesInv sc p) {t : TypeId}
    {n pre : Text} {mk : TypeId → TypeId} {k : Idx → PoolType} (hpre : pre ≠ [])
    (hdepth : (mk t).depth = t.depth + 1)
    (hfit : ∀ sc i, sc.types.get n = some i → Fits sc (pre ++ n) (k i))
    (hrepr : (mk t).repr p = some (pre ++ n))
    (hstep : ∀ sc p, getTypeIndex sc p (mk t) = typeEntry sc p ((mk t).repr p) fun sc p =>
      (getTypeIndex sc p t).map fun r => (k r.1, r.2))
    (hd : p.definitions.length + (mk t).depth ≤ 2 ^ 32) (hs : p.names.strings.length + (mk t).depth < 2 ^ 32)
    (ih : ∀ p1, TypesInv sc p1 → Ext sc p sc p1 → p1.definitions.length + t.depth ≤ 2 ^ 32 →
      p1.names.strings.length + t.depth < 2 ^ 32 →
      ∃ i sc' p', getTypeIndex sc p1 t = .ok (i, sc', p') ∧ Outcome sc p1 t n i sc' p') :
    ∃ i sc' p', getTypeIndex sc p (mk t) = .ok (i, sc', p') ∧ Outcome sc p (mk t) (pre ++ n) i sc' p' := by
  rw [hstep, hrepr]
  unfold typeEntry
  simp only
  cases hg : sc.types.get (pre ++ n) with
  | some i =>
    refine ⟨i, sc, p, rfl, hi, .refl _ _, hg, fun _ _ => rfl, by omega, by omega⟩
  | none =>
    have hl1 : p.names.strings.length + 1 < 2 ^ 32 := by
      have : 1 ≤ t.depth := by cases t <;> simp [TypeId.depth]
      omega
    obtain ⟨h1, h2, h3, h4⟩ := addName_ext sc p hi (pre ++ n) hl1
    generalize hr : p.names.add Strings.cnameDefault (String.ofList (pre ++ n)) = r at h1 h2 h3 h4
    obtain ⟨i, sc1, p1, hgi, ho⟩ := ih { p with names := r.2 } h1 h2 (by simp only; omega) (by simp only; omega)
    simp only [hgi, Except.map]
    have hlonger := ho.longer (pre ++ n) (by
      have := List.length_pos_iff.2 hpre
      rw [List.length_append]; omega)
    have hdl := ho.defs
    have hsl := ho.strings
    simp only at hdl hsl
    obtain ⟨e1, e2, e3⟩ := addEntry_ext sc1 p1 ho.inv (pre ++ n) r.1 (k i) (by rw [hlonger, hg])
      (ho.ext.names _ _ h3) (by omega) (hfit sc1 i ho.entry)
    refine ⟨_, _, _, rfl, e1, (h2.trans ho.ext).trans e2, e3, ?_, ?_, ?_⟩
    · intro x hx
      rw [AMap.get_insert_ne]
      · exact ho.longer x (by simp at hx; omega)
      · rintro rfl; omega
    · simp [ConstantPool.addDefinition]; omega
    · simp only [ConstantPool.addDefinition]; omega

theorem fits_ref (sc : Scope) (n : Text) (i : Idx) (h : sc.types.get n = some i) :
    Fits sc ("ref:".toList ++ n) (.Ref i) := by
  constructor <;> simp
  exact h
theorem fits_wref (sc : Scope) (n : Text) (i : Idx) (h : sc.types.get n = some i) :
    Fits sc ("wref:".toList ++ n) (.WeakRef i) := by
  constructor <;> simp
  exact h
theorem fits_array (sc : Scope) (n : Text) (i : Idx) (h : sc.types.get n = some i) :
    Fits sc ("array:".toList ++ n) (.Array i) := by
  constructor <;> simp
  exact h
theorem fits_script (sc : Scope) (n : Text) (i : Idx) (h : sc.types.get n = some i) :
    Fits sc ("script_ref:".toList ++ n) (.ScriptRef i) := by
  constructor <;> simp
  exact h

theorem getTypeIndex_known (sc : Scope) (p : ConstantPool) (t : TypeId) (n : Text) (i : Idx)
    (hrepr : t.repr p = some n) (hg : sc.types.get n = some i) : getTypeIndex sc p t = .ok (i, sc, p) := by
  cases t <;> (rw [getTypeIndex, hrepr]; unfold typeEntry; simp only [hg])

theorem getTypeIndex_leaf (sc : Scope) (p : ConstantPool) (t : TypeId) (n : Text) (v : PoolType)
    (hrepr : t.repr p = some n) (hg : sc.types.get n = none)
    (hv : (v = .Prim ∧ t = .Variant) ∨ (v = .Class ∧ ∃ i, t = .Class i ∨ t = .Struct i ∨ t = .Enum i)) :
    getTypeIndex sc p t =
      let r := p.names.add Strings.cnameDefault (String.ofList n)
      let q := ConstantPool.addDefinition { p with names := r.2 } (typeDefinition r.1 v)
      .ok (q.1, { sc with types := (sc.types.insert n q.1) }, q.2) := by
  rcases hv with ⟨rfl, rfl⟩ | ⟨rfl, i, rfl | rfl | rfl⟩ <;>
    (rw [getTypeIndex, hrepr]; unfold typeEntry; simp only [hg])

theorem getTypeIndex_outcome (t : TypeId) (sc : Scope) (p : ConstantPool) (n : Text) (hi : TypesInv sc p)
    (hn : Named sc p t n) (hd : p.definitions.length + t.depth ≤ 2 ^ 32)
    (hs : p.names.strings.length + t.depth < 2 ^ 32) :
    ∃ i sc' p', getTypeIndex sc p t = .ok (i, sc', p') ∧ Outcome sc p t n i sc' p' := by
  cases hn with
  | leaf h =>
    have hrepr := (Named.leaf h).repr
    have hdep := h.depth
    cases hg : sc.types.get n with
    | some i =>
      refine ⟨i, sc, p, ?_, hi, .refl _ _, hg, fun _ _ => rfl, by omega, by omega⟩
      exact getTypeIndex_known sc p t n i hrepr hg
    | none =>
      have hv : ∃ v : PoolType, ((v = .Prim ∧ t = .Variant) ∨
          (v = .Class ∧ ∃ i, t = .Class i ∨ t = .Struct i ∨ t = .Enum i)) ∧
          ':' ∉ n ∧ ((n = "Variant".toList ∧ v = .Prim) ∨ (n ≠ "Variant".toList ∧ v = .Class)) := by
        cases h with
        | prim _ h' => rw [hg] at h'; cases h'
        | variant => exact ⟨.Prim, .inl ⟨rfl, rfl⟩, by simp, .inl ⟨rfl, rfl⟩⟩
        | named h1 _ h3 h4 =>
          obtain ⟨i, h1, _⟩ := h1
          exact ⟨.Class, .inr ⟨rfl, i, h1⟩, h4, .inr ⟨h3, rfl⟩⟩
      obtain ⟨v, hv, hcol, hkind⟩ := hv
      have hfit : Fits sc n v := by
        refine ⟨?_, ?_, ?_, ?_, fun _ => hkind⟩ <;>
        · intro m hm
          subst hm
          simp at hcol
      obtain ⟨h1, h2, h3, h4⟩ := addName_ext sc p hi n (by omega)
      obtain ⟨e1, e2, e3⟩ := addEntry_ext sc _ h1 n _ v hg h3 (by simp only; omega) hfit
      refine ⟨_, _, _, getTypeIndex_leaf sc p t n v hrepr hg hv, e1, h2.trans e2, e3, ?_, ?_, ?_⟩
      · intro x hx
        rw [AMap.get_insert_ne]
        rintro rfl; omega
      · simp [ConstantPool.addDefinition]; omega
      · simp only [ConstantPool.addDefinition]; omega
  | ref h =>
    rename_i t n
    exact composite_outcome hi (mk := .Ref) (k := .Ref) (by simp) rfl (fits_ref · n ·) (Named.ref h).repr
      (fun sc p => by rw [getTypeIndex]) hd hs
      fun p1 hi1 he1 hd1 hs1 => getTypeIndex_outcome t sc p1 n hi1 (he1.named h) hd1 hs1
  | wref h =>
    rename_i t n
    exact composite_outcome hi (mk := .WeakRef) (k := .WeakRef) (by simp) rfl (fits_wref · n ·) (Named.wref h).repr
      (fun sc p => by rw [getTypeIndex]) hd hs
      fun p1 hi1 he1 hd1 hs1 => getTypeIndex_outcome t sc p1 n hi1 (he1.named h) hd1 hs1
  | array h =>
    rename_i t n
    exact composite_outcome hi (mk := .Array) (k := .Array) (by simp) rfl (fits_array · n ·) (Named.array h).repr
      (fun sc p => by rw [getTypeIndex]) hd hs
      fun p1 hi1 he1 hd1 hs1 => getTypeIndex_outcome t sc p1 n hi1 (he1.named h) hd1 hs1
  | script h =>
    rename_i t n
    exact composite_outcome hi (mk := .ScriptRef) (k := .ScriptRef) (by simp) rfl (fits_script · n ·) (Named.script h).repr
      (fun sc p => by rw [getTypeIndex]) hd hs
      fun p1 hi1 he1 hd1 hs1 => getTypeIndex_outcome t sc p1 n hi1 (he1.named h) hd1 hs1
  termination_by sizeOf t

/-- C49: asking for the index of a type always succeeds, the table stays consistent (so the statement
applies again to any further type), and nothing known before is changed. -/
theorem C49_total (sc : Scope) (p : ConstantPool) (t : TypeId) (n : Text) (hi : TypesInv sc p)
    (hn : Named sc p t n) (hd : p.definitions.length + t.depth ≤ 2 ^ 32)
    (hs : p.names.strings.length + t.depth < 2 ^ 32) :
    ∃ i sc' p', getTypeIndex sc p t = .ok (i, sc', p') ∧ TypesInv sc' p' ∧
      (∀ u m, Named sc p u m → Named sc' p' u m) ∧
      (∀ k d, p.definition k = some d → p'.definition k = some d) ∧
      (∀ m j, sc.types.get m = some j → sc'.types.get m = some j) := by
  obtain ⟨i, sc', p', h, ho⟩ := getTypeIndex_outcome t sc p n hi hn hd hs
  exact ⟨i, sc', p', h, ho.inv, fun _ _ => ho.ext.named, ho.ext.defs, ho.ext.types⟩

/-- C49: asking again gives the same index and adds nothing. -/
theorem C49_second_time_adds_nothing (sc sc' : Scope) (p p' : ConstantPool) (t : TypeId) (n : Text) (i : Idx)
    (hi : TypesInv sc p) (hn : Named sc p t n) (hd : p.definitions.length + t.depth ≤ 2 ^ 32)
    (hs : p.names.strings.length + t.depth < 2 ^ 32) (h : getTypeIndex sc p t = .ok (i, sc', p')) :
    getTypeIndex sc' p' t = .ok (i, sc', p') := by
  obtain ⟨i', sc'', p'', h', ho⟩ := getTypeIndex_outcome t sc p n hi hn hd hs
  rw [h] at h'
  cases h'
  exact getTypeIndex_known sc' p' t n i (ho.ext.named hn).repr ho.entry

/-- C49: the type read back from the returned index is the type asked for. Restricted to classes that
the scope knows under the last part of their name and to types without fixed-size arrays; the full
statement is false (see the counterexamples). -/
theorem C49_reads_back_partial (sc sc' : Scope) (p p' : ConstantPool) (t : TypeId) (n : Text) (i : Idx)
    (hi : TypesInv sc p) (hn : Named sc p t n) (hd : p.definitions.length + t.depth ≤ 2 ^ 32)
    (hs : p.names.strings.length + t.depth < 2 ^ 32) (h : getTypeIndex sc p t = .ok (i, sc', p'))
    (depth : Nat) (hdepth : t.depth ≤ depth) : resolveTypeFromPool sc' p' depth i = some t := by
  obtain ⟨i', sc'', p'', h', ho⟩ := getTypeIndex_outcome t sc p n hi hn hd hs
  rw [h] at h'
  cases h'
  exact (ho.ext.named hn).readback ho.inv ho.entry depth hdepth

/-- C49: different types have different indexes. -/
theorem C49_indexes_differ (sc sc' sc'' : Scope) (p p' p'' : ConstantPool) (t u : TypeId) (n m : Text) (i j : Idx)
    (hi : TypesInv sc p) (hn : Named sc p t n) (hm : Named sc p u m)
    (hd : p.definitions.length + (t.depth + u.depth) ≤ 2 ^ 32)
    (hs : p.names.strings.length + (t.depth + u.depth) < 2 ^ 32) (h : getTypeIndex sc p t = .ok (i, sc', p'))
    (h2 : getTypeIndex sc' p' u = .ok (j, sc'', p'')) (hne : t ≠ u) : i ≠ j := by
  obtain ⟨i', _, _, h', ho⟩ := getTypeIndex_outcome t sc p n hi hn (by omega) (by omega)
  rw [h] at h'
  cases h'
  have hd' := ho.defs
  have hs' := ho.strings
  obtain ⟨j', _, _, h2', ho2⟩ := getTypeIndex_outcome u sc' p' m ho.inv (ho.ext.named hm) (by omega) (by omega)
  rw [h2] at h2'
  cases h2'
  rintro rfl
  have r1 := (ho2.ext.named (ho.ext.named hn)).readback ho2.inv (ho2.ext.types _ _ ho.entry)
    (t.depth + u.depth) (by omega)
  have r2 := (ho2.ext.named (ho.ext.named hm)).readback ho2.inv ho2.entry (t.depth + u.depth) (by omega)
  rw [r1] at r2
  exact hne (by simpa using r2)

/-! ### Examples -/

/-- A class definition with the given name. -/
def exClassDef (name : Idx) : Definition :=
  ⟨name, 0, 0, 0, 0, .Class ⟨.pub, 0, 0, [], [], []⟩⟩

/-- Three names, a class `A` (1) and a class `M.A` (2). -/
def exTypePool : ConstantPool :=
  ⟨⟨["None", "A", "M.A"], ((AMap.empty.insert "None" 0).insert "A" 1).insert "M.A" 2⟩, .empty, .empty, .empty,
    [.default, exClassDef 1, exClassDef 2]⟩

/-- A scope that knows the class with the given index as `A`. -/
def exTypeScope (i : Idx) : Scope := ⟨AMap.empty.insert "A".toList (.Class i .pub), .empty, .empty, none, none⟩

/-- Non-vacuity: the hypotheses hold for a nested type over the class `A`. -/
example : TypesInv (exTypeScope 1) exTypePool ∧
    Named (exTypeScope 1) exTypePool (.Array (.WeakRef (.Class 1))) "array:wref:A".toList := by
  refine ⟨⟨.loaded (data := encCStr "None" ++ encCStr "A" ++ encCStr "M.A") (n := 3)
    (bs := encU32 0 ++ encU32 5 ++ encU32 7) (rest := []) (by decide +kernel) ?_, ?_, ?_, ?_, ?_⟩, ?_⟩
  · intro d hd; simp [Strings.cnameDefault] at hd; subst hd; rfl
  · intro n j h; cases h
  · intro n j h; cases h
  · intro n j h; cases h
  · intro n j h; cases h
  · refine Named.array (n := "wref:A".toList) (Named.wref (n := "A".toList) (.leaf (.named
      ⟨1, .inl rfl, ?_⟩ ?_ (by decide) (by decide) (fun j h => by cases h))))
    · decide +kernel
    · exact ⟨"A".toList, ⟨by decide, .inl rfl⟩, .inl ⟨1, .pub, rfl, rfl⟩⟩

/-- The full C49 is false for a class in a module when the scope knows another class by the last part
of its name: asking for `M.A` gives an index that reads back as `A`. -/
theorem C49_last_segment_counterexample :
    (match getTypeIndex (exTypeScope 1) exTypePool (.Class 2) with
    | .ok (i, sc, p) => resolveTypeFromPool sc p 10 i == some (.Class 1)
    | .error _ => false) = true := by
  decide +kernel

/-- The full C49 is false for fixed-size arrays: an array of `A[3]` and an array of three `array<A>` get
the same index. -/
theorem C49_static_array_counterexample :
    (match getTypeIndex (exTypeScope 1) exTypePool (.Array (.StaticArray (.Class 1) 3)) with
    | .ok (i, sc, p) =>
      match getTypeIndex sc p (.StaticArray (.Array (.Class 1)) 3) with
      | .ok (j, _, _) => i == j
      | .error _ => false
    | .error _ => false) = true := by
  decide +kernel

end Redscript
