import Verif.Unit.DeclDoneSpec
import Verif.Unit.DeclFrame
import Verif.Types.IndexProps

/-!
# The types of declarations
-/

namespace Redscript

/-! ## Names -/

theorem Strings.add_le (S : Strings) (t : String) : S.strings.length ≤ (S.add Strings.cnameDefault t).2.strings.length := by
  unfold Strings.add
  split
  · exact Nat.le_refl _
  · split
    · exact Nat.le_refl _
    · simp

theorem Strings.Later.length {S S' : Strings} (h : S.Later S') : S.strings.length ≤ S'.strings.length := by
  obtain ⟨l, rfl⟩ := h
  unfold Strings.addAll
  induction l generalizing S with
  | nil => exact Nat.le_refl _
  | cons t l ih => exact Nat.le_trans (Strings.add_le S t) ih

theorem Strings.Later.reachable {S S' : Strings} (h : S.Later S') (hr : S.Reachable Strings.cnameDefault)
    (hl : S'.strings.length + 1 < 2 ^ 32) : S'.Reachable Strings.cnameDefault := by
  obtain ⟨l, rfl⟩ := h
  induction l generalizing S with
  | nil => exact hr
  | cons t l ih =>
    refine ih (S := (S.add Strings.cnameDefault t).2) (.add t hr ?_) hl
    have h1 : (S.add Strings.cnameDefault t).2.Later ((S.add Strings.cnameDefault t).2.addAll Strings.cnameDefault l) := ⟨l, rfl⟩
    have h2 := h1.length
    have h3 := Strings.add_le S t
    have hl : ((S.add Strings.cnameDefault t).2.addAll Strings.cnameDefault l).strings.length + 1 < 2 ^ 32 := hl
    omega

/-! ## Types -/

/-- What the names of a scope stand for ends with those names, except for functions. -/
def ScopeEnds (p : ConstantPool) (sc : Scope) : Prop := ScopeFits (fun x b i => b = false → NameEnds p i x) sc

/-- The table of types has the names of the definitions. -/
def TypesNamed (sc : Scope) (p : ConstantPool) : Prop := ∀ x i, sc.types.get x = some i → p.defName i = some x

/-- The names of definitions stay. -/
def NamesStay (p p' : ConstantPool) : Prop := ∀ i t, p.defName i = some t → p'.defName i = some t

theorem TypesNamed.mono {sc : Scope} {p p' : ConstantPool} (h : TypesNamed sc p) (k : NamesStay p p') : TypesNamed sc p' :=
  fun x i hx => k _ _ (h x i hx)

theorem TypeCalled.mono {p p' : ConstantPool} (k : NamesStay p p') {w n : Text} (h : TypeCalled p w n) : TypeCalled p' w n := by
  induction h with
  | same h => exact .same (k _ _ h)
  | named h1 h2 h3 =>
    obtain ⟨t, h4, h5⟩ := h2
    exact .named h1 ⟨t, k _ _ h4, h5⟩ (k _ _ h3)
  | ref _ ih => exact .ref ih
  | wref _ ih => exact .wref ih
  | script _ ih => exact .script ih
  | array _ ih => exact .array ih
  | sized _ ih => exact .sized ih

theorem NamesType.mono {p p' : ConstantPool} (k : NamesStay p p') {t : TypeName} {i : Idx} (h : NamesType p t i) : NamesType p' t i := by
  obtain ⟨n, h1, h2⟩ := h
  exact ⟨n, k _ _ h1, h2.mono k⟩

theorem TypeId.repr_mono {p p' : ConstantPool} (k : NamesStay p p') : ∀ {t : TypeId} {n : Text}, t.repr p = some n → t.repr p' = some n
  | .Prim _, _, h | .Class _, _, h | .Struct _, _, h | .Enum _, _, h => k _ _ h
  | .Variant, _, h | .Null, _, h | .Void, _, h => h
  | .Ref t, n, h | .WeakRef t, n, h | .Array t, n, h | .ScriptRef t, n, h | .StaticArray t _, n, h => by
    simp only [TypeId.repr, Option.map_eq_some_iff] at h ⊢
    obtain ⟨m, h1, h2⟩ := h
    exact ⟨m, repr_mono k h1, h2⟩

theorem joinChar_last (c : Char) {x : Text} : ∀ {ls : List Text}, ls.getLast? = some x → joinChar c ls = x ∨ ∃ m, joinChar c ls = m ++ c :: x
  | [], h => by cases h
  | [y], h => by cases h; exact .inl rfl
  | y :: z :: ls, h => by
    rw [List.getLast?_cons_cons] at h
    refine .inr ?_
    rcases joinChar_last c h with h | ⟨m, h⟩
    · exact ⟨y, by show y ++ c :: joinChar c (z :: ls) = _; rw [h]⟩
    · exact ⟨y ++ c :: m, by show y ++ c :: joinChar c (z :: ls) = _; rw [h]; simp⟩

theorem TypesCalled.classNamed {sc : Scope} {p : ConstantPool} (h : ScopeEnds p sc) {w : Text} {ty : TypeId} (hc : sc.classNamed w = some ty) :
    ∃ n, ty.repr p = some n ∧ TypeCalled p w n := by
  unfold Scope.classNamed at hc
  have hne := splitOnChar_ne_nil '.' w
  cases hl : (splitOnChar '.' w).getLast? with
  | none => exact absurd (List.getLast?_eq_none_iff.1 hl) hne
  | some x =>
    rw [hl] at hc
    have hw := joinChar_last '.' hl
    rw [join_splitOnChar] at hw
    simp only [Option.getD_some] at hc
    split at hc
    · next i v hg =>
      cases hc
      have he := h x _ hg i (by simp [Symbol.indexes]) rfl
      obtain ⟨n, hn, _⟩ := id he
      exact ⟨n, hn, .named hw he hn⟩
    · next i v hg =>
      cases hc
      have he := h x _ hg i (by simp [Symbol.indexes]) rfl
      obtain ⟨n, hn, _⟩ := id he
      exact ⟨n, hn, .named hw he hn⟩
    · next i hg =>
      cases hc
      have he := h x _ hg i (by simp [Symbol.indexes]) rfl
      obtain ⟨n, hn, _⟩ := id he
      exact ⟨n, hn, .named hw he hn⟩
    · cases hc

/-- What the pool says about a type fits its name. -/
theorem resolveTypeFromPool_called {sc : Scope} {p : ConstantPool} (h : ScopeEnds p sc) (hs : TypeShape p) :
    ∀ {depth : Nat} {i : Idx} {w : Text} {ty : TypeId}, p.defName i = some w → resolveTypeFromPool sc p depth i = some ty →
      ∃ n, ty.repr p = some n ∧ TypeCalled p w n
  | 0, _, _, _, _, hr => by cases hr
  | depth + 1, i, w, ty, hw, hr => by
    unfold resolveTypeFromPool at hr
    cases hd : p.definition i with
    | none => rw [hd] at hr; cases hr
    | some d =>
      rw [hd] at hr
      simp only at hr
      split at hr
      · rw [hw, Option.map_some] at hr
        split at hr
        · next hv =>
          cases hr
          exact ⟨_, rfl, by rw [hv]; rw [hv] at hw; exact .same hw⟩
        · cases hr
          exact ⟨w, hw, .same hw⟩
      · rw [hw, Option.bind_some] at hr
        exact TypesCalled.classNamed h hr
      all_goals first | (cases hr; done) | skip
      all_goals
        rename_i k hv
        rw [Option.map_eq_some_iff] at hr
        obtain ⟨u, hu, rfl⟩ := hr
        obtain ⟨n, h1, h2⟩ := hs i d _ _ hd (by rw [hv]; rfl)
        rw [hw] at h2; cases h2
        obtain ⟨m, h3, h4⟩ := resolveTypeFromPool_called h hs h1 hu
        simp only [TypeId.repr, h3, Option.map_some]
        first
        | exact ⟨_, rfl, .ref h4⟩
        | exact ⟨_, rfl, .wref h4⟩
        | exact ⟨_, rfl, .array h4⟩
        | exact ⟨_, rfl, .sized h4⟩
        | exact ⟨_, rfl, .script h4⟩

mutual
/-- What is written is what the type is called. -/
theorem resolveType_called {sc : Scope} {p : ConstantPool} (h : ScopeEnds p sc) (hn : TypesNamed sc p) (hs : TypeShape p) {depth : Nat} :
    ∀ (t : TypeName) {ty : TypeId}, sc.resolveType p depth t = some ty → ∃ n, ty.repr p = some n ∧ TypeCalled p t.repr n
  | .mk x as, ty, hr => by
    unfold Scope.resolveType at hr
    cases hg : sc.types.get (TypeName.mk x as).repr with
    | some i =>
      rw [hg] at hr
      exact resolveTypeFromPool_called h hs (hn _ _ hg) hr
    | none =>
      rw [hg] at hr
      simp only at hr
      split at hr
      · next hc =>
        rw [Option.map_eq_some_iff] at hr
        obtain ⟨u, hu, rfl⟩ := hr
        obtain ⟨n, w, h1, ha, h2⟩ := resolveTypeHead_called h hn hs as hc.1 hu
        exact ⟨"ref:".toList ++ n, by simp only [TypeId.repr, h1, Option.map_some], by rw [hc.2, TypeName.repr, ha]; exact .ref h2⟩
      · split at hr
        · next hc =>
          rw [Option.map_eq_some_iff] at hr
          obtain ⟨u, hu, rfl⟩ := hr
          obtain ⟨n, w, h1, ha, h2⟩ := resolveTypeHead_called h hn hs as hc.1 hu
          exact ⟨"wref:".toList ++ n, by simp only [TypeId.repr, h1, Option.map_some], by rw [hc.2, TypeName.repr, ha]; exact .wref h2⟩
        · split at hr
          · next hc =>
            rw [Option.map_eq_some_iff] at hr
            obtain ⟨u, hu, rfl⟩ := hr
            obtain ⟨n, w, h1, ha, h2⟩ := resolveTypeHead_called h hn hs as hc.1 hu
            exact ⟨"script_ref:".toList ++ n, by simp only [TypeId.repr, h1, Option.map_some], by rw [hc.2, TypeName.repr, ha]; exact .script h2⟩
          · split at hr
            · next hc =>
              rw [Option.map_eq_some_iff] at hr
              obtain ⟨u, hu, rfl⟩ := hr
              obtain ⟨n, w, h1, ha, h2⟩ := resolveTypeHead_called h hn hs as hc.1 hu
              exact ⟨"array:".toList ++ n, by simp only [TypeId.repr, h1, Option.map_some], by rw [hc.2, TypeName.repr, ha]; exact .array h2⟩
            · split at hr
              · next i v hg' =>
                cases hr
                have he := h _ _ hg' i (by simp [Symbol.indexes]) rfl
                obtain ⟨n, hn', _⟩ := id he
                exact ⟨n, hn', .named (.inl rfl) he hn'⟩
              · next i v hg' =>
                cases hr
                have he := h _ _ hg' i (by simp [Symbol.indexes]) rfl
                obtain ⟨n, hn', _⟩ := id he
                exact ⟨n, hn', .named (.inl rfl) he hn'⟩
              · next i hg' =>
                cases hr
                have he := h _ _ hg' i (by simp [Symbol.indexes]) rfl
                obtain ⟨n, hn', _⟩ := id he
                exact ⟨n, hn', .named (.inl rfl) he hn'⟩
              · cases hr
theorem resolveTypeHead_called {sc : Scope} {p : ConstantPool} (h : ScopeEnds p sc) (hn : TypesNamed sc p) (hs : TypeShape p) {depth : Nat} :
    ∀ (as : List TypeName) {ty : TypeId}, as.length = 1 → sc.resolveTypeHead p depth as = some ty →
      ∃ n w, ty.repr p = some n ∧ TypeName.reprArgs as = ':' :: w ∧ TypeCalled p w n
  | [], _, hl, _ => by cases hl
  | a :: as, ty, hl, hr => by
    unfold Scope.resolveTypeHead at hr
    obtain ⟨n, h1, h2⟩ := resolveType_called h hn hs a hr
    have : as = [] := List.length_eq_zero_iff.1 (by simpa using hl)
    subst this
    exact ⟨n, a.repr, h1, by simp [TypeName.reprArgs], h2⟩
end

/-! ## The index of a type -/

theorem TypesAdded.namesStay {p p' : ConstantPool} (h : TypesAdded p p') : NamesStay p p' := by
  obtain ⟨h1, ds, h2, _⟩ := h
  intro i t ht
  unfold ConstantPool.defName at ht ⊢
  cases hd : p.definition i with
  | none => rw [hd] at ht; cases ht
  | some d =>
    have hd : p.definitions[i.toNat]? = some d := hd
    have hd' : p'.definition i = some d := by
      show p'.definitions[i.toNat]? = some d
      rw [h2, List.getElem?_append_left (List.getElem?_eq_some_iff.1 hd).1]
      exact hd
    rw [show p.definition i = some d from hd] at ht
    rw [hd']
    simp only [Option.bind_some, Option.map_eq_some_iff] at ht ⊢
    obtain ⟨u, h3, h4⟩ := ht
    exact ⟨u, h1.keeps h3, h4⟩

/-- A definition is added that is no reference or array, or is named after what it is made of. -/
theorem TypeShape.add {p p' : ConstantPool} (h : TypeShape p) (hk : NamesStay p p') {d : Definition} (hd : p'.definitions = p.definitions ++ [d])
    (hw : ∀ j k g, p'.definition j = some d → d.value.wraps = some (k, g) → ∃ n, p'.defName k = some n ∧ p'.defName j = some (g n)) : TypeShape p' := by
  intro j e k g he hg
  have he' : p'.definitions[j.toNat]? = some e := he
  rw [hd] at he'
  by_cases hj : j.toNat < p.definitions.length
  · rw [List.getElem?_append_left hj] at he'
    obtain ⟨n, h1, h2⟩ := h j e k g he' hg
    exact ⟨n, hk _ _ h1, hk _ _ h2⟩
  · have : e = d := by
      rw [List.getElem?_append_right (Nat.not_lt.1 hj)] at he'
      cases hn : j.toNat - p.definitions.length with
      | zero => rw [hn] at he'; simpa using he'.symm
      | succ n => rw [hn] at he'; simp at he'
    subst this
    exact hw j k g he hg

/-- Every definition is no reference or array, or was there before. -/
theorem TypeShape.same {p p' : ConstantPool} (h : TypeShape p) (hk : NamesStay p p')
    (hd : ∀ j d, p'.definition j = some d → d.value.wraps = none ∨ ∃ e, p.definition j = some e ∧ e.value = d.value) : TypeShape p' := by
  intro j d k g hj hg
  rcases hd j d hj with hw | ⟨e, he, hv⟩
  · rw [hw] at hg; cases hg
  · obtain ⟨n, h1, h2⟩ := h j e k g he (by rw [hv]; exact hg)
    exact ⟨n, hk _ _ h1, hk _ _ h2⟩

theorem getTypeIndex_repr {sc sc' : Scope} {p p' : ConstantPool} {t : TypeId} {i : Idx} (h : getTypeIndex sc p t = .ok (i, sc', p')) :
    ∃ n, t.repr p = some n := by
  cases hr : t.repr p with
  | some n => exact ⟨n, rfl⟩
  | none =>
    cases t <;> (rw [getTypeIndex, hr] at h; cases h)

theorem typeEntry_named {sc sc' : Scope} {p p' : ConstantPool} {name : Text} {i : Idx}
    {inner : Scope → ConstantPool → Except Err (PoolType × Scope × ConstantPool)}
    (hn : p.names.Reachable Strings.cnameDefault) (ht : TypesNamed sc p) (hs : TypeShape p)
    (ha : ∀ p v sc1 p1, inner sc p = .ok (v, sc1, p1) → TypesAdded p p1)
    (hi : ∀ n, n.Reachable Strings.cnameDefault → TypesAdded p { p with names := n } →
      ∀ v sc1 p1, inner sc { p with names := n } = .ok (v, sc1, p1) → p1.definitions.length ≤ 2 ^ 32 → p1.names.strings.length + 1 < 2 ^ 32 →
      TypesNamed sc1 p1 ∧ TypeShape p1 ∧ ∀ k g, (AnyDefinition.Type v).wraps = some (k, g) → ∃ n, p1.defName k = some n ∧ name = g n)
    (h : typeEntry sc p (some name) inner = .ok (i, sc', p')) (hl : p'.definitions.length ≤ 2 ^ 32) (hl' : p'.names.strings.length + 1 < 2 ^ 32) :
    p'.defName i = some name ∧ TypesNamed sc' p' ∧ TypeShape p' := by
  unfold typeEntry at h
  simp only at h
  cases hg : sc.types.get name with
  | some j => rw [hg] at h; cases h; exact ⟨ht _ _ hg, ht, hs⟩
  | none =>
    rw [hg] at h
    simp only at h
    cases hin : inner sc { p with names := (p.names.add Strings.cnameDefault (String.ofList name)).2 } with
    | error e => rw [hin] at h; cases h
    | ok r =>
      obtain ⟨v, sc1, p1⟩ := r
      rw [hin] at h
      simp only [Except.ok.injEq, Prod.mk.injEq] at h
      obtain ⟨rfl, rfl, rfl⟩ := h
      have hl : (p1.definitions ++ [typeDefinition (p.names.add Strings.cnameDefault (String.ofList name)).1 v]).length ≤ 2 ^ 32 := hl
      have hl' : p1.names.strings.length + 1 < 2 ^ 32 := hl'
      rw [List.length_append, List.length_singleton] at hl
      have hadd : TypesAdded p { p with names := (p.names.add Strings.cnameDefault (String.ofList name)).2 } := ⟨.add _ _, [], by simp, by simp⟩
      have hadd1 := ha _ _ _ _ hin
      have hlt : p.names.strings.length + 1 < 2 ^ 32 := by
        have h1 := hadd.1.length
        have h2 := hadd1.1.length
        omega
      obtain ⟨h1, h2, h3⟩ := hi _ (.add _ hn hlt) hadd v sc1 p1 hin (by omega) hl'
      have hname : p1.names.get Strings.cnameDefault (p.names.add Strings.cnameDefault (String.ofList name)).1 = some (String.ofList name) :=
        hadd1.1.keeps (C11_add_reads_back _ _ hn hlt _)
      have hidx : (BitVec.ofNat 32 p1.definitions.length).toNat = p1.definitions.length := by
        rw [BitVec.toNat_ofNat, Nat.mod_eq_of_lt (by omega)]
      have hk : NamesStay p1 (p1.addDefinition (typeDefinition (p.names.add Strings.cnameDefault (String.ofList name)).1 v)).2 :=
        TypesAdded.namesStay ⟨.refl _, [_], rfl, fun d hd => ⟨_, _, List.mem_singleton.1 hd⟩⟩
      have hdn : ∀ j, (p1.addDefinition (typeDefinition (p.names.add Strings.cnameDefault (String.ofList name)).1 v)).2.definition j =
          some (typeDefinition (p.names.add Strings.cnameDefault (String.ofList name)).1 v) →
          (p1.addDefinition (typeDefinition (p.names.add Strings.cnameDefault (String.ofList name)).1 v)).2.defName j = some name := by
        intro j hj
        unfold ConstantPool.defName
        rw [hj]
        show (p1.names.get Strings.cnameDefault (p.names.add Strings.cnameDefault (String.ofList name)).1).map _ = _
        rw [hname]; simp
      have hi' : (p1.addDefinition (typeDefinition (p.names.add Strings.cnameDefault (String.ofList name)).1 v)).2.defName
          (p1.addDefinition (typeDefinition (p.names.add Strings.cnameDefault (String.ofList name)).1 v)).1 = some name := by
        refine hdn _ ?_
        show (p1.definitions ++ [_])[(BitVec.ofNat 32 p1.definitions.length).toNat]? = _
        rw [hidx]; simp
      refine ⟨hi', fun x j hx => ?_, h2.add hk rfl fun j k g hj hg => ?_⟩
      · by_cases hxn : name = x
        · subst hxn
          have hx : (sc1.types.insert name _).get name = some j := hx
          rw [AMap.get_insert_self] at hx; cases hx
          exact hi'
        · have hx : (sc1.types.insert name _).get x = some j := hx
          rw [AMap.get_insert_ne _ _ (fun e => hxn e.symm)] at hx
          exact hk _ _ (h1 x j hx)
      · obtain ⟨n, h4, h5⟩ := h3 k g hg
        exact ⟨n, hk _ _ h4, by rw [hdn j hj, h5]⟩

/-- The index of a type has the name of the type. -/
theorem getTypeIndex_named : ∀ (t : TypeId) {sc sc' : Scope} {p p' : ConstantPool} {i : Idx} {name : Text},
    p.names.Reachable Strings.cnameDefault → TypesNamed sc p → TypeShape p → t.repr p = some name →
    getTypeIndex sc p t = .ok (i, sc', p') → p'.definitions.length ≤ 2 ^ 32 → p'.names.strings.length + 1 < 2 ^ 32 →
    p'.defName i = some name ∧ TypesNamed sc' p' ∧ TypeShape p'
  | .Prim _, sc, _, p, _, _, name, hn, ht, hs, hr, h, hl, hl' | .Variant, sc, _, p, _, _, name, hn, ht, hs, hr, h, hl, hl'
  | .Class _, sc, _, p, _, _, name, hn, ht, hs, hr, h, hl, hl' | .Struct _, sc, _, p, _, _, name, hn, ht, hs, hr, h, hl, hl'
  | .Enum _, sc, _, p, _, _, name, hn, ht, hs, hr, h, hl, hl' => by
    unfold getTypeIndex at h
    rw [hr] at h
    refine typeEntry_named hn ht hs (fun p v sc1 p1 hi => by cases hi; exact .refl _) (fun n _ hadd v sc1 p1 hi _ _ => ?_) h hl hl'
    cases hi
    refine ⟨ht.mono hadd.namesStay, fun j d k g hd hg => ?_, fun k g hg => by cases hg⟩
    obtain ⟨m, h1, h2⟩ := hs j d k g hd hg
    exact ⟨m, hadd.namesStay _ _ h1, hadd.namesStay _ _ h2⟩
  | .Null, sc, _, p, _, _, name, hn, ht, hs, hr, h, hl, hl' | .Void, sc, _, p, _, _, name, hn, ht, hs, hr, h, hl, hl' => by
    unfold getTypeIndex at h
    rw [hr] at h
    exact typeEntry_named hn ht hs (fun p v sc1 p1 hi => by cases hi) (fun n _ hadd v sc1 p1 hi _ _ => by cases hi) h hl hl'
  | .Ref t, sc, _, p, _, _, name, hn, ht, hs, hr, h, hl, hl' | .WeakRef t, sc, _, p, _, _, name, hn, ht, hs, hr, h, hl, hl'
  | .Array t, sc, _, p, _, _, name, hn, ht, hs, hr, h, hl, hl' | .StaticArray t _, sc, _, p, _, _, name, hn, ht, hs, hr, h, hl, hl'
  | .ScriptRef t, sc, _, p, _, _, name, hn, ht, hs, hr, h, hl, hl' => by
    unfold getTypeIndex at h
    rw [hr] at h
    refine typeEntry_named hn ht hs (fun p v sc1 p1 hi => ?_) (fun n hn' hadd v sc1 p1 hi hl hl' => ?_) h hl hl'
    · cases he : getTypeIndex sc p t with
      | error e => rw [he] at hi; cases hi
      | ok r =>
        obtain ⟨j, sc2, p2⟩ := r
        rw [he] at hi; cases hi
        exact (getTypeIndex_adds t he).1
    · cases he : getTypeIndex sc { p with names := n } t with
      | error e => rw [he] at hi; cases hi
      | ok r =>
        obtain ⟨j, sc2, p2⟩ := r
        rw [he] at hi; cases hi
        simp only [TypeId.repr, Option.map_eq_some_iff] at hr
        obtain ⟨m, h1, rfl⟩ := hr
        have hs' : TypeShape { p with names := n } := fun j d k g hd hg => by
          obtain ⟨m, h1, h2⟩ := hs j d k g hd hg
          exact ⟨m, hadd.namesStay _ _ h1, hadd.namesStay _ _ h2⟩
        obtain ⟨k1, k2, k3⟩ := getTypeIndex_named t hn' (ht.mono hadd.namesStay) hs' (TypeId.repr_mono hadd.namesStay h1) he hl hl'
        refine ⟨k2, k3, fun k g hg => ?_⟩
        cases hg
        exact ⟨m, k1, rfl⟩

/-! ## Imports do not touch the types -/

theorem addSymbol_types (sc : Scope) (x : Text) (sym : Symbol) : (sc.addSymbol x sym).types = sc.types := by
  unfold Scope.addSymbol
  cases sym with
  | Functions fs =>
    simp only
    split <;> rfl
  | _ => rfl

theorem importOne_types {m : SymbolMap} {path : ModulePath} {level : Visibility} {sc sc' : Scope}
    (hi : m.importOne path level sc = .ok sc') : sc'.types = sc.types := by
  unfold SymbolMap.importOne at hi
  split at hi
  · cases hi
  · split at hi
    · cases hi; rfl
    · split at hi
      · cases hi
      · cases hi; exact addSymbol_types _ _ _

theorem importSelected_types {m : SymbolMap} {path : ModulePath} {level : Visibility} : ∀ (ns : List Text) {sc sc' : Scope},
    m.importSelected path level ns sc = .ok sc' → sc'.types = sc.types
  | [], sc, sc', hi => by cases hi; rfl
  | n :: ns, sc, sc', hi => by
    unfold SymbolMap.importSelected at hi
    cases h1 : m.importOne (path.withChild n) level sc with
    | error e => rw [h1] at hi; cases hi
    | ok sc1 => rw [h1] at hi; exact (importSelected_types ns hi).trans (importOne_types h1)

theorem importChildren_types {level : Visibility} : ∀ (cs : List (Text × Symbol)) (sc : Scope),
    (cs.foldl (SymbolMap.importChild level) sc).types = sc.types
  | [], _ => rfl
  | c :: cs, sc => by
    rw [List.foldl_cons, importChildren_types cs]
    unfold SymbolMap.importChild
    split
    · rfl
    · exact addSymbol_types _ _ _

theorem populateImport_types {m : SymbolMap} {imp : Import} {level : Visibility} {sc sc' : Scope}
    (hi : m.populateImport imp level sc = .ok sc') : sc'.types = sc.types := by
  cases imp with
  | Exact path => exact importOne_types hi
  | Selected path ns => exact importSelected_types ns hi
  | All path =>
    unfold SymbolMap.populateImport at hi
    simp only at hi
    cases hc : m.directChildren path with
    | none => rw [hc] at hi; cases hi
    | some cs => rw [hc] at hi; cases hi; exact importChildren_types cs sc

theorem TypesNamed.of_types {sc sc' : Scope} {p : ConstantPool} (h : TypesNamed sc p) (ht : sc'.types = sc.types) : TypesNamed sc' p :=
  fun x i hx => h x i (by rw [← ht]; exact hx)

end Redscript
