import Verif.Types.Model

/-!
# C21, C22: conversions and least upper bounds
-/

namespace Redscript

/-- A class is a (reflexive, transitive) subclass of another. -/
inductive SubClass (h : Hierarchy) : Idx → Idx → Prop
  | refl (c) : SubClass h c c
  | step {c d v} : h.view c = some v → v.base ≠ 0 → SubClass h v.base d → SubClass h c d

/-- A value of the first type can be used as one of the second without any change: equal types, null
as a strong reference, a subclass as its superclass, and references of one kind to such. -/
inductive Widens (h : Hierarchy) : TypeId → TypeId → Prop
  | refl (t) : Widens h t t
  | null (t) : Widens h .Null (.Ref t)
  | cls {c d} : SubClass h c d → Widens h (.Class c) (.Class d)
  | str {c d} : SubClass h c d → Widens h (.Struct c) (.Struct d)
  | ref {a b} : Widens h a b → Widens h (.Ref a) (.Ref b)
  | weak {a b} : Widens h a b → Widens h (.WeakRef a) (.WeakRef b)

/-- The documented implicit conversions. -/
inductive Converts (h : Hierarchy) : TypeId → TypeId → Conversion → Prop
  | identity {a b} : Widens h a b → Converts h a b .Identity
  | nullWeak (t) : Converts h .Null (.WeakRef t) .RefToWeakRef
  | toWeak {a b} : Widens h a b → Converts h (.Ref a) (.WeakRef b) .RefToWeakRef
  | toStrong {a b} : Widens h a b → Converts h (.WeakRef a) (.Ref b) .WeakRefToRef
  | toScriptRef {a b} : Widens h a b → Converts h a (.ScriptRef b) .ToScriptRef
  | toVariant {a} : a ≠ .Variant → Converts h a .Variant .ToVariant

theorem SubClass.trans {h : Hierarchy} {a b c : Idx} (h1 : SubClass h a b) (h2 : SubClass h b c) :
    SubClass h a c := by
  induction h1 with
  | refl => exact h2
  | step hv hb _ ih => exact .step hv hb (ih h2)

theorem SubClass.rank_le {h : Hierarchy} {a b : Idx} (h1 : SubClass h a b) : a = b ∨ h.rank b < h.rank a := by
  induction h1 with
  | refl => exact .inl rfl
  | step hv hb _ ih =>
    have := h.drops _ _ hv hb
    rcases ih with rfl | ih
    · exact .inr this
    · exact .inr (by omega)

theorem SubClass.antisymm {h : Hierarchy} {a b : Idx} (h1 : SubClass h a b) (h2 : SubClass h b a) : a = b := by
  rcases h1.rank_le with e | h1
  · exact e
  · rcases h2.rank_le with e | h2
    · exact e.symm
    · omega

theorem Widens.trans {h : Hierarchy} {a b c : TypeId} (h1 : Widens h a b) (h2 : Widens h b c) :
    Widens h a c := by
  induction h1 generalizing c with
  | refl => exact h2
  | null t => cases h2 <;> exact .null _
  | cls s => cases h2 with
    | refl => exact .cls s
    | cls s' => exact .cls (s.trans s')
  | str s => cases h2 with
    | refl => exact .str s
    | str s' => exact .str (s.trans s')
  | ref w ih => cases h2 with
    | refl => exact .ref w
    | ref w' => exact .ref (ih w')
  | weak w ih => cases h2 with
    | refl => exact .weak w
    | weak w' => exact .weak (ih w')

theorem Widens.antisymm {h : Hierarchy} {a b : TypeId} (h1 : Widens h a b) (h2 : Widens h b a) : a = b := by
  induction h1 with
  | refl => rfl
  | null t => cases h2
  | cls s => cases h2 with
    | refl => rfl
    | cls s' => rw [s.antisymm s']
  | str s => cases h2 with
    | refl => rfl
    | str s' => rw [s.antisymm s']
  | ref w ih => cases h2 with
    | refl => rfl
    | ref w' => rw [ih w']
  | weak w ih => cases h2 with
    | refl => rfl
    | weak w' => rw [ih w']

namespace Hierarchy

theorem findConversion_widens {h : Hierarchy} {a b : TypeId} (w : Widens h a b) :
    h.findConversion a b = some (some .Identity) := by
  induction w with
  | refl t => rw [findConversion.eq_def, if_pos rfl]
  | null t => rw [findConversion.eq_def, if_neg (by simp)]
  | cls s =>
    induction s with
    | refl => rw [findConversion.eq_def, if_pos rfl]
    | step hv hb _ ih =>
      rw [findConversion.eq_def]
      split
      · rfl
      · simp only
        split
        · rename_i hv'; rw [hv] at hv'; cases hv'
        · rename_i hv'; rw [hv] at hv'; cases hv'
          rw [dif_pos hb, ih]
  | str s =>
    induction s with
    | refl => rw [findConversion.eq_def, if_pos rfl]
    | step hv hb _ ih =>
      rw [findConversion.eq_def]
      split
      · rfl
      · simp only
        split
        · rename_i hv'; rw [hv] at hv'; cases hv'
        · rename_i hv'; rw [hv] at hv'; cases hv'
          rw [dif_pos hb, ih]
  | ref _ ih =>
    rw [findConversion.eq_def]
    split
    · rfl
    · simp only [ih]; rfl
  | weak _ ih =>
    rw [findConversion.eq_def]
    split
    · rfl
    · simp only [ih]; rfl

theorem widens_scriptRef_ne {h : Hierarchy} {a b : TypeId} (w : Widens h a b) : a ≠ .ScriptRef b := by
  intro he
  subst he
  have : ∀ x y : TypeId, Widens h x y → (∃ z, x = .ScriptRef z) → x = y := by
    intro x y w ⟨z, hz⟩
    cases w <;> first | rfl | cases hz
  have := this _ _ w ⟨_, rfl⟩
  have := congrArg sizeOf this
  simp +arith at this

theorem findConversion_complete {h : Hierarchy} {a b : TypeId} {c : Conversion} (k : Converts h a b c) :
    h.findConversion a b = some (some c) := by
  cases k with
  | identity w => exact findConversion_widens w
  | nullWeak t => rw [findConversion.eq_def, if_neg (by simp)]
  | toWeak w => rw [findConversion.eq_def, if_neg (by simp)]; simp [findConversion_widens w]
  | toStrong w => rw [findConversion.eq_def, if_neg (by simp)]; simp [findConversion_widens w]
  | toScriptRef w =>
    rw [findConversion.eq_def, if_neg (widens_scriptRef_ne w)]
    cases a <;> simp [findConversion_widens w]
  | toVariant hv =>
    rw [findConversion.eq_def, if_neg hv]
    cases a <;> simp

theorem onlyIdentity_some {r : Option Conversion} {c : Conversion} (h : onlyIdentity r = some c) :
    r = some .Identity ∧ c = .Identity := by
  unfold onlyIdentity at h
  split at h
  · cases h; exact ⟨rfl, rfl⟩
  · cases h

theorem _root_.Redscript.Converts.widens {h : Hierarchy} {a b : TypeId} (k : Converts h a b .Identity) : Widens h a b := by
  cases k; assumption

theorem findConversion_sound (h : Hierarchy) (a b : TypeId) (c : Conversion)
    (hf : h.findConversion a b = some (some c)) : Converts h a b c := by
  fun_induction h.findConversion a b generalizing c with
  | case1 a => cases hf; exact .identity (.refl _)
  | case2 => cases hf; exact .identity (.null _)
  | case3 => cases hf; exact .nullWeak _
  | case4 => cases hf
  | case5 c d v hv hb _ ih =>
    have := ih _ hf
    cases this with
    | identity w => cases w with
      | refl => exact .identity (.cls (.step hv hb (.refl _)))
      | cls s => exact .identity (.cls (.step hv hb s))
  | case6 => cases hf
  | case7 => cases hf
  | case8 c d v hv hb _ ih =>
    have := ih _ hf
    cases this with
    | identity w => cases w with
      | refl => exact .identity (.str (.step hv hb (.refl _)))
      | str s => exact .identity (.str (.step hv hb s))
  | case9 => cases hf
  | case10 a b _ ih =>
    obtain ⟨r, hr, ho⟩ := Option.map_eq_some_iff.1 hf
    obtain ⟨rfl, rfl⟩ := onlyIdentity_some ho
    exact .identity (.ref (ih _ hr).widens)
  | case11 a b _ ih =>
    obtain ⟨r, hr, ho⟩ := Option.map_eq_some_iff.1 hf
    obtain ⟨rfl, rfl⟩ := onlyIdentity_some ho
    exact .identity (.weak (ih _ hr).widens)
  | case12 a b _ ih =>
    obtain ⟨r, hr, ho⟩ := Option.map_eq_some_iff.1 hf
    split at ho
    · rename_i he; subst he; cases ho; exact .toStrong (ih _ hr).widens
    · cases ho
  | case13 a b _ ih =>
    obtain ⟨r, hr, ho⟩ := Option.map_eq_some_iff.1 hf
    split at ho
    · rename_i he; subst he; cases ho; exact .toWeak (ih _ hr).widens
    · cases ho
  | case14 a b _ ih =>
    obtain ⟨r, hr, ho⟩ := Option.map_eq_some_iff.1 hf
    split at ho
    · rename_i he; subst he; cases ho; exact .toScriptRef (ih _ hr).widens
    · cases ho
  | case15 a ha => cases hf; exact .toVariant ha
  | case16 => cases hf

end Hierarchy

/-- The classes and structs a type mentions. -/
def TypeId.classes : TypeId → List Idx
  | .Class c | .Struct c => [c]
  | .Ref t | .WeakRef t | .Array t | .StaticArray t _ | .ScriptRef t => t.classes
  | .Prim _ | .Enum _ | .Variant | .Null | .Void => []

/-- Every base of a class is a class. -/
def Hierarchy.Closed (h : Hierarchy) : Prop :=
  ∀ c v, h.view c = some v → v.base ≠ 0 → (h.view v.base).isSome

/-- The classes of the type exist. -/
def TypeId.Known (h : Hierarchy) (t : TypeId) : Prop := ∀ c ∈ t.classes, (h.view c).isSome

/-! ### C21 -/

/-- C21: a conversion is found exactly when the rules allow it. -/
theorem C21_found_iff_allowed (h : Hierarchy) (a b : TypeId) (c : Conversion) :
    h.findConversion a b = some (some c) ↔ Converts h a b c :=
  ⟨h.findConversion_sound a b c, Hierarchy.findConversion_complete⟩

/-- C21: over existing classes the search always gives an answer, so when none is found no rule
applies. -/
theorem C21_answers (h : Hierarchy) (hc : h.Closed) (a b : TypeId) (ha : a.Known h) :
    h.findConversion a b ≠ none := by
  fun_induction h.findConversion a b with
  | case4 c d hv _ =>
    have := ha c (by simp [TypeId.classes])
    rw [hv] at this; cases this
  | case5 c d v hv hb _ ih =>
    refine ih ?_
    intro x hx
    simp only [TypeId.classes, List.mem_singleton] at hx
    subst hx
    exact hc c v hv hb
  | case7 c d hv _ =>
    have := ha c (by simp [TypeId.classes])
    rw [hv] at this; cases this
  | case8 c d v hv hb _ ih =>
    refine ih ?_
    intro x hx
    simp only [TypeId.classes, List.mem_singleton] at hx
    subst hx
    exact hc c v hv hb
  | case10 a b _ ih => simpa using ih fun x hx => ha x (by simpa [TypeId.classes] using hx)
  | case11 a b _ ih => simpa using ih fun x hx => ha x (by simpa [TypeId.classes] using hx)
  | case12 a b _ ih => simpa using ih fun x hx => ha x (by simpa [TypeId.classes] using hx)
  | case13 a b _ ih => simpa using ih fun x hx => ha x (by simpa [TypeId.classes] using hx)
  | case14 a b _ ih => simpa using ih ha
  | _ => simp

/-- C21: the conversion is determined by the two types. -/
theorem C21_deterministic (h : Hierarchy) (a b : TypeId) (c c' : Conversion) (h1 : Converts h a b c)
    (h2 : Converts h a b c') : c = c' := by
  have := (C21_found_iff_allowed h a b c).2 h1
  rw [(C21_found_iff_allowed h a b c').2 h2] at this
  cases this; rfl

/-- C21: identity conversions compose. -/
theorem C21_identity_transitive (h : Hierarchy) (a b c : TypeId)
    (h1 : h.findConversion a b = some (some .Identity)) (h2 : h.findConversion b c = some (some .Identity)) :
    h.findConversion a c = some (some .Identity) :=
  Hierarchy.findConversion_widens
    (((C21_found_iff_allowed _ _ _ _).1 h1).widens.trans ((C21_found_iff_allowed _ _ _ _).1 h2).widens)

/-- C21: identity conversions in both directions only exist between equal types. -/
theorem C21_identity_antisymmetric (h : Hierarchy) (a b : TypeId)
    (h1 : h.findConversion a b = some (some .Identity)) (h2 : h.findConversion b a = some (some .Identity)) :
    a = b :=
  ((C21_found_iff_allowed _ _ _ _).1 h1).widens.antisymm ((C21_found_iff_allowed _ _ _ _).1 h2).widens

/-- A hierarchy for the examples: 3 and 4 extend 2, 2 extends 1, 5 stands alone. -/
def exClasses : Hierarchy where
  view c := if c = 1 then some ⟨0, [], []⟩ else if c = 2 then some ⟨1, [], []⟩
    else if c = 3 then some ⟨2, [], []⟩ else if c = 4 then some ⟨2, [], []⟩
    else if c = 5 then some ⟨0, [], []⟩ else none
  rank c := c.toNat
  drops := by
    intro c v hv hb
    by_cases h1 : c = 1
    · rw [if_pos h1] at hv; cases hv; exact absurd rfl hb
    · rw [if_neg h1] at hv
      by_cases h2 : c = 2
      · rw [if_pos h2] at hv; cases hv; subst h2; decide
      · rw [if_neg h2] at hv
        by_cases h3 : c = 3
        · rw [if_pos h3] at hv; cases hv; subst h3; decide
        · rw [if_neg h3] at hv
          by_cases h4 : c = 4
          · rw [if_pos h4] at hv; cases hv; subst h4; decide
          · rw [if_neg h4] at hv
            by_cases h5 : c = 5
            · rw [if_pos h5] at hv; cases hv; exact absurd rfl hb
            · rw [if_neg h5] at hv; cases hv

/-- Non-vacuity of C21. -/
example :
    exClasses.findConversion (.Ref (.Class 3)) (.Ref (.Class 1)) = some (some .Identity) ∧
    exClasses.findConversion (.WeakRef (.Class 3)) (.Ref (.Class 2)) = some (some .WeakRefToRef) ∧
    exClasses.findConversion (.Ref (.Class 1)) (.Ref (.Class 3)) = some none ∧
    exClasses.findConversion (.Class 3) (.ScriptRef (.Class 1)) = some (some .ToScriptRef) ∧
    exClasses.findConversion (.Array (.Class 3)) .Variant = some (some .ToVariant) := by
  have h32 : SubClass exClasses 3 2 := .step rfl (by decide) (.refl _)
  have h31 : SubClass exClasses 3 1 := .step rfl (by decide) (.step rfl (by decide) (.refl _))
  refine ⟨Hierarchy.findConversion_complete (.identity (.ref (.cls h31))),
    Hierarchy.findConversion_complete (.toStrong (.cls h32)), ?_,
    Hierarchy.findConversion_complete (.toScriptRef (.cls h31)),
    Hierarchy.findConversion_complete (.toVariant (by decide))⟩
  simp [Hierarchy.findConversion, exClasses, Hierarchy.onlyIdentity]

/-! ### C22 -/

namespace Hierarchy

theorem collectSupertypes_split (h : Hierarchy) (c : Idx) (as : List Idx) (hs : h.collectSupertypes c = some as)
    (pre post : List Idx) (x : Idx) (he : as = pre ++ x :: post) :
    h.collectSupertypes x = some (pre ++ [x]) ∧ SubClass h c x := by
  fun_induction h.collectSupertypes c generalizing as pre post with
  | case1 => cases hs; simp at he
  | case2 => cases hs
  | case3 c hc v hv hb ih =>
    obtain ⟨bs, hbs, rfl⟩ := Option.map_eq_some_iff.1 hs
    rcases List.eq_nil_or_concat post with rfl | ⟨q, y, rfl⟩
    · have := List.append_inj' he rfl
      obtain ⟨rfl, hx⟩ := this
      simp only [List.cons.injEq, and_true] at hx
      subst hx
      refine ⟨?_, .refl _⟩
      rw [collectSupertypes, if_neg hc]
      split
      · rename_i hv'; rw [hv] at hv'; cases hv'
      · rename_i hv'; rw [hv] at hv'; cases hv'
        rw [dif_pos hb, hbs]; rfl
    · have h' : bs ++ [c] = (pre ++ x :: q) ++ [y] := by simpa using he
      obtain ⟨h1, _⟩ := List.append_inj' h' rfl
      have := ih _ hbs _ _ h1
      exact ⟨this.1, .step hv hb this.2⟩
  | case4 c hc v hv hb =>
    cases hs
    cases pre with
    | nil =>
      simp only [List.nil_append, List.cons.injEq] at he
      obtain ⟨rfl, rfl⟩ := he
      refine ⟨?_, .refl _⟩
      rw [collectSupertypes, if_neg hc]
      split
      · rename_i hv'; rw [hv] at hv'; cases hv'
      · rename_i hv'; rw [hv] at hv'; cases hv'
        rw [dif_neg hb]; rfl
    | cons p ps => simp at he

theorem collectSupertypes_mem {h : Hierarchy} {c d : Idx} {as : List Idx} (hs : h.collectSupertypes c = some as)
    (hd : d ∈ as) : SubClass h c d := by
  obtain ⟨pre, post, he⟩ := List.append_of_mem hd
  exact (h.collectSupertypes_split c as hs pre post d he).2

theorem collectSupertypes_prefix {h : Hierarchy} {c d : Idx} (hsub : SubClass h c d) (hc : c ≠ 0)
    {as : List Idx} (hs : h.collectSupertypes c = some as) :
    ∃ pre post, as = pre ++ d :: post ∧ h.collectSupertypes d = some (pre ++ [d]) := by
  induction hsub generalizing as with
  | refl c =>
    have : ∃ pre, as = pre ++ [c] := by
      rw [collectSupertypes, if_neg hc] at hs
      split at hs
      · cases hs
      split at hs
      · obtain ⟨bs, _, rfl⟩ := Option.map_eq_some_iff.1 hs
        exact ⟨bs, rfl⟩
      · cases hs; exact ⟨[], rfl⟩
    obtain ⟨pre, rfl⟩ := this
    exact ⟨pre, [], rfl, hs⟩
  | step hv hb _ ih =>
    rename_i c d v _
    rw [collectSupertypes, if_neg hc] at hs
    split at hs
    · cases hs
    rename_i hv'; rw [hv] at hv'; cases hv'
    rw [dif_pos hb] at hs
    obtain ⟨bs, hbs, rfl⟩ := Option.map_eq_some_iff.1 hs
    obtain ⟨pre, post, he, h2⟩ := ih hb hbs
    exact ⟨pre, post ++ [c], by simp [he], h2⟩

theorem lastCommon_some {as bs : List Idx} {x : Idx} (h : lastCommon as bs = some x) :
    ∃ pre ra rb, as = pre ++ x :: ra ∧ bs = pre ++ x :: rb ∧
      ∀ ds, ds <+: as → ds <+: bs → ds <+: pre ++ [x] := by
  induction as generalizing bs x with
  | nil => simp [lastCommon] at h
  | cons a as ih =>
    cases bs with
    | nil => simp [lastCommon] at h
    | cons b bs =>
      rw [lastCommon] at h
      by_cases hab : a = b
      · rw [if_pos hab, Option.some.injEq] at h
        subst hab
        cases hl : lastCommon as bs with
        | none =>
          rw [hl] at h
          simp only [Option.getD_none] at h
          subst h
          refine ⟨[], as, bs, rfl, rfl, ?_⟩
          intro ds h1 h2
          cases ds with
          | nil => simp
          | cons d ds =>
            rw [List.cons_prefix_cons] at h1 h2
            obtain ⟨rfl, h1⟩ := h1
            cases ds with
            | nil => simp
            | cons e ds =>
              exfalso
              obtain ⟨r1, rfl⟩ := h1
              obtain ⟨r2, rfl⟩ := h2.2
              simp [lastCommon] at hl
        | some y =>
          rw [hl] at h
          simp only [Option.getD_some] at h
          subst h
          obtain ⟨pre, ra, rb, h1, h2, h3⟩ := ih hl
          refine ⟨a :: pre, ra, rb, by simp [h1], by simp [h2], ?_⟩
          intro ds g1 g2
          cases ds with
          | nil => simp
          | cons d ds =>
            rw [List.cons_prefix_cons] at g1 g2
            rw [List.cons_append, List.cons_prefix_cons]
            exact ⟨g1.1, h3 ds g1.2 g2.2⟩
      · rw [if_neg hab] at h; cases h

theorem lastCommon_none {as bs ds : List Idx} (h : lastCommon as bs = none) (h1 : ds <+: as) (h2 : ds <+: bs) :
    ds = [] := by
  cases ds with
  | nil => rfl
  | cons d ds =>
    obtain ⟨r1, rfl⟩ := h1
    obtain ⟨r2, rfl⟩ := h2
    simp [lastCommon] at h

theorem lastCommon_comm (as bs : List Idx) : lastCommon as bs = lastCommon bs as := by
  induction as generalizing bs with
  | nil => cases bs <;> rfl
  | cons a as ih =>
    cases bs with
    | nil => rfl
    | cons b bs =>
      rw [lastCommon, lastCommon, ih]
      by_cases h : a = b
      · subst h; rfl
      · rw [if_neg h, if_neg (Ne.symm h)]

/-- The common superclass found is below all others. -/
theorem lubClass_some {h : Hierarchy} {a b x : Idx} (ha : a ≠ 0) (hb : b ≠ 0)
    (hl : h.lubClass a b = some (some x)) :
    SubClass h a x ∧ SubClass h b x ∧ ∀ d, SubClass h a d → SubClass h b d → SubClass h x d := by
  unfold lubClass at hl
  obtain ⟨as, has, hl⟩ := Option.bind_eq_some_iff.1 hl
  obtain ⟨bs, hbs, hl⟩ := Option.map_eq_some_iff.1 hl
  obtain ⟨pre, ra, rb, h1, h2, h3⟩ := lastCommon_some hl
  have hx := (h.collectSupertypes_split a as has pre ra x h1)
  refine ⟨hx.2, (h.collectSupertypes_split b bs hbs pre rb x h2).2, ?_⟩
  intro d hda hdb
  obtain ⟨p1, q1, e1, s1⟩ := collectSupertypes_prefix hda ha has
  obtain ⟨p2, q2, e2, s2⟩ := collectSupertypes_prefix hdb hb hbs
  rw [s1] at s2
  simp only [Option.some.injEq] at s2
  have := h3 (p1 ++ [d]) ⟨q1, by simp [e1]⟩ ⟨q2, by rw [s2]; simp [e2]⟩
  exact collectSupertypes_mem hx.1 (this.subset (by simp))

/-- Classes without a common superclass. -/
theorem lubClass_none {h : Hierarchy} {a b : Idx} (ha : a ≠ 0) (hb : b ≠ 0)
    (hl : h.lubClass a b = some none) (d : Idx) (hda : SubClass h a d) : ¬SubClass h b d := by
  intro hdb
  unfold lubClass at hl
  obtain ⟨as, has, hl⟩ := Option.bind_eq_some_iff.1 hl
  obtain ⟨bs, hbs, hl⟩ := Option.map_eq_some_iff.1 hl
  obtain ⟨p1, q1, e1, s1⟩ := collectSupertypes_prefix hda ha has
  obtain ⟨p2, q2, e2, s2⟩ := collectSupertypes_prefix hdb hb hbs
  rw [s1] at s2
  simp only [Option.some.injEq] at s2
  have := lastCommon_none hl (ds := p1 ++ [d]) ⟨q1, by simp [e1]⟩ ⟨q2, by rw [s2]; simp [e2]⟩
  simp at this

end Hierarchy

/-- No null type inside. -/
def TypeId.NullFree : TypeId → Prop
  | .Null => False
  | .Ref t | .WeakRef t | .Array t | .StaticArray t _ | .ScriptRef t => t.NullFree
  | .Prim _ | .Class _ | .Struct _ | .Enum _ | .Variant | .Void => True

/-- The types of expressions: null itself, or a type without null and without undefined classes. -/
def TypeId.Proper (t : TypeId) : Prop := t = .Null ∨ t.NullFree

/-- All class indexes are defined ones (`PoolIndex::UNDEFINED` is 0). -/
def TypeId.Defined (t : TypeId) : Prop := ∀ c ∈ t.classes, c ≠ 0

/-- A type of expressions other than null. -/
theorem TypeId.NullFree.proper {t : TypeId} (h : t.NullFree) : t.Proper := .inr h

theorem lub_upper (h : Hierarchy) (a b t : TypeId) (ha : a.NullFree) (hb : b.NullFree)
    (da : a.Defined) (db : b.Defined) (hl : h.lub a b = some (some t)) : Widens h a t ∧ Widens h b t := by
  fun_induction h.lub a b generalizing t with
  | case1 a => cases hl; exact ⟨.refl _, .refl _⟩
  | case2 => exact hb.elim
  | case3 => exact ha.elim
  | case4 => exact hb.elim
  | case5 => exact ha.elim
  | case6 a b _ ih =>
    obtain ⟨r, hr, ho⟩ := Option.map_eq_some_iff.1 hl
    obtain ⟨u, rfl, rfl⟩ := Option.map_eq_some_iff.1 ho
    have := ih u ha hb da db hr
    exact ⟨.ref this.1, .ref this.2⟩
  | case7 a b _ ih =>
    obtain ⟨r, hr, ho⟩ := Option.map_eq_some_iff.1 hl
    obtain ⟨u, rfl, rfl⟩ := Option.map_eq_some_iff.1 ho
    have := ih u ha hb da db hr
    exact ⟨.weak this.1, .weak this.2⟩
  | case8 a b _ =>
    obtain ⟨r, hr, ho⟩ := Option.map_eq_some_iff.1 hl
    obtain ⟨u, rfl, rfl⟩ := Option.map_eq_some_iff.1 ho
    have := Hierarchy.lubClass_some (da a (by simp [TypeId.classes])) (db b (by simp [TypeId.classes])) hr
    exact ⟨.cls this.1, .cls this.2.1⟩
  | case9 a b _ =>
    obtain ⟨r, hr, ho⟩ := Option.map_eq_some_iff.1 hl
    obtain ⟨u, rfl, rfl⟩ := Option.map_eq_some_iff.1 ho
    have := Hierarchy.lubClass_some (da a (by simp [TypeId.classes])) (db b (by simp [TypeId.classes])) hr
    exact ⟨.str this.1, .str this.2.1⟩
  | case10 => cases hl

/-- C22: unification gives an upper bound: both types convert to the result by identity. Not proved,
because false: null unified with a weak reference (see the counterexample). -/
theorem C22_upper_bound_partial (h : Hierarchy) (a b t : TypeId) (ha : a.Proper) (hb : b.Proper)
    (da : a.Defined) (db : b.Defined) (hn : ¬(a = .Null ∧ ∃ u, b = .WeakRef u))
    (hn' : ¬(b = .Null ∧ ∃ u, a = .WeakRef u)) (hl : h.lub a b = some (some t)) :
    h.findConversion a t = some (some .Identity) ∧ h.findConversion b t = some (some .Identity) := by
  suffices hw : Widens h a t ∧ Widens h b t from
    ⟨Hierarchy.findConversion_widens hw.1, Hierarchy.findConversion_widens hw.2⟩
  rcases ha with rfl | ha
  · rcases hb with rfl | hb
    · rw [Hierarchy.lub.eq_def, if_pos rfl] at hl; cases hl; exact ⟨.refl _, .refl _⟩
    · rw [Hierarchy.lub.eq_def] at hl
      cases b with
      | Ref u => simp at hl; subst hl; exact ⟨.null _, .refl _⟩
      | WeakRef u => exact absurd ⟨rfl, u, rfl⟩ hn
      | Null => exact hb.elim
      | _ => simp at hl
  · rcases hb with rfl | hb
    · rw [Hierarchy.lub.eq_def] at hl
      cases a with
      | Ref u => simp at hl; subst hl; exact ⟨.refl _, .null _⟩
      | WeakRef u => exact absurd ⟨rfl, u, rfl⟩ hn'
      | Null => exact ha.elim
      | _ => simp at hl
    · exact lub_upper h a b t ha hb da db hl

/-- C22: in every case both types convert implicitly to the result. -/
theorem C22_both_convert (h : Hierarchy) (a b t : TypeId) (ha : a.Proper) (hb : b.Proper)
    (da : a.Defined) (db : b.Defined) (hl : h.lub a b = some (some t)) :
    (∃ c, Converts h a t c) ∧ ∃ c, Converts h b t c := by
  by_cases hn : a = .Null ∧ ∃ u, b = .WeakRef u
  · obtain ⟨rfl, u, rfl⟩ := hn
    rw [Hierarchy.lub.eq_def] at hl
    simp at hl
    subst hl
    exact ⟨⟨_, .nullWeak _⟩, ⟨_, .identity (.refl _)⟩⟩
  by_cases hn' : b = .Null ∧ ∃ u, a = .WeakRef u
  · obtain ⟨rfl, u, rfl⟩ := hn'
    rw [Hierarchy.lub.eq_def] at hl
    simp at hl
    subst hl
    exact ⟨⟨_, .identity (.refl _)⟩, ⟨_, .nullWeak _⟩⟩
  have := C22_upper_bound_partial h a b t ha hb da db hn hn' hl
  exact ⟨⟨_, (C21_found_iff_allowed _ _ _ _).1 this.1⟩, ⟨_, (C21_found_iff_allowed _ _ _ _).1 this.2⟩⟩

/-- C22 is false of null and weak references: the result is the weak reference type, to which null
converts only by an inserted conversion, which the checker of conditionals does not insert. -/
theorem C22_null_weak_counterexample :
    exClasses.lub .Null (.WeakRef (.Class 1)) = some (some (.WeakRef (.Class 1))) ∧
      exClasses.findConversion .Null (.WeakRef (.Class 1)) ≠ some (some .Identity) := by
  constructor
  · rw [Hierarchy.lub.eq_def]; simp
  · rw [Hierarchy.findConversion.eq_def]; simp

/-- C22: the result is the least upper bound: whatever both types widen to, the result widens to. -/
theorem C22_least (h : Hierarchy) (a b t u : TypeId) (da : a.Defined) (db : b.Defined)
    (hl : h.lub a b = some (some t)) (hau : Widens h a u) (hbu : Widens h b u) : Widens h t u := by
  fun_induction h.lub a b generalizing t u with
  | case1 a => cases hl; exact hau
  | case2 => cases hl; exact hau
  | case3 => cases hl; exact hbu
  | case4 => cases hl; exact hau
  | case5 => cases hl; exact hbu
  | case6 a b _ ih =>
    obtain ⟨r, hr, ho⟩ := Option.map_eq_some_iff.1 hl
    obtain ⟨x, rfl, rfl⟩ := Option.map_eq_some_iff.1 ho
    have : ∃ w, u = .Ref w ∧ Widens h a w := by
      cases hau with
      | refl => exact ⟨_, rfl, .refl _⟩
      | ref w => exact ⟨_, rfl, w⟩
    obtain ⟨w, rfl, haw⟩ := this
    have hbw : Widens h b w := by
      cases hbu with
      | refl => exact .refl _
      | ref w => exact w
    exact .ref (ih x w da db hr haw hbw)
  | case7 a b _ ih =>
    obtain ⟨r, hr, ho⟩ := Option.map_eq_some_iff.1 hl
    obtain ⟨x, rfl, rfl⟩ := Option.map_eq_some_iff.1 ho
    have : ∃ w, u = .WeakRef w ∧ Widens h a w := by
      cases hau with
      | refl => exact ⟨_, rfl, .refl _⟩
      | weak w => exact ⟨_, rfl, w⟩
    obtain ⟨w, rfl, haw⟩ := this
    have hbw : Widens h b w := by
      cases hbu with
      | refl => exact .refl _
      | weak w => exact w
    exact .weak (ih x w da db hr haw hbw)
  | case8 a b _ =>
    obtain ⟨r, hr, ho⟩ := Option.map_eq_some_iff.1 hl
    obtain ⟨x, rfl, rfl⟩ := Option.map_eq_some_iff.1 ho
    have hm := Hierarchy.lubClass_some (da a (by simp [TypeId.classes])) (db b (by simp [TypeId.classes])) hr
    have : ∃ w, u = .Class w ∧ SubClass h a w := by
      cases hau with
      | refl => exact ⟨_, rfl, .refl _⟩
      | cls w => exact ⟨_, rfl, w⟩
    obtain ⟨w, rfl, haw⟩ := this
    have hbw : SubClass h b w := by
      cases hbu with
      | refl => exact .refl _
      | cls w => exact w
    exact .cls (hm.2.2 w haw hbw)
  | case9 a b _ =>
    obtain ⟨r, hr, ho⟩ := Option.map_eq_some_iff.1 hl
    obtain ⟨x, rfl, rfl⟩ := Option.map_eq_some_iff.1 ho
    have hm := Hierarchy.lubClass_some (da a (by simp [TypeId.classes])) (db b (by simp [TypeId.classes])) hr
    have : ∃ w, u = .Struct w ∧ SubClass h a w := by
      cases hau with
      | refl => exact ⟨_, rfl, .refl _⟩
      | str w => exact ⟨_, rfl, w⟩
    obtain ⟨w, rfl, haw⟩ := this
    have hbw : SubClass h b w := by
      cases hbu with
      | refl => exact .refl _
      | str w => exact w
    exact .str (hm.2.2 w haw hbw)
  | case10 => cases hl

/-- C22: when unification fails, no type is a common supertype. -/
theorem C22_fails_only_without_common (h : Hierarchy) (a b u : TypeId) (da : a.Defined) (db : b.Defined)
    (hl : h.lub a b = some none) (hau : Widens h a u) : ¬Widens h b u := by
  intro hbu
  fun_induction h.lub a b generalizing u with
  | case1 a => cases hl
  | case2 => cases hl
  | case3 => cases hl
  | case4 => cases hl
  | case5 => cases hl
  | case6 a b _ ih =>
    obtain ⟨r, hr, ho⟩ := Option.map_eq_some_iff.1 hl
    rw [Option.map_eq_none_iff] at ho
    subst ho
    have : ∃ w, u = .Ref w ∧ Widens h a w := by
      cases hau with
      | refl => exact ⟨_, rfl, .refl _⟩
      | ref w => exact ⟨_, rfl, w⟩
    obtain ⟨w, rfl, haw⟩ := this
    have hbw : Widens h b w := by
      cases hbu with
      | refl => exact .refl _
      | ref w => exact w
    exact ih w da db hr haw hbw
  | case7 a b _ ih =>
    obtain ⟨r, hr, ho⟩ := Option.map_eq_some_iff.1 hl
    rw [Option.map_eq_none_iff] at ho
    subst ho
    have : ∃ w, u = .WeakRef w ∧ Widens h a w := by
      cases hau with
      | refl => exact ⟨_, rfl, .refl _⟩
      | weak w => exact ⟨_, rfl, w⟩
    obtain ⟨w, rfl, haw⟩ := this
    have hbw : Widens h b w := by
      cases hbu with
      | refl => exact .refl _
      | weak w => exact w
    exact ih w da db hr haw hbw
  | case8 a b hne =>
    obtain ⟨r, hr, ho⟩ := Option.map_eq_some_iff.1 hl
    rw [Option.map_eq_none_iff] at ho
    subst ho
    have hm := Hierarchy.lubClass_none (da a (by simp [TypeId.classes])) (db b (by simp [TypeId.classes])) hr
    cases hau with
    | refl => cases hbu with
      | refl => exact hne rfl
      | cls w => exact hm _ (.refl _) w
    | cls w => cases hbu with
      | refl => exact hm _ w (.refl _)
      | cls w' => exact hm _ w w'
  | case9 a b hne =>
    obtain ⟨r, hr, ho⟩ := Option.map_eq_some_iff.1 hl
    rw [Option.map_eq_none_iff] at ho
    subst ho
    have hm := Hierarchy.lubClass_none (da a (by simp [TypeId.classes])) (db b (by simp [TypeId.classes])) hr
    cases hau with
    | refl => cases hbu with
      | refl => exact hne rfl
      | str w => exact hm _ (.refl _) w
    | str w => cases hbu with
      | refl => exact hm _ w (.refl _)
      | str w' => exact hm _ w w'
  | case10 a b hne h1 h2 h3 h4 h5 h6 h7 h8 =>
    cases hau <;> cases hbu <;> simp_all

/-- C22: unification is symmetric. -/
theorem C22_symmetric (h : Hierarchy) (a b : TypeId) (t : Option TypeId) (hl : h.lub a b = some t) :
    h.lub b a = some t := by
  fun_induction h.lub a b generalizing t with
  | case1 a => rw [← hl, Hierarchy.lub.eq_def, if_pos rfl]
  | case2 => rw [← hl, Hierarchy.lub.eq_def]; simp
  | case3 => rw [← hl, Hierarchy.lub.eq_def]; simp
  | case4 => rw [← hl, Hierarchy.lub.eq_def]; simp
  | case5 => rw [← hl, Hierarchy.lub.eq_def]; simp
  | case6 a b hne ih =>
    obtain ⟨r, hr, ho⟩ := Option.map_eq_some_iff.1 hl
    rw [Hierarchy.lub.eq_def, if_neg (Ne.symm hne)]
    simp [ih r hr, ho]
  | case7 a b hne ih =>
    obtain ⟨r, hr, ho⟩ := Option.map_eq_some_iff.1 hl
    rw [Hierarchy.lub.eq_def, if_neg (Ne.symm hne)]
    simp [ih r hr, ho]
  | case8 a b hne =>
    obtain ⟨r, hr, ho⟩ := Option.map_eq_some_iff.1 hl
    rw [Hierarchy.lub.eq_def, if_neg (Ne.symm hne)]
    unfold Hierarchy.lubClass at hr ⊢
    obtain ⟨as, has, hr⟩ := Option.bind_eq_some_iff.1 hr
    obtain ⟨bs, hbs, hr⟩ := Option.map_eq_some_iff.1 hr
    simp only [has, hbs, Option.bind_some, Option.map_some]
    rw [Hierarchy.lastCommon_comm, hr, ho]
  | case9 a b hne =>
    obtain ⟨r, hr, ho⟩ := Option.map_eq_some_iff.1 hl
    rw [Hierarchy.lub.eq_def, if_neg (Ne.symm hne)]
    unfold Hierarchy.lubClass at hr ⊢
    obtain ⟨as, has, hr⟩ := Option.bind_eq_some_iff.1 hr
    obtain ⟨bs, hbs, hr⟩ := Option.map_eq_some_iff.1 hr
    simp only [has, hbs, Option.bind_some, Option.map_some]
    rw [Hierarchy.lastCommon_comm, hr, ho]
  | case10 a b hne h1 h2 h3 h4 h5 h6 h7 h8 =>
    rw [← hl, Hierarchy.lub.eq_def, if_neg (Ne.symm hne)]
    cases a <;> cases b <;> simp_all

/-- Non-vacuity of C22: two siblings unify to their base, unrelated classes do not. -/
example :
    exClasses.lub (.Ref (.Class 3)) (.Ref (.Class 4)) = some (some (.Ref (.Class 2))) ∧
    exClasses.lub (.Ref (.Class 3)) .Null = some (some (.Ref (.Class 3))) ∧
    exClasses.lub (.Class 3) (.Class 5) = some none := by
  refine ⟨?_, ?_, ?_⟩ <;>
  simp [Hierarchy.lub, Hierarchy.lubClass, Hierarchy.collectSupertypes, Hierarchy.lastCommon, exClasses]

end Redscript
