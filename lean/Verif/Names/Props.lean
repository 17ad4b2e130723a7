import Verif.Names.Model

/-!
# C14, C15, C16: type names, signatures, module paths
-/

namespace Redscript

/-! ## Splitting and joining -/

theorem splitOnChar_ne_nil (c : Char) (s : Text) : splitOnChar c s ≠ [] := by
  cases s with
  | nil => simp [splitOnChar]
  | cons x xs =>
    unfold splitOnChar
    split
    · simp
    · split <;> simp

theorem splitOnChar_clean (c : Char) (s : Text) (h : c ∉ s) : splitOnChar c s = [s] := by
  induction s with
  | nil => rfl
  | cons x xs ih =>
    simp only [List.mem_cons, not_or] at h
    unfold splitOnChar
    rw [if_neg (Ne.symm h.1), ih h.2]

theorem splitOnChar_append (c : Char) (p s : Text) (h : c ∉ p) :
    splitOnChar c (p ++ c :: s) = p :: splitOnChar c s := by
  induction p with
  | nil => simp [splitOnChar]
  | cons x xs ih =>
    simp only [List.mem_cons, not_or] at h
    rw [List.cons_append, splitOnChar, if_neg (Ne.symm h.1), ih h.2]

theorem splitOnChar_join (c : Char) (ps : List Text) (hne : ps ≠ []) (h : ∀ p ∈ ps, c ∉ p) :
    splitOnChar c (joinChar c ps) = ps := by
  induction ps with
  | nil => exact absurd rfl hne
  | cons p ps ih =>
    cases ps with
    | nil => exact splitOnChar_clean c p (h p (by simp))
    | cons q qs =>
      rw [joinChar, splitOnChar_append c p _ (h p (by simp)), ih (by simp) fun r hr => h r (by simp [hr])]
      simp

theorem join_splitOnChar (c : Char) (s : Text) : joinChar c (splitOnChar c s) = s := by
  induction s with
  | nil => rfl
  | cons x xs ih =>
    unfold splitOnChar
    have hne := splitOnChar_ne_nil c xs
    split
    · next hx =>
      cases hs : splitOnChar c xs with
      | nil => exact absurd hs hne
      | cons p ps => rw [hs] at ih; simp [joinChar, ih, hx]
    · cases hs : splitOnChar c xs with
      | nil => exact absurd hs hne
      | cons p ps =>
        rw [hs] at ih
        simp only
        cases ps with
        | nil => simp [joinChar] at ih ⊢; exact ih
        | cons q qs => simp [joinChar] at ih ⊢; exact ih

/-! ## C14 -/

/-- A type name built from single-argument wrappers, no component containing a colon. -/
inductive TypeName.Chain : TypeName → Prop
  | base (n : Text) : ':' ∉ n → Chain (.mk n [])
  | wrap (n : Text) (t : TypeName) : ':' ∉ n → Chain t → Chain (.mk n [t])

/-- C14: storage form and parsing are inverse on wrapper chains of any depth. -/
theorem C14_roundtrip (t : TypeName) (h : t.Chain) : TypeName.fromRepr t.repr = t := by
  have key : ∀ t : TypeName, t.Chain → ∃ p ps, splitOnChar ':' t.repr = p :: ps ∧
      TypeName.fromParts p ps = t := by
    intro t h
    induction h with
    | base n hn =>
      refine ⟨n, [], ?_, rfl⟩
      simp [TypeName.repr, TypeName.reprArgs, splitOnChar_clean _ _ hn]
    | wrap n t hn ht ih =>
      obtain ⟨p, ps, h1, h2⟩ := ih
      refine ⟨n, p :: ps, ?_, ?_⟩
      · simp [TypeName.repr, TypeName.reprArgs, splitOnChar_append _ _ _ hn, h1]
      · simp [TypeName.fromParts, h2]
  obtain ⟨p, ps, h1, h2⟩ := key t h
  simp [TypeName.fromRepr, h1, h2]

/-- C14: parsing accepts every text, gives a wrapper chain, and rendering it again reproduces the
text. -/
theorem C14_reprint (s : Text) : (TypeName.fromRepr s).repr = s ∧ (TypeName.fromRepr s).Chain := by
  have key : ∀ (ps : List Text) (p : Text), (TypeName.fromParts p ps).repr = joinChar ':' (p :: ps) := by
    intro ps
    induction ps with
    | nil => intro p; simp [TypeName.fromParts, TypeName.repr, TypeName.reprArgs, joinChar]
    | cons q qs ih =>
      intro p
      simp [TypeName.fromParts, TypeName.repr, TypeName.reprArgs, joinChar, ih q]
  have hmem : ∀ p ∈ splitOnChar ':' s, ':' ∉ p := by
    induction s with
    | nil => simp [splitOnChar]
    | cons x xs ih =>
      unfold splitOnChar
      split
      · intro p hp
        rcases List.mem_cons.1 hp with rfl | hp
        · simp
        · exact ih p hp
      · next hx =>
        split
        · next hs => exact absurd hs (splitOnChar_ne_nil _ _)
        · next q qs hs =>
          intro p hp
          rw [hs] at ih
          rcases List.mem_cons.1 hp with rfl | hp
          · simp only [List.mem_cons, not_or]
            exact ⟨Ne.symm hx, ih q (by simp)⟩
          · exact ih p (by simp [hp])
  have hchain : ∀ (ps : List Text) (p : Text), (∀ q ∈ p :: ps, ':' ∉ q) →
      (TypeName.fromParts p ps).Chain := by
    intro ps
    induction ps with
    | nil => intro p h; exact .base p (h p (by simp))
    | cons q qs ih =>
      intro p h
      exact .wrap p _ (h p (by simp)) (ih q fun r hr => h r (by simp [hr]))
  unfold TypeName.fromRepr
  have := join_splitOnChar ':' s
  cases hs : splitOnChar ':' s with
  | nil => exact absurd hs (splitOnChar_ne_nil _ _)
  | cons p ps =>
    simp only
    rw [hs] at this hmem
    exact ⟨by rw [key, this], hchain ps p hmem⟩

/-- C14: two wrapper chains with the same storage form are the same type name. -/
theorem C14_injective (t u : TypeName) (ht : t.Chain) (hu : u.Chain) (h : t.repr = u.repr) : t = u := by
  rw [← C14_roundtrip t ht, ← C14_roundtrip u hu, h]

/-- Non-vacuity: `array<ref<Foo>>`. -/
example : (TypeName.mk "array".toList [.mk "ref".toList [.mk "Foo".toList []]]).Chain ∧
    (TypeName.mk "array".toList [.mk "ref".toList [.mk "Foo".toList []]]).repr =
      "array:ref:Foo".toList :=
  ⟨.wrap _ _ (by decide) (.wrap _ _ (by decide) (.base _ (by decide))), by decide⟩

/-- The restriction to single arguments is needed: `f<a, b>` and `f<a<b>>` have the same storage form. -/
theorem C14_two_arguments_counterexample :
    (TypeName.mk ['f'] [.mk ['a'] [], .mk ['b'] []]).repr = (TypeName.mk ['f'] [.mk ['a'] [.mk ['b'] []]]).repr ∧
      TypeName.mk ['f'] [.mk ['a'] [], .mk ['b'] []] ≠ TypeName.mk ['f'] [.mk ['a'] [.mk ['b'] []]] := by
  refine ⟨by decide, by simp⟩

/-! ## C15 -/

/-- No character with a meaning in rendered signatures. -/
def CleanName (n : Text) : Prop := ∀ c ∈ n, c ≠ '<' ∧ c ≠ '>' ∧ c ≠ ',' ∧ c ≠ ';'

mutual
/-- Every component of the type name is clean. -/
def TypeName.Clean : TypeName → Prop
  | .mk n as => CleanName n ∧ TypeName.CleanArgs as
/-- All arguments are clean. -/
def TypeName.CleanArgs : List TypeName → Prop
  | [] => True
  | a :: as => TypeName.Clean a ∧ TypeName.CleanArgs as
end

mutual
/-- The type with all `ref<…>` and `wref<…>` wrappers removed, at every depth. -/
def TypeName.strip : TypeName → TypeName
  | .mk n as => match as with
    | [a] => if n = "ref".toList ∨ n = "wref".toList then TypeName.strip a else .mk n [TypeName.strip a]
    | as => .mk n (TypeName.stripArgs as)
/-- `strip` of every argument. -/
def TypeName.stripArgs : List TypeName → List TypeName
  | [] => []
  | a :: as => TypeName.strip a :: TypeName.stripArgs as
end

mutual
/-- `mangled` without the wrapper rule. -/
def TypeName.plain : TypeName → Text
  | .mk n as => if as.isEmpty then n else n ++ '<' :: (TypeName.plainArgs as ++ ['>'])
/-- Its argument list. -/
def TypeName.plainArgs : List TypeName → Text
  | [] => []
  | a :: as => match as with
    | [] => TypeName.plain a
    | _ :: _ => TypeName.plain a ++ ',' :: TypeName.plainArgs as
end

theorem TypeName.stripArgs_length (as : List TypeName) : (stripArgs as).length = as.length := by
  induction as with
  | nil => rfl
  | cons a as ih => simp [stripArgs, ih]

mutual
theorem TypeName.mangled_eq_plain_strip : ∀ t : TypeName, t.mangled = t.strip.plain
  | .mk n [] => by
    simp [mangled, strip, stripArgs, plain]
  | .mk n [a] => by
    have ih := mangled_eq_plain_strip a
    by_cases h : n = "ref".toList ∨ n = "wref".toList
    · have hr : isRefName n = true := by simpa [isRefName] using h
      rw [mangled, strip, if_pos h, hr]
      simp [mangledArgs, ih]
    · have hr : isRefName n = false := by simpa [isRefName] using h
      rw [mangled, strip, if_neg h, hr]
      simp [mangledArgs, ih, plain, plainArgs]
  | .mk n (a :: b :: as) => by
    have ih := mangledArgs_eq_plain (a :: b :: as)
    rw [mangled, strip]
    · simp only [List.length_cons, List.isEmpty_cons]
      rw [if_neg (by simp), plain]
      simp [ih, stripArgs]
    · intro x hx; simp at hx
theorem TypeName.mangledArgs_eq_plain : ∀ as : List TypeName, mangledArgs as = plainArgs (stripArgs as)
  | [] => rfl
  | [a] => by
    simp [mangledArgs, stripArgs, plainArgs, mangled_eq_plain_strip a]
  | a :: b :: as => by
    have ih := mangledArgs_eq_plain (b :: as)
    simp only [mangledArgs, stripArgs, plainArgs] at ih ⊢
    rw [mangled_eq_plain_strip a, ih]
end

mutual
theorem TypeName.clean_strip : ∀ t : TypeName, t.Clean → t.strip.Clean
  | .mk n [], h => by simpa [strip, stripArgs] using h
  | .mk n [a], h => by
    simp only [Clean, CleanArgs] at h
    rw [strip]
    split
    · exact clean_strip a h.2.1
    · simp only [Clean, CleanArgs]
      exact ⟨h.1, clean_strip a h.2.1, trivial⟩
  | .mk n (a :: b :: as), h => by
    simp only [Clean] at h
    rw [strip]
    · simp only [Clean]
      exact ⟨h.1, cleanArgs_strip _ h.2⟩
    · intro x hx; simp at hx
theorem TypeName.cleanArgs_strip : ∀ as : List TypeName, CleanArgs as → CleanArgs (stripArgs as)
  | [], _ => trivial
  | a :: as, h => by
    simp only [CleanArgs, stripArgs] at h ⊢
    exact ⟨clean_strip a h.1, cleanArgs_strip as h.2⟩
end

/-- Text that cannot extend a name or start an argument list. -/
def Stops : Text → Prop
  | [] => True
  | c :: _ => c = '>' ∨ c = ',' ∨ c = ';'

theorem name_unique {n n' r r' : Text} (hn : CleanName n) (hn' : CleanName n')
    (hr : ∀ c s, r = c :: s → ¬ CleanName [c]) (hr' : ∀ c s, r' = c :: s → ¬ CleanName [c])
    (h : n ++ r = n' ++ r') : n = n' ∧ r = r' := by
  induction n generalizing n' with
  | nil =>
    cases n' with
    | nil => exact ⟨rfl, by simpa using h⟩
    | cons c n' =>
      simp only [List.nil_append, List.cons_append] at h
      exact absurd (by intro d hd; simp only [List.mem_singleton] at hd; subst hd; exact hn' d (by simp))
        (hr c _ h)
  | cons c n ih =>
    cases n' with
    | nil =>
      simp only [List.nil_append, List.cons_append] at h
      exact absurd (by intro d hd; simp only [List.mem_singleton] at hd; subst hd; exact hn d (by simp))
        (hr' c _ h.symm)
    | cons d n' =>
      simp only [List.cons_append, List.cons.injEq] at h
      obtain ⟨e1, e2⟩ := ih (fun x hx => hn x (by simp [hx])) (fun x hx => hn' x (by simp [hx])) h.2
      exact ⟨by rw [h.1, e1], e2⟩

theorem stops_not_clean {c : Char} {s : Text} (h : Stops (c :: s)) : ¬ CleanName [c] := by
  intro hc
  have := hc c (by simp)
  simp only [Stops] at h
  rcases h with rfl | rfl | rfl <;> simp at this

theorem lt_not_clean : ¬ CleanName ['<'] := by
  intro hc
  have := hc '<' (by simp)
  simp at this

mutual
theorem TypeName.plain_unique : ∀ (t t' : TypeName) (r r' : Text), t.Clean → t'.Clean → Stops r → Stops r' →
    t.plain ++ r = t'.plain ++ r' → t = t' ∧ r = r'
  | .mk n [], .mk n' [], r, r', h, h', hs, hs', e => by
    simp only [plain, List.isEmpty_nil, if_true] at e
    obtain ⟨e1, e2⟩ := name_unique h.1 h'.1
      (fun c s hc => stops_not_clean (hc ▸ hs)) (fun c s hc => stops_not_clean (hc ▸ hs')) e
    exact ⟨by rw [e1], e2⟩
  | .mk n [], .mk n' (b :: bs), r, r', h, h', hs, hs', e => by
    simp only [plain, List.isEmpty_nil, if_true, List.isEmpty_cons, Bool.false_eq_true, if_false,
      List.append_assoc, List.cons_append] at e
    obtain ⟨-, e2⟩ := name_unique h.1 h'.1
      (fun c s hc => stops_not_clean (hc ▸ hs)) (fun c s hc => by cases hc; exact lt_not_clean) e
    rw [e2] at hs
    simp [Stops] at hs
  | .mk n (a :: as), .mk n' [], r, r', h, h', hs, hs', e => by
    simp only [plain, List.isEmpty_nil, if_true, List.isEmpty_cons, Bool.false_eq_true, if_false,
      List.append_assoc, List.cons_append] at e
    obtain ⟨-, e2⟩ := name_unique h.1 h'.1
      (fun c s hc => by cases hc; exact lt_not_clean) (fun c s hc => stops_not_clean (hc ▸ hs')) e
    rw [← e2] at hs'
    simp [Stops] at hs'
  | .mk n (a :: as), .mk n' (b :: bs), r, r', h, h', hs, hs', e => by
    simp only [plain, List.isEmpty_cons, Bool.false_eq_true, if_false,
      List.append_assoc, List.cons_append] at e
    obtain ⟨e1, e2⟩ := name_unique h.1 h'.1
      (fun c s hc => by cases hc; exact lt_not_clean) (fun c s hc => by cases hc; exact lt_not_clean) e
    simp only [List.cons.injEq, true_and, List.nil_append] at e2
    obtain ⟨e3, e4⟩ := plainArgs_unique a as b bs r r' h.2 h'.2 e2
    exact ⟨by rw [e1, e3], e4⟩
termination_by t => sizeOf t
decreasing_by all_goals (simp_wf; omega)
theorem TypeName.plainArgs_unique : ∀ (a : TypeName) (as : List TypeName) (b : TypeName)
    (bs : List TypeName) (r r' : Text), CleanArgs (a :: as) → CleanArgs (b :: bs) →
    plainArgs (a :: as) ++ '>' :: r = plainArgs (b :: bs) ++ '>' :: r' → a :: as = b :: bs ∧ r = r'
  | a, [], b, [], r, r', h, h', e => by
    simp only [plainArgs] at e
    obtain ⟨e1, e2⟩ := plain_unique a b _ _ h.1 h'.1 (by simp [Stops]) (by simp [Stops]) e
    exact ⟨by rw [e1], by simpa using e2⟩
  | a, [], b, c :: bs, r, r', h, h', e => by
    simp only [plainArgs, List.append_assoc, List.cons_append] at e
    obtain ⟨-, e2⟩ := plain_unique a b _ _ h.1 h'.1 (by simp [Stops]) (by simp [Stops]) e
    simp at e2
  | a, c :: as, b, [], r, r', h, h', e => by
    simp only [plainArgs, List.append_assoc, List.cons_append] at e
    obtain ⟨-, e2⟩ := plain_unique a b _ _ h.1 h'.1 (by simp [Stops]) (by simp [Stops]) e
    simp at e2
  | a, c :: as, b, d :: bs, r, r', h, h', e => by
    rw [plainArgs, plainArgs, List.append_assoc, List.append_assoc] at e
    obtain ⟨e1, e2⟩ := plain_unique a b _ _ h.1 h'.1 (by simp [Stops]) (by simp [Stops]) e
    simp only [List.cons_append, List.cons.injEq, true_and] at e2
    obtain ⟨e3, e4⟩ := plainArgs_unique c as d bs r r' h.2 h'.2 e2
    exact ⟨by rw [e1, e3], e4⟩
termination_by a as => sizeOf a + sizeOf as
decreasing_by all_goals (simp_wf; try omega)
end

/-- C15: the rendering of a parameter type identifies the type up to reference wrappers. -/
theorem C15_type_mangling (t u : TypeName) (ht : t.Clean) (hu : u.Clean) :
    t.mangled = u.mangled ↔ t.strip = u.strip := by
  rw [TypeName.mangled_eq_plain_strip, TypeName.mangled_eq_plain_strip]
  constructor
  · intro h
    exact (TypeName.plain_unique _ _ [] [] (TypeName.clean_strip t ht) (TypeName.clean_strip u hu)
      trivial trivial (by simpa using h)).1
  · intro h; rw [h]

/-- Names and types of a declaration are made of ordinary identifiers. -/
structure FunSource.Clean (f : FunSource) : Prop where
  name : CleanName f.name
  params : ∀ p ∈ f.params, p.1.Clean
  ret : ∀ t, f.ret = some t → t.Clean

/-- How a parameter contributes to the signature. -/
def FunSource.token (f : FunSource) (p : TypeName × Bool) : Text :=
  (if p.2 && f.isOperator then "Out".toList else []) ++ p.1.mangled

theorem beforeSemicolon_append (p s : Text) (h : ∀ c ∈ p, c ≠ ';') : beforeSemicolon (p ++ ';' :: s) = p := by
  induction p with
  | nil => simp [beforeSemicolon]
  | cons x xs ih =>
    rw [List.cons_append, beforeSemicolon, if_neg (h x (by simp)), ih fun c hc => h c (by simp [hc])]

theorem beforeSemicolon_clean (p : Text) (h : ∀ c ∈ p, c ≠ ';') : beforeSemicolon p = p := by
  induction p with
  | nil => rfl
  | cons x xs ih =>
    rw [beforeSemicolon, if_neg (h x (by simp)), ih fun c hc => h c (by simp [hc])]

theorem FunSource.fold_tokens (f : FunSource) (ps : List (TypeName × Bool)) (s : Text) :
    ps.foldl (fun acc p => sigParam acc p.1 (p.2 && f.isOperator)) s = s ++ ps.flatMap f.token := by
  induction ps generalizing s with
  | nil => simp
  | cons p ps ih =>
    simp only [List.foldl_cons, List.flatMap_cons]
    rw [ih]
    unfold sigParam token
    split <;> simp

/-- Declarations whose signature is the bare name (callbacks, console commands, natives that are
neither operators nor casts). -/
def FunSource.isPlain (f : FunSource) : Bool :=
  !f.isOperator && !f.isCast && (f.isCallback || f.isExec || f.isNative)

theorem FunSource.signature_eq (f : FunSource) : f.signature = if f.isPlain then f.name else
    f.name ++ ';' :: (f.params.flatMap f.token ++ (if f.isOperator || f.isCast then
      ';' :: (f.ret.getD (.basic "Void")).mangled else [])) := by
  unfold signature
  rw [show (!f.isOperator && !f.isCast && (f.isCallback || f.isExec || f.isNative)) = f.isPlain from rfl]
  split
  · rfl
  · simp only [fold_tokens]
    split <;> simp

/-- C15: the function name can always be recovered from its signature. -/
theorem C15_name (f : FunSource) (h : CleanName f.name) : signatureName f.signature = f.name := by
  have hc : ∀ c ∈ f.name, c ≠ ';' := fun c hc => (h c hc).2.2.2
  rw [FunSource.signature_eq]
  unfold signatureName
  split
  · exact beforeSemicolon_clean _ hc
  · exact beforeSemicolon_append _ _ hc

/-- No element is a proper prefix of another, and none is empty. -/
def PrefixFree (S : List Text) : Prop :=
  (∀ a ∈ S, a ≠ []) ∧ ∀ a ∈ S, ∀ b ∈ S, a <+: b → a = b

theorem prefixFree_flatMap {α β : Type} (S : List Text) (hS : PrefixFree S) (f : α → Text) (g : β → Text)
    (as : List α) (bs : List β) (ha : ∀ a ∈ as, f a ∈ S) (hb : ∀ b ∈ bs, g b ∈ S)
    (h : as.flatMap f = bs.flatMap g) : as.map f = bs.map g := by
  induction as generalizing bs with
  | nil =>
    cases bs with
    | nil => rfl
    | cons b bs =>
      simp only [List.flatMap_nil, List.flatMap_cons] at h
      exact absurd (List.append_eq_nil_iff.1 h.symm).1 (hS.1 _ (hb b (by simp)))
  | cons a as ih =>
    cases bs with
    | nil =>
      simp only [List.flatMap_nil, List.flatMap_cons] at h
      exact absurd (List.append_eq_nil_iff.1 h).1 (hS.1 _ (ha a (by simp)))
    | cons b bs =>
      simp only [List.flatMap_cons] at h
      have hfa := ha a (by simp)
      have hgb := hb b (by simp)
      have he : f a = g b := by
        have h1 : f a <+: g b ++ bs.flatMap g := ⟨_, h⟩
        have h2 : g b <+: g b ++ bs.flatMap g := ⟨_, rfl⟩
        rcases List.prefix_or_prefix_of_prefix h1 h2 with hp | hp
        · exact hS.2 _ hfa _ hgb hp
        · exact (hS.2 _ hgb _ hfa hp).symm
      rw [he] at h
      have := ih bs (fun x hx => ha x (by simp [hx])) (fun x hx => hb x (by simp [hx]))
        (List.append_cancel_left h)
      simp [he, this]

theorem mangled_no_semicolon (t : TypeName) : t.Clean → ∀ c ∈ t.mangled, c ≠ ';' := by
  induction t using TypeName.rec (motive_2 := fun as =>
    TypeName.CleanArgs as → ∀ c ∈ TypeName.mangledArgs as, c ≠ ';') with
  | mk n as ih =>
    intro h c hc
    rw [TypeName.mangled] at hc
    split at hc
    · exact ih h.2 c hc
    · split at hc
      · exact (h.1 c hc).2.2.2
      · simp only [List.mem_append, List.mem_cons] at hc
        rcases hc with hc | rfl | hc | rfl | hc
        · exact (h.1 c hc).2.2.2
        · decide
        · exact ih h.2 c hc
        · decide
        · cases hc
  | nil => rename_i h1 c hc; exact absurd hc (by simp [TypeName.mangledArgs])
  | cons a as iha ihas =>
    rename_i h c hc
    revert c
    intro c hc
    cases as with
    | nil => simp only [TypeName.mangledArgs] at hc; exact iha h.1 c hc
    | cons b bs =>
      rw [TypeName.mangledArgs] at hc
      simp only [List.mem_append, List.mem_cons] at hc
      rcases hc with hc | rfl | hc
      · exact iha h.1 c hc
      · decide
      · exact ihas h.2 c hc

theorem FunSource.token_no_semicolon (f : FunSource) (p : TypeName × Bool) (h : p.1.Clean) :
    ∀ c ∈ f.token p, c ≠ ';' := by
  intro c hc
  unfold token at hc
  rw [List.mem_append] at hc
  rcases hc with hc | hc
  · split at hc
    · revert c; decide
    · cases hc
  · exact mangled_no_semicolon _ h c hc

theorem split_unique {a a' s s' : Text} (ha : ∀ c ∈ a, c ≠ ';') (ha' : ∀ c ∈ a', c ≠ ';')
    (hs : s = [] ∨ ∃ r, s = ';' :: r) (hs' : s' = [] ∨ ∃ r, s' = ';' :: r)
    (h : a ++ s = a' ++ s') : a = a' ∧ s = s' := by
  induction a generalizing a' with
  | nil =>
    cases a' with
    | nil => exact ⟨rfl, by simpa using h⟩
    | cons c a' =>
      rcases hs with rfl | ⟨r, rfl⟩
      · simp at h
      · simp only [List.nil_append, List.cons_append, List.cons.injEq] at h
        exact absurd h.1.symm (ha' c (by simp))
  | cons c a ih =>
    cases a' with
    | nil =>
      rcases hs' with rfl | ⟨r, rfl⟩
      · simp at h
      · simp only [List.nil_append, List.cons_append, List.cons.injEq] at h
        exact absurd h.1 (ha c (by simp))
    | cons d a' =>
      simp only [List.cons_append, List.cons.injEq] at h
      obtain ⟨e1, e2⟩ := ih (fun x hx => ha x (by simp [hx])) (fun x hx => ha' x (by simp [hx])) h.2
      exact ⟨by rw [h.1, e1], e2⟩

/-- C15 (restricted to declarations whose parameter renderings are prefix-free; see
`C15_concatenation_counterexample` for why a restriction is needed). Declarations with equal
signatures have the same name, and, unless both are identified by name alone, the same parameter
types up to reference wrappers and – for operators and casts – the same `out` parameters and result
type. -/
theorem C15_overloads_partial (f g : FunSource) (hf : f.Clean) (hg : g.Clean)
    (hfree : PrefixFree (f.params.map f.token ++ g.params.map g.token))
    (hout : ∀ p ∈ f.params ++ g.params, ¬ "Out".toList <+: p.1.mangled)
    (h : f.signature = g.signature) :
    f.name = g.name ∧ f.isPlain = g.isPlain ∧ (f.isPlain = false →
      f.params.map (·.1.strip) = g.params.map (·.1.strip) ∧
      (f.isOperator = true → f.params.map (·.2) = g.params.map (·.2)) ∧
      (f.isOperator = true ∨ f.isCast = true →
        (f.ret.getD (.basic "Void")).strip = (g.ret.getD (.basic "Void")).strip)) := by
  have hname : f.name = g.name := by rw [← C15_name f hf.name, h, C15_name g hg.name]
  have hop : f.isOperator = g.isOperator := by simp [FunSource.isOperator, hname]
  have hcast : f.isCast = g.isCast := by simp [FunSource.isCast, hname]
  have hnf : ∀ c ∈ f.name, c ≠ ';' := fun c hc => (hf.name c hc).2.2.2
  have hng : ∀ c ∈ g.name, c ≠ ';' := fun c hc => (hg.name c hc).2.2.2
  rw [FunSource.signature_eq, FunSource.signature_eq] at h
  have hplain : f.isPlain = g.isPlain := by
    cases h1 : f.isPlain <;> cases h2 : g.isPlain
    · rfl
    · exfalso
      simp only [h1, h2, if_true, Bool.false_eq_true, if_false] at h
      exact hng ';' (by rw [← h]; simp) rfl
    · exfalso
      simp only [h1, h2, if_true, Bool.false_eq_true, if_false] at h
      exact hnf ';' (by rw [h]; simp) rfl
    · rfl
  refine ⟨hname, hplain, fun hp => ?_⟩
  rw [← hplain, hp, ← hop, ← hcast, hname] at h
  simp only [Bool.false_eq_true, if_false] at h
  have h := List.append_cancel_left h
  simp only [List.cons.injEq, true_and] at h
  have hret : ∀ u : FunSource, u.Clean → (u.ret.getD (.basic "Void")).Clean := by
    intro u hu
    cases hr : u.ret with
    | none => simp only [Option.getD_none, TypeName.basic, TypeName.Clean, TypeName.CleanArgs, and_true]
              unfold CleanName; decide
    | some t => exact hu.ret t hr
  obtain ⟨e1, e2⟩ := split_unique
    (by intro c hc
        obtain ⟨p, hp, hc⟩ := List.mem_flatMap.1 hc
        exact f.token_no_semicolon p (hf.params p hp) c hc)
    (by intro c hc
        obtain ⟨p, hp, hc⟩ := List.mem_flatMap.1 hc
        exact g.token_no_semicolon p (hg.params p hp) c hc)
    (by split
        · exact .inr ⟨_, rfl⟩
        · exact .inl rfl)
    (by split
        · exact .inr ⟨_, rfl⟩
        · exact .inl rfl) h
  have htok := prefixFree_flatMap _ hfree f.token g.token f.params g.params
    (fun a ha => by simp only [List.mem_append, List.mem_map]; exact .inl ⟨a, ha, rfl⟩)
    (fun b hb => by simp only [List.mem_append, List.mem_map]; exact .inr ⟨b, hb, rfl⟩) e1
  have hpt : ∀ (ps qs : List (TypeName × Bool)), ps.map f.token = qs.map g.token →
      (∀ p ∈ ps, p.1.Clean ∧ ¬ "Out".toList <+: p.1.mangled) →
      (∀ p ∈ qs, p.1.Clean ∧ ¬ "Out".toList <+: p.1.mangled) →
      ps.map (·.1.strip) = qs.map (·.1.strip) ∧ (f.isOperator = true → ps.map (·.2) = qs.map (·.2)) := by
    intro ps
    induction ps with
    | nil => intro qs hq _ _; cases qs with
      | nil => exact ⟨rfl, fun _ => rfl⟩
      | cons q qs => simp at hq
    | cons p ps ih =>
      intro qs hq h1 h2
      cases qs with
      | nil => simp at hq
      | cons q qs =>
        simp only [List.map_cons, List.cons.injEq] at hq
        obtain ⟨i1, i2⟩ := ih qs hq.2 (fun x hx => h1 x (by simp [hx])) (fun x hx => h2 x (by simp [hx]))
        obtain ⟨hp1, hp2⟩ := h1 p (by simp)
        obtain ⟨hq1, hq2⟩ := h2 q (by simp)
        have ht := hq.1
        unfold FunSource.token at ht
        rw [← hop] at ht
        have hboth : p.1.mangled = q.1.mangled ∧ (f.isOperator = true → p.2 = q.2) := by
          cases hfo : f.isOperator with
          | false => simp [hfo] at ht; exact ⟨ht, by simp⟩
          | true =>
            simp only [hfo, Bool.and_true] at ht
            cases hpo : p.2 <;> cases hqo : q.2 <;> simp only [hpo, hqo, Bool.false_eq_true, if_false, if_true,
              List.nil_append] at ht
            · exact ⟨ht, fun _ => rfl⟩
            · exact absurd ⟨_, ht.symm⟩ hp2
            · exact absurd ⟨_, ht⟩ hq2
            · exact ⟨List.append_cancel_left ht, fun _ => rfl⟩
        refine ⟨?_, fun ho => ?_⟩
        · simp only [List.map_cons, i1, (C15_type_mangling _ _ hp1 hq1).1 hboth.1]
        · simp only [List.map_cons, i2 ho, hboth.2 ho]
  obtain ⟨r1, r2⟩ := hpt f.params g.params htok
    (fun p hp => ⟨hf.params p hp, hout p (by simp [hp])⟩)
    (fun p hp => ⟨hg.params p hp, hout p (by simp [hp])⟩)
  refine ⟨r1, r2, fun hoc => ?_⟩
  have hor : (f.isOperator || f.isCast) = true := by
    rcases hoc with h | h <;> simp [h]
  rw [hor] at e2
  simp only [if_true, List.cons.injEq, true_and] at e2
  exact (C15_type_mangling _ _ (hret f hf) (hret g hg)).1 e2

/-- C15: declarations that agree in name, kind, parameter types (up to reference wrappers), `out`
flags and result type get the same signature, so redefinitions are recognised. -/
theorem C15_same_declaration (f g : FunSource) (hname : f.name = g.name) (hplain : f.isPlain = g.isPlain)
    (hp : f.params.map (fun p => (p.1.strip, p.2)) = g.params.map (fun p => (p.1.strip, p.2)))
    (hret : (f.ret.getD (.basic "Void")).strip = (g.ret.getD (.basic "Void")).strip) :
    f.signature = g.signature := by
  have hop : f.isOperator = g.isOperator := by simp [FunSource.isOperator, hname]
  have hcast : f.isCast = g.isCast := by simp [FunSource.isCast, hname]
  have htok : ∀ (ps qs : List (TypeName × Bool)),
      ps.map (fun p => (p.1.strip, p.2)) = qs.map (fun p => (p.1.strip, p.2)) →
      ps.flatMap f.token = qs.flatMap g.token := by
    intro ps
    induction ps with
    | nil => intro qs hq; cases qs with
      | nil => rfl
      | cons q qs => simp at hq
    | cons p ps ih =>
      intro qs hq
      cases qs with
      | nil => simp at hq
      | cons q qs =>
        simp only [List.map_cons, List.cons.injEq, Prod.mk.injEq] at hq
        rw [List.flatMap_cons, List.flatMap_cons, ih qs hq.2]
        unfold FunSource.token
        rw [TypeName.mangled_eq_plain_strip, TypeName.mangled_eq_plain_strip, hq.1.1, hq.1.2, hop]
  rw [FunSource.signature_eq, FunSource.signature_eq, htok _ _ hp, hname, hplain, hop, hcast,
    TypeName.mangled_eq_plain_strip (f.ret.getD _), TypeName.mangled_eq_plain_strip (g.ret.getD _), hret]

/-- A declaration for the examples. -/
def FunSource.sample (name : String) (ps : List String) : FunSource :=
  { name := name.toList, params := ps.map fun p => (.mk "ref".toList [.basic p], false), ret := none,
    isCallback := false, isExec := false, isNative := false }

/-- Non-vacuity of `C15_overloads_partial`: `f(ref<A>, ref<B>)` against itself without the wrappers. -/
example : let f := FunSource.sample "f" ["Aa", "Bb"]
    let g : FunSource := { f with params := [(.basic "Aa", false), (.basic "Bb", false)] }
    f.Clean ∧ g.Clean ∧ PrefixFree (f.params.map f.token ++ g.params.map g.token) ∧
      f.signature = g.signature ∧ f.isPlain = false ∧ f.signature = "f;AaBb".toList := by
  refine ⟨⟨?_, ?_, ?_⟩, ⟨?_, ?_, ?_⟩, ?_, ?_, ?_, ?_⟩
  · unfold CleanName; decide
  · intro p hp
    simp [FunSource.sample] at hp
    rcases hp with rfl | rfl <;>
      simp only [TypeName.Clean, TypeName.CleanArgs, TypeName.basic, and_true] <;> unfold CleanName <;> decide
  · intro t ht; cases ht
  · unfold CleanName; decide
  · intro p hp
    simp at hp
    rcases hp with rfl | rfl <;>
      simp only [TypeName.Clean, TypeName.CleanArgs, TypeName.basic, and_true] <;> unfold CleanName <;> decide
  · intro t ht; cases ht
  · unfold PrefixFree; decide
  · decide
  · decide
  · decide

/-- The restriction is needed: parameter renderings are concatenated without a separator, so
`f(Int, Pair)` and `f(IntPair)` have the same signature. -/
theorem C15_concatenation_counterexample :
    (FunSource.sample "f" ["Int", "Pair"]).signature = (FunSource.sample "f" ["IntPair"]).signature ∧
      (FunSource.sample "f" ["Int", "Pair"]).params.length ≠ (FunSource.sample "f" ["IntPair"]).params.length := by
  decide

/-! ## C16 -/

/-- C16: parsing a rendered path gives the path back. -/
theorem C16_roundtrip (p : ModulePath) (hne : p ≠ [])
    (h : ∀ part ∈ p, '.' ∉ part ∧ ';' ∉ part) : ModulePath.parse (ModulePath.render p) = p := by
  unfold ModulePath.parse ModulePath.render
  rw [splitOnChar_join '.' p hne fun q hq => (h q hq).1]
  have : ∀ q ∈ p, beforeSemicolon q = q := fun q hq =>
    beforeSemicolon_clean q fun c hc he => (h q hq).2 (he ▸ hc)
  exact (List.map_congr_left this).trans (List.map_id p)

/-- C16: a function's full path (its module's path extended by its signature) parses to the module's
path extended by the function's name, as long as the signature contains no dot. -/
theorem C16_function_path (p : ModulePath) (name sig : Text)
    (h : ∀ part ∈ p, '.' ∉ part ∧ ';' ∉ part) (hn : '.' ∉ name ∧ ';' ∉ name) (hs : '.' ∉ sig) :
    ModulePath.parse (ModulePath.render (p.withChild (name ++ ';' :: sig))) = p.withChild name := by
  unfold ModulePath.parse ModulePath.render ModulePath.withChild
  rw [splitOnChar_join '.' _ (by simp)]
  · rw [List.map_append, List.map_cons, List.map_nil,
      beforeSemicolon_append _ _ fun c hc he => hn.2 (he ▸ hc)]
    have : ∀ q ∈ p, beforeSemicolon q = q := fun q hq =>
      beforeSemicolon_clean q fun c hc he => (h q hq).2 (he ▸ hc)
    rw [(List.map_congr_left this).trans (List.map_id p)]
  · intro q hq
    rcases List.mem_append.1 hq with hq | hq
    · exact (h q hq).1
    · simp only [List.mem_singleton] at hq
      subst hq
      simp [hn.1, hs]

/-- C16: different paths have different renderings. -/
theorem C16_injective (p q : ModulePath) (hp : p ≠ []) (hq : q ≠ [])
    (h : ∀ part ∈ p ++ q, '.' ∉ part ∧ ';' ∉ part) (he : ModulePath.render p = ModulePath.render q) :
    p = q := by
  rw [← C16_roundtrip p hp fun x hx => h x (by simp [hx]),
    ← C16_roundtrip q hq fun x hx => h x (by simp [hx]), he]

/-- Non-vacuity. -/
example : ModulePath.parse "Foo.Bar.f;Int32".toList = ["Foo".toList, "Bar".toList, "f".toList] ∧
    ModulePath.render ["Foo".toList, "Bar".toList] = "Foo.Bar".toList ∧
    ∀ part ∈ (["Foo".toList, "Bar".toList] : ModulePath), '.' ∉ part ∧ ';' ∉ part := by decide

/-- The empty path is excluded rightly: its rendering parses as one empty component. -/
theorem C16_empty_counterexample : ModulePath.parse (ModulePath.render []) = [[]] := rfl

end Redscript
