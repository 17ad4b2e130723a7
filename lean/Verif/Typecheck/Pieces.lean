import Verif.Typecheck.Basics

/-!
# C56: pieces of the proof
-/

namespace Redscript

/-! ## Common types -/

theorem Joins.refl (h : Hierarchy) (t : TypeId) : Joins h t t := .widens (.refl t)

theorem Widens.joins {h : Hierarchy} {a b c : TypeId} (w : Widens h a b) (j : Joins h b c) : Joins h a c := by
  induction j generalizing a with
  | widens w' => exact .widens (w.trans w')
  | weakNull t => cases w; exact .weakNull t
  | ref j ih =>
    cases w with
    | refl => exact .ref j
    | null => exact .widens (.null _)
    | ref w => exact .ref (ih w)
  | weak j ih =>
    cases w with
    | refl => exact .weak j
    | weak w => exact .weak (ih w)

theorem Joins.trans {h : Hierarchy} {a b c : TypeId} (h1 : Joins h a b) (h2 : Joins h b c) : Joins h a c := by
  induction h1 generalizing c with
  | widens w => exact w.joins h2
  | weakNull t =>
    cases h2 with
    | widens w => cases w <;> exact .weakNull _
    | weak j => exact .weakNull _
  | ref j ih =>
    cases h2 with
    | widens w =>
      cases w with
      | refl => exact .ref j
      | ref w => exact .ref (ih (.widens w))
    | ref j' => exact .ref (ih j')
  | weak j ih =>
    cases h2 with
    | widens w =>
      cases w with
      | refl => exact .weak j
      | weak w => exact .weak (ih (.widens w))
    | weak j' => exact .weak (ih j')

theorem lubClass_upper {h : Hierarchy} {a b x : Idx} (hl : h.lubClass a b = some (some x)) :
    SubClass h a x ∧ SubClass h b x := by
  unfold Hierarchy.lubClass at hl
  obtain ⟨as, has, hl⟩ := Option.bind_eq_some_iff.1 hl
  obtain ⟨bs, hbs, hl⟩ := Option.map_eq_some_iff.1 hl
  obtain ⟨pre, ra, rb, h1, h2, _⟩ := Hierarchy.lastCommon_some hl
  exact ⟨(h.collectSupertypes_split a as has pre ra x h1).2, (h.collectSupertypes_split b bs hbs pre rb x h2).2⟩

theorem lub_joins (h : Hierarchy) (a b t : TypeId) (hl : h.lub a b = some (some t)) : Joins h a t ∧ Joins h b t := by
  fun_induction h.lub a b generalizing t with
  | case1 a => cases hl; exact ⟨.refl _ _, .refl _ _⟩
  | case2 => cases hl; exact ⟨.refl _ _, .widens (.null _)⟩
  | case3 => cases hl; exact ⟨.widens (.null _), .refl _ _⟩
  | case4 => cases hl; exact ⟨.refl _ _, .weakNull _⟩
  | case5 => cases hl; exact ⟨.weakNull _, .refl _ _⟩
  | case6 a b _ ih =>
    obtain ⟨r, hr, ho⟩ := Option.map_eq_some_iff.1 hl
    obtain ⟨u, rfl, rfl⟩ := Option.map_eq_some_iff.1 ho
    have := ih u hr
    exact ⟨.ref this.1, .ref this.2⟩
  | case7 a b _ ih =>
    obtain ⟨r, hr, ho⟩ := Option.map_eq_some_iff.1 hl
    obtain ⟨u, rfl, rfl⟩ := Option.map_eq_some_iff.1 ho
    have := ih u hr
    exact ⟨.weak this.1, .weak this.2⟩
  | case8 a b _ =>
    obtain ⟨r, hr, ho⟩ := Option.map_eq_some_iff.1 hl
    obtain ⟨u, rfl, rfl⟩ := Option.map_eq_some_iff.1 ho
    have := lubClass_upper hr
    exact ⟨.widens (.cls this.1), .widens (.cls this.2)⟩
  | case9 a b _ =>
    obtain ⟨r, hr, ho⟩ := Option.map_eq_some_iff.1 hl
    obtain ⟨u, rfl, rfl⟩ := Option.map_eq_some_iff.1 ho
    have := lubClass_upper hr
    exact ⟨.widens (.str this.1), .widens (.str this.2)⟩
  | case10 => cases hl

/-! ## Types of expressions -/

theorem queries_local {E : TcEnv} {L : List (Idx × TypeId)} {l : Idx} {t : TypeId}
    (h : (E.queries L).local_ l = .ok t) : (l, t) ∈ L := by
  unfold TcEnv.queries at h
  dsimp only at h
  split at h
  · rename_i p hp
    cases h
    have h1 := List.find?_some hp
    have h2 := List.mem_of_find?_eq_some hp
    simp only [beq_iff_eq] at h1
    subst h1
    exact h2
  · cases h

theorem constantOf_type (c : Constant) : ∃ n, ConstantOf c n ∧ TcEnv.constantType c = .basic n := by
  rcases c with ⟨l, s⟩ | x | x | x | x | x | x | x
  · cases l
    · exact ⟨_, .string s, rfl⟩
    · exact ⟨_, .name s, rfl⟩
    · exact ⟨_, .resource s, rfl⟩
    · exact ⟨_, .tweakDbId s, rfl⟩
  · exact ⟨_, .float x, rfl⟩
  · exact ⟨_, .double x, rfl⟩
  · exact ⟨_, .int x, rfl⟩
  · exact ⟨_, .int64 x, rfl⟩
  · exact ⟨_, .uint x, rfl⟩
  · exact ⟨_, .uint64 x, rfl⟩
  · exact ⟨_, .bool x, rfl⟩

theorem queries_result {E : TcEnv} {L : List (Idx × TypeId)} {f : Idx} {t : TypeId}
    (h : (E.queries L).result f = .ok t) : ResultIs E f t := by
  unfold TcEnv.queries at h
  dsimp only at h
  split at h
  · rename_i fn hf
    split at h
    · rename_i hr; cases h; exact ⟨fn, hf, .inr ⟨hr, rfl⟩⟩
    · rename_i hr; cases h; exact ⟨fn, hf, .inl hr⟩
    · cases h
  · cases h

/-- What `type_of` answers is the type by the rules. -/
theorem typeTree_sound {E : TcEnv} {L : List (Idx × TypeId)} : ∀ {e : TypedExpr} {t : TypeId},
    typeTree (E.queries L) e = .ok t → TypeIs E L e t
  | .Ident (.Value (.Local _)), t, h => .local (queries_local h)
  | .Ident (.Value (.Parameter _)), t, h => .param h
  | .Ident (.Symbol (.Class _ _)), t, h => by cases h; exact .cls _ _
  | .Ident (.Symbol (.Struct _ _)), t, h => by cases h; exact .str _ _
  | .Ident (.Symbol (.Enum _)), t, h => by cases h; exact .enm _
  | .Ident (.Symbol (.Functions _)), t, h => by cases h
  | .Constant c, t, h => by
    rw [typeTree] at h
    obtain ⟨n, h1, h2⟩ := constantOf_type c
    refine .constant h1 ?_
    rw [← h2]
    exact h
  | .ArrayLit es (some _), t, h => by cases h; exact .array _ _
  | .ArrayLit es none, t, h => by cases h
  | .InterpolatedString s ps, t, h => by
    rw [typeTree] at h
    exact .text h
  | .Cast ty e, t, h => by
    rw [typeTree] at h
    cases he : typeTree (E.queries L) e with
    | error x => rw [he] at h; cases h
    | ok s =>
      have ih := typeTree_sound he
      rw [he] at h
      cases s
      case WeakRef u => cases h; exact .castWeak _ ih
      case Ref u => cases h; exact .castRef _ ih
      case ScriptRef u => cases h; exact .castScript _ ih
      all_goals (cases h; exact .cast _ ih (by intro u hu; cases hu) (by intro u hu; cases hu) (by intro u hu; cases hu))
  | .Call (.Function _) tys args, t, h => .call _ _ (queries_result h)
  | .Call (.Intrinsic _ _) tys args, t, h => by cases h; exact .intrinsic _ _ _ _
  | .MethodCall ctx f args, t, h => by
    rw [typeTree] at h
    exact .method _ _ (queries_result h)
  | .Member e (.StructField _), t, h => .structField _ h
  | .Member e (.ClassField _), t, h => .classField _ h
  | .Member e (.EnumMember _ _), t, h => by cases h; exact .enumMember _ _ _
  | .ArrayElem a i, t, h => by
    rw [typeTree] at h
    cases he : typeTree (E.queries L) a with
    | error x => rw [he] at h; cases h
    | ok s =>
      have ih := typeTree_sound he
      rw [he] at h
      cases s
      case StaticArray u n => cases h; exact .staticElem _ ih
      case Array u => cases h; exact .elem _ ih
      all_goals cases h
  | .New ty args, t, h => by
    cases ty
    case Struct c => cases h; exact .newStruct _ _
    case Class c => cases h; exact .newClass _ _
    all_goals cases h
  | .Conditional c a b, t, h => by
    rw [typeTree] at h
    cases ha : typeTree (E.queries L) a with
    | error x => rw [ha] at h; cases h
    | ok s =>
      cases hb : typeTree (E.queries L) b with
      | error x => rw [ha, hb] at h; cases h
      | ok u =>
        have ia := typeTree_sound ha
        have ib := typeTree_sound hb
        rw [ha, hb] at h
        dsimp only [TcEnv.queries] at h
        split at h
        · rename_i v hv
          cases h
          exact .conditional _ ia ib (lub_joins _ _ _ _ hv).1 (lub_joins _ _ _ _ hv).2
        · cases h
        · cases h
  | .This, t, h => by
    rw [typeTree] at h
    split at h
    · rename_i c hc; cases h; exact .this hc
    · cases h
  | .Super, t, h => by
    rw [typeTree] at h
    split at h
    · rename_i c hc
      dsimp only [TcEnv.queries] at h hc
      rw [hc] at h
      dsimp only at h
      cases hv : E.h.view c with
      | none => rw [hv] at h; cases h
      | some v => rw [hv] at h; cases h; exact .super hc hv
    · cases h
  | .Null, t, h => by
    rw [typeTree] at h
    cases h; exact .null
  | .BinOp _ _ _, t, h => by rw [typeTree] at h; cases h
  | .UnOp _ _, t, h => by rw [typeTree] at h; cases h
  | .Declare _ _ _, t, h => by cases h; exact .valueless (.declare _ _ _)
  | .Assign _ _, t, h => by cases h; exact .valueless (.assign _ _)
  | .Return _, t, h => by cases h; exact .valueless (.ret _)
  | .Seq _, t, h => by cases h; exact .valueless (.seq _)
  | .Switch _ _ _, t, h => by cases h; exact .valueless (.switch _ _ _)
  | .Goto _, t, h => by cases h; exact .valueless (.goto _)
  | .If _ _ _, t, h => by cases h; exact .valueless (.ite _ _ _)
  | .While _ _, t, h => by cases h; exact .valueless (.while _ _)
  | .ForIn _ _ _, t, h => by cases h; exact .valueless (.forIn _ _ _)
  | .Break, t, h => by cases h; exact .valueless .brk

/-- More locals do not change what is known. -/
theorem TypeIs.mono {E : TcEnv} {L L' : List (Idx × TypeId)} (hL : L <+: L') {e : TypedExpr} {t : TypeId}
    (h : TypeIs E L e t) : TypeIs E L' e t := by
  induction h with
  | «local» h => exact .local (hL.subset h)
  | param h => exact .param h
  | cls c v => exact .cls c v
  | str c v => exact .str c v
  | enm c => exact .enm c
  | constant h1 h2 => exact .constant h1 h2
  | array es t => exact .array es t
  | text h => exact .text h
  | castRef t _ ih => exact .castRef t ih
  | castWeak t _ ih => exact .castWeak t ih
  | castScript t _ ih => exact .castScript t ih
  | cast t _ h1 h2 h3 ih => exact .cast t ih h1 h2 h3
  | call tys args h => exact .call _ _ h
  | intrinsic op t tys args => exact .intrinsic _ _ _ _
  | method ctx args h => exact .method _ _ h
  | classField e h => exact .classField _ h
  | structField e h => exact .structField _ h
  | enumMember e c m => exact .enumMember _ _ _
  | elem i _ ih => exact .elem _ ih
  | staticElem i _ ih => exact .staticElem _ ih
  | newClass c args => exact .newClass _ _
  | newStruct c args => exact .newStruct _ _
  | conditional c _ _ h1 h2 ia ib => exact .conditional _ ia ib h1 h2
  | this h => exact .this h
  | super h1 h2 => exact .super h1 h2
  | null => exact .null
  | valueless h => exact .valueless h

/-! ## Conversions -/

/-- No fatal diagnostics. -/
def NoFatal (ds : List TcDiag) : Prop := TcDiag.compileError ∉ ds

theorem NoFatal.of_prefix {ds ds' : List TcDiag} (h : NoFatal ds') (hp : ds <+: ds') : NoFatal ds :=
  fun hm => h (hp.subset hm)

theorem conversion_ok {E : TcEnv} {a b : TypeId} {c : Conversion} (h : E.conversion a b = .ok (some c)) :
    Converts E.h a b c := by
  unfold TcEnv.conversion at h
  split at h
  · rename_i c' hc
    cases h
    exact (C21_found_iff_allowed E.h a b c).1 hc
  · cases h

theorem AllOk.one {E : TcEnv} {L} {e : TypedExpr} (h : Ok E L e) : AllOk E L [e] := .cons h .nil

theorem FitAll.one {E : TcEnv} {L} {e : TypedExpr} {t : TypeId} (h : TypeIs E L e t) : FitAll E L [e] [t] :=
  .cons ⟨t, h, .refl _⟩ (.nil _)

/-- An inserted conversion gives a value of the type converted to. -/
theorem insert_ok {E : TcEnv} {L : List (Idx × TypeId)} {e : TypedExpr} {s t : TypeId} {c : Conversion}
    (hc : Converts E.h s t c) (he : Ok E L e) (ht : TypeIs E L e s) :
    Ok E L (insertConversion e t c) ∧ Suits E L (insertConversion e t c) t := by
  cases hc with
  | identity w => exact ⟨he, s, ht, w⟩
  | nullWeak u =>
    exact ⟨.intrinsic _ (.nullToWeak u) (.one he) (.one ht) rfl, _, .intrinsic _ _ _ _, .refl _⟩
  | toWeak w =>
    exact ⟨.intrinsic _ (.toWeak w) (.one he) (.one ht) rfl, _, .intrinsic _ _ _ _, .refl _⟩
  | toStrong w =>
    exact ⟨.intrinsic _ (.toStrong w) (.one he) (.one ht) rfl, _, .intrinsic _ _ _ _, .refl _⟩
  | toScriptRef w =>
    exact ⟨.intrinsic _ (.asRef w) (.one he) (.one ht) rfl, _, .intrinsic _ _ _ _, .refl _⟩
  | toVariant hn =>
    exact ⟨.intrinsic _ (.asVariant s hn) (.one he) (.one ht) rfl, _, .intrinsic _ _ _ _, .refl _⟩

/-- What is followed is no weak reference. -/
theorem strengthen_ok {E : TcEnv} {L : List (Idx × TypeId)} {e : TypedExpr} {s : TypeId}
    (he : Ok E L e) (ht : TypeIs E L e s) :
    ∃ s', Ok E L (TcEnv.strengthen s e) ∧ TypeIs E L (TcEnv.strengthen s e) s' ∧ (∀ u, s' ≠ .WeakRef u) ∧
      s'.unwrapped = s.unwrapped := by
  cases s
  case WeakRef t =>
    refine ⟨.Ref t, (insert_ok (.toStrong (.refl t)) he ht).1, .intrinsic _ _ _ _, (by intro u hu; cases hu), rfl⟩
  all_goals exact ⟨_, he, ht, (by intro u hu; cases hu), rfl⟩

theorem convertTo_ok {E : TcEnv} {t : TypeId} {x y : TypedExpr} {st st' : TcState}
    (h : E.convertTo t x st = .ok (y, st')) (hn : NoFatal st'.diags) :
    st = st' ∧ ∃ s c, typeTree (E.queries st.locals) x = .ok s ∧ Converts E.h s t c ∧ y = insertConversion x t c := by
  unfold TcEnv.convertTo at h
  obtain ⟨s, st1, h0, h2⟩ := Tc.bind_ok.1 h
  obtain ⟨h1, rfl⟩ := E.typeOf_ok.1 h0
  obtain ⟨r, st2, h3', h4⟩ := Tc.bind_ok.1 h2
  obtain ⟨h3, rfl⟩ := TcEnv.give_ok.1 h3'
  cases r with
  | some c =>
    obtain ⟨rfl, rfl⟩ := Tc.pure_ok.1 h4
    exact ⟨rfl, s, c, h1, conversion_ok h3, rfl⟩
  | none =>
    exfalso
    obtain ⟨_, st3, h5, h6⟩ := Tc.bind_ok.1 h4
    obtain ⟨_, rfl⟩ := Tc.report_ok.1 h5
    obtain ⟨_, rfl⟩ := Tc.pure_ok.1 h6
    exact hn (by simp)

/-! ## Names -/

theorem refersTo {t : TypeId} {c : Idx} (h : t.unwrapped = .Class c ∨ t.unwrapped = .Struct c) : RefersTo t c := by
  induction t with
  | Ref t ih => exact .ref (ih h)
  | WeakRef t ih => exact .weak (ih h)
  | ScriptRef t ih => exact .script (ih h)
  | Class d => rcases h with h | h <;> cases h; exact .cls _
  | Struct d => rcases h with h | h <;> cases h; exact .str _
  | _ => rcases h with h | h <;> cases h

theorem refersToEnum {t : TypeId} {c : Idx} (h : t.unwrapped = .Enum c) : RefersToEnum t c := by
  induction t with
  | Ref t ih => exact .ref (ih h)
  | WeakRef t ih => exact .weak (ih h)
  | ScriptRef t ih => exact .script (ih h)
  | Enum d => cases h; exact .enm _
  | _ => cases h

theorem hasField {h : Hierarchy} {n : Text} {c f : Idx} (hr : h.resolveField n c = some f) : ClassHasField h c f := by
  fun_induction h.resolveField n c with
  | case1 => cases hr
  | case2 c v hv g hg =>
    cases hr
    exact ⟨c, v, .refl c, hv, g.1, List.mem_of_find?_eq_some hg⟩
  | case3 c v hv _ hb ih =>
    obtain ⟨d, w, h1, h2⟩ := ih hr
    exact ⟨d, w, .step hv hb h1, h2⟩
  | case4 => cases hr

theorem hasMethod_collect {h : Hierarchy} {n : Text} {c f : Idx} {fs : List Idx}
    (hr : h.collectMethods n c = some fs) (hf : f ∈ fs) : ClassHasMethod h c f := by
  fun_induction h.collectMethods n c generalizing fs with
  | case1 => cases hr; cases hf
  | case2 => cases hr
  | case3 c _ v hv hb ih =>
    dsimp only at hr
    rw [dif_pos hb] at hr
    obtain ⟨gs, hg, rfl⟩ := Option.map_eq_some_iff.1 hr
    rcases List.mem_append.1 hf with hf | hf
    · obtain ⟨m, hm, rfl⟩ := List.mem_map.1 hf
      exact ⟨c, v, .refl c, hv, m.1, (List.mem_filter.1 hm).1⟩
    · obtain ⟨d, w, h1, h2⟩ := ih hg hf
      exact ⟨d, w, .step hv hb h1, h2⟩
  | case4 c _ v hv hb =>
    dsimp only at hr
    rw [dif_neg hb] at hr
    cases hr
    obtain ⟨m, hm, rfl⟩ := List.mem_map.1 hf
    exact ⟨c, v, .refl c, hv, m.1, (List.mem_filter.1 hm).1⟩

theorem hasMethod {h : Hierarchy} {n : Text} {c f : Idx} {fs : List Idx}
    (hr : h.resolveMethod n c = some fs) (hf : f ∈ fs) : ClassHasMethod h c f := by
  unfold Hierarchy.resolveMethod at hr
  obtain ⟨gs, hg, hr⟩ := Option.bind_eq_some_iff.1 hr
  split at hr
  · cases hr
  · cases hr; exact hasMethod_collect hg hf

theorem fieldTypes_ok {E : TcEnv} {fs : List Idx} {ts : List TypeId} (h : E.fieldTypes fs = .ok ts) :
    fs.map E.field = ts.map .ok := by
  induction fs generalizing ts with
  | nil => cases h; rfl
  | cons f fs ih =>
    unfold TcEnv.fieldTypes at h
    cases hf : E.field f with
    | error e => rw [hf] at h; cases h
    | ok t =>
      cases hs : E.fieldTypes fs with
      | error e => rw [hf, hs] at h; cases h
      | ok us =>
        rw [hf, hs] at h
        cases h
        rw [List.map_cons, List.map_cons, hf, ih hs]

end Redscript
