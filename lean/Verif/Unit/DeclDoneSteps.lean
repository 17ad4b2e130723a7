import Verif.Unit.DeclDone

/-!
# The definitions a slot leads to
-/

namespace Redscript
open DeclM

set_option synthInstance.maxSize 2000
set_option synthInstance.maxHeartbeats 400000

theorem Each2.mono {R R' : α → β → Prop} {as : List α} {bs : List β} (h : Each2 R as bs) (hr : ∀ a b, R a b → R' a b) :
    Each2 R' as bs := by
  induction h with
  | nil => exact .nil
  | cons h1 _ ih => exact .cons (hr _ _ h1) ih

theorem Each2.length {R : α → β → Prop} {as : List α} {bs : List β} (h : Each2 R as bs) : as.length = bs.length := by
  induction h with
  | nil => rfl
  | cons _ _ ih => simp [ih]

theorem Each2.mem_right {R : α → β → Prop} {as : List α} {bs : List β} (h : Each2 R as bs) {b : β} (hb : b ∈ bs) :
    ∃ a ∈ as, R a b := by
  induction h with
  | nil => cases hb
  | cons h1 _ ih =>
    rcases List.mem_cons.1 hb with rfl | hb
    · exact ⟨_, List.mem_cons_self, h1⟩
    · obtain ⟨a, h2, h3⟩ := ih hb
      exact ⟨a, List.mem_cons_of_mem _ h2, h3⟩

theorem DefinedAs.function {p : ConstantPool} {i parent : Idx} {x : Text} {g : FunctionDef} (h : DefinedAs p i parent x (.Function g)) :
    p.function i = some g := by
  obtain ⟨_, d, hd, _, hv⟩ := h
  have hd : p.definitions[i.toNat]? = some d := hd
  unfold ConstantPool.function ConstantPool.definitionBy
  rw [hd, Option.bind_some, hv]; rfl

/-- Scopes with the names of the module being compiled meet `N`. -/
def Knows (N : Scope → Prop) (s : DeclState) : Prop := ∀ sc : Scope, sc.symbols = s.moduleScope.symbols → N sc

theorem Knows.later {N : Scope → Prop} {T : Idx → Prop} {s s' : DeclState} (h : Knows N s) (k : KeepStep T s s') : Knows N s' :=
  fun sc hsc => h sc (hsc.trans k.module)

/-- A function whose parameters are not among the first `n` definitions. -/
def MadeFunction (n : Nat) (s : DeclState) (N : Scope → Prop) (at_ : Placed) (f : FunctionSource) : Prop :=
  IsFunction s N at_ f ∧ ∀ g, s.pool.function at_.index = some g → ∀ j ∈ g.parameters, n ≤ j.toNat

section
variable {T : Idx → Prop} {s s' : DeclState} {N : Scope → Prop}

theorem Keeps.param (h : Keeps T s s') {fn i : Idx} {src : ParamSource} (hi : ¬ T i) (hp : IsParam s.pool fn src i) :
    IsParam s'.pool fn src i := by
  obtain ⟨q, h1, h2, h3, h4, h5⟩ := hp
  exact ⟨q, h.frame.definedAs h1 hi rfl, h2, h3, h4, h5.mono h.frame.stay⟩

theorem WrittenAt.mono {files files' : List (String × Idx)} {loc : Option (String × BitVec 32)} {r : Option SourceReference}
    (h : WrittenAt files loc r) (hf : ∀ e ∈ files, e ∈ files') : WrittenAt files' loc r := by
  unfold WrittenAt at h ⊢
  cases loc with
  | none => exact h
  | some l =>
    obtain ⟨i, h1, h2⟩ := h
    exact ⟨i, h1, hf _ h2⟩

theorem Keeps.function (h : Keeps T s s') {n : Nat} {at_ : Placed} {f : FunctionSource} (hi : ¬ T at_.index)
    (hn : ∀ j, T j → j.toNat < n) (hf : MadeFunction n s N at_ f) : MadeFunction n s' N at_ f := by
  obtain ⟨⟨g, h1, h2, h3, h4, hty, h5, h6, h7, h8, h9, h10, hcb, hca, h11, h12, h13, h14⟩, hp⟩ := hf
  have h1' := h.frame.definedAs h1 hi rfl
  have hp := hp g h1.function
  refine ⟨⟨g, h1', ⟨h2.1, h2.2.1, h2.2.2.1, h2.2.2.2.mono h.files⟩, ?_, h4, fun t r ht hr => (hty t r ht hr).mono h.frame.stay, h5, h6, h7, h8, h9, h10, hcb, hca, h11, h12, h13, ?_⟩, ?_⟩
  · have key : ∀ (as : List ParamSource) (bs : List Idx), Each2 (IsParam s.pool at_.index) as bs → (∀ j ∈ bs, n ≤ j.toNat) →
        Each2 (IsParam s'.pool at_.index) as bs := by
      intro as bs hab
      induction hab with
      | nil => intro _; exact .nil
      | cons k1 _ ih =>
        intro hb
        refine .cons (h.param (fun hT => ?_) k1) (ih fun j hj => hb j (List.mem_cons_of_mem _ hj))
        have := hn _ hT
        have := hb _ List.mem_cons_self
        omega
    exact key _ _ h3 hp
  · intro code hc
    obtain ⟨b, hb, h15⟩ := h14 code hc
    exact ⟨b, h.bodies b hb, h15⟩
  · intro g' hg'
    rw [h1'.function] at hg'; cases hg'
    exact hp

theorem Keeps.field (h : Keeps T s s') {i cls : Idx} {v : Visibility} {f : FieldSource} (hi : ¬ T i) (hf : IsField s N i cls v f) :
    IsField s' N i cls v f := by
  obtain ⟨g, h1, h2, h3, h4, hbr, h5, hty, h6⟩ := hf
  refine ⟨g, h.frame.definedAs h1 hi rfl, h2, h3, h4, hbr, h5, hty.mono h.frame.stay, fun value hv => ?_⟩
  obtain ⟨b, hb, h7⟩ := h6 value hv
  exact ⟨b, h.defaults b hb, h7⟩

end

namespace After
variable {s : DeclState} {T : Idx → Prop} {N : Scope → Prop}

/-! ## Functions -/

theorem param_flags (p : ParamSource) : flag ParameterFlags.isOptionalBit p.flags = p.qualifiers.contains .Optional ∧
    flag ParameterFlags.isOutBit p.flags = p.qualifiers.contains .Out ∧
    flag ParameterFlags.isConstBit p.flags = p.qualifiers.contains .Const := by
  unfold ParamSource.flags ParameterFlags.isOptionalBit ParameterFlags.isOutBit ParameterFlags.isConstBit
  refine ⟨?_, ?_, ?_⟩ <;> simp [flag_setFlag]

theorem defName_of {p : ConstantPool} {i : Idx} {d : Definition} {t : Text} (hd : p.definition i = some d)
    (hn : p.names.get Strings.cnameDefault d.name = some (String.ofList t)) : p.defName i = some t := by
  unfold ConstantPool.defName
  rw [hd, Option.bind_some, hn]
  simp

theorem defineParams {depth : Nat} {fn : Idx} : ∀ {ps : List ParamSource} {s : DeclState}, (∀ i, T i → i.toNat < s.len) →
    After s T (defineParams depth fn ps) fun s' l => Each2 (fun src j => s.len ≤ j.toNat ∧ IsParam s'.pool fn src j) ps l
  | [], s, _ => pure .nil
  | p :: ps, s, hT => by
    unfold Redscript.defineParams
    refine bind tryResolveType fun s1 ty _ _ _ ⟨e, n, hrepr, hcall⟩ => ?_
    subst e
    refine bind typeIndex fun s2 tyIdx _ _ st2 h2 => ?_
    refine bind addName fun s3 name l3 _ st3 ⟨h3, h3'⟩ => ?_
    refine bind (addDefinition rfl) fun s4 idx l4 _ st4 ⟨h4, h4', h4'', h4l⟩ => ?_
    have hs1 : s1.len ≤ idx.toNat := by rw [h4]; exact Nat.le_trans st2.frame.size st3.frame.size
    have hp : IsParam s4.pool fn p idx := by
      refine ⟨_, ⟨?_, _, h4', rfl, rfl⟩, (param_flags p).1, (param_flags p).2.1, (param_flags p).2.2,
        n, (st3.trans st4).frame.defName (h2 n hrepr), hcall.mono (st2.trans (st3.trans st4)).frame.stay⟩
      refine defName_of h4' ?_
      rw [h4'']; exact h3
    have hlen : s1.len ≤ s4.len := Nat.le_trans (Nat.le_trans st2.frame.size st3.frame.size) st4.frame.size
    refine bind (defineParams fun i hi => Nat.lt_of_lt_of_le (hT i hi) hlen) fun s5 rest _ _ st5 h5 => ?_
    refine pure (.cons ⟨hs1, st5.toKeeps.param (fun h => ?_) hp⟩ (h5.mono fun _ _ h => ⟨Nat.le_trans hlen h.1, h.2⟩))
    have := hT _ h
    omega

theorem defineReturn {depth : Nat} {t : Option TypeName} : After s T (defineReturn depth t) fun s' r =>
    (r.isSome = true ↔ ∃ u, t = some u ∧ u.isVoid = false) ∧ ∀ u i, t = some u → r = some i → NamesType s'.pool u i := by
  unfold Redscript.defineReturn
  cases t with
  | none => exact pure (by simp)
  | some t =>
    simp only
    split
    · next h => exact pure (by simp [h])
    · next h =>
      refine bind tryResolveType fun s1 ty _ _ _ ⟨e, n, hrepr, hcall⟩ => ?_
      subst e
      refine bind typeIndex fun s2 i _ _ st2 h2 => pure ⟨by simpa using h, fun u j hu hj => ?_⟩
      cases hu; cases hj
      exact ⟨n, h2 n hrepr, hcall.mono st2.frame.stay⟩

theorem checkFunction {spec : FunctionSpec} : After s T (checkFunction spec) fun s' _ => s' = s := by
  unfold Redscript.checkFunction
  refine bind (Q := fun s' _ => s' = s) (when (fun _ => report) fun _ => rfl) fun s1 _ _ _ _ e => ?_
  subst e
  refine bind (Q := fun s' _ => s' = s1) (when (fun _ => report) fun _ => rfl) fun s2 _ _ _ _ e => ?_
  subst e
  exact when (fun _ => report) fun _ => rfl

theorem pushBody {spec : FunctionSpec} (hN : Knows N s) : After s T (pushBody spec) fun s' _ => s'.pool = s.pool ∧
    ∀ code, spec.source.body = some code → ∃ b ∈ s'.bodies, b.index = spec.funIdx ∧ b.cls = spec.classIdx ∧ b.code = code ∧
      b.wrapped = spec.wrapped ∧ b.wasCallback = spec.source.declaration.has .Callback ∧ N b.scope := by
  unfold Redscript.pushBody
  cases spec.source.body with
  | none => exact pure ⟨rfl, fun _ h => by cases h⟩
  | some code =>
    refine update ⟨⟨.refl T _, fun b hb => List.mem_append_left _ hb, fun _ h => h, fun _ h => h⟩, fun k => ⟨k.table, k.shape⟩, rfl, rfl, rfl⟩ ⟨rfl, fun c hc => ?_⟩
    cases hc
    exact ⟨_, List.mem_append_right _ List.mem_cons_self, rfl, rfl, rfl, rfl, rfl, hN _ rfl⟩

theorem function_flags (spec : FunctionSpec) (r p : Bool) :
    flag FunctionFlags.isStaticBit (spec.flags r p) = spec.isStatic ∧
    flag FunctionFlags.isFinalBit (spec.flags r p) = spec.source.declaration.has .Final ∧
    flag FunctionFlags.isExecBit (spec.flags r p) = spec.source.declaration.has .Exec ∧
    flag FunctionFlags.isConstBit (spec.flags r p) = spec.source.declaration.has .Const ∧
    flag FunctionFlags.isQuestBit (spec.flags r p) = spec.source.declaration.has .Quest ∧
    flag FunctionFlags.isNativeBit (spec.flags r p) = spec.isNative ∧
    flag FunctionFlags.hasReturnValueBit (spec.flags r p) = r ∧
    flag FunctionFlags.hasParametersBit (spec.flags r p) = p ∧
    flag FunctionFlags.isCallbackBit (spec.flags r p) = (spec.source.declaration.has .Callback && spec.wrapped.isNone) ∧
    flag FunctionFlags.isCastBit (spec.flags r p) = decide (spec.source.declaration.name = "Cast".toList) := by
  unfold FunctionSpec.flags FunctionFlags.isStaticBit FunctionFlags.isFinalBit FunctionFlags.isExecBit FunctionFlags.isConstBit
    FunctionFlags.isQuestBit FunctionFlags.isNativeBit FunctionFlags.hasReturnValueBit FunctionFlags.hasParametersBit
    FunctionFlags.isCallbackBit FunctionFlags.isCastBit
  refine ⟨?_, ?_, ?_, ?_, ?_, ?_, ?_, ?_, ?_, ?_⟩ <;> simp [flag_setFlag]

/-- Where the function of a specification goes, under its name. -/
def _root_.Redscript.FunctionSpec.placed (spec : FunctionSpec) (name : Text) : Placed :=
  ⟨spec.funIdx, spec.classIdx, name, spec.visibility, spec.isNative, spec.baseMethod, spec.wrapped⟩

theorem defineFunction {depth : Nat} {spec : FunctionSpec} {x : Text} (hx : s.pool.defName spec.funIdx = some x)
    (hT : T spec.funIdx) (hT' : ∀ i, T i → i.toNat < s.len) (hN : Knows N s)
    (hw : WrittenAt s.files spec.source.declaration.loc (some spec.sourceRef)) :
    After s T (defineFunction depth spec) fun s' _ => MadeFunction s.len s' N (spec.placed x) spec.source := by
  unfold Redscript.defineFunction
  refine bind checkFunction fun s1 _ _ _ _ e => ?_
  subst e
  refine bind defineReturn fun s2 ret _ _ st2 ⟨hret, hretTy⟩ => ?_
  refine bind (defineParams fun i hi => Nat.lt_of_lt_of_le (hT' i hi) st2.frame.size) fun s3 params _ _ st3 hpar => ?_
  refine bind nameOf fun s4 name _ _ _ ⟨e, hname⟩ => ?_
  subst e
  refine bind (pushBody ((hN.later st2).later st3)) fun s5 _ _ _ st5 ⟨e5, hbody⟩ => ?_
  refine bind (put hT rfl (by rw [e5]; exact hname)) fun s6 _ _ _ st6 ⟨h6, h6', _⟩ => pushRef ?_
  have hdef : s6.pool.defName spec.funIdx = some x := (st2.trans (st3.trans (st5.trans st6))).frame.defName hx
  have hD : DefinedAs s6.pool spec.funIdx spec.classIdx x (.Function (spec.function ret params)) := ⟨hdef, _, h6, rfl, rfl⟩
  obtain ⟨f1, f2, f3, f4, f5, f6, f7, f8, f9, f10⟩ := function_flags spec ret.isSome !params.isEmpty
  have hlen := hpar.length
  have hge : ∀ j ∈ params, s1.len ≤ j.toNat := fun j hj => by
    obtain ⟨_, _, h, _⟩ := hpar.mem_right hj
    exact Nat.le_trans st2.frame.size h
  refine ⟨⟨spec.function ret params, hD, ⟨rfl, rfl, rfl, hw.mono (st2.trans (st3.trans (st5.trans st6))).files⟩, ?_, hret, fun t r ht hr => (hretTy t r ht hr).mono (st3.trans (st5.trans st6)).frame.stay, f1, f2, f3, f4, f5, f6, f9, f10, f7 ▸ hret, ?_, rfl, ?_⟩, ?_⟩
  · refine hpar.mono fun p j hj => ?_
    refine st6.toKeeps.param (fun h => ?_) (st5.toKeeps.param (fun h => ?_) hj.2)
    all_goals
      have := hT' _ h
      have := hj.1
      have : s1.len ≤ s2.len := st2.frame.size
      omega
  · show flag FunctionFlags.hasParametersBit (spec.flags ret.isSome !params.isEmpty) = _
    rw [f8]
    cases hps : spec.source.parameters <;> cases params <;> simp [hps] at hlen ⊢
  · intro code hc
    obtain ⟨b, hb, h⟩ := hbody code hc
    exact ⟨b, st6.bodies b hb, h⟩
  · intro g hg
    have hg : s6.pool.function spec.funIdx = some g := hg
    rw [hD.function] at hg; cases hg
    exact hge

/-! ## Fields -/

theorem pushDefault {i cls : Idx} {f : FieldSource} (hN : Knows N s) : After s T (pushDefault i cls f) fun s' _ => s'.pool = s.pool ∧
    ∀ value, f.default = some value → ∃ b ∈ s'.defaults, b.index = i ∧ b.cls = cls ∧ b.value = value ∧ N b.scope := by
  unfold Redscript.pushDefault
  cases f.default with
  | none => exact pure ⟨rfl, fun _ h => by cases h⟩
  | some value =>
    refine update ⟨⟨.refl T _, fun _ h => h, fun b hb => List.mem_append_left _ hb, fun _ h => h⟩, fun k => ⟨k.table, k.shape⟩, rfl, rfl, rfl⟩ ⟨rfl, fun c hc => ?_⟩
    cases hc
    exact ⟨_, List.mem_append_right _ List.mem_cons_self, rfl, rfl, rfl, hN _ rfl⟩

theorem fieldAttributes_spec : ∀ {as : List Annotation} {ps : List Property}, fieldAttributes as = some ps →
    Each2 IsProperty (as.filter fun a => decide (a.kind = .RuntimeProperty)) ps
  | [], ps, h => by cases h; exact .nil
  | a :: as, ps, h => by
    unfold fieldAttributes at h
    by_cases hk : a.kind = .RuntimeProperty
    · rw [if_pos hk] at h
      rw [List.filter_cons_of_pos (by simpa using hk)]
      split at h
      · next k v hargs =>
        rw [Option.map_eq_some_iff] at h
        obtain ⟨qs, hq, rfl⟩ := h
        exact .cons ⟨k, v, hargs, rfl⟩ (fieldAttributes_spec hq)
      · cases h
    · rw [if_neg hk] at h
      rw [List.filter_cons_of_neg (by simpa using hk)]
      exact fieldAttributes_spec h

theorem field_flags (f : FieldSource) : flag FieldFlags.isNativeBit f.flags = f.declaration.has .Native ∧
    flag FieldFlags.isPersistentBit f.flags = f.declaration.has .Persistent ∧ flag FieldFlags.isBrowsableBit f.flags = true := by
  unfold FieldSource.flags FieldFlags.isNativeBit FieldFlags.isPersistentBit FieldFlags.isBrowsableBit
  refine ⟨?_, ?_, ?_⟩ <;> simp [flag_setFlag]

theorem defineField {depth : Nat} {i cls : Idx} {fl : ClassFlags} {v : Visibility} {f : FieldSource}
    (hx : s.pool.defName i = some f.declaration.name) (hT : T i) (hN : Knows N s) :
    After s T (defineField depth i cls fl v f) fun s' _ => IsField s' N i cls v f := by
  unfold Redscript.defineField
  refine bind (Q := fun s' _ => s' = s) (when (fun _ => report) fun _ => rfl) fun s1 _ _ _ _ e => ?_
  subst e
  refine bind (Q := fun s' _ => s' = s1) (when (fun _ => report) fun _ => rfl) fun s2 _ _ _ _ e => ?_
  subst e
  refine bind tryResolveType fun s3 ty _ _ _ ⟨e, n, hrepr, hcall⟩ => ?_
  subst e
  refine bind typeIndex fun s4 tyIdx _ _ st4 h4 => ?_
  refine bind (Q := fun s' a => s' = s4 ∧ fieldAttributes f.declaration.annotations = some a) (readOr fun a h => ⟨rfl, h⟩)
    fun s5 attrs _ _ _ ⟨e, hattr⟩ => ?_
  subst e
  refine bind nameOf fun s6 name _ _ _ ⟨e, hname⟩ => ?_
  subst e
  refine bind (pushDefault (hN.later st4)) fun s7 _ _ _ st7 ⟨e7, hdef⟩ => ?_
  refine bind (put hT rfl (by rw [e7]; exact hname)) fun s8 _ _ _ st8 ⟨h8, _, _⟩ => pushRef ?_
  refine ⟨_, ⟨(st4.trans (st7.trans st8)).frame.defName hx, _, h8, rfl, rfl⟩, rfl, (field_flags f).1, (field_flags f).2.1, (field_flags f).2.2,
    fieldAttributes_spec hattr, ⟨n, (st7.trans st8).frame.defName (h4 n hrepr), hcall.mono (st4.trans (st7.trans st8)).frame.stay⟩, fun value hv => ?_⟩
  obtain ⟨b, hb, h⟩ := hdef value hv
  exact ⟨b, st8.defaults b hb, h⟩

theorem defineSourceRef {loc : Option (String × BitVec 32)} : After s T (defineSourceRef loc) fun s' r => WrittenAt s'.files loc (some r) := by
  unfold Redscript.defineSourceRef
  cases loc with
  | none => exact pure rfl
  | some l =>
    obtain ⟨path, line⟩ := l
    intro _ b s' hb _
    simp only at hb
    cases hf : s.files.find? (fun e => decide (e.1 = path)) with
    | some e =>
      rw [hf] at hb; cases hb
      refine ⟨.refl T s, e.2, rfl, ?_⟩
      have h1 := List.find?_some hf
      have h2 := List.mem_of_find?_eq_some hf
      have h3 : e.1 = path := by simpa using h1
      rw [← h3]; exact h2
    | none =>
      rw [hf] at hb; cases hb
      have hf : ∀ d, DeclFrame T s.pool (s.pool.addDefinition d).2 := fun d => DeclFrame.append (ds := [d]) rfl fun _ _ h => h
      exact ⟨⟨⟨hf _, fun _ h => h, fun _ h => h, fun e he => List.mem_append_left _ he⟩, fun k => ⟨k.table.mono (hf _).stay, k.shape.add (hf _).stay rfl (fun j k g _ hg => by cases hg)⟩, rfl, rfl, rfl⟩, _, rfl, List.mem_append_right _ List.mem_cons_self⟩

/-! ## Classes -/

/-- A new definition under a name. -/
theorem stub {n : Idx} {t : Text} (hn : s.pool.names.get Strings.cnameDefault n = some (String.ofList t)) :
    After s T (DeclM.stub n) fun s' i => i.toNat = s.len ∧ s'.pool.defName i = some t ∧ s'.len = s.len + 1 :=
  (addDefinition rfl).mono fun s' i _ ⟨h1, h2, h3, h4⟩ => ⟨h1, defName_of h2 (by rw [h3]; exact hn), h4⟩

theorem defineMembers {cx : DeclCtx} {cls : Idx} {fl : ClassFlags} {v : Visibility} {b : Bool} : ∀ {ms : List MemberSource} {s : DeclState},
    (∀ i, T i → i.toNat < s.len) → Knows N s → After s T (defineMembers cx cls fl v b ms) fun s' r =>
      Each2 (fun (f : FunctionSource) j => s.len ≤ j.toNat ∧
        MadeFunction s.len s' N ⟨j, cls, f.sig, v, f.declaration.has .Native, none, none⟩ f) (methodsOn cx.modules ms) r.1 ∧
      Each2 (fun f j => s.len ≤ j.toNat ∧ IsField s' N j cls v f) (fieldsOn cx.modules ms) r.2
  | [], s, _, _ => pure ⟨.nil, .nil⟩
  | .Function f :: ms, s, hT, hN => by
    unfold Redscript.defineMembers
    refine bind (Q := fun s' on => s' = s ∧ evalConditions cx.modules f.declaration.annotations = some on) (readOr fun a h => ⟨rfl, h⟩)
      fun s0 on _ _ _ ⟨e, hon⟩ => ?_
    subst e
    cases on with
    | false =>
      have h1 : methodsOn cx.modules (.Function f :: ms) = methodsOn cx.modules ms := by
        simp [methodsOn, DeclSource.Enabled, hon]
      have h2 : fieldsOn cx.modules (.Function f :: ms) = fieldsOn cx.modules ms := by simp [fieldsOn]
      rw [h1, h2]
      exact defineMembers hT hN
    | true =>
      have h1 : methodsOn cx.modules (.Function f :: ms) = f :: methodsOn cx.modules ms := by
        simp [methodsOn, DeclSource.Enabled, hon]
      have h2 : fieldsOn cx.modules (.Function f :: ms) = fieldsOn cx.modules ms := by simp [fieldsOn]
      rw [h1, h2]
      simp only [if_true]
      refine drop (T' := fun i => T i ∨ i.toNat = s0.len) ?_ ?_
      · refine bind (Q := fun s' _ => s' = s0) (when (fun _ => report) fun _ => rfl) fun s1 _ _ _ _ e => ?_
        subst e
        refine bind addName fun s2 name _ _ st2 ⟨hn, hn'⟩ => ?_
        have hl2 : s2.len = s1.len := by unfold DeclState.len; rw [hn']
        refine bind (stub hn) fun s3 k _ f3 st3 ⟨hk, hk', hl3⟩ => ?_
        refine bind defineSourceRef fun s4 ref _ _ st4 hw4 => ?_
        have hs4 : s3.len ≤ s4.len := st4.frame.size
        refine bind ((defineFunction (T := fun i => i = k) (x := f.sig)
          (spec := ⟨k, cls, some fl, none, ref, none, false, v, f⟩) (st4.frame.defName hk') rfl
          (fun i hi => by rw [hi]; omega) (((hN.later st2).later st3).later st4) hw4).weaken (T' := fun i => T i ∨ i.toNat = s1.len) (fun i hi => .inr (by rw [hi]; omega)))
          fun s5 _ _ _ st5 ⟨_, h5⟩ => ?_
        have hs5 : s4.len ≤ s5.len := st5.frame.size
        refine bind (weaken (T := T) (defineMembers (fun i hi => by have := hT i hi; omega) ((((hN.later st2).later st3).later st4).later st5)) (fun i hi => .inl hi))
          fun s6 rest _ _ _ ⟨st6, h6, h6'⟩ => pure ⟨.cons ⟨?_, ?_⟩ ?_, ?_⟩
        · omega
        · refine st6.toKeeps.function (fun h => ?_) (fun j hj => hT j hj) ?_
          · have := hT _ h
            have h : T k := h
            have := hT _ h
            omega
          · exact ⟨h5.1, fun g hg j hj => by have := h5.2 g hg j hj; omega⟩
        · exact h6.mono fun f j ⟨q1, q2, q3⟩ => ⟨by omega, q2, fun g hg j hj => by have := q3 g hg j hj; omega⟩
        · exact h6'.mono fun f j ⟨q1, q2⟩ => ⟨by omega, q2⟩
      · rintro i (h | h)
        · exact .inl h
        · exact .inr (by omega)
  | .Field f :: ms, s, hT, hN => by
    unfold Redscript.defineMembers
    refine bind (Q := fun s' on => s' = s ∧ evalConditions cx.modules f.declaration.annotations = some on) (readOr fun a h => ⟨rfl, h⟩)
      fun s0 on _ _ _ ⟨e, hon⟩ => ?_
    subst e
    have h1 : methodsOn cx.modules (.Field f :: ms) = methodsOn cx.modules ms := by simp [methodsOn]
    rw [h1]
    cases on with
    | false =>
      have h2 : fieldsOn cx.modules (.Field f :: ms) = fieldsOn cx.modules ms := by
        simp [fieldsOn, DeclSource.Enabled, hon]
      rw [h2]
      exact defineMembers hT hN
    | true =>
      have h2 : fieldsOn cx.modules (.Field f :: ms) = f :: fieldsOn cx.modules ms := by
        simp [fieldsOn, DeclSource.Enabled, hon]
      rw [h2]
      simp only [if_true]
      refine drop (T' := fun i => T i ∨ i.toNat = s0.len) ?_ ?_
      · refine bind addName fun s2 name _ _ st2 ⟨hn, hn'⟩ => ?_
        have hl2 : s2.len = s0.len := by unfold DeclState.len; rw [hn']
        refine bind (stub hn) fun s3 k _ f3 st3 ⟨hk, hk', hl3⟩ => ?_
        refine bind ((defineField (T := fun i => i = k) hk' rfl ((hN.later st2).later st3)).weaken (T' := fun i => T i ∨ i.toNat = s0.len)
          (fun i hi => .inr (by rw [hi]; omega))) fun s5 _ _ _ st5 ⟨_, h5⟩ => ?_
        have hs5 : s3.len ≤ s5.len := st5.frame.size
        refine bind (weaken (T := T) (defineMembers (fun i hi => by have := hT i hi; omega) (((hN.later st2).later st3).later st5)) (fun i hi => .inl hi))
          fun s6 rest _ _ _ ⟨st6, h6, h6'⟩ => pure ⟨?_, .cons ⟨?_, ?_⟩ ?_⟩
        · exact h6.mono fun f j ⟨q1, q2, q3⟩ => ⟨by omega, q2, fun g hg j hj => by have := q3 g hg j hj; omega⟩
        · omega
        · refine st6.toKeeps.field (fun h => ?_) h5
          have := hT _ h
          omega
        · exact h6'.mono fun f j ⟨q1, q2⟩ => ⟨by omega, q2⟩
      · rintro i (h | h)
        · exact .inl h
        · exact .inr (by omega)

theorem _root_.Redscript.ScopeEnds.classFor {p : ConstantPool} {sc : Scope} (h : ScopeEnds p sc) {x : Text} {i : Idx}
    (hx : sc.classFor x = some i) : NameEnds p i x := by
  unfold Scope.classFor at hx
  split at hx
  · next j v hg => cases hx; exact h x _ hg _ (by simp [Symbol.indexes]) rfl
  · cases hx

theorem classFor_some {sc : Scope} {x : Text} {i : Idx} (h : sc.classFor x = some i) : ∃ v, sc.Offers x (.cls i v) := by
  unfold Scope.classFor at h
  split at h
  · next j v hg => cases h; exact ⟨v, _, hg, List.mem_singleton.2 rfl⟩
  · cases h

theorem classFor_none {sc : Scope} {x : Text} (h : sc.classFor x = none) (i : Idx) (v : Visibility) : ¬ sc.Offers x (.cls i v) := by
  rintro ⟨sym, hg, hi⟩
  unfold Scope.classFor at h
  rw [hg] at h
  cases sym with
  | Class j w => cases h
  | Functions fs =>
    obtain ⟨y, _, hy⟩ := List.mem_map.1 hi
    cases hy
  | _ =>
    rw [Symbol.items, List.mem_singleton] at hi
    cases hi

theorem defineBase {c : ClassSource} {b : Bool} (hsc : ScopeEnds s.pool s.moduleScope) (hN : Knows N s) : After s T (defineBase c b) fun s' r =>
    s' = s ∧ (b = true → r = 0) ∧ (b = false → ∀ x, c.base = some x → NameEnds s.pool r x) ∧
      (b = false → c.base = none → r = 0 ∨ NameEnds s.pool r "IScriptable".toList) ∧
      (b = false → ∃ sc, N sc ∧ BaseMeans sc c.base r) := by
  unfold Redscript.defineBase
  split
  · next hb => exact pure ⟨rfl, fun _ => rfl, (by rw [hb]; intro h; cases h), (by rw [hb]; intro h; cases h), (by rw [hb]; intro h; cases h)⟩
  · next hb =>
    split
    · next base hbase =>
      refine bind (hgf := fun o => by split <;> infer_instance) (Q := fun s' o => s' = s ∧ o = s.moduleScope.classFor base) (read ⟨rfl, rfl⟩) fun s1 o _ _ _ ⟨e, ho⟩ => ?_
      subst e
      cases hc : s1.moduleScope.classFor base with
      | some i =>
        rw [hc] at ho; subst ho
        refine pure ⟨rfl, fun h => absurd h hb, fun _ x hx => ?_, (fun _ h => by rw [hbase] at h; cases h), fun _ => ⟨_, hN _ rfl, ?_⟩⟩
        · rw [hbase] at hx; cases hx
          exact hsc.classFor hc
        · rw [hbase]; exact classFor_some hc
      | none =>
        rw [hc] at ho; subst ho
        exact bind (Q := fun _ _ => False) report fun _ _ _ _ _ h => h.elim
    · next hbase =>
      refine read ⟨rfl, fun h => absurd h hb, fun _ x hx => (by rw [hbase] at hx; cases hx), fun _ _ => ?_, fun _ => ⟨_, hN _ rfl, ?_⟩⟩
      · cases hc : s.moduleScope.classFor "IScriptable".toList with
        | some i => exact .inr (hsc.classFor hc)
        | none => exact .inl rfl
      · rw [hbase]
        cases hc : s.moduleScope.classFor "IScriptable".toList with
        | some i => exact .inl (classFor_some hc)
        | none => exact .inr ⟨rfl, classFor_none hc⟩

/-- A class whose own members are not among the first `n` definitions; fields may have been added. -/
def _root_.Redscript.MadeClass (n : Nat) (s : DeclState) (N : Scope → Prop) (mods : List ModulePath) (i : Idx) (t : Text) (v : Visibility) (c : ClassSource)
    (isStruct : Bool) : Prop :=
  ∃ (g : ClassDef) (own added : List Idx),
    DefinedAs s.pool i 0 t (.Class g) ∧ g.visibility = v ∧ g.flags = c.flags isStruct ∧
    Each2 (fun (f : FunctionSource) j => n ≤ j.toNat ∧
        MadeFunction n s N ⟨j, i, f.sig, v, f.declaration.has .Native, none, none⟩ f) (methodsOn mods c.members) g.functions ∧
    g.fields = own ++ added ∧
    Each2 (fun f j => n ≤ j.toNat ∧ IsField s N j i v f) (fieldsOn mods c.members) own ∧
    (isStruct = true → g.base = 0) ∧ (isStruct = false → ∀ x, c.base = some x → NameEnds s.pool g.base x) ∧
    (isStruct = false → c.base = none → g.base = 0 ∨ NameEnds s.pool g.base "IScriptable".toList) ∧
    (isStruct = false → ∃ sc, N sc ∧ BaseMeans sc c.base g.base)

theorem class_flags (c : ClassSource) (b : Bool) :
    flag ClassFlags.isStructBit (c.flags b) = b ∧
    flag ClassFlags.isAbstractBit (c.flags b) = (!b && c.declaration.has .Abstract) ∧
    flag ClassFlags.isFinalBit (c.flags b) = c.declaration.has .Final ∧
    flag ClassFlags.isNativeBit (c.flags b) = (c.declaration.has .ImportOnly || c.declaration.has .Native) ∧
    flag ClassFlags.isImportOnlyBit (c.flags b) = c.declaration.has .ImportOnly := by
  unfold ClassSource.flags ClassFlags.isStructBit ClassFlags.isAbstractBit ClassFlags.isFinalBit ClassFlags.isNativeBit
    ClassFlags.isImportOnlyBit
  refine ⟨?_, ?_, ?_, ?_, ?_⟩ <;> simp [flag_setFlag]

theorem _root_.Redscript.MadeClass.spec {n : Nat} {mods : List ModulePath} {i : Idx} {path : ModulePath} {c : ClassSource} {b : Bool}
    (h : MadeClass n s N mods i (path.withChild c.declaration.name).render (visibilityOf c.declaration.qualifiers) c b) :
    IsClass s N mods i path c b := by
  obtain ⟨g, own, added, h1, h2, h3, h4, h5, h6, h7⟩ := h
  obtain ⟨f1, f2, f3, f4, f5⟩ := class_flags c b
  exact ⟨g, own, added, h1, h2, by rw [h3, f1], by rw [h3, f2], by rw [h3, f3], by rw [h3, f4], by rw [h3, f5],
    h4.mono fun _ _ h => h.2.1, h5, h6.mono fun _ _ h => h.2, h7⟩

theorem _root_.Redscript.Keeps.class {s' : DeclState} (h : Keeps T s s') {n : Nat} {mods : List ModulePath} {i : Idx} {t : Text} {v : Visibility}
    {c : ClassSource} {b : Bool} (hi : ¬ T i) (hn : ∀ j, T j → j.toNat < n) (hc : MadeClass n s N mods i t v c b) :
    MadeClass n s' N mods i t v c b := by
  obtain ⟨g, own, added, h1, h2, h3, h4, h5, h6, h7, h8, h9, h10⟩ := hc
  obtain ⟨gs, h1'⟩ := h.frame.definedClass h1 hi
  refine ⟨_, own, added ++ gs, h1', h2, h3, ?_, ?_, ?_, h7, fun hb x hx => h.frame.nameEnds (h8 hb x hx), fun hb hx => ?_, h10⟩
  · refine h4.mono fun f j ⟨q1, q2⟩ => ⟨q1, h.function (fun hT => ?_) hn q2⟩
    have := hn _ hT
    have : j.toNat < n := this
    omega
  · show g.fields ++ gs = _
    rw [h5, List.append_assoc]
  · refine h6.mono fun f j ⟨q1, q2⟩ => ⟨q1, h.field (fun hT => ?_) q2⟩
    have := hn _ hT
    omega
  · rcases h9 hb hx with h | h'
    · exact .inl h
    · exact .inr (h.frame.nameEnds h')

theorem defineClass {cx : DeclCtx} {i : Idx} {t : Text} {v : Visibility} {c : ClassSource} {b : Bool}
    (hsc : ScopeEnds s.pool s.moduleScope) (hx : s.pool.defName i = some t) (hT : T i) (hT' : ∀ i, T i → i.toNat < s.len)
    (hN : Knows N s) : After s T (defineClass cx i v c b) fun s' _ => MadeClass s.len s' N cx.modules i t v c b := by
  unfold Redscript.defineClass
  refine bind (defineMembers hT' hN) fun s1 ms _ _ st1 ⟨hf, hg⟩ => ?_
  have hsc1 : ScopeEnds s1.pool s1.moduleScope := by
    intro x sym hx i hi hb
    rw [st1.module] at hx
    exact st1.frame.nameEnds (hsc x sym hx i hi hb)
  refine bind (defineBase hsc1 (hN.later st1)) fun s2 base _ _ _ ⟨e, hb1, hb2, hb3, hb4⟩ => ?_
  subst e
  refine bind nameOf fun s3 name _ _ _ ⟨e, hname⟩ => ?_
  subst e
  refine bind (put hT rfl hname) fun s4 _ _ _ st4 ⟨h4, h4', _⟩ => pushRef ?_
  refine ⟨_, ms.2, [], ⟨(st1.trans st4).frame.defName hx, _, h4, rfl, rfl⟩, rfl, rfl, ?_, (List.append_nil _).symm, ?_, hb1,
    fun h x hx => st4.frame.nameEnds (hb2 h x hx), fun h hn => ?_, hb4⟩
  · refine hf.mono fun f j ⟨q1, q2⟩ => ⟨q1, st4.toKeeps.function (fun h => ?_) hT' q2⟩
    have := hT' _ h
    have : j.toNat < s.len := this
    omega
  · refine hg.mono fun f j ⟨q1, q2⟩ => ⟨q1, st4.toKeeps.field (fun h => ?_) q2⟩
    have := hT' _ h
    omega
  · rcases hb3 h hn with h | h
    · exact .inl h
    · exact .inr (st4.frame.nameEnds h)

/-! ## Enums -/

theorem defineEnumMembers {i : Idx} : ∀ {ms : List (Text × BitVec 64)} {s : DeclState}, (∀ i, T i → i.toNat < s.len) →
    After s T (defineEnumMembers i ms) fun s' l =>
      Each2 (fun (m : Text × BitVec 64) j => s.len ≤ j.toNat ∧ DefinedAs s'.pool j i m.1 (.EnumValue m.2)) ms l
  | [], s, _ => pure .nil
  | (n, v) :: ms, s, hT => by
    unfold Redscript.defineEnumMembers
    refine bind addName fun s1 name _ _ st1 ⟨h1, h1'⟩ => ?_
    refine bind (addDefinition rfl) fun s2 k _ _ st2 ⟨h2, h2', h2'', h2l⟩ => ?_
    have hl1 : s1.len = s.len := by unfold DeclState.len; rw [h1']
    refine bind (defineEnumMembers fun i hi => by have := hT i hi; omega) fun s3 rest _ _ st3 h3 => ?_
    refine pure (.cons ⟨by omega, st3.frame.definedAs ⟨defName_of h2' (by rw [h2'']; exact h1), _, h2', rfl, rfl⟩ (fun h => ?_) rfl⟩
      (h3.mono fun _ _ h => ⟨by omega, h.2⟩))
    have := hT _ h
    omega

/-- An enum whose members are not among the first `n` definitions. -/
def _root_.Redscript.MadeEnum (n : Nat) (s : DeclState) (i : Idx) (t : Text) (e : EnumSource) : Prop :=
  ∃ g : EnumDef, DefinedAs s.pool i 0 t (.Enum g) ∧
    Each2 (fun (m : Text × BitVec 64) j => n ≤ j.toNat ∧ DefinedAs s.pool j i m.1 (.EnumValue m.2)) e.members g.members

theorem _root_.Redscript.MadeEnum.spec {n : Nat} {i : Idx} {path : ModulePath} {e : EnumSource}
    (h : MadeEnum n s i (path.withChild e.declaration.name).render e) : IsEnum s i path e := by
  obtain ⟨g, h1, h2⟩ := h
  exact ⟨g, h1, h2.mono fun _ _ h => h.2⟩

theorem _root_.Redscript.Keeps.enum {s' : DeclState} (h : Keeps T s s') {n : Nat} {i : Idx} {t : Text} {e : EnumSource} (hi : ¬ T i)
    (hn : ∀ j, T j → j.toNat < n) (he : MadeEnum n s i t e) : MadeEnum n s' i t e := by
  obtain ⟨g, h1, h2⟩ := he
  refine ⟨g, h.frame.definedAs h1 hi rfl, h2.mono fun m j ⟨q1, q2⟩ => ⟨q1, h.frame.definedAs q2 (fun hT => ?_) rfl⟩⟩
  have := hn _ hT
  omega

theorem defineEnum {i : Idx} {t : Text} {e : EnumSource} (hx : s.pool.defName i = some t) (hT : T i) (hT' : ∀ i, T i → i.toNat < s.len) :
    After s T (defineEnum i e) fun s' _ => MadeEnum s.len s' i t e := by
  unfold Redscript.defineEnum
  refine bind (defineEnumMembers hT') fun s1 ms _ _ st1 hm => ?_
  refine bind nameOf fun s2 name _ _ _ ⟨e, hname⟩ => ?_
  subst e
  refine bind (put hT rfl hname) fun s3 _ _ _ st3 ⟨h3, _, _⟩ => pushRef ?_
  refine ⟨_, ⟨(st1.trans st3).frame.defName hx, _, h3, rfl, rfl⟩, hm.mono fun m j ⟨q1, q2⟩ => ⟨q1, st3.frame.definedAs q2 (fun h => ?_) rfl⟩⟩
  have := hT' _ h
  omega

/-! ## Added fields -/

theorem _root_.Redscript.asClass_value {p : ConstantPool} {i : Idx} {c : ClassDef} (h : p.definitionBy AnyDefinition.asClass i = some c) :
    ∃ d, p.definition i = some d ∧ d.value = .Class c := by
  unfold ConstantPool.definitionBy at h
  rw [Option.bind_eq_some_iff] at h
  obtain ⟨d, hd, hc⟩ := h
  refine ⟨d, hd, ?_⟩
  unfold AnyDefinition.asClass at hc
  split at hc
  · next c' hv => cases hc; exact hv
  · cases hc

theorem _root_.Redscript.value_asClass {p : ConstantPool} {i : Idx} {d : Definition} {c : ClassDef} (h : p.definition i = some d)
    (hv : d.value = .Class c) : p.definitionBy AnyDefinition.asClass i = some c := by
  have h : p.definitions[i.toNat]? = some d := h
  unfold ConstantPool.definitionBy
  rw [h, Option.bind_some, hv]; rfl

theorem defineGlobalLet {cx : DeclCtx} {i : Idx} {v : Visibility} {f : FieldSource} (hsc : ScopeEnds s.pool s.moduleScope)
    (hx : s.pool.defName i = some f.declaration.name) (hT : T i) (hN : Knows N s) :
    After s T (defineGlobalLet cx i v f) fun s' _ => ∃ a cls x, f.declaration.annotations.find? (fun a => decide (a.kind = .AddField)) = some a ∧
      a.target = some x ∧ NameEnds s'.pool cls x ∧ IsField s' N i cls v f ∧ (s.pool.definitionBy AnyDefinition.asClass cls).isSome = true ∧
      ∃ c, s'.pool.definitionBy AnyDefinition.asClass cls = some c ∧ i ∈ c.fields := by
  unfold Redscript.defineGlobalLet
  cases ha : f.declaration.annotations.find? (fun a => decide (a.kind = .AddField)) with
  | none => exact fail
  | some a =>
    simp only
    unfold Redscript.defineAddField
    refine bind (hgf := fun x => @AddsDefs.bind' _ _ _ _ inferInstance fun sym => by split <;> infer_instance)
      (Q := fun s' x => s' = s ∧ a.target = some x) (readOr fun _ h => ⟨rfl, h⟩) fun s1 x _ _ _ ⟨e, hax⟩ => ?_
    subst e
    refine bind (hgf := fun sym => by split <;> infer_instance) (Q := fun s' sym => s' = s1 ∧ s1.moduleScope.symbols.get x = some sym)
      (readOr fun _ h => ⟨rfl, h⟩) fun s2 sym _ _ _ ⟨e, hsym⟩ => ?_
    subst e
    cases sym with
    | Class cls vis =>
      refine bind (Q := fun s' _ => s' = s2) (read rfl) fun s3 found _ _ _ e => ?_
      subst e
      split
      · exact diagnose
      · refine bind classAt fun s4 c _ _ _ ⟨e, hc⟩ => ?_
        subst e
        refine bind (defineField hx hT hN) fun s5 _ _ _ st5 h5 => ?_
        refine (onClassFields.weaken (T := fun _ => False) fun _ h => h.elim).mono fun s6 _ st6 ⟨st6', _, _, d, c', hd, hv, hd'⟩ => ?_
        refine ⟨a, cls, x, rfl, hax, (st5.trans st6).frame.nameEnds (hsc x _ hsym cls (by simp [Symbol.indexes]) rfl),
          st6'.toKeeps.field (fun h => h) h5, by rw [hc]; rfl,
          _, value_asClass hd' rfl, List.mem_append_right _ List.mem_cons_self⟩
    | _ => exact fail

end After
end Redscript
