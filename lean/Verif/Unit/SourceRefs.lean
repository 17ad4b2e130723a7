import Verif.Unit.CompileFiles
import Verif.Unit.DeclRefsLoop

/-!
# C81: what a host is told about the declarations of the sources
-/

namespace Redscript

/-! ## Model -/

/-- `SourceRefType` (scc/lib/src/api.rs:225-232). -/
inductive SourceRefType where
  | Undefined | Class | Field | Function | Enum
deriving DecidableEq

/-- The match of `scc_source_ref_type` (scc/lib/src/api.rs:101-107). -/
def AnyDefinition.refType : AnyDefinition → SourceRefType
  | .Class _ => .Class
  | .Enum _ => .Enum
  | .Function _ => .Function
  | .Field _ => .Field
  | _ => .Undefined

/-- `scc_source_ref_type` (scc/lib/src/api.rs:96-108). Here `i` is the index of the reference. -/
def sourceRefType (p : ConstantPool) (i : Idx) : SourceRefType :=
  match p.definition i with
  | none => .Undefined
  | some d => d.value.refType

/-- The match of `scc_source_ref_is_native` (scc/lib/src/api.rs:115-120). -/
def AnyDefinition.refNative : AnyDefinition → Bool
  | .Function f => flag FunctionFlags.isNativeBit f.flags
  | .Class c => flag ClassFlags.isNativeBit c.flags
  | .Field f => flag FieldFlags.isNativeBit f.flags
  | _ => false

/-- `scc_source_ref_is_native` (scc/lib/src/api.rs:110-121). -/
def sourceRefIsNative (p : ConstantPool) (i : Idx) : Bool :=
  match p.definition i with
  | none => false
  | some d => d.value.refNative

/-- `scc_source_ref_name` (scc/lib/src/api.rs:123-131): an empty text when there is none. -/
def sourceRefName (p : ConstantPool) (i : Idx) : Text := (p.defName i).getD []

/-- `scc_source_ref_parent_name` (scc/lib/src/api.rs:133-145). -/
def sourceRefParentName (p : ConstantPool) (i : Idx) : Text :=
  match p.definition i with
  | none => []
  | some d => if d.parent = 0 then [] else (p.defName d.parent).getD []

/-- `scc_source_ref_path` (scc/lib/src/api.rs:147-155): an empty text for a position outside all files. -/
def sourceRefPath (r : SourceRef) : String :=
  match r.loc with
  | some (path, _) => path
  | none => ""

/-- `scc_source_ref_line` (scc/lib/src/api.rs:157-163): the greatest number for a position outside all files. -/
def sourceRefLine (r : SourceRef) : Nat :=
  match r.loc with
  | some (_, line) => line.toNat
  | none => 2 ^ 64 - 1

/-! ## Specification -/

/-- What is to be told about a declaration: `place` are the file and the line of its beginning. -/
structure Told where
  kind : SourceRefType
  name : Text → Prop
  parent : Text → Prop
  native : Bool
  place : Option (String × BitVec 32)

/-- It is what the functions of the interface say about the reference. -/
structure Told.By (p : ConstantPool) (t : Told) (r : SourceRef) : Prop where
  kind : sourceRefType p r.index = t.kind
  name : t.name (sourceRefName p r.index)
  parent : t.parent (sourceRefParentName p r.index)
  native : sourceRefIsNative p r.index = t.native
  place : ∀ path line, t.place = some (path, line) → sourceRefPath r = path ∧ sourceRefLine r = line.toNat

/-- The text, a qualified name or not, ends with the name of the class that the annotation is for. -/
def Annotation.Ends (a : Annotation) (t : Text) : Prop :=
  ∃ x, a.target = some x ∧ ((ModulePath.parse t).getLast? = some x ∨ ∃ m : ModulePath, t = (m.withChild x).render)

/-- A function of a module: its qualified name, or as a method its name and the class of the annotation. Of wrappers the
name is not known. Replacements are not native. -/
def FunctionSource.told (path : ModulePath) (f : FunctionSource) : Told :=
  match f.placing with
  | none => ⟨.Function, (· = (path.withChild f.sig).render), (· = []), f.declaration.has .Native, f.declaration.loc⟩
  | some a =>
    match a.kind with
    | .WrapMethod => ⟨.Function, fun _ => True, a.Ends, false, f.declaration.loc⟩
    | .ReplaceMethod => ⟨.Function, (· = f.sig), a.Ends, false, f.declaration.loc⟩
    | .ReplaceGlobal => ⟨.Function, (· = f.sig), (· = []), false, f.declaration.loc⟩
    | _ => ⟨.Function, (· = f.sig), a.Ends, f.declaration.has .Native, f.declaration.loc⟩

/-- A field that is added to the class of the annotation. -/
def FieldSource.told (f : FieldSource) : Told :=
  ⟨.Field, (· = f.declaration.name), fun t => ∃ a, f.declaration.annotations.find? (fun a => decide (a.kind = .AddField)) = some a ∧ a.Ends t,
    f.declaration.has .Native, f.declaration.loc⟩

/-- A member of a class, if its conditions hold. -/
def MemberSource.told (mods : List ModulePath) (cls : Text) : MemberSource → Option Told
  | .Function f => if f.declaration.Enabled mods then some ⟨.Function, (· = f.sig), (· = cls), f.declaration.has .Native, f.declaration.loc⟩ else none
  | .Field f => if f.declaration.Enabled mods then some ⟨.Field, (· = f.declaration.name), (· = cls), f.declaration.has .Native, f.declaration.loc⟩ else none

/-- A class comes after its members. -/
def ClassSource.told (mods : List ModulePath) (path : ModulePath) (c : ClassSource) : List Told :=
  c.members.filterMap (MemberSource.told mods (path.withChild c.declaration.name).render) ++
    [⟨.Class, (· = (path.withChild c.declaration.name).render), (· = []), c.declaration.has .ImportOnly || c.declaration.has .Native, c.declaration.loc⟩]

/-- All that is to be told about a declaration of a module. -/
def SourceEntry.told (mods : List ModulePath) (path : ModulePath) : SourceEntry → List Told
  | .Class c | .Struct c => c.told mods path
  | .Function f => [f.told path]
  | .GlobalLet f => [f.told]
  | .Enum e => [⟨.Enum, (· = (path.withChild e.declaration.name).render), (· = []), false, e.declaration.loc⟩]

/-! ## Proof -/

/-- What can be seen of two definitions is the same. -/
structure SameSeen (d d' : Definition) : Prop where
  name : d'.name = d.name
  parent : d'.parent = d.parent
  kind : d'.value.refType = d.value.refType
  native : d'.value.refNative = d.value.refNative

theorem SameSeen.refl (d : Definition) : SameSeen d d := ⟨rfl, rfl, rfl, rfl⟩

theorem SameSeen.trans {a b c : Definition} (h : SameSeen a b) (k : SameSeen b c) : SameSeen a c :=
  ⟨k.name.trans h.name, k.parent.trans h.parent, k.kind.trans h.kind, k.native.trans h.native⟩

theorem seen_addMethods (d : Definition) (ms : List Idx) : SameSeen d (d.addMethods ms) := by
  unfold Definition.addMethods
  split
  · next c hc => exact ⟨rfl, rfl, by rw [hc]; rfl, by rw [hc]; rfl⟩
  · exact .refl _

theorem seen_withBodies (i : Idx) (bodies : List WrapBody) (d : Definition) : SameSeen d (withBodies i bodies d) := by
  by_cases hf : ∃ f, d.value = .Function f
  · obtain ⟨f, hf⟩ := hf
    obtain ⟨code, locals, e⟩ := withBodies_function i bodies hf
    rw [e]
    exact ⟨rfl, rfl, by rw [hf]; rfl, by rw [hf]; rfl⟩
  · rw [withBodies_other i bodies fun f e => hf ⟨f, e⟩]
    exact .refl _

/-- The parent is renumbered if it is a class. -/
theorem seen_mapRefs (σ : Idx → Idx) (d : Definition) : (d.mapRefs σ id).name = d.name ∧ (d.mapRefs σ id).value.refType = d.value.refType ∧
    (d.mapRefs σ id).value.refNative = d.value.refNative ∧
    (d.mapRefs σ id).parent = (match d.value with | .Function _ | .Field _ => σ d.parent | _ => d.parent) := by
  unfold Definition.mapRefs
  cases hv : d.value <;> simp_all [AnyDefinition.refType, AnyDefinition.refNative]

section
variable {B : Back} {ms : List SourceModule} {p : ConstantPool} {s : DeclState} {out : UnitOutput} {ws : List WrapSlot} {bodies : List WrapBody}
  {p1 p2 p3 p4 : ConstantPool} {σ : Idx → Idx}

theorem CompileRun.noSlot (h : CompileRun B ms p s out ws bodies p1 p2 p3 p4 σ) {i : Idx} {d : Definition} (hd : p1.definition i = some d)
    (hk : d.value.refType ≠ .Undefined) : ¬ Wraps.IsSlot ⟨p1, s.wrappers, s.proxies⟩ i := by
  rintro ⟨f, hf⟩
  have h2 : p1.definition i = _ := (h.run.inv.reserved f i hf).2
  rw [hd] at h2
  cases h2
  exact hk rfl

theorem CompileRun.seen4 (h : CompileRun B ms p s out ws bodies p1 p2 p3 p4 σ) {i : Idx} {d : Definition} (hd : p1.definition i = some d)
    (hs : ¬ Wraps.IsSlot ⟨p1, s.wrappers, s.proxies⟩ i) : ∃ d', p4.definition i = some d' ∧ SameSeen d d' := by
  by_cases hw : IsTarget ws i
  · obtain ⟨w, hw⟩ := (h.run.inv.target_iff i).1 hw
    obtain ⟨r, hr⟩ := (h.run.inv.both i).1 ⟨w, hw⟩
    obtain ⟨e, g, ff, fm, name, params, code, t1, t2, _, _, _, _, _, _, _, _, _, _, t13, _⟩ := h.run.target_after hr hw
    have t1 : p1.definition i = some e := t1
    rw [hd] at t1; cases t1
    exact ⟨_, t13, rfl, rfl, by rw [t2]; rfl, by rw [t2]; rfl⟩
  · obtain ⟨ms, _, h4⟩ := C36_others_are_unaffected h.run hd hw hs
    exact ⟨_, h4, (seen_addMethods d ms).trans (seen_withBodies _ _ _)⟩

theorem CompileRun.seen1 (h : CompileRun B ms p s out ws bodies p1 p2 p3 p4 σ) {i : Idx} {d : Definition} (hd : s.pool.definition i = some d) :
    ∃ d', p1.definition i = some d' ∧ SameSeen d d' := by
  rcases h.kept.defs i d hd with h1 | ⟨f, vs, h1, h2⟩
  · exact ⟨d, h1, .refl d⟩
  · exact ⟨_, h2, rfl, rfl, by rw [h1]; rfl, by rw [h1]; rfl⟩

/-- What can be seen of a definition in the result. -/
theorem CompileRun.seen (h : CompileRun B ms p s out ws bodies p1 p2 p3 p4 σ) {i : Idx} {d : Definition} {t : Text} (hd : s.pool.definition i = some d)
    (hk : d.value.refType ≠ .Undefined) (ht : s.pool.defName i = some t) : out.pool.defName (σ i) = some t ∧
    ∃ d', out.pool.definition (σ i) = some d' ∧ d'.value.refType = d.value.refType ∧ d'.value.refNative = d.value.refNative ∧
      d'.parent = if d.value.refType = .Function ∨ d.value.refType = .Field then σ d.parent else d.parent := by
  obtain ⟨d1, h1, k1⟩ := h.seen1 hd
  have hs := h.noSlot h1 (by rw [k1.kind]; exact hk)
  obtain ⟨d4, h4, k4⟩ := h.seen4 h1 hs
  have k := k1.trans k4
  have hf := h.renumbered.found i
  rw [h4] at hf
  obtain ⟨m1, m2, m3, m4⟩ := seen_mapRefs σ d4
  refine ⟨?_, _, hf, m2.trans k.kind, m3.trans k.native, ?_⟩
  · have h5 := h.run.names hs (h.kept.defName ht)
    obtain ⟨e, x, e1, e2, rfl⟩ := defName_some h5
    rw [h4] at e1; cases e1
    refine defName_intro hf ?_
    rw [m1, h.renumbered.texts.1]
    exact e2
  · rw [m4, k.parent]
    have := k.kind
    cases hv : d.value <;> cases hv4 : d4.value <;> simp_all [AnyDefinition.refType]

/-- No class is at index 0. -/
theorem CompileRun.zero (h : CompileRun B ms p s out ws bodies p1 p2 p3 p4 σ) (hz : s.pool.baseOf 0 = none)
    (hlt : 0 < s.pool.definitions.length) : σ 0 = 0 := by
  refine h.renumbered.fixed 0 ?_
  cases hb : p4.baseOf 0 with
  | none => rfl
  | some b =>
    exfalso
    obtain ⟨d4, c4, z1, z2, _⟩ := baseOf_definition hb
    by_cases hs : Wraps.IsSlot ⟨p1, s.wrappers, s.proxies⟩ 0
    · obtain ⟨f, hr⟩ := hs
      obtain ⟨w, hw⟩ := (h.run.inv.both f).2 ⟨_, hr⟩
      obtain ⟨e, g, ff, fm, name, params, code, t1, t2, _, _, _, _, _, _, _, _, _, _, _, t14, _⟩ := h.run.target_after hr hw
      rw [z1] at t14; cases t14; cases z2
    · have hd : s.pool.definition 0 = some s.pool.definitions[0] := List.getElem?_eq_getElem hlt
      obtain ⟨d1, h1, k1⟩ := h.seen1 hd
      obtain ⟨d5, h5, k5⟩ := h.seen4 h1 hs
      rw [z1] at h5; cases h5
      have := (k1.trans k5).kind
      rw [z2] at this
      cases hv : (s.pool.definitions[0]).value <;> rw [hv] at this <;> first | cases this | skip
      have := definition_baseOf hd hv
      rw [hz] at this; cases this

theorem told_place {i : Idx} {place : Option (String × BitVec 32)} : ∀ path line, place = some (path, line) →
    sourceRefPath ⟨i, place⟩ = path ∧ sourceRefLine ⟨i, place⟩ = line.toNat := by
  rintro path line rfl
  exact ⟨rfl, rfl⟩

/-- What is told about something that is not a class or an enum. -/
theorem CompileRun.tells (h : CompileRun B ms p s out ws bodies p1 p2 p3 p4 σ) (hz : s.pool.baseOf 0 = none) {i parent : Idx} {t : Text} {v : AnyDefinition}
    (hd : DefinedAs s.pool i parent t v) (hv : v.refType = .Function ∨ v.refType = .Field) {told : Told} (hk : v.refType = told.kind) (hn : told.name t)
    (hp : if parent = 0 then told.parent [] else
      ∃ c x, s.pool.definitionBy AnyDefinition.asClass parent = some c ∧ s.pool.defName parent = some x ∧ told.parent x)
    (hnat : v.refNative = told.native) : told.By out.pool ⟨σ i, told.place⟩ := by
  obtain ⟨hname, d, hd, rfl, rfl⟩ := hd
  have hz := h.zero hz (by have := definition_lt hd; omega)
  obtain ⟨k1, d', k2, k3, k4, k5⟩ := h.seen hd (by rcases hv with e | e <;> rw [e] <;> simp) hname
  rw [if_pos hv] at k5
  refine ⟨?_, ?_, ?_, ?_, told_place⟩
  · unfold sourceRefType; rw [k2]; exact k3.trans hk
  · unfold sourceRefName; rw [k1]; exact hn
  · unfold sourceRefParentName
    rw [k2]
    dsimp only
    rw [k5]
    split at hp
    · next e => rw [e, hz, if_pos rfl]; exact hp
    · next hne =>
      obtain ⟨c, x, hc, hx, hp⟩ := hp
      obtain ⟨e, he, hev⟩ := asClass_value hc
      have : σ d.parent ≠ 0 := fun e0 => by
        obtain ⟨τ, t1, _⟩ := h.renumbered.inverse
        have : τ (σ d.parent) = τ (σ 0) := by rw [e0, hz]
        rw [t1, t1] at this
        exact hne this
      rw [if_neg this, (h.seen he (by rw [hev]; simp [AnyDefinition.refType]) hx).1]
      exact hp
  · unfold sourceRefIsNative; rw [k2]; exact k4.trans hnat

/-- What is told about a class or an enum. -/
theorem CompileRun.tellsType (h : CompileRun B ms p s out ws bodies p1 p2 p3 p4 σ) {i : Idx} {t : Text} {v : AnyDefinition}
    (hd : DefinedAs s.pool i 0 t v) (hv : v.refType = .Class ∨ v.refType = .Enum) {told : Told} (hk : v.refType = told.kind) (hn : told.name t)
    (hp : told.parent []) (hnat : v.refNative = told.native) : told.By out.pool ⟨σ i, told.place⟩ := by
  obtain ⟨hname, d, hd, e0, rfl⟩ := hd
  obtain ⟨k1, d', k2, k3, k4, k5⟩ := h.seen hd (by rcases hv with e | e <;> rw [e] <;> simp) hname
  rw [if_neg (by rcases hv with e | e <;> rw [e] <;> simp), e0] at k5
  refine ⟨?_, ?_, ?_, ?_, told_place⟩
  · unfold sourceRefType; rw [k2]; exact k3.trans hk
  · unfold sourceRefName; rw [k1]; exact hn
  · unfold sourceRefParentName
    rw [k2]
    dsimp only
    rw [k5, if_pos rfl]
    exact hp
  · unfold sourceRefIsNative; rw [k2]; exact k4.trans hnat

theorem CompileRun.tellsFunction (h : CompileRun B ms p s out ws bodies p1 p2 p3 p4 σ) (hz : s.pool.baseOf 0 = none) {N : Scope → Prop} {at_ : Placed}
    {f : FunctionSource} (hf : IsFunction s N at_ f) {path : ModulePath} (hp : PutAt p s.pool path f at_) : (f.told path).By out.pool ⟨σ at_.index, f.declaration.loc⟩ := by
  obtain ⟨g, hd, _, _, _, _, _, _, _, _, _, hnat, _⟩ := hf
  have names : ∀ {a : Annotation}, a.Names s.pool at_.parent → MethodOf s.pool at_.parent at_.index →
      if at_.parent = 0 then a.Ends [] else
        ∃ c x, s.pool.definitionBy AnyDefinition.asClass at_.parent = some c ∧ s.pool.defName at_.parent = some x ∧ a.Ends x := by
    rintro a ⟨x, hx, t, ht, he⟩ ⟨c, hc, _⟩
    rw [if_neg fun e => ?_]
    · exact ⟨c, t, hc, ht, x, hx, he⟩
    · obtain ⟨d, h1, h2⟩ := asClass_value hc
      rw [e] at h1
      have := definition_baseOf h1 h2
      rw [hz] at this; cases this
  unfold PutAt at hp
  unfold FunctionSource.told
  obtain ⟨_, hp⟩ := hp
  cases hpl : f.placing with
  | none =>
    rw [hpl] at hp
    obtain ⟨_, p2, p3, p4, _⟩ := hp
    refine h.tells hz hd (.inl rfl) rfl p2 ?_ (hnat.trans p4)
    rw [if_pos p3]
  | some a =>
    rw [hpl] at hp
    dsimp only at hp ⊢
    cases hk : a.kind <;> rw [hk] at hp <;> dsimp only at hp ⊢
    case WrapMethod =>
      obtain ⟨_, p2, p3, p4, _⟩ := hp
      exact h.tells hz hd (.inl rfl) rfl trivial (names p2 p3) (hnat.trans p4)
    case ReplaceMethod =>
      obtain ⟨p1, p2, p3, p4, _⟩ := hp
      exact h.tells hz hd (.inl rfl) rfl p1 (names p2 p3) (hnat.trans p4)
    case ReplaceGlobal =>
      obtain ⟨p1, p3, p4, _⟩ := hp
      refine h.tells hz hd (.inl rfl) rfl p1 ?_ (hnat.trans p4)
      rw [if_pos p3]
    all_goals
      obtain ⟨_, p1, p2, p3, p4, _⟩ := hp
      exact h.tells hz hd (.inl rfl) rfl p1 (names p2 p3) (hnat.trans p4)

theorem Merged.fields_length {mods : List ModulePath} {ms : List MemberSource} {fs gs : List Idx} {l : List SourceRef} (h : Merged mods ms fs gs l) :
    gs.length = (fieldsOn mods ms).length := by
  induction h with
  | nil => rfl
  | function _ _ ih => exact ih
  | field he _ ih => simp [fieldsOn, he] at ih ⊢; exact ih
  | noFunction _ _ ih => exact ih
  | noField he _ ih => simp [fieldsOn, he] at ih ⊢; exact ih

theorem Each2.length_eq {R : α → β → Prop} {as : List α} {bs : List β} (h : Each2 R as bs) : as.length = bs.length := by
  induction h with
  | nil => rfl
  | cons _ _ ih => simp [ih]

/-- What is known of functions and fields, in the order they are written in. -/
theorem Merged.told {mods : List ModulePath} {cls : Text} {P : Told → SourceRef → Prop} {ms : List MemberSource} {fs gs : List Idx}
    {l : List SourceRef} (h : Merged mods ms fs gs l)
    (hf : Each2 (fun f j => P ⟨.Function, (· = f.sig), (· = cls), f.declaration.has .Native, f.declaration.loc⟩ ⟨j, f.declaration.loc⟩) (methodsOn mods ms) fs)
    (hg : Each2 (fun f j => P ⟨.Field, (· = f.declaration.name), (· = cls), f.declaration.has .Native, f.declaration.loc⟩ ⟨j, f.declaration.loc⟩) (fieldsOn mods ms) gs) :
    Each2 P (ms.filterMap (MemberSource.told mods cls)) l := by
  induction h with
  | nil => exact .nil
  | function he _ ih =>
    simp only [methodsOn, fieldsOn, List.filterMap_cons, MemberSource.told, he, if_true] at hf hg ⊢
    cases hf with
    | cons h1 h2 => exact .cons h1 (ih h2 hg)
  | field he _ ih =>
    simp only [methodsOn, fieldsOn, List.filterMap_cons, MemberSource.told, he, if_true] at hf hg ⊢
    cases hg with
    | cons h1 h2 => exact .cons h1 (ih hf h2)
  | noFunction he _ ih =>
    simp only [methodsOn, fieldsOn, List.filterMap_cons, MemberSource.told, he] at hf hg ⊢
    exact ih hf hg
  | noField he _ ih =>
    simp only [methodsOn, fieldsOn, List.filterMap_cons, MemberSource.told, he] at hf hg ⊢
    exact ih hf hg

theorem CompileRun.tellsClass (h : CompileRun B ms p s out ws bodies p1 p2 p3 p4 σ) (hz : s.pool.baseOf 0 = none) {N : Scope → Prop} {mods : List ModulePath}
    {i : Idx} {path : ModulePath} {c : ClassSource} {b : Bool} {l : List SourceRef} (hc : IsClass s N mods i path c b) (hl : ClassRefs mods s.pool c i l) :
    Each2 (fun t r => Told.By out.pool t (r.move σ)) (c.told mods path) l := by
  obtain ⟨g, own, added, hd, _, _, _, _, hnat, _, hf, hown, hg, _⟩ := hc
  obtain ⟨g', own', added', l', h1, h2, h3, rfl⟩ := hl
  obtain ⟨hname, d, hd1, _, hv⟩ := hd
  obtain ⟨e, he, hev⟩ := asClass_value h1
  rw [hd1] at he; cases he
  rw [hv] at hev; cases hev
  have heq : own = own' := by
    rw [hown] at h2
    exact (List.append_inj h2 (by rw [h3.fields_length, hg.length_eq])).1
  subst heq
  have hi : i ≠ 0 := fun e => by
    rw [e] at hd1
    have := definition_baseOf hd1 hv
    rw [hz] at this; cases this
  unfold ClassSource.told
  refine Each2.snoc (h3.told (hf.mono fun f j hj => ?_) (hg.mono fun f j hj => ?_)) ?_
  · obtain ⟨k, k1, _, _, _, _, _, _, _, _, _, k2, _⟩ := hj
    exact h.tells hz k1 (.inl rfl) rfl rfl (by rw [if_neg hi]; exact ⟨g, _, h1, hname, rfl⟩) k2
  · obtain ⟨k, k1, _, k2, _⟩ := hj
    exact h.tells hz k1 (.inr rfl) rfl rfl (by rw [if_neg hi]; exact ⟨g, _, h1, hname, rfl⟩) k2
  · exact h.tellsType ⟨hname, d, hd1, by assumption, hv⟩ (.inl rfl) rfl rfl rfl hnat

/-- What is told about one declaration. -/
theorem CompileRun.tellsEntry (h : CompileRun B ms p s out ws bodies p1 p2 p3 p4 σ) (hz : s.pool.baseOf 0 = none) {mods : List ModulePath} {m : SourceModule}
    {e : SourceEntry} {x : Slot} {q : ConstantPool} (hf : x.For p q (m.path.getD []) e) (hd : IsDeclared p s mods m e x.index) {l : List SourceRef}
    (hl : x.Refs mods s.pool l) : Each2 (fun t r => Told.By out.pool t (r.move σ)) (e.told mods (m.path.getD [])) l := by
  cases e <;> cases x <;> first | exact hf.elim | skip
  · obtain ⟨_, rfl, _⟩ := hf
    exact h.tellsClass hz hd.2 hl
  · obtain ⟨_, rfl, _⟩ := hf
    exact h.tellsClass hz hd.2 hl
  · obtain ⟨rfl, _⟩ := hf
    obtain ⟨at_, hi, hp, hfn⟩ := hd
    cases hl
    cases hi
    exact .cons (h.tellsFunction hz hfn hp) .nil
  · obtain ⟨_, rfl, _⟩ := hf
    obtain ⟨_, a, cls, ha, ⟨x, hx, t, ht, he⟩, ⟨g, hg, _, hnat, _⟩, c, hc, _⟩ := hd
    cases hl
    refine .cons (h.tells (told := FieldSource.told _) hz hg (.inr rfl) rfl rfl ?_ hnat) .nil
    rw [if_neg fun e0 => ?_]
    · exact ⟨c, t, hc, ht, a, ha, x, hx, he⟩
    · obtain ⟨d, h1, h2⟩ := asClass_value hc
      rw [e0] at h1
      have := definition_baseOf h1 h2
      rw [hz] at this; cases this
  · obtain ⟨_, rfl, _⟩ := hf
    obtain ⟨_, g, hg, _⟩ := hd
    cases hl
    exact .cons (h.tellsType (told := ⟨.Enum, _, _, _, _⟩) hg (.inr rfl) rfl rfl rfl rfl) .nil

end

theorem Each2.compose {R : α → β → Prop} {S : β → γ → Prop} {Q : α → γ → Prop} (hq : ∀ a b c, R a b → S b c → Q a c) {as : List α} {bs : List β} {cs : List γ}
    (h : Each2 R as bs) (k : Each2 S bs cs) : Each2 Q as cs := by
  induction h generalizing cs with
  | nil => cases k; exact .nil
  | cons h1 _ ih => cases k with | cons k1 k2 => exact .cons (hq _ _ _ h1 k1) (ih k2)

theorem Each2.append_both {R : α → β → Prop} {as cs : List α} {bs ds : List β} (h : Each2 R as bs) (k : Each2 R cs ds) : Each2 R (as ++ cs) (bs ++ ds) := by
  induction h with
  | nil => exact k
  | cons h _ ih => exact .cons h ih

theorem Each2.flat {R : β → γ → Prop} {g : α → List β} {as : List α} {ls : List (List γ)} (h : Each2 (fun a l => Each2 R (g a) l) as ls) :
    Each2 R (as.flatMap g) ls.flatten := by
  induction h with
  | nil => exact .nil
  | cons h _ ih => rw [List.flatMap_cons, List.flatten_cons]; exact h.append_both ih

theorem ofPool_refs {p : ConstantPool} {s : DeclState} (hs : DeclState.ofPool p = some s) : s.refs = [] := by
  unfold DeclState.ofPool at hs
  simp only [Option.bind_eq_some_iff] at hs
  obtain ⟨m, _, sc, _, hs⟩ := hs
  split at hs <;> cases hs
  rfl

theorem nodup_map_inverse {σ τ : Idx → Idx} (h : ∀ i, τ (σ i) = i) {l : List SourceRef} (hl : (l.map (·.index)).Nodup) :
    ((l.map (·.move σ)).map (·.index)).Nodup := by
  induction l with
  | nil => exact List.nodup_nil
  | cons a l ih =>
    rw [List.map_cons, List.nodup_cons] at hl
    rw [List.map_cons, List.map_cons, List.nodup_cons]
    refine ⟨fun hm => ?_, ih hl.2⟩
    rw [List.map_map] at hm
    obtain ⟨b, hb, e⟩ := List.mem_map.1 hm
    have e : τ (σ b.index) = τ (σ a.index) := congrArg τ e
    rw [h, h] at e
    exact hl.1 (List.mem_map.2 ⟨b, hb, e⟩)

/-- C81: the references that the host gets are, in the order of the sources, one for each declaration whose conditions hold,
those to the members of a class before the one to the class, and no others; no two are the same. For each the interface
tells the kind, the name, the name of the class, whether it is native, and the file and line it is at as in the sources. -/
theorem C81_references_tell_the_declarations {B : Back} {depth fuel : Nat} {ms : List SourceModule} {p : ConstantPool} {s : DeclState} {out : UnitOutput}
    (h : CleanCompile B depth fuel ms p s out) : (out.refs.map (·.index)).Nodup ∧
      Each2 (Told.By out.pool) ((ms.flatMap (·.enabled (ms.filterMap (·.path)))).flatMap fun e => e.2.told (ms.filterMap (·.path)) (e.1.path.getD [])) out.refs := by
  obtain ⟨ws, bodies, p1, p2, p3, p4, σ, r⟩ := C74_programs_are_compiled h
  obtain ⟨s0, hs, hd⟩ := h.declared
  obtain ⟨r1, _⟩ := compile_run h.table h.methods h.locals h.types h.plain hs hd h.laws h.compiled
    h.diagnostics (fun refs p4 hc => by rw [← cleanupPool_size hc]; exact h.room) h.texts
  have hlen : s.pool.definitions.length ≤ 2 ^ 32 := by
    obtain ⟨order, _, _, c4⟩ := r.run.built
    obtain ⟨ord, order', _, _, c7⟩ := r.run.exchanged
    have hz3 := swapAll_size _ c7
    have hz2 := r.run.installed.spec.1
    have hz1 : p1.definitions.length ≤ _ := constructAll_size _ c4
    have := r.kept.size
    have := r.run.room
    omega
  have htexts : s.pool.names.strings.length + 1 < 2 ^ 32 := by have := h.texts; omega
  obtain ⟨qs, s1, seen, hloops⟩ := declared_loops h.table h.methods.exist h.types hs hd r1 hlen htexts
  have hrefs := hloops.refs (ofPool_refs hs)
  obtain ⟨τ, t1, _⟩ := r.renumbered.inverse
  obtain ⟨ls, k1, k2⟩ := hrefs.each
  rw [r.references]
  refine ⟨nodup_map_inverse t1 hrefs.once, ?_⟩
  rw [k2]
  refine Each2.map_right (Each2.flat (Each2.compose (fun e x l ⟨hf, q, hq, hx, hp, hi⟩ hl => ?_) hloops.sources k1))
  exact r.tellsEntry h.classes.zero hf (declared_of_done hloops.second hloops.laid.ready hq hx hp hi hf) hl

end Redscript
