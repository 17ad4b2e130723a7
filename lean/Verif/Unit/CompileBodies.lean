import Verif.Unit.WrapCompiled

/-!
# The bodies of a program wait at different places
-/

namespace Redscript
open DeclM

set_option synthInstance.maxSize 2000
set_option synthInstance.maxHeartbeats 400000

namespace KeepsBodies

instance report (e : DeclErr) : KeepsBodies (DeclM.report e) := ⟨fun s => by cases e <;> rfl⟩
instance addDefinition (d : Definition) : KeepsBodies (DeclM.addDefinition d) := ⟨fun _ => rfl⟩
instance pushRef (i : SourceRef) : KeepsBodies (DeclM.pushRef i) := ⟨fun _ => rfl⟩
instance nameOf (i : Idx) : KeepsBodies (DeclM.nameOf i) := readOr _ _
instance put (i : Idx) (d : Definition) : KeepsBodies (DeclM.put i d) := ⟨fun s => by
  unfold DeclM.put
  cases s.pool.putDefinition i d <;> rfl⟩
instance ite (c : Prop) [Decidable c] (m m' : DeclM α) [hm : KeepsBodies m] [hm' : KeepsBodies m'] : KeepsBodies (if c then m else m') := by
  split
  · exact hm
  · exact hm'
instance tryResolveType (depth : Nat) (t : TypeName) : KeepsBodies (tryResolveType depth t) := ⟨fun s => by
  unfold Redscript.tryResolveType
  split
  · rfl
  · exact (bind' (DeclM.report (.compile .unresolvedType)) (fun _ => Pure.pure TypeId.Null)).keeps s⟩
instance typeIndex (t : TypeId) : KeepsBodies (typeIndex t) := ⟨fun s => by
  unfold Redscript.typeIndex
  split <;> rfl⟩
instance defineParams (depth : Nat) (i : Idx) : ∀ ps, KeepsBodies (defineParams depth i ps)
  | [] => pure' _
  | p :: ps => by
    have := defineParams depth i ps
    unfold Redscript.defineParams
    infer_instance
instance defineReturn (depth : Nat) (t : Option TypeName) : KeepsBodies (defineReturn depth t) := by
  unfold Redscript.defineReturn
  cases t <;> infer_instance
instance checkFunction (spec : FunctionSpec) : KeepsBodies (checkFunction spec) := by
  unfold Redscript.checkFunction
  infer_instance
instance pushDefault (i cls : Idx) (f : FieldSource) : KeepsBodies (pushDefault i cls f) := by
  unfold Redscript.pushDefault
  cases f.default with
  | none => infer_instance
  | some v => exact ⟨fun _ => rfl⟩
instance defineField (depth : Nat) (i cls : Idx) (fl : ClassFlags) (v : Visibility) (f : FieldSource) :
    KeepsBodies (defineField depth i cls fl v f) := by
  unfold Redscript.defineField
  infer_instance
instance defineSourceRef (loc : Option (String × BitVec 32)) : KeepsBodies (defineSourceRef loc) := by
  unfold Redscript.defineSourceRef
  cases loc with
  | none => infer_instance
  | some l =>
    refine ⟨fun s => ?_⟩
    dsimp only
    cases s.files.find? _ <;> rfl
instance defineBase (c : ClassSource) (b : Bool) : KeepsBodies (defineBase c b) := by
  unfold Redscript.defineBase
  split
  · infer_instance
  · split
    · refine @bind' _ _ _ _ inferInstance fun a => ?_
      split <;> infer_instance
    · infer_instance
instance defineEnumMembers (i : Idx) : ∀ ms, KeepsBodies (defineEnumMembers i ms)
  | [] => pure' _
  | (k, v) :: ms => by
    have := defineEnumMembers i ms
    unfold Redscript.defineEnumMembers
    infer_instance
instance defineEnum (i : Idx) (e : EnumSource) : KeepsBodies (defineEnum i e) := by
  unfold Redscript.defineEnum
  infer_instance
instance defineAddField (cx : DeclCtx) (i : Idx) (v : Visibility) (f : FieldSource) (a : Annotation) :
    KeepsBodies (defineAddField cx i v f a) := by
  unfold Redscript.defineAddField
  refine @bind' _ _ _ _ inferInstance fun x => @bind' _ _ _ _ inferInstance fun sym => ?_
  split <;> infer_instance
instance defineGlobalLet (cx : DeclCtx) (i : Idx) (v : Visibility) (f : FieldSource) : KeepsBodies (defineGlobalLet cx i v f) := by
  unfold Redscript.defineGlobalLet
  split <;> infer_instance
instance ownSymbols (path : ModulePath) : KeepsBodies (ownSymbols path) := by
  unfold Redscript.ownSymbols
  split
  · infer_instance
  · refine ⟨fun s => ?_⟩
    unfold DeclM.update
    dsimp only
    split <;> rfl
instance importOne (imp : Import) : KeepsBodies (importOne imp) := ⟨fun s => by
  unfold Redscript.importOne
  cases s.symbols.populateImport imp .pub s.moduleScope with
  | ok sc => rfl
  | error e => exact (report e.toDecl).keeps _⟩
instance importAll (cx : DeclCtx) : ∀ is, KeepsBodies (importAll cx is)
  | [] => pure' _
  | (imp, anns) :: is => by
    have := importAll cx is
    unfold Redscript.importAll
    infer_instance
instance parentFlags (i : Idx) : KeepsBodies (parentFlags i) := by
  unfold Redscript.parentFlags
  infer_instance
instance moduleScope (f : DeclState → Scope) : KeepsBodies (DeclM.update fun s => { s with moduleScope := f s }) := ⟨fun _ => rfl⟩

end KeepsBodies

/-- The bodies that were put off between two states are for different definitions, each in `T` or new. -/
structure NewBodies (T : Idx → Prop) (s s' : DeclState) : Prop where
  grows : s.len ≤ s'.len
  new : ∃ new, s'.bodies = s.bodies ++ new ∧ (new.map (·.index)).Nodup ∧
    ∀ b ∈ new, T b.index ∨ (s.len ≤ b.index.toNat ∧ b.index.toNat < s'.len)

namespace NewBodies
variable {T T1 T2 : Idx → Prop} {s s' s'' : DeclState}

theorem keep (hl : s.len ≤ s'.len) (h : s'.bodies = s.bodies) : NewBodies T s s' :=
  ⟨hl, [], by rw [h, List.append_nil], List.nodup_nil, fun _ h => by cases h⟩

theorem mono (h : NewBodies T1 s s') (ht : ∀ j, T1 j → T j) : NewBodies T s s' := by
  obtain ⟨hl, new, h1, h2, h3⟩ := h
  exact ⟨hl, new, h1, h2, fun b hb => (h3 b hb).imp (ht _) id⟩

theorem trans (h : NewBodies T1 s s') (k : NewBodies T2 s' s'') (hd : ∀ j, T1 j → T2 j → False) (h1 : ∀ j, T1 j → j.toNat < s'.len)
    (h2 : ∀ j, T2 j → j.toNat < s.len) : NewBodies (fun j => T1 j ∨ T2 j) s s'' := by
  obtain ⟨hl, new, a1, a2, a3⟩ := h
  obtain ⟨kl, more, b1, b2, b3⟩ := k
  refine ⟨Nat.le_trans hl kl, new ++ more, by rw [b1, a1, List.append_assoc], ?_, fun b hb => ?_⟩
  · rw [List.map_append, List.nodup_append]
    refine ⟨a2, b2, fun x hx y hy e => ?_⟩
    obtain ⟨b, hb, rfl⟩ := List.mem_map.1 hx
    obtain ⟨c, hc, rfl⟩ := List.mem_map.1 hy
    have hb := a3 b hb
    have hc := b3 c hc
    rw [← e] at hc
    rcases hb with hb | hb <;> rcases hc with hc | hc
    · exact hd _ hb hc
    · exact absurd (h1 _ hb) (by omega)
    · exact absurd (h2 _ hc) (by omega)
    · omega
  · rcases List.mem_append.1 hb with hb | hb
    · rcases a3 b hb with h | h
      · exact .inl (.inl h)
      · exact .inr ⟨h.1, by omega⟩
    · rcases b3 b hb with h | h
      · exact .inl (.inr h)
      · exact .inr ⟨by omega, h.2⟩

end NewBodies

/-- A step of the second loop that puts off bodies only for its own definitions and those in `T`. -/
class Spreads (T : Idx → Prop) (m : DeclM α) : Prop where
  spreads : ∀ s : DeclState, (∀ j, T j → j.toNat < s.len) → (m s).2.len ≤ 2 ^ 32 → NewBodies T s (m s).2

/-- Nothing. -/
abbrev NoIdx : Idx → Prop := fun _ => False

namespace Spreads
variable {T T1 T2 : Idx → Prop}

theorem keeps {m : DeclM α} [hm : KeepsBodies m] [ha : AddsDefs m] : Spreads T m := ⟨fun s _ _ => .keep (ha.grows s) (hm.keeps s)⟩

theorem mono {m : DeclM α} (h : Spreads NoIdx m) : Spreads T m := ⟨fun s _ hl => (h.spreads s (fun _ h => h.elim) hl).mono fun _ h => h.elim⟩

theorem bind (m : DeclM α) (f : α → DeclM β) (hm : Spreads T1 m) (hf : ∀ a, Spreads T2 (f a)) (ham : AddsDefs m) (haf : ∀ a, AddsDefs (f a))
    (hd : ∀ j, T1 j → T2 j → False) : Spreads (fun j => T1 j ∨ T2 j) (m >>= f) := ⟨fun s hs => by
  show (DeclM.bind m f s).2.len ≤ _ → NewBodies _ s (DeclM.bind m f s).2
  unfold DeclM.bind
  have h1 := hm.spreads s fun j hj => hs j (.inl hj)
  have h2 := ham.grows s
  cases h : m s with
  | mk r s' =>
    rw [h] at h1 h2
    cases r with
    | error e => exact fun hl => (h1 hl).mono fun _ => .inl
    | ok a =>
      intro hl
      exact (h1 (Nat.le_trans ((haf a).grows s') hl)).trans ((hf a).spreads s' (fun j hj => Nat.lt_of_lt_of_le (hs j (.inr hj)) h2) hl) hd
        (fun j hj => Nat.lt_of_lt_of_le (hs j (.inl hj)) h2) fun j hj => hs j (.inr hj)⟩

theorem congr {m : DeclM α} (h : Spreads T1 m) (ht : ∀ j, T1 j ↔ T2 j) : Spreads T2 m := by
  have : T1 = T2 := funext fun j => propext (ht j)
  exact this ▸ h

theorem bindFirst {m : DeclM α} {f : α → DeclM β} (hm : Spreads T m) (hf : ∀ a, Spreads NoIdx (f a)) [ham : AddsDefs m] [haf : ∀ a, AddsDefs (f a)] :
    Spreads T (m >>= f) := (bind m f hm hf ham haf fun _ _ h => h).congr fun _ => ⟨fun h => h.elim id False.elim, .inl⟩

theorem bindSecond {m : DeclM α} {f : α → DeclM β} (hm : Spreads NoIdx m) (hf : ∀ a, Spreads T (f a)) [ham : AddsDefs m] [haf : ∀ a, AddsDefs (f a)] :
    Spreads T (m >>= f) := (bind m f hm hf ham haf fun _ h _ => h).congr fun _ => ⟨fun h => h.elim False.elim id, .inr⟩

theorem reporting {m : DeclM α} (hm : Spreads T m) : Spreads T (DeclM.reporting m) := ⟨fun s hs => by
  unfold DeclM.reporting
  have h1 := hm.spreads s hs
  cases h : m s with
  | mk r s' =>
    rw [h] at h1
    cases r with
    | ok a => exact h1
    | error e => cases e <;> exact fun hl => let ⟨a, b⟩ := h1 hl; ⟨a, b⟩⟩

theorem pushBody (spec : FunctionSpec) : Spreads (· = spec.funIdx) (pushBody spec) := ⟨fun s hs hl => by
  unfold Redscript.pushBody
  cases spec.source.body with
  | none => exact .keep (Nat.le_refl _) rfl
  | some code =>
    exact ⟨Nat.le_refl _, [_], rfl, List.nodup_cons.2 ⟨List.not_mem_nil, List.nodup_nil⟩, fun b hb => .inl (by rw [List.mem_singleton.1 hb])⟩⟩

theorem defineFunction (depth : Nat) (spec : FunctionSpec) : Spreads (· = spec.funIdx) (defineFunction depth spec) := by
  unfold Redscript.defineFunction
  refine bindSecond keeps fun _ => bindSecond keeps fun ret => bindSecond keeps fun params => bindSecond keeps fun name => ?_
  exact bindFirst (pushBody spec) fun _ => keeps

theorem bindStub {k : Idx} {f : Idx → DeclM β} [haf : ∀ i, AddsDefs (f i)] (hf : ∀ i : Idx, Spreads (· = i) (f i)) :
    Spreads NoIdx (DeclM.stub k >>= f) := ⟨fun s hs hl => by
  have hl : (f (BitVec.ofNat 32 s.len) { s with pool := (s.pool.addDefinition (.mk' k 0 (.Type .Prim))).2 }).2.len ≤ 2 ^ 32 := hl
  show NewBodies NoIdx s (f (BitVec.ofNat 32 s.len) { s with pool := (s.pool.addDefinition (.mk' k 0 (.Type .Prim))).2 }).2
  have h1 := (haf (BitVec.ofNat 32 s.len)).grows { s with pool := (s.pool.addDefinition (.mk' k 0 (.Type .Prim))).2 }
  have h2 : DeclState.len { s with pool := (s.pool.addDefinition (.mk' k 0 (.Type .Prim))).2 } = s.len + 1 := by
    show (s.pool.definitions ++ [_]).length = _
    simp [DeclState.len]
  have hi : (BitVec.ofNat 32 s.len).toNat = s.len := by
    rw [BitVec.toNat_ofNat, Nat.mod_eq_of_lt (by omega)]
  obtain ⟨a1, new, a2, a3, a4⟩ := (hf (BitVec.ofNat 32 s.len)).spreads _ (fun j hj => by rw [hj, hi, h2]; omega) hl
  refine ⟨by omega, new, a2, a3, fun b hb => .inr ?_⟩
  rcases a4 b hb with e | h
  · rw [e, hi]; omega
  · omega⟩

theorem defineMembers (cx : DeclCtx) (cls : Idx) (fl : ClassFlags) (v : Visibility) (b : Bool) :
    ∀ ms, Spreads NoIdx (defineMembers cx cls fl v b ms)
  | [] => by unfold Redscript.defineMembers; exact keeps
  | .Function f :: ms => by
    have hr := defineMembers cx cls fl v b ms
    unfold Redscript.defineMembers
    refine bindSecond keeps fun on => ?_
    split
    · refine bindSecond keeps fun _ => bindSecond keeps fun k => bindStub fun i => bindSecond keeps fun ref => ?_
      exact bindFirst (defineFunction cx.depth ⟨i, cls, some fl, none, ref, none, false, v, f⟩) fun _ => bindFirst hr fun _ => keeps
    · exact hr
  | .Field f :: ms => by
    have hr := defineMembers cx cls fl v b ms
    unfold Redscript.defineMembers
    refine bindSecond keeps fun on => ?_
    split
    · exact bindSecond keeps fun _ => bindSecond keeps fun i => bindSecond keeps fun ref => bindFirst hr fun _ => keeps
    · exact hr

theorem defineClass (cx : DeclCtx) (i : Idx) (v : Visibility) (c : ClassSource) (b : Bool) : Spreads NoIdx (defineClass cx i v c b) := by
  unfold Redscript.defineClass
  exact bindFirst (defineMembers cx i _ v b c.members) fun _ => keeps

theorem defineSlot (cx : DeclCtx) (seen : List Idx) (x : Slot) : Spreads (· = x.index) (defineSlot cx seen x) := by
  cases x with
  | Function index parent base wrapped rep source v =>
    unfold Redscript.defineSlot
    refine bindSecond keeps fun _ => bindSecond keeps fun flags => bindSecond keeps fun ref => ?_
    exact bindFirst (reporting (defineFunction cx.depth ⟨index, parent, flags, base, ref, wrapped, rep, v, source⟩)) fun _ => keeps
  | Class index source v => unfold Redscript.defineSlot; exact mono (bindFirst (reporting (defineClass ..)) fun _ => keeps)
  | Struct index source v => unfold Redscript.defineSlot; exact mono (bindFirst (reporting (defineClass ..)) fun _ => keeps)
  | Field index source v => unfold Redscript.defineSlot; exact keeps
  | Enum index source => unfold Redscript.defineSlot; exact keeps

theorem defineSlots (cx : DeclCtx) : ∀ (xs : List Slot) (seen : List Idx), (xs.map Slot.index).Nodup →
    Spreads (fun j => ∃ x ∈ xs, x.index = j) (defineSlots cx xs seen)
  | [], _, _ => by unfold Redscript.defineSlots; exact keeps
  | x :: xs, seen, h => by
    rw [List.map_cons, List.nodup_cons] at h
    unfold Redscript.defineSlots
    refine (bind _ _ (defineSlot cx seen x) (fun seen => defineSlots cx xs seen h.2) inferInstance inferInstance ?_).congr fun j => ?_
    · rintro j rfl ⟨y, hy, e⟩
      exact h.1 (List.mem_map.2 ⟨y, hy, e⟩)
    · simp [eq_comm]

theorem defineQueue (cx : DeclCtx) : ∀ (qs : List Queued) (seen : List Idx), ((qs.flatMap (·.slots)).map Slot.index).Nodup →
    Spreads (SlotIndex qs) (defineQueue cx qs seen)
  | [], _, _ => by unfold Redscript.defineQueue; exact keeps
  | q :: qs, seen, h => by
    rw [List.flatMap_cons, List.map_append, List.nodup_append] at h
    obtain ⟨h1, h2, h3⟩ := h
    unfold Redscript.defineQueue
    refine bindSecond keeps fun _ => bindSecond keeps fun _ => bindSecond keeps fun _ => ?_
    refine (bind _ _ (defineSlots cx q.slots seen h1) (fun seen => defineQueue cx qs seen h2) inferInstance inferInstance ?_).congr fun j => ?_
    · rintro j ⟨x, hx, rfl⟩ ⟨y, hy, e⟩
      exact h3 _ (List.mem_map_of_mem hx) _ (List.mem_map_of_mem hy) e.symm
    · simp only [SlotIndex, List.flatMap_cons, List.mem_append, or_and_right, exists_or]

end Spreads

/-- Locals of functions are locals. -/
def LocalsSound (p : ConstantPool) : Prop := ∀ i d f, p.definition i = some d → d.value = .Function f → LocalsOk p f.locals

section
variable {p : ConstantPool} {depth : Nat} {permissive : Bool} {ms : List SourceModule} {s s1 s' : DeclState} {qs : List Queued} {seen : List Idx}
  {ws : List WrapSlot}

/-- The bodies are for different functions. -/
theorem TwoLoops.distinctBodies (h : TwoLoops p depth permissive ms s s1 s' qs seen) (hs : DeclState.ofPool p = some s) :
    (s'.bodies.map (·.index)).Nodup := by
  have h1 := (Spreads.defineQueue ⟨ms.filterMap (·.path), depth, permissive⟩ qs [] h.second.distinct).spreads s1 (by
    rintro j ⟨x, hx, rfl⟩
    obtain ⟨d, h2, _⟩ := (h.laid.ready x hx).2.1
    exact definition_lt h2)
  rw [h.two] at h1
  obtain ⟨_, new, h2, h3, _⟩ := h1 h.fine.defs
  have h2 : s'.bodies = s1.bodies ++ new := h2
  rw [h.bodies hs, List.nil_append] at h2
  rw [h2]; exact h3

/-- The locals of wrapped functions are locals. -/
theorem TwoLoops.targetLocals (h : TwoLoops p depth permissive ms s s1 s' qs seen) (hl : LocalsSound p) (hm : MethodsSound p)
    (hw : Wrapping p s1 (qs.flatMap (·.slots)) ws) {cls f : Idx} (hf : MethodOf s1.pool cls f) {d : Definition} {g : FunctionDef}
    (hd : s'.pool.definition f = some d) (hg : d.value = .Function g) : LocalsOk s'.pool g.locals := by
  have slot : ∀ x ∈ qs.flatMap (·.slots), x.classLike = false → x.index = f → LocalsOk s'.pool g.locals := by
    rintro x hx hc rfl
    have hdone := h.second.posts x hx
    cases x with
    | Function i parent base wrapped rep f v =>
      obtain ⟨t, ht⟩ := (h.laid.ready _ hx).1
      obtain ⟨⟨g', ⟨_, d', h1, _, h2⟩, ⟨_, h3, _⟩, _⟩, _⟩ := hdone t ht
      cases h1.symm.trans hd
      cases h2.symm.trans hg
      rw [h3]
      intro l hl; cases hl
    | _ => cases hc
  rcases hw.listed cls f hf with hf | ⟨x, hx, hc, e, _⟩
  · obtain ⟨d0, g0, t, h1, h2, h3, h4⟩ := hm cls f hf
    by_cases hi : SlotIndex qs f
    · obtain ⟨x, hx, rfl⟩ := hi
      refine slot x hx ?_ rfl
      cases hc : x.classLike with
      | false => rfl
      | true =>
        have h5 := h.laid.new x hx hc
        have h6 := definition_lt h1
        rw [← h.start] at h6
        have : s.pool.definitions.length ≤ x.index.toNat := h5
        omega
    · have h5 := h.stays h1 (by intro c e; rw [h2] at e; cases e) hi
      cases h5.symm.trans hd
      cases h2.symm.trans hg
      intro l hll
      obtain ⟨dl, v, h6, h7⟩ := hl _ _ _ h1 h2 l hll
      refine ⟨dl, v, h.stays h6 (by intro c e; rw [h7] at e; cases e) (h.noSlot h6 ?_ ?_ ?_), h7⟩
      · intro c e; rw [h7] at e; cases e
      · intro c e; rw [h7] at e; cases e
      · intro e; rw [h7] at e; cases e
  · exact slot x hx hc e

end

end Redscript
