import Verif.Unit.ClashClean

/-!
# The two loops and the members of classes
-/

namespace Redscript
open DeclM

set_option synthInstance.maxSize 2000
set_option synthInstance.maxHeartbeats 400000

/-- The step keeps what is known, as long as indexes do not run out, and establishes `Q` when it succeeds. -/
def Tidy (p0 : ConstantPool) (depth : Nat) (first : Bool) (s : DeclState) (m : DeclM α) (Q : DeclState → α → Prop) : Prop :=
  Clean p0 depth first s → (m s).2.Room →
    Clean p0 depth first (m s).2 ∧ NamesStay s.pool (m s).2.pool ∧ (∀ d ∈ s.diagnostics, d ∈ (m s).2.diagnostics) ∧ ∀ a s', m s = (.ok a, s') → Q s' a

namespace Tidy
variable {p0 : ConstantPool} {depth : Nat} {first : Bool} {s : DeclState}

theorem mono {m : DeclM α} {Q R : DeclState → α → Prop} (h : Tidy p0 depth first s m Q) (hq : ∀ s' a, Q s' a → R s' a) :
    Tidy p0 depth first s m R :=
  fun hc hl => ⟨(h hc hl).1, (h hc hl).2.1, (h hc hl).2.2.1, fun a s' hm => hq s' a ((h hc hl).2.2.2 a s' hm)⟩

theorem bind {m : DeclM α} {f : α → DeclM β} {Q : DeclState → α → Prop} {R : DeclState → β → Prop} [hgf : ∀ a, AddsDefs (f a)]
    (hm : Tidy p0 depth first s m Q)
    (hf : ∀ s1 a, Clean p0 depth first s1 → NamesStay s.pool s1.pool → Q s1 a → Tidy p0 depth first s1 (f a) R) :
    Tidy p0 depth first s (m >>= f) R := by
  intro hc hl
  have hb : (m >>= f) s = DeclM.bind m f s := rfl
  rw [hb] at hl ⊢
  unfold DeclM.bind at hl ⊢
  have hm := hm hc
  cases h : m s with
  | mk r s1 =>
    rw [h] at hl hm
    cases r with
    | error e => exact ⟨(hm hl).1, (hm hl).2.1, (hm hl).2.2.1, fun a s' ha => by cases ha⟩
    | ok a =>
      obtain ⟨h1, h2, h3, h4⟩ := hm (((hgf a).later s1).room hl)
      obtain ⟨k1, k2, k3, k4⟩ := hf s1 a h1 h2 (h4 a s1 rfl) h1 hl
      exact ⟨k1, fun i t ht => k2 i t (h2 i t ht), fun d hd => k3 d (h3 d hd), k4⟩

/-- The state does not change. -/
theorem same {m : DeclM α} {Q : DeclState → α → Prop} (hs : (m s).2 = s) (h : Clean p0 depth first s → ∀ a, m s = (.ok a, s) → Q s a) :
    Tidy p0 depth first s m Q :=
  fun hc _ => ⟨by rw [hs]; exact hc, by rw [hs]; exact fun _ _ h => h, by rw [hs]; exact fun _ h => h, fun a s' hm => by
    have : s' = s := by rw [hm] at hs; exact hs
    subst this; exact h hc a hm⟩

theorem pure {a : α} {Q : DeclState → α → Prop} (h : Q s a) : Tidy p0 depth first s (Pure.pure a : DeclM α) Q :=
  same rfl fun _ b hb => by cases hb; exact h

theorem fail {e : DeclErr} {Q : DeclState → α → Prop} : Tidy p0 depth first s (DeclM.fail e : DeclM α) Q := same rfl fun _ b hb => by cases hb

theorem read {f : DeclState → α} {Q : DeclState → α → Prop} (h : Clean p0 depth first s → Q s (f s)) : Tidy p0 depth first s (DeclM.read f) Q :=
  same rfl fun hc b hb => by cases hb; exact h hc

theorem readOr {e : DeclErr} {f : DeclState → Option α} {Q : DeclState → α → Prop} (h : Clean p0 depth first s → ∀ a, f s = some a → Q s a) :
    Tidy p0 depth first s (DeclM.readOr e f) Q := by
  have hs : (DeclM.readOr e f s).2 = s := by
    unfold DeclM.readOr
    cases f s <;> rfl
  refine same hs fun hc b hb => h hc b ?_
  unfold DeclM.readOr at hb
  cases hf : f s with
  | none => rw [hf] at hb; cases hb
  | some a => rw [hf] at hb; cases hb; rfl

theorem ite {c : Prop} [Decidable c] {m m' : DeclM α} {Q : DeclState → α → Prop} (h : c → Tidy p0 depth first s m Q)
    (h' : ¬c → Tidy p0 depth first s m' Q) : Tidy p0 depth first s (if c then m else m') Q := by
  by_cases hc : c
  · rw [if_pos hc]; exact h hc
  · rw [if_neg hc]; exact h' hc

theorem when {c : Bool} {m : DeclM Unit} {Q : DeclState → Unit → Prop} (h : c = true → Tidy p0 depth first s m Q) (h' : c = false → Q s ()) :
    Tidy p0 depth first s (DeclM.when c m) Q := by
  unfold DeclM.when
  cases c with
  | true => exact h rfl
  | false => exact pure (h' rfl)

/-- A step that leaves members alone; in the first loop it must not make classes. -/
theorem hush {m : DeclM α} [hg : AddsDefs m] {Q : DeclState → α → Prop} (h : Hush p0.definitions.length s m Q)
    (hf : first = true → ∃ ds, (m s).2.pool.definitions = s.pool.definitions ++ ds ∧ ∀ d ∈ ds, d.value.asClass = none) :
    Tidy p0 depth first s m Q := by
  intro hc hl
  obtain ⟨h1, h2⟩ := h hc.reach hl
  refine ⟨hc.quiet h1 ((hg.later s).names.reachable hc.reach hl.names) fun hfirst i c hi hci => ?_, h1.stay, h1.diags, h2⟩
  obtain ⟨ds, h3, h4⟩ := hf hfirst
  obtain ⟨d, h5, h6⟩ := asClass_value hci
  have h5 : (m s).2.pool.definitions[i.toNat]? = some d := h5
  rw [h3] at h5
  by_cases hlt : i.toNat < s.pool.definitions.length
  · rw [List.getElem?_append_left hlt] at h5
    exact hc.fresh hfirst i c hi (value_asClass h5 h6)
  · rw [List.getElem?_append_right (Nat.not_lt.1 hlt)] at h5
    have := h4 d (List.mem_of_getElem? h5)
    rw [h6] at this; cases this

/-- In the second loop. -/
theorem quiet {m : DeclM α} [AddsDefs m] {Q : DeclState → α → Prop} (h : Hush p0.definitions.length s m Q) : Tidy p0 depth false s m Q :=
  hush h fun hf => by cases hf

/-- Only what is not looked at changes. -/
theorem update {f : DeclState → DeclState} {Q : DeclState → Unit → Prop} (hp : (f s).pool = s.pool) (hd : (f s).diagnostics = s.diagnostics)
    (hsc : Clean p0 depth first s → ScopeFits (fun _ b i => b = true → i.toNat < p0.definitions.length → p0.definitionBy AnyDefinition.asClass i = none) (f s).scope)
    (h : Q (f s) ()) : Tidy p0 depth first s (DeclM.update f) Q := by
  intro hc _
  refine ⟨?_, ?_, ?_, fun _ _ hb => by cases hb; exact h⟩
  · show Clean p0 depth first (f s)
    exact ⟨by rw [hp]; exact hc.reach, by rw [hp]; exact hc.kept, by unfold DeclState.len; rw [hp]; exact hc.size, by rw [hp]; exact hc.named,
      by rw [hp]; exact hc.notClass, by rw [hp, hd]; exact hc.classes, hsc hc, by rw [hp]; exact hc.fresh⟩
  · show NamesStay s.pool (f s).pool
    rw [hp]; exact fun _ _ h => h
  · show ∀ d ∈ s.diagnostics, d ∈ (f s).diagnostics
    rw [hd]; exact fun _ h => h

theorem diagnose {d : DeclDiag} : Tidy p0 depth first s (DeclM.diagnose d) fun s' _ => s'.pool = s.pool ∧ d ∈ s'.diagnostics := by
  have h : Hush p0.definitions.length s (DeclM.diagnose d) fun s' _ => s'.pool = s.pool ∧ d ∈ s'.diagnostics := fun hr hl =>
    ⟨(Hush.diagnose hr hl).1, fun a s' hm => ⟨by cases hm; rfl, (Hush.diagnose (n := 0) hr hl).2 a s' hm⟩⟩
  exact hush h fun _ => ⟨[], by rw [List.append_nil]; rfl, by simp⟩

theorem report {e : DeclErr} : Tidy p0 depth first s (DeclM.report e) fun _ _ => True :=
  hush Hush.report fun _ => ⟨[], by cases e <;> simp [DeclM.report], by simp⟩

theorem reporting {m : DeclM α} {Q : DeclState → α → Prop} (hm : Tidy p0 depth first s m Q) :
    Tidy p0 depth first s (DeclM.reporting m) fun s' o => ∀ a, o = some a → Q s' a := by
  intro hc hl
  unfold DeclM.reporting at hl ⊢
  have hm := hm hc
  cases h : m s with
  | mk r s1 =>
    rw [h] at hl hm
    cases r with
    | ok a =>
      obtain ⟨h1, h2, h3, h4⟩ := hm hl
      exact ⟨h1, h2, h3, fun b s' hb c hc => by cases hb; cases hc; exact h4 _ _ rfl⟩
    | error e =>
      have hl : (DeclM.bind (DeclM.report e) (fun _ => DeclM.pure (none : Option α)) s1).2.Room := hl
      have hroom : s1.Room := ((AddsDefs.later (m := DeclM.report e >>= fun _ => (Pure.pure none : DeclM (Option α))) s1)).room hl
      obtain ⟨h1, h2, h3, _⟩ := hm hroom
      have hb : Tidy p0 depth first s1 (DeclM.report e >>= fun _ => (Pure.pure none : DeclM (Option α))) fun _ o => o = none :=
        bind report fun _ _ _ _ _ => pure rfl
      obtain ⟨k1, k2, k3, k4⟩ := hb h1 hl
      exact ⟨k1, fun i t ht => k2 i t (h2 i t ht), fun d hd => k3 d (h3 d hd), fun b s' hb c hc => by
        have := k4 b s' hb
        subst this; cases hc⟩

theorem addName {t : Text} : Tidy p0 depth first s (DeclM.addName t) fun s' i =>
    s'.pool.names.get Strings.cnameDefault i = some (String.ofList t) ∧ s'.pool.definitions = s.pool.definitions :=
  hush Hush.addName fun _ => ⟨[], by simp [DeclM.addName], by simp⟩

/-- A new definition without content. -/
theorem stub {k : Idx} {t : Text} (hk : s.pool.names.get Strings.cnameDefault k = some (String.ofList t)) :
    Tidy p0 depth first s (DeclM.stub k) fun s' i => p0.definitions.length ≤ i.toNat ∧ s'.pool.defName i = some t ∧
      (∃ d, s'.pool.definitions = s.pool.definitions ++ [d]) := by
  intro hc hl
  have hh : Tidy p0 depth first s (DeclM.stub k) _ :=
    hush (Q := fun s' i => i.toNat = s.len ∧ _ ∧ s'.pool.names = s.pool.names) Hush.addDefinition fun _ => ⟨[_], rfl, by simp [Definition.mk', AnyDefinition.asClass]⟩
  obtain ⟨h1, h2, h3, h4⟩ := hh hc hl
  refine ⟨h1, h2, h3, fun i s' hm => ?_⟩
  obtain ⟨k1, k2, k3⟩ := h4 i s' hm
  refine ⟨by rw [k1]; exact hc.size, ?_, ?_⟩
  · unfold ConstantPool.defName
    rw [k2]
    show Option.map String.toList (s'.pool.names.get Strings.cnameDefault k) = some t
    rw [k3, hk]; simp
  · cases hm; exact ⟨_, rfl⟩

theorem addField {i g : Idx} {t : Text} (hg : p0.definitions.length ≤ g.toNat) (ht : s.pool.defName g = some t)
    (hn : NoField p0 depth s.pool i t) (hd : 0 < depth) :
    Tidy p0 depth first s (DeclM.onClass i fun c => { c with fields := c.fields ++ [g] }) fun _ _ => True := by
  intro hc hl
  unfold DeclM.onClass
  cases h : s.pool.modifyValue (AnyDefinition.onClass fun c => { c with fields := c.fields ++ [g] }) i with
  | none => exact ⟨hc, fun _ _ h => h, fun _ h => h, fun _ _ _ => trivial⟩
  | some p' => exact ⟨hc.addField hg ht hn hd h, fun j t ht => by rw [modify_names h]; exact ht, fun _ h => h, fun _ _ _ => trivial⟩

theorem addMethod {i f : Idx} {t : Text} (hf : p0.definitions.length ≤ f.toNat) (ht : s.pool.defName f = some t)
    (hn : DeclDiag.addMethodConflict ∈ s.diagnostics ∨ ForWrapper t ∨ NoMethod s.pool i t) :
    Tidy p0 depth first s (DeclM.onClass i fun c => { c with functions := c.functions ++ [f] }) fun _ _ => True := by
  intro hc hl
  unfold DeclM.onClass
  cases h : s.pool.modifyValue (AnyDefinition.onClass fun c => { c with functions := c.functions ++ [f] }) i with
  | none => exact ⟨hc, fun _ _ h => h, fun _ h => h, fun _ _ _ => trivial⟩
  | some p' => exact ⟨hc.addMethod hf ht hn h, fun j t ht => by rw [modify_names h]; exact ht, fun _ h => h, fun _ _ _ => trivial⟩

/-! ## The first loop -/

/-- What is known of a slot. -/
def _root_.Redscript.SlotTidy (p0 p : ConstantPool) : Slot → Prop
  | .Function i _ _ _ _ _ _ => i.toNat < p0.definitions.length → p0.definitionBy AnyDefinition.asClass i = none
  | .Class i _ _ | .Struct i _ _ | .Enum i _ => p0.definitions.length ≤ i.toNat
  | .Field i f _ => p0.definitions.length ≤ i.toNat ∧ p.defName i = some f.declaration.name

theorem _root_.Redscript.SlotTidy.mono {p p' : ConstantPool} {x : Slot} (h : SlotTidy p0 p x) (k : NamesStay p p') : SlotTidy p0 p' x := by
  cases x with
  | Field i f v => exact ⟨h.1, k _ _ h.2⟩
  | _ => exact h

/-- Something new is no class of the bundle. -/
theorem new_slot {i : Idx} (h : p0.definitions.length ≤ i.toNat) :
    i.toNat < p0.definitions.length → p0.definitionBy AnyDefinition.asClass i = none := fun hlt => absurd hlt (Nat.not_lt.2 h)

theorem conditions {cx : DeclCtx} {anns : List Annotation} : Tidy p0 depth first s (conditions cx anns) fun s' _ => s' = s := readOr fun _ _ _ => rfl

theorem annTarget {a : Annotation} : Tidy p0 depth first s (annTarget a) fun s' _ => s' = s := readOr fun _ _ _ => rfl

theorem classAt {i : Idx} : Tidy p0 depth first s (DeclM.classAt i) fun s' c => s' = s ∧ s.pool.definitionBy AnyDefinition.asClass i = some c :=
  readOr fun _ _ h => ⟨rfl, h⟩

theorem targetClass {a : Annotation} : Tidy p0 depth first s (targetClass a) fun s' _ => s' = s := by
  unfold Redscript.targetClass
  refine @bind _ _ _ _ _ _ _ _ _ _ (fun x => @AddsDefs.bind' _ _ _ _ inferInstance fun sym => by split <;> infer_instance) annTarget fun s1 x _ _ e =>
    @bind _ _ _ _ _ _ _ _ (fun s' _ => s' = s1) _
      (fun sym => by split <;> infer_instance) (readOr fun _ sym hsym => rfl) fun s2 sym _ _ e2 => ?_
  subst e; subst e2
  cases sym with
  | Class cls w => exact pure rfl
  | Struct cls w => exact pure rfl
  | Enum _ => exact fail
  | Functions _ => exact fail

theorem targetMethod (hm : MethodsExist p0) {cls : Idx} {name sig : Text} : Tidy p0 depth true s (targetMethod cls name sig) fun s' f => s' = s ∧
    (f.toNat < p0.definitions.length → p0.definitionBy AnyDefinition.asClass f = none) := by
  have hs : (Redscript.targetMethod cls name sig s).2 = s := by
    unfold Redscript.targetMethod
    split
    · rfl
    · split <;> rfl
  refine same hs fun hc f hf => ⟨rfl, fun hlt => ?_⟩
  unfold Redscript.targetMethod at hf
  cases hd : directMethods s.pool name cls with
  | none => rw [hd] at hf; cases hf
  | some fs =>
    rw [hd] at hf
    simp only at hf
    cases hb : byId s.pool sig fs with
    | none => rw [hb] at hf; cases hf
    | some g =>
      rw [hb] at hf; cases hf
      obtain ⟨h1, h2⟩ := byId_mem hb
      obtain ⟨c, h3, h4⟩ := directMethods_mem hd
      have hcls : cls.toNat < p0.definitions.length := Nat.lt_of_not_le fun hge => hc.fresh rfl cls c hge h3
      obtain ⟨c0, fs', gs, k1, rfl, _, k3⟩ := hc.class_now hcls h3
      rcases List.mem_append.1 (h4 f h1) with h | h
      · exact (hm.notClass ⟨c0, k1, h⟩).2
      · exact absurd hlt (Nat.not_lt.2 (k3.fresh f h))

theorem addedBase {c : ClassDef} {sig : Text} : Tidy p0 depth first s (addedBase c sig) fun s' _ => s' = s := by
  unfold Redscript.addedBase
  exact ite (fun _ => bind classAt fun _ _ _ _ ⟨e, _⟩ => readOr fun _ _ _ => e) fun _ => pure rfl

theorem declareWrap {cls : Idx} {name sig : Text} : Tidy p0 depth first s (declareWrap cls name sig) fun _ w => p0.definitions.length ≤ w.index.toNat := by
  intro hc hl
  unfold Redscript.declareWrap at hl ⊢
  cases h : Wraps.declare ⟨s.pool, s.wrappers, s.proxies⟩ name sig cls with
  | error e => exact ⟨hc, fun _ _ h => h, fun _ h => h, fun a s' ha => by cases ha⟩
  | ok r =>
    obtain ⟨w, st⟩ := r
    rw [h] at hl
    obtain ⟨wrapped, pool, proxies, pool1, pool2, nm, _, h2, _, _, h5, h6, h7, h8, _⟩ := declare_spec h
    have hw : w.index = (pool1.stubDefinition nm).1 := congrArg Prod.fst h7
    have hp2 : pool2 = (pool1.stubDefinition nm).2 := congrArg Prod.snd h7
    obtain ⟨_, _, _, _, _, _, h9, h10⟩ := modify_class h8
    have hl1 : st.pool.definitions.length ≤ 2 ^ 32 := hl.defs
    have hl2 : st.pool.names.strings.length + 1 < 2 ^ 32 := hl.names
    have hn1 : pool.names = s.pool.names ∧ ∃ ds, pool.definitions = s.pool.definitions ++ ds ∧ ∀ d ∈ ds, d.value.asClass = none := by
      unfold Wraps.wrappedIdx at h2
      cases hw : s.wrappers.get w.target with
      | some v => simp only [hw, Prod.mk.injEq] at h2; rw [← h2.2.1]; exact ⟨rfl, [], by simp, by simp⟩
      | none =>
        simp only [hw, Prod.mk.injEq] at h2
        rw [← h2.2.1]
        exact ⟨rfl, [_], rfl, by simp [Definition.default, AnyDefinition.asClass]⟩
    obtain ⟨hn1, ds, hds, hdc⟩ := hn1
    have hnames : pool2.names = (s.pool.names.add Strings.cnameDefault (indexName "wrapper$" wrapped)).2 := by rw [hp2, h5, ← hn1]; rfl
    have hdefs : pool2.definitions = s.pool.definitions ++ (ds ++ [{ name := nm, parent := 0, unk1 := 0, unk2 := 0, unk3 := 0, value := .Type .Prim }]) := by
      rw [hp2, h5, ← List.append_assoc, ← hds]; rfl
    have hlen : s.pool.names.strings.length + 1 < 2 ^ 32 := by
      have h1 := Strings.add_le s.pool.names (indexName "wrapper$" wrapped)
      rw [h9, hnames] at hl2
      omega
    have hk : ∀ k u, s.pool.names.get Strings.cnameDefault k = some u → pool2.names.get Strings.cnameDefault k = some u :=
      fun k u hu => by rw [hnames]; exact C11_add_keeps _ _ _ _ _ hu
    have q : Quiet p0.definitions.length s { s with pool := pool2 } := Quiet.append hdefs hk s.moduleScope
    have hr : pool2.names.Reachable Strings.cnameDefault := by
      rw [hnames]
      exact (Strings.Later.reachable ⟨[indexName "wrapper$" wrapped], rfl⟩ hc.reach (by rw [h9, hnames] at hl2; exact hl2))
    have hc2 : Clean p0 depth first { s with pool := pool2 } := by
      refine hc.quiet q hr fun hfirst i c hi hci => ?_
      obtain ⟨d, k5, k6⟩ := asClass_value hci
      have k5 : pool2.definitions[i.toNat]? = some d := k5
      rw [hdefs] at k5
      by_cases hlt : i.toNat < s.pool.definitions.length
      · rw [List.getElem?_append_left hlt] at k5
        exact hc.fresh hfirst i c hi (value_asClass k5 k6)
      · rw [List.getElem?_append_right (Nat.not_lt.1 hlt)] at k5
        have : d.value.asClass = none := by
          rcases List.mem_append.1 (List.mem_of_getElem? k5) with h | h
          · exact hdc d h
          · rw [List.mem_singleton] at h; subst h; rfl
        rw [k6] at this; cases this
    have hi : w.index.toNat = pool1.definitions.length := by
      rw [hw]
      show (BitVec.ofNat 32 pool1.definitions.length).toNat = _
      have : pool2.definitions.length = pool1.definitions.length + 1 := by rw [hp2]; show (pool1.definitions ++ [_]).length = _; simp
      rw [BitVec.toNat_ofNat, Nat.mod_eq_of_lt (by omega)]
    have hge : p0.definitions.length ≤ w.index.toNat := by
      have : pool1.definitions = s.pool.definitions ++ ds := by rw [h5]; exact hds
      rw [hi, this, List.length_append]
      exact Nat.le_trans hc.size (Nat.le_add_right _ _)
    have hname : pool2.defName w.index = some ("wrapper$".toList ++ digitsOf 10 wrapped.toNat) := by
      have hd : pool2.definition w.index = some { name := nm, parent := 0, unk1 := 0, unk2 := 0, unk3 := 0, value := .Type .Prim } := by
        show pool2.definitions[w.index.toNat]? = _
        rw [hi, hp2]
        show (pool1.definitions ++ [_])[pool1.definitions.length]? = _
        simp
      unfold ConstantPool.defName
      rw [hd]
      show Option.map String.toList (pool2.names.get Strings.cnameDefault nm) = _
      rw [hnames, h6, hn1, C11_add_reads_back _ _ hc.reach hlen]
      simp [indexName]
    have hfin : Clean p0 depth first { s with pool := st.pool } := hc2.addMethod hge hname (.inr (.inl ⟨_, rfl⟩)) h8
    refine ⟨⟨hfin.reach, hfin.kept, hfin.size, hfin.named, hfin.notClass, hfin.classes, hfin.scope, hfin.fresh⟩, fun j t ht => ?_, fun _ h => h,
      fun a s' ha => by cases ha; exact hge⟩
    show st.pool.defName j = some t
    rw [modify_names h8]
    exact q.stay j t ht

theorem locateWrap (hm : MethodsExist p0) {a : Annotation} {f : FunctionSource} {v : Visibility} :
    Tidy p0 depth true s (locateWrap a f v) fun s' x => SlotTidy p0 s'.pool x := by
  unfold Redscript.locateWrap
  exact bind (Q := fun _ _ => True) (when (fun _ => fail) fun _ => trivial) fun _ _ _ _ _ => bind targetClass fun _ _ _ _ _ => bind (targetMethod hm) fun _ _ _ _ _ =>
    bind declareWrap fun _ w _ _ hw => pure (new_slot hw)

theorem locateReplace (hm : MethodsExist p0) {a : Annotation} {f : FunctionSource} {v : Visibility} :
    Tidy p0 depth true s (locateReplace a f v) fun s' x => SlotTidy p0 s'.pool x := by
  unfold Redscript.locateReplace
  exact bind targetClass fun _ _ _ _ _ => bind (targetMethod hm) fun _ i _ _ ⟨_, hi⟩ =>
    bind (Q := fun _ _ => True) (read fun _ => trivial) fun _ _ _ _ _ => pure hi

theorem locateGlobal {f : FunctionSource} {v : Visibility} :
    Tidy p0 depth true s (locateGlobal f v) fun s' x => SlotTidy p0 s'.pool x := by
  unfold Redscript.locateGlobal
  refine bind (Q := fun _ fs => ∀ i ∈ fs, i.toNat < p0.definitions.length → p0.definitionBy AnyDefinition.asClass i = none)
    (readOr fun hc fs hfs => ?_) fun _ fs _ _ hfs => bind (Q := fun _ i => i ∈ fs) (readOr fun _ i hi => (byId_mem hi).1) fun _ i _ _ hi => pure (fun hlt => hfs i hi hlt)
  unfold Scope.resolveFunction at hfs
  split at hfs
  · next gs hg => cases hfs; exact fun i hi => hc.scope _ _ hg i hi rfl
  · cases hfs

theorem locateAdd {a : Annotation} {f : FunctionSource} {v : Visibility} (hn : MembersNamed p0) (hclean : CleanName f.declaration.name) :
    Tidy p0 depth true s (locateAdd a f v) fun s' x => SlotTidy p0 s'.pool x := by
  unfold Redscript.locateAdd
  refine bind targetClass fun s1 cls hc1 _ _ =>
    bind (Q := fun s' conflict => s' = s1 ∧ (conflict = none → NoMethod s1.pool cls f.sig)) (read fun hc => ⟨rfl, fun h => ?_⟩) fun s2 conflict _ _ ⟨e, hno⟩ => ?_
  · refine noMethod (C15_name f.shape hclean) (fun c hcc g hg => ?_) h
    have hcls : cls.toNat < p0.definitions.length := Nat.lt_of_not_le fun hge => hc.fresh rfl cls c hge hcc
    exact hc.members hn hcls hcc g (.inl hg)
  subst e
  refine bind (Q := fun s' _ => s'.pool = s2.pool ∧ (conflict = none ∨ DeclDiag.addMethodConflict ∈ s'.diagnostics))
    (when (fun _ => mono diagnose fun s' _ ⟨h1, h2⟩ => ⟨h1, .inr h2⟩) fun h => ⟨rfl, .inl (by simpa using h)⟩) fun s3 _ hc3 _ ⟨e3, h3⟩ => ?_
  refine bind classAt fun s4 c _ _ ⟨e4, hcc⟩ => ?_
  subst e4
  refine bind addedBase fun s5 _ _ _ e5 => ?_
  subst e5
  have hcls : cls.toNat < p0.definitions.length := Nat.lt_of_not_le fun hge => hc3.fresh rfl cls c hge hcc
  have hkey : DeclDiag.addMethodConflict ∈ s5.diagnostics ∨ NoMethod s5.pool cls f.sig := by
    rcases h3 with h3 | h3
    · exact .inr (by rw [e3]; exact hno h3)
    · exact .inl h3
  have hquiet : ∀ {s' : DeclState}, Quiet p0.definitions.length s5 s' → Clean p0 depth true s5 →
      DeclDiag.addMethodConflict ∈ s'.diagnostics ∨ ForWrapper f.sig ∨ NoMethod s'.pool cls f.sig := fun q hc => by
    rcases hkey with hk | hk
    · exact .inl (q.diags _ hk)
    · exact .inr (.inr (hk.quiet q hc.size hcls))
  refine bind (Q := fun s' k => Quiet p0.definitions.length s5 s' ∧ s'.pool.names.get Strings.cnameDefault k = some (String.ofList f.sig)) ?_ fun s6 k hc6 _ ⟨q6, hk⟩ => ?_
  · intro hc hl
    obtain ⟨m1, m2, m3, m4⟩ := addName (p0 := p0) (depth := depth) (first := true) (s := s5) (t := f.sig) hc hl
    exact ⟨m1, m2, m3, fun a s' hm => ⟨by have := (Hush.addName (n := p0.definitions.length) (s := s5) (t := f.sig) hc.reach hl).1; rw [hm] at this; exact this, (m4 a s' hm).1⟩⟩
  refine bind (Q := fun s' i => Quiet p0.definitions.length s5 s' ∧ p0.definitions.length ≤ i.toNat ∧ s'.pool.defName i = some f.sig) ?_ fun s7 i hc7 _ ⟨q7, hi, ht⟩ => ?_
  · intro hc hl
    obtain ⟨m1, m2, m3, m4⟩ := stub (p0 := p0) (depth := depth) (first := true) (s := s6) hk hc hl
    exact ⟨m1, m2, m3, fun a s' hm => ⟨q6.trans (by
      have := (Hush.addDefinition (n := p0.definitions.length) (s := s6) hc.reach hl).1
      have h' : (DeclM.stub k s6).2 = s' := by rw [hm]
      rw [← h']; exact this), (m4 a s' hm).1, (m4 a s' hm).2.1⟩⟩
  exact bind (addMethod hi ht (hquiet q7 hc3)) fun _ _ _ _ _ => pure (new_slot hi)

/-- A name in the global scope for a new definition. -/
theorem scopeSymbol {x : Text} {sym : Symbol} (h : ∀ i ∈ sym.indexes, p0.definitions.length ≤ i.toNat) :
    Tidy p0 depth first s (DeclM.update fun s => { s with scope := s.scope.addSymbol x sym }) fun s' _ => s'.pool = s.pool :=
  update rfl rfl (fun hc => hc.scope.addSymbol fun i hi _ => new_slot (h i hi)) rfl

theorem locatePlain {f : FunctionSource} {m : ModulePath} {v : Visibility} :
    Tidy p0 depth first s (locatePlain f m v) fun s' x => SlotTidy p0 s'.pool x := by
  unfold Redscript.locatePlain
  exact bind addName fun _ _ _ _ ⟨hk, _⟩ => bind (stub hk) fun _ i _ _ ⟨hi, _, _⟩ =>
    bind (Q := fun _ _ => True) (update rfl rfl (fun hc => hc.scope) trivial) fun _ _ _ _ _ =>
      bind (Q := fun _ _ => True) (when (fun _ => mono (scopeSymbol (by simpa [Symbol.indexes] using hi)) fun _ _ _ => trivial) fun _ => trivial) fun _ _ _ _ _ =>
        pure (new_slot hi)

theorem locateFunction (hm : MethodsExist p0) (hn : MembersNamed p0) {f : FunctionSource} {m : ModulePath} (hclean : CleanName f.declaration.name) :
    Tidy p0 depth true s (locateFunction f m) fun s' x => SlotTidy p0 s'.pool x := by
  unfold Redscript.locateFunction
  simp only
  cases h : f.declaration.annotations.find? (fun a => decide (a.kind = .WrapMethod ∨ a.kind = .ReplaceMethod ∨
      a.kind = .ReplaceGlobal ∨ a.kind = .AddMethod)) with
  | none => exact locatePlain
  | some a =>
    simp only
    split
    · exact locateWrap hm
    · exact locateReplace hm
    · exact locateGlobal
    · exact locateAdd hn hclean

theorem defineNamed {m : ModulePath} {x : Text} {sym : Idx → Symbol} (h : ∀ i, (sym i).indexes = [i]) :
    Tidy p0 depth first s (defineNamed m x sym) fun _ i => p0.definitions.length ≤ i.toNat := by
  unfold Redscript.defineNamed
  exact bind addName fun _ _ _ _ ⟨hk, _⟩ => bind (stub hk) fun _ i _ _ ⟨hi, _, _⟩ =>
    bind (Q := fun _ _ => True) (update rfl rfl (fun hc => hc.scope) trivial) fun _ _ _ _ _ =>
      bind (Q := fun _ _ => True) (when (fun _ => mono (scopeSymbol (by rw [h]; simpa using hi)) fun _ _ _ => trivial) fun _ => trivial) fun _ _ _ _ _ => pure hi

theorem checkRedefinition {cx : DeclCtx} {path : ModulePath} : Tidy p0 depth first s (checkRedefinition cx path) fun _ _ => True := by
  unfold Redscript.checkRedefinition
  exact bind (Q := fun _ _ => True) (read fun _ => trivial) fun _ _ _ _ _ => when (fun _ => fail) fun _ => trivial

theorem defineSymbol (hm : MethodsExist p0) (hn : MembersNamed p0) {cx : DeclCtx} {m : ModulePath} {e : SourceEntry}
    (hclean : ∀ f, e = .Function f → CleanName f.declaration.name) :
    Tidy p0 depth true s (defineSymbol cx m e) fun s' x => SlotTidy p0 s'.pool x := by
  cases e with
  | Class c => exact bind checkRedefinition fun _ _ _ _ _ => bind (defineNamed fun _ => rfl) fun _ i _ _ hi => pure hi
  | Struct c => exact bind checkRedefinition fun _ _ _ _ _ => bind (defineNamed fun _ => rfl) fun _ i _ _ hi => pure hi
  | Function f => exact locateFunction hm hn (hclean f rfl)
  | GlobalLet f => exact bind addName fun _ _ _ _ ⟨hk, _⟩ => bind (stub hk) fun _ i _ _ ⟨hi, ht, _⟩ => pure ⟨hi, ht⟩
  | Enum e => exact bind (defineNamed fun _ => rfl) fun _ i _ _ hi => pure hi

theorem defineEntries (hm : MethodsExist p0) (hn : MembersNamed p0) {cx : DeclCtx} {path : ModulePath} : ∀ {es : List SourceEntry} {s : DeclState},
    (∀ f, SourceEntry.Function f ∈ es → CleanName f.declaration.name) →
    Tidy p0 depth true s (defineEntries cx path es) fun s' l => ∀ x ∈ l, SlotTidy p0 s'.pool x
  | [], _, _ => pure (by simp)
  | e :: es, s, h => by
    unfold Redscript.defineEntries
    have ih := fun s' => defineEntries hm hn (cx := cx) (path := path) (es := es) (s := s') fun f hf => h f (List.mem_cons_of_mem _ hf)
    refine bind conditions fun s1 _ _ _ _ => ite (fun ho => bind (reporting (defineSymbol hm hn fun f hf => h f (by rw [← hf]; exact List.mem_cons_self)))
      fun s2 slot _ _ hs => bind (Q := fun s' l => NamesStay s2.pool s'.pool ∧ ∀ x ∈ l, SlotTidy p0 s'.pool x) ?_ fun s3 rest _ _ ⟨k3, hr⟩ => pure ?_) fun _ => ih _
    · intro hc hl
      obtain ⟨m1, m2, m3, m4⟩ := ih s2 hc hl
      exact ⟨m1, m2, m3, fun a s' hm => ⟨by rw [hm] at m2; exact m2, m4 a s' hm⟩⟩
    · intro x hx
      rcases List.mem_append.1 hx with h1 | h1
      · exact (hs x (Option.mem_toList.1 h1)).mono k3
      · exact hr x h1

theorem defineModules (hm : MethodsExist p0) (hn : MembersNamed p0) {cx : DeclCtx} : ∀ {ms : List SourceModule} {s : DeclState}, CleanFunctions ms →
    Tidy p0 depth true s (defineModules cx ms) fun s' qs => ∀ q ∈ qs, ∀ x ∈ q.slots, SlotTidy p0 s'.pool x
  | [], _, _ => pure (by simp)
  | m :: ms, s, h => by
    unfold Redscript.defineModules
    refine bind (defineEntries hm hn fun f hf => h m List.mem_cons_self f hf) fun s1 slots _ _ hs =>
      bind (Q := fun s' qs => NamesStay s1.pool s'.pool ∧ ∀ q ∈ qs, ∀ x ∈ q.slots, SlotTidy p0 s'.pool x) ?_ fun s2 rest _ _ ⟨k2, hr⟩ => pure ?_
    · intro hc hl
      obtain ⟨m1, m2, m3, m4⟩ := defineModules hm hn (cx := cx) (ms := ms) (s := s1) (fun m' hm' => h m' (List.mem_cons_of_mem _ hm')) hc hl
      exact ⟨m1, m2, m3, fun a s' hm => ⟨by rw [hm] at m2; exact m2, m4 a s' hm⟩⟩
    · intro q hq
      rcases List.mem_cons.1 hq with rfl | hq
      · exact fun x hx => (hs x hx).mono k2
      · exact hr q hq

/-! ## The second loop -/

theorem defineAddField (hn : MembersNamed p0) {cx : DeclCtx} (hcx : cx.depth = depth) (hd : 0 < depth) {i : Idx} {v : Visibility} {f : FieldSource} {a : Annotation}
    (hi : p0.definitions.length ≤ i.toNat) (ht : s.pool.defName i = some f.declaration.name) :
    Tidy p0 depth false s (defineAddField cx i v f a) fun _ _ => True := by
  unfold Redscript.defineAddField
  refine @bind _ _ _ _ _ _ _ _ (fun s' _ => s' = s) _ (fun x => @AddsDefs.bind' _ _ _ _ inferInstance fun sym => by split <;> infer_instance) annTarget fun s1 x _ _ e =>
    @bind _ _ _ _ _ _ _ _ (fun s' _ => s' = s1) _
      (fun sym => by split <;> infer_instance) (readOr fun _ sym hsym => rfl) fun s2 sym _ _ e2 => ?_
  subst e; subst e2
  cases sym with
  | Struct cls w => exact fail
  | Enum _ => exact fail
  | Functions _ => exact fail
  | Class cls w =>
    refine bind (Q := fun s' found => s' = s2 ∧ (found = none → NoField p0 depth s2.pool cls f.declaration.name))
      (read fun hc => ⟨rfl, fun h => by rw [hcx] at h; exact hc.noField hn h⟩) fun s3 found _ _ ⟨e, hno⟩ => ?_
    subst e
    refine ite (fun _ => mono diagnose fun _ _ _ => trivial) fun hnone => bind classAt fun s4 c hc4 _ ⟨e, _⟩ => ?_
    subst e
    refine bind (Q := fun s' _ => Quiet p0.definitions.length s4 s') ?_ fun s5 _ _ k5 q5 => ?_
    · intro hc hl
      have hh := Hush.defineField (n := p0.definitions.length) (s := s4) (depth := cx.depth) (cls := cls) (fl := c.flags) (v := v) (f := f) hi
      obtain ⟨m1, m2, m3, _⟩ := quiet (depth := depth) hh hc hl
      exact ⟨m1, m2, m3, fun a s' hm => by have := (hh hc.reach hl).1; rw [hm] at this; exact this⟩
    · exact addField hi (k5 _ _ ht) ((hno (by simpa using hnone)).quiet q5 hc4.size) hd

theorem defineGlobalLet (hn : MembersNamed p0) {cx : DeclCtx} (hcx : cx.depth = depth) (hd : 0 < depth) {i : Idx} {v : Visibility} {f : FieldSource}
    (hi : p0.definitions.length ≤ i.toNat) (ht : s.pool.defName i = some f.declaration.name) :
    Tidy p0 depth false s (defineGlobalLet cx i v f) fun _ _ => True := by
  unfold Redscript.defineGlobalLet
  split
  · exact defineAddField hn hcx hd hi ht
  · exact fail

theorem defineSlot (hn : MembersNamed p0) {cx : DeclCtx} (hcx : cx.depth = depth) (hd : 0 < depth) {seen : List Idx} {x : Slot} (hx : SlotTidy p0 s.pool x) :
    Tidy p0 depth false s (defineSlot cx seen x) fun _ _ => True := by
  cases x with
  | Function i parent base wrapped rep f v =>
    refine bind (Q := fun _ _ => True) (when (fun _ => mono diagnose fun _ _ _ => trivial) fun _ => trivial) fun _ _ _ _ _ => bind (quiet Hush.parentFlags) fun _ _ _ _ _ =>
      bind (quiet Hush.defineSourceRef) fun s3 _ hc3 _ _ => bind (reporting (quiet (Hush.defineFunction ?_ hc3.size))) fun _ _ _ _ _ => pure trivial
    by_cases hi : i.toNat < p0.definitions.length
    · refine .inr fun e he => ?_
      have := hc3.notClass i hi (hx hi)
      rw [asClass_none he] at this; exact this
    · exact .inl (Nat.not_lt.1 hi)
  | Class i c v => exact bind (reporting (fun hc => quiet (Hush.defineClass hx hc.size) hc)) fun _ _ _ _ _ => pure trivial
  | Struct i c v => exact bind (reporting (fun hc => quiet (Hush.defineClass hx hc.size) hc)) fun _ _ _ _ _ => pure trivial
  | Field i f v => exact bind (reporting (defineGlobalLet hn hcx hd hx.1 hx.2)) fun _ _ _ _ _ => pure trivial
  | Enum i e => exact bind (reporting (quiet (Hush.defineEnum hx))) fun _ _ _ _ _ => pure trivial

theorem defineSlots (hn : MembersNamed p0) {cx : DeclCtx} (hcx : cx.depth = depth) (hd : 0 < depth) : ∀ {xs : List Slot} {seen : List Idx} {s : DeclState},
    (∀ x ∈ xs, SlotTidy p0 s.pool x) → Tidy p0 depth false s (defineSlots cx xs seen) fun _ _ => True
  | [], _, _, _ => pure trivial
  | x :: xs, seen, s, h => by
    unfold Redscript.defineSlots
    exact bind (defineSlot hn hcx hd (h x List.mem_cons_self)) fun s1 _ _ k1 _ =>
      defineSlots hn hcx hd fun y hy => (h y (List.mem_cons_of_mem _ hy)).mono k1

theorem defineQueue (hn : MembersNamed p0) {cx : DeclCtx} (hcx : cx.depth = depth) (hd : 0 < depth) : ∀ {qs : List Queued} {seen : List Idx} {s : DeclState},
    (∀ q ∈ qs, ∀ x ∈ q.slots, SlotTidy p0 s.pool x) → Tidy p0 depth false s (defineQueue cx qs seen) fun _ _ => True
  | [], _, _, _ => pure trivial
  | q :: qs, seen, s, h => by
    unfold Redscript.defineQueue
    refine bind (Q := fun _ _ => True) (update rfl rfl (fun hc => hc.scope) trivial) fun s1 _ _ k1 _ => bind (quiet Hush.ownSymbols) fun s2 _ _ k2 _ => bind (quiet Hush.importAll) fun s3 _ _ k3 _ => ?_
    have k : NamesStay s.pool s3.pool := fun i t ht => k3 i t (k2 i t (k1 i t ht))
    exact bind (defineSlots hn hcx hd fun x hx => (h q List.mem_cons_self x hx).mono k) fun s4 _ _ k4 _ =>
      defineQueue hn hcx hd fun q' hq' x hx => ((h q' (List.mem_cons_of_mem _ hq') x hx).mono k).mono k4

end Tidy
end Redscript
