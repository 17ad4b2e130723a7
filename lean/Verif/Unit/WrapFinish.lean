import Verif.Unit.WrapProxies

/-!
# C36: wrappers nest in the order of their declaration (finishing)
-/

namespace Redscript

/-! ## Bodies -/

/-- A definition with a body put in. -/
def Definition.withBody (b : WrapBody) (d : Definition) : Definition :=
  match d.value with
  | .Function f => { d with value := .Function { f with code := b.code, locals := b.locals } }
  | _ => d

/-- The definition at `i` with the bodies for `i` put in, in order. -/
def withBodies (i : Idx) : List WrapBody → Definition → Definition
  | [], d => d
  | b :: bs, d => withBodies i bs (if b.index = i then d.withBody b else d)

/-- Bodies put into the pool one after the other (compiler/src/unit.rs:298-304). Checking them before
(compiler/src/unit.rs:277-294) adds definitions of locals and types behind the others, and assembling them may
add texts. -/
inductive Installs : ConstantPool → List WrapBody → ConstantPool → Prop
  | nil {p : ConstantPool} : Installs p [] p
  | grown {p p' p'' : ConstantPool} {bs : List WrapBody} {new : List Definition} : Installs p bs p' →
      p''.definitions = p'.definitions ++ new →
      (∀ i s, p'.names.get Strings.cnameDefault i = some s → p''.names.get Strings.cnameDefault i = some s) →
      Installs p bs p''
  | body {p p' p'' : ConstantPool} {bs : List WrapBody} {b : WrapBody} : Installs p bs p' → installBody p' b = .ok p'' →
      Installs p (bs ++ [b]) p''

theorem withBodies_append (i : Idx) (bs : List WrapBody) (b : WrapBody) (d : Definition) :
    withBodies i (bs ++ [b]) d = if b.index = i then (withBodies i bs d).withBody b else withBodies i bs d := by
  induction bs generalizing d with
  | nil => rfl
  | cons c bs ih => exact ih _

theorem withBodies_none {i : Idx} {bs : List WrapBody} (h : ∀ b ∈ bs, b.index ≠ i) (d : Definition) : withBodies i bs d = d := by
  induction bs generalizing d with
  | nil => rfl
  | cons b bs ih =>
    rw [withBodies, if_neg (h b (by simp))]
    exact ih (fun c hc => h c (List.mem_cons_of_mem _ hc)) d

theorem Definition.withBody_fields (b : WrapBody) (d : Definition) :
    (d.withBody b).name = d.name ∧ (d.withBody b).parent = d.parent := by
  unfold Definition.withBody
  split <;> exact ⟨rfl, rfl⟩

theorem withBodies_fields (i : Idx) (bs : List WrapBody) (d : Definition) :
    (withBodies i bs d).name = d.name ∧ (withBodies i bs d).parent = d.parent := by
  induction bs generalizing d with
  | nil => exact ⟨rfl, rfl⟩
  | cons b bs ih =>
    obtain ⟨h1, h2⟩ := ih (if b.index = i then d.withBody b else d)
    rw [withBodies, h1, h2]
    split
    · exact d.withBody_fields b
    · exact ⟨rfl, rfl⟩

/-- Functions stay functions and keep all but code and locals. -/
theorem withBodies_function (i : Idx) (bs : List WrapBody) {d : Definition} {f : FunctionDef} (h : d.value = .Function f) :
    ∃ code locals, (withBodies i bs d) = { d with value := .Function { f with code, locals } } := by
  induction bs generalizing d f with
  | nil => exact ⟨f.code, f.locals, by rw [withBodies]; cases d; simp only at h; subst h; rfl⟩
  | cons b bs ih =>
    rw [withBodies]
    split
    · have e : d.withBody b = { d with value := .Function { f with code := b.code, locals := b.locals } } := by
        unfold Definition.withBody; rw [h]
      rw [e]
      obtain ⟨code, locals, hc⟩ := ih (d := { d with value := .Function { f with code := b.code, locals := b.locals } }) rfl
      exact ⟨code, locals, hc⟩
    · exact ih h

/-- Other definitions are not changed. -/
theorem withBodies_other (i : Idx) (bs : List WrapBody) {d : Definition} (h : ∀ f, d.value ≠ .Function f) :
    withBodies i bs d = d := by
  induction bs with
  | nil => rfl
  | cons b bs ih =>
    have e : d.withBody b = d := by
      unfold Definition.withBody
      split
      · next f hf => exact absurd hf (h f)
      · rfl
    rw [withBodies, e, ite_self]
    exact ih

/-- What putting the bodies in does. -/
theorem Installs.spec {p p' : ConstantPool} {bs : List WrapBody} (h : Installs p bs p') :
    p.definitions.length ≤ p'.definitions.length ∧
    (∀ i d, p.definition i = some d → p'.definition i = some (withBodies i bs d)) ∧
    ∀ i s, p.names.get Strings.cnameDefault i = some s → p'.names.get Strings.cnameDefault i = some s := by
  induction h with
  | nil => exact ⟨Nat.le_refl _, fun i d hd => hd, fun _ _ h => h⟩
  | grown _ hd hn ih =>
    obtain ⟨i1, i2, i3⟩ := ih
    refine ⟨by rw [hd, List.length_append]; omega, fun i d hi => ?_, fun i s hs => hn i s (i3 i s hs)⟩
    have h1 := i2 i d hi
    unfold ConstantPool.definition at h1 ⊢
    rw [hd]
    exact List.getElem?_append_left (List.getElem?_eq_some_iff.1 h1).1 ▸ h1
  | @body p1 p2 bs b _ hb ih =>
    obtain ⟨i1, i2, i3⟩ := ih
    unfold installBody at hb
    split at hb
    · cases hb
    · next hm =>
      cases hb
      obtain ⟨d, v, h1, h2, h3, h4, h5, h6⟩ := modifyValue_spec hm
      obtain ⟨f, f1, f2⟩ := onFunction_some h2
      refine ⟨by rw [h5]; exact i1, fun i d0 hi0 => ?_, fun i s hs => by rw [h6]; exact i3 i s hs⟩
      by_cases hi : i = b.index
      · subst hi
        have h7 := i2 b.index d0 hi0
        rw [h1] at h7
        cases h7
        rw [h3, withBodies_append, if_pos rfl, f2]
        unfold Definition.withBody
        rw [f1]
      · rw [h4 i hi, i2 i d0 hi0, withBodies_append, if_neg (fun e => hi e.symm)]

/-! ## Locals -/

/-- Replace a local in an instruction. -/
def renameLocal (ρ : Idx → Idx) : Instr α → Instr α
  | .Local l => .Local (ρ l)
  | i => i

theorem AMap.mem_values_go [DecidableEq K] (x : V) : ∀ (es : List (K × V)) (seen : List K),
    x ∈ AMap.values.go seen es ↔ ∃ k, k ∉ seen ∧ AMap.get.go k es = some x
  | [], seen => by simp [AMap.values.go, AMap.get.go]
  | (k, v) :: es, seen => by
    unfold AMap.values.go
    by_cases hk : k ∈ seen
    · rw [if_pos hk, AMap.mem_values_go x es seen]
      constructor
      · rintro ⟨j, h1, h2⟩
        refine ⟨j, h1, ?_⟩
        unfold AMap.get.go
        rw [if_neg (by rintro rfl; exact h1 hk)]
        exact h2
      · rintro ⟨j, h1, h2⟩
        unfold AMap.get.go at h2
        rw [if_neg (by rintro rfl; exact h1 hk)] at h2
        exact ⟨j, h1, h2⟩
    · rw [if_neg hk, List.mem_cons, AMap.mem_values_go x es (k :: seen)]
      constructor
      · rintro (rfl | ⟨j, h1, h2⟩)
        · exact ⟨k, hk, by unfold AMap.get.go; rw [if_pos rfl]⟩
        · rw [List.mem_cons, not_or] at h1
          exact ⟨j, h1.2, by unfold AMap.get.go; rw [if_neg h1.1]; exact h2⟩
      · rintro ⟨j, h1, h2⟩
        unfold AMap.get.go at h2
        split at h2
        · cases h2; exact .inl rfl
        · next hne => exact .inr ⟨j, by rw [List.mem_cons, not_or]; exact ⟨hne, h1⟩, h2⟩

theorem AMap.mem_values [DecidableEq K] (m : AMap K V) (x : V) : x ∈ m.values ↔ ∃ k, m.get k = some x := by
  unfold AMap.values AMap.get
  rw [AMap.mem_values_go]
  simp

/-- Copying locals. -/
theorem cloneLocals_spec {parent : Idx} : ∀ (ls : List Idx) (p : ConstantPool) (m : AMap Idx Idx) {m' : AMap Idx Idx} {p' : ConstantPool},
    cloneLocals p parent ls m = some (m', p') → p'.definitions.length < 2 ^ 32 →
    p.definitions.length ≤ p'.definitions.length ∧ p'.names = p.names ∧
    (∀ i d, p.definition i = some d → p'.definition i = some d) ∧
    (∀ l, l ∉ ls → m'.get l = m.get l) ∧
    ((∀ l ∈ ls, ∃ d, p.definition l = some d) →
      (∀ l ∈ ls, ∃ l' d, m'.get l = some l' ∧ p.definitions.length ≤ l'.toNat ∧ p.definition l = some d ∧
        p'.definition l' = some { d with parent })) ∧
    ((∀ a x, m.get a = some x → x.toNat < p.definitions.length) →
      (∀ a b x, m.get a = some x → m.get b = some x → a = b) → ∀ a b x, m'.get a = some x → m'.get b = some x → a = b)
  | [], p, m, m', p', h, _ => by
    cases h
    exact ⟨Nat.le_refl _, rfl, fun _ _ h => h, fun _ _ => rfl, fun _ _ h => by simp at h, fun _ h => h⟩
  | l :: ls, p, m, m', p', h, hl => by
    unfold cloneLocals at h
    cases hd : p.definition l with
    | none => rw [hd] at h; cases h
    | some d =>
      rw [hd] at h
      simp only [Option.bind_some] at h
      obtain ⟨c1, c2, c3, c4, c5, c6⟩ := cloneLocals_spec ls _ _ h hl
      have hlen : p.definitions.length < 2 ^ 32 := by
        simp only [ConstantPool.addDefinition, List.length_append, List.length_singleton] at c1; omega
      obtain ⟨a1, a2, a3, a4⟩ := add_index hlen { d with parent }
      have hk : ∀ i e, p.definition i = some e → (p.addDefinition { d with parent }).2.definition i = some e := by
        intro i e he
        have hne : i ≠ (p.addDefinition { d with parent }).1 := by
          rintro rfl
          have := definition_lt he
          omega
        rw [(C12_add p { d with parent } hlen).2.2 i hne]
        exact he
      refine ⟨by omega, by rw [c2, a4], fun i e he => c3 i e (hk i e he), ?_, ?_, ?_⟩
      · intro k hk'
        rw [List.mem_cons, not_or] at hk'
        rw [c4 k hk'.2, AMap.get_insert_ne _ _ hk'.1]
      · intro hdef k hk'
        by_cases hkl : k ∈ ls
        · obtain ⟨l', e, e1, e2, e3, e4⟩ := c5 (fun j hj => by
            obtain ⟨e, he⟩ := hdef j (List.mem_cons_of_mem _ hj)
            exact ⟨e, hk j e he⟩) k hkl
          obtain ⟨e0, he0⟩ := hdef k hk'
          have : e0 = e := by rw [hk k e0 he0] at e3; cases e3; rfl
          subst this
          exact ⟨l', e0, e1, by omega, he0, e4⟩
        · have : k = l := by
            rcases List.mem_cons.1 hk' with h | h
            · exact h
            · exact absurd h hkl
          subst this
          refine ⟨_, d, ?_, Nat.le_of_eq a1.symm, hd, c3 _ _ a2⟩
          rw [c4 k hkl]
          simp
      · intro hv hi
        refine c6 ?_ ?_
        · intro a x hx
          rw [AMap.get_insert] at hx
          split at hx
          · cases hx; omega
          · have := hv a x hx; omega
        · intro a b x ha hb
          rw [AMap.get_insert] at ha hb
          split at ha <;> split at hb
          · next h1 h2 => rw [h1, h2]
          · cases ha; have := hv b _ hb; omega
          · cases hb; have := hv a _ ha; omega
          · exact hi a b x ha hb

theorem remapCode_spec (m : AMap Idx Idx) : ∀ (code : List (Instr Offset)) {code' : List (Instr Offset)}, remapCode m code = some code' →
    code' = code.map (renameLocal fun l => (m.get l).getD 0) ∧ ∀ l, .Local l ∈ code → ∃ l', m.get l = some l'
  | [], code', h => by cases h; exact ⟨rfl, by simp⟩
  | i :: is, code', h => by
    by_cases hi : ∃ l, i = .Local l
    · obtain ⟨l, rfl⟩ := hi
      unfold remapCode at h
      cases hl : m.get l with
      | none => rw [hl] at h; cases h
      | some l' =>
        rw [hl] at h
        simp only [Option.bind_some] at h
        cases hr : remapCode m is with
        | none => rw [hr] at h; cases h
        | some r =>
          rw [hr] at h
          cases h
          obtain ⟨h1, h2⟩ := remapCode_spec m is hr
          refine ⟨by rw [List.map_cons, h1]; simp [renameLocal, hl], fun k hk => ?_⟩
          rcases List.mem_cons.1 hk with e | hk
          · cases e; exact ⟨l', hl⟩
          · exact h2 k hk
    · have e : remapCode m (i :: is) = (remapCode m is).map (i :: ·) := by
        exact remapCode.eq_3 m i is fun l e => hi ⟨l, e⟩
      rw [e] at h
      cases hr : remapCode m is with
      | none => rw [hr] at h; cases h
      | some r =>
        rw [hr] at h
        cases h
        obtain ⟨h1, h2⟩ := remapCode_spec m is hr
        refine ⟨?_, fun k hk => ?_⟩
        · rw [List.map_cons, h1]
          show i :: _ = _
          rw [renameLocal.eq_2 _ i fun l e => hi ⟨l, e⟩]
        · rcases List.mem_cons.1 hk with e | hk
          · exact absurd ⟨k, e.symm⟩ hi
          · exact h2 k hk

/-! ## The exchange -/

/-- `f'` is `f` moved to `r`: everything is the same but the callback flag, and the locals, which are copies
that belong to `r`. `p` is the pool with the old locals, `p'` has the new ones. -/
structure MovedTo (p p' : ConstantPool) (r : Idx) (f f' : FunctionDef) : Prop where
  same : ∃ code locals, f' = { f with flags := setFlag FunctionFlags.isCallbackBit false f.flags, locals, code }
  renamed : ∃ ρ : Idx → Idx, f'.code = f.code.map (renameLocal ρ) ∧
    (∀ l, .Local l ∈ f.code → l ∈ f.locals) ∧
    (∀ x, x ∈ f'.locals ↔ ∃ l ∈ f.locals, x = ρ l) ∧
    (∀ a ∈ f.locals, ∀ b ∈ f.locals, ρ a = ρ b → a = b) ∧
    ∀ l ∈ f.locals, p.definitions.length ≤ (ρ l).toNat ∧
      ∃ d, p.definition l = some d ∧ p'.definition (ρ l) = some { d with parent := r }

/-- Locals of a function exist. -/
def LocalsOk (p : ConstantPool) (ls : List Idx) : Prop := ∀ l ∈ ls, ∃ d v, p.definition l = some d ∧ d.value = .Local v

/-- One exchange. -/
theorem swapProxy_spec {ord : List Idx → List Idx} (hord : ∀ l, (ord l).Perm l) {p p' : ConstantPool} {f r : Idx}
    (h : swapProxy ord p f r = .ok p') (hl : p'.definitions.length < 2 ^ 32) (hne : f ≠ r)
    (hlo : ∀ d fn, p.definition f = some d → d.value = .Function fn → LocalsOk p fn.locals) :
    ∃ df dr ff fm, p.definition f = some df ∧ p.definition r = some dr ∧ df.value = .Function ff ∧
      p'.definition f = some { dr with name := df.name } ∧
      p'.definition r = some { df with name := dr.name, value := .Function fm } ∧ MovedTo p p' r ff fm ∧
      p.definitions.length ≤ p'.definitions.length ∧ p'.names = p.names ∧
      (∀ i d, i ≠ f → i ≠ r → p.definition i = some d → p'.definition i = some d) := by
  unfold swapProxy at h
  split at h
  · next df dr hdf hdr =>
    split at h
    · cases h
    · next p1 hm =>
      obtain ⟨df', v, m1, m2, m3, m4, m5, m6⟩ := modifyValue_spec hm
      rw [hdf] at m1; cases m1
      obtain ⟨ff, hff, rfl⟩ := onFunction_some m2
      split at h
      · cases h
      · next p2 hr =>
        unfold remapLocals at hr
        have hfun : p1.function f = some { ff with flags := setFlag FunctionFlags.isCallbackBit false ff.flags } := by
          unfold ConstantPool.function ConstantPool.definitionBy
          have : p1.definitions[f.toNat]? = _ := m3
          rw [this]; rfl
        rw [hfun] at hr
        simp only at hr
        split at hr
        · cases hr
        · next m q hc =>
          split at hr
          · cases hr
          · next code hcode =>
            split at hr
            · cases hr
            · next p2' hm2 =>
              cases hr
              obtain ⟨d2, v2, n1, n2, n3, n4, n5, n6⟩ := modifyValue_spec hm2
              obtain ⟨f2, n7, rfl⟩ := onFunction_some n2
              -- the renames and the exchange
              have hlo := hlo df ff hdf hff
              -- sizes
              split at h
              · cases h
              · next p3 hr1 =>
                split at h
                · cases h
                · next p4 hr2 =>
                  split at h
                  · cases h
                  · next p5 hs =>
                    cases h
                    have size1 : p3.definitions.length = p2.definitions.length ∧ p3.names = p2.names := by
                      unfold ConstantPool.rename at hr1
                      split at hr1
                      · cases hr1; simp
                      · cases hr1
                    have size2 : p4.definitions.length = p3.definitions.length ∧ p4.names = p3.names := by
                      unfold ConstantPool.rename at hr2
                      split at hr2
                      · cases hr2; simp
                      · cases hr2
                    have size3 : p'.definitions.length = p4.definitions.length ∧ p'.names = p4.names := by
                      unfold ConstantPool.swapDefinition at hs
                      split at hs
                      · cases hs; simp
                      · cases hs
                    obtain ⟨c1, c2, c3, c4, c5, c6⟩ := cloneLocals_spec _ _ _ hc (by omega)
                    have d2e : q.definition f = some { df with value := .Function { ff with flags := setFlag FunctionFlags.isCallbackBit false ff.flags } } := c3 _ _ m3
                    rw [d2e] at n1
                    cases n1
                    cases n7
                    have hrq : q.definition r = some dr := c3 _ _ (by rw [m4 r (fun e => hne e.symm)]; exact hdr)
                    have hr2' : p2.definition r = some dr := by rw [n4 r (fun e => hne e.symm)]; exact hrq
                    obtain ⟨p3', e1, e2, e3⟩ := C12_rename p2 f dr.name _ n3
                    obtain rfl : p3' = p3 := by rw [e1] at hr1; cases hr1; rfl
                    obtain ⟨p4', g1, g2, g3⟩ := C12_rename p3' r df.name dr (by rw [e3 r (fun e => hne e.symm)]; exact hr2')
                    obtain rfl : p4' = p4 := by rw [g1] at hr2; cases hr2; rfl
                    obtain ⟨p5', s1, s2, s3, s4⟩ := C12_swap p4' f r _ _ (by rw [g3 f hne]; exact e2) g2
                    have hs' : p5' = p' := by rw [s1] at hs; cases hs; rfl
                    rw [hs'] at s2 s3 s4
                    have hold : ∀ i d, i ≠ f → i ≠ r → p.definition i = some d → p'.definition i = some d := by
                      intro i d hi hi' hd
                      rw [s4 i hi hi', g3 i hi', e3 i hi, n4 i hi]
                      exact c3 _ _ (by rw [m4 i hi]; exact hd)
                    have hnew : ∀ i d, p.definitions.length ≤ i.toNat → q.definition i = some d → p'.definition i = some d := by
                      intro i d hi hd
                      have h1 : i ≠ f := by rintro rfl; have := definition_lt hdf; omega
                      have h2 : i ≠ r := by rintro rfl; have := definition_lt hdr; omega
                      rw [s4 i h1 h2, g3 i h2, e3 i h1, n4 i h1]
                      exact hd
                    obtain ⟨rc1, rc2⟩ := remapCode_spec m _ hcode
                    have hdefs : ∀ l ∈ ff.locals, ∃ d, p1.definition l = some d := by
                      intro l hl
                      obtain ⟨d, v, k1, k2⟩ := hlo l hl
                      refine ⟨d, ?_⟩
                      rw [m4 l (by rintro rfl; rw [hdf] at k1; cases k1; rw [hff] at k2; cases k2)]
                      exact k1
                    have hcopy := c5 hdefs
                    have hinj := c6 (fun a x hx => by cases hx) (fun a b x hx => by cases hx)
                    have hmem : ∀ l l', m.get l = some l' → l ∈ ff.locals := by
                      intro l l' hll
                      apply Classical.byContradiction
                      intro hn
                      rw [c4 l hn] at hll
                      cases hll
                    refine ⟨df, dr, ff, { ff with flags := setFlag FunctionFlags.isCallbackBit false ff.flags, locals := ord m.values, code },
                      hdf, hdr, hff, s2, s3, ⟨⟨_, _, rfl⟩, fun l => (m.get l).getD 0, rc1, ?_, ?_, ?_, ?_⟩, ?_, ?_, hold⟩
                    · intro l hl
                      obtain ⟨l', hl'⟩ := rc2 l hl
                      exact hmem l l' hl'
                    · intro x
                      show x ∈ ord m.values ↔ _
                      rw [(hord _).mem_iff, AMap.mem_values]
                      constructor
                      · rintro ⟨k, hk⟩
                        exact ⟨k, hmem k x hk, by simp [hk]⟩
                      · rintro ⟨l, hl, rfl⟩
                        obtain ⟨l', d, k1, _⟩ := hcopy l hl
                        exact ⟨l, by simp [k1]⟩
                    · intro a ha b hb hab
                      obtain ⟨a', _, k1, _⟩ := hcopy a ha
                      obtain ⟨b', _, k2, _⟩ := hcopy b hb
                      simp only [k1, k2, Option.getD_some] at hab
                      subst hab
                      exact hinj a b a' k1 k2
                    · intro l hl
                      obtain ⟨l', d, k1, k2, k3, k4⟩ := hcopy l hl
                      obtain ⟨d0, v0, z1, z2⟩ := hlo l hl
                      have : d0 = d := by
                        rw [m4 l (by rintro rfl; rw [hdf] at z1; cases z1; rw [hff] at z2; cases z2), z1] at k3
                        cases k3; rfl
                      subst this
                      simp only [k1, Option.getD_some]
                      exact ⟨by omega, d0, z1, hnew _ _ (by omega) k4⟩
                    · omega
                    · rw [size3.2, size2.2, size1.2, n6, c2, m6]
  · cases h

theorem cloneLocals_size {parent : Idx} : ∀ (ls : List Idx) (p : ConstantPool) (m : AMap Idx Idx) {m' : AMap Idx Idx} {p' : ConstantPool},
    cloneLocals p parent ls m = some (m', p') → p.definitions.length ≤ p'.definitions.length
  | [], p, m, m', p', h => by cases h; exact Nat.le_refl _
  | l :: ls, p, m, m', p', h => by
    unfold cloneLocals at h
    cases hd : p.definition l with
    | none => rw [hd] at h; cases h
    | some d =>
      rw [hd] at h
      have := cloneLocals_size ls _ _ h
      simp only [ConstantPool.addDefinition, List.length_append, List.length_singleton] at this
      omega

theorem rename_size {p p' : ConstantPool} {i n : Idx} (h : p.rename i n = .ok p') :
    p'.definitions.length = p.definitions.length := by
  unfold ConstantPool.rename at h
  split at h
  · cases h; simp
  · cases h

theorem swapProxy_size {ord : List Idx → List Idx} {p p' : ConstantPool} {f r : Idx} (h : swapProxy ord p f r = .ok p') :
    p.definitions.length ≤ p'.definitions.length := by
  unfold swapProxy at h
  split at h
  · split at h
    · cases h
    · next p1 hm =>
      obtain ⟨_, _, _, _, _, _, m5, _⟩ := modifyValue_spec hm
      split at h
      · cases h
      · next p2 hr =>
        have h2 : p1.definitions.length ≤ p2.definitions.length := by
          unfold remapLocals at hr
          split at hr
          · cases hr
          · split at hr
            · cases hr
            · next hc =>
              have h1 := cloneLocals_size _ _ _ hc
              split at hr
              · cases hr
              · split at hr
                · cases hr
                · next hm2 =>
                  cases hr
                  obtain ⟨_, _, _, _, _, _, n5, _⟩ := modifyValue_spec hm2
                  omega
        split at h
        · cases h
        · next hr1 =>
          have h3 := rename_size hr1
          split at h
          · cases h
          · next hr2 =>
            have h4 := rename_size hr2
            split at h
            · cases h
            · next hs =>
              cases h
              unfold ConstantPool.swapDefinition at hs
              split at hs
              · cases hs
                simp only [List.length_set]
                omega
              · cases hs
  · cases h

theorem swapAll_size {ord : List Idx → List Idx} : ∀ (ps : List (Idx × Idx)) {p p' : ConstantPool},
    swapAll ord ps p = .ok p' → p.definitions.length ≤ p'.definitions.length
  | [], p, p', h => by cases h; exact Nat.le_refl _
  | (f, r) :: ps, p, p', h => by
    unfold swapAll at h
    cases hc : swapProxy ord p f r with
    | error e => rw [hc] at h; cases h
    | ok p1 =>
      rw [hc] at h
      exact Nat.le_trans (swapProxy_size hc) (swapAll_size ps h)

/-- What the exchange of `f` and `r` does. -/
def Exchanged (p p' : ConstantPool) (f r : Idx) : Prop :=
  ∃ df dr ff fm, p.definition f = some df ∧ p.definition r = some dr ∧ df.value = .Function ff ∧
    p'.definition f = some { dr with name := df.name } ∧
    p'.definition r = some { df with name := dr.name, value := .Function fm } ∧ MovedTo p p' r ff fm

/-- All exchanges, in any order. -/
theorem swapAll_spec {ord : List Idx → List Idx} (hord : ∀ l, (ord l).Perm l) : ∀ (ps : List (Idx × Idx)) (p : ConstantPool)
    {p' : ConstantPool}, swapAll ord ps p = .ok p' → p'.definitions.length < 2 ^ 32 → (ps.map (·.1)).Nodup → (ps.map (·.2)).Nodup →
    (∀ x ∈ ps, ∀ y ∈ ps, x.1 ≠ y.2) →
    (∀ x ∈ ps, ∃ d fn, p.definition x.1 = some d ∧ d.value = .Function fn ∧ LocalsOk p fn.locals) →
    (∀ x ∈ ps, ∃ d, p.definition x.2 = some d ∧ ∀ v, d.value ≠ .Local v) →
    p.definitions.length ≤ p'.definitions.length ∧ p'.names = p.names ∧ (∀ x ∈ ps, Exchanged p p' x.1 x.2) ∧
    ∀ i d, (∀ x ∈ ps, i ≠ x.1 ∧ i ≠ x.2) → p.definition i = some d → p'.definition i = some d
  | [], p, p', h, _, _, _, _, _, _ => by
    cases h
    exact ⟨Nat.le_refl _, rfl, by simp, fun _ _ _ h => h⟩
  | (f, r) :: ps, p, p', h, hl, hn1, hn2, hd, hlo, hsl => by
    unfold swapAll at h
    cases hc : swapProxy ord p f r with
    | error e => rw [hc] at h; cases h
    | ok p1 =>
      rw [hc] at h
      simp only at h
      have hsz := swapAll_size ps h
      rw [List.map_cons, List.nodup_cons] at hn1 hn2
      have hfr : f ≠ r := hd (f, r) (by simp) (f, r) (by simp)
      obtain ⟨df, dr, ff, fm, s1, s2, s3, s4, s5, s6, s7, s8, s9⟩ := swapProxy_spec hord hc (by omega) hfr (by
        intro d fn h1 h2
        obtain ⟨d', fn', k1, k2, k3⟩ := hlo (f, r) (by simp)
        rw [h1] at k1; cases k1
        rw [h2] at k2; cases k2
        exact k3)
      -- the others are not touched by the first exchange
      have hne : ∀ x ∈ ps, x.1 ≠ f ∧ x.1 ≠ r ∧ x.2 ≠ f ∧ x.2 ≠ r := fun x hx =>
        ⟨fun e => hn1.1 (List.mem_map.2 ⟨x, hx, e⟩), hd x (List.mem_cons_of_mem _ hx) (f, r) (by simp),
          fun e => hd (f, r) (by simp) x (List.mem_cons_of_mem _ hx) e.symm, fun e => hn2.1 (List.mem_map.2 ⟨x, hx, e⟩)⟩
      have hloc : ∀ l d v, p.definition l = some d → d.value = .Local v → p1.definition l = some d := by
        intro l d v h1 h2
        refine s9 l d ?_ ?_ h1
        · rintro rfl; rw [s1] at h1; cases h1; rw [s3] at h2; cases h2
        · rintro rfl
          obtain ⟨d', k1, k2⟩ := hsl (f, l) (by simp)
          rw [h1] at k1; cases k1
          exact k2 v h2
      obtain ⟨i1, i2, i3, i4⟩ := swapAll_spec hord ps p1 h hl hn1.2 hn2.2
        (fun x hx y hy => hd x (List.mem_cons_of_mem _ hx) y (List.mem_cons_of_mem _ hy))
        (fun x hx => by
          obtain ⟨d, fn, h1, h2, h3⟩ := hlo x (List.mem_cons_of_mem _ hx)
          refine ⟨d, fn, s9 _ d (hne x hx).1 (hne x hx).2.1 h1, h2, fun l hl => ?_⟩
          obtain ⟨e, v, e1, e2⟩ := h3 l hl
          exact ⟨e, v, hloc l e v e1 e2, e2⟩)
        (fun x hx => by
          obtain ⟨d, h1, h2⟩ := hsl x (List.mem_cons_of_mem _ hx)
          exact ⟨d, s9 _ d (hne x hx).2.2.1 (hne x hx).2.2.2 h1, h2⟩)
      refine ⟨by omega, by rw [i2, s8], ?_, ?_⟩
      · intro x hx
        rcases List.mem_cons.1 hx with rfl | hx
        · have hf : ∀ y ∈ ps, f ≠ y.1 ∧ f ≠ y.2 := fun y hy => ⟨fun e => (hne y hy).1 e.symm, fun e => (hne y hy).2.2.1 e.symm⟩
          have hr : ∀ y ∈ ps, r ≠ y.1 ∧ r ≠ y.2 := fun y hy => ⟨fun e => (hne y hy).2.1 e.symm, fun e => (hne y hy).2.2.2 e.symm⟩
          refine ⟨df, dr, ff, fm, s1, s2, s3, i4 f _ hf s4, i4 r _ hr s5, s6.same, ?_⟩
          obtain ⟨ρ, r1, r2, r3, r4, r5⟩ := s6.renamed
          refine ⟨ρ, r1, r2, r3, r4, fun l hl => ?_⟩
          obtain ⟨t1, d, t2, t3⟩ := r5 l hl
          refine ⟨t1, d, t2, i4 _ _ (fun y hy => ⟨?_, ?_⟩) t3⟩
          · intro e
            obtain ⟨d, fn, h1, _⟩ := hlo y (List.mem_cons_of_mem _ hy)
            have := definition_lt h1
            rw [← e] at this
            omega
          · intro e
            obtain ⟨d, h1, _⟩ := hsl y (List.mem_cons_of_mem _ hy)
            have := definition_lt h1
            rw [← e] at this
            omega
        · obtain ⟨ef, er, gf, gm, t1, t2, t3, t4, t5, t6⟩ := i3 x hx
          obtain ⟨d, fn, h1, h2, h3⟩ := hlo x (List.mem_cons_of_mem _ hx)
          obtain ⟨d', h4, h5⟩ := hsl x (List.mem_cons_of_mem _ hx)
          obtain rfl : d = ef := by rw [s9 _ d (hne x hx).1 (hne x hx).2.1 h1] at t1; cases t1; rfl
          obtain rfl : d' = er := by rw [s9 _ d' (hne x hx).2.2.1 (hne x hx).2.2.2 h4] at t2; cases t2; rfl
          obtain rfl : fn = gf := by rw [h2] at t3; cases t3; rfl
          refine ⟨d, d', fn, gm, h1, h4, h2, t4, t5, t6.same, ?_⟩
          obtain ⟨ρ, r1, r2, r3, r4, r5⟩ := t6.renamed
          refine ⟨ρ, r1, r2, r3, r4, fun l hl => ?_⟩
          obtain ⟨u1, e, u2, u3⟩ := r5 l hl
          obtain ⟨e', v, v1, v2⟩ := h3 l hl
          obtain rfl : e' = e := by rw [hloc l e' v v1 v2] at u2; cases u2; rfl
          exact ⟨by omega, e', v1, u3⟩
      · intro i d hi hdi
        exact i4 i d (fun x hx => hi x (List.mem_cons_of_mem _ hx)) (s9 i d (hi (f, r) (by simp)).1 (hi (f, r) (by simp)).2 hdi)

end Redscript
