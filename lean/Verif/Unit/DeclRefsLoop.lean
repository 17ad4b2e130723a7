import Verif.Unit.DeclRefs

/-!
# The references made by the two loops of the declaration phase
-/

namespace Redscript
open DeclM

/-- The references made so far in the second loop: those of each slot that is done, one after the other, and no two the same. -/
structure RefsDone (mods : List ModulePath) (s1 : DeclState) (done : List Slot) (s : DeclState) : Prop where
  each : ∃ ls, Each2 (Slot.Refs mods s.pool) done ls ∧ s.refs = ls.flatten
  once : (s.refs.map (·.index)).Nodup
  bound : ∀ r ∈ s.refs, ((∃ x ∈ done, x.index = r.index) ∨ s1.len ≤ r.index.toNat) ∧ r.index.toNat < s.len

theorem ClassRefs.keep {T : Idx → Prop} {mods : List ModulePath} {p p' : ConstantPool} {c : ClassSource} {i : Idx} {l : List SourceRef}
    (h : ClassRefs mods p c i l) (k : DeclFrame T p p') (hi : ¬ T i) : ClassRefs mods p' c i l := by
  obtain ⟨g, own, added, l', h1, h2, h3, h4⟩ := h
  obtain ⟨gs, h5⟩ := k.fields hi h1
  exact ⟨_, own, added ++ gs, l', h5, by show g.fields ++ gs = _; rw [h2, List.append_assoc], h3, h4⟩

theorem Slot.Refs.keep {T : Idx → Prop} {mods : List ModulePath} {p p' : ConstantPool} {x : Slot} {l : List SourceRef}
    (h : x.Refs mods p l) (k : DeclFrame T p p') (hi : ¬ T x.index) : x.Refs mods p' l := by
  cases x with
  | Class i c v => exact ClassRefs.keep h k hi
  | Struct i c v => exact ClassRefs.keep h k hi
  | _ => exact h

theorem Each2.keepLeft {R S : α → β → Prop} {as : List α} {bs : List β} (h : Each2 R as bs) (hRS : ∀ a b, a ∈ as → R a b → S a b) : Each2 S as bs := by
  induction h with
  | nil => exact .nil
  | cons h _ ih => exact .cons (hRS _ _ List.mem_cons_self h) (ih fun a b ha => hRS a b (List.mem_cons_of_mem _ ha))

theorem Each2.snoc {R : α → β → Prop} {as : List α} {bs : List β} (h : Each2 R as bs) {a : α} {b : β} (hab : R a b) : Each2 R (as ++ [a]) (bs ++ [b]) := by
  induction h with
  | nil => exact .cons hab .nil
  | cons h _ ih => exact .cons h ih

section
variable {sees : Idx → Scope → Prop} {s1 s s' : DeclState} {done rest : List Slot} {x : Slot} {seen seen' : List Idx}

theorem RefsDone.step {cx : DeclCtx} (h : RefsDone cx.modules s1 done s) (h1 : Second cx.modules sees s1 (done ++ [x]) rest seen' s')
    (hlen : s1.len ≤ s.len) (k : KeepStep (fun i => i = x.index) s s') (hm : defineSlot cx seen x s = (.ok seen', s')) (hf : s'.Fine) :
    RefsDone cx.modules s1 (done ++ [x]) s' := by
  obtain ⟨l, hl, hx, l', r, rfl, hr, hnew⟩ := RefsAt.defineSlot _ _ hm hf
  have hd := h1.distinct
  rw [List.map_append, List.nodup_append] at hd
  have hne : ∀ y ∈ done, y.index ≠ x.index := fun y hy => hd.2.2 _ (List.mem_map.2 ⟨y, hy, rfl⟩) _ (by simp)
  have hlt : x.index.toNat < s1.len := h1.inUse x (by simp)
  have hsize : s.len ≤ s'.len := k.frame.size
  obtain ⟨ls, e1, e2⟩ := h.each
  refine ⟨⟨ls ++ [l' ++ [r]], ?_, ?_⟩, ?_, ?_⟩
  · have : Each2 (Slot.Refs cx.modules s'.pool) done ls := e1.keepLeft fun y l hy hyl => hyl.keep k.frame (hne y hy)
    exact this.snoc hx
  · rw [hl, e2, List.flatten_append]
    simp
  · rw [hl, List.map_append, List.nodup_append, List.map_append, List.nodup_append]
    refine ⟨h.once, ⟨hnew.1, by simp, fun a ha b hb e => ?_⟩, fun a ha b hb e => ?_⟩
    · have hb : b = x.index := by simpa [hr] using hb
      obtain ⟨q, hq, rfl⟩ := List.mem_map.1 ha
      have := (hnew.2 q hq).1
      rw [e, hb] at this
      omega
    · subst e
      obtain ⟨q, hq, rfl⟩ := List.mem_map.1 ha
      rcases List.mem_append.1 hb with hb | hb
      · obtain ⟨q', hq', e⟩ := List.mem_map.1 hb
        have := (hnew.2 q' hq').1
        have := (h.bound q hq).2
        rw [e] at *
        omega
      · have hb : q.index = x.index := by simpa [hr] using hb
        rcases (h.bound q hq).1 with ⟨y, hy, e⟩ | h2
        · exact hne y hy (e.trans hb)
        · rw [hb] at h2; omega
  · intro j hj
    rw [hl] at hj
    rcases List.mem_append.1 hj with hj | hj
    · obtain ⟨h2, h3⟩ := h.bound j hj
      refine ⟨?_, by omega⟩
      rcases h2 with ⟨y, hy, e⟩ | h2
      · exact .inl ⟨y, List.mem_append_left _ hy, e⟩
      · exact .inr h2
    · rcases List.mem_append.1 hj with hj | hj
      · have := hnew.2 j hj
        exact ⟨.inr (by omega), this.2⟩
      · have hj : j = r := by simpa using hj
        rw [hj, hr]
        exact ⟨.inl ⟨x, by simp, rfl⟩, by omega⟩

theorem defineSlots_refs {cx : DeclCtx} {after : List Slot} : ∀ {ss : List Slot} {done : List Slot} {seen seen' : List Idx} {s s' : DeclState},
    Second cx.modules sees s1 done (ss ++ after) seen s → RefsDone cx.modules s1 done s → s.Sound →
    (∀ x ∈ ss, Knows (sees x.index) s) → defineSlots cx ss seen s = (.ok seen', s') → s'.Fine →
    RefsDone cx.modules s1 (done ++ ss) s'
  | [], done, seen, seen', s, s', _, h, _, _, hm, _ => by cases hm; simpa using h
  | x :: ss, done, seen, seen', s, s', h, hr, hsc, hN, hm, hf => by
    have hm : DeclM.bind (defineSlot cx seen x) (fun seen => defineSlots cx ss seen) s = (.ok seen', s') := by
      unfold defineSlots at hm; exact hm
    unfold DeclM.bind at hm
    cases hx : defineSlot cx seen x s with
    | mk r s2 =>
      rw [hx] at hm
      cases r with
      | error e => cases hm
      | ok seen2 =>
        have hm : defineSlots cx ss seen2 s2 = (.ok seen', s') := hm
        have hl := (AddsDefs.defineSlots cx ss seen2).later s2
        rw [hm] at hl
        obtain ⟨h1, h2, h3, h4⟩ := After.defineSlot_second h hsc (hN x List.mem_cons_self) hx (hl.fine hf)
        have hr2 := hr.step h1 h.keeps.frame.size h4 hx (hl.fine hf)
        have := defineSlots_refs h1 hr2 h2 (fun y hy sc hsc => hN y (List.mem_cons_of_mem _ hy) sc (hsc.trans h3)) hm hf
        rwa [List.append_assoc] at this

theorem defineQueue_refs {cx : DeclCtx} (hwf : s1.symbols.Wf) (hg : GlobalNames s1.symbols s1.scope) : ∀ {qs : List Queued} {done : List Slot} {seen : List Idx} {s s' : DeclState} {u : Unit},
    Second cx.modules sees s1 done (qs.flatMap (·.slots)) seen s → RefsDone cx.modules s1 done s →
    (∀ q ∈ qs, ∀ x ∈ q.slots, ∀ sc, SeesNames s1.symbols cx.modules q.path q.imports sc → sees x.index sc) → defineQueue cx qs seen s = (.ok u, s') → s'.Fine →
    RefsDone cx.modules s1 (done ++ qs.flatMap (·.slots)) s'
  | [], done, seen, s, s', u, _, h, _, hm, _ => by cases hm; simpa using h
  | q :: qs, done, seen, s, s', u, h, hr, hq, hm, hf => by
    have hm : DeclM.bind (DeclM.update fun s => { s with moduleScope := s.scope }) (fun _ => DeclM.bind (ownSymbols q.path) fun _ =>
        DeclM.bind (importAll cx q.imports) fun _ => DeclM.bind (defineSlots cx q.slots seen) fun seen => defineQueue cx qs seen) s = (.ok u, s') := by
      unfold defineQueue at hm; exact hm
    unfold DeclM.bind DeclM.update at hm
    simp only at hm
    cases h1 : ownSymbols q.path { s with moduleScope := s.scope } with
    | mk r s2 =>
      rw [h1] at hm
      cases r with
      | error e => cases hm
      | ok a =>
        simp only at hm
        cases h2 : importAll cx q.imports s2 with
        | mk r s3 =>
          rw [h2] at hm
          cases r with
          | error e => cases hm
          | ok b =>
            simp only at hm
            cases h3 : defineSlots cx q.slots seen s3 with
            | mk r s4 =>
              rw [h3] at hm
              cases r with
              | error e => cases hm
              | ok seen2 =>
                have hm : defineQueue cx qs seen2 s4 = (.ok u, s') := hm
                have f4 : s4.Fine := by
                  have := (AddsDefs.defineQueue cx qs seen2).later s4
                  rw [hm] at this; exact this.fine hf
                have f3 : s3.Fine := by
                  have := (AddsDefs.defineSlots cx q.slots seen).later s3
                  rw [h3] at this; exact this.fine f4
                obtain ⟨sc2, e2, k2, y2⟩ := ownSymbols_ends (s := { s with moduleScope := s.scope }) h.symbols h.scope h1
                subst e2
                obtain ⟨sc3, e3, k3, y3⟩ := importAll_ends (s := { s with moduleScope := sc2 }) h.symbols k2 h2 f3
                subst e3
                have h' := h.withModule sc3
                have hr' : RefsDone cx.modules s1 done { s with moduleScope := sc3 } := ⟨hr.each, hr.once, hr.bound⟩
                have hs : SeesNames s.symbols cx.modules q.path q.imports sc3 := module_sees (s := s) (by rw [h.same.1]; exact hwf)
                  (by rw [h.same.1, h.same.2]; exact hg) h1 rfl h2 f3
                rw [h.same.1] at hs
                rw [List.flatMap_cons] at h' ⊢
                have hsound : DeclState.Sound { s with moduleScope := sc3 } := ⟨h.names, k3, h.table.of_types (y3.trans y2), h.shape⟩
                have hknow : ∀ x ∈ q.slots, Knows (sees x.index) { s with moduleScope := sc3 } :=
                  fun x hx sc e => hq q List.mem_cons_self x hx sc (hs.congr e)
                have h4 := defineSlots_second h' hsound hknow h3 f4
                have h5 := defineSlots_refs h' hr' hsound hknow h3 f4
                have h6 := defineQueue_refs hwf hg h4 h5 (fun q h => hq q (List.mem_cons_of_mem _ h)) hm hf
                rwa [List.append_assoc] at h6

end

/-- The references made by a run without diagnostics. -/
theorem TwoLoops.refs {p : ConstantPool} {depth : Nat} {permissive : Bool} {ms : List SourceModule} {s s1 s' : DeclState} {qs : List Queued} {seen : List Idx}
    (h : TwoLoops p depth permissive ms s s1 s' qs seen) (hs : s.refs = []) :
    RefsDone (ms.filterMap (·.path)) s1 (qs.flatMap (·.slots)) s' := by
  have h0 : s1.refs = [] := by
    have := (KeepsRefs.defineModules ⟨ms.filterMap (·.path), depth, permissive⟩ ms).keeps s
    rw [h.one] at this
    exact this.trans hs
  have hsecond : Second (ms.filterMap (·.path)) (seenBy s1.symbols (ms.filterMap (·.path)) qs) s1 [] (qs.flatMap (·.slots)) [] s1 :=
    ⟨h.laid.first.names, ⟨.refl _ _, fun _ h => h, fun _ h => h, fun _ h => h⟩, by simp, by simp, h.laid.ready, h.laid.apart, by simp, by simp,
      fun e he i hi => (h.laid.first.symbols e he i hi).2, fun x sym hx i hi => (h.laid.first.scope x sym hx i hi).2, h.laid.first.table, h.laid.first.shape, rfl, rfl⟩
  have := defineQueue_refs h.laid.first.wf h.laid.first.global hsecond ⟨⟨[], .nil, h0⟩, by rw [h0]; exact List.nodup_nil, by rw [h0]; simp⟩
    (fun q hq x hx sc hsc => ⟨q, hq, ⟨x, hx, rfl⟩, hsc⟩) h.two h.fine
  simpa using this

end Redscript
