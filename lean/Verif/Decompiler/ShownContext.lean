import Verif.Decompiler.ShownPaths

/-!
# Initial values, and what surrounds the code of a statement
-/

namespace Redscript

section
variable {D : DecEnv} {bs : BinarySearch} {env : AsmEnv} {out : List (Instr Offset)} {ρ : Nat → Location}

/-! ### Initial values -/

theorem primInit_dec (ha : DecAgrees env D) {name : Text} {c : Instr Nat} (hc : env.primInit name = some (.ok c)) :
    ∀ f : Nat → Offset, decKind D (c.mapLoc f) = .leaf (zeroValue D name) ∧ c.isTarget = false := by
  unfold AsmEnv.primInit at hc
  unfold zeroValue
  by_cases h : name = "Bool".toList
  · rw [if_pos h] at hc ⊢; exact (by cases hc; exact fun f => ⟨rfl, rfl⟩)
  rw [if_neg h] at hc ⊢; clear h
  by_cases h : name = "Int8".toList
  · rw [if_pos h] at hc ⊢; exact (by cases hc; exact fun f => ⟨rfl, rfl⟩)
  rw [if_neg h] at hc ⊢; clear h
  by_cases h : name = "Int16".toList
  · rw [if_pos h] at hc ⊢; exact (by cases hc; exact fun f => ⟨rfl, rfl⟩)
  rw [if_neg h] at hc ⊢; clear h
  by_cases h : name = "Int32".toList
  · rw [if_pos h] at hc ⊢; exact (by cases hc; exact fun f => ⟨rfl, rfl⟩)
  rw [if_neg h] at hc ⊢; clear h
  by_cases h : name = "Int64".toList
  · rw [if_pos h] at hc ⊢; exact (by cases hc; exact fun f => ⟨rfl, rfl⟩)
  rw [if_neg h] at hc ⊢; clear h
  by_cases h : name = "Uint8".toList
  · rw [if_pos h] at hc ⊢; exact (by cases hc; exact fun f => ⟨rfl, rfl⟩)
  rw [if_neg h] at hc ⊢; clear h
  by_cases h : name = "Uint16".toList
  · rw [if_pos h] at hc ⊢; exact (by cases hc; exact fun f => ⟨rfl, rfl⟩)
  rw [if_neg h] at hc ⊢; clear h
  by_cases h : name = "Uint32".toList
  · rw [if_pos h] at hc ⊢; exact (by cases hc; exact fun f => ⟨rfl, rfl⟩)
  rw [if_neg h] at hc ⊢; clear h
  by_cases h : name = "Uint64".toList
  · rw [if_pos h] at hc ⊢; exact (by cases hc; exact fun f => ⟨rfl, rfl⟩)
  rw [if_neg h] at hc ⊢; clear h
  by_cases h : name = "Float".toList
  · rw [if_pos h] at hc ⊢; exact (by cases hc; exact fun f => ⟨rfl, rfl⟩)
  rw [if_neg h] at hc ⊢; clear h
  by_cases h : name = "Double".toList
  · rw [if_pos h] at hc ⊢; exact (by cases hc; exact fun f => ⟨rfl, rfl⟩)
  rw [if_neg h] at hc ⊢; clear h
  by_cases h : name = "String".toList
  · rw [if_pos h] at hc ⊢; exact (by simp only [Option.some.injEq] at hc; obtain ⟨i, hi, rfl⟩ := exceptMap_ok hc; exact fun f => ⟨by simp only [Instr.mapLoc, decKind, ha.text _ _ _ hi, Option.map_some], rfl⟩)
  rw [if_neg h] at hc ⊢; clear h
  by_cases h : name = "CName".toList
  · rw [if_pos h] at hc ⊢; exact (by cases hc; exact fun f => ⟨rfl, rfl⟩)
  rw [if_neg h] at hc ⊢; clear h
  by_cases h : name = "TweakDBID".toList
  · rw [if_pos h] at hc ⊢; exact (by cases hc; exact fun f => ⟨rfl, rfl⟩)
  rw [if_neg h] at hc ⊢; clear h
  by_cases h : name = "ResRef".toList
  · rw [if_pos h] at hc ⊢; exact (by cases hc; exact fun f => ⟨rfl, rfl⟩)
  rw [if_neg h] at hc ⊢; clear h
  cases hc

theorem zeroValue_init {name : Text} {v : Expr SourceAst} (h : zeroValue D name = some v) :
    env.primInit name ≠ none := by
  unfold zeroValue at h
  unfold AsmEnv.primInit
  by_cases h' : name = "Bool".toList
  · rw [if_pos h']; simp
  rw [if_neg h'] at h ⊢; clear h'
  by_cases h' : name = "Int8".toList
  · rw [if_pos h']; simp
  rw [if_neg h'] at h ⊢; clear h'
  by_cases h' : name = "Int16".toList
  · rw [if_pos h']; simp
  rw [if_neg h'] at h ⊢; clear h'
  by_cases h' : name = "Int32".toList
  · rw [if_pos h']; simp
  rw [if_neg h'] at h ⊢; clear h'
  by_cases h' : name = "Int64".toList
  · rw [if_pos h']; simp
  rw [if_neg h'] at h ⊢; clear h'
  by_cases h' : name = "Uint8".toList
  · rw [if_pos h']; simp
  rw [if_neg h'] at h ⊢; clear h'
  by_cases h' : name = "Uint16".toList
  · rw [if_pos h']; simp
  rw [if_neg h'] at h ⊢; clear h'
  by_cases h' : name = "Uint32".toList
  · rw [if_pos h']; simp
  rw [if_neg h'] at h ⊢; clear h'
  by_cases h' : name = "Uint64".toList
  · rw [if_pos h']; simp
  rw [if_neg h'] at h ⊢; clear h'
  by_cases h' : name = "Float".toList
  · rw [if_pos h']; simp
  rw [if_neg h'] at h ⊢; clear h'
  by_cases h' : name = "Double".toList
  · rw [if_pos h']; simp
  rw [if_neg h'] at h ⊢; clear h'
  by_cases h' : name = "String".toList
  · rw [if_pos h']; simp
  rw [if_neg h'] at h ⊢; clear h'
  by_cases h' : name = "CName".toList
  · rw [if_pos h']; simp
  rw [if_neg h'] at h ⊢; clear h'
  by_cases h' : name = "TweakDBID".toList
  · rw [if_pos h']; simp
  rw [if_neg h'] at h ⊢; clear h'
  by_cases h' : name = "ResRef".toList
  · rw [if_pos h']; simp
  rw [if_neg h'] at h ⊢; clear h'
  cases h

theorem reads_assignInit {c : Instr Nat} {l : Idx} {k k' : Nat} {r : Option (Expr SourceAst)} {n : Text} {v : Expr SourceAst}
    (hd : ∀ f : Nat → Offset, decKind D (c.mapLoc f) = .leaf r ∧ c.isTarget = false) (hr : r = some v)
    (hn : D.defName l = some n) (hc : ListAt out k [.Assign, .Local l, c] k') :
    ReadsE D bs none out k k' (.Assign (.Ident n) v) := by
  rw [ListAt.cons rfl, ListAt.cons rfl, ListAt.cons (hd fun _ => 0).2, ListAt.nil] at hc
  obtain ⟨⟨f, h1⟩, ⟨g, h2⟩, ⟨h, h3⟩, rfl⟩ := hc
  refine reads_node (n := 2) h1 rfl (reads_n_succ (reads_leaf h2 rfl ?_) (reads_n_succ (reads_leaf h3 (hd h).1 hr) reads_n_zero)) rfl
  rw [hn]; rfl

theorem reads_initializer (ha : DecAgrees env D) {l : Idx} {t : TypeId} {k k' : Nat} {code : List (Instr Nat)}
    {x : Expr SourceAst} (h : env.initializer l t = .ok code) (hx : readDeclare D env l (some t) = some x)
    (hc : ListAt out k code k') : ReadsE D bs none out k k' x := by
  cases t <;> simp only [AsmEnv.initializer] at h <;> simp only [readDeclare] at hx
  case Prim i =>
    obtain ⟨n, hn, hx⟩ := bind_some_iff' hx
    obtain ⟨v, hv, rfl⟩ := map_some_iff' hx
    simp only [initialValue] at hv
    split at h
    · cases h
    · rename_i name hname
      rw [hname] at hv
      simp only at hv
      split at h
      · rename_i c hp
        cases h
        exact reads_assignInit (primInit_dec ha hp) hv hn hc
      · cases h
      · rename_i hp
        exact absurd hp (zeroValue_init hv)
  case Struct s =>
    obtain ⟨n, hn, hx⟩ := bind_some_iff' hx
    obtain ⟨v, hv, rfl⟩ := map_some_iff' hx
    simp only [initialValue] at hv
    cases h
    rw [ListAt.cons rfl, ListAt.cons rfl, ListAt.cons rfl, ListAt.nil] at hc
    obtain ⟨⟨f, h1⟩, ⟨g, h2⟩, ⟨h, h3⟩, rfl⟩ := hc
    refine reads_node (n := 2) h1 rfl (reads_n_succ (reads_leaf h2 rfl ?_) (reads_n_succ (reads_node (n := 0) h3 rfl reads_n_zero hv) reads_n_zero)) rfl
    rw [hn]; rfl
  case Enum i =>
    obtain ⟨n, hn, hx⟩ := bind_some_iff' hx
    obtain ⟨v, hv, rfl⟩ := map_some_iff' hx
    simp only [initialValue] at hv
    split at h
    · cases h
    · rename_i m hm
      rw [hm] at hv
      cases h
      exact reads_assignInit (fun f => ⟨rfl, rfl⟩) hv hn hc
    · rename_i hm
      rw [hm] at hv
      cases hv
  case Ref _ =>
    obtain ⟨n, hn, hx⟩ := bind_some_iff' hx
    obtain ⟨v, hv, rfl⟩ := map_some_iff' hx
    simp only [initialValue] at hv
    cases h
    exact reads_assignInit (fun f => ⟨rfl, rfl⟩) hv hn hc
  case WeakRef _ =>
    obtain ⟨n, hn, hx⟩ := bind_some_iff' hx
    obtain ⟨v, hv, rfl⟩ := map_some_iff' hx
    simp only [initialValue] at hv
    cases h
    exact reads_assignInit (fun f => ⟨rfl, rfl⟩) hv hn hc
  case Array t =>
    obtain ⟨n, hn, rfl⟩ := map_some_iff' hx
    split at h
    · cases h
    · cases h
      rw [ListAt.cons rfl, ListAt.cons rfl, ListAt.nil] at hc
      obtain ⟨⟨f, h1⟩, ⟨g, h2⟩, rfl⟩ := hc
      refine reads_node (n := 1) h1 rfl (reads_n_succ (reads_leaf h2 rfl ?_) reads_n_zero) rfl
      rw [hn]; rfl
  all_goals
    obtain ⟨n, hn, hx⟩ := bind_some_iff' hx
    obtain ⟨v, hv, rfl⟩ := map_some_iff' hx
    simp only [initialValue] at hv
    cases hv

/-! ### Where statements stand -/

/-- What is known about the surroundings of the code from `k` to `k'`. `x` is the label `break` jumps to,
`brk` whether there is a `break` of the surrounding statement, `inn` whether there is one that is not at
the end. -/
def TailOk (out : List (Instr Offset)) (ρ : Nat → Location) (x : Option Nat) (blk : Option BlockContext) (w : TailPos)
    (k k' : Nat) (brk inn : Bool) : Prop :=
  match blk with
  | none => (w = .inner ∧ brk = false) ∨ (w = .last ∧ inn = false ∧ ∀ l, x = some l → ρ l = posAt out k')
  | some (.loop pro epi) =>
    w = .inner ∧ (∀ l, x = some l → ρ l = epi) ∧ pro.toNat < (posAt out k).toNat ∧ (posAt out k').toNat < epi.toNat
  | some (.switch epi) =>
    (∀ l, x = some l → ρ l = epi) ∧
      ((w = .inner ∧ (posAt out k').toNat < epi.toNat) ∨ (w = .known ∧ posAt out k' = epi))

variable {x : Option Nat} {blk : Option BlockContext} {w : TailPos} {k k' a b : Nat} {brk brk' inn inn' : Bool}

theorem TailOk.within (h : TailOk out ρ x blk w k k' brk inn) (ok : CodeOk out) (hk' : k' ≤ out.length) (ha : k ≤ a)
    (hb : b < k' ∨ (w = .inner ∧ b ≤ k')) (h1 : brk' = true → brk = true) (h2 : w = .last → brk' = false) :
    TailOk out ρ x blk .inner a b brk' inn' := by
  have pa := ok.pos_le (out := out) ha
  unfold TailOk at h ⊢
  split at h
  · refine .inl ⟨rfl, ?_⟩
    rcases h with ⟨_, h⟩ | ⟨h, _⟩
    · cases hb' : brk' with
      | false => rfl
      | true => rw [h1 hb'] at h; cases h
    · exact h2 h
  · obtain ⟨rfl, h3, h4, h5⟩ := h
    have : b ≤ k' := by omega
    have := ok.pos_le (out := out) this
    exact ⟨rfl, h3, by omega, by omega⟩
  · refine ⟨h.1, .inl ⟨rfl, ?_⟩⟩
    rcases h.2 with ⟨_, h5⟩ | ⟨rfl, h5⟩
    · have : b ≤ k' := by omega
      have := ok.pos_le (out := out) this
      omega
    · have : b < k' := by rcases hb with hb | ⟨hb, _⟩; exact hb; cases hb
      have := ok.pos_lt this hk'
      rw [← h5]; exact this

theorem TailOk.tail (h : TailOk out ρ x blk w k k' brk inn) (ok : CodeOk out) (ha : k ≤ a)
    (h1 : brk' = true → brk = true) (h2 : inn' = true → inn = true) : TailOk out ρ x blk w a k' brk' inn' := by
  have pa := ok.pos_le (out := out) ha
  unfold TailOk at h ⊢
  split at h
  · rcases h with ⟨h, h'⟩ | ⟨h, h', h''⟩
    · refine .inl ⟨h, ?_⟩
      cases hb' : brk' with
      | false => rfl
      | true => rw [h1 hb'] at h'; cases h'
    · refine .inr ⟨h, ?_, h''⟩
      cases hb' : inn' with
      | false => rfl
      | true => rw [h2 hb'] at h'; cases h'
  · obtain ⟨rfl, h3, h4, h5⟩ := h
    exact ⟨rfl, h3, by omega, h5⟩
  · exact h

theorem TailOk.notInner (h : TailOk out ρ x blk w k k' brk inn) (hw : w = .last) : inn = false := by
  subst hw
  unfold TailOk at h
  split at h
  · rcases h with ⟨h, _⟩ | ⟨_, h, _⟩
    · cases h
    · exact h
  · cases h.1
  · rcases h.2 with ⟨h, _⟩ | ⟨h, _⟩ <;> cases h

/-- A `break` leads behind the code. -/
theorem TailOk.exit (h : TailOk out ρ x blk w k k' brk inn) (hb : brk = true) {l : Nat} (hx : x = some l) :
    (posAt out k').toNat ≤ (ρ l).toNat := by
  unfold TailOk at h
  split at h
  · rcases h with ⟨_, h⟩ | ⟨_, _, h⟩
    · rw [h] at hb; cases hb
    · rw [h l hx]; exact Nat.le_refl _
  · rw [h.2.1 l hx]; exact Nat.le_of_lt h.2.2.2
  · rw [h.1 l hx]
    rcases h.2 with ⟨_, h⟩ | ⟨_, h⟩
    · exact Nat.le_of_lt h
    · rw [h]; exact Nat.le_refl _

/-- A jump to the end of the code is shown as `break` at the end of a switch whose end is known. -/
theorem TailOk.jumpEnd (h : TailOk out ρ x blk w k k' brk inn) (ok : CodeOk out) (hkk : k ≤ k') (here : Location) :
    jumpRead blk here (posAt out k') = if w = .known then .Break else .Goto (posAt out k') := by
  unfold TailOk at h
  have pk := ok.pos_le (out := out) hkk
  split at h
  · rcases h with ⟨rfl, _⟩ | ⟨rfl, _⟩ <;> rfl
  · rename_i pro epi
    obtain ⟨rfl, _, h4, h5⟩ := h
    have n1 : posAt out k' ≠ epi := by intro h; rw [h] at h5; omega
    have n2 : posAt out k' ≠ pro := by intro h; rw [h] at pk; omega
    simp [jumpRead, n1, n2]
  · rename_i epi
    rcases h.2 with ⟨rfl, h5⟩ | ⟨rfl, h5⟩
    · have n1 : posAt out k' ≠ epi := by intro h; rw [h] at h5; omega
      simp [jumpRead, n1]
    · simp [jumpRead, h5]

/-! ### Jumps back -/

theorem jumps_back (ok : CodeOk out) {t : Nat} {code : List (Instr Nat)} (hc : PlacedAt out ρ k code t) (ht : t ≤ out.length)
    {l : Nat} (hl : .Jump l ∈ code) (he : ρ l = posAt out k) : JumpsBack bs out k t true := by
  intro j
  obtain ⟨items, h1, h2⟩ := range_cursor ok bs j hc.le ht
  refine ⟨items, h1, ?_⟩
  rw [jumpsTo_iff, hc.jumps h2]
  exact ⟨l, hl, he⟩

theorem jumps_on (ok : CodeOk out) {t : Nat} {code : List (Instr Nat)} (hc : PlacedAt out ρ k code t) (ht : t ≤ out.length)
    (hl : ∀ l, .Jump l ∈ code → (posAt out k).toNat < (ρ l).toNat) : JumpsBack bs out k t false := by
  intro j
  obtain ⟨items, h1, h2⟩ := range_cursor ok bs j hc.le ht
  refine ⟨items, h1, ?_⟩
  cases hj : jumpsTo (posAt out k) items with
  | false => rfl
  | true =>
    rw [jumpsTo_iff, hc.jumps h2] at hj
    obtain ⟨l, h3, h4⟩ := hj
    have := hl l h3
    rw [h4] at this; omega

/-- Jumps in the code of statements lead on. -/
theorem seq_on (ok : CodeOk out) {es : List TypedExpr} {n n' : Nat} {code : List (Instr Nat)}
    (hs : Expr.areStatements es = true) (h : asmSeq env x es n = .ok (code, n')) {j t p : Nat}
    (hc : PlacedAt out ρ j code t) (ht : t ≤ out.length) (hp : p < j)
    (hx : Expr.anyStrayBreak es = true → ∀ l, x = some l → (posAt out p).toNat < (ρ l).toNat) :
    ∀ l, .Jump l ∈ code → (posAt out p).toNat < (ρ l).toNat := by
  intro l hl
  rcases (seq_jumps env es x n n' code hs h).stay l hl with h' | ⟨h1, h2⟩
  · obtain ⟨m, h1, h2, h3⟩ := hc.label h'
    rw [h3]
    exact ok.pos_lt (by omega) (by omega)
  · exact hx h1 l h2

theorem jumpFree_mem {code : List (Instr Nat)} (h : jumpFree code = true) {l : Nat} : .Jump l ∉ code := by
  intro hl
  have := (JumpsOk.free (x := none) h).stay l hl
  simp only [jumpFree, List.all_eq_true] at h
  have := h _ hl
  simp [Instr.isJump] at this

end

end Redscript
