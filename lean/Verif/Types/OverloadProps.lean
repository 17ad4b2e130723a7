import Verif.Types.ConvProps
import Verif.Util.List

/-!
# C23: overload resolution
-/

namespace Redscript

/-- The candidate accepts that many arguments: at least one for every parameter that is not optional, at
most one per parameter. -/
def Candidate.AcceptsCount (c : Candidate) (n : Nat) : Prop :=
  (c.params.countP fun p => p.2 = false) ≤ n ∧ n ≤ c.params.length

/-- The candidate is applicable to arguments of the given types: the count fits, every argument
converts implicitly to the type of its parameter, and a cast function used where a type is wanted
returns something that converts to it. -/
structure Applicable (h : Hierarchy) (wanted : Option TypeId) (ts : List TypeId) (c : Candidate) : Prop where
  count : c.AcceptsCount ts.length
  args : ∀ (i : Nat) (a : TypeId) (p : TypeId × Bool), ts[i]? = some a → c.params[i]? = some p →
    ∃ k, Converts h a p.1 k
  result : c.cast = true → ∀ w, wanted = some w → ∃ r k, c.ret = some r ∧ Converts h r w k

theorem Candidate.validateCall_iff (c : Candidate) (n : Nat) : c.validateCall n = true ↔ c.AcceptsCount n := by
  have hcount : c.minParams = c.params.countP fun p => p.2 = false := by
    rw [Candidate.minParams, List.countP_eq_length_filter]
    congr 1
    apply List.filter_congr
    intro p _
    cases p.2 <;> rfl
  unfold Candidate.validateCall Candidate.AcceptsCount
  rw [hcount]
  simp [Nat.not_lt]

theorem convertArgs_some {h : Hierarchy} {as ps : List TypeId} {cs : List Conversion}
    (hc : convertArgs h as ps = some (some cs)) (hlen : as.length ≤ ps.length) :
    cs.length = as.length ∧ ∀ (i : Nat) a p k, as[i]? = some a → ps[i]? = some p → cs[i]? = some k →
      Converts h a p k := by
  induction as generalizing ps cs with
  | nil => cases ps <;> (simp [convertArgs] at hc; subst hc; simp)
  | cons a as ih =>
    cases ps with
    | nil => simp at hlen
    | cons p ps =>
      rw [convertArgs] at hc
      obtain ⟨r, hr, hc⟩ := Option.bind_eq_some_iff.1 hc
      cases r with
      | none => simp at hc
      | some k =>
        obtain ⟨x, hx, ho⟩ := Option.map_eq_some_iff.1 hc
        obtain ⟨ks, rfl, rfl⟩ := Option.map_eq_some_iff.1 ho
        have := ih hx (by simpa using hlen)
        refine ⟨by simp [this.1], ?_⟩
        intro i a' p' k' h1 h2 h3
        cases i with
        | zero =>
          simp at h1 h2 h3
          subst h1 h2 h3
          exact h.findConversion_sound _ _ _ hr
        | succ i => exact this.2 i a' p' k' (by simpa using h1) (by simpa using h2) (by simpa using h3)

theorem convertArgs_none {h : Hierarchy} {as ps : List TypeId} (hc : convertArgs h as ps = some none) :
    ∃ (i : Nat) (a p : TypeId), as[i]? = some a ∧ ps[i]? = some p ∧ ∀ k, ¬Converts h a p k := by
  induction as generalizing ps with
  | nil => cases ps <;> simp [convertArgs] at hc
  | cons a as ih =>
    cases ps with
    | nil => simp [convertArgs] at hc
    | cons p ps =>
      rw [convertArgs] at hc
      obtain ⟨r, hr, hc⟩ := Option.bind_eq_some_iff.1 hc
      cases r with
      | none =>
        refine ⟨0, a, p, rfl, rfl, fun k hk => ?_⟩
        rw [Hierarchy.findConversion_complete hk] at hr
        cases hr
      | some k =>
        obtain ⟨x, hx, ho⟩ := Option.map_eq_some_iff.1 hc
        rw [Option.map_eq_none_iff] at ho
        subst ho
        obtain ⟨i, a', p', h1, h2, h3⟩ := ih hx
        exact ⟨i + 1, a', p', by simpa using h1, by simpa using h2, h3⟩

theorem validateArgs_some {h : Hierarchy} {c : Candidate} {ts : List TypeId} {wanted : Option TypeId}
    {cs : List Conversion} (hn : c.AcceptsCount ts.length) (hv : validateArgs h c ts wanted = some (some cs)) :
    Applicable h wanted ts c ∧ cs.length = ts.length ∧
      ∀ (i : Nat) a (p : TypeId × Bool) k, ts[i]? = some a → c.params[i]? = some p → cs[i]? = some k →
        Converts h a p.1 k := by
  have key : convertArgs h ts (c.params.map (·.1)) = some (some cs) ∧
      (c.cast = true → ∀ w, wanted = some w → ∃ r k, c.ret = some r ∧ Converts h r w k) := by
    unfold validateArgs at hv
    split at hv
    · rename_i w hcast _
      split at hv
      · cases hv
      · rename_i r hr
        obtain ⟨conv, hf, hv⟩ := Option.bind_eq_some_iff.1 hv
        cases conv with
        | none => simp at hv
        | some k =>
          simp at hv
          refine ⟨hv, fun _ w' hw => ?_⟩
          cases hw
          exact ⟨r, k, hr, h.findConversion_sound _ _ _ hf⟩
    · rename_i hne
      exact ⟨hv, fun hc w hw => absurd hw (hne w hc)⟩
  have hlen : ts.length ≤ (c.params.map (·.1)).length := by simpa using hn.2
  obtain ⟨h1, h2⟩ := convertArgs_some key.1 hlen
  have h3 : ∀ (i : Nat) a (p : TypeId × Bool) k, ts[i]? = some a → c.params[i]? = some p →
      cs[i]? = some k → Converts h a p.1 k :=
    fun i a p k ha hp hk => h2 i a p.1 k ha (by simp [hp]) hk
  refine ⟨⟨hn, fun i a p ha hp => ?_, key.2⟩, h1, h3⟩
  have hi : i < cs.length := by
    rw [h1]
    exact (List.getElem?_eq_some_iff.1 ha).1
  exact ⟨cs[i], h3 i a p _ ha hp (List.getElem?_eq_getElem hi)⟩

theorem validateArgs_none {h : Hierarchy} {c : Candidate} {ts : List TypeId} {wanted : Option TypeId}
    (hv : validateArgs h c ts wanted = some none) : ¬Applicable h wanted ts c := by
  intro ha
  have hargs : convertArgs h ts (c.params.map (·.1)) = some none → False := by
    intro hc
    obtain ⟨i, a, p, h1, h2, h3⟩ := convertArgs_none hc
    rw [List.getElem?_map] at h2
    obtain ⟨p', hp', rfl⟩ := Option.map_eq_some_iff.1 h2
    obtain ⟨k, hk⟩ := ha.args i a p' h1 hp'
    exact h3 k hk
  unfold validateArgs at hv
  split at hv
  · rename_i w hcast
    split at hv
    · cases hv
    · rename_i r hr
      obtain ⟨conv, hf, hv⟩ := Option.bind_eq_some_iff.1 hv
      obtain ⟨r', k, hr', hk⟩ := ha.result hcast w rfl
      rw [hr] at hr'
      cases hr'
      rw [Hierarchy.findConversion_complete hk] at hf
      cases hf
      exact hargs (by simpa using hv)
  · exact hargs hv

theorem allMatches_spec {h : Hierarchy} {ts : List TypeId} {wanted : Option TypeId} {cs : List Candidate}
    {ms : List (Candidate × List Conversion)} (hm : allMatches h ts wanted cs = some ms) :
    match ms with
    | [] => ∀ c ∈ cs, validateArgs h c ts wanted = some none
    | (c, convs) :: _ => ∃ pre post, cs = pre ++ c :: post ∧ validateArgs h c ts wanted = some (some convs) ∧
        ∀ c' ∈ pre, validateArgs h c' ts wanted = some none := by
  induction cs generalizing ms with
  | nil => simp [allMatches] at hm; subst hm; simp
  | cons c cs ih =>
    rw [allMatches] at hm
    obtain ⟨r, hr, hm⟩ := Option.bind_eq_some_iff.1 hm
    obtain ⟨ms', hms, rfl⟩ := Option.map_eq_some_iff.1 hm
    have := ih hms
    cases r with
    | some convs => exact ⟨[], cs, rfl, hr, by simp⟩
    | none =>
      simp only
      cases ms' with
      | nil =>
        intro c' hc'
        rcases List.mem_cons.1 hc' with rfl | hc'
        · exact hr
        · exact this c' hc'
      | cons m ms' =>
        obtain ⟨c', convs⟩ := m
        obtain ⟨pre, post, he, hv, hp⟩ := this
        refine ⟨c :: pre, post, by simp [he], hv, ?_⟩
        intro x hx
        rcases List.mem_cons.1 hx with rfl | hx
        · exact hr
        · exact hp x hx

/-- Exactly one candidate accepts that many arguments. -/
def OnlyOne (cands : List Candidate) (n : Nat) (c : Candidate) : Prop :=
  ∃ pre post, cands = pre ++ c :: post ∧ c.AcceptsCount n ∧ ∀ c' ∈ pre ++ post, ¬c'.AcceptsCount n

/-- The arguments were checked to have these types: against the parameter types when only one candidate
fits the number of arguments, without expectation otherwise. -/
def ArgsChecked (cands : List Candidate) (args : List Arg) (ts : List TypeId) : Prop :=
  ts.length = args.length ∧
  ((∃ c, OnlyOne cands args.length c ∧ ∀ (i : Nat) (a : Arg) t (p : TypeId × Bool), args[i]? = some a →
      ts[i]? = some t → c.params[i]? = some p → a (some p.1) = some t) ∨
    ((¬∃ c, OnlyOne cands args.length c) ∧ ∀ (i : Nat) (a : Arg) t, args[i]? = some a → ts[i]? = some t →
      a none = some t))

theorem checkWith_spec {as : List Arg} {ps ts : List TypeId} (h : checkWith as ps = some ts)
    (hlen : as.length ≤ ps.length) : ts.length = as.length ∧
      ∀ (i : Nat) (a : Arg) t, as[i]? = some a → ts[i]? = some t → ∃ p, ps[i]? = some p ∧ a (some p) = some t := by
  induction as generalizing ps ts with
  | nil => cases ps <;> (simp [checkWith] at h; subst h; simp)
  | cons a as ih =>
    cases ps with
    | nil => simp at hlen
    | cons p ps =>
      rw [checkWith] at h
      obtain ⟨x, hx, h⟩ := Option.bind_eq_some_iff.1 h
      obtain ⟨xs, hxs, rfl⟩ := Option.map_eq_some_iff.1 h
      have := ih hxs (by simpa using hlen)
      refine ⟨by simp [this.1], ?_⟩
      intro i a' t h1 h2
      cases i with
      | zero => simp at h1 h2; subst h1 h2; exact ⟨p, rfl, hx⟩
      | succ i => simpa using this.2 i a' t (by simpa using h1) (by simpa using h2)

theorem checkPlain_spec {as : List Arg} {ts : List TypeId} (h : checkPlain as = some ts) :
    ts.length = as.length ∧
      ∀ (i : Nat) (a : Arg) t, as[i]? = some a → ts[i]? = some t → a none = some t := by
  induction as generalizing ts with
  | nil => simp [checkPlain] at h; subst h; simp
  | cons a as ih =>
    rw [checkPlain] at h
    obtain ⟨x, hx, h⟩ := Option.bind_eq_some_iff.1 h
    obtain ⟨xs, hxs, rfl⟩ := Option.map_eq_some_iff.1 h
    have := ih hxs
    refine ⟨by simp [this.1], ?_⟩
    intro i a' t h1 h2
    cases i with
    | zero => simp at h1 h2; subst h1 h2; exact hx
    | succ i => simpa using this.2 i a' t (by simpa using h1) (by simpa using h2)

theorem filter_split {f : α → Bool} {l pre post : List α} {x : α} (h : l.filter f = pre ++ x :: post) :
    ∃ l1 l2, l = l1 ++ x :: l2 ∧ l1.filter f = pre ∧ l2.filter f = post ∧ f x = true := by
  induction l generalizing pre with
  | nil => simp at h
  | cons y l ih =>
    rw [List.filter_cons] at h
    split at h
    · rename_i hy
      cases pre with
      | nil =>
        simp only [List.nil_append, List.cons.injEq] at h
        obtain ⟨rfl, rfl⟩ := h
        exact ⟨[], l, rfl, rfl, rfl, hy⟩
      | cons q pre =>
        simp only [List.cons_append, List.cons.injEq] at h
        obtain ⟨rfl, h⟩ := h
        obtain ⟨l1, l2, h1, h2, h3, h4⟩ := ih h
        exact ⟨y :: l1, l2, by simp [h1], by simp [h2, hy], h3, h4⟩
    · rename_i hy
      obtain ⟨l1, l2, h1, h2, h3, h4⟩ := ih h
      exact ⟨y :: l1, l2, by simp [h1], by simp [h2, hy], h3, h4⟩

theorem onlyOne_of_filter {cands : List Candidate} {n : Nat} {c : Candidate}
    (h : cands.filter (·.validateCall n) = [c]) :
    ∃ pre post, cands = pre ++ c :: post ∧ c.AcceptsCount n ∧ ∀ c' ∈ pre ++ post, ¬c'.AcceptsCount n := by
  obtain ⟨l1, l2, h1, h2, h3, h4⟩ := filter_split (pre := []) h
  refine ⟨l1, l2, h1, (Candidate.validateCall_iff _ _).1 h4, ?_⟩
  intro c' hc' hacc
  rw [← Candidate.validateCall_iff] at hacc
  rcases List.mem_append.1 hc' with hm | hm
  · exact (List.filter_eq_nil_iff.1 h2) c' hm hacc
  · exact (List.filter_eq_nil_iff.1 h3) c' hm hacc

theorem filter_of_onlyOne {cands : List Candidate} {n : Nat} {c : Candidate} (h : OnlyOne cands n c) :
    cands.filter (·.validateCall n) = [c] := by
  obtain ⟨pre, post, rfl, hc, hn⟩ := h
  have hp : pre.filter (·.validateCall n) = [] := by
    rw [List.filter_eq_nil_iff]
    intro x hx hv
    exact hn x (by simp [hx]) ((Candidate.validateCall_iff _ _).1 hv)
  have hq : post.filter (·.validateCall n) = [] := by
    rw [List.filter_eq_nil_iff]
    intro x hx hv
    exact hn x (by simp [hx]) ((Candidate.validateCall_iff _ _).1 hv)
  rw [List.filter_append, List.filter_cons, hp, hq, if_pos ((Candidate.validateCall_iff _ _).2 hc)]
  rfl

theorem not_applicable_of_count {h : Hierarchy} {wanted : Option TypeId} {ts : List TypeId} {c : Candidate}
    (hn : ¬c.AcceptsCount ts.length) : ¬Applicable h wanted ts c := fun ha => hn ha.count

theorem argsChecked_single {cands : List Candidate} {args : List Arg} {c : Candidate} {ts : List TypeId}
    (hf : cands.filter (·.validateCall args.length) = [c]) (hc : checkWith args (c.params.map (·.1)) = some ts) :
    ArgsChecked cands args ts := by
  have ho : OnlyOne cands args.length c := onlyOne_of_filter hf
  obtain ⟨_, _, _, hcount, _⟩ := ho
  have := checkWith_spec hc (by simpa using hcount.2)
  refine ⟨this.1, .inl ⟨c, onlyOne_of_filter hf, ?_⟩⟩
  intro i a t p h1 h2 h3
  obtain ⟨q, hq, ha⟩ := this.2 i a t h1 h2
  rw [List.getElem?_map, h3] at hq
  cases hq
  exact ha

theorem argsChecked_plain {cands : List Candidate} {args : List Arg} {ts : List TypeId}
    (hf : ∀ c, cands.filter (·.validateCall args.length) ≠ [c]) (hc : checkPlain args = some ts) :
    ArgsChecked cands args ts := by
  have := checkPlain_spec hc
  exact ⟨this.1, .inr ⟨fun ⟨c, hc⟩ => hf c (filter_of_onlyOne hc), this.2⟩⟩

/-- What a successful resolution means. -/
def Resolved (h : Hierarchy) (cands : List Candidate) (args : List Arg) (wanted : Option TypeId)
    (m : FunctionMatch) : Prop :=
  ArgsChecked cands args m.args ∧ ∃ pre c post, cands = pre ++ c :: post ∧ m.index = c.index ∧
    Applicable h wanted m.args c ∧ (∀ c' ∈ pre, ¬Applicable h wanted m.args c') ∧
    m.convs.length = m.args.length ∧
    ∀ (i : Nat) a (p : TypeId × Bool) k, m.args[i]? = some a → c.params[i]? = some p → m.convs[i]? = some k →
      Converts h a p.1 k

theorem resolveStrict_ok {h : Hierarchy} {cands : List Candidate} {args : List Arg} {wanted : Option TypeId}
    {m : FunctionMatch} (hr : resolveStrict h cands args wanted = .ok m) : Resolved h cands args wanted m := by
  unfold resolveStrict at hr
  split at hr
  · rename_i c hf
    split at hr
    · cases hr
    rename_i ts hts
    split at hr
    · cases hr
    · cases hr
    rename_i convs hv
    cases hr
    have hck := argsChecked_single hf hts
    refine ⟨hck, ?_⟩
    obtain ⟨pre, post, he, hcount, hn⟩ := onlyOne_of_filter hf
    rw [← hck.1] at hcount hn
    obtain ⟨ha, hl, hcv⟩ := validateArgs_some hcount hv
    exact ⟨pre, c, post, he, rfl, ha, fun c' hc' => not_applicable_of_count (hn c' (by simp [hc'])), hl, hcv⟩
  · rename_i hne
    split at hr
    · cases hr
    rename_i ts hts
    have hck := argsChecked_plain (cands := cands) (fun c => hne c) hts
    split at hr
    · cases hr
    · cases hr
    rename_i c convs rest hm
    cases hr
    refine ⟨hck, ?_⟩
    obtain ⟨pre, post, he, hv, hp⟩ := allMatches_spec hm
    obtain ⟨l1, l2, h1, h2, h3, h4⟩ := filter_split he
    rw [Candidate.validateCall_iff, ← hck.1] at h4
    obtain ⟨ha, hl, hcv⟩ := validateArgs_some h4 hv
    refine ⟨l1, c, l2, h1, rfl, ha, ?_, hl, hcv⟩
    intro c' hc' happ
    have hmem : c' ∈ pre := by
      rw [← h2, List.mem_filter]
      refine ⟨hc', ?_⟩
      rw [Candidate.validateCall_iff, ← hck.1]
      exact happ.count
    exact validateArgs_none (hp c' hmem) happ

theorem resolveStrict_noMatch {h : Hierarchy} {cands : List Candidate} {args : List Arg}
    {wanted : Option TypeId} (hr : resolveStrict h cands args wanted = .error .noMatch) :
    ∃ ts, ArgsChecked cands args ts ∧ ∀ c ∈ cands, ¬Applicable h wanted ts c := by
  unfold resolveStrict at hr
  split at hr
  · rename_i c hf
    split at hr
    · cases hr
    rename_i ts hts
    split at hr
    · cases hr
    · rename_i hv
      have hck := argsChecked_single hf hts
      refine ⟨ts, hck, ?_⟩
      obtain ⟨pre, post, rfl, hcount, hn⟩ := onlyOne_of_filter hf
      intro c' hc'
      by_cases hcc : c' = c
      · subst hcc; exact validateArgs_none hv
      · have : c' ∈ pre ++ post := by
          simp at hc' ⊢
          rcases hc' with h | h | h
          · exact .inl h
          · exact absurd h hcc
          · exact .inr h
        exact not_applicable_of_count (by rw [hck.1]; exact hn c' this)
    · cases hr
  · rename_i hne
    split at hr
    · cases hr
    rename_i ts hts
    have hck := argsChecked_plain (cands := cands) (fun c => hne c) hts
    split at hr
    · cases hr
    · rename_i hm
      refine ⟨ts, hck, ?_⟩
      have := allMatches_spec hm
      intro c hc happ
      refine validateArgs_none (this c ?_) happ
      rw [List.mem_filter]
      refine ⟨hc, ?_⟩
      rw [Candidate.validateCall_iff, ← hck.1]
      exact happ.count
    · cases hr

/-- C23: a resolved call (one for which no error was reported) uses a candidate that is applicable, and
no earlier candidate was. The conversions inserted are the ones the argument and parameter types call
for. -/
theorem C23_chosen_is_first_applicable (h : Hierarchy) (permissive : Bool) (cands : List Candidate)
    (args : List Arg) (wanted : Option TypeId) (m : FunctionMatch)
    (hr : resolveOverload h permissive cands args wanted = .ok (m, false)) :
    Resolved h cands args wanted m := by
  unfold resolveOverload at hr
  split at hr
  · rename_i m' hs
    cases hr
    exact resolveStrict_ok hs
  · split at hr
    · split at hr <;> simp at hr
    · cases hr

/-- C23: outside permissive mode a call never resolves with an error reported. -/
theorem C23_strict_is_silent (h : Hierarchy) (cands : List Candidate)
    (args : List Arg) (wanted : Option TypeId) (m : FunctionMatch) (reported : Bool)
    (hr : resolveOverload h false cands args wanted = .ok (m, reported)) : reported = false := by
  unfold resolveOverload at hr
  split at hr
  · cases hr; rfl
  · simp at hr

/-- C23: when resolution fails for lack of a match, or permissive mode falls back with an error
reported, no candidate was applicable. -/
theorem C23_failure_means_none_applicable (h : Hierarchy) (permissive : Bool) (cands : List Candidate)
    (args : List Arg) (wanted : Option TypeId)
    (hr : resolveOverload h permissive cands args wanted = .error .noMatch ∨
      ∃ m, resolveOverload h permissive cands args wanted = .ok (m, true)) :
    ∃ ts, ArgsChecked cands args ts ∧ ∀ c ∈ cands, ¬Applicable h wanted ts c := by
  suffices hs : resolveStrict h cands args wanted = .error .noMatch from resolveStrict_noMatch hs
  unfold resolveOverload at hr
  cases hs : resolveStrict h cands args wanted with
  | ok m => simp [hs] at hr
  | error e =>
    simp only [hs] at hr
    cases e with
    | noMatch => rfl
    | other => simp at hr

/-- Non-vacuity: `f(Prim 9)`, `f(ref 1, opt Prim 9)`, `f(ref 2)` applied to a `ref 3`; the first does
not fit by type, the other two do. -/
example : ∃ m, resolveOverload exClasses false
    [⟨100, [(.Prim 9, false)], false, none⟩, ⟨101, [(.Ref (.Class 1), false), (.Prim 9, true)], false, none⟩,
      ⟨102, [(.Ref (.Class 2), false)], false, none⟩] [fun _ => some (.Ref (.Class 3))] none = .ok (m, false) ∧
    m.index = 101 := by
  have h31 : exClasses.findConversion (.Ref (.Class 3#32)) (.Ref (.Class 1#32)) = some (some .Identity) :=
    Hierarchy.findConversion_complete (.identity (.ref (.cls
      (.step rfl (by decide) (.step rfl (by decide) (.refl _))))))
  have h32 : exClasses.findConversion (.Ref (.Class 3#32)) (.Ref (.Class 2#32)) = some (some .Identity) :=
    Hierarchy.findConversion_complete (.identity (.ref (.cls (.step rfl (by decide) (.refl _)))))
  have h39 : exClasses.findConversion (.Ref (.Class 3#32)) (.Prim 9#32) = some none := by
    rw [Hierarchy.findConversion.eq_def]; simp
  refine ⟨⟨101, [.Ref (.Class 3#32)], [.Identity]⟩, ?_, rfl⟩
  simp [resolveOverload, resolveStrict, Candidate.validateCall, Candidate.minParams, checkPlain, allMatches,
    validateArgs, convertArgs, h31, h32, h39]

end Redscript
