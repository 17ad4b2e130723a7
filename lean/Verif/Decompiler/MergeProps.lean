import Verif.Decompiler.MergeModel
import Verif.Diagnostics.Props

/-!
# C46: merged declarations
-/

namespace Redscript

/-! ## Specification -/

/-- The statement without its declaration: a declaration with a value is the assignment of the value, a
bare one nothing. -/
def undeclare : Expr SourceAst → Option (Expr SourceAst)
  | .Declare _ _ none => none
  | .Declare n _ (some v) => some (.Assign (.Ident n) v)
  | e => some e

/-- The local declared by a statement, with its type. -/
def declares : Expr SourceAst → Option (Text × TypeName)
  | .Declare n (some ty) _ => some (n, ty)
  | _ => none

/-- Bodies as the decompiler reads them have no declarations. -/
def NoDeclarations (seq : List (Expr SourceAst)) : Prop := ∀ e ∈ seq, ∀ n ty v, e ≠ .Declare n ty v

/-- A statement mentions a name. -/
def Mentions (n : Text) (e : Expr SourceAst) : Prop := Occurs (.Ident n : Expr SourceAst) e

/-- None of the opening assignments is the first to set a local that it or an earlier one already
mentions. -/
def NoEarlyMention (locals : List (Text × TypeName)) (seq : List (Expr SourceAst)) : Prop :=
  ∀ before n v after, seq = before ++ .Assign (.Ident n) v :: after → n ∈ locals.map (·.1) →
    (∀ e ∈ before, ∃ l r, e = .Assign l r) → (∀ e ∈ before, ∀ r, e ≠ .Assign (.Ident n) r) →
    (∀ e ∈ before, ¬Mentions n e) ∧ ¬Mentions n v

/-! ## Helper lemmas -/

theorem removeLocal_some {n : Text} {ls ls' : List (Text × TypeName)} {ty : TypeName}
    (h : removeLocal n ls = some (ty, ls')) :
    ∃ a b, ls = a ++ (n, ty) :: b ∧ ls' = a ++ b ∧ ∀ x ∈ a, x.1 ≠ n := by
  induction ls generalizing ls' with
  | nil => simp [removeLocal] at h
  | cons x ls ih =>
    obtain ⟨m, t⟩ := x
    unfold removeLocal at h
    split at h
    · rename_i hm
      simp only [Option.some.injEq, Prod.mk.injEq] at h
      obtain ⟨rfl, rfl⟩ := h
      exact ⟨[], ls, by simp [hm], rfl, by simp⟩
    · rename_i hm
      simp only [Option.map_eq_some_iff, Prod.mk.injEq] at h
      obtain ⟨⟨t', l'⟩, hr, rfl, rfl⟩ := h
      obtain ⟨a, b, rfl, rfl, ha⟩ := ih hr
      refine ⟨(m, t) :: a, b, rfl, rfl, ?_⟩
      intro x hx
      rcases List.mem_cons.1 hx with rfl | hx
      · exact hm
      · exact ha x hx

theorem removeLocal_none {n : Text} {ls : List (Text × TypeName)} :
    removeLocal n ls = none ↔ n ∉ ls.map (·.1) := by
  induction ls with
  | nil => simp [removeLocal]
  | cons x ls ih =>
    obtain ⟨m, t⟩ := x
    unfold removeLocal
    split
    · rename_i h; simp [h]
    · rename_i h
      have : n ≠ m := fun e => h e.symm
      simp only [Option.map_eq_none_iff, ih]
      simp [this]

theorem mergeLoop_undeclare (locals : List (Text × TypeName)) (seq : List (Expr SourceAst))
    (h : NoDeclarations seq) :
    ((mergeLoop locals seq).1 ++ (mergeLoop locals seq).2.2).filterMap undeclare = seq := by
  fun_induction mergeLoop locals seq with
  | case1 locals n v es ty locals' hr r ih =>
    have := ih fun e he => h e (by simp [he])
    simp only [r, List.cons_append, List.filterMap_cons, undeclare]
    rw [this]
  | case2 locals n v es hr r ih =>
    have := ih fun e he => h e (by simp [he])
    simp only [r, List.cons_append, List.filterMap_cons, undeclare]
    rw [this]
  | case3 locals l v es hn r ih =>
    have := ih fun e he => h e (by simp [he])
    simp only [r, List.cons_append, List.filterMap_cons, undeclare]
    rw [this]
  | case4 locals es h1 h2 =>
    rw [List.nil_append]
    have : ∀ es : List (Expr SourceAst), NoDeclarations es → es.filterMap undeclare = es := by
      intro es h
      induction es with
      | nil => rfl
      | cons e es ih =>
        have he := h e (by simp)
        have : undeclare e = some e := by
          cases e with
          | Declare n ty v => exact absurd rfl (he n ty v)
          | _ => rfl
        rw [List.filterMap_cons, this, ih fun x hx => h x (by simp [hx])]
    exact this es h

theorem declares_none {e : Expr SourceAst} (h : ∀ n ty v, e ≠ .Declare n ty v) : declares e = none := by
  cases e with
  | Declare n ty v => exact absurd rfl (h n ty v)
  | _ => rfl

theorem mergeLoop_declares (locals : List (Text × TypeName)) (seq : List (Expr SourceAst))
    (h : NoDeclarations seq) :
    ((mergeLoop locals seq).2.1 ++
      ((mergeLoop locals seq).1 ++ (mergeLoop locals seq).2.2).filterMap declares).Perm locals := by
  fun_induction mergeLoop locals seq with
  | case1 locals n v es ty locals' hr r ih =>
    have := ih fun e he => h e (by simp [he])
    obtain ⟨a, b, rfl, rfl, -⟩ := removeLocal_some hr
    simp only [r, List.cons_append, List.filterMap_cons, declares]
    refine List.perm_middle.trans (.trans (.cons _ this) List.perm_middle.symm)
  | case2 locals n v es hr r ih =>
    have := ih fun e he => h e (by simp [he])
    simpa only [r, List.cons_append, List.filterMap_cons, declares] using this
  | case3 locals l v es hn r ih =>
    have := ih fun e he => h e (by simp [he])
    simpa only [r, List.cons_append, List.filterMap_cons, declares] using this
  | case4 locals es h1 h2 =>
    have : es.filterMap declares = [] := by
      rw [List.filterMap_eq_nil_iff]
      exact fun e he => declares_none (h e he)
    simp [this]

theorem nodup_remove {n : Text} {ty : TypeName} {a b : List (Text × TypeName)}
    (h : ((a ++ (n, ty) :: b).map (·.1)).Nodup) : ((a ++ b).map (·.1)).Nodup ∧ n ∉ (a ++ b).map (·.1) := by
  have : ((n, ty) :: (a ++ b)).map (·.1) |>.Nodup := (List.perm_middle.map _).nodup_iff.1 h
  simp only [List.map_cons, List.nodup_cons] at this
  exact ⟨this.2, this.1⟩

/-- A declaration in the statements comes from the first assignment to a local among the opening
assignments. -/
theorem mergeLoop_declared (locals : List (Text × TypeName)) (seq : List (Expr SourceAst))
    (h : NoDeclarations seq) (hn : (locals.map (·.1)).Nodup) (n : Text) (ty : Option TypeName)
    (init : Option (Expr SourceAst))
    (hi : Expr.Declare n ty init ∈ (mergeLoop locals seq).1 ++ (mergeLoop locals seq).2.2) :
    ∃ before v after, seq = before ++ .Assign (.Ident n) v :: after ∧
      n ∈ locals.map (·.1) ∧ (∀ e ∈ before, ∃ l r, e = .Assign l r) ∧
      (∀ e ∈ before, ∀ r, e ≠ .Assign (.Ident n) r) := by
  fun_induction mergeLoop locals seq with
  | case1 locals m v es ty' locals' hr r ih =>
    obtain ⟨a, b, rfl, rfl, -⟩ := removeLocal_some hr
    obtain ⟨hn', hm⟩ := nodup_remove hn
    rcases List.mem_cons.1 hi with hi | hi
    · injection hi with h1 h2 h3
      subst h1
      exact ⟨[], v, es, rfl, by simp, by simp, by simp⟩
    · obtain ⟨before, v', after, rfl, h2, h3, h4⟩ := ih (fun e he => h e (by simp [he])) hn' hi
      have hne : m ≠ n := fun e => hm (e ▸ h2)
      refine ⟨.Assign (.Ident m) v :: before, v', after, rfl, ?_, ?_, ?_⟩
      · simp only [List.map_append, List.mem_append, List.map_cons, List.mem_cons] at h2 ⊢
        rcases h2 with h2 | h2
        · exact .inl h2
        · exact .inr (.inr h2)
      · intro e he
        rcases List.mem_cons.1 he with rfl | he
        · exact ⟨_, _, rfl⟩
        · exact h3 e he
      · intro e he r hr'
        rcases List.mem_cons.1 he with rfl | he
        · simp at hr'; exact hne hr'.1
        · exact h4 e he r hr'
  | case2 locals m v es hr r ih =>
    rcases List.mem_cons.1 hi with hi | hi
    · cases hi
    · obtain ⟨before, v', after, rfl, h2, h3, h4⟩ := ih (fun e he => h e (by simp [he])) hn hi
      have hne : m ≠ n := fun e => removeLocal_none.1 hr (e ▸ h2)
      refine ⟨.Assign (.Ident m) v :: before, v', after, rfl, h2, ?_, ?_⟩
      · intro e he
        rcases List.mem_cons.1 he with rfl | he
        · exact ⟨_, _, rfl⟩
        · exact h3 e he
      · intro e he r hr'
        rcases List.mem_cons.1 he with rfl | he
        · simp at hr'; exact hne hr'.1
        · exact h4 e he r hr'
  | case3 locals l v es hnl r ih =>
    rcases List.mem_cons.1 hi with hi | hi
    · cases hi
    · obtain ⟨before, v', after, rfl, h2, h3, h4⟩ := ih (fun e he => h e (by simp [he])) hn hi
      refine ⟨.Assign l v :: before, v', after, rfl, h2, ?_, ?_⟩
      · intro e he
        rcases List.mem_cons.1 he with rfl | he
        · exact ⟨_, _, rfl⟩
        · exact h3 e he
      · intro e he r hr'
        rcases List.mem_cons.1 he with rfl | he
        · simp at hr'; exact hnl n hr'.1
        · exact h4 e he r hr'
  | case4 locals es h1 h2 =>
    exact absurd rfl (h _ hi n ty init)

theorem mentions_assign {n : Text} {l r : Expr SourceAst} (h : Mentions n r) : Mentions n (.Assign l r) :=
  .inside (c := r) (by simp [Expr.children]) h

theorem noEarly_tail {locals locals' : List (Text × TypeName)} {head : Expr SourceAst}
    {es : List (Expr SourceAst)} (hs : NoEarlyMention locals (head :: es)) (ha : ∃ l r, head = .Assign l r)
    (hl : ∀ n ∈ locals'.map (·.1), n ∈ locals.map (·.1) ∧ ∀ r, head ≠ .Assign (.Ident n) r) :
    NoEarlyMention locals' es := by
  intro before n v after he hn hb hb'
  subst he
  obtain ⟨h1, h2⟩ := hs (head :: before) n v after rfl (hl n hn).1
    (by
      intro e he
      rcases List.mem_cons.1 he with rfl | he
      · exact ha
      · exact hb e he)
    (by
      intro e he
      rcases List.mem_cons.1 he with rfl | he
      · exact (hl n hn).2
      · exact hb' e he)
  exact ⟨fun e he => h1 e (List.mem_cons_of_mem _ he), h2⟩

/-- The head of the opening assignments does not mention a local declared later. -/
theorem head_not_mention {locals locals' : List (Text × TypeName)} {head : Expr SourceAst}
    {es : List (Expr SourceAst)} (hs : NoEarlyMention locals (head :: es)) (ha : ∃ l r, head = .Assign l r)
    (hl : ∀ n ∈ locals'.map (·.1), n ∈ locals.map (·.1) ∧ ∀ r, head ≠ .Assign (.Ident n) r)
    (hnd : NoDeclarations es) (hn : (locals'.map (·.1)).Nodup) {n : Text} {ty : Option TypeName}
    {init : Option (Expr SourceAst)}
    (hi : Expr.Declare n ty init ∈ (mergeLoop locals' es).1 ++ (mergeLoop locals' es).2.2) :
    ¬Mentions n head := by
  obtain ⟨before, v, after, rfl, h2, h3, h4⟩ := mergeLoop_declared locals' es hnd hn n ty init hi
  obtain ⟨h5, -⟩ := hs (head :: before) n v after rfl (hl n h2).1
    (by
      intro e he
      rcases List.mem_cons.1 he with rfl | he
      · exact ha
      · exact h3 e he)
    (by
      intro e he
      rcases List.mem_cons.1 he with rfl | he
      · exact (hl n h2).2
      · exact h4 e he)
  exact h5 head (List.mem_cons_self)

theorem mergeLoop_before_use (locals : List (Text × TypeName)) (seq : List (Expr SourceAst))
    (h : NoDeclarations seq) (hn : (locals.map (·.1)).Nodup) (hs : NoEarlyMention locals seq)
    (i j : Nat) (n : Text) (ty : Option TypeName) (init : Option (Expr SourceAst)) (e : Expr SourceAst)
    (hi : ((mergeLoop locals seq).1 ++ (mergeLoop locals seq).2.2)[i]? = some (.Declare n ty init))
    (hj : ((mergeLoop locals seq).1 ++ (mergeLoop locals seq).2.2)[j]? = some e)
    (he : Mentions n e) : i < j := by
  fun_induction mergeLoop locals seq generalizing i j with
  | case1 locals m v es ty' locals' hr r ih =>
    obtain ⟨a, b, rfl, rfl, -⟩ := removeLocal_some hr
    obtain ⟨hn', hm⟩ := nodup_remove hn
    have hl : ∀ n ∈ (a ++ b).map (·.1), n ∈ (a ++ (m, ty') :: b).map (·.1) ∧
        ∀ r, Expr.Assign (.Ident m) v ≠ (.Assign (.Ident n) r : Expr SourceAst) := by
      intro n hx
      refine ⟨?_, fun r he => ?_⟩
      · simp only [List.map_append, List.mem_append, List.map_cons, List.mem_cons] at hx ⊢
        rcases hx with hx | hx
        · exact .inl hx
        · exact .inr (.inr hx)
      · simp only [Expr.Assign.injEq, Expr.Ident.injEq] at he
        exact hm (he.1 ▸ hx)
    have ha : ∃ l r, (Expr.Assign (.Ident m) v : Expr SourceAst) = .Assign l r := ⟨_, _, rfl⟩
    have hnd : NoDeclarations es := fun e he => h e (by simp [he])
    cases j with
    | zero =>
      simp only [List.cons_append, List.getElem?_cons_zero, Option.some.injEq] at hj
      subst hj
      have hv : Mentions n v := by
        cases he with
        | inside hc ho => simp [Expr.children] at hc; subst hc; exact ho
      cases i with
      | zero =>
        simp only [List.cons_append, List.getElem?_cons_zero, Option.some.injEq, Expr.Declare.injEq] at hi
        obtain ⟨rfl, -, -⟩ := hi
        exact absurd hv (hs [] m v es rfl (by simp) (by simp) (by simp)).2
      | succ i =>
        simp only [List.cons_append, List.getElem?_cons_succ] at hi
        exact absurd (mentions_assign hv)
          (head_not_mention hs ha hl hnd hn' (List.mem_of_getElem? hi))
    | succ j =>
      cases i with
      | zero => omega
      | succ i =>
        simp only [List.cons_append, List.getElem?_cons_succ] at hi hj
        have := ih hnd hn' (noEarly_tail hs ha hl) i j hi hj
        omega
  | case2 locals m v es hr r ih =>
    have hm := removeLocal_none.1 hr
    have hl : ∀ n ∈ locals.map (·.1), n ∈ locals.map (·.1) ∧
        ∀ r, Expr.Assign (.Ident m) v ≠ (.Assign (.Ident n) r : Expr SourceAst) := by
      intro n hx
      refine ⟨hx, fun r he => ?_⟩
      simp only [Expr.Assign.injEq, Expr.Ident.injEq] at he
      exact hm (he.1 ▸ hx)
    have ha : ∃ l r, (Expr.Assign (.Ident m) v : Expr SourceAst) = .Assign l r := ⟨_, _, rfl⟩
    have hnd : NoDeclarations es := fun e he => h e (by simp [he])
    cases i with
    | zero => simp at hi
    | succ i =>
      simp only [List.cons_append, List.getElem?_cons_succ] at hi
      cases j with
      | zero =>
        simp only [List.cons_append, List.getElem?_cons_zero, Option.some.injEq] at hj
        subst hj
        exact absurd he (head_not_mention hs ha hl hnd hn (List.mem_of_getElem? hi))
      | succ j =>
        simp only [List.cons_append, List.getElem?_cons_succ] at hj
        have := ih hnd hn (noEarly_tail hs ha hl) i j hi hj
        omega
  | case3 locals l v es hnl r ih =>
    have hl : ∀ n ∈ locals.map (·.1), n ∈ locals.map (·.1) ∧
        ∀ r, Expr.Assign l v ≠ (.Assign (.Ident n) r : Expr SourceAst) := by
      intro n hx
      refine ⟨hx, fun r he => ?_⟩
      simp only [Expr.Assign.injEq] at he
      exact hnl n he.1
    have ha : ∃ l' r, (Expr.Assign l v : Expr SourceAst) = .Assign l' r := ⟨_, _, rfl⟩
    have hnd : NoDeclarations es := fun e he => h e (by simp [he])
    cases i with
    | zero => simp at hi
    | succ i =>
      simp only [List.cons_append, List.getElem?_cons_succ] at hi
      cases j with
      | zero =>
        simp only [List.cons_append, List.getElem?_cons_zero, Option.some.injEq] at hj
        subst hj
        exact absurd he (head_not_mention hs ha hl hnd hn (List.mem_of_getElem? hi))
      | succ j =>
        simp only [List.cons_append, List.getElem?_cons_succ] at hj
        have := ih hnd hn (noEarly_tail hs ha hl) i j hi hj
        omega
  | case4 locals es h1 h2 =>
    exact absurd rfl (h _ (List.mem_of_getElem? (by simpa using hi)) n ty init)

theorem mergeLoop_left (locals : List (Text × TypeName)) (seq : List (Expr SourceAst)) :
    ∀ x ∈ (mergeLoop locals seq).2.1, x ∈ locals := by
  fun_induction mergeLoop locals seq with
  | case1 locals n v es ty locals' hr r ih =>
    obtain ⟨a, b, rfl, rfl, -⟩ := removeLocal_some hr
    intro x hx
    have := ih x hx
    simp only [List.mem_append, List.mem_cons] at this ⊢
    rcases this with h | h
    · exact .inl h
    · exact .inr (.inr h)
  | case2 locals n v es hr r ih => exact ih
  | case3 locals l v es hn r ih => exact ih
  | case4 locals es h1 h2 => simp

/-! ## The properties -/

/-- Dropping the bare declarations leaves nothing. -/
theorem undeclare_bare (ls : List (Text × TypeName)) :
    (ls.map fun x => Expr.Declare (N := SourceAst) x.1 (some x.2) none).filterMap undeclare = [] := by
  induction ls with
  | nil => rfl
  | cons x xs ih =>
    rw [List.map_cons, List.filterMap_cons]
    exact ih

/-- Merging changes nothing else: with the declarations taken out again (a declaration with a value
being an assignment), the statements are those of the body, in order. -/
theorem C46_statements_kept (locals : List (Text × TypeName)) (seq : List (Expr SourceAst))
    (h : NoDeclarations seq) : (mergeDeclarations locals seq).filterMap undeclare = seq := by
  unfold mergeDeclarations
  simp only [List.filterMap_append]
  rw [undeclare_bare, List.nil_append, ← List.filterMap_append]
  exact mergeLoop_undeclare locals seq h

/-- Every local is declared exactly once, with its type, and nothing else is declared. -/
theorem C46_declared_once (locals : List (Text × TypeName)) (seq : List (Expr SourceAst))
    (h : NoDeclarations seq) : ((mergeDeclarations locals seq).filterMap declares).Perm locals := by
  unfold mergeDeclarations
  have : ∀ ls : List (Text × TypeName),
      (ls.map fun x => Expr.Declare (N := SourceAst) x.1 (some x.2) none).filterMap declares = ls := by
    intro ls; induction ls <;> simp_all [declares]
  simp only [List.filterMap_append]
  rw [this, ← List.filterMap_append]
  exact mergeLoop_declares locals seq h

/-- C46, declaration before use, as far as it holds: when no local is mentioned before the opening
assignment that first sets it, every statement that mentions a declared name comes after its
declaration. Missing: bodies that read a local before they set it, see the counterexample. -/
theorem C46_declared_before_use_partial (locals : List (Text × TypeName)) (seq : List (Expr SourceAst))
    (h : NoDeclarations seq) (hn : (locals.map (·.1)).Nodup) (hs : NoEarlyMention locals seq)
    (i j : Nat) (n : Text) (ty : Option TypeName) (init : Option (Expr SourceAst)) (e : Expr SourceAst)
    (hi : (mergeDeclarations locals seq)[i]? = some (.Declare n ty init))
    (hj : (mergeDeclarations locals seq)[j]? = some e) (he : Mentions n e) : i < j := by
  have hm : mergeDeclarations locals seq = (mergeLoop locals seq).2.1.map
    (fun x => Expr.Declare (N := SourceAst) x.1 (some x.2) none) ++
      ((mergeLoop locals seq).1 ++ (mergeLoop locals seq).2.2) := rfl
  rw [hm] at hi hj
  generalize hk : (mergeLoop locals seq).2.1.map
    (fun x => Expr.Declare (N := SourceAst) x.1 (some x.2) none) = ds at hi hj
  have hbare : ∀ (k : Nat) (x : Expr SourceAst), ds[k]? = some x → ¬Mentions n x := by
    intro k x hx hm
    have := List.mem_of_getElem? hx
    rw [← hk] at this
    obtain ⟨y, -, rfl⟩ := List.mem_map.1 this
    cases hm with
    | inside hc ho => simp [Expr.children] at hc
  have hjl : ds.length ≤ j := by
    rcases Nat.lt_or_ge j ds.length with hlt | hge
    · exfalso
      have hj' : ds[j]? = some e := by rwa [List.getElem?_append_left hlt] at hj
      exact hbare j e hj' he
    · exact hge
  rcases Nat.lt_or_ge i ds.length with hlt | hge
  · omega
  · rw [List.getElem?_append_right hge] at hi
    rw [List.getElem?_append_right hjl] at hj
    have := mergeLoop_before_use locals seq h hn hs _ _ n ty init e hi hj he
    omega

/-- `y = x; x = 1` becomes `let y = x; let x = 1`, which uses `x` before its declaration. -/
theorem C46_read_before_set_counterexample :
    ∃ (locals : List (Text × TypeName)) (seq : List (Expr SourceAst)), NoDeclarations seq ∧
      (locals.map (·.1)).Nodup ∧ ∃ n ty init e,
      (mergeDeclarations locals seq)[1]? = some (.Declare n ty init) ∧
      (mergeDeclarations locals seq)[0]? = some e ∧ Mentions n e := by
  refine ⟨[("x".toList, ⟨"Int32".toList, []⟩), ("y".toList, ⟨"Int32".toList, []⟩)],
    [.Assign (.Ident "y".toList) (.Ident "x".toList), .Assign (.Ident "x".toList) (.Constant (.I32 1))], ?_, ?_,
    "x".toList, some ⟨"Int32".toList, []⟩, some (.Constant (.I32 1)),
    .Declare "y".toList (some ⟨"Int32".toList, []⟩) (some (.Ident "x".toList)), rfl, rfl, ?_⟩
  · intro e he n ty v
    simp only [List.mem_cons, List.not_mem_nil, or_false] at he
    rcases he with rfl | rfl <;> simp
  · decide
  · exact .inside (c := .Ident "x".toList) (by simp [Expr.children]) .here

/-! ## Non-vacuity -/

/-- `x = 1; y = x; f(); x = 2` with locals `x`, `y` and `z`. -/
def exMergeLocals : List (Text × TypeName) :=
  [("x".toList, ⟨"Int32".toList, []⟩), ("y".toList, ⟨"Int32".toList, []⟩), ("z".toList, ⟨"Bool".toList, []⟩)]
def exMergeBody : List (Expr SourceAst) :=
  [.Assign (.Ident "x".toList) (.Constant (.I32 1)), .Assign (.Ident "y".toList) (.Ident "x".toList),
   .Call "f".toList [] [], .Assign (.Ident "x".toList) (.Constant (.I32 2))]

example : mergeDeclarations exMergeLocals exMergeBody =
    [.Declare "z".toList (some ⟨"Bool".toList, []⟩) none,
     .Declare "x".toList (some ⟨"Int32".toList, []⟩) (some (.Constant (.I32 1))),
     .Declare "y".toList (some ⟨"Int32".toList, []⟩) (some (.Ident "x".toList)),
     .Call "f".toList [] [], .Assign (.Ident "x".toList) (.Constant (.I32 2))] := by rfl

example : NoDeclarations exMergeBody ∧ (exMergeLocals.map (·.1)).Nodup ∧
    NoEarlyMention exMergeLocals exMergeBody := by
  refine ⟨?_, by decide, ?_⟩
  · intro e he n ty v
    simp only [exMergeBody, List.mem_cons, List.not_mem_nil, or_false] at he
    rcases he with rfl | rfl | rfl | rfl <;> simp
  · intro before n v after he hn hb hb'
    rcases before with _ | ⟨b1, before⟩
    · simp only [exMergeBody, List.nil_append, List.cons.injEq, Expr.Assign.injEq] at he
      obtain ⟨⟨-, rfl⟩, -⟩ := he
      refine ⟨by simp, ?_⟩
      intro hm
      cases hm with
      | inside hc ho => simp [Expr.children] at hc
    · rcases before with _ | ⟨b2, before⟩
      · simp only [exMergeBody, List.cons_append, List.nil_append, List.cons.injEq, Expr.Assign.injEq,
          Expr.Ident.injEq] at he
        obtain ⟨rfl, ⟨rfl, rfl⟩, -⟩ := he
        refine ⟨?_, ?_⟩
        · intro e he' hm
          simp only [List.mem_singleton] at he'
          subst he'
          cases hm with
          | inside hc ho =>
            simp [Expr.children] at hc
            rcases hc with rfl | rfl
            · cases ho with
              | inside hc ho => simp [Expr.children] at hc
            · cases ho with
              | inside hc ho => simp [Expr.children] at hc
        · intro hm
          cases hm with
          | inside hc ho => simp [Expr.children] at hc
      · rcases before with _ | ⟨b3, before⟩
        · simp [exMergeBody] at he
        · simp only [exMergeBody, List.cons_append, List.cons.injEq] at he
          obtain ⟨-, -, rfl, -⟩ := he
          obtain ⟨l, r, hx⟩ := hb (.Call "f".toList [] []) (by simp)
          cases hx

end Redscript
