import Verif.Vm.StmtProps

/-!
# The meaning of bodies is deterministic
-/

namespace Redscript

section
variable {V S A : Type} {env : AsmEnv} {zero : Literal → Text} {I : Interp V S A}

theorem Loop.unique {ev : S → Res A (V × S)} {B : S → Ending V S A → Prop}
    (hB : ∀ s o o', B s o → B s o' → o = o') {s : S} {o o' : Ending V S A} (h : Loop I ev B s o)
    (h' : Loop I ev B s o') : o = o' := by
  induction h with
  | abort h =>
    cases h' with
    | abort h2 => rw [h] at h2; cases h2; rfl
    | done h2 _ => rw [h] at h2; cases h2
    | next h2 _ _ _ => rw [h] at h2; cases h2
    | leave h2 _ _ _ => rw [h] at h2; cases h2
  | done h ht =>
    cases h' with
    | abort h2 => rw [h] at h2; cases h2
    | done h2 _ => rw [h] at h2; cases h2; rfl
    | next h2 ht2 _ _ => rw [h] at h2; cases h2; rw [ht] at ht2; cases ht2
    | leave h2 ht2 _ _ => rw [h] at h2; cases h2; rw [ht] at ht2; cases ht2
  | next h ht hb _ ih =>
    cases h' with
    | abort h2 => rw [h] at h2; cases h2
    | done h2 ht2 => rw [h] at h2; cases h2; rw [ht] at ht2; cases ht2
    | next h2 ht2 hb2 hl =>
      rw [h] at h2; cases h2
      have := hB _ _ _ hb hb2
      cases this
      exact ih hl
    | leave h2 ht2 hb2 ho =>
      rw [h] at h2; cases h2
      exact absurd (hB _ _ _ hb hb2).symm (ho _)
  | leave h ht hb ho =>
    cases h' with
    | abort h2 => rw [h] at h2; cases h2
    | done h2 ht2 => rw [h] at h2; cases h2; rw [ht] at ht2; cases ht2
    | next h2 ht2 hb2 hl =>
      rw [h] at h2; cases h2
      exact absurd (hB _ _ _ hb hb2) (ho _)
    | leave h2 ht2 hb2 ho2 =>
      rw [h] at h2; cases h2
      rw [hB _ _ _ hb hb2]

theorem exec_expr_unique {e : TypedExpr} (he : e.isExpression = true) {s : S} {o o' : Ending V S A}
    (h : Exec env zero I e s o) (h' : Exec env zero I e s o') : o = o' := by
  rw [exec_expr_iff he] at h h'
  rcases h with ⟨v, s', h, rfl⟩ | ⟨a, h, rfl⟩ <;> rcases h' with ⟨v', s'', h', rfl⟩ | ⟨a', h', rfl⟩ <;>
    rw [h] at h' <;> cases h' <;> rfl

mutual
theorem exec_unique : ∀ (e : TypedExpr) {s : S} {o o' : Ending V S A}, Exec env zero I e s o → Exec env zero I e s o' → o = o'
  | .Declare l ty (some v), s, o, o', h, h' => by
    cases h with
    | declareInit h =>
      cases h' with
      | declareInit h' =>
        rw [exec_expr_iff rfl] at h h'
        rcases h with ⟨v, s', h, rfl⟩ | ⟨a, h, rfl⟩ <;> rcases h' with ⟨v', s'', h', rfl⟩ | ⟨a', h', rfl⟩ <;>
          rw [h] at h' <;> cases h' <;> rfl
      | expr h _ => cases h
      | exprAbort h _ => cases h
    | expr h _ => cases h
    | exprAbort h _ => cases h
  | .Declare l (some ty) none, s, o, o', h, h' => by
    rw [exec_declare_iff] at h h'
    rcases h with ⟨s', h, rfl⟩ | ⟨a, h, rfl⟩ <;> rcases h' with ⟨s'', h', rfl⟩ | ⟨a', h', rfl⟩ <;>
      rw [h] at h' <;> cases h' <;> rfl
  | .Declare l none none, s, o, o', h, h' => by
    cases h with
    | expr h _ => cases h
    | exprAbort h _ => cases h
  | .Return none, s, o, o', h, h' => by
    cases h with
    | returnNone =>
      cases h' with
      | returnNone => rfl
      | expr h _ => cases h
      | exprAbort h _ => cases h
    | expr h _ => cases h
    | exprAbort h _ => cases h
  | .Return (some e), s, o, o', h, h' => by
    cases h with
    | returnSome h =>
      cases h' with
      | returnSome h' => rw [h] at h'; cases h'; rfl
      | returnAbort h' => rw [h] at h'; cases h'
      | expr h _ => cases h
      | exprAbort h _ => cases h
    | returnAbort h =>
      cases h' with
      | returnSome h' => rw [h] at h'; cases h'
      | returnAbort h' => rw [h] at h'; cases h'; rfl
      | expr h _ => cases h
      | exprAbort h _ => cases h
    | expr h _ => cases h
    | exprAbort h _ => cases h
  | .Break, s, o, o', h, h' => by
    cases h with
    | break_ =>
      cases h' with
      | break_ => rfl
      | expr h _ => cases h
      | exprAbort h _ => cases h
    | expr h _ => cases h
    | exprAbort h _ => cases h
  | .Seq es, s, o, o', h, h' => execAll_unique es (exec_seq_iff.1 h) (exec_seq_iff.1 h')
  | .If c t none, s, o, o', h, h' => by
    rw [exec_if_iff] at h h'
    simp only [Option.getD_none, execAll_nil_iff] at h h'
    rcases h with ⟨a, h, rfl⟩ | ⟨v, s1, h, hb⟩ <;> rcases h' with ⟨a', h', rfl⟩ | ⟨v', s1', h', hb'⟩ <;>
      rw [h] at h' <;> cases h'
    · rfl
    · rcases hb with ⟨ht, hb⟩ | ⟨ht, hb⟩ <;> rcases hb' with ⟨ht', hb'⟩ | ⟨ht', hb'⟩
      · exact execAll_unique t hb hb'
      · rw [ht] at ht'; cases ht'
      · rw [ht] at ht'; cases ht'
      · rw [hb, hb']
  | .If c t (some e), s, o, o', h, h' => by
    rw [exec_if_iff] at h h'
    simp only [Option.getD_some] at h h'
    rcases h with ⟨a, h, rfl⟩ | ⟨v, s1, h, hb⟩ <;> rcases h' with ⟨a', h', rfl⟩ | ⟨v', s1', h', hb'⟩ <;>
      rw [h] at h' <;> cases h'
    · rfl
    · rcases hb with ⟨ht, hb⟩ | ⟨ht, hb⟩ <;> rcases hb' with ⟨ht', hb'⟩ | ⟨ht', hb'⟩
      · exact execAll_unique t hb hb'
      · rw [ht] at ht'; cases ht'
      · rw [ht] at ht'; cases ht'
      · exact execAll_unique e hb hb'
  | .While c b, s, o, o', h, h' =>
    Loop.unique (B := ExecAll env zero I b) (fun s o o' h h' => execAll_unique b h h') (exec_while_iff.1 h) (exec_while_iff.1 h')
  | .Switch e cs d, s, o, o', h, h' => by
    cases hty : env.typeOf e with
    | error x =>
      cases h with
      | switchAbort h =>
        cases h' with
        | switchAbort h' => rw [h] at h'; cases h'; rfl
        | switchSelectAbort h1 _ _ => rw [hty] at h1; cases h1
        | switch h1 _ _ _ => rw [hty] at h1; cases h1
        | expr h _ => cases h
        | exprAbort h _ => cases h
      | switchSelectAbort h1 _ _ => rw [hty] at h1; cases h1
      | switch h1 _ _ _ => rw [hty] at h1; cases h1
      | expr h _ => cases h
      | exprAbort h _ => cases h
    | ok ty =>
      rw [exec_switch_iff hty] at h h'
      obtain ⟨o1, h, rfl⟩ := h
      obtain ⟨o2, h', rfl⟩ := h'
      rcases h with ⟨a, h, rfl⟩ | ⟨v, s1, h, hb⟩ <;> rcases h' with ⟨a', h', rfl⟩ | ⟨v', s1', h', hb'⟩ <;>
        rw [h] at h' <;> cases h'
      · rfl
      · rcases hb with ⟨a, hb, rfl⟩ | ⟨rest, s2, hb, hr⟩ <;> rcases hb' with ⟨a', hb', rfl⟩ | ⟨rest', s2', hb', hr'⟩ <;>
          rw [hb] at hb' <;> cases hb'
        · rfl
        · have hd : ∀ {s : S} {o o' : Ending V S A}, ExecAll env zero I (d.getD []) s o →
              ExecAll env zero I (d.getD []) s o' → o = o' := by
            intro s o o' h h'
            cases d with
            | none =>
              rw [Option.getD_none, execAll_nil_iff] at h h'
              rw [h, h']
            | some d => exact execAll_unique d h h'
          rw [execAll_append_iff] at hr hr'
          have hsuf : rest <:+ cs := by
            clear hr hr' h hd
            induction cs generalizing s1 with
            | nil => simp only [selectCase] at hb; cases hb; exact List.suffix_refl _
            | cons c cs ih =>
              simp only [selectCase] at hb
              cases he : evalE env I c.1 s1 with
              | stuck => rw [he] at hb; cases hb
              | abort a => rw [he] at hb; cases hb
              | ok y =>
                rw [he] at hb
                simp only [Res.bind] at hb
                split at hb
                · cases hb; exact List.suffix_refl _
                · exact (ih _ hb).trans (List.suffix_cons _ _)
          have hu : ∀ {s : S} {o o' : Ending V S A}, ExecAll env zero I (rest.flatMap (·.2)) s o →
              ExecAll env zero I (rest.flatMap (·.2)) s o' → o = o' := fun h h' => cases_unique cs rest hsuf h h'
          rcases hr with ⟨s3, hr, hx⟩ | ⟨hr, hn⟩ <;> rcases hr' with ⟨s3', hr', hx'⟩ | ⟨hr', hn'⟩
          · have := hu hr hr'
            cases this
            rw [hd hx hx']
          · exact absurd (hu hr hr').symm (hn' _)
          · exact absurd (hu hr hr') (hn _)
          · rw [hu hr hr']
  | .Ident _, s, o, o', h, h' => exec_expr_unique rfl h h'
  | .Constant _, s, o, o', h, h' => exec_expr_unique rfl h h'
  | .Null, s, o, o', h, h' => exec_expr_unique rfl h h'
  | .This, s, o, o', h, h' => exec_expr_unique rfl h h'
  | .Super, s, o, o', h, h' => exec_expr_unique rfl h h'
  | .Cast _ _, s, o, o', h, h' => exec_expr_unique rfl h h'
  | .Assign _ _, s, o, o', h, h' => exec_expr_unique rfl h h'
  | .ArrayElem _ _, s, o, o', h, h' => exec_expr_unique rfl h h'
  | .New _ _, s, o, o', h, h' => exec_expr_unique rfl h h'
  | .Conditional _ _ _, s, o, o', h, h' => exec_expr_unique rfl h h'
  | .Member _ _, s, o, o', h, h' => exec_expr_unique rfl h h'
  | .Call _ _ _, s, o, o', h, h' => exec_expr_unique rfl h h'
  | .MethodCall _ _ _, s, o, o', h, h' => exec_expr_unique rfl h h'
  | .ArrayLit _ _, s, o, o', h, h' => by cases h <;> rename_i h _ <;> cases h
  | .InterpolatedString _ _, s, o, o', h, h' => by cases h <;> rename_i h _ <;> cases h
  | .ForIn _ _ _, s, o, o', h, h' => by cases h <;> rename_i h _ <;> cases h
  | .BinOp _ _ _, s, o, o', h, h' => by cases h <;> rename_i h _ <;> cases h
  | .UnOp _ _, s, o, o', h, h' => by cases h <;> rename_i h _ <;> cases h
  | .Goto _, s, o, o', h, h' => by cases h <;> rename_i h _ <;> cases h
  termination_by e => sizeOf e
theorem execAll_unique : ∀ (es : List TypedExpr) {s : S} {o o' : Ending V S A}, ExecAll env zero I es s o →
    ExecAll env zero I es s o' → o = o'
  | [], s, o, o', h, h' => by rw [execAll_nil_iff] at h h'; rw [h, h']
  | e :: es, s, o, o', h, h' => by
    rw [execAll_cons_iff] at h h'
    rcases h with ⟨s1, h, hr⟩ | ⟨h, hn⟩ <;> rcases h' with ⟨s1', h', hr'⟩ | ⟨h', hn'⟩
    · have := exec_unique e h h'
      cases this
      exact execAll_unique es hr hr'
    · exact absurd (exec_unique e h h').symm (hn' _)
    · exact absurd (exec_unique e h h') (hn _)
    · exact exec_unique e h h'
  termination_by es => sizeOf es
theorem cases_unique : ∀ (cs rest : List (TypedExpr × List TypedExpr)), rest <:+ cs → ∀ {s : S} {o o' : Ending V S A},
    ExecAll env zero I (rest.flatMap (·.2)) s o → ExecAll env zero I (rest.flatMap (·.2)) s o' → o = o'
  | [], rest, hs, s, o, o', h, h' => by
    have : rest = [] := by simpa using hs
    subst this
    rw [List.flatMap_nil, execAll_nil_iff] at h h'
    rw [h, h']
  | (m, b) :: cs, rest, hs, s, o, o', h, h' => by
    rcases List.suffix_cons_iff.1 hs with rfl | hs
    · rw [List.flatMap_cons, execAll_append_iff] at h h'
      rcases h with ⟨s1, h, hr⟩ | ⟨h, hn⟩ <;> rcases h' with ⟨s1', h', hr'⟩ | ⟨h', hn'⟩
      · have := execAll_unique b h h'
        cases this
        exact cases_unique cs cs (List.suffix_refl _) hr hr'
      · exact absurd (execAll_unique b h h').symm (hn' _)
      · exact absurd (execAll_unique b h h') (hn _)
      · exact execAll_unique b h h'
    · exact cases_unique cs rest hs h h'
  termination_by cs => sizeOf cs
end

end

end Redscript
