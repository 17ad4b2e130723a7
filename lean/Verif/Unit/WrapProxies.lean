import Verif.Unit.WrapProps

/-!
# C36: wrappers nest in the order of their declaration (proxies)
-/

namespace Redscript

/-- `b` is a copy of the definition at `a`. -/
def CopyOf (p p' : ConstantPool) (a b : Idx) : Prop := ∃ d, p.definition a = some d ∧ p'.definition b = some d

theorem cloneParams_spec : ∀ (is : List Idx) (p : ConstantPool) {params : List Idx} {p' : ConstantPool},
    cloneParams p is = some (params, p') → p'.definitions.length < 2 ^ 32 →
    KeptBut (fun _ => False) (fun _ => False) p p' ∧ p'.names = p.names ∧
    All2 (fun a b => (∃ d, p'.definition a = some d) ∧ CopyOf p' p' a b) is params ∧
    (∀ i ∈ params, p.definitions.length ≤ i.toNat) ∧ params.Pairwise (fun a b => a.toNat < b.toNat)
  | [], p, params, p', h, _ => by
    simp only [cloneParams, Option.some.injEq, Prod.mk.injEq] at h
    obtain ⟨rfl, rfl⟩ := h
    exact ⟨.refl _ _ _, rfl, .nil, by simp, .nil⟩
  | i :: is, p, params, p', h, hl => by
    unfold cloneParams at h
    cases hd : p.definition i with
    | none => rw [hd] at h; cases h
    | some d =>
      rw [hd] at h
      simp only [Option.bind_some] at h
      cases hc : cloneParams (p.addDefinition d).2 is with
      | none => rw [hc] at h; cases h
      | some r =>
        obtain ⟨ps, p''⟩ := r
        rw [hc] at h
        simp only [Option.map_some, Option.some.injEq, Prod.mk.injEq] at h
        obtain ⟨rfl, rfl⟩ := h
        obtain ⟨k1, k2, k3, k4, k5⟩ := cloneParams_spec is _ hc hl
        have hlen : p.definitions.length < 2 ^ 32 := by
          have := k1.size
          simp [ConstantPool.addDefinition] at this
          omega
        obtain ⟨a1, a2, a3, a4⟩ := add_index hlen d
        have kk := (kept_add (fun _ => False) (fun _ => False) p d).trans k1
        have plain : ∀ {p₁ p₂ : ConstantPool}, KeptBut (fun _ => False) (fun _ => False) p₁ p₂ → ∀ j e, p₁.definition j = some e → p₂.definition j = some e := by
          intro p₁ p₂ hk j e he
          obtain ⟨fs, hf, h⟩ := hk.defs j e (fun x => x) he
          cases fs with
          | nil => rw [e.addMethods_nil] at h; exact h
          | cons a _ => exact absurd (hf a (by simp)) (fun x => x)
        refine ⟨kk, by rw [k2, a4], .cons ⟨⟨d, plain kk i d hd⟩, d, plain kk i d hd, plain k1 _ d a2⟩ k3, ?_, ?_⟩
        · intro j hj
          rcases List.mem_cons.1 hj with rfl | hj
          · omega
          · have := k4 j hj; omega
        · refine .cons (fun j hj => ?_) k5
          have := k4 j hj
          omega

/-- Questions about functions and their parameters are answered the same when nothing but methods of
classes and definitions that are not parameters changes. -/
theorem fnInfo_kept {ex new : Idx → Prop} {p p' : ConstantPool} (h : KeptBut ex new p p')
    (hx : ∀ i d, ex i → p.definition i = some d → d.value.paramFlags = none) {w : Idx} {info : FnInfo} (hw : ¬ ex w)
    (hi : p.fnInfo w = .ok info) : p'.fnInfo w = .ok info := by
  unfold ConstantPool.fnInfo at hi ⊢
  cases hd : p.definition w with
  | none => rw [hd] at hi; cases hi
  | some d =>
    rw [hd] at hi
    simp only at hi
    cases hf : d.value.asFunction with
    | none => rw [hf] at hi; cases hi
    | some fn =>
      rw [hf] at hi
      simp only at hi
      have hv : d.value = .Function fn := by
        cases hv : d.value <;> rw [hv] at hf <;> simp [AnyDefinition.asFunction] at hf
        rw [hf]
      obtain ⟨fs, _, h1⟩ := h.defs w d hw hd
      rw [Definition.addMethods_function hv] at h1
      rw [h1]
      simp only [hf]
      have hp : ∀ (l : List Idx) (r : List ParameterFlags), l.mapM (p.definitionBy AnyDefinition.paramFlags) = some r →
          l.mapM (p'.definitionBy AnyDefinition.paramFlags) = some r := by
        intro l
        induction l with
        | nil => intro r hr; exact hr
        | cons i l ih =>
          intro r hr
          rw [List.mapM_cons] at hr ⊢
          cases hb : p.definitionBy AnyDefinition.paramFlags i with
          | none => rw [hb] at hr; cases hr
          | some fl =>
            cases hb' : l.mapM (p.definitionBy AnyDefinition.paramFlags) with
            | none => rw [hb, hb'] at hr; cases hr
            | some r' =>
              rw [hb, hb'] at hr
              rw [ih r' hb']
              have hb2 : p'.definitionBy AnyDefinition.paramFlags i = some fl := by
                unfold ConstantPool.definitionBy at hb ⊢
                cases hd : p.definitions[i.toNat]? with
                | none => rw [hd] at hb; cases hb
                | some di =>
                  rw [hd] at hb
                  simp only [Option.bind_some] at hb
                  have hnx : ¬ ex i := fun e => by
                    rw [hx i di e hd] at hb; cases hb
                  obtain ⟨fs, _, h2⟩ := h.defs i di hnx hd
                  have h2' : p'.definitions[i.toNat]? = some (di.addMethods fs) := h2
                  rw [h2']
                  simp only [Option.bind_some]
                  unfold Definition.addMethods
                  split
                  · next hc => rw [hc] at hb; cases hb
                  · exact hb
              rw [hb2]
              exact hr
      cases hm : fn.parameters.mapM (p.definitionBy AnyDefinition.paramFlags) with
      | none => rw [hm] at hi; cases hi
      | some r => rw [hm] at hi; rw [hp _ _ hm]; exact hi

/-- The code of a proxy depends on the pool only through the function it calls. -/
theorem proxy_code {p p' : ConstantPool} (q : AsmEnv) {w : Idx} (h : p.fnInfo w = p'.fnInfo w) (params : List Idx) (ret : Bool) :
    fromBody (p.asmEnv q) (proxyBody w params ret) = fromBody (p'.asmEnv q) (proxyBody w params ret) := by
  have hargs : ∀ (ps : List Idx) (fl : List ParameterFlags) (n : Nat),
      asmArgs (p.asmEnv q) (ps.map fun i => Expr.Ident (Reference.Value (.Parameter i))) fl n =
      asmArgs (p'.asmEnv q) (ps.map fun i => Expr.Ident (Reference.Value (.Parameter i))) fl n := by
    intro ps
    induction ps with
    | nil => intro fl n; rfl
    | cons i ps ih =>
      intro fl n
      cases fl with
      | nil => rfl
      | cons fl fls =>
        rw [List.map_cons, asmArgs, asmArgs]
        have e : ∀ k, asmArgs (p.asmEnv q) (ps.map fun i => Expr.Ident (Reference.Value (.Parameter i))) fls k =
          asmArgs (p'.asmEnv q) (ps.map fun i => Expr.Ident (Reference.Value (.Parameter i))) fls k := ih fls
        have e' : asmArgs (p.asmEnv q) (ps.map fun i => Expr.Ident (Reference.Value (.Parameter i))) fls =
          asmArgs (p'.asmEnv q) (ps.map fun i => Expr.Ident (Reference.Value (.Parameter i))) fls := funext e
        rw [e']
        rfl
  have hflags : ∀ (as : List TypedExpr) (n : Nat) (acc : BitVec 16),
      (p.asmEnv q).invokeFlags as n acc = (p'.asmEnv q).invokeFlags as n acc := by
    intro as
    induction as with
    | nil => intro n acc; rfl
    | cons a as ih => intro n acc; unfold AsmEnv.invokeFlags; rw [ih]; rfl
  have hcall : ∀ n, asm (p.asmEnv q) none (.Call (Callable.Function w) [] (params.map fun i => Expr.Ident (Reference.Value (.Parameter i)))) n =
      asm (p'.asmEnv q) none (.Call (Callable.Function w) [] (params.map fun i => Expr.Ident (Reference.Value (.Parameter i)))) n := by
    intro n
    unfold asm
    show (do
      let info ← p.fnInfo w
      let (code, n1) ← asmArgs (p.asmEnv q) _ info.params (n + 1)
      let code ← (p.asmEnv q).callCode info false n w _ code
      .ok (code, n1)) = (do
      let info ← p'.fnInfo w
      let (code, n1) ← asmArgs (p'.asmEnv q) _ info.params (n + 1)
      let code ← (p'.asmEnv q).callCode info false n w _ code
      .ok (code, n1) : AsmRes)
    rw [h]
    have : (fun info : FnInfo => (do
        let (code, n1) ← asmArgs (p.asmEnv q) (params.map fun i => Expr.Ident (Reference.Value (.Parameter i))) info.params (n + 1)
        let code ← (p.asmEnv q).callCode info false n w (params.map fun i => Expr.Ident (Reference.Value (.Parameter i))) code
        .ok (code, n1) : AsmRes)) = fun info => (do
        let (code, n1) ← asmArgs (p'.asmEnv q) (params.map fun i => Expr.Ident (Reference.Value (.Parameter i))) info.params (n + 1)
        let code ← (p'.asmEnv q).callCode info false n w (params.map fun i => Expr.Ident (Reference.Value (.Parameter i))) code
        .ok (code, n1) : AsmRes) := by
      funext info
      rw [hargs]
      have : ∀ code, (p.asmEnv q).callCode info false n w (params.map fun i => Expr.Ident (Reference.Value (.Parameter i))) code =
          (p'.asmEnv q).callCode info false n w (params.map fun i => Expr.Ident (Reference.Value (.Parameter i))) code := by
        intro code
        unfold AsmEnv.callCode AsmEnv.invokeInstr
        rw [hflags]
        rfl
      simp only [this]
    rw [this]
  have hseq : asmSeq (p.asmEnv q) none (proxyBody w params ret) 0 = asmSeq (p'.asmEnv q) none (proxyBody w params ret) 0 := by
    unfold proxyBody
    simp only
    rw [asmSeq, asmSeq]
    cases ret with
    | false =>
      simp only [Bool.false_eq_true, if_false]
      rw [hcall]
      rfl
    | true =>
      simp only [if_true]
      rw [asm, asm, hcall]
      rfl
  unfold fromBody
  rw [hseq]

/-- The definition of a proxy: everything as in the definition `d` of the function it stands for, but the
body, the parameters and the name. -/
def proxyDef (d : Definition) (fn : FunctionDef) (name : Idx) (params : List Idx) (code : List (Instr Offset)) : Definition :=
  { name, parent := d.parent, unk1 := 0, unk2 := 0, unk3 := 0,
    value := .Function { fn with code, locals := [], parameters := params } }

/-- The pool `p` has at `r` a proxy for the function defined by `d`, that calls `w`: its parameters are
copies, its code passes them on. -/
def ProxyAt (q : AsmEnv) (p : ConstantPool) (r w : Idx) (d : Definition) (fn : FunctionDef) : Prop :=
  ∃ name params code, p.definition r = some (proxyDef d fn name params code) ∧
    p.names.get Strings.cnameDefault name = some (indexName "proxy$" w) ∧
    All2 (CopyOf p p) fn.parameters params ∧ params.Nodup ∧
    fromBody (p.asmEnv q) (proxyBody w params fn.returnType.isSome) = .ok code

theorem All2.mono {R S : α → β → Prop} (h : ∀ a b, R a b → S a b) : ∀ {l : List α} {m : List β}, All2 R l m → All2 S l m
  | [], [], .nil => .nil
  | _ :: _, _ :: _, .cons a b => .cons (h _ _ a) (b.mono h)

theorem All2.mono_mem {R S : α → β → Prop} : ∀ {l : List α} {m : List β}, (∀ a ∈ l, ∀ b ∈ m, R a b → S a b) → All2 R l m → All2 S l m
  | [], [], _, .nil => .nil
  | _ :: _, _ :: _, h, .cons a b => .cons (h _ (by simp) _ (by simp) a)
      (b.mono_mem fun x hx y hy => h x (List.mem_cons_of_mem _ hx) y (List.mem_cons_of_mem _ hy))

/-- Parameters of a function are parameters. -/
def ParamsOk (p : ConstantPool) (is : List Idx) : Prop := ∀ i ∈ is, ∃ d fl, p.definition i = some d ∧ d.value.paramFlags = some fl

theorem addMethods_param {d : Definition} {fl : ParameterFlags} (h : d.value.paramFlags = some fl) (fs : List Idx) :
    d.addMethods fs = d := by
  unfold Definition.addMethods
  split
  · next hc => rw [hc] at h; cases h
  · rfl

theorem nodup_of_lt {l : List Idx} (h : l.Pairwise (fun a b => a.toNat < b.toNat)) : l.Nodup :=
  h.imp fun hab e => by rw [e] at hab; omega

/-- Building one proxy. -/
theorem constructProxy_spec {q : AsmEnv} {p p' : ConstantPool} {r f w : Idx} (h : constructProxy q p r f w = .ok p')
    (hl : p'.definitions.length < 2 ^ 32) (ht : p.names.Reachable Strings.cnameDefault)
    (hl' : p.names.strings.length + 1 < 2 ^ 32) {dr : Definition} (hr : p.definition r = some dr)
    (hrp : dr.value.paramFlags = none) (hwr : w ≠ r) :
    ∃ d fn, p.definition f = some d ∧ d.value = .Function fn ∧ KeptBut (· = r) (· = r) p p' ∧
      (ParamsOk p fn.parameters → ProxyAt q p' r w d fn) ∧
      p'.names.Reachable Strings.cnameDefault ∧ p'.names.strings.length ≤ p.names.strings.length + 1 ∧
      (d.parent ≠ 0 → ∃ dc c, p'.definition d.parent = some dc ∧ dc.value = .Class c ∧ r ∈ c.functions) ∧
      (∃ info, p'.fnInfo w = .ok info) := by
  unfold constructProxy at h
  cases hd : p.definition f with
  | none => rw [hd] at h; cases h
  | some d =>
    rw [hd] at h
    simp only at h
    cases hf : d.value.asFunction with
    | none => rw [hf] at h; cases h
    | some fn =>
      rw [hf] at h
      simp only at h
      have hv : d.value = .Function fn := by
        cases hv : d.value <;> rw [hv] at hf <;> simp [AnyDefinition.asFunction] at hf
        rw [hf]
      cases hc : cloneParams p fn.parameters with
      | none => rw [hc] at h; cases h
      | some x =>
        obtain ⟨params, p1⟩ := x
        rw [hc] at h
        simp only at h
        cases hb : fromBody (p1.asmEnv q) (proxyBody w params fn.returnType.isSome) with
        | error e => rw [hb] at h; cases h
        | ok code =>
          rw [hb] at h
          simp only at h
          cases hp : ({ p1 with names := (p1.names.add Strings.cnameDefault (indexName "proxy$" w)).2 } : ConstantPool).putDefinition r
              (proxyDef d fn (p1.names.add Strings.cnameDefault (indexName "proxy$" w)).1 params code) with
          | error e => unfold proxyDef at hp; rw [hp] at h; cases h
          | ok p2 =>
            have hp2 := (C12_put _ _ _).2 _ hp
            have hp2len : p2.definitions.length = p1.definitions.length ∧
                p2.names = (p1.names.add Strings.cnameDefault (indexName "proxy$" w)).2 := by
              unfold ConstantPool.putDefinition at hp
              split at hp
              · cases hp; simp
              · cases hp
            unfold proxyDef at hp
            rw [hp] at h
            simp only at h
            -- the last step
            have hlast : KeptBut (fun _ => False) (· = r) p2 p' ∧ p'.definitions.length = p2.definitions.length ∧ p'.names = p2.names ∧
                (d.parent ≠ 0 → ∃ dc c, p'.definition d.parent = some dc ∧ dc.value = .Class c ∧ r ∈ c.functions) := by
              split at h
              · next h0 => cases h; exact ⟨.refl _ _ _, rfl, rfl, fun hne => absurd h0 hne⟩
              · split at h
                · cases h
                · next hpush =>
                  cases h
                  obtain ⟨b1, b2, b3, _, dc, cc, b4, b5, b6⟩ := pushFunction_spec hpush (fun _ => False) (· = r) rfl
                  refine ⟨b1, b2, b3, fun _ => ⟨_, { cc with functions := cc.functions ++ [r] }, b6, ?_, by simp⟩⟩
                  unfold Definition.addMethods; rw [b5]
            obtain ⟨l1, l2, l3, l4⟩ := hlast
            have hl1 : p1.definitions.length < 2 ^ 32 := by omega
            obtain ⟨c1, c2, c3, c4, c5⟩ := cloneParams_spec _ _ hc hl1
            have hput : KeptBut (· = r) (· = r) p1 p2 := by
              refine ⟨by omega, fun i e hi he => ⟨[], by simp, ?_⟩, fun i s hs => ?_⟩
              · rw [e.addMethods_nil, hp2.2 i hi]; exact he
              · rw [hp2len.2]; exact C11_add_keeps _ _ _ _ _ hs
            have k1 : KeptBut (· = r) (· = r) p1 p' := hput.trans (l1.weaken (fun _ => False.elim) (fun _ e => e))
            have k0 : KeptBut (· = r) (· = r) p p' := (c1.weaken (fun _ => False.elim) (fun _ => False.elim)).trans k1
            have hreach : p2.names.Reachable Strings.cnameDefault := by
              rw [hp2len.2, c2]; exact .add _ ht hl'
            have hnlen : p'.names.strings.length ≤ p.names.strings.length + 1 := by
              rw [l3, hp2len.2, c2]
              unfold Strings.add
              split
              · simp
              · split <;> simp
            have hr1 : p1.definition r = some dr := by
              obtain ⟨fs, hfs, h1⟩ := c1.defs r dr (fun x => x) hr
              cases fs with
              | nil => rw [dr.addMethods_nil] at h1; exact h1
              | cons a _ => exact absurd (hfs a (by simp)) (fun x => x)
            -- what the assembler found out about the wrapper
            have hinfo : ∃ info, p1.fnInfo w = .ok info := by
              cases hi : p1.fnInfo w with
              | ok info => exact ⟨info, rfl⟩
              | error e =>
                exfalso
                have : fromBody (p1.asmEnv q) (proxyBody w params fn.returnType.isSome) = .error e := by
                  have hcall : ∀ n, asm (p1.asmEnv q) none (.Call (Callable.Function w) [] (params.map fun i => Expr.Ident (Reference.Value (.Parameter i)))) n = .error e := by
                    intro n
                    unfold asm
                    show (do
                      let info ← p1.fnInfo w
                      let (code, n1) ← asmArgs (p1.asmEnv q) _ info.params (n + 1)
                      let code ← (p1.asmEnv q).callCode info false n w _ code
                      .ok (code, n1) : AsmRes) = _
                    rw [hi]; rfl
                  unfold fromBody proxyBody
                  simp only
                  cases fn.returnType.isSome with
                  | true =>
                    rw [if_pos rfl, asmSeq, asm, hcall]; rfl
                  | false =>
                    rw [if_neg (by simp), asmSeq, hcall]; rfl
                rw [hb] at this
                cases this
            obtain ⟨info, hinfo⟩ := hinfo
            have hx : ∀ i e, i = r → p1.definition i = some e → e.value.paramFlags = none := by
              rintro i e rfl he
              rw [hr1] at he; cases he; exact hrp
            have hinfo' := fnInfo_kept k1 hx hwr hinfo
            refine ⟨d, fn, rfl, hv, k0, fun hpo => ?_, by rw [l3]; exact hreach, hnlen, l4, info, hinfo'⟩
            refine ⟨(p1.names.add Strings.cnameDefault (indexName "proxy$" w)).1, params, code, ?_, ?_, ?_, nodup_of_lt c5, ?_⟩
            · obtain ⟨fs, _, h1⟩ := l1.defs r _ (fun x => x) hp2.1
              rw [Definition.addMethods_function (f := { fn with code, locals := [], parameters := params }) rfl] at h1
              exact h1
            · rw [l3, hp2len.2]
              rw [c2]
              exact C11_add_reads_back _ _ ht hl' _
            · refine c3.mono_mem fun a ha b hb hab => ?_
              obtain ⟨_, e, e1, e2⟩ := hab
              obtain ⟨da, fl, g1, g2⟩ := hpo a ha
              have ga : p1.definition a = some da := by
                obtain ⟨fs, _, h1⟩ := c1.defs a da (fun x => x) g1
                rw [addMethods_param g2] at h1
                exact h1
              have : e = da := by rw [ga] at e1; cases e1; rfl
              subst this
              have har : a ≠ r := by rintro rfl; rw [hx a e rfl ga] at g2; cases g2
              have hbr : b ≠ r := by
                rintro rfl
                have := c4 b hb
                have := definition_lt hr
                omega
              obtain ⟨fs, _, h1⟩ := k1.defs a e har e1
              obtain ⟨fs', _, h2⟩ := k1.defs b e hbr e2
              rw [addMethods_param g2] at h1 h2
              exact ⟨e, h1, h2⟩
            · rw [← hb]
              exact proxy_code q (by rw [hinfo, hinfo']) _ _

theorem ParamsOk.kept {ex new : Idx → Prop} {p p' : ConstantPool} (h : KeptBut ex new p p')
    (hx : ∀ i d, ex i → p.definition i = some d → d.value.paramFlags = none) {is : List Idx} (hi : ParamsOk p is) :
    ParamsOk p' is := by
  intro i hm
  obtain ⟨d, fl, h1, h2⟩ := hi i hm
  obtain ⟨fs, _, h3⟩ := h.defs i d (fun e => by rw [hx i d e h1] at h2; cases h2) h1
  rw [addMethods_param h2] at h3
  exact ⟨d, fl, h3, h2⟩

theorem ProxyAt.kept {ex new : Idx → Prop} {q : AsmEnv} {p p' : ConstantPool} (h : KeptBut ex new p p')
    (hx : ∀ i d, ex i → p.definition i = some d → d.value.paramFlags = none) {r w : Idx} {d : Definition} {fn : FunctionDef}
    (hp : ProxyAt q p r w d fn) (hr : ¬ ex r) (hw : ¬ ex w) {info : FnInfo} (hi : p.fnInfo w = .ok info)
    (hpo : ParamsOk p fn.parameters) : ProxyAt q p' r w d fn := by
  obtain ⟨name, params, code, h1, h2, h3, h4, h5⟩ := hp
  refine ⟨name, params, code, ?_, h.names _ _ h2, ?_, h4, ?_⟩
  · obtain ⟨fs, _, k⟩ := h.defs r _ hr h1
    rw [Definition.addMethods_function (f := { fn with code, locals := [], parameters := params }) rfl] at k
    exact k
  · refine h3.mono_mem fun a ha b _ hab => ?_
    obtain ⟨e, e1, e2⟩ := hab
    obtain ⟨da, fl, g1, g2⟩ := hpo a ha
    obtain rfl : da = e := by rw [g1] at e1; cases e1; rfl
    have nx : ∀ i, p.definition i = some da → ¬ ex i := fun i hi e => by rw [hx i da e hi] at g2; cases g2
    obtain ⟨fs, _, k1⟩ := h.defs a da (nx a g1) g1
    obtain ⟨fs', _, k2⟩ := h.defs b da (nx b e2) e2
    rw [addMethods_param g2] at k1 k2
    exact ⟨da, k1, k2⟩
  · rw [← h5]
    exact proxy_code q (by rw [fnInfo_kept h hx hw hi, hi]) _ _

/-- A class has a method. -/
def HasMethod (p : ConstantPool) (cls f : Idx) : Prop := ∃ d c, p.definition cls = some d ∧ d.value = .Class c ∧ f ∈ c.functions

theorem HasMethod.kept {ex new : Idx → Prop} {p p' : ConstantPool} (h : KeptBut ex new p p')
    {cls f : Idx} (hx : ¬ ex cls) (hm : HasMethod p cls f) : HasMethod p' cls f := by
  obtain ⟨d, c, h1, h2, h3⟩ := hm
  obtain ⟨fs, _, h4⟩ := h.defs cls d hx h1
  refine ⟨_, { c with functions := c.functions ++ fs }, h4, ?_, List.mem_append_left _ h3⟩
  unfold Definition.addMethods; rw [h2]

/-- The slots used by a list of functions and wrappers. -/
def SlotOf (proxies : AMap Idx Idx) (ps : List (Idx × Idx)) (i : Idx) : Prop := ∃ x ∈ ps, proxies.get x.1 = some i

theorem cloneParams_size : ∀ (is : List Idx) (p : ConstantPool) {params : List Idx} {p' : ConstantPool},
    cloneParams p is = some (params, p') → p.definitions.length ≤ p'.definitions.length
  | [], p, params, p', h => by cases h; exact Nat.le_refl _
  | i :: is, p, params, p', h => by
    unfold cloneParams at h
    cases hd : p.definition i with
    | none => rw [hd] at h; cases h
    | some d =>
      rw [hd] at h
      simp only [Option.bind_some] at h
      cases hc : cloneParams (p.addDefinition d).2 is with
      | none => rw [hc] at h; cases h
      | some r =>
        rw [hc] at h
        have := cloneParams_size is _ (params := r.1) (p' := r.2) hc
        simp only [Option.map_some, Option.some.injEq, Prod.mk.injEq] at h
        simp only [ConstantPool.addDefinition, List.length_append, List.length_singleton] at this
        rw [← h.2]
        omega

theorem putDefinition_size {p p' : ConstantPool} {i : Idx} {d : Definition} (h : p.putDefinition i d = .ok p') :
    p'.definitions.length = p.definitions.length := by
  unfold ConstantPool.putDefinition at h
  split at h
  · cases h; simp
  · cases h

theorem constructProxy_size {q : AsmEnv} {p p' : ConstantPool} {r f w : Idx} (h : constructProxy q p r f w = .ok p') :
    p.definitions.length ≤ p'.definitions.length := by
  unfold constructProxy at h
  split at h
  · cases h
  · split at h
    · cases h
    · split at h
      · cases h
      · next hc =>
        have h1 := cloneParams_size _ _ hc
        split at h
        · cases h
        · simp only at h
          split at h
          · cases h
          · next hp =>
            have h2 := putDefinition_size hp
            simp only at h2
            split at h
            · cases h; omega
            · split at h
              · cases h
              · next hpush =>
                cases h
                have := (pushFunction_spec hpush (fun _ => False) (fun _ => True) trivial).2.1
                omega

theorem constructAll_size {q : AsmEnv} {proxies : AMap Idx Idx} : ∀ (ps : List (Idx × Idx)) {a b : ConstantPool},
    constructAll q proxies ps a = .ok b → a.definitions.length ≤ b.definitions.length
  | [], a, b, h => by cases h; exact Nat.le_refl _
  | (g, v) :: ps, a, b, h => by
    unfold constructAll at h
    cases hg : proxies.get g with
    | none => rw [hg] at h; cases h
    | some rr =>
      rw [hg] at h
      simp only at h
      cases hcc : constructProxy q a rr g v with
      | error e => rw [hcc] at h; cases h
      | ok c =>
        rw [hcc] at h
        exact Nat.le_trans (constructProxy_size hcc) (constructAll_size ps h)

theorem addMethods_other {d : Definition} (h : ∀ c, d.value ≠ .Class c) (fs : List Idx) : d.addMethods fs = d := by
  unfold Definition.addMethods
  split
  · next c hc => exact absurd hc (h c)
  · rfl

/-- Building all proxies, in any order. -/
theorem constructAll_spec {q : AsmEnv} {proxies : AMap Idx Idx}
    (hinj : ∀ f f' r, proxies.get f = some r → proxies.get f' = some r → f = f') :
    ∀ (ps : List (Idx × Idx)) (p : ConstantPool) {p' : ConstantPool}, constructAll q proxies ps p = .ok p' →
    p'.definitions.length < 2 ^ 32 → p.names.Reachable Strings.cnameDefault →
    p.names.strings.length + ps.length + 1 < 2 ^ 32 → (ps.map (·.1)).Nodup →
    (∀ i, SlotOf proxies ps i → ∃ d, p.definition i = some d ∧ d.value.paramFlags = none ∧ ∀ c, d.value ≠ .Class c) →
    (∀ x ∈ ps, ¬ SlotOf proxies ps x.1 ∧ ¬ SlotOf proxies ps x.2 ∧
      ∃ d fn, p.definition x.1 = some d ∧ d.value = .Function fn ∧ ParamsOk p fn.parameters) →
    KeptBut (SlotOf proxies ps) (SlotOf proxies ps) p p' ∧ p'.names.Reachable Strings.cnameDefault ∧
    ∀ x ∈ ps, ∃ r d fn, proxies.get x.1 = some r ∧ p.definition x.1 = some d ∧ d.value = .Function fn ∧
      ProxyAt q p' r x.2 d fn ∧ (d.parent ≠ 0 → HasMethod p' d.parent r) ∧ (∃ info, p'.fnInfo x.2 = .ok info)
  | [], p, p', h, _, ht, _, _, _, _ => by
    cases h
    exact ⟨.refl _ _ _, ht, by simp⟩
  | (f, w) :: ps, p, p', h, hl, ht, hl', hnd, hs, hx => by
    unfold constructAll at h
    cases hr : proxies.get f with
    | none => rw [hr] at h; cases h
    | some r =>
      rw [hr] at h
      simp only at h
      cases hc : constructProxy q p r f w with
      | error e => rw [hc] at h; cases h
      | ok p1 =>
        rw [hc] at h
        simp only at h
        rw [List.map_cons, List.nodup_cons] at hnd
        obtain ⟨hfn, hnd⟩ := hnd
        have hslotr : SlotOf proxies ((f, w) :: ps) r := ⟨(f, w), by simp, hr⟩
        have hsub : ∀ i, SlotOf proxies ps i → SlotOf proxies ((f, w) :: ps) i := fun i ⟨x, h1, h2⟩ => ⟨x, List.mem_cons_of_mem _ h1, h2⟩
        have hnr : ¬ SlotOf proxies ps r := by
          rintro ⟨x, h1, h2⟩
          exact hfn (List.mem_map.2 ⟨x, h1, hinj _ _ _ h2 hr⟩)
        obtain ⟨dr, r1, r2, r3⟩ := hs r hslotr
        obtain ⟨hxf, hxw, hxp⟩ := hx (f, w) (by simp)
        have hwr : w ≠ r := fun e => hxw (e ▸ hslotr : SlotOf proxies ((f, w) :: ps) w)
        have hsize := constructAll_size ps h
        obtain ⟨d, fn, c1, c2, c3, c4, c5, c6, c7, info, c8⟩ := constructProxy_spec hc (by omega) ht
          (by simp only [List.length_cons] at hl'; omega) r1 r2 hwr
        obtain ⟨d', fn', x1, x2, hpo⟩ := hxp
        obtain rfl : d' = d := by rw [c1] at x1; cases x1; rfl
        obtain rfl : fn' = fn := by rw [c2] at x2; cases x2; rfl
        have hxr : ∀ i e, i = r → p.definition i = some e → e.value.paramFlags = none := by
          rintro i e rfl he; rw [r1] at he; cases he; exact r2
        have hslots : ∀ i, SlotOf proxies ps i → ∃ d, p1.definition i = some d ∧ d.value.paramFlags = none ∧ ∀ c, d.value ≠ .Class c := by
          intro i hi
          obtain ⟨di, s1, s2, s3⟩ := hs i (hsub i hi)
          have hir : i ≠ r := fun e => hnr (e ▸ hi)
          obtain ⟨fs, _, s4⟩ := c3.defs i di hir s1
          rw [addMethods_other s3] at s4
          exact ⟨di, s4, s2, s3⟩
        have keep : ∀ {g e fe}, ¬ SlotOf proxies ((f, w) :: ps) g → p.definition g = some e → e.value = .Function fe →
            p1.definition g = some e := by
          intro g e fe hg he hfe
          obtain ⟨fs, _, k⟩ := c3.defs g e (fun eq => hg (eq ▸ hslotr)) he
          rw [Definition.addMethods_function hfe] at k
          exact k
        obtain ⟨i1, i2, i3⟩ := constructAll_spec hinj ps p1 h hl c5 (by simp only [List.length_cons] at hl'; omega) hnd hslots
          (by
            intro x hxm
            obtain ⟨y1, y2, e, fe, y3, y4, y5⟩ := hx x (List.mem_cons_of_mem _ hxm)
            exact ⟨fun e => y1 (hsub _ e), fun e => y2 (hsub _ e), e, fe, keep y1 y3 y4, y4, y5.kept c3 hxr⟩)
        have hx1 : ∀ i e, SlotOf proxies ps i → p1.definition i = some e → e.value.paramFlags = none := by
          intro i e hi he
          obtain ⟨di, s1, s2, _⟩ := hslots i hi
          rw [s1] at he; cases he; exact s2
        have hxw' : ¬ SlotOf proxies ps w := fun e => hxw (hsub _ e)
        refine ⟨(c3.weaken (fun i e => e ▸ hslotr) (fun i e => e ▸ hslotr)).trans (i1.weaken hsub hsub), i2, ?_⟩
        intro x hxm
        rcases List.mem_cons.1 hxm with rfl | hxm
        · refine ⟨r, d', fn', hr, c1, c2, (c4 hpo).kept i1 hx1 hnr hxw' c8 (hpo.kept c3 hxr), fun hne => ?_, info, fnInfo_kept i1 hx1 hxw' c8⟩
          have hm : HasMethod p1 d'.parent r := c7 hne
          refine hm.kept i1 fun hsl => ?_
          obtain ⟨dd, cc, m1, m2, _⟩ := hm
          obtain ⟨di, s1, _, s3⟩ := hslots _ hsl
          rw [s1] at m1; cases m1
          exact s3 cc m2
        · obtain ⟨r', e, fe, y1, y2, y3, y4, y5, y6⟩ := i3 x hxm
          obtain ⟨z1, z2, e0, fe0, z3, z4, z5⟩ := hx x (List.mem_cons_of_mem _ hxm)
          have : e0 = e := by rw [keep z1 z3 z4] at y2; cases y2; rfl
          subst this
          exact ⟨r', e0, fe, y1, z3, y3, y4, y5, y6⟩

end Redscript
