import Verif.Definition.Model
import Verif.Bytecode.Props

/-!
# C08: definitions survive a write/read cycle
-/

namespace Redscript

/-! ### Specification -/

/-- `w'` is `w` with the listed bits replaced. -/
def BitsReplaced (w w' : BitVec k) (bits : List (Nat × Bool)) : Prop :=
  ∀ n, n < k → w'.getLsbD n = match bits.lookup n with
    | some b => b
    | none => w.getLsbD n

/-- Bodies that the binary form can represent: label markers carry no label, the last instruction is
not of size 0 (only a marker, or a profiling marker with a name of just under 64 KiB, is), total size
within the `u32` prefix. -/
def BodyFits (code : List (Instr Offset)) : Prop :=
  (∀ i ∈ code, ∀ l, i = .Target l → l = 0) ∧
  (∀ i, code.getLast? = some i → i.size ≠ 0) ∧
  (code.map fun i => i.size.toNat).sum < 2 ^ 32

/-- A definition in a consistent state: what is absent from the flags is absent from the value. -/
def AnyDefinition.Consistent : AnyDefinition → Prop
  | .Function f =>
    f.source.isSome = !(f.flags.getLsbD 4) ∧
    (f.returnType = none → f.unk1 = false) ∧
    (f.flags.getLsbD 13 = false → f.cast = 0) ∧
    (f.flags.getLsbD 23 = false → f.unk2 = []) ∧
    BodyFits f.code
  | .SourceFile s => '\\' ∉ s.path.toList
  | _ => True

/-- The same definition, except that the presence flags are those of the present parts. -/
def AnyDefinition.SameButFlags : AnyDefinition → AnyDefinition → Prop
  | .Class c, .Class c' => c' = { c with flags := c'.flags } ∧
    BitsReplaced c.flags c'.flags
      [(4, !c.functions.isEmpty), (5, !c.fields.isEmpty), (8, !c.overrides.isEmpty)]
  | .Function f, .Function f' => f' = { f with flags := f'.flags } ∧
    BitsReplaced f.flags f'.flags
      [(7, f.operator.isSome), (8, f.returnType.isSome), (9, f.baseMethod.isSome),
       (10, !f.parameters.isEmpty || !f.unk2.isEmpty), (11, !f.locals.isEmpty),
       (12, !f.code.isEmpty)]
  | .Field f, .Field f' => f' = { f with flags := f'.flags } ∧
    BitsReplaced f.flags f'.flags [(5, f.hint.isSome)]
  | a, b => a = b

/-! ### Helper lemmas -/

theorem flag_setFlag (n m : Nat) (b : Bool) (w : BitVec k) (hn : n < k) :
    flag m (setFlag n b w) = if m = n then b else flag m w := by
  unfold flag setFlag
  by_cases hm : m < k
  · by_cases h : m = n <;> cases b <;>
      simp [h, hn, BitVec.getLsbD_or, BitVec.getLsbD_and, BitVec.getLsbD_not, BitVec.getLsbD_twoPow] <;>
      (try simp [hm]) <;> (try (intro; omega)) <;> omega
  · have : m ≠ n := by omega
    rw [if_neg this]
    rw [BitVec.getLsbD_of_ge _ _ (by omega), BitVec.getLsbD_of_ge _ _ (by omega)]

theorem setFlag_self (n : Nat) (w : BitVec k) (b : Bool) (hn : n < k) (h : flag n w = b) :
    setFlag n b w = w := by
  apply BitVec.eq_of_getLsbD_eq
  intro m hm
  have := flag_setFlag n m b w hn
  unfold flag at this h
  rw [this]
  split
  · subst ‹m = n›; exact h.symm
  · rfl

theorem decIf_rt {d : Dec α} {e : Enc} {a dflt : α} (b : Bool) (bs rest : Bytes)
    (h : ∀ bs rest, e = .ok bs → b = true → d (bs ++ rest) = .ok (a, rest))
    (hd : b = false → dflt = a) (he : encIf b e = .ok bs) :
    decIf b d dflt (bs ++ rest) = .ok (a, rest) := by
  cases b
  · simp [encIf] at he
    subst he
    simp [decIf, Dec.pure, hd rfl]
  · exact h bs rest he rfl

theorem decOpt_rt {d : Dec α} {e : α → Enc} (o : Option α) (b : Bool) (bs rest : Bytes)
    (h : ∀ a, RT e d a) (hb : b = o.isSome) (he : encOpt o e = .ok bs) :
    decOpt b d (bs ++ rest) = .ok (o, rest) := by
  subst hb
  cases o with
  | none =>
    simp [encOpt] at he
    subst he
    rfl
  | some a =>
    simp only [decOpt, Option.isSome_some, if_true]
    rw [Dec.bind_ok (h a bs rest he)]
    rfl

theorem decVisibility_rt (v : Visibility) (rest : Bytes) :
    decVisibility (encVisibility v ++ rest) = .ok (v, rest) := by
  cases v <;> rfl

theorem decIdxs_rt (l : List Idx) : RT encIdxs decIdxs l :=
  decVec32_rt l fun a _ bs rest h => by
    simp only [Except.ok.injEq] at h
    subst h
    exact decIdx_rt a rest

theorem decProperty_rt (p : Property) : RT encProperty decProperty p := by
  intro bs rest h
  obtain ⟨a, b, h1, h2, rfl⟩ := seq_ok.1 h
  unfold decProperty
  rw [List.append_assoc, Dec.bind_ok (decStr16_rt _ _ _ h1), Dec.bind_ok (decStr16_rt _ _ _ h2)]
  rfl

theorem decSourceReference_rt (s : SourceReference) : RT encSourceReference decSourceReference s := by
  intro bs rest h
  obtain ⟨a, b, h1, h2, rfl⟩ := seq_ok.1 h
  simp only [Except.ok.injEq] at h1 h2
  subst h1; subst h2
  unfold decSourceReference
  rw [List.append_assoc, Dec.bind_ok (decIdx_rt _ _), Dec.bind_ok (decU32_rt _ _)]
  rfl

/-- Peel the encoder `h : e₁ +++ e₂ +++ ... = .ok bs`. -/
theorem seq_ok_left {a : Bytes} {y : Enc} {bs : Bytes} (h : .ok a +++ y = .ok bs) :
    ∃ b, y = .ok b ∧ bs = a ++ b := by
  obtain ⟨a', b, h1, h2, rfl⟩ := seq_ok.1 h
  simp only [Except.ok.injEq] at h1
  subst h1
  exact ⟨b, h2, rfl⟩

theorem decType_rt (t : PoolType) : RT encType decType t := by
  intro bs rest h
  cases t <;> simp only [encType] at h
  case Prim => simp only [Except.ok.injEq] at h; subst h; rfl
  case Class => simp only [Except.ok.injEq] at h; subst h; rfl
  case StaticArray i n =>
    obtain ⟨b, g1, rfl⟩ := seq_ok_left h
    obtain ⟨c, g2, rfl⟩ := seq_ok_left g1
    simp only [Except.ok.injEq] at g2; subst g2
    unfold decType
    rw [List.append_assoc, Dec.bind_ok (decU8_rt _ _)]
    show (decIdx.bind fun i => decU32.bind fun n => .pure (PoolType.StaticArray i n)) _ = _
    rw [List.append_assoc, Dec.bind_ok (decIdx_rt _ _), Dec.bind_ok (decU32_rt _ _)]
    rfl
  all_goals
    obtain ⟨b, g3, rfl⟩ := seq_ok_left h
    simp only [Except.ok.injEq] at g3; subst g3
    unfold decType
    rw [List.append_assoc, Dec.bind_ok (decU8_rt _ _)]
    exact Dec.bind_ok (decIdx_rt _ _)

theorem decEnum_rt (e : EnumDef) : RT encEnum decEnum e := by
  intro bs rest h
  unfold encEnum at h
  obtain ⟨b, g1, rfl⟩ := seq_ok_left h
  obtain ⟨c, g2, rfl⟩ := seq_ok_left g1
  obtain ⟨d, f, h1, h2, rfl⟩ := seq_ok.1 g2
  simp only [Except.ok.injEq] at h2; subst h2
  unfold decEnum
  simp only [List.append_assoc]
  rw [Dec.bind_ok (decU8_rt _ _), Dec.bind_ok (decU8_rt _ _), Dec.bind_ok (decIdxs_rt _ _ _ h1),
    Dec.bind_ok (decBool_rt _ _)]
  rfl

theorem decLocal_rt (l : LocalDef) : RT encLocal decLocal l := by
  intro bs rest h
  unfold encLocal at h
  obtain ⟨b, g1, rfl⟩ := seq_ok_left h
  simp only [Except.ok.injEq] at g1; subst g1
  unfold decLocal
  rw [List.append_assoc, Dec.bind_ok (decIdx_rt _ _), Dec.bind_ok (decU8_rt _ _)]
  rfl

theorem decParameter_rt (l : ParameterDef) : RT encParameter decParameter l := by
  intro bs rest h
  unfold encParameter at h
  obtain ⟨b, g1, rfl⟩ := seq_ok_left h
  simp only [Except.ok.injEq] at g1; subst g1
  unfold decParameter
  rw [List.append_assoc, Dec.bind_ok (decIdx_rt _ _), Dec.bind_ok (decU8_rt _ _)]
  rfl

theorem replaceChar_inv (a b : Char) (s : String) (h : b ∉ s.toList) :
    replaceChar b a (replaceChar a b s) = s := by
  unfold replaceChar
  rw [String.toList_ofList, List.map_map]
  have : s.toList.map ((fun c => if c = b then a else c) ∘ fun c => if c = a then b else c) = s.toList := by
    conv => rhs; rw [← List.map_id s.toList]
    apply List.map_congr_left
    intro c hc
    have hcb : c ≠ b := fun h' => h (h' ▸ hc)
    by_cases hca : c = a
    · simp [hca]
    · simp [hca, hcb]
  rw [this, String.ofList_toList]

theorem decSourceFile_rt (s : SourceFileDef) (hs : '\\' ∉ s.path.toList) :
    RT encSourceFile decSourceFile s := by
  intro bs rest h
  unfold encSourceFile at h
  obtain ⟨b, g1, rfl⟩ := seq_ok_left h
  obtain ⟨c, g2, rfl⟩ := seq_ok_left g1
  unfold decSourceFile
  simp only [List.append_assoc]
  rw [Dec.bind_ok (decU32_rt _ _), Dec.bind_ok (decU64_rt _ _), Dec.bind_ok (decStr16_rt _ _ _ g2),
    replaceChar_inv _ _ _ hs]
  rfl

theorem ClassDef.encFlags_bits (c : ClassDef) (m : Nat) :
    flag m c.encFlags =
      if m = 8 then !c.overrides.isEmpty else if m = 5 then !c.fields.isEmpty
      else if m = 4 then !c.functions.isEmpty else flag m c.flags := by
  unfold encFlags
  rw [flag_setFlag _ _ _ _ (by decide), flag_setFlag _ _ _ _ (by decide),
    flag_setFlag _ _ _ _ (by decide)]
  rfl

theorem FunctionDef.encFlags_bits (f : FunctionDef) (m : Nat) :
    flag m f.encFlags =
      if m = 12 then !f.code.isEmpty else if m = 7 then f.operator.isSome
      else if m = 11 then !f.locals.isEmpty
      else if m = 10 then (!f.parameters.isEmpty || !f.unk2.isEmpty)
      else if m = 9 then f.baseMethod.isSome
      else if m = 8 then f.returnType.isSome else flag m f.flags := by
  unfold encFlags
  rw [flag_setFlag _ _ _ _ (by decide), flag_setFlag _ _ _ _ (by decide),
    flag_setFlag _ _ _ _ (by decide), flag_setFlag _ _ _ _ (by decide),
    flag_setFlag _ _ _ _ (by decide), flag_setFlag _ _ _ _ (by decide)]
  rfl

theorem decClass_rt (c : ClassDef) (bs rest : Bytes) (h : encClass c = .ok bs) :
    decClass (bs ++ rest) = .ok ({ c with flags := c.encFlags }, rest) := by
  unfold encClass at h
  obtain ⟨b1, g1, rfl⟩ := seq_ok_left h
  obtain ⟨b2, g2, rfl⟩ := seq_ok_left g1
  obtain ⟨b3, g3, rfl⟩ := seq_ok_left g2
  obtain ⟨b4, b5, h4, g4, rfl⟩ := seq_ok.1 g3
  obtain ⟨b6, b7, h6, h7, rfl⟩ := seq_ok.1 g4
  unfold decClass
  simp only [List.append_assoc]
  rw [Dec.bind_ok (decVisibility_rt _ _), Dec.bind_ok (decU16_rt _ _), Dec.bind_ok (decIdx_rt _ _)]
  rw [Dec.bind_ok (decIf_rt (a := c.functions) _ _ _ (fun _ _ he _ => decIdxs_rt _ _ _ he) ?_ h4),
    Dec.bind_ok (decIf_rt (a := c.fields) _ _ _ (fun _ _ he _ => decIdxs_rt _ _ _ he) ?_ h6),
    Dec.bind_ok (decIf_rt (a := c.overrides) _ _ _ (fun _ _ he _ => decIdxs_rt _ _ _ he) ?_ h7)]
  · rfl
  all_goals
    rw [ClassDef.encFlags_bits]
    simp [ClassFlags.hasOverridesBit, ClassFlags.hasFieldsBit, ClassFlags.hasFunctionsBit]

theorem decField_rt (f : FieldDef) (bs rest : Bytes) (h : encField f = .ok bs) :
    decField (bs ++ rest) = .ok ({ f with flags := f.encFlags }, rest) := by
  unfold encField at h
  obtain ⟨b1, g1, rfl⟩ := seq_ok_left h
  obtain ⟨b2, g2, rfl⟩ := seq_ok_left g1
  obtain ⟨b3, g3, rfl⟩ := seq_ok_left g2
  obtain ⟨b4, b5, h4, g4, rfl⟩ := seq_ok.1 g3
  obtain ⟨b6, b7, h6, h7, rfl⟩ := seq_ok.1 g4
  unfold decField
  simp only [List.append_assoc]
  rw [Dec.bind_ok (decVisibility_rt _ _), Dec.bind_ok (decIdx_rt _ _), Dec.bind_ok (decU16_rt _ _),
    Dec.bind_ok (decOpt_rt f.hint _ _ _ decStr16_rt ?_ h4),
    Dec.bind_ok (decVec32_rt _ (fun p _ => decProperty_rt p) _ _ h6),
    Dec.bind_ok (decVec32_rt _ (fun p _ => decProperty_rt p) _ _ h7)]
  · rfl
  · unfold FieldDef.encFlags
    rw [flag_setFlag _ _ _ _ (by decide)]
    simp

theorem decFunction_rt (f : FunctionDef) (hc : (AnyDefinition.Function f).Consistent)
    (bs rest : Bytes) (h : encFunction f = .ok bs) :
    decFunction (bs ++ rest) = .ok ({ f with flags := f.encFlags }, rest) := by
  obtain ⟨hsrc, hunk1, hcast, hunk2, hb1, hb2, hb3⟩ := hc
  have hbits := f.encFlags_bits
  unfold encFunction at h
  obtain ⟨b1, g1, rfl⟩ := seq_ok_left h
  obtain ⟨b2, g2, rfl⟩ := seq_ok_left g1
  obtain ⟨c1, b3, h3, g3, rfl⟩ := seq_ok.1 g2
  obtain ⟨c2, b4, h4, g4, rfl⟩ := seq_ok.1 g3
  obtain ⟨c3, b5, h5, g5, rfl⟩ := seq_ok.1 g4
  obtain ⟨c4, b6, h6, g6, rfl⟩ := seq_ok.1 g5
  obtain ⟨c5, b7, h7, g7, rfl⟩ := seq_ok.1 g6
  obtain ⟨c6, b8, h8, g8, rfl⟩ := seq_ok.1 g7
  obtain ⟨c7, b9, h9, g9, rfl⟩ := seq_ok.1 g8
  obtain ⟨c8, c9, h10, h11, rfl⟩ := seq_ok.1 g9
  unfold decFunction
  simp only [List.append_assoc]
  have hsource : ∀ rest, decOpt (!flag FunctionFlags.isNativeBit f.encFlags) decSourceReference
      (c1 ++ rest) = .ok (f.source, rest) := by
    intro rest
    have hn : (!flag FunctionFlags.isNativeBit f.encFlags) = f.source.isSome := by
      rw [hsrc, hbits]; rfl
    rw [hn] at h3 ⊢
    refine decOpt_rt f.source _ _ _ decSourceReference_rt rfl ?_
    cases hs : f.source with
    | none => rw [hs] at h3; exact h3
    | some s => rw [hs] at h3; exact h3
  have hret : ∀ rest, (decOpt (flag FunctionFlags.hasReturnValueBit f.encFlags) decIdx).bind
      (fun r => (decIf (flag FunctionFlags.hasReturnValueBit f.encFlags) decBool false).bind
        fun u => .pure (r, u)) (c2 ++ rest) = .ok ((f.returnType, f.unk1), rest) := by
    intro rest
    have hn : flag FunctionFlags.hasReturnValueBit f.encFlags = f.returnType.isSome := by
      rw [hbits]; rfl
    rw [hn]
    cases hr : f.returnType with
    | none =>
      rw [hr] at h4
      simp [encOpt] at h4
      subst h4
      rw [hunk1 hr]
      rfl
    | some t =>
      rw [hr] at h4
      simp only [encOpt] at h4
      obtain ⟨b, h4', rfl⟩ := seq_ok_left h4
      simp only [Except.ok.injEq] at h4'; subst h4'
      have e1 : decOpt (some t).isSome decIdx (encIdx t ++ (encBool f.unk1 ++ rest)) =
          .ok (some t, encBool f.unk1 ++ rest) := by
        simp only [decOpt, Option.isSome_some, if_true]
        rw [Dec.bind_ok (decIdx_rt _ _)]; rfl
      rw [List.append_assoc, Dec.bind_ok e1]
      have e2 : decIf (some t).isSome decBool false (encBool f.unk1 ++ rest) = .ok (f.unk1, rest) :=
        decBool_rt _ _
      rw [Dec.bind_ok e2]
      rfl
  rw [Dec.bind_ok (decVisibility_rt _ _), Dec.bind_ok (decU32_rt _ _), Dec.bind_ok (hsource _)]
  have hret' := hret (c3 ++ (c4 ++ (c5 ++ (c6 ++ (c7 ++ (c8 ++ (c9 ++ rest)))))))
  obtain ⟨r, m, e1, e2⟩ := Dec.bind_eq_ok.1 hret'
  obtain ⟨u, m', e3, e4⟩ := Dec.bind_eq_ok.1 e2
  simp only [Dec.pure, Except.ok.injEq, Prod.mk.injEq] at e4
  obtain ⟨⟨rfl, rfl⟩, rfl⟩ := e4
  rw [Dec.bind_ok e1, Dec.bind_ok e3]
  rw [Dec.bind_ok (decOpt_rt f.baseMethod _ _ _ (fun a bs rest h => by
      simp only [Except.ok.injEq] at h; subst h; exact decIdx_rt a rest) ?_ h5),
    Dec.bind_ok (decIf_rt (a := f.parameters) _ _ _ (fun _ _ he _ => decIdxs_rt _ _ _ he) ?_ h6),
    Dec.bind_ok (decIf_rt (a := f.locals) _ _ _ (fun _ _ he _ => decIdxs_rt _ _ _ he) ?_ h7),
    Dec.bind_ok (decOpt_rt f.operator _ _ _ (fun a bs rest h => by
      simp only [Except.ok.injEq] at h; subst h; exact decU32_rt a rest) ?_ h8),
    Dec.bind_ok (decIf_rt (a := f.cast) _ _ _ (fun bs rest h _ => by
      simp only [Except.ok.injEq] at h; subst h; exact decU8_rt _ rest) ?_ h9),
    Dec.bind_ok (decIf_rt (a := f.code) _ _ _ (fun bs rest h _ =>
      C03_code_roundtrip_marked f.code hb1 hb2 hb3 bs rest h) ?_ h10),
    Dec.bind_ok (decIf_rt (a := f.unk2) _ _ _ (fun _ _ he _ => decIdxs_rt _ _ _ he) ?_ h11)]
  · rfl
  · rw [hbits]
    intro h
    exact (hunk2 h).symm
  · rw [hbits]
    intro h
    simp [FunctionFlags.hasBodyBit] at h
    simp [h]
  · rw [hbits]
    intro h
    exact (hcast h).symm
  · rw [hbits]; rfl
  · rw [hbits]
    intro h
    simp [FunctionFlags.hasLocalsBit] at h
    simp [h]
  · rw [hbits]
    intro h
    simp [FunctionFlags.hasParametersBit] at h
    simp [h]
  · rw [hbits]; rfl

/-- What a definition reads back as: the flag word that was written. -/
def AnyDefinition.written : AnyDefinition → AnyDefinition
  | .Class c => .Class { c with flags := c.encFlags }
  | .Function f => .Function { f with flags := f.encFlags }
  | .Field f => .Field { f with flags := f.encFlags }
  | d => d

theorem decAnyDefinition_rt (d : AnyDefinition) (hc : d.Consistent) (bs rest : Bytes)
    (h : encAnyDefinition d = .ok bs) :
    decAnyDefinition d.type_ (bs ++ rest) = .ok (d.written, rest) := by
  cases d with
  | «Type» t => exact Dec.bind_ok (decType_rt t bs rest h)
  | Class c => exact Dec.bind_ok (decClass_rt c bs rest h)
  | EnumValue v =>
    simp only [encAnyDefinition, Except.ok.injEq] at h
    subst h
    simp only [decAnyDefinition, AnyDefinition.type_]
    rw [Dec.bind_ok (decU64_rt v rest)]
    rfl
  | Enum e => exact Dec.bind_ok (decEnum_rt e bs rest h)
  | Function f => exact Dec.bind_ok (decFunction_rt f hc bs rest h)
  | Parameter p => exact Dec.bind_ok (decParameter_rt p bs rest h)
  | Local l => exact Dec.bind_ok (decLocal_rt l bs rest h)
  | Field f => exact Dec.bind_ok (decField_rt f bs rest h)
  | SourceFile s => exact Dec.bind_ok (decSourceFile_rt s hc bs rest h)

theorem written_sameButFlags (d : AnyDefinition) : d.SameButFlags d.written := by
  cases d with
  | Class c =>
    refine ⟨rfl, ?_⟩
    intro n _
    show flag n c.encFlags = _
    rw [c.encFlags_bits n]
    simp only [List.lookup]
    by_cases h8 : n = 8
    · simp [h8]
    · by_cases h5 : n = 5
      · simp [h5]
      · by_cases h4 : n = 4
        · simp [h4]
        · simp [h8, h5, h4, beq_eq_false_iff_ne.2, flag]
  | Function f =>
    refine ⟨rfl, ?_⟩
    intro n _
    show flag n f.encFlags = _
    rw [f.encFlags_bits n]
    simp only [List.lookup]
    by_cases h7 : n = 7
    · simp [h7]
    by_cases h8 : n = 8
    · simp [h8]
    by_cases h9 : n = 9
    · simp [h9]
    by_cases h10 : n = 10
    · simp [h10]
    by_cases h11 : n = 11
    · simp [h11]
    by_cases h12 : n = 12
    · simp [h12]
    simp [h7, h8, h9, h10, h11, h12, beq_eq_false_iff_ne.2, flag]
  | Field f =>
    refine ⟨rfl, ?_⟩
    intro n _
    show flag n f.encFlags = _
    unfold FieldDef.encFlags
    rw [flag_setFlag _ _ _ _ (by decide)]
    simp only [List.lookup, FieldFlags.hasHintBit]
    by_cases h5 : n = 5
    · simp [h5]
    · simp [h5, beq_eq_false_iff_ne.2, flag]
  | _ => rfl

theorem eq_of_flags {w w' : BitVec k} (h : ∀ n, flag n w = flag n w') : w = w' :=
  BitVec.eq_of_getLsbD_eq fun i _ => h i

theorem written_encode (d : AnyDefinition) : encAnyDefinition d.written = encAnyDefinition d := by
  cases d with
  | Class c =>
    have : ({ c with flags := c.encFlags } : ClassDef).encFlags = c.encFlags := by
      apply eq_of_flags
      intro n
      rw [ClassDef.encFlags_bits]
      simp only [c.encFlags_bits n]
      repeat' split
      all_goals rfl
    simp only [AnyDefinition.written, encAnyDefinition, encClass, this]
  | Function f =>
    have : ({ f with flags := f.encFlags } : FunctionDef).encFlags = f.encFlags := by
      apply eq_of_flags
      intro n
      rw [FunctionDef.encFlags_bits]
      simp only [f.encFlags_bits n]
      repeat' split
      all_goals rfl
    simp only [AnyDefinition.written, encAnyDefinition, encFunction, this]
  | Field f =>
    have : ({ f with flags := f.encFlags } : FieldDef).encFlags = f.encFlags := by
      unfold FieldDef.encFlags
      apply setFlag_self _ _ _ (by decide)
      rw [flag_setFlag _ _ _ _ (by decide)]
      simp
    simp only [AnyDefinition.written, encAnyDefinition, encField, this]
  | _ => rfl

theorem written_consistent (d : AnyDefinition) (h : d.Consistent) : d.written.Consistent := by
  cases d with
  | Function f =>
    obtain ⟨h1, h2, h3, h4, h5⟩ := h
    refine ⟨?_, h2, ?_, ?_, h5⟩
    · show _ = !(flag 4 f.encFlags)
      rw [f.encFlags_bits]; exact h1
    · show flag 13 f.encFlags = false → _
      rw [f.encFlags_bits]; exact h3
    · show flag 23 f.encFlags = false → _
      rw [f.encFlags_bits]; exact h4
  | _ => exact h

theorem written_type (d : AnyDefinition) : d.written.type_ = d.type_ := by cases d <;> rfl

theorem written_idem (d : AnyDefinition) : d.written.written = d.written := by
  cases d with
  | Class c =>
    simp only [AnyDefinition.written, AnyDefinition.Class.injEq, ClassDef.mk.injEq, and_true, true_and]
    apply eq_of_flags
    intro n
    rw [ClassDef.encFlags_bits]
    simp only [c.encFlags_bits n]
    repeat' split
    all_goals rfl
  | Function f =>
    simp only [AnyDefinition.written, AnyDefinition.Function.injEq, FunctionDef.mk.injEq, and_true,
      true_and]
    apply eq_of_flags
    intro n
    rw [FunctionDef.encFlags_bits]
    simp only [f.encFlags_bits n]
    repeat' split
    all_goals rfl
  | Field f =>
    simp only [AnyDefinition.written, AnyDefinition.Field.injEq, FieldDef.mk.injEq, and_true, true_and]
    unfold FieldDef.encFlags
    apply setFlag_self _ _ _ (by decide)
    rw [flag_setFlag _ _ _ _ (by decide)]
    simp
  | _ => rfl

/-! ### The properties -/

/-- C08: a consistent definition reads back as itself, with only the presence flags recomputed, and
leaves the following bytes alone. -/
theorem C08_definition_roundtrip (d : AnyDefinition) (hc : d.Consistent) (bs rest : Bytes)
    (h : encAnyDefinition d = .ok bs) :
    ∃ d', decAnyDefinition d.type_ (bs ++ rest) = .ok (d', rest) ∧ d.SameButFlags d' :=
  ⟨d.written, decAnyDefinition_rt d hc bs rest h, written_sameButFlags d⟩

/-- C08: writing what was read reproduces the bytes, and reading those again yields the very same
definition. -/
theorem C08_second_cycle (d : AnyDefinition) (hc : d.Consistent) (bs rest : Bytes)
    (h : encAnyDefinition d = .ok bs) (d' : AnyDefinition)
    (hd : decAnyDefinition d.type_ (bs ++ rest) = .ok (d', rest)) :
    encAnyDefinition d' = .ok bs ∧ d'.type_ = d.type_ ∧ d'.Consistent ∧
      decAnyDefinition d'.type_ (bs ++ rest) = .ok (d', rest) := by
  rw [decAnyDefinition_rt d hc bs rest h] at hd
  simp only [Except.ok.injEq, Prod.mk.injEq, and_true] at hd
  subst hd
  have h' : encAnyDefinition d.written = .ok bs := by rw [written_encode]; exact h
  refine ⟨h', written_type d, written_consistent d hc, ?_⟩
  have := decAnyDefinition_rt d.written (written_consistent d hc) bs rest h'
  rw [written_idem] at this
  exact this

/-- C08: distinct written forms: two consistent definitions of one kind with equal bytes agree up to
presence flags. -/
theorem C08_injective (d e : AnyDefinition) (hd : d.Consistent) (he : e.Consistent)
    (ht : d.type_ = e.type_) (bs : Bytes) (h1 : encAnyDefinition d = .ok bs)
    (h2 : encAnyDefinition e = .ok bs) : ∃ n, d.SameButFlags n ∧ e.SameButFlags n := by
  have a := decAnyDefinition_rt d hd bs [] h1
  have b := decAnyDefinition_rt e he bs [] h2
  rw [ht, b] at a
  simp only [Except.ok.injEq, Prod.mk.injEq, and_true] at a
  exact ⟨d.written, written_sameButFlags d, a ▸ written_sameButFlags e⟩

/-- A function with a return type, a parameter and a body whose presence flags are all still unset. -/
def exampleFunction : AnyDefinition := .Function
  { visibility := .priv, flags := 0x2001, source := some ⟨8, 3⟩, returnType := some 5, unk1 := true,
    baseMethod := none, parameters := [7, 9], locals := [], operator := none, cast := 4,
    code := [.Return, .Param 7], unk2 := [] }

example : exampleFunction.Consistent ∧ ∃ bs, encAnyDefinition exampleFunction = .ok bs ∧ bs.length = 41 := by
  refine ⟨⟨by decide, by decide, by decide, by decide, ?_, ?_, by decide⟩, ?_⟩
  · simp
  · simp [Instr.size]
  · exact ⟨_, rfl, by decide⟩

/-- Outside the consistent states the cycle does not hold: the source reference of a function marked
native is dropped. -/
theorem C08_native_source_dropped :
    let f : FunctionDef :=
      { visibility := .pub, flags := 0x10, source := some ⟨8, 0⟩,
        returnType := none, unk1 := false, baseMethod := none, parameters := [], locals := [],
        operator := none, cast := 0, code := [], unk2 := [] }
    ∃ bs, encFunction f = .ok bs ∧ decFunction bs = .ok ({ f with source := none }, []) :=
  ⟨[0, 16, 0, 0, 0], by decide, by decide⟩

end Redscript
