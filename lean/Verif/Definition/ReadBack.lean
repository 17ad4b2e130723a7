import Verif.Definition.Props
import Verif.Bytecode.ReadBack

/-!
# Definitions that were read can be written

Helper lemmas for C69.
-/

namespace Redscript

theorem Dec.Sat.any {d : Dec α} {P : α → Nat → Prop} (h : d.Sat P) : d.Sat fun _ _ => True :=
  h.imp fun _ _ _ => trivial

theorem Dec.Sat.next {d : Dec α} {f : α → Dec β} {Q : α → Prop} {P : β → Prop}
    (hd : d.Sat fun a _ => Q a) (hf : ∀ a, Q a → (f a).Sat fun b _ => P b) :
    (d.bind f).Sat fun b _ => P b :=
  hd.then fun a _ hQ => hf a hQ

theorem decVisibility_sat : decVisibility.Sat fun _ _ => True := by
  refine .fixed decU8_takes fun b => ?_
  split
  all_goals first | exact .pure trivial | exact .fail

theorem decIf_sat {d : Dec α} {dflt : α} {P : α → Prop} (b : Bool) (hd : d.Sat fun a _ => P a) :
    (decIf b d dflt).Sat fun a _ => if b = true then P a else a = dflt := by
  cases b
  · exact .pure (by simp)
  · exact hd.imp fun a _ h => by simpa using h

theorem decOpt_sat {d : Dec α} {P : α → Prop} (b : Bool) (hd : d.Sat fun a _ => P a) :
    (decOpt b d).Sat fun o _ => o.isSome = b ∧ ∀ a, o = some a → P a := by
  cases b
  · exact .pure (by simp)
  · exact hd.next fun a h => .pure ⟨rfl, fun x hx => by cases hx; exact h⟩

theorem decList_sat {d : Dec α} {P : α → Prop} (n : Nat) (hd : d.Sat fun a _ => P a) :
    (decList d n).Sat fun as _ => as.length = n ∧ ∀ a ∈ as, P a := by
  induction n with
  | zero => exact .pure (by simp)
  | succ n ih =>
    refine hd.next fun a ha => ih.next fun as has => .pure ⟨by simp [has.1], ?_⟩
    intro x hx
    rcases List.mem_cons.1 hx with rfl | hx
    · exact ha
    · exact has.2 x hx

theorem decVec32_sat {d : Dec α} {e : α → Enc} (hd : d.Sat fun a _ => ∃ w, e a = .ok w) :
    (decVec32 d).Sat fun as _ => ∃ w, encVec32 e as = .ok w := by
  refine .fixed decU32_takes fun n => (decList_sat n.toNat hd).imp fun as _ has => ?_
  obtain ⟨w, hw⟩ := encList_total has.2
  have hl : encLen32 as.length = .ok (encU32 (BitVec.ofNat 32 as.length)) := by
    rw [encLen32, if_pos (by rw [has.1]; exact n.isLt)]
  exact ⟨_, seq_ok.2 ⟨_, w, hl, hw, rfl⟩⟩

theorem decIdx_sat : decIdx.Sat fun _ _ => True := decIdx_takes.sat.any
theorem decU32_sat : decU32.Sat fun _ _ => True := decU32_takes.sat.any
theorem decBool_sat : decBool.Sat fun _ _ => True := decBool_takes.sat.any
theorem decU8_sat : decU8.Sat fun _ _ => True := decU8_takes.sat.any
theorem decU16_sat : decU16.Sat fun _ _ => True := decU16_takes.sat.any

theorem decIdxs_sat : decIdxs.Sat fun as _ => ∃ w, encIdxs as = .ok w :=
  decVec32_sat (decIdx_sat.imp fun _ _ _ => ⟨_, rfl⟩)

theorem seq_total {x y : Enc} (hx : ∃ w, x = .ok w) (hy : ∃ w, y = .ok w) : ∃ w, x +++ y = .ok w := by
  obtain ⟨a, ha⟩ := hx
  obtain ⟨b, hb⟩ := hy
  exact ⟨a ++ b, seq_ok.2 ⟨a, b, ha, hb, rfl⟩⟩

theorem ok_total (w : Bytes) : ∃ x, (.ok w : Enc) = .ok x := ⟨w, rfl⟩

theorem encIf_total {e : Enc} (b : Bool) (h : ∃ w, e = .ok w) : ∃ w, encIf b e = .ok w := by
  cases b
  · exact ⟨_, rfl⟩
  · exact h

theorem encOpt_total {e : α → Enc} (o : Option α) (h : ∀ a, o = some a → ∃ w, e a = .ok w) :
    ∃ w, encOpt o e = .ok w := by
  cases o
  · exact ⟨_, rfl⟩
  · exact h _ rfl

theorem encIdxs_nil : ∃ w, encIdxs [] = .ok w := ⟨_, rfl⟩

theorem encIdxs_if {b : Bool} {l : List Idx} (h : if b = true then ∃ w, encIdxs l = .ok w else l = []) :
    ∃ w, encIdxs l = .ok w := by
  split at h
  · exact h
  · rw [h]; exact encIdxs_nil

theorem decProperty_sat : decProperty.Sat fun p _ => ∃ w, encProperty p = .ok w :=
  (decStr16_sat.imp (Q := fun s _ => (strBytes s).length < 2 ^ 16) fun _ _ h => h.1).next fun _ ha =>
    (decStr16_sat.imp (Q := fun s _ => (strBytes s).length < 2 ^ 16) fun _ _ h => h.1).next fun _ hb =>
      .pure (seq_total (encStr16_total ha) (encStr16_total hb))

theorem decType_sat : decType.Sat fun t _ => ∃ w, encType t = .ok w := by
  refine .fixed decU8_takes fun b => ?_
  split
  all_goals
    repeat'
      first
        | exact .fail
        | exact .pure ⟨_, rfl⟩
        | refine Dec.Sat.fixed decU32_takes fun _ => ?_
        | refine Dec.Sat.fixed decIdx_takes fun _ => ?_

theorem decClass_sat : decClass.Sat fun c _ => ∃ w, encClass c = .ok w :=
  decVisibility_sat.next fun _ _ => decU16_sat.next fun _ _ => decIdx_sat.next fun _ _ =>
    (decIf_sat _ decIdxs_sat).next fun _ h1 => (decIf_sat _ decIdxs_sat).next fun _ h2 =>
      (decIf_sat _ decIdxs_sat).next fun _ h3 =>
        .pure (seq_total (ok_total _) (seq_total (ok_total _) (seq_total (ok_total _)
          (seq_total (encIf_total _ (encIdxs_if h1)) (seq_total (encIf_total _ (encIdxs_if h2))
            (encIf_total _ (encIdxs_if h3)))))))

theorem decEnum_sat : decEnum.Sat fun c _ => ∃ w, encEnum c = .ok w :=
  decU8_sat.next fun _ _ => decU8_sat.next fun _ _ => decIdxs_sat.next fun _ h =>
    decBool_sat.next fun _ _ =>
      .pure (seq_total (ok_total _) (seq_total (ok_total _) (seq_total h (ok_total _))))

theorem decField_sat : decField.Sat fun c _ => ∃ w, encField c = .ok w :=
  decVisibility_sat.next fun _ _ => decIdx_sat.next fun _ _ => decU16_sat.next fun _ _ =>
    (decOpt_sat _ (decStr16_sat.imp (Q := fun s _ => (strBytes s).length < 2 ^ 16)
      fun _ _ h => h.1)).next fun _ h1 =>
    (decVec32_sat decProperty_sat).next fun _ h2 => (decVec32_sat decProperty_sat).next fun _ h3 =>
      .pure (seq_total (ok_total _) (seq_total (ok_total _) (seq_total (ok_total _)
        (seq_total (encOpt_total _ fun a ha => encStr16_total (h1.2 a ha)) (seq_total h2 h3)))))

/-- What is known of a body read from `n` bytes. -/
def ReadableBody (code : List (Instr Offset)) (n : Nat) : Prop :=
  (∃ w, encCode code = .ok w) ∧ (2 * n < 2 ^ 32 → BodyFits code)

theorem decCode_sat : decCode.Sat ReadableBody :=
  decCode_readable.imp fun _ _ ⟨h1, h2, h3, h4⟩ => ⟨h1, fun hn => ⟨h2, h3, by omega⟩⟩

theorem decFunction_sat : decFunction.Sat fun f n =>
    (∃ w, encFunction f = .ok w) ∧ (2 * n < 2 ^ 32 → (AnyDefinition.Function f).Consistent) := by
  refine decVisibility_sat.then fun vis k1 _ => ?_
  refine decU32_sat.then fun flags k2 _ => ?_
  refine (decOpt_sat _ (P := fun _ => True) ?_).then fun source k3 hsource => ?_
  · exact decIdx_sat.next fun _ _ => decU32_sat.next fun _ _ => .pure trivial
  refine (decOpt_sat _ decIdx_sat).then fun ret k4 hret => ?_
  refine (decIf_sat _ decBool_sat).then fun unk1 k5 hunk1 => ?_
  refine (decOpt_sat _ decIdx_sat).then fun base k6 _ => ?_
  refine (decIf_sat _ decIdxs_sat).then fun params k7 hparams => ?_
  refine (decIf_sat _ decIdxs_sat).then fun locals k8 hlocals => ?_
  refine (decOpt_sat _ decU32_sat).then fun op k9 _ => ?_
  refine (decIf_sat _ decU8_sat).then fun cast k10 hcast => ?_
  have hcode : (decIf (flag FunctionFlags.hasBodyBit flags) decCode []).Sat ReadableBody := by
    cases flag FunctionFlags.hasBodyBit flags
    · exact .pure ⟨⟨_, rfl⟩, fun _ => ⟨by simp, by simp, by simp⟩⟩
    · exact decCode_sat
  refine hcode.then fun code k11 hbody => ?_
  refine (decIf_sat _ decIdxs_sat).then fun unk2 k12 hunk2 => ?_
  refine .pure ⟨?_, fun hn => ⟨?_, ?_, ?_, ?_, ?_⟩⟩
  · refine seq_total (ok_total _) (seq_total (ok_total _) (seq_total ?_ (seq_total ?_ (seq_total ?_
      (seq_total ?_ (seq_total ?_ (seq_total ?_ (seq_total ?_ (seq_total ?_ ?_)))))))))
    · exact encIf_total _ (encOpt_total _ fun _ _ => seq_total (ok_total _) (ok_total _))
    · exact encOpt_total _ fun _ _ => seq_total (ok_total _) (ok_total _)
    · exact encOpt_total _ fun _ _ => ok_total _
    · exact encIf_total _ (encIdxs_if hparams)
    · exact encIf_total _ (encIdxs_if hlocals)
    · exact encOpt_total _ fun _ _ => ok_total _
    · exact encIf_total _ (ok_total _)
    · exact encIf_total _ hbody.1
    · exact encIf_total _ (encIdxs_if hunk2)
  · exact hsource.1
  · intro hr
    simp only at hr
    subst hr
    rw [if_neg (by rw [← hret.1]; simp)] at hunk1
    exact hunk1
  · intro hf
    rw [if_neg (by simpa [flag, FunctionFlags.isCastBit] using hf)] at hcast
    exact hcast
  · intro hf
    rw [if_neg (by simpa [flag, FunctionFlags.unk4Bit] using hf)] at hunk2
    exact hunk2
  · exact hbody.2 (by omega)

theorem utf8_length_replace (a b : Char) (h : a.utf8Size = b.utf8Size) (cs : List Char) :
    (strBytes (String.ofList (cs.map fun c => if c = a then b else c))).length =
      (strBytes (String.ofList cs)).length := by
  have key : ∀ cs : List Char, (strBytes (String.ofList cs)).length = (cs.map Char.utf8Size).sum := by
    intro cs
    have h0 : ∀ s : String, (strBytes s).length = s.utf8ByteSize := by
      intro s
      unfold strBytes
      rw [List.length_map, Array.length_toList]
      rfl
    rw [h0]
    induction cs with
    | nil => simp
    | cons c cs ih =>
      rw [String.ofList_cons, String.utf8ByteSize_append, ih]
      simp
  rw [key, key]
  congr 1
  rw [List.map_map]
  apply List.map_congr_left
  intro c _
  simp only [Function.comp]
  split
  · subst_vars; exact h.symm
  · rfl

theorem decSourceFile_sat : decSourceFile.Sat fun s _ =>
    (∃ w, encSourceFile s = .ok w) ∧ '\\' ∉ s.path.toList := by
  refine decU32_sat.next fun _ _ => (decU64_takes.sat.any).next fun _ _ =>
    (decStr16_sat.imp (Q := fun s _ => (strBytes s).length < 2 ^ 16) fun _ _ h => h.1).next
      fun raw h => .pure ⟨?_, ?_⟩
  · refine seq_total (ok_total _) (seq_total (ok_total _) (encStr16_total ?_))
    unfold replaceChar
    rw [utf8_length_replace _ _ (by decide)]
    simp only [String.ofList_toList]
    rw [utf8_length_replace _ _ (by decide)]
    simpa using h
  · simp [replaceChar]
    intro x hx h
    split at h
    · cases h
    · contradiction

/-- Whatever definition is read can be written again; if it was read from less than 2 GiB, it is in
the state in which writing it loses nothing. -/
theorem decAnyDefinition_sat (t : DefinitionType) : (decAnyDefinition t).Sat fun d n =>
    (∃ w, encAnyDefinition d = .ok w) ∧ (2 * n < 2 ^ 32 → d.Consistent) ∧ d.type_ = t := by
  cases t with
  | «Type» => exact decType_sat.then fun _ _ h => .pure ⟨h, fun _ => trivial, rfl⟩
  | Class => exact decClass_sat.then fun _ _ h => .pure ⟨h, fun _ => trivial, rfl⟩
  | EnumValue => exact decU64_takes.sat.then fun _ _ _ => .pure ⟨ok_total _, fun _ => trivial, rfl⟩
  | Enum => exact decEnum_sat.then fun _ _ h => .pure ⟨h, fun _ => trivial, rfl⟩
  | BitField => exact .fail
  | Function => exact decFunction_sat.then fun _ _ h => .pure ⟨h.1, h.2, rfl⟩
  | Parameter =>
    have h : decParameter.Sat fun x _ => ∃ w, encParameter x = .ok w :=
      decIdx_sat.next fun _ _ => decU8_sat.next fun _ _ => .pure (seq_total (ok_total _) (ok_total _))
    exact h.then fun _ _ h => .pure ⟨h, fun _ => trivial, rfl⟩
  | Local =>
    have h : decLocal.Sat fun x _ => ∃ w, encLocal x = .ok w :=
      decIdx_sat.next fun _ _ => decU8_sat.next fun _ _ => .pure (seq_total (ok_total _) (ok_total _))
    exact h.then fun _ _ h => .pure ⟨h, fun _ => trivial, rfl⟩
  | Field => exact decField_sat.then fun _ _ h => .pure ⟨h, fun _ => trivial, rfl⟩
  | SourceFile => exact decSourceFile_sat.then fun _ _ h => .pure ⟨h.1, fun _ => h.2, rfl⟩

end Redscript
