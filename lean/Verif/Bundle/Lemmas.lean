import Verif.Bundle.Model
import Verif.Definition.Props
import Verif.Codec.Props
import Verif.Util.List

/-!
# Lemmas about bundles
-/

namespace Redscript

/-! ## The seekable writer -/

theorem writeAt_nil (buf : Bytes) (p : Nat) : writeAt buf p [] = buf := by simp [writeAt]

theorem writeAt_getElem? (buf bs : Bytes) (p i : Nat) (h : bs ≠ []) :
    (writeAt buf p bs)[i]? =
      if i < p then (if i < buf.length then buf[i]? else some 0)
      else if i < p + bs.length then bs[i - p]? else buf[i]? := by
  unfold writeAt
  rw [if_neg h]
  simp only
  have hl : ((buf ++ List.replicate (p - buf.length) (0 : Byte)).take p).length = p := by
    simp; omega
  by_cases h1 : i < p
  · rw [if_pos h1, List.getElem?_append_left (by omega), List.getElem?_take_of_lt h1]
    by_cases h2 : i < buf.length
    · rw [if_pos h2, List.getElem?_append_left h2]
    · rw [if_neg h2, List.getElem?_append_right (by omega), List.getElem?_replicate_of_lt (by omega)]
  · rw [if_neg h1, List.getElem?_append_right (by omega), hl]
    by_cases h2 : i < p + bs.length
    · rw [if_pos h2, List.getElem?_append_left (by omega)]
    · rw [if_neg h2, List.getElem?_append_right (by omega), List.getElem?_drop]
      have : p + bs.length + (i - p - bs.length) = i := by omega
      rw [this]
      by_cases h3 : i < buf.length
      · rw [List.getElem?_append_left h3]
      · rw [List.getElem?_eq_none (l := buf) (by omega), List.getElem?_eq_none]
        simp; omega

theorem writeAt_length (buf bs : Bytes) (p : Nat) (h : bs ≠ []) :
    (writeAt buf p bs).length = max buf.length (p + bs.length) := by
  unfold writeAt
  rw [if_neg h]
  simp; omega

/-- Consecutive writes are one write. -/
theorem writeAt_append (buf a b : Bytes) (p : Nat) :
    writeAt (writeAt buf p a) (p + a.length) b = writeAt buf p (a ++ b) := by
  by_cases ha : a = []
  · subst ha; simp [writeAt_nil]
  by_cases hb : b = []
  · subst hb; simp [writeAt_nil]
  have hab : a ++ b ≠ [] := by simp [ha]
  apply List.ext_getElem?
  intro i
  rw [writeAt_getElem? _ _ _ _ hb, writeAt_getElem? _ _ _ _ ha, writeAt_getElem? _ _ _ _ hab,
    writeAt_length _ _ _ ha, List.length_append]
  have hp := List.length_pos_iff.2 ha
  have hq := List.length_pos_iff.2 hb
  by_cases h1 : i < p
  · rw [if_pos (by omega), if_pos (by omega), if_pos h1, if_pos h1]
  · rw [if_neg h1, if_neg h1]
    by_cases h2 : i < p + a.length
    · rw [if_pos h2, if_pos (by omega), if_pos h2, if_pos (by omega),
        List.getElem?_append_left (by omega)]
    · rw [if_neg h2, if_neg h2]
      by_cases h3 : i < p + a.length + b.length
      · rw [if_pos h3, if_pos (by omega), List.getElem?_append_right (by omega)]
        congr 1; omega
      · rw [if_neg h3, if_neg (by omega)]

/-- Filling exactly the gap left in front of an earlier write. -/
theorem writeAt_gap (buf b c : Bytes) (q n : Nat) (hn : b.length = n) :
    writeAt (writeAt buf (q + n) c) q b = writeAt buf q (b ++ c) := by
  subst hn
  by_cases hb : b = []
  · subst hb; simp [writeAt_nil]
  by_cases hc : c = []
  · subst hc; simp [writeAt_nil]
  have hbc : b ++ c ≠ [] := by simp [hb]
  have hp := List.length_pos_iff.2 hb
  have hq := List.length_pos_iff.2 hc
  apply List.ext_getElem?
  intro i
  rw [writeAt_getElem? _ _ _ _ hb, writeAt_getElem? _ _ _ _ hc, writeAt_getElem? _ _ _ _ hbc,
    writeAt_length _ _ _ hc, List.length_append]
  by_cases h1 : i < q
  · rw [if_pos h1, if_pos (by omega), if_pos (by omega), if_pos h1]
  · rw [if_neg h1, if_neg h1]
    by_cases h2 : i < q + b.length
    · rw [if_pos h2, if_pos (by omega), List.getElem?_append_left (by omega)]
    · rw [if_neg h2, if_neg h2]
      by_cases h3 : i < q + b.length + c.length
      · rw [if_pos h3, if_pos (by omega), List.getElem?_append_right (by omega)]
        congr 1; omega
      · rw [if_neg h3, if_neg (by omega)]

theorem writeAt_zero (buf bs : Bytes) : writeAt buf 0 bs = bs ++ buf.drop bs.length := by
  unfold writeAt
  split
  · next h => subst h; rfl
  · simp

theorem Writer.write_append (w : Writer) (a b : Bytes) : (w.write a).write b = w.write (a ++ b) := by
  simp only [Writer.write, writeAt_append, List.length_append, Nat.add_assoc]

theorem Writer.write_nil (w : Writer) : w.write [] = w := by
  simp [Writer.write, writeAt_nil]

/-! ## Headers -/

theorem encTableHeader_length (t : TableHeader) : (encTableHeader t).length = 12 := by
  simp [encTableHeader, encU32, leBytes_length]

theorem encHeader_length (h : Header) : (encHeader h).length = Header.size := by
  simp [encHeader, encTableHeader_length, encU32, encU64, leBytes_length, Header.size]

theorem encDefinitionType_length (t : DefinitionType) : (encDefinitionType t).length = 1 := by
  cases t <;> rfl

theorem encDefinitionHeader_length (h : DefinitionHeader) :
    (encDefinitionHeader h).length = DefinitionHeader.size_ := by
  simp [encDefinitionHeader, encIdx, encU32, encU8, leBytes_length, encDefinitionType_length,
    DefinitionHeader.size_]

theorem decTableHeader_rt (t : TableHeader) (rest : Bytes) :
    decTableHeader (encTableHeader t ++ rest) = .ok (t, rest) := by
  unfold decTableHeader encTableHeader
  simp only [List.append_assoc]
  rw [Dec.bind_ok (decU32_rt _ _), Dec.bind_ok (decU32_rt _ _), Dec.bind_ok (decU32_rt _ _)]
  rfl

theorem decHeader_rt (h : Header) (rest : Bytes) :
    decHeader (encHeader h ++ rest) = .ok (h, rest) := by
  unfold decHeader encHeader
  simp only [List.append_assoc]
  rw [Dec.bind_ok (decU32_rt _ _)]
  rw [if_neg (by simp)]
  rw [Dec.bind_ok (decU32_rt _ _), Dec.bind_ok (decU32_rt _ _), Dec.bind_ok (decU64_rt _ _),
    Dec.bind_ok (decU32_rt _ _), Dec.bind_ok (decU32_rt _ _), Dec.bind_ok (decU32_rt _ _),
    Dec.bind_ok (decTableHeader_rt _ _), Dec.bind_ok (decTableHeader_rt _ _),
    Dec.bind_ok (decTableHeader_rt _ _), Dec.bind_ok (decTableHeader_rt _ _),
    Dec.bind_ok (decTableHeader_rt _ _), Dec.bind_ok (decTableHeader_rt _ _)]
  rfl

theorem decDefinitionType_rt (t : DefinitionType) (rest : Bytes) :
    decDefinitionType (encDefinitionType t ++ rest) = .ok (t, rest) := by
  cases t <;> rfl

theorem decDefinitionHeader_rt (h : DefinitionHeader) (rest : Bytes) :
    decDefinitionHeader (encDefinitionHeader h ++ rest) = .ok (h, rest) := by
  unfold decDefinitionHeader encDefinitionHeader
  simp only [List.append_assoc]
  rw [Dec.bind_ok (decIdx_rt _ _), Dec.bind_ok (decIdx_rt _ _), Dec.bind_ok (decU32_rt _ _),
    Dec.bind_ok (decU32_rt _ _), Dec.bind_ok (decDefinitionType_rt _ _), Dec.bind_ok (decU8_rt _ _),
    Dec.bind_ok (decU8_rt _ _), Dec.bind_ok (decU8_rt _ _)]
  rfl

/-! ## Deduplicated string data -/

/-- Every recorded offset points at the string's bytes in the buffer. -/
def DedupInv (buf : Bytes) (map : AMap String (BitVec 32)) : Prop :=
  ∀ s o, map.get s = some o → ∃ pre post, buf = pre ++ (encCStr s ++ post) ∧ o = BitVec.ofNat 32 pre.length

theorem dedup_spec (ss : List String) (buf : Bytes) (map : AMap String (BitVec 32))
    (hi : DedupInv buf map) :
    DedupInv (dedup ss (buf, map)).1 (dedup ss (buf, map)).2 ∧
      (∀ s o, map.get s = some o → (dedup ss (buf, map)).2.get s = some o) ∧
      ∀ s ∈ ss, ∃ o, (dedup ss (buf, map)).2.get s = some o := by
  induction ss generalizing buf map with
  | nil => exact ⟨hi, fun _ _ h => h, by simp⟩
  | cons s ss ih =>
    cases hg : map.get s with
    | none =>
      simp only [dedup, hg]
      have hi' : DedupInv (buf ++ encCStr s) (map.insert s (BitVec.ofNat 32 buf.length)) := by
        intro t o ht
        rw [AMap.get_insert] at ht
        split at ht
        · simp at ht
          subst ‹t = s›
          exact ⟨buf, [], by simp, ht.symm⟩
        · obtain ⟨pre, post, rfl, ho⟩ := hi t o ht
          exact ⟨pre, post ++ encCStr s, by simp, ho⟩
      obtain ⟨h1, h2, h3⟩ := ih _ _ hi'
      refine ⟨h1, ?_, ?_⟩
      · intro t o ht
        apply h2
        rw [AMap.get_insert_ne]
        · exact ht
        · rintro rfl; rw [hg] at ht; cases ht
      · intro t ht
        rcases List.mem_cons.1 ht with rfl | ht
        · exact ⟨_, h2 _ _ (AMap.get_insert_self _ _ _)⟩
        · exact h3 t ht
    | some o0 =>
      simp only [dedup, hg]
      obtain ⟨h1, h2, h3⟩ := ih _ _ hi
      refine ⟨h1, h2, ?_⟩
      intro t ht
      rcases List.mem_cons.1 ht with rfl | ht
      · exact ⟨_, h2 _ _ hg⟩
      · exact h3 t ht

theorem encodedOffsets_ok {map : AMap String (BitVec 32)} {ss : List String} {bs : Bytes}
    (h : Strings.encodedOffsets map ss = .ok bs) :
    ∃ offs : List (BitVec 32), bs = offs.flatMap encU32 ∧
      All2 (fun s o => map.get s = some o) ss offs := by
  induction ss generalizing bs with
  | nil =>
    simp [Strings.encodedOffsets] at h
    exact ⟨[], by simp [h.symm], .nil⟩
  | cons s ss ih =>
    unfold Strings.encodedOffsets at h
    cases hg : map.get s with
    | none => rw [hg] at h; cases h
    | some o =>
      rw [hg] at h
      obtain ⟨b, h', rfl⟩ := seq_ok_left h
      obtain ⟨offs, rfl, hf⟩ := ih h'
      exact ⟨o :: offs, by simp, .cons hg hf⟩

theorem encodedOffsets_total {map : AMap String (BitVec 32)} {ss : List String}
    (h : ∀ s ∈ ss, ∃ o, map.get s = some o) : ∃ bs, Strings.encodedOffsets map ss = .ok bs := by
  induction ss with
  | nil => exact ⟨[], rfl⟩
  | cons s ss ih =>
    obtain ⟨o, ho⟩ := h s (by simp)
    obtain ⟨bs, hb⟩ := ih fun t ht => h t (by simp [ht])
    exact ⟨encU32 o ++ bs, by simp [Strings.encodedOffsets, ho, hb, Enc.seq]⟩

theorem flatMap_encU32_length (offs : List (BitVec 32)) :
    (offs.flatMap encU32).length = 4 * offs.length := by
  induction offs with
  | nil => rfl
  | cons o os ih => simp [ih, encU32, leBytes_length]; omega

theorem encodedOffsets_length {map : AMap String (BitVec 32)} {ss : List String} {bs : Bytes}
    (h : Strings.encodedOffsets map ss = .ok bs) : bs.length = 4 * ss.length := by
  obtain ⟨offs, rfl, hf⟩ := encodedOffsets_ok h
  rw [flatMap_encU32_length, hf.length_eq]

/-- A string without interior NUL, as far as its bytes are concerned. -/
def NulFree (s : String) : Prop := ∀ b ∈ strBytes s, b ≠ 0

theorem decodeFrom_spec (data : Bytes) (ss : List String) (offs : List (BitVec 32)) (acc : Strings)
    (hn : ∀ s ∈ ss, NulFree s)
    (h : All2 (fun s (o : BitVec 32) => ∃ post, data.drop o.toNat = encCStr s ++ post) ss offs) :
    ∃ S, Strings.decodeFrom data acc offs = .ok S ∧ S.strings = acc.strings ++ ss := by
  induction h generalizing acc with
  | nil => exact ⟨acc, rfl, by simp⟩
  | @cons s o ss offs hso hrest ih =>
    obtain ⟨post, hpost⟩ := hso
    have hstep : Strings.decodeStep data acc o =
        .ok { strings := acc.strings ++ [s]
              mappings := acc.mappings.insert s (BitVec.ofNat 32 acc.strings.length) } := by
      unfold Strings.decodeStep
      rw [hpost, C01_cstr s (hn s (by simp))]
    obtain ⟨S, h1, h2⟩ := ih { strings := acc.strings ++ [s]
                               mappings := acc.mappings.insert s (BitVec.ofNat 32 acc.strings.length) }
      fun t ht => hn t (by simp [ht])
    refine ⟨S, ?_, by simp [h2]⟩
    unfold Strings.decodeFrom
    rw [hstep]
    exact h1

theorem decStrings_spec (data : Bytes) (map : AMap String (BitVec 32)) (hd : DedupInv data map)
    (hlen : data.length < 2 ^ 32) (ss : List String) (hn : ∀ s ∈ ss, NulFree s)
    (hss : ss.length < 2 ^ 32) (bs rest : Bytes) (h : Strings.encodedOffsets map ss = .ok bs) :
    ∃ S, decStrings data (BitVec.ofNat 32 ss.length) (bs ++ rest) = .ok (S, rest) ∧ S.strings = ss := by
  obtain ⟨offs, rfl, hf⟩ := encodedOffsets_ok h
  have hf' : All2 (fun s (o : BitVec 32) => ∃ post, data.drop o.toNat = encCStr s ++ post) ss offs := by
    refine hf.imp fun s o ho => ?_
    obtain ⟨pre, post, rfl, rfl⟩ := hd s o ho
    refine ⟨post, ?_⟩
    rw [BitVec.toNat_ofNat, Nat.mod_eq_of_lt]
    · simp
    · simp at hlen ⊢; omega
  obtain ⟨S, h1, h2⟩ := decodeFrom_spec data ss offs .empty hn hf'
  refine ⟨S, ?_, by simpa [Strings.empty] using h2⟩
  unfold decStrings
  have hl : (BitVec.ofNat 32 ss.length).toNat = offs.length := by
    rw [BitVec.toNat_ofNat, Nat.mod_eq_of_lt hss, hf.length_eq]
  rw [hl, Dec.bind_ok (decList_rt (enc := fun o => .ok (encU32 o)) offs (fun o _ bs rest h => by
    simp only [Except.ok.injEq] at h; subst h; exact decU32_rt o rest) rest (encList_ok offs)), h1]
  rfl

/-! ## Definition bodies -/

/-- The encoded bodies of a list of definitions. -/
def encBodies : List Definition → Except Err (List Bytes)
  | [] => .ok []
  | d :: ds =>
    match encAnyDefinition d.value with
    | .error e => .error e
    | .ok b => match encBodies ds with
      | .error e => .error e
      | .ok bs => .ok (b :: bs)

/-- The headers of definitions whose bodies start at `offset`. -/
def mkHeaders : Nat → List Definition → List Bytes → List DefinitionHeader
  | offset, d :: ds, b :: bs =>
    { name := d.name, parent := d.parent, offset := BitVec.ofNat 32 offset,
      size := BitVec.ofNat 32 b.length, type_ := d.value.type_, unk1 := d.unk1, unk2 := d.unk2,
      unk3 := d.unk3 } :: mkHeaders (offset + b.length) ds bs
  | _, _, _ => []

theorem encodeDefinitions_eq (ds : List Definition) (w : Writer) (off : Nat) (buf : Bytes) :
    encodeDefinitions ds w off buf = match encBodies ds with
      | .error e => .error e
      | .ok bs => .ok (w.write bs.flatten, buf ++ (mkHeaders off ds bs).flatMap encDefinitionHeader) := by
  induction ds generalizing w off buf with
  | nil => simp [encodeDefinitions, encBodies, mkHeaders, Writer.write_nil]
  | cons d ds ih =>
    unfold encodeDefinitions encBodies
    cases h : encAnyDefinition d.value with
    | error e => rfl
    | ok b =>
      simp only
      rw [ih]
      cases h2 : encBodies ds with
      | error e => rfl
      | ok bs =>
        simp [mkHeaders, Writer.write_append, Nat.add_sub_cancel_left]

theorem encBodies_length {ds : List Definition} {bs : List Bytes} (h : encBodies ds = .ok bs) :
    bs.length = ds.length := by
  induction ds generalizing bs with
  | nil => simp [encBodies] at h; simp [← h]
  | cons d ds ih =>
    unfold encBodies at h
    split at h
    · cases h
    · split at h
      · cases h
      · next h2 =>
        simp only [Except.ok.injEq] at h
        subst h
        simp [ih h2]

theorem mkHeaders_length (off : Nat) (ds : List Definition) (bs : List Bytes)
    (h : bs.length = ds.length) : (mkHeaders off ds bs).length = ds.length := by
  induction ds generalizing off bs with
  | nil => cases bs <;> simp_all [mkHeaders]
  | cons d ds ih =>
    cases bs with
    | nil => simp at h
    | cons b bs => simp at h; simp [mkHeaders, ih _ _ h]

theorem flatMap_encDefinitionHeader_length (hs : List DefinitionHeader) :
    (hs.flatMap encDefinitionHeader).length = DefinitionHeader.size_ * hs.length := by
  induction hs with
  | nil => rfl
  | cons h hs ih =>
    simp [ih, encDefinitionHeader_length, Nat.mul_add]; omega

/-- A definition as read back: only the presence flags are recomputed. -/
def Definition.written (d : Definition) : Definition := { d with value := d.value.written }

theorem decDefinitions_spec (ds : List Definition) (hc : ∀ d ∈ ds, d.value.Consistent)
    (bs : List Bytes) (h : encBodies ds = .ok bs) (pre post : Bytes)
    (hlen : (pre ++ (bs.flatten ++ post)).length < 2 ^ 32) :
    decDefinitions (pre ++ (bs.flatten ++ post)) (mkHeaders pre.length ds bs) =
      .ok (ds.map Definition.written) := by
  induction ds generalizing bs pre with
  | nil =>
    simp [encBodies] at h
    subst h
    rfl
  | cons d ds ih =>
    unfold encBodies at h
    cases h1 : encAnyDefinition d.value with
    | error e => rw [h1] at h; cases h
    | ok b =>
      rw [h1] at h
      cases h2 : encBodies ds with
      | error e => rw [h2] at h; cases h
      | ok bs' =>
        rw [h2] at h
        simp only [Except.ok.injEq] at h
        subst h
        have ih' := ih (fun e he => hc e (by simp [he])) bs' h2 (pre ++ b) (by simpa using hlen)
        simp only [List.length_append, List.append_assoc] at ih'
        simp only [List.flatten_cons, List.append_assoc] at hlen ⊢
        have hpre : pre.length < 2 ^ 32 := by simp at hlen ⊢; omega
        have hd : decDefinition (pre ++ (b ++ (bs'.flatten ++ post)))
            { name := d.name, parent := d.parent, offset := BitVec.ofNat 32 pre.length,
              size := BitVec.ofNat 32 b.length, type_ := d.value.type_, unk1 := d.unk1,
              unk2 := d.unk2, unk3 := d.unk3 } = .ok d.written := by
          unfold decDefinition
          simp only
          rw [BitVec.toNat_ofNat, Nat.mod_eq_of_lt hpre, List.drop_left,
            decAnyDefinition_rt d.value (hc d (by simp)) b _ h1]
          rfl
        simp only [mkHeaders, decDefinitions]
        rw [hd, ih']
        rfl

/-! ## The file image -/

/-- The parts of a saved file after the header, in file order. -/
structure Parts where
  data : Bytes
  names : Bytes
  tweakdb : Bytes
  resources : Bytes
  defHeaders : Bytes
  strings : Bytes
  bodies : Bytes

/-- The header that `save` computes for the given parts. -/
def finalHeader (crc : Bytes → BitVec 32) (b : ScriptBundle) (p : Parts) : Header :=
  let o1 := Header.size
  let o2 := o1 + p.data.length
  let o3 := o2 + p.names.length
  let o4 := o3 + p.tweakdb.length
  let o5 := o4 + p.resources.length
  let o6 := o5 + p.defHeaders.length
  let forHash : Header :=
    { b.header with
      data := .new crc p.data p.data.length o1
      names := .new crc p.names b.pool.names.strings.length o2
      tweakdbIndexes := .new crc p.tweakdb b.pool.tweakdbIds.strings.length o3
      resources := .new crc p.resources b.pool.resources.strings.length o4
      definitions := .new crc p.defHeaders b.pool.definitions.length o5
      strings := .new crc p.strings b.pool.strings.strings.length o6
      hash := 0xDEADBEEF }
  { forHash with hash := crc (encHeader forHash) }

/-- The whole file. -/
def image (h : Header) (p : Parts) : Bytes :=
  encHeader h ++ (p.data ++ (p.names ++ (p.tweakdb ++ (p.resources ++ (p.defHeaders ++
    (p.strings ++ p.bodies))))))

/-- How the parts arise from the pool. -/
structure PartsOf (p : ConstantPool) (q : Parts) (map : AMap String (BitVec 32)) (bss : List Bytes) :
    Prop where
  data : dedup (p.names.strings ++ (p.tweakdbIds.strings ++ (p.resources.strings ++ p.strings.strings)))
    ([], .empty) = (q.data, map)
  names : Strings.encodedOffsets map p.names.strings = .ok q.names
  tweakdb : Strings.encodedOffsets map p.tweakdbIds.strings = .ok q.tweakdb
  resources : Strings.encodedOffsets map p.resources.strings = .ok q.resources
  strings : Strings.encodedOffsets map p.strings.strings = .ok q.strings
  bodiesList : encBodies (p.definitions.drop 1) = .ok bss
  bodies : q.bodies = bss.flatten
  defHeaders : q.defHeaders = encDefinitionHeader .default ++
    (mkHeaders (Header.size + (q.data.length + (q.names.length + (q.tweakdb.length +
      (q.resources.length + (DefinitionHeader.size_ * p.definitions.length + q.strings.length))))))
      (p.definitions.drop 1) bss).flatMap encDefinitionHeader

theorem PartsOf.defHeaders_length {p : ConstantPool} {q : Parts} {map bss} (h : PartsOf p q map bss)
    (hne : p.definitions ≠ []) :
    q.defHeaders.length = DefinitionHeader.size_ * p.definitions.length := by
  rw [h.defHeaders, List.length_append, encDefinitionHeader_length, flatMap_encDefinitionHeader_length,
    mkHeaders_length _ _ _ (encBodies_length h.bodiesList)]
  have := List.length_pos_iff.2 hne
  rw [List.length_drop]
  obtain ⟨n, hn⟩ := Nat.exists_eq_succ_of_ne_zero (Nat.pos_iff_ne_zero.1 this)
  rw [hn, Nat.succ_sub_one, Nat.mul_succ, Nat.add_comm]

/-- The parts always exist when the definitions can be encoded. -/
theorem exists_partsOf (p : ConstantPool) (bss : List Bytes)
    (h : encBodies (p.definitions.drop 1) = .ok bss) : ∃ q map, PartsOf p q map bss := by
  have hd := dedup_spec (p.names.strings ++ (p.tweakdbIds.strings ++ (p.resources.strings ++
    p.strings.strings))) [] .empty (by intro s o h; cases h)
  obtain ⟨-, -, h3⟩ := hd
  obtain ⟨n, hn⟩ := encodedOffsets_total fun s (hs : s ∈ p.names.strings) => h3 s (by simp [hs])
  obtain ⟨t, ht⟩ := encodedOffsets_total fun s (hs : s ∈ p.tweakdbIds.strings) => h3 s (by simp [hs])
  obtain ⟨r, hr⟩ := encodedOffsets_total fun s (hs : s ∈ p.resources.strings) => h3 s (by simp [hs])
  obtain ⟨s, hs⟩ := encodedOffsets_total fun s (hs : s ∈ p.strings.strings) => h3 s (by simp [hs])
  let q0 : Parts := ⟨(dedup (p.names.strings ++ (p.tweakdbIds.strings ++ (p.resources.strings ++
    p.strings.strings))) ([], .empty)).1, n, t, r, [], s, bss.flatten⟩
  refine ⟨{ q0 with defHeaders := encDefinitionHeader .default ++
    (mkHeaders (Header.size + (q0.data.length + (q0.names.length + (q0.tweakdb.length +
      (q0.resources.length + (DefinitionHeader.size_ * p.definitions.length + q0.strings.length))))))
      (p.definitions.drop 1) bss).flatMap encDefinitionHeader }, _,
    ⟨rfl, hn, ht, hr, hs, h, rfl, rfl⟩⟩

/-- `save` writes exactly the image over whatever was in the stream. -/
theorem save_image (crc : Bytes → BitVec 32) (b : ScriptBundle) (w : Writer)
    (hne : b.pool.definitions ≠ []) (q : Parts) (map : AMap String (BitVec 32)) (bss : List Bytes)
    (hq : PartsOf b.pool q map bss) :
    b.save crc w = .ok ⟨image (finalHeader crc b q) q ++
      w.buf.drop (image (finalHeader crc b q) q).length, Header.size⟩ := by
  have hlen := hq.defHeaders_length hne
  obtain ⟨h1, h2, h3, h4, h5, h6, h7, h8⟩ := hq
  unfold ScriptBundle.save encodePool
  simp only [h1, h2, h3, h4, h5, encodeDefinitions_eq, h6, Writer.seek, Writer.write]
  have e8 : ∀ k, k = Header.size + (q.data.length + (q.names.length + (q.tweakdb.length +
      (q.resources.length + (DefinitionHeader.size_ * b.pool.definitions.length + q.strings.length))))) →
      encDefinitionHeader .default ++ (mkHeaders k (b.pool.definitions.drop 1) bss).flatMap
        encDefinitionHeader = q.defHeaders := by
    intro k hk; rw [h8, hk]
  rw [e8 _ (by omega), ← h7]
  rw [writeAt_append, writeAt_append, writeAt_append, writeAt_append]
  simp only [Nat.add_assoc]
  have eq2 : ∀ X : Bytes, writeAt (writeAt X (Header.size + (q.data.length + (q.names.length +
      (q.tweakdb.length + (q.resources.length + DefinitionHeader.size_ * b.pool.definitions.length)))))
      (q.strings ++ q.bodies)) (Header.size + (q.data.length + (q.names.length +
      (q.tweakdb.length + q.resources.length)))) q.defHeaders =
      writeAt X (Header.size + (q.data.length + (q.names.length +
      (q.tweakdb.length + q.resources.length)))) (q.defHeaders ++ (q.strings ++ q.bodies)) := by
    intro X
    rw [← writeAt_gap _ _ _ _ _ hlen]
    simp only [Nat.add_assoc]
  have eq3 : ∀ (X c : Bytes), writeAt (writeAt X Header.size (q.data ++ (q.names ++ (q.tweakdb ++ q.resources))))
      (Header.size + (q.data.length + (q.names.length + (q.tweakdb.length + q.resources.length)))) c =
      writeAt X Header.size (q.data ++ (q.names ++ (q.tweakdb ++ (q.resources ++ c)))) := by
    intro X c
    have := writeAt_append X (q.data ++ (q.names ++ (q.tweakdb ++ q.resources))) c Header.size
    simp only [List.length_append, List.append_assoc] at this ⊢
    exact this
  have eq4 : ∀ (X c : Bytes) (h : Header), writeAt (writeAt X Header.size c) 0 (encHeader h) =
      encHeader h ++ c ++ X.drop (encHeader h ++ c).length := by
    intro X c h
    have := writeAt_gap X (encHeader h) c 0 Header.size (encHeader_length h)
    rw [Nat.zero_add] at this
    rw [this, writeAt_zero]
  rw [eq2, eq3, eq4]
  simp only [Nat.zero_add, encHeader_length, image, finalHeader, Nat.add_assoc, hlen]

end Redscript
