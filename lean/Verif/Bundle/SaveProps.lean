import Verif.Bundle.Lemmas

/-!
# C09, C10: saving and loading a bundle
-/

namespace Redscript

/-! ### Specification -/

/-- The pool contents a saved file can represent. -/
structure Saveable (p : ConstantPool) : Prop where
  definitions : p.definitions ≠ []
  consistent : ∀ d ∈ p.definitions.drop 1, d.value.Consistent
  encodable : ∀ d ∈ p.definitions.drop 1, ∃ bs, encAnyDefinition d.value = .ok bs
  names : ∀ s ∈ p.names.strings, NulFree s
  tweakdbIds : ∀ s ∈ p.tweakdbIds.strings, NulFree s
  resources : ∀ s ∈ p.resources.strings, NulFree s
  strings : ∀ s ∈ p.strings.strings, NulFree s

/-- The same definition up to the derived presence flags of its value. -/
def Definition.SameButFlags (d d' : Definition) : Prop :=
  d' = { d with value := d'.value } ∧ d.value.SameButFlags d'.value

/-- A table header describes the bytes found in the file: `width` bytes for each of `count` elements,
within the file, and with the recorded checksum. -/
def TableAt (crc : Bytes → BitVec 32) (file : Bytes) (t : TableHeader) (width count : Nat) : Prop :=
  t.count.toNat = count ∧ t.offset.toNat + width * count ≤ file.length ∧
    t.hash = crc ((file.drop t.offset.toNat).take (width * count))

/-- The table at `t` holds, for each string, the position of its NUL-terminated bytes relative to the
start of the string data. -/
def StringsAt (file : Bytes) (data t : TableHeader) (ss : List String) : Prop :=
  ∀ (i : Nat) (s : String), ss[i]? = some s → ∃ (o : BitVec 32) (r1 r2 : Bytes),
    decU32 (file.drop (t.offset.toNat + 4 * i)) = .ok (o, r1) ∧
      o.toNat < data.count.toNat ∧
      file.drop (data.offset.toNat + o.toNat) = strBytes s ++ 0 :: r2

/-! ### Helper lemmas -/

theorem encBodies_total (ds : List Definition)
    (h : ∀ d ∈ ds, ∃ bs, encAnyDefinition d.value = .ok bs) : ∃ bss, encBodies ds = .ok bss := by
  induction ds with
  | nil => exact ⟨[], rfl⟩
  | cons d ds ih =>
    obtain ⟨b, hb⟩ := h d (by simp)
    obtain ⟨bs, hbs⟩ := ih fun e he => h e (by simp [he])
    exact ⟨b :: bs, by simp [encBodies, hb, hbs]⟩

theorem encBodies_written (ds : List Definition) :
    encBodies (ds.map Definition.written) = encBodies ds := by
  induction ds with
  | nil => rfl
  | cons d ds ih =>
    simp only [List.map_cons, encBodies, ih]
    rw [show d.written.value = d.value.written from rfl, written_encode]

theorem mkHeaders_written (off : Nat) (ds : List Definition) (bs : List Bytes) :
    mkHeaders off (ds.map Definition.written) bs = mkHeaders off ds bs := by
  induction ds generalizing off bs with
  | nil => cases bs <;> rfl
  | cons d ds ih =>
    cases bs with
    | nil => rfl
    | cons b bs =>
      simp only [List.map_cons, mkHeaders, ih]
      rw [show d.written.value.type_ = d.value.written.type_ from rfl, written_type]
      rfl

/-- The bundle that loading a saved file gives. -/
theorem load_image_any (h0 : Header) (b : ScriptBundle) (hs : Saveable b.pool) (q : Parts)
    (map : AMap String (BitVec 32)) (bss : List Bytes) (hq : PartsOf b.pool q map bss) (extra : Bytes)
    (hlen : (image h0 q ++ extra).length < 2 ^ 32) :
    ∃ n t r s : Strings, n.strings = b.pool.names.strings ∧ t.strings = b.pool.tweakdbIds.strings ∧
      r.strings = b.pool.resources.strings ∧ s.strings = b.pool.strings.strings ∧
      ∀ h : Header,
      h.data.count = BitVec.ofNat 32 q.data.length →
      h.names.count = BitVec.ofNat 32 b.pool.names.strings.length →
      h.tweakdbIndexes.count = BitVec.ofNat 32 b.pool.tweakdbIds.strings.length →
      h.resources.count = BitVec.ofNat 32 b.pool.resources.strings.length →
      h.strings.count = BitVec.ofNat 32 b.pool.strings.strings.length →
      h.definitions.count = BitVec.ofNat 32 b.pool.definitions.length →
      ScriptBundle.load (image h q ++ extra) = .ok
        { header := h
          pool := { names := n, tweakdbIds := t, resources := r, strings := s,
                    definitions := .default :: (b.pool.definitions.drop 1).map Definition.written } } := by
  have hdh := hq.defHeaders_length hs.definitions
  have hpos := List.length_pos_iff.2 hs.definitions
  have hinv : DedupInv q.data map := by
    have := (dedup_spec (b.pool.names.strings ++ (b.pool.tweakdbIds.strings ++
      (b.pool.resources.strings ++ b.pool.strings.strings))) [] .empty (by intro s o hm; cases hm)).1
    rw [hq.data] at this
    exact this
  have ln := encodedOffsets_length hq.names
  have lt := encodedOffsets_length hq.tweakdb
  have lr := encodedOffsets_length hq.resources
  have ls := encodedOffsets_length hq.strings
  have htotal : Header.size + (q.data.length + (q.names.length + (q.tweakdb.length +
      (q.resources.length + (q.defHeaders.length + (q.strings.length + (q.bodies.length +
      extra.length))))))) < 2 ^ 32 := by
    simp only [image, List.length_append, encHeader_length] at hlen
    omega
  have h20 : b.pool.definitions.length ≤ q.defHeaders.length := by
    rw [hdh]; exact Nat.le_mul_of_pos_left _ (by decide)
  obtain ⟨n, hn, hn'⟩ := decStrings_spec q.data map hinv (by omega) b.pool.names.strings hs.names
    (by omega) q.names (q.tweakdb ++ (q.resources ++ (q.defHeaders ++ (q.strings ++
        (q.bodies ++ extra))))) hq.names
  obtain ⟨t, ht, ht'⟩ := decStrings_spec q.data map hinv (by omega) b.pool.tweakdbIds.strings
    hs.tweakdbIds (by omega) q.tweakdb (q.resources ++ (q.defHeaders ++ (q.strings ++
        (q.bodies ++ extra)))) hq.tweakdb
  obtain ⟨r, hr, hr'⟩ := decStrings_spec q.data map hinv (by omega) b.pool.resources.strings
    hs.resources (by omega) q.resources (q.defHeaders ++ (q.strings ++ (q.bodies ++ extra)))
    hq.resources
  obtain ⟨s, hs1, hs'⟩ := decStrings_spec q.data map hinv (by omega) b.pool.strings.strings
    hs.strings (by omega) q.strings (q.bodies ++ extra) hq.strings
  refine ⟨n, t, r, s, hn', ht', hr', hs', ?_⟩
  intro h e1' e2 e3 e4 e5 e6'
  replace hlen : (image h q ++ extra).length < 2 ^ 32 := by
    simp only [image, List.length_append, encHeader_length] at hlen ⊢
    exact hlen
  -- the whole file after the header
  have hfile : image h q ++ extra = encHeader h ++
      (q.data ++ (q.names ++ (q.tweakdb ++ (q.resources ++ (q.defHeaders ++ (q.strings ++
        (q.bodies ++ extra))))))) := by
    simp [image]
  have hheaders : ∀ rest, decList decDefinitionHeader b.pool.definitions.length (q.defHeaders ++ rest) =
      .ok (DefinitionHeader.default :: mkHeaders (Header.size + (q.data.length + (q.names.length +
        (q.tweakdb.length + (q.resources.length + (DefinitionHeader.size_ * b.pool.definitions.length +
        q.strings.length)))))) (b.pool.definitions.drop 1) bss, rest) := by
    intro rest
    have hd := hq.defHeaders
    have hl : ∀ k, (DefinitionHeader.default :: mkHeaders k (b.pool.definitions.drop 1) bss).length =
        b.pool.definitions.length := by
      intro k
      rw [List.length_cons, mkHeaders_length _ _ _ (encBodies_length hq.bodiesList), List.length_drop]
      omega
    generalize Header.size + (q.data.length + (q.names.length + (q.tweakdb.length +
      (q.resources.length + (DefinitionHeader.size_ * b.pool.definitions.length +
        q.strings.length))))) = k at hd ⊢
    rw [← hl k]
    refine decList_rt (enc := fun h => .ok (encDefinitionHeader h)) _ (fun dh _ bs rest he => ?_) rest ?_
    · simp only [Except.ok.injEq] at he; subst he; exact decDefinitionHeader_rt dh rest
    · rw [encList_ok, hd, List.flatMap_cons]
  have hdefs : decDefinitions (image h q ++ extra)
      (mkHeaders (Header.size + (q.data.length + (q.names.length +
        (q.tweakdb.length + (q.resources.length + (DefinitionHeader.size_ * b.pool.definitions.length +
        q.strings.length)))))) (b.pool.definitions.drop 1) bss) =
      .ok ((b.pool.definitions.drop 1).map Definition.written) := by
    have := decDefinitions_spec _ hs.consistent bss hq.bodiesList
      (encHeader h ++ (q.data ++ (q.names ++ (q.tweakdb ++ (q.resources ++
        (q.defHeaders ++ q.strings)))))) extra
    have hl : (encHeader h ++ (q.data ++ (q.names ++ (q.tweakdb ++ (q.resources ++
        (q.defHeaders ++ q.strings)))))).length = Header.size + (q.data.length + (q.names.length +
        (q.tweakdb.length + (q.resources.length + (DefinitionHeader.size_ * b.pool.definitions.length +
        q.strings.length))))) := by
      simp only [List.length_append, encHeader_length, hdh]
    rw [hl, ← hq.bodies] at this
    rw [hfile] at hlen ⊢
    simp only [List.append_assoc] at this hlen ⊢
    exact this hlen
  have hcount : ∀ k, k < 2 ^ 32 → (BitVec.ofNat 32 k).toNat = k := by
    intro k hk; rw [BitVec.toNat_ofNat, Nat.mod_eq_of_lt hk]
  have e1 : h.data.count.toNat = q.data.length := by rw [e1']; exact hcount _ (by omega)
  have e6 : h.definitions.count.toNat = b.pool.definitions.length := by
    rw [e6']; exact hcount _ (by omega)
  have hpool : decPool (image h q ++ extra) h
      (q.data ++ (q.names ++ (q.tweakdb ++ (q.resources ++ (q.defHeaders ++ (q.strings ++
        (q.bodies ++ extra))))))) = .ok
      ({ names := n, tweakdbIds := t, resources := r, strings := s,
         definitions := .default :: (b.pool.definitions.drop 1).map Definition.written },
       q.bodies ++ extra) := by
    unfold decPool
    rw [e1, e2, e3, e4, e5, e6, Dec.bind_ok (decBytes_rt _ _), Dec.bind_ok hn, Dec.bind_ok ht,
      Dec.bind_ok hr, Dec.bind_ok (hheaders _), Dec.bind_ok hs1, List.drop_one, List.tail_cons, hdefs]
    rfl
  have hall : (decHeader.bind fun header =>
      (decPool (image h q ++ extra) header).bind fun pool =>
        Dec.pure (⟨header, pool⟩ : ScriptBundle)) (image h q ++ extra) = .ok
      (⟨h, ⟨n, t, r, s,
         .default :: (b.pool.definitions.drop 1).map Definition.written⟩⟩, q.bodies ++ extra) := by
    rw [Dec.bind_ok (r := q.data ++ (q.names ++ (q.tweakdb ++ (q.resources ++ (q.defHeaders ++ (q.strings ++
        (q.bodies ++ extra))))))) (a := h) (by rw [hfile]; exact decHeader_rt _ _),
      Dec.bind_ok hpool]
    rfl
  unfold ScriptBundle.load
  rw [hall]

theorem load_image (crc : Bytes → BitVec 32) (b : ScriptBundle) (hs : Saveable b.pool) (q : Parts)
    (map : AMap String (BitVec 32)) (bss : List Bytes) (hq : PartsOf b.pool q map bss) (extra : Bytes)
    (hlen : (image (finalHeader crc b q) q ++ extra).length < 2 ^ 32) :
    ∃ n t r s : Strings, n.strings = b.pool.names.strings ∧ t.strings = b.pool.tweakdbIds.strings ∧
      r.strings = b.pool.resources.strings ∧ s.strings = b.pool.strings.strings ∧
      ScriptBundle.load (image (finalHeader crc b q) q ++ extra) = .ok
        { header := finalHeader crc b q
          pool := { names := n, tweakdbIds := t, resources := r, strings := s,
                    definitions := .default :: (b.pool.definitions.drop 1).map Definition.written } } :=
  let ⟨n, t, r, s, h1, h2, h3, h4, h⟩ := load_image_any _ b hs q map bss hq extra hlen
  ⟨n, t, r, s, h1, h2, h3, h4, h _ rfl rfl rfl rfl rfl rfl⟩

theorem save_ok_parts (crc : Bytes → BitVec 32) (b : ScriptBundle) (hs : Saveable b.pool) :
    ∃ q map bss, PartsOf b.pool q map bss ∧ ∀ w : Writer, b.save crc w =
      .ok ⟨image (finalHeader crc b q) q ++ w.buf.drop (image (finalHeader crc b q) q).length,
        Header.size⟩ := by
  obtain ⟨bss, hb⟩ := encBodies_total _ hs.encodable
  obtain ⟨q, map, hq⟩ := exists_partsOf b.pool bss hb
  exact ⟨q, map, bss, hq, fun w => save_image crc b w hs.definitions q map bss hq⟩

theorem definition_written_same (d : Definition) : d.SameButFlags d.written :=
  ⟨rfl, written_sameButFlags d.value⟩

/-! ### The properties -/

/-- C09: saving succeeds, over any previous contents of the stream, and loading the result (when
below 4 GiB) returns the same string tables in the same order and the same definitions at the same
indexes, up to derived presence flags; index 0 is always the placeholder. Version, flags, timestamp
and chunk count of the header are kept. -/
theorem C09_save_load (crc : Bytes → BitVec 32) (b : ScriptBundle) (hs : Saveable b.pool) (w : Writer) :
    ∃ w', b.save crc w = .ok w' ∧ (w'.buf.length < 2 ^ 32 →
      ∃ b', ScriptBundle.load w'.buf = .ok b' ∧
        b'.pool.names.strings = b.pool.names.strings ∧
        b'.pool.tweakdbIds.strings = b.pool.tweakdbIds.strings ∧
        b'.pool.resources.strings = b.pool.resources.strings ∧
        b'.pool.strings.strings = b.pool.strings.strings ∧
        b'.pool.definitions.length = b.pool.definitions.length ∧
        b'.pool.definitions[0]? = some .default ∧
        (∀ (i : Nat) (d d' : Definition), 0 < i → b.pool.definitions[i]? = some d →
          b'.pool.definitions[i]? = some d' → d.SameButFlags d') ∧
        b'.header.version = b.header.version ∧ b'.header.flags = b.header.flags ∧
        b'.header.timestamp = b.header.timestamp ∧ b'.header.unk3 = b.header.unk3 ∧
        b'.header.chunks = b.header.chunks) := by
  obtain ⟨q, map, bss, hq, hsave⟩ := save_ok_parts crc b hs
  refine ⟨_, hsave w, fun hlen => ?_⟩
  obtain ⟨n, t, r, s, h1, h2, h3, h4, hl⟩ := load_image crc b hs q map bss hq _ hlen
  have hpos := List.length_pos_iff.2 hs.definitions
  refine ⟨_, hl, h1, h2, h3, h4, ?_, rfl, ?_, rfl, rfl, rfl, rfl, rfl⟩
  · simp; omega
  · intro i d d' hi hd hd'
    obtain ⟨j, rfl⟩ : ∃ j, i = j + 1 := ⟨i - 1, by omega⟩
    simp only [List.getElem?_cons_succ, List.getElem?_map, List.getElem?_drop] at hd'
    rw [Nat.add_comm 1 j, hd] at hd'
    simp only [Option.map_some, Option.some.injEq] at hd'
    subst hd'
    exact definition_written_same d

/-- C09: saving what was loaded reproduces the file byte for byte (apart from anything that already
followed it in the stream). -/
theorem C09_resave_identical (crc : Bytes → BitVec 32) (b b' : ScriptBundle) (hs : Saveable b.pool)
    (w' : Writer) (h : b.save crc ⟨[], 0⟩ = .ok w') (hlen : w'.buf.length < 2 ^ 32)
    (hl : ScriptBundle.load w'.buf = .ok b') : b'.save crc ⟨[], 0⟩ = .ok w' := by
  obtain ⟨q, map, bss, hq, hsave⟩ := save_ok_parts crc b hs
  rw [hsave] at h
  simp only [Except.ok.injEq] at h
  subst h
  obtain ⟨n, t, r, s, h1, h2, h3, h4, hl'⟩ := load_image crc b hs q map bss hq _ hlen
  simp only at hl
  rw [hl'] at hl
  simp only [Except.ok.injEq] at hl
  have hpos := List.length_pos_iff.2 hs.definitions
  have hdlen : b'.pool.definitions.length = b.pool.definitions.length := by
    rw [← hl]; simp; omega
  have hq' : PartsOf b'.pool q map bss := by
    rw [← hl]
    have hdl : (Definition.default :: (b.pool.definitions.drop 1).map Definition.written).length =
      b.pool.definitions.length := by simp; omega
    refine ⟨?_, ?_, ?_, ?_, ?_, ?_, hq.bodies, ?_⟩
    · simp only [h1, h2, h3, h4]; exact hq.data
    · simp only [h1]; exact hq.names
    · simp only [h2]; exact hq.tweakdb
    · simp only [h3]; exact hq.resources
    · simp only [h4]; exact hq.strings
    · simp only [List.drop_one, List.tail_cons]
      rw [← List.drop_one, encBodies_written]; exact hq.bodiesList
    · rw [hdl]
      have : (Definition.default :: (b.pool.definitions.drop 1).map Definition.written).drop 1 =
        (b.pool.definitions.drop 1).map Definition.written := rfl
      rw [this, mkHeaders_written]; exact hq.defHeaders
  have hne' : b'.pool.definitions ≠ [] := by rw [← hl]; simp
  rw [save_image crc b' ⟨[], 0⟩ hne' q map bss hq']
  have hfh : finalHeader crc b' q = finalHeader crc b q := by
    unfold finalHeader
    rw [hdlen, ← hl]
    simp only [h1, h2, h3, h4]
    rfl
  rw [hfh]

/-! ### C10 -/

theorem drop_flatMap_fixed {α : Type} (f : α → Bytes) (k : Nat) (hk : ∀ a, (f a).length = k)
    (as : List α) (i : Nat) (a : α) (h : as[i]? = some a) (rest : Bytes) :
    ∃ r, (as.flatMap f ++ rest).drop (k * i) = f a ++ r := by
  induction as generalizing i with
  | nil => simp at h
  | cons b as ih =>
    cases i with
    | zero =>
      simp at h
      subst h
      exact ⟨as.flatMap f ++ rest, by simp⟩
    | succ i =>
      obtain ⟨r, hr⟩ := ih i (by simpa using h)
      refine ⟨r, ?_⟩
      rw [List.flatMap_cons, List.append_assoc, Nat.mul_succ, Nat.add_comm, ← List.drop_drop,
        List.drop_left' (hk b), hr]

theorem tableAt_append (crc : Bytes → BitVec 32) (pre x post : Bytes) (width count : Nat)
    (hx : x.length = width * count) (hc : count < 2 ^ 32) (hp : pre.length < 2 ^ 32) :
    TableAt crc (pre ++ (x ++ post)) (.new crc x count pre.length) width count := by
  have ho : (BitVec.ofNat 32 pre.length).toNat = pre.length := by
    rw [BitVec.toNat_ofNat, Nat.mod_eq_of_lt hp]
  refine ⟨?_, ?_, ?_⟩
  · simp only [TableHeader.new]; rw [BitVec.toNat_ofNat, Nat.mod_eq_of_lt hc]
  · simp only [TableHeader.new, ho]; simp; omega
  · simp only [TableHeader.new, ho]; rw [List.drop_left, ← hx, List.take_left]

theorem stringsAt_append (pre pre' post data : Bytes) (crc : Bytes → BitVec 32) (n : Nat)
    (map : AMap String (BitVec 32)) (hinv : DedupInv data map)
    (ss : List String) (x : Bytes) (hx : Strings.encodedOffsets map ss = .ok x)
    (hlen : pre.length + (data.length + (pre'.length + x.length)) < 2 ^ 32) :
    StringsAt (pre ++ (data ++ (pre' ++ (x ++ post)))) (.new crc data data.length pre.length)
      (.new crc x n (pre.length + (data.length + pre'.length))) ss := by
  intro i s hs
  obtain ⟨offs, hxo, hall⟩ := encodedOffsets_ok hx
  obtain ⟨o, ho⟩ : ∃ o, offs[i]? = some o := by
    have : i < offs.length := by
      rw [← hall.length_eq]; exact (List.getElem?_eq_some_iff.1 hs).1
    exact ⟨offs[i], by simp [this]⟩
  have hm := hall.get i s o hs ho
  obtain ⟨p, q, hd, ho'⟩ := hinv s o hm
  have hpl : p.length < data.length := by
    rw [hd]; simp [encCStr]; omega
  have hon : o.toNat = p.length := by
    rw [ho', BitVec.toNat_ofNat, Nat.mod_eq_of_lt (by omega)]
  obtain ⟨r, hr⟩ := drop_flatMap_fixed encU32 4 (by intro; simp [encU32, leBytes_length]) offs i o ho post
  refine ⟨o, r, q ++ (pre' ++ (x ++ post)), ?_, ?_, ?_⟩
  · simp only [TableHeader.new]
    rw [BitVec.toNat_ofNat, Nat.mod_eq_of_lt (by omega), ← List.drop_drop]
    have : pre ++ (data ++ (pre' ++ (x ++ post))) = (pre ++ (data ++ pre')) ++ (x ++ post) := by simp
    rw [this, List.drop_left' (by simp), hxo, hr]
    exact decU32_rt o r
  · simp only [TableHeader.new]
    rw [BitVec.toNat_ofNat, Nat.mod_eq_of_lt (by omega), hon]
    exact hpl
  · simp only [TableHeader.new]
    rw [BitVec.toNat_ofNat, Nat.mod_eq_of_lt (by omega), hon, hd, ← List.drop_drop, List.drop_left]
    simp only [List.append_assoc, List.drop_left]
    simp [encCStr]

/-- Where `mkHeaders` says the body of definition `i` is. -/
theorem mkHeaders_get (ds : List Definition) (bs : List Bytes) (h : encBodies ds = .ok bs)
    (pre post : Bytes) (i : Nat) (d : Definition) (hd : ds[i]? = some d)
    (hlen : (pre ++ (bs.flatten ++ post)).length < 2 ^ 32) :
    ∃ b dh, encAnyDefinition d.value = .ok b ∧ (mkHeaders pre.length ds bs)[i]? = some dh ∧
      dh.name = d.name ∧ dh.parent = d.parent ∧ dh.type_ = d.value.type_ ∧
      dh.size.toNat = b.length ∧ dh.offset.toNat + b.length ≤ (pre ++ (bs.flatten ++ post)).length ∧
      ((pre ++ (bs.flatten ++ post)).drop dh.offset.toNat).take b.length = b := by
  induction ds generalizing bs pre i with
  | nil => simp at hd
  | cons e ds ih =>
    unfold encBodies at h
    cases h1 : encAnyDefinition e.value with
    | error e => rw [h1] at h; cases h
    | ok b =>
      rw [h1] at h
      cases h2 : encBodies ds with
      | error e => rw [h2] at h; cases h
      | ok bs' =>
        rw [h2] at h
        simp only [Except.ok.injEq] at h
        subst h
        simp only [List.flatten_cons, List.append_assoc] at hlen ⊢
        cases i with
        | zero =>
          simp at hd
          subst hd
          have hpre : pre.length < 2 ^ 32 := by simp at hlen ⊢; omega
          have hb : b.length < 2 ^ 32 := by simp at hlen ⊢; omega
          refine ⟨b, _, h1, rfl, rfl, rfl, rfl, ?_, ?_, ?_⟩
          · simp only; rw [BitVec.toNat_ofNat, Nat.mod_eq_of_lt hb]
          · simp only; rw [BitVec.toNat_ofNat, Nat.mod_eq_of_lt hpre]; simp
          · simp only; rw [BitVec.toNat_ofNat, Nat.mod_eq_of_lt hpre, List.drop_left, List.take_left]
        | succ i =>
          have := ih bs' h2 (pre ++ b) i (by simpa using hd) (by simpa using hlen)
          simp only [List.append_assoc, List.length_append] at this
          simpa [mkHeaders] using this

/-- The bytes of a saved file and their sizes. -/
theorem saved_layout (crc : Bytes → BitVec 32) (b : ScriptBundle) (hs : Saveable b.pool)
    (w w' : Writer) (h : b.save crc w = .ok w') (hlen : w'.buf.length < 2 ^ 32) :
    ∃ q map bss extra, PartsOf b.pool q map bss ∧ DedupInv q.data map ∧
      w'.buf = image (finalHeader crc b q) q ++ extra ∧
      w'.buf = encHeader (finalHeader crc b q) ++
        (q.data ++ (q.names ++ (q.tweakdb ++ (q.resources ++ (q.defHeaders ++ (q.strings ++
        (q.bodies ++ extra))))))) ∧
      q.names.length = 4 * b.pool.names.strings.length ∧
      q.tweakdb.length = 4 * b.pool.tweakdbIds.strings.length ∧
      q.resources.length = 4 * b.pool.resources.strings.length ∧
      q.defHeaders.length = DefinitionHeader.size_ * b.pool.definitions.length ∧
      q.strings.length = 4 * b.pool.strings.strings.length ∧
      b.pool.definitions.length ≤ q.defHeaders.length ∧
      Header.size + (q.data.length + (q.names.length + (q.tweakdb.length +
        (q.resources.length + (q.defHeaders.length + (q.strings.length + (q.bodies.length +
        extra.length))))))) < 2 ^ 32 := by
  obtain ⟨q, map, bss, hq, hsave⟩ := save_ok_parts crc b hs
  rw [hsave] at h
  simp only [Except.ok.injEq] at h
  subst h
  simp only at hlen ⊢
  generalize w.buf.drop (image (finalHeader crc b q) q).length = extra at hlen ⊢
  have hdh := hq.defHeaders_length hs.definitions
  have ln := encodedOffsets_length hq.names
  have lt := encodedOffsets_length hq.tweakdb
  have lr := encodedOffsets_length hq.resources
  have ls := encodedOffsets_length hq.strings
  have hfile : image (finalHeader crc b q) q ++ extra = encHeader (finalHeader crc b q) ++
      (q.data ++ (q.names ++ (q.tweakdb ++ (q.resources ++ (q.defHeaders ++ (q.strings ++
        (q.bodies ++ extra))))))) := by
    simp [image]
  have htotal : Header.size + (q.data.length + (q.names.length + (q.tweakdb.length +
      (q.resources.length + (q.defHeaders.length + (q.strings.length + (q.bodies.length +
      extra.length))))))) < 2 ^ 32 := by
    rw [hfile] at hlen
    simp only [List.length_append, encHeader_length] at hlen
    omega
  have h20 : b.pool.definitions.length ≤ q.defHeaders.length := by
    rw [hdh]; exact Nat.le_mul_of_pos_left _ (by decide)
  have hinv : DedupInv q.data map := by
    have := (dedup_spec (b.pool.names.strings ++ (b.pool.tweakdbIds.strings ++
      (b.pool.resources.strings ++ b.pool.strings.strings))) [] .empty (by intro s o hm; cases hm)).1
    rw [hq.data] at this
    exact this
  exact ⟨q, map, bss, extra, hq, hinv, rfl, hfile, ln, lt, lr, hdh, ls, h20, htotal⟩

/-- C10: the header at the start of a saved file records, for each table, the position of its bytes,
its number of elements and the checksum of its bytes; and the header's own checksum is that of the
header bytes with the placeholder `0xDEADBEEF` in the checksum field. -/
theorem C10_header_describes_tables (crc : Bytes → BitVec 32) (b : ScriptBundle) (hs : Saveable b.pool)
    (w w' : Writer) (h : b.save crc w = .ok w') (hlen : w'.buf.length < 2 ^ 32) :
    ∃ hd, decHeader w'.buf = .ok (hd, w'.buf.drop 104) ∧
      hd.hash = crc (encHeader { hd with hash := 0xDEADBEEF }) ∧
      TableAt crc w'.buf hd.data 1 hd.data.count.toNat ∧
      TableAt crc w'.buf hd.names 4 b.pool.names.strings.length ∧
      TableAt crc w'.buf hd.tweakdbIndexes 4 b.pool.tweakdbIds.strings.length ∧
      TableAt crc w'.buf hd.resources 4 b.pool.resources.strings.length ∧
      TableAt crc w'.buf hd.definitions 20 b.pool.definitions.length ∧
      TableAt crc w'.buf hd.strings 4 b.pool.strings.strings.length := by
  obtain ⟨q, map, bss, extra, hq, hinv, -, hfile, ln, lt, lr, hdh, ls, h20, htotal⟩ :=
    saved_layout crc b hs w w' h hlen
  have hhl := encHeader_length (finalHeader crc b q)
  refine ⟨finalHeader crc b q, ?_, rfl, ?_, ?_, ?_, ?_, ?_, ?_⟩
  · rw [hfile, decHeader_rt]
    exact congrArg (fun r => Except.ok (finalHeader crc b q, r)) (List.drop_left' hhl).symm
  · have e1 : (finalHeader crc b q).data.count.toNat = q.data.length := by
      show (BitVec.ofNat 32 _).toNat = _
      rw [BitVec.toNat_ofNat, Nat.mod_eq_of_lt (by omega)]
    rw [e1, hfile]
    have := tableAt_append crc (encHeader (finalHeader crc b q)) q.data
      (q.names ++ (q.tweakdb ++ (q.resources ++ (q.defHeaders ++ (q.strings ++
        (q.bodies ++ extra)))))) 1 q.data.length (by omega) (by omega) (by omega)
    rw [hhl] at this
    exact this
  · have := tableAt_append crc (encHeader (finalHeader crc b q) ++ q.data) q.names
      (q.tweakdb ++ (q.resources ++ (q.defHeaders ++ (q.strings ++
        (q.bodies ++ extra))))) 4 _ ln (by omega) (by simp only [List.length_append]; omega)
    rw [List.length_append, hhl] at this
    rw [hfile]; simp only [List.append_assoc] at this ⊢
    exact this
  · have := tableAt_append crc (encHeader (finalHeader crc b q) ++ q.data ++ q.names) q.tweakdb
      (q.resources ++ (q.defHeaders ++ (q.strings ++
        (q.bodies ++ extra)))) 4 _ lt (by omega) (by simp only [List.length_append]; omega)
    rw [List.length_append, List.length_append, hhl] at this
    rw [hfile]; simp only [List.append_assoc] at this ⊢
    exact this
  · have := tableAt_append crc (encHeader (finalHeader crc b q) ++ q.data ++ q.names ++ q.tweakdb)
      q.resources (q.defHeaders ++ (q.strings ++ (q.bodies ++ extra))) 4 _ lr (by omega)
      (by simp only [List.length_append]; omega)
    rw [List.length_append, List.length_append, List.length_append, hhl] at this
    rw [hfile]; simp only [List.append_assoc] at this ⊢
    exact this
  · have := tableAt_append crc (encHeader (finalHeader crc b q) ++ q.data ++ q.names ++ q.tweakdb ++
      q.resources) q.defHeaders (q.strings ++ (q.bodies ++ extra)) 20 b.pool.definitions.length hdh
      (by omega) (by simp only [List.length_append]; omega)
    rw [List.length_append, List.length_append, List.length_append, List.length_append, hhl] at this
    rw [hfile]; simp only [List.append_assoc] at this ⊢
    exact this
  · have := tableAt_append crc (encHeader (finalHeader crc b q) ++ q.data ++ q.names ++ q.tweakdb ++
      q.resources ++ q.defHeaders) q.strings (q.bodies ++ extra) 4 _ ls
      (by omega) (by simp only [List.length_append]; omega)
    rw [List.length_append, List.length_append, List.length_append, List.length_append,
      List.length_append, hhl] at this
    rw [hfile]; simp only [List.append_assoc] at this ⊢
    exact this

/-- C10: entry `i` of each string table locates the bytes of string `i` in the string data. -/
theorem C10_string_entries (crc : Bytes → BitVec 32) (b : ScriptBundle) (hs : Saveable b.pool)
    (w w' : Writer) (h : b.save crc w = .ok w') (hlen : w'.buf.length < 2 ^ 32) (hd : Header)
    (rest : Bytes) (hdec : decHeader w'.buf = .ok (hd, rest)) :
    StringsAt w'.buf hd.data hd.names b.pool.names.strings ∧
      StringsAt w'.buf hd.data hd.tweakdbIndexes b.pool.tweakdbIds.strings ∧
      StringsAt w'.buf hd.data hd.resources b.pool.resources.strings ∧
      StringsAt w'.buf hd.data hd.strings b.pool.strings.strings := by
  obtain ⟨q, map, bss, extra, hq, hinv, -, hfile, ln, lt, lr, hdh, ls, h20, htotal⟩ :=
    saved_layout crc b hs w w' h hlen
  have hhl := encHeader_length (finalHeader crc b q)
  rw [hfile, decHeader_rt] at hdec
  simp only [Except.ok.injEq, Prod.mk.injEq] at hdec
  obtain ⟨rfl, rfl⟩ := hdec
  refine ⟨?_, ?_, ?_, ?_⟩
  · have := stringsAt_append (encHeader (finalHeader crc b q)) [] (q.tweakdb ++ (q.resources ++
      (q.defHeaders ++ (q.strings ++ (q.bodies ++ extra))))) q.data crc b.pool.names.strings.length map hinv _ _
      hq.names (by simp only [List.length_nil]; omega)
    rw [hhl] at this
    rw [hfile]
    exact this
  · have := stringsAt_append (encHeader (finalHeader crc b q)) q.names (q.resources ++
      (q.defHeaders ++ (q.strings ++ (q.bodies ++ extra)))) q.data crc b.pool.tweakdbIds.strings.length map hinv
      _ _ hq.tweakdb (by omega)
    rw [hhl, ← Nat.add_assoc] at this
    rw [hfile]
    exact this
  · have := stringsAt_append (encHeader (finalHeader crc b q)) (q.names ++ q.tweakdb)
      (q.defHeaders ++ (q.strings ++ (q.bodies ++ extra))) q.data crc b.pool.resources.strings.length map hinv
      _ _ hq.resources (by simp only [List.length_append]; omega)
    rw [hhl, List.length_append, ← Nat.add_assoc, ← Nat.add_assoc] at this
    rw [hfile]
    simp only [List.append_assoc] at this
    exact this
  · have := stringsAt_append (encHeader (finalHeader crc b q)) (q.names ++ (q.tweakdb ++
      (q.resources ++ q.defHeaders))) (q.bodies ++ extra) q.data crc b.pool.strings.strings.length map hinv
      _ _ hq.strings (by simp only [List.length_append]; omega)
    rw [hhl] at this
    simp only [List.length_append, ← Nat.add_assoc] at this
    rw [hfile]
    simp only [List.append_assoc] at this
    exact this

/-- C10: entry `i ≥ 1` of the definition table names definition `i` and locates exactly its encoded
body in the file. -/
theorem C10_definition_entries (crc : Bytes → BitVec 32) (b : ScriptBundle) (hs : Saveable b.pool)
    (w w' : Writer) (h : b.save crc w = .ok w') (hlen : w'.buf.length < 2 ^ 32) (hd : Header)
    (rest : Bytes) (hdec : decHeader w'.buf = .ok (hd, rest)) (i : Nat) (d : Definition) (hi : 0 < i)
    (hdi : b.pool.definitions[i]? = some d) :
    ∃ dh body r, decDefinitionHeader (w'.buf.drop (hd.definitions.offset.toNat + 20 * i)) = .ok (dh, r) ∧
      dh.name = d.name ∧ dh.parent = d.parent ∧ dh.type_ = d.value.type_ ∧
      encAnyDefinition d.value = .ok body ∧ dh.size.toNat = body.length ∧
      (w'.buf.drop dh.offset.toNat).take dh.size.toNat = body := by
  obtain ⟨q, map, bss, extra, hq, hinv, -, hfile, ln, lt, lr, hdh, ls, h20, htotal⟩ :=
    saved_layout crc b hs w w' h hlen
  have hhl := encHeader_length (finalHeader crc b q)
  rw [hfile, decHeader_rt] at hdec
  simp only [Except.ok.injEq, Prod.mk.injEq] at hdec
  obtain ⟨rfl, rfl⟩ := hdec
  obtain ⟨j, rfl⟩ : ∃ j, i = j + 1 := ⟨i - 1, by omega⟩
  have hdj : (b.pool.definitions.drop 1)[j]? = some d := by
    rw [List.getElem?_drop, Nat.add_comm]; exact hdi
  have hbuf : w'.buf = (encHeader (finalHeader crc b q) ++ (q.data ++ (q.names ++ (q.tweakdb ++
      (q.resources ++ (q.defHeaders ++ q.strings)))))) ++ (bss.flatten ++ extra) := by
    rw [hfile, hq.bodies]; simp
  obtain ⟨body, dh, hb, hget, h1, h2, h3, h4, -, h6⟩ := mkHeaders_get _ bss hq.bodiesList
    (encHeader (finalHeader crc b q) ++ (q.data ++ (q.names ++ (q.tweakdb ++ (q.resources ++
      (q.defHeaders ++ q.strings)))))) extra j d hdj (by rw [← hbuf]; exact hlen)
  rw [← hbuf] at h6
  have hmk : (DefinitionHeader.default :: mkHeaders (Header.size + (q.data.length + (q.names.length +
      (q.tweakdb.length + (q.resources.length + (DefinitionHeader.size_ * b.pool.definitions.length +
      q.strings.length)))))) (b.pool.definitions.drop 1) bss)[j + 1]? = some dh := by
    simp only [List.length_append, hhl, hdh] at hget
    simpa using hget
  obtain ⟨r, hr⟩ := drop_flatMap_fixed encDefinitionHeader 20 encDefinitionHeader_length _ _ dh hmk
    (q.strings ++ (q.bodies ++ extra))
  refine ⟨dh, body, r, ?_, h1, h2, h3, hb, h4, by rw [h4]; exact h6⟩
  have ho : (finalHeader crc b q).definitions.offset.toNat = (encHeader (finalHeader crc b q) ++ (q.data ++
      (q.names ++ (q.tweakdb ++ q.resources)))).length := by
    show (BitVec.ofNat 32 _).toNat = _
    rw [BitVec.toNat_ofNat, Nat.mod_eq_of_lt (by omega)]
    simp only [List.length_append, hhl]
    omega
  have hbuf2 : w'.buf = (encHeader (finalHeader crc b q) ++ (q.data ++ (q.names ++ (q.tweakdb ++
      q.resources)))) ++ (q.defHeaders ++ (q.strings ++ (q.bodies ++ extra))) := by
    rw [hfile]; simp
  rw [ho, hbuf2, ← List.drop_drop, List.drop_left, hq.defHeaders]
  rw [List.flatMap_cons] at hr
  rw [hr]
  exact decDefinitionHeader_rt dh r

/-- C10: loading does not look at any checksum, nor at the recorded table positions: replacing the
header of a saved file by any other with the same element counts gives the same pool. -/
theorem C10_load_ignores_checksums (crc : Bytes → BitVec 32) (b : ScriptBundle) (hs : Saveable b.pool)
    (w w' : Writer) (h : b.save crc w = .ok w') (hlen : w'.buf.length < 2 ^ 32) (b' : ScriptBundle)
    (hl : ScriptBundle.load w'.buf = .ok b') (hd : Header)
    (hcounts : hd.data.count = b'.header.data.count ∧ hd.names.count = b'.header.names.count ∧
      hd.tweakdbIndexes.count = b'.header.tweakdbIndexes.count ∧
      hd.resources.count = b'.header.resources.count ∧ hd.strings.count = b'.header.strings.count ∧
      hd.definitions.count = b'.header.definitions.count) :
    ScriptBundle.load (encHeader hd ++ w'.buf.drop 104) = .ok { header := hd, pool := b'.pool } := by
  obtain ⟨q, map, bss, extra, hq, hinv, himg, hfile, -⟩ := saved_layout crc b hs w w' h hlen
  have hhl := encHeader_length (finalHeader crc b q)
  obtain ⟨n, t, r, s, -, -, -, -, hload⟩ := load_image_any _ b hs q map bss hq extra (himg ▸ hlen)
  rw [himg, hload _ rfl rfl rfl rfl rfl rfl] at hl
  simp only [Except.ok.injEq] at hl
  subst hl
  obtain ⟨c1, c2, c3, c4, c5, c6⟩ := hcounts
  have := hload hd c1 c2 c3 c4 c5 c6
  rw [hfile, show List.drop 104 (encHeader (finalHeader crc b q) ++ _) = _ from List.drop_left' hhl]
  simp only [image, List.append_assoc] at this
  exact this

/-! ### Non-vacuity and a counterexample -/

/-- A header for the examples. -/
def Header.sample : Header :=
  let t : TableHeader := ⟨0, 0, 0⟩
  { version := 14, flags := 0, timestamp := 7, unk3 := 0, hash := 0, chunks := 1,
    data := t, names := t, tweakdbIndexes := t, resources := t, strings := t, definitions := t }

/-- A pool with strings in three tables (one shared between two) and two real definitions. -/
def ConstantPool.sample : ConstantPool :=
  { names := ⟨["None", "Int32", "Days"], .empty⟩, tweakdbIds := ⟨["Items.Money"], .empty⟩,
    resources := ⟨[], .empty⟩, strings := ⟨["Days", "hi"], .empty⟩,
    definitions := [.default,
      { name := 1, parent := 0, unk1 := 0, unk2 := 0, unk3 := 0, value := .Type .Prim },
      { name := 2, parent := 1, unk1 := 0, unk2 := 0, unk3 := 0, value := .EnumValue 5 }] }

theorem nulFree_of_all (s : String) (h : (strBytes s).all (· != 0) = true) : NulFree s := by
  intro b hb
  have := List.all_eq_true.1 h b hb
  simpa using this

theorem ConstantPool.sample_saveable : Saveable ConstantPool.sample := by
  refine ⟨by simp [ConstantPool.sample], ?_, ?_, ?_, ?_, ?_, ?_⟩
  · intro d hd
    simp [ConstantPool.sample] at hd
    rcases hd with rfl | rfl <;> simp [AnyDefinition.Consistent]
  · intro d hd
    simp [ConstantPool.sample] at hd
    rcases hd with rfl | rfl
    · exact ⟨[0], rfl⟩
    · exact ⟨encU64 5, rfl⟩
  all_goals
    intro s hs
    simp [ConstantPool.sample] at hs
    try rcases hs with rfl | rfl | rfl
    try rcases hs with rfl | rfl
    try subst hs
    all_goals exact nulFree_of_all _ (by decide +kernel)

/-- The sample file satisfies every hypothesis of C09 and C10. -/
example : ∃ w', (⟨.sample, .sample⟩ : ScriptBundle).save (fun b => BitVec.ofNat 32 b.length) ⟨[], 0⟩ =
    .ok w' ∧ w'.buf.length < 2 ^ 32 ∧ (∃ b', ScriptBundle.load w'.buf = .ok b' ∧
      b'.pool.strings.strings = ["Days", "hi"]) := by
  obtain ⟨w', h, hl⟩ := C09_save_load (fun b => BitVec.ofNat 32 b.length) ⟨.sample, .sample⟩
    ConstantPool.sample_saveable ⟨[], 0⟩
  have hlt : w'.buf.length < 2 ^ 32 := by
    have : (match (⟨.sample, .sample⟩ : ScriptBundle).save (fun b => BitVec.ofNat 32 b.length) ⟨[], 0⟩ with
      | .ok w => decide (w.buf.length < 300) | .error _ => false) = true := by decide +kernel
    rw [h] at this
    simp only [decide_eq_true_eq] at this
    omega
  refine ⟨w', h, hlt, ?_⟩
  obtain ⟨b', h1, -, -, -, h2, -⟩ := hl hlt
  exact ⟨b', h1, h2⟩

/-- C09 fails for a bundle without definitions: the one placeholder definition header is then written
over the string table, so the strings are lost. -/
theorem C09_no_definitions_counterexample :
    ∃ (b : ScriptBundle) (w' : Writer), b.pool.definitions = [] ∧
      b.pool.strings.strings = ["a", "b"] ∧ b.save (fun _ => 0) ⟨[], 0⟩ = .ok w' ∧
      ∃ b', ScriptBundle.load w'.buf = .ok b' ∧ b'.pool.strings.strings = ["a", "a"] := by
  let b : ScriptBundle := ⟨.sample, ⟨.empty, .empty, .empty, ⟨["a", "b"], .empty⟩, []⟩⟩
  have : (match b.save (fun _ => 0) ⟨[], 0⟩ with
      | .ok w => match ScriptBundle.load w.buf with
        | .ok b' => decide (b'.pool.strings.strings = ["a", "a"])
        | .error _ => false
      | .error _ => false) = true := by decide +kernel
  refine ⟨b, ?_⟩
  cases h : b.save (fun _ => 0) ⟨[], 0⟩ with
  | error e => rw [h] at this; cases this
  | ok w =>
    rw [h] at this
    refine ⟨w, rfl, rfl, rfl, ?_⟩
    cases h2 : ScriptBundle.load w.buf with
    | error e => simp only [h2] at this; cases this
    | ok b' =>
      simp only [h2, decide_eq_true_eq] at this
      exact ⟨b', rfl, this⟩

end Redscript
