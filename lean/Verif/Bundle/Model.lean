import Verif.Definition.Model
import Verif.Util.AMap

/-!
# Script bundles (model)

Model of `core/src/bundle.rs` and of `StreamOffset` in `core/src/io.rs`: the header, the string
pools, the constant pool, saving and loading. The checksum function (`crc32fast::hash`) is a
parameter. Streams are byte lists with a position; host I/O errors are not modelled.
-/

namespace Redscript

/-! ## String pools -/

/-- `Strings<K>` (core/src/bundle.rs:357-362). `K::DEFAULT` is passed to the functions that use it. -/
structure Strings where
  strings : List String
  mappings : AMap String Idx
  deriving DecidableEq

namespace Strings

/-- `Default for Strings` (core/src/bundle.rs:432-440). -/
def empty : Strings := { strings := [], mappings := .empty }

/-- The default of `CName` (core/src/bundle.rs:740-742); the other pools have none (733-735, 747-756). -/
def cnameDefault : Option String := some "None"

/-- One iteration of `decode_from` (core/src/bundle.rs:368-373): read the string at `offset` of the
data buffer and append it; a repeated string is mapped to its last index. -/
def decodeStep (data : Bytes) (acc : Strings) (offset : BitVec 32) : Except Err Strings :=
  match decCStr (data.drop offset.toNat) with
  | .error e => .error e
  | .ok (s, _) =>
    .ok { strings := acc.strings ++ [s]
          mappings := acc.mappings.insert s (BitVec.ofNat 32 acc.strings.length) }

/-- `Strings::decode_from` (core/src/bundle.rs:365-380), continuing from `acc`. -/
def decodeFrom (data : Bytes) (acc : Strings) : List (BitVec 32) → Except Err Strings
  | [] => .ok acc
  | o :: os =>
    match decodeStep data acc o with
    | .error e => .error e
    | .ok acc' => decodeFrom data acc' os

/-- `Strings::encoded_offsets` (core/src/bundle.rs:382-388); a missing string would panic. -/
def encodedOffsets (strMap : AMap String (BitVec 32)) : List String → Enc
  | [] => .ok []
  | s :: ss =>
    match strMap.get s with
    | none => .error .panic
    | some off => .ok (encU32 off) +++ encodedOffsets strMap ss

/-- `Strings::get` and `get_ref` (core/src/bundle.rs:390-410); `none` is `StringNotFound`. -/
def get (dflt : Option String) (s : Strings) (index : Idx) : Option String :=
  match dflt with
  | some d => if index = 0 then some d else s.strings[index.toNat]?
  | none => s.strings[index.toNat]?

/-- `Strings::get_index` (core/src/bundle.rs:412-414). -/
def getIndex (s : Strings) (name : String) : Option Idx := s.mappings.get name

/-- `Strings::add` (core/src/bundle.rs:416-429). -/
def add (dflt : Option String) (s : Strings) (str : String) : Idx × Strings :=
  if dflt = some str then (0, s)
  else
    let idx : Idx := BitVec.ofNat 32 s.strings.length
    match s.mappings.get str with
    | some i => (i, s)
    | none => (idx, { strings := s.strings ++ [str], mappings := s.mappings.insert str idx })

end Strings

/-! ## Headers -/

/-- `TableHeader` (core/src/bundle.rs:442-447). -/
structure TableHeader where
  offset : BitVec 32
  count : BitVec 32
  hash : BitVec 32
  deriving DecidableEq, Repr

/-- `TableHeader::new` (core/src/bundle.rs:450-456); both casts are `as u32`. -/
def TableHeader.new (crc : Bytes → BitVec 32) (bytes : Bytes) (count offset : Nat) : TableHeader :=
  { offset := BitVec.ofNat 32 offset, count := BitVec.ofNat 32 count, hash := crc bytes }

/-- core/src/bundle.rs:459-467. -/
def decTableHeader : Dec TableHeader :=
  decU32.bind fun offset => decU32.bind fun count => decU32.bind fun hash =>
  .pure { offset, count, hash }
/-- core/src/bundle.rs:469-475. -/
def encTableHeader (t : TableHeader) : Bytes := encU32 t.offset ++ (encU32 t.count ++ encU32 t.hash)

/-- `Header` (core/src/bundle.rs:41-55); the timestamp is its raw 64-bit word (588-627). -/
structure Header where
  version : BitVec 32
  flags : BitVec 32
  timestamp : BitVec 64
  unk3 : BitVec 32
  hash : BitVec 32
  chunks : BitVec 32
  data : TableHeader
  names : TableHeader
  tweakdbIndexes : TableHeader
  resources : TableHeader
  strings : TableHeader
  definitions : TableHeader
  deriving DecidableEq, Repr

/-- core/src/bundle.rs:58. -/
def Header.magic : BitVec 32 := 0x53444552
/-- core/src/bundle.rs:59. -/
def Header.size : Nat := 104

/-- core/src/bundle.rs:63-105 (the unsupported-version warning has no effect on the result). -/
def decHeader : Dec Header :=
  decU32.bind fun magic =>
  if magic ≠ Header.magic then .fail .invalid else
  decU32.bind fun version =>
  decU32.bind fun flags =>
  decU64.bind fun timestamp =>
  decU32.bind fun unk3 =>
  decU32.bind fun hash =>
  decU32.bind fun chunks =>
  decTableHeader.bind fun data =>
  decTableHeader.bind fun names =>
  decTableHeader.bind fun tweakdbIndexes =>
  decTableHeader.bind fun resources =>
  decTableHeader.bind fun definitions =>
  decTableHeader.bind fun strings =>
  .pure { version, flags, timestamp, unk3, hash, chunks, data, names, tweakdbIndexes, resources,
          strings, definitions }

/-- core/src/bundle.rs:107-123. -/
def encHeader (h : Header) : Bytes :=
  encU32 Header.magic ++ (encU32 h.version ++ (encU32 h.flags ++ (encU64 h.timestamp ++
  (encU32 h.unk3 ++ (encU32 h.hash ++ (encU32 h.chunks ++ (encTableHeader h.data ++
  (encTableHeader h.names ++ (encTableHeader h.tweakdbIndexes ++ (encTableHeader h.resources ++
  (encTableHeader h.definitions ++ encTableHeader h.strings)))))))))))

/-- `DefinitionHeader` (core/src/bundle.rs:477-487). -/
structure DefinitionHeader where
  name : Idx
  parent : Idx
  offset : BitVec 32
  size : BitVec 32
  type_ : DefinitionType
  unk1 : Byte
  unk2 : Byte
  unk3 : Byte
  deriving DecidableEq, Repr

/-- core/src/bundle.rs:490-499. -/
def DefinitionHeader.default : DefinitionHeader :=
  { name := 0, parent := 0, offset := 0, size := 0, type_ := .Type, unk1 := 0, unk2 := 0, unk3 := 0 }

/-- core/src/bundle.rs:500. -/
def DefinitionHeader.size_ : Nat := 20

/-- `DefinitionType::from_bytes(..).expect(..)` (core/src/bundle.rs:576-580). -/
def decDefinitionType : Dec DefinitionType := decU8.bind fun b =>
  match b.toNat with
  | 0 => .pure .Type
  | 1 => .pure .Class
  | 2 => .pure .EnumValue
  | 3 => .pure .Enum
  | 4 => .pure .BitField
  | 5 => .pure .Function
  | 6 => .pure .Parameter
  | 7 => .pure .Local
  | 8 => .pure .Field
  | 9 => .pure .SourceFile
  | _ => .fail .panic

/-- core/src/bundle.rs:582-586. -/
def encDefinitionType : DefinitionType → Bytes
  | .Type => encU8 0
  | .Class => encU8 1
  | .EnumValue => encU8 2
  | .Enum => encU8 3
  | .BitField => encU8 4
  | .Function => encU8 5
  | .Parameter => encU8 6
  | .Local => encU8 7
  | .Field => encU8 8
  | .SourceFile => encU8 9

/-- core/src/bundle.rs:524-545. -/
def decDefinitionHeader : Dec DefinitionHeader :=
  decIdx.bind fun name => decIdx.bind fun parent => decU32.bind fun offset => decU32.bind fun size =>
  decDefinitionType.bind fun type_ => decU8.bind fun unk1 => decU8.bind fun unk2 =>
  decU8.bind fun unk3 => .pure { name, parent, offset, size, type_, unk1, unk2, unk3 }
/-- core/src/bundle.rs:547-558. -/
def encDefinitionHeader (h : DefinitionHeader) : Bytes :=
  encIdx h.name ++ (encIdx h.parent ++ (encU32 h.offset ++ (encU32 h.size ++
  (encDefinitionType h.type_ ++ (encU8 h.unk1 ++ (encU8 h.unk2 ++ encU8 h.unk3))))))

/-! ## Pools and bundles -/

/-- `ConstantPool` (core/src/bundle.rs:125-132). -/
structure ConstantPool where
  names : Strings
  tweakdbIds : Strings
  resources : Strings
  strings : Strings
  definitions : List Definition

/-- `ScriptBundle` (core/src/bundle.rs:17-21). -/
structure ScriptBundle where
  header : Header
  pool : ConstantPool

/-! ## Loading -/

/-- `Definition::decode` (core/src/definition.rs:33-57): seek to the recorded offset of the file. -/
def decDefinition (file : Bytes) (h : DefinitionHeader) : Except Err Definition :=
  match decAnyDefinition h.type_ (file.drop h.offset.toNat) with
  | .error e => .error e
  | .ok (value, _) =>
    .ok { name := h.name, parent := h.parent, unk1 := h.unk1, unk2 := h.unk2, unk3 := h.unk3, value }

/-- The loop of core/src/bundle.rs:149-152. -/
def decDefinitions (file : Bytes) : List DefinitionHeader → Except Err (List Definition)
  | [] => .ok []
  | h :: hs =>
    match decDefinition file h with
    | .error e => .error e
    | .ok d => match decDefinitions file hs with
      | .error e => .error e
      | .ok ds => .ok (d :: ds)

/-- `Strings::decode_from(&mut cursor, &input.decode_vec(count)?)`: read a table of offsets, then the
strings from the data buffer. -/
def decStrings (data : Bytes) (count : BitVec 32) : Dec Strings :=
  (decList decU32 count.toNat).bind fun offsets => Dec.lift (Strings.decodeFrom data .empty offsets)

/-- `ConstantPool::decode` (core/src/bundle.rs:135-162): the tables are read in sequence after the
header, definition bodies at their recorded offsets in the file. -/
def decPool (file : Bytes) (header : Header) : Dec ConstantPool :=
  (decBytes header.data.count.toNat).bind fun data =>
  (decStrings data header.names.count).bind fun names =>
  (decStrings data header.tweakdbIndexes.count).bind fun tweakdbIds =>
  (decStrings data header.resources.count).bind fun resources =>
  (decList decDefinitionHeader header.definitions.count.toNat).bind fun headers =>
  (decStrings data header.strings.count).bind fun strings =>
  (Dec.lift (decDefinitions file (headers.drop 1))).bind fun defs =>
  .pure { names, tweakdbIds, resources, strings, definitions := Definition.default :: defs }

/-- `ScriptBundle::load` (core/src/bundle.rs:24-29) on a stream positioned at its start. -/
def ScriptBundle.load (file : Bytes) : Except Err ScriptBundle :=
  match (decHeader.bind fun header => (decPool file header).bind fun pool =>
    .pure { header, pool : ScriptBundle }) file with
  | .ok (b, _) => .ok b
  | .error e => .error e

/-! ## Saving -/

/-- A seekable output stream: `File` or `io::Cursor<Vec<u8>>`. -/
structure Writer where
  buf : Bytes
  pos : Nat
  deriving DecidableEq, Repr

/-- Replace the bytes at `pos`, zero-filling a gap before it and extending the end as needed; an
empty write does nothing. -/
def writeAt (buf : Bytes) (pos : Nat) (bs : Bytes) : Bytes :=
  if bs = [] then buf
  else
    let padded := buf ++ List.replicate (pos - buf.length) 0
    padded.take pos ++ (bs ++ padded.drop (pos + bs.length))

/-- `write_all`. -/
def Writer.write (w : Writer) (bs : Bytes) : Writer :=
  { buf := writeAt w.buf w.pos bs, pos := w.pos + bs.length }

/-- `seek(SeekFrom::Start(pos))`. -/
def Writer.seek (w : Writer) (pos : Nat) : Writer := { w with pos }

/-- The deduplication loop (core/src/bundle.rs:167-182): the string data buffer and the offset of
each distinct string (cast to `u32`). -/
def dedup : List String → Bytes × AMap String (BitVec 32) → Bytes × AMap String (BitVec 32)
  | [], acc => acc
  | s :: ss, (buffer, map) =>
    match map.get s with
    | none => dedup ss (buffer ++ encCStr s, map.insert s (BitVec.ofNat 32 buffer.length))
    | some _ => dedup ss (buffer, map)

/-- `DefinitionHeader::encode_definition` (core/src/bundle.rs:502-521) and the loop around it
(core/src/bundle.rs:218-221): write each body, collecting the encoded headers in `buffer`.
`offset` is the counter of `StreamOffset` (core/src/io.rs:20-44). A body is written by many
`write` calls; their concatenation is written here at once. -/
def encodeDefinitions : List Definition → (w : Writer) → (offset : Nat) → (buffer : Bytes) →
    Except Err (Writer × Bytes)
  | [], w, _, buffer => .ok (w, buffer)
  | d :: ds, w, offset, buffer =>
    match encAnyDefinition d.value with
    | .error e => .error e
    | .ok bytes =>
      let header : DefinitionHeader :=
        { name := d.name, parent := d.parent, offset := BitVec.ofNat 32 offset,
          size := BitVec.ofNat 32 ((offset + bytes.length) - offset), type_ := d.value.type_,
          unk1 := d.unk1, unk2 := d.unk2, unk3 := d.unk3 }
      encodeDefinitions ds (w.write bytes) (offset + bytes.length) (buffer ++ encDefinitionHeader header)

/-- `ConstantPool::encode` (core/src/bundle.rs:164-242). -/
def encodePool (crc : Bytes → BitVec 32) (p : ConstantPool) (header : Header) (w0 : Writer) :
    Except Err (Header × Writer) :=
  let (dataBuf, map) :=
    dedup (p.names.strings ++ (p.tweakdbIds.strings ++ (p.resources.strings ++ p.strings.strings)))
      ([], .empty)
  let data := TableHeader.new crc dataBuf dataBuf.length w0.pos
  let w1 := w0.write dataBuf
  match Strings.encodedOffsets map p.names.strings with
  | .error e => .error e
  | .ok nameOffsets =>
  let names := TableHeader.new crc nameOffsets p.names.strings.length w1.pos
  let w2 := w1.write nameOffsets
  match Strings.encodedOffsets map p.tweakdbIds.strings with
  | .error e => .error e
  | .ok tweakdbOffsets =>
  let tweakdbIndexes := TableHeader.new crc tweakdbOffsets p.tweakdbIds.strings.length w2.pos
  let w3 := w2.write tweakdbOffsets
  match Strings.encodedOffsets map p.resources.strings with
  | .error e => .error e
  | .ok resourceOffsets =>
  let resources := TableHeader.new crc resourceOffsets p.resources.strings.length w3.pos
  let w4 := w3.write resourceOffsets
  let defHeaderPos := w4.pos
  let w5 := w4.seek (w4.pos + DefinitionHeader.size_ * p.definitions.length)
  match Strings.encodedOffsets map p.strings.strings with
  | .error e => .error e
  | .ok stringOffsets =>
  let strings := TableHeader.new crc stringOffsets p.strings.strings.length w5.pos
  let w6 := w5.write stringOffsets
  match encodeDefinitions (p.definitions.drop 1) w6 w6.pos (encDefinitionHeader .default) with
  | .error e => .error e
  | .ok (w7, buffer) =>
  let w8 := (w7.seek defHeaderPos).write buffer
  let definitions := TableHeader.new crc buffer p.definitions.length defHeaderPos
  let forHash : Header :=
    { header with data, names, tweakdbIndexes, resources, strings, definitions, hash := 0xDEADBEEF }
  .ok ({ forHash with hash := crc (encHeader forHash) }, w8)

/-- `ScriptBundle::save` (core/src/bundle.rs:31-39). -/
def ScriptBundle.save (crc : Bytes → BitVec 32) (b : ScriptBundle) (w : Writer) : Except Err Writer :=
  match encodePool crc b.pool b.header (w.seek Header.size) with
  | .error e => .error e
  | .ok (header, w') => .ok ((w'.seek 0).write (encHeader header))

end Redscript
