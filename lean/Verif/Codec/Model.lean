/-!
# Primitive binary codec

Model of `core/src/encode.rs` and `core/src/decode.rs`.

Streams are in-memory byte lists: an encoder returns the bytes it writes, a decoder takes the
remaining input and returns the value with the rest of the input. Integers are bit vectors of the
Rust width (signed integers are their two's complement pattern, floats their IEEE bit pattern, which
is what `byteorder` writes). A Rust panic is the explicit error `Err.panic`.
-/

namespace Redscript

/-- One byte of a stream (`u8`). -/
abbrev Byte := BitVec 8

/-- A byte string. -/
abbrev Bytes := List Byte

/-- Ways in which encoding or decoding can fail. `eof` is `ErrorKind::UnexpectedEof` raised by
`read_exact`, `invalid` is `ErrorKind::InvalidData`, `panic` is an aborting `expect`/`panic!`. -/
inductive Err where
  | eof
  | invalid
  | panic
  deriving DecidableEq, Repr

deriving instance DecidableEq for Except

/-- Result of an encoder: the bytes written, or a panic (core/src/encode.rs:7-9). Host write errors
are not modelled. -/
abbrev Enc := Except Err Bytes

/-- Decoder: consumes a prefix of the input (core/src/decode.rs:5-7). -/
abbrev Dec (α : Type) := Bytes → Except Err (α × Bytes)

namespace Dec

/-- `Ok(a)` without touching the input. -/
def pure (a : α) : Dec α := fun bs => .ok (a, bs)

/-- The `?` operator: run `d`, then continue with its value on the remaining input. -/
def bind (d : Dec α) (f : α → Dec β) : Dec β := fun bs =>
  match d bs with
  | .ok (a, rest) => f a rest
  | .error e => .error e

/-- Return an error. -/
def fail (e : Err) : Dec α := fun _ => .error e

end Dec

/-- Two consecutive writes with `?` in between. -/
def Enc.seq (x y : Enc) : Enc :=
  match x with
  | .ok a => match y with
    | .ok b => .ok (a ++ b)
    | .error e => .error e
  | .error e => .error e

@[inherit_doc] infixr:65 " +++ " => Enc.seq

/-! ## Little-endian integers -/

/-- `k` bytes of `n`, least significant first: `write_*::<LittleEndian>` of `byteorder`. -/
def leBytes : Nat → Nat → Bytes
  | 0, _ => []
  | k + 1, n => BitVec.ofNat 8 (n % 256) :: leBytes k (n / 256)

/-- `read_*::<LittleEndian>` of `byteorder`: read exactly `k` bytes as a natural number. -/
def leNat : Nat → Dec Nat
  | 0 => fun bs => .ok (0, bs)
  | k + 1 => fun bs =>
    match bs with
    | [] => .error .eof
    | b :: rest =>
      match leNat k rest with
      | .ok (n, rest') => .ok (b.toNat + 256 * n, rest')
      | .error e => .error e

/-- core/src/encode.rs:60-65 (and `i8`, 32-37). -/
def encU8 (v : BitVec 8) : Bytes := [v]
/-- core/src/encode.rs:53-58 (and `i16`, 25-30). -/
def encU16 (v : BitVec 16) : Bytes := leBytes 2 v.toNat
/-- core/src/encode.rs:46-51 (`i32` 18-23, `f32` 81-86 bit patterns). -/
def encU32 (v : BitVec 32) : Bytes := leBytes 4 v.toNat
/-- core/src/encode.rs:39-44 (`i64` 11-16, `f64` 74-79 bit patterns). -/
def encU64 (v : BitVec 64) : Bytes := leBytes 8 v.toNat
/-- core/src/encode.rs:67-72. -/
def encBool (b : Bool) : Bytes := [if b then 1 else 0]

/-- core/src/decode.rs:58-63 (and `i8`, 30-35). -/
def decU8 : Dec (BitVec 8) := fun bs =>
  match bs with
  | [] => .error .eof
  | b :: rest => .ok (b, rest)
/-- core/src/decode.rs:51-56 (and `i16`, 23-28). -/
def decU16 : Dec (BitVec 16) := (leNat 2).bind fun n => .pure (BitVec.ofNat 16 n)
/-- core/src/decode.rs:44-49 (`i32` 16-21, `f32` 79-84 bit patterns). -/
def decU32 : Dec (BitVec 32) := (leNat 4).bind fun n => .pure (BitVec.ofNat 32 n)
/-- core/src/decode.rs:37-42 (`i64` 9-14, `f64` 72-77 bit patterns). -/
def decU64 : Dec (BitVec 64) := (leNat 8).bind fun n => .pure (BitVec.ofNat 64 n)
/-- core/src/decode.rs:65-70: any non-zero byte is `true`. -/
def decBool : Dec Bool := decU8.bind fun b => .pure (b != 0)

/-! ## Byte strings and UTF-8 -/

/-- `str::as_bytes`: the UTF-8 bytes of a string. -/
def strBytes (s : String) : Bytes := s.toByteArray.data.toList.map UInt8.toBitVec

/-- `String::from_utf8(..).map_err(InvalidData)` (core/src/decode.rs:96, 137). -/
def strOfBytes (bs : Bytes) : Except Err String :=
  match String.fromUTF8? ⟨(bs.map UInt8.ofBitVec).toArray⟩ with
  | some s => .ok s
  | none => .error .invalid

/-- `read_exact` on `n` bytes (core/src/decode.rs:100-107 for `[u8; N]`, 129-134 `decode_bytes`). -/
def decBytes (n : Nat) : Dec Bytes := fun bs =>
  if n ≤ bs.length then .ok (bs.take n, bs.drop n) else .error .eof

/-- The loop of core/src/decode.rs:88-95: collect bytes up to (and drop) the first zero. -/
def decUntilNul : Dec Bytes := fun bs =>
  match bs with
  | [] => .error .eof
  | b :: rest =>
    if b = 0 then .ok ([], rest)
    else match decUntilNul rest with
      | .ok (s, rest') => .ok (b :: s, rest')
      | .error e => .error e

/-- Lift a pure check (`map_err`) into a decoder. -/
def Dec.lift (x : Except Err α) : Dec α := fun bs =>
  match x with
  | .ok a => .ok (a, bs)
  | .error e => .error e

/-- NUL-terminated string, core/src/encode.rs:88-94. -/
def encCStr (s : String) : Bytes := strBytes s ++ [0]
/-- NUL-terminated string, core/src/decode.rs:86-98. -/
def decCStr : Dec String := decUntilNul.bind fun bs => Dec.lift (strOfBytes bs)

/-! ## Sequences -/

/-- `encode_slice`, core/src/encode.rs:109-114. -/
def encList (enc : α → Enc) : List α → Enc
  | [] => .ok []
  | a :: as => enc a +++ encList enc as

/-- `decode_vec`, core/src/decode.rs:115-122 (`Vec::with_capacity` allocation is not modelled). -/
def decList (dec : Dec α) : Nat → Dec (List α)
  | 0 => .pure []
  | n + 1 => dec.bind fun a => (decList dec n).bind fun as => .pure (a :: as)

/-- A length written as `u16`; core/src/encode.rs:116-122. -/
def encLen16 (n : Nat) : Enc := if n < 2 ^ 16 then .ok (encU16 (BitVec.ofNat 16 n)) else .error .panic
/-- A length written as `u32`; core/src/encode.rs:116-122. -/
def encLen32 (n : Nat) : Enc := if n < 2 ^ 32 then .ok (encU32 (BitVec.ofNat 32 n)) else .error .panic

/-- `encode_slice_prefixed::<u32, _>`, core/src/encode.rs:116-122. -/
def encVec32 (enc : α → Enc) (as : List α) : Enc := encLen32 as.length +++ encList enc as

/-- `decode_vec_prefixed::<u32, _>`, core/src/decode.rs:124-127. -/
def decVec32 (dec : Dec α) : Dec (List α) := decU32.bind fun n => decList dec n.toNat

/-- `encode_str_prefixed::<u16>`, core/src/encode.rs:128-133. -/
def encStr16 (s : String) : Enc := encLen16 (strBytes s).length +++ .ok (strBytes s)
/-- `encode_str_prefixed::<u32>`, core/src/encode.rs:128-133. -/
def encStr32 (s : String) : Enc := encLen32 (strBytes s).length +++ .ok (strBytes s)

/-- `decode_str`, core/src/decode.rs:136-138. -/
def decStr (n : Nat) : Dec String := (decBytes n).bind fun bs => Dec.lift (strOfBytes bs)
/-- `decode_str_prefixed::<u16>`, core/src/decode.rs:140-143. -/
def decStr16 : Dec String := decU16.bind fun n => decStr n.toNat
/-- `decode_str_prefixed::<u32>`, core/src/decode.rs:140-143. -/
def decStr32 : Dec String := decU32.bind fun n => decStr n.toNat

end Redscript
