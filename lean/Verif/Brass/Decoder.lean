import Verif.Brass.Monad

/-!
# Model of `brass/src/decoder.rs`
-/

namespace Verif.Brass

open Verif

/-- decoder.rs:16-22 `Decoder::new`, with the value `ERRORS` has at that moment. -/
def St.new (buf : List UInt8) (errors : Option DecodeError) : St :=
  { buf := buf, pos := 0, code := Code.new, errors := errors }

/-- decoder.rs:30-41 `advance` -/
def advance (count : Nat) : M Unit := fun s =>
  if count > s.buf.length then .err { kind := .noMoreData, position := s.pos } s
  else .ok () { s with buf := s.buf.drop count, pos := s.pos + count }

/-- decoder.rs:44-56 `read_bytes` into a buffer of length `n`; returns its new contents. -/
def readBytes (n : Nat) : M (List UInt8) := fun s =>
  if n > s.buf.length then .err { kind := .noMoreData, position := s.pos } s
  else .ok (s.buf.take n) { s with buf := s.buf.drop n, pos := s.pos + n }

/-- `uN::from_le_bytes` -/
def leNat : List UInt8 → Nat
  | [] => 0
  | b :: r => b.toNat + 256 * leNat r

/-- Reinterpret `bits` bits as a two's complement number (`iN::from_le_bytes`). -/
def toSigned (bits : Nat) (n : Nat) : Int := if n < 2 ^ (bits - 1) then (n : Int) else (n : Int) - (2 ^ bits : Int)

/-- decoder.rs:89-112 `impl_decode!` for the unsigned type of `n` bytes (u8, u16, u32, u64) -/
def decodeUnsigned (n : Nat) : M Nat := do
  let bytes ← readBytes n
  pure (leNat bytes)

/-- decoder.rs:89-112 `impl_decode!` for the signed type of `n` bytes (i8, i16, i32, i64) -/
def decodeSigned (n : Nat) : M Int := do
  let bytes ← readBytes n
  pure (toSigned (8 * n) (leNat bytes))

/-- `u8::decode` -/
def decodeU8 : M Nat := decodeUnsigned 1

/-- `i32::decode` -/
def decodeI32 : M Int := decodeSigned 4

/-- decoder.rs:114-119 `f64::decode`; the result is the bits (`f64::from_bits` keeps them). -/
def decodeF64 : M Nat := decodeUnsigned 8

/-- decoder.rs:58-78 `read_index` -/
def readIndex : M Int := do
  let b ← decodeU8
  if b &&& 0x80 = 0 then pure ((b &&& 0x7F : Nat) : Int)
  else if b &&& 0x40 = 0 then do
    -- line 65: `.unwrap()`
    let x ← M.unwrap decodeU8
    let v : Nat := x ||| ((b &&& 31) <<< 8)
    pure (if b &&& 0x20 = 0 then (v : Int) else -(v : Int))
  else do
    let c ← decodeU8
    let d ← decodeU8
    let e ← decodeU8
    -- line 75: `i32::from_le_bytes([b, c, d, e])`
    pure (toSigned 32 (b + 256 * (c + 256 * (d + 256 * e))))

end Verif.Brass
