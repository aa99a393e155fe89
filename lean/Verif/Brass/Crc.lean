/-!
# Model of the dependency `crc32fast` (as far as the code observes it) and of `std::hash::Hasher`'s integer writers

Simplification: `crc32fast` computes the checksum with tables or CLMUL; here it is the bit-by-bit algorithm.  That the
crate computes CRC-32 (IEEE) is part of the trusted base.
-/

namespace Verif.Brass

/-- One bit of the reflected CRC-32 shift register, generator 0xEDB88320. -/
def crcBit (c : UInt32) : UInt32 := if c &&& 1 = 1 then (c >>> 1) ^^^ 0xEDB88320 else c >>> 1

/-- One byte. -/
def crcByte (c : UInt32) (b : UInt8) : UInt32 :=
  crcBit (crcBit (crcBit (crcBit (crcBit (crcBit (crcBit (crcBit (c ^^^ b.toUInt32))))))))

/-- The hasher: the checksum of what has been written so far (`crc32fast::Hasher`). -/
structure Hasher where
  state : UInt32
  deriving DecidableEq

/-- `crc32fast::Hasher::new` -/
def Hasher.new : Hasher := { state := 0 }

/-- `crc32fast::Hasher::update` / `<Hasher as std::hash::Hasher>::write`: the stored checksum is complemented, the bytes
are processed and the result is complemented again. -/
def Hasher.write (h : Hasher) (bytes : List UInt8) : Hasher :=
  { state := ~~~ (bytes.foldl crcByte (~~~ h.state)) }

/-- `crc32fast::Hasher::finalize` -/
def Hasher.finalize (h : Hasher) : UInt32 := h.state

/-- `crc32fast::hash` -/
def crcHash (bytes : List UInt8) : UInt32 := (Hasher.new.write bytes).finalize

/-- `n` little-endian bytes of a natural number (`to_ne_bytes` on a little-endian target). -/
def leBytesNat : Nat → Nat → List UInt8
  | 0, _ => []
  | n + 1, v => UInt8.ofNat (v % 256) :: leBytesNat n (v / 256)

/-- Two's complement bits of an integer. -/
def wrapBits (bits : Nat) (i : Int) : Nat := (i % (2 ^ bits : Int)).toNat

/-- `Hasher::write_u32` -/
def Hasher.writeU32 (h : Hasher) (v : UInt32) : Hasher := h.write (leBytesNat 4 v.toNat)
/-- `Hasher::write_i32` -/
def Hasher.writeI32 (h : Hasher) (v : Int) : Hasher := h.write (leBytesNat 4 (wrapBits 32 v))
/-- `Hasher::write_u8` -/
def Hasher.writeU8 (h : Hasher) (v : UInt8) : Hasher := h.write [v]
/-- `Hasher::write_usize` (64-bit target) -/
def Hasher.writeUsize (h : Hasher) (v : Nat) : Hasher := h.write (leBytesNat 8 v)
/-- `Hasher::write_isize` (64-bit target) -/
def Hasher.writeIsize (h : Hasher) (v : Int) : Hasher := h.write (leBytesNat 8 (wrapBits 64 v))

example : crcHash [0x31, 0x32, 0x33, 0x34, 0x35, 0x36, 0x37, 0x38, 0x39] = 0xCBF43926 := by decide +kernel

end Verif.Brass
