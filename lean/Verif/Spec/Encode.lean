import Verif.Brass.Types

/-!
# The HashLink encoding of numbers

Written from the HashLink format (`genhl.ml`, `code.c`), not from brass.
-/

namespace Verif.Brass.Spec

/-- `n` bytes, little endian. -/
def leBytes : Nat → Nat → List UInt8
  | 0, _ => []
  | n + 1, v => UInt8.ofNat (v % 256) :: leBytes n (v / 256)

/-- `n` bytes of a signed number, two's complement, little endian. -/
def leBytesSigned (n : Nat) (v : Int) : List UInt8 := leBytes n (v % (2 ^ (8 * n) : Nat)).toNat

/-- HashLink's variable-length index (`write_index_gen` of `genhl.ml`): one byte for `0..0x7F`, two bytes below `0x2000`
in absolute value, four bytes below `2^29`; most significant byte first, flags and sign in the top three bits. -/
def hlIndex (i : Int) : List UInt8 :=
  let n := i.natAbs
  if i < 0 then
    if n < 0x2000 then [UInt8.ofNat (n / 256 + 0xA0), UInt8.ofNat (n % 256)]
    else [UInt8.ofNat (n / 0x1000000 + 0xE0), UInt8.ofNat (n / 0x10000 % 256), UInt8.ofNat (n / 256 % 256), UInt8.ofNat (n % 256)]
  else if n < 0x80 then [UInt8.ofNat n]
  else if n < 0x2000 then [UInt8.ofNat (n / 256 + 0x80), UInt8.ofNat (n % 256)]
  else [UInt8.ofNat (n / 0x1000000 + 0xC0), UInt8.ofNat (n / 0x10000 % 256), UInt8.ofNat (n / 256 % 256), UInt8.ofNat (n % 256)]

end Verif.Brass.Spec
