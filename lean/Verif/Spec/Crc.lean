/-!
# Specification of CRC-32 (IEEE 802.3, "CRC-32/ISO-HDLC") as a remainder of polynomial division over GF(2)

Polynomials are lists of coefficients, highest power first.  The message bits are taken from each byte lowest bit first;
the first 32 of them (the message is followed by 32 zero coefficients) are complemented; the remainder of the division by
the generator, complemented, is the checksum, its highest power being the lowest bit of the 32-bit result.
-/

namespace Verif.Spec

/-- Coefficients `x^31 … x^0` of the generator `x^32+x^26+x^23+x^22+x^16+x^12+x^11+x^10+x^8+x^7+x^5+x^4+x^2+x+1`. -/
def crcPoly : List Bool := (List.range 32).map fun i => [26, 23, 22, 16, 12, 11, 10, 8, 7, 5, 4, 2, 1, 0].contains (31 - i)

/-- Add `p` to the leading coefficients of `q` (over GF(2)). -/
def addLead : (p q : List Bool) → List Bool
  | a :: p, b :: q => (a ^^ b) :: addLead p q
  | _, q => q

/-- `n` steps of long division by the generator: the leading coefficient is cancelled by subtracting the generator. -/
def longDiv : Nat → List Bool → List Bool
  | n + 1, h :: q => longDiv n (if h then addLead crcPoly q else q)
  | _, q => q

/-- The bits of a byte, lowest first. -/
def byteBits (b : UInt8) : List Bool := (List.range 8).map fun i => b.toNat.testBit i

/-- The bits of a byte string. -/
def messageBits (bytes : List UInt8) : List Bool := bytes.flatMap byteBits

/-- CRC-32 of a byte string, as 32 bits, lowest first. -/
def crc32 (bytes : List UInt8) : List Bool :=
  let m := messageBits bytes
  (longDiv m.length (addLead (List.replicate 32 true) (m ++ List.replicate 32 false))).map not

end Verif.Spec
