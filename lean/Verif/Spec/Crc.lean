import Verif.Basic
/-!
# Vocabulary for C60, C61, C82, C83, C135: bits of a packet in the order in which they are sent
-/
namespace P1P2

/-- Bit `k` of a packet: byte `k / 8`, least significant bit first. -/
def packetBit (data : Nat → UInt8) (k : Nat) : Bool := (data (k / 8)).toNat.testBit (k % 8)

/-- The numbers of the bits in which two packets of `len` bytes differ. -/
def flipped (data data' : Nat → UInt8) (len : Nat) : List Nat :=
  (List.range (8 * len)).filter fun k => packetBit data k != packetBit data' k

/-- The polynomial `x^8 + x^7 + x^4 + x^3 + x + 1` over GF(2): coefficients, that of the highest power first. -/
def generator (k : Nat) : Bool := [true, true, false, false, true, true, false, true, true].getD k false

/-- Coefficient `k` of the product of two polynomials over GF(2), that of the highest power first. -/
def mulCoeff (p q : Nat → Bool) (k : Nat) : Bool := (List.range (k + 1)).foldl (fun s i => s ^^ (p i && q (k - i))) false

end P1P2
