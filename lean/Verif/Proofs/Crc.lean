import Verif.Model.Standalone
import Verif.Spec.Crc
/-!
# The checksum as a linear shift register
-/
namespace P1P2

/-- The 8 bit register after one bit time, with the input bit already added. -/
def lfsr (x : UInt8) : UInt8 := if x &&& 1 ≠ 0 then (x >>> 1) ^^^ 0xd9 else x >>> 1

theorem xor_and32 (a b c : UInt32) : (a ^^^ b) &&& c = (a &&& c) ^^^ (b &&& c) := by
  apply UInt32.toBitVec_inj.1
  apply BitVec.eq_of_getElem_eq
  intro i h
  simp only [UInt32.toBitVec_and, UInt32.toBitVec_xor, BitVec.getElem_and, BitVec.getElem_xor]
  cases a.toBitVec[i] <;> cases b.toBitVec[i] <;> cases c.toBitVec[i] <;> rfl

theorem xor_and8 (a b c : UInt8) : (a ^^^ b) &&& c = (a &&& c) ^^^ (b &&& c) := by
  apply UInt8.toBitVec_inj.1
  apply BitVec.eq_of_getElem_eq
  intro i h
  simp only [UInt8.toBitVec_and, UInt8.toBitVec_xor, BitVec.getElem_and, BitVec.getElem_xor]
  cases a.toBitVec[i] <;> cases b.toBitVec[i] <;> cases c.toBitVec[i] <;> rfl

def bitIn (b : Bool) : UInt8 := if b then 1 else 0

/-- The register after a number of bits. -/
def crcFeed (x : UInt8) (bs : List Bool) : UInt8 := bs.foldl (fun x b => lfsr (x ^^^ bitIn b)) x

/-- The bits of a byte. -/
def bitsOf (b : UInt8) : List Bool := (List.range 8).map fun j => b.toNat.testBit j

set_option maxRecDepth 8000 in
theorem crcBit_even (x : UInt8) : (if x.toUInt32 &&& 1 ≠ 0 then (x.toUInt32 >>> 1) ^^^ 0xd9 else x.toUInt32 >>> 1) =
    (lfsr x).toUInt32 := by
  revert x
  exact fun x => forall_u8 (P := fun x => (if x.toUInt32 &&& 1 ≠ 0 then (x.toUInt32 >>> 1) ^^^ 0xd9 else x.toUInt32 >>> 1) =
    (lfsr x).toUInt32) (by decide +kernel) x

set_option maxRecDepth 8000 in
theorem crcBit_odd (x : UInt8) : (if (x.toUInt32 &&& 1) ^^^ 1 ≠ 0 then (x.toUInt32 >>> 1) ^^^ 0xd9 else x.toUInt32 >>> 1) =
    (lfsr (x ^^^ 1)).toUInt32 := by
  exact forall_u8 (P := fun x => (if (x.toUInt32 &&& 1) ^^^ 1 ≠ 0 then (x.toUInt32 >>> 1) ^^^ 0xd9 else x.toUInt32 >>> 1) =
    (lfsr (x ^^^ 1)).toUInt32) (by decide +kernel) x

theorem crcBit_eq (x : UInt8) (c : UInt32) (b : Bool) (h : c &&& 1 = if b then 1 else 0) :
    crcBit (x.toUInt32, c) = ((lfsr (x ^^^ bitIn b)).toUInt32, c >>> 1) := by
  unfold crcBit
  have e : (x.toUInt32 ^^^ c) &&& 1 = (x.toUInt32 &&& 1) ^^^ (c &&& 1) := xor_and32 _ _ _
  dsimp only
  rw [e, h]
  cases b
  · simp only [Bool.false_eq_true, if_false, UInt32.xor_zero, bitIn, UInt8.xor_zero]
    rw [crcBit_even]
  · simp only [if_true, bitIn]
    rw [crcBit_odd]

def shr (c : UInt32) : Nat → UInt32
  | 0 => c
  | n + 1 => shr c n >>> 1

set_option maxRecDepth 8000 in
theorem shr_bit (b : UInt8) : ∀ j < 8, shr b.toUInt32 j &&& 1 = if b.toNat.testBit j then 1 else 0 :=
  forall_u8 (P := fun b => ∀ j < 8, shr b.toUInt32 j &&& 1 = if b.toNat.testBit j then 1 else 0) (by decide +kernel) b

theorem crcBit_shr (b x : UInt8) (j : Nat) (hj : j < 8) : crcBit (x.toUInt32, shr b.toUInt32 j) =
    ((lfsr (x ^^^ bitIn (b.toNat.testBit j))).toUInt32, shr b.toUInt32 (j + 1)) :=
  crcBit_eq x _ _ (shr_bit b j hj)

theorem crcByte_eq (x b : UInt8) : crcByte x.toUInt32 b = (crcFeed x (bitsOf b)).toUInt32 := by
  unfold crcByte
  rw [show b.toUInt32 = shr b.toUInt32 0 from rfl, crcBit_shr _ _ _ (by decide), crcBit_shr _ _ _ (by decide),
    crcBit_shr _ _ _ (by decide), crcBit_shr _ _ _ (by decide), crcBit_shr _ _ _ (by decide), crcBit_shr _ _ _ (by decide),
    crcBit_shr _ _ _ (by decide), crcBit_shr _ _ _ (by decide)]
  rfl

/-- The bits of `n` bytes from byte `j` on. -/
def bitsFrom (data : Nat → UInt8) (j n : Nat) : List Bool := (List.range' j n).flatMap fun i => bitsOf (data i)

theorem crcFeed_append (x : UInt8) (a b : List Bool) : crcFeed x (a ++ b) = crcFeed (crcFeed x a) b := List.foldl_append

theorem crcLoop_eq (data : Nat → UInt8) (n : Nat) : ∀ (x : UInt8) (j : Nat), j + n ≤ 32 →
    crcLoop data x.toUInt32 j n = .ok (crcFeed x (bitsFrom data j n)).toUInt32 := by
  induction n with
  | zero => intro x j _; rfl
  | succ n ih =>
    intro x j h
    rw [crcLoop, rd_of_lt _ (by show j < 32; omega), Res.ok_bind, crcByte_eq, ih _ _ (by omega)]
    simp [bitsFrom, List.range'_succ, crcFeed_append]

set_option maxRecDepth 8000 in
theorem genCRC_eq (data : Nat → UInt8) {n : Nat} (h : n ≤ 32) : genCRC data n = .ok (crcFeed 0 (bitsFrom data 0 n)) := by
  unfold genCRC
  have := crcLoop_eq data n 0 0 (by omega)
  have e : (0 : UInt32) = (0 : UInt8).toUInt32 := rfl
  rw [e, this, Res.ok_bind]
  have k : ∀ x : UInt8, (x.toUInt32 &&& 0xff).toUInt8 = x := fun x => by
    exact forall_u8 (P := fun x => (x.toUInt32 &&& 0xff).toUInt8 = x) (by decide +kernel) x
  rw [k]

theorem genCRC_ub (data : Nat → UInt8) {n : Nat} (h : ¬ n ≤ 32) : genCRC data n = .ub := by
  have : ∀ m x j, j ≤ 32 → 32 < j + m → crcLoop data x j m = .ub := by
    intro m
    induction m with
    | zero => intro x j h1 h2; omega
    | succ m ih =>
      intro x j h1 h2
      rw [crcLoop]
      by_cases hj : j < 32
      · rw [rd_of_lt _ (show j < maxPacket from hj), Res.ok_bind]; exact ih _ _ (by omega) (by omega)
      · rw [rd_of_ge _ (by show 32 ≤ j; omega)]; rfl
  unfold genCRC
  rw [this n 0 0 (by omega) (by omega)]; rfl

/-! ## Linearity -/

set_option maxRecDepth 8000 in
theorem lfsr_low (x : UInt8) : x &&& 1 = 0 ∨ x &&& 1 = 1 :=
  forall_u8 (P := fun x => x &&& 1 = 0 ∨ x &&& 1 = 1) (by decide +kernel) x

theorem lfsr_xor (x y : UInt8) : lfsr (x ^^^ y) = lfsr x ^^^ lfsr y := by
  unfold lfsr
  rw [xor_and8, UInt8.shiftRight_xor]
  generalize x >>> 1 = a
  generalize y >>> 1 = b
  rcases lfsr_low x with h | h <;> rcases lfsr_low y with k | k <;> rw [h, k]
  · rfl
  · show (a ^^^ b) ^^^ 0xd9 = a ^^^ (b ^^^ 0xd9); rw [UInt8.xor_assoc]
  · show (a ^^^ b) ^^^ 0xd9 = (a ^^^ 0xd9) ^^^ b
    rw [UInt8.xor_assoc, UInt8.xor_assoc, UInt8.xor_comm b]
  · show a ^^^ b = (a ^^^ 0xd9) ^^^ (b ^^^ 0xd9)
    rw [UInt8.xor_assoc, UInt8.xor_comm 0xd9, UInt8.xor_assoc, UInt8.xor_self, UInt8.xor_zero]

set_option maxRecDepth 8000 in
theorem lfsr_eq_zero (x : UInt8) : lfsr x = 0 → x = 0 :=
  forall_u8 (P := fun x => lfsr x = 0 → x = 0) (by decide +kernel) x

theorem bitIn_xor (a b : Bool) : bitIn (a ^^ b) = bitIn a ^^^ bitIn b := by cases a <;> cases b <;> decide

theorem xor4 (a b c d : UInt8) : (a ^^^ b) ^^^ (c ^^^ d) = (a ^^^ c) ^^^ (b ^^^ d) := by
  rw [UInt8.xor_assoc, UInt8.xor_assoc, ← UInt8.xor_assoc b, UInt8.xor_comm b c, UInt8.xor_assoc]

theorem crcFeed_xor : ∀ (l : List (Bool × Bool)) (x y : UInt8),
    crcFeed x (l.map Prod.fst) ^^^ crcFeed y (l.map Prod.snd) = crcFeed (x ^^^ y) (l.map fun p => p.1 ^^ p.2) := by
  intro l
  induction l with
  | nil => intro x y; rfl
  | cons p l ih =>
    intro x y
    show crcFeed (lfsr (x ^^^ bitIn p.1)) _ ^^^ crcFeed (lfsr (y ^^^ bitIn p.2)) _ = crcFeed (lfsr ((x ^^^ y) ^^^ bitIn (p.1 ^^ p.2))) _
    rw [ih, ← lfsr_xor, bitIn_xor, xor4]

theorem bitsFrom_eq (data : Nat → UInt8) (n : Nat) : bitsFrom data 0 n = (List.range (8 * n)).map (packetBit data) := by
  induction n with
  | zero => rfl
  | succ n ih =>
    have e : bitsFrom data 0 (n + 1) = bitsFrom data 0 n ++ bitsOf (data n) := by
      simp [bitsFrom, ← List.range_eq_range', List.range_succ]
    rw [e, ih, Nat.mul_add, List.range_add, List.map_append]
    congr 1
    unfold bitsOf
    rw [List.map_map]
    apply List.map_congr_left
    intro j hj
    have hj := List.mem_range.mp hj
    have h1 : (8 * n + j) / 8 = n := by omega
    have h2 : (8 * n + j) % 8 = j := by omega
    simp [packetBit, h1, h2]

/-- Two packets have the same checksum iff the register ends at zero when fed with the errors. -/
theorem genCRC_diff (d d' : Nat → UInt8) {n : Nat} (h : n ≤ 32) :
    genCRC d n = genCRC d' n ↔ crcFeed 0 ((List.range (8 * n)).map fun k => packetBit d k ^^ packetBit d' k) = 0 := by
  rw [genCRC_eq d h, genCRC_eq d' h, bitsFrom_eq, bitsFrom_eq]
  have := crcFeed_xor ((List.range (8 * n)).map fun k => (packetBit d k, packetBit d' k)) 0 0
  simp only [List.map_map, UInt8.xor_self] at this
  rw [show ((fun p : Bool × Bool => p.1 ^^ p.2) ∘ fun k => (packetBit d k, packetBit d' k)) =
    fun k => packetBit d k ^^ packetBit d' k from rfl, show (Prod.fst ∘ fun k => (packetBit d k, packetBit d' k)) = packetBit d from rfl,
    show (Prod.snd ∘ fun k => (packetBit d k, packetBit d' k)) = packetBit d' from rfl] at this
  rw [← this]
  simp only [Res.ok.injEq]
  constructor
  · intro h; rw [h, UInt8.xor_self]
  · intro h; exact UInt8.xor_eq_zero_iff.mp h

end P1P2
