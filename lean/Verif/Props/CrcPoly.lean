import Verif.Props.Crc
/-!
# C135: the checksum is that of a polynomial
-/
namespace P1P2

/-- The sum of the first `m` products. -/
def mulSum (p q : Nat → Bool) (k m : Nat) : Bool := (List.range m).foldl (fun s i => s ^^ (p i && q (k - i))) false

theorem mulSum_succ (p q : Nat → Bool) (k m : Nat) : mulSum p q k (m + 1) = (mulSum p q k m ^^ (p m && q (k - m))) := by
  unfold mulSum
  rw [List.range_succ, List.foldl_append]
  rfl

theorem mulSum_congr {p p' q : Nat → Bool} {k : Nat} : ∀ m, (∀ i < m, p i = p' i) → mulSum p q k m = mulSum p' q k m := by
  intro m
  induction m with
  | zero => intro _; rfl
  | succ m ih =>
    intro h
    rw [mulSum_succ, mulSum_succ, ih fun i hi => h i (by omega), h m (by omega)]

/-- One more coefficient in the quotient. -/
theorem mulSum_set {p q : Nat → Bool} {n : Nat} (hn : p n = false) (b : Bool) (k : Nat) : ∀ m,
    mulSum (fun i => if i = n then b else p i) q k m = (mulSum p q k m ^^ (decide (n < m) && (b && q (k - n)))) := by
  intro m
  induction m with
  | zero => rfl
  | succ m ih =>
    rw [mulSum_succ, mulSum_succ, ih]
    by_cases h : m = n
    · subst h
      simp [hn]
    · rw [if_neg h]
      have : decide (n < m) = decide (n < m + 1) := by
        rw [decide_eq_decide]; omega
      rw [← this]
      cases mulSum p q k m <;> cases (p m && q (k - m)) <;> cases (decide (n < m) && (b && q (k - n))) <;> rfl

theorem generator_beyond {j : Nat} (h : 9 ≤ j) : generator j = false := by
  unfold generator
  rw [List.getD_eq_getElem?_getD, List.getElem?_eq_none (by simpa using h)]
  rfl

theorem testBit_beyond (x : UInt8) {j : Nat} (h : 8 ≤ j) : x.toNat.testBit j = false :=
  Nat.testBit_lt_two_pow (Nat.lt_of_lt_of_le x.toNat_lt (Nat.pow_le_pow_right (by decide) h))

set_option maxRecDepth 8000 in
theorem lfsr_bits (x : UInt8) (b : Bool) : ∀ j < 8, (lfsr (x ^^^ bitIn b)).toNat.testBit j = (x.toNat.testBit (j + 1) ^^ ((x.toNat.testBit 0 ^^ b) && generator (j + 1))) := by
  cases b
  · exact forall_u8 (P := fun x => ∀ j < 8, (lfsr (x ^^^ bitIn false)).toNat.testBit j = (x.toNat.testBit (j + 1) ^^ ((x.toNat.testBit 0 ^^ false) && generator (j + 1)))) (by decide +kernel) x
  · exact forall_u8 (P := fun x => ∀ j < 8, (lfsr (x ^^^ bitIn true)).toNat.testBit j = (x.toNat.testBit (j + 1) ^^ ((x.toNat.testBit 0 ^^ true) && generator (j + 1)))) (by decide +kernel) x

theorem lfsr_bit (x : UInt8) (b : Bool) (j : Nat) : (lfsr (x ^^^ bitIn b)).toNat.testBit j = (x.toNat.testBit (j + 1) ^^ ((x.toNat.testBit 0 ^^ b) && generator (j + 1))) := by
  by_cases h : j < 8
  · exact lfsr_bits x b j h
  · rw [testBit_beyond _ (by omega), testBit_beyond _ (by omega), generator_beyond (by omega)]
    simp

/-- Division, bit by bit. -/
theorem crcFeed_divides (f : Nat → Bool) : ∀ n, ∃ q : Nat → Bool, (∀ i, n ≤ i → q i = false) ∧
    ∀ k, mulCoeff q generator k = if k < n then f k else (crcFeed 0 ((List.range n).map f)).toNat.testBit (k - n) := by
  intro n
  induction n with
  | zero =>
    refine ⟨fun _ => false, fun _ _ => rfl, fun k => ?_⟩
    have : ∀ m, mulSum (fun _ => false) generator k m = false := by
      intro m
      induction m with
      | zero => rfl
      | succ m ih => rw [mulSum_succ, ih]; rfl
    rw [if_neg (by omega)]
    refine (this (k + 1)).trans ?_
    show false = (0 : Nat).testBit (k - 0)
    rw [Nat.zero_testBit]
  | succ n ih =>
    obtain ⟨q, h1, h2⟩ := ih
    generalize hx : crcFeed 0 ((List.range n).map f) = x at h2
    have hx' : crcFeed 0 ((List.range (n + 1)).map f) = lfsr (x ^^^ bitIn (f n)) := by
      rw [List.range_succ, List.map_append, crcFeed_append, hx]
      rfl
    refine ⟨fun i => if i = n then (x.toNat.testBit 0 ^^ f n) else q i, fun i hi => ?_, fun k => ?_⟩
    · show (if i = n then _ else q i) = false
      rw [if_neg (by omega)]
      exact h1 i (by omega)
    · have h3 := mulSum_set (q := generator) (h1 n (Nat.le_refl _)) (x.toNat.testBit 0 ^^ f n) k (k + 1)
      refine h3.trans ?_
      have h2 : mulSum q generator k (k + 1) = _ := h2 k
      rw [h2, hx']
      by_cases hk : k < n
      · rw [if_pos hk, if_pos (by omega), decide_eq_false (by omega)]
        simp
      · rw [if_neg hk, decide_eq_true (by omega), Bool.true_and]
        by_cases hk' : k = n
        · subst hk'
          rw [if_pos (by omega), Nat.sub_self]
          show (x.toNat.testBit 0 ^^ ((x.toNat.testBit 0 ^^ f k) && true)) = f k
          cases x.toNat.testBit 0 <;> cases f k <;> rfl
        · rw [if_neg (by omega), lfsr_bit, show k - (n + 1) + 1 = k - n by omega]

/-- A product determines the quotient, as the generator is monic. -/
theorem quotient_unique {q q' : Nat → Bool} {n : Nat} (h : ∀ i, n ≤ i → q i = false) (h' : ∀ i, n ≤ i → q' i = false)
    (hp : ∀ k < n, mulCoeff q generator k = mulCoeff q' generator k) : q = q' := by
  have key : ∀ m, ∀ i < m, q i = q' i := by
    intro m
    induction m with
    | zero => intro i hi; omega
    | succ m ih =>
      intro i hi
      by_cases hm : i < m
      · exact ih i hm
      · have : i = m := by omega
        subst this
        by_cases hn : i < n
        · have hp : mulSum q generator i (i + 1) = mulSum q' generator i (i + 1) := hp i hn
          rw [mulSum_succ, mulSum_succ, mulSum_congr i ih, Nat.sub_self] at hp
          have hp : (mulSum q' generator i i ^^ (q i && true)) = (mulSum q' generator i i ^^ (q' i && true)) := hp
          revert hp
          cases mulSum q' generator i i <;> cases q i <;> cases q' i <;> decide
        · rw [h i (by omega), h' i (by omega)]
  funext i
  exact key (i + 1) i (by omega)

/-- **C135.** The checksum of a packet, bits in the order in which they are sent, is the remainder of a division by `x^8 + x^7 + x^4 + x^3 + x + 1`: `c` is the checksum exactly if the packet followed by `c` is a multiple of this
polynomial. -/
theorem C135_polynomial (data : Nat → UInt8) {len : Nat} (h : len ≤ 32) (c : UInt8) : genCRC data len = .ok c ↔
    ∃ q : Nat → Bool, (∀ i, 8 * len ≤ i → q i = false) ∧ ∀ k < 8 * len + 8, mulCoeff q generator k = if k < 8 * len then packetBit data k else c.toNat.testBit (k - 8 * len) := by
  rw [genCRC_eq data h, bitsFrom_eq, Res.ok.injEq]
  obtain ⟨q, h1, h2⟩ := crcFeed_divides (packetBit data) (8 * len)
  generalize crcFeed 0 ((List.range (8 * len)).map (packetBit data)) = x at *
  constructor
  · rintro rfl
    exact ⟨q, h1, fun k _ => h2 k⟩
  · rintro ⟨q', h3, h4⟩
    have e : q = q' := quotient_unique h1 h3 fun k hk => by rw [h2, h4 k (by omega), if_pos hk, if_pos hk]
    subst e
    apply UInt8.toNat_inj.mp
    apply Nat.eq_of_testBit_eq
    intro j
    by_cases hj : j < 8
    · have e1 := h2 (8 * len + j)
      have e2 := h4 (8 * len + j) (by omega)
      rw [if_neg (by omega), Nat.add_sub_cancel_left] at e1 e2
      rw [← e1, e2]
    · rw [testBit_beyond _ (by omega), testBit_beyond _ (by omega)]

/-- Packets captured on a bus (pico/doc/uart.md:68-95), without and with their last byte. -/
def captured : List (List UInt8 × UInt8) :=
  [([0x00, 0x00, 0x10, 0x01, 0x81, 0x01, 0x00, 0x00, 0x00, 0x00, 0x15, 0x00, 0x40, 0x00, 0x00, 0x08, 0x00, 0x00, 0x18, 0x00, 0x40, 0x30, 0x00], 0x6d),
   ([0x40, 0x00, 0x11, 0x20, 0xae, 0x2f, 0x78, 0x0c, 0x80, 0x23, 0x14, 0x1f, 0x90, 0x24, 0x98, 0x10, 0x98, 0x0c, 0x81, 0x00, 0x00, 0x00, 0x00], 0xdb),
   ([0x00, 0x00, 0x13, 0x00, 0x00, 0x50], 0x04),
   ([0x00, 0xf0, 0x30, 0x01, 0x00, 0x00, 0x00, 0x02, 0x01, 0x00, 0x00, 0x00, 0x00, 0x00, 0x00, 0x00, 0x00], 0xec),
   ([0x40, 0xf0, 0x30, 0x00, 0x00, 0x00, 0x00, 0x01, 0x00, 0x00, 0x01, 0x00, 0x00, 0x00, 0x00, 0x00, 0x00], 0x7a),
   ([0x00, 0xf0, 0x31, 0x00, 0x00, 0x00, 0x01, 0x80, 0x05, 0x17, 0x01, 0x04, 0x13, 0x2f, 0x35], 0x15)]

/-- The checksum is the one used on the bus. -/
example : captured.all (fun p => match genCRC (fun i => p.1.getD i 0) p.1.length with
    | .ok c => c == p.2
    | .ub => false) = true := by decide +kernel

/-- The quotient of the third of them. -/
example : ∃ q : Nat → Bool, (∀ i, 48 ≤ i → q i = false) ∧
    ∀ k < 56, mulCoeff q generator k = if k < 48 then packetBit (fun i => [0x00, 0x00, 0x13, 0x00, 0x00, 0x50].getD i 0) k else (0x04 : UInt8).toNat.testBit (k - 48) :=
  (C135_polynomial (fun i => [0x00, 0x00, 0x13, 0x00, 0x00, 0x50].getD i 0) (len := 6) (by decide) 0x04).mp (by decide +kernel)

end P1P2
