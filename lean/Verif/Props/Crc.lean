import Verif.Proofs.Crc
/-!
# C60, C61, C82, C83: the packet checksum
-/
namespace P1P2

set_option maxRecDepth 8000 in
theorem crcFeed_self (x : UInt8) : crcFeed x (bitsOf x) = 0 :=
  forall_u8 (P := fun x => crcFeed x (bitsOf x) = 0) (by decide +kernel) x

theorem crcFeed_false_eq_zero : ∀ (l : List Bool) (x : UInt8), (∀ b ∈ l, b = false) → (crcFeed x l = 0 ↔ x = 0) := by
  intro l
  induction l with
  | nil => intro x _; exact Iff.rfl
  | cons b l ih =>
    intro x h
    have hb : b = false := h b (List.mem_cons_self ..)
    subst hb
    show crcFeed (lfsr (x ^^^ bitIn false)) l = 0 ↔ _
    rw [ih _ fun c hc => h c (List.mem_cons_of_mem _ hc)]
    simp only [bitIn, Bool.false_eq_true, if_false, UInt8.xor_zero]
    exact ⟨lfsr_eq_zero x, fun h => by subst h; decide⟩

theorem crcFeed_eq_zero (x b : UInt8) : crcFeed x (bitsOf b) = 0 ↔ x = b := by
  constructor
  · intro h
    have := crcFeed_xor ((bitsOf b).map fun v => (v, v)) x b
    simp only [List.map_map] at this
    rw [show (Prod.fst ∘ fun v : Bool => (v, v)) = id from rfl, show (Prod.snd ∘ fun v : Bool => (v, v)) = id from rfl, List.map_id, h,
      crcFeed_self, UInt8.xor_self] at this
    have k := (crcFeed_false_eq_zero _ (x ^^^ b) (by
      intro c hc
      obtain ⟨v, -, rfl⟩ := List.mem_map.mp hc
      cases v <;> rfl)).mp this.symm
    exact UInt8.xor_eq_zero_iff.mp k
  · rintro rfl; exact crcFeed_self x

theorem bitsFrom_succ (data : Nat → UInt8) (n : Nat) : bitsFrom data 0 (n + 1) = bitsFrom data 0 n ++ bitsOf (data n) := by
  simp [bitsFrom, ← List.range_eq_range', List.range_succ]

theorem bitsFrom_upd (data : Nat → UInt8) (n : Nat) (c : UInt8) : bitsFrom (upd data n c) 0 n = bitsFrom data 0 n := by
  simp only [bitsFrom, ← List.range_eq_range', List.flatMap]
  congr 1
  apply List.map_congr_left
  intro i hi
  rw [upd_other _ _ (Nat.ne_of_lt (List.mem_range.mp hi))]

/-- **C60.** The checksum of a packet is always defined; with the checksum appended the packet has checksum 0, and with
any other byte appended it has not. -/
theorem C60 (data : Nat → UInt8) {len : Nat} (h : len < 32) :
    ∃ c, genCRC data len = .ok c ∧ ∀ b, genCRC (upd data len b) (len + 1) = .ok 0 ↔ b = c := by
  refine ⟨crcFeed 0 (bitsFrom data 0 len), genCRC_eq data (Nat.le_of_lt h), fun b => ?_⟩
  rw [genCRC_eq _ h, bitsFrom_succ, bitsFrom_upd, crcFeed_append, Res.ok.injEq, upd_same, crcFeed_eq_zero]
  exact ⟨fun h => h.symm, fun h => h.symm⟩

/-- A request as seen on a Daikin bus: checksum of `00 F0 30 00`. -/
example : genCRC (fun i => [0x00, 0xF0, 0x30, 0x00].getD i 0) 4 = .ok 45 := by decide +kernel

/-! ## Errors -/

theorem range_map_split (e : Nat → Bool) (s a b : Nat) :
    (List.range' s (a + b)).map e = (List.range' s a).map e ++ (List.range' (s + a) b).map e := by
  rw [← List.range'_append_1, List.map_append]

theorem seg_false {e : Nat → Bool} {s n : Nat} (h : ∀ k, s ≤ k → k < s + n → e k = false) :
    ∀ b ∈ (List.range' s n).map e, b = false := by
  intro b hb
  obtain ⟨k, hk, rfl⟩ := List.mem_map.mp hb
  rw [List.mem_range'_1] at hk
  exact h k hk.1 hk.2

def allLists : Nat → List (List Bool)
  | 0 => [[]]
  | n + 1 => (allLists n).flatMap fun l => [false :: l, true :: l]

theorem mem_allLists : ∀ l : List Bool, l ∈ allLists l.length := by
  intro l
  induction l with
  | nil => simp [allLists]
  | cons b l ih =>
    simp only [List.length_cons, allLists, List.mem_flatMap]
    exact ⟨l, ih, by cases b <;> simp⟩

theorem crcFeed_short : ∀ n < 9, ∀ l ∈ allLists n, true ∈ l → crcFeed 0 l ≠ 0 := by decide +kernel

theorem crcFeed_prefix {l : List Bool} (h : ∀ b ∈ l, b = false) : crcFeed 0 l = 0 := (crcFeed_false_eq_zero l 0 h).mpr rfl

/-- A burst of at most 8 bits never takes the register back to zero. -/
theorem crcFeed_burst {e : Nat → Bool} {n p : Nat} (hb : ∀ k < n, e k = true → p ≤ k ∧ k < p + 8) (hne : ∃ k < n, e k = true) :
    crcFeed 0 ((List.range n).map e) ≠ 0 := by
  obtain ⟨k0, hk0, hek0⟩ := hne
  have hp := hb k0 hk0 hek0
  obtain ⟨w, r, hw, hn, hr⟩ : ∃ w r, w ≤ 8 ∧ n = p + (w + r) ∧ (r = 0 ∨ w = 8) := by
    by_cases h : n ≤ p + 8
    · exact ⟨n - p, 0, by omega, by omega, Or.inl rfl⟩
    · exact ⟨8, n - p - 8, by omega, by omega, Or.inr rfl⟩
  have hf : ∀ k, k < n → ¬ (p ≤ k ∧ k < p + 8) → e k = false := by
    intro k hk hc
    cases h : e k
    · rfl
    · exact absurd (hb k hk h) hc
  rw [List.range_eq_range', hn, range_map_split, range_map_split, crcFeed_append, crcFeed_append,
    crcFeed_prefix (seg_false fun k h1 h2 => hf k (by omega) (by omega))]
  intro hc
  rw [crcFeed_false_eq_zero _ _ (seg_false fun k h1 h2 => hf k (by omega) (by omega))] at hc
  have hl : ((List.range' (0 + p) w).map e).length = w := by simp
  have hm := mem_allLists ((List.range' (0 + p) w).map e)
  rw [hl] at hm
  refine crcFeed_short w (by omega) _ hm ?_ hc
  rw [List.mem_map]
  exact ⟨k0, by rw [List.mem_range'_1]; omega, hek0⟩

/-- **C61.** If two packets of the same length differ, and only in bits that lie within 8 consecutive bits of the bit
stream, their checksums differ. In particular every single bit error is detected. -/
theorem C61 (d d' : Nat → UInt8) {len : Nat} (hl : len ≤ 32) (p : Nat)
    (hne : ∃ k < 8 * len, packetBit d k ≠ packetBit d' k)
    (hb : ∀ k < 8 * len, packetBit d k ≠ packetBit d' k → p ≤ k ∧ k < p + 8) : genCRC d len ≠ genCRC d' len := by
  rw [ne_eq, genCRC_diff d d' hl]
  have hx : ∀ a b : Bool, (a ^^ b) = true ↔ a ≠ b := by decide
  refine crcFeed_burst (p := p) (fun k hk he => hb k hk ((hx _ _).mp he)) ?_
  obtain ⟨k, hk, he⟩ := hne
  exact ⟨k, hk, (hx _ _).mpr he⟩

/-- **C61** for a byte: any corruption of a single byte is detected. -/
theorem C61_byte (d : Nat → UInt8) {len i : Nat} (hl : len ≤ 32) (hi : i < len) (v : UInt8) (hv : v ≠ d i) :
    genCRC (upd d i v) len ≠ genCRC d len := by
  refine C61 _ _ hl (8 * i) ?_ ?_
  · obtain ⟨j, hj, hd⟩ : ∃ j < 8, v.toNat.testBit j ≠ (d i).toNat.testBit j := by
      apply Classical.byContradiction
      intro hc
      apply hv
      apply UInt8.toNat_inj.mp
      apply Nat.eq_of_testBit_eq
      intro j
      by_cases hj : j < 8
      · exact Classical.byContradiction fun h => hc ⟨j, hj, h⟩
      · have h1 : ∀ x : UInt8, x.toNat < 2 ^ j := fun x =>
          Nat.lt_of_lt_of_le x.toNat_lt (Nat.pow_le_pow_right (by decide) (by omega))
        rw [Nat.testBit_lt_two_pow (h1 _), Nat.testBit_lt_two_pow (h1 _)]
    refine ⟨8 * i + j, by omega, ?_⟩
    have h1 : (8 * i + j) / 8 = i := by omega
    have h2 : (8 * i + j) % 8 = j := by omega
    simpa [packetBit, h1, h2] using hd
  · intro k _ he
    have : k / 8 = i := by
      apply Classical.byContradiction
      intro hc
      exact he (by simp [packetBit, upd_other _ _ hc])
    omega

/-- A burst of 9 bits (the generator polynomial itself) is not detected. -/
example : genCRC (fun i => [0xB3, 0x01, 0x00].getD i 0) 3 = genCRC (fun _ => 0) 3 := by decide +kernel

/-! ## Odd numbers of errors -/

/-- Parity of the register. -/
def par (x : UInt8) : Bool := (bitsOf x).foldl (fun a b => a ^^ b) false

set_option maxRecDepth 8000 in
theorem par_lfsr (x : UInt8) : ∀ b : Bool, par (lfsr (x ^^^ bitIn b)) = (par x ^^ b) :=
  forall_u8 (P := fun x => ∀ b : Bool, par (lfsr (x ^^^ bitIn b)) = (par x ^^ b)) (by decide +kernel) x

theorem par_crcFeed : ∀ (l : List Bool) (x : UInt8), par (crcFeed x l) = (par x ^^ decide (l.countP id % 2 = 1)) := by
  intro l
  induction l with
  | nil => intro x; simp [crcFeed]
  | cons b l ih =>
    intro x
    show par (crcFeed (lfsr (x ^^^ bitIn b)) l) = _
    rw [ih, par_lfsr, List.countP_cons]
    cases b
    · simp
    · have : ∀ n : Nat, decide ((n + 1) % 2 = 1) = !decide (n % 2 = 1) := fun n => by
        rcases Nat.mod_two_eq_zero_or_one n with h | h <;> simp [h, Nat.add_mod]
      simp only [id, if_true, this]
      cases par x <;> cases decide (List.countP id l % 2 = 1) <;> rfl

/-- **C82.** If two packets of the same length differ in an odd number of bits, their checksums differ. -/
theorem C82 (d d' : Nat → UInt8) {len : Nat} (hl : len ≤ 32) (ho : (flipped d d' len).length % 2 = 1) :
    genCRC d len ≠ genCRC d' len := by
  rw [ne_eq, genCRC_diff d d' hl]
  intro hc
  have := par_crcFeed ((List.range (8 * len)).map fun k => packetBit d k ^^ packetBit d' k) 0
  rw [hc, List.countP_map] at this
  have e : (id ∘ fun k => packetBit d k ^^ packetBit d' k) = fun k => packetBit d k != packetBit d' k := by
    funext k
    show (packetBit d k ^^ packetBit d' k) = (packetBit d k != packetBit d' k)
    cases packetBit d k <;> cases packetBit d' k <;> rfl
  rw [e, List.countP_eq_length_filter] at this
  unfold flipped at ho
  rw [ho] at this
  exact absurd this (by decide)

example : (flipped (fun i => [0x40, 0xF0, 0x30].getD i 0) (fun i => [0x41, 0xF0, 0x36].getD i 0) 3).length % 2 = 1 := by decide +kernel

/-! ## Two errors -/

/-- `m` shifts without input. -/
def shifts (x : UInt8) : Nat → UInt8
  | 0 => x
  | m + 1 => shifts (lfsr x) m

theorem crcFeed_false {l : List Bool} : ∀ (x : UInt8), (∀ b ∈ l, b = false) → crcFeed x l = shifts x l.length := by
  induction l with
  | nil => intro x _; rfl
  | cons b l ih =>
    intro x h
    have hb : b = false := h b (List.mem_cons_self ..)
    subst hb
    show crcFeed (lfsr (x ^^^ bitIn false)) l = _
    rw [ih _ fun c hc => h c (List.mem_cons_of_mem _ hc)]
    simp [bitIn, shifts]

theorem shifts_period : ∀ m < 256, shifts (lfsr 1) m = 1 ↔ (m + 1) % 127 = 0 := by decide +kernel

/-- **C83.** If two packets of the same length differ in exactly two bits, their checksums are equal exactly when the
distance of the two bits is a multiple of 127: every other pair of errors is noticed, and these never are. -/
theorem C83_exact (d d' : Nat → UInt8) {len : Nat} (hl : len ≤ 32) {a b : Nat} (hab : a < b) (hb : b < 8 * len)
    (h : ∀ k < 8 * len, packetBit d k ≠ packetBit d' k ↔ k = a ∨ k = b) : genCRC d len = genCRC d' len ↔ (b - a) % 127 = 0 := by
  rw [genCRC_diff d d' hl]
  have hx : ∀ x y : Bool, (x ^^ y) = true ↔ x ≠ y := by decide
  generalize he : (fun k => packetBit d k ^^ packetBit d' k) = e
  have h1 : ∀ k < 8 * len, e k = true ↔ k = a ∨ k = b := fun k hk => by rw [← h k hk, ← hx, ← he]
  have hf : ∀ k < 8 * len, k ≠ a → k ≠ b → e k = false := by
    intro k hk n1 n2
    cases hc : e k
    · rfl
    · rcases (h1 k hk).mp hc with h | h
      · exact absurd h n1
      · exact absurd h n2
  obtain ⟨m, r, hm⟩ : ∃ m r, 8 * len = a + (1 + (m + (1 + r))) ∧ b = a + 1 + m :=
    ⟨b - a - 1, 8 * len - b - 1, by omega, by omega⟩
  rw [List.range_eq_range', hm.1, range_map_split, range_map_split, range_map_split, range_map_split, crcFeed_append, crcFeed_append,
    crcFeed_append, crcFeed_append, crcFeed_prefix (seg_false fun k g1 g2 => hf k (by omega) (by omega) (by omega))]
  have ea : (List.range' (0 + a) 1).map e = [true] := by
    have := (h1 a (by omega)).mpr (Or.inl rfl)
    simp [List.range'_one, this]
  have eb : (List.range' (0 + a + 1 + m) 1).map e = [true] := by
    have := (h1 b (by omega)).mpr (Or.inr rfl)
    rw [hm.2] at this
    simp [List.range'_one, this]
  rw [ea, eb, crcFeed_false (l := (List.range' (0 + a + 1) m).map e) _ (seg_false fun k g1 g2 => hf k (by omega) (by omega) (by omega)),
    List.length_map, List.length_range', crcFeed_false_eq_zero _ _ (seg_false fun k g1 g2 => hf k (by omega) (by omega) (by omega))]
  have : lfsr (shifts (lfsr 1) m ^^^ 1) = 0 ↔ shifts (lfsr 1) m = 1 :=
    ⟨fun h => UInt8.xor_eq_zero_iff.mp (lfsr_eq_zero _ h), fun h => by rw [h]; decide⟩
  rw [show b - a = m + 1 by omega, ← shifts_period m (by omega)]
  exact this

/-- **C83.** If two packets of the same length differ in exactly two bits that are fewer than 127 bits apart, their
checksums differ. -/
theorem C83 (d d' : Nat → UInt8) {len : Nat} (hl : len ≤ 32) {a b : Nat} (hab : a < b) (hb : b < 8 * len) (hd : b < a + 127)
    (h : ∀ k < 8 * len, packetBit d k ≠ packetBit d' k ↔ k = a ∨ k = b) : genCRC d len ≠ genCRC d' len := by
  rw [ne_eq, C83_exact d d' hl hab hb h]
  omega

/-- Two packets of 17 bytes that differ in bits 8 and 134. -/
example : ∀ k < 8 * 17, packetBit (fun i => [0x40, 0xF0].getD i 7) k ≠
    packetBit (upd (upd (fun i => [0x40, 0xF0].getD i 7) 1 0xF1) 16 0x47) k ↔ k = 8 ∨ k = 134 := by decide +kernel

/-- Sharpness: two errors 127 bits apart are not detected. -/
example : genCRC (upd (upd (fun _ => 0) 1 0x01) 16 0x80) 17 = genCRC (fun _ => 0) 17 := by decide +kernel

end P1P2
