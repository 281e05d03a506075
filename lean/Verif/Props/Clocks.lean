import Verif.Model.Clocks
import Verif.Spec.Modem
import Verif.Props.Modem
/-!
# C148: whatever the system clock, the rates the device sets fit
-/
namespace P1P2

theorem Near.pos {p q r s : Nat} (h : Near p q r s) : 0 < s := h.1

/-- Cutting off after eight bits. -/
theorem clkdivRegs_floor {n d : Nat} (hd : 0 < d) (h1 : d ≤ n) (h2 : n < 65536 * d) : clkdivRegs n d * d ≤ 256 * n ∧ 256 * n < (clkdivRegs n d + 1) * d := by
  have ha : 1 ≤ n / d := (Nat.le_div_iff_mul_le hd).mpr (by omega)
  have hb : n / d < 65536 := (Nat.div_lt_iff_lt_mul hd).mpr h2
  have hm := Nat.mod_lt n hd
  have hf : n % d * 256 / d < 256 := (Nat.div_lt_iff_lt_mul hd).mpr (by omega)
  have e := Nat.div_add_mod n d
  have e2 := Nat.div_add_mod (n % d * 256) d
  have hm2 := Nat.mod_lt (n % d * 256) hd
  unfold clkdivRegs
  rw [Nat.mod_eq_of_lt hb, if_neg (by omega), Nat.mod_eq_of_lt hf]
  generalize n / d = a at *
  generalize n % d = b at *
  generalize b * 256 / d = c at *
  rw [Nat.add_mul, Nat.add_mul, Nat.add_mul, Nat.mul_assoc, Nat.mul_comm a d, Nat.mul_comm c d]
  generalize d * a = x at *
  generalize d * c = y at *
  omega

/-- What the division gives. -/
theorem setDiv_bounds {hz n d : Nat} (h : SetDiv hz n d) : 0 < d ∧ 281474943156225 * (hz * d) ≤ 281474976710656 * (153600 * n) ∧ 281474976710656 * (153600 * n) ≤ 281475010265089 * (hz * d) := by
  obtain ⟨r, s, ⟨hs, a1, a2⟩, ⟨hd, b1, b2⟩⟩ := h
  refine ⟨hd, ?_, ?_⟩
  · refine Nat.le_of_mul_le_mul_right (c := s) ?_ hs
    have a1 := Nat.mul_le_mul_right d a1
    have e1 : 16777215 * (hz * s) * d = 16777215 * (hz * d * s) := by rw [Nat.mul_assoc, Nat.mul_assoc hz, Nat.mul_comm s, ← Nat.mul_assoc hz]
    have e2 : 16777216 * (r * 1) * d = 16777216 * (r * d) := by rw [Nat.mul_one, Nat.mul_assoc]
    have e3 : n * (16 * 9600 * s) = 153600 * (n * s) := by rw [← Nat.mul_assoc, Nat.mul_comm n, Nat.mul_assoc]
    have e4 : 281474943156225 * (hz * d) * s = 281474943156225 * (hz * d * s) := Nat.mul_assoc ..
    have e5 : 281474976710656 * (153600 * n) * s = 281474976710656 * (153600 * (n * s)) := by rw [Nat.mul_assoc, Nat.mul_assoc]
    rw [e1, e2] at a1
    rw [e3] at b1
    rw [e4, e5]
    omega
  · refine Nat.le_of_mul_le_mul_right (c := s) ?_ hs
    have a2 := Nat.mul_le_mul_right d a2
    have e1 : 16777217 * (hz * s) * d = 16777217 * (hz * d * s) := by rw [Nat.mul_assoc, Nat.mul_assoc hz, Nat.mul_comm s, ← Nat.mul_assoc hz]
    have e2 : 16777216 * (r * 1) * d = 16777216 * (r * d) := by rw [Nat.mul_one, Nat.mul_assoc]
    have e3 : n * (16 * 9600 * s) = 153600 * (n * s) := by rw [← Nat.mul_assoc, Nat.mul_comm n, Nat.mul_assoc]
    have e4 : 281475010265089 * (hz * d) * s = 281475010265089 * (hz * d * s) := Nat.mul_assoc ..
    have e5 : 281474976710656 * (153600 * n) * s = 281474976710656 * (153600 * (n * s)) := by rw [Nat.mul_assoc, Nat.mul_assoc]
    rw [e1, e2] at a2
    rw [e3] at b2
    rw [e4, e5]
    omega

/-- **C148, divider.** For every system clock of 12 MHz to 2^32 Hz, however the floats are rounded and with either version of the SDK, the divider set (in units of 1/256) is `hz / 600` up to one
unit, that is, the state machine makes `16 * 9600` cycles in a second. -/
theorem C148_divider {hz n d N : Nat} (h1 : 12000000 ≤ hz) (h2 : hz < 4294967296) (h : SetDiv hz n d) (hN : SetRegs n d N) :
    1000000 * hz ≤ 1000001 * (600 * N + 600) ∧ 1000000 * (600 * N) ≤ 1000001 * (hz + 300) := by
  obtain ⟨hd, b1, b2⟩ := setDiv_bounds h
  have c1 := Nat.mul_le_mul_right d h1
  have c2 := Nat.mul_le_mul_right d (Nat.le_of_lt h2)
  rcases hN with rfl | ⟨r, s, ⟨hs, a1, a2⟩, rfl⟩
  · have l1 : d ≤ n := by omega
    have l2 : n < 65536 * d := by omega
    obtain ⟨k1, k2⟩ := clkdivRegs_floor hd l1 l2
    rw [Nat.add_mul] at k2
    generalize clkdivRegs n d = N at *
    constructor
    · refine Nat.le_of_mul_le_mul_right (c := d) ?_ hd
      simp only [Nat.mul_assoc, Nat.add_mul]
      omega
    · refine Nat.le_of_mul_le_mul_right (c := d) ?_ hd
      simp only [Nat.mul_assoc, Nat.add_mul]
      omega
  · have hds : 0 < d * s := Nat.mul_pos hd hs
    have e1 : r * (512 * d) = 512 * (r * d) := by rw [← Nat.mul_assoc, Nat.mul_comm r, Nat.mul_assoc]
    have e2 : (512 * n + d) * s = 512 * (n * s) + d * s := by rw [Nat.add_mul, Nat.mul_assoc]
    rw [e1, e2] at a1 a2
    have b1 := Nat.mul_le_mul_right s b1
    have b2 := Nat.mul_le_mul_right s b2
    have c1 := Nat.mul_le_mul_right s c1
    have c2 := Nat.mul_le_mul_right s c2
    simp only [Nat.mul_assoc] at b1 b2 c1 c2
    have r1 : s ≤ r := by
      refine Nat.le_of_mul_le_mul_right (c := d) ?_ hd
      rw [Nat.mul_comm s d]
      omega
    have r2 : r < 65536 * s := by
      refine Nat.lt_of_mul_lt_mul_right (a := d) ?_
      rw [Nat.mul_assoc, Nat.mul_comm s d]
      omega
    obtain ⟨k1, k2⟩ := clkdivRegs_floor hs r1 r2
    have k1 := Nat.mul_le_mul_right d k1
    have k2 := Nat.mul_lt_mul_of_pos_right k2 hd
    generalize clkdivRegs r s = N at *
    have e3 : N * s * d = N * (d * s) := by rw [Nat.mul_assoc, Nat.mul_comm s]
    have e4 : (N + 1) * s * d = N * (d * s) + d * s := by rw [Nat.add_mul, Nat.one_mul, Nat.add_mul, e3, Nat.mul_comm s]
    rw [e3, Nat.mul_assoc] at k1
    rw [e4, Nat.mul_assoc] at k2
    constructor
    · refine Nat.le_of_mul_le_mul_right (c := d * s) ?_ hds
      simp only [Nat.mul_assoc, Nat.add_mul]
      omega
    · refine Nat.le_of_mul_le_mul_right (c := d * s) ?_ hds
      simp only [Nat.mul_assoc, Nat.add_mul]
      omega

/-- Cycles of the state machine: as many as the divider says, up to one cycle of the system clock. -/
theorem clockWith_diff (N u t0 f s k : Nat) : ∃ x, clockWith N u t0 f (s + k) = clockWith N u t0 f s + u * x ∧ N * k < 256 * x + 256 ∧ 256 * x < N * k + 256 := by
  have e : N * (s + k) + f = (N * s + f) + N * k := by rw [Nat.mul_add]; omega
  refine ⟨(N * (s + k) + f) / 256 - (N * s + f) / 256, ?_, ?_, ?_⟩
  · unfold clockWith
    rw [Nat.mul_sub, Nat.add_assoc]
    have := Nat.mul_le_mul_left u (show (N * s + f) / 256 ≤ (N * (s + k) + f) / 256 by rw [e]; omega)
    omega
  · rw [e]; generalize N * k = y; generalize N * s + f = z; omega
  · rw [e]; generalize N * k = y; generalize N * s + f = z; omega

/-- **C148, clock.** Let the sender run with any system clock of 12 MHz to 2^32 Hz, set its divider accordingly, and let the crystals of sender and receiver differ by at most 500 ppm (a cycle of the
sender lasts `u`, a conversion of the receiver `P`; without a difference `P * 48000000 = adcCycles * hz * u`).  Then the clocks fit: everything that is proved for a sender with a `SenderClock`
(C111, C113, C118 to C121, C134, C142, C144, C146, C147, ...) holds. -/
theorem C148_clock {hz n d N : Nat} (h1 : 12000000 ≤ hz) (h2 : hz < 4294967296) (h : SetDiv hz n d) (hN : SetRegs n d N) {u P : Nat} (hu : 0 < u)
    (p1 : 9995 * (adcCycles * (hz * u)) ≤ 10000 * (48000000 * P)) (p2 : 10000 * (48000000 * P) ≤ 10005 * (adcCycles * (hz * u))) (t0 f : Nat) :
    SenderClock P (clockWith N u t0 f) := by
  obtain ⟨n1, n2⟩ := C148_divider h1 h2 h hN
  have hc : adcCycles = 157 := rfl
  rw [hc] at p1 p2
  have hu1 := Nat.mul_le_mul_right u h1
  have key : ∀ k, 1000000 * (hz * u * k) ≤ 1000001 * (600 * (N * u * k) + 600 * (u * k)) ∧ 1000000 * (600 * (N * u * k)) ≤ 1000001 * (hz * u * k + 300 * (u * k)) ∧
      12000000 * (u * k) ≤ hz * u * k ∧ 9995 * (157 * (hz * u * k)) ≤ 10000 * (48000000 * (k * P)) ∧ 10000 * (48000000 * (k * P)) ≤ 10005 * (157 * (hz * u * k)) := by
    intro k
    have a1 := Nat.mul_le_mul_right (u * k) n1
    have a2 := Nat.mul_le_mul_right (u * k) n2
    have a3 := Nat.mul_le_mul_right k hu1
    have a4 := Nat.mul_le_mul_right k p1
    have a5 := Nat.mul_le_mul_right k p2
    simp only [Nat.mul_assoc, Nat.add_mul] at a1 a2 a3 a4 a5 ⊢
    rw [Nat.mul_comm P k] at a4 a5
    exact ⟨a1, a2, a3, a4, a5⟩
  refine ⟨fun k => ?_, fun s k hk => ?_, fun s k hk => ?_⟩
  · obtain ⟨x, e, g, -⟩ := clockWith_diff N u t0 f k 1
    rw [Nat.mul_one] at g
    have : 0 < u * x := Nat.mul_pos hu (by omega)
    omega
  · obtain ⟨x, e, g, -⟩ := clockWith_diff N u t0 f s k
    have e1 := Nat.mul_le_mul_left u (Nat.le_of_lt g)
    have e2 : u * (N * k) = N * u * k := by rw [← Nat.mul_assoc, Nat.mul_comm u]
    have e3 : u * (256 * x + 256) = 256 * (u * x) + 256 * u := by rw [Nat.mul_add, ← Nat.mul_assoc, Nat.mul_comm u, Nat.mul_assoc, Nat.mul_comm u]
    rw [e2, e3] at e1
    obtain ⟨q1, -, q3, -, q5⟩ := key k
    rw [e, Nat.mul_assoc 1989]
    omega
  · obtain ⟨x, e, -, g⟩ := clockWith_diff N u t0 f s k
    have e1 := Nat.mul_le_mul_left u (Nat.le_of_lt g)
    have e2 : u * (N * k + 256) = N * u * k + 256 * u := by rw [Nat.mul_add, ← Nat.mul_assoc, Nat.mul_comm u N, Nat.mul_comm u 256]
    have e3 : u * (256 * x) = 256 * (u * x) := by rw [← Nat.mul_assoc, Nat.mul_comm u, Nat.mul_assoc]
    rw [e2, e3] at e1
    obtain ⟨-, q2, q3, q4, -⟩ := key k
    rw [e, Nat.mul_assoc 1992]
    omega

/-- **C148, bit rate.** A bit (16 cycles of the state machine) lasts `hz / 9600` cycles of the system clock, with an error of at most two cycles of it, with a system clock of up to 1 GHz. -/
theorem C148_bit {hz n d N : Nat} (h1 : 12000000 ≤ hz) (h2 : hz ≤ 1000000000) (h : SetDiv hz n d) (hN : SetRegs n d N) (t0 f s : Nat) :
    hz ≤ 9600 * (clockWith N 1 t0 f (s + 16) - clockWith N 1 t0 f s) + 2 * 9600 ∧ 9600 * (clockWith N 1 t0 f (s + 16) - clockWith N 1 t0 f s) ≤ hz + 2 * 9600 := by
  obtain ⟨n1, n2⟩ := C148_divider h1 (by omega) h hN
  obtain ⟨x, e, g1, g2⟩ := clockWith_diff N 1 t0 f s 16
  rw [e, Nat.one_mul, Nat.add_sub_cancel_left]
  omega

/-! ## Cases that meet the hypotheses -/

/-- The usual system clock: 125 MHz / 153600 = 813.80208... is rounded to 13333333 / 2^14, and the divider is that of C113, with either version of the SDK. -/
theorem usual_set : SetDiv 125000000 13333333 16384 := ⟨125000000, 1, ⟨by decide, by decide, by decide⟩, ⟨by decide, by decide, by decide⟩⟩

theorem usual_regs : SetRegs 13333333 16384 208333 := .inl (by decide)

example : SetRegs 13333333 16384 208333 := .inr ⟨13333365, 16384, ⟨by decide, by decide, by decide⟩, by decide⟩

theorem dividerClock_eq : dividerClock = clockWith 208333 := rfl

/-- C113 uses what the device sets. -/
example : SenderClock 19625 (dividerClock 48 0 0) :=
  C148_clock (by decide) (by decide) usual_set usual_regs (by decide) (by decide) (by decide) 0 0

/-- Any divider that may be set for 125 MHz is this one. -/
theorem C148_usual {n d N : Nat} (h : SetDiv 125000000 n d) (hN : SetRegs n d N) : N = 208333 := by
  obtain ⟨hd, b1, b2⟩ := setDiv_bounds h
  rcases hN with rfl | ⟨r, s, ⟨hs, a1, a2⟩, rfl⟩
  · have l1 : d ≤ n := by omega
    have l2 : n < 65536 * d := by omega
    obtain ⟨k1, k2⟩ := clkdivRegs_floor hd l1 l2
    generalize clkdivRegs n d = N at *
    have g1 : N * d < 208334 * d := by omega
    have g2 : 208333 * d < (N + 1) * d := by omega
    have := Nat.lt_of_mul_lt_mul_right g1
    have := Nat.lt_of_mul_lt_mul_right g2
    omega
  · have hds : 0 < d * s := Nat.mul_pos hd hs
    have e1 : r * (512 * d) = 512 * (r * d) := by rw [← Nat.mul_assoc, Nat.mul_comm r, Nat.mul_assoc]
    have e2 : (512 * n + d) * s = 512 * (n * s) + d * s := by rw [Nat.add_mul, Nat.mul_assoc]
    rw [e1, e2] at a1 a2
    have b1 := Nat.mul_le_mul_right s b1
    have b2 := Nat.mul_le_mul_right s b2
    simp only [Nat.mul_assoc] at b1 b2
    have r1 : s ≤ r := by
      refine Nat.le_of_mul_le_mul_right (c := d) ?_ hd
      rw [Nat.mul_comm s d]
      omega
    have r2 : r < 65536 * s := by
      refine Nat.lt_of_mul_lt_mul_right (a := d) ?_
      rw [Nat.mul_assoc, Nat.mul_comm s d]
      omega
    obtain ⟨k1, k2⟩ := clkdivRegs_floor hs r1 r2
    have k1 := Nat.mul_le_mul_right d k1
    have k2 := Nat.mul_lt_mul_of_pos_right k2 hd
    generalize clkdivRegs r s = N at *
    have e3 : N * s * d = N * (d * s) := by rw [Nat.mul_assoc, Nat.mul_comm s]
    have e4 : (N + 1) * s * d = (N + 1) * (d * s) := by rw [Nat.mul_assoc, Nat.mul_comm s]
    rw [e3, Nat.mul_assoc] at k1
    rw [e4, Nat.mul_assoc] at k2
    have g1 : N * (d * s) < 208334 * (d * s) := by omega
    have g2 : 208333 * (d * s) < (N + 1) * (d * s) := by omega
    have := Nat.lt_of_mul_lt_mul_right g1
    have := Nat.lt_of_mul_lt_mul_right g2
    omega

/-- A system clock of 200 MHz, and a sender whose crystal is 333 ppm slow in the second case. -/
example : SenderClock 196250 (clockWith 333333 300 0 17) ∧ SenderClock 1962500 (clockWith 333333 3001 0 17) := by
  have h : SetDiv 200000000 10666667 8192 := ⟨200000000, 1, ⟨by decide, by decide, by decide⟩, ⟨by decide, by decide, by decide⟩⟩
  have hN : SetRegs 10666667 8192 333333 := .inl (by decide)
  exact ⟨C148_clock (by decide) (by decide) h hN (by decide) (by decide) (by decide) 0 17, C148_clock (by decide) (by decide) h hN (by decide) (by decide) (by decide) 0 17⟩

end P1P2
