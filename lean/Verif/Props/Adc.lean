import Verif.Model.Adc
import Verif.Props.TwosComplement
/-!
# C47-C49: the differential ADC

A run is a list of events: the DMA writes the next sample, or the receive core polls (`late`: number of samples the
DMA writes between reading the counter and reading the ring).  `h k` is the `k`-th sample of the block.
-/
namespace P1P2

/-- An event. -/
inductive AdcEv where
  | write
  | poll (late : Nat)
deriving DecidableEq, Repr

/-- The samples number `W`, ..., `W + n - 1`. -/
def nextSamples (h : Nat → Int) (W n : Nat) : List Int := (List.range n).map fun i => h (W + i)

/-- Run: `W` is the number of samples written so far; the values delivered are collected. -/
def adcRun (h : Nat → Int) : Adc → Nat → List AdcEv → Res (Adc × Nat × List Int)
  | a, W, [] => .ok (a, W, [])
  | a, W, .write :: es => adcRun h (a.write (h W)) (W + 1) es
  | a, W, .poll n :: es => do
    let u ← a.update (nextSamples h W n)
    match u.2 with
    | none => adcRun h u.1 W es
    | some v => do
      let r ← adcRun h u.1 (W + n) es
      .ok (r.1, r.2.1, v :: r.2.2)

/-- The consumer keeps up: `W` samples written, `D` delivered; at every poll that delivers a sample the lag is at most
`maxLag` (including the late samples); the block is not complete. -/
def keepsUp (maxLag : Nat) : Nat → Nat → List AdcEv → Prop
  | W, _, [] => W < adcBlock
  | W, D, .write :: es => W < adcBlock ∧ keepsUp maxLag (W + 1) D es
  | W, D, .poll n :: es =>
    if W = D then W < adcBlock ∧ keepsUp maxLag W D es else W + n < adcBlock ∧ W + n ≤ D + maxLag ∧ keepsUp maxLag (W + n) (D + 1) es

/-- Number of samples delivered. -/
def deliveries : Nat → Nat → List AdcEv → Nat
  | _, _, [] => 0
  | W, D, .write :: es => deliveries (W + 1) D es
  | W, D, .poll n :: es => if W = D then deliveries W D es else 1 + deliveries (W + n) (D + 1) es

/-- Number of samples written. -/
def written : Nat → Nat → List AdcEv → Nat
  | W, _, [] => W
  | W, D, .write :: es => written (W + 1) D es
  | W, D, .poll n :: es => if W = D then written W D es else written (W + n) (D + 1) es

/-- Samples and, before the first one, the old contents of the ring. -/
def adcHist (ring : Nat → Int) (h : Nat → Int) (j : Int) : Int := if j < 0 then ring (j + 256).toNat else h j.toNat

/-- Reference: the middle one of three samples plus the average (rounded towards zero) of its neighbours, scaled. -/
def adcRef (gain : Int) (y : Int → Int) (k : Int) : Int := (Int.tdiv (y k + y (k - 2)) 2 + y (k - 1)) * gain / 256

/-- State within a block: `W` samples written, `D` delivered. -/
structure AdcInv (ring h : Nat → Int) (g : Int) (W D : Nat) (a : Adc) : Prop where
  hw : a.tcHw = adcBlock - W
  wle : W ≤ adcBlock
  wp : a.wp = W % 256
  tc : a.tc = adcBlock - D
  dle : D ≤ W
  off : a.off = D % 256
  gain : a.gain = g
  data : ∀ j : Int, (W : Int) - 256 ≤ j → j < W → a.data (j % 256).toNat = adcHist ring h j

theorem AdcInv.start (ring h : Nat → Int) (g : Nat) : AdcInv ring h (adcGain g) 0 0 (Adc.start ring g) := by
  refine ⟨rfl, by decide, rfl, rfl, Nat.le_refl _, rfl, rfl, ?_⟩
  intro j h1 h2
  show ring _ = _
  unfold adcHist
  rw [if_pos (by omega)]
  congr 1
  omega

theorem AdcInv.write {ring h : Nat → Int} {g : Int} {W D : Nat} {a : Adc} (i : AdcInv ring h g W D a) (hW : W < adcBlock) :
    AdcInv ring h g (W + 1) D (a.write (h W)) := by
  have h1 := i.hw
  have h2 := i.wp
  have hb : adcBlock = 268435456 := rfl
  have hne : ¬ a.tcHw = 0 := by omega
  unfold Adc.write
  rw [if_neg hne]
  refine ⟨?_, by omega, ?_, i.tc, by have := i.dle; omega, i.off, i.gain, ?_⟩
  · show a.tcHw - 1 = _; omega
  · show (a.wp + 1) % 256 = _; omega
  · intro j hj1 hj2
    show upd a.data a.wp (h W) (j % 256).toNat = _
    by_cases hj : j = W
    · subst hj
      rw [show ((W : Int) % 256).toNat = a.wp by omega, upd_same]
      unfold adcHist
      rw [if_neg (by omega)]
      rfl
    · rw [upd_other _ _ (by omega)]
      exact i.data j (by omega) (by omega)

theorem nextSamples_succ (h : Nat → Int) (W n : Nat) : nextSamples h W (n + 1) = nextSamples h W n ++ [h (W + n)] := by
  simp [nextSamples, List.range_succ]

theorem AdcInv.writes {ring h : Nat → Int} {g : Int} {W D : Nat} {a : Adc} (i : AdcInv ring h g W D a) (n : Nat)
    (hW : W + n ≤ adcBlock) : AdcInv ring h g (W + n) D ((nextSamples h W n).foldl Adc.write a) := by
  induction n with
  | zero => exact i
  | succ n ih =>
    rw [nextSamples_succ, List.foldl_append]
    exact (ih (by omega)).write (by omega)

/-- Range of a sample. -/
def SampleRange (f : Nat → Int) : Prop := ∀ k, -256 ≤ f k ∧ f k ≤ 255

theorem adcHist_range {ring h : Nat → Int} (hr : SampleRange ring) (hh : SampleRange h) (j : Int) :
    -256 ≤ adcHist ring h j ∧ adcHist ring h j ≤ 255 := by
  unfold adcHist
  split
  · exact hr _
  · exact hh _

theorem tdiv2_range {x : Int} (h : -512 ≤ x ∧ x ≤ 512) : -256 ≤ Int.tdiv x 2 ∧ Int.tdiv x 2 ≤ 256 := by
  rcases Int.le_total 0 x with h0 | h0
  · rw [Int.tdiv_eq_ediv_of_nonneg h0]; omega
  · have e : Int.tdiv x 2 = -Int.tdiv (-x) 2 := by rw [Int.neg_tdiv]; omega
    rw [e, Int.tdiv_eq_ediv_of_nonneg (by omega)]; omega

theorem gain_range (g : Nat) (hg : g < 65536) : 0 ≤ adcGain g ∧ adcGain g ≤ 767988 := by
  unfold adcGain
  rw [Int.emod_eq_of_lt (by omega) (by omega)]
  omega

theorem mul_range {d g : Int} (hd : -512 ≤ d ∧ d ≤ 512) (hg : 0 ≤ g ∧ g ≤ 767988) :
    -393209856 ≤ d * g ∧ d * g ≤ 393209856 := by
  have h1 : d * g ≤ 512 * g := Int.mul_le_mul_of_nonneg_right hd.2 hg.1
  have h2 : -512 * g ≤ d * g := Int.mul_le_mul_of_nonneg_right hd.1 hg.1
  omega

theorem value_ok {x1 x2 y g : Int} (h1 : -256 ≤ x1 ∧ x1 ≤ 255) (h2 : -256 ≤ x2 ∧ x2 ≤ 255) (h3 : -256 ≤ y ∧ y ≤ 255)
    (hg : 0 ≤ g ∧ g ≤ 767988) :
    i32 (toI16 (toI16 (Int.tdiv (x1 + x2) 2) + y) * g) = .ok ((Int.tdiv (x1 + x2) 2 + y) * g) := by
  have hr := tdiv2_range (x := x1 + x2) (by omega)
  have hm := mul_range (d := Int.tdiv (x1 + x2) 2 + y) (by omega) hg
  rw [toI16_of_range (x := Int.tdiv (x1 + x2) 2) (by omega) (by omega), toI16_of_range (by omega) (by omega)]
  exact i32_ok (by omega) (by omega)

theorem AdcInv.value {ring h : Nat → Int} {g : Int} {W D : Nat} {a : Adc} (i : AdcInv ring h g W D a) (hr : SampleRange ring)
    (hh : SampleRange h) (hg : 0 ≤ g ∧ g ≤ 767988) (hD : D < W) (hlag : W ≤ D + 254) :
    a.value = .ok (adcRef g (adcHist ring h) D) := by
  have ho := i.off
  have e1 : a.data (a.off % 256) = adcHist ring h D := by
    rw [← i.data D (by omega) (by omega)]
    congr 1; omega
  have e2 : a.data ((a.off + 254) % 256) = adcHist ring h (D - 2) := by
    rw [← i.data (D - 2) (by omega) (by omega)]
    congr 1; omega
  have e3 : a.data ((a.off + 255) % 256) = adcHist ring h (D - 1) := by
    rw [← i.data (D - 1) (by omega) (by omega)]
    congr 1; omega
  unfold Adc.value
  rw [rd_of_lt _ (Nat.mod_lt _ (by decide)), rd_of_lt _ (Nat.mod_lt _ (by decide)), rd_of_lt _ (Nat.mod_lt _ (by decide))]
  simp only [Res.ok_bind, e1, e2, e3, i.gain]
  rw [value_ok (adcHist_range hr hh _) (adcHist_range hr hh _) (adcHist_range hr hh _) hg]
  rfl

theorem value_congr {a b : Adc} (h1 : a.data = b.data) (h2 : a.off = b.off) (h3 : a.gain = b.gain) : a.value = b.value := by
  unfold Adc.value
  rw [h1, h2, h3]

theorem AdcInv.poll {ring h : Nat → Int} {g : Int} {W D : Nat} {a : Adc} (i : AdcInv ring h g W D a) (hr : SampleRange ring)
    (hh : SampleRange h) (hg : 0 ≤ g ∧ g ≤ 767988) {n : Nat} (hD : D < W) (hW : W + n < adcBlock) (hlag : W + n ≤ D + 254) :
    ∃ a', a.update (nextSamples h W n) = .ok (a', some (adcRef g (adcHist ring h) D)) ∧
      AdcInv ring h g (W + n) (D + 1) a' ∧ a'.err = a.err := by
  have h1 := i.hw
  have h2 := i.tc
  have hb : adcBlock = 268435456 := rfl
  have hne : ¬ a.tcHw = 0 := by omega
  have hwrites : ∀ (b : Adc) (f : Bool) (t : Nat), ∀ l : List Int, l.foldl Adc.write { b with err := f, tc := t } =
      { l.foldl Adc.write b with err := f, tc := t } := by
    intro b f t l
    induction l generalizing b with
    | nil => rfl
    | cons v l ih =>
      rw [List.foldl_cons, List.foldl_cons, ← ih]
      congr 1
      unfold Adc.write
      dsimp only
      split <;> rfl
  have herrw : ∀ (b : Adc) (l : List Int), (l.foldl Adc.write b).err = b.err := by
    intro b l
    induction l generalizing b with
    | nil => rfl
    | cons v l ih =>
      rw [List.foldl_cons, ih]
      unfold Adc.write
      split <;> rfl
  have iw := i.writes n (by omega)
  have hlt : ¬ 256 ≤ (a.tc + 4294967296 - a.tcHw) % 4294967296 := by omega
  refine ⟨{ (nextSamples h W n).foldl Adc.write a with
      err := a.err
      tc := (a.tc + 4294967295) % 4294967296
      off := (((nextSamples h W n).foldl Adc.write a).off + 1) % 256 }, ?_, ?_, rfl⟩
  · unfold Adc.update
    simp only [if_neg hne]
    rw [if_neg (by omega)]
    rw [decide_eq_false hlt, Bool.or_false]
    have := hwrites a a.err ((a.tc + 4294967295) % 4294967296) (nextSamples h W n)
    simp only at this
    rw [this]
    have hv := iw.value hr hh hg (by omega) hlag
    have hv' : ∀ t : Nat, Adc.value { (nextSamples h W n).foldl Adc.write a with err := a.err, tc := t } =
        .ok (adcRef g (adcHist ring h) D) := fun t => (value_congr rfl rfl rfl).trans hv
    rw [hv']
    rfl
  · refine ⟨iw.hw, iw.wle, iw.wp, ?_, by omega, ?_, iw.gain, iw.data⟩
    · show (a.tc + 4294967295) % 4294967296 = _; omega
    · have := iw.off
      show (_ + 1) % 256 = _; omega

theorem AdcInv.idle {ring h : Nat → Int} {g : Int} {W : Nat} {a : Adc} (i : AdcInv ring h g W W a) (hW : W < adcBlock)
    (l : List Int) : a.update l = .ok (a, none) := by
  have h1 := i.hw
  have h2 := i.tc
  unfold Adc.update
  simp only [if_neg (show ¬ a.tcHw = 0 by omega)]
  rw [if_pos (by omega)]

theorem adcRun_ok {ring h : Nat → Int} {g : Int} (hr : SampleRange ring) (hh : SampleRange h) (hg : 0 ≤ g ∧ g ≤ 767988)
    (es : List AdcEv) : ∀ {W D : Nat} {a : Adc}, AdcInv ring h g W D a → keepsUp 254 W D es →
    ∃ a', adcRun h a W es = .ok (a', written W D es, (List.range (deliveries W D es)).map (fun k : Nat => adcRef g (adcHist ring h) (D + k : Nat))) ∧
      AdcInv ring h g (written W D es) (D + deliveries W D es) a' ∧ a'.err = a.err := by
  induction es with
  | nil => intro W D a i _; exact ⟨a, rfl, i, rfl⟩
  | cons e es ih =>
    intro W D a i hk
    cases e with
    | write =>
      obtain ⟨a', h1, h2, h3⟩ := ih (i.write hk.1) hk.2
      refine ⟨a', h1, h2, ?_⟩
      rw [h3]
      unfold Adc.write
      split <;> rfl
    | poll n =>
      by_cases hWD : W = D
      · subst hWD
        simp only [keepsUp, if_true] at hk
        obtain ⟨a', h1, h2, h3⟩ := ih i hk.2
        refine ⟨a', ?_, by simpa [deliveries, written] using h2, h3⟩
        simp only [adcRun, i.idle hk.1, Res.ok_bind, deliveries, written, if_true]
        exact h1
      · simp only [keepsUp, if_neg hWD] at hk
        have hd := i.dle
        obtain ⟨a1, p1, p2, p3⟩ := i.poll hr hh hg (n := n) (by omega) hk.1 hk.2.1
        obtain ⟨a', h1, h2, h3⟩ := ih p2 hk.2.2
        refine ⟨a', ?_, ?_, by rw [h3, p3]⟩
        · simp only [adcRun, p1, Res.ok_bind, h1, deliveries, written, if_neg hWD]
          rw [Nat.add_comm 1, List.range_succ_eq_map, List.map_cons, List.map_map]
          congr 4
          apply List.map_congr_left
          intro k _
          show adcRef g (adcHist ring h) ((D + 1 + k : Nat) : Int) = adcRef g (adcHist ring h) ((D + (k + 1) : Nat) : Int)
          rw [show D + 1 + k = D + (k + 1) by omega]
        · rw [deliveries, if_neg hWD, ← Nat.add_assoc, written, if_neg hWD]
          exact h2

/-- **C47.** As long as the consumer lags by at most 254 samples, whatever the interleaving of DMA and polls, the
values delivered are exactly the reference values of samples 0, 1, 2, ... of the block, no error is flagged, and
nothing overflows, for every gain. -/
theorem C47_samples (ring h : Nat → Int) (hr : SampleRange ring) (hh : SampleRange h) (g : Nat) (hg : g < 65536)
    (es : List AdcEv) (hk : keepsUp 254 0 0 es) :
    ∃ a, adcRun h (Adc.start ring g) 0 es = .ok (a, written 0 0 es,
        (List.range (deliveries 0 0 es)).map (fun k : Nat => adcRef (adcGain g) (adcHist ring h) k)) ∧
      a.err = false := by
  obtain ⟨a, h1, -, h3⟩ := adcRun_ok hr hh (gain_range g hg) es (AdcInv.start ring h g) hk
  simp only [Nat.zero_add] at h1
  exact ⟨a, h1, h3⟩

/-- **C47, meaning.** With the samples the conversion program delivers (C34: channel 0 negated, channel 1 not), every
delivered value is channel 1 minus channel 0 at the time of the middle sample, one of the two averaged from its
neighbours, scaled by the gain. -/
theorem C47_differential (ring : Nat → Int) (b : Nat → UInt8) (gain : Int) (k : Nat) (hk : 2 ≤ k) :
    adcRef gain (adcHist ring (fun k => Pio.sampleValue k (b k))) k =
      if k % 2 = 0 then (((b (k - 1)).toNat : Int) - ((b k).toNat + (b (k - 2)).toNat) / 2) * gain / 256
      else ((((b k).toNat : Int) + (b (k - 2)).toNat) / 2 - (b (k - 1)).toNat) * gain / 256 := by
  have e1 : adcHist ring (fun k => Pio.sampleValue k (b k)) k = Pio.sampleValue k (b k) := by
    unfold adcHist; rw [if_neg (by omega)]; rfl
  have e2 : adcHist ring (fun k => Pio.sampleValue k (b k)) ((k : Int) - 2) = Pio.sampleValue (k - 2) (b (k - 2)) := by
    unfold adcHist; rw [if_neg (by omega)]
    rw [show ((k : Int) - 2).toNat = k - 2 by omega]
  have e3 : adcHist ring (fun k => Pio.sampleValue k (b k)) ((k : Int) - 1) = Pio.sampleValue (k - 1) (b (k - 1)) := by
    unfold adcHist; rw [if_neg (by omega)]
    rw [show ((k : Int) - 1).toNat = k - 1 by omega]
  unfold adcRef
  rw [e1, e2, e3]
  unfold Pio.sampleValue
  by_cases h : k % 2 = 0
  · rw [if_pos h, if_pos (by omega), if_neg (by omega), if_pos h]
    have : Int.tdiv (-((b k).toNat : Int) + -((b (k - 2)).toNat : Int)) 2 = -(((b k).toNat : Int) + (b (k - 2)).toNat).tdiv 2 := by
      rw [← Int.neg_add, Int.neg_tdiv]
    rw [this, Int.tdiv_eq_ediv_of_nonneg (by omega)]
    congr 2
    omega
  · rw [if_neg h, if_neg (by omega), if_pos (by omega), if_neg h]
    rw [Int.tdiv_eq_ediv_of_nonneg (by omega)]
    congr 2

/-- Two polls after four samples deliver two values (a constant difference of 100 ADC units is 1950 mV). -/
example : ∃ a W v, adcRun (fun k => Pio.sampleValue k (if k % 2 = 0 then 28 else 128)) (Adc.start (fun _ => 0) 426) 0
    [.write, .write, .poll 0, .write, .poll 1, .poll 0, .poll 0, .poll 3] = .ok (a, W, v ++ [1950, 1950]) ∧ v.length = 2 := by
  obtain ⟨a, h, -⟩ := C47_samples (fun _ => 0) (fun k => Pio.sampleValue k (if k % 2 = 0 then 28 else 128))
    (fun k => by simp) (fun k => by
      show -256 ≤ Pio.sampleValue k _ ∧ Pio.sampleValue k _ ≤ 255
      unfold Pio.sampleValue
      by_cases h : k % 2 = 0
      · rw [if_pos h, if_pos h]; decide
      · rw [if_neg h, if_neg h]; decide) 426 (by decide)
    [.write, .write, .poll 0, .write, .poll 1, .poll 0, .poll 0, .poll 3] (by simp [keepsUp, adcBlock])
  have e : (List.range (deliveries 0 0
      [.write, .write, .poll 0, .write, .poll 1, .poll 0, .poll 0, .poll 3])).map (fun k : Nat => adcRef (adcGain 426)
        (adcHist (fun _ => 0) fun k => Pio.sampleValue k (if k % 2 = 0 then 28 else 128)) k) = [-273, 702, 1950, 1950] := by
    decide +kernel
  rw [e] at h
  exact ⟨a, _, [-273, 702], h, rfl⟩

/-! ## C48 -/

/-- The value at the read position for any lag: `x` tells what is in the slot of the sample before last. -/
theorem AdcInv.value_any {ring h : Nat → Int} {g : Int} {W D : Nat} {a : Adc} (i : AdcInv ring h g W D a) (hr : SampleRange ring)
    (hh : SampleRange h) (hg : 0 ≤ g ∧ g ≤ 767988) : ∃ v, a.value = .ok v := by
  have hd : ∀ k, k < 256 → -256 ≤ a.data k ∧ a.data k ≤ 255 := by
    intro k hk
    have h1 := i.data ((W : Int) - 256 + (((k : Int) - W) % 256)) (by omega) (by omega)
    rw [show (((W : Int) - 256 + (((k : Int) - W) % 256)) % 256).toNat = k by omega] at h1
    rw [h1]
    exact adcHist_range hr hh _
  unfold Adc.value
  rw [rd_of_lt _ (Nat.mod_lt _ (by decide)), rd_of_lt _ (Nat.mod_lt _ (by decide)), rd_of_lt _ (Nat.mod_lt _ (by decide))]
  simp only [Res.ok_bind, i.gain]
  rw [value_ok (hd _ (Nat.mod_lt _ (by decide))) (hd _ (Nat.mod_lt _ (by decide))) (hd _ (Nat.mod_lt _ (by decide))) hg]
  exact ⟨_, rfl⟩

/-- A poll that finds data, for any lag. -/
theorem AdcInv.poll_any {ring h : Nat → Int} {g : Int} {W D : Nat} {a : Adc} (i : AdcInv ring h g W D a) (hr : SampleRange ring)
    (hh : SampleRange h) (hg : 0 ≤ g ∧ g ≤ 767988) {n : Nat} (hD : D < W) (hW : W < adcBlock) (hWn : W + n ≤ adcBlock) :
    ∃ a' v, a.update (nextSamples h W n) = .ok (a', some v) ∧ ((nextSamples h W n).foldl Adc.write a).value = .ok v ∧
      AdcInv ring h g (W + n) (D + 1) a' ∧ a'.err = (a.err || decide (D + 256 ≤ W)) := by
  have h1 := i.hw
  have h2 := i.tc
  have hb : adcBlock = 268435456 := rfl
  have hne : ¬ a.tcHw = 0 := by omega
  have hwrites : ∀ (b : Adc) (f : Bool) (t : Nat), ∀ l : List Int, l.foldl Adc.write { b with err := f, tc := t } =
      { l.foldl Adc.write b with err := f, tc := t } := by
    intro b f t l
    induction l generalizing b with
    | nil => rfl
    | cons v l ih =>
      rw [List.foldl_cons, List.foldl_cons, ← ih]
      congr 1
      unfold Adc.write
      dsimp only
      split <;> rfl
  have iw := i.writes n hWn
  have hlt : decide (256 ≤ (a.tc + 4294967296 - a.tcHw) % 4294967296) = decide (D + 256 ≤ W) := by
    apply decide_eq_decide.mpr
    omega
  obtain ⟨v, hv⟩ := iw.value_any hr hh hg
  refine ⟨{ (nextSamples h W n).foldl Adc.write a with
      err := a.err || decide (D + 256 ≤ W)
      tc := (a.tc + 4294967295) % 4294967296
      off := (((nextSamples h W n).foldl Adc.write a).off + 1) % 256 }, v, ?_, hv, ?_, rfl⟩
  · unfold Adc.update
    simp only [if_neg hne]
    rw [if_neg (by omega)]
    rw [hlt]
    have := hwrites a (a.err || decide (D + 256 ≤ W)) ((a.tc + 4294967295) % 4294967296) (nextSamples h W n)
    simp only at this
    rw [this]
    have hv' : ∀ (t : Nat) (f : Bool), Adc.value { (nextSamples h W n).foldl Adc.write a with err := f, tc := t } =
        .ok v := fun t f => (value_congr rfl rfl rfl).trans hv
    rw [hv']
    rfl
  · refine ⟨iw.hw, iw.wle, iw.wp, ?_, by omega, ?_, iw.gain, iw.data⟩
    · show (a.tc + 4294967295) % 4294967296 = _; omega
    · have := iw.off
      show (_ + 1) % 256 = _; omega

/-- Any run within a block. -/
theorem adcRun_any {ring h : Nat → Int} {g : Int} (hr : SampleRange ring) (hh : SampleRange h) (hg : 0 ≤ g ∧ g ≤ 767988)
    (es : List AdcEv) : ∀ {W D : Nat} {a : Adc}, AdcInv ring h g W D a → keepsUp adcBlock W D es →
    ∃ a' l, adcRun h a W es = .ok (a', written W D es, l) ∧ l.length = deliveries W D es ∧
      AdcInv ring h g (written W D es) (D + deliveries W D es) a' ∧ written W D es < adcBlock := by
  induction es with
  | nil => intro W D a i hk; exact ⟨a, [], rfl, rfl, i, hk⟩
  | cons e es ih =>
    intro W D a i hk
    cases e with
    | write =>
      exact ih (i.write hk.1) hk.2
    | poll n =>
      by_cases hWD : W = D
      · subst hWD
        simp only [keepsUp, if_true] at hk
        obtain ⟨a', l, h1, h2, h3⟩ := ih i hk.2
        refine ⟨a', l, ?_, by simpa [deliveries] using h2, by simpa [deliveries, written] using h3⟩
        simp only [adcRun, i.idle hk.1, Res.ok_bind, written, if_true]
        exact h1
      · simp only [keepsUp, if_neg hWD] at hk
        have hd := i.dle
        obtain ⟨a1, v, p1, -, p2, -⟩ := i.poll_any hr hh hg (n := n) (by omega) (by omega) (by omega)
        obtain ⟨a', l, h1, h2, h3⟩ := ih p2 hk.2.2
        refine ⟨a', v :: l, ?_, ?_, ?_⟩
        · simp only [adcRun, p1, Res.ok_bind, h1, written, if_neg hWD]
        · rw [List.length_cons, h2, deliveries, if_neg hWD]; omega
        · rw [deliveries, if_neg hWD, ← Nat.add_assoc, written, if_neg hWD]
          exact h3

/-- **C48, partial.** After any run within a block, a poll that finds a lag of 256 samples or more raises the error
flag.  Missing: a lag of exactly 255 samples, see `C48_refuted`. -/
theorem C48_partial (ring h : Nat → Int) (hr : SampleRange ring) (hh : SampleRange h) (g : Nat) (hg : g < 65536)
    (es : List AdcEv) (hk : keepsUp adcBlock 0 0 es) (hlag : deliveries 0 0 es + 256 ≤ written 0 0 es) (n : Nat)
    (hn : written 0 0 es + n ≤ adcBlock) :
    ∃ a l, adcRun h (Adc.start ring g) 0 es = .ok (a, written 0 0 es, l) ∧
      ∃ a' v, a.update (nextSamples h (written 0 0 es) n) = .ok (a', some v) ∧ a'.err = true := by
  obtain ⟨a, l, h1, -, h3, h4⟩ := adcRun_any hr hh (gain_range g hg) es (AdcInv.start ring h g) hk
  obtain ⟨a', v, p1, -, -, p2⟩ := h3.poll_any hr hh (gain_range g hg) (n := n) (by omega) h4 hn
  refine ⟨a, l, h1, a', v, p1, ?_⟩
  rw [p2, decide_eq_true (by omega)]
  simp

/-- **C48 is false for a lag of 255.** In every such state the value is computed from a sample that was overwritten
(sample `D + 254` took the place of sample `D - 2`) and no error is flagged. -/
theorem C48_refuted {ring h : Nat → Int} {g : Int} {D : Nat} {a : Adc} (i : AdcInv ring h g (D + 255) D a)
    (hr : SampleRange ring) (hh : SampleRange h) (hg : 0 ≤ g ∧ g ≤ 767988) (hW : D + 255 < adcBlock) (he : a.err = false) :
    ∃ a', a.update [] = .ok (a', some ((Int.tdiv (h D + h (D + 254)) 2 + adcHist ring h (D - 1)) * g / 256)) ∧
      a'.err = false := by
  obtain ⟨a', v, p1, p2, -, p3⟩ := i.poll_any hr hh hg (n := 0) (by omega) hW (by omega)
  refine ⟨a', ?_, by rw [p3, he, decide_eq_false (by omega)]; rfl⟩
  have hu : a.update (nextSamples h (D + 255) 0) = a.update [] := rfl
  rw [hu] at p1
  rw [p1]
  congr 3
  have hv : a.value = .ok v := p2
  have ho := i.off
  have e1 : a.data (a.off % 256) = h D := by
    have : adcHist ring h D = h D := by unfold adcHist; rw [if_neg (by omega)]; rfl
    rw [← this, ← i.data D (by omega) (by omega)]
    congr 1; omega
  have e2 : a.data ((a.off + 254) % 256) = h (D + 254) := by
    have : adcHist ring h ((D + 254 : Nat) : Int) = h (D + 254) := by unfold adcHist; rw [if_neg (by omega)]; rfl
    rw [← this, ← i.data ((D + 254 : Nat) : Int) (by omega) (by omega)]
    congr 1; omega
  have e3 : a.data ((a.off + 255) % 256) = adcHist ring h (D - 1) := by
    rw [← i.data (D - 1) (by omega) (by omega)]
    congr 1; omega
  unfold Adc.value at hv
  rw [rd_of_lt _ (Nat.mod_lt _ (by decide)), rd_of_lt _ (Nat.mod_lt _ (by decide)), rd_of_lt _ (Nat.mod_lt _ (by decide))] at hv
  simp only [Res.ok_bind, e1, e2, e3, i.gain] at hv
  rw [value_ok (hh _) (hh _) (adcHist_range hr hh _) hg] at hv
  simp only [Res.ok_bind, Res.ok.injEq] at hv
  exact hv.symm

/-- Such a state is reached: sample 256 is a peak of channel 0, all others are 0; two polls, then 255 samples at once.
Sample 2 is delivered as -975 mV instead of 0. -/
theorem C48_refuted_witness :
    ∃ a l a', adcRun (fun k => if k = 256 then -100 else 0) (Adc.start (fun _ => 0) 426) 0
        ([.write, .poll 0, .write, .poll 0] ++ List.replicate 255 .write) = .ok (a, 257, l) ∧ l.length = 2 ∧
      a.update [] = .ok (a', some (-975)) ∧ a'.err = false ∧
      adcRef (adcGain 426) (adcHist (fun _ => 0) (fun k => if k = 256 then -100 else 0)) 2 = 0 := by
  have hr : SampleRange (fun _ => 0) := fun _ => by simp
  have hh : SampleRange (fun k => if k = 256 then -100 else 0) := by
    intro k
    show -256 ≤ (if k = 256 then (-100 : Int) else 0) ∧ (if k = 256 then (-100 : Int) else 0) ≤ 255
    split <;> omega
  have hw : ∀ n W D, W + n < adcBlock → keepsUp 254 W D (List.replicate n .write) ∧ deliveries W D (List.replicate n .write) = 0 := by
    intro n
    induction n with
    | zero => intro W D h; exact ⟨h, rfl⟩
    | succ n ih =>
      intro W D h
      rw [List.replicate_succ]
      obtain ⟨h1, h2⟩ := ih (W + 1) D (by omega)
      exact ⟨⟨by omega, h1⟩, h2⟩
  have hb : adcBlock = 268435456 := rfl
  have hw' : ∀ n W D, written W D (List.replicate n .write) = W + n := by
    intro n
    induction n with
    | zero => intro W D; rfl
    | succ n ih =>
      intro W D
      rw [List.replicate_succ, show W + (n + 1) = W + 1 + n by omega]
      exact ih (W + 1) D
  obtain ⟨k1, k2⟩ := hw 255 2 2 (by omega)
  have hk : keepsUp 254 0 0 ([.write, .poll 0, .write, .poll 0] ++ List.replicate 255 .write) := by
    simp only [List.cons_append, List.nil_append, keepsUp]
    refine ⟨by omega, ?_⟩
    rw [if_neg (by decide)]
    refine ⟨by omega, by omega, by omega, ?_⟩
    rw [if_neg (by decide)]
    exact ⟨by omega, by omega, k1⟩
  obtain ⟨a, g1, g2, g3⟩ := adcRun_ok hr hh (gain_range 426 (by decide)) _ (AdcInv.start _ _ 426) hk
  have hd : deliveries 0 0 ([.write, .poll 0, .write, .poll 0] ++ List.replicate 255 .write) = 2 := by
    simp only [List.cons_append, List.nil_append, deliveries]
    rw [if_neg (by decide), if_neg (by decide), k2]
  have hW : written 0 0 ([.write, .poll 0, .write, .poll 0] ++ List.replicate 255 .write) = 257 := by
    simp only [List.cons_append, List.nil_append, written]
    rw [if_neg (by decide), if_neg (by decide), hw']
  rw [hd, hW] at g2
  rw [hd, hW] at g1
  obtain ⟨a', r1, r2⟩ := C48_refuted (D := 2) g2 hr hh (gain_range 426 (by decide)) (by decide) g3
  exact ⟨a, _, a', g1, by simp, r1, r2, by decide +kernel⟩

/-! ## C49 -/

theorem keepsUp_le (m : Nat) : ∀ (es : List AdcEv) (W D : Nat), D ≤ W → D + deliveries W D es ≤ written W D es := by
  intro es
  induction es with
  | nil => intro W D h; exact h
  | cons e es ih =>
    intro W D h
    cases e with
    | write => exact ih _ _ (by omega)
    | poll n =>
      simp only [deliveries, written]
      split
      · rename_i he; exact he ▸ ih _ _ (Nat.le_refl _)
      · have := ih (W + n) (D + 1) (by omega); omega

theorem polls_all (n : Nat) : ∀ (W D : Nat), D ≤ W → W ≤ D + 254 → W < adcBlock →
    keepsUp 254 W D (List.replicate n (.poll 0)) ∧ written W D (List.replicate n (.poll 0)) = W ∧
      (W ≤ D + n → D + deliveries W D (List.replicate n (.poll 0)) = W) := by
  induction n with
  | zero => intro W D h1 h2 h3; exact ⟨h3, rfl, fun h => by simp only [List.replicate_zero, deliveries]; omega⟩
  | succ n ih =>
    intro W D h1 h2 h3
    rw [List.replicate_succ]
    simp only [keepsUp, written, deliveries]
    split
    · obtain ⟨q1, q2, q3⟩ := ih W D h1 h2 h3
      exact ⟨⟨h3, q1⟩, q2, fun h => q3 (by omega)⟩
    · obtain ⟨q1, q2, q3⟩ := ih W (D + 1) (by omega) (by omega) h3
      exact ⟨⟨h3, h2, q1⟩, q2, fun h => by have := q3 (by omega); simp only [Nat.add_zero]; omega⟩

theorem append_run (es' : List AdcEv) : ∀ (es : List AdcEv) (W D : Nat), keepsUp 254 W D es →
    keepsUp 254 (written W D es) (D + deliveries W D es) es' →
    keepsUp 254 W D (es ++ es') ∧ written W D (es ++ es') = written (written W D es) (D + deliveries W D es) es' ∧
      deliveries W D (es ++ es') = deliveries W D es + deliveries (written W D es) (D + deliveries W D es) es' := by
  intro es
  induction es with
  | nil => intro W D _ h; exact ⟨h, rfl, by simp [deliveries, written]⟩
  | cons e es ih =>
    intro W D h h'
    cases e with
    | write =>
      obtain ⟨q1, q2, q3⟩ := ih (W + 1) D h.2 h'
      exact ⟨⟨h.1, q1⟩, q2, q3⟩
    | poll n =>
      simp only [keepsUp, written, deliveries, List.cons_append] at h h' ⊢
      split at h
      · rename_i he
        simp only [if_pos he] at h' ⊢
        obtain ⟨q1, q2, q3⟩ := ih W D h.2 h'
        exact ⟨⟨h.1, q1⟩, q2, q3⟩
      · rename_i he
        simp only [if_neg he] at h' ⊢
        rw [← Nat.add_assoc] at h' ⊢
        obtain ⟨q1, q2, q3⟩ := ih (W + n) (D + 1) h.2.2 h'
        exact ⟨⟨h.1, h.2.1, q1⟩, q2, by rw [q3]; omega⟩

/-- **C49, partial.** Within a block, when the consumer keeps up and finally polls at least as often as samples are
waiting, the values delivered are those of samples `0 .. W-1` of the `W` samples written, each once and in order.
Missing: the end of a block, see `C49_refuted`. -/
theorem C49_partial (ring h : Nat → Int) (hr : SampleRange ring) (hh : SampleRange h) (g : Nat) (hg : g < 65536)
    (es : List AdcEv) (hk : keepsUp 254 0 0 es) (hlag : written 0 0 es ≤ deliveries 0 0 es + 254) (n : Nat)
    (hn : written 0 0 es ≤ deliveries 0 0 es + n) :
    ∃ a, adcRun h (Adc.start ring g) 0 (es ++ List.replicate n (.poll 0)) = .ok (a, written 0 0 es,
      (List.range (written 0 0 es)).map (fun k : Nat => adcRef (adcGain g) (adcHist ring h) k)) := by
  have hle := keepsUp_le 254 es 0 0 (Nat.le_refl _)
  have hend : ∀ (es : List AdcEv) (W D : Nat), D ≤ W → keepsUp 254 W D es → written W D es < adcBlock := by
    intro es
    induction es with
    | nil => intro W D _ h; exact h
    | cons e es ih =>
      intro W D hd h
      cases e with
      | write => exact ih _ _ (by omega) h.2
      | poll n =>
        simp only [keepsUp, written] at h ⊢
        split at h
        · rename_i he; rw [if_pos he]; exact ih _ _ hd h.2
        · rename_i he; rw [if_neg he]; exact ih _ _ (by omega) h.2.2
  obtain ⟨p1, p2, p3⟩ := polls_all n (written 0 0 es) (0 + deliveries 0 0 es) hle (by omega) (hend es 0 0 (Nat.le_refl _) hk)
  obtain ⟨q1, q2, q3⟩ := append_run (List.replicate n (.poll 0)) es 0 0 hk p1
  obtain ⟨a, e1, -⟩ := C47_samples ring h hr hh g hg _ q1
  rw [q2, p2, q3] at e1
  have := p3 (by omega)
  rw [Nat.zero_add] at this p2 e1
  rw [this] at e1
  exact ⟨a, e1⟩

theorem block_end {ring h : Nat → Int} {g : Int} {D : Nat} {a : Adc} (i : AdcInv ring h g adcBlock D a)
    (l : List Int) (h' : Nat → Int) : ∃ a', a.update l = .ok (a', none) ∧ AdcInv a.data h' g 0 0 a' := by
  have h1 := i.hw
  refine ⟨a.restart, ?_, ?_⟩
  · unfold Adc.update
    simp only [if_pos (show a.tcHw = 0 by omega)]
    rfl
  · refine ⟨rfl, by decide, rfl, rfl, Nat.le_refl _, rfl, i.gain, ?_⟩
    intro j hj1 hj2
    show a.data _ = _
    unfold adcHist
    rw [if_pos (by omega)]
    congr 1
    omega

/-- A consumer that polls after every sample. -/
def promptly (n : Nat) : List AdcEv := (List.replicate n [AdcEv.write, AdcEv.poll 0]).flatten

theorem promptly_ok (n : Nat) : ∀ W, W + n < adcBlock →
    keepsUp 254 W W (promptly n) ∧ written W W (promptly n) = W + n ∧ deliveries W W (promptly n) = n := by
  induction n with
  | zero => intro W h; exact ⟨h, rfl, rfl⟩
  | succ n ih =>
    intro W h
    obtain ⟨h1, h2, h3⟩ := ih (W + 1) (by omega)
    simp only [promptly, List.replicate_succ, List.flatten_cons, List.cons_append, List.nil_append, keepsUp, written, deliveries]
    rw [if_neg (by omega), if_neg (by omega), if_neg (by omega)]
    refine ⟨⟨by omega, by omega, by omega, h1⟩, ?_, ?_⟩
    · have : written (W + 1 + 0) (W + 1) (promptly n) = W + 1 + n := h2
      unfold promptly at this
      rw [this]; omega
    · have : deliveries (W + 1 + 0) (W + 1) (promptly n) = n := h3
      unfold promptly at this
      rw [this]; omega

/-- **C49 is false at the end of a block.** Even if the consumer polls after every sample: all samples but the last one
are delivered (0x0fffffff of them), and when the last one has been written the next poll restarts the DMA and delivers
nothing; the state is that of a new block, so the last sample is lost. -/
theorem C49_refuted (ring h h' : Nat → Int) (hr : SampleRange ring) (hh : SampleRange h) (g : Nat) (hg : g < 65536) :
    ∃ a vs, adcRun h (Adc.start ring g) 0 (promptly 0x0fffffff) = .ok (a, 0x0fffffff, vs) ∧ vs.length = 0x0fffffff ∧
      ∀ l, ∃ a', (a.write (h 0x0fffffff)).update l = .ok (a', none) ∧
        AdcInv (a.write (h 0x0fffffff)).data h' (adcGain g) 0 0 a' := by
  obtain ⟨h1, h2, h3⟩ := promptly_ok 0x0fffffff 0 (by decide)
  rw [Nat.zero_add] at h2
  obtain ⟨a, e1, e2, -⟩ := adcRun_ok hr hh (gain_range g hg) _ (AdcInv.start ring h g) h1
  rw [h2, h3] at e1 e2
  refine ⟨a, _, e1, by simp, fun l => ?_⟩
  have := e2.write (by decide)
  exact block_end this l h'

end P1P2
