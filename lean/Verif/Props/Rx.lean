import Verif.Proofs.RxTx
import Verif.Props.Uart
/-!
# C42-C45: what the receiver makes of a waveform

`RxBack.step` is the receive chain from the level detector on (level detector, pulse detector, UART).
`Sample lo hi l x` says that sample `x` is in tolerance for line level `l`, `Carries s 0 fs` that the line levels `s`
consist of the frames `fs` and nothing else, `decodeSymbols` is the meaning of eleven symbols (`Verif/Spec/Rx.lean`).
-/
namespace P1P2

/-- The tolerance: pulse samples are at least 1400, at most 4681, and any two differ by less than a third. -/
structure Tolerance (lo hi : Int) : Prop where
  min : 1400 ≤ lo
  le : lo ≤ hi
  spread : 3 * hi + 244 < 4 * lo
  max : hi ≤ 4681

theorem Tolerance.amp {lo hi : Int} (h : Tolerance lo hi) : Amp lo hi := ⟨h.min, h.le, h.spread, h.max⟩

theorem band_bound {lo hi : Int} {l : Level} {y : Int} (h : Band lo hi l y) (h1 : 1400 ≤ lo) (h2 : lo ≤ hi) : -hi ≤ y ∧ y ≤ hi := by
  cases l <;> simp only [Band] at h <;> omega

theorem pulseRef_bound {y : Int → Int} {B : Int} (h : ∀ j, -B ≤ y j ∧ y j ≤ B) (k : Int) :
    -(7 * B) ≤ pulseRef y k ∧ pulseRef y k ≤ 7 * B := by
  have hs : -(7 * B) ≤ pulseSum y k ∧ pulseSum y k ≤ 7 * B := by
    have h1 := h (k - 14); have h2 := h (k - 13); have h3 := h (k - 12); have h4 := h (k - 11)
    have h5 := h (k - 10); have h6 := h (k - 9); have h7 := h (k - 8)
    unfold pulseSum
    omega
  have ho := outsideSum_nonneg y k
  unfold pulseRef
  split
  · omega
  · split <;> omega

/-- The receiver on a line that carries the frames `fs` and nothing else. -/
theorem rx_frames {S : Nat} (hS : 8 ≤ S) (err : Bool) {lo hi : Int} (ht : Tolerance lo hi) {s : Nat → Level} {x : Nat → Int}
    (hx : ∀ k, Sample lo hi (s k) (x k)) {G : Nat} (hG : G + 32 ≤ 2 ^ S) {fs : List (Nat × (Nat → Level))}
    (hc : Carries s 0 fs) (hf : FramesOk G fs) {n : Nat} (hn : lineEnd 0 fs + 8 ≤ n) (hn' : n ≤ lineEnd 0 fs + 8 + G) :
    ∃ c l, feed (RxBack.step S err) RxBack.init x n = .ok (c, l) ∧
      l.filterMap id = fs.map (fun f => decodeSymbols f.2) := by
  have a := ht.amp
  have h1 := ht.min; have h2 := ht.le; have h3 := ht.max
  have hb := fun j => level_band ht.min hx (fun k hk => carries_adjacent hc k (Nat.zero_le _) hk) j
  have hI : ∀ k : Nat, toI16 (detStream (past (levelOut x)) k) = detStream (past (levelOut x)) k := by
    intro k
    have := pulseRef_bound (y := past (levelOut x)) (B := hi) (fun j => band_bound (hb j) ht.min ht.le) k
    apply toI16_of_range
    · show -32768 ≤ pulseRef _ _; omega
    · show pulseRef _ _ ≤ 32767; omega
  obtain ⟨u, l, e1, e2⟩ := frames_run (err := err) hS hb a hI hG fs 0 0 (Uart.init .even) n hc hf (Nat.le_refl _) (by omega)
    (fun j h1 h2 => by
      unfold pastLevel
      rw [if_pos (by omega)])
    ⟨⟨_, ShiftReg.Win.zero (by decide)⟩, rfl, Or.inl ⟨rfl, rfl⟩, Nat.two_pow_pos S⟩ (by omega) (by omega)
  simp only [Nat.zero_add] at e1
  obtain ⟨c, g1, -, -⟩ := back_feed (S := S) (err := err) (x := x) (fun k => by
    have := hx k
    cases hs : s k <;> rw [hs] at this <;> simp only [Sample] at this <;> omega) n e1
  exact ⟨c, l, g1, e2⟩

/-! ## C42 -/

/-- Frames of the given bytes; each comes with the gap before it and the polarity of its start pulse. -/
def byteFrames (bs : List (Nat × Bool × UInt8)) : List (Nat × (Nat → Level)) := bs.map fun b => (b.1, symbolsOf b.2.1 b.2.2)

/-- **C42.** For every sequence of bytes, sent with any start polarities and any gaps, and every waveform in
tolerance: the receiver delivers exactly these bytes, none with an error. -/
theorem C42_bytes {S : Nat} (hS : 8 ≤ S) (err : Bool) {lo hi : Int} (ht : Tolerance lo hi) {s : Nat → Level} {x : Nat → Int}
    (hx : ∀ k, Sample lo hi (s k) (x k)) {G : Nat} (hG : G + 32 ≤ 2 ^ S) (bs : List (Nat × Bool × UInt8))
    (hg : ∀ b ∈ bs, b.1 ≤ G) (hc : Carries s 0 (byteFrames bs)) {n : Nat}
    (hn : lineEnd 0 (byteFrames bs) + 8 ≤ n) (hn' : n ≤ lineEnd 0 (byteFrames bs) + 8 + G) :
    ∃ c l, feed (RxBack.step S err) RxBack.init x n = .ok (c, l) ∧
      l.filterMap id = bs.map (fun b => (b.2.2, false)) := by
  have hf : FramesOk G (byteFrames bs) := by
    clear hc hn hn'
    induction bs with
    | nil => trivial
    | cons b bs ih =>
      refine ⟨hg b (List.mem_cons_self ..), by rw [symbolsOf_start]; split <;> decide,
        fun h => absurd (symbolsOf_stop _ _) h, ih (fun x hx => hg x (List.mem_cons_of_mem _ hx))⟩
  obtain ⟨c, l, h1, h2⟩ := rx_frames hS err ht hx hG hc hf hn hn'
  refine ⟨c, l, h1, ?_⟩
  rw [h2, byteFrames, List.map_map]
  apply List.map_congr_left
  intro b _
  exact decode_symbolsOf b.2.1 b.2.2

/-! ## C43 -/

theorem byteOf_list : ∀ f0 f1 f2 f3 f4 f5 f6 f7 : Bool, ∀ k < 8,
    bitOf (byteOf (fun k => [f0, f1, f2, f3, f4, f5, f6, f7].getD k false)) k =
      [f0, f1, f2, f3, f4, f5, f6, f7].getD k false := by decide +kernel

theorem bitOf_byteOf (f : Nat → Bool) (k : Nat) (hk : k < 8) : bitOf (byteOf f) k = f k := by
  have h := byteOf_list (f 0) (f 1) (f 2) (f 3) (f 4) (f 5) (f 6) (f 7) k hk
  have e : byteOf f = byteOf (fun k => [f 0, f 1, f 2, f 3, f 4, f 5, f 6, f 7].getD k false) := rfl
  rw [e, h]
  have hk' : k = 0 ∨ k = 1 ∨ k = 2 ∨ k = 3 ∨ k = 4 ∨ k = 5 ∨ k = 6 ∨ k = 7 := by omega
  rcases hk' with rfl | rfl | rfl | rfl | rfl | rfl | rfl | rfl <;> rfl

/-- **C43.** For every eleven symbols that start with a pulse, after any gap, and every waveform in tolerance: the
receiver delivers exactly one result, the byte whose ones are the missing pulses, and reports an error exactly if the
number of ones in data and parity is odd, a pulse repeats the polarity of the one before, or the stop bit is a pulse. -/
theorem C43_symbols {S : Nat} (hS : 8 ≤ S) (err : Bool) {lo hi : Int} (ht : Tolerance lo hi) {s : Nat → Level} {x : Nat → Int}
    (hx : ∀ k, Sample lo hi (s k) (x k)) {g : Nat} (hG : g + 32 ≤ 2 ^ S) (σ : Nat → Level) (h0 : σ 0 ≠ .mid)
    (hc : Carries s 0 [(g, σ)]) {n : Nat} (hn : g + 182 ≤ n) (hn' : n ≤ 2 * g + 182) :
    ∃ c l b e, feed (RxBack.step S err) RxBack.init x n = .ok (c, l) ∧ l.filterMap id = [(b, e)] ∧
      (∀ k < 8, bitOf b k = true ↔ σ (k + 1) = .mid) ∧
      (e = true ↔ ((List.range 9).filter (fun k => σ (k + 1) == .mid)).length % 2 = 1 ∨ σ 10 ≠ .mid ∨
        polRepeat ((List.range 11).map σ) = true) := by
  obtain ⟨c, l, h1, h2⟩ := rx_frames hS err ht hx hG hc ⟨Nat.le_refl _, h0, fun _ => trivial, trivial⟩
    (n := n) (by simp only [lineEnd]; omega) (by simp only [lineEnd]; omega)
  refine ⟨c, l, (decodeSymbols σ).1, (decodeSymbols σ).2, h1, h2, ?_, ?_⟩
  · intro k hk
    show bitOf (byteOf (fun k => σ (k + 1) == .mid)) k = true ↔ _
    rw [bitOf_byteOf _ k hk]
    simp
  · simp [decodeSymbols, or_assoc]

/-! ## C44 -/

/-- **C44.** Whatever bytes the DMA hands to the transmit program, at whatever cycles: if the run ends with at least
1582 cycles without new bytes, and the line is sampled once per cycle at any amplitude in tolerance, then the receiver
delivers exactly the transmitted bytes, in order and without error. -/
theorem C44_loopback {S : Nat} (hS : 8 ≤ S) (err : Bool) {lo hi : Int} (ht : Tolerance lo hi) (ps : List (Option UInt8))
    (hp : Pio.paced Pio.uartTx Pio.reset (ps.map Pio.putEnv)) {m : Nat} (hm : 1582 ≤ m)
    (hlen : ps.length + m + 34 ≤ 2 ^ S) {x : Nat → Int}
    (hx : ∀ k, Sample lo hi (lineOf ((Pio.trace Pio.uartTx Pio.reset
      ((ps ++ List.replicate m none).map Pio.putEnv)).map Pio.State.view) k) (x k)) :
    ∃ c l, feed (RxBack.step S err) RxBack.init x (ps.length + m) = .ok (c, l) ∧
      l.filterMap id = (ps.filterMap id).map (fun b => (b, false)) := by
  rw [Pio.C31_waveform] at hx
  obtain ⟨gs, n, h1, h2, h3⟩ := run_and_drain Pio.Sim.init (by simp [TxRef.init]) (by simp [TxRef.init]) hm ps
  have h2 := h2 hp
  have hol : ∀ (ps : List (Option UInt8)) (r : TxRef), (r.outputs ps).length = ps.length := by
    intro ps
    induction ps with
    | nil => intro r; rfl
    | cons p ps ih => intro r; simp [TxRef.outputs, ih]
  have hl := hol (ps ++ List.replicate m none) TxRef.init
  rw [h1] at hl hx
  simp only [TxRef.init, List.length_append, List.length_replicate, List.length_cons, List.length_nil] at hl
  have hc := carries_bursts n gs [(.mid, false)]
  have hc0 := carries_pad hc (by rfl)
  have hfk : FramesOk ((bursts gs).length + 1) (padFirst (framesOf gs)) := framesOk_pad (framesOk_of gs bursts_gap)
  have hmono : ∀ {G G' : Nat} (_ : G ≤ G') (fs : List (Nat × (Nat → Level))), FramesOk G fs → FramesOk G' fs := by
    intro G G' hle fs
    induction fs with
    | nil => intro _; trivial
    | cons f fs ih => exact fun ⟨h1, h2, h3, h4⟩ => ⟨Nat.le_trans h1 hle, h2, h3, ih h4⟩
  have hle : lineEnd 0 (padFirst (framesOf gs)) ≤ 1 + (bursts gs).length := by
    rcases lineEnd_pad 0 (framesOf gs) with h | h
    · rw [h, lineEnd_framesOf]; omega
    · rw [h]; exact Nat.zero_le _
  obtain ⟨c, l, e1, e2⟩ := rx_frames hS err ht hx (G := ps.length + m) (by omega) hc0 (hmono (by omega) _ hfk)
    (n := ps.length + m) (by omega) (by omega)
  refine ⟨c, l, e1, ?_⟩
  rw [e2]
  have : ∀ gs : List (Nat × UInt8), (padFirst (framesOf gs)).map (fun f => decodeSymbols f.2) =
      (gs.map Prod.snd).map (fun b => (b, false)) := by
    intro gs
    have : (padFirst (framesOf gs)).map (fun f => decodeSymbols f.2) = (framesOf gs).map (fun f => decodeSymbols f.2) := by
      cases gs <;> rfl
    rw [this, framesOf, List.map_map, List.map_map]
    apply List.map_congr_left
    intro b _
    exact decode_symbolsOf true b.2
  rw [this, ← h2]
  rfl

/-! ## C45 for the whole chain -/

/-- **C45, partial, for the chain.** Noise below the release level (600 mV) yields neither a byte nor an error for
`2^S` samples.  Missing: longer silence, see `C45_refuted`. -/
theorem C45_noise_partial {S : Nat} (err : Bool) {x : Nat → Int} (hx : ∀ k, -599 ≤ x k ∧ x k ≤ 599) {n : Nat}
    (hn : n ≤ 2 ^ S) :
    ∃ c, feed (RxBack.step S err) RxBack.init x (n + 1) = .ok (c, List.replicate (n + 1) none) := by
  have hb := fun j => level_band (lo := 1400) (hi := 1400) (s := fun _ => .mid) (by decide) hx (fun k hk => absurd rfl hk) j
  have hz : ∀ k : Nat, detStream (past (levelOut x)) k = 0 := by
    intro k
    apply quiet_zero (lo := 1400) (hi := 1400)
    intro j _ _
    have := hb j
    unfold pastLevel at this
    split at this <;> exact this
  obtain ⟨u, h⟩ := C45_partial (S := S) .even err (detStream (past (levelOut x))) (fun k => by rw [hz]; decide) n hn
  obtain ⟨c, h1, -⟩ := back_feed (S := S) (err := err) (x := x) (fun k => by have := hx k; omega) (n + 1) h
  exact ⟨c, h1⟩

/-- The line of a single frame after a gap. -/
def oneFrame (g : Nat) (σ : Nat → Level) (k : Nat) : Level :=
  if g ≤ k ∧ k < g + 174 ∧ (k - g) % 16 < 8 then σ ((k - g) / 16) else .mid

theorem oneFrame_carries (g : Nat) (σ : Nat → Level) : Carries (oneFrame g σ) 0 [(g, σ)] := by
  refine ⟨fun k _ hk => ?_, fun j hj => ?_, fun k hk => ?_⟩
  · exact if_neg (by omega)
  · unfold oneFrame
    rw [show 0 + g + j - g = j by omega]
    by_cases h : j % 16 < 8
    · rw [if_pos ⟨by omega, by omega, h⟩, if_pos h]
    · rw [if_neg (by omega), if_neg h]
  · exact if_neg (by omega)

/-! ## C81: signals up to the full scale of the ADC -/

/-- A frame of byte 0x40: the start pulse has 4681 mV, the following pulses 4682 mV. -/
def strongFrame (k : Nat) : Int :=
  if k < 174 ∧ k % 16 < 8 then
    match symbolsOf true 0x40 (k / 16) with
    | .mid => 0
    | .up => if k < 16 then 4681 else 4682
    | .down => -4682
  else 0

/-- **C81 is false.** The waveform of byte 0x40 with pulses of 4681 and 4682 mV (the ADC reaches 4972 mV) is received
with an error: the correlation 7 * 4682 does not fit into the 16 bits of the UART's input and changes sign. -/
theorem C81_refuted (S : Nat) (hS : 8 ≤ S) (err : Bool) :
    (∀ k, Sample 4681 4682 (if k < 174 ∧ k % 16 < 8 then symbolsOf true 0x40 (k / 16) else .mid) (strongFrame k)) ∧
    ∃ c, feed (RxBack.step S err) RxBack.init strongFrame 180 =
      .ok (c, List.replicate 179 none ++ [some (0x40, true)]) := by
  have hx : ∀ k, Sample 4681 4682 (if k < 174 ∧ k % 16 < 8 then symbolsOf true 0x40 (k / 16) else .mid) (strongFrame k) := by
    intro k
    unfold strongFrame
    split
    · cases symbolsOf true 0x40 (k / 16) <;> simp only [Sample]
      · omega
      · split <;> omega
      · omega
    · simp [Sample]
  refine ⟨hx, ?_⟩
  have h2S : 2 ^ 8 ≤ 2 ^ S := Nat.pow_le_pow_right (by decide) hS
  have hy : levelOut strongFrame = strongFrame := by
    funext k
    have hadj : ∀ k, (fun k => if k < 174 ∧ k % 16 < 8 then symbolsOf true 0x40 (k / 16) else .mid) k ≠ Level.mid →
        (fun k => if k < 174 ∧ k % 16 < 8 then symbolsOf true 0x40 (k / 16) else .mid) (k + 1) =
          (fun k => if k < 174 ∧ k % 16 < 8 then symbolsOf true 0x40 (k / 16) else .mid) k ∨
        (fun k => if k < 174 ∧ k % 16 < 8 then symbolsOf true 0x40 (k / 16) else .mid) (k + 1) = Level.mid := by
      intro k hk
      have := carries_adjacent (oneFrame_carries 0 (symbolsOf true 0x40)) k (Nat.zero_le _)
      simp only [oneFrame, Nat.zero_le, true_and, Nat.zero_add, Nat.sub_zero] at this
      exact this hk
    have hl := level_state (lo := 4681) (hi := 4682) (by decide) hx hadj k
    unfold levelOut
    rw [hl]
    by_cases hc : k < 174 ∧ k % 16 < 8
    · rw [if_pos hc]
      have hsf : strongFrame k = match symbolsOf true 0x40 (k / 16) with
        | .mid => 0
        | .up => if k < 16 then 4681 else 4682
        | .down => -4682 := by unfold strongFrame; rw [if_pos hc]
      rw [hsf]
      cases symbolsOf true 0x40 (k / 16) <;> rfl
    · rw [if_neg hc]
      have hsf : strongFrame k = 0 := by unfold strongFrame; rw [if_neg hc]
      rw [hsf]; rfl
  obtain ⟨u1, h1, h2, h3⟩ := Ready.run (S := S) (c := 2) (err := err) (u := Uart.init .even)
    ⟨⟨_, ShiftReg.Win.zero (by decide)⟩, rfl, Or.inl ⟨rfl, rfl⟩, Nat.two_pow_pos S⟩ (detStream (past strongFrame)) 11
    (by decide +kernel) (by omega)
  obtain ⟨w, hw⟩ := h2.win
  obtain ⟨u2, w2, g1, -⟩ := capture_frame (err := err) (x := fun i => detStream (past strongFrame) (11 + i)) hS
    (h3 (by decide)) hw (by decide +kernel)
  have hb : bestRef .even (fun i => toI16 (detStream (past strongFrame) (11 + i))) = (0x40, true) := by decide +kernel
  rw [h2.par, hb] at g1
  have g2 := feed_add h1 g1
  obtain ⟨c, e1, -⟩ := back_feed (S := S) (err := err) (x := strongFrame) (fun k => by
    have := hx k
    revert this
    generalize (if k < 174 ∧ k % 16 < 8 then symbolsOf true 0x40 (k / 16) else .mid) = l
    cases l <;> simp only [Sample] <;> omega) 180 (by rw [hy]; exact g2)
  exact ⟨c, e1⟩

/-- **C81, the part that holds**: up to 4681 mV, which is the largest amplitude (`C81_refuted` fails with 4682 mV), every waveform whose pulse samples are within a third of
each other is received exactly. -/
theorem C81_exact_partial {S : Nat} (hS : 8 ≤ S) (err : Bool) {lo hi : Int} (h1 : 1400 ≤ lo) (h2 : lo ≤ hi) (h3 : 3 * hi + 244 < 4 * lo) (h4 : hi ≤ 4681)
    {s : Nat → Level} {x : Nat → Int} (hx : ∀ k, Sample lo hi (s k) (x k)) {G : Nat} (hG : G + 32 ≤ 2 ^ S) (bs : List (Nat × Bool × UInt8))
    (hg : ∀ b ∈ bs, b.1 ≤ G) (hc : Carries s 0 (byteFrames bs)) {n : Nat}
    (hn : lineEnd 0 (byteFrames bs) + 8 ≤ n) (hn' : n ≤ lineEnd 0 (byteFrames bs) + 8 + G) :
    ∃ c l, feed (RxBack.step S err) RxBack.init x n = .ok (c, l) ∧ l.filterMap id = bs.map (fun b => (b.2.2, false)) :=
  C42_bytes hS err ⟨h1, h2, h3, h4⟩ hx hG bs hg hc hn hn'

/-! ## Non-vacuity -/

/-- Samples of a line level at an amplitude of 2000 mV with an offset of 100 mV. -/
def sampleOf (l : Level) : Int :=
  match l with
  | .mid => 100
  | .up => 2100
  | .down => -1900

theorem sampleOf_ok (l : Level) : Sample 1900 2100 l (sampleOf l) := by cases l <;> simp [Sample, sampleOf]

theorem tol_example : Tolerance 1900 2100 := ⟨by decide, by decide, by decide, by decide⟩

/-- Two bytes sent back to back through the transmit program and received. -/
example : ∃ (x : Nat → Int) (c : RxBack) (l : List (Option (UInt8 × Bool))),
    feed (RxBack.step 32 false) RxBack.init x (3 + 1600) = .ok (c, l) ∧ l.filterMap id = [(0x40, false), (0xf0, false)] := by
  refine ⟨fun k => sampleOf (lineOf ((Pio.trace Pio.uartTx Pio.reset
      (([some (0x40 : UInt8), some 0xf0, none] ++ List.replicate 1600 none).map Pio.putEnv)).map Pio.State.view) k), ?_⟩
  obtain ⟨c, l, h1, h2⟩ := C44_loopback (S := 32) (by decide) false tol_example [some 0x40, some 0xf0, none]
    (by simp [Pio.paced, Pio.putEnv, Pio.cycle, Pio.enqueue, Pio.reset, Pio.uartTx, Pio.Prog.at, Pio.Core.exec])
    (m := 1600) (by decide) (by decide) (fun k => sampleOf_ok _)
  exact ⟨c, l, h1, h2⟩

/-- A frame in which a pulse was lost is received with an error. -/
example : ∃ (x : Nat → Int) (c : RxBack) (l : List (Option (UInt8 × Bool))) (b : UInt8),
    feed (RxBack.step 32 false) RxBack.init x 300 = .ok (c, l) ∧ l.filterMap id = [(b, true)] := by
  obtain ⟨c, l, b, e, h1, h2, -, h3⟩ := C43_symbols (S := 32) (by decide) false tol_example
    (x := fun k => sampleOf (oneFrame 100 (fun k => if k = 3 then .mid else symbolsOf true 0x40 k) k))
    (fun k => sampleOf_ok _) (g := 100) (by decide) _ (by decide) (oneFrame_carries _ _) (n := 300) (by decide) (by decide)
  rw [h3.mpr (Or.inl (by decide))] at h2
  exact ⟨_, c, l, b, h1, h2⟩

/-- A byte sent with a negative start pulse. -/
example : ∃ (x : Nat → Int) (c : RxBack) (l : List (Option (UInt8 × Bool))),
    feed (RxBack.step 32 false) RxBack.init x 300 = .ok (c, l) ∧ l.filterMap id = [(0x5a, false)] := by
  obtain ⟨c, l, h1, h2⟩ := C42_bytes (S := 32) (by decide) false tol_example
    (x := fun k => sampleOf (oneFrame 100 (symbolsOf false 0x5a) k)) (fun k => sampleOf_ok _) (G := 1000) (by decide)
    [(100, false, 0x5a)] (by simp) (oneFrame_carries _ _) (n := 300) (by decide) (by decide)
  exact ⟨_, c, l, h1, h2⟩

end P1P2
