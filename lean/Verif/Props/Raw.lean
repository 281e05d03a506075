import Verif.Proofs.RawWords
/-!
# C103: from the codes of the ADC to the words for the other core

`Codes`, `RawCarries`, `BusPacket.RawOk`: `Verif/Spec/Raw.lean`.  A packet means three kinds of words: the line was free
before it, the line is busy, and its bytes (`BusPacket.words`).
-/
namespace P1P2

theorem samples_ideal (g : Int) (y : Int → Int) : ∀ (es : List (AdcEv × Bool)) (W D : Nat),
    samplesOf (idealInputs g y W D es) = (List.range' D (deliveries W D (es.map Prod.fst))).map (fun k : Nat => adcRef g y k) := by
  intro es
  induction es with
  | nil => intro W D; rfl
  | cons e es ih =>
    intro W D
    obtain ⟨e, r⟩ := e
    cases e with
    | write => exact ih (W + 1) D
    | poll n =>
      by_cases h : W = D
      · simp only [idealInputs, List.map_cons, deliveries, if_pos h]
        rw [← ih]
        simp [samplesOf]
      · simp only [idealInputs, List.map_cons, deliveries, if_neg h]
        rw [Nat.add_comm 1, List.range'_succ, List.map_cons, ← ih]
        simp [samplesOf]

theorem ideal_no_error (g : Int) (y : Int → Int) : ∀ (es : List (AdcEv × Bool)) (W D : Nat), ∀ i ∈ idealInputs g y W D es, i.adc ≠ .error := by
  intro es
  induction es with
  | nil => intro W D i hi; cases hi
  | cons e es ih =>
    intro W D i hi
    obtain ⟨e, r⟩ := e
    cases e with
    | write => exact ih _ _ i hi
    | poll n =>
      unfold idealInputs at hi
      split at hi
      · rcases List.mem_cons.mp hi with rfl | hi
        · intro h; cases h
        · exact ih _ _ i hi
      · rcases List.mem_cons.mp hi with rfl | hi
        · intro h; cases h
        · exact ih _ _ i hi

theorem schedule_range {h : Nat → Int} (hh : SampleRange h) : ∀ (es : List (AdcEv × Bool)) (W D : Nat), ∀ x ∈ scheduleEvents h W D es, x.InRange := by
  intro es
  induction es with
  | nil => intro W D x hx; cases hx
  | cons e es ih =>
    intro W D x hx
    obtain ⟨e, r⟩ := e
    cases e with
    | write =>
      rcases List.mem_cons.mp hx with rfl | hx
      · exact hh _
      · exact ih _ _ x hx
    | poll n =>
      unfold scheduleEvents at hx
      split at hx
      · rcases List.mem_cons.mp hx with rfl | hx
        · intro v hv; cases hv
        · exact ih _ _ x hx
      · rcases List.mem_cons.mp hx with rfl | hx
        · intro v hv
          unfold nextSamples at hv
          rw [List.mem_map] at hv
          obtain ⟨i, -, rfl⟩ := hv
          exact hh _
        · exact ih _ _ x hx

theorem sent_nonzero {S : Nat} : ∀ (is : List C1In) {c c' : Core1} {outs : List C1Out}, c.run S is = .ok (c', outs) → ∀ w ∈ sent outs, w ≠ .zero := by
  intro is
  induction is with
  | nil =>
    intro c c' outs h w hw
    simp only [Core1.run, Res.ok.injEq, Prod.mk.injEq] at h
    rw [← h.2] at hw
    cases hw
  | cons i is ih =>
    intro c c' outs h w hw
    rw [Core1.run, Res.bind_eq_ok] at h
    obtain ⟨⟨c1, o⟩, h1, h⟩ := h
    rw [Res.bind_eq_ok] at h
    obtain ⟨⟨c2, l⟩, h2, h⟩ := h
    simp only [Res.ok.injEq, Prod.mk.injEq] at h
    obtain ⟨rfl, rfl⟩ := h
    have ho : o.word = (c.send i.ready).2.1 := by
      unfold Core1.step at h1
      dsimp only at h1
      split at h1
      · simp only [Res.ok.injEq, Prod.mk.injEq] at h1; rw [← h1.2]
      · simp only [Res.ok.injEq, Prod.mk.injEq] at h1; rw [← h1.2]
      · rw [Res.bind_eq_ok] at h1
        obtain ⟨c3, -, h1⟩ := h1
        simp only [Res.ok.injEq, Prod.mk.injEq] at h1; rw [← h1.2]
    unfold sent at hw
    rw [List.mem_filterMap] at hw
    obtain ⟨o', ho', hw⟩ := hw
    rcases List.mem_cons.mp ho' with rfl | ho'
    · rw [ho] at hw
      unfold Core1.send at hw
      split at hw
      · rename_i hr
        simp only [Option.some.injEq] at hw
        rw [← hw]
        intro h0
        rw [h0] at hr
        exact hr (by decide)
      · cases hw
    · exact ih h2 w (by unfold sent; rw [List.mem_filterMap]; exact ⟨o', ho', hw⟩)

theorem rawMv_adc (q : Nat → UInt8) (N : Nat) :
    (List.range' 0 N).map (fun k : Nat => adcRef 4992 (adcHist (fun _ => 0) fun k => Pio.sampleValue k (q k)) k) = (List.range N).map (rawMv q) := by
  rw [← List.range_eq_range']; rfl

/-- **C103.** From the start on: if the bus carries the packets `ps` and nothing else, the amplitude is between 49 and 88
codes, and every code may be off by one, then, for every schedule of DMA transfers and iterations of the loop that keeps
up, once the loop has processed some 378 codes after the last packet, the words for the other core are those of the
packets, in order and without anything else: line free, line busy, the bytes.  (The last word may be still pending.) -/
theorem C103_words {S : Nat} (hS : 8 ≤ S) (rxErr : Bool) {a c : Int} (h1 : 49 ≤ a) (h2 : a ≤ 88) {L : Nat → Level} {q : Nat → UInt8}
    (hq : Codes a c L q) {M : Nat} (hM : M + 70 ≤ 2 * 2 ^ S) (ps : List BusPacket) (hp : ∀ p ∈ ps, p.RawOk)
    (hg : ∀ b ∈ ps.flatMap BusPacket.frames, b.1 ≤ M) (hc : RawCarries L 0 (byteFrames (ps.flatMap BusPacket.frames)))
    (es : List (AdcEv × Bool)) (hk : keepsUp 254 0 0 (es.map Prod.fst))
    (hN : rawEnd 0 (byteFrames (ps.flatMap BusPacket.frames)) + 378 ≤ deliveries 0 0 (es.map Prod.fst))
    (hN' : deliveries 0 0 (es.map Prod.fst) ≤ rawEnd 0 (byteFrames (ps.flatMap BusPacket.frames)) + M) :
    ∃ s outs, RxSystem.run S (RxSystem.init (fun _ => 0) rxErr) (scheduleEvents (fun k => Pio.sampleValue k (q k)) 0 0 es) = .ok (s, outs) ∧
      sent outs ++ (if s.core.word = .zero then [] else [s.core.word]) =
        (ps.flatMap fun p => wFree :: wBusy :: p.bytes.map wByte) ++ [wFree] := by
  have hr : SampleRange fun k => Pio.sampleValue k (q k) := fun k => C41_conversion k (q k)
  have h0 : SampleRange fun _ => 0 := fun _ => by show (-256 : Int) ≤ 0 ∧ (0 : Int) ≤ 255; decide
  obtain ⟨s, outs, hrun⟩ := C41_no_undefined hS (fun _ => 0) h0 rxErr _ (schedule_range hr es 0 0)
  obtain ⟨ad, e1⟩ := C101_samples (S := S) (fun _ => 0) _ h0 hr rxErr es hk
  refine ⟨s, outs, hrun, ?_⟩
  rw [hrun] at e1
  cases hcr : (Core1.init rxErr).run S (idealInputs 4992 (adcHist (fun _ => 0) fun k => Pio.sampleValue k (q k)) 0 0 es) with
  | ub => rw [hcr] at e1; cases e1
  | ok r =>
    obtain ⟨c1, outs'⟩ := r
    rw [hcr] at e1
    simp only [Res.bind, Res.ok.injEq, Prod.mk.injEq] at e1
    obtain ⟨e2, rfl⟩ := e1
    obtain ⟨xs, tr, k1, k2, k3⟩ := run_ac _ hcr
    rw [samples_ideal, rawMv_adc] at k1
    obtain ⟨f, e3⟩ := front_run (rawMv_bound q) (deliveries 0 0 (es.map Prod.fst))
    have e3 : RxFront.run .init ((List.range (deliveries 0 0 (es.map Prod.fst))).map (rawMv q)) =
      .ok (f, (List.range ((deliveries 0 0 (es.map Prod.fst) + 1) / 2)).map (rawZ q)) := e3
    have k1 : RxFront.run .init _ = _ := k1
    rw [e3] at k1
    simp only [Res.ok.injEq, Prod.mk.injEq] at k1
    obtain ⟨t, tr', t1, t2⟩ := raw_tail hS rxErr h1 h2 hq hM hp hg hc hN hN'
    rw [k1.2] at t1
    have k2 : (C1Tail.init rxErr).run S xs = .ok (c1.tail, tr) := k2
    rw [k2] at t1
    simp only [Res.ok.injEq, Prod.mk.injEq] at t1
    obtain ⟨-, rfl⟩ := t1
    have := k3 (fun w => if w = .zero then [] else [w]) (if_pos rfl) (Or.inr (ideal_no_error _ _ _ _ _))
    have hflat : ∀ l : List Word, l.flatMap (fun w => if w = .zero then [] else [w]) = nonzero l := by
      intro l
      induction l with
      | nil => rfl
      | cons w l ih =>
        rw [List.flatMap_cons, ih]
        unfold nonzero
        by_cases hw : w = .zero
        · rw [if_pos hw, List.filter_cons_of_neg (by simpa using hw)]; rfl
        · rw [if_neg hw, List.filter_cons_of_pos (by simpa using hw)]; rfl
    rw [hflat, hflat, t2] at this
    have hz : nonzero (sent outs) = sent outs := by
      unfold nonzero
      rw [List.filter_eq_self]
      intro w hw
      simpa using sent_nonzero _ hcr w hw
    rw [hz] at this
    rw [e2]
    refine Eq.trans this ?_
    show (if Word.zero = Word.zero then [] else [Word.zero]) ++ _ = _
    rw [if_pos rfl]
    rfl

/-! ## A case that meets the hypotheses: the packet 40 F0 -/

/-- Levels of two bytes after 400 codes, 20 codes apart. -/
def rawLine (k : Nat) : Level :=
  if 400 ≤ k ∧ k < 748 then (if (k - 400) % 32 < 16 then symbolsOf true 0x40 ((k - 400) / 32) else .mid)
  else if 768 ≤ k ∧ k < 1116 then (if (k - 768) % 32 < 16 then symbolsOf true 0xF0 ((k - 768) / 32) else .mid)
  else .mid

/-- Codes of a line with an offset of 127, an amplitude of 60 and an alternating error. -/
def codesOf (L : Nat → Level) (k : Nat) : UInt8 :=
  UInt8.ofNat ((if k % 2 = 0 then 127 - 60 * (L k).sign else 127 + 60 * (L k).sign) + (if k % 3 = 0 then 1 else 0)).toNat

def rawCodes : Nat → UInt8 := codesOf rawLine

def rawPacket : BusPacket := { gap := 400, pol := true, first := 0x40, rest := [(20, true, 0xF0)] }

theorem codesOf_ok (L : Nat → Level) : Codes 60 127 L (codesOf L) := by
  intro k
  have key : ∀ l : Level, ∀ b c : Bool, ∃ n, n < 256 ∧
      ((if b then 127 - 60 * l.sign else 127 + 60 * l.sign) + (if c then 1 else 0) : Int) = (n : Nat) := by
    intro l b c
    cases l <;> cases b <;> cases c <;> first
      | exact ⟨127, by decide, by decide⟩ | exact ⟨128, by decide, by decide⟩ | exact ⟨187, by decide, by decide⟩
      | exact ⟨188, by decide, by decide⟩ | exact ⟨67, by decide, by decide⟩ | exact ⟨68, by decide, by decide⟩
  obtain ⟨n, h1, h2⟩ := key (L k) (decide (k % 2 = 0)) (decide (k % 3 = 0))
  simp only [decide_eq_true_eq] at h2
  have h3 : ((codesOf L k).toNat : Int) = n := by
    unfold codesOf
    rw [h2]
    simp only [Int.toNat_natCast, UInt8.toNat_ofNat']
    omega
  dsimp only
  rw [h3, ← h2]
  generalize (if k % 2 = 0 then 127 - 60 * (L k).sign else 127 + 60 * (L k).sign) = z
  split <;> omega

theorem rawCodes_ok : Codes 60 127 rawLine rawCodes := codesOf_ok rawLine

theorem rawLine_carries : RawCarries rawLine 0 (byteFrames ([rawPacket].flatMap BusPacket.frames)) := by
  refine ⟨fun k _ hk => ?_, ⟨fun _ => 0, fun _ => 0, fun _ => by simp, fun j hj => ?_⟩, fun k hk hk' => ?_,
    ⟨fun _ => 0, fun _ => 0, fun _ => by simp, fun j hj => ?_⟩, fun k hk => ?_⟩
  · have hk : k < 400 := by simpa [rawPacket] using hk
    unfold rawLine; rw [if_neg (by omega), if_neg (by omega)]
  · show rawLine (0 + 400 + j) = if 0 ≤ j % 32 ∧ j % 32 < 16 + 0 then symbolsOf true 0x40 (j / 32) else .mid
    unfold rawLine; rw [if_pos (by omega), show 0 + 400 + j - 400 = j by omega]; simp
  · have hk : 748 ≤ k := hk
    have hk' : k < 768 := hk'
    unfold rawLine; rw [if_neg (by omega), if_neg (by omega)]
  · show rawLine (768 + j) = if 0 ≤ j % 32 ∧ j % 32 < 16 + 0 then symbolsOf true 0xF0 (j / 32) else .mid
    unfold rawLine; rw [if_neg (by omega), if_pos (by omega), show 768 + j - 768 = j by omega]; simp
  · have hk : 1116 ≤ k := hk
    unfold rawLine; rw [if_neg (by omega), if_neg (by omega)]

/-- Every sample is processed at once. -/
def atOnce (n : Nat) : List (AdcEv × Bool) := (List.replicate n [(AdcEv.write, true), (AdcEv.poll 0, true)]).flatten

theorem atOnce_ok : ∀ (n k : Nat), k + n < adcBlock →
    keepsUp 254 k k ((atOnce n).map Prod.fst) ∧ deliveries k k ((atOnce n).map Prod.fst) = n := by
  intro n
  induction n with
  | zero => intro k h; exact ⟨by show k < adcBlock; omega, rfl⟩
  | succ n ih =>
    intro k h
    obtain ⟨i1, i2⟩ := ih (k + 1) (by omega)
    have e : (atOnce (n + 1)).map Prod.fst = .write :: .poll 0 :: (atOnce n).map Prod.fst := rfl
    rw [e]
    constructor
    · simp only [keepsUp, if_neg (show ¬ k + 1 = k by omega)]
      exact ⟨by omega, by omega, by omega, i1⟩
    · simp only [deliveries, if_neg (show ¬ k + 1 = k by omega), Nat.add_zero]
      rw [i2]; omega

/-- The packet 40 F0 gives the words free, busy, 40, F0, free. -/
example : ∃ s outs, RxSystem.run 32 (RxSystem.init (fun _ => 0) false) (scheduleEvents (fun k => Pio.sampleValue k (rawCodes k)) 0 0 (atOnce 1500)) = .ok (s, outs) ∧
    sent outs ++ (if s.core.word = .zero then [] else [s.core.word]) = [wFree, wBusy, wByte 0x40, wByte 0xF0, wFree] := by
  obtain ⟨k1, k2⟩ := atOnce_ok 1500 0 (by decide)
  refine C103_words (by decide) false (by decide) (by decide) rawCodes_ok (M := 400) (by decide) [rawPacket] ?_ ?_ rawLine_carries
    (atOnce 1500) k1 (by rw [k2]; decide) (by rw [k2]; decide)
  · intro p hp
    rw [List.mem_singleton] at hp
    subst hp
    exact ⟨by decide, by decide, by decide⟩
  · decide

end P1P2
