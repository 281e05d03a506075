import Verif.Proofs.HealSystem
/-!
# C122: the receive side recovers from everything

`Samples`, `RawCarries`, `BusPacket.RawOk`: `Verif/Spec/Raw.lean`.  `arrivals` counts the samples that arrive during a list of
events.  `s.adc.tcHw` is the number of samples the DMA has still to transfer within the current block and `s.adc.tc` the
number the loop has still to process, so `adcBlock - s.adc.tcHw` is the position of the next sample to be transferred.
-/
namespace P1P2

theorem adcRef_bound {y : Int → Int} (hy : ∀ j, -256 ≤ y j ∧ y j ≤ 255) (k : Int) : -9984 ≤ adcRef 4992 y k ∧ adcRef 4992 y k ≤ 9984 := by
  have h0 := hy k; have h1 := hy (k - 1); have h2 := hy (k - 2)
  have ht := tdiv2 (y k + y (k - 2))
  unfold adcRef
  generalize (y k + y (k - 2)).tdiv 2 = d at *
  omega

/-- `C122_words` with `w` further samples, which may be anything, before the silence. -/
theorem heal_words {S : Nat} (hS : 8 ≤ S) {ring : Nat → Int} (hr : SampleRange ring) {rxErr : Bool} {p1 p2 : List RxEv}
    (hp1 : ∀ e ∈ p1, e.InRange) (hp2 : ∀ e ∈ p2, e.InRange) {s1 s : RxSystem} {o1 o2 : List C1Out}
    (r1 : RxSystem.run S (RxSystem.init ring rxErr) p1 = .ok (s1, o1)) (hres : p1 = [] ∨ s1.core.word.result ≠ [])
    (r2 : s1.run S p2 = .ok (s, o2))
    {a c : Int} (h1 : 49 ≤ a) (h2 : a ≤ 88) {L : Nat → Level} {h : Nat → Int} (hh : SampleRange h) {w : Nat} (hq : Samples a c L fun k => h (k + w))
    {M : Nat} (hM : arrivals p2 + w + M + 2200 ≤ 2 * 2 ^ S) {ps : List BusPacket} (hp : ∀ p ∈ ps, p.RawOk)
    (hg : ∀ b ∈ ps.flatMap BusPacket.frames, b.1 ≤ M) (hc : RawCarries L 0 (byteFrames (ps.flatMap BusPacket.frames)))
    (hgap : ∀ p, ps.head? = some p → 1920 ≤ p.gap) {W D : Nat} (hW : W = adcBlock - s.adc.tcHw) (hD : D = adcBlock - s.adc.tc)
    {es : List (AdcEv × Bool)} (hk : keepsUp 254 W D (es.map Prod.fst)) {N : Nat} (hWN : W + w + N = D + deliveries W D (es.map Prod.fst))
    (hN0 : 1920 ≤ N) (hN : rawEnd 0 (byteFrames (ps.flatMap BusPacket.frames)) + 378 ≤ N)
    (hN' : N ≤ rawEnd 0 (byteFrames (ps.flatMap BusPacket.frames)) + M) :
    ∃ s' outs Y, s.run S (scheduleEvents (fun k => h (k - W)) W D es) = .ok (s', outs) ∧
      sent outs ++ (if s'.core.word = .zero then [] else [s'.core.word]) =
        (if s.core.word = .zero then [] else [s.core.word]) ++ Y ++ (ps.flatMap fun p => wBusy :: (p.bytes.map wByte ++ [wFree])) ∧
      ((Y = [] ∧ s.core.busy = false) ∨ ∃ Y', Y = Y' ++ [wFree]) := by
  obtain ⟨k1, is1, q1, b1, -⟩ := hist_run hS p1 (HistOk.init hr rxErr) hp1 r1
  obtain ⟨k2, is2, q2, b2, n2⟩ := hist_run hS p2 k1 hp2 r2
  have hfr : Aged S 0 s1.core.back.uart := by
    rcases hres with rfl | hres
    · simp only [RxSystem.run, Res.ok.injEq, Prod.mk.injEq] at r1
      rw [← r1.1]
      exact ⟨fun _ => rfl, fun _ => Or.inl rfl, fun _ => rfl, fun _ => Nat.zero_le _⟩
    · have fr := Fresh.run hS p1 (HistOk.init hr rxErr) (Fresh.init _) hp1 r1
      have hs := fr.2 hres
      exact .rest hs (fr.1.1 hs) 0
  have inv := AdcInv.ofAt k2.at' k2.adc.gain h
  rw [← hW, ← hD] at inv
  obtain ⟨h', hh'⟩ : ∃ h', h' = fun k => if k < W then s.adc.data (k % 256) else h (k - W) := ⟨_, rfl⟩
  rw [← hh'] at inv
  have hr' : SampleRange h' := by
    intro k
    rw [hh']
    dsimp only
    split
    · exact k2.adc.data _
    · exact hh _
  have hev : scheduleEvents (fun k => h (k - W)) W D es = scheduleEvents h' W D es := by
    refine scheduleEvents_congr es fun k hk => ?_
    rw [hh']
    dsimp only
    rw [if_neg (by omega)]
  obtain ⟨ad, -, -, e1⟩ := schedule_run (S := S) k2.adc.data hr' (by decide) es inv k2.err hk
  obtain ⟨s', outs, hrun⟩ := rx_run_ok hS (scheduleEvents h' W D es) k2.adc k2.core (schedule_range hr' es W D)
  rw [hrun] at e1
  cases hcr : s.core.run S (idealInputs 4992 (adcHist s.adc.data h') W D es) with
  | ub => rw [hcr] at e1; cases e1
  | ok r =>
    obtain ⟨c3, outs'⟩ := r
    rw [hcr] at e1
    simp only [Res.bind, Res.ok.injEq, Prod.mk.injEq] at e1
    obtain ⟨e2, rfl⟩ := e1
    have hsi := samples_ideal 4992 (adcHist s.adc.data h') es W D
    have hDW := inv.dle
    have hlag := keepsUp_lag _ hk (by omega)
    have hl3 : (samplesOf (idealInputs 4992 (adcHist s.adc.data h') W D es)).length = deliveries W D (es.map Prod.fst) := by rw [hsi]; simp
    generalize hdel : deliveries W D (es.map Prod.fst) = n at *
    have hlg : s.adc.lag = W - D := by
      have := k2.at'
      have g1 := this.hw; have g2 := this.tc
      show s.adc.tc - s.adc.tcHw = _
      omega
    have hn2 : (samplesOf is2).length + (W - D) ≤ 255 + arrivals p2 := by omega
    have hyb := adcHist_range k2.adc.data hr'
    generalize hy : adcHist s.adc.data h' = y at *
    obtain ⟨K0, hK0⟩ : ∃ K0, K0 = (samplesOf is1).length + (samplesOf is2).length := ⟨_, rfl⟩
    obtain ⟨v, hv⟩ : ∃ v : Nat → Int, v = fun k => if k < K0 then (samplesOf is1 ++ samplesOf is2).getD k 0 else adcRef 4992 y ((D + (k - K0) : Nat) : Int) := ⟨_, rfl⟩
    have hvb : ∀ k, -9984 ≤ v k ∧ v k ≤ 9984 := by
      intro k
      rw [hv]
      dsimp only
      split
      · next hlt =>
        have hlt : k < (samplesOf is1 ++ samplesOf is2).length := by rw [List.length_append]; omega
        rw [List.getD_eq_getElem?_getD, List.getElem?_eq_getElem hlt, Option.getD_some]
        rcases List.mem_append.mp (List.getElem_mem hlt) with hm | hm
        · exact b1 _ hm
        · exact b2 _ hm
      · exact adcRef_bound hyb _
    have hsv : samplesOf is1 ++ samplesOf is2 ++ samplesOf (idealInputs 4992 y W D es) =
        (List.range ((samplesOf is1).length + (samplesOf is2).length + (samplesOf (idealInputs 4992 y W D es)).length)).map v := by
      rw [hl3, ← hK0, hsi]
      apply List.ext_getElem
      · rw [List.length_append, List.length_append, ← hK0]; simp
      · intro i i1 i2
        rw [List.getElem_map, List.getElem_range, hv]
        dsimp only
        have hlen : (samplesOf is1 ++ samplesOf is2).length = K0 := by rw [List.length_append, hK0]
        by_cases hlt : i < K0
        · rw [if_pos hlt, List.getElem_append_left (by omega), List.getD_eq_getElem?_getD, List.getElem?_eq_getElem (by omega), Option.getD_some]
        · rw [if_neg hlt, List.getElem_append_right (by omega), List.getElem_map, List.getElem_range']
          congr 1
          omega
    have hbase : ∀ j : Nat, y ((W + j : Nat) : Int) = h j := by
      intro j
      rw [← hy, hh']
      unfold adcHist
      rw [if_neg (by omega)]
      dsimp only
      rw [if_neg (by omega)]
      congr 1
      omega
    have hmv : MvFrom a (fun k => L (k - (K0 + (W - D) + w))) v (K0 + (W - D) + w) := by
      intro i hi
      obtain ⟨j, rfl⟩ : ∃ j, i = K0 + (W - D) + w + j := ⟨i - (K0 + (W - D) + w), by omega⟩
      have hvv : v (K0 + (W - D) + w + j + 2) = adcRef 4992 y ((W + (j + 2 + w) : Nat) : Int) := by
        rw [hv]
        dsimp only
        rw [if_neg (by omega)]
        congr 2
        omega
      rw [hvv]
      dsimp only
      rw [show K0 + (W - D) + w + j + 2 - (K0 + (W - D) + w) = j + 2 by omega, show K0 + (W - D) + w + j + 1 - (K0 + (W - D) + w) = j + 1 by omega,
        show K0 + (W - D) + w + j - (K0 + (W - D) + w) = j by omega]
      unfold adcRef
      rw [show ((W + (j + 2 + w) : Nat) : Int) - 2 = ((W + (j + w) : Nat) : Int) by omega, show ((W + (j + 2 + w) : Nat) : Int) - 1 = ((W + (j + 1 + w) : Nat) : Int) by omega,
        hbase, hbase, hbase]
      have a0 := hq j; have a1 := hq (j + 1); have a2 := hq (j + 2)
      dsimp only at a0 a1 a2
      rcases Nat.mod_two_eq_zero_or_one j with hpj | hpj
      · rw [if_pos hpj] at a0
        rw [if_neg (by omega)] at a1
        rw [if_pos (by omega)] at a2
        exact mv_of a2 a1 a0
      · rw [if_neg (by omega)] at a0
        rw [if_pos (by omega)] at a1
        rw [if_neg (by omega)] at a2
        exact mv_of (c := -c) (by rw [Int.neg_neg]; exact a2) a1 (by rw [Int.neg_neg]; exact a0)
    have hgap' : GapFrom 1920 (ps.flatMap BusPacket.frames) := by
      cases ps with
      | nil => intro f hf; cases hf
      | cons p ps =>
        intro f hf
        obtain rfl : (p.gap, p.pol, p.first) = f := by simpa [BusPacket.frames] using hf
        exact hgap p rfl
    have hcs := hc.shift (K0 + (W - D) + w)
    rw [Nat.zero_add] at hcs
    obtain ⟨Y, g1, g2⟩ := heal_core hS q1 q2 hcr hvb hsv hfr h1 h2 (b := K0 + (W - D) + w) (N := N) (M := M) (by omega) hmv hp hcs hg hgap' (by omega) (by omega) hN0 hN hN'
      (ideal_no_error _ _ _ _ _)
    refine ⟨s', outs, Y, by rw [hev]; exact hrun, ?_, g2⟩
    rw [e2]
    exact g1

/-- **C122.** After any history of the receive side (any samples, overruns, resets of the ADC, iterations at any time, a
FIFO that is full at times): if the samples that are transferred from then on are those of a line that is silent for 1920
codes (60 bit times, 6.25 ms) and then carries the packets `ps`, and the loop keeps up, then the words for the other core
are those of the packets, in order and exactly once: line busy, the bytes, line free.  Before them there may be a rest of
the history (`Y`), which is over: it is empty and the line was reported free before, or it ends with the report that the
line is free.  (`p1` is the part of the history up to a byte of the UART, or empty: the UART has to see a byte, or to be
started, every `2 ^ S` samples.) -/
theorem C122_words {S : Nat} (hS : 8 ≤ S) {ring : Nat → Int} (hr : SampleRange ring) {rxErr : Bool} {p1 p2 : List RxEv}
    (hp1 : ∀ e ∈ p1, e.InRange) (hp2 : ∀ e ∈ p2, e.InRange) {s1 s : RxSystem} {o1 o2 : List C1Out}
    (r1 : RxSystem.run S (RxSystem.init ring rxErr) p1 = .ok (s1, o1)) (hres : p1 = [] ∨ s1.core.word.result ≠ [])
    (r2 : s1.run S p2 = .ok (s, o2))
    {a c : Int} (h1 : 49 ≤ a) (h2 : a ≤ 88) {L : Nat → Level} {h : Nat → Int} (hh : SampleRange h) (hq : Samples a c L h)
    {M : Nat} (hM : arrivals p2 + M + 2200 ≤ 2 * 2 ^ S) {ps : List BusPacket} (hp : ∀ p ∈ ps, p.RawOk)
    (hg : ∀ b ∈ ps.flatMap BusPacket.frames, b.1 ≤ M) (hc : RawCarries L 0 (byteFrames (ps.flatMap BusPacket.frames)))
    (hgap : ∀ p, ps.head? = some p → 1920 ≤ p.gap) {W D : Nat} (hW : W = adcBlock - s.adc.tcHw) (hD : D = adcBlock - s.adc.tc)
    {es : List (AdcEv × Bool)} (hk : keepsUp 254 W D (es.map Prod.fst)) {N : Nat} (hWN : W + N = D + deliveries W D (es.map Prod.fst))
    (hN0 : 1920 ≤ N) (hN : rawEnd 0 (byteFrames (ps.flatMap BusPacket.frames)) + 378 ≤ N)
    (hN' : N ≤ rawEnd 0 (byteFrames (ps.flatMap BusPacket.frames)) + M) :
    ∃ s' outs Y, s.run S (scheduleEvents (fun k => h (k - W)) W D es) = .ok (s', outs) ∧
      sent outs ++ (if s'.core.word = .zero then [] else [s'.core.word]) =
        (if s.core.word = .zero then [] else [s.core.word]) ++ Y ++ (ps.flatMap fun p => wBusy :: (p.bytes.map wByte ++ [wFree])) ∧
      ((Y = [] ∧ s.core.busy = false) ∨ ∃ Y', Y = Y' ++ [wFree]) := by
  exact heal_words hS hr hp1 hp2 r1 hres r2 h1 h2 hh (w := 0) hq hM hp hg hc hgap hW hD hk hWN hN0 hN hN'

/-! ## A case that meets the hypotheses: an overrun, a reset, noise, silence and the packet 40 F0 -/

/-- 300 samples that are not processed, then some that are. -/
def brokenHistory : List RxEv :=
  List.replicate 300 (.transfer 255) ++ [.iterate true [], .transfer 200, .transfer (-255), .iterate false [77], .iterate true [], .iterate true [], .iterate true []]

def brokenState : Option RxSystem := match RxSystem.run 32 (RxSystem.init (fun _ => 0) true) brokenHistory with
  | .ok r => some r.1
  | .ub => none

/-- The line of `rawLine`, 1600 codes later. -/
def lateLine (k : Nat) : Level := if k < 1600 then .mid else rawLine (k - 1600)

def latePacket : BusPacket := { rawPacket with gap := 2000 }

/-- Samples with an offset of -90, an amplitude of 60 and an error. -/
def lateSamples (k : Nat) : Int := (if k % 2 = 0 then 90 else -90) + 60 * (lateLine k).sign + (if k % 3 = 0 then 1 else 0)

theorem lateSamples_ok : Samples 60 (-90) lateLine lateSamples := by
  intro k
  unfold lateSamples
  dsimp only
  generalize 60 * (lateLine k).sign = z
  split <;> split <;> omega

theorem lateSamples_range : SampleRange lateSamples := by
  intro k
  unfold lateSamples
  cases lateLine k <;> simp only [Level.sign] <;> split <;> split <;> omega

set_option maxRecDepth 20000 in
theorem lateLine_carries : RawCarries lateLine 0 (byteFrames ([latePacket].flatMap BusPacket.frames)) := by
  obtain ⟨c1, ⟨δ, ε, ho, c2⟩, c3, ⟨δ', ε', ho', c4⟩, c5⟩ := rawLine_carries
  refine ⟨fun k _ hk => ?_, ⟨δ, ε, ho, fun j hj => ?_⟩, fun k hk hk' => ?_, ⟨δ', ε', ho', fun j hj => ?_⟩, fun k hk => ?_⟩
  · have hk : k < 2000 := by simpa [latePacket] using hk
    unfold lateLine
    split
    · rfl
    · exact c1 _ (by omega) (by show k - 1600 < 0 + 400; omega)
  · refine Eq.trans ?_ (c2 j hj)
    show lateLine (0 + 2000 + j) = rawLine (0 + 400 + j)
    unfold lateLine
    rw [if_neg (by omega), show 0 + 2000 + j - 1600 = 0 + 400 + j by omega]
  · have hk : 2348 ≤ k := hk
    have hk' : k < 2368 := hk'
    unfold lateLine
    rw [if_neg (by omega)]
    have d3 : ∀ i, 748 ≤ i → i < 768 → rawLine i = .mid := c3
    exact d3 _ (by omega) (by omega)
  · refine Eq.trans (show lateLine _ = rawLine _ from ?_) (c4 j hj)
    show lateLine (2368 + j) = rawLine (768 + j)
    unfold lateLine
    rw [if_neg (by omega), show 2368 + j - 1600 = 768 + j by omega]
  · have hk : 2716 ≤ k := hk
    unfold lateLine
    rw [if_neg (by omega)]
    have d5 : ∀ i, 1116 ≤ i → rawLine i = .mid := c5
    exact d5 _ (by omega)

set_option maxRecDepth 20000 in
theorem brokenState_adc : brokenState.map (fun s => (adcBlock - s.adc.tcHw, adcBlock - s.adc.tc)) = some (3, 3) := by decide +kernel

set_option maxRecDepth 20000 in
/-- An overrun that resets the ADC, noise and a full FIFO; then the packet 40 F0. -/
example : ∃ s o s' outs Y, RxSystem.run 32 (RxSystem.init (fun _ => 0) true) brokenHistory = .ok (s, o) ∧
    s.run 32 (scheduleEvents (fun k => lateSamples (k - 3)) 3 3 (atOnce 3200)) = .ok (s', outs) ∧
    sent outs ++ (if s'.core.word = .zero then [] else [s'.core.word]) =
      (if s.core.word = .zero then [] else [s.core.word]) ++ Y ++ [wBusy, wByte 0x40, wByte 0xF0, wFree] ∧
    ((Y = [] ∧ s.core.busy = false) ∨ ∃ Y', Y = Y' ++ [wFree]) := by
  have hr : ∀ e ∈ brokenHistory, e.InRange := by
    intro e he
    unfold brokenHistory at he
    rcases List.mem_append.mp he with he | he
    · rw [List.eq_of_mem_replicate he]
      exact ⟨by decide, by decide⟩
    · simp only [List.mem_cons, List.not_mem_nil, or_false] at he
      rcases he with rfl | rfl | rfl | rfl | rfl | rfl | rfl <;> simp [RxEv.InRange]
  have h0 : SampleRange fun _ => 0 := fun _ => by show (-256 : Int) ≤ 0 ∧ (0 : Int) ≤ 255; decide
  obtain ⟨s, o, hrun⟩ := C41_no_undefined (S := 32) (by decide) (fun _ => 0) h0 true _ hr
  have hb := brokenState_adc
  unfold brokenState at hb
  rw [hrun] at hb
  simp only [Option.map_some, Option.some.injEq, Prod.mk.injEq] at hb
  obtain ⟨k1, k2⟩ := atOnce_ok 3200 3 (by decide)
  obtain ⟨s', outs, Y, e1, e2, e3⟩ := C122_words (S := 32) (by decide) h0 (p1 := []) (p2 := brokenHistory) (fun e he => (by cases he)) hr rfl (Or.inl rfl) hrun
    (by decide) (by decide) lateSamples_range lateSamples_ok (M := 2000) (by decide) (ps := [latePacket])
    (by intro p hp; rw [List.mem_singleton] at hp; subst hp; exact ⟨by decide, by decide, by decide⟩) (by decide) lateLine_carries
    (by intro p hp; cases hp; decide) hb.1.symm hb.2.symm k1 (N := 3200) (by rw [k2]) (by decide) (by decide) (by decide)
  exact ⟨s, o, s', outs, Y, hrun, e1, e2, e3⟩

end P1P2
