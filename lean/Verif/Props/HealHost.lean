import Verif.Proofs.WordsLines
import Verif.Props.DevHeal
import Verif.Props.BlockEnd
import Verif.Proofs.PromptLoop
/-!
# C126, C127: up to the lines for the host
-/
namespace P1P2
open Pio

/-- **C126, from the conversions to the host.** As `C126_words`, and the words (with the one still waiting, if any) are handed over to the main loop, which has any history (`es0`): the two cores are interleaved in any way such
that no word is dropped and the main loop takes all of them, and the watchdog does not report.  If the receiving core takes the line for free at the start, the last word of the history told
so.  Then the host is given exactly one line for each packet, in order, with status 0 and the bytes of the packet, after lines (`K`) about the history. -/
theorem C126_lines {S : Nat} (hS : 8 ≤ S) {ring : Nat → Int} (hr : SampleRange ring) {rxErr : Bool} {e1 e2 es : List PathEv}
    (hp1 : (DevSystem.init ring rxErr).Prompt S e1) {s1 s s' : DevSystem} {o1 o2 outs : List C1Out}
    (r1 : (DevSystem.init ring rxErr).run S e1 = .ok (s1, o1)) (hres : e1 = [] ∨ s1.core.word.result ≠ [])
    (hp2 : s1.Prompt S e2) (r2 : s1.run S e2 = .ok (s, o2))
    (hk : s.KeepsUp S es) (hl : s.Lossless S es) (r3 : s.run S es = .ok (s', outs))
    {a c : Int} (h1 : 49 ≤ a) (h2 : a ≤ 88) {L : Nat → Level} {q : Nat → UInt8} (hq : Codes a c L q) {n : Nat} (hcv : s.converted S es = (List.range n).map q)
    {M : Nat} (hM : (s1.stores S e2).length + M + 2213 ≤ 2 * 2 ^ S) {ps : List BusPacket} (hp : ∀ p ∈ ps, p.RawOk ∧ p.bytes.length ≤ 31)
    (hg : ∀ b ∈ ps.flatMap BusPacket.frames, b.1 ≤ M) (hc : RawCarries L 0 (byteFrames (ps.flatMap BusPacket.frames)))
    (hgap : ∀ p, ps.head? = some p → 1920 ≤ p.gap)
    (hN0 : 1920 + 13 + s'.dev.adc.lag ≤ n) (hN : rawEnd 0 (byteFrames (ps.flatMap BusPacket.frames)) + 378 + 13 + s'.dev.adc.lag ≤ n)
    (hN' : n ≤ rawEnd 0 (byteFrames (ps.flatMap BusPacket.frames)) + M)
    (pf : Platform) (g : Nat → UInt8) {es0 : List (Env1 × Env2)} {os0 : List Out2} {tc t : TwoCores} {xs : List TwoStep} {os : List TwoOut}
    (l0 : LoopRun pf g es0 tc.c0 os0) (hpc : tc.pc = .top) (hfe : tc.fifoErr = false)
    (hlast : s.core.busy = false → wordsOf es0 ++ tc.fifo ++ (if s.core.word = .zero then [] else [s.core.word]) = [] ∨
      ∃ Z, wordsOf es0 ++ tc.fifo ++ (if s.core.word = .zero then [] else [s.core.word]) = Z ++ [wFree])
    (ht : tc.run pf g xs = .ok (some (t, os))) (hx : pushes xs = sent outs ++ (if s'.core.word = .zero then [] else [s'.core.word])) (hdr : drops os = 0) (htop : t.pc = .top) (hf : t.fifo = [])
    (h4 : ∀ m ∈ rxMsgs (reportsOf os), m.status ≠ 4) :
    ∃ K, (rxMsgs (reportsOf os)).map lineShown = K ++ ps.map fun p => (0, p.bytes) := by
  obtain ⟨Y, e4, e5⟩ := C126_words hS hr hp1 r1 hres hp2 r2 hk hl r3 h1 h2 hq hcv hM (fun p hp' => (hp p hp').1) hg hc hgap hN0 hN hN'
  exact healed_lines (fun p hp' => (hp p hp').2) e4 e5 l0 hpc hfe hlast ht hx hdr htop hf h4

/-- **C127, from the samples to the host.** As `C127_words`: although the block ends, the host is given exactly one line for each packet, in order, with status 0 and the bytes of the
packet, after lines (`K`) about the history. -/
theorem C127_lines {S : Nat} (hS : 8 ≤ S) {ring : Nat → Int} (hr : SampleRange ring) {rxErr : Bool} {p1 p2 : List RxEv}
    (hp1 : ∀ e ∈ p1, e.InRange) (hp2 : ∀ e ∈ p2, e.InRange) {s1 s : RxSystem} {o1 o2 : List C1Out}
    (r1 : RxSystem.run S (RxSystem.init ring rxErr) p1 = .ok (s1, o1)) (hres : p1 = [] ∨ s1.core.word.result ≠ [])
    (r2 : s1.run S p2 = .ok (s, o2))
    {a c : Int} (h1 : 49 ≤ a) (h2 : a ≤ 88) {L : Nat → Level} {h : Nat → Int} (hh : SampleRange h) (hq : Samples a c L h)
    {M : Nat} (hM : arrivals p2 + M + 2200 ≤ 2 * 2 ^ S) {ps : List BusPacket} (hp : ∀ p ∈ ps, (p.RawOk ∧ 351 ≤ p.gap) ∧ p.bytes.length ≤ 31)
    (hg : ∀ b ∈ ps.flatMap BusPacket.frames, b.1 ≤ M) (hc : TightCarries L 0 (byteFrames (ps.flatMap BusPacket.frames)))
    (hgap : ∀ p, ps.head? = some p → 1921 ≤ p.gap) {W D : Nat} (hW : W = adcBlock - s.adc.tcHw) (hD : D = adcBlock - s.adc.tc)
    {es1 es2 : List (AdcEv × Bool)} (hk1 : keepsUp 254 W D (es1.map Prod.fst)) (hw1 : written W D (es1.map Prod.fst) = adcBlock - 1)
    (hd1 : D + deliveries W D (es1.map Prod.fst) = adcBlock - 1) (hcut : NoEdge L (adcBlock - 1 - W)) (ready : Bool)
    (hk2 : keepsUp 254 0 0 (es2.map Prod.fst)) {N : Nat} (hWN : W + N = adcBlock + deliveries 0 0 (es2.map Prod.fst))
    (hN0 : 1921 ≤ N) (hN : rawEnd 0 (byteFrames (ps.flatMap BusPacket.frames)) + 379 ≤ N)
    (hN' : N ≤ rawEnd 0 (byteFrames (ps.flatMap BusPacket.frames)) + M)
    {s' : RxSystem} {outs : List C1Out} (hrun : s.run S (scheduleEvents (fun k => h (k - W)) W D es1 ++ .transfer (h (adcBlock - 1 - W)) :: .iterate ready [] ::
        scheduleEvents (fun k => h (k + adcBlock - W)) 0 0 es2) = .ok (s', outs))
    (pf : Platform) (g : Nat → UInt8) {es0 : List (Env1 × Env2)} {os0 : List Out2} {tc t : TwoCores} {xs : List TwoStep} {os : List TwoOut}
    (l0 : LoopRun pf g es0 tc.c0 os0) (hpc : tc.pc = .top) (hfe : tc.fifoErr = false)
    (hlast : s.core.busy = false → wordsOf es0 ++ tc.fifo ++ (if s.core.word = .zero then [] else [s.core.word]) = [] ∨
      ∃ Z, wordsOf es0 ++ tc.fifo ++ (if s.core.word = .zero then [] else [s.core.word]) = Z ++ [wFree])
    (ht : tc.run pf g xs = .ok (some (t, os))) (hx : pushes xs = sent outs ++ (if s'.core.word = .zero then [] else [s'.core.word])) (hdr : drops os = 0) (htop : t.pc = .top) (hf : t.fifo = [])
    (h4 : ∀ m ∈ rxMsgs (reportsOf os), m.status ≠ 4) :
    ∃ K, (rxMsgs (reportsOf os)).map lineShown = K ++ ps.map fun p => (0, p.bytes) := by
  obtain ⟨s2, outs2, Y, e4, e5, e6⟩ := C127_words hS hr hp1 hp2 r1 hres r2 h1 h2 hh hq hM (fun p hp' => (hp p hp').1) hg hc hgap hW hD hk1 hw1 hd1 hcut ready hk2 hWN hN0 hN hN'
  rw [hrun] at e4
  simp only [Res.ok.injEq, Prod.mk.injEq] at e4
  obtain ⟨rfl, rfl⟩ := e4
  exact healed_lines (fun p hp' => (hp p hp').2) e5 e6 l0 hpc hfe hlast ht hx hdr htop hf h4

/-! ## Cases -/

/-- The hardware path contains a run of core 1 with the same outputs. -/
theorem dev_core {S : Nat} : ∀ (es : List PathEv) {s s' : DevSystem} {outs : List C1Out}, s.run S es = .ok (s', outs) → ∃ is, Core1.run S s.core is = .ok (s'.core, outs) := by
  intro es
  induction es with
  | nil =>
    intro s s' outs h
    simp only [DevSystem.run, Res.ok.injEq, Prod.mk.injEq] at h
    exact ⟨[], by rw [← h.1, ← h.2]; rfl⟩
  | cons e es ih =>
    intro s s' outs h
    rw [DevSystem.run, Res.bind_eq_ok] at h
    obtain ⟨⟨s1, o⟩, h1, h⟩ := h
    rw [Res.bind_eq_ok] at h
    obtain ⟨⟨s2, l⟩, h2, h⟩ := h
    simp only [Res.ok.injEq, Prod.mk.injEq] at h
    obtain ⟨is, h3⟩ := ih h2
    obtain ⟨rfl, rfl⟩ := h
    have cons : ∀ i c o1, s.core.step S i = .ok (c, o1) → s1.core = c → o = some o1 → ∃ is, Core1.run S s.core is = .ok (s2.core, o.toList ++ l) := by
      intro i c o1 q1 q2 q3
      refine ⟨i :: is, ?_⟩
      rw [q2] at h3
      simp only [Core1.run, q1, Res.ok_bind, h3, Res.ok.injEq, Prod.mk.injEq, true_and]
      rw [q3]; rfl
    cases e with
    | hw e =>
      simp only [DevSystem.step, Res.ok.injEq, Prod.mk.injEq] at h1
      obtain ⟨rfl, rfl⟩ := h1
      exact ⟨is, h3⟩
    | iterate ready upd rst =>
      simp only [DevSystem.step] at h1
      rw [Res.bind_eq_ok] at h1
      obtain ⟨u, -, h1⟩ := h1
      rw [Res.bind_eq_ok] at h1
      obtain ⟨r, h4, h1⟩ := h1
      simp only [Res.ok.injEq, Prod.mk.injEq] at h1
      obtain ⟨rfl, rfl⟩ := h1
      unfold DevSystem.loop at h4
      split at h4
      · rw [Res.bind_eq_ok] at h4
        obtain ⟨c, h5, h4⟩ := h4
        simp only [Res.ok.injEq] at h4
        subst h4
        exact cons _ _ _ h5 rfl rfl
      · dsimp only at h4
        split at h4
        · rw [Res.bind_eq_ok] at h4
          obtain ⟨c, h5, h4⟩ := h4
          simp only [Res.ok.injEq] at h4
          subst h4
          exact cons _ _ _ h5 rfl rfl
        · rw [Res.bind_eq_ok] at h4
          obtain ⟨c, h5, h4⟩ := h4
          simp only [Res.ok.injEq] at h4
          subst h4
          exact cons _ _ _ h5 rfl rfl

/-- The words of core 1, with the one still waiting, are well-formed. -/
theorem words_wf {S : Nat} {is : List C1In} {c c' : Core1} {outs : List C1Out} (h : c.run S is = .ok (c', outs)) (hw : c.word.Wf) :
    (∀ w ∈ sent outs ++ (if c'.word = .zero then [] else [c'.word]), WordOk w) ∧ c'.word.Wf := by
  obtain ⟨h1, h2⟩ := run_wf is h hw
  refine ⟨?_, h2⟩
  intro w hm
  rcases List.mem_append.mp hm with hm | hm
  · exact (h1 w hm).1.wordOk
  · split at hm
    · cases hm
    · rw [List.mem_singleton] at hm; subst hm; exact h2.wordOk

/-- The case beside `C126_words` (an overrun, a reset that leaves a stale value and swaps the wires, silence, the packet 40 F0), with a main loop that takes each word at once. -/
example : ∃ s o2 s' outs t os K, (DevSystem.init (fun _ => 0) true).run 32 (resetRun [0]) = .ok (s, o2) ∧ (∃ o ∈ o2, o.reset = true) ∧
    s.run 32 (pathCodes.flatMap (oneSample prompt)) = .ok (s', outs) ∧
    (TwoCores.init (fun _ => 0) .zero 0 0 false).run .arm (fun _ => 0) (handEach (sent outs ++ (if s'.core.word = .zero then [] else [s'.core.word]))) = .ok (some (t, os)) ∧
    (rxMsgs (reportsOf os)).map lineShown = K ++ [(0, [0x40, 0xF0])] := by
  have hb : adcBlock = 268435456 := rfl
  have h0 : SampleRange fun _ => 0 := fun _ => by show (-256 : Int) ≤ 0 ∧ (0 : Int) ≤ 255; decide
  obtain ⟨s, o2, h1, h2, h3, h4, h5, h6, h7, h8⟩ := reset_scene (S := 32) (by decide) (fun _ => 0) h0 true [0]
  obtain ⟨t, u, -, -, a1, a2, -, -, -, -⟩ := dev_run_refines (by decide) _ (DevInv.init h0 true) h2
  have a1 := h1.symm.trans a1
  simp only [Res.ok.injEq, Prod.mk.injEq] at a1
  obtain ⟨rfl, rfl⟩ := a1
  obtain ⟨b1, b2, b3, s', outs, b4, b5⟩ := steady_run (S := 32) (by decide) prompt_serves (k := 1) (by decide) pathCodes a2 h3 (by rw [pathCodes_length]; omega)
    (by rw [pathCodes_length]; omega) (by omega)
  have hsz := Nat.le_trans (DevSystem.stores_le (S := 32) (resetRun [0]) (DevSystem.init (fun _ => 0) true)) (resetRun_size [0])
  rw [List.length_singleton] at hsz
  have hM : ((DevSystem.init (fun _ => 0) true).stores 32 (resetRun [0])).length + 2000 + 2213 ≤ 2 * 2 ^ 32 := by
    generalize ((DevSystem.init (fun _ => 0) true).stores 32 (resetRun [0])).length = z at hsz ⊢
    exact Nat.le_trans (show z + 2000 + 2213 ≤ 20000 by omega) (by decide)
  have he : rawEnd 0 (byteFrames ([latePacket].flatMap BusPacket.frames)) = 2716 := by decide
  obtain ⟨is1, w1⟩ := dev_core _ h1
  obtain ⟨is2, w2⟩ := dev_core _ b4
  have w3 := (words_wf w2 (words_wf w1 Word.Wf.zero).2).1
  obtain ⟨t, os, t1, t2, t3, t4, t5⟩ := handEach_ok _ w3
  obtain ⟨K, hK⟩ := C126_lines (S := 32) (by decide) h0 (e1 := []) (e2 := resetRun [0]) trivial rfl (Or.inl rfl) h2 h1 b1 b2 b4
    (by decide) (by decide) (codesOf_ok lateLine) (n := 3200) (b3.trans pathCodes_eq) (M := 2000) hM (ps := [latePacket])
    (by intro p hp; rw [List.mem_singleton] at hp; subst hp; exact ⟨⟨by decide, by decide, by decide⟩, by decide⟩) (by decide) lateLine_carries
    (by intro p hp; cases hp; decide) (by rw [b5]; decide) (by rw [b5, he]; decide) (by rw [he]; decide)
    .arm (fun _ => 0) (es0 := []) (os0 := []) (tc := TwoCores.init (fun _ => 0) .zero 0 0 false) ⟨_, _, _, rfl⟩ rfl rfl (fun h => (by rw [h8] at h; cases h))
    t1 (handEach_pushes _) t2 t3 t4 t5
  exact ⟨s, o2, s', outs, t, os, K, h1, h7, b4, t1, hK⟩

/-- The case beside `C127_words` (the block ends in the middle of a pulse), with a main loop that takes each word at once. -/
example (G : Nat) (hG : G + 500 = adcBlock) : ∃ s' outs t os K,
    RxSystem.run 32 (RxSystem.init (fun _ => 0) true) (scheduleEvents (fun k => shiftSamples G (k - 0)) 0 0 (atOnce (G + 499)) ++ .transfer (shiftSamples G (adcBlock - 1 - 0)) ::
      .iterate true [] :: scheduleEvents (fun k => shiftSamples G (k + adcBlock - 0)) 0 0 (atOnce 1500)) = .ok (s', outs) ∧
    (TwoCores.init (fun _ => 0) .zero 0 0 false).run .arm (fun _ => 0) (handEach (sent outs ++ (if s'.core.word = .zero then [] else [s'.core.word]))) = .ok (some (t, os)) ∧
    (rxMsgs (reportsOf os)).map lineShown = K ++ [(0, [0x40, 0xF0])] := by
  obtain ⟨y1, y2, y3, y4, y5, y6, y7, y8, y9, y10⟩ := shift_nums hG (by decide)
  have h0 : SampleRange fun _ => 0 := fun _ => by show (-256 : Int) ≤ 0 ∧ (0 : Int) ≤ 255; decide
  obtain ⟨k1, k2⟩ := atOnce_ok (G + 499) 0 y1
  have k3 := atOnce_written (G + 499) 0
  obtain ⟨m1, m2⟩ := atOnce_ok 1500 0 (by decide)
  have hM : arrivals [] + adcBlock + 2200 ≤ 2 * 2 ^ 32 := by decide
  have hcut := shiftLine_cut G
  rw [y3] at hcut
  obtain ⟨s', outs, Y, e1, -, -⟩ := C127_words (S := 32) (by decide) h0 (rxErr := true) (p1 := []) (p2 := []) (fun e he => (by cases he)) (fun e he => (by cases he)) rfl (Or.inl rfl) rfl
    (by decide) (by decide) (shiftSamples_range G) (shiftSamples_ok G) (M := adcBlock) hM (ps := [shiftPacket G])
    (by intro p hp; rw [List.mem_singleton] at hp; subst hp; exact shiftPacket_ok y8) (shift_gaps y9 y10) (shiftLine_carries G)
    (by intro p hp; cases hp; exact y8) (W := 0) (D := 0) rfl rfl k1 (k3.trans y2) (by rw [k2]; exact y2) hcut true m1 (N := adcBlock + 1500)
    (by rw [m2]; exact y4) y5 (by rw [shift_end]; exact y6) (by rw [shift_end]; exact y7)
  obtain ⟨is, w1⟩ := rx_core _ e1
  have w2 := (words_wf w1 Word.Wf.zero).1
  obtain ⟨t, os, t1, t2, t3, t4, t5⟩ := handEach_ok _ w2
  obtain ⟨K, hK⟩ := C127_lines (S := 32) (by decide) h0 (rxErr := true) (p1 := []) (p2 := []) (fun e he => (by cases he)) (fun e he => (by cases he)) rfl (Or.inl rfl) rfl
    (by decide) (by decide) (shiftSamples_range G) (shiftSamples_ok G) (M := adcBlock) hM (ps := [shiftPacket G])
    (by intro p hp; rw [List.mem_singleton] at hp; subst hp; exact ⟨shiftPacket_ok y8, (by show [(0x40 : UInt8), 0xF0].length ≤ 31; decide)⟩) (shift_gaps y9 y10) (shiftLine_carries G)
    (by intro p hp; cases hp; exact y8) (W := 0) (D := 0) rfl rfl k1 (k3.trans y2) (by rw [k2]; exact y2) hcut true m1 (N := adcBlock + 1500)
    (by rw [m2]; exact y4) y5 (by rw [shift_end]; exact y6) (by rw [shift_end]; exact y7) e1
    .arm (fun _ => 0) (es0 := []) (os0 := []) (tc := TwoCores.init (fun _ => 0) .zero 0 0 false) ⟨_, _, _, rfl⟩ rfl rfl (fun h => (by cases h))
    t1 (handEach_pushes _) t2 t3 t4 t5
  exact ⟨s', outs, t, os, K, e1, t1, hK⟩

end P1P2
