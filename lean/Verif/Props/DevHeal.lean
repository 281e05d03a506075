import Verif.Proofs.DevSteady
import Verif.Props.Polarity
import Verif.Props.HealLines
import Verif.Props.AdcDev
/-!
# C126: from the conversions of the ADC to the words, after any history of the hardware

`Codes`, `RawCarries`, `BusPacket.RawOk`: Verif/Spec/Raw.lean.  `DevSystem.converted` (Verif/Spec/AdcDev.lean): the results of the conversions, in order.
`DevSystem.KeepsUp` (Verif/Spec/AdcDev.lean): no block ends, at most 254 samples wait when the ring is read.  `DevSystem.Lossless` (Verif/Spec/AdcDev.lean): no FIFO
is full when a code arrives (C124_timing: so it is if the bus is granted within a sample period).
-/
namespace P1P2
open Pio

theorem alternate_getElem? : ∀ (l : List UInt8) (odd : Bool) (i : Nat), (alternate odd l)[i]? = l[i]?.map fun b => signed (turn odd i) b := by
  intro l
  induction l with
  | nil => intro odd i; simp [alternate]
  | cons b l ih =>
    intro odd i
    cases i with
    | zero => simp [alternate, turn]
    | succ i => rw [alternate, List.getElem?_cons_succ, List.getElem?_cons_succ, ih, turn_succ]

theorem arrivals_values (es : List RxEv) : arrivals es = (es.flatMap RxEv.values).length := by
  induction es with
  | nil => rfl
  | cons e es ih =>
    rw [List.flatMap_cons, List.length_append, ← ih]
    unfold arrivals
    rw [List.map_cons, List.sum_cons]
    congr 1
    cases e <;> rfl

/-- Sample `j` after the start: what `signed` makes of a code. -/
theorem signed_sample (odd : Bool) (j : Nat) (b : UInt8) : signed (turn odd j) b = if odd then -Pio.sampleValue j b else Pio.sampleValue j b := by
  unfold signed turn Pio.sampleValue
  cases odd <;> by_cases h : j % 2 = 0 <;> simp [h]

/-- **C126.** After any history of the hardware and the loop (`e1`, `e2`: any conversions, bus grants, iterations, overruns, resets and ends of blocks, with hardware events
between the operations of `Update` and `Reset`): the ADC converts a bus that is silent for 1920 codes and then carries the packets `ps` (`q k` is the result of conversion `k`,
`n` of them), no FIFO overflows and the loop keeps up.  Then the words for the other core are those of the packets, in order and exactly once: line busy, the bytes, line free.
Before them there may be a rest of the history (`Y`), which is over.  (At the end at most 13 codes are on their way and `lag` wait in the ring.  Which of the wires is negated does
not matter.  `e1` ends with a byte of the UART, or is empty.) -/
theorem C126_words {S : Nat} (hS : 8 ≤ S) {ring : Nat → Int} (hr : SampleRange ring) {rxErr : Bool} {e1 e2 es : List PathEv}
    (hp1 : (DevSystem.init ring rxErr).Prompt S e1) {s1 s s' : DevSystem} {o1 o2 outs : List C1Out}
    (r1 : (DevSystem.init ring rxErr).run S e1 = .ok (s1, o1)) (hres : e1 = [] ∨ s1.core.word.result ≠ [])
    (hp2 : s1.Prompt S e2) (r2 : s1.run S e2 = .ok (s, o2))
    (hk : s.KeepsUp S es) (hl : s.Lossless S es) (r3 : s.run S es = .ok (s', outs))
    {a c : Int} (h1 : 49 ≤ a) (h2 : a ≤ 88) {L : Nat → Level} {q : Nat → UInt8} (hq : Codes a c L q) {n : Nat} (hcv : s.converted S es = (List.range n).map q)
    {M : Nat} (hM : (s1.stores S e2).length + M + 2213 ≤ 2 * 2 ^ S) {ps : List BusPacket} (hp : ∀ p ∈ ps, p.RawOk)
    (hg : ∀ b ∈ ps.flatMap BusPacket.frames, b.1 ≤ M) (hc : RawCarries L 0 (byteFrames (ps.flatMap BusPacket.frames)))
    (hgap : ∀ p, ps.head? = some p → 1920 ≤ p.gap)
    (hN0 : 1920 + 13 + s'.dev.adc.lag ≤ n) (hN : rawEnd 0 (byteFrames (ps.flatMap BusPacket.frames)) + 378 + 13 + s'.dev.adc.lag ≤ n)
    (hN' : n ≤ rawEnd 0 (byteFrames (ps.flatMap BusPacket.frames)) + M) :
    ∃ Y, sent outs ++ (if s'.core.word = .zero then [] else [s'.core.word]) =
        (if s.core.word = .zero then [] else [s.core.word]) ++ Y ++ (ps.flatMap fun p => wBusy :: (p.bytes.map wByte ++ [wFree])) ∧
      ((Y = [] ∧ s.core.busy = false) ∨ ∃ Y', Y = Y' ++ [wFree]) := by
  have hb : adcBlock = 268435456 := rfl
  -- the history
  obtain ⟨t1, u1, xs1, v1, a1, a2, a3, a4, a5, -⟩ := dev_run_refines hS e1 (DevInv.init hr rxErr) hp1
  have a1 := r1.symm.trans a1
  simp only [Res.ok.injEq, Prod.mk.injEq] at a1
  obtain ⟨rfl, rfl⟩ := a1
  obtain ⟨t2, u2, xs2, v2, b1, b2, b3, b4, b5, -⟩ := dev_run_refines hS e2 a2 hp2
  have b1 := r2.symm.trans b1
  simp only [Res.ok.injEq, Prod.mk.injEq] at b1
  obtain ⟨rfl, rfl⟩ := b1
  -- `e1 = []`: nothing has happened
  obtain ⟨xs0, hxs0, hr0, hres0⟩ : ∃ xs0 : List RxEv, (∀ x ∈ xs0, RxEv.InRange x) ∧
      (∃ w, RxSystem.run S (RxSystem.init ring rxErr) xs0 = .ok (⟨s1.dev.adc, s1.core⟩, w)) ∧ (xs0 = [] ∨ s1.core.word.result ≠ []) := by
    rcases hres with h | h
    · subst h
      simp only [DevSystem.run, Res.ok.injEq, Prod.mk.injEq] at r1
      obtain ⟨rfl, -⟩ := r1
      exact ⟨[], (fun x hx => by cases hx), ⟨[], rfl⟩, Or.inl rfl⟩
    · exact ⟨xs1, a3, ⟨v1, a5⟩, Or.inr h⟩
  obtain ⟨w0, hr0⟩ := hr0
  -- the run
  obtain ⟨sch, c1, c2, c3, c4, c5, c6⟩ := dev_schedule hS es b2 hk r3
  obtain ⟨ph, vs, hd⟩ := b2.dev
  obtain ⟨vs', d1, d2⟩ := order_run es hd hk.prompt r3 c5
  have f1 := codes_run es hk hl r3 c5
  have hf : s.dev.fifo.length ≤ 4 := run_fifo e2 (run_fifo e1 (Nat.zero_le _) r1) r2
  have hf' : s'.dev.fifo.length ≤ 4 := run_fifo es hf r3
  have hv9 := hd.nine
  have hv9' := d1.nine
  rw [hcv] at f1
  have hT : vs ++ alternate ph (s.dev.fifo ++ (List.range n).map q) = s.stores S es ++ (vs' ++ alternate (turn ph (s.enters S es).length) s'.dev.fifo) := by
    rw [f1, alternate_append, ← List.append_assoc, d2, List.append_assoc]
  have hlenT := congrArg List.length hT
  simp only [List.length_append, alternate_length, List.length_map, List.length_range] at hlenT
  -- the samples
  obtain ⟨w, hw⟩ : ∃ w, w = vs.length + s.dev.fifo.length := ⟨_, rfl⟩
  obtain ⟨odd, hodd⟩ : ∃ odd, odd = turn ph s.dev.fifo.length := ⟨_, rfl⟩
  obtain ⟨h, hh⟩ : ∃ h : Nat → Int, h = fun k => if k < w then (vs ++ alternate ph s.dev.fifo).getD k 0 else signed (turn odd (k - w)) (q (k - w)) := ⟨_, rfl⟩
  have hrange : SampleRange h := by
    intro k
    rw [hh]
    dsimp only
    split
    · next hlt =>
      have hlt : k < (vs ++ alternate ph s.dev.fifo).length := by rw [List.length_append, alternate_length]; omega
      rw [List.getD_eq_getElem?_getD, List.getElem?_eq_getElem hlt, Option.getD_some]
      rcases List.mem_append.mp (List.getElem_mem hlt) with hm | hm
      · exact hd.pipe.2.1 _ hm
      · exact alternate_ok _ _ _ hm
    · have := (q (k - w)).toNat_lt
      unfold signed
      split <;> constructor <;> omega
  have hstored : ∀ i, i < (s.stores S es).length → (s.stores S es)[i]? = some (h i) := by
    intro i hi
    have e1 : (s.stores S es)[i]? = (vs ++ alternate ph (s.dev.fifo ++ (List.range n).map q))[i]? := by rw [hT, List.getElem?_append_left hi]
    rw [e1, alternate_append, ← List.append_assoc, hh, ← hodd]
    dsimp only
    by_cases hlt : i < w
    · rw [if_pos hlt]
      have hlt' : i < (vs ++ alternate ph s.dev.fifo).length := by rw [List.length_append, alternate_length]; omega
      rw [List.getElem?_append_left hlt', List.getD_eq_getElem?_getD, List.getElem?_eq_getElem hlt', Option.getD_some]
    · rw [if_neg hlt]
      have hlen : (vs ++ alternate ph s.dev.fifo).length = w := by rw [List.length_append, alternate_length, hw]
      rw [List.getElem?_append_right (by omega), hlen, alternate_getElem?, List.getElem?_map, List.getElem?_range (by omega)]
      rfl
  have hnext : nextSamples (fun k => h (k - (adcBlock - s.dev.adc.tcHw))) (adcBlock - s.dev.adc.tcHw) (s.stores S es).length = s.stores S es := by
    apply List.ext_getElem?
    intro i
    unfold nextSamples
    by_cases hi : i < (s.stores S es).length
    · rw [hstored i hi, List.getElem?_map, List.getElem?_range hi]
      simp
    · rw [List.getElem?_eq_none (by simp; omega), List.getElem?_eq_none (by omega)]
  have hrun := c1 _ hnext
  have hsam : Samples a c L fun k => if odd then -h (k + w) else h (k + w) := by
    intro k
    have e : (if odd = true then -h (k + w) else h (k + w)) = Pio.sampleValue k (q k) := by
      have e0 : h (k + w) = if odd then -Pio.sampleValue k (q k) else Pio.sampleValue k (q k) := by
        rw [hh]
        dsimp only
        rw [if_neg (by omega), Nat.add_sub_cancel, signed_sample]
      rw [e0]
      cases odd
      · rfl
      · exact Int.neg_neg _
    have := hq k
    dsimp only at this ⊢
    rw [e]
    unfold Pio.sampleValue
    generalize a * (L k).sign = z at *
    split at this
    · next h2 => rw [if_pos h2, if_pos h2]; omega
    · next h2 => rw [if_neg h2, if_neg h2]; omega
  have hat := c6.hist.at'
  have hat : s'.dev.adc.At := hat
  have g1 := hat.hw; have g2 := hat.tc; have g3 := hat.le
  have hlag : s'.dev.adc.lag = s'.dev.adc.tc - s'.dev.adc.tcHw := rfl
  have harr : arrivals xs2 = (s1.stores S e2).length := by rw [arrivals_values, b4]
  obtain ⟨N, hNdef⟩ : ∃ N, n = N + vs'.length + s'.dev.fifo.length + s'.dev.adc.lag := ⟨n - (vs'.length + s'.dev.fifo.length + s'.dev.adc.lag), by omega⟩
  obtain ⟨s2, outs2, Y, k1, k2, k3⟩ := heal_either hS hr hxs0 b3 hr0 hres0 b5 odd h1 h2 hrange hsam (M := M) (by rw [harr]; omega) hp hg hc hgap rfl rfl c2 (N := N)
    (by dsimp only; omega) (by omega) (by omega) (by omega)
  have k1 := hrun.symm.trans k1
  simp only [Res.ok.injEq, Prod.mk.injEq] at k1
  obtain ⟨rfl, rfl⟩ := k1
  exact ⟨Y, k2, k3⟩

/-- The results of the conversions: `latePacket` on the bus. -/
@[irreducible] def pathCodes : List UInt8 := (List.range 3200).map (codesOf lateLine)

theorem pathCodes_eq : pathCodes = (List.range 3200).map (codesOf lateLine) := by unfold pathCodes; rfl

theorem pathCodes_length : pathCodes.length = 3200 := by rw [pathCodes_eq, List.length_map, List.length_range]

/-- A case: the loop stalls until the ring overflows, a conversion is under way when `Reset` stops the state machine; then the bus is silent and carries a packet.  The conversions are
served within their sample period and the loop takes a sample in each.  One value was left in the state machine by `Reset`, the wires are negated the other way round: the words are
those of the packet all the same. -/
example : ∃ s o2 s' outs Y, (DevSystem.init (fun _ => 0) true).run 32 (resetRun [0]) = .ok (s, o2) ∧ (∃ o ∈ o2, o.reset = true) ∧
    s.run 32 (pathCodes.flatMap (oneSample prompt)) = .ok (s', outs) ∧
    sent outs ++ (if s'.core.word = .zero then [] else [s'.core.word]) =
      (if s.core.word = .zero then [] else [s.core.word]) ++ Y ++ [wBusy, wByte 0x40, wByte 0xF0, wFree] := by
  have hb : adcBlock = 268435456 := rfl
  have h0 : SampleRange fun _ => 0 := fun _ => by show (-256 : Int) ≤ 0 ∧ (0 : Int) ≤ 255; decide
  obtain ⟨s, o2, h1, h2, h3, h4, h5, h6, h7, -⟩ := reset_scene (S := 32) (by decide) (fun _ => 0) h0 true [0]
  obtain ⟨t, u, -, -, a1, a2, -, -, -, -⟩ := dev_run_refines (by decide) _ (DevInv.init h0 true) h2
  have a1 := h1.symm.trans a1
  simp only [Res.ok.injEq, Prod.mk.injEq] at a1
  obtain ⟨rfl, rfl⟩ := a1
  obtain ⟨b1, b2, b3, s', outs, b4, b5⟩ := steady_run (S := 32) (by decide) prompt_serves (k := 1) (by decide) pathCodes a2 h3 (by rw [pathCodes_length]; omega)
    (by rw [pathCodes_length]; omega) (by omega)
  have hsz := Nat.le_trans (DevSystem.stores_le (S := 32) (resetRun [0]) (DevSystem.init (fun _ => 0) true)) (resetRun_size [0])
  rw [List.length_singleton] at hsz
  have hM : ((DevSystem.init (fun _ => 0) true).stores 32 (resetRun [0])).length + 2000 + 2213 ≤ 2 * 2 ^ 32 := by
    generalize ((DevSystem.init (fun _ => 0) true).stores 32 (resetRun [0])).length = z at hsz ⊢
    exact Nat.le_trans (show z + 2000 + 2213 ≤ 20000 by omega) (by decide)
  have he : rawEnd 0 (byteFrames ([latePacket].flatMap BusPacket.frames)) = 2716 := by decide
  obtain ⟨Y, c1, -⟩ := C126_words (S := 32) (by decide) h0 (e1 := []) (e2 := resetRun [0]) trivial rfl (Or.inl rfl) h2 h1 b1 b2 b4
    (by decide) (by decide) (codesOf_ok lateLine) (n := 3200) (b3.trans pathCodes_eq) (M := 2000) hM (ps := [latePacket])
    (by intro p hp; rw [List.mem_singleton] at hp; subst hp; exact ⟨by decide, by decide, by decide⟩) (by decide) lateLine_carries
    (by intro p hp; cases hp; decide) (by rw [b5]; decide) (by rw [b5, he]; decide) (by rw [he]; decide)
  exact ⟨s, o2, s', outs, Y, h1, h7, b4, c1⟩

end P1P2
