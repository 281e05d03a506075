import Verif.Spec.Flip
import Verif.Props.Raw
import Verif.Props.Heal
/-!
# C125: the polarity of the sampling does not matter

Which of the two wires is negated depends on how the device is connected and may change with a reset of the ADC (C124_polarity).
`Level.flip`, `SwappedCodes`: Verif/Spec/Flip.lean.
-/
namespace P1P2

theorem Level.flip_sign (l : Level) : l.flip.sign = -l.sign := by cases l <;> rfl

theorem ami_flip (bs : List Bool) : ∀ p, ami (!p) bs = (ami p bs).map Level.flip := by
  induction bs with
  | nil => intro p; rfl
  | cons b bs ih =>
    intro p
    cases b
    · cases p <;> simp [ami, ← ih, Level.flip]
    · cases p <;> simp [ami, ← ih, Level.flip]

theorem symbolsOf_flip (p : Bool) (b : UInt8) (k : Nat) : symbolsOf (!p) b k = (symbolsOf p b k).flip := by
  unfold symbolsOf
  rw [ami_flip]
  simp only [List.getD_eq_getElem?_getD, List.getElem?_map]
  cases (ami p (frameBits b))[k]? <;> rfl

theorem SwappedCodes.codes {a c : Int} {L : Nat → Level} {q : Nat → UInt8} (h : SwappedCodes a c L q) : Codes a c (fun k => (L k).flip) q := by
  intro k
  have := h k
  dsimp only at this ⊢
  rw [Level.flip_sign, Int.mul_neg]
  split at this
  · next h2 => rw [if_pos h2]; omega
  · next h2 => rw [if_neg h2]; omega

theorem Samples.neg {a c : Int} {L : Nat → Level} {h : Nat → Int} (hs : Samples a c L h) : Samples a (-c) (fun k => (L k).flip) fun k => -h k := by
  intro k
  have := hs k
  dsimp only at this ⊢
  rw [Level.flip_sign, Int.mul_neg]
  generalize a * (L k).sign = z at *
  split at this
  · next h2 => rw [if_pos h2]; omega
  · next h2 => rw [if_neg h2]; omega

theorem RawCarries.flip {L : Nat → Level} : ∀ (bs : List (Nat × Bool × UInt8)) {t : Nat}, RawCarries L t (byteFrames bs) →
    RawCarries (fun k => (L k).flip) t (byteFrames (bs.map fun b => (b.1, !b.2.1, b.2.2)))
  | [], t, h => fun k hk => by show (L k).flip = .mid; rw [h k hk]; rfl
  | b :: bs, t, ⟨h1, ⟨δ, ε, h2, h3⟩, h4⟩ => by
    refine ⟨fun k hk hk' => ?_, ⟨δ, ε, h2, fun j hj => ?_⟩, RawCarries.flip bs h4⟩
    · show (L k).flip = .mid
      rw [h1 k hk hk']; rfl
    · have h3 := h3 j hj
      dsimp only at h3 ⊢
      rw [h3]
      split
      · exact (symbolsOf_flip _ _ _).symm
      · rfl

theorem rawEnd_flip : ∀ (bs : List (Nat × Bool × UInt8)) (t : Nat), rawEnd t (byteFrames (bs.map fun b => (b.1, !b.2.1, b.2.2))) = rawEnd t (byteFrames bs)
  | [], _ => rfl
  | _ :: bs, _ => rawEnd_flip bs _

theorem flip_frames (ps : List BusPacket) : (ps.map BusPacket.flip).flatMap BusPacket.frames = (ps.flatMap BusPacket.frames).map fun b => (b.1, !b.2.1, b.2.2) := by
  induction ps with
  | nil => rfl
  | cons p ps ih => rw [List.map_cons, List.flatMap_cons, List.flatMap_cons, ih, List.map_append]; rfl

theorem flip_bytes (p : BusPacket) : p.flip.bytes = p.bytes := by
  unfold BusPacket.bytes BusPacket.flip
  simp [List.map_map, Function.comp_def]

theorem BusPacket.RawOk.flip {p : BusPacket} (h : p.RawOk) : p.flip.RawOk := by
  refine ⟨h.gap, ?_, fun b hb => ?_⟩
  · have := h.rest
    simpa [BusPacket.flip, List.map_map, Function.comp_def] using this
  · obtain ⟨b', hb', rfl⟩ := List.mem_map.mp hb
    show (!b'.2.1) = !p.pol
    rw [h.pol b' hb']

theorem flip_gaps {M : Nat} {bs : List (Nat × Bool × UInt8)} (hg : ∀ b ∈ bs, b.1 ≤ M) : ∀ b ∈ bs.map fun b => (b.1, !b.2.1, b.2.2), b.1 ≤ M := by
  intro b hb
  obtain ⟨b', hb', rfl⟩ := List.mem_map.mp hb
  exact hg b' hb'

/-- **C125, swapped wires.** The bus carries the packets `ps`; one modem is connected one way (`Codes`), another one with the wires swapped (`SwappedCodes`), with other errors,
another amplitude and another schedule.  From power-up on both tell the other core the same words, those of the packets. -/
theorem C125_swapped_wires {S : Nat} (hS : 8 ≤ S) (rxErr rxErr' : Bool) {L : Nat → Level}
    {a c : Int} (h1 : 49 ≤ a) (h2 : a ≤ 88) {q : Nat → UInt8} (hq : Codes a c L q)
    {a' c' : Int} (h1' : 49 ≤ a') (h2' : a' ≤ 88) {q' : Nat → UInt8} (hq' : SwappedCodes a' c' L q')
    {M : Nat} (hM : M + 70 ≤ 2 * 2 ^ S) (ps : List BusPacket) (hp : ∀ p ∈ ps, p.RawOk)
    (hg : ∀ b ∈ ps.flatMap BusPacket.frames, b.1 ≤ M) (hc : RawCarries L 0 (byteFrames (ps.flatMap BusPacket.frames)))
    (es : List (AdcEv × Bool)) (hk : keepsUp 254 0 0 (es.map Prod.fst))
    (hN : rawEnd 0 (byteFrames (ps.flatMap BusPacket.frames)) + 378 ≤ deliveries 0 0 (es.map Prod.fst))
    (hN' : deliveries 0 0 (es.map Prod.fst) ≤ rawEnd 0 (byteFrames (ps.flatMap BusPacket.frames)) + M)
    (es' : List (AdcEv × Bool)) (hk' : keepsUp 254 0 0 (es'.map Prod.fst))
    (hE : rawEnd 0 (byteFrames (ps.flatMap BusPacket.frames)) + 378 ≤ deliveries 0 0 (es'.map Prod.fst))
    (hE' : deliveries 0 0 (es'.map Prod.fst) ≤ rawEnd 0 (byteFrames (ps.flatMap BusPacket.frames)) + M) :
    ∃ s outs s' outs', RxSystem.run S (RxSystem.init (fun _ => 0) rxErr) (scheduleEvents (fun k => Pio.sampleValue k (q k)) 0 0 es) = .ok (s, outs) ∧
      RxSystem.run S (RxSystem.init (fun _ => 0) rxErr') (scheduleEvents (fun k => Pio.sampleValue k (q' k)) 0 0 es') = .ok (s', outs') ∧
      sent outs ++ (if s.core.word = .zero then [] else [s.core.word]) = (ps.flatMap fun p => wFree :: wBusy :: p.bytes.map wByte) ++ [wFree] ∧
      sent outs' ++ (if s'.core.word = .zero then [] else [s'.core.word]) = sent outs ++ (if s.core.word = .zero then [] else [s.core.word]) := by
  obtain ⟨s, outs, k1, k2⟩ := C103_words hS rxErr h1 h2 hq hM ps hp hg hc es hk hN hN'
  obtain ⟨s', outs', k3, k4⟩ := C103_words hS rxErr' h1' h2' hq'.codes hM (ps.map BusPacket.flip)
    (fun p hp' => by obtain ⟨p', hp'', rfl⟩ := List.mem_map.mp hp'; exact (hp p' hp'').flip)
    (by rw [flip_frames]; exact flip_gaps hg) (by rw [flip_frames]; exact hc.flip) es' hk'
    (by rw [flip_frames, rawEnd_flip]; exact hE) (by rw [flip_frames, rawEnd_flip]; exact hE')
  refine ⟨s, outs, s', outs', k1, k3, k2, ?_⟩
  rw [k4, k2, List.flatMap_map]
  simp only [flip_bytes]

/-- `heal_words` with samples that may be negated. -/
theorem heal_either {S : Nat} (hS : 8 ≤ S) {ring : Nat → Int} (hr : SampleRange ring) {rxErr : Bool} {p1 p2 : List RxEv}
    (hp1 : ∀ e ∈ p1, e.InRange) (hp2 : ∀ e ∈ p2, e.InRange) {s1 s : RxSystem} {o1 o2 : List C1Out}
    (r1 : RxSystem.run S (RxSystem.init ring rxErr) p1 = .ok (s1, o1)) (hres : p1 = [] ∨ s1.core.word.result ≠ [])
    (r2 : s1.run S p2 = .ok (s, o2)) (neg : Bool)
    {a c : Int} (h1 : 49 ≤ a) (h2 : a ≤ 88) {L : Nat → Level} {h : Nat → Int} (hh : SampleRange h) {w : Nat}
    (hq : Samples a c L fun k => if neg then -h (k + w) else h (k + w))
    {M : Nat} (hM : arrivals p2 + w + M + 2200 ≤ 2 * 2 ^ S) {ps : List BusPacket} (hp : ∀ p ∈ ps, p.RawOk)
    (hg : ∀ b ∈ ps.flatMap BusPacket.frames, b.1 ≤ M) (hc : RawCarries L 0 (byteFrames (ps.flatMap BusPacket.frames)))
    (hgap : ∀ p, ps.head? = some p → 1920 ≤ p.gap) {W D : Nat} (hW : W = adcBlock - s.adc.tcHw) (hD : D = adcBlock - s.adc.tc)
    {es : List (AdcEv × Bool)} (hk : keepsUp 254 W D (es.map Prod.fst)) {N : Nat} (hWN : W + w + N = D + deliveries W D (es.map Prod.fst))
    (hN0 : 1920 ≤ N) (hN : rawEnd 0 (byteFrames (ps.flatMap BusPacket.frames)) + 378 ≤ N)
    (hN' : N ≤ rawEnd 0 (byteFrames (ps.flatMap BusPacket.frames)) + M) :
    ∃ s' outs Y, s.run S (scheduleEvents (fun k => h (k - W)) W D es) = .ok (s', outs) ∧
      sent outs ++ (if s'.core.word = .zero then [] else [s'.core.word]) =
        (if s.core.word = .zero then [] else [s.core.word]) ++ Y ++ (ps.flatMap fun p => wBusy :: (p.bytes.map wByte ++ [wFree])) ∧
      ((Y = [] ∧ s.core.busy = false) ∨ ∃ Y', Y = Y' ++ [wFree]) := by
  cases neg with
  | false => exact heal_words hS hr hp1 hp2 r1 hres r2 h1 h2 hh hq hM hp hg hc hgap hW hD hk hWN hN0 hN hN'
  | true =>
    have hq : Samples a c L fun k => -h (k + w) := hq
    have hq' : Samples a (-c) (fun k => (L k).flip) fun k => h (k + w) := by
      have := hq.neg
      simp only [Int.neg_neg] at this
      exact this
    obtain ⟨s', outs, Y, k1, k2, k3⟩ := heal_words hS hr hp1 hp2 r1 hres r2 h1 h2 hh hq' hM (ps := ps.map BusPacket.flip)
      (fun p hp' => by obtain ⟨p', hp'', rfl⟩ := List.mem_map.mp hp'; exact (hp p' hp'').flip)
      (by rw [flip_frames]; exact flip_gaps hg) (by rw [flip_frames]; exact hc.flip)
      (fun p hp' => by
        rw [List.head?_map] at hp'
        cases hps : ps.head? with
        | none => rw [hps] at hp'; cases hp'
        | some p' => rw [hps] at hp'; cases hp'; exact hgap p' hps)
      hW hD hk hWN hN0 (by rw [flip_frames, rawEnd_flip]; exact hN) (by rw [flip_frames, rawEnd_flip]; exact hN')
    refine ⟨s', outs, Y, k1, ?_, k3⟩
    rw [k2, List.flatMap_map]
    simp only [flip_bytes]

/-- **C125, after any history.** The same after any history of the receive side, e.g. one that ends with a reset that has changed which wire is negated: the samples of a line that is
silent for 1920 codes and then carries the packets `ps` may be taken as they are (`neg = false`) or all negated (`neg = true`); in both cases the words for the other core
are those of the packets, in order and exactly once, after a rest of the history. -/
theorem C125_either_polarity {S : Nat} (hS : 8 ≤ S) {ring : Nat → Int} (hr : SampleRange ring) {rxErr : Bool} {p1 p2 : List RxEv}
    (hp1 : ∀ e ∈ p1, e.InRange) (hp2 : ∀ e ∈ p2, e.InRange) {s1 s : RxSystem} {o1 o2 : List C1Out}
    (r1 : RxSystem.run S (RxSystem.init ring rxErr) p1 = .ok (s1, o1)) (hres : p1 = [] ∨ s1.core.word.result ≠ [])
    (r2 : s1.run S p2 = .ok (s, o2)) (neg : Bool)
    {a c : Int} (h1 : 49 ≤ a) (h2 : a ≤ 88) {L : Nat → Level} {h : Nat → Int} (hh : ∀ k, -255 ≤ h k ∧ h k ≤ 255) (hq : Samples a c L h)
    {M : Nat} (hM : arrivals p2 + M + 2200 ≤ 2 * 2 ^ S) {ps : List BusPacket} (hp : ∀ p ∈ ps, p.RawOk)
    (hg : ∀ b ∈ ps.flatMap BusPacket.frames, b.1 ≤ M) (hc : RawCarries L 0 (byteFrames (ps.flatMap BusPacket.frames)))
    (hgap : ∀ p, ps.head? = some p → 1920 ≤ p.gap) {W D : Nat} (hW : W = adcBlock - s.adc.tcHw) (hD : D = adcBlock - s.adc.tc)
    {es : List (AdcEv × Bool)} (hk : keepsUp 254 W D (es.map Prod.fst)) {N : Nat} (hWN : W + N = D + deliveries W D (es.map Prod.fst))
    (hN0 : 1920 ≤ N) (hN : rawEnd 0 (byteFrames (ps.flatMap BusPacket.frames)) + 378 ≤ N)
    (hN' : N ≤ rawEnd 0 (byteFrames (ps.flatMap BusPacket.frames)) + M) :
    ∃ s' outs Y, s.run S (scheduleEvents (fun k => if neg then -h (k - W) else h (k - W)) W D es) = .ok (s', outs) ∧
      sent outs ++ (if s'.core.word = .zero then [] else [s'.core.word]) =
        (if s.core.word = .zero then [] else [s.core.word]) ++ Y ++ (ps.flatMap fun p => wBusy :: (p.bytes.map wByte ++ [wFree])) ∧
      ((Y = [] ∧ s.core.busy = false) ∨ ∃ Y', Y = Y' ++ [wFree]) := by
  have hh' : SampleRange fun k => if neg then -h k else h k := fun k => by
    have := hh k
    show -256 ≤ (if neg = true then -h k else h k) ∧ (if neg = true then -h k else h k) ≤ 255
    split <;> omega
  refine heal_either (c := c) hS hr hp1 hp2 r1 hres r2 neg h1 h2 hh' (w := 0) ?_ hM hp hg hc hgap hW hD hk hWN hN0 hN hN'
  cases neg
  · exact hq
  · show Samples a c L fun k => - -h (k + 0)
    simp only [Int.neg_neg]
    exact hq

/-- A case: the packet 40 F0 (`rawLine`) sampled with the wires swapped. -/
example : ∃ q, SwappedCodes 60 127 rawLine q := by
  refine ⟨codesOf fun k => (rawLine k).flip, fun k => ?_⟩
  have := codesOf_ok (fun k => (rawLine k).flip) k
  dsimp only at this ⊢
  rw [Level.flip_sign, Int.mul_neg] at this
  split at this
  · next h2 => rw [if_pos h2]; omega
  · next h2 => rw [if_neg h2]; omega

/-- The same line, with a gap of 1920 codes, meets the hypotheses about `h` of `C125_either_polarity` (the rest is shown for C122). -/
example : Samples 60 127 rawLine (fun k => Pio.sampleValue k (rawCodes k)) ∧ ∀ k, -255 ≤ Pio.sampleValue k (rawCodes k) ∧ Pio.sampleValue k (rawCodes k) ≤ 255 := by
  refine ⟨fun k => ?_, fun k => ?_⟩
  · have := rawCodes_ok k
    dsimp only at this ⊢
    unfold Pio.sampleValue
    generalize (60 : Int) * (rawLine k).sign = z at *
    split at this
    · next h2 => rw [if_pos h2, if_pos h2]; omega
    · next h2 => rw [if_neg h2, if_neg h2]; omega
  · have := (rawCodes k).toNat_lt
    unfold Pio.sampleValue
    split <;> omega

end P1P2
