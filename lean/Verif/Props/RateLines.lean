import Verif.Props.Rate
/-!
# C142: from the codes of the ADC to the lines for the host, on the whole device
-/
namespace P1P2

theorem TwoCores.run_step {pf : Platform} {g : Nat → UInt8} {s s' t : TwoCores} {x : TwoStep} {xs : List TwoStep} {o : TwoOut} {os : List TwoOut}
    (h1 : s.step pf g x = .ok (some (s', o))) (h2 : s'.run pf g xs = .ok (some (t, os))) : s.run pf g (x :: xs) = .ok (some (t, o :: os)) := by
  rw [TwoCores.run, h1, Res.ok_bind]
  dsimp only
  rw [h2]; rfl

theorem nextSamples_two (h : Nat → Int) (W m n : Nat) : nextSamples h W (m + n) = nextSamples h W m ++ nextSamples h (W + m) n := by
  unfold nextSamples
  rw [List.range_add, List.map_append, List.map_map]
  congr 1
  apply List.map_congr_left
  intro i _
  show h (W + (m + i)) = h (W + m + i)
  rw [Nat.add_assoc]

theorem nextSamples_len (h : Nat → Int) (W n : Nat) : (nextSamples h W n).length = n := by simp [nextSamples]

theorem nextSamples_cut {h : Nat → Int} {W : Nat} {a b : List Int} (e : a ++ b = nextSamples h W (a ++ b).length) :
    a = nextSamples h W a.length ∧ b = nextSamples h (W + a.length) b.length := by
  rw [List.length_append, nextSamples_two] at e
  exact List.append_inj e (by rw [nextSamples_len])

theorem AdcInv.behind {ring h : Nat → Int} {g : Int} {W D : Nat} {a : Adc} (i : AdcInv ring h g W D a) : a.behind = W - D := by
  have h1 := i.hw; have h2 := i.tc; have h3 := i.wle; have h4 := i.dle
  unfold Adc.behind
  omega

/-- The words taken from the FIFO. -/
def takes (ys : List TwoStep) : List Word := ys.filterMap fun | .second e => e.word | _ => none

/-- A run of the device contains a run of the receive side and a run of the FIFO and the main loop, which agree on the words. -/
theorem board_parts {S : Nat} {pf : Platform} {g : Nat → UInt8} {ring h : Nat → Int} (hr : SampleRange ring) (hh : SampleRange h) : ∀ (xs : List BoardStep) {W D : Nat} {s t : Board}
    {os : List BoardOut}, s.run S pf g xs = .ok (some (t, os)) → AdcInv ring h 4992 W D s.rx.adc → s.rx.adc.err = false → s.rx.adc.behind ≤ 253 → (∀ o ∈ os, o.behind ≤ 253) →
    converted xs = nextSamples h W (converted xs).length → W + (converted xs).length < adcBlock →
    ∃ es c1s ys tos, s.rx.run S (scheduleEvents h W D es) = .ok (t.rx, c1s) ∧ keepsUp 254 W D (es.map Prod.fst) ∧
      D + deliveries W D (es.map Prod.fst) + t.rx.adc.behind = W + (converted xs).length ∧ s.main.run pf g ys = .ok (some (t.main, tos)) ∧ pushes ys = sent c1s ∧
      drops tos = os.countP BoardOut.dropped ∧ reportsOf tos = os.flatMap BoardOut.reports ∧ takes ys = taken xs := by
  intro xs
  induction xs with
  | nil =>
    intro W D s t os hrun i _ _ _ _ hW
    obtain ⟨rfl, rfl⟩ := Board.run_nil hrun
    refine ⟨[], [], [], [], rfl, ?_, ?_, rfl, rfl, rfl, rfl, rfl⟩
    · exact hW
    · rw [i.behind]
      have := i.dle
      show D + 0 + (W - D) = W + 0
      omega
  | cons x xs ih =>
    intro W D s t os hrun i he hb hbs hv hW
    obtain ⟨s', o, os', h1, h2, rfl⟩ := Board.run_cons hrun
    have hcv : converted (x :: xs) = x.values ++ converted xs := rfl
    rw [hcv] at hv hW ⊢
    obtain ⟨v1, v2⟩ := nextSamples_cut hv
    rw [List.length_append] at hW ⊢
    obtain ⟨hbo, hc⟩ := Board.step_ok h1
    have hb' : s'.rx.adc.behind ≤ 253 := by rw [← hbo]; exact hbs o (List.mem_cons_self ..)
    have hbs' : ∀ o ∈ os', o.behind ≤ 253 := fun o ho => hbs o (List.mem_cons_of_mem _ ho)
    have hbd := i.behind
    rcases hc with ⟨v, rfl, rfl, hrep, hd⟩ | ⟨late, c1, rfl, hidle, hrx, hc⟩ | ⟨y, to, hy, hrx, hm, hrep, hd⟩
    · -- a conversion
      have v1 : [v] = nextSamples h W 1 := v1
      have e1 : v = h W := by
        have : nextSamples h W 1 = [h W] := rfl
        rw [this] at v1
        simpa using v1
      have hl : (BoardStep.convert v).values.length = 1 := rfl
      rw [hl] at hW v2 ⊢
      obtain ⟨es, c1s, ys, tos, a1, a2, a3, a4, a5, a6, a7, a8⟩ := ih (W := W + 1) (D := D) h2 (by rw [e1]; exact i.write (by omega)) (by rw [← he]; exact write_err _ _) hb' hbs' v2 (by omega)
      refine ⟨(.write, true) :: es, c1s, ys, tos, ?_, ⟨by omega, a2⟩, ?_, a4, a5, ?_, ?_, a8⟩
      · show RxSystem.run S s.rx (.transfer (h W) :: scheduleEvents h (W + 1) D es) = _
        rw [RxSystem.run, RxSystem.step, Res.ok_bind, ← e1]
        dsimp only at a1 ⊢
        rw [a1]; rfl
      · show D + deliveries (W + 1) D (es.map Prod.fst) + t.rx.adc.behind = _
        rw [a3]; omega
      · rw [a6, List.countP_cons, hd]; rfl
      · rw [a7, List.flatMap_cons, hrep]; rfl
    · -- an iteration of core 1
      have hl : (BoardStep.receive late).values.length = late.length := rfl
      have v1 : late = nextSamples h W late.length := v1
      rw [hl] at hW v2 ⊢
      have hlift : ∀ (D' : Nat) (es : List (AdcEv × Bool)) (c1s : List C1Out) (ys : List TwoStep) (tos : List TwoOut),
          s'.main.run pf g ys = .ok (some (t.main, tos)) → pushes ys = sent c1s → drops tos = os'.countP BoardOut.dropped → reportsOf tos = os'.flatMap BoardOut.reports → takes ys = taken xs →
          ∃ ys' tos', s.main.run pf g ys' = .ok (some (t.main, tos')) ∧ pushes ys' = sent (c1 :: c1s) ∧
            drops tos' = (o :: os').countP BoardOut.dropped ∧ reportsOf tos' = (o :: os').flatMap BoardOut.reports ∧ takes ys' = taken xs := by
        intro D' es c1s ys tos a4 a5 a6 a7 a8
        rcases hc with ⟨w1, w2, w3, w4⟩ | ⟨w, to, w1, w2, w3, w4⟩
        · refine ⟨ys, tos, by rw [← w2]; exact a4, ?_, ?_, ?_, a8⟩
          · rw [a5, sent, sent, filterMap_cons', w1]; rfl
          · rw [a6, List.countP_cons, w4]; rfl
          · rw [a7, List.flatMap_cons, w3]; rfl
        · refine ⟨.push w :: ys, to :: tos, TwoCores.run_step w2 a4, ?_, ?_, ?_, a8⟩
          · rw [show pushes (.push w :: ys) = w :: pushes ys from rfl, a5, sent, sent, filterMap_cons', w1]; rfl
          · rw [List.countP_cons, w4, ← a6]
            simp [drops, List.countP_cons]
          · rw [List.flatMap_cons, w3, ← a7]; rfl
      by_cases hWD : W = D
      · subst hWD
        have hid : s.rx.adc.idle = true := by
          have g1 := i.hw; have g2 := i.tc
          unfold Adc.idle
          exact decide_eq_true (.inr (by omega))
        have hl0 := hidle hid
        subst hl0
        have hu := i.idle (by omega) []
        have hrx' : s.rx.step S (.iterate (decide (s.main.fifo.length < 8)) []) = (s.rx.core.step S { ready := decide (s.main.fifo.length < 8), adc := .none }).bind
            (fun c => .ok ({ adc := s.rx.adc, core := c.1 }, some c.2)) := by
          rw [RxSystem.step, hu]; rfl
        have hadc : s'.rx.adc = s.rx.adc := by
          rw [hrx', show ∀ (a : Res (Core1 × C1Out)) f, Res.bind a f = (a >>= f) from fun _ _ => rfl, Res.bind_eq_ok] at hrx
          obtain ⟨c, -, hrx⟩ := hrx
          simp only [Res.ok.injEq, Prod.mk.injEq] at hrx
          rw [← hrx.1]
        obtain ⟨es, c1s, ys, tos, a1, a2, a3, a4, a5, a6, a7, a8⟩ := ih (W := W) (D := W) h2 (by rw [hadc]; exact i) (by rw [hadc]; exact he) hb' hbs' (by simpa using v2) (by simpa using hW)
        obtain ⟨ys', tos', b1, b2, b3, b4, b5⟩ := hlift W es c1s ys tos a4 a5 a6 a7 a8
        refine ⟨(.poll 0, decide (s.main.fifo.length < 8)) :: es, c1 :: c1s, ys', tos', ?_, ?_, ?_, b1, b2, b3, b4, b5⟩
        · simp only [scheduleEvents, if_true, RxSystem.run]
          rw [hrx, Res.ok_bind, a1]; rfl
        · simp only [List.map_cons, keepsUp, if_true]
          exact ⟨by simp at hW; omega, a2⟩
        · simp only [List.map_cons, deliveries, if_true]
          rw [a3]; simp
      · have hDW : D < W := by have := i.dle; omega
        obtain ⟨a', v, p1, -, p3, p4⟩ := i.poll_any hr hh (by decide) (n := late.length) hDW (by omega) (by omega)
        rw [← v1] at p1
        have herr : a'.err = false := by
          rw [p4, he, Bool.false_or]
          exact decide_eq_false (by omega)
        have i2 : AdcInv ring h 4992 (W + late.length) (D + 1) a'.error.1 := ⟨p3.hw, p3.wle, p3.wp, p3.tc, p3.dle, p3.off, p3.gain, p3.data⟩
        have hadc : s'.rx.adc = a'.error.1 := by
          rw [RxSystem.step, p1, Res.ok_bind] at hrx
          simp only [Adc.error, herr, Bool.false_eq_true, if_false] at hrx
          rw [Res.bind_eq_ok] at hrx
          obtain ⟨c, -, hrx⟩ := hrx
          simp only [Res.ok.injEq, Prod.mk.injEq] at hrx
          rw [← hrx.1]; rfl
        have hbn := i2.behind
        rw [← hadc] at hbn
        obtain ⟨es, c1s, ys, tos, a1, a2, a3, a4, a5, a6, a7, a8⟩ := ih (W := W + late.length) (D := D + 1) h2 (by rw [hadc]; exact i2) (by rw [hadc]; rfl) hb' hbs' v2 (by omega)
        obtain ⟨ys', tos', b1, b2, b3, b4, b5⟩ := hlift (D + 1) es c1s ys tos a4 a5 a6 a7 a8
        refine ⟨(.poll late.length, decide (s.main.fifo.length < 8)) :: es, c1 :: c1s, ys', tos', ?_, ?_, ?_, b1, b2, b3, b4, b5⟩
        · simp only [scheduleEvents, if_neg hWD, RxSystem.run]
          rw [← v1, hrx, Res.ok_bind, a1]; rfl
        · simp only [List.map_cons, keepsUp, if_neg hWD]
          exact ⟨by omega, by omega, a2⟩
        · simp only [List.map_cons, deliveries, if_neg hWD]
          omega
    · -- the main loop
      have hval : x.values = [] := by
        rcases hy with ⟨rfl, -⟩ | ⟨e, rfl, -⟩ | ⟨e, rfl, -⟩ <;> rfl
      have hpu : ∀ ys, pushes (y :: ys) = pushes ys := by
        intro ys
        rcases hy with ⟨-, rfl⟩ | ⟨e, -, rfl⟩ | ⟨e, -, rfl⟩ <;> rfl
      rw [hval] at hW v2 ⊢
      obtain ⟨es, c1s, ys, tos, a1, a2, a3, a4, a5, a6, a7, a8⟩ := ih (W := W) (D := D) h2 (by rw [hrx]; exact i) (by rw [hrx]; exact he) hb' hbs' (by simpa using v2) (by simpa using hW)
      refine ⟨es, c1s, y :: ys, to :: tos, by rw [← hrx]; exact a1, a2, by rw [a3]; simp, TwoCores.run_step hm a4, by rw [hpu, a5], ?_, ?_, ?_⟩
      · rw [List.countP_cons, hd, ← a6]
        simp [drops, List.countP_cons]
      · rw [List.flatMap_cons, hrep, ← a7]; rfl
      · rcases hy with ⟨rfl, rfl⟩ | ⟨e, rfl, rfl⟩ | ⟨e, rfl, rfl⟩
        · exact a8
        · exact a8
        · unfold takes taken at a8 ⊢
          rw [List.filterMap_cons, List.filterMap_cons, a8]

/-- **C142.** From the codes of the ADC to the lines for the host, on the whole device, without any assumption on what happens inside: the bus carries the packets `ps` of at most 31 bytes as in
`C103`, the samples transferred are those of the codes; the receive core is never more than 253 conversions behind, the main loop is fast enough (C141); at the end everything that was converted has been
processed and the words were taken; the watchdog does not report.  Then the host was given exactly one line for each packet, in order, with status 0 and the bytes of the packet. -/
theorem C142_device {S : Nat} (hS : 9 ≤ S) (rxErr : Bool) {a c : Int} (h1 : 49 ≤ a) (h2 : a ≤ 88) {L : Nat → Level} {q : Nat → UInt8}
    (hq : Codes a c L q) {M : Nat} (hM : M + 70 ≤ 2 * 2 ^ S) (ps : List BusPacket) (hp : ∀ p ∈ ps, p.RawOk ∧ p.bytes.length ≤ 31)
    (hg : ∀ b ∈ ps.flatMap BusPacket.frames, b.1 ≤ M) (hc : RawCarries L 0 (byteFrames (ps.flatMap BusPacket.frames)))
    (pf : Platform) (g : Nat → UInt8) (w0 : Word) (t0 t1 : Nat) (xs : List BoardStep) (b : Board) (os : List BoardOut)
    (h : (Board.init (fun _ => 0) rxErr g w0 t0 t1).run S pf g xs = .ok (some (b, os)))
    (hv : converted xs = (List.range (converted xs).length).map fun k => Pio.sampleValue k (q k))
    (hN : rawEnd 0 (byteFrames (ps.flatMap BusPacket.frames)) + 378 ≤ (converted xs).length)
    (hN' : (converted xs).length ≤ rawEnd 0 (byteFrames (ps.flatMap BusPacket.frames)) + M) (hblock : (converted xs).length < adcBlock)
    (hb : ∀ o ∈ os, o.behind ≤ 253) (hf : FastEnough xs)
    (he : b.rx.adc.behind = 0 ∧ b.rx.core.word = .zero ∧ b.main.fifo = [] ∧ b.main.pc = .top) (h4 : ∀ m ∈ rxMsgs (os.flatMap BoardOut.reports), m.status ≠ 4) :
    (rxMsgs (os.flatMap BoardOut.reports)).map lineShown = ps.map fun p => (0, p.bytes) := by
  have hr : SampleRange fun k => Pio.sampleValue k (q k) := fun k => C41_conversion k (q k)
  have h0 : SampleRange fun _ => 0 := fun _ => by show (-256 : Int) ≤ 0 ∧ (0 : Int) ≤ 255; decide
  obtain ⟨d1, -, -⟩ := C141_no_overflow hS _ rxErr pf g w0 t0 t1 xs b os h (fun o ho => Nat.le_succ_of_le (hb o ho)) hf
  have hv' : converted xs = nextSamples (fun k => Pio.sampleValue k (q k)) 0 (converted xs).length := by
    rw [nextSamples]
    simp only [Nat.zero_add]
    exact hv
  obtain ⟨es, c1s, ys, tos, a1, a2, a3, a4, a5, a6, a7, -⟩ := board_parts (S := S) (pf := pf) (g := g) h0 hr xs (W := 0) (D := 0) h (AdcInv.start _ _ 426) rfl (by rw [behind_init]; decide) hb hv' (by omega)
  have hdel : deliveries 0 0 (es.map Prod.fst) = (converted xs).length := by omega
  have hdrop : drops tos = 0 := by
    rw [a6, List.countP_eq_zero]
    intro o ho
    rw [d1 o ho]; decide
  rw [← a7] at h4 ⊢
  exact C105_codes_to_lines (by omega) rxErr h1 h2 hq hM ps hp hg hc es a2 (by rw [hdel]; exact hN) (by rw [hdel]; exact hN') b.rx c1s a1 he.2.1 pf g w0 t0 t1 b.main ys tos a5 a4 hdrop
    he.2.2.2 he.2.2.1 h4

end P1P2
