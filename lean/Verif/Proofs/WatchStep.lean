import Verif.Proofs.Watch
/-!
# The watchdog of the bus: an invariant of the device
-/
namespace P1P2

/-- The word core 1 has not handed over yet. -/
def Board.pending (s : Board) : List Word := if s.rx.core.word = .zero then [] else [s.rx.core.word]

/-- What a step does to the ring of the ADC. -/
theorem adc_step {S : Nat} {pf : Platform} {g : Nat → UInt8} {ring h : Nat → Int} (hr : SampleRange ring) (hh : SampleRange h) {W D : Nat} {s s' : Board} {x : BoardStep} {o : BoardOut}
    (hs : s.step S pf g x = .ok (some (s', o))) (i : AdcInv ring h 4992 W D s.rx.adc) (he : s.rx.adc.err = false) (hb : s.rx.adc.behind ≤ 253) (hb' : s'.rx.adc.behind ≤ 253)
    (hv : x.values = nextSamples h W x.values.length) (hW : W + x.values.length < adcBlock) :
    ∃ D', AdcInv ring h 4992 (W + x.values.length) D' s'.rx.adc ∧ s'.rx.adc.err = false ∧ D' ≤ D + 1 ∧ ((∀ l, x ≠ .receive l) → D' = D) ∧ x.values.length ≤ 254 := by
  obtain ⟨-, hc⟩ := Board.step_ok hs
  have hbd := i.behind
  rcases hc with ⟨v, rfl, rfl, -, -⟩ | ⟨late, c1, rfl, hidle, hrx, -⟩ | ⟨y, to, hy, hrx, -, -, -⟩
  · have v1 : [v] = nextSamples h W 1 := hv
    have e1 : v = h W := by
      have : nextSamples h W 1 = [h W] := rfl
      rw [this] at v1
      simpa using v1
    have hl : (BoardStep.convert v).values.length = 1 := rfl
    rw [hl] at hW ⊢
    exact ⟨D, by rw [e1]; exact i.write (by omega), by rw [← he]; exact write_err _ _, by omega, fun _ => rfl, by omega⟩
  · have hl : (BoardStep.receive late).values.length = late.length := rfl
    have v1 : late = nextSamples h W late.length := hv
    rw [hl] at hW ⊢
    by_cases hWD : W = D
    · subst hWD
      have hid : s.rx.adc.idle = true := by
        have g1 := i.hw; have g2 := i.tc
        unfold Adc.idle
        exact decide_eq_true (.inr (by omega))
      have hl0 := hidle hid
      subst hl0
      have hu := i.idle (by omega) []
      have hadc : s'.rx.adc = s.rx.adc := by
        rw [RxSystem.step, hu, Res.ok_bind] at hrx
        dsimp only at hrx
        rw [Res.bind_eq_ok] at hrx
        obtain ⟨c, -, hrx⟩ := hrx
        simp only [Res.ok.injEq, Prod.mk.injEq] at hrx
        rw [← hrx.1]
      rw [hadc]
      exact ⟨W, i, he, by omega, fun _ => rfl, by simp⟩
    · have hDW : D < W := by have := i.dle; omega
      obtain ⟨a', v, p1, -, p3, p4⟩ := i.poll_any hr hh (by decide) (n := late.length) hDW (by omega) (by omega)
      rw [← v1] at p1
      have herr : a'.err = false := by
        rw [p4, he, Bool.false_or]
        exact decide_eq_false (by omega)
      have i2 : AdcInv ring h 4992 (W + late.length) (D + 1) a'.error.1 := ⟨p3.hw, p3.wle, p3.wp, p3.tc, p3.dle, p3.off, p3.gain, p3.data⟩
      have hadc : s'.rx.adc = a'.error.1 := by
        rw [RxSystem.step, p1, Res.ok_bind] at hrx
        simp only [Adc.error, herr, Bool.false_eq_true, if_false] at hrx
        rw [Res.bind_eq_ok] at hrx
        obtain ⟨c, -, hrx⟩ := hrx
        simp only [Res.ok.injEq, Prod.mk.injEq] at hrx
        rw [← hrx.1]; rfl
      have hbn := i2.behind
      rw [← hadc] at hbn
      rw [hadc]
      exact ⟨D + 1, i2, rfl, by omega, fun hx => absurd rfl (hx late), by omega⟩
  · have hval : x.values = [] := by
      rcases hy with ⟨rfl, -⟩ | ⟨e, rfl, -⟩ | ⟨e, rfl, -⟩ <;> rfl
    rw [hval, hrx]
    exact ⟨D, i, he, by omega, fun _ => rfl, by simp⟩

/-- The words taken, in the FIFO and not handed over are those that came with the samples processed. -/
theorem board_words {S : Nat} (hS : 9 ≤ S) {rxErr : Bool} {q : Nat → UInt8} {ts : List (Nat × Word)} {K : Nat}
    (hT : ∀ N, N ≤ K → ∃ t tr, (C1Tail.init rxErr).run S ((List.range ((N + 1) / 2)).map (rawZ q)) = .ok (t, tr) ∧ nonzero (tr.map AcOut.word) = comeBy ts N)
    {pf : Platform} {g : Nat → UInt8} {w0 : Word} {t0 t1 : Nat} {xs : List BoardStep} {b : Board} {os : List BoardOut}
    (h : (Board.init (fun _ => 0) rxErr g w0 t0 t1).run S pf g xs = .ok (some (b, os)))
    (hv : converted xs = nextSamples (fun k => Pio.sampleValue k (q k)) 0 (converted xs).length) (hK : (converted xs).length ≤ K) (hblock : (converted xs).length < adcBlock)
    (hb : ∀ o ∈ os, o.behind ≤ 253) (hf : FastEnough xs) {D : Nat} (i : AdcInv (fun _ => 0) (fun k => Pio.sampleValue k (q k)) 4992 (converted xs).length D b.rx.adc) :
    taken xs ++ b.main.fifo ++ b.pending = comeBy ts D := by
  have hr : SampleRange fun k => Pio.sampleValue k (q k) := fun k => C41_conversion k (q k)
  have h0 : SampleRange fun _ => 0 := fun _ => by show (-256 : Int) ≤ 0 ∧ (0 : Int) ≤ 255; decide
  obtain ⟨d1, -, -⟩ := C141_no_overflow hS _ rxErr pf g w0 t0 t1 xs b os h (fun o ho => Nat.le_succ_of_le (hb o ho)) hf
  obtain ⟨es, c1s, ys, tos, a1, a2, a3, a4, a5, a6, -, a8⟩ := board_parts (S := S) (pf := pf) (g := g) h0 hr xs (W := 0) (D := 0) h (AdcInv.start _ _ 426) rfl (by rw [behind_init]; decide) hb hv (by omega)
  have hdrop : drops tos = 0 := by
    rw [a6, List.countP_eq_zero]
    intro o ho
    rw [d1 o ho]; decide
  have hD : deliveries 0 0 (es.map Prod.fst) = D := by
    have := i.behind; have := i.dle
    omega
  obtain ⟨t, tr, t1', t2⟩ := hT (deliveries 0 0 (es.map Prod.fst)) (by have := i.dle; omega)
  obtain ⟨s', outs, s1, s2⟩ := words_of_tail (by omega) rxErr q es a2 t1'
  have a1 : RxSystem.run S (RxSystem.init (fun _ => 0) rxErr) (scheduleEvents (fun k => Pio.sampleValue k (q k)) 0 0 es) = .ok (b.rx, c1s) := a1
  rw [a1] at s1
  simp only [Res.ok.injEq, Prod.mk.injEq] at s1
  obtain ⟨rfl, rfl⟩ := s1
  have hfw := fifo_words ys a4 hdrop
  have hfw : pushes ys = takes ys ++ b.main.fifo := hfw
  rw [← a8, ← hfw, a5]
  rw [hD] at t2
  exact s2.trans t2

end P1P2
