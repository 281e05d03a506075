import Verif.Props.Core1
/-!
# C101: which samples the receive core processes, and recovery from an overrun
-/
namespace P1P2

/-! ## Specification

`h k` is the `k`-th sample the DMA transfers after the ADC was (re)started.  A schedule interleaves transfers and
iterations of the loop of core 1 (with the number of samples arriving during the iteration and the state of the FIFO). -/

/-- The events of a schedule, `W` samples transferred and `D` processed before. -/
def scheduleEvents (h : Nat → Int) : Nat → Nat → List (AdcEv × Bool) → List RxEv
  | _, _, [] => []
  | W, D, (.write, _) :: es => .transfer (h W) :: scheduleEvents h (W + 1) D es
  | W, D, (.poll n, r) :: es =>
    if W = D then .iterate r [] :: scheduleEvents h W D es
    else .iterate r (nextSamples h W n) :: scheduleEvents h (W + n) (D + 1) es

/-- What the loop of core 1 has to see: nothing while no sample is waiting, and otherwise the reference value of the
next sample, every sample once and in order. -/
def idealInputs (gain : Int) (y : Int → Int) : Nat → Nat → List (AdcEv × Bool) → List C1In
  | _, _, [] => []
  | W, D, (.write, _) :: es => idealInputs gain y (W + 1) D es
  | W, D, (.poll n, r) :: es =>
    if W = D then { ready := r, adc := .none } :: idealInputs gain y W D es
    else { ready := r, adc := .sample (adcRef gain y D) } :: idealInputs gain y (W + n) (D + 1) es

/-! ## Proof -/

theorem write_err (a : Adc) (v : Int) : (a.write v).err = a.err := by
  unfold Adc.write
  split <;> rfl

theorem schedule_run {S : Nat} {ring h : Nat → Int} {g : Int} (hr : SampleRange ring) (hh : SampleRange h)
    (hg : 0 ≤ g ∧ g ≤ 767988) (es : List (AdcEv × Bool)) : ∀ {W D : Nat} {s : RxSystem}, AdcInv ring h g W D s.adc →
    s.adc.err = false → keepsUp 254 W D (es.map Prod.fst) →
    ∃ a, AdcInv ring h g (written W D (es.map Prod.fst)) (D + deliveries W D (es.map Prod.fst)) a ∧ a.err = false ∧
      s.run S (scheduleEvents h W D es) =
        (s.core.run S (idealInputs g (adcHist ring h) W D es)).bind (fun r => .ok ({ adc := a, core := r.1 }, r.2)) := by
  induction es with
  | nil => intro W D s i he _; exact ⟨s.adc, i, he, rfl⟩
  | cons e es ih =>
    intro W D s i he hk
    obtain ⟨e, r⟩ := e
    cases e with
    | write =>
      obtain ⟨a, j, je, h1⟩ := ih (s := { s with adc := s.adc.write (h W) }) (i.write hk.1) (by rw [write_err]; exact he) hk.2
      refine ⟨a, j, je, ?_⟩
      simp only [scheduleEvents, idealInputs, RxSystem.run, RxSystem.step, Res.ok_bind, h1]
      cases Core1.run S s.core (idealInputs g (adcHist ring h) (W + 1) D es) <;> rfl
    | poll n =>
      by_cases hWD : W = D
      · subst hWD
        simp only [List.map_cons, keepsUp, if_true] at hk
        have hu := i.idle hk.1 []
        have hcore : ∃ c o, s.core.step S { ready := r, adc := .none } = .ok (c, o) := ⟨_, _, rfl⟩
        obtain ⟨c, o, hc⟩ := hcore
        obtain ⟨a, j, je, h1⟩ := ih (s := { s with core := c }) i he hk.2
        refine ⟨a, by simpa [written, deliveries] using j, je, ?_⟩
        simp only [scheduleEvents, idealInputs, if_true, RxSystem.run, Core1.run, RxSystem.step, hu, Res.ok_bind, hc, h1]
        cases Core1.run S c (idealInputs g (adcHist ring h) W W es) <;> rfl
      · simp only [List.map_cons, keepsUp, if_neg hWD] at hk
        have hd := i.dle
        obtain ⟨a1, p1, p2, p3⟩ := i.poll hr hh hg (n := n) (by omega) hk.1 hk.2.1
        rw [he] at p3
        have i2 : AdcInv ring h g (W + n) (D + 1) a1.error.1 :=
          ⟨p2.hw, p2.wle, p2.wp, p2.tc, p2.dle, p2.off, p2.gain, p2.data⟩
        have hcast : ∀ a, AdcInv ring h g (written (W + n) (D + 1) (es.map Prod.fst))
            (D + 1 + deliveries (W + n) (D + 1) (es.map Prod.fst)) a →
            AdcInv ring h g (written W D (((.poll n, r) :: es).map Prod.fst))
              (D + deliveries W D (((.poll n, r) :: es).map Prod.fst)) a := by
          intro a j
          rw [List.map_cons, deliveries, if_neg hWD, ← Nat.add_assoc, written, if_neg hWD]
          exact j
        cases hc : s.core.step S { ready := r, adc := .sample (adcRef g (adcHist ring h) D) } with
        | ub =>
          obtain ⟨a, j, je, -⟩ := ih (s := { adc := a1.error.1, core := s.core }) i2 rfl hk.2.2
          refine ⟨a, hcast a j, je, ?_⟩
          simp only [scheduleEvents, idealInputs, if_neg hWD, RxSystem.run, Core1.run, RxSystem.step, p1, Res.ok_bind, hc,
            Adc.error, p3]
          rfl
        | ok co =>
          obtain ⟨c, o⟩ := co
          obtain ⟨a, j, je, h1⟩ := ih (s := { adc := a1.error.1, core := c }) i2 rfl hk.2.2
          refine ⟨a, hcast a j, je, ?_⟩
          have hstep : s.step S (.iterate r (nextSamples h W n)) = .ok ({ adc := a1.error.1, core := c }, some o) := by
            simp only [RxSystem.step, p1, Res.ok_bind, Adc.error, p3, hc]
            rfl
          simp only [scheduleEvents, idealInputs, if_neg hWD, RxSystem.run, Core1.run, hstep, Res.ok_bind, hc, h1]
          cases Core1.run S c (idealInputs g (adcHist ring h) (W + n) (D + 1) es) <;> rfl

/-- **C101.** From the start, as long as the loop keeps up (at most 254 samples behind, within a block), the receive side
does exactly what the loop of core 1 does when it is given the reference values of samples 0, 1, 2, ... one by one:
same words, same dropped words, no reset. -/
theorem C101_samples {S : Nat} (ring h : Nat → Int) (hr : SampleRange ring) (hh : SampleRange h) (rxErr : Bool)
    (es : List (AdcEv × Bool)) (hk : keepsUp 254 0 0 (es.map Prod.fst)) :
    ∃ a, RxSystem.run S (RxSystem.init ring rxErr) (scheduleEvents h 0 0 es) =
      ((Core1.init rxErr).run S (idealInputs 4992 (adcHist ring h) 0 0 es)).bind
        (fun r => .ok ({ adc := a, core := r.1 }, r.2)) := by
  obtain ⟨a, -, -, e⟩ := schedule_run (S := S) (s := RxSystem.init ring rxErr) hr hh (by decide) es (AdcInv.start ring h 426) rfl hk
  exact ⟨a, e⟩

theorem AdcInv.restart {a : Adc} (h : Nat → Int) : AdcInv a.data h a.gain 0 0 a.restart := by
  refine ⟨rfl, by decide, rfl, rfl, Nat.le_refl _, rfl, rfl, ?_⟩
  intro j h1 h2
  show a.data _ = _
  unfold adcHist
  rw [if_pos (by omega)]
  congr 1
  omega

theorem run_snoc {S : Nat} (e : RxEv) : ∀ (es : List RxEv) {s s' : RxSystem} {outs : List C1Out},
    s.run S (es ++ [e]) = .ok (s', outs) → ∃ s1 o1 o2, s.run S es = .ok (s1, o1) ∧ s1.step S e = .ok (s', o2) ∧
      outs = o1 ++ o2.toList := by
  intro es
  induction es with
  | nil =>
    intro s s' outs h
    rw [List.nil_append, RxSystem.run, Res.bind_eq_ok] at h
    obtain ⟨⟨s1, o⟩, h1, h⟩ := h
    simp only [RxSystem.run, Res.ok_bind, Res.ok.injEq, Prod.mk.injEq] at h
    exact ⟨s, [], o, rfl, by rw [← h.1]; exact h1, by simp [← h.2]⟩
  | cons x es ih =>
    intro s s' outs h
    rw [List.cons_append, RxSystem.run, Res.bind_eq_ok] at h
    obtain ⟨⟨s1, o⟩, h1, h⟩ := h
    rw [Res.bind_eq_ok] at h
    obtain ⟨⟨s2, l⟩, h2, h⟩ := h
    simp only [Res.ok.injEq, Prod.mk.injEq] at h
    obtain ⟨rfl, h3⟩ := h
    obtain ⟨s3, o1, o2, g1, g2, g3⟩ := ih h2
    refine ⟨s3, o.toList ++ o1, o2, ?_, g2, ?_⟩
    · simp only [RxSystem.run, h1, Res.ok_bind, g1]
    · rw [← h3]; show o.toList ++ l = _; rw [g3, List.append_assoc]

theorem run_ok_inv {S : Nat} (hS : 8 ≤ S) : ∀ (es : List RxEv) {s s' : RxSystem} {outs : List C1Out},
    (∀ e ∈ es, e.InRange) → s.adc.Ok → s.core.Ok S → s.run S es = .ok (s', outs) → s'.adc.Ok ∧ s'.core.Ok S := by
  intro es
  induction es with
  | nil =>
    intro s s' outs _ ha hc h
    simp only [RxSystem.run, Res.ok.injEq, Prod.mk.injEq] at h
    exact h.1 ▸ ⟨ha, hc⟩
  | cons e es ih =>
    intro s s' outs he ha hc h
    obtain ⟨s1, o, h1, h2, h3⟩ := rx_step_ok hS ha hc (he e (List.mem_cons_self ..))
    rw [RxSystem.run, h1, Res.ok_bind, Res.bind_eq_ok] at h
    obtain ⟨⟨s2, l⟩, h4, h⟩ := h
    simp only [Res.ok.injEq, Prod.mk.injEq] at h
    obtain ⟨rfl, -⟩ := h
    exact ih (fun x hx => he x (List.mem_cons_of_mem _ hx)) h2 h3 h4

/-- An iteration that resets the ADC leaves it restarted and without error. -/
theorem step_reset {S : Nat} {s s' : RxSystem} {r : Bool} {late : List Int} {o : C1Out}
    (h : s.step S (.iterate r late) = .ok (s', some o)) (ho : o.reset = true) :
    ∃ a, s'.adc = Adc.restart a ∧ a.err = false := by
  rw [RxSystem.step, Res.bind_eq_ok] at h
  obtain ⟨⟨a, v⟩, -, h⟩ := h
  cases v with
  | none =>
    simp only at h
    rw [Res.bind_eq_ok] at h
    obtain ⟨⟨c, o1⟩, q, h⟩ := h
    simp only [Res.ok.injEq, Prod.mk.injEq, Option.some.injEq] at h
    obtain ⟨-, rfl⟩ := h
    simp only [Core1.step, Res.ok.injEq, Prod.mk.injEq] at q
    rw [← q.2] at ho
    cases ho
  | some v =>
    simp only at h
    split at h
    · rw [Res.bind_eq_ok] at h
      obtain ⟨⟨c, o1⟩, q, h⟩ := h
      simp only [Res.ok.injEq, Prod.mk.injEq] at h
      exact ⟨a.error.1, by rw [← h.1]; rfl, rfl⟩
    · rw [Res.bind_eq_ok] at h
      obtain ⟨⟨c, o1⟩, q, h⟩ := h
      simp only [Res.ok.injEq, Prod.mk.injEq, Option.some.injEq] at h
      obtain ⟨-, rfl⟩ := h
      rw [Core1.step, Res.bind_eq_ok] at q
      obtain ⟨c1, -, q⟩ := q
      simp only [Res.ok.injEq, Prod.mk.injEq] at q
      rw [← q.2] at ho
      cases ho

/-- **C101, recovery.** After any history that ends with an iteration resetting the ADC because of an overrun, the
receive side does, as long as the loop keeps up again, exactly what the loop of core 1 does when it is given the
reference values of the samples transferred since then, each once and in order. -/
theorem C101_recovery {S : Nat} (hS : 8 ≤ S) (ring : Nat → Int) (hr : SampleRange ring) (rxErr : Bool)
    (past : List RxEv) (r : Bool) (late : List Int) (hp : ∀ e ∈ past ++ [.iterate r late], e.InRange) (s : RxSystem)
    (outs : List C1Out) (o : C1Out)
    (hrun : RxSystem.run S (RxSystem.init ring rxErr) (past ++ [.iterate r late]) = .ok (s, outs))
    (hlast : outs.getLast? = some o) (hreset : o.reset = true)
    (h : Nat → Int) (hh : SampleRange h) (es : List (AdcEv × Bool)) (hk : keepsUp 254 0 0 (es.map Prod.fst)) :
    ∃ a, s.run S (scheduleEvents h 0 0 es) =
      (s.core.run S (idealInputs 4992 (adcHist s.adc.data h) 0 0 es)).bind (fun q => .ok ({ adc := a, core := q.1 }, q.2)) := by
  have hok := run_ok_inv hS _ hp (s := RxSystem.init ring rxErr) ⟨hr, rfl⟩ (Core1.Ok.init S rxErr) hrun
  obtain ⟨s1, o1, o2, g1, g2, g3⟩ := run_snoc _ _ hrun
  have hcase : ∃ x, o2 = some x := by
    cases o2 with
    | some x => exact ⟨x, rfl⟩
    | none =>
      rw [RxSystem.step, Res.bind_eq_ok] at g2
      obtain ⟨⟨a, v⟩, -, g2⟩ := g2
      cases v with
      | none =>
        simp only at g2
        rw [Res.bind_eq_ok] at g2
        obtain ⟨⟨c, o1⟩, q, g2⟩ := g2
        simp at g2
      | some v =>
        simp only at g2
        split at g2
        · rw [Res.bind_eq_ok] at g2
          obtain ⟨⟨c, o1⟩, q, g2⟩ := g2
          simp at g2
        · rw [Res.bind_eq_ok] at g2
          obtain ⟨⟨c, o1⟩, q, g2⟩ := g2
          simp at g2
  obtain ⟨x, rfl⟩ := hcase
  have hx : x = o := by
    rw [g3] at hlast
    simpa using hlast
  subst hx
  obtain ⟨a, ha, hae⟩ := step_reset g2 hreset
  have hgain : s.adc.gain = 4992 := hok.1.gain
  have hi : AdcInv s.adc.data h 4992 0 0 s.adc := by
    rw [← hgain, ha]
    exact AdcInv.restart h
  have he : s.adc.err = false := by rw [ha]; exact hae
  obtain ⟨a, -, -, e⟩ := schedule_run (S := S) hok.1.data hh (by decide) es hi he hk
  exact ⟨a, e⟩

theorem stall_run {S : Nat} {ring h : Nat → Int} {g : Int} (n : Nat) : ∀ {W D : Nat} {s : RxSystem},
    AdcInv ring h g W D s.adc → W + n ≤ adcBlock →
    ∃ a, AdcInv ring h g (W + n) D a ∧ s.run S ((nextSamples h W n).map .transfer) = .ok ({ adc := a, core := s.core }, []) := by
  induction n with
  | zero => intro W D s i _; exact ⟨s.adc, i, rfl⟩
  | succ n ih =>
    intro W D s i hn
    obtain ⟨a, h1, h2⟩ := ih (s := { s with adc := s.adc.write (h W) }) (i.write (by omega)) (by omega)
    refine ⟨a, by rw [show W + (n + 1) = W + 1 + n by omega]; exact h1, ?_⟩
    have e : nextSamples h W (n + 1) = h W :: nextSamples h (W + 1) n := by
      unfold nextSamples
      rw [List.range_succ_eq_map, List.map_cons, List.map_map]
      congr 1
      apply List.map_congr_left
      intro k _
      show h (W + (k + 1)) = h (W + 1 + k)
      rw [show W + (k + 1) = W + 1 + k by omega]
    rw [e, List.map_cons, RxSystem.run]
    simp only [RxSystem.step, Res.ok_bind, h2]
    rfl

/-- **C101, detection.** When the loop, having kept up so far, then stalls while `n` samples arrive, so that at least 256
samples wait, its next iteration resets the ADC, and the iteration after that reports the overrun to the other core. -/
theorem C101_detection {S : Nat} (hS : 8 ≤ S) (ring h : Nat → Int) (hr : SampleRange ring) (hh : SampleRange h) (rxErr : Bool)
    (es : List (AdcEv × Bool)) (hk : keepsUp 254 0 0 (es.map Prod.fst)) (n : Nat)
    (hlag : deliveries 0 0 (es.map Prod.fst) + 256 ≤ written 0 0 (es.map Prod.fst) + n)
    (hblock : written 0 0 (es.map Prod.fst) + n < adcBlock) (r r' : Bool) (late : List Int) (hlate : ∀ v ∈ late, -256 ≤ v ∧ v ≤ 255) :
    ∃ s outs o o', RxSystem.run S (RxSystem.init ring rxErr) (scheduleEvents h 0 0 es ++
        (nextSamples h (written 0 0 (es.map Prod.fst)) n).map .transfer ++ [.iterate r [], .iterate r' late]) =
        .ok (s, outs ++ [o, o']) ∧ o.reset = true ∧ ∃ w, o'.word = some w ∧ w.dadcError = true := by
  obtain ⟨a, i, he, e⟩ := schedule_run (S := S) (s := RxSystem.init ring rxErr) hr hh (by decide) es
    (AdcInv.start ring h 426) rfl hk
  have happ : ∀ (xs ys : List RxEv) (s s1 : RxSystem) (o1 : List C1Out), s.run S xs = .ok (s1, o1) →
      s.run S (xs ++ ys) = (s1.run S ys).bind (fun q => .ok (q.1, o1 ++ q.2)) := by
    intro xs ys
    induction xs with
    | nil =>
      intro s s1 o1 hx
      simp only [RxSystem.run, Res.ok.injEq, Prod.mk.injEq] at hx
      obtain ⟨rfl, rfl⟩ := hx
      rw [List.nil_append]
      cases s.run S ys <;> rfl
    | cons x xs ih =>
      intro s s1 o1 hx
      rw [RxSystem.run, Res.bind_eq_ok] at hx
      obtain ⟨⟨s2, o2⟩, h1, hx⟩ := hx
      rw [Res.bind_eq_ok] at hx
      obtain ⟨⟨s3, o3⟩, h2, hx⟩ := hx
      simp only [Res.ok.injEq, Prod.mk.injEq] at hx
      obtain ⟨rfl, rfl⟩ := hx
      rw [List.cons_append, RxSystem.run, h1]
      simp only [Res.ok_bind]
      rw [ih _ _ _ h2]
      cases s3.run S ys with
      | ub => rfl
      | ok q => simp [Res.bind]
  have hev : ∀ (es : List (AdcEv × Bool)) (W D : Nat), ∀ x ∈ scheduleEvents h W D es, x.InRange := by
    intro es
    induction es with
    | nil => intro W D x hx; cases hx
    | cons e es ih =>
      intro W D x hx
      obtain ⟨e, b⟩ := e
      cases e with
      | write =>
        rcases List.mem_cons.1 hx with rfl | hx
        · exact hh W
        · exact ih _ _ x hx
      | poll m =>
        rw [scheduleEvents] at hx
        split at hx
        · rcases List.mem_cons.1 hx with rfl | hx
          · exact fun v hv => by cases hv
          · exact ih _ _ x hx
        · rcases List.mem_cons.1 hx with rfl | hx
          · intro v hv
            obtain ⟨k, -, rfl⟩ := List.mem_map.1 hv
            exact hh _
          · exact ih _ _ x hx
  obtain ⟨s0, o0, hs0⟩ := C41_no_undefined hS ring hr rxErr _ (hev es 0 0)
  have hc : ∃ c, s0 = { adc := a, core := c } := by
    rw [e] at hs0
    cases hq : Core1.run S (RxSystem.init ring rxErr).core (idealInputs (adcGain 426) (adcHist ring h) 0 0 es) with
    | ub => rw [hq] at hs0; cases hs0
    | ok q =>
      rw [hq] at hs0
      simp only [Res.bind, Res.ok.injEq, Prod.mk.injEq] at hs0
      exact ⟨q.1, hs0.1.symm⟩
  obtain ⟨c, rfl⟩ := hc
  obtain ⟨a2, i2, e2⟩ := stall_run (S := S) n (s := { adc := a, core := c }) i (by omega)
  have hx := happ _ ((nextSamples h (written 0 0 (es.map Prod.fst)) n).map .transfer) _ _ _ hs0
  rw [e2] at hx
  simp only [Res.bind, List.append_nil] at hx
  rw [Nat.zero_add] at i2
  obtain ⟨a3, v, p1, -, -, p2⟩ := i2.poll_any hr hh (by decide) (n := 0) (by omega) hblock (by omega)
  have hu : nextSamples h (written 0 0 (es.map Prod.fst) + n) 0 = [] := rfl
  rw [hu] at p1
  rw [decide_eq_true (by omega)] at p2
  have p2 : a3.err = true := by rw [p2]; simp
  have hs1 : ∃ s1 o1, RxSystem.step S { adc := a2, core := c } (.iterate r []) = .ok (s1, some o1) ∧ o1.reset = true ∧
      s1.core.word.dadcError = true := by
    refine ⟨{ adc := a3.error.1.reset, core := { (c.send r).1 with word := { (c.send r).1.word with dadcError := true } } },
      { word := (c.send r).2.1, dropped := (c.send r).2.2, reset := true }, ?_, rfl, rfl⟩
    simp only [RxSystem.step, p1, Res.ok_bind, Adc.error, p2, if_true, Core1.step]
  obtain ⟨s1, o1, q1, q2, q3⟩ := hs1
  have hall : ∀ x ∈ scheduleEvents h 0 0 es ++ (nextSamples h (written 0 0 (es.map Prod.fst)) n).map .transfer, x.InRange := by
    intro x hx
    rcases List.mem_append.1 hx with hx | hx
    · exact hev es 0 0 x hx
    · obtain ⟨v, hv, rfl⟩ := List.mem_map.1 hx
      obtain ⟨k, -, rfl⟩ := List.mem_map.1 hv
      exact hh _
  have hok := run_ok_inv hS _ hall (s := RxSystem.init ring rxErr) ⟨hr, rfl⟩ (Core1.Ok.init S rxErr) hx
  obtain ⟨s', o', z1, z2, z3⟩ := rx_step_ok hS hok.1 hok.2 (e := .iterate r []) (fun v hv => by cases hv)
  rw [q1] at z1
  simp only [Res.ok.injEq, Prod.mk.injEq] at z1
  obtain ⟨rfl, -⟩ := z1
  obtain ⟨s2, o2, z4, -, -⟩ := rx_step_ok hS z2 z3 (e := .iterate r' late) hlate
  have hraw : s1.core.word.raw ≠ 0 := by
    intro h0
    rw [C52_zero] at h0
    rw [h0] at q3
    cases q3
  have hword : ∃ x, o2 = some x ∧ x.word = some s1.core.word := by
    have hsend := send_word hraw r'
    rw [RxSystem.step, Res.bind_eq_ok] at z4
    obtain ⟨⟨b, v⟩, -, z4⟩ := z4
    have fin : ∀ (j : C1In) (c' : Core1) (x : C1Out), j.ready = r' → s1.core.step S j = .ok (c', x) → x.word = some s1.core.word := by
      intro j c' x hj hx
      cases ha : j.adc with
      | none =>
        simp only [Core1.step, ha, Res.ok.injEq, Prod.mk.injEq, hj] at hx
        rw [← hx.2]; exact hsend
      | error =>
        simp only [Core1.step, ha, Res.ok.injEq, Prod.mk.injEq, hj] at hx
        rw [← hx.2]; exact hsend
      | sample v =>
        simp only [Core1.step, ha, hj] at hx
        rw [Res.bind_eq_ok] at hx
        obtain ⟨c1, -, hx⟩ := hx
        simp only [Res.ok.injEq, Prod.mk.injEq] at hx
        rw [← hx.2]; exact hsend
    cases v with
    | none =>
      simp only at z4
      rw [Res.bind_eq_ok] at z4
      obtain ⟨⟨c', x⟩, q, z4⟩ := z4
      simp only [Res.ok.injEq, Prod.mk.injEq] at z4
      exact ⟨x, z4.2.symm, fin _ _ _ rfl q⟩
    | some v =>
      simp only at z4
      split at z4
      · rw [Res.bind_eq_ok] at z4
        obtain ⟨⟨c', x⟩, q, z4⟩ := z4
        simp only [Res.ok.injEq, Prod.mk.injEq] at z4
        exact ⟨x, z4.2.symm, fin _ _ _ rfl q⟩
      · rw [Res.bind_eq_ok] at z4
        obtain ⟨⟨c', x⟩, q, z4⟩ := z4
        simp only [Res.ok.injEq, Prod.mk.injEq] at z4
        exact ⟨x, z4.2.symm, fin _ _ _ rfl q⟩
  obtain ⟨x, rfl, hxw⟩ := hword
  refine ⟨s2, o0, o1, x, ?_, q2, s1.core.word, hxw, q3⟩
  rw [happ _ _ _ _ _ hx]
  simp only [RxSystem.run, q1, z4, Res.ok_bind]
  rfl

/-- The loop processes two of four samples, stalls for 300 samples, and notices; the hypotheses of all three theorems
can be met. -/
example : keepsUp 254 0 0 (([(.write, true), (.write, true), (.poll 1, true), (.write, false), (.poll 0, true)] :
      List (AdcEv × Bool)).map Prod.fst) ∧
    deliveries 0 0 [.write, .write, .poll 1, .write, .poll 0] = 2 ∧ written 0 0 [.write, .write, .poll 1, .write, .poll 0] = 4 ∧
    idealInputs 4992 (adcHist (fun _ => 0) (fun k => if k % 2 = 0 then -28 else 128)) 0 0
      [(.write, true), (.write, true), (.poll 1, true), (.write, false), (.poll 0, true)] =
      [{ ready := true, adc := .sample (-273) }, { ready := true, adc := .sample 702 }] := by
  refine ⟨by simp [keepsUp, adcBlock], by decide, by decide, by decide +kernel⟩

end P1P2
