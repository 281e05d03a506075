import Verif.Props.Recover
import Verif.Props.RateDemo
import Verif.Props.Watch
import Verif.Props.Success
/-!
# A device that meets the hypotheses of C145: an overrun and a reset of the ADC at the start, then silence and the packet 40 F0
-/
namespace P1P2

theorem RxSystem.run_split {S : Nat} : ∀ (a : List RxEv) {b : List RxEv} {s s2 : RxSystem} {o : List C1Out}, s.run S (a ++ b) = .ok (s2, o) →
    ∃ s1 o1 o2, s.run S a = .ok (s1, o1) ∧ s1.run S b = .ok (s2, o2) ∧ o = o1 ++ o2 := by
  intro a
  induction a with
  | nil => intro b s s2 o h; exact ⟨s, [], o, rfl, h, rfl⟩
  | cons e a ih =>
    intro b s s2 o h
    rw [List.cons_append, RxSystem.run, Res.bind_eq_ok] at h
    obtain ⟨r, h1, h⟩ := h
    rw [Res.bind_eq_ok] at h
    obtain ⟨⟨s', o'⟩, h2, h⟩ := h
    simp only [Res.ok.injEq, Prod.mk.injEq] at h
    obtain ⟨rfl, rfl⟩ := h
    obtain ⟨s1, o1, o2, k1, k2, rfl⟩ := ih h2
    refine ⟨s1, r.2.toList ++ o1, o2, ?_, k2, by simp⟩
    rw [RxSystem.run, h1, Res.ok_bind, k1]; rfl

/-- Conversions only. -/
theorem converts_run {S : Nat} {v : Int} : ∀ (n : Nat) {b : Board} {rx' : RxSystem} {l : List C1Out}, b.rx.run S (List.replicate n (.transfer v)) = .ok (rx', l) →
    ∃ os, b.run S .arm (fun _ => 0) (List.replicate n (.convert v)) = .ok (some ({ rx := rx', main := b.main }, os)) := by
  intro n
  induction n with
  | zero =>
    intro b rx' l h
    simp only [List.replicate_zero, RxSystem.run, Res.ok.injEq, Prod.mk.injEq] at h
    rw [← h.1]
    exact ⟨[], rfl⟩
  | succ n ih =>
    intro b rx' l h
    rw [List.replicate_succ, RxSystem.run, RxSystem.step, Res.ok_bind, Res.bind_eq_ok] at h
    obtain ⟨⟨s', o'⟩, h2, h⟩ := h
    simp only [Res.ok.injEq, Prod.mk.injEq] at h
    obtain ⟨rfl, -⟩ := h
    obtain ⟨os, k⟩ := ih (b := { b with rx := { b.rx with adc := b.rx.adc.write v } }) h2
    refine ⟨{ reports := [], dropped := false, behind := (b.rx.adc.write v).behind } :: os, ?_⟩
    rw [List.replicate_succ, Board.run, Board.step, RxSystem.step, Res.ok_bind]
    dsimp only [Board.after]
    rw [Res.ok_bind]
    dsimp only
    dsimp only at k
    rw [k]; rfl

/-- With a clock that stands still the watchdog does not report. -/
theorem calm_silent : ∀ (ws : List (Option Word)) {c c' : Core0} {os : List Out2}, c.run .arm (fun _ => 0) (ws.map fun w => calmIter 0 w) = .ok (c', os) → c.rxMsg.status ≠ 4 →
    c'.rxMsg.status ≠ 4 ∧ ∀ m ∈ rxMsgs (os.flatMap Out2.reports), m.status ≠ 4 := by
  intro ws
  induction ws with
  | nil =>
    intro c c' os h hs
    simp only [List.map_nil, Core0.run, Res.ok.injEq, Prod.mk.injEq] at h
    rw [← h.1, ← h.2]
    exact ⟨hs, fun m hm => (by cases hm)⟩
  | cons w ws ih =>
    intro c c' os h hs
    rw [List.map_cons] at h
    obtain ⟨c1, o, os', h1, h2, rfl⟩ := Core0.run_cons h
    unfold Core0.iter at h1
    rw [Res.bind_eq_ok] at h1
    obtain ⟨a, p1, h1⟩ := h1
    rw [Res.bind_eq_ok] at h1
    obtain ⟨d, p2, h1⟩ := h1
    simp only [Res.ok.injEq, Prod.mk.injEq] at h1
    obtain ⟨rfl, rfl⟩ := h1
    obtain ⟨q1, q2⟩ := part1_rxSide p1
    have hdog : c.rxSide.dog (calmIter 0 w).1.tDog1 (calmIter 0 w).1.tDog2 = (c.rxSide, []) := by
      have hb : c.rxSide.bites (calmIter 0 w).1.tDog1 = false := by
        unfold RxSide.bites
        have : ¬ (c.rxSide.since + 500) % 4294967296 < Host.msNow (calmIter 0 w).1.tDog1 := by
          rw [show Host.msNow (calmIter 0 w).1.tDog1 = 0 by show Host.msNow 0 = 0; decide]
          exact Nat.not_lt_zero _
        rw [decide_eq_false this, Bool.and_false]
      unfold RxSide.dog
      rw [hb]; rfl
    rw [hdog] at q1 q2
    have q1 : a.1.rxSide = c.rxSide := q1
    have q2 : rxMsgs a.2 = [] := q2
    have hm : a.1.rxMsg = c.rxMsg := congrArg RxSide.msg q1
    have key : d.1.rxMsg.status ≠ 4 ∧ ∀ m ∈ rxMsgs d.2.reports, m.status ≠ 4 := by
      rcases part2_rxSide p2 with ⟨-, b2, b3⟩ | ⟨w', -, b2⟩
      · have : d.1.rxMsg = a.1.rxMsg := congrArg RxSide.msg b2
        rw [this, hm, b3]
        exact ⟨hs, fun m hm => (by cases hm)⟩
      · exact take_status b2 (by show a.1.rxMsg.status ≠ 4; rw [hm]; exact hs)
    obtain ⟨i1, i2⟩ := ih h2 key.1
    refine ⟨i1, fun m hm => ?_⟩
    rw [List.flatMap_cons, rxMsgs_append] at hm
    rcases List.mem_append.mp hm with hm | hm
    · have hm : m ∈ rxMsgs (a.2 ++ d.2.reports) := hm
      rw [rxMsgs_append, q2, List.nil_append] at hm
      exact key.2 m hm
    · exact i2 m hm

/-- 300 samples that are not processed, then two iterations. -/
def overrunEvents : List RxEv := List.replicate 300 (.transfer 255) ++ [.iterate true [], .iterate true []]

set_option maxRecDepth 20000 in
theorem overrun_first : (match RxSystem.run 32 (RxSystem.init (fun _ => 0) true) (List.replicate 300 (.transfer 255) ++ [.iterate true []]) with
    | .ok (s, o) => decide (s.adc.behind = 0 ∧ o.map C1Out.word = [none])
    | .ub => false) = true := by decide +kernel

set_option maxRecDepth 20000 in
theorem overrun_second : (match RxSystem.run 32 (RxSystem.init (fun _ => 0) true) overrunEvents with
    | .ok (s, o) => decide (s.adc.tcHw = adcBlock ∧ s.adc.tc = adcBlock ∧ s.adc.err = false ∧ s.core.word = .zero ∧ s.core.busy = true ∧ o.map C1Out.word = [none, some wReset])
    | .ub => false) = true := by decide +kernel

/-- The history: 300 conversions that are not processed; two iterations of each core. -/
def overrunHistory : List BoardStep := List.replicate 300 (.convert 255) ++
  [.receive [], .first (env1 0 []), .clear, .second (env2 0 none), .receive [], .first (env1 0 []), .clear, .second (env2 0 (some wReset))]

set_option maxRecDepth 20000 in
/-- A device with an overrun and a reset of the ADC, which the main loop hears of, and then any conversions, which are processed at once. -/
theorem overrun_device {h : Nat → Int} (hh : SampleRange h) {n : Nat} (hn : n < adcBlock) : ∃ (b t : Board) (o : List BoardOut) (xs : List BoardStep) (os : List BoardOut),
    (Board.init (fun _ => 0) true (fun _ => 0) .zero 0 0).run 32 .arm (fun _ => 0) overrunHistory = .ok (some (b, o)) ∧
    (b.main.pc = .top ∧ b.main.fifo = [] ∧ b.main.fifoErr = false ∧ b.rx.core.word = .zero ∧ b.rx.adc.behind ≤ 253) ∧ b.rx.core.busy = true ∧ b.rx.adc.tcHw = adcBlock ∧
    b.run 32 .arm (fun _ => 0) xs = .ok (some (t, os)) ∧ converted xs = (List.range n).map h ∧ (∀ o ∈ os, o.behind ≤ 253) ∧ FastEnough xs ∧
    (t.rx.adc.behind = 0 ∧ t.rx.core.word = .zero ∧ t.main.fifo = [] ∧ t.main.pc = .top) ∧ ∀ m ∈ rxMsgs (os.flatMap BoardOut.reports), m.status ≠ 4 := by
  have h0 : SampleRange fun _ => 0 := fun _ => by show (-256 : Int) ≤ 0 ∧ (0 : Int) ≤ 255; decide
  have hev : ∀ e ∈ overrunEvents, e.InRange := by
    intro e he
    unfold overrunEvents at he
    rcases List.mem_append.mp he with he | he
    · rw [List.eq_of_mem_replicate he]
      exact ⟨by decide, by decide⟩
    · simp only [List.mem_cons, List.not_mem_nil, or_false] at he
      rcases he with rfl | rfl <;> simp [RxEv.InRange]
  -- the history of the receive side
  obtain ⟨s, o, hrun⟩ := C41_no_undefined (S := 32) (by decide) (fun _ => 0) h0 true _ hev
  have f2 := overrun_second
  rw [hrun] at f2
  obtain ⟨g1, g2, g3, g4, g5, g6⟩ := of_decide_eq_true f2
  have hrun' : RxSystem.run 32 (RxSystem.init (fun _ => 0) true) ((List.replicate 300 (.transfer 255) ++ [.iterate true []]) ++ [.iterate true []]) = .ok (s, o) := by
    rw [← hrun]; unfold overrunEvents; rw [List.append_assoc]; rfl
  obtain ⟨s2, oa, ob, k1, k2, rfl⟩ := RxSystem.run_split _ hrun'
  have f1 := overrun_first
  rw [k1] at f1
  obtain ⟨j1, j2⟩ := of_decide_eq_true f1
  obtain ⟨s1, oc, od, k3, k4, rfl⟩ := RxSystem.run_split _ k1
  have one : ∀ {u v : RxSystem} {l : List C1Out}, u.run 32 [.iterate true []] = .ok (v, l) → ∃ x, u.step 32 (.iterate true []) = .ok (v, x) ∧ l = x.toList := by
    intro u v l h
    rw [RxSystem.run, Res.bind_eq_ok] at h
    obtain ⟨r, h1, h⟩ := h
    simp only [RxSystem.run, Res.ok_bind, Res.ok.injEq, Prod.mk.injEq, List.append_nil] at h
    obtain ⟨rfl, rfl⟩ := h
    exact ⟨r.2, h1, rfl⟩
  obtain ⟨x1, y1, rfl⟩ := one k4
  obtain ⟨x2, y2, rfl⟩ := one k2
  have hoc : oc = [] := by
    have : ∀ (n : Nat) {u v : RxSystem} {l : List C1Out}, u.run 32 (List.replicate n (.transfer 255)) = .ok (v, l) → l = [] := by
      intro n
      induction n with
      | zero =>
        intro u v l h
        simp only [List.replicate_zero, RxSystem.run, Res.ok.injEq, Prod.mk.injEq] at h
        exact h.2.symm
      | succ n ih =>
        intro u v l h
        rw [List.replicate_succ, RxSystem.run, RxSystem.step, Res.ok_bind, Res.bind_eq_ok] at h
        obtain ⟨⟨s', o'⟩, h2, h⟩ := h
        simp only [Res.ok.injEq, Prod.mk.injEq] at h
        rw [← h.2, ih h2]; rfl
    exact this _ k3
  subst hoc
  rw [List.nil_append] at j2 g6
  obtain ⟨c1, rfl, w1⟩ : ∃ c1, x1 = some c1 ∧ c1.word = none := by
    cases x1 with
    | none => cases j2
    | some c1 => exact ⟨c1, rfl, by simpa using j2⟩
  obtain ⟨c2, rfl, w2⟩ : ∃ c2, x2 = some c2 ∧ c2.word = some wReset := by
    cases x2 with
    | none => simp at g6
    | some c2 =>
      refine ⟨c2, rfl, ?_⟩
      have : [c1.word, c2.word] = [none, some wReset] := g6
      simp only [List.cons.injEq] at this
      exact this.2.1
  -- the packet
  have hat : AdcInv s.adc.data h 4992 0 0 s.adc := by
    obtain ⟨u, -⟩ := hist_run (S := 32) (by decide) overrunEvents (HistOk.init h0 true) hev hrun
    have inv := AdcInv.ofAt u.at' u.adc.gain h
    rw [g1, g2, Nat.sub_self] at inv
    simpa using inv
  have hdr : SampleRange s.adc.data := by
    obtain ⟨u, -⟩ := hist_run (S := 32) (by decide) overrunEvents (HistOk.init h0 true) hev hrun
    exact u.adc.data
  obtain ⟨m1, m2⟩ := atOnceIdle_ok n 0 (by omega)
  obtain ⟨ad, -, -, e3⟩ := schedule_run (S := 32) (s := s) hdr hh (by decide) (atOnceIdle n) hat g3 m1
  obtain ⟨is, e4⟩ := atOnceIdle_last 4992 (adcHist s.adc.data h) n 0
  obtain ⟨s', oall, hall⟩ := C41_no_undefined (S := 32) (by decide) (fun _ => 0) h0 true (overrunEvents ++ scheduleEvents h 0 0 (atOnceIdle n))
    (fun e he => (List.mem_append.mp he).elim (hev e) (schedule_range hh (atOnceIdle n) 0 0 e))
  obtain ⟨sx, ol, outs, ea, e5, -⟩ := RxSystem.run_split _ hall
  rw [hrun] at ea
  simp only [Res.ok.injEq, Prod.mk.injEq] at ea
  rw [← ea.1] at e5
  have hz : s'.core.word = .zero := by
    rw [e5, e4] at e3
    cases hcr : s.core.run 32 (is ++ [{ ready := true, adc := .none }]) with
    | ub => rw [hcr] at e3; cases e3
    | ok r =>
      rw [hcr] at e3
      simp only [Res.bind, Res.ok.injEq, Prod.mk.injEq] at e3
      rw [e3.1]
      exact Core1.idle_last is hcr
  -- the main loop
  obtain ⟨c, os0, h1⟩ := calm_run ([none, some wReset] ++ outs.map C1Out.word)
  rw [List.map_append] at h1
  obtain ⟨ca, o1, o2, h2, h3, -⟩ := Core0.run_append h1
  obtain ⟨s3, s4⟩ := calm_silent [none, some wReset] h2 (by show 0 ≠ 4; decide)
  obtain ⟨-, s6⟩ := calm_silent _ h3 s3
  rw [List.map_map] at h3
  have h2 : (Core0.init (fun _ => 0) .zero 0 0).run .arm (fun _ => 0) [calmIter 0 none, calmIter 0 (some wReset)] = .ok (ca, o1) := h2
  obtain ⟨cb, oe, of, i1, i2, -⟩ := Core0.run_cons h2
  obtain ⟨cc, og, oh, i3, i4, -⟩ := Core0.run_cons i2
  simp only [Core0.run, Res.ok.injEq, Prod.mk.injEq] at i4
  obtain ⟨rfl, -⟩ := i4
  -- the device
  have hb2 : s.adc.behind = 0 := by unfold Adc.behind; rw [g1, g2]; exact Nat.sub_self _
  obtain ⟨l1, l2, os, l3, l4, l5⟩ := prompt_run (S := 32) hdr hh n 0 (b := { rx := s, main := { (TwoCores.init (fun _ => 0) .zero 0 0 false) with c0 := cc } }) e5 hat g3 (by omega) rfl rfl rfl h3
  obtain ⟨oz, n1⟩ := converts_run 300 (b := Board.init (fun _ => 0) true (fun _ => 0) .zero 0 0) k3
  obtain ⟨ox, n2, -, -⟩ := prompt_iteration (b := { rx := s2, main := { (TwoCores.init (fun _ => 0) .zero 0 0 false) with c0 := cb } }) y2 rfl rfl rfl (by rw [w2]; exact i3)
    (by rw [hb2]; decide) (xs := []) (os := []) rfl
  obtain ⟨oy, n3, -, -⟩ := prompt_iteration (b := { rx := s1, main := TwoCores.init (fun _ => 0) .zero 0 0 false }) y1 rfl rfl rfl (by rw [w1]; exact i1) (by rw [j1]; decide) n2
  rw [w1, w2] at n3
  have n4 := Board.run_append (List.replicate 300 (.convert 255)) n1 n3
  have hcv := eachAtOnce_converted h n 0 outs l1
  have hlen : (converted (eachAtOnce h 0 n outs)).length = n := by rw [hcv, nextSamples_len]
  have hval : converted (eachAtOnce h 0 n outs) = (List.range n).map h := by
    rw [hcv, nextSamples]
    simp only [Nat.zero_add]
  have hfast := fastEnough_of_even (eachAtOnce_even h n 0 outs)
  exact ⟨_, _, _, _, os, n4, ⟨rfl, rfl, rfl, g4, by show s.adc.behind ≤ 253; rw [hb2]; decide⟩, g5, g1, l3, hval, l4, hfast, ⟨l2, hz, rfl, rfl⟩, by rw [l5]; exact s6⟩

theorem overrunHistory_values : converted overrunHistory = List.replicate 300 255 := by decide +kernel

/-- A run of the device that meets the hypotheses of C145 (an overrun, a reset of the ADC, which the main loop hears of, 3200 conversions in which the packet 40 F0 is on the bus), and what the host
is given. -/
example : ∃ (b t : Board) (o : List BoardOut) (xs : List BoardStep) (os : List BoardOut) (K : List (Nat × List UInt8)),
    (Board.init (fun _ => 0) true (fun _ => 0) .zero 0 0).run 32 .arm (fun _ => 0) overrunHistory = .ok (some (b, o)) ∧ taken overrunHistory = [wReset] ∧
    b.run 32 .arm (fun _ => 0) xs = .ok (some (t, os)) ∧ converted xs = (List.range 3200).map lateSamples ∧ FastEnough xs ∧
    (rxMsgs (os.flatMap BoardOut.reports)).map lineShown = K ++ [(0, [0x40, 0xF0])] := by
  have h0 : SampleRange fun _ => 0 := fun _ => by show (-256 : Int) ≤ 0 ∧ (0 : Int) ≤ 255; decide
  obtain ⟨b, t, o, xs, os, n4, hq, hbz, htc, l3, hval, l4, hfast, hend, h4⟩ := overrun_device lateSamples_range (n := 3200) (by decide)
  have hlen : (converted xs).length = 3200 := by rw [hval, List.length_map, List.length_range]
  obtain ⟨-, r2⟩ := C145_recovers (S := 32) (by decide) h0 true .arm (fun _ => 0) .zero 0 0 [] overrunHistory (fun v hv => (by cases hv))
    (fun v hv => by rw [overrunHistory_values] at hv; rw [List.eq_of_mem_replicate hv]; decide) rfl (.inl rfl) n4
    hq (fun hb => by rw [hbz] at hb; cases hb) (by decide) (by decide) lateSamples_range lateSamples_ok
    (M := 2000) (by rw [overrunHistory_values, List.length_replicate]; decide) [latePacket]
    (by intro p hp; rw [List.mem_singleton] at hp; subst hp; exact ⟨⟨by decide, by decide, by decide⟩, by decide⟩) (by decide) lateLine_carries
    (by intro p hp; cases hp; decide) _ _ os l3 (by rw [hlen]; exact hval) (by rw [hlen]; decide) (by rw [hlen]; decide) (by rw [hlen]; decide)
    (by rw [hlen, htc]; decide) l4 hfast hend
  obtain ⟨K, hK⟩ := r2 h4
  exact ⟨_, _, _, _, os, K, n4, by decide +kernel, l3, hval, hfast, hK⟩

end P1P2
