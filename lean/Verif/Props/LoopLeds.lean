import Verif.Props.TxLoop
import Verif.Props.Led
import Verif.Spec.LoopLeds
/-!
# Properties C109, C110: the LEDs tell the truth about the main loop, and what they do not show
-/
namespace P1P2

theorem ledCalls_eq (s : List LedStep) : ledCalls s = eventsOf s := by
  induction s with
  | nil => rfl
  | cons x s ih => cases x <;> simp [ledCalls, eventsOf, ih]

theorem eventsOf_append (a b : List LedStep) : eventsOf (a ++ b) = eventsOf a ++ eventsOf b := by
  induction a with
  | nil => rfl
  | cons x a ih => cases x <;> simp [eventsOf, ih]

theorem mem_eventsOf {ev : LedEvent} {s : List LedStep} : ev ∈ eventsOf s ↔ LedStep.report ev ∈ s := by
  induction s with
  | nil => simp [eventsOf]
  | cons x s ih => cases x <;> simp [eventsOf, ih]

theorem ledSteps_append (a b : List ((Env1 × Env2) × List LedStep)) : ledSteps (a ++ b) = ledSteps a ++ ledSteps b := by
  unfold ledSteps; rw [List.flatMap_append]

/-- A step at a position of the whole sequence belongs to an iteration. -/
theorem ledSteps_at : ∀ (xs : List ((Env1 × Env2) × List LedStep)) (n : Nat) (s : LedStep), (ledSteps xs)[n]? = some s →
    ∃ a x b, xs = a ++ x :: b ∧ s ∈ x.2 ∧ (ledSteps a).length ≤ n ∧ n < (ledSteps (a ++ [x])).length := by
  intro xs
  induction xs with
  | nil => intro n s h; simp [ledSteps] at h
  | cons y ys ih =>
    intro n s h
    have e : ledSteps (y :: ys) = y.2 ++ ledSteps ys := by simp [ledSteps]
    rw [e] at h
    by_cases hn : n < y.2.length
    · rw [List.getElem?_append_left hn] at h
      refine ⟨[], y, ys, rfl, List.mem_of_getElem? h, by simp [ledSteps], by simpa [ledSteps] using hn⟩
    · rw [List.getElem?_append_right (by omega)] at h
      obtain ⟨a, x, b, h1, h2, h3, h4⟩ := ih _ _ h
      refine ⟨y :: a, x, b, by rw [h1]; rfl, h2, ?_, ?_⟩
      · have : ledSteps (y :: a) = y.2 ++ ledSteps a := by simp [ledSteps]
        rw [this, List.length_append]; omega
      · have : ledSteps (y :: a ++ [x]) = y.2 ++ ledSteps (a ++ [x]) := by simp [ledSteps]
        rw [this, List.length_append]; omega

theorem ledRun_split {pf : Platform} {g : Nat → UInt8} {a : List ((Env1 × Env2) × List LedStep)} : ∀ {c c' : Core0} {x : (Env1 × Env2) × List LedStep}
    {b : List ((Env1 × Env2) × List LedStep)} {os : List Out2}, c.ledRun pf g (a ++ x :: b) c' os →
    ∃ c1 c2 oa o, c.run pf g (a.map Prod.fst) = .ok (c1, oa) ∧ c1.iter pf g x.1 = .ok (c2, o) ∧ eventsOf x.2 = c1.leds x.1 := by
  induction a with
  | nil =>
    intro c c' x b os h
    obtain ⟨c1, o, os', h1, h2, _, _⟩ := h
    exact ⟨c, c1, [], o, rfl, h1, by rw [← ledCalls_eq]; exact h2⟩
  | cons y a ih =>
    intro c c' x b os h
    obtain ⟨c1, o, os', h1, _, _, h3⟩ := h
    obtain ⟨d1, d2, oa, o', k1, k2, k3⟩ := ih h3
    refine ⟨d1, d2, o :: oa, o', ?_, k2, k3⟩
    rw [List.map_cons, Core0.run, h1, Res.ok_bind]
    dsimp only
    rw [k1]; rfl

/-! ## Events and displays -/

theorem shown_modes (es : List LedEvent) (hb : LedEvent.bus ∉ es) :
    ((shown es).modes.2.2 = .on ∨ (shown es).modes.2.2 = .fast) ∧
    ((shown es).modes.2.2 = .fast ↔ LedEvent.internal ∈ es ∨ LedEvent.errorRx ∈ es ∨ LedEvent.errorTx ∈ es) ∧
    ((shown es).modes.1 ≠ .off → LedEvent.activityRx ∈ es ∨ LedEvent.errorRx ∈ es) ∧
    ((shown es).modes.2.1 ≠ .off → LedEvent.activityTx ∈ es ∨ LedEvent.errorTx ∈ es) ∧
    ((shown es).modes.1 = .fast → LedEvent.errorRx ∈ es) ∧ ((shown es).modes.2.1 = .fast → LedEvent.errorTx ∈ es) ∧
    (LedEvent.activityRx ∈ es → (shown es).modes.1 ≠ .off ∨ (shown es).modes.2.2 = .fast) ∧
    (LedEvent.activityTx ∈ es → (shown es).modes.2.1 ≠ .off ∨ (shown es).modes.2.2 = .fast) := by
  have mem : ∀ {p : LedEvent → Bool} {ev : LedEvent}, lastOf p es = some ev → ev ∈ es := fun h => (List.mem_filter.mp (List.mem_of_getLast? h)).1
  have non : ∀ {p : LedEvent → Bool} {ev : LedEvent}, lastOf p es = none → p ev = true → ev ∉ es := by
    intro p ev h hp hm
    unfold lastOf at h
    rw [List.getLast?_eq_none_iff, List.filter_eq_nil_iff] at h
    exact h ev hm hp
  unfold shown
  rcases lastOf_severe es with h | h | h
  · have n1 : LedEvent.internal ∉ es := non h rfl
    rcases lastOf_transmission es with k | k | k <;> rw [h, k]
    · have n2 : LedEvent.errorRx ∉ es := non k rfl
      have n3 : LedEvent.errorTx ∉ es := non k rfl
      by_cases ha : LedEvent.activityRx ∈ es <;> by_cases hb : LedEvent.activityTx ∈ es <;> simp [ha, hb, n1, n2, n3, LedState.modes]
    · have := mem k
      simp [this, LedState.modes]
    · have := mem k
      simp [this, LedState.modes]
  · have := mem h
    rcases lastOf_transmission es with k | k | k <;> rw [h, k] <;> simp [this, LedState.modes]
  · exact absurd (mem h) hb

/-- A refresh sets the LEDs according to the events of the period. -/
theorem period_modes (pre mid : List LedStep) (hm : LedStep.refresh ∉ mid) (hp : pre = [] ∨ ∃ p, pre = p ++ [.refresh]) :
    let m := ledsAfter (pre ++ mid ++ [.refresh])
    m.r.mode = (shown (eventsOf mid)).modes.1 ∧ m.t.mode = (shown (eventsOf mid)).modes.2.1 ∧ m.p.mode = (shown (eventsOf mid)).modes.2.2 := by
  have h := refresh_eq pre mid hm hp
  intro m
  have e : m = (LedManager.init.run (pre ++ mid)).update := by
    show (pre ++ mid ++ [LedStep.refresh]).foldl LedManager.step LedManager.init = _
    rw [List.foldl_append]; rfl
  rw [e, LedManager.update]
  dsimp only
  rw [h]
  exact ⟨led_set_mode _ _, led_set_mode _ _, led_set_mode _ _⟩

/-! ## The reports of one iteration -/

theorem leds_bus (c : Core0) (e : Env1 × Env2) : LedEvent.bus ∉ c.leds e := by
  unfold Core0.leds Core0.leds1
  simp only [List.mem_append, not_or]
  refine ⟨⟨?_, ?_⟩, ?_⟩
  · split
    · simp
    · split
      · simp
      · split <;> simp
  · split <;> simp
  · cases e.2.word with
    | none => simp
    | some w =>
      unfold leds2
      simp only [List.mem_append, not_or]
      constructor
      · split
        · simp
        · split <;> simp
      · split <;> simp

theorem leds_activityTx (c : Core0) (e : Env1 × Env2) : LedEvent.activityTx ∈ c.leds e ↔ Sending c := by
  unfold Core0.leds Core0.leds1 Sending leds2
  cases c.sm.isIdle <;> cases e.1.fifoErrLed <;> cases e.1.hwErr <;> cases c.sm.error.2 <;> cases c.dogBites e.1.tDog1 <;> cases e.2.word with
    | none => simp
    | some w => cases h1 : w.rxError <;> cases h2 : w.rxValid <;> cases h3 : w.dadcError <;> simp [h1, h2, h3]

theorem leds_errorTx (c : Core0) (e : Env1 × Env2) :
    LedEvent.errorTx ∈ c.leds e ↔ GaveUp c ∧ e.1.fifoErrLed = false ∧ e.1.hwErr = false := by
  unfold Core0.leds Core0.leds1 GaveUp leds2
  cases c.sm.isIdle <;> cases e.1.fifoErrLed <;> cases e.1.hwErr <;> cases c.sm.error.2 <;> cases c.dogBites e.1.tDog1 <;> cases e.2.word with
    | none => simp
    | some w => cases h1 : w.rxError <;> cases h2 : w.rxValid <;> cases h3 : w.dadcError <;> simp [h1, h2, h3]

theorem leds_rx (c : Core0) (e : Env1 × Env2) :
    (LedEvent.errorRx ∈ c.leds e ↔ ∃ w, e.2.word = some w ∧ w.rxError = true) ∧
    (LedEvent.activityRx ∈ c.leds e ↔ ∃ w, e.2.word = some w ∧ w.rxError = false ∧ w.rxValid = true) := by
  unfold Core0.leds Core0.leds1 leds2
  cases c.sm.isIdle <;> cases e.1.fifoErrLed <;> cases e.1.hwErr <;> cases c.sm.error.2 <;> cases c.dogBites e.1.tDog1 <;> cases e.2.word with
    | none => simp
    | some w => cases h1 : w.rxError <;> cases h2 : w.rxValid <;> cases h3 : w.dadcError <;> simp [h1, h2, h3]

theorem leds_internal (c : Core0) (e : Env1 × Env2) :
    LedEvent.internal ∈ c.leds e ↔ (c.sm.isIdle = true ∧ (e.1.fifoErrLed = true ∨ e.1.hwErr = true)) ∨ c.dogBites e.1.tDog1 = true ∨
      ∃ w, e.2.word = some w ∧ w.dadcError = true := by
  unfold Core0.leds Core0.leds1 leds2
  cases c.sm.isIdle <;> cases e.1.fifoErrLed <;> cases e.1.hwErr <;> cases c.sm.error.2 <;> cases c.dogBites e.1.tDog1 <;> cases e.2.word with
    | none => simp
    | some w => cases h1 : w.rxError <;> cases h2 : w.rxValid <;> cases h3 : w.dadcError <;> simp [h1, h2, h3]

/-- A status other than that of the watchdog. -/
def CalmMsg (m : Message) : Prop := m.status = 0 ∨ m.status = 2 ∨ m.status = 3

theorem RxSide.step_calm {s s' : RxSide} {e : Env1 × Env2} {ms : List Message} (hc : CalmMsg s.msg) (hd : s.bites e.1.tDog1 = false)
    (h : s.step e = .ok (s', ms)) : ∀ m ∈ ms, CalmMsg m := by
  have h1 : s.dog e.1.tDog1 e.1.tDog2 = (s, []) := by unfold RxSide.dog; rw [hd]; rfl
  have h2 : CalmMsg (s.flag e.1.fifoErr).1.msg ∧ ∀ m ∈ (s.flag e.1.fifoErr).2, CalmMsg m := by
    unfold RxSide.flag
    split
    · refine ⟨.inl rfl, fun m hm => ?_⟩
      rw [List.mem_singleton.mp hm]; exact .inr (.inl rfl)
    · exact ⟨hc, by simp⟩
  unfold RxSide.step at h
  rw [h1] at h
  dsimp only at h
  generalize s.flag e.1.fifoErr = f at h h2
  cases hw : e.2.word with
  | none =>
    rw [hw] at h
    simp only [Res.ok.injEq, Prod.mk.injEq] at h
    rw [← h.2]
    exact h2.2
  | some w =>
    rw [hw] at h
    dsimp only at h
    rw [Res.bind_eq_ok] at h
    obtain ⟨t, h3, h⟩ := h
    simp only [Res.ok.injEq, Prod.mk.injEq] at h
    rw [RxSide.take, Res.bind_eq_ok] at h3
    obtain ⟨m, h4, h3⟩ := h3
    simp only [Res.ok.injEq] at h3
    have hm : CalmMsg m := by
      unfold RxSide.collect at h4
      split at h4
      · simp only [Res.ok.injEq] at h4; rw [← h4]; exact .inr (.inl rfl)
      · split at h4
        · unfold CalmMsg; rw [append_status h4]; exact .inr (.inr rfl)
        · split at h4
          · unfold CalmMsg; rw [append_status h4]; exact h2.1
          · simp only [Res.ok.injEq] at h4; rw [← h4]; exact h2.1
    have he : CalmMsg (RxSide.ends m w).1 ∧ ∀ x ∈ (RxSide.ends m w).2, CalmMsg x := by
      unfold RxSide.ends
      split
      · exact ⟨.inl rfl, fun x hx => by rw [List.mem_singleton.mp hx]; exact hm⟩
      · exact ⟨hm, by simp⟩
    have hf : ∀ x ∈ (RxSide.full (RxSide.ends m w).1).2, CalmMsg x := by
      unfold RxSide.full
      split
      · intro x hx; rw [List.mem_singleton.mp hx]; exact .inr (.inl rfl)
      · simp
    rw [← h.2, ← h3]
    intro x hx
    rcases List.mem_append.mp hx with hx | hx
    · exact h2.2 x hx
    · rcases List.mem_append.mp hx with hx | hx
      · exact he.2 x hx
      · exact hf x hx

/-- The watchdog is what makes a line about the bus with status 4. -/
theorem dog_line {pf : Platform} {g : Nat → UInt8} {es : List (Env1 × Env2)} {c c' : Core0} {os : List Out2} {e : Env1 × Env2} {o : Out2}
    (hr : LoopRun pf g es c os) (h : c.iter pf g e = .ok (c', o)) : c.dogBites e.1.tDog1 = true ↔ ∃ m ∈ rxMsgs o.reports, m.status = 4 := by
  constructor
  · intro hd
    obtain ⟨c1, rs, b, h1, h2, h3⟩ := Core0.iter_ok h
    obtain ⟨k, _, _, rfl⟩ := Core0.part1_ok h1
    simp only [Prod.mk.injEq] at h3
    rw [h3.2]
    dsimp only
    rw [rxMsgs_append, rxMsgs_append]
    have e1 : (c.afterCheck k e.1).watchdog e.1.tDog1 e.1.tDog2 = ({ c.afterCheck k e.1 with busySince := Host.msNow e.1.tDog2, rxMsg := (c.afterCheck k e.1).rxMsg.clear },
        [.rx { (c.afterCheck k e.1).rxMsg with status := Message.errNoFraming }]) := by
      unfold Core0.watchdog
      exact if_pos hd
    rw [e1]
    exact ⟨{ (c.afterCheck k e.1).rxMsg with status := Message.errNoFraming }, by simp [rxMsgs], rfl⟩
  · rintro ⟨m, hm, hs⟩
    apply Classical.byContradiction
    intro hn
    rw [Bool.not_eq_true] at hn
    obtain ⟨ws, _, _, h3⟩ := C91_lines_explained pf g es c os hr
    have hc : CalmMsg c.rxSide.msg := by
      show CalmMsg c.rxMsg
      unfold CalmMsg; rw [h3]; exact heardStatus_codes ws
    have := RxSide.step_calm hc hn (iter_rxSide h) m hm
    unfold CalmMsg at this
    omega

/-- The reports that make the power LED blink are those of `Trouble`. -/
theorem leds_trouble {pf : Platform} {g : Nat → UInt8} {es : List (Env1 × Env2)} {c c' : Core0} {os : List Out2} {e : Env1 × Env2} {o : Out2}
    (hr : LoopRun pf g es c os) (h : c.iter pf g e = .ok (c', o)) :
    (LedEvent.internal ∈ c.leds e ∨ LedEvent.errorRx ∈ c.leds e ∨ LedEvent.errorTx ∈ c.leds e) ↔ Trouble c e o := by
  rw [leds_internal, (leds_rx c e).1, leds_errorTx, dog_line hr h]
  unfold Trouble
  constructor
  · rintro ((h | h | ⟨w, h, h1⟩) | ⟨w, h, h1⟩ | ⟨h, _⟩)
    · exact .inr (.inr (.inl h))
    · exact .inr (.inl h)
    · exact .inl ⟨w, h, .inr h1⟩
    · exact .inl ⟨w, h, .inl h1⟩
    · exact .inr (.inr (.inr h))
  · rintro (⟨w, h, h1 | h1⟩ | h | h | h)
    · exact .inr (.inl ⟨w, h, h1⟩)
    · exact .inl (.inr (.inr ⟨w, h, h1⟩))
    · exact .inl (.inr (.inl h))
    · exact .inl (.inl h)
    · by_cases h1 : e.1.fifoErrLed = true
      · exact .inl (.inl ⟨h.1, .inl h1⟩)
      · by_cases h2 : e.1.hwErr = true
        · exact .inl (.inl ⟨h.1, .inr h2⟩)
        · exact .inr (.inr ⟨h, by simpa using h1, by simpa using h2⟩)

/-! ## C109 -/

/-- An event of a period was reported by an iteration that is at least partly within it. -/
theorem period_event {pf : Platform} {g : Nat → UInt8} {c0 c : Core0} {xs : List ((Env1 × Env2) × List LedStep)} {os : List Out2}
    {pre mid : List LedStep} (hr : c0.ledRun pf g xs c os) (hp : Period xs pre mid) {ev : LedEvent} (hev : ev ∈ eventsOf mid) :
    ∃ a x b c1 c2 oa o, xs = a ++ x :: b ∧ During a x pre mid ∧ c0.run pf g (a.map Prod.fst) = .ok (c1, oa) ∧ c1.iter pf g x.1 = .ok (c2, o) ∧ ev ∈ c1.leds x.1 := by
  rw [mem_eventsOf] at hev
  obtain ⟨n, hn, hev⟩ := List.getElem_of_mem hev
  obtain ⟨_, _, post, hpost⟩ := hp
  have hat : (ledSteps xs)[pre.length + n]? = some (LedStep.report ev) := by
    rw [← hpost, List.append_assoc, List.append_assoc, List.getElem?_append_right (by omega), List.getElem?_append_left (by omega)]
    rw [← hev, List.getElem?_eq_getElem (by omega)]
    congr 1
    congr 1
    omega
  obtain ⟨a, x, b, h1, h2, h3, h4⟩ := ledSteps_at _ _ _ hat
  rw [h1] at hr
  obtain ⟨c1, c2, oa, o, k1, k2, k3⟩ := ledRun_split hr
  refine ⟨a, x, b, c1, c2, oa, o, h1, ⟨?_, ?_⟩, k1, k2, ?_⟩
  · rw [List.length_append]; omega
  · omega
  · rw [← k3, mem_eventsOf]; exact h2

theorem period_bus {pf : Platform} {g : Nat → UInt8} {c0 c : Core0} {xs : List ((Env1 × Env2) × List LedStep)} {os : List Out2}
    {pre mid : List LedStep} (hr : c0.ledRun pf g xs c os) (hp : Period xs pre mid) : LedEvent.bus ∉ eventsOf mid := by
  intro h
  obtain ⟨a, x, b, c1, c2, oa, o, _, _, _, _, h⟩ := period_event hr hp h
  exact leds_bus _ _ h

/-- The reports of an iteration that is completely within a period are events of the period. -/
theorem event_period {xs a b : List ((Env1 × Env2) × List LedStep)} {x : (Env1 × Env2) × List LedStep} {pre mid : List LedStep}
    (hx : xs = a ++ x :: b) (hp : Period xs pre mid) (hi : Inside a x pre mid) {ev : LedEvent} (h : ev ∈ eventsOf x.2) : ev ∈ eventsOf mid := by
  rw [mem_eventsOf] at h ⊢
  obtain ⟨n, hn, h⟩ := List.getElem_of_mem h
  obtain ⟨_, _, post, hpost⟩ := hp
  have e1 : ledSteps xs = ledSteps a ++ (x.2 ++ ledSteps b) := by
    rw [hx, ledSteps_append]; simp [ledSteps]
  have e2 : (ledSteps (a ++ [x])).length = (ledSteps a).length + x.2.length := by
    rw [ledSteps_append, List.length_append]; simp [ledSteps]
  obtain ⟨i1, i2⟩ := hi
  rw [e2, List.length_append] at i2
  have hat : (ledSteps xs)[(ledSteps a).length + n]? = some (LedStep.report ev) := by
    rw [e1, List.getElem?_append_right (by omega), List.getElem?_append_left (by omega), ← h, List.getElem?_eq_getElem (by omega)]
    congr 1
    congr 1
    omega
  rw [← hpost, List.append_assoc, List.append_assoc, List.getElem?_append_right (by omega), List.getElem?_append_left (by omega)] at hat
  exact List.mem_of_getElem? hat

/-- **C109, truth.** In every history of the device from its start, with the timer interrupts at any points: after the refresh at the end of a period the power LED is on or blinks fast; it blinks fast only if
there was trouble in an iteration during the period; the RX LED is not off only if a byte was taken from the bus during the period, and blinks fast only if one was wrong; the TX LED is
not off only if the transmitter was at work or gave up during the period, and blinks fast only if it gave up. -/
theorem C109_truth (pf : Platform) (g : Nat → UInt8) (w0 : Word) (t0 t1 : Nat) (xs : List ((Env1 × Env2) × List LedStep)) (c : Core0) (os : List Out2)
    (hr : (Core0.init g w0 t0 t1).ledRun pf g xs c os) (pre mid : List LedStep) (hp : Period xs pre mid) :
    let m := ledsAfter (pre ++ mid ++ [.refresh])
    let seen := SomeIteration pf g (Core0.init g w0 t0 t1) xs (fun a x => During a x pre mid)
    (m.p.mode = .on ∨ m.p.mode = .fast) ∧
    (m.p.mode = .fast → seen Trouble) ∧
    (m.r.mode ≠ .off → seen fun _ e _ => ByteTaken e) ∧
    (m.r.mode = .fast → seen fun _ e _ => ∃ w, e.2.word = some w ∧ w.rxError = true) ∧
    (m.t.mode ≠ .off → seen fun c _ _ => Sending c ∨ GaveUp c) ∧
    (m.t.mode = .fast → seen fun c _ _ => GaveUp c) := by
  intro m seen
  obtain ⟨e1, e2, e3⟩ := period_modes pre mid hp.1 hp.2.1
  obtain ⟨s1, s2, s3, s4, s5, s6, _, _⟩ := shown_modes (eventsOf mid) (period_bus hr hp)
  rw [← e3] at s1 s2
  rw [← e1] at s3 s5
  rw [← e2] at s4 s6
  have back : ∀ (ev : LedEvent) (P : Core0 → Env1 × Env2 → Out2 → Prop), ev ∈ eventsOf mid →
      (∀ es c os e c' o, LoopRun pf g es c os → c.iter pf g e = .ok (c', o) → ev ∈ c.leds e → P c e o) → seen P := by
    intro ev P hev hP
    obtain ⟨a, x, b, c1, c2, oa, o, h1, h2, h3, h4, h5⟩ := period_event hr hp hev
    exact ⟨a, x, b, c1, c2, oa, o, h1, h2, h3, h4, hP _ _ _ _ _ _ ⟨w0, t0, t1, h3⟩ h4 h5⟩
  refine ⟨s1, fun h => ?_, fun h => ?_, fun h => ?_, fun h => ?_, fun h => ?_⟩
  · rcases s2.mp h with h | h | h
    · exact back _ _ h fun es c os e c' o hl hi he => (leds_trouble hl hi).mp (.inl he)
    · exact back _ _ h fun es c os e c' o hl hi he => (leds_trouble hl hi).mp (.inr (.inl he))
    · exact back _ _ h fun es c os e c' o hl hi he => (leds_trouble hl hi).mp (.inr (.inr he))
  · rcases s3 h with h | h
    · refine back _ _ h fun es c os e c' o _ _ he => ?_
      obtain ⟨w, k1, _, k2⟩ := (leds_rx c e).2.mp he
      exact ⟨w, k1, .inl k2⟩
    · refine back _ _ h fun es c os e c' o _ _ he => ?_
      obtain ⟨w, k1, k2⟩ := (leds_rx c e).1.mp he
      exact ⟨w, k1, .inr k2⟩
  · exact back _ _ (s5 h) fun es c os e c' o _ _ he => (leds_rx c e).1.mp he
  · rcases s4 h with h | h
    · exact back _ _ h fun es c os e c' o _ _ he => .inl ((leds_activityTx c e).mp he)
    · exact back _ _ h fun es c os e c' o _ _ he => .inr ((leds_errorTx c e).mp he).1
  · exact back _ _ (s6 h) fun es c os e c' o _ _ he => ((leds_errorTx c e).mp he).1

/-- **C109, nothing is missed.** If there was trouble in an iteration within a period, the power LED blinks fast after the refresh at its end; if a byte was taken, the RX LED blinks or the power LED blinks fast; if the
transmitter was at work, the TX LED blinks or the power LED blinks fast. -/
theorem C109_shown (pf : Platform) (g : Nat → UInt8) (w0 : Word) (t0 t1 : Nat) (xs : List ((Env1 × Env2) × List LedStep)) (c : Core0) (os : List Out2)
    (hr : (Core0.init g w0 t0 t1).ledRun pf g xs c os) (pre mid : List LedStep) (hp : Period xs pre mid) :
    let m := ledsAfter (pre ++ mid ++ [.refresh])
    let seen := SomeIteration pf g (Core0.init g w0 t0 t1) xs (fun a x => Inside a x pre mid)
    (seen Trouble → m.p.mode = .fast) ∧
    ((seen fun _ e _ => ByteTaken e) → m.r.mode ≠ .off ∨ m.p.mode = .fast) ∧
    ((seen fun c _ _ => Sending c) → m.t.mode ≠ .off ∨ m.p.mode = .fast) := by
  intro m seen
  obtain ⟨e1, e2, e3⟩ := period_modes pre mid hp.1 hp.2.1
  obtain ⟨_, s2, _, _, _, _, s7, s8⟩ := shown_modes (eventsOf mid) (period_bus hr hp)
  rw [← e3] at s2 s7 s8
  rw [← e1] at s7
  rw [← e2] at s8
  have fwd : ∀ {a x b c1 c2 oa o}, xs = a ++ x :: b → Inside a x pre mid → (Core0.init g w0 t0 t1).run pf g (a.map Prod.fst) = .ok (c1, oa) →
      c1.iter pf g x.1 = .ok (c2, o) → ∀ ev ∈ c1.leds x.1, ev ∈ eventsOf mid := by
    intro a x b c1 c2 oa o h1 h2 h3 h4 ev h5
    have hr' := hr
    rw [h1] at hr'
    obtain ⟨d1, d2, oa', o', k1, k2, k3⟩ := ledRun_split hr'
    rw [h3] at k1
    simp only [Res.ok.injEq, Prod.mk.injEq] at k1
    refine event_period h1 hp h2 ?_
    rw [k3, ← k1.1]
    exact h5
  refine ⟨?_, ?_, ?_⟩
  · rintro ⟨a, x, b, c1, c2, oa, o, h1, h2, h3, h4, h5⟩
    apply s2.mpr
    rcases (leds_trouble ⟨w0, t0, t1, h3⟩ h4).mpr h5 with h | h | h
    · exact .inl (fwd h1 h2 h3 h4 _ h)
    · exact .inr (.inl (fwd h1 h2 h3 h4 _ h))
    · exact .inr (.inr (fwd h1 h2 h3 h4 _ h))
  · rintro ⟨a, x, b, c1, c2, oa, o, h1, h2, h3, h4, w, h5, h6⟩
    by_cases he : w.rxError = true
    · right
      apply s2.mpr
      exact .inr (.inl (fwd h1 h2 h3 h4 _ ((leds_rx _ _).1.mpr ⟨w, h5, he⟩)))
    · apply s7
      have hv : w.rxValid = true := by simpa [he] using h6
      exact fwd h1 h2 h3 h4 _ ((leds_rx _ _).2.mpr ⟨w, h5, by simpa using he, hv⟩)
  · rintro ⟨a, x, b, c1, c2, oa, o, h1, h2, h3, h4, h5⟩
    exact s8 (fwd h1 h2 h3 h4 _ ((leds_activityTx _ _).mpr h5))

/-- The reports of each iteration of a run, by evaluation. -/
def ledsOf (pf : Platform) (g : Nat → UInt8) (c : Core0) : List (Env1 × Env2) → Option (List (List LedEvent))
  | [] => some []
  | e :: es => match c.iter pf g e with
    | .ok (c1, _) => (ledsOf pf g c1 es).map (c.leds e :: ·)
    | .ub => none

/-- The same from the start. -/
def loopLeds (es : List (Env1 × Env2)) : Option (List (List LedEvent)) := ledsOf .arm (fun _ => 0) (Core0.init (fun _ => 0) .zero 0 0) es

/-- LED steps for a run: the reports of each iteration, then a refresh. -/
def refreshing (es : List (Env1 × Env2)) (l : List (List LedEvent)) : List ((Env1 × Env2) × List LedStep) :=
  es.zip (l.map fun evs => evs.map LedStep.report ++ [.refresh])

theorem ledCalls_reports (evs : List LedEvent) : ledCalls (evs.map LedStep.report ++ [.refresh]) = evs := by
  induction evs with
  | nil => rfl
  | cons x xs ih => rw [List.map_cons, List.cons_append, ledCalls, ih]

theorem ledsOf_run {pf : Platform} {g : Nat → UInt8} {es : List (Env1 × Env2)} : ∀ {c : Core0} {l : List (List LedEvent)}, ledsOf pf g c es = some l →
    (refreshing es l).map Prod.fst = es ∧ ∃ c' os, c.run pf g es = .ok (c', os) ∧ c.ledRun pf g (refreshing es l) c' os := by
  induction es with
  | nil =>
    intro c l h
    exact ⟨rfl, c, [], rfl, rfl, rfl⟩
  | cons e es ih =>
    intro c l h
    unfold ledsOf at h
    cases hi : c.iter pf g e with
    | ub => rw [hi] at h; cases h
    | ok r =>
      rw [hi] at h
      dsimp only at h
      rw [Option.map_eq_some_iff] at h
      obtain ⟨l', h1, rfl⟩ := h
      obtain ⟨k0, c', os, k1, k2⟩ := ih h1
      refine ⟨?_, c', r.2 :: os, ?_, r.1, r.2, os, hi, ledCalls_reports _, rfl, k2⟩
      · show e :: (refreshing es l').map Prod.fst = e :: es
        rw [k0]
      · rw [Core0.run, hi, Res.ok_bind, k1]; rfl

theorem ledsOf_mem {pf : Platform} {g : Nat → UInt8} {a : List (Env1 × Env2)} : ∀ {c c1 : Core0} {oa : List Out2} {e : Env1 × Env2} {b : List (Env1 × Env2)} {l : List (List LedEvent)},
    ledsOf pf g c (a ++ e :: b) = some l → c.run pf g a = .ok (c1, oa) → c1.leds e ∈ l := by
  induction a with
  | nil =>
    intro c c1 oa e b l h h1
    simp only [Core0.run, Res.ok.injEq, Prod.mk.injEq] at h1
    rw [List.nil_append] at h
    unfold ledsOf at h
    rw [← h1.1]
    cases hi : c.iter pf g e with
    | ub => rw [hi] at h; cases h
    | ok r =>
      rw [hi] at h
      dsimp only at h
      rw [Option.map_eq_some_iff] at h
      obtain ⟨l', _, rfl⟩ := h
      exact List.mem_cons_self
  | cons x a ih =>
    intro c c1 oa e b l h h1
    rw [List.cons_append] at h
    unfold ledsOf at h
    cases hi : c.iter pf g x with
    | ub => rw [hi] at h; cases h
    | ok r =>
      rw [hi] at h
      dsimp only at h
      rw [Option.map_eq_some_iff] at h
      obtain ⟨l', k1, rfl⟩ := h
      rw [Core0.run, hi, Res.ok_bind] at h1
      rw [Res.bind_eq_ok] at h1
      obtain ⟨q, h2, h3⟩ := h1
      simp only [Res.ok.injEq, Prod.mk.injEq] at h3
      refine List.mem_cons_of_mem _ (ih k1 (oa := q.2) ?_)
      rw [h2, ← h3.1]

/-- The hypotheses of C109 are met by `echoLoop`: the reports of its thirteen iterations (transmitter at work from iteration 4 to iteration 11, two bytes taken). -/
example : loopLeds echoLoop = some [[], [], [], [], [.activityTx], [.activityTx], [.activityTx], [.activityTx], [.activityTx, .activityRx], [.activityTx, .activityRx],
    [.activityTx], [.activityTx], []] := by decide +kernel

/-! ## C110 -/

/-- A raised error: the transmitter is idle if it gave up (status 1, 4, 5) and waits for the end of the packet if it heard something else than it sent (status 3, 21). -/
theorem LoopRun.failedAt {pf : Platform} {g : Nat → UInt8} {es : List (Env1 × Env2)} {c : Core0} {os : List Out2} (h : LoopRun pf g es c os) :
    c.sm.err = true → (c.sm.isIdle = true ∧ c.sm.rxMsg.status ∈ [1, 4, 5]) ∨ (c.sm.isIdle = false ∧ c.sm.rxMsg.status ∈ [3, 21]) := by
  refine h.fwd (P := fun _ c _ => c.sm.err = true → (c.sm.isIdle = true ∧ c.sm.rxMsg.status ∈ [1, 4, 5]) ∨ (c.sm.isIdle = false ∧ c.sm.rxMsg.status ∈ [3, 21]))
    (fun _ _ _ h => by cases h) ?_
  intro es c os e c' o hr _ h1 he
  rcases iter_update hr hr.echo h1 with ⟨_, hi, _⟩ | ⟨s, i, hu, u1, u2, u3, u4, _⟩
  · rw [hi] at he; cases he
  obtain ⟨_, _, k3⟩ := (update_echo hu u1 u2 u3 u4).2 he
  have k4 : c'.sm.rxMsg.status ∈ [1, 3, 4, 5, 21] := by
    rcases k3 with ⟨k, _⟩ | ⟨k, _⟩ | ⟨k, _⟩ | ⟨k, _⟩ | ⟨k, _⟩ <;> rw [k] <;> simp
  cases TxSM.updCase hu with
  | early _ hs _ =>
    left; rw [hs]
    refine ⟨rfl, ?_⟩
    cases i.busy <;> simp
  | hw _ _ _ hs _ => left; rw [hs]; simp [TxSM.isIdle]
  | stay _ _ _ _ _ _ _ hs _ => rw [hs, u4] at he; cases he
  | power _ _ _ _ _ _ hs _ => rw [hs] at he; simp only [u4] at he; cases he
  | start _ _ _ _ hs _ => rw [hs] at he; simp only [u4] at he; cases he
  | busy _ _ _ _ _ _ hs _ => rw [hs] at he; simp only [u4] at he; cases he
  | rxErr _ _ _ _ hs _ => right; rw [hs]; simp [TxSM.isIdle]
  | good _ _ _ _ _ _ _ _ _ hs _ => rw [hs] at he; simp only [u4] at he; cases he
  | bad _ _ hst hr' hva ho hd rx hrx hs _ =>
    right
    have h0 : rx.status = 0 := by
      rw [append_status hrx]
      apply u3 <;> rcases hst with hst | hst <;> simp [hst]
    rw [hs]
    refine ⟨by simp [TxSM.isIdle], ?_⟩
    dsimp only
    rw [if_pos h0]
    simp
  | finish _ _ _ _ hs _ => rw [hs] at he; simp only [u4] at he; cases he

/-- **C110, what is shown** (partial: not the lines with status 21 and 2). In every history from the start: if an iteration that is completely within a period tells the host that the bus is
busy for too long, or that a transmission failed with any status but 21 (collision), the power LED blinks fast after the refresh at the end of the period. -/
theorem C110_failures_partial (pf : Platform) (g : Nat → UInt8) (w0 : Word) (t0 t1 : Nat) (xs : List ((Env1 × Env2) × List LedStep)) (c : Core0) (os : List Out2)
    (hr : (Core0.init g w0 t0 t1).ledRun pf g xs c os) (pre mid : List LedStep) (hp : Period xs pre mid)
    (hs : SomeIteration pf g (Core0.init g w0 t0 t1) xs (fun a x => Inside a x pre mid) fun _ _ o =>
      (∃ m ∈ rxMsgs o.reports, m.status = 4) ∨ ∃ m ∈ txMsgs o.reports, m.status ≠ 21) :
    (ledsAfter (pre ++ mid ++ [.refresh])).p.mode = .fast := by
  refine (C109_shown pf g w0 t0 t1 xs c os hr pre mid hp).1 ?_
  obtain ⟨a, x, b, c1, c2, oa, o, h1, h2, h3, h4, h5⟩ := hs
  refine ⟨a, x, b, c1, c2, oa, o, h1, h2, h3, h4, ?_⟩
  have hl : LoopRun pf g (a.map Prod.fst) c1 oa := ⟨w0, t0, t1, h3⟩
  rcases h5 with h5 | ⟨m, hm, h5⟩
  · exact .inr (.inl h5)
  · rw [iter_tx hl.good h4] at hm
    split at hm
    case isFalse => cases hm
    rename_i hc
    rw [List.mem_singleton] at hm
    subst hm
    rcases hl.failedAt hc.1 with ⟨k1, _⟩ | ⟨_, k2⟩
    · exact .inr (.inr (.inr ⟨k1, hc.1⟩))
    · simp only [List.mem_cons, List.not_mem_nil, or_false] at k2
      rcases k2 with k2 | k2
      · exact absurd k2 hc.2
      · exact absurd k2 h5

/-- **C110, a wrong byte of the own packet** (partial). If the transmitter fails because a byte that it heard was wrong (then no line about the failure is given, main.cpp:258), the wrong byte itself was
trouble: it is shown by the power LED. -/
theorem C110_wrong_byte_partial (pf : Platform) (g : Nat → UInt8) (w0 : Word) (t0 t1 : Nat) (xs : List ((Env1 × Env2) × List LedStep)) (c : Core0) (os : List Out2)
    (hr : (Core0.init g w0 t0 t1).ledRun pf g xs c os) (pre mid : List LedStep) (hp : Period xs pre mid)
    (hs : SomeIteration pf g (Core0.init g w0 t0 t1) xs (fun a x => Inside a x pre mid) fun _ e _ => ∃ w, e.2.word = some w ∧ (w.rxError = true ∨ w.dadcError = true)) :
    (ledsAfter (pre ++ mid ++ [.refresh])).p.mode = .fast := by
  refine (C109_shown pf g w0 t0 t1 xs c os hr pre mid hp).1 ?_
  obtain ⟨a, x, b, c1, c2, oa, o, h1, h2, h3, h4, h5⟩ := hs
  exact ⟨a, x, b, c1, c2, oa, o, h1, h2, h3, h4, .inl h5⟩

/-- **C110, collisions are never shown as such** (refuted, for every history). In every iteration that tells the host about a collision (status 21), the transmitter is not idle, so that the
LED manager is told of activity, not of an error. -/
theorem C110_collision_hidden (pf : Platform) (g : Nat → UInt8) (es : List (Env1 × Env2)) (c c' : Core0) (os : List Out2) (e : Env1 × Env2) (o : Out2)
    (hr : LoopRun pf g es c os) (h : c.iter pf g e = .ok (c', o)) (m : Message) (hm : m ∈ txMsgs o.reports) (h21 : m.status = 21) :
    LedEvent.activityTx ∈ c.leds e ∧ LedEvent.errorTx ∉ c.leds e := by
  rw [iter_tx hr.good h] at hm
  split at hm
  case isFalse => cases hm
  rename_i hc
  rw [List.mem_singleton] at hm
  subst hm
  rcases hr.failedAt hc.1 with ⟨_, k2⟩ | ⟨k1, _⟩
  · rw [h21] at k2; simp at k2
  · rw [leds_activityTx, leds_errorTx]
    refine ⟨k1, fun hg => ?_⟩
    have := hg.1.1
    rw [k1] at this; cases this

/-- If no iteration of a run reports trouble, the power LED does not blink fast, whenever the timers run. -/
theorem calm_leds {es : List (Env1 × Env2)} (hq : (loopLeds es).map (fun l => l.all fun evs => evs.all fun ev => ev == .activityTx || ev == .activityRx) = some true)
    {xs : List ((Env1 × Env2) × List LedStep)} {c : Core0} {os : List Out2} (hx : xs.map Prod.fst = es)
    (hr : (Core0.init (fun _ => 0) .zero 0 0).ledRun .arm (fun _ => 0) xs c os) {pre mid : List LedStep} (hp : Period xs pre mid) :
    (ledsAfter (pre ++ mid ++ [.refresh])).p.mode = .on ∧ (ledsAfter (pre ++ mid ++ [.refresh])).t.mode ≠ .fast := by
  have no : ∀ ev ∈ eventsOf mid, ev = .activityTx ∨ ev = .activityRx := by
    intro ev hev
    obtain ⟨a, x, b, c1, c2, oa, o, h1, _, h3, _, h5⟩ := period_event hr hp hev
    have e1 : es = a.map Prod.fst ++ x.1 :: b.map Prod.fst := by rw [← hx, h1]; simp
    cases hl : loopLeds es with
    | none => rw [hl] at hq; cases hq
    | some l =>
      rw [hl] at hq
      simp only [Option.map_some, Option.some.injEq, List.all_eq_true, Bool.or_eq_true, beq_iff_eq] at hq
      have hm : c1.leds x.1 ∈ l := by
        rw [e1] at hl
        exact ledsOf_mem hl h3
      exact hq _ hm _ h5
  obtain ⟨_, h', h⟩ := period_modes pre mid hp.1 hp.2.1
  obtain ⟨s1, s2, _, _, _, s6, _⟩ := shown_modes (eventsOf mid) (fun hb => by rcases no _ hb with h | h <;> cases h)
  rw [h, h']
  refine ⟨?_, fun hf => by rcases no _ (s6 hf) with h | h <;> cases h⟩
  rcases s1 with s1 | s1
  · exact s1
  · rcases s2.mp s1 with h | h | h <;> rcases no _ h with h | h <;> cases h

/-- The packet `40F0` of the host collides: its second byte is heard as `F1`. -/
def collisionLoop : List (Env1 × Env2) := opRun ++ [bothIter 2301000 [52, 48, 70, 48, 10] none, bothIter 2302000 [] none, bothIter 2303000 [] none, bothIter 2334000 [] none,
  bothIter 2334500 [] (some wBusy), bothIter 2335500 [] (some (wByte 0x40)), bothIter 2336500 [] (some (wByte 0xF1)), bothIter 2337500 [] none, bothIter 2338500 [] (some wFree), bothIter 2339500 [] none]

/-- The inter-core FIFO was full while the packet `40F0` of the host is sent. -/
def lostLoop : List (Env1 × Env2) := echoLoop.take 10 ++ [({ env1 2337500 [] with fifoErr := true, fifoErrLed := true }, env2 2337500 none), bothIter 2338500 [] (some wFree), bothIter 2339500 [] none]

/-- The statuses of the lines that a run from the start gives to the host: about the bus, and about failed transmissions. -/
def loopStatuses (es : List (Env1 × Env2)) : Option (List Nat × List Nat) :=
  match (Core0.init (fun _ => 0) .zero 0 0).run .arm (fun _ => 0) es with
  | .ok (_, os) => some (os.flatMap fun o => (rxMsgs o.reports).map Message.status, os.flatMap fun o => (txMsgs o.reports).map Message.status)
  | .ub => none

theorem hidden {es : List (Env1 × Env2)} {st : List Nat × List Nat} (hs : loopStatuses es = some st)
    (hq : (loopLeds es).map (fun l => l.all fun evs => evs.all fun ev => ev == .activityTx || ev == .activityRx) = some true) :
    (∃ xs c os, xs.map Prod.fst = es ∧ (Core0.init (fun _ => 0) .zero 0 0).ledRun .arm (fun _ => 0) xs c os ∧
      (os.flatMap fun o => (rxMsgs o.reports).map Message.status) = st.1 ∧ (os.flatMap fun o => (txMsgs o.reports).map Message.status) = st.2 ∧
      ∃ pre mid, Period xs pre mid) ∨ es = [] := by
  cases hl : loopLeds es with
  | none => rw [hl] at hq; cases hq
  | some l =>
    obtain ⟨h1, c, os, h2, h3⟩ := ledsOf_run hl
    unfold loopStatuses at hs
    rw [h2] at hs
    simp only [Option.some.injEq] at hs
    clear hq
    cases es with
    | nil => exact .inr rfl
    | cons e es =>
      left
      refine ⟨_, c, os, h1, h3, congrArg Prod.fst hs, congrArg Prod.snd hs, ?_⟩
      cases l with
      | nil =>
        have := congrArg List.length h1
        simp [refreshing] at this
      | cons evs l =>
        refine ⟨[], evs.map LedStep.report, by simp, .inl rfl, ?_⟩
        simp [refreshing, ledSteps, List.zip_cons_cons]

/-- **C110, refuted: collisions.** There is a history of the device in which it tells the host about a collision (status 21), and in which the power LED stays on and the TX LED never blinks fast, whenever
the timers run: the collision is shown by no LED.  (Such histories with timer interrupts exist.) -/
theorem C110_collision_refuted : ∃ es, (∃ xs c os, xs.map Prod.fst = es ∧ (Core0.init (fun _ => 0) .zero 0 0).ledRun .arm (fun _ => 0) xs c os ∧
      (∃ o ∈ os, ∃ m ∈ txMsgs o.reports, m.status = 21) ∧ ∃ pre mid, Period xs pre mid) ∧
    ∀ xs c os, xs.map Prod.fst = es → (Core0.init (fun _ => 0) .zero 0 0).ledRun .arm (fun _ => 0) xs c os → ∀ pre mid, Period xs pre mid →
      (ledsAfter (pre ++ mid ++ [.refresh])).p.mode = .on ∧ (ledsAfter (pre ++ mid ++ [.refresh])).t.mode ≠ .fast := by
  have hs : loopStatuses collisionLoop = some ([0], [21]) := by decide +kernel
  have hq : (loopLeds collisionLoop).map (fun l => l.all fun evs => evs.all fun ev => ev == .activityTx || ev == .activityRx) = some true := by decide +kernel
  refine ⟨collisionLoop, ?_, fun xs c os hx hr pre mid hp => calm_leds hq hx hr hp⟩
  rcases hidden hs hq with ⟨xs, c, os, h1, h2, _, h4, h5⟩ | h
  · refine ⟨xs, c, os, h1, h2, ?_, h5⟩
    have hm : 21 ∈ os.flatMap fun o => (txMsgs o.reports).map Message.status := by rw [h4]; simp
    obtain ⟨o, ho, hm⟩ := List.mem_flatMap.mp hm
    obtain ⟨m, hm, he⟩ := List.mem_map.mp hm
    exact ⟨o, ho, m, hm, he⟩
  · exact absurd h (by simp [collisionLoop, opRun])

/-- **C110, refuted: lost bytes.** The same for a line that says that data of the receiving core were lost (status 2) while a packet is sent. -/
theorem C110_lost_refuted : ∃ es, (∃ xs c os, xs.map Prod.fst = es ∧ (Core0.init (fun _ => 0) .zero 0 0).ledRun .arm (fun _ => 0) xs c os ∧
      (∃ o ∈ os, ∃ m ∈ rxMsgs o.reports, m.status = 2) ∧ ∃ pre mid, Period xs pre mid) ∧
    ∀ xs c os, xs.map Prod.fst = es → (Core0.init (fun _ => 0) .zero 0 0).ledRun .arm (fun _ => 0) xs c os → ∀ pre mid, Period xs pre mid →
      (ledsAfter (pre ++ mid ++ [.refresh])).p.mode = .on ∧ (ledsAfter (pre ++ mid ++ [.refresh])).t.mode ≠ .fast := by
  have hs : loopStatuses lostLoop = some ([2], []) := by decide +kernel
  have hq : (loopLeds lostLoop).map (fun l => l.all fun evs => evs.all fun ev => ev == .activityTx || ev == .activityRx) = some true := by decide +kernel
  refine ⟨lostLoop, ?_, fun xs c os hx hr pre mid hp => calm_leds hq hx hr hp⟩
  rcases hidden hs hq with ⟨xs, c, os, h1, h2, h3, _, h5⟩ | h
  · refine ⟨xs, c, os, h1, h2, ?_, h5⟩
    have hm : 2 ∈ os.flatMap fun o => (rxMsgs o.reports).map Message.status := by rw [h3]; simp
    obtain ⟨o, ho, hm⟩ := List.mem_flatMap.mp hm
    obtain ⟨m, hm, he⟩ := List.mem_map.mp hm
    exact ⟨o, ho, m, hm, he⟩
  · exact absurd h (by simp [lostLoop])

/-- The hypothesis of `C110_failures_partial` is met: nothing is heard of the packet of the host, the failure is told with status 4, and the last iteration reports an error. -/
example : (loopStatuses (opRun ++ [bothIter 2301000 [52, 48, 70, 48, 10] none, bothIter 2302000 [] none, bothIter 2303000 [] none, bothIter 2334000 [] none,
      bothIter 2336500 [] none, bothIter 2337000 [] none]) = some ([], [4])) ∧
    (loopLeds (opRun ++ [bothIter 2301000 [52, 48, 70, 48, 10] none, bothIter 2302000 [] none, bothIter 2303000 [] none, bothIter 2334000 [] none,
      bothIter 2336500 [] none, bothIter 2337000 [] none])).bind List.getLast? = some [.errorTx] := by decide +kernel

end P1P2
