import Verif.Props.RateLines
import Verif.Spec.Watch
import Verif.Proofs.PromptLoop
/-!
# A device that meets the hypotheses of C141 and C142: every conversion is processed at once, and the main loop runs once for each
-/
namespace P1P2

/-- The steps: for each conversion an iteration of core 1 and one of core 0 (which finds the word of the output); at the end one more iteration of both. -/
def eachAtOnce (h : Nat → Int) : Nat → Nat → List C1Out → List BoardStep
  | k, n + 1, o :: os => .convert (h k) :: .receive [] :: .first (env1 0 []) :: .clear :: .second (env2 0 o.word) :: eachAtOnce h (k + 1) n os
  | _, 0, o :: _ => [.receive [], .first (env1 0 []), .clear, .second (env2 0 o.word)]
  | _, _, [] => []

theorem eachAtOnce_converted (h : Nat → Int) : ∀ (n k : Nat) (os : List C1Out), os.length = n + 1 → converted (eachAtOnce h k n os) = nextSamples h k n := by
  intro n
  induction n with
  | zero =>
    intro k os hl
    cases os with
    | nil => cases hl
    | cons o os => rfl
  | succ n ih =>
    intro k os hl
    cases os with
    | nil => cases hl
    | cons o os =>
      have : converted (eachAtOnce h k (n + 1) (o :: os)) = h k :: converted (eachAtOnce h (k + 1) n os) := rfl
      rw [this, ih (k + 1) os (by simpa using hl), Nat.add_comm n 1, nextSamples_two]
      rfl

theorem eachAtOnce_reading (h : Nat → Int) : ∀ (n k : Nat) (os : List C1Out), ∀ x ∈ eachAtOnce h k n os, ∀ r, x.reading = some r → r = 0 := by
  intro n
  induction n with
  | zero =>
    intro k os
    cases os with
    | nil => intro x hx; cases hx
    | cons o os =>
      intro x hx r hr
      simp only [eachAtOnce, List.mem_cons, List.not_mem_nil, or_false] at hx
      rcases hx with rfl | rfl | rfl | rfl <;> cases hr <;> rfl
  | succ n ih =>
    intro k os
    cases os with
    | nil => intro x hx; cases hx
    | cons o os =>
      intro x hx r hr
      simp only [eachAtOnce, List.mem_cons] at hx
      rcases hx with rfl | rfl | rfl | rfl | rfl | hx
      · cases hr
      · cases hr
      · cases hr; rfl
      · cases hr
      · cases hr; rfl
      · exact ih _ _ x hx r hr

/-- As many looks as conversions, up to one. -/
def Even (p : List BoardStep) : Prop := looksIn p ≤ (converted p).length + 1 ∧ (converted p).length ≤ looksIn p + 1

theorem looksIn_append (a b : List BoardStep) : looksIn (a ++ b) = looksIn a + looksIn b := List.countP_append ..

theorem converted_append (a b : List BoardStep) : (converted (a ++ b)).length = (converted a).length + (converted b).length := by
  simp [converted]

theorem fastEnough_of_even {xs : List BoardStep} (h : ∀ p r, xs = p ++ r → Even p) : FastEnough xs := by
  intro a b c e
  have h1 := h a (b ++ c) (by rw [e, List.append_assoc])
  have h2 := h (a ++ b) c e
  unfold Even at h1 h2
  rw [looksIn_append, converted_append] at h2
  omega

theorem even_cons {x : BoardStep} {xs : List BoardStep} {l c : Nat}
    (h0 : l ≤ c + 1 ∧ c ≤ l + 1)
    (h : ∀ p r, xs = p ++ r → l + looksIn [x] + looksIn p ≤ c + (converted [x]).length + (converted p).length + 1 ∧
      c + (converted [x]).length + (converted p).length ≤ l + looksIn [x] + looksIn p + 1) :
    ∀ p r, x :: xs = p ++ r → l + looksIn p ≤ c + (converted p).length + 1 ∧ c + (converted p).length ≤ l + looksIn p + 1 := by
  intro p r e
  cases p with
  | nil => exact h0
  | cons y p =>
    rw [List.cons_append, List.cons.injEq] at e
    obtain ⟨rfl, e⟩ := e
    have := h p r e
    rw [show x :: p = [x] ++ p from rfl, looksIn_append, converted_append]
    omega

theorem eachAtOnce_even (h : Nat → Int) : ∀ (n k : Nat) (os : List C1Out) (p r : List BoardStep), eachAtOnce h k n os = p ++ r → Even p := by
  intro n
  induction n with
  | zero =>
    intro k os p r e
    cases os with
    | nil =>
      have e : [] = p ++ r := e
      have : p = [] := (List.append_eq_nil_iff.mp e.symm).1
      subst this
      exact ⟨Nat.zero_le _, Nat.zero_le _⟩
    | cons o os =>
      have key : ∀ p r : List BoardStep, [BoardStep.receive [], .first (env1 0 []), .clear, .second (env2 0 o.word)] = p ++ r →
          0 + looksIn p ≤ 0 + (converted p).length + 1 ∧ 0 + (converted p).length ≤ 0 + looksIn p + 1 := by
        refine even_cons (by decide) (even_cons (l := 0) (c := 0) (by decide) (even_cons (l := 0) (c := 0) (by decide) (even_cons (l := 0) (c := 0) (by decide) ?_)))
        intro p r e
        have : p = [] := (List.append_eq_nil_iff.mp e.symm).1
        subst this
        show 0 + 1 + 0 ≤ 0 + 0 + 0 + 1 ∧ 0 + 0 + 0 ≤ 0 + 1 + 0 + 1
        omega
      have := key p r e
      unfold Even
      omega
  | succ n ih =>
    intro k os p r e
    cases os with
    | nil =>
      have e : [] = p ++ r := e
      have : p = [] := (List.append_eq_nil_iff.mp e.symm).1
      subst this
      exact ⟨Nat.zero_le _, Nat.zero_le _⟩
    | cons o os =>
      have key : ∀ p r : List BoardStep, BoardStep.convert (h k) :: .receive [] :: .first (env1 0 []) :: .clear :: .second (env2 0 o.word) :: eachAtOnce h (k + 1) n os = p ++ r →
          0 + looksIn p ≤ 0 + (converted p).length + 1 ∧ 0 + (converted p).length ≤ 0 + looksIn p + 1 := by
        refine even_cons (by decide) (even_cons (l := 0) (c := 1) (by decide) (even_cons (l := 0) (c := 1) (by decide) (even_cons (l := 0) (c := 1) (by decide)
          (even_cons (l := 0) (c := 1) (by decide) ?_))))
        intro p r e
        have := ih (k + 1) os p r e
        unfold Even at this
        show 0 + 1 + looksIn p ≤ 1 + 0 + (converted p).length + 1 ∧ 1 + 0 + (converted p).length ≤ 0 + 1 + looksIn p + 1
        omega
      have := key p r e
      unfold Even
      omega

/-- The four steps of both cores after the conversion, if nothing waits in the FIFO. -/
theorem prompt_iteration {S : Nat} {b : Board} {rx' : RxSystem} {o : C1Out} {xs : List BoardStep} {t : Board} {os : List BoardOut} {r : Core0 × Out2}
    (hrx : b.rx.step S (.iterate true []) = .ok (rx', some o)) (hp : b.main.pc = .top) (hf : b.main.fifo = []) (he : b.main.fifoErr = false)
    (hc : b.main.c0.iter .arm (fun _ => 0) (calmIter 0 o.word) = .ok r) (hb : rx'.adc.behind ≤ 253)
    (hrest : Board.run S .arm (fun _ => 0) { rx := rx', main := { b.main with c0 := r.1 } } xs = .ok (some (t, os))) :
    ∃ os1, b.run S .arm (fun _ => 0) (.receive [] :: .first (env1 0 []) :: .clear :: .second (env2 0 o.word) :: xs) = .ok (some (t, os1 ++ os)) ∧
      (∀ o ∈ os1, o.behind ≤ 253) ∧ os1.flatMap BoardOut.reports = r.2.reports := by
  obtain ⟨rx, c0, fifo, fe, pc⟩ := b
  dsimp only at hp hf he hc hrx
  subst hp hf he
  unfold Core0.iter at hc
  rw [Res.bind_eq_ok] at hc
  obtain ⟨a, p1, hc⟩ := hc
  rw [Res.bind_eq_ok] at hc
  obtain ⟨d, p2, hc⟩ := hc
  simp only [Res.ok.injEq] at hc
  subst hc
  have p1 : c0.part1 .arm (fun _ => 0) (env1 0 []) = .ok a := p1
  have p2 : a.1.part2 .arm (fun _ => 0) (env2 0 o.word) = .ok d := p2
  have s1 : Board.step S .arm (fun _ => 0) ⟨rx, ⟨c0, [], false, .top⟩⟩ (.receive []) = .ok (some (⟨rx', ⟨c0, o.word.toList, false, .top⟩⟩,
      { reports := [], dropped := false, behind := rx'.adc.behind })) := by
    have hrx : rx.step S (.iterate (decide (([] : List Word).length < 8)) []) = .ok (rx', some o) := hrx
    rw [Board.step, if_neg (by simp)]
    dsimp only
    rw [hrx, Res.ok_bind]
    cases hw : o.word with
    | none => simp only [Option.bind, hw]; rfl
    | some w => simp only [Option.bind, hw]; rfl
  have s2 : Board.step S .arm (fun _ => 0) ⟨rx', ⟨c0, o.word.toList, false, .top⟩⟩ (.first (env1 0 [])) = .ok (some (⟨rx', ⟨a.1, o.word.toList, false, .clear⟩⟩,
      { reports := a.2, dropped := false, behind := rx'.adc.behind })) := by
    simp only [Board.step, TwoCores.step]
    rw [if_pos ⟨trivial, rfl⟩, p1]; rfl
  have s3 : Board.step S .arm (fun _ => 0) ⟨rx', ⟨a.1, o.word.toList, false, .clear⟩⟩ .clear = .ok (some (⟨rx', ⟨a.1, o.word.toList, false, .rest⟩⟩,
      { reports := [], dropped := false, behind := rx'.adc.behind })) := by
    simp only [Board.step, TwoCores.step]
    simp [Board.after]
  have s4 : Board.step S .arm (fun _ => 0) ⟨rx', ⟨a.1, o.word.toList, false, .rest⟩⟩ (.second (env2 0 o.word)) = .ok (some (⟨rx', ⟨d.1, [], false, .top⟩⟩,
      { reports := d.2.reports, dropped := false, behind := rx'.adc.behind })) := by
    simp only [Board.step, TwoCores.step]
    rw [if_pos ⟨trivial, (by cases o.word <;> rfl)⟩, p2]
    cases o.word <;> rfl
  refine ⟨[{ reports := [], dropped := false, behind := rx'.adc.behind }, { reports := a.2, dropped := false, behind := rx'.adc.behind },
    { reports := [], dropped := false, behind := rx'.adc.behind }, { reports := d.2.reports, dropped := false, behind := rx'.adc.behind }], ?_, ?_, ?_⟩
  · rw [Board.run, s1, Res.ok_bind]; dsimp only
    rw [Board.run, s2, Res.ok_bind]; dsimp only
    rw [Board.run, s3, Res.ok_bind]; dsimp only
    rw [Board.run, s4, Res.ok_bind]; dsimp only
    dsimp only at hrest
    rw [hrest]; rfl
  · intro o ho
    simp only [List.mem_cons, List.not_mem_nil, or_false] at ho
    rcases ho with rfl | rfl | rfl | rfl <;> exact hb
  · simp

theorem prompt_run {S : Nat} {ring h : Nat → Int} (hr : SampleRange ring) (hh : SampleRange h) : ∀ (n k : Nat) {b : Board} {rx' : RxSystem} {c1s : List C1Out} {c : Core0} {os0 : List Out2},
    b.rx.run S (scheduleEvents h k k (atOnceIdle n)) = .ok (rx', c1s) → AdcInv ring h 4992 k k b.rx.adc → b.rx.adc.err = false → k + n < adcBlock →
    b.main.pc = .top → b.main.fifo = [] → b.main.fifoErr = false →
    b.main.c0.run .arm (fun _ => 0) (c1s.map fun o => calmIter 0 o.word) = .ok (c, os0) →
    c1s.length = n + 1 ∧ rx'.adc.behind = 0 ∧ ∃ os, b.run S .arm (fun _ => 0) (eachAtOnce h k n c1s) = .ok (some ({ rx := rx', main := { b.main with c0 := c } }, os)) ∧
      (∀ o ∈ os, o.behind ≤ 253) ∧ os.flatMap BoardOut.reports = os0.flatMap Out2.reports := by
  intro n
  induction n with
  | zero =>
    intro k b rx' c1s c os0 h1 i herr hk hp hf he hc
    have e : scheduleEvents h k k (atOnceIdle 0) = [.iterate true []] := by
      show scheduleEvents h k k [(.poll 0, true)] = _
      simp [scheduleEvents]
    rw [e, RxSystem.run, Res.bind_eq_ok] at h1
    obtain ⟨⟨s1, o⟩, h1, h2⟩ := h1
    simp only [RxSystem.run, Res.ok_bind, Res.ok.injEq, Prod.mk.injEq, List.append_nil] at h2
    obtain ⟨rfl, rfl⟩ := h2
    have hu := i.idle (by omega) []
    have h1' := h1
    rw [RxSystem.step, hu, Res.ok_bind] at h1'
    dsimp only at h1'
    rw [Res.bind_eq_ok] at h1'
    obtain ⟨⟨c', o'⟩, -, h1'⟩ := h1'
    simp only [Res.ok.injEq, Prod.mk.injEq] at h1'
    obtain ⟨e1, rfl⟩ := h1'
    have hb : s1.adc.behind = 0 := by
      rw [← e1]
      show b.rx.adc.behind = 0
      rw [i.behind]; omega
    refine ⟨rfl, hb, ?_⟩
    rw [show (some o').toList = [o'] from rfl] at hc ⊢
    rw [List.map_cons, List.map_nil, Core0.run, Res.bind_eq_ok] at hc
    obtain ⟨r, hc1, hc2⟩ := hc
    simp only [Core0.run, Res.ok_bind, Res.ok.injEq, Prod.mk.injEq] at hc2
    obtain ⟨rfl, rfl⟩ := hc2
    obtain ⟨os1, q1, q2, q3⟩ := prompt_iteration h1 hp hf he hc1 (by rw [hb]; decide) (xs := []) rfl
    rw [List.append_nil] at q1
    exact ⟨os1, q1, q2, by rw [q3]; simp⟩
  | succ n ih =>
    intro k b rx' c1s c os0 h1 i herr hk hp hf he hc
    have e : scheduleEvents h k k (atOnceIdle (n + 1)) = .transfer (h k) :: .iterate true [] :: scheduleEvents h (k + 1) (k + 1) (atOnceIdle n) := by
      have e : atOnceIdle (n + 1) = (.write, true) :: (.poll 0, true) :: atOnceIdle n := rfl
      rw [e]
      simp only [scheduleEvents, if_neg (show ¬ k + 1 = k by omega), Nat.add_zero]
      rfl
    rw [e, RxSystem.run, RxSystem.step, Res.ok_bind, Res.bind_eq_ok] at h1
    obtain ⟨⟨s2, l⟩, h1, h2⟩ := h1
    simp only [Res.ok.injEq, Prod.mk.injEq] at h2
    obtain ⟨rfl, rfl⟩ := h2
    rw [RxSystem.run, Res.bind_eq_ok] at h1
    obtain ⟨⟨s1, o⟩, h3, h1⟩ := h1
    rw [Res.bind_eq_ok] at h1
    obtain ⟨⟨s4, l'⟩, h4, h1⟩ := h1
    simp only [Res.ok.injEq, Prod.mk.injEq] at h1
    obtain ⟨rfl, rfl⟩ := h1
    have iw := i.write (h := h) (by omega : k < adcBlock)
    obtain ⟨a', p1, p2, p3⟩ := iw.poll hr hh (by decide) (n := 0) (by omega) (by omega) (by omega)
    have p1 : (b.rx.adc.write (h k)).update [] = .ok (a', some (adcRef 4992 (adcHist ring h) k)) := p1
    rw [write_err, herr] at p3
    have h3' := h3
    rw [RxSystem.step] at h3'
    dsimp only at h3'
    rw [p1, Res.ok_bind] at h3'
    simp only [Adc.error, p3, Bool.false_eq_true, if_false] at h3'
    rw [Res.bind_eq_ok] at h3'
    obtain ⟨⟨c', o'⟩, -, h3'⟩ := h3'
    simp only [Res.ok.injEq, Prod.mk.injEq] at h3'
    obtain ⟨e1, rfl⟩ := h3'
    have i2 : AdcInv ring h 4992 (k + 1) (k + 1) s1.adc := by rw [← e1]; exact ⟨p2.hw, p2.wle, p2.wp, p2.tc, p2.dle, p2.off, p2.gain, p2.data⟩
    have hb : s1.adc.behind = 0 := by rw [i2.behind]; omega
    rw [show (none : Option C1Out).toList ++ ((some o').toList ++ l') = o' :: l' from rfl] at hc ⊢
    rw [List.map_cons, Core0.run, Res.bind_eq_ok] at hc
    obtain ⟨r, hc1, hc⟩ := hc
    rw [Res.bind_eq_ok] at hc
    obtain ⟨r', hc2, hc⟩ := hc
    simp only [Res.ok.injEq, Prod.mk.injEq] at hc
    obtain ⟨rfl, rfl⟩ := hc
    obtain ⟨l1, l2, os, l3, l4, l5⟩ := ih (k + 1) (b := { rx := s1, main := { b.main with c0 := r.1 } }) h4 i2 (by rw [← e1]) (by omega) hp hf he hc2
    refine ⟨by rw [List.length_cons, l1], l2, ?_⟩
    obtain ⟨os1, q1, q2, q3⟩ := prompt_iteration (b := { b with rx := { b.rx with adc := b.rx.adc.write (h k) } }) h3 hp hf he hc1 (by rw [hb]; decide) l3
    refine ⟨{ reports := [], dropped := false, behind := (b.rx.adc.write (h k)).behind } :: (os1 ++ os), ?_, ?_, ?_⟩
    · show Board.run S .arm (fun _ => 0) b (.convert (h k) :: .receive [] :: .first (env1 0 []) :: .clear :: .second (env2 0 o'.word) :: eachAtOnce h (k + 1) n l') = _
      rw [Board.run, Board.step, RxSystem.step, Res.ok_bind]
      dsimp only [Board.after]
      rw [Res.ok_bind]
      dsimp only
      rw [q1]; rfl
    · intro x hx
      rcases List.mem_cons.mp hx with rfl | hx
      · show (b.rx.adc.write (h k)).behind ≤ 253
        rw [iw.behind]; omega
      · rcases List.mem_append.mp hx with hx | hx
        · exact q2 x hx
        · exact l4 x hx
    · rw [List.flatMap_cons, List.flatMap_append, q3, l5]; rfl

/-! ## The packet 40 F0 -/

theorem calm_watch_opt : ∀ (ws : List (Option Word)) (os : List Out2) (since : Option Nat), (since = none ∨ since = some 0) → WatchdogOk since (ws.map fun w => calmIter 0 w) os →
    ∀ m ∈ rxMsgs (os.flatMap Out2.reports), m.status ≠ 4 := by
  intro ws
  induction ws with
  | nil =>
    intro os since _ h
    cases os with
    | nil => intro m hm; cases hm
    | cons o os => cases h
  | cons w ws ih =>
    intro os since hs h
    cases os with
    | nil => cases h
    | cons o os =>
      rw [List.map_cons] at h
      obtain ⟨h1, h2⟩ := h
      have ht : tellsBusy o = false := by
        cases hb : tellsBusy o with
        | false => rfl
        | true =>
          obtain ⟨t, -, ht⟩ := h1.mp hb
          have : t + 500 < 0 / 1000 := ht
          omega
      rw [ht] at h2
      have hn : busyNext since (calmIter 0 w) false = none ∨ busyNext since (calmIter 0 w) false = some 0 := by
        cases w with
        | none => unfold busyNext calmIter env1 env2; rcases hs with rfl | rfl <;> simp
        | some w =>
          unfold busyNext calmIter env1 env2
          rcases hs with rfl | rfl <;> cases h1 : w.lineFree <;> cases h2 : w.lineBusy <;> simp [h1, h2]
      intro m hm
      rw [List.flatMap_cons, rxMsgs_append] at hm
      rcases List.mem_append.mp hm with hm | hm
      · intro h4
        have : tellsBusy o = true := List.any_eq_true.mpr ⟨m, hm, by simp [h4]⟩
        rw [ht] at this; cases this
      · exact ih os _ hn h2 m hm

theorem calm_lines (ws : List (Option Word)) : hostLines (ws.map fun w => calmIter 0 w) = [] := by
  obtain ⟨rx, h1, -, -⟩ := hostLines_eq (ws.map fun w => calmIter 0 w)
  generalize hostLines (ws.map fun w => calmIter 0 w) = ls at h1
  have key : ∀ n : Nat, Host.polls (LineRecv.mk0 0) (List.replicate n []) = .ok (LineRecv.mk0 0, []) := by
    intro n
    induction n with
    | zero => rfl
    | succ n ih =>
      rw [List.replicate_succ, Host.polls]
      rw [show Host.poll (LineRecv.mk0 0) [] = .ok (LineRecv.mk0 0, []) from rfl, Res.ok_bind]
      rw [ih]; rfl
  have e : ((ws.map fun w => calmIter 0 w).map fun e => e.1.chunk) = List.replicate ws.length [] := by
    rw [List.map_map]
    exact List.map_const' ..
  rw [e, key] at h1
  simp only [Res.ok.injEq, Prod.mk.injEq] at h1
  exact h1.2.symm

theorem calm_run (ws : List (Option Word)) : ∃ c os, (Core0.init (fun _ => 0) .zero 0 0).run .arm (fun _ => 0) (ws.map fun w => calmIter 0 w) = .ok (c, os) := by
  exact C84_target_partial (fun _ => 0) .zero 0 0 (ws.map fun w => calmIter 0 w) (by rw [calm_lines]; intro s hs; cases hs)

/-- A device that processes every conversion at once, whatever is converted. -/
theorem at_once_device {q : Nat → UInt8} {n : Nat} (hn : n < adcBlock) {s : RxSystem} {outs : List C1Out}
    (e1 : RxSystem.run 32 (RxSystem.init (fun _ => 0) false) (scheduleEvents (fun k => Pio.sampleValue k (q k)) 0 0 (atOnceIdle n)) = .ok (s, outs)) :
    s.core.word = .zero ∧ ∃ (xs : List BoardStep) (b : Board) (os : List BoardOut) (c : Core0) (os0 : List Out2),
    (Board.init (fun _ => 0) false (fun _ => 0) .zero 0 0).run 32 .arm (fun _ => 0) xs = .ok (some (b, os)) ∧ (converted xs).length = n ∧
    converted xs = (List.range (converted xs).length).map (fun k => Pio.sampleValue k (q k)) ∧ (∀ o ∈ os, o.behind ≤ 253) ∧ FastEnough xs ∧
    (b.rx.adc.behind = 0 ∧ b.rx.core.word = .zero ∧ b.main.fifo = [] ∧ b.main.pc = .top) ∧ (∀ x ∈ xs, ∀ r, x.reading = some r → r = 0) ∧
    (Core0.init (fun _ => 0) .zero 0 0).run .arm (fun _ => 0) ((outs.map C1Out.word).map fun w => calmIter 0 w) = .ok (c, os0) ∧
    os.flatMap BoardOut.reports = os0.flatMap Out2.reports := by
  obtain ⟨k1, k2⟩ := atOnceIdle_ok n 0 (by omega)
  have hr : SampleRange fun k => Pio.sampleValue k (q k) := fun k => C41_conversion k (q k)
  have h0 : SampleRange fun _ => 0 := fun _ => by show (-256 : Int) ≤ 0 ∧ (0 : Int) ≤ 255; decide
  obtain ⟨ad, e3⟩ := C101_samples (S := 32) (fun _ => 0) _ h0 hr false (atOnceIdle n) k1
  obtain ⟨is, e4⟩ := atOnceIdle_last 4992 (adcHist (fun _ => 0) fun k => Pio.sampleValue k (q k)) n 0
  have e5 := e1
  rw [e1, e4] at e3
  have hz : s.core.word = .zero := by
    cases hcr : (Core1.init false).run 32 (is ++ [{ ready := true, adc := .none }]) with
    | ub => rw [hcr] at e3; cases e3
    | ok r =>
      rw [hcr] at e3
      simp only [Res.bind, Res.ok.injEq, Prod.mk.injEq] at e3
      rw [e3.1]
      exact Core1.idle_last is hcr
  refine ⟨hz, ?_⟩
  obtain ⟨c, os0, h1'⟩ := calm_run (outs.map C1Out.word)
  have h1 := h1'
  rw [List.map_map] at h1
  obtain ⟨l1, l2, os, l3, l4, l5⟩ := prompt_run (S := 32) h0 hr n 0 (b := Board.init (fun _ => 0) false (fun _ => 0) .zero 0 0) e5 (AdcInv.start _ _ 426) rfl (by omega) rfl rfl rfl h1
  have hcv := eachAtOnce_converted (fun k => Pio.sampleValue k (q k)) n 0 outs l1
  have hlen : (converted (eachAtOnce (fun k => Pio.sampleValue k (q k)) 0 n outs)).length = n := by rw [hcv, nextSamples_len]
  have hval : converted (eachAtOnce (fun k => Pio.sampleValue k (q k)) 0 n outs) =
      (List.range (converted (eachAtOnce (fun k => Pio.sampleValue k (q k)) 0 n outs)).length).map (fun k => Pio.sampleValue k (q k)) := by
    rw [hlen, hcv, nextSamples]
    simp only [Nat.zero_add]
  have hfast := fastEnough_of_even (eachAtOnce_even (fun k => Pio.sampleValue k (q k)) n 0 outs)
  have hend : s.adc.behind = 0 ∧ s.core.word = .zero ∧ ([] : List Word) = [] ∧ Pc.top = Pc.top := ⟨l2, hz, rfl, rfl⟩
  exact ⟨_, _, os, c, os0, l3, hlen, hval, l4, hfast, hend, eachAtOnce_reading _ _ _ _, h1', l5⟩

/-- A run of the device that meets the hypotheses of C141 and C142 (1500 conversions, in which the packet 40 F0 is on the bus), and what the host is given. -/
theorem device_demo : ∃ (xs : List BoardStep) (b : Board) (os : List BoardOut),
    (Board.init (fun _ => 0) false (fun _ => 0) .zero 0 0).run 32 .arm (fun _ => 0) xs = .ok (some (b, os)) ∧ (converted xs).length = 1500 ∧
    converted xs = (List.range (converted xs).length).map (fun k => Pio.sampleValue k (rawCodes k)) ∧ (∀ o ∈ os, o.behind ≤ 253) ∧ FastEnough xs ∧
    (b.rx.adc.behind = 0 ∧ b.rx.core.word = .zero ∧ b.main.fifo = [] ∧ b.main.pc = .top) ∧ (∀ m ∈ rxMsgs (os.flatMap BoardOut.reports), m.status ≠ 4) ∧
    (rxMsgs (os.flatMap BoardOut.reports)).map lineShown = [(0, [0x40, 0xF0])] ∧ (∀ x ∈ xs, ∀ r, x.reading = some r → r = 0) := by
  obtain ⟨k1, k2⟩ := atOnceIdle_ok 1500 0 (by decide)
  obtain ⟨s, outs, e1, e2⟩ := C103_words (S := 32) (by decide) false (by decide) (by decide) rawCodes_ok (M := 400) (by decide) [rawPacket]
    (by intro p hp; rw [List.mem_singleton] at hp; subst hp; exact ⟨by decide, by decide, by decide⟩) (by decide) rawLine_carries
    (atOnceIdle 1500) k1 (by rw [k2]; decide) (by rw [k2]; decide)
  obtain ⟨hz, xs, b, os, c, os0, l3, hlen, hval, l4, hfast, hend, hread, h1, l5⟩ := at_once_device (by decide) e1
  rw [if_pos hz, List.append_nil] at e2
  rw [List.map_map] at h1
  have hwords : wordsOf (outs.map ((fun w => calmIter 0 w) ∘ C1Out.word)) = sent outs := by
    unfold wordsOf sent
    rw [List.filterMap_map]
    rfl
  have hdog : ∀ m ∈ rxMsgs (os.flatMap BoardOut.reports), m.status ≠ 4 := by
    rw [l5]
    refine calm_watch_opt (outs.map C1Out.word) os0 (some 0) (.inr rfl) ?_
    rw [List.map_map]
    refine C57_watchdog_partial .arm _ _ .zero 0 0 c _ os0 h1 (by decide) ?_ ?_
    · intro e he
      obtain ⟨w, -, rfl⟩ := List.mem_map.mp he
      have h : 0 < 4294966796000 := by decide
      exact ⟨h, h, h⟩
    · rw [hwords, e2]
      have key : ∀ w ∈ [wFree, wBusy, wByte 0x40, wByte 0xF0, wFree], WordOk w := by
        intro w hw
        simp only [List.mem_cons, List.not_mem_nil, or_false] at hw
        rcases hw with rfl | rfl | rfl | rfl | rfl <;> constructor <;> decide
      exact key
  have hps : ∀ p ∈ [rawPacket], p.RawOk ∧ p.bytes.length ≤ 31 := by
    intro p hp; rw [List.mem_singleton] at hp; subst hp; exact ⟨⟨by decide, by decide, by decide⟩, by decide⟩
  refine ⟨_, _, os, l3, hlen, hval, l4, hfast, hend, hdog, ?_, hread⟩
  exact C142_device (S := 32) (by decide) false (by decide) (by decide) rawCodes_ok (M := 400) (by decide) [rawPacket] hps (by decide) rawLine_carries .arm (fun _ => 0) .zero 0 0 _ _ os l3 hval
    (by rw [hlen]; decide) (by rw [hlen]; decide) (by rw [hlen]; decide) l4 hfast hend hdog

/-- A run of the receive core as in C140: 1501 iterations with 1500 samples, 5 words. -/
example : ∃ is c outs, (Core1.init false).run 32 is = .ok (c, outs) ∧ is.length = 1501 ∧ sent outs = [wFree, wBusy, wByte 0x40, wByte 0xF0, wFree] := by
  obtain ⟨k1, k2⟩ := atOnceIdle_ok 1500 0 (by decide)
  obtain ⟨s, outs, e1, e2⟩ := C103_words (S := 32) (by decide) false (by decide) (by decide) rawCodes_ok (M := 400) (by decide) [rawPacket]
    (by intro p hp; rw [List.mem_singleton] at hp; subst hp; exact ⟨by decide, by decide, by decide⟩) (by decide) rawLine_carries
    (atOnceIdle 1500) k1 (by rw [k2]; decide) (by rw [k2]; decide)
  have hr : SampleRange fun k => Pio.sampleValue k (rawCodes k) := fun k => C41_conversion k (rawCodes k)
  have h0 : SampleRange fun _ => 0 := fun _ => by show (-256 : Int) ≤ 0 ∧ (0 : Int) ≤ 255; decide
  obtain ⟨ad, e3⟩ := C101_samples (S := 32) (fun _ => 0) _ h0 hr false (atOnceIdle 1500) k1
  obtain ⟨is, e4⟩ := atOnceIdle_last 4992 (adcHist (fun _ => 0) fun k => Pio.sampleValue k (rawCodes k)) 1500 0
  have hlen : ∀ n k, (idealInputs 4992 (adcHist (fun _ => 0) fun k => Pio.sampleValue k (rawCodes k)) k k (atOnceIdle n)).length = n + 1 := by
    intro n
    induction n with
    | zero => intro k; show (idealInputs 4992 _ k k [(.poll 0, true)]).length = 1; simp [idealInputs]
    | succ n ih =>
      intro k
      have e : atOnceIdle (n + 1) = (.write, true) :: (.poll 0, true) :: atOnceIdle n := rfl
      rw [e]
      simp only [idealInputs, if_neg (show ¬ k + 1 = k by omega), Nat.add_zero, List.length_cons]
      rw [ih (k + 1)]
  have hl := hlen 1500 0
  rw [e1, e4] at e3
  rw [e4] at hl
  cases hcr : (Core1.init false).run 32 (is ++ [{ ready := true, adc := .none }]) with
  | ub => rw [hcr] at e3; cases e3
  | ok r =>
    rw [hcr] at e3
    simp only [Res.bind, Res.ok.injEq, Prod.mk.injEq] at e3
    have hz : s.core.word = .zero := by rw [e3.1]; exact Core1.idle_last is hcr
    rw [if_pos hz, List.append_nil, e3.2] at e2
    exact ⟨_, r.1, r.2, hcr, hl, e2⟩

end P1P2
