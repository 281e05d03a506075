import Verif.Props.HealHost
/-!
# C122: a complete case

An overrun, a reset of the ADC, noise and a full FIFO; then silence and the packet 40 F0, and the two cores interleaved.
-/
namespace P1P2

/-- The words of the receiving core during the history, whether one is pending, and whether it takes the line for busy. -/
def brokenSeen : Option (List Word × Bool × Bool) :=
  match RxSystem.run 32 (RxSystem.init (fun _ => 0) true) brokenHistory with
  | .ok (s, o) => some (sent o, decide (s.core.word = .zero), s.core.busy)
  | .ub => none

set_option maxRecDepth 20000 in
theorem brokenSeen_eq : brokenSeen = some ([wReset], true, true) := by decide +kernel

set_option maxRecDepth 20000 in
/-- All hypotheses of `C122_lines` are met: the history ends with the line taken for busy; the main loop takes each later word at once. -/
example : ∃ s o s' outs t os K, RxSystem.run 32 (RxSystem.init (fun _ => 0) true) brokenHistory = .ok (s, o) ∧ sent o = [wReset] ∧ s.core.busy = true ∧
    s.run 32 (scheduleEvents (fun k => lateSamples (k - 3)) 3 3 (atOnce 3200)) = .ok (s', outs) ∧
    (TwoCores.init (fun _ => 0) .zero 0 0 false).run .arm (fun _ => 0) (handEach (sent outs ++ (if s'.core.word = .zero then [] else [s'.core.word]))) = .ok (some (t, os)) ∧
    (rxMsgs (reportsOf os)).map lineShown = K ++ [(0, [0x40, 0xF0])] := by
  have hr : ∀ e ∈ brokenHistory, e.InRange := by
    intro e he
    unfold brokenHistory at he
    rcases List.mem_append.mp he with he | he
    · rw [List.eq_of_mem_replicate he]
      exact ⟨by decide, by decide⟩
    · simp only [List.mem_cons, List.not_mem_nil, or_false] at he
      rcases he with rfl | rfl | rfl | rfl | rfl | rfl | rfl <;> simp [RxEv.InRange]
  have h0 : SampleRange fun _ => 0 := fun _ => by show (-256 : Int) ≤ 0 ∧ (0 : Int) ≤ 255; decide
  obtain ⟨s, o, hrun⟩ := C41_no_undefined (S := 32) (by decide) (fun _ => 0) h0 true _ hr
  have hb := brokenState_adc
  have hs := brokenSeen_eq
  unfold brokenState at hb
  unfold brokenSeen at hs
  rw [hrun] at hb hs
  simp only [Option.map_some, Option.some.injEq, Prod.mk.injEq] at hb hs
  obtain ⟨k1, k2⟩ := atOnce_ok 3200 3 (by decide)
  obtain ⟨s', outs, Y, e1, -, -⟩ := C122_words (S := 32) (by decide) h0 (p1 := []) (p2 := brokenHistory) (fun e he => (by cases he)) hr rfl (Or.inl rfl) hrun
    (by decide) (by decide) lateSamples_range lateSamples_ok (M := 2000) (by decide) (ps := [latePacket])
    (by intro p hp; rw [List.mem_singleton] at hp; subst hp; exact ⟨by decide, by decide, by decide⟩) (by decide) lateLine_carries
    (by intro p hp; cases hp; decide) hb.1.symm hb.2.symm k1 (N := 3200) (by rw [k2]) (by decide) (by decide) (by decide)
  obtain ⟨is1, w1⟩ := rx_core _ hrun
  obtain ⟨is2, w2⟩ := rx_core _ e1
  have w3 := (words_wf w2 (words_wf w1 Word.Wf.zero).2).1
  obtain ⟨t, os, t1, t2, t3, t4, t5⟩ := handEach_ok _ w3
  obtain ⟨K, hK⟩ := C122_lines (S := 32) (by decide) h0 (p1 := []) (p2 := brokenHistory) (fun e he => (by cases he)) hr rfl (Or.inl rfl) hrun
    (by decide) (by decide) lateSamples_range lateSamples_ok (M := 2000) (by decide) (ps := [latePacket])
    (by intro p hp; rw [List.mem_singleton] at hp; subst hp; exact ⟨⟨by decide, by decide, by decide⟩, by decide⟩) (by decide) lateLine_carries
    (by intro p hp; cases hp; decide) hb.1.symm hb.2.symm k1 (N := 3200) (by rw [k2]) (by decide) (by decide) (by decide) e1
    .arm (fun _ => 0) (es0 := []) (os0 := []) (tc := TwoCores.init (fun _ => 0) .zero 0 0 false) ⟨_, _, _, rfl⟩ rfl rfl (fun hf => (by rw [hs.2.2] at hf; cases hf))
    t1 (handEach_pushes _) t2 t3 t4 t5
  exact ⟨s, o, s', outs, t, os, K, hrun, hs.1, hs.2.2, e1, t1, hK⟩

end P1P2
