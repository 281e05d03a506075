import Verif.Props.HealLines
import Verif.Props.MainLoop3
/-!
# A main loop that takes every word at once

For examples: whatever well-formed words the receiving core hands over, there is an interleaving in which none is dropped and the watchdog does not report.
-/
namespace P1P2

/-- Each word is handed over and taken in the next iteration; all clock readings are 0. -/
def handEach (ws : List Word) : List TwoStep := ws.flatMap fun w => [.push w, .first (env1 0 []), .clear, .second (env2 0 (some w))]

theorem handEach_pushes (ws : List Word) : pushes (handEach ws) = ws := by
  induction ws with
  | nil => rfl
  | cons w ws ih =>
    show pushes ([.push w, .first (env1 0 []), .clear, .second (env2 0 (some w))] ++ handEach ws) = _
    unfold pushes at ih ⊢
    rw [List.filterMap_append, ih]; rfl

theorem calm_words (ws : List Word) : wordsOf (ws.map fun w => calmIter 0 (some w)) = ws := by
  induction ws with
  | nil => rfl
  | cons w ws ih =>
    unfold wordsOf at ih ⊢
    rw [List.map_cons, List.filterMap_cons, ih]; rfl

/-- The iterations of `handEach`, one after the other. -/
theorem handEach_run : ∀ (ws : List Word) {tc : TwoCores} {c : Core0} {os : List Out2}, tc.pc = .top → tc.fifo = [] → tc.fifoErr = false →
    tc.c0.run .arm (fun _ => 0) (ws.map fun w => calmIter 0 (some w)) = .ok (c, os) →
    ∃ os', tc.run .arm (fun _ => 0) (handEach ws) = .ok (some ({ tc with c0 := c }, os')) ∧ drops os' = 0 ∧ reportsOf os' = os.flatMap Out2.reports := by
  intro ws
  induction ws with
  | nil =>
    intro tc c os _ _ _ h
    simp only [List.map_nil, Core0.run, Res.ok.injEq, Prod.mk.injEq] at h
    obtain ⟨rfl, rfl⟩ := h
    exact ⟨[], rfl, rfl, rfl⟩
  | cons w ws ih =>
    intro tc c os hp hf he h
    rw [List.map_cons, Core0.run, Res.bind_eq_ok] at h
    obtain ⟨r, h1, h⟩ := h
    rw [Res.bind_eq_ok] at h
    obtain ⟨r', h2, h⟩ := h
    simp only [Res.ok.injEq, Prod.mk.injEq] at h
    obtain ⟨rfl, rfl⟩ := h
    unfold Core0.iter at h1
    rw [Res.bind_eq_ok] at h1
    obtain ⟨a, p1, h1⟩ := h1
    rw [Res.bind_eq_ok] at h1
    obtain ⟨b, p2, h1⟩ := h1
    simp only [Res.ok.injEq] at h1
    subst h1
    obtain ⟨os', i1, i2, i3⟩ := ih (tc := { tc with c0 := b.1 }) (c := r'.1) (os := r'.2) hp hf he h2
    refine ⟨{ reports := [], dropped := false } :: { reports := a.2, dropped := false } :: { reports := [], dropped := false } :: { reports := b.2.reports, dropped := false } :: os', ?_, ?_, ?_⟩
    · show tc.run .arm (fun _ => 0) (.push w :: .first (env1 0 []) :: .clear :: .second (env2 0 (some w)) :: handEach ws) = _
      obtain ⟨c0, fifo, fe, pc⟩ := tc
      have hp : pc = .top := hp
      have hf : fifo = [] := hf
      have he : fe = false := he
      subst hp hf he
      have p1 : c0.part1 .arm (fun _ => 0) (env1 0 []) = .ok a := p1
      have p2 : a.1.part2 .arm (fun _ => 0) (env2 0 (some w)) = .ok b := p2
      have s1 : TwoCores.step .arm (fun _ => 0) ⟨c0, [], false, .top⟩ (.push w) = .ok (some (⟨c0, [w], false, .top⟩, { reports := [], dropped := false })) := rfl
      have s2 : TwoCores.step .arm (fun _ => 0) ⟨c0, [w], false, .top⟩ (.first (env1 0 [])) = .ok (some (⟨a.1, [w], false, .clear⟩, { reports := a.2, dropped := false })) := by
        simp only [TwoCores.step]
        rw [if_pos ⟨trivial, rfl⟩, p1]; rfl
      have s3 : TwoCores.step .arm (fun _ => 0) ⟨a.1, [w], false, .clear⟩ .clear = .ok (some (⟨a.1, [w], false, .rest⟩, { reports := [], dropped := false })) := by
        simp only [TwoCores.step]
        simp
      have s4 : TwoCores.step .arm (fun _ => 0) ⟨a.1, [w], false, .rest⟩ (.second (env2 0 (some w))) = .ok (some (⟨b.1, [], false, .top⟩, { reports := b.2.reports, dropped := false })) := by
        simp only [TwoCores.step]
        rw [if_pos ⟨trivial, rfl⟩, p2]; rfl
      rw [TwoCores.run, s1, Res.ok_bind]; dsimp only
      rw [TwoCores.run, s2, Res.ok_bind]; dsimp only
      rw [TwoCores.run, s3, Res.ok_bind]; dsimp only
      rw [TwoCores.run, s4, Res.ok_bind]; dsimp only
      rw [i1]
      rfl
    · simp only [drops, List.countP_cons] at i2 ⊢
      simp [i2]
    · simp only [reportsOf, List.flatMap_cons] at i3 ⊢
      rw [i3]; simp

/-- Without time passing the watchdog does not report. -/
theorem calm_watch : ∀ (ws : List Word) (os : List Out2) (since : Option Nat), (since = none ∨ since = some 0) → WatchdogOk since (ws.map fun w => calmIter 0 (some w)) os →
    ∀ m ∈ rxMsgs (os.flatMap Out2.reports), m.status ≠ 4 := by
  intro ws
  induction ws with
  | nil =>
    intro os since _ h
    cases os with
    | nil => intro m hm; cases hm
    | cons o os => cases h
  | cons w ws ih =>
    intro os since hs h
    cases os with
    | nil => cases h
    | cons o os =>
      rw [List.map_cons] at h
      obtain ⟨h1, h2⟩ := h
      have ht : tellsBusy o = false := by
        cases hb : tellsBusy o with
        | false => rfl
        | true =>
          obtain ⟨t, -, ht⟩ := h1.mp hb
          have : t + 500 < 0 / 1000 := ht
          omega
      rw [ht] at h2
      have hn : busyNext since (calmIter 0 (some w)) false = none ∨ busyNext since (calmIter 0 (some w)) false = some 0 := by
        unfold busyNext calmIter env1 env2
        rcases hs with rfl | rfl <;> cases h1 : w.lineFree <;> cases h2 : w.lineBusy <;> simp [h1, h2]
      intro m hm
      rw [List.flatMap_cons, rxMsgs_append] at hm
      rcases List.mem_append.mp hm with hm | hm
      · intro h4
        have : tellsBusy o = true := List.any_eq_true.mpr ⟨m, hm, by simp [h4]⟩
        rw [ht] at this; cases this
      · exact ih os _ hn h2 m hm

/-- Every list of well-formed words can be handed over to the main loop so that no word is dropped and the watchdog does not report. -/
theorem handEach_ok (ws : List Word) (hw : ∀ w ∈ ws, WordOk w) : ∃ t os, (TwoCores.init (fun _ => 0) .zero 0 0 false).run .arm (fun _ => 0) (handEach ws) = .ok (some (t, os)) ∧
    drops os = 0 ∧ t.pc = .top ∧ t.fifo = [] ∧ ∀ m ∈ rxMsgs (reportsOf os), m.status ≠ 4 := by
  have hl : hostLines (ws.map fun w => calmIter 0 (some w)) = [] := by
    obtain ⟨rx, h1, -, -⟩ := hostLines_eq (ws.map fun w => calmIter 0 (some w))
    generalize hostLines (ws.map fun w => calmIter 0 (some w)) = ls at h1
    have key : ∀ n : Nat, Host.polls (LineRecv.mk0 0) (List.replicate n []) = .ok (LineRecv.mk0 0, []) := by
      intro n
      induction n with
      | zero => rfl
      | succ n ih =>
        rw [List.replicate_succ, Host.polls]
        rw [show Host.poll (LineRecv.mk0 0) [] = .ok (LineRecv.mk0 0, []) from rfl, Res.ok_bind]
        rw [ih]; rfl
    have e : ((ws.map fun w => calmIter 0 (some w)).map fun e => e.1.chunk) = List.replicate ws.length [] := by
      rw [List.map_map]
      exact List.map_const' ..
    rw [e, key] at h1
    simp only [Res.ok.injEq, Prod.mk.injEq] at h1
    exact h1.2.symm
  obtain ⟨c, os, h1⟩ := C84_target_partial (fun _ => 0) .zero 0 0 (ws.map fun w => calmIter 0 (some w)) (by rw [hl]; intro s hs; cases hs)
  obtain ⟨os', h2, h3, h4⟩ := handEach_run ws (tc := TwoCores.init (fun _ => 0) .zero 0 0 false) rfl rfl rfl h1
  refine ⟨_, os', h2, h3, rfl, rfl, ?_⟩
  rw [h4]
  refine calm_watch ws os (some 0) (Or.inr rfl) (C57_watchdog_partial .arm _ _ .zero 0 0 c _ os h1 (by decide) ?_ (by rw [calm_words]; exact hw))
  intro e he
  obtain ⟨w, -, rfl⟩ := List.mem_map.mp he
  have h : 0 < 4294966796000 := by decide
  exact ⟨h, h, h⟩

end P1P2
