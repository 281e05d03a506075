import Verif.Spec.LedRace
/-!
# C131: the LED manager with the timer interrupt inside its functions
-/
namespace P1P2

theorem LedRace.run_append (s : LedRace) (xs ys : List LedRaceStep) :
    s.run (xs ++ ys) = (s.run xs).bind (fun t => t.run ys) := by
  induction xs generalizing s with
  | nil => rfl
  | cons x xs ih =>
    simp only [List.cons_append, LedRace.run]
    cases s.next x with
    | none => rfl
    | some t => exact ih t

theorem LedRace.run_snoc {s t : LedRace} {xs : List LedRaceStep} {x : LedRaceStep} (h : s.run (xs ++ [x]) = some t) :
    ∃ u, s.run xs = some u ∧ u.next x = some t := by
  rw [LedRace.run_append, Option.bind_eq_some_iff] at h
  obtain ⟨u, h1, h2⟩ := h
  refine ⟨u, h1, ?_⟩
  simp only [LedRace.run] at h2
  cases h3 : u.next x with
  | none => rw [h3] at h2; cases h2
  | some v => rw [h3] at h2; exact h2

/-- The two halves of a call without an interrupt in between are the atomic report of the other theorems. -/
theorem stores_report (v : LedState) (e : LedEvent) : (v.stores e).getD v = v.report e := by
  cases v <;> cases e <;> rfl

theorem stores_tells (v w : LedState) (e : LedEvent) (h : v.stores e = some w) : w.tells e ∧ w.severity = e.severity := by
  cases v <;> cases e <;> simp [LedState.stores] at h <;> subst h <;> simp [LedState.tells, LedState.severity, LedEvent.severity]

theorem no_store_tells (v : LedState) (e : LedEvent) (h : v.stores e = none) : v.tells e := by
  cases v <;> cases e <;> simp [LedState.stores] at h <;> simp [LedState.tells]

theorem report_tells (v : LedState) (e f : LedEvent) (h : v.tells e) : (v.report f).tells e := by
  cases v <;> cases e <;> simp [LedState.tells] at h <;> cases f <;> simp [LedState.tells, LedState.report]

/-- without refresh, what is told stays told -/
theorem keep_tells (e : LedEvent) : ∀ (xs : List LedRaceStep) (s t : LedRace), LedRaceStep.refresh ∉ xs →
    (∀ f v, s.call = some (f, v) → v = s.m.newState) → s.m.newState.tells e → s.run xs = some t → t.m.newState.tells e := by
  intro xs
  induction xs with
  | nil => intro s t _ _ h hr; cases hr; exact h
  | cons x xs ih =>
    intro s t hn hc h hr
    have hxs : LedRaceStep.refresh ∉ xs := fun h => hn (List.mem_cons_of_mem _ h)
    simp only [LedRace.run] at hr
    cases x with
    | load f =>
      cases hcall : s.call with
      | some p => simp only [LedRace.next, hcall] at hr; cases hr
      | none =>
        simp only [LedRace.next, hcall] at hr
        exact ih { s with call := some (f, s.m.newState) } t hxs (by rintro g v ⟨⟩; rfl) h hr
    | store =>
      cases hcall : s.call with
      | none => simp only [LedRace.next, hcall] at hr; cases hr
      | some p =>
        obtain ⟨f, v⟩ := p
        simp only [LedRace.next, hcall] at hr
        have hv := hc f v hcall
        subst hv
        refine ih _ t hxs (by rintro g w ⟨⟩) ?_ hr
        show ((s.m.newState.stores f).getD s.m.newState).tells e
        rw [stores_report]
        exact report_tells _ _ _ h
    | refresh => exact absurd (List.mem_cons_self ..) hn
    | tickR => exact ih { s with m := { s.m with r := s.m.r.tick } } t hxs hc h hr
    | tickT => exact ih { s with m := { s.m with t := s.m.t.tick } } t hxs hc h hr
    | tickP => exact ih { s with m := { s.m with p := s.m.p.tick } } t hxs hc h hr

/-- while a call runs: the timers only -/
theorem in_call (e : LedEvent) (v : LedState) : ∀ (xs : List LedRaceStep) (s t : LedRace), LedRaceStep.refresh ∉ xs →
    LedRaceStep.store ∉ xs → s.call = some (e, v) → s.m.newState = v → s.run xs = some t →
    t.call = some (e, v) ∧ t.m.newState = v := by
  intro xs
  induction xs with
  | nil => intro s t _ _ h1 h2 hr; cases hr; exact ⟨h1, h2⟩
  | cons x xs ih =>
    intro s t hn hs h1 h2 hr
    have hxs : LedRaceStep.refresh ∉ xs := fun h => hn (List.mem_cons_of_mem _ h)
    have hss : LedRaceStep.store ∉ xs := fun h => hs (List.mem_cons_of_mem _ h)
    simp only [LedRace.run] at hr
    cases x with
    | load f => simp only [LedRace.next, h1] at hr; cases hr
    | store => exact absurd (List.mem_cons_self ..) hs
    | refresh => exact absurd (List.mem_cons_self ..) hn
    | tickR => exact ih { s with m := { s.m with r := s.m.r.tick } } t hxs hss h1 h2 hr
    | tickT => exact ih { s with m := { s.m with t := s.m.t.tick } } t hxs hss h1 h2 hr
    | tickP => exact ih { s with m := { s.m with p := s.m.p.tick } } t hxs hss h1 h2 hr

theorem keep_call (e : LedEvent) (v : LedState) : ∀ (xs : List LedRaceStep) (s t : LedRace), LedRaceStep.store ∉ xs →
    s.call = some (e, v) → s.run xs = some t → t.call = some (e, v) := by
  intro xs
  induction xs with
  | nil => intro s t _ h1 hr; cases hr; exact h1
  | cons x xs ih =>
    intro s t hs h1 hr
    have hss : LedRaceStep.store ∉ xs := fun h => hs (List.mem_cons_of_mem _ h)
    simp only [LedRace.run] at hr
    cases x with
    | load f => simp only [LedRace.next, h1] at hr; cases hr
    | store => exact absurd (List.mem_cons_self ..) hs
    | refresh => exact ih { s with m := s.m.update } t hss h1 hr
    | tickR => exact ih { s with m := { s.m with r := s.m.r.tick } } t hss h1 hr
    | tickT => exact ih { s with m := { s.m with t := s.m.t.tick } } t hss h1 hr
    | tickP => exact ih { s with m := { s.m with p := s.m.p.tick } } t hss h1 hr

theorem first_split {α : Type} [DecidableEq α] {x : α} : ∀ {l : List α}, x ∈ l → ∃ a b, l = a ++ [x] ++ b ∧ x ∉ a := by
  intro l
  induction l with
  | nil => intro h; cases h
  | cons y l ih =>
    intro h
    by_cases hy : x = y
    · exact ⟨[], l, by rw [hy]; rfl, by simp⟩
    · obtain ⟨a, b, h1, h2⟩ := ih ((List.mem_cons.mp h).resolve_left hy)
      exact ⟨y :: a, b, by rw [h1]; rfl, by simp [hy, h2]⟩

/-- The state shown after a refresh. -/
theorem next_refresh {s t : LedRace} (h : s.next .refresh = some t) : t.m.state = s.m.newState := by
  cases h; rfl

/-- **C131, nothing is missed**: in every history, whatever the main loop reports and wherever the timer interrupt strikes: every
report is told by the first refresh after it or, if a refresh struck within the call, by the first such refresh. -/
theorem C131_told_partial (pre mid post : List LedRaceStep) (e : LedEvent) (t : LedRace) (hs : LedRaceStep.store ∉ mid)
    (hp : LedRaceStep.refresh ∉ post)
    (h : LedRace.init.run (pre ++ [.load e] ++ mid ++ [.store] ++ post ++ [.refresh]) = some t) :
    t.m.state.tells e ∨ ∃ mid1 mid2 u, mid = mid1 ++ [.refresh] ++ mid2 ∧ .refresh ∉ mid1 ∧
      LedRace.init.run (pre ++ [.load e] ++ mid1 ++ [.refresh]) = some u ∧ u.m.state.tells e := by
  obtain ⟨s5, h, h6⟩ := LedRace.run_snoc h
  rw [LedRace.run_append, Option.bind_eq_some_iff] at h
  obtain ⟨s4, h, h5⟩ := h
  obtain ⟨s3, h, h4⟩ := LedRace.run_snoc h
  rw [LedRace.run_append, Option.bind_eq_some_iff] at h
  obtain ⟨s2, h, h3⟩ := h
  obtain ⟨s1, h1, h2⟩ := LedRace.run_snoc h
  have hc2 : s2.call = some (e, s1.m.newState) ∧ s2.m.newState = s1.m.newState := by
    cases hcall : s1.call with
    | some p => simp only [LedRace.next, hcall] at h2; cases h2
    | none => simp only [LedRace.next, hcall] at h2; cases h2; exact ⟨rfl, rfl⟩
  have hc3 := keep_call e _ mid s2 s3 hs hc2.1 h3
  have hs4 : s4.call = none ∧ s4.m.newState = (s1.m.newState.stores e).getD s3.m.newState := by
    simp only [LedRace.next, hc3] at h4
    cases h4; exact ⟨rfl, rfl⟩
  have fin : s4.m.newState.tells e → t.m.state.tells e := by
    intro h
    rw [next_refresh h6]
    exact keep_tells e post s4 s5 hp (by rw [hs4.1]; rintro f v ⟨⟩) h h5
  cases hst : s1.m.newState.stores e with
  | some w =>
    left
    apply fin
    rw [hs4.2, hst]
    exact (stores_tells _ _ _ hst).1
  | none =>
    have ht := no_store_tells _ _ hst
    by_cases hr : LedRaceStep.refresh ∈ mid
    · right
      obtain ⟨mid1, mid2, hm, hn⟩ := first_split hr
      have hm3 := h3
      rw [hm, List.append_assoc, LedRace.run_append, Option.bind_eq_some_iff] at hm3
      obtain ⟨a, ha, hb⟩ := hm3
      simp only [List.singleton_append, LedRace.run, LedRace.next] at hb
      have hns : LedRaceStep.store ∉ mid1 := fun h => hs (by rw [hm]; simp [h])
      have hin := (in_call e _ mid1 s2 a hn hns hc2.1 hc2.2 ha).2
      refine ⟨mid1, mid2, { a with m := a.m.update }, hm, hn, ?_, ?_⟩
      · rw [LedRace.run_append, LedRace.run_append, h]
        simp only [Option.bind_some, ha, LedRace.run, LedRace.next]
      · show a.m.newState.tells e
        rw [hin]; exact ht
    · left
      apply fin
      rw [hs4.2, hst]
      have := (in_call e _ mid s2 s3 hr hs hc2.1 hc2.2 h3).2
      show s3.m.newState.tells e
      rw [this]; exact ht

/-- **C131, nothing of that severity is invented**: whatever a refresh shows, a call of the same severity was completed since the
previous refresh (or the start). -/
theorem C131_true_partial (pre mid : List LedRaceStep) (s t : LedRace) (hm : LedRaceStep.refresh ∉ mid)
    (hp : pre = [] ∨ ∃ p, pre = p ++ [.refresh]) (hs : LedRace.init.run pre = some s)
    (h : s.run (mid ++ [.refresh]) = some t) (hi : t.m.state ≠ .idle) :
    ∃ e ∈ completed s mid, e.severity = t.m.state.severity := by
  have h0 : s.m.newState = .idle := by
    rcases hp with rfl | ⟨p, rfl⟩
    · cases hs; rfl
    · obtain ⟨u, _, h2⟩ := LedRace.run_snoc hs
      cases h2; rfl
  obtain ⟨u, h1, h2⟩ := LedRace.run_snoc h
  rw [next_refresh h2] at hi ⊢
  have key : ∀ (mid : List LedRaceStep) (s u : LedRace), LedRaceStep.refresh ∉ mid → s.run mid = some u →
      u.m.newState = s.m.newState ∨ ∃ e ∈ completed s mid, e.severity = u.m.newState.severity := by
    intro mid
    induction mid with
    | nil => intro s u _ h; cases h; exact .inl rfl
    | cons x xs ih =>
      intro s u hn hr
      have hxs : LedRaceStep.refresh ∉ xs := fun h => hn (List.mem_cons_of_mem _ h)
      simp only [LedRace.run] at hr
      cases hx : s.next x with
      | none => rw [hx] at hr; cases hr
      | some v =>
        rw [hx] at hr
        have hsub : ∀ e ∈ completed v xs, e ∈ completed s (x :: xs) := by
          intro e he
          simp only [completed, hx]
          exact List.mem_append_right _ he
        rcases ih v u hxs hr with h | ⟨e, he, h⟩
        · have hv : v.m.newState = s.m.newState ∨ ∃ e ∈ completed s (x :: xs), e.severity = v.m.newState.severity := by
            cases x with
            | load f =>
              cases hc : s.call with
              | some p => simp only [LedRace.next, hc] at hx; cases hx
              | none => simp only [LedRace.next, hc] at hx; cases hx; exact .inl rfl
            | store =>
              cases hc : s.call with
              | none => simp only [LedRace.next, hc] at hx; cases hx
              | some p =>
                obtain ⟨f, w⟩ := p
                have hx' := hx
                simp only [LedRace.next, hc] at hx
                cases hx
                cases hw : w.stores f with
                | none => left; rfl
                | some z =>
                  right
                  refine ⟨f, ?_, (stores_tells _ _ _ hw).2.symm⟩
                  simp [completed, hc]
            | refresh => exact absurd (List.mem_cons_self ..) hn
            | tickR => cases hx; exact .inl rfl
            | tickT => cases hx; exact .inl rfl
            | tickP => cases hx; exact .inl rfl
          rcases hv with h2 | ⟨e, he, h2⟩
          · exact .inl (h.trans h2)
          · exact .inr ⟨e, he, by rw [h]; exact h2⟩
        · exact .inr ⟨e, hsub e he, h⟩
  rcases key mid s u hm h1 with h | h
  · exact absurd (h.trans h0) hi
  · exact h

/-- **C131 is violated for the direction**: the main loop reports a reception; the timer strikes after it has found that a
transmission was reported before.  The transmission is shown by this refresh, and once more by the next one, although nothing
was transmitted since (the only report of that period is a reception). -/
theorem C131_refuted : ∃ pre mid s t, LedRace.init.run (pre ++ [.refresh]) = some s ∧ LedRaceStep.refresh ∉ mid ∧
    s.run (mid ++ [.refresh]) = some t ∧ completed s mid = [.activityRx] ∧ t.m.state = .rxTx := by
  refine ⟨[.load .activityTx, .store, .load .activityRx], [.store],
    (LedRace.init.run [.load .activityTx, .store, .load .activityRx, .refresh]).get (by decide), _, by decide, by decide, rfl, by decide, by decide⟩

/-- A refresh within a call: the error is told by the refresh after the call; the activity before it by the one within. -/
example : ∃ t, LedRace.init.run ([.load .activityRx, .store] ++ [.load .errorRx] ++ [.refresh, .tickP] ++ [.store] ++
    [.load .activityTx, .store] ++ [.refresh]) = some t ∧ t.m.state = .rxError ∧ t.m.p.mode = .fast := by
  refine ⟨_, rfl, ?_, ?_⟩ <;> decide

end P1P2
