import Verif.Spec.Led
/-!
# C70-C72: LEDs
-/
namespace P1P2

def LedManager.run (m : LedManager) (xs : List LedStep) : LedManager := xs.foldl LedManager.step m

theorem lastOf_snoc (p : LedEvent → Bool) (es : List LedEvent) (e : LedEvent) :
    lastOf p (es ++ [e]) = if p e then some e else lastOf p es := by
  unfold lastOf
  rw [List.filter_append]
  cases h : p e <;> simp [h]

theorem lastOf_severe (es : List LedEvent) : lastOf LedEvent.severe es = none ∨ lastOf LedEvent.severe es = some .internal ∨
    lastOf LedEvent.severe es = some .bus := by
  cases h : lastOf LedEvent.severe es with
  | none => exact Or.inl rfl
  | some e =>
    have : e ∈ es.filter LedEvent.severe := List.mem_of_getLast? h
    have := (List.mem_filter.mp this).2
    cases e <;> simp_all [LedEvent.severe, LedEvent.transmission]

theorem lastOf_transmission (es : List LedEvent) : lastOf LedEvent.transmission es = none ∨
    lastOf LedEvent.transmission es = some .errorRx ∨ lastOf LedEvent.transmission es = some .errorTx := by
  cases h : lastOf LedEvent.transmission es with
  | none => exact Or.inl rfl
  | some e =>
    have : e ∈ es.filter LedEvent.transmission := List.mem_of_getLast? h
    have := (List.mem_filter.mp this).2
    cases e <;> simp_all [LedEvent.severe, LedEvent.transmission]

/-- One more report. -/
theorem shown_snoc (es : List LedEvent) (e : LedEvent) : shown (es ++ [e]) = (shown es).report e := by
  unfold shown
  rw [lastOf_snoc, lastOf_snoc]
  rcases lastOf_severe es with h | h | h <;> rcases lastOf_transmission es with k | k | k <;> rw [h, k] <;>
    by_cases ha : LedEvent.activityRx ∈ es <;> by_cases hb : LedEvent.activityTx ∈ es <;>
    cases e <;> simp [LedEvent.severe, LedEvent.transmission, LedState.report, ha, hb]

theorem run_newState : ∀ (xs : List LedStep) (m : LedManager) (es : List LedEvent), LedStep.refresh ∉ xs → m.newState = shown es →
    (m.run xs).newState = shown (es ++ eventsOf xs) := by
  intro xs
  induction xs with
  | nil => intro m es _ h; simpa [eventsOf, LedManager.run] using h
  | cons x xs ih =>
    intro m es hn h
    have hx : x ≠ .refresh := fun hc => hn (hc ▸ List.mem_cons_self ..)
    have hxs : LedStep.refresh ∉ xs := fun hc => hn (List.mem_cons_of_mem _ hc)
    cases x with
    | report e =>
      have := ih (m.step (.report e)) (es ++ [e]) hxs (by rw [shown_snoc, ← h]; rfl)
      simpa [LedManager.run, eventsOf] using this
    | refresh => exact absurd rfl hx
    | tickR => exact ih (m.step .tickR) es hxs h
    | tickT => exact ih (m.step .tickT) es hxs h
    | tickP => exact ih (m.step .tickP) es hxs h

theorem led_set_mode (l : Led) (s : LedMode) : (l.set s).mode = s := by
  unfold Led.set
  split
  · cases s <;> rfl
  · rename_i h; exact Decidable.not_not.mp h

/-- The reports since the last refresh decide, in every history. -/
theorem refresh_eq (pre mid : List LedStep) (hm : LedStep.refresh ∉ mid) (hp : pre = [] ∨ ∃ p, pre = p ++ [.refresh]) :
    (LedManager.init.run (pre ++ mid)).newState = shown (eventsOf mid) := by
  have h0 : (LedManager.init.run pre).newState = shown [] := by
    rcases hp with rfl | ⟨p, rfl⟩
    · rfl
    · unfold LedManager.run; rw [List.foldl_append]; rfl
  have := run_newState mid (LedManager.init.run pre) [] hm h0
  rw [List.nil_append] at this
  unfold LedManager.run at *
  rw [List.foldl_append, this]

/-- **C70.** At every refresh, in every history, the state shown is the one that `shown` demands for the events since the previous
refresh (or the start). -/
theorem C70 (pre mid : List LedStep) (hm : LedStep.refresh ∉ mid) (hp : pre = [] ∨ ∃ p, pre = p ++ [.refresh]) :
    (LedManager.init.run (pre ++ mid ++ [.refresh])).state = shown (eventsOf mid) := by
  have := refresh_eq pre mid hm hp
  unfold LedManager.run at *
  rw [List.foldl_append]
  exact this

/-- **C70**, in words: a severe error among the events is shown as one; without it a transmission error is; otherwise activity. -/
theorem C70_severity (es : List LedEvent) :
    ((∃ e ∈ es, e.severe = true) ↔ (shown es = .systemError ∨ shown es = .busError)) ∧
    ((∀ e ∈ es, e.severe = false) → ((∃ e ∈ es, e.transmission = true) ↔ (shown es = .rxError ∨ shown es = .txError))) := by
  have hs : (∃ e ∈ es, e.severe = true) ↔ lastOf LedEvent.severe es ≠ none := by
    unfold lastOf
    rw [ne_eq, List.getLast?_eq_none_iff, List.filter_eq_nil_iff]
    constructor
    · intro ⟨e, he, hs⟩ hc; exact hc e he hs
    · intro hc
      apply Classical.byContradiction
      intro hn
      exact hc fun e he hs => hn ⟨e, he, hs⟩
  have ht : (∃ e ∈ es, e.transmission = true) ↔ lastOf LedEvent.transmission es ≠ none := by
    unfold lastOf
    rw [ne_eq, List.getLast?_eq_none_iff, List.filter_eq_nil_iff]
    constructor
    · intro ⟨e, he, hs⟩ hc; exact hc e he hs
    · intro hc
      apply Classical.byContradiction
      intro hn
      exact hc fun e he hs => hn ⟨e, he, hs⟩
  have hno : (∀ e ∈ es, e.severe = false) → lastOf LedEvent.severe es = none := by
    intro h
    apply Classical.byContradiction
    intro hc
    obtain ⟨e, he, k⟩ := hs.mpr hc
    rw [h e he] at k; cases k
  refine ⟨hs.trans ?_, fun h => ht.trans ?_⟩
  · unfold shown
    rcases lastOf_severe es with h | h | h <;> rcases lastOf_transmission es with k | k | k <;> rw [h, k] <;>
      by_cases ha : LedEvent.activityRx ∈ es <;> by_cases hb : LedEvent.activityTx ∈ es <;> simp [ha, hb]
  · have h := hno h
    unfold shown
    rcases lastOf_transmission es with k | k | k <;> rw [h, k] <;>
      by_cases ha : LedEvent.activityRx ∈ es <;> by_cases hb : LedEvent.activityTx ∈ es <;> simp [ha, hb]

/-- A period with activity after an error: the error is shown. -/
example : shown [.activityRx, .errorRx, .activityTx, .activityRx] = .rxError ∧ shown [.activityRx, .activityTx] = .rxTx ∧
    shown [.internal, .errorRx, .bus, .activityRx] = .busError := by decide +kernel

/-- **C71.** At every refresh, in every history, the three LEDs are set to the documented pattern of the state shown; the pattern of the
undocumented bus error is different from all documented ones, and all patterns are different. -/
theorem C71 (pre mid : List LedStep) (hm : LedStep.refresh ∉ mid) (hp : pre = [] ∨ ∃ p, pre = p ++ [.refresh]) :
    let m := LedManager.init.run (pre ++ mid ++ [.refresh])
    (∀ d, documented (shown (eventsOf mid)) = some d → (m.r.mode, m.t.mode, m.p.mode) = d) ∧
    (shown (eventsOf mid) = .busError → (m.r.mode, m.t.mode, m.p.mode) = (.on, .on, .off)) := by
  intro m
  have h := refresh_eq pre mid hm hp
  have hmode : (m.r.mode, m.t.mode, m.p.mode) = (shown (eventsOf mid)).modes := by
    show ((LedManager.init.run (pre ++ mid ++ [.refresh])).r.mode, (LedManager.init.run (pre ++ mid ++ [.refresh])).t.mode,
      (LedManager.init.run (pre ++ mid ++ [.refresh])).p.mode) = _
    have e : LedManager.init.run (pre ++ mid ++ [.refresh]) = (LedManager.init.run (pre ++ mid)).update := by
      unfold LedManager.run; rw [List.foldl_append]; rfl
    rw [e]
    unfold LedManager.update
    dsimp only
    rw [led_set_mode, led_set_mode, led_set_mode, h]
  rw [hmode]
  refine ⟨?_, ?_⟩
  · intro d hd
    generalize shown (eventsOf mid) = s at hd
    cases s <;> first | cases hd; rfl | cases hd
  · intro hb; rw [hb]; rfl

/-- **C71**: the patterns of different states are different. -/
theorem C71_distinct (s s' : LedState) (h : s.modes = s'.modes) : s = s' := by
  cases s <;> cases s' <;> first | rfl | cases h

/-- Operations on one LED. -/
inductive LedOp where
  | set (m : LedMode)
  | tick

def Led.op (l : Led) : LedOp → Led
  | .set m => l.set m
  | .tick => l.tick

def ticksOf : List LedOp → Nat
  | [] => 0
  | .tick :: xs => ticksOf xs + 1
  | .set _ :: xs => ticksOf xs

/-- The counter and the level `n` ticks after the mode was set. -/
def Led.At (m : LedMode) (n : Nat) (l : Led) : Prop :=
  l.mode = m ∧ l.pin = ledLevel m n ∧ (m = .slow → l.counter = n % 5)

theorem Led.At.tick {m : LedMode} {n : Nat} {l : Led} (h : l.At m n) : l.tick.At m (n + 1) := by
  obtain ⟨h1, h2, h3⟩ := h
  unfold Led.tick
  rw [h1]
  cases m with
  | off => exact ⟨rfl, rfl, fun h => by cases h⟩
  | on => exact ⟨rfl, rfl, fun h => by cases h⟩
  | slow =>
    have h3 := h3 rfl
    have hc : (l.counter + 1) % 256 = l.counter + 1 := by omega
    dsimp only
    rw [hc]
    by_cases h5 : l.counter + 1 = 5
    · rw [if_pos h5]
      refine ⟨rfl, ?_, fun _ => ?_⟩
      · show (!l.pin) = _
        rw [h2]
        unfold ledLevel
        dsimp only
        have : (n + 1) / 5 = n / 5 + 1 := by omega
        rw [this]
        rcases Nat.mod_two_eq_zero_or_one (n / 5) with k | k <;> simp [k, Nat.add_mod]
      · show 0 = _; omega
    · rw [if_neg h5]
      refine ⟨rfl, ?_, fun _ => ?_⟩
      · show l.pin = _
        rw [h2]
        unfold ledLevel
        dsimp only
        have : (n + 1) / 5 = n / 5 := by omega
        rw [this]
      · show l.counter + 1 = _; omega
  | fast =>
    refine ⟨rfl, ?_, fun h => by cases h⟩
    show (!l.pin) = _
    rw [h2]
    unfold ledLevel
    dsimp only
    rcases Nat.mod_two_eq_zero_or_one n with k | k <;> simp [k, Nat.add_mod]

theorem Led.At.run {m : LedMode} : ∀ (ops : List LedOp) (l : Led) (n : Nat), l.At m n → (∀ x ∈ ops, x = .tick ∨ x = .set m) →
    (ops.foldl Led.op l).At m (n + ticksOf ops) := by
  intro ops
  induction ops with
  | nil => intro l n h _; exact h
  | cons x xs ih =>
    intro l n h hx
    have hxs := fun y hy => hx y (List.mem_cons_of_mem _ hy)
    rcases hx x (List.mem_cons_self ..) with rfl | rfl
    · have := ih l.tick (n + 1) h.tick hxs
      have e : n + ticksOf (.tick :: xs) = n + 1 + ticksOf xs := by show n + (ticksOf xs + 1) = _; omega
      rw [e]
      exact this
    · have e : l.set m = l := by unfold Led.set; rw [if_neg (not_not_intro h.1)]
      have := ih l n h hxs
      show (xs.foldl Led.op (l.set m)).At m (n + ticksOf xs)
      rw [e]
      exact this

/-- **C72.** After any history, when the mode is set to a new value, the level `n` periods of 100 ms later is the specified one, no matter
how often the same mode is set again: slow blinking changes exactly every 5 periods, fast blinking every period, a steady LED never. -/
theorem C72 (history ops : List LedOp) (m : LedMode) (hn : (history.foldl Led.op Led.init).mode ≠ m)
    (ho : ∀ x ∈ ops, x = .tick ∨ x = .set m) :
    ((history ++ [LedOp.set m] ++ ops).foldl Led.op Led.init).pin = ledLevel m (ticksOf ops) := by
  rw [List.foldl_append, List.foldl_append]
  generalize history.foldl Led.op Led.init = l at hn
  show (ops.foldl Led.op (l.set m)).pin = _
  have h0 : (l.set m).At m 0 := by
    unfold Led.set
    rw [if_pos hn]
    cases m <;> exact ⟨rfl, rfl, fun h => by first | rfl | cases h⟩
  have := (h0.run ops _ 0 ho).2.1
  rwa [Nat.zero_add] at this

/-- The levels of a slowly blinking LED over 1.2 s. -/
example : (List.range 13).map (ledLevel .slow) = [false, false, false, false, false, true, true, true, true, true, false, false, false] ∧
    ([LedOp.set .fast, .tick, .set .slow, .tick, .tick, .set .slow, .tick, .tick, .tick].foldl Led.op Led.init).pin = true := by decide +kernel

/-- A step as one LED sees it. -/
theorem led_step (m : LedManager) (w : Which) (x : LedStep) :
    (m.step x).led w = (if x = w.timer then (m.led w).tick else m.led w) ∨ ∃ md, (m.step x).led w = (m.led w).set md ∧ x ≠ w.timer := by
  cases x with
  | refresh => cases w <;> exact .inr ⟨_, rfl, by decide⟩
  | report e => refine .inl ?_; cases w <;> rfl
  | tickR => refine .inl ?_; cases w <;> rfl
  | tickT => refine .inl ?_; cases w <;> rfl
  | tickP => refine .inl ?_; cases w <;> rfl

theorem led_run_snoc (m : LedManager) (xs : List LedStep) (x : LedStep) : m.run (xs ++ [x]) = (m.run xs).step x := by
  unfold LedManager.run; rw [List.foldl_append]; rfl

/-- **C72, panel.** Whatever happened before: if a refresh gives one of the three LEDs a new mode, which it keeps, then its level depends only on how often its own 100 ms timer has fired
since, and is the specified one; the reports of the main loop, further refreshes and the timers of the other LEDs may come in any order. -/
theorem C72_panel (w : Which) (xs ys : List LedStep) (md : LedMode) (h : ((LedManager.init.run xs).led w).mode ≠ md)
    (hs : ∀ zs, zs <+: ys → ((LedManager.init.run (xs ++ [.refresh] ++ zs)).led w).mode = md) :
    ((LedManager.init.run (xs ++ [.refresh] ++ ys)).led w).pin = ledLevel md (ys.count w.timer) := by
  suffices hh : ∀ n zs, zs.length = n → zs <+: ys → ((LedManager.init.run (xs ++ [.refresh] ++ zs)).led w).At md (zs.count w.timer) from
    (hh _ ys rfl (List.prefix_refl _)).2.1
  intro n
  induction n with
  | zero =>
    intro zs hz hp
    obtain rfl := List.eq_nil_of_length_eq_zero hz
    have hm := hs [] hp
    rw [List.append_nil, led_run_snoc] at hm ⊢
    rcases led_step (LedManager.init.run xs) w .refresh with e | ⟨m', e, -⟩
    · exfalso
      rw [e, if_neg (by cases w <;> decide)] at hm
      exact h hm
    · rw [e] at hm ⊢
      rw [led_set_mode] at hm
      subst hm
      unfold Led.set
      rw [if_pos h, List.count_nil]
      cases m' <;> exact ⟨rfl, rfl, fun h => by first | rfl | cases h⟩
  | succ n ih =>
    intro zs hz hp
    rcases List.eq_nil_or_concat zs with rfl | ⟨zs, x, rfl⟩
    · cases hz
    · rw [List.concat_eq_append] at hz hp ⊢
      have hp' : zs <+: ys := List.IsPrefix.trans (List.prefix_append _ _) hp
      have hA := ih zs (by rw [List.length_append] at hz; simpa using hz) hp'
      have hm := hs _ hp
      rw [← List.append_assoc, led_run_snoc] at hm ⊢
      rw [List.count_append]
      rcases led_step (LedManager.init.run (xs ++ [.refresh] ++ zs)) w x with e | ⟨m', e, hx⟩
      · rw [e]
        by_cases hx : x = w.timer
        · rw [if_pos hx, hx, List.count_singleton_self]
          exact hA.tick
        · rw [if_neg hx, List.count_singleton, if_neg (by simpa using hx)]
          exact hA
      · rw [e] at hm ⊢
        rw [led_set_mode] at hm
        subst hm
        rw [List.count_singleton, if_neg (by simpa using hx)]
        have : (LedManager.led (LedManager.init.run (xs ++ [.refresh] ++ zs)) w).set m' = LedManager.led (LedManager.init.run (xs ++ [.refresh] ++ zs)) w := by
          unfold Led.set; rw [if_neg (not_not_intro hA.1)]
        rw [this]
        exact hA

/-- **C72, lamp test.** Until the first refresh after the start all three LEDs are lit. -/
theorem C72_lamp_test (w : Which) (xs : List LedStep) (h : LedStep.refresh ∉ xs) : ((LedManager.init.run xs).led w).pin = true := by
  suffices hh : ∀ xs, LedStep.refresh ∉ xs → ((LedManager.init.run xs).led w).mode = .on ∧ ((LedManager.init.run xs).led w).pin = true from (hh xs h).2
  intro xs
  suffices hh : ∀ n xs, xs.length = n → LedStep.refresh ∉ xs → ((LedManager.init.run xs).led w).mode = .on ∧ ((LedManager.init.run xs).led w).pin = true from hh _ xs rfl
  intro n
  induction n with
  | zero =>
    intro xs hx _
    obtain rfl := List.eq_nil_of_length_eq_zero hx
    cases w <;> exact ⟨rfl, rfl⟩
  | succ n ih =>
    intro zs hz h
    rcases List.eq_nil_or_concat zs with rfl | ⟨zs, x, rfl⟩
    · cases hz
    · rw [List.concat_eq_append] at hz h ⊢
      obtain ⟨i1, i2⟩ := ih zs (by rw [List.length_append] at hz; simpa using hz) (fun hm => h (List.mem_append_left _ hm))
      rw [led_run_snoc]
      have hx : x ≠ .refresh := fun e => h (by rw [e]; simp)
      have e : ((LedManager.init.run zs).step x).led w = (if x = w.timer then ((LedManager.init.run zs).led w).tick else (LedManager.init.run zs).led w) := by
        cases x with
        | refresh => exact absurd rfl hx
        | report e => cases w <;> rfl
        | tickR => cases w <;> rfl
        | tickT => cases w <;> rfl
        | tickP => cases w <;> rfl
      rw [e]
      split
      · unfold Led.tick; rw [i1]; exact ⟨rfl, rfl⟩
      · exact ⟨i1, i2⟩

/-- A transmission is reported, the TX LED blinks slowly for two refresh periods. -/
example : ((LedManager.init.run ([.report .activityTx] ++ [.refresh] ++ [.tickR, .tickT, .tickT, .tickP, .report .activityTx, .tickT, .tickT, .tickT, .refresh, .tickR, .tickT])).led .tx)
    = { mode := .slow, counter := 1, pin := true } := by decide +kernel

end P1P2
