import Verif.Proofs.HostRace
/-!
# C130: lines of the host and the interrupt of the UART
-/
namespace P1P2
open Spec
namespace Host

/-! ## Runs -/

theorem RxRace.run_append {s t : RxRace} {es fs : List RxEv} (h : s.run es = .ok (some t)) : s.run (es ++ fs) = t.run fs := by
  induction es generalizing s with
  | nil => cases h; rfl
  | cons e es ih =>
    simp only [RxRace.run, List.cons_append] at h ⊢
    rw [Res.bind_eq_ok] at h
    obtain ⟨o, h1, h2⟩ := h
    rw [h1, Res.ok_bind]
    cases o with
    | none => simp at h2
    | some u => exact ih h2

theorem typed_append (es fs : List RxEv) : typed (es ++ fs) = typed es ++ typed fs := by
  induction es with
  | nil => rfl
  | cons e es ih => cases e <;> simp [typed, ih]

theorem typed_steps (n : Nat) : typed (List.replicate n .step) = [] := by
  induction n with
  | zero => rfl
  | succ n ih => rw [List.replicate_succ]; exact ih

theorem typed_arrive (l : List UInt8) : typed (l.map .arrive) = l := by
  induction l with
  | nil => rfl
  | cons c l ih => simp [typed, ih]

theorem run_arrive (l : List UInt8) (s : RxRace) :
    s.run (l.map .arrive) = .ok (some { s with uart := s.uart ++ l }) := by
  induction l generalizing s with
  | nil => simp [RxRace.run]
  | cons c l ih =>
    simp only [List.map_cons, RxRace.run, RxRace.next, Res.ok_bind]
    rw [ih]
    simp

theorem noneHeld_append {s t : RxRace} {es fs : List RxEv} (h : NoneHeld s es) (hr : s.run es = .ok (some t))
    (hf : NoneHeld t fs) : NoneHeld s (es ++ fs) := by
  induction es generalizing s with
  | nil => cases hr; exact hf
  | cons e es ih =>
    refine ⟨h.1, fun u hu => ?_⟩
    simp only [RxRace.run, hu, Res.ok_bind] at hr
    exact ih (h.2 u hu) hr

theorem noneHeld_quiet {s : RxRace} {es : List RxEv} (h : ∀ e ∈ es, e ≠ .irq) : NoneHeld s es := by
  induction es generalizing s with
  | nil => trivial
  | cons e es ih => exact ⟨fun he => absurd he (h e (by simp)), fun t _ => ih (fun e he => h e (by simp [he]))⟩

theorem noneHeld_irq {s : RxRace} (h : ¬ Holding s) : NoneHeld s [.irq] := ⟨fun _ => h, fun _ _ => trivial⟩

/-- the loop of `CheckRXFIFO` without interrupts -/
theorem run_get (u : List UInt8) (rx r : LineRecv UInt8) (L : List (List UInt8)) (h : checkRx rx u = .ok r) :
    ∃ n, RxRace.run { uart := u, rx := rx, pc := .get, lines := L } (List.replicate n .step) =
      .ok (some { uart := [], rx := r, pc := .empty, lines := L }) := by
  induction u generalizing rx with
  | nil => cases h; exact ⟨1, rfl⟩
  | cons c u ih =>
    simp only [checkRx] at h
    by_cases hf : rx.isFull rxCap
    · rw [if_pos hf] at h
      obtain ⟨n, hn⟩ := ih rx h
      refine ⟨n + 2, ?_⟩
      rw [List.replicate_succ, List.replicate_succ]
      simp only [RxRace.run, RxRace.next, RxRace.main, Res.ok_bind, hf, if_true]
      exact hn
    · rw [if_neg hf, Res.bind_eq_ok] at h
      obtain ⟨p, hp, h⟩ := h
      obtain ⟨n, hn⟩ := ih p.1 h
      refine ⟨n + 3, ?_⟩
      rw [List.replicate_succ, List.replicate_succ, List.replicate_succ]
      simp only [RxRace.run, RxRace.next, RxRace.main, Res.ok_bind, hf, hp, Bool.false_eq_true, if_false]
      exact hn

/-- the loop of `CheckRxLine` without interrupts -/
theorem run_scan (k i : Nat) (u : List UInt8) (rx : LineRecv UInt8) (r : LineRecv UInt8 × List (List UInt8))
    (L : List (List UInt8)) (h : scanLoop k i rx = .ok r) (hk : 128 ≤ i + k) (ho : rx.off ≤ 128) :
    ∃ n, RxRace.run { uart := u, rx := rx, pc := .len i, lines := L } (List.replicate n .step) =
      .ok (some { uart := u, rx := r.1, pc := .out, lines := L ++ r.2 }) := by
  induction k generalizing i rx L r with
  | zero =>
    cases h
    refine ⟨1, ?_⟩
    have : ¬ i < rx.off := by omega
    simp [List.replicate, RxRace.run, RxRace.next, RxRace.main, this]
  | succ k ih =>
    simp only [scanLoop] at h
    by_cases hi : i < rx.off
    · rw [if_pos hi, Res.bind_eq_ok] at h
      obtain ⟨c, hc, h⟩ := h
      by_cases ht : isTerm c
      · rw [if_pos ht] at h
        by_cases h0 : i = 0
        · rw [if_pos h0] at h
          subst h0
          obtain ⟨n, hn⟩ := ih (0 + 1) rx.clear r L h (by omega) (by simp [LineRecv.clear])
          refine ⟨n + 3, ?_⟩
          rw [List.replicate_succ, List.replicate_succ, List.replicate_succ]
          simp only [RxRace.run, RxRace.next, RxRace.main, Res.ok_bind, hi, hc, ht, if_true]
          exact hn
        · rw [if_neg h0, Res.bind_eq_ok] at h
          obtain ⟨d, hd, h⟩ := h
          rw [Res.bind_eq_ok] at h
          obtain ⟨s, hs, h⟩ := h
          rw [Res.bind_eq_ok] at h
          obtain ⟨r', hr', h⟩ := h
          simp only [Res.ok.injEq] at h
          subst h
          obtain ⟨n, hn⟩ := ih (i + 1) _ r' (L ++ [s]) hr' (by omega) (by simp)
          refine ⟨n + 5, ?_⟩
          rw [List.replicate_succ, List.replicate_succ, List.replicate_succ, List.replicate_succ, List.replicate_succ]
          simp only [RxRace.run, RxRace.next, RxRace.main, Res.ok_bind, hi, hc, ht, h0, if_true, if_false, hd, hs]
          rw [List.append_assoc] at hn
          exact hn
      · rw [if_neg ht] at h
        obtain ⟨n, hn⟩ := ih (i + 1) rx r L h (by omega) ho
        refine ⟨n + 2, ?_⟩
        rw [List.replicate_succ, List.replicate_succ]
        simp only [RxRace.run, RxRace.next, RxRace.main, Res.ok_bind, hi, hc, ht, if_true, Bool.false_eq_true, if_false]
        exact hn
    · rw [if_neg hi] at h
      cases h
      refine ⟨1, ?_⟩
      simp [List.replicate, RxRace.run, RxRace.next, RxRace.main, hi]

/-- `CheckRxLine` without interrupts -/
theorem run_empty (u : List UInt8) (rx : LineRecv UInt8) (r : LineRecv UInt8 × List (List UInt8)) (L : List (List UInt8))
    (h : checkRxLine rx = .ok r) (ho : rx.off ≤ 128) :
    ∃ n, RxRace.run { uart := u, rx := rx, pc := .empty, lines := L } (List.replicate n .step) =
      .ok (some { uart := u, rx := r.1, pc := .out, lines := L ++ r.2 }) := by
  unfold checkRxLine at h
  by_cases he : rx.isEmpty
  · rw [if_pos he] at h
    cases h
    refine ⟨1, ?_⟩
    simp [List.replicate, RxRace.run, RxRace.next, RxRace.main, he]
  · rw [if_neg he] at h
    obtain ⟨n, hn⟩ := run_scan 128 0 u rx r L h (by omega) ho
    refine ⟨n + 1, ?_⟩
    rw [List.replicate_succ]
    simp only [RxRace.run, RxRace.next, RxRace.main, Res.ok_bind, he, Bool.false_eq_true, if_false]
    exact hn

theorem steps_add (m n : Nat) : List.replicate (m + n) RxEv.step = List.replicate m .step ++ List.replicate n .step := by
  rw [List.replicate_append_replicate]

/-- from `getchar` on without interrupts, the main program does what `poll` says -/
theorem run_poll (u : List UInt8) (rx : LineRecv UInt8) (b : List UInt8) (hb : LineRecv.Rep 128 rx b)
    (r : LineRecv UInt8 × List (List UInt8)) (L : List (List UInt8)) (h : Host.poll rx u = .ok r) :
    ∃ n, RxRace.run { uart := u, rx := rx, pc := .get, lines := L } (List.replicate n .step) =
      .ok (some { uart := [], rx := r.1, pc := .out, lines := L ++ r.2 }) := by
  unfold Host.poll at h
  rw [Res.bind_eq_ok] at h
  obtain ⟨rx', h1, h2⟩ := h
  have hr := irq_rep hb h1
  obtain ⟨m, hm⟩ := run_get u rx rx' L h1
  obtain ⟨n, hn⟩ := run_empty [] rx' r L h2 (by rw [hr.len]; exact hr.cap)
  exact ⟨m + n, by rw [steps_add, RxRace.run_append hm, hn]⟩

end Host

open Host

/-! ## C130 -/

/-- The handler changes no character that is already in the line buffer (so `OnLineReceived` sees one line, however often it
is interrupted). -/
theorem irq_keeps (rx r : LineRecv UInt8) (u : List UInt8) (h : checkRx rx u = .ok r) :
    rx.off ≤ r.off ∧ ∀ j < rx.off, r.data j = rx.data j := by
  induction u generalizing rx with
  | nil => cases h; exact ⟨Nat.le_refl _, fun _ _ => rfl⟩
  | cons c u ih =>
    simp only [checkRx] at h
    by_cases hf : rx.isFull rxCap
    · rw [if_pos hf] at h; exact ih rx h
    · rw [if_neg hf, Res.bind_eq_ok] at h
      obtain ⟨p, hp, h⟩ := h
      obtain ⟨h1, h2⟩ := ih p.1 h
      simp only [LineRecv.push] at hp
      by_cases hl : rx.off < rxCap
      · rw [if_pos hl, wr_of_lt _ _ hl, Res.ok_bind] at hp
        cases hp
        simp only at h1 h2
        refine ⟨by omega, fun j hj => ?_⟩
        rw [h2 j (by omega), upd_other _ _ (by omega)]
      · rw [if_neg hl] at hp
        cases hp
        exact ⟨h1, h2⟩

/-- `Check` without interrupts is `Host.poll` (the model of `Check` used for the main loop): the characters in the UART are
stored, the lines found are handed over. -/
theorem C130_check (u b : List UInt8) (rx : LineRecv UInt8) (hb : LineRecv.Rep 128 rx b) (L : List (List UInt8))
    (r : LineRecv UInt8 × List (List UInt8)) (h : Host.poll rx u = .ok r) :
    ∃ n, RxRace.run { uart := u, rx := rx, pc := .out, lines := L } (.check :: List.replicate n .step) =
      .ok (some { uart := [], rx := r.1, pc := .out, lines := L ++ r.2 }) := by
  obtain ⟨n, hn⟩ := run_poll u rx b hb r L h
  refine ⟨n, ?_⟩
  simp only [RxRace.run, RxRace.next, Res.ok_bind, if_true]
  exact hn

/-- **C130, the part that holds**: if the host sends one line at a time and no interrupt strikes while the main program holds a
character, every line is handed over exactly once, unmodified and in order, wherever else the interrupt strikes. -/
theorem C130_lines_partial (segs : List (HostLine × List RxEv)) (t : RxRace) (h : OneAtATime RxRace.init segs t) :
    t.lines = segs.map (·.1.text) := by
  have seg : ∀ (l : HostLine) (L0 : List (List UInt8)) (es : List RxEv) (p : List UInt8) (s u : RxRace), RaceInv l L0 p s →
      p ++ typed es = l.chars → NoneHeld s es → s.run es = .ok (some u) → RaceInv l L0 l.chars u := by
    intro l L0 es
    induction es with
    | nil =>
      intro p s u hi hp _ hr
      cases hr
      rw [← hp]; simpa [typed] using hi
    | cons e es ih =>
      intro p s u hi hp hn hr
      simp only [RxRace.run] at hr
      rw [Res.bind_eq_ok] at hr
      obtain ⟨o, h1, h2⟩ := hr
      cases o with
      | none => simp at h2
      | some v =>
        have hn2 := hn.2 v h1
        have hpre : p <+: l.chars := ⟨_, hp⟩
        cases e with
        | arrive c =>
          simp only [RxRace.next, Res.ok.injEq, Option.some.injEq] at h1
          subst h1
          exact ih (p ++ [c]) _ u (arrive_inv c hi) (by rw [← hp]; simp [typed]) hn2 h2
        | irq =>
          simp only [RxRace.next] at h1
          rw [Res.bind_eq_ok] at h1
          obtain ⟨r, hr, h1⟩ := h1
          simp only [Res.ok.injEq, Option.some.injEq] at h1
          subst h1
          exact ih p _ u (irq_inv hpre hi (hn.1 rfl) hr) hp hn2 h2
        | check =>
          simp only [RxRace.next, Res.ok.injEq] at h1
          by_cases hpc : s.pc = .out
          · rw [if_pos hpc] at h1
            simp only [Option.some.injEq] at h1
            subst h1
            refine ih p _ u ?_ hp hn2 h2
            rcases hi with ⟨buf, held, hp, hr, hl, hq⟩ | ⟨buf, i, hp, hr, hl, hi, hn, hq⟩ | ⟨t, r, q, hp, _, hr, hl, hq⟩ |
              ⟨b, q, i, hp, _, hr, hl, hq⟩ | ⟨q, buf, held, hp, hlt, hr, hl, hq⟩
            · rcases hq with ⟨h0, _⟩ | ⟨c, _, h | h⟩
              · exact .reading buf held hp hr hl (.inl ⟨h0, .inr (.inl rfl)⟩)
              · rw [hpc] at h; cases h
              · rw [hpc] at h; cases h
            · rw [hpc] at hq; simp at hq
            · rw [hpc] at hq; simp at hq
            · rw [hpc] at hq; simp at hq
            · rcases hq with ⟨h0, _⟩ | ⟨c, _, h | h⟩
              · exact .after q buf held hp hlt hr hl (.inl ⟨h0, .inr (.inl rfl)⟩)
              · rw [hpc] at h; cases h
              · rw [hpc] at h; cases h
          · rw [if_neg hpc] at h1; cases h1
        | step => exact ih p v u (main_inv hpre hi h1) hp hn2 h2
  have key : ∀ (segs : List (HostLine × List RxEv)) (s t : RxRace), AllTaken s → LineRecv.Rep 128 s.rx [] →
      OneAtATime s segs t → t.lines = s.lines ++ segs.map (·.1.text) := by
    intro segs
    induction segs with
    | nil => intro s t _ _ h; cases h; simp
    | cons x rest ih =>
      obtain ⟨l, es⟩ := x
      intro s t ha hrep h
      obtain ⟨h1, h2, u, h3, h4, h5⟩ := h
      have hi : RaceInv l s.lines [] s := .reading [] [] (by rw [ha.1]; rfl) hrep rfl (.inl ⟨rfl, .inl ha.2.2⟩)
      have hu := seg l s.lines es [] s u hi (by simpa using h1) h2 h3
      have hne : l.chars ≠ [] := by
        intro h
        exact l.some_ (List.append_eq_nil_iff.mp h).1
      have hu2 : u.lines = s.lines ++ [l.text] ∧ LineRecv.Rep 128 u.rx [] := by
        have h0 : ∀ buf, LineRecv.Rep 128 u.rx buf → buf = [] := fun buf hb =>
          List.eq_nil_of_length_eq_zero (by rw [← hb.len]; exact h4.2.1)
        rcases hu with ⟨buf, held, hp, hr, hl, hq⟩ | ⟨buf, i, hp, hr, hl, hi, hn, hq⟩ | ⟨t, r, q, hp, _, hr, hl, hq⟩ |
          ⟨b, q, i, hp, _, hr, hl, hq⟩ | ⟨q, buf, held, hp, hlt, hr, hl, hq⟩
        · exfalso
          rw [h0 buf hr, h4.1] at hp
          rcases hq with ⟨hh, _⟩ | ⟨c, _, h | h⟩
          · rw [hh] at hp; exact hne hp
          · rw [h4.2.2] at h; cases h
          · rw [h4.2.2] at h; cases h
        · rw [h4.2.2] at hq; simp at hq
        · rw [h4.2.2] at hq; simp at hq
        · rw [h4.2.2] at hq; simp at hq
        · have hb := h0 buf hr
          rw [hb] at hr
          exact ⟨hl, hr⟩
      rw [ih u t h4 hu2.2 h5, hu2.1]
      simp
  have := key segs RxRace.init t ⟨rfl, rfl, rfl⟩ ⟨rfl, by simp, by simp⟩ h
  simpa [RxRace.init] using this

/-- The line "40" with CR LF: the interrupt strikes while `Check` looks for the end of the line, and again before the line is
handed over. -/
def line40 : HostLine :=
  { text := [52, 48], term := [13, 10], plain := by unfold Term; decide, some_ := by simp, ends := .inr (.inr rfl),
    fits := by decide }

/-- the events of this example -/
def events40 : List RxEv :=
  [.arrive 52, .irq, .check, .step, .step, .arrive 48, .arrive 13, .irq, .step, .step, .step, .step, .step, .step, .step,
    .arrive 10, .irq, .step, .step, .step]

/-- the state after a run -/
def Host.RxRace.after (s : RxRace) (es : List RxEv) : RxRace := match s.run es with
  | .ok (some t) => t
  | _ => s

example : OneAtATime RxRace.init [(line40, events40)] (RxRace.init.after events40) ∧
    (RxRace.init.after events40).lines = [[52, 48]] := by
  refine ⟨⟨rfl, ?_, RxRace.init.after events40, rfl, ⟨rfl, rfl, rfl⟩, rfl⟩, rfl⟩
  have skip : ∀ (s : RxRace) (e : RxEv) (es : List RxEv) (t : RxRace), (e = .irq → ¬ Holding s) → s.next e = .ok (some t) →
      NoneHeld t es → NoneHeld s (e :: es) := by
    intro s e es t h1 h2 h3
    refine ⟨h1, fun u hu => ?_⟩
    rw [h2] at hu
    cases hu
    exact h3
  have noHold : ∀ (s : RxRace), s.pc = .out ∨ (∃ i, s.pc = .len i) ∨ (∃ i, s.pc = .hand i) → ¬ Holding s := by
    rintro s (h | ⟨i, h⟩ | ⟨i, h⟩) ⟨c, h2 | h2⟩ <;> rw [h] at h2 <;> cases h2
  refine skip _ _ _ _ (fun h => by cases h) rfl (skip _ _ _ _ (fun _ => noHold _ (.inl rfl)) rfl ?_)
  refine skip _ _ _ _ (fun h => by cases h) rfl (skip _ _ _ _ (fun h => by cases h) rfl ?_)
  refine skip _ _ _ _ (fun h => by cases h) rfl (skip _ _ _ _ (fun h => by cases h) rfl ?_)
  refine skip _ _ _ _ (fun h => by cases h) rfl (skip _ _ _ _ (fun _ => noHold _ (.inr (.inl ⟨0, rfl⟩))) rfl ?_)
  refine skip _ _ _ _ (fun h => by cases h) rfl (skip _ _ _ _ (fun h => by cases h) rfl ?_)
  refine skip _ _ _ _ (fun h => by cases h) rfl (skip _ _ _ _ (fun h => by cases h) rfl ?_)
  refine skip _ _ _ _ (fun h => by cases h) rfl (skip _ _ _ _ (fun h => by cases h) rfl ?_)
  refine skip _ _ _ _ (fun h => by cases h) rfl (skip _ _ _ _ (fun h => by cases h) rfl ?_)
  exact skip _ _ _ _ (fun _ => noHold _ (.inr (.inr ⟨2, rfl⟩))) rfl (noneHeld_quiet (by simp))

/-- Such histories exist for every sequence of lines: here all characters are stored by the interrupt handler, before `Check`. -/
theorem C130_possible (ls : List HostLine) : ∃ segs t, segs.map (·.1) = ls ∧ OneAtATime RxRace.init segs t := by
  have key : ∀ (ls : List HostLine) (s : RxRace), AllTaken s → LineRecv.Rep 128 s.rx [] →
      ∃ segs t, segs.map (·.1) = ls ∧ OneAtATime s segs t := by
    intro ls
    induction ls with
    | nil => intro s _ _; exact ⟨[], s, rfl, rfl⟩
    | cons l ls ih =>
      intro s ha hr
      obtain ⟨rx', e1, e2⟩ := checkRx_rep l.chars s.rx [] hr
      rw [List.nil_append, List.take_of_length_le (chars_len l).1] at e2
      obtain ⟨x, rest, hx, hxt⟩ : ∃ x rest, l.term = x :: rest ∧ Term x := by
        rcases l.ends with h | h | h <;> exact ⟨_, _, h, by simp [Term]⟩
      obtain ⟨rx2, e3, e4⟩ := poll_line (chunk := []) (a := l.text) (t := x) (b := rest) e2
        (by simp [HostLine.chars, hx]) (by have := l.fits; rw [hx] at this; simp at this; omega) hxt l.plain
      rw [if_neg l.some_] at e3
      obtain ⟨n, hn⟩ := C130_check [] l.chars rx' e2 s.lines _ e3
      obtain ⟨segs, t, h1, h2⟩ := ih { uart := [], rx := rx2, pc := .out, lines := s.lines ++ [l.text] }
        ⟨rfl, e4.len, rfl⟩ e4
      have hr1 := run_arrive l.chars s
      rw [ha.1, List.nil_append] at hr1
      have hr2 : ({ s with uart := l.chars } : RxRace).run [.irq] =
          .ok (some { uart := [], rx := rx', pc := .out, lines := s.lines }) := by
        simp only [RxRace.run, RxRace.next, e1, Res.ok_bind, ha.2.2]
      refine ⟨(l, l.chars.map .arrive ++ ([.irq] ++ (.check :: List.replicate n .step))) :: segs, t, by simp [h1], ?_, ?_,
        _, ?_, ?_, h2⟩
      · rw [typed_append, typed_arrive]; simp [typed, typed_steps]
      · refine noneHeld_append (noneHeld_quiet (by simp)) hr1 (noneHeld_append (noneHeld_irq ?_) hr2 (noneHeld_quiet ?_))
        · rintro ⟨c, h | h⟩ <;> simp [ha.2.2] at h
        · intro e he
          rcases List.mem_cons.mp he with h | h
          · rw [h]; simp
          · rw [List.eq_of_mem_replicate h]; simp
      · rw [RxRace.run_append hr1, RxRace.run_append hr2, hn]
      · exact ⟨rfl, e4.len, rfl⟩
  exact key ls RxRace.init ⟨rfl, rfl, rfl⟩ ⟨rfl, by simp, by simp⟩

/-- The power of the handler to disturb, first: **C130 is violated** by an interrupt that strikes while the main program holds a
character.  Whatever the line is, it can be handed over without its first character (and the first character is lost). -/
theorem C130_refuted (c : UInt8) (l : HostLine) (hfit : l.chars.length < 128) :
    ∃ es u, typed es = c :: l.chars ∧ RxRace.init.run es = .ok (some u) ∧ AllTaken u ∧ u.lines = [l.text] := by
  have hr0 : LineRecv.Rep 128 RxRace.init.rx [] := ⟨rfl, by simp, by simp⟩
  obtain ⟨rx', e1, e2⟩ := checkRx_rep l.chars RxRace.init.rx [] hr0
  rw [List.nil_append, List.take_of_length_le (by omega)] at e2
  obtain ⟨rx2, e3, e4⟩ := e2.push c
  rw [if_pos hfit] at e4
  obtain ⟨x, rest, hx, hxt⟩ : ∃ x rest, l.term = x :: rest ∧ Term x := by
    rcases l.ends with h | h | h <;> exact ⟨_, _, h, by simp [Term]⟩
  obtain ⟨rx3, e5, e6⟩ := poll_line (chunk := []) (a := l.text) (t := x) (b := rest ++ [c]) e4
    (by simp [HostLine.chars, hx]) (by have := l.fits; rw [hx] at this; simp at this; omega) hxt l.plain
  rw [if_neg l.some_] at e5
  obtain ⟨n, hn⟩ := run_poll [] rx2 _ e4 _ [] e5
  have h1 : RxRace.init.run [.arrive c, .check, .step, .step] =
      .ok (some { uart := [], rx := RxRace.init.rx, pc := .push c, lines := [] }) := rfl
  have h2 := run_arrive l.chars { uart := [], rx := RxRace.init.rx, pc := .push c, lines := [] }
  have h3 : RxRace.run { uart := l.chars, rx := RxRace.init.rx, pc := .push c, lines := [] } [.irq, .step] =
      .ok (some { uart := [], rx := rx2, pc := .get, lines := [] }) := by
    simp only [RxRace.run, RxRace.next, RxRace.main, e1, Res.ok_bind, show rxCap = 128 from rfl, e3]
  refine ⟨[.arrive c, .check, .step, .step] ++ (l.chars.map .arrive ++ ([.irq, .step] ++ List.replicate n .step)),
    { uart := [], rx := rx3, pc := .out, lines := [] ++ [l.text] }, ?_, ?_, ?_, ?_⟩
  · rw [typed_append, typed_append, typed_append, typed_arrive, typed_steps]; simp [typed]
  · rw [RxRace.run_append h1, RxRace.run_append h2]
    simp only [List.nil_append]
    rw [RxRace.run_append h3]
    exact hn
  · exact ⟨rfl, e6.len, rfl⟩
  · rfl

/-- the main program finds the line and hands it over -/
theorem run_find (l : HostLine) (t : UInt8) (r u : List UInt8) (ht : Term t) (L : List (List UInt8)) (rx : LineRecv UInt8)
    (hr : LineRecv.Rep 128 rx (l.text ++ t :: r)) (k i : Nat) (hk : i + k = l.text.length) :
    ∃ n rx', RxRace.run { uart := u, rx := rx, pc := .len i, lines := L } (List.replicate n .step) =
      .ok (some { uart := u, rx := rx', pc := .clear l.text.length, lines := L ++ [l.text] }) ∧
      LineRecv.Rep 128 rx' (l.text ++ 0 :: r) := by
  have hcap := hr.cap
  simp only [List.length_append, List.length_cons] at hcap
  induction k generalizing i with
  | zero =>
    have hi : i = l.text.length := by omega
    subst hi
    have hne : l.text.length ≠ 0 := fun h => l.some_ (List.eq_nil_of_length_eq_zero h)
    have ho : l.text.length < rx.off := by rw [hr.len]; simp
    have hd : rd rxCap rx.data l.text.length = .ok t := by
      rw [rd_of_lt _ (show l.text.length < rxCap by simp only [rxCap]; omega), hr.at_ _ (by simp)]; simp
    have hw : wr rxCap rx.data l.text.length 0 = .ok (upd rx.data l.text.length 0) :=
      wr_of_lt _ _ (show l.text.length < rxCap by simp only [rxCap]; omega)
    have hrep : LineRecv.Rep 128 { rx with data := upd rx.data l.text.length 0 } (l.text ++ 0 :: r) := by
      refine ⟨?_, ?_, ?_⟩
      · rw [show (l.text ++ (0 : UInt8) :: r).length = (l.text ++ t :: r).length by simp]; exact hr.len
      · rw [show (l.text ++ (0 : UInt8) :: r).length = (l.text ++ t :: r).length by simp]; exact hr.cap
      · intro j hj
        by_cases e : j = l.text.length
        · subst e; simp
        · show upd rx.data l.text.length 0 j = _
          rw [upd_other _ _ e, hr.at_ j (by simpa using hj)]
          by_cases h1 : j < l.text.length
          · rw [List.getElem_append_left h1, List.getElem_append_left h1]
          · rw [List.getElem_append_right (by omega), List.getElem_append_right (by omega)]
            obtain ⟨k, hk⟩ : ∃ k, j - l.text.length = k + 1 := ⟨j - l.text.length - 1, by omega⟩
            simp only [hk, List.getElem_cons_succ]
    have hh : Holds (upd rx.data l.text.length 0) l.text := by
      constructor
      · intro j hj
        have := hrep.at_ j (by simp; omega)
        rw [List.getElem_append_left hj] at this
        exact this
      · simp
    have hs : readCStr (upd rx.data l.text.length 0) rxCap 0 = .ok l.text :=
      readCStr_holds hh (fun c hc => (l.plain c hc).2) (show l.text.length < rxCap by simp only [rxCap]; omega)
    refine ⟨4, { rx with data := upd rx.data l.text.length 0 }, ?_, hrep⟩
    simp only [List.replicate, RxRace.run, RxRace.next, RxRace.main, Res.ok_bind, ho, if_true, hd, (isTerm_iff t).mpr ht, hne,
      if_false, hw, hs]
  | succ k ih =>
    obtain ⟨n, rx', h1, h2⟩ := ih (i + 1) (by omega)
    refine ⟨n + 2, rx', ?_, h2⟩
    have hlt : i < l.text.length := by omega
    have ho : i < rx.off := by rw [hr.len]; simp; omega
    have hd : rd rxCap rx.data i = .ok l.text[i] := by
      rw [rd_of_lt _ (show i < rxCap by simp only [rxCap]; omega), hr.at_ _ (by simp; omega), List.getElem_append_left hlt]
    have hnt : isTerm l.text[i] = false := by
      have := (l.plain _ (List.getElem_mem hlt)).1
      rw [← isTerm_iff] at this
      simpa using this
    rw [List.replicate_succ, List.replicate_succ]
    simp only [RxRace.run, RxRace.next, RxRace.main, Res.ok_bind, ho, if_true, hd, hnt, Bool.false_eq_true, if_false]
    exact h1

/-- Second: **C130 is violated** by a host that does not wait.  A character that the handler stores between the hand-over of a
line and the clearing of the buffer is lost, although no interrupt struck while the main program held a character: of any two
lines, the second can be handed over without its first character. -/
theorem C130_lost_refuted (l m : HostLine) (c : UInt8) :
    ∃ es u, typed es = l.chars ++ c :: m.chars ∧ NoneHeld RxRace.init es ∧ RxRace.init.run es = .ok (some u) ∧ AllTaken u ∧
      u.lines = [l.text, m.text] := by
  have hr0 : LineRecv.Rep 128 RxRace.init.rx [] := ⟨rfl, by simp, by simp⟩
  have term : ∀ l : HostLine, ∃ x rest, l.term = x :: rest ∧ Term x := fun l => by
    rcases l.ends with h | h | h <;> exact ⟨_, _, h, by simp [Term]⟩
  -- the first line is found
  obtain ⟨rx1, e1, e2⟩ := checkRx_rep l.chars RxRace.init.rx [] hr0
  rw [List.nil_append, List.take_of_length_le (chars_len l).1] at e2
  obtain ⟨x, rest, hx, hxt⟩ := term l
  have e2' : LineRecv.Rep 128 rx1 (l.text ++ x :: rest) := by rw [← hx]; exact e2
  obtain ⟨n, rx2, e3, e4⟩ := run_find l x rest [] hxt [] rx1 e2' l.text.length 0 (by omega)
  obtain ⟨rx3, e5, _⟩ := checkRx_rep [c] rx2 _ e4
  -- the second line
  have hr3 : LineRecv.Rep 128 rx3.clear [] := ⟨rfl, by simp, by simp⟩
  obtain ⟨rx4, e6, e7⟩ := checkRx_rep m.chars rx3.clear [] hr3
  rw [List.nil_append, List.take_of_length_le (chars_len m).1] at e7
  obtain ⟨y, rest', hy, hyt⟩ := term m
  obtain ⟨rx5, e8, e9⟩ := poll_line (chunk := []) (a := m.text) (t := y) (b := rest') e7
    (by simp [HostLine.chars, hy]) (by have := m.fits; rw [hy] at this; simp at this; omega) hyt m.plain
  rw [if_neg m.some_] at e8
  obtain ⟨k, hk⟩ := C130_check [] m.chars rx4 e7 ([] ++ [l.text]) _ e8
  have a1 := run_arrive l.chars RxRace.init
  have a2 : ({ RxRace.init with uart := RxRace.init.uart ++ l.chars } : RxRace).run [.irq] =
      .ok (some { uart := [], rx := rx1, pc := .out, lines := [] }) := by
    show RxRace.run { uart := l.chars, rx := RxRace.init.rx, pc := .out, lines := [] } [.irq] = _
    simp only [RxRace.run, RxRace.next, e1, Res.ok_bind]
  have a3 : RxRace.run { uart := [], rx := rx1, pc := .out, lines := [] } [.check, .step, .step] =
      .ok (some { uart := [], rx := rx1, pc := .len 0, lines := [] }) := by
    have : rx1.isEmpty = false := by
      simp only [LineRecv.isEmpty, e2'.len, decide_eq_false_iff_not]; simp
    simp only [RxRace.run, RxRace.next, RxRace.main, Res.ok_bind, if_true, this, Bool.false_eq_true, if_false]
  have a4 : RxRace.run { uart := [], rx := rx2, pc := .clear l.text.length, lines := [] ++ [l.text] } [.arrive c, .irq] =
      .ok (some { uart := [], rx := rx3, pc := .clear l.text.length, lines := [] ++ [l.text] }) := by
    simp only [RxRace.run, RxRace.next, Res.ok_bind, List.nil_append, e5]
  have a5 : RxRace.run { uart := [], rx := rx3, pc := .clear l.text.length, lines := [] ++ [l.text] } [.step, .step] =
      .ok (some { uart := [], rx := rx3.clear, pc := .out, lines := [] ++ [l.text] }) := by
    simp [RxRace.run, RxRace.next, RxRace.main, Res.ok_bind, LineRecv.clear]
  have a6 := run_arrive m.chars { uart := [], rx := rx3.clear, pc := .out, lines := [] ++ [l.text] }
  have a7 : RxRace.run { uart := m.chars, rx := rx3.clear, pc := .out, lines := [] ++ [l.text] } [.irq] =
      .ok (some { uart := [], rx := rx4, pc := .out, lines := [] ++ [l.text] }) := by
    simp only [RxRace.run, RxRace.next, e6, Res.ok_bind]
  have noHold : ∀ (s : RxRace), s.pc = .out ∨ (∃ i, s.pc = .clear i) → ¬ Holding s := by
    rintro s (h | ⟨i, h⟩) ⟨c, h2 | h2⟩ <;> rw [h] at h2 <;> cases h2
  refine ⟨l.chars.map .arrive ++ ([.irq] ++ ([.check, .step, .step] ++ (List.replicate n .step ++ ([.arrive c, .irq] ++
    ([.step, .step] ++ (m.chars.map .arrive ++ ([.irq] ++ (.check :: List.replicate k .step)))))))),
    { uart := [], rx := rx5, pc := .out, lines := ([] ++ [l.text]) ++ [m.text] }, ?_, ?_, ?_, ?_, ?_⟩
  · simp only [typed_append, typed_arrive, typed_steps, typed, List.append_nil, List.nil_append, List.cons_append]
  · refine noneHeld_append (noneHeld_quiet (by simp)) a1 (noneHeld_append (noneHeld_irq (noHold _ (.inl rfl))) a2
      (noneHeld_append (noneHeld_quiet (by simp)) a3 (noneHeld_append (noneHeld_quiet ?_) e3 (noneHeld_append ?_ a4
      (noneHeld_append (noneHeld_quiet (by simp)) a5 (noneHeld_append (noneHeld_quiet (by simp)) a6
      (noneHeld_append (noneHeld_irq (noHold _ (.inl rfl))) a7 (noneHeld_quiet ?_))))))))
    · intro e he; rw [List.eq_of_mem_replicate he]; simp
    · refine ⟨(fun h => by cases h), fun t ht => ?_⟩
      simp only [RxRace.next, Res.ok.injEq, Option.some.injEq] at ht
      subst ht
      exact noneHeld_irq (noHold _ (.inr ⟨_, rfl⟩))
    · intro e he
      rcases List.mem_cons.mp he with h | h
      · rw [h]; simp
      · rw [List.eq_of_mem_replicate h]; simp
  · rw [RxRace.run_append a1, RxRace.run_append a2, RxRace.run_append a3, RxRace.run_append e3, RxRace.run_append a4,
      RxRace.run_append a5, RxRace.run_append a6]
    exact (RxRace.run_append a7).trans hk
  · exact ⟨rfl, e9.len, rfl⟩
  · rfl

/-- Whatever the host sends and wherever the interrupt strikes, reception never leaves the line buffer. -/
theorem C130_safe (es : List RxEv) : RxRace.init.run es ≠ .ub := by
  let Ok : RxRace → Prop := fun s => s.rx.off ≤ 128 ∧ (∀ i, s.pc = .look i ∨ s.pc = .zero i → i < s.rx.off) ∧
    ∀ i, s.pc = .hand i → i < s.rx.off ∧ s.rx.data i = 0
  have str : ∀ (a : Nat → UInt8) (n i j : Nat), i ≤ j → j < i + n → a j = 0 → ∃ l, readCStr a n i = .ok l := by
    intro a n
    induction n with
    | zero => intro i j h1 h2; omega
    | succ n ih =>
      intro i j h1 h2 h3
      simp only [readCStr]
      by_cases h0 : a i = 0
      · exact ⟨[], by rw [if_pos h0]⟩
      · have hne : i ≠ j := fun h => h0 (h ▸ h3)
        obtain ⟨l, hl⟩ := ih (i + 1) j (by omega) (by omega) h3
        exact ⟨a i :: l, by rw [if_neg h0, hl]; rfl⟩
  have pushOk : ∀ (rx : LineRecv UInt8) (c : UInt8), rx.off ≤ 128 →
      ∃ r, LineRecv.push rxCap rx c = .ok r ∧ r.1.off ≤ 128 := by
    intro rx c h
    simp only [LineRecv.push]
    by_cases hl : rx.off < rxCap
    · rw [if_pos hl, wr_of_lt _ _ hl]
      exact ⟨_, rfl, by simp only [rxCap] at hl; simp only; omega⟩
    · rw [if_neg hl]; exact ⟨_, rfl, h⟩
  have irqOk : ∀ (u : List UInt8) (rx : LineRecv UInt8), rx.off ≤ 128 → ∃ r, checkRx rx u = .ok r ∧ r.off ≤ 128 := by
    intro u
    induction u with
    | nil => intro rx h; exact ⟨rx, rfl, h⟩
    | cons c u ih =>
      intro rx h
      simp only [checkRx]
      by_cases hf : rx.isFull rxCap
      · rw [if_pos hf]; exact ih rx h
      · rw [if_neg hf]
        obtain ⟨p, hp, hp2⟩ := pushOk rx c h
        rw [hp, Res.ok_bind]
        exact ih p.1 hp2
  have next : ∀ (s : RxRace) (e : RxEv), Ok s → ∃ o, s.next e = .ok o ∧ ∀ t, o = some t → Ok t := by
    rintro s e ⟨h1, h2, h3⟩
    cases e with
    | arrive c => exact ⟨_, rfl, by rintro t ⟨⟩; exact ⟨h1, h2, h3⟩⟩
    | irq =>
      obtain ⟨r, hr, hr2⟩ := irqOk s.uart s.rx h1
      have hk := irq_keeps s.rx r s.uart hr
      refine ⟨_, by simp only [RxRace.next, hr, Res.ok_bind]; rfl, ?_⟩
      rintro t ⟨⟩
      refine ⟨hr2, fun i hi => Nat.lt_of_lt_of_le (h2 i hi) hk.1, fun i hi => ?_⟩
      obtain ⟨a, b⟩ := h3 i hi
      exact ⟨Nat.lt_of_lt_of_le a hk.1, (hk.2 i a).trans b⟩
    | check =>
      refine ⟨_, rfl, ?_⟩
      intro t ht
      by_cases hpc : s.pc = .out
      · rw [if_pos hpc] at ht
        cases ht
        exact ⟨h1, by simp, by simp⟩
      · rw [if_neg hpc] at ht; cases ht
    | step =>
      simp only [RxRace.next, RxRace.main]
      cases hpc : s.pc with
      | out => exact ⟨_, rfl, by simp⟩
      | get =>
        cases hu : s.uart with
        | nil => exact ⟨_, rfl, by rintro t ⟨⟩; exact ⟨h1, by simp, by simp⟩⟩
        | cons c u => exact ⟨_, rfl, by rintro t ⟨⟩; exact ⟨h1, by simp, by simp⟩⟩
      | full c =>
        refine ⟨_, rfl, ?_⟩
        rintro t ⟨⟩
        refine ⟨h1, ?_, ?_⟩ <;> intro i <;> simp only <;> split <;> simp
      | push c =>
        obtain ⟨p, hp, hp2⟩ := pushOk s.rx c h1
        refine ⟨_, by simp only [hp, Res.ok_bind]; rfl, ?_⟩
        rintro t ⟨⟩
        exact ⟨hp2, by simp, by simp⟩
      | empty =>
        refine ⟨_, rfl, ?_⟩
        rintro t ⟨⟩
        refine ⟨h1, ?_, ?_⟩ <;> intro i <;> simp only <;> split <;> simp
      | len i =>
        refine ⟨_, rfl, ?_⟩
        rintro t ⟨⟩
        by_cases hi : i < s.rx.off
        · rw [if_pos hi]
          refine ⟨h1, ?_, by simp⟩
          rintro j (h | h)
          · cases h; exact hi
          · cases h
        · rw [if_neg hi]; exact ⟨h1, by simp, by simp⟩
      | look i =>
        have hi := h2 i (.inl hpc)
        refine ⟨_, by simp only [rd_of_lt _ (show i < rxCap by simp only [rxCap]; omega), Res.ok_bind]; rfl, ?_⟩
        rintro t ⟨⟩
        refine ⟨h1, ?_, ?_⟩
        · rintro j (h | h)
          · simp only at h; split at h
            · split at h <;> cases h
            · cases h
          · simp only at h; split at h
            · split at h
              · cases h
              · cases h; exact hi
            · cases h
        · intro j h
          simp only at h; split at h
          · split at h <;> cases h
          · cases h
      | zero i =>
        have hi := h2 i (.inr hpc)
        refine ⟨_, by simp only [wr_of_lt _ _ (show i < rxCap by simp only [rxCap]; omega), Res.ok_bind]; rfl, ?_⟩
        rintro t ⟨⟩
        refine ⟨h1, by simp, ?_⟩
        intro j h
        cases h
        exact ⟨hi, by simp⟩
      | hand i =>
        obtain ⟨hi, h0⟩ := h3 i hpc
        obtain ⟨l, hl⟩ := str s.rx.data rxCap 0 i (by omega) (by simp only [rxCap]; omega) h0
        refine ⟨_, by simp only [hl, Res.ok_bind]; rfl, ?_⟩
        rintro t ⟨⟩
        exact ⟨h1, by simp, by simp⟩
      | clear i =>
        refine ⟨_, rfl, ?_⟩
        rintro t ⟨⟩
        exact ⟨by simp [LineRecv.clear], by simp, by simp⟩
  have run : ∀ (es : List RxEv) (s : RxRace), Ok s → s.run es ≠ .ub := by
    intro es
    induction es with
    | nil => intro s _ h; cases h
    | cons e es ih =>
      intro s hs h
      obtain ⟨o, h1, h2⟩ := next s e hs
      simp only [RxRace.run, h1, Res.ok_bind] at h
      cases o with
      | none => cases h
      | some t => exact ih t (h2 t rfl) h
  exact run es RxRace.init ⟨by simp [RxRace.init, LineRecv.mk0], by simp [RxRace.init], by simp [RxRace.init]⟩

end P1P2
