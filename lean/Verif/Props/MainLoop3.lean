import Verif.Props.MainLoop2
/-!
# Properties C84 - C86: undefined behaviour and uninitialised memory in the main loop
-/
namespace P1P2

/-! ## C84 -/

theorem Core0.Good.part1_ok_of {pf : Platform} {g : Nat → UInt8} {c : Core0} {e : Env1} {k : Host} (h : Host.check pf g c.host e.tHost e.chunk = .ok k) :
    ∃ r, c.part1 pf g e = .ok r := ⟨_, by rw [Core0.part1, h]; rfl⟩

theorem Core0.Good.iter_ub {pf : Platform} {g : Nat → UInt8} {c : Core0} {e : Env1 × Env2} (hg : c.Good) (h : c.iter pf g e = .ub) :
    ∃ rx s, Host.poll c.host.rx e.1.chunk = .ok (rx, [s]) ∧ LineOk s ∧ Message.parse pf g s = .ub := by
  obtain ⟨q, hq⟩ := hg.host
  cases hc : Host.check pf g c.host e.1.tHost e.1.chunk with
  | ub => exact check_ub hq hc
  | ok k =>
    obtain ⟨⟨c1, rs⟩, h1⟩ := Core0.Good.part1_ok_of (c := c) (e := e.1) hc
    obtain ⟨r, h2, _⟩ := (hg.part1 h1).1.part2 pf g e.2
    rw [Core0.iter, h1, Res.ok_bind, h2] at h
    cases h

theorem polls_append (rx : LineRecv UInt8) (a b : List (List UInt8)) : Host.polls rx (a ++ b) = (do
    let r ← Host.polls rx a
    let r' ← Host.polls r.1 b
    .ok (r'.1, r.2 ++ r'.2)) := by
  induction a generalizing rx with
  | nil => cases h : Host.polls rx b <;> simp [Host.polls, h] <;> rfl
  | cons c cs ih =>
    rw [List.cons_append, Host.polls, Host.polls]
    cases h1 : Host.poll rx c with
    | ub => rfl
    | ok r1 =>
      simp only [Res.ok_bind]
      rw [ih]
      cases h2 : Host.polls r1.1 cs with
      | ub => rfl
      | ok r2 =>
        simp only [Res.ok_bind]
        cases h3 : Host.polls r2.1 b with
        | ub => rfl
        | ok r3 => simp [List.append_assoc]

theorem polls_ok : ∀ (cs : List (List UInt8)) (rx : LineRecv UInt8) (l : List UInt8), LineRecv.Rep 128 rx l →
    ∃ rx' ls l', Host.polls rx cs = .ok (rx', ls) ∧ LineRecv.Rep 128 rx' l' ∧ ∀ s ∈ ls, LineOk s := by
  intro cs
  induction cs with
  | nil => intro rx l h; exact ⟨rx, [], l, rfl, h, by simp⟩
  | cons c cs ih =>
    intro rx l h
    obtain ⟨rx1, ls1, l1, a1, a2, a3, _⟩ := poll_ok rx l c h
    obtain ⟨rx2, ls2, l2, b1, b2, b3⟩ := ih rx1 l1 a2
    refine ⟨rx2, ls1 ++ ls2, l2, ?_, b2, ?_⟩
    · rw [Host.polls, a1, Res.ok_bind, b1]; rfl
    · intro s hs
      rcases List.mem_append.mp hs with hs | hs
      · exact a3 s hs
      · exact b3 s hs

theorem hostLines_eq (es : List (Env1 × Env2)) : ∃ rx, Host.polls (LineRecv.mk0 0) (es.map fun e => e.1.chunk) = .ok (rx, hostLines es) ∧
    (∃ l, LineRecv.Rep 128 rx l) ∧ ∀ s ∈ hostLines es, LineOk s := by
  obtain ⟨rx, ls, l, h1, h2, h3⟩ := polls_ok (es.map fun e => e.1.chunk) (LineRecv.mk0 0) [] rep_rx0
  have : hostLines es = ls := by unfold hostLines; rw [h1]
  rw [this]
  exact ⟨rx, h1, ⟨l, h2⟩, h3⟩

theorem hostLines_append (a b : List (Env1 × Env2)) (rx : LineRecv UInt8) (h : Host.polls (LineRecv.mk0 0) (a.map fun e => e.1.chunk) = .ok (rx, hostLines a)) :
    ∃ rx' ls, Host.polls rx (b.map fun e => e.1.chunk) = .ok (rx', ls) ∧ hostLines (a ++ b) = hostLines a ++ ls := by
  obtain ⟨rx2, h2, _⟩ := hostLines_eq (a ++ b)
  rw [List.map_append, polls_append, h, Res.ok_bind, Res.bind_eq_ok] at h2
  obtain ⟨r, h3, h2⟩ := h2
  simp only [Res.ok.injEq, Prod.mk.injEq] at h2
  exact ⟨r.1, r.2, h3, h2.2.symm⟩

/-- The second part does not touch the line reader. -/
theorem GoodMid.rx {pf : Platform} {g : Nat → UInt8} {c c' : Core0} {e : Env2} {o : Out2} (hg : c.GoodMid) (h : c.part2 pf g e = .ok (c', o)) :
    c'.host.rx = c.host.rx := by
  obtain ⟨a, ha, _, a2, _, a5⟩ := GoodMid.toFinish hg h
  rw [← a2]
  rcases a5 with a5 | ⟨_, _, _, rfl, _⟩
  · obtain ⟨s, u, s1, s2, s3⟩ := Core0.finish_ok a5
    obtain ⟨_, _, u2⟩ := Core0.updateTx_ok s2
    have : c'.host = s.1.host := by
      have e1 : c' = u.1 := congrArg Prod.fst s3
      rw [e1, u2]
    rw [this]
    unfold Core0.startTx at s1
    split at s1
    · split at s1
      · rw [Res.bind_eq_ok] at s1
        obtain ⟨p, p1, s1⟩ := s1
        simp only [Res.ok.injEq] at s1
        subst s1
        unfold Host.popMsg at p1
        split at p1
        · cases p1; rfl
        · rw [Res.bind_eq_ok] at p1
          obtain ⟨x, _, p1⟩ := p1
          cases p1; rfl
      · split at s1
        · rw [Res.bind_eq_ok] at s1
          obtain ⟨p, p1, s1⟩ := s1
          cases s1; rfl
        · cases s1; rfl
    · cases s1; rfl
  · rfl

theorem iter_poll {pf : Platform} {g : Nat → UInt8} {c c' : Core0} {e : Env1 × Env2} {o : Out2} (hg : c.Good) (h : c.iter pf g e = .ok (c', o)) :
    ∃ ls, Host.poll c.host.rx e.1.chunk = .ok (c'.host.rx, ls) := by
  obtain ⟨c1, rs, b, h1, h2, hr⟩ := Core0.iter_ok h
  obtain ⟨hg1, _, _, _, hc, _⟩ := hg.part1 h1
  obtain ⟨ls, h3, _⟩ := check_rx hc
  refine ⟨ls, ?_⟩
  have : c' = b.1 := congrArg Prod.fst hr
  rw [this, GoodMid.rx hg1 h2]
  exact h3

theorem run_polls {pf : Platform} {g : Nat → UInt8} {c c' : Core0} {es : List (Env1 × Env2)} {os : List Out2} (hg : c.Good)
    (h : c.run pf g es = .ok (c', os)) : ∃ ls, Host.polls c.host.rx (es.map fun e => e.1.chunk) = .ok (c'.host.rx, ls) := by
  induction es generalizing c os with
  | nil => cases h; exact ⟨[], rfl⟩
  | cons e es ih =>
    obtain ⟨c1, o, os', h1, h2, rfl⟩ := Core0.run_cons h
    obtain ⟨ls, h3⟩ := iter_poll hg h1
    obtain ⟨ls', h4⟩ := ih (hg.iter h1).1 h2
    exact ⟨ls ++ ls', by rw [List.map_cons, Host.polls, h3, Res.ok_bind, h4]; rfl⟩

theorem LoopRun.polls {pf : Platform} {g : Nat → UInt8} {es : List (Env1 × Env2)} {c : Core0} {os : List Out2} (h : LoopRun pf g es c os) :
    Host.polls (LineRecv.mk0 0) (es.map fun e => e.1.chunk) = .ok (c.host.rx, hostLines es) := by
  obtain ⟨w0, t0, t1, h⟩ := h
  obtain ⟨ls, h1⟩ := run_polls (Core0.Good.init g w0 t0 t1) h
  have h1 : Host.polls (LineRecv.mk0 0) (es.map fun e => e.1.chunk) = .ok (c.host.rx, ls) := h1
  have : hostLines es = ls := by unfold hostLines; rw [h1]
  rw [this]; exact h1

theorem hostLines_snoc {es : List (Env1 × Env2)} {e : Env1 × Env2} {rx rx' : LineRecv UInt8} {ls : List (List UInt8)}
    (h : Host.polls (LineRecv.mk0 0) (es.map fun e => e.1.chunk) = .ok (rx, hostLines es)) (h1 : Host.poll rx e.1.chunk = .ok (rx', ls)) :
    hostLines (es ++ [e]) = hostLines es ++ ls := by
  obtain ⟨r, ls', h2, h3⟩ := hostLines_append es [e] rx h
  rw [List.map_singleton, Host.polls, h1, Res.ok_bind] at h2
  simp only [Host.polls, Res.ok_bind, Res.ok.injEq, Prod.mk.injEq, List.append_nil] at h2
  rw [h3, h2.2]

/-- **C84, what holds.** The main loop has undefined behaviour only if the host sends a line (of at most 127 characters) whose parsing has
undefined behaviour; on the target (`C84_target_partial`) these are lines with more than 64 data characters or a time prefix of more than 18.
All accesses to messages, queues and buffers are within bounds otherwise, for all inputs and clocks. -/
theorem C84_only_parsing_partial (pf : Platform) (g : Nat → UInt8) (w0 : Word) (t0 t1 : Nat) (es : List (Env1 × Env2))
    (h : (Core0.init g w0 t0 t1).run pf g es = .ub) :
    ∃ s ∈ hostLines es, (∀ x ∈ s, x ≠ 0) ∧ s.length ≤ 127 ∧ Message.parse pf g s = .ub := by
  have key : ∀ (es pre : List (Env1 × Env2)) (c : Core0) (os : List Out2), LoopRun pf g pre c os → c.run pf g es = .ub →
      ∃ s ∈ hostLines (pre ++ es), (∀ x ∈ s, x ≠ 0) ∧ s.length ≤ 127 ∧ Message.parse pf g s = .ub := by
    intro es
    induction es with
    | nil => intro pre c os _ h; cases h
    | cons e es ih =>
      intro pre c os hr h
      rw [Core0.run, Res.bind_eq_ub] at h
      rcases h with h | ⟨⟨c1, o⟩, h1, h⟩
      · obtain ⟨rx, s, k1, k2, k3⟩ := hr.good.iter_ub h
        have h4 := hostLines_snoc (e := e) hr.polls k1
        obtain ⟨rx', hrx', _⟩ := hostLines_eq (pre ++ [e])
        obtain ⟨_, ls, _, h5⟩ := hostLines_append (pre ++ [e]) es rx' hrx'
        rw [List.append_assoc] at h5
        refine ⟨s, ?_, k2.1, k2.2, k3⟩
        rw [show pre ++ e :: es = pre ++ ([e] ++ es) from rfl, h5, h4]
        simp
      · rw [Res.bind_eq_ub] at h
        rcases h with h | ⟨_, _, h⟩
        · have := ih (pre ++ [e]) c1 (os ++ [o]) (hr.snoc h1) h
          rw [List.append_assoc] at this
          exact this
        · cases h
  exact key es [] _ [] ⟨w0, t0, t1, rfl⟩ h

/-- **C84, on the target**: if no line exceeds the limits of the parser, no run of the main loop has undefined behaviour. -/
theorem C84_target_partial (g : Nat → UInt8) (w0 : Word) (t0 t1 : Nat) (es : List (Env1 × Env2))
    (hl : ∀ s ∈ hostLines es, (Spec.timeField s).length ≤ 18 ∧ (Spec.payload (Spec.dataField s)).length ≤ 64) :
    ∃ c os, (Core0.init g w0 t0 t1).run .arm g es = .ok (c, os) := by
  cases h : (Core0.init g w0 t0 t1).run .arm g es with
  | ok r => exact ⟨r.1, r.2, rfl⟩
  | ub =>
    obtain ⟨s, k1, k2, k3, k4⟩ := C84_only_parsing_partial .arm g w0 t0 t1 es h
    exact absurd k4 ((C03_exact g s k2 (hl s k1).1).mpr (hl s k1).2)

/-- An iteration at time `t` in which the host sends the given characters. -/
def hostIter (t : Nat) (chunk : List UInt8) : Env1 × Env2 := (env1 t chunk, env2 t none)

set_option maxRecDepth 8000 in
/-- **C84 fails**: the host sends one line of 65 zeros; the main loop writes outside a message. -/
theorem C84_refuted : (Core0.init (fun _ => 0) .zero 0 0).run .arm (fun _ => 0) [hostIter 0 (List.replicate 65 48 ++ [10])] = .ub := by
  have h : (match (Core0.init (fun _ => 0) .zero 0 0).run .arm (fun _ => 0) [hostIter 0 (List.replicate 65 48 ++ [10])] with
    | .ub => true | .ok _ => false) = true := by decide +kernel
  split at h
  · assumption
  · cases h

/-- The hypothesis of `C84_target_partial` is met, for example, if the host sends `40F0` in two pieces. -/
example : hostLines [hostIter 0 [52, 48], hostIter 0 [70, 48, 10]] = [[52, 48, 70, 48]] := by decide +kernel

/-! ## C86 -/

/-- Where the transmitter does not wait for an echo, an update does not depend on what was received. -/
theorem TxSM.update_ignores {pf : Platform} {s : TxSM} {i : UpdIn} (h1 : s.st ≠ .startedWaitForBusy) (h2 : s.st ≠ .runningCheckData)
    (e v : Bool) (b : UInt8) : s.update pf { i with rxError := e, rxValid := v, rxChar := b } = s.update pf i := by
  have hd : s.dispatch pf { i with rxError := e, rxValid := v, rxChar := b } = s.dispatch pf i := by
    unfold TxSM.dispatch
    cases hst : s.st <;> first | rfl | exact absurd hst h1 | exact absurd hst h2
  unfold TxSM.update
  rw [hd]
  rfl

theorem part1_word (pf : Platform) (g : Nat → UInt8) (c : Core0) (w : Word) (e : Env1) :
    ({ c with word := w } : Core0).part1 pf g e = (do let r ← c.part1 pf g e; .ok ({ r.1 with word := w }, r.2)) := by
  unfold Core0.part1
  cases Host.check pf g c.host e.tHost e.chunk with
  | ub => rfl
  | ok k =>
    simp only [Res.ok_bind]
    unfold Core0.watchdog Core0.fifoCheck Core0.dogBites
    dsimp only
    split <;> split <;> rfl

theorem reportFailure_word (c : Core0) (w : Word) (now : Nat) :
    ({ c with word := w } : Core0).reportFailure now = ({ (c.reportFailure now).1 with word := w }, (c.reportFailure now).2) := by
  unfold Core0.reportFailure
  dsimp only
  split
  · split <;> dsimp only <;> split <;> rfl
  · rfl

theorem startTx_word (g : Nat → UInt8) (c : Core0) (w : Word) (now : Nat) :
    Core0.startTx g { c with word := w } now = (do let r ← c.startTx g now; .ok ({ r.1 with word := w }, r.2)) := by
  unfold Core0.startTx
  dsimp only
  split
  · split
    · cases c.host.popMsg g <;> rfl
    · split
      · cases c.ctrl.txAnswer (Message.empty g) <;> rfl
      · rfl
  · rfl

theorem startTx_quiet {g : Nat → UInt8} {c : Core0} {now : Nat} {r : Core0 × Option Message × List HwCmd} (hi : c.sm.st = .idle)
    (h : c.startTx g now = .ok r) : r.1.sm.st ≠ .startedWaitForBusy ∧ r.1.sm.st ≠ .runningCheckData := by
  unfold Core0.startTx at h
  split at h
  · split at h
    · rw [Res.bind_eq_ok] at h
      obtain ⟨p, _, h⟩ := h
      cases h
      dsimp only
      rw [TxSM.wake_idle hi]; simp
    · split at h
      · rw [Res.bind_eq_ok] at h
        obtain ⟨p, _, h⟩ := h
        cases h
        dsimp only
        rw [TxSM.wake_idle hi]; simp
      · cases h; rw [hi]; simp
  · cases h; rw [hi]; simp

theorem finish_word (pf : Platform) (g : Nat → UInt8) (c : Core0) (w : Word) (e : Env2) (rs : List Report) (hi : c.sm.st = .idle) :
    ({ c with word := w } : Core0).finish pf g e rs = c.finish pf g e rs := by
  unfold Core0.finish
  rw [startTx_word]
  cases hs : c.startTx g e.tWake with
  | ub => rfl
  | ok s =>
    simp only [Res.ok_bind]
    obtain ⟨q1, q2⟩ := startTx_quiet hi hs
    have : Core0.updateTx pf { s.1 with word := w } e = s.1.updateTx pf e := by
      unfold Core0.updateTx
      dsimp only
      have := TxSM.update_ignores (pf := pf) (i := s.1.updIn e) q1 q2 w.rxError w.rxValid w.rxChar
      unfold Core0.updIn at this
      dsimp only at this
      rw [this]
    rw [this]

/-- **C86, the word.** The word that holds the data of the other core is not initialised; its initial content has no effect: not on what is
reported or transmitted, nor on the state from the end of the first iteration on. -/
theorem C86_word_partial (pf : Platform) (g : Nat → UInt8) (w w' : Word) (t0 t1 : Nat) (e : Env1 × Env2) (es : List (Env1 × Env2)) :
    (Core0.init g w t0 t1).run pf g (e :: es) = (Core0.init g w' t0 t1).run pf g (e :: es) := by
  suffices h : ∀ v, (Core0.init g v t0 t1).iter pf g e = (Core0.init g Word.zero t0 t1).iter pf g e by
    rw [Core0.run, Core0.run, h w, h w']
  intro v
  unfold Core0.iter
  have h0 : Core0.init g v t0 t1 = { Core0.init g Word.zero t0 t1 with word := v } := rfl
  rw [h0, part1_word]
  have hg := Core0.Good.init g Word.zero t0 t1
  cases h1 : (Core0.init g Word.zero t0 t1).part1 pf g e.1 with
  | ub => rfl
  | ok r =>
    simp only [Res.ok_bind]
    obtain ⟨c1, rs⟩ := r
    obtain ⟨hg1, hsm, _⟩ := hg.part1 h1
    have hb : c1.lineBusy = true := by
      obtain ⟨k, _, rfl, _⟩ := Core0.part1_ok h1
      unfold Core0.watchdog Core0.fifoCheck
      split <;> split <;> rfl
    have hi : c1.sm.st = .idle := by rw [hsm]; rfl
    have h2 : ({ c1 with word := v } : Core0).part2 pf g e.2 = c1.part2 pf g e.2 := by
      have hi' : (c1.reportFailure e.2.tColl).1.sm.st = .idle := by
        obtain ⟨m, k, r1, _⟩ := reportFailure_eq c1 e.2.tColl
        rw [r1]; exact hi
      have hb' : (c1.reportFailure e.2.tColl).1.lineBusy = true := by
        obtain ⟨m, k, r1, _⟩ := reportFailure_eq c1 e.2.tColl
        rw [r1]; exact hb
      unfold Core0.part2
      rw [reportFailure_word]
      cases hw : e.2.word with
      | some w => rfl
      | none =>
        dsimp only
        rw [if_neg (by rw [hb']; simp), if_neg (by rw [hb']; simp)]
        exact finish_word pf g _ v e.2 _ hi'
    rw [h2]

/-- The bus becomes free, the controller starts to operate, the host sends a packet with the single byte 40, the bus becomes busy before it is
transmitted, and one more iteration. -/
def garbageRun : List (Env1 × Env2) :=
  [bothIter 0 [] (some wFree), bothIter 200000 [] none, bothIter 2300000 [] none, bothIter 2301000 [52, 48, 10] none, bothIter 2302000 [] none,
   bothIter 2303000 [] (some wBusy), bothIter 2304000 [] none]

/-- State of the controller and the status of the lines about failed transmissions at the end of that run, if uninitialised memory holds `g`. -/
def garbageSeen (g : Nat → UInt8) : Option (CtrlSt × List Nat) :=
  match (Core0.init g .zero 0 0).run .arm g garbageRun with
  | .ok (c, os) => some (c.ctrl.state, (os.flatMap fun o => txMsgs o.reports).map Message.status)
  | .ub => none

/-- **C86 fails**: whether the controller goes on operating after the transmission of a one-byte packet failed depends on what was in the memory
of the message behind that byte. -/
theorem C86_refuted : garbageSeen (fun _ => 0) = some (.operating, [1]) ∧
    garbageSeen (fun i => if i = 1 then 0xF5 else 0x30) = some (.idle, [1]) := by
  decide +kernel

end P1P2
