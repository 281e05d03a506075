import Verif.Props.TxLoop
import Verif.Spec.Drain
import Verif.Spec.EndToEnd
/-!
# Property C137: every packet of the host is started in time
-/
namespace P1P2

theorem popped_eq (g : Nat → UInt8) : ∀ {q : List Message} {h : Host}, HostGood h q → popped g q.length h = q := by
  intro q
  induction q with
  | nil => intro h _; rfl
  | cons m q ih =>
    intro h hq
    obtain ⟨f', e1, e2⟩ := hq.2.1.pop_cons
    have hne : h.msgs.isEmpty = false := by
      unfold Fifo.isEmpty
      rw [hq.2.1.len]; rfl
    have hp : h.popMsg g = .ok ({ h with msgs := f' }, m) := by
      unfold Host.popMsg
      rw [hne, show Host.msgCap = 8 from rfl, e1]
      rfl
    show (match h.popMsg g with | .ok (h', m) => m :: popped g q.length h' | .ub => []) = _
    rw [hp]
    dsimp only
    rw [ih (h := { h with msgs := f' }) ⟨hq.1, e2, fun x hx => hq.2.2 x (by simp [hx])⟩]

theorem queued_eq (g : Nat → UInt8) {c : Core0} {q : List Message} (h : HostGood c.host q) : queued g c = q := by
  unfold queued
  rw [h.2.1.len]
  exact popped_eq g h

/-- The queue of the host in one iteration. -/
theorem iter_queue {pf : Platform} {g : Nat → UInt8} {c c' : Core0} {e : Env1 × Env2} {o : Out2} {q : List Message} (hg : c.Good) (h : c.iter pf g e = .ok (c', o)) (hq : HostGood c.host q) :
    ∃ r q', HostGood c'.host q' ∧ ((c.sm.st = .idle ∧ ∃ m, o.started = some m ∧ q ++ r = m :: q') ∨ (q' = q ++ r ∧ (c.sm.st ≠ .idle → o.started = none) ∧ (c.sm.st = .idle → q ++ r = []))) := by
  obtain ⟨c1, rs, b, h1, h2, hr⟩ := Core0.iter_ok h
  obtain ⟨hg1, hsm, _, _, hcheck, _⟩ := hg.part1 h1
  obtain ⟨ls, q1, _, k2, k3⟩ := check_good hq hcheck
  simp only [Prod.mk.injEq] at hr
  obtain ⟨rfl, rfl⟩ := hr
  dsimp only
  obtain ⟨r, hr⟩ : ∃ r, q1 = q ++ r := by
    rcases k3 with ⟨k, _⟩ | k
    · exact ⟨[], by rw [k]; simp⟩
    · exact ⟨_, k⟩
  subst hr
  obtain ⟨a, ha, a1, a2, _, a5⟩ := GoodMid.toFinish hg1 h2
  have hst : a.sm.st = c.sm.st := by rw [a1, hsm]; rfl
  have k2' : HostGood a.host (q ++ r) := by rw [a2]; exact k2
  have uniq : ∀ q2, HostGood a.host q2 → q2 = q ++ r := fun q2 h2 => h2.2.1.unique k2'.2.1
  rcases a5 with a5 | ⟨b1, b2, b3, b4, b5, b6⟩
  · obtain ⟨s, u, s1, s2, s3⟩ := Core0.finish_ok a5
    obtain ⟨_, _, u2⟩ := Core0.updateTx_ok s2
    simp only [Prod.mk.injEq] at s3
    obtain ⟨s3, s4⟩ := s3
    have e1 : b.2.started = s.2.1 := by rw [s4]
    have e2 : b.1.host = s.1.host := by rw [s3, u2]
    rw [e1, e2]
    rcases ha.startTx s1 with ⟨rfl, hc⟩ | ⟨hi, m, q2, host, q3, q4, rfl⟩ | ⟨hi, q2, _, _, m, _, _, rfl⟩
    · refine ⟨r, q ++ r, k2', .inr ⟨rfl, fun _ => rfl, fun hi => ?_⟩⟩
      rcases hc with hc | ⟨hc, _⟩
      · exact absurd (hst.trans hi) hc
      · exact (uniq _ hc).symm
    · exact ⟨r, q2, q4, .inl ⟨hst.symm.trans hi, m, rfl, (uniq _ q3).symm⟩⟩
    · exact ⟨r, q ++ r, k2', .inr ⟨rfl, fun hn => absurd (hst.symm.trans hi) hn, fun _ => (uniq _ q2).symm⟩⟩
  · rw [b4, b5]
    refine ⟨r, q ++ r, k2', .inr ⟨rfl, fun _ => rfl, fun _ => ?_⟩⟩
    cases hn : q ++ r with
    | nil => rfl
    | cons x l =>
      have := (HostGood.hasData k2').mpr (by rw [hn]; simp)
      rw [b2] at this; cases this

theorem PaceInv.bound {m : Message} (hm : Sendable m) {w d now : Nat} {s : TxSM} (h : PaceInv m w d now s) : now ≤ w + (200000 + 37 * d) := by
  obtain ⟨_, h1, h2⟩ := h
  have hl := hm.2
  have hmul : ∀ a : Nat, a ≤ 32 → (a + 1) * (4000 + d) ≤ 33 * (4000 + d) := fun a ha => Nat.mul_le_mul_right _ (by omega)
  cases hst : s.st <;> simp only [hst] at h2
  · omega
  · omega
  · omega
  · have := hmul s.txOffset (by omega)
    omega
  · have := hmul m.length hl
    omega

/-- The transmitter at time `t`: idle, or busy until `W` at the latest. -/
def EndsBy (d t : Nat) (c : Core0) (W : Nat) : Prop :=
  (c.sm.st = .idle ∧ t ≤ W + d) ∨ (c.sm.st ≠ .idle ∧ ∃ m w, Sendable m ∧ w ≤ t ∧ w + (200000 + 37 * d) ≤ W ∧ PaceInv m w d t c.sm)

theorem EndsBy.renew {d t W : Nat} {c : Core0} (h : EndsBy d t c W) : EndsBy d t c (t + (200000 + 37 * d)) := by
  rcases h with ⟨h1, _⟩ | ⟨h1, m, w, h2, h3, _, h4⟩
  · exact .inl ⟨h1, by omega⟩
  · exact .inr ⟨h1, m, w, h2, h3, by omega, h4⟩

theorem EndsBy.le {d t W : Nat} {c : Core0} (h : EndsBy d t c W) : t ≤ W + d := by
  rcases h with ⟨_, h⟩ | ⟨_, m, w, h2, _, h3, h4⟩
  · exact h
  · have := h4.bound h2
    omega

/-- One iteration: a transmission goes on or ends, or one is started. -/
theorem EndsBy.iter {pf : Platform} {g : Nat → UInt8} {c c' : Core0} {e : Env1 × Env2} {o : Out2} {d t W : Nat} (hg : c.Good) (h : c.iter pf g e = .ok (c', o)) (hp : EndsBy d t c W)
    (p0 : t ≤ e.2.tWake) (p1 : e.2.tWake ≤ e.2.tErr) (p2 : e.2.tErr ≤ e.2.tPow) (p3 : e.2.tPow ≤ e.2.tNew) (p4 : e.2.tNew ≤ t + d) :
    (c.sm.st ≠ .idle → EndsBy d e.2.tNew c' W) ∧ EndsBy d e.2.tNew c' (W + longest d) := by
  have hle := hp.le
  obtain ⟨p, hpp, hc⟩ := iter_trace hg h
  by_cases hi : c.sm.st = .idle
  · refine ⟨fun hn => absurd hi hn, ?_⟩
    by_cases hi' : c'.sm.st = .idle
    · exact .inl ⟨hi', by unfold longest; omega⟩
    · rcases hc with ⟨_, _, _, _, _, hs, _⟩ | ⟨_, _, ⟨_, hu⟩ | ⟨m, hst, hsd, _, hu⟩⟩
      · rw [hs] at hi'
        exact absurd (hpp.last.1.trans hi) hi'
      · exact absurd (hpp.last.1.trans hi) ((update_power hu).2.1 hi')
      · have hi2 : (txEnd c.sm p).st = .idle := by rw [hpp.last.1]; exact hi
        rw [TxSM.wake_idle hi2] at hu
        have h0 : PaceInv m e.2.tWake d e.2.tWake { txEnd c.sm p with txMsg := m, txOffset := 0, err := false, rxMsg := (txEnd c.sm p).rxMsg.clear, st := .waitLineFree, dl := e.2.tWake + 34000 } :=
          ⟨rfl, by simp only; omega, rfl, rfl⟩
        have h1 : PaceInv m e.2.tWake d e.2.tNew c'.sm :=
          PaceInv.step hsd (e := ⟨.update (loopIn c' e.2 (e.2.word.getD c.word)), o.cmds, c'.sm⟩) h0 hu hi' ⟨p1, p2, p3, Nat.le_trans p4 (Nat.add_le_add_right p0 d), trivial⟩
        exact .inr ⟨hi', m, e.2.tWake, hsd, by omega, by unfold longest; omega, h1⟩
  · have key : EndsBy d e.2.tNew c' W := by
      rcases hp with ⟨h1, _⟩ | ⟨_, m, w, h2, h3, h4, h5⟩
      · exact absurd h1 hi
      · by_cases hi' : c'.sm.st = .idle
        · have := h5.bound h2
          exact .inl ⟨hi', by omega⟩
        · refine .inr ⟨hi', m, w, h2, by omega, h4, ?_⟩
          rcases hc with ⟨_, hid, _⟩ | ⟨_, _, ⟨_, hu⟩ | ⟨_, _, _, hid, _⟩⟩
          · exact absurd hid hi
          · exact PaceInv.step h2 (e := ⟨.update (loopIn c' e.2 (e.2.word.getD c.word)), o.cmds, c'.sm⟩) (h5.same hpp.last) hu hi' ⟨Nat.le_trans p0 p1, p2, p3, p4, trivial⟩
          · exact absurd hid hi
    refine ⟨fun _ => key, ?_⟩
    rcases key with ⟨k1, k2⟩ | ⟨k1, m, w, k2, k3, k4, k5⟩
    · exact .inl ⟨k1, by omega⟩
    · exact .inr ⟨k1, m, w, k2, k3, by omega, k5⟩

/-- The packets `q` at the head of the queue are the next ones. -/
theorem drain_run {pf : Platform} {g : Nat → UInt8} {d : Nat} : ∀ {mid : List (Env1 × Env2)} {c c' : Core0} {om : List Out2} {t W : Nat} {q r : List Message}, c.Good → HostGood c.host (q ++ r) →
    EndsBy d t c W → c.run pf g mid = .ok (c', om) → LoopClock d t mid → W + d + q.length * longest d < loopTime t mid → q <+: om.filterMap Out2.started := by
  intro mid
  induction mid with
  | nil =>
    intro c c' om t W q r _ _ hp _ _ hl
    have := hp.le
    have hl : W + d + q.length * longest d < t := hl
    omega
  | cons e mid ih =>
    intro c c' om t W q r hg hq hp h hc hl
    obtain ⟨c1, o, os, h1, h2, rfl⟩ := Core0.run_cons h
    obtain ⟨p0, p1, p2, p3, p4, p5⟩ := hc
    obtain ⟨k1, k2⟩ := EndsBy.iter hg h1 hp p0 p1 p2 p3 p4
    obtain ⟨r', q', j1, j2⟩ := iter_queue hg h1 hq
    have hl : W + d + q.length * longest d < loopTime e.2.tNew mid := hl
    have hg1 := (hg.iter h1).1
    rcases j2 with ⟨hi, m, j2, j3⟩ | ⟨rfl, j2, j3⟩
    · cases q with
      | nil => exact List.nil_prefix
      | cons x q =>
        simp only [List.cons_append, List.cons.injEq] at j3
        obtain ⟨rfl, rfl⟩ := j3
        rw [List.filterMap_cons, j2]
        rw [List.append_assoc] at j1
        refine List.cons_prefix_cons.mpr ⟨rfl, ih hg1 j1 k2 h2 p5 ?_⟩
        rw [List.length_cons, Nat.add_mul] at hl
        omega
    · by_cases hi : c.sm.st = .idle
      · have := j3 hi
        cases q with
        | nil => exact List.nil_prefix
        | cons x q => cases this
      · rw [List.filterMap_cons, j2 hi]
        rw [List.append_assoc] at j1
        exact ih hg1 j1 (k1 hi) h2 p5 hl

/-- The transmitter after a history in which time passed regularly. -/
theorem ends_run {pf : Platform} {g : Nat → UInt8} {d : Nat} : ∀ {es : List (Env1 × Env2)} {c c' : Core0} {os : List Out2} {t W : Nat}, c.Good →
    EndsBy d t c W → c.run pf g es = .ok (c', os) → LoopClock d t es → EndsBy d (loopTime t es) c' (loopTime t es + (200000 + 37 * d)) := by
  intro es
  induction es with
  | nil => intro c c' os t W _ hp h _; cases h; exact hp.renew
  | cons e es ih =>
    intro c c' os t W hg hp h hc
    obtain ⟨c1, o, os', h1, h2, rfl⟩ := Core0.run_cons h
    obtain ⟨p0, p1, p2, p3, p4, p5⟩ := hc
    exact ih (hg.iter h1).1 (EndsBy.iter hg h1 hp p0 p1 p2 p3 p4).2 h2 p5

theorem LoopClock.split {d : Nat} {b : List (Env1 × Env2)} : ∀ {a : List (Env1 × Env2)} {t : Nat}, LoopClock d t (a ++ b) → LoopClock d t a ∧ LoopClock d (loopTime t a) b := by
  intro a
  induction a with
  | nil => intro t h; exact ⟨trivial, h⟩
  | cons e a ih =>
    intro t h
    obtain ⟨p0, p1, p2, p3, p4, p5⟩ := h
    obtain ⟨k1, k2⟩ := ih p5
    exact ⟨⟨p0, p1, p2, p3, p4, k1⟩, k2⟩

theorem loopTime_append (b : List (Env1 × Env2)) : ∀ (a : List (Env1 × Env2)) (t : Nat), loopTime t (a ++ b) = loopTime (loopTime t a) b := by
  intro a
  induction a with
  | nil => intro t; rfl
  | cons e a ih => intro t; exact ih _

/-- **C137.** In every history in which each iteration takes at most `d`, whatever happens on the bus: `n` packets of the host wait after the iterations `es`.  If the time of `n + 1` longest transmissions passes,
these packets are the next `n` packets that are started, in the order of the queue. -/
theorem C137_waiting_are_next (pf : Platform) (g : Nat → UInt8) (es mid : List (Env1 × Env2)) (c c' : Core0) (os om : List Out2) (T d : Nat) (hr : LoopRun pf g es c os)
    (hm : c.run pf g mid = .ok (c', om)) (hclk : LoopClock d T (es ++ mid)) (hl : loopTime T es + (c.host.msgs.length + 1) * longest d < loopTime T (es ++ mid)) :
    queued g c <+: om.filterMap Out2.started := by
  obtain ⟨q, hq⟩ := hr.good.host
  rw [queued_eq g hq]
  rw [hq.2.1.len] at hl
  obtain ⟨k1, k2⟩ := hclk.split
  obtain ⟨w0, t0, t1, hrun⟩ := hr
  have hg : (Core0.init g w0 t0 t1).Good := (show LoopRun pf g [] _ [] from ⟨w0, t0, t1, rfl⟩).good
  have h0 : EndsBy d T (Core0.init g w0 t0 t1) T := .inl ⟨rfl, by omega⟩
  have h1 := ends_run hg h0 hrun k1
  rw [loopTime_append] at hl
  refine drain_run (hg.run hrun).1 (r := []) (by simpa using hq) h1 hm k2 ?_
  rw [Nat.add_mul] at hl
  have : longest d = 200000 + 39 * d := rfl
  omega

theorem host_sublist (ps : Origins) : ps.host.Sublist (ps.map Prod.fst) := by
  unfold Origins.host
  induction ps with
  | nil => exact List.Sublist.slnil
  | cons p ps ih =>
    obtain ⟨m, r⟩ := p
    rw [List.filterMap_cons, List.map_cons]
    cases r with
    | none => exact ih.cons_cons _
    | some r => exact ih.cons _

/-- **C137**, seen from the host: if fewer than eight packets wait at any time, then every packet the host has asked for in the iterations `es` is started before the time of `n + 1` longest transmissions has passed
(`n`: the number of packets that wait; at most 1.6 s and 312 iterations), whatever happens on the bus, in the order in which they were asked for. -/
theorem C137_every_packet_is_started (pf : Platform) (g : Nat → UInt8) (es mid : List (Env1 × Env2)) (c c' : Core0) (os om : List Out2) (T d : Nat) (hr : LoopRun pf g es c os)
    (hm : c.run pf g mid = .ok (c', om)) (hclk : LoopClock d T (es ++ mid)) (hf : FewWait pf g es)
    (hl : loopTime T es + (c.host.msgs.length + 1) * longest d < loopTime T (es ++ mid)) :
    ((hostLines es).filterMap (packetOf pf g)).Sublist ((os ++ om).filterMap Out2.started) := by
  have h := C137_waiting_are_next pf g es mid c c' os om T d hr hm hclk hl
  obtain ⟨ps, q, h1, _, h3, _, h5⟩ := started_inv pf g es c os hr
  rw [queued_eq g h3] at h
  rcases h5 with h5 | ⟨pre, post, cp, op, e1, e2, e3⟩
  · rw [← h5, List.filterMap_append, ← h1]
    exact (host_sublist ps).append h.sublist
  · have := hf pre post cp op e1 e2
    omega

/-! ## A case -/

/-- Few packets wait if few are asked for. -/
theorem few_of_lines {pf : Platform} {g : Nat → UInt8} {es : List (Env1 × Env2)} (h : ∀ k ≤ es.length, ((hostLines (es.take k)).filterMap (packetOf pf g)).length < 8) : FewWait pf g es := by
  intro pre post cp op e hr
  have hp : pre = es.take pre.length := by rw [e]; simp
  obtain ⟨ps, q, _, _, h3, h4, _⟩ := started_inv pf g pre cp op hr
  have h5 := h pre.length (by rw [e]; simp)
  rw [← hp] at h5
  have h6 := h4.length_le
  rw [List.length_append] at h6
  rw [h3.2.1.len]
  omega

/-- The host asks for `40F0` and, a millisecond later, for `40F1`; the bus is busy from then on. -/
def twoAsked : List (Env1 × Env2) := opRun ++ [bothIter 2301000 [52, 48, 70, 48, 10] (some wBusy), bothIter 2302000 [52, 48, 70, 49, 10] none]

/-- The bus stays busy; an iteration every 2.1 s. -/
def stuckBus : List (Env1 × Env2) := (List.range 80).map fun k => bothIter (2302000 + 2100000 * (k + 1)) [] none

/-- What the case shows: packets that wait after `twoAsked`, packets started before and afterwards. -/
def twoAskedSeen : Option (List (List UInt8) × List (List UInt8) × List (List UInt8)) :=
  match (Core0.init (fun _ => 0) .zero 0 0).run .arm (fun _ => 0) twoAsked with
  | .ok (c, os) => match c.run .arm (fun _ => 0) stuckBus with
    | .ok (_, om) => some ((queued (fun _ => 0) c).map Message.bytes, (os.filterMap Out2.started).map Message.bytes, (om.filterMap Out2.started).map Message.bytes)
    | .ub => none
  | .ub => none

set_option maxRecDepth 100000 in
theorem twoAsked_seen : twoAskedSeen = some ([[0x40, 0xF1]], [[0x40, 0xF0]], [[0x40, 0xF1]]) := by decide +kernel

/-- A Boolean form of `LoopClock`. -/
def clockOk (d : Nat) : Nat → List (Env1 × Env2) → Bool
  | _, [] => true
  | t, e :: es => decide (t ≤ e.2.tWake ∧ e.2.tWake ≤ e.2.tErr ∧ e.2.tErr ≤ e.2.tPow ∧ e.2.tPow ≤ e.2.tNew ∧ e.2.tNew ≤ t + d) && clockOk d e.2.tNew es

theorem clockOk_spec {d : Nat} : ∀ {es : List (Env1 × Env2)} {t : Nat}, clockOk d t es = true → LoopClock d t es := by
  intro es
  induction es with
  | nil => intro t _; trivial
  | cons e es ih =>
    intro t h
    rw [clockOk, Bool.and_eq_true, decide_eq_true_eq] at h
    obtain ⟨⟨p0, p1, p2, p3, p4⟩, h⟩ := h
    exact ⟨p0, p1, p2, p3, p4, ih h⟩

set_option maxRecDepth 100000 in
/-- The hypotheses of both theorems are met: one packet waits, and the next one that is started is this one, although the bus is never free. -/
example : ∃ (c c' : Core0) (os om : List Out2), LoopRun .arm (fun _ => 0) twoAsked c os ∧ c.run .arm (fun _ => 0) stuckBus = .ok (c', om) ∧ LoopClock 2100000 0 (twoAsked ++ stuckBus) ∧
    FewWait .arm (fun _ => 0) twoAsked ∧ c.host.msgs.length = 1 ∧ loopTime 0 twoAsked + (c.host.msgs.length + 1) * longest 2100000 < loopTime 0 (twoAsked ++ stuckBus) ∧
    queued (fun _ => 0) c <+: om.filterMap Out2.started ∧ (queued (fun _ => 0) c).map Message.bytes = [[0x40, 0xF1]] := by
  have h := twoAsked_seen
  unfold twoAskedSeen at h
  split at h
  · rename_i c os e0
    split at h
    · rename_i c' om e1
      simp only [Option.some.injEq, Prod.mk.injEq] at h
      have hr : LoopRun .arm (fun _ => 0) twoAsked c os := ⟨_, _, _, e0⟩
      obtain ⟨q, hq⟩ := hr.good.host
      have hl : c.host.msgs.length = 1 := by
        rw [hq.2.1.len]
        have := h.1
        rw [queued_eq _ hq] at this
        have := congrArg List.length this
        rwa [List.length_map] at this
      have hclk : LoopClock 2100000 0 (twoAsked ++ stuckBus) := clockOk_spec (by decide +kernel)
      have ht : loopTime 0 twoAsked + (1 + 1) * longest 2100000 < loopTime 0 (twoAsked ++ stuckBus) := by decide +kernel
      refine ⟨c, c', os, om, hr, e1, hclk, few_of_lines (by decide +kernel), hl, by rw [hl]; exact ht, ?_, h.1⟩
      exact C137_waiting_are_next .arm _ twoAsked stuckBus c c' os om 0 2100000 hr e1 hclk (by rw [hl]; exact ht)
    · cases h
  · cases h

end P1P2
