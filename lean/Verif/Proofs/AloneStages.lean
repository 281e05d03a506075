import Verif.Proofs.AloneStep
/-!
# A modem alone on the bus: from stage to stage
-/
namespace P1P2

/-- What an iteration leads to. -/
def NextStage (x : Bench) (c' : Core0) (ev : List DevEv) (ws : List Word) (started : List Message) (cmds : List HwCmd) (r : Round) : Prop :=
  EvInv x (ev ++ (r.before ++ r.after)) ∧ Stage x c' (ev ++ (r.before ++ r.after)) (ws ++ wordsOf [r.env]) (started ++ r.out.started.toList) (cmds ++ r.out.cmds) ∧
  txMsgs r.out.reports = []

/-- The bounds. -/
structure Bounds (x : Bench) : Prop where
  hP : 0 < x.P
  hU : 0 < x.U
  hPU : x.P ≤ 4 * x.U
  hD : x.U * x.D + x.U * x.lag ≤ 1800 * x.U
  hD' : x.D ≤ 1800
  clk : SenderClock x.P x.c
  one : x.c 1 ≤ 32000 * x.U

theorem AloneOnBus.bounds {x : Bench} {ev : List DevEv} {rs : List Round} (h : AloneOnBus x ev rs) : Bounds x := by
  obtain ⟨h1, h2, h3⟩ := h.units
  have := Nat.mul_le_mul_left x.U h3
  rw [Nat.mul_add, Nat.mul_comm x.U 1800] at this
  exact ⟨h1, by omega, h2, this, by omega, h.clock.1, h.clock.2⟩

theorem Bounds.one_cycle {x : Bench} (h : Bounds x) (n : Nat) : x.c (n + 1) ≤ x.c n + 3 * x.P := by
  have := h.clk.high n 1 (by omega)
  rw [show 1992 * 1 * x.P = 1992 * x.P by omega] at this
  omega

theorem Bounds.frame {x : Bench} (h : Bounds x) (n : Nat) : x.c (n + 175) ≤ x.c n + 350 * x.P := by
  have := h.clk.high n 175 (by omega)
  rw [show 1992 * 175 * x.P = 348600 * x.P by omega] at this
  omega

theorem Bounds.nearFrame {x : Bench} (h : Bounds x) (n : Nat) : x.c (n + 174) ≤ x.c n + 348 * x.P := by
  have := h.clk.high n 174 (by omega)
  rw [show 1992 * 174 * x.P = 346608 * x.P by omega] at this
  omega

theorem RoundOk.times {x : Bench} {ev : List DevEv} {ws : List Word} {r : Round} (h : RoundOk x ev ws r) :
    x.U * r.env.2.tErr ≤ x.U * r.env.2.tPow ∧ x.U * r.env.2.tPow ≤ x.U * r.env.2.tNew ∧ x.U * r.env.2.tPow ≤ x.c (cyclesOf (ev ++ r.before)) :=
  ⟨Nat.mul_le_mul_left _ h.order.2.1, Nat.mul_le_mul_left _ h.order.2.2, h.late⟩

theorem before_time {x : Bench} {t dl : Nat} (h : x.U * t < x.U * dl) : t < dl := Nat.lt_of_mul_lt_mul_left h

/-- The driver says that it does not transmit. -/
theorem says_idle {x : Bench} (hb : Bounds x) {ev : List DevEv} {ws : List Word} {r : Round} (hi : EvInv x ev) (hs : Settled x ev) (hr : RoundOk x ev ws r) : r.env.2.transmitting = false := by
  rw [Bool.eq_false_iff]
  intro ht
  obtain ⟨a, b, d, pins, rs, h1, h2, h3⟩ := hr.transmitting ht
  have hq := hr.quiet
  rw [h1, callsOf_append] at hq
  have hq := (List.append_eq_nil_iff.mp hq).1
  rw [not_transmitting hb.hP hb.clk (hi.quiet hq) (hs.quiet hq) h2] at h3
  cases h3

/-- An iteration without calls. -/
theorem no_calls {x : Bench} {ev : List DevEv} {ws : List Word} {r : Round} (hr : RoundOk x ev ws r) (h : r.out.cmds = []) : callsOf (r.before ++ r.after) = [] := by
  rw [callsOf_append, hr.quiet, hr.calls, h]; rfl

/-- An iteration with one call. -/
theorem one_call {x : Bench} (hb : Bounds x) {ev : List DevEv} {ws : List Word} {r : Round} (hr : RoundOk x ev ws r) {cmd : HwCmd} (h : r.out.cmds = [cmd]) :
    ∃ a b, callsOf a = [] ∧ callsOf b = [] ∧ ev ++ (r.before ++ r.after) = (ev ++ a) ++ [.call cmd] ++ b ∧ x.U * r.env.2.tPow ≤ x.c (cyclesOf (ev ++ a)) ∧
      x.c (cyclesOf (ev ++ a)) ≤ x.U * r.env.2.tNew + x.U * x.lag := by
  obtain ⟨a, b, h1, h2, h3⟩ := calls_two (hr.calls.trans h)
  refine ⟨r.before ++ a, b, by rw [callsOf_append, hr.quiet, h2]; rfl, h3, by rw [h1]; simp, ?_, ?_⟩
  · refine Nat.le_trans hr.late (hb.clk.le ?_)
    rw [← List.append_assoc, cyclesOf_append (ev ++ r.before)]
    omega
  · have h4 := hr.soon a cmd b h1
    rw [Nat.mul_add] at h4
    rw [← List.append_assoc]
    exact h4

theorem msgs_quiet {ev a : List DevEv} (h : callsOf a = []) : msgsOf (ev ++ a) = msgsOf ev := by
  unfold msgsOf; rw [sends_quiet h]

/-- Nothing is called: what holds of the transmitter stays. -/
theorem stay_quiet {x : Bench} {ev a : List DevEv} (hi : EvInv x ev) (ha : callsOf a = []) : EvInv x (ev ++ a) ∧ sendsFrom 0 (ev ++ a) = sendsFrom 0 ev ∧ msgsOf (ev ++ a) = msgsOf ev :=
  ⟨hi.quiet ha, sends_quiet ha, msgs_quiet ha⟩

/-- The shutdown pin is set. -/
theorem stay_shutdown {x : Bench} {ev a b : List DevEv} {s : Bool} (hi : EvInv x ev) (hs : Settled x ev) (ha : callsOf a = []) (hb : callsOf b = []) :
    EvInv x ((ev ++ a) ++ [.call (.shutdown s)] ++ b) ∧ Settled x ((ev ++ a) ++ [.call (.shutdown s)] ++ b) ∧
    sendsFrom 0 ((ev ++ a) ++ [.call (.shutdown s)] ++ b) = sendsFrom 0 ev := by
  refine ⟨((hi.quiet ha).shutdown s).quiet hb, ((hs.quiet ha).shutdown s).quiet hb, ?_⟩
  rw [sends_quiet hb, sends_shutdown, sends_quiet ha]

/-- Before the first word. -/
theorem first_word {x : Bench} {ev : List DevEv} {ws : List Word} {r : Round} {ts : List (Nat × Word)} {lo hi : Nat} (h : RoundFacts x ev ws r ts lo hi)
    (hs : sendsFrom 0 ev = [] ∧ ws = []) :
    x.U * r.env.2.tErr ≤ 376 * x.P + x.U * x.D ∧ (r.env.2.word = none ∨ (r.env.2.word = some wFree ∧ 2 * x.P ≤ x.U * r.env.2.tErr)) := by
  have hh := h.heard
  rw [hs.1] at hh
  obtain ⟨f, h1, h2, h3⟩ := hh
  obtain ⟨n1, n2⟩ := facts_next h (a := []) h1 (by rw [hs.2]; rfl)
  refine ⟨by omega, ?_⟩
  rcases n2 with n2 | ⟨n2, n3⟩
  · exact .inl n2
  · exact .inr ⟨n2, by omega⟩

theorem wordsOf_none {e : Env1 × Env2} (h : e.2.word = none) : wordsOf [e] = [] := by simp [wordsOf, h]

theorem wordsOf_some {e : Env1 × Env2} {w : Word} (h : e.2.word = some w) : wordsOf [e] = [w] := by simp [wordsOf, h]

theorem Trk.next {m : Message} {c c' : Core0} {st : TxSt} {dl off : Nat} (h : Trk m c st dl off) (hg : c'.Good) (hw : c'.word = .zero) {st' : TxSt} {dl' : Nat}
    (hs : c'.sm = { c.sm with st := st', dl := dl' }) : Trk m c' st' dl' off :=
  ⟨hg, hw, by rw [hs], by rw [hs], by rw [hs]; exact h.msg, by rw [hs]; exact h.off, by rw [hs]; exact h.err⟩

theorem Trk.same {m : Message} {c c' : Core0} {st : TxSt} {dl off : Nat} (h : Trk m c st dl off) (hg : c'.Good) (hw : c'.word = .zero)
    (hs : c'.sm = c.sm) : Trk m c' st dl off :=
  ⟨hg, hw, by rw [hs]; exact h.st, by rw [hs]; exact h.dl, by rw [hs]; exact h.msg, by rw [hs]; exact h.off, by rw [hs]; exact h.err⟩

variable {pf : Platform} {g : Nat → UInt8} {x : Bench} {c c' : Core0} {ev : List DevEv} {ws : List Word} {started : List Message} {cmds : List HwCmd} {r : Round}
  {ts : List (Nat × Word)} {lo hi : Nat}

/-- The iteration leaves the idle stage by starting a transmission, or stays. -/
theorem stage_idle (hb : Bounds x) (hg : c.Good) (hl : c.lineBusy = busKnownBusy true ws) (hi' : EvInv x ev) (hr : RoundOk x ev ws r) (hf : RoundFacts x ev ws r ts lo hi)
    (h : c.iter pf g r.env = .ok (c', r.out)) (h1 : c.sm.st = .idle) (h2 : c.sm.err = false) (h3 : Settled x ev)
    (h4 : ws = wordsFor (msgsOf ev) ∨ (sendsFrom 0 ev = [] ∧ ws = [])) (h5 : started = msgsOf ev) (h6 : cmds = (msgsOf ev).flatMap txCalls) :
    NextStage x c' ev ws started cmds r := by
  have htx : txMsgs r.out.reports = [] := by rw [iter_tx hg h, if_neg (by simp [h2])]
  -- the words
  have hw : (ws ++ wordsOf [r.env] = wordsFor (msgsOf ev) ∧ callsEnd x.P x.c 0 (sendsFrom 0 ev) + 2 * x.P ≤ x.U * r.env.2.tErr) ∨
      (sendsFrom 0 ev = [] ∧ ws ++ wordsOf [r.env] = []) := by
    rcases h4 with h4 | ⟨h4, h4'⟩
    · obtain ⟨a1, a2⟩ := facts_calm hf h4
      left
      rw [wordsOf_none a1, List.append_nil]
      exact ⟨h4, a2⟩
    · obtain ⟨a1, a2 | ⟨a2, a3⟩⟩ := first_word hf ⟨h4, h4'⟩
      · right
        rw [wordsOf_none a2, List.append_nil]
        exact ⟨h4, h4'⟩
      · left
        rw [wordsOf_some a2, h4', msgsOf, h4]
        refine ⟨rfl, ?_⟩
        show 0 + _ ≤ _
        omega
  -- nothing starts
  have stay : r.out.cmds = [] → r.out.started = none → c'.sm.st = .idle → c'.sm.err = false → NextStage x c' ev ws started cmds r := by
    intro e1 e2 e3 e4
    have hq := no_calls hr e1
    obtain ⟨s1, s2, s3⟩ := stay_quiet hi' hq
    refine ⟨s1, .idle e3 e4 (h3.quiet hq) ?_ ?_ ?_, htx⟩
    · rw [s2, s3]
      rcases hw with hw | hw
      · exact .inl hw.1
      · exact .inr hw
    · rw [s3, e2, h5]; simp
    · rw [s3, e1, h6, List.append_nil]
  obtain ⟨p, hp, hc⟩ := iter_trace hg h
  rcases hc with ⟨_, _, hcm, hn, _, hsm, _⟩ | ⟨_, hz, ⟨hn, hu⟩ | ⟨m, hst, hsd, hid, hu⟩⟩
  · refine stay hcm hn ?_ ?_
    · rw [hsm, hp.last.1, h1]
    · rw [hsm]; exact hp.last.2.2.2.2
  · have hid : (txEnd c.sm p).st = .idle := by rw [hp.last.1, h1]
    have : (txEnd c.sm p).update pf (loopIn c' r.env.2 (r.env.2.word.getD c.word)) = .ok (txEnd c.sm p, []) := by
      simp [TxSM.update, TxSM.timedOutError, hid, TxSt.timeoutIsError, TxSt.lineStateIsError, TxSt.busyIsError, TxSt.freeIsError, TxSM.dispatch, TxSM.isIdle]
    rw [this] at hu
    simp only [Res.ok.injEq, Prod.mk.injEq] at hu
    refine stay hu.2.symm hn ?_ ?_
    · rw [← hu.1, hid]
    · rw [← hu.1]; exact hp.last.2.2.2.2
  · obtain ⟨b1, b2, b3⟩ := start_iter hg h hst hf.ok hf.noErr (by have := hr.pace; have := hb.hD'; omega)
    rw [hl, ← busKnownBusy_append] at b1
    rcases hw with ⟨w1, w2⟩ | ⟨w1, w2⟩
    · rw [w1, busy_words] at b1
      obtain ⟨t1, t2⟩ := b3 b1 (says_idle hb hi' h3 hr)
      obtain ⟨a, b, q1, q2, q3, q4, q5⟩ := one_call hb hr t2
      obtain ⟨s1, s2, s3⟩ := stay_shutdown (s := false) hi' h3 q1 q2
      rw [← q3] at s1 s2 s3
      have s4 : msgsOf (ev ++ (r.before ++ r.after)) = msgsOf ev := by unfold msgsOf; rw [s3]
      refine ⟨s1, .power m _ t1 ?_ s2 ?_ ?_ ?_ hsd, htx⟩
      · rw [s3, Nat.mul_add]
        have := hr.times
        omega
      · rw [w1, s4]
      · rw [s4, hst, h5]; rfl
      · rw [s4, t2, h6]
    · rw [w2] at b1
      obtain ⟨t1, t2⟩ := b2 (.inl b1)
      have hq := no_calls hr t2
      obtain ⟨s1, s2, s3⟩ := stay_quiet hi' hq
      refine ⟨s1, .wait m _ t1 (by omega) (h3.quiet hq) ⟨by rw [s2]; exact w1, w2⟩ ?_ ?_ hsd, htx⟩
      · rw [hst, h5, msgsOf, w1]; rfl
      · rw [t2, h6, msgsOf, w1]; rfl

theorem stage_wait (hb : Bounds x) (hl : c.lineBusy = busKnownBusy true ws) (hi' : EvInv x ev) (hr : RoundOk x ev ws r) (hf : RoundFacts x ev ws r ts lo hi)
    (h : c.iter pf g r.env = .ok (c', r.out)) (m : Message) (dl : Nat) (h1 : Trk m c .waitLineFree dl 0) (h2 : 34000 ≤ dl) (h3 : Settled x ev) (h4 : sendsFrom 0 ev = [] ∧ ws = [])
    (h5 : started = [m]) (h6 : cmds = []) (h7 : Sendable m) : NextStage x c' ev ws started cmds r := by
  obtain ⟨u1, u2, u3, u4, u5, u6⟩ := h1.step (by simp) hf.ok h
  rw [hl, ← busKnownBusy_append] at u6
  obtain ⟨a1, a2⟩ := first_word hf h4
  have htime : r.env.2.tErr < c.sm.dl := by
    rw [h1.dl]
    apply before_time (x := x)
    have := Nat.mul_le_mul_left x.U h2
    have := hb.hPU
    have := hb.hD
    have := hb.hU
    rw [Nat.mul_comm x.U 34000] at *
    omega
  rcases a2 with a2 | ⟨a2, a3⟩
  · rw [wordsOf_none a2, List.append_nil, h4.2] at u6
    rw [upd_wait h1.st htime hf.noErr (.inl u6)] at u1
    simp only [Res.ok.injEq, Prod.mk.injEq] at u1
    obtain ⟨u1, u7⟩ := u1
    have hq := no_calls hr u7.symm
    obtain ⟨s1, s2, s3⟩ := stay_quiet hi' hq
    refine ⟨s1, .wait m dl (h1.same u2 u3 u1.symm) h2 (h3.quiet hq) ⟨by rw [s2]; exact h4.1, ?_⟩ ?_ ?_ h7, u5⟩
    · rw [wordsOf_none a2, List.append_nil]; exact h4.2
    · rw [u4, h5]; rfl
    · rw [← u7, h6]; rfl
  · have hw : ws ++ wordsOf [r.env] = wordsFor [] := by rw [wordsOf_some a2, h4.2]; rfl
    rw [hw, busy_words] at u6
    rw [u6, upd_on h1.st htime hf.noErr h1.off rfl (says_idle hb hi' h3 hr)] at u1
    simp only [Res.ok.injEq, Prod.mk.injEq] at u1
    obtain ⟨u1, u7⟩ := u1
    obtain ⟨a, b, q1, q2, q3, q4, q5⟩ := one_call hb hr u7.symm
    obtain ⟨s1, s2, s3⟩ := stay_shutdown (s := false) hi' h3 q1 q2
    rw [← q3] at s1 s2 s3
    have s4 : msgsOf (ev ++ (r.before ++ r.after)) = [] := by unfold msgsOf; rw [s3, h4.1]; rfl
    refine ⟨s1, .power m _ (h1.next u2 u3 u1.symm) ?_ s2 ?_ ?_ ?_ h7, u5⟩
    · rw [s3, h4.1]
      show 0 + _ + _ ≤ x.U * (r.env.2.tNew + 32000)
      rw [Nat.mul_add]
      have := hr.times
      omega
    · rw [hw, s4]
    · rw [s4, u4, h5]; rfl
    · rw [s4, ← u7, h6]; rfl

theorem stage_power (hb : Bounds x) (hl : c.lineBusy = busKnownBusy true ws) (hi' : EvInv x ev) (hr : RoundOk x ev ws r) (hf : RoundFacts x ev ws r ts lo hi)
    (h : c.iter pf g r.env = .ok (c', r.out)) (m : Message) (dl : Nat) (h1 : Trk m c .waitPowerOn dl 0)
    (h2 : callsEnd x.P x.c 0 (sendsFrom 0 ev) + 2 * x.P + 32000 * x.U ≤ x.U * dl) (h3 : Settled x ev)
    (h4 : ws = wordsFor (msgsOf ev)) (h5 : started = msgsOf ev ++ [m]) (h6 : cmds = (msgsOf ev).flatMap txCalls ++ [.shutdown false]) (h7 : Sendable m) :
    NextStage x c' ev ws started cmds r := by
  obtain ⟨u1, u2, u3, u4, u5, u6⟩ := h1.step (by simp) hf.ok h
  rw [hl, ← busKnownBusy_append] at u6
  obtain ⟨a1, a2⟩ := facts_calm hf h4
  have hw : ws ++ wordsOf [r.env] = wordsFor (msgsOf ev) := by rw [wordsOf_none a1, List.append_nil, h4]
  rw [hw, busy_words] at u6
  rw [u6] at u1
  by_cases hp : r.env.2.tPow < dl
  · rw [upd_power h1.st (by rw [h1.dl]; exact hp) hf.noErr rfl] at u1
    simp only [Res.ok.injEq, Prod.mk.injEq] at u1
    obtain ⟨u1, u7⟩ := u1
    have hq := no_calls hr u7.symm
    obtain ⟨s1, s2, s3⟩ := stay_quiet hi' hq
    refine ⟨s1, .power m dl (h1.same u2 u3 u1.symm) (by rw [s2]; exact h2) (h3.quiet hq) (by rw [hw, s3]) ?_ ?_ h7, u5⟩
    · rw [u4, s3, h5]; simp
    · rw [← u7, s3, h6, List.append_nil]
  · rw [upd_snd h1.st (by rw [h1.dl]; exact Nat.not_lt.mp hp) hf.noErr rfl] at u1
    simp only [Res.ok.injEq, Prod.mk.injEq] at u1
    obtain ⟨u1, u7⟩ := u1
    rw [h1.msg] at u7
    obtain ⟨a, b, q1, q2, q3, q4, q5⟩ := one_call hb hr u7.symm
    have m1 := Nat.mul_le_mul_left x.U (Nat.not_lt.mp hp)
    have m2 := hb.one
    have m3 := hb.hP
    have m4 := hb.hPU
    have n1 : 1 < cyclesOf (ev ++ a) := hb.clk.lt_iff.mpr (by omega)
    have n2 : (lateEnd 1 0 0 (ev ++ a)).1 < cyclesOf (ev ++ a) := hb.clk.lt_iff.mpr (by
      rw [late_quiet q1]
      have := h3.past
      omega)
    have n3 := hb.one_cycle (cyclesOf (ev ++ a))
    have n4 := hb.clk.mono (cyclesOf (ev ++ a))
    have n5 := hr.silence
    rw [Nat.mul_add] at n5
    have hs := sends_quiet (ev := ev) q1
    have e1 : EvInv x ((ev ++ a) ++ [.call (.send m)]) := (hi'.quiet q1).send h7 (h3.quiet q1).left (by omega) (by rw [hs]; omega) (by rw [hs]; omega) (by rw [hs]; omega)
    have e2 := late_send (h3.quiet q1) h7 (Nat.le_of_lt n2)
    rw [NextStage, q3]
    have e3 : sendsFrom 0 ((ev ++ a) ++ [.call (.send m)] ++ b) = sendsFrom 0 ev ++ [(cyclesOf (ev ++ a), m)] := by rw [sends_quiet q2, sends_send, hs]
    refine ⟨e1.quiet q2, .listen (sendsFrom 0 ev) (cyclesOf (ev ++ a)) m _ (h1.next u2 u3 u1.symm) ?_ ?_ ?_ ?_ ?_ e3, u5⟩
    · show _ ≤ x.U * (r.env.2.tNew + 2000) + _
      rw [Nat.mul_add, Nat.mul_comm x.U 2000]
      omega
    · rw [late_quiet q2]; exact e2
    · exact hw
    · rw [u4, h5, msgsOf, msgsOf, e3, List.map_append]; simp
    · rw [← u7, h6]; simp [msgsOf]

theorem stage_listen (hb : Bounds x) (hl : c.lineBusy = busKnownBusy true ws) (hi' : EvInv x ev) (hr : RoundOk x ev ws r) (hf : RoundFacts x ev ws r ts lo hi)
    (h : c.iter pf g r.env = .ok (c', r.out)) (l : List (Nat × Message)) (n : Nat) (m : Message) (dl : Nat) (h1 : Trk m c .startedWaitForBusy dl 0)
    (h2 : x.c n + 2000 * x.U ≤ x.U * dl + x.U * x.lag)
    (h3 : (lateEnd 1 0 0 ev).1 = finalStart n m + 174) (h4 : ws = wordsFor (l.map Prod.snd)) (h5 : started = msgsOf ev)
    (h6 : cmds = (l.map Prod.snd).flatMap txCalls ++ [.shutdown false, .send m]) (h7 : sendsFrom 0 ev = l ++ [(n, m)]) : NextStage x c' ev ws started cmds r := by
  obtain ⟨u1, u2, u3, u4, u5, u6⟩ := h1.step (by simp) hf.ok h
  rw [hl, ← busKnownBusy_append] at u6
  have hh := hf.heard
  rw [h7] at hh
  obtain ⟨ts0, b, ts1, f, w1, w2, w3, w4, w5, w6, w7⟩ := heard_last _ _ _ _ _ hh
  obtain ⟨a1, a2⟩ := facts_next hf w1 (h4.trans w2.symm)
  have k1 := hb.one_cycle n
  have k2 := hb.hPU
  have k3 := hb.hD
  have k4 := hb.hU
  have htime : r.env.2.tErr < c.sm.dl := by
    rw [h1.dl]
    apply before_time (x := x)
    omega
  rcases a2 with a2 | ⟨a2, a3⟩
  · have hw : ws ++ wordsOf [r.env] = wordsFor (l.map Prod.snd) := by rw [wordsOf_none a2, List.append_nil, h4]
    rw [hw, busy_words] at u6
    rw [u6, upd_listen h1.st htime hf.noErr rfl (by simp [toldIn, a2, Word.zero]) (by simp [toldIn, a2, Word.zero])] at u1
    simp only [Res.ok.injEq, Prod.mk.injEq] at u1
    obtain ⟨u1, u7⟩ := u1
    have hq := no_calls hr u7.symm
    obtain ⟨s1, s2, s3⟩ := stay_quiet hi' hq
    refine ⟨s1, .listen l n m dl (h1.same u2 u3 u1.symm) h2 (by rw [late_quiet hq]; exact h3) hw ?_ ?_ (by rw [s2]; exact h7), u5⟩
    · rw [u4, s3, h5]; simp
    · rw [← u7, h6, List.append_nil]
  · have hw : ws ++ wordsOf [r.env] = wordsFor (l.map Prod.snd) ++ [wBusy] := by rw [wordsOf_some a2, h4]
    rw [hw, busKnownBusy_append] at u6
    have u6 : c'.lineBusy = true := u6
    rw [u6, upd_first h1.st htime hf.noErr rfl (by simp [toldIn, a2, wBusy, Word.zero]) (by simp [toldIn, a2, wBusy, Word.zero])] at u1
    simp only [Res.ok.injEq, Prod.mk.injEq] at u1
    obtain ⟨u1, u7⟩ := u1
    have hq := no_calls hr u7.symm
    obtain ⟨s1, s2, s3⟩ := stay_quiet hi' hq
    have hm := (hi'.sizes (n, m) (by rw [h7]; simp)).2.1
    refine ⟨s1, .run l n m _ 0 (h1.next u2 u3 u1.symm) ?_ (by rw [late_quiet hq]; exact h3) (by rw [hw]; rfl) ?_ ?_ (by rw [s2]; exact h7) hm, u5⟩
    · show x.c (n + 1) + 25 * x.P + 4000 * x.U ≤ x.U * (r.env.2.tNew + 4000)
      rw [Nat.mul_add, Nat.mul_comm x.U 4000]
      have := hr.times
      omega
    · rw [u4, s3, h5]; simp
    · rw [← u7, h6, List.append_nil]

theorem bytes_at {m : Message} {j : Nat} (h : j < m.length) : ∃ r, m.bytes = m.bytes.take j ++ m.data j :: r := by
  have hl : j < m.bytes.length := by simpa [Message.bytes] using h
  refine ⟨m.bytes.drop (j + 1), ?_⟩
  have h1 := List.take_append_drop j m.bytes
  rw [List.drop_eq_getElem_cons hl] at h1
  rw [show m.data j = m.bytes[j] by simp [Message.bytes]]
  exact h1.symm

theorem take_byte {m : Message} {j : Nat} (h : j < m.length) : m.bytes.take (j + 1) = m.bytes.take j ++ [m.data j] := by
  have hl : j < m.bytes.length := by simpa [Message.bytes] using h
  rw [List.take_succ_eq_append_getElem hl]
  simp [Message.bytes]

theorem busy_running (ms : List Message) (bs : List UInt8) : busKnownBusy true (wordsFor ms ++ wBusy :: bs.map wByte) = true := by
  rw [busKnownBusy_append, show (wBusy :: bs.map wByte) = [wBusy] ++ bs.map wByte from rfl, busKnownBusy_append, busy_bytes]
  rfl

theorem stage_run (hpf : pf.charSigned = false) (hb : Bounds x) (hl : c.lineBusy = busKnownBusy true ws) (hi' : EvInv x ev) (hr : RoundOk x ev ws r) (hf : RoundFacts x ev ws r ts lo hi)
    (h : c.iter pf g r.env = .ok (c', r.out)) (l : List (Nat × Message)) (n : Nat) (m : Message) (dl j : Nat) (h1 : Trk m c .runningCheckData dl j)
    (h2 : heardFrom x n j + 4000 * x.U ≤ x.U * dl)
    (h3 : (lateEnd 1 0 0 ev).1 = finalStart n m + 174) (h4 : ws = wordsFor (l.map Prod.snd) ++ wBusy :: (m.bytes.take j).map wByte) (h5 : started = msgsOf ev)
    (h6 : cmds = (l.map Prod.snd).flatMap txCalls ++ [.shutdown false, .send m]) (h7 : sendsFrom 0 ev = l ++ [(n, m)]) (h8 : j < m.length) :
    NextStage x c' ev ws started cmds r := by
  obtain ⟨u1, u2, u3, u4, u5, u6⟩ := h1.step (by simp) hf.ok h
  rw [hl, ← busKnownBusy_append] at u6
  have hh := hf.heard
  rw [h7] at hh
  obtain ⟨ts0, b, ts1, f, w1, w2, w3, w4, w5, w6, w7⟩ := heard_last _ _ _ _ _ hh
  obtain ⟨rest, hb1⟩ := bytes_at h8
  have hlen : (m.bytes.take j).length = j := by
    rw [List.length_take]
    have : m.bytes.length = m.length := by simp [Message.bytes]
    omega
  rw [hb1] at w5
  obtain ⟨tx, ty, x1, x2, x3⟩ := frames_split _ _ _ _ w5
  rw [hlen] at x3
  obtain ⟨k, ts', y1, y2, y3, y4⟩ := x3
  obtain ⟨a1, a2⟩ := facts_next hf (a := ts0 ++ (b, wBusy) :: tx) (b := ts' ++ [(f, wFree)]) (k := k) (w := wByte (m.data j)) (by rw [w1, x1, y1]; simp)
    (by rw [h4, List.map_append, List.map_cons, w2, x2])
  have k2 := hb.hPU
  have k3 := hb.hD
  have k4 := hb.hU
  have k5 : x.c (n + 1 + 175 * j) + 367 * x.P ≤ heardFrom x n j + 360 * x.P := by
    unfold heardFrom
    by_cases hj : j = 0
    · rw [if_pos hj, hj]
      show x.c (n + 1) + _ ≤ _
      omega
    · rw [if_neg hj]
      have := hb.frame (n + 1 + 175 * (j - 1))
      rw [show n + 1 + 175 * (j - 1) + 175 = n + 1 + 175 * j by omega] at this
      omega
  have htime : r.env.2.tErr < c.sm.dl := by
    rw [h1.dl]
    apply before_time (x := x)
    omega
  rcases a2 with a2 | ⟨a2, a3⟩
  · have hw : ws ++ wordsOf [r.env] = wordsFor (l.map Prod.snd) ++ wBusy :: (m.bytes.take j).map wByte := by rw [wordsOf_none a2, List.append_nil, h4]
    rw [hw, busy_running] at u6
    rw [u6, upd_quiet h1.st htime hf.noErr rfl (by simp [toldIn, a2, Word.zero]) (by simp [toldIn, a2, Word.zero])] at u1
    simp only [Res.ok.injEq, Prod.mk.injEq] at u1
    obtain ⟨u1, u7⟩ := u1
    have hq := no_calls hr u7.symm
    obtain ⟨s1, s2, s3⟩ := stay_quiet hi' hq
    refine ⟨s1, .run l n m dl j (h1.same u2 u3 u1.symm) h2 (by rw [late_quiet hq]; exact h3) hw ?_ ?_ (by rw [s2]; exact h7) h8, u5⟩
    · rw [u4, s3, h5]; simp
    · rw [← u7, h6, List.append_nil]
  · have hw : ws ++ wordsOf [r.env] = wordsFor (l.map Prod.snd) ++ wBusy :: (m.bytes.take (j + 1)).map wByte := by
      rw [wordsOf_some a2, h4, take_byte h8]; simp
    rw [hw, busy_running] at u6
    rw [u6] at u1
    obtain ⟨v1, v2, v3, v4, v5, v6⟩ := upd_byte hpf (.inr h1.st) htime hf.noErr rfl (by simp [toldIn, a2, wByte]) (by simp [toldIn, a2, wByte, Word.zero])
      (by rw [h1.msg, h1.off]; simp [toldIn, a2, wByte]) u1
    rw [h1.msg, h1.off] at v1 v6
    rw [h1.off] at v4
    rw [h1.msg] at v3
    rw [h1.err] at v5
    have hT := hr.times
    by_cases hd : j + 1 = m.length
    · rw [if_pos hd] at v1 v6
      obtain ⟨a, b', q1, q2, q3, q4, q5⟩ := one_call hb hr v6
      have hfs : n + 1 + 175 * j = finalStart n m := by unfold finalStart; omega
      rw [hfs] at y2
      have n1 := hb.nearFrame (finalStart n m)
      have n2 : finalStart n m + 174 < cyclesOf (ev ++ a) := hb.clk.lt_iff.mpr (by have := hb.hP; omega)
      have hlate : (lateEnd 1 0 0 (ev ++ a)).1 = finalStart n m + 174 := by rw [late_quiet q1, h3]
      have hs := sends_quiet (ev := ev) q1
      have hend : callsEnd x.P x.c 0 (sendsFrom 0 (ev ++ a)) = x.c (finalStart n m) + 348 * x.P := by rw [hs, h7, callsEnd_append]
      have e1 : EvInv x ((ev ++ a) ++ [.call .clearFifo]) := (hi'.quiet q1).clear (by omega)
      have e2 : Settled x ((ev ++ a) ++ [.call .clearFifo]) := Settled.clear (by rw [hlate, hend]; omega) (.inr (by omega))
      have e3 : sendsFrom 0 ((ev ++ a) ++ [.call .clearFifo] ++ b') = sendsFrom 0 ev := by rw [sends_quiet q2, sends_clear, hs]
      rw [NextStage, q3]
      refine ⟨e1.quiet q2, .tail l n m (r.env.2.tNew + 4000) ⟨u2, u3, v1, v2, v3, by rw [v4, hd], v5⟩ ?_ (e2.quiet q2) ?_ ?_ ?_ (by rw [e3]; exact h7), u5⟩
      · rw [Nat.mul_add, Nat.mul_comm x.U 4000]
        omega
      · rw [hw, hd, List.take_of_length_le (by simp [Message.bytes])]
      · rw [u4, h5, msgsOf, msgsOf, e3]; simp
      · rw [v6, h6]; simp
    · rw [if_neg hd] at v1 v6
      have hq := no_calls hr v6
      obtain ⟨s1, s2, s3⟩ := stay_quiet hi' hq
      refine ⟨s1, .run l n m (r.env.2.tNew + 4000) (j + 1) ⟨u2, u3, v1, v2, v3, v4, v5⟩ ?_ (by rw [late_quiet hq]; exact h3) hw ?_ ?_ (by rw [s2]; exact h7) (by omega), u5⟩
      · unfold heardFrom
        rw [if_neg (by omega), Nat.add_sub_cancel, Nat.mul_add, Nat.mul_comm x.U 4000]
        omega
      · rw [u4, s3, h5]; simp
      · rw [v6, h6, List.append_nil]

theorem stage_tail (hb : Bounds x) (hl : c.lineBusy = busKnownBusy true ws) (hi' : EvInv x ev) (hr : RoundOk x ev ws r) (hf : RoundFacts x ev ws r ts lo hi)
    (h : c.iter pf g r.env = .ok (c', r.out)) (l : List (Nat × Message)) (n : Nat) (m : Message) (dl : Nat) (h1 : Trk m c .runningWaitForIdle dl m.length)
    (h2 : x.c (finalStart n m) + 359 * x.P + 4000 * x.U ≤ x.U * dl)
    (h3 : Settled x ev) (h4 : ws = wordsFor (l.map Prod.snd) ++ wBusy :: m.bytes.map wByte) (h5 : started = msgsOf ev)
    (h6 : cmds = (l.map Prod.snd).flatMap txCalls ++ [.shutdown false, .send m, .clearFifo]) (h7 : sendsFrom 0 ev = l ++ [(n, m)]) :
    NextStage x c' ev ws started cmds r := by
  obtain ⟨u1, u2, u3, u4, u5, u6⟩ := h1.step (by simp) hf.ok h
  rw [hl, ← busKnownBusy_append] at u6
  have hh := hf.heard
  rw [h7] at hh
  obtain ⟨ts0, b, ts1, f, w1, w2, w3, w4, w5, w6, w7⟩ := heard_last _ _ _ _ _ hh
  obtain ⟨a1, a2⟩ := facts_next hf (a := ts0 ++ (b, wBusy) :: ts1) (b := []) (k := f) (w := wFree) (by rw [w1]; simp)
    (by rw [h4, List.map_append, List.map_cons, w2, frames_words _ _ _ w5])
  have k2 := hb.hPU
  have k3 := hb.hD
  have k4 := hb.hU
  have htime : r.env.2.tErr < c.sm.dl := by
    rw [h1.dl]
    apply before_time (x := x)
    omega
  rcases a2 with a2 | ⟨a2, a3⟩
  · have hw : ws ++ wordsOf [r.env] = wordsFor (l.map Prod.snd) ++ wBusy :: m.bytes.map wByte := by rw [wordsOf_none a2, List.append_nil, h4]
    rw [hw, busy_running] at u6
    rw [u6, upd_tail h1.st htime hf.noErr rfl] at u1
    simp only [Res.ok.injEq, Prod.mk.injEq] at u1
    obtain ⟨u1, u7⟩ := u1
    have hq := no_calls hr u7.symm
    obtain ⟨s1, s2, s3⟩ := stay_quiet hi' hq
    refine ⟨s1, .tail l n m dl (h1.same u2 u3 u1.symm) h2 (h3.quiet hq) hw ?_ ?_ (by rw [s2]; exact h7), u5⟩
    · rw [u4, s3, h5]; simp
    · rw [← u7, h6, List.append_nil]
  · have hm : msgsOf ev = l.map Prod.snd ++ [m] := by rw [msgsOf, h7, List.map_append]; rfl
    have hw : ws ++ wordsOf [r.env] = wordsFor (msgsOf ev) := by
      rw [wordsOf_some a2, h4, hm]
      simp [wordsFor]
    rw [hw, busy_words] at u6
    rw [u6, upd_fin h1.st htime hf.noErr rfl] at u1
    simp only [Res.ok.injEq, Prod.mk.injEq] at u1
    obtain ⟨u1, u7⟩ := u1
    obtain ⟨a, b', q1, q2, q3, q4, q5⟩ := one_call hb hr u7.symm
    obtain ⟨s1, s2, s3⟩ := stay_shutdown (s := true) hi' h3 q1 q2
    rw [← q3] at s1 s2 s3
    have s4 : msgsOf (ev ++ (r.before ++ r.after)) = msgsOf ev := by unfold msgsOf; rw [s3]
    refine ⟨s1, .idle (by rw [← u1]) (by rw [← u1]; exact h1.err) s2 (.inl (by rw [hw, s4])) ?_ ?_, u5⟩
    · rw [u4, s4, h5]; simp
    · rw [← u7, s4, h6, hm]; simp [txCalls]

theorem stage_step (hpf : pf.charSigned = false) (hb : Bounds x) (hg : c.Good) (hl : c.lineBusy = busKnownBusy true ws) (hi' : EvInv x ev) (hr : RoundOk x ev ws r)
    (hf : RoundFacts x ev ws r ts lo hi) (h : c.iter pf g r.env = .ok (c', r.out)) (hs : Stage x c ev ws started cmds) : NextStage x c' ev ws started cmds r := by
  cases hs with
  | idle h1 h2 h3 h4 h5 h6 => exact stage_idle hb hg hl hi' hr hf h h1 h2 h3 h4 h5 h6
  | wait m dl h1 h2 h3 h4 h5 h6 h7 => exact stage_wait hb hl hi' hr hf h m dl h1 h2 h3 h4 h5 h6 h7
  | power m dl h1 h2 h3 h4 h5 h6 h7 => exact stage_power hb hl hi' hr hf h m dl h1 h2 h3 h4 h5 h6 h7
  | listen l n m dl h1 h2 h3 h4 h5 h6 h7 => exact stage_listen hb hl hi' hr hf h l n m dl h1 h2 h3 h4 h5 h6 h7
  | run l n m dl j h1 h2 h3 h4 h5 h6 h7 h8 => exact stage_run hpf hb hl hi' hr hf h l n m dl j h1 h2 h3 h4 h5 h6 h7 h8
  | tail l n m dl h1 h2 h3 h4 h5 h6 h7 => exact stage_tail hb hl hi' hr hf h l n m dl h1 h2 h3 h4 h5 h6 h7

end P1P2
