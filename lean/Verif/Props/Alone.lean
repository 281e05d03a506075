import Verif.Proofs.AloneStages
import Verif.Props.Sender
import Verif.Props.TxLoop
/-!
# C121: a modem alone on the bus
-/
namespace P1P2

/-- Everything that holds after some iterations. -/
structure AloneAt (x : Bench) (ev : List DevEv) (rs : List Round) (c : Core0) : Prop where
  events : EvInv x (devEvents ev rs)
  stage : Stage x c (devEvents ev rs) (wordsOf (rs.map Round.env)) ((rs.map Round.out).filterMap Out2.started) ((rs.map Round.out).flatMap Out2.cmds)
  told : ∀ r ∈ rs, txMsgs r.out.reports = []

theorem Stage.wordsOk {x : Bench} {c : Core0} {ev : List DevEv} {ws : List Word} {st : List Message} {cm : List HwCmd} (h : Stage x c ev ws st cm) :
    ∃ ms, ms <+: msgsOf ev ∧ ws <+: wordsFor (msgsOf ev) ∧ ∀ w ∈ ws, WordOk w := by
  have key : ws <+: wordsFor (msgsOf ev) → ∃ ms, ms <+: msgsOf ev ∧ ws <+: wordsFor (msgsOf ev) ∧ ∀ w ∈ ws, WordOk w := fun h =>
    ⟨_, List.prefix_rfl, h, fun w hw => words_ok _ w (h.subset hw)⟩
  have hpre : ∀ (l : List (Nat × Message)) (n : Nat) (m : Message) (bs : List UInt8), sendsFrom 0 ev = l ++ [(n, m)] → bs <+: m.bytes →
      wordsFor (l.map Prod.snd) ++ wBusy :: bs.map wByte <+: wordsFor (msgsOf ev) := by
    intro l n m bs h ⟨t, ht⟩
    refine ⟨t.map wByte ++ [wFree], ?_⟩
    rw [msgsOf, h, List.map_append]
    unfold wordsFor
    rw [List.flatMap_append]
    simp [← ht]
  cases h with
  | idle h1 h2 h3 h4 h5 h6 =>
    rcases h4 with h4 | h4
    · exact key (by rw [h4]; exact List.prefix_rfl)
    · exact key (by rw [h4.2]; exact List.nil_prefix)
  | wait m dl h1 h2 h3 h4 h5 h6 h7 => exact key (by rw [h4.2]; exact List.nil_prefix)
  | power m dl h1 h2 h3 h4 h5 h6 h7 => exact key (by rw [h4]; exact List.prefix_rfl)
  | listen l n m dl h1 h2 h3 h4 h5 h6 h7 =>
    exact key ((List.prefix_append _ _).trans (by rw [h4]; exact hpre l n m [] h7 List.nil_prefix))
  | run l n m dl j h1 h2 h3 h4 h5 h6 h7 h8 => exact key (by rw [h4]; exact hpre l n m _ h7 (List.take_prefix ..))
  | tail l n m dl h1 h2 h3 h4 h5 h6 h7 => exact key (by rw [h4]; exact hpre l n m _ h7 List.prefix_rfl)

theorem alone_start {x : Bench} {ev : List DevEv} {rs : List Round} (ha : AloneOnBus x ev rs) (g : Nat → UInt8) (w0 : Word) (t0 t1 : Nat) :
    AloneAt x ev [] (Core0.init g w0 t0 t1) := by
  obtain ⟨a, b, h1, h2, h3⟩ := calls_two ha.start
  obtain ⟨b1, b2, h4, h5, h6⟩ := calls_two h3
  subst h1 h4
  have e : devEvents (a ++ DevEv.call .clearFifo :: (b1 ++ DevEv.call (.shutdown true) :: b2)) [] = a ++ [.call .clearFifo] ++ b1 ++ [.call (.shutdown true)] ++ b2 := by
    unfold devEvents; simp
  have hl : (lateEnd 1 0 0 a).1 = 1 := (quiet_late 1 0 0 h2).2.1
  have hs : sendsFrom 0 a = [] := quiet_sends 0 h2
  have i0 : EvInv x a := ⟨(quiet_late 1 0 0 h2).1, (by rw [hs]; intro y hy; cases hy), (by rw [hs]; trivial), (by rw [hs]; trivial), (by rw [hs]; intro y hy; cases hy)⟩
  have i1 := (((i0.clear (by omega)).quiet h5).shutdown true).quiet h6
  have s1 := (((Settled.clear (x := x) (ev := a) (by rw [hl, hs]; have := ha.clock.2; show _ ≤ 0 + _; omega) (.inl hs)).quiet h5).shutdown true).quiet h6
  have hse : sendsFrom 0 (a ++ [.call .clearFifo] ++ b1 ++ [.call (.shutdown true)] ++ b2) = [] := by
    rw [sends_quiet h6, sends_shutdown, sends_quiet h5, sends_clear, hs]
  refine ⟨by rw [e]; exact i1, ?_, by intro r hr; cases hr⟩
  rw [e]
  exact .idle rfl rfl s1 (.inr ⟨hse, rfl⟩) (by rw [msgsOf, hse]; rfl) (by rw [msgsOf, hse]; rfl)

theorem alone_run {pf : Platform} (hpf : pf.charSigned = false) {g : Nat → UInt8} {x : Bench} {ev : List DevEv} : ∀ (post pre : List Round) (c c' : Core0),
    AloneOnBus x ev (pre ++ post) → LoopRun pf g (pre.map Round.env) c (pre.map Round.out) → AloneAt x ev pre c →
    c.run pf g (post.map Round.env) = .ok (c', post.map Round.out) → AloneAt x ev (pre ++ post) c' := by
  intro post
  induction post with
  | nil =>
    intro pre c c' _ _ hi h
    simp only [List.map_nil, Core0.run, Res.ok.injEq, Prod.mk.injEq] at h
    rw [List.append_nil, ← h.1]
    exact hi
  | cons r post ih =>
    intro pre c c' ha hl hi h
    rw [List.map_cons, List.map_cons] at h
    obtain ⟨c1, o, os', h1, h2, h3⟩ := Core0.run_cons h
    simp only [List.cons.injEq] at h3
    obtain ⟨h3, h4⟩ := h3
    rw [← h3] at h1
    rw [← h4] at h2
    obtain ⟨hr, ts, lo, hh, hf⟩ := round_facts ha hi.events
    obtain ⟨-, -, -, hw⟩ := hi.stage.wordsOk
    have hlb := hl.lineBusy hw
    obtain ⟨n1, n2, n3⟩ := stage_step hpf ha.bounds hl.good hlb hi.events hr hf h1 hi.stage
    have hev : devEvents ev pre ++ (r.before ++ r.after) = devEvents ev (pre ++ [r]) := by unfold devEvents; simp
    have hi1 : AloneAt x ev (pre ++ [r]) c1 := by
      rw [hev] at n1 n2
      refine ⟨n1, ?_, ?_⟩
      · rw [List.map_append, List.map_append, wordsOf_append, List.filterMap_append, List.flatMap_append]
        have e1 : [r].map Round.env = [r.env] := rfl
        have e2 : ([r].map Round.out).filterMap Out2.started = r.out.started.toList := by cases hs : r.out.started <;> simp [hs]
        have e3 : ([r].map Round.out).flatMap Out2.cmds = r.out.cmds := by simp
        rw [e1, e2, e3]
        exact n2
      · intro y hy
        rcases List.mem_append.mp hy with hy | hy
        · exact hi.told y hy
        · rw [List.mem_singleton.mp hy]; exact n3
    have hl1 : LoopRun pf g ((pre ++ [r]).map Round.env) c1 ((pre ++ [r]).map Round.out) := by
      rw [List.map_append, List.map_append]
      exact hl.snoc h1
    have := ih (pre ++ [r]) c1 c' (by rw [List.append_assoc]; exact ha) hl1 hi1 h2
    rw [List.append_assoc] at this
    exact this

theorem alone_at {pf : Platform} (hpf : pf.charSigned = false) {g : Nat → UInt8} {x : Bench} {ev : List DevEv} {rs : List Round} {c : Core0}
    (hl : LoopRun pf g (rs.map Round.env) c (rs.map Round.out)) (ha : AloneOnBus x ev rs) : AloneAt x ev rs c := by
  obtain ⟨w0, t0, t1, h⟩ := hl
  exact alone_run hpf rs [] _ c ha ⟨w0, t0, t1, rfl⟩ (alone_start ha g w0 t0 t1) h

/-- **C121.** A modem alone on the bus, which hears itself, with any schedule of main loop, receiver, DMA and PIO within the bounds: no transmission ever fails.  The host is told of no failure, the driver refuses
nothing; the driver is called for each message that is started in turn, in this order, to switch on the amplifier, to send the message, to clear the FIFO, and to switch off the amplifier, and when the transmitter is idle, this is
complete for all of them; between two messages there are 32 ms. -/
theorem C121_alone (pf : Platform) (hpf : pf.charSigned = false) (g : Nat → UInt8) (x : Bench) (ev : List DevEv) (rs : List Round) (c : Core0)
    (hl : LoopRun pf g (rs.map Round.env) c (rs.map Round.out)) (ha : AloneOnBus x ev rs) :
    (∀ r ∈ rs, txMsgs r.out.reports = []) ∧
    (∀ d pins errs, TxDev.init.run (devEvents ev rs) = some (d, pins, errs) → ∀ e ∈ errs, e = false) ∧
    (rs.flatMap fun r => r.out.cmds) <+: (rs.filterMap fun r => r.out.started).flatMap txCalls ∧
    (c.sm.isIdle = true → (rs.flatMap fun r => r.out.cmds) = (rs.filterMap fun r => r.out.started).flatMap txCalls) ∧
    CallsGap (32000 * x.U) x.c 0 (sendsFrom 0 (devEvents ev rs)) := by
  have h := alone_at hpf hl ha
  have hn := (heard_now ha (ev := devEvents ev rs) (rest := []) (by rw [List.append_nil]) h.events).1
  have e1 : (rs.map Round.out).filterMap Out2.started = rs.filterMap fun r => r.out.started := by rw [List.filterMap_map]; rfl
  have e2 : (rs.map Round.out).flatMap Out2.cmds = rs.flatMap fun r => r.out.cmds := by rw [List.flatMap_map]
  have hs := h.stage
  rw [e1, e2] at hs
  refine ⟨h.told, hn, ?_, ?_, h.events.gap⟩
  · cases hs with
    | idle h1 h2 h3 h4 h5 h6 => rw [h6, h5]; exact List.prefix_rfl
    | wait m dl h1 h2 h3 h4 h5 h6 h7 => rw [h6]; exact List.nil_prefix
    | power m dl h1 h2 h3 h4 h5 h6 h7 => rw [h6, h5, List.flatMap_append]; exact (List.prefix_append_right_inj _).mpr ⟨_, rfl⟩
    | listen l n m dl h1 h2 h3 h4 h5 h6 h7 =>
      rw [h6, h5, msgsOf, h7, List.map_append, List.flatMap_append]; exact (List.prefix_append_right_inj _).mpr ⟨_, rfl⟩
    | run l n m dl j h1 h2 h3 h4 h5 h6 h7 h8 =>
      rw [h6, h5, msgsOf, h7, List.map_append, List.flatMap_append]; exact (List.prefix_append_right_inj _).mpr ⟨_, rfl⟩
    | tail l n m dl h1 h2 h3 h4 h5 h6 h7 =>
      rw [h6, h5, msgsOf, h7, List.map_append, List.flatMap_append]; exact (List.prefix_append_right_inj _).mpr ⟨_, rfl⟩
  · intro hid
    have hid : c.sm.st = .idle := by simpa [TxSM.isIdle] using hid
    cases hs with
    | idle h1 h2 h3 h4 h5 h6 => rw [h6, h5]
    | wait m dl h1 h2 h3 h4 h5 h6 h7 => have := h1.st; rw [hid] at this; cases this
    | power m dl h1 h2 h3 h4 h5 h6 h7 => have := h1.st; rw [hid] at this; cases this
    | listen l n m dl h1 h2 h3 h4 h5 h6 h7 => have := h1.st; rw [hid] at this; cases this
    | run l n m dl j h1 h2 h3 h4 h5 h6 h7 h8 => have := h1.st; rw [hid] at this; cases this
    | tail l n m dl h1 h2 h3 h4 h5 h6 h7 => have := h1.st; rw [hid] at this; cases this

/-- When the transmitter is idle, all messages that were started have been handed over. -/
theorem alone_idle {pf : Platform} (hpf : pf.charSigned = false) {g : Nat → UInt8} {x : Bench} {ev : List DevEv} {rs : List Round} {c : Core0}
    (hl : LoopRun pf g (rs.map Round.env) c (rs.map Round.out)) (ha : AloneOnBus x ev rs) (hid : c.sm.isIdle = true) :
    Settled x (devEvents ev rs) ∧ (rs.filterMap fun r => r.out.started) = msgsOf (devEvents ev rs) ∧
    (wordsOf (rs.map Round.env) = wordsFor (msgsOf (devEvents ev rs)) ∨ ((rs.filterMap fun r => r.out.started) = [] ∧ wordsOf (rs.map Round.env) = [])) := by
  have h := (alone_at hpf hl ha).stage
  have hid : c.sm.st = .idle := by simpa [TxSM.isIdle] using hid
  have e1 : (rs.map Round.out).filterMap Out2.started = rs.filterMap fun r => r.out.started := by rw [List.filterMap_map]; rfl
  rw [e1] at h
  cases h with
  | idle h1 h2 h3 h4 h5 h6 =>
    refine ⟨h3, h5, ?_⟩
    rcases h4 with h4 | h4
    · exact .inl h4
    · exact .inr ⟨by rw [h5, msgsOf, h4.1]; rfl, h4.2⟩
  | wait m dl h1 h2 h3 h4 h5 h6 h7 => have := h1.st; rw [hid] at this; cases this
  | power m dl h1 h2 h3 h4 h5 h6 h7 => have := h1.st; rw [hid] at this; cases this
  | listen l n m dl h1 h2 h3 h4 h5 h6 h7 => have := h1.st; rw [hid] at this; cases this
  | run l n m dl j h1 h2 h3 h4 h5 h6 h7 h8 => have := h1.st; rw [hid] at this; cases this
  | tail l n m dl h1 h2 h3 h4 h5 h6 h7 => have := h1.st; rw [hid] at this; cases this

theorem wordsFor_packets (ms : List Message) : wordsFor ms = packetWords (ms.map Message.bytes) := by
  have : ∀ ms : List Message, wFree :: ms.flatMap (fun m => wBusy :: (m.bytes.map wByte ++ [wFree])) = (ms.map Message.bytes).flatMap (fun p => wFree :: wBusy :: p.map wByte) ++ [wFree] := by
    intro ms
    induction ms with
    | nil => rfl
    | cons m ms ih =>
      rw [List.flatMap_cons, List.map_cons, List.flatMap_cons, List.append_assoc, ← ih]
      simp
  exact this ms

/-- **C121, its own host.** Whenever the transmitter is idle, the host of this modem was given exactly one line for each message that was started, in order, with status 0 and its bytes (if they have at most 31 bytes, no word was lost
and the watchdog did not report). -/
theorem C121_own_lines (pf : Platform) (hpf : pf.charSigned = false) (g : Nat → UInt8) (x : Bench) (ev : List DevEv) (rs : List Round) (c : Core0)
    (hl : LoopRun pf g (rs.map Round.env) c (rs.map Round.out)) (ha : AloneOnBus x ev rs) (hid : c.sm.isIdle = true)
    (hm : ∀ r ∈ rs, ∀ m, r.out.started = some m → m.length ≤ 31) (hf : ∀ r ∈ rs, r.env.1.fifoErr = false) (hd : ∀ m ∈ busLines (rs.map Round.out), m.status ≠ 4) :
    (busLines (rs.map Round.out)).map lineShown = (rs.filterMap fun r => r.out.started).map fun m => (0, m.bytes) := by
  obtain ⟨-, h1, h2⟩ := alone_idle hpf hl ha hid
  have hf' : ∀ e ∈ rs.map Round.env, e.1.fifoErr = false := by
    intro e he
    obtain ⟨r, hr, rfl⟩ := List.mem_map.mp he
    exact hf r hr
  rcases h2 with h2 | ⟨h2, h3⟩
  · rw [wordsFor_packets] at h2
    rw [C104_line_per_packet pf g _ c _ hl _ h2 ?_ hf' hd, ← h1, List.map_map]
    · rfl
    · intro p hp
      obtain ⟨m, hm', rfl⟩ := List.mem_map.mp hp
      rw [← h1, List.mem_filterMap] at hm'
      obtain ⟨r, hr, hs⟩ := hm'
      have hlen : m.bytes.length = m.length := by simp [Message.bytes]
      rw [hlen]
      exact ⟨(C85_sendable pf g _ c _ hl r.out (List.mem_map_of_mem hr) m hs).1, hm r hr m hs⟩
  · rw [h2]
    obtain ⟨ws, k1, _, _⟩ := C91_lines_explained pf g _ c _ hl
    rw [k1.told hf' hd, h3]
    rfl

theorem AloneOnBus.before {x : Bench} {ev : List DevEv} {a b : List Round} (ha : AloneOnBus x ev (a ++ b)) : AloneOnBus x ev a := by
  refine ⟨ha.units, ha.clock, ha.limits, ha.start, ?_, fun pre r post h => ha.rounds pre r (post ++ b) (by rw [h]; simp)⟩
  obtain ⟨d, pins, errs, hrun, L, hL, u, v, a1, a2, a3, a4, hq⟩ := ha.hears
  have e : devEvents ev (a ++ b) = devEvents ev a ++ b.flatMap fun r => r.before ++ r.after := by unfold devEvents; simp
  rw [e] at hrun
  rw [e, cyclesOf_append] at hq
  obtain ⟨d1, o1, r1, o2, r2, hr1, hr2, rfl, rfl⟩ := TxDev.run_append hrun
  refine ⟨d1, o1, r1, hr1, L, ⟨hL.1, fun k w hw => hL.2 k w ?_⟩, u, v, a1, a2, a3, a4, fun K hK => hq K ?_⟩
  · rw [List.map_append, List.getElem?_append_left (List.getElem?_eq_some_iff.mp hw).1]
    exact hw
  · have := ha.clock.1.le (Nat.le_add_right (cyclesOf (devEvents ev a)) (cyclesOf (b.flatMap fun r => r.before ++ r.after)))
    omega

theorem Core0.run_length {pf : Platform} {g : Nat → UInt8} {es : List (Env1 × Env2)} : ∀ {c c' : Core0} {os : List Out2}, c.run pf g es = .ok (c', os) → os.length = es.length := by
  induction es with
  | nil => intro c c' os h; cases h; rfl
  | cons e es ih =>
    intro c c' os h
    obtain ⟨c1, o, os', -, h2, rfl⟩ := Core0.run_cons h
    rw [List.length_cons, List.length_cons, ih h2]

theorem Core0.run_then {pf : Platform} {g : Nat → UInt8} {a b : List (Env1 × Env2)} : ∀ {c c1 c' : Core0} {oa ob : List Out2}, c.run pf g a = .ok (c1, oa) → c1.run pf g b = .ok (c', ob) →
    c.run pf g (a ++ b) = .ok (c', oa ++ ob) := by
  induction a with
  | nil => intro c c1 c' oa ob h h'; cases h; exact h'
  | cons e a ih =>
    intro c c1 c' oa ob h h'
    obtain ⟨c2, o, os', h1, h2, rfl⟩ := Core0.run_cons h
    rw [List.cons_append, Core0.run, h1, Res.ok_bind]
    dsimp only
    rw [ih h2 h']
    rfl

/-- Either the transmitter is busy all the time, or there is a first time it is idle. -/
theorem first_idle {pf : Platform} {g : Nat → UInt8} : ∀ (mid : List Round) (c c' : Core0), c.Good → c.run pf g (mid.map Round.env) = .ok (c', mid.map Round.out) →
    (∀ p q cp op, mid.map Round.env = p ++ q → c.run pf g p = .ok (cp, op) → cp.sm.isIdle = false) ∨
    ∃ a b cp, mid = a ++ b ∧ c.run pf g (a.map Round.env) = .ok (cp, a.map Round.out) ∧ cp.sm.isIdle = true ∧ (a.filterMap fun r => r.out.started) = [] := by
  intro mid
  induction mid with
  | nil =>
    intro c c' _ h
    by_cases hc : c.sm.isIdle = true
    · exact .inr ⟨[], [], c, rfl, rfl, hc, rfl⟩
    · refine .inl fun p q cp op hpq hr => ?_
      obtain ⟨rfl, -⟩ := List.append_eq_nil_iff.mp hpq.symm
      cases hr
      simpa using hc
  | cons r mid ih =>
    intro c c' hg h
    by_cases hc : c.sm.isIdle = true
    · exact .inr ⟨[], r :: mid, c, rfl, rfl, hc, rfl⟩
    rw [List.map_cons, List.map_cons] at h
    obtain ⟨c1, o, os', h1, h2, h3⟩ := Core0.run_cons h
    simp only [List.cons.injEq] at h3
    rw [← h3.1] at h1
    rw [← h3.2] at h2
    have hst : r.out.started = none := by
      obtain ⟨p, hpp, hq⟩ := iter_trace hg h1
      rcases hq with ⟨_, _, _, hn, _⟩ | ⟨_, hz1, ⟨hn, _⟩ | ⟨m', hst, hsd, hi, hu⟩⟩
      · exact hn
      · exact hn
      · exact absurd (by simpa [TxSM.isIdle] using hi) hc
    rcases ih c1 c' (hg.iter h1).1 h2 with k | ⟨a, b, cp, k1, k2, k3, k4⟩
    · refine .inl fun p q cp op hpq hr => ?_
      cases p with
      | nil => cases hr; simpa using hc
      | cons e p =>
        simp only [List.map_cons, List.cons_append, List.cons.injEq] at hpq
        obtain ⟨c2, o2, os2, j1, j2, j3⟩ := Core0.run_cons hr
        rw [← hpq.1, h1] at j1
        simp only [Res.ok.injEq, Prod.mk.injEq] at j1
        rw [← j1.1] at j2
        exact k p q cp os2 hpq.2 j2
    · refine .inr ⟨r :: a, b, cp, by rw [k1]; rfl, ?_, k3, ?_⟩
      · rw [List.map_cons, List.map_cons, Core0.run, h1, Res.ok_bind]
        dsimp only
        rw [k2]; rfl
      · rw [List.filterMap_cons, hst]; exact k4

/-- **C121, in time.** Iteration `r` starts the message `m`; the iterations from there on follow each other within the time `δ`.  If more than 72 ms + 4 ms per byte (plus `δ` for each of the `length + 5` phase changes) have passed,
then meanwhile all four calls of the driver for all messages up to `m` were made, and no other message was started before. -/
theorem C121_in_time (pf : Platform) (hpf : pf.charSigned = false) (g : Nat → UInt8) (x : Bench) (ev : List DevEv) (pre mid : List Round) (r : Round) (c : Core0) (m : Message) (δ : Nat)
    (hl : LoopRun pf g ((pre ++ r :: mid).map Round.env) c ((pre ++ r :: mid).map Round.out)) (ha : AloneOnBus x ev (pre ++ r :: mid)) (hs : r.out.started = some m)
    (hp : LoopPaced δ r.env.2.tWake ((r :: mid).map Round.env))
    (ht : r.env.2.tWake + 72000 + 4000 * m.length + (m.length + 5) * δ < loopTime r.env.2.tWake ((r :: mid).map Round.env)) :
    ∃ a b, mid = a ++ b ∧ (a.filterMap fun r => r.out.started) = [] ∧
      ((pre ++ r :: a).flatMap fun r => r.out.cmds) = (pre.filterMap fun r => r.out.started).flatMap txCalls ++ txCalls m := by
  obtain ⟨w0, t0, t1, h⟩ := hl
  rw [List.map_append, List.map_append] at h
  obtain ⟨c0, o1, o2, h1, h2, h3⟩ := Core0.run_append h
  have hlen1 : o1.length = pre.length := by
    have := Core0.run_length h1
    rw [this, List.length_map]
  obtain ⟨e1, e2⟩ := List.append_inj h3 (by rw [List.length_map, hlen1])
  rw [← e1] at h1
  rw [← e2] at h2
  rw [List.map_cons, List.map_cons] at h2
  obtain ⟨c1, o, os', h4, h5, h6⟩ := Core0.run_cons h2
  simp only [List.cons.injEq] at h6
  rw [← h6.1] at h4
  rw [← h6.2] at h5
  have hl0 : LoopRun pf g (pre.map Round.env) c0 (pre.map Round.out) := ⟨w0, t0, t1, h1⟩
  rcases first_idle mid c1 c (hl0.good.iter h4).1 h5 with hb | ⟨a, b, cp, k1, k2, k3, k4⟩
  · have := C97_ends pf g (pre.map Round.env) (mid.map Round.env) r.env c0 c1 c (pre.map Round.out) (mid.map Round.out) r.out m δ hl0 h4 hs h5 hp hb
    rw [List.map_cons] at ht
    omega
  · refine ⟨a, b, k1, k4, ?_⟩
    have hl1 : LoopRun pf g ((pre ++ r :: a).map Round.env) cp ((pre ++ r :: a).map Round.out) := by
      refine ⟨w0, t0, t1, ?_⟩
      rw [List.map_append, List.map_append]
      refine Core0.run_then h1 ?_
      rw [List.map_cons, List.map_cons, Core0.run, h4, Res.ok_bind]
      dsimp only
      rw [k2]; rfl
    have ha1 : AloneOnBus x ev (pre ++ r :: a) := AloneOnBus.before (b := b) (by rw [List.append_assoc, List.cons_append, ← k1]; exact ha)
    have := (C121_alone pf hpf g x ev _ cp hl1 ha1).2.2.2.1 k3
    rw [this, List.filterMap_append, List.filterMap_cons, hs]
    dsimp only
    rw [k4, List.flatMap_append, List.flatMap_cons, List.flatMap_nil, List.append_nil]

theorem apart_other {P P' U M M' τ0 τ1 : Nat} {c c' : Nat → Nat} (hU : P' ≤ 4 * U) (hs : ∀ k, c' k + τ0 = c k + τ1) (hM : M * P + 348 * P ≤ M' * P') : ∀ (l : List (Nat × Message)) (g t t' : Nat),
    CallsGap (32000 * U) c g l → CallsApart P M c t l → t' + τ0 + 352 * P' ≤ g + τ1 + 32000 * U → t + M * P + τ1 ≤ t' + M' * P' + τ0 → CallsApart P' M' c' t' l := by
  intro l
  induction l with
  | nil => intro g t t' _ _ _ _; trivial
  | cons y l ih =>
    obtain ⟨n, m⟩ := y
    intro g t t' hg ha h1 h2
    obtain ⟨g1, g2⟩ := hg
    obtain ⟨a1, a2, a3⟩ := ha
    have s1 := hs (n + 1)
    have s2 := hs (finalStart n m)
    exact ⟨by omega, by omega, ih _ _ _ g2 a3 (by omega) (by omega)⟩

/-- **C121, another host.** Another modem on the same bus, which only listens (it started at another time, and its codes have their own clock): when the transmitter is idle and 378 codes after the end of the last message, its host
was given exactly one line for each message that was started, in order, with status 0 and its bytes. -/
theorem C121_other_lines (pf : Platform) (hpf : pf.charSigned = false) (g : Nat → UInt8) (x : Bench) (ev : List DevEv) (rs : List Round) (c : Core0)
    (hl : LoopRun pf g (rs.map Round.env) c (rs.map Round.out)) (ha : AloneOnBus x ev rs) (hid : c.sm.isIdle = true) (hm : ∀ r ∈ rs, ∀ m, r.out.started = some m → m.length ≤ 31)
    (d : TxDev) (pins : List (Nat × Bool)) (errs : List Bool) (hrun : TxDev.init.run (devEvents ev rs) = some (d, pins, errs))
    {S : Nat} (hS : 8 ≤ S) (rxErr : Bool) {a v : Int} (h1 : 49 ≤ a) (h2 : a ≤ 88) {P : Nat} (hP : 0 < P) (hU : P ≤ 4 * x.U) {M : Nat} (hM : M + 70 ≤ 2 * 2 ^ S)
    {c' : Nat → Nat} (hc : SenderClock P c') (τ0 τ1 : Nat) (hsh : ∀ k, c' k + τ0 = x.c k + τ1) (h0 : τ0 ≤ 30000 * x.U) (hMM : x.M * x.P + 348 * x.P + τ1 ≤ M * P)
    {L : Nat → Level} (hL : Plays c' (lineOf (pins.map Pio.view)) L) {q : Nat → UInt8} (hq : Codes a v (fun k => L (k * P)) q)
    (es : List (AdcEv × Bool)) (hk : keepsUp 254 0 0 (es.map Prod.fst))
    (hN : callsEnd P c' 0 (sendsFrom 0 (devEvents ev rs)) + 378 * P ≤ deliveries 0 0 (es.map Prod.fst) * P)
    (hN' : deliveries 0 0 (es.map Prod.fst) * P + 2 * P ≤ callsEnd P c' 0 (sendsFrom 0 (devEvents ev rs)) + M * P)
    (s : RxSystem) (outs : List C1Out)
    (hr : RxSystem.run S (RxSystem.init (fun _ => 0) rxErr) (scheduleEvents (fun k => Pio.sampleValue k (q k)) 0 0 es) = .ok (s, outs)) (hs : s.core.word = .zero)
    (pf' : Platform) (g' : Nat → UInt8) (w0 : Word) (t0 t1 : Nat) (t : TwoCores) (xs : List TwoStep) (os : List TwoOut)
    (hx : pushes xs = sent outs) (h : (TwoCores.init g' w0 t0 t1 false).run pf' g' xs = .ok (some (t, os))) (hd : drops os = 0) (htop : t.pc = .top)
    (hf : t.fifo = []) (h4 : ∀ m ∈ rxMsgs (reportsOf os), m.status ≠ 4) :
    (rxMsgs (reportsOf os)).map lineShown = (rs.filterMap fun r => r.out.started).map fun m => (0, m.bytes) := by
  have hev := (alone_at hpf hl ha).events
  obtain ⟨hset, k1, -⟩ := alone_idle hpf hl ha hid
  have hsz : ∀ y ∈ sendsFrom 0 (devEvents ev rs), 1 ≤ y.1 ∧ 1 ≤ y.2.length ∧ y.2.length ≤ 31 ∧ finalStart y.1 y.2 + 173 ≤ cyclesOf (devEvents ev rs) := by
    intro y hy
    obtain ⟨z1, z2, -⟩ := hev.sizes y hy
    refine ⟨z1, z2, ?_, ?_⟩
    · have hy' : y.2 ∈ rs.filterMap fun r => r.out.started := by rw [k1]; exact List.mem_map_of_mem hy
      rw [List.mem_filterMap] at hy'
      obtain ⟨r, hr', hst⟩ := hy'
      exact hm r hr' y.2 hst
    · have := hev.ends y hy
      rcases hset.over with ho | ho
      · rw [ho] at hy; cases hy
      · omega
  have hap := apart_other (P' := P) (M' := M) (τ0 := τ0) (τ1 := τ1) (c' := c') hU hsh (by omega) _ 0 0 0 hev.gap hev.apart (by omega) (by omega)
  rw [C118_lines hS rxErr h1 h2 hP hM hc _ d pins errs hrun hev.late hsz hap hL hq es hk hN hN' s outs hr hs pf' g' w0 t0 t1 t xs os hx h hd htop hf h4, k1, msgsOf, List.map_map]
  rfl

end P1P2
