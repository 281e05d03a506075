import Verif.Spec.MainLoop
import Verif.Proofs.MainLoop
import Verif.Props.MainLoop
/-!
# Properties C58, C59, C84 - C90: the main loop as a whole
-/
namespace P1P2

theorem Core0.Good.iter {pf : Platform} {g : Nat → UInt8} {c c' : Core0} {e : Env1 × Env2} {o : Out2} (hg : c.Good)
    (h : c.iter pf g e = .ok (c', o)) : c'.Good ∧ ∀ m, o.started = some m → Sendable m := by
  obtain ⟨c1, rs, b, h1, h2, hr⟩ := Core0.iter_ok h
  obtain ⟨r, h3, h4, h5⟩ := (hg.part1 h1).1.part2 pf g e.2
  rw [h2] at h3
  cases h3
  cases hr
  exact ⟨h4, h5⟩

theorem Core0.Good.run {pf : Platform} {g : Nat → UInt8} {c c' : Core0} {es : List (Env1 × Env2)} {os : List Out2} (hg : c.Good)
    (h : c.run pf g es = .ok (c', os)) : c'.Good ∧ ∀ o ∈ os, ∀ m, o.started = some m → Sendable m := by
  induction es generalizing c os with
  | nil => cases h; exact ⟨hg, by simp⟩
  | cons e es ih =>
    obtain ⟨c1, o, os', h1, h2, rfl⟩ := Core0.run_cons h
    obtain ⟨g1, s1⟩ := hg.iter h1
    obtain ⟨g2, s2⟩ := ih g1 h2
    refine ⟨g2, fun x hx => ?_⟩
    rcases List.mem_cons.mp hx with rfl | hx
    · exact s1
    · exact s2 x hx

theorem LoopRun.good {pf : Platform} {g : Nat → UInt8} {es : List (Env1 × Env2)} {c : Core0} {os : List Out2} (h : LoopRun pf g es c os) :
    c.Good := by
  obtain ⟨w0, t0, t1, h⟩ := h
  exact ((Core0.Good.init g w0 t0 t1).run h).1

theorem Core0.run_snoc {pf : Platform} {g : Nat → UInt8} {c c1 c2 : Core0} {es : List (Env1 × Env2)} {os : List Out2} {e : Env1 × Env2} {o : Out2}
    (h1 : c.run pf g es = .ok (c1, os)) (h2 : c1.iter pf g e = .ok (c2, o)) : c.run pf g (es ++ [e]) = .ok (c2, os ++ [o]) := by
  induction es generalizing c os with
  | nil =>
    cases h1
    rw [List.nil_append, Core0.run, h2]
    rfl
  | cons x xs ih =>
    obtain ⟨c3, o3, os', h3, h4, rfl⟩ := Core0.run_cons h1
    rw [List.cons_append, Core0.run, h3, Res.ok_bind, ih h4]
    rfl

theorem LoopRun.snoc {pf : Platform} {g : Nat → UInt8} {es : List (Env1 × Env2)} {c c' : Core0} {os : List Out2} {e : Env1 × Env2} {o : Out2}
    (h : LoopRun pf g es c os) (h1 : c.iter pf g e = .ok (c', o)) : LoopRun pf g (es ++ [e]) c' (os ++ [o]) := by
  obtain ⟨w0, t0, t1, h⟩ := h
  exact ⟨w0, t0, t1, Core0.run_snoc h h1⟩

/-! ## C58 -/

/-- What happens to the controller in the second part before a transmission can be started. -/
theorem GoodMid.toFinish {pf : Platform} {g : Nat → UInt8} {c c' : Core0} {e : Env2} {o : Out2} (hg : c.GoodMid) (h : c.part2 pf g e = .ok (c', o)) :
    ∃ a : Core0, a.GoodIn ∧ a.sm.st = c.sm.st ∧ a.host = c.host ∧ (∃ calls, (∀ x ∈ calls, x.Fits ∧ x.keeps = true) ∧ c.ctrl.run calls = .ok a.ctrl) ∧
      (a.finish pf g e o.reports = .ok (c', o) ∨
        (a.ctrl.hasTxData = false ∧ a.host.hasData = false ∧ a.sm.st = .idle ∧ c' = a ∧ o.started = none ∧ o.cmds = [])) := by
  have hin := hg.reportFailure e.tColl
  obtain ⟨m, k, r1, r2, r3, _⟩ := reportFailure_eq c e.tColl
  have hst : (c.reportFailure e.tColl).1.sm.st = c.sm.st ∧ (c.reportFailure e.tColl).1.host = c.host := by rw [r1]; exact ⟨rfl, rfl⟩
  have hk : ∃ calls, (∀ x ∈ calls, x.Fits ∧ x.keeps = true) ∧ c.ctrl.run calls = .ok (c.reportFailure e.tColl).1.ctrl := by
    rw [r1]
    rcases r3 with rfl | rfl
    · exact ⟨[], by simp, rfl⟩
    · exact ⟨[.busCollision e.tColl], by simp [CtrlCall.Fits, CtrlCall.keeps], rfl⟩
  obtain ⟨calls, hk1, hk2⟩ := hk
  rcases Core0.part2_ok h with ⟨w, t, hw, h1, h2⟩ | ⟨hw, h2⟩ | ⟨hw, b1, b2, b3, b4, b5⟩
  · obtain ⟨t1, t2, t3, t4, t5⟩ := takeWord_rest h1 hin.rx
    refine ⟨t.1, hin.takeWord h1, by rw [t1]; exact hst.1, by rw [t2]; exact hst.2, ?_, .inl ?_⟩
    · rcases t5 with t5 | ⟨m', m1, m2, _⟩
      · exact ⟨calls, hk1, by rw [t5]; exact hk2⟩
      · refine ⟨calls ++ [.receive m'], ?_, ?_⟩
        · intro x hx
          rcases List.mem_append.mp hx with hx | hx
          · exact hk1 x hx
          · rw [List.mem_singleton.mp hx]; exact ⟨m1, rfl⟩
        · rw [Ctrl.run_snoc, hk2, Res.ok_bind]; exact m2
    · rw [(Core0.finish_rxMsg h2).2]; exact h2
  · exact ⟨_, hin, hst.1, hst.2, ⟨calls, hk1, hk2⟩, .inl (by rw [(Core0.finish_rxMsg h2).2]; exact h2)⟩
  · cases b5
    exact ⟨_, hin, hst.1, hst.2, ⟨calls, hk1, hk2⟩, .inr ⟨b2, b3, by simpa [TxSM.isIdle] using b4, rfl, rfl, rfl⟩⟩

theorem HostGood.hasData {h : Host} {q : List Message} (hq : HostGood h q) : h.hasData = true ↔ q ≠ [] := by
  unfold Host.hasData Fifo.isEmpty
  rw [hq.2.1.len]
  cases q <;> simp

/-! ### Concrete runs for the properties of the main loop -/

/-- An iteration at time `t` that takes the word `w` from the other core, while the host sends the given characters. -/
def bothIter (t : Nat) (chunk : List UInt8) (w : Option Word) : Env1 × Env2 := (env1 t chunk, env2 t w)

/-- What a run shows: bytes of the messages given to the transmitter, status and bytes of the lines about failed transmissions,
bytes of the messages handed to the hardware, whether the transmitter is idle and whether an answer of the controller is waiting at the end. -/
structure LoopSeen where
  started : List (List UInt8)
  failures : List (Nat × List UInt8)
  sent : List (List UInt8)
  idle : Bool
  waits : Bool
deriving DecidableEq

/-- What a run from the start shows. -/
def loopSeen (es : List (Env1 × Env2)) : Option LoopSeen :=
  match (Core0.init (fun _ => 0) .zero 0 0).run .arm (fun _ => 0) es with
  | .ok (c, os) => some ⟨(os.filterMap Out2.started).map Message.bytes, (os.flatMap fun o => txMsgs o.reports).map (fun m => (m.status, m.bytes)),
      (os.flatMap Out2.cmds).filterMap (fun | .send m => some m.bytes | _ => none), c.sm.isIdle, c.ctrl.hasTxData⟩
  | .ub => none

/-- The bus becomes free and the controller starts to operate. -/
def opRun : List (Env1 × Env2) := [bothIter 0 [] (some wFree), bothIter 200000 [] none, bothIter 2300000 [] none]

/-- **C58.** In every iteration of every history: let `c1` be the state after the host's input was read (`q` are the packets of the host that
wait).  A transmission is started only if the transmitter is idle.  If it is and a packet waits, the oldest one is started, whether or not
the controller has an answer, and the controller keeps its answer (it only saw the calls that any iteration makes).  If none waits, the answer
of the controller is started if it has one (then), and nothing otherwise. -/
theorem C58_host_first (pf : Platform) (g : Nat → UInt8) (es : List (Env1 × Env2)) (c : Core0) (os : List Out2) (hr : LoopRun pf g es c os)
    (e : Env1 × Env2) (c1 c2 : Core0) (rs : List Report) (o : Out2) (h1 : c.part1 pf g e.1 = .ok (c1, rs)) (h2 : c1.part2 pf g e.2 = .ok (c2, o)) :
    (o.started ≠ none → c1.sm.st = .idle) ∧
    ∃ k calls, (∀ x ∈ calls, x.keeps = true) ∧ c1.ctrl.run calls = .ok k ∧
      (c1.sm.st = .idle → c1.host.hasData = true →
        ∃ m, c1.host.popMsg g = .ok (c2.host, m) ∧ o.started = some m ∧ c2.ctrl = k) ∧
      (c1.sm.st = .idle → c1.host.hasData = false → k.hasTxData = true →
        ∃ m, k.txAnswer (Message.empty g) = .ok (c2.ctrl, m) ∧ o.started = some m ∧ c2.host = c1.host) ∧
      (c1.sm.st ≠ .idle ∨ (c1.host.hasData = false ∧ k.hasTxData = false) → o.started = none ∧ c2.host = c1.host ∧ c2.ctrl = k) := by
  have hg := (hr.good.part1 h1).1
  obtain ⟨a, ha, a1, a2, ⟨calls, a3, a4⟩, a5⟩ := GoodMid.toFinish hg h2
  rcases a5 with a5 | ⟨b1, b2, b3, rfl, b5, b6⟩
  · obtain ⟨s, u, s1, s2, s3⟩ := Core0.finish_ok a5
    obtain ⟨_, _, u2⟩ := Core0.updateTx_ok s2
    simp only [Prod.mk.injEq] at s3
    obtain ⟨s3, s4⟩ := s3
    have e1 : o.started = s.2.1 := by rw [s4]
    have e2 : c2.host = s.1.host ∧ c2.ctrl = s.1.ctrl := by rw [s3, u2]; exact ⟨rfl, rfl⟩
    rw [e1, e2.1, e2.2]
    rcases ha.startTx s1 with ⟨rfl, hc⟩ | ⟨hi, m, q, host, q1, q2, rfl⟩ | ⟨hi, q1, q2, k, m, q3, q4, rfl⟩
    · refine ⟨fun h => absurd rfl h, a.ctrl, calls, fun x hx => (a3 x hx).2, a4, ?_, ?_, fun _ => ⟨rfl, a2, rfl⟩⟩
      · intro i d
        rcases hc with hc | ⟨hc, _⟩
        · exact absurd (a1.trans i) hc
        · rw [← a2] at d; exact absurd rfl (hc.hasData.mp d)
      · intro i d k
        rcases hc with hc | ⟨_, hc⟩
        · exact absurd (a1.trans i) hc
        · rw [hc] at k; cases k
    · have hd : c1.host.hasData = true := by rw [← a2]; exact q1.hasData.mpr (by simp)
      refine ⟨fun _ => by rw [← a1]; exact hi, a.ctrl, calls, fun x hx => (a3 x hx).2, a4, ?_, ?_, ?_⟩
      · intro _ _
        refine ⟨m, ?_, rfl, rfl⟩
        rw [← a2]
        have h3 : a.startTx g e.2.tWake = (do
            let p ← a.host.popMsg g
            let s := a.sm.wake p.2 e.2.tWake
            .ok ({ a with host := p.1, sm := s.1 }, some p.2, s.2)) := by
          rw [Core0.startTx, if_pos (by simp [TxSM.isIdle, hi]), if_pos (by rw [a2]; exact hd)]
        rw [h3, Res.bind_eq_ok] at s1
        obtain ⟨p, p1, p2⟩ := s1
        simp only [Res.ok.injEq, Prod.mk.injEq, Option.some.injEq] at p2
        obtain ⟨p2, p3, _⟩ := p2
        have p4 : p.1 = host := congrArg Core0.host p2
        rw [p1, ← p4, ← p3]
      · intro _ d _
        rw [hd] at d; cases d
      · rintro (h | ⟨d, _⟩)
        · exact absurd (a1.symm.trans hi) h
        · rw [hd] at d; cases d
    · have hd : c1.host.hasData = false := by
        cases hh : c1.host.hasData with
        | false => rfl
        | true => rw [← a2] at hh; exact absurd rfl (q1.hasData.mp hh)
      refine ⟨fun _ => by rw [← a1]; exact hi, a.ctrl, calls, fun x hx => (a3 x hx).2, a4, ?_, ?_, ?_⟩
      · intro _ d
        rw [hd] at d; cases d
      · intro _ _ _
        exact ⟨m, q4, rfl, a2⟩
      · rintro (h | ⟨_, d⟩)
        · exact absurd (a1.symm.trans hi) h
        · rw [q2] at d; cases d
  · refine ⟨fun h => absurd b5 h, c2.ctrl, calls, fun x hx => (a3 x hx).2, a4, ?_, ?_, fun _ => ⟨b5, a2, rfl⟩⟩
    · intro _ d
      rw [← a2, b2] at d; cases d
    · intro _ _ d
      rw [b1] at d; cases d

set_option maxRecDepth 8000 in
/-- Both sources: the request of another device ends in the iteration in which the line `40F0` of the host arrives. The packet of the host is
started and the answer keeps waiting; without the line of the host the answer is started. -/
example : loopSeen (opRun ++ request30.map (fun b => bothIter 2301000 [] (some (wByte b))) ++ [bothIter 2301000 [52, 48, 70, 48, 10] (some wFree)]) =
      some ⟨[[0x40, 0xF0]], [], [], false, true⟩ ∧
    loopSeen (opRun ++ request30.map (fun b => bothIter 2301000 [] (some (wByte b))) ++ [bothIter 2301000 [] (some wFree)]) =
      some ⟨[[0x40, 0xF0, 0x30, 1, 2, 3, 4, 5, 6, 7, 8, 9, 10, 11, 12, 13, 14, 0x70]], [], [], false, false⟩ := by decide +kernel

/-! ## C59 -/

/-- The state in which `SM.Update` is called, and its effect. -/
theorem GoodIn.finish_update {pf : Platform} {g : Nat → UInt8} {a c' : Core0} {e : Env2} {rs : List Report} {o : Out2} (ha : a.GoodIn)
    (h : a.finish pf g e rs = .ok (c', o)) : ∃ s : Core0 × Option Message × List HwCmd, a.startTx g e.tWake = .ok s ∧ s.1.GoodIn ∧ s.1.word = a.word ∧
      s.1.lineBusy = a.lineBusy ∧ (s.1.sm = a.sm ∧ s.2.1 = none ∨ a.sm.st = .idle ∧ ∃ m, s.2.1 = some m ∧ s.1.sm = (a.sm.wake m e.tWake).1) ∧ s.2.2 = [] ∧
      ∃ u, s.1.sm.update pf (s.1.updIn e) = .ok (c'.sm, u) ∧ o.cmds = u ∧ o.started = s.2.1 ∧ c' = { s.1 with sm := c'.sm, word := .zero } := by
  obtain ⟨s, u, s1, s2, s3⟩ := Core0.finish_ok h
  obtain ⟨v, u1, u2⟩ := Core0.updateTx_ok s2
  simp only [Prod.mk.injEq] at s3
  obtain ⟨s3, s4⟩ := s3
  have hsm : c'.sm = v := by rw [s3, u2]
  have hw : s.1.word = a.word ∧ s.1.lineBusy = a.lineBusy ∧ (s.1.sm = a.sm ∧ s.2.1 = none ∨ a.sm.st = .idle ∧ ∃ m, s.2.1 = some m ∧
      s.1.sm = (a.sm.wake m e.tWake).1) ∧ s.2.2 = [] := by
    rcases ha.startTx s1 with ⟨rfl, hc⟩ | ⟨hi, m, q, host, q1, q2, rfl⟩ | ⟨hi, q1, q2, k, m, q3, q4, rfl⟩
    · exact ⟨rfl, rfl, .inl ⟨rfl, rfl⟩, rfl⟩
    · exact ⟨rfl, rfl, .inr ⟨hi, m, rfl, rfl⟩, rfl⟩
    · exact ⟨rfl, rfl, .inr ⟨hi, m, rfl, rfl⟩, rfl⟩
  refine ⟨s, s1, (ha.afterStart s1).1, hw.1, hw.2.1, hw.2.2.1, hw.2.2.2, u.2, ?_, ?_, ?_, ?_⟩
  · rw [hsm]; exact u1
  · rw [s4, hw.2.2.2]; rfl
  · rw [s4]
  · rw [hsm, s3, u2]

theorem reportFailure_tx (c : Core0) (now : Nat) : txMsgs (c.reportFailure now).2 = if c.fail = true ∧ c.sm.rxMsg.status ≠ 3 then [c.sm.rxMsg] else [] := by
  unfold Core0.reportFailure
  by_cases hf : c.fail = true
  · rw [if_pos hf]
    by_cases hs : c.sm.rxMsg.status ≠ 3
    · have hs' : c.sm.rxMsg.status ≠ Message.errParity := hs
      rw [if_pos hs', if_pos (show c.fail = true ∧ c.sm.rxMsg.status ≠ 3 from ⟨hf, hs⟩)]
      dsimp only
      split <;> rfl
    · have hs' : ¬ c.sm.rxMsg.status ≠ Message.errParity := hs
      rw [if_neg hs', if_neg (show ¬ (c.fail = true ∧ c.sm.rxMsg.status ≠ 3) from fun h => hs h.2)]
      dsimp only
      split <;> rfl
  · rw [if_neg hf, if_neg (fun h => hf h.1)]; rfl

theorem txMsgs_append (a b : List Report) : txMsgs (a ++ b) = txMsgs a ++ txMsgs b := List.filterMap_append

theorem part1_tx {pf : Platform} {g : Nat → UInt8} {c c' : Core0} {e : Env1} {rs : List Report} (h : c.part1 pf g e = .ok (c', rs)) : txMsgs rs = [] := by
  obtain ⟨k, _, _, rfl⟩ := Core0.part1_ok h
  unfold Core0.watchdog Core0.fifoCheck
  split <;> split <;> rfl

theorem takeWord_tx {c : Core0} {w : Word} {u : Nat} {t : Core0 × List Report} (h : c.takeWord w u = .ok t) : txMsgs t.2 = [] := by
  obtain ⟨c1, p, h1, h2, rfl⟩ := Core0.takeWord_ok h
  have hp : txMsgs p.2 = [] := by
    rcases Core0.packetEnd_ok h2 with ⟨rfl, _⟩ | ⟨_, k, _, rfl⟩ <;> rfl
  dsimp only
  rw [txMsgs_append, hp]
  unfold Core0.overflowCheck
  split <;> rfl

/-- The line about a failed transmission: exactly if the transmitter's error flag is set and the failure is not a receive error. -/
theorem iter_tx {pf : Platform} {g : Nat → UInt8} {c c' : Core0} {e : Env1 × Env2} {o : Out2} (hg : c.Good) (h : c.iter pf g e = .ok (c', o)) :
    txMsgs o.reports = if c.sm.err = true ∧ c.sm.rxMsg.status ≠ 3 then [c.sm.rxMsg] else [] := by
  obtain ⟨c1, rs, b, h1, h2, hr⟩ := Core0.iter_ok h
  obtain ⟨_, k1, k2, _⟩ := hg.part1 h1
  cases hr
  dsimp only
  rw [txMsgs_append, part1_tx h1, List.nil_append]
  have key : txMsgs b.2.reports = txMsgs (c1.reportFailure e.2.tColl).2 := by
    rcases Core0.part2_ok h2 with ⟨w, t, hw, h3, h4⟩ | ⟨hw, h4⟩ | ⟨hw, _, _, _, _, rfl⟩
    · rw [(Core0.finish_rxMsg h4).2, txMsgs_append, takeWord_tx h3, List.append_nil]
    · rw [(Core0.finish_rxMsg h4).2]
    · rfl
  rw [key, reportFailure_tx, k1, k2]
  rfl

theorem append_mem {m m' : Message} {b : UInt8} (hl : m.length < 32) (h : m.append b = .ok m') : b ∈ m'.bytes := by
  obtain ⟨h1, _⟩ := Message.append_snoc hl h
  rw [h1]; simp

/-- A byte received with an error is in a message with a status that is not 0: reported, or being collected. -/
theorem take_wrong {s : RxSide} {w : Word} {us : Nat} {r : RxSide × List Message} (hl : s.msg.length < 32) (hw : WordOk w) (he : w.rxError = true)
    (h : s.take w us = .ok r) : ∃ m, (m ∈ r.2 ∨ m = r.1.msg) ∧ m.status ≠ 0 ∧ w.rxChar ∈ m.bytes := by
  rw [RxSide.take, Res.bind_eq_ok] at h
  obtain ⟨m, h1, h⟩ := h
  simp only [Res.ok.injEq] at h
  subst h
  have hd : w.dadcError = false := by
    cases hd : w.dadcError with
    | false => rfl
    | true => have := hw.2.2 hd; rw [this] at he; cases he
  unfold RxSide.collect at h1
  rw [hd, he] at h1
  simp only [Bool.false_eq_true, if_false, if_true] at h1
  have hb : w.rxChar ∈ m.bytes := append_mem (by exact hl) h1
  have hs : m.status = 3 := append_status h1
  dsimp only
  rw [RxSide.line_msg]
  dsimp only
  unfold RxSide.ends
  split
  · exact ⟨m, .inl (by simp), by omega, hb⟩
  · dsimp only
    unfold RxSide.full
    split
    · exact ⟨{ m with status := Message.errOverflow }, .inl (by simp), by simp [Message.errOverflow], hb⟩
    · exact ⟨m, .inr rfl, by omega, hb⟩

theorem iter_rx_wrong {pf : Platform} {g : Nat → UInt8} {c c' : Core0} {e : Env1 × Env2} {o : Out2} {w : Word} (hg : c.Good)
    (h : c.iter pf g e = .ok (c', o)) (hw : e.2.word = some w) (hok : WordOk w) (he : w.rxError = true) :
    ∃ m, (m ∈ rxMsgs o.reports ∨ m = c'.rxMsg) ∧ m.status ≠ 0 ∧ w.rxChar ∈ m.bytes := by
  obtain ⟨c1, rs, b, h1, h2, hr⟩ := Core0.iter_ok h
  have hg1 := (hg.part1 h1).1
  rcases part2_rxSide h2 with ⟨hw', _⟩ | ⟨w', hw', h3⟩
  · rw [hw] at hw'; cases hw'
  · rw [hw] at hw'
    cases hw'
    obtain ⟨m, m1, m2⟩ := take_wrong (s := c1.rxSide) hg1.rx hok he h3
    cases hr
    refine ⟨m, ?_, m2⟩
    rcases m1 with m1 | m1
    · left
      dsimp only
      rw [rxMsgs_append]
      exact List.mem_append_right _ m1
    · exact .inr m1

/-- A failure because of a receive error comes from the word of the iteration. -/
theorem iter_rx_failure {pf : Platform} {g : Nat → UInt8} {c c' : Core0} {e : Env1 × Env2} {o : Out2} (hg : c.Good) (h : c.iter pf g e = .ok (c', o))
    (he : c'.sm.err = true) (hs : c'.sm.rxMsg.status = 3) : ∃ w, e.2.word = some w ∧ w.rxError = true := by
  obtain ⟨c1, rs, b, h1, h2, hr⟩ := Core0.iter_ok h
  obtain ⟨hg1, hsm, _, _, _, hwd⟩ := hg.part1 h1
  simp only [Prod.mk.injEq] at hr
  obtain ⟨rfl, -⟩ := hr
  have hin := hg1.reportFailure e.2.tColl
  obtain ⟨m, k, r1, _⟩ := reportFailure_eq c1 e.2.tColl
  have fin : ∀ (a : Core0) (rs : List Report), a.GoodIn → a.finish pf g e.2 rs = .ok b → a.word.rxError = true ∧ a.sm.st ≠ .idle := by
    intro a rs ha hf
    obtain ⟨s, s1, s2, s3, s4, s5, s6, u, u1, _⟩ := GoodIn.finish_update (c' := b.1) (o := b.2) ha hf
    obtain ⟨v1, v2⟩ := (update_status u1 s2.txSt s2.noErr).2.2 he hs
    refine ⟨?_, fun hi => ?_⟩
    · have : (s.1.updIn e.2).rxError = s.1.word.rxError := rfl
      rw [this, s3] at v1; exact v1
    · rcases s5 with ⟨s5, _⟩ | ⟨_, m', _, s5⟩
      · rw [s5, hi] at v2; rcases v2 with v2 | v2 <;> cases v2
      · rw [s5, TxSM.wake_idle hi] at v2; rcases v2 with v2 | v2 <;> cases v2
  rcases Core0.part2_ok h2 with ⟨w, t, hw, h3, h4⟩ | ⟨hw, h4⟩ | ⟨hw, _, _, _, _, rfl⟩
  · refine ⟨w, hw, ?_⟩
    obtain ⟨_, _, t3, _⟩ := takeWord_rest h3 hin.rx
    rw [← t3]
    exact (fin _ _ (hin.takeWord h3) h4).1
  · exfalso
    obtain ⟨f1, f2⟩ := fin _ _ hin h4
    rw [r1] at f1 f2
    have f1 : c1.word.rxError = true := f1
    have f2 : c1.sm.st ≠ .idle := f2
    rcases hg1.word with hz | hz
    · rw [hz] at f1; cases f1
    · exact f2 hz
  · exfalso
    have := hin.noErr
    rw [this] at he; cases he

theorem ne_zero_append {m m' : Message} {b : UInt8} (h : m.append b = .ok m') (hs : m.status ≠ 0) : m'.status ≠ 0 := by
  rw [append_status h]; exact hs

/-- **C59, receive errors.** If the message being collected has a status that is not 0, then so has the next message about the bus that is
given to the host, whatever happens; until then the message keeps a status that is not 0. -/
theorem C59_pending (pf : Platform) (g : Nat → UInt8) (c c' : Core0) (es : List (Env1 × Env2)) (os : List Out2)
    (h : c.run pf g es = .ok (c', os)) (hs : c.rxMsg.status ≠ 0) :
    (busLines os = [] ∧ c'.rxMsg.status ≠ 0) ∨ ∃ m ms, busLines os = m :: ms ∧ m.status ≠ 0 := by
  induction es generalizing c os with
  | nil => cases h; exact .inl ⟨rfl, hs⟩
  | cons e es ih =>
    obtain ⟨c1, o, os', h1, h2, rfl⟩ := Core0.run_cons h
    have h3 := iter_rxSide h1
    have key : (rxMsgs o.reports = [] ∧ c1.rxMsg.status ≠ 0) ∨ ∃ m ms, rxMsgs o.reports = m :: ms ∧ m.status ≠ 0 := by
      unfold RxSide.step at h3
      have hd : (c.rxSide.dog e.1.tDog1 e.1.tDog2 = (c.rxSide, [])) ∨ ∃ s m, c.rxSide.dog e.1.tDog1 e.1.tDog2 = (s, [m]) ∧ m.status ≠ 0 := by
        unfold RxSide.dog
        split
        · exact .inr ⟨_, _, rfl, by simp [Message.errNoFraming]⟩
        · exact .inl rfl
      have hfl : ∀ s : RxSide, (s.flag e.1.fifoErr = (s, [])) ∨ ∃ s' m, s.flag e.1.fifoErr = (s', [m]) ∧ m.status ≠ 0 := by
        intro s
        unfold RxSide.flag
        split
        · exact .inr ⟨_, _, rfl, by simp [Message.errOverflow]⟩
        · exact .inl rfl
      rcases hd with hd | ⟨s, m, hd, hm⟩
      · rw [hd] at h3
        dsimp only at h3
        rcases hfl c.rxSide with hf | ⟨s', m, hf, hm⟩
        · rw [hf] at h3
          cases hw : e.2.word with
          | none =>
            rw [hw] at h3
            simp only [Res.ok.injEq, Prod.mk.injEq] at h3
            left
            exact ⟨h3.2.symm, by have : c1.rxMsg = c.rxMsg := congrArg RxSide.msg h3.1.symm; rw [this]; exact hs⟩
          | some w =>
            rw [hw] at h3
            dsimp only at h3
            rw [Res.bind_eq_ok] at h3
            obtain ⟨t, h4, h3⟩ := h3
            simp only [Res.ok.injEq, Prod.mk.injEq, List.nil_append] at h3
            rw [RxSide.take, Res.bind_eq_ok] at h4
            obtain ⟨m, h5, h4⟩ := h4
            simp only [Res.ok.injEq] at h4
            have hm : m.status ≠ 0 := by
              unfold RxSide.collect at h5
              split at h5
              · cases h5; simp [Message.errOverflow]
              · split at h5
                · exact ne_zero_append h5 (by simp [Message.errParity])
                · split at h5
                  · exact ne_zero_append h5 hs
                  · cases h5; exact hs
            rw [← h3.2, ← h4]
            have hmsg : c1.rxMsg = t.1.msg := congrArg RxSide.msg h3.1.symm
            rw [hmsg, ← h4]
            dsimp only
            rw [RxSide.line_msg]
            dsimp only
            unfold RxSide.ends
            split
            · right; exact ⟨m, _, rfl, hm⟩
            · dsimp only
              unfold RxSide.full
              split
              · right; exact ⟨_, _, rfl, by simp [Message.errOverflow]⟩
              · left; exact ⟨rfl, hm⟩
        · rw [hf] at h3
          right
          cases hw : e.2.word with
          | none =>
            rw [hw] at h3
            simp only [Res.ok.injEq, Prod.mk.injEq] at h3
            exact ⟨m, [], h3.2.symm, hm⟩
          | some w =>
            rw [hw] at h3
            dsimp only at h3
            rw [Res.bind_eq_ok] at h3
            obtain ⟨t, h4, h3⟩ := h3
            simp only [Res.ok.injEq, Prod.mk.injEq] at h3
            exact ⟨m, _, h3.2.symm, hm⟩
      · rw [hd] at h3
        right
        cases hw : e.2.word with
        | none =>
          rw [hw] at h3
          simp only [Res.ok.injEq, Prod.mk.injEq] at h3
          exact ⟨m, _, h3.2.symm, hm⟩
        | some w =>
          rw [hw] at h3
          dsimp only at h3
          rw [Res.bind_eq_ok] at h3
          obtain ⟨t, h4, h3⟩ := h3
          simp only [Res.ok.injEq, Prod.mk.injEq] at h3
          exact ⟨m, _, h3.2.symm, hm⟩
    rcases key with ⟨k1, k2⟩ | ⟨m, ms, k1, k2⟩
    · rcases ih c1 os' h2 k2 with ⟨i1, i2⟩ | ⟨m, ms, i1, i2⟩
      · left
        refine ⟨?_, i2⟩
        rw [busLines, List.flatMap_cons, k1]; exact i1
      · right
        refine ⟨m, ms, ?_, i2⟩
        rw [busLines, List.flatMap_cons, k1]; exact i1
    · right
      exact ⟨m, ms ++ busLines os', by rw [busLines, List.flatMap_cons, k1]; rfl, k2⟩

/-- **C59.** In every history: if the transmitter has raised an error in an iteration, then the next iteration gives the host exactly one line
about a failed transmission, with a status that is not 0 - except if the iteration that raised the error had a receive error: then the wrong
byte is in a message about the bus with a status that is not 0, which was given to the host in that iteration or is being collected (and the
next message about the bus has a status that is not 0, `C59_pending`).  Lines about failed transmissions are given in no other case. -/
theorem C59_failure_reported (pf : Platform) (g : Nat → UInt8) (es : List (Env1 × Env2)) (c c1 c2 : Core0) (os : List Out2) (e1 e2 : Env1 × Env2)
    (o1 o2 : Out2) (hr : LoopRun pf g es c os) (h1 : c.iter pf g e1 = .ok (c1, o1)) (h2 : c1.iter pf g e2 = .ok (c2, o2))
    (hw : ∀ w, e1.2.word = some w → WordOk w) :
    (c1.sm.err = true → (∃ m, txMsgs o2.reports = [m] ∧ m.status ≠ 0) ∨
      ∃ w m, e1.2.word = some w ∧ w.rxError = true ∧ (m ∈ rxMsgs o1.reports ∨ m = c1.rxMsg) ∧ m.status ≠ 0 ∧ w.rxChar ∈ m.bytes) ∧
    (c1.sm.err = false → txMsgs o2.reports = []) := by
  have hg := hr.good
  have hg1 := (hg.iter h1).1
  rw [iter_tx hg1 h2]
  refine ⟨fun he => ?_, fun he => ?_⟩
  · by_cases hs : c1.sm.rxMsg.status = 3
    · obtain ⟨w, w1, w2⟩ := iter_rx_failure hg h1 he hs
      obtain ⟨m, m1, m2⟩ := iter_rx_wrong hg h1 w1 (hw w w1) w2
      exact .inr ⟨w, m, w1, w2, m1, m2⟩
    · left
      rw [if_pos ⟨he, hs⟩]
      exact ⟨_, rfl, hg1.txErr he⟩
  · rw [if_neg (fun h => by rw [he] at h; cases h.1)]

/-- A transmission fails (the bus becomes busy before the packet is sent): the line with status 1 comes with the next iteration. -/
example : loopSeen (opRun ++ [bothIter 2301000 [52, 48, 10] none, bothIter 2302000 [] none, bothIter 2303000 [] (some wBusy)]) =
      some ⟨[[0x40]], [], [], true, false⟩ ∧
    loopSeen (opRun ++ [bothIter 2301000 [52, 48, 10] none, bothIter 2302000 [] none, bothIter 2303000 [] (some wBusy), bothIter 2304000 [] none]) =
      some ⟨[[0x40]], [(1, [])], [], true, false⟩ := by decide +kernel

/-! ## C79, what holds -/

/-- **C79, the part that holds**: the main loop never requests the transmission of an empty packet (or of one with more than 32 bytes), whatever the host sends. -/
theorem C79_never_requested_partial (pf : Platform) (g : Nat → UInt8) (es : List (Env1 × Env2)) (c : Core0) (os : List Out2) (h : LoopRun pf g es c os) :
    ∀ o ∈ os, ∀ m, o.started = some m → 1 ≤ m.length ∧ m.length ≤ 32 := by
  obtain ⟨w0, t0, t1, h⟩ := h
  exact ((Core0.Good.init g w0 t0 t1).run h).2

end P1P2
