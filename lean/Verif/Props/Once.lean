import Verif.Props.Account
import Verif.Spec.Once
/-!
# Property C139: no packet is transmitted twice or out of order
-/
namespace P1P2

theorem toWire_snoc (os : List Out2) (o : Out2) : toWire (os ++ [o]) = toWire os ++ toWire [o] := by
  simp [toWire, List.flatMap_append, List.filterMap_append]

/-- The packet that waits for the bus or for the amplifier. -/
def TxSM.awaiting (s : TxSM) : List Message := if s.st = .waitLineFree ∨ s.st = .waitPowerOn then [s.txMsg] else []

/-- One update: what waits is kept, handed over or given up. -/
theorem update_once {pf : Platform} {s s' : TxSM} {i : UpdIn} {cmds : List HwCmd} (h : s.update pf i = .ok (s', cmds)) :
    (cmds.filterMap HwCmd.packet ++ s'.awaiting).Sublist s.awaiting := by
  unfold TxSM.awaiting
  cases TxSM.updCase h with
  | early _ hs hc => subst hs hc; simp [HwCmd.packet, List.filterMap_cons]
  | hw _ _ _ hs hc => subst hs hc; simp [HwCmd.packet, List.filterMap_cons]
  | stay _ _ _ _ _ _ _ hs hc => subst hs hc; simp [HwCmd.packet, List.filterMap_cons]
  | power _ _ hst _ _ _ hs hc => subst hs hc; simp [hst, HwCmd.packet, List.filterMap_cons]
  | start _ _ hst _ hs hc => subst hs hc; simp [hst, HwCmd.packet, List.filterMap_cons]
  | busy _ _ hst _ _ _ hs hc => subst hs hc; simp [HwCmd.packet, List.filterMap_cons]
  | rxErr _ _ hst _ hs hc => subst hs hc; simp [HwCmd.packet, List.filterMap_cons]
  | good _ _ hst _ _ _ _ rx _ hs hc => subst hs hc; dsimp only; split <;> simp [HwCmd.packet, List.filterMap_cons]
  | bad _ _ hst _ _ _ _ rx _ hs hc => subst hs hc; dsimp only; split <;> simp [HwCmd.packet, List.filterMap_cons]
  | finish _ _ hst _ hs hc => subst hs hc; simp [HwCmd.packet, List.filterMap_cons]

theorem LoopRun.once {pf : Platform} {g : Nat → UInt8} {es : List (Env1 × Env2)} {c : Core0} {os : List Out2} (h : LoopRun pf g es c os) :
    (toWire os ++ c.sm.awaiting).Sublist (os.filterMap Out2.started) := by
  refine h.fwd (P := fun _ c os => (toWire os ++ c.sm.awaiting).Sublist (os.filterMap Out2.started)) (fun _ _ _ => List.Sublist.slnil) ?_
  intro es c os e c' o hr ih h1
  obtain ⟨p, hp, hc⟩ := iter_trace hr.good h1
  have hone : ∀ o : Out2, toWire [o] = o.cmds.filterMap HwCmd.packet := fun o => by simp [toWire]
  have haw : (txEnd c.sm p).awaiting = c.sm.awaiting := by
    unfold TxSM.awaiting
    rw [hp.last.1, hp.last.2.1]
  rw [toWire_snoc, started_snoc, List.append_assoc, hone]
  rcases hc with ⟨_, hi, hcm, hst, _, hsm, _⟩ | ⟨_, _, ⟨hst, hu⟩ | ⟨m, hst, _, hi, hu⟩⟩
  · rw [hcm, hst, hsm, haw]
    simpa using ih
  · rw [hst, Option.toList_none, List.append_nil]
    have := update_once hu
    rw [haw] at this
    exact ((List.Sublist.refl _).append this).trans ih
  · rw [hst, Option.toList_some]
    have hi' : (txEnd c.sm p).st = .idle := by rw [hp.last.1]; exact hi
    rw [TxSM.wake_idle hi'] at hu
    have := update_once hu
    exact ((List.sublist_append_left _ _).trans ih).append this

/-- **C139.** In every history, the packets handed to the transmit hardware are among the packets the host asked for and the answers of the controller to valid requests: each packet of the host at most once and
in the order of the lines, each request answered at most once and in the order in which the requests were reported. -/
theorem C139_at_most_once (pf : Platform) (g : Nat → UInt8) (es : List (Env1 × Env2)) (c : Core0) (os : List Out2) (h : LoopRun pf g es c os) :
    ∃ ps : Origins, ps.map Prod.fst = toWire os ∧ (∀ p ∈ ps, ∀ r, p.2 = some r → Answers r p.1) ∧ ps.requests.Sublist (busLines os) ∧
      ps.host.Sublist ((hostLines es).filterMap (packetOf pf g)) := by
  obtain ⟨ps, q, h1, h2, h3, _, h4, _⟩ := C89_what_is_sent pf g es c os h
  have hs := (List.sublist_append_left _ _).trans h.once
  rw [← h1] at hs
  obtain ⟨ps', k1, k2⟩ := List.sublist_map_iff.mp hs
  refine ⟨ps', k2.symm, fun p hp => h2 p (k1.subset hp), ?_, ?_⟩
  · exact (k1.filterMap _).trans h3
  · exact (k1.filterMap _).trans ((List.sublist_append_left _ _).trans h4)

/-! ## How many lines a failed transmission causes -/

/-- How many failures the transmitter can still tell of before the next packet is started. -/
def TxSM.left (s : TxSM) : Nat := (match s.st with | .idle => 0 | .runningWaitForIdle => 1 | _ => 2) + (if s.err then 1 else 0)

theorem update_left {pf : Platform} {s s' : TxSM} {i : UpdIn} {cmds : List HwCmd} (h : s.update pf i = .ok (s', cmds)) (he : s.err = false) : s'.left ≤ s.left := by
  unfold TxSM.left
  cases TxSM.updCase h with
  | early hf hs hc =>
    subst hs hc
    cases hst : s.st with
    | idle => simp [TxSM.timedOutError, TxSt.lineStateIsError, TxSt.busyIsError, TxSt.freeIsError, TxSt.timeoutIsError, hst] at hf
    | _ => simp [he]
  | hw _ hi _ hs hc => subst hs hc; cases hst : s.st <;> simp_all
  | stay _ _ _ _ _ _ _ hs hc => subst hs hc; exact Nat.le_refl _
  | power _ _ hst _ _ _ hs hc => subst hs hc; simp [hst, he]
  | start _ _ hst _ hs hc => subst hs hc; simp [hst, he]
  | busy _ _ hst _ _ _ hs hc => subst hs hc; simp [hst, he]
  | rxErr _ _ hst _ hs hc => subst hs hc; rcases hst with hst | hst <;> simp [hst, he]
  | good _ _ hst _ _ _ _ rx _ hs hc => subst hs hc; dsimp only; split <;> rcases hst with hst | hst <;> simp [hst, he]
  | bad _ _ hst _ _ _ _ rx _ hs hc => subst hs hc; rcases hst with hst | hst <;> simp [hst, he]
  | finish _ _ hst _ hs hc => subst hs hc; simp [hst, he]

/-- The lines about failed transmissions in one iteration. -/
theorem iter_left {pf : Platform} {g : Nat → UInt8} {c c' : Core0} {e : Env1 × Env2} {o : Out2} (hg : c.Good) (h : c.iter pf g e = .ok (c', o)) :
    (txMsgs o.reports).length + c'.sm.left ≤ c.sm.left + 2 * o.started.toList.length ∧ (o.started ≠ none → c'.sm.left ≤ 2) := by
  obtain ⟨p, hp, hc⟩ := iter_trace hg h
  have hl : (txMsgs o.reports).length + (txEnd c.sm p).left ≤ c.sm.left := by
    rw [iter_tx hg h]
    unfold TxSM.left
    rw [hp.last.1, hp.last.2.2.2.2]
    cases c.sm.err with
    | false => simp
    | true =>
      simp only [true_and]
      split <;> simp <;> omega
  rcases hc with ⟨_, hi, hcm, hst, _, hsm, _⟩ | ⟨_, _, ⟨hst, hu⟩ | ⟨m, hst, _, hi, hu⟩⟩
  · rw [hst, hsm]
    exact ⟨by simpa using hl, fun h => absurd rfl h⟩
  · rw [hst]
    have := update_left hu hp.last.2.2.2.2
    exact ⟨by simp; omega, fun h => absurd rfl h⟩
  · have hi' : (txEnd c.sm p).st = .idle := by rw [hp.last.1]; exact hi
    rw [TxSM.wake_idle hi'] at hu
    have := update_left hu rfl
    have : c'.sm.left ≤ 2 := this
    rw [hst]
    exact ⟨by simp; omega, fun _ => this⟩

theorem run_left {pf : Platform} {g : Nat → UInt8} : ∀ {es : List (Env1 × Env2)} {c c' : Core0} {os : List Out2}, c.Good → c.run pf g es = .ok (c', os) →
    (os.flatMap fun o => txMsgs o.reports).length + c'.sm.left ≤ c.sm.left + 2 * (os.filterMap Out2.started).length := by
  intro es
  induction es with
  | nil => intro c c' os _ h; cases h; simp
  | cons e es ih =>
    intro c c' os hg h
    obtain ⟨c1, o, os', h1, h2, rfl⟩ := Core0.run_cons h
    have k1 := (iter_left hg h1).1
    have k2 := ih (hg.iter h1).1 h2
    rw [List.flatMap_cons, List.length_append]
    cases hs : o.started with
    | none => rw [List.filterMap_cons_none hs]; rw [hs] at k1; simp at k1; omega
    | some m => rw [List.filterMap_cons_some hs]; rw [hs] at k1; simp at k1; simp only [List.length_cons]; omega

/-- **C139, lines about failures.** In every history: after an iteration that starts a packet, at most two lines about a failed transmission are given to the host before the next packet is started, and in general at
most two for each packet. -/
theorem C139_at_most_two_lines (pf : Platform) (g : Nat → UInt8) (es mid : List (Env1 × Env2)) (x : Env1 × Env2) (c0 c1 c2 : Core0) (os om : List Out2) (ox : Out2) (hr : LoopRun pf g es c0 os)
    (hx : c0.iter pf g x = .ok (c1, ox)) (hs : ox.started ≠ none) (hm : c1.run pf g mid = .ok (c2, om)) :
    (om.flatMap fun o => txMsgs o.reports).length ≤ 2 + 2 * (om.filterMap Out2.started).length := by
  have h1 := (iter_left hr.good hx).2 hs
  have h2 := run_left (hr.snoc hx).good hm
  omega

set_option maxRecDepth 100000 in
/-- A history in which the host asks for a packet, which is handed over once. -/
example : (match (Core0.init (fun _ => 0) .zero 0 0).run .arm (fun _ => 0) (opRun ++ askIter [52, 48, 70, 48, 10] :: sentRun) with
    | .ok (_, os) => some ((toWire os).map Message.bytes)
    | .ub => none) = some [[0x40, 0xF0]] := by decide +kernel

/-- `40F0` is asked for and sent; another byte is heard, and the bus stays busy. -/
def twiceRun : List (Env1 × Env2) := [bothIter 2302000 [] none, bothIter 2303000 [] none, bothIter 2334000 [] none, bothIter 2334500 [] (some wBusy), bothIter 2335500 [] (some (wByte 0x55)),
  bothIter 2336500 [] none, bothIter 2341500 [] none, bothIter 2342500 [] none]

set_option maxRecDepth 100000 in
/-- Two lines about one packet: the collision, and the bus that does not become free. -/
example : (match (Core0.init (fun _ => 0) .zero 0 0).run .arm (fun _ => 0) (opRun ++ askIter [52, 48, 70, 48, 10] :: twiceRun) with
    | .ok (_, os) => some ((os.filterMap Out2.started).map Message.bytes, (os.flatMap fun o => txMsgs o.reports).map fun l => (l.status, l.bytes))
    | .ub => none) = some ([[0x40, 0xF0]], [(21, [0x40]), (1, [])]) := by decide +kernel

end P1P2
