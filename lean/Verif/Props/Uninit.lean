import Verif.Proofs.Uninit
import Verif.Props.MainLoop3
/-!
# Property C86: exactly two kinds of packets make uninitialised memory visible
-/
namespace P1P2

/-- It does not matter what is behind the payload when the controller looks at a failed transmission. -/
def Telling (m : Message) : Prop := 3 ≤ m.length ∨ (1 ≤ m.length ∧ m.data 0 ≠ 0x40)

theorem telling_of {m : Message} (hs : Sendable m) (h : ¬ StubAnswer m.bytes) : Telling m := by
  by_cases h3 : 3 ≤ m.length
  · exact .inl h3
  · refine .inr ⟨hs.1, fun e => h ⟨?_, ?_⟩⟩
    · have : m.bytes.length = m.length := by simp [Message.bytes]
      omega
    · have h1 : m.bytes[0]? = some (m.data 0) := by
        have := hs.1
        simp only [Message.bytes, List.getElem?_map, List.getElem?_range (show 0 < m.length by omega), Option.map_some]
      rw [h1, e]

/-- Two states of the main loop that differ at most in uninitialised memory. -/
structure Same0 (c c' : Core0) : Prop where
  rx : SameMsg c.rxMsg c'.rxMsg
  lineBusy : c.lineBusy = c'.lineBusy
  busySince : c.busySince = c'.busySince
  fail : c.fail = c'.fail
  clr : c.clr = c'.clr
  word : c.word = c'.word ∨ c.sm.st = .idle
  sm : SameSM c.sm c'.sm
  ctrl : SameCtrl c.ctrl c'.ctrl
  host : SameHost c.host c'.host
  tell : c.sm.err = true ∨ c.fail = true ∨ c.sm.st ≠ .idle → Telling c.sm.txMsg

/-- Lines that look the same. -/
def SameRep (a b : List Report) : Prop := a.map Report.seen = b.map Report.seen

theorem SameRep.append {a b a' b' : List Report} (h : SameRep a b) (h' : SameRep a' b') : SameRep (a ++ a') (b ++ b') := by
  unfold SameRep at *
  rw [List.map_append, List.map_append, h, h']

theorem SameRep.rx {m m' : Message} (h : SameMsg m m') : SameRep [.rx m] [.rx m'] := by
  unfold SameRep; simp only [List.map_cons, List.map_nil, Report.seen]; rw [h.seen]

theorem SameRep.tx {m m' : Message} (h : SameMsg m m') : SameRep [.tx m] [.tx m'] := by
  unfold SameRep; simp only [List.map_cons, List.map_nil, Report.seen]; rw [h.seen]

theorem Same0.init (g g' : Nat → UInt8) (w w' : Word) (t0 t1 : Nat) : Same0 (Core0.init g w t0 t1) (Core0.init g' w' t0 t1) where
  rx := SameMsg.empty g g'
  lineBusy := rfl
  busySince := rfl
  fail := rfl
  clr := rfl
  word := .inr rfl
  sm := ⟨SameMsg.empty g g', SameMsg.empty g g', rfl, rfl, rfl, rfl⟩
  ctrl := SameCtrl.init g g' t0
  host := ⟨rfl, rfl, rfl, rfl, rfl, fun _ => SameMsg.empty g g'⟩
  tell := by
    rintro (h | h | h)
    · cases h
    · cases h
    · exact absurd rfl h

theorem Same0.watchdog {c c' : Core0} (h : Same0 c c') (a b : Nat) : Same0 (c.watchdog a b).1 (c'.watchdog a b).1 ∧ SameRep (c.watchdog a b).2 (c'.watchdog a b).2 := by
  unfold Core0.watchdog
  have hd : c.dogBites a = c'.dogBites a := by unfold Core0.dogBites; rw [h.lineBusy, h.busySince]
  rw [← hd]
  split
  · exact ⟨⟨h.rx.clear, h.lineBusy, rfl, h.fail, h.clr, h.word, h.sm, h.ctrl, h.host, h.tell⟩, SameRep.rx (h.rx.withStatus _)⟩
  · exact ⟨h, rfl⟩

theorem Same0.fifoCheck {c c' : Core0} (h : Same0 c c') (e : Bool) : Same0 (c.fifoCheck e).1 (c'.fifoCheck e).1 ∧ SameRep (c.fifoCheck e).2 (c'.fifoCheck e).2 := by
  unfold Core0.fifoCheck
  split
  · exact ⟨⟨h.rx.clear, h.lineBusy, h.busySince, h.fail, rfl, h.word, h.sm, h.ctrl, h.host, h.tell⟩, SameRep.rx (h.rx.withStatus _)⟩
  · exact ⟨⟨h.rx, h.lineBusy, h.busySince, h.fail, rfl, h.word, h.sm, h.ctrl, h.host, h.tell⟩, rfl⟩

theorem Same0.part1 {c c' : Core0} (h : Same0 c c') (pf : Platform) (g g' : Nat → UInt8) (e : Env1) :
    Res.Rel (fun p q => Same0 p.1 q.1 ∧ SameRep p.2 q.2) (c.part1 pf g e) (c'.part1 pf g' e) := by
  unfold Core0.part1
  refine Res.Rel.bind (h.host.check pf g g' e.tHost e.chunk) ?_
  intro k k' hk
  have h1 : Same0 { c with host := k, ctrl := c.ctrl.check e.tCtrl1 e.tCtrl2, sm := c.sm.error.1, fail := c.sm.error.2 }
      { c' with host := k', ctrl := c'.ctrl.check e.tCtrl1 e.tCtrl2, sm := c'.sm.error.1, fail := c'.sm.error.2 } :=
    ⟨h.rx, h.lineBusy, h.busySince, h.sm.error.2, h.clr, h.word, h.sm.error.1, h.ctrl.check _ _, hk, by
      rintro (e | e | e)
      · cases e
      · exact h.tell (.inl e)
      · exact h.tell (.inr (.inr e))⟩
  have h2 := h1.watchdog e.tDog1 e.tDog2
  have h3 := h2.1.fifoCheck e.fifoErr
  exact ⟨h3.1, h2.2.append h3.2⟩

theorem Same0.reportFailure {c c' : Core0} (h : Same0 c c') (now : Nat) :
    Same0 (c.reportFailure now).1 (c'.reportFailure now).1 ∧ SameRep (c.reportFailure now).2 (c'.reportFailure now).2 := by
  unfold Core0.reportFailure
  by_cases hf : c.fail = true
  case neg => rw [if_neg hf, if_neg (by rw [← h.fail]; exact hf)]; exact ⟨h, rfl⟩
  case pos =>
    have hf' : c'.fail = true := by rw [← h.fail]; exact hf
    rw [if_pos hf, if_pos hf']
    have key : ∀ a a' : Core0 × List Report, Same0 a.1 a'.1 → SameRep a.2 a'.2 → Telling a.1.sm.txMsg →
        Same0 (if a.1.ctrl.isTxAnswer a.1.sm.txMsg then ({ a.1 with ctrl := a.1.ctrl.busCollision now }, a.2) else a).1
          (if a'.1.ctrl.isTxAnswer a'.1.sm.txMsg then ({ a'.1 with ctrl := a'.1.ctrl.busCollision now }, a'.2) else a').1 ∧
        SameRep (if a.1.ctrl.isTxAnswer a.1.sm.txMsg then ({ a.1 with ctrl := a.1.ctrl.busCollision now }, a.2) else a).2
          (if a'.1.ctrl.isTxAnswer a'.1.sm.txMsg then ({ a'.1 with ctrl := a'.1.ctrl.busCollision now }, a'.2) else a').2 := by
      intro a a' k1 k2 k3
      rw [← k1.ctrl.isTxAnswer k1.sm.tx k3]
      split
      · exact ⟨⟨k1.rx, k1.lineBusy, k1.busySince, k1.fail, k1.clr, k1.word, k1.sm, k1.ctrl.busCollision now, k1.host, k1.tell⟩, k2⟩
      · exact ⟨k1, k2⟩
    have ht := h.tell (.inr (.inl hf))
    have hst := h.sm.rx.status
    by_cases hp : c.sm.rxMsg.status ≠ Message.errParity
    · have hp' : c'.sm.rxMsg.status ≠ Message.errParity := by rw [← hst]; exact hp
      simp only [if_pos hp, if_pos hp']
      exact key ({ c with sm := { c.sm with rxMsg := c.sm.rxMsg.clear } }, [Report.tx c.sm.rxMsg]) ({ c' with sm := { c'.sm with rxMsg := c'.sm.rxMsg.clear } }, [Report.tx c'.sm.rxMsg])
        ⟨h.rx, h.lineBusy, h.busySince, h.fail, h.clr, h.word, h.sm.setRx h.sm.rx.clear, h.ctrl, h.host, h.tell⟩ (SameRep.tx h.sm.rx) ht
    · have hp' : ¬ c'.sm.rxMsg.status ≠ Message.errParity := by rw [← hst]; exact hp
      simp only [if_neg hp, if_neg hp']
      exact key (c, []) (c', []) h rfl ht

theorem Same0.setRx {c c' : Core0} (h : Same0 c c') {m m' : Message} (hm : SameMsg m m') : Same0 { c with rxMsg := m } { c' with rxMsg := m' } :=
  ⟨hm, h.lineBusy, h.busySince, h.fail, h.clr, h.word, h.sm, h.ctrl, h.host, h.tell⟩

theorem Same0.collectByte {c c' : Core0} (h : Same0 c c') (w : Word) : Res.Rel Same0 (c.collectByte w) (c'.collectByte w) := by
  unfold Core0.collectByte
  split
  · exact h.setRx (h.rx.withStatus _)
  · split
    · exact Res.Rel.bind ((h.rx.withStatus Message.errParity).append w.rxChar) (fun m m' hm => h.setRx hm)
    · split
      · exact Res.Rel.bind (h.rx.append w.rxChar) (fun m m' hm => h.setRx hm)
      · exact h

theorem Same0.packetEnd {c c' : Core0} (h : Same0 c c') {w : Word} {r : Core0 × List Report} (hr : c.packetEnd w = .ok r)
    (hn : ∀ m, Report.rx m ∈ r.2 → ¬ ShortRequest m.bytes) : ∃ r', c'.packetEnd w = .ok r' ∧ Same0 r.1 r'.1 ∧ SameRep r.2 r'.2 := by
  unfold Core0.packetEnd at hr ⊢
  rw [← h.rx.length, ← h.rx.status]
  by_cases hb : (w.lineFree && (decide (c.rxMsg.length > 0) || c.rxMsg.status != 0)) = true
  · rw [if_pos hb] at hr ⊢
    rw [Res.bind_eq_ok] at hr
    obtain ⟨k, hk, hr⟩ := hr
    simp only [Res.ok.injEq] at hr
    subst hr
    obtain ⟨k', hk', hc⟩ := (h.ctrl.receive h.rx (hn c.rxMsg (by simp))).ok hk
    exact ⟨_, by rw [hk']; rfl, ⟨h.rx.clear, h.lineBusy, h.busySince, h.fail, h.clr, h.word, h.sm, hc, h.host, h.tell⟩, SameRep.rx h.rx⟩
  · rw [if_neg hb] at hr ⊢
    simp only [Res.ok.injEq] at hr
    subst hr
    exact ⟨_, rfl, h, rfl⟩

theorem Same0.overflowCheck {c c' : Core0} (h : Same0 c c') : Same0 c.overflowCheck.1 c'.overflowCheck.1 ∧ SameRep c.overflowCheck.2 c'.overflowCheck.2 := by
  unfold Core0.overflowCheck Message.overflow
  rw [← h.rx.length]
  split
  · exact ⟨h.setRx h.rx.clear, SameRep.rx (h.rx.withStatus _)⟩
  · exact ⟨h, rfl⟩

theorem Same0.lineState {c c' : Core0} (h : Same0 c c') (w : Word) (us : Nat) : Same0 (c.lineState w us) (c'.lineState w us) := by
  unfold Core0.lineState
  rw [← h.lineBusy]
  split
  · exact ⟨h.rx, rfl, h.busySince, h.fail, h.clr, h.word, h.sm, h.ctrl, h.host, h.tell⟩
  · split
    · exact ⟨h.rx, rfl, rfl, h.fail, h.clr, h.word, h.sm, h.ctrl, h.host, h.tell⟩
    · exact h

theorem Same0.takeWord {c c' : Core0} (h : Same0 c c') {w : Word} {us : Nat} {r : Core0 × List Report} (hr : c.takeWord w us = .ok r)
    (hn : ∀ m, Report.rx m ∈ r.2 → ¬ ShortRequest m.bytes) : ∃ r', c'.takeWord w us = .ok r' ∧ Same0 r.1 r'.1 ∧ SameRep r.2 r'.2 := by
  unfold Core0.takeWord at hr ⊢
  rw [Res.bind_eq_ok] at hr
  obtain ⟨c1, h1, hr⟩ := hr
  rw [Res.bind_eq_ok] at hr
  obtain ⟨p, h2, hr⟩ := hr
  simp only [Res.ok.injEq] at hr
  subst hr
  have hw : Same0 { c with word := w } { c' with word := w } := ⟨h.rx, h.lineBusy, h.busySince, h.fail, h.clr, .inl rfl, h.sm, h.ctrl, h.host, h.tell⟩
  obtain ⟨c1', h1', hs1⟩ := (hw.collectByte w).ok h1
  obtain ⟨p', h2', hs2, hs3⟩ := hs1.packetEnd h2 (fun m hm => hn m (List.mem_append.mpr (.inl hm)))
  have ho := hs2.overflowCheck
  exact ⟨_, by rw [h1', Res.ok_bind, h2']; rfl, ho.1.lineState w us, hs3.append ho.2⟩

theorem Same0.startTx {c c' : Core0} (h : Same0 c c') {g g' : Nat → UInt8} {now : Nat} {r : Core0 × Option Message × List HwCmd} (hr : c.startTx g now = .ok r)
    (hm : ∀ m, r.2.1 = some m → Telling m) :
    ∃ r', c'.startTx g' now = .ok r' ∧ Same0 { r.1 with word := .zero } { r'.1 with word := .zero } ∧
      (r.1.word = r'.1.word ∨ r.1.sm.st = .idle ∨ r.1.sm.st = .waitLineFree) ∧
      r.2.1.map Message.seen = r'.2.1.map Message.seen ∧ SameCmds r.2.2 r'.2.2 := by
  have hid : c.sm.isIdle = c'.sm.isIdle := by unfold TxSM.isIdle; rw [h.sm.st]
  have hhd : c.host.hasData = c'.host.hasData := by unfold Host.hasData Fifo.isEmpty; rw [h.host.msgs.length]
  have hstay : Same0 { c with word := .zero } { c' with word := .zero } ∧ (c.word = c'.word ∨ c.sm.st = .idle ∨ c.sm.st = .waitLineFree) :=
    ⟨⟨h.rx, h.lineBusy, h.busySince, h.fail, h.clr, .inl rfl, h.sm, h.ctrl, h.host, h.tell⟩, h.word.elim .inl (fun x => .inr (.inl x))⟩
  unfold Core0.startTx at hr ⊢
  rw [← hid]
  by_cases hi : c.sm.isIdle = true
  · rw [if_pos hi] at hr ⊢
    have hwst : ∀ m : Message, (c.sm.wake m now).1.st = .waitLineFree := by
      intro m
      unfold TxSM.wake
      rw [if_pos hi]; rfl
    have hwm : ∀ m : Message, (c.sm.wake m now).1.txMsg = m := by
      intro m
      unfold TxSM.wake
      rw [if_pos hi]; rfl
    rw [← hhd]
    by_cases hd : c.host.hasData = true
    · rw [if_pos hd] at hr ⊢
      rw [Res.bind_eq_ok] at hr
      obtain ⟨p, hp, hr⟩ := hr
      simp only [Res.ok.injEq] at hr
      subst hr
      obtain ⟨p', hp', hs1, hs2⟩ := (h.host.popMsg g g').ok hp
      have hwk := h.sm.wake hs2 now
      refine ⟨({ c' with host := p'.1, sm := (c'.sm.wake p'.2 now).1 }, some p'.2, (c'.sm.wake p'.2 now).2), by rw [hp']; rfl,
        ⟨h.rx, h.lineBusy, h.busySince, h.fail, h.clr, .inl rfl, hwk.1, h.ctrl, hs1, ?_⟩, .inr (.inr (hwst _)), ?_, hwk.2⟩
      · intro _
        show Telling (c.sm.wake p.2 now).1.txMsg
        rw [hwm]
        exact hm p.2 rfl
      · exact congrArg some hs2.seen
    · rw [if_neg hd] at hr ⊢
      have hrd : c.ctrl.hasTxData = c'.ctrl.hasTxData := h.ctrl.ready
      rw [← hrd]
      by_cases ht : c.ctrl.hasTxData = true
      · rw [if_pos ht] at hr ⊢
        rw [Res.bind_eq_ok] at hr
        obtain ⟨p, hp, hr⟩ := hr
        simp only [Res.ok.injEq] at hr
        subst hr
        obtain ⟨p', hp', hs1, hs2⟩ := (h.ctrl.txAnswer ht (o := Message.empty g) (o' := Message.empty g') ⟨rfl, rfl⟩).ok hp
        have hwk := h.sm.wake hs2 now
        refine ⟨({ c' with ctrl := p'.1, sm := (c'.sm.wake p'.2 now).1 }, some p'.2, (c'.sm.wake p'.2 now).2), by rw [hp']; rfl,
          ⟨h.rx, h.lineBusy, h.busySince, h.fail, h.clr, .inl rfl, hwk.1, hs1, h.host, ?_⟩, .inr (.inr (hwst _)), ?_, hwk.2⟩
        · intro _
          show Telling (c.sm.wake p.2 now).1.txMsg
          rw [hwm]
          exact hm p.2 rfl
        · exact congrArg some hs2.seen
      · rw [if_neg ht] at hr ⊢
        simp only [Res.ok.injEq] at hr
        subst hr
        exact ⟨_, rfl, hstay.1, hstay.2, rfl, rfl⟩
  · rw [if_neg hi] at hr ⊢
    simp only [Res.ok.injEq] at hr
    subst hr
    exact ⟨_, rfl, hstay.1, hstay.2, rfl, rfl⟩

theorem update_keepsTx {pf : Platform} {s s' : TxSM} {i : UpdIn} {cs : List HwCmd} (h : s.update pf i = .ok (s', cs)) :
    s'.txMsg = s.txMsg ∧ (s.st = .idle → s'.st = .idle ∧ s'.err = s.err) := by
  have hcd : ∀ (a : TxSM) (bc : Bool) (d : TxSM × List HwCmd × Bool), a.checkData pf i bc = .ok d → d.1.txMsg = a.txMsg := by
    intro a bc d hd
    unfold TxSM.checkData at hd
    split at hd
    · cases hd; rfl
    · split at hd
      · rw [Res.bind_eq_ok] at hd
        obtain ⟨b, _, hd⟩ := hd
        rw [Res.bind_eq_ok] at hd
        obtain ⟨x, _, hd⟩ := hd
        simp only [Res.ok.injEq] at hd
        subst hd
        dsimp only
        split <;> rfl
      · cases hd; rfl
  unfold TxSM.update at h
  by_cases h1 : (s.timedOutError i || s.st.lineStateIsError i.busy) = true
  · rw [if_pos h1] at h
    simp only [Res.ok.injEq, Prod.mk.injEq] at h
    refine ⟨by rw [← h.1]; rfl, fun e => ?_⟩
    exfalso
    unfold TxSM.timedOutError at h1
    rw [e] at h1
    cases hb : i.busy <;> rw [hb] at h1 <;> simp [TxSt.timeoutIsError, TxSt.lineStateIsError, TxSt.busyIsError, TxSt.freeIsError] at h1
  · rw [if_neg h1] at h
    by_cases h2 : (!s.isIdle && i.hwErr) = true
    · rw [if_pos h2] at h
      simp only [Res.ok.injEq, Prod.mk.injEq] at h
      refine ⟨by rw [← h.1]; rfl, fun e => ?_⟩
      exfalso
      unfold TxSM.isIdle at h2
      rw [e] at h2
      simp at h2
    · rw [if_neg h2, Res.bind_eq_ok] at h
      obtain ⟨d, hd, h⟩ := h
      have hk : d.1.txMsg = s.txMsg ∧ (s.st = .idle → d = (s, [], false)) := by
        unfold TxSM.dispatch at hd
        cases hs : s.st with
        | idle => rw [hs] at hd; cases hd; exact ⟨rfl, fun _ => rfl⟩
        | waitLineFree =>
          rw [hs] at hd; dsimp only at hd
          split at hd <;> (cases hd; exact ⟨rfl, fun e => by cases e⟩)
        | waitPowerOn =>
          rw [hs] at hd; dsimp only at hd
          split at hd <;> (cases hd; exact ⟨rfl, fun e => by cases e⟩)
        | startedWaitForBusy =>
          rw [hs] at hd; dsimp only at hd
          refine ⟨?_, fun e => by cases e⟩
          split at hd
          · cases hd; exact (sawStart_keeps s i).2
          · rw [Res.bind_eq_ok] at hd
            obtain ⟨q, hq, hd⟩ := hd
            cases hd
            rw [hcd _ _ _ hq]; exact (sawStart_keeps s i).2
        | runningCheckData => rw [hs] at hd; dsimp only at hd; exact ⟨hcd _ _ _ hd, fun e => by cases e⟩
        | runningWaitForIdle =>
          rw [hs] at hd; dsimp only at hd
          split at hd <;> (cases hd; exact ⟨rfl, fun e => by cases e⟩)
      split at h
      · rename_i hc
        simp only [Res.ok.injEq, Prod.mk.injEq] at h
        refine ⟨by rw [← h.1]; exact hk.1, fun e => ?_⟩
        rw [hk.2 e] at hc; cases hc
      · simp only [Res.ok.injEq, Prod.mk.injEq] at h
        refine ⟨by rw [← h.1]; exact hk.1, fun e => ?_⟩
        rw [← h.1, hk.2 e]
        exact ⟨e, rfl⟩

theorem Same0.updateTx {c c' : Core0} (h : Same0 { c with word := .zero } { c' with word := .zero })
    (hw : c.word = c'.word ∨ c.sm.st = .idle ∨ c.sm.st = .waitLineFree) (ho : OffInv c.sm) {pf : Platform} {e : Env2} {r : Core0 × List HwCmd} (hr : c.updateTx pf e = .ok r) :
    ∃ r', c'.updateTx pf e = .ok r' ∧ Same0 r.1 r'.1 ∧ SameCmds r.2 r'.2 := by
  obtain ⟨s, hs, hr1⟩ := Core0.updateTx_ok hr
  have hsm : SameSM c.sm c'.sm := h.sm
  have hlb : c.lineBusy = c'.lineBusy := h.lineBusy
  have hu := hsm.update pf
    { busy := c.lineBusy, rxError := c.word.rxError, rxValid := c.word.rxValid, rxChar := c.word.rxChar, hwErr := e.hwErr,
      transmitting := e.transmitting, tErr := e.tErr, tPow := e.tPow, tNew := e.tNew } (by
      intro hx
      obtain ⟨hs1, hs2, hs3⟩ := ho (by rcases hx with hx | hx <;> rw [hx] <;> simp)
      rcases hx with hx | hx
      · rw [hs2 (.inr (.inr hx))]; exact hs1.1
      · exact hs3 hx)
  obtain ⟨u', hu', hsame, hcm⟩ := hu.ok hs
  have heq : c'.sm.update pf
      { busy := c'.lineBusy, rxError := c'.word.rxError, rxValid := c'.word.rxValid, rxChar := c'.word.rxChar, hwErr := e.hwErr,
        transmitting := e.transmitting, tErr := e.tErr, tPow := e.tPow, tNew := e.tNew } = .ok u' := by
    rw [← hlb]
    rcases hw with hw | hw
    · rw [← hw]; exact hu'
    · rw [← hu']
      exact update_ignores pf c'.sm (by rw [← hsm.st]; exact hw) _ _ _ _ _ _ _ _ _ _ _ _
  refine ⟨({ c' with sm := u'.1, word := .zero }, u'.2), by rw [Core0.updateTx, heq]; rfl, ?_, hcm⟩
  rw [hr1]
  obtain ⟨k1, k2⟩ := update_keepsTx hs
  refine ⟨h.rx, h.lineBusy, h.busySince, h.fail, h.clr, .inl rfl, hsame, h.ctrl, h.host, ?_⟩
  intro hx
  show Telling s.txMsg
  rw [k1]
  by_cases hi : c.sm.st = .idle
  · obtain ⟨k3, k4⟩ := k2 hi
    rcases hx with hx | hx | hx
    · have hx : s.err = true := hx
      rw [k4] at hx; exact h.tell (.inl hx)
    · exact h.tell (.inr (.inl hx))
    · exact absurd k3 hx
  · exact h.tell (.inr (.inr hi))

theorem Same0.finish {c c' : Core0} (h : Same0 c c') (hg : c.GoodIn) {pf : Platform} {g g' : Nat → UInt8} {e : Env2} {rs rs' : List Report} (hrs : SameRep rs rs')
    {r : Core0 × Out2} (hr : c.finish pf g e rs = .ok r) (hm : ∀ m, r.2.started = some m → ¬ StubAnswer m.bytes) :
    ∃ r', c'.finish pf g' e rs' = .ok r' ∧ Same0 r.1 r'.1 ∧ r.2.seen = r'.2.seen ∧ r.2.reports = rs ∧ r'.2.reports = rs' := by
  obtain ⟨s, u, h1, h2, rfl⟩ := Core0.finish_ok hr
  obtain ⟨q1, q2⟩ := hg.afterStart h1
  obtain ⟨s', h1', k1, k2, k3, k4⟩ := h.startTx (g' := g') h1 (fun m e => telling_of (q2 m e) (hm m e))
  obtain ⟨u', h2', k5, k6⟩ := k1.updateTx k2 q1.off h2
  refine ⟨_, by rw [Core0.finish, h1', Res.ok_bind, h2']; rfl, k5, ?_, rfl, rfl⟩
  show (_, _, _) = (_, _, _)
  rw [show rs.map Report.seen = rs'.map Report.seen from hrs, k3, show (s.2.2 ++ u.2).map HwCmd.seen = (s'.2.2 ++ u'.2).map HwCmd.seen from k4.append k6]

theorem Same0.part2 {c c' : Core0} (h : Same0 c c') (hg : c.GoodMid) {pf : Platform} {g g' : Nat → UInt8} {e : Env2} {r : Core0 × Out2} (hr : c.part2 pf g e = .ok r)
    (hm : ∀ m, r.2.started = some m → ¬ StubAnswer m.bytes) (hn : ∀ m, Report.rx m ∈ r.2.reports → ¬ ShortRequest m.bytes) :
    ∃ r', c'.part2 pf g' e = .ok r' ∧ Same0 r.1 r'.1 ∧ r.2.seen = r'.2.seen := by
  have hf := h.reportFailure e.tColl
  have hg1 := hg.reportFailure e.tColl
  unfold Core0.part2 at hr ⊢
  cases hw : e.word with
  | some w =>
    rw [hw] at hr
    dsimp only at hr ⊢
    rw [Res.bind_eq_ok] at hr
    obtain ⟨t, h1, hr⟩ := hr
    have hrep : r.2.reports = (c.reportFailure e.tColl).2 ++ t.2 := by
      obtain ⟨_, _, _, _, rfl⟩ := Core0.finish_ok hr
      rfl
    obtain ⟨t', h1', k1, k2⟩ := hf.1.takeWord h1 (fun m hx => hn m (by rw [hrep]; exact List.mem_append.mpr (.inr hx)))
    obtain ⟨r', h2', k3, k4, _, _⟩ := k1.finish (g' := g') (hg1.takeWord h1) (hf.2.append k2) hr hm
    exact ⟨r', by rw [h1', Res.ok_bind, h2'], k3, k4⟩
  | none =>
    rw [hw] at hr
    dsimp only at hr ⊢
    have hid : (c.reportFailure e.tColl).1.sm.isIdle = (c'.reportFailure e.tColl).1.sm.isIdle := by unfold TxSM.isIdle; rw [hf.1.sm.st]
    have hhd : (c.reportFailure e.tColl).1.host.hasData = (c'.reportFailure e.tColl).1.host.hasData := by
      unfold Host.hasData Fifo.isEmpty; rw [hf.1.host.msgs.length]
    have hrd : (c.reportFailure e.tColl).1.ctrl.hasTxData = (c'.reportFailure e.tColl).1.ctrl.hasTxData := hf.1.ctrl.ready
    rw [← hid, ← hhd, ← hrd, ← hf.1.lineBusy]
    by_cases hc : (!(c.reportFailure e.tColl).1.lineBusy && !(c.reportFailure e.tColl).1.ctrl.hasTxData && !(c.reportFailure e.tColl).1.host.hasData &&
        (c.reportFailure e.tColl).1.sm.isIdle) = true
    · rw [if_pos hc] at hr ⊢
      simp only [Res.ok.injEq] at hr
      subst hr
      refine ⟨((c'.reportFailure e.tColl).1, { reports := (c'.reportFailure e.tColl).2, started := none, cmds := [], updated := false }), rfl, hf.1, ?_⟩
      show (_, _, _) = (_, _, _)
      rw [show (c.reportFailure e.tColl).2.map Report.seen = (c'.reportFailure e.tColl).2.map Report.seen from hf.2]
    · rw [if_neg hc] at hr ⊢
      obtain ⟨r', h2', k3, k4, _, _⟩ := hf.1.finish (g' := g') hg1 hf.2 hr hm
      exact ⟨r', h2', k3, k4⟩

theorem Same0.iter {c c' : Core0} (h : Same0 c c') (hg : c.Good) {pf : Platform} {g g' : Nat → UInt8} {e : Env1 × Env2} {c1 : Core0} {o : Out2} (hr : c.iter pf g e = .ok (c1, o))
    (hm : ∀ m, o.started = some m → ¬ StubAnswer m.bytes) (hn : ∀ m, Report.rx m ∈ o.reports → ¬ ShortRequest m.bytes) :
    ∃ c1' o', c'.iter pf g' e = .ok (c1', o') ∧ Same0 c1 c1' ∧ o.seen = o'.seen := by
  obtain ⟨a, rs, b, h1, h2, hb⟩ := Core0.iter_ok hr
  simp only [Prod.mk.injEq] at hb
  obtain ⟨rfl, rfl⟩ := hb
  obtain ⟨⟨a', rs'⟩, h1', k1, k2⟩ := (h.part1 pf g g' e.1).ok h1
  obtain ⟨b', h2', k3, k4⟩ := k1.part2 (g' := g') (hg.part1 h1).1 h2 hm (fun m hx => hn m (List.mem_append.mpr (.inr hx)))
  refine ⟨_, _, by rw [Core0.iter, h1', Res.ok_bind, h2']; rfl, k3, ?_⟩
  simp only [Out2.seen, Prod.mk.injEq] at k4 ⊢
  obtain ⟨k4, k5, k6⟩ := k4
  refine ⟨?_, k5, k6⟩
  rw [List.map_append, List.map_append, k4, show rs.map Report.seen = rs'.map Report.seen from k2]

/-- **C86, what holds.** Let two devices get the same inputs at the same times, but find different contents in uninitialised memory (the word of the other core, the payload of each message at the
start, and of each message made in an iteration).  If in the history of the first no packet is started that has one or two bytes and begins like an answer, and no line about the bus shows a
request that is too short for its answer, then the second shows exactly the same: lines, packets started, calls on the transmit hardware; and it has defined behaviour as well. -/
theorem C86_same_partial (pf : Platform) (gs gs' : Nat → Nat → UInt8) (g0 g0' : Nat → UInt8) (w0 w0' : Word) (t0 t1 : Nat) (es : List (Env1 × Env2)) (c : Core0) (os : List Out2)
    (h : (Core0.init g0 w0 t0 t1).runWith pf gs 0 es = .ok (c, os))
    (hm : ∀ o ∈ os, ∀ m, o.started = some m → ¬ StubAnswer m.bytes) (hn : ∀ o ∈ os, ∀ m ∈ rxMsgs o.reports, ¬ ShortRequest m.bytes) :
    ∃ c' os', (Core0.init g0' w0' t0 t1).runWith pf gs' 0 es = .ok (c', os') ∧ os'.map Out2.seen = os.map Out2.seen := by
  suffices key : ∀ (es : List (Env1 × Env2)) (k : Nat) (c1 c1' c : Core0) (os : List Out2), c1.Good → Same0 c1 c1' → c1.runWith pf gs k es = .ok (c, os) →
      (∀ o ∈ os, ∀ m, o.started = some m → ¬ StubAnswer m.bytes) → (∀ o ∈ os, ∀ m ∈ rxMsgs o.reports, ¬ ShortRequest m.bytes) →
      ∃ c' os', c1'.runWith pf gs' k es = .ok (c', os') ∧ os'.map Out2.seen = os.map Out2.seen from
    key es 0 _ _ c os (Core0.Good.init g0 w0 t0 t1) (Same0.init g0 g0' w0 w0' t0 t1) h hm hn
  intro es
  induction es with
  | nil => intro k c1 c1' c os _ _ h _ _; cases h; exact ⟨_, [], rfl, rfl⟩
  | cons e es ih =>
    intro k c1 c1' c os hg hs h hm hn
    rw [Core0.runWith, Res.bind_eq_ok] at h
    obtain ⟨⟨c2, o⟩, h1, h⟩ := h
    rw [Res.bind_eq_ok] at h
    obtain ⟨⟨c3, os2⟩, h2, h⟩ := h
    simp only [Res.ok.injEq, Prod.mk.injEq] at h
    obtain ⟨rfl, rfl⟩ := h
    obtain ⟨c2', o', h1', k1, k2⟩ := hs.iter (g' := gs' k) hg h1 (hm o (by simp)) (fun m hx => hn o (by simp) m (by
      unfold rxMsgs; exact List.mem_filterMap.mpr ⟨_, hx, rfl⟩))
    obtain ⟨c4, os4, h3, h4⟩ := ih (k + 1) c2 c2' _ os2 (hg.iter h1).1 k1 h2 (fun x hx => hm x (by simp [hx])) (fun x hx => hn x (by simp [hx]))
    refine ⟨c4, o' :: os4, ?_, ?_⟩
    · rw [Core0.runWith, h1', Res.ok_bind]; dsimp only; rw [h3]; rfl
    · rw [List.map_cons, List.map_cons, h4, k2]

/-- The histories above with the same content in every iteration are the histories of the other theorems. -/
theorem runWith_const (pf : Platform) (g : Nat → UInt8) : ∀ (es : List (Env1 × Env2)) (k : Nat) (c : Core0), c.runWith pf (fun _ => g) k es = c.run pf g es := by
  intro es
  induction es with
  | nil => intro k c; rfl
  | cons e es ih =>
    intro k c
    rw [Core0.runWith, Core0.run]
    simp only [ih]

/-- The bus is free and the controller operates; then a packet with the given bytes is received. -/
def packetRun (l : List UInt8) : List (Env1 × Env2) :=
  opRun ++ [bothIter 2301000 [] (some wBusy)] ++ (l.zipIdx.map fun p => bothIter (2302000 + 1000 * p.2) [] (some (wByte p.1))) ++
    [bothIter 2330000 [] (some wFree), bothIter 2331000 [] none]

/-- The packets whose transmission is started in a run, if uninitialised memory holds `g`. -/
def garbageStarted (g : Nat → UInt8) (es : List (Env1 × Env2)) : Option (List (List UInt8)) :=
  match (Core0.init g .zero 0 0).run .arm g es with
  | .ok (_, os) => some ((os.filterMap Out2.started).map Message.bytes)
  | .ub => none

/-- **C86 fails** also for short requests: the answer to the four bytes 00 F0 30 50 (the last is the checksum) given to the transmitter consists mostly of what was in uninitialised memory. -/
theorem C86_refuted_answer :
    garbageStarted (fun _ => 0) (packetRun [0x00, 0xF0, 0x30, 0x50]) = some [[0x40, 0xF0, 0x30, 0x50, 0, 0, 0, 0, 0, 0, 0, 0, 0, 0, 0, 0, 0, 0x83]] ∧
    garbageStarted (fun _ => 7) (packetRun [0x00, 0xF0, 0x30, 0x50]) = some [[0x40, 0xF0, 0x30, 0x50, 7, 7, 7, 7, 7, 7, 7, 7, 7, 7, 7, 7, 7, 0x88]] := by
  decide +kernel

/-- Does a run meet the hypotheses of C86, and how many packets are started and lines shown in it? -/
def c86Check (es : List (Env1 × Env2)) : Option (Bool × Nat × Nat) :=
  match (Core0.init (fun _ => 0) .zero 0 0).runWith .arm (fun k _ => UInt8.ofNat k) 0 es with
  | .ok (_, os) => some (os.all fun o => (match o.started with | none => true | some m => !decide (StubAnswer m.bytes)) && (rxMsgs o.reports).all fun m => !decide (ShortRequest m.bytes),
      (os.filterMap Out2.started).length, (os.flatMap Out2.reports).length)
  | .ub => none

/-- The hypotheses of C86 are met by a run in which a request is answered, and by one in which the transmission of a packet of the host fails. -/
example : c86Check (packetRun [0x00, 0xF0, 0x31, 5, 5, 5, 5, 5, 5, 5, 5, 5, 5, 5, 5, 0xE6]) = some (true, 1, 1) := by decide +kernel
example : c86Check [bothIter 0 [] (some wFree), bothIter 200000 [] none, bothIter 2300000 [] none, bothIter 2301000 [52, 48, 48, 49, 48, 50, 10] none, bothIter 2302000 [] none,
   bothIter 2303000 [] (some wBusy), bothIter 2304000 [] none] = some (true, 1, 1) := by decide +kernel

end P1P2
