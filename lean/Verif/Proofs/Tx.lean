import Verif.Spec.Tx
import Verif.Proofs.Message
/-!
# Lemmas about the transmitter
-/
namespace P1P2

theorem TxRun.append {pf : Platform} {s : TxSM} {a b : List TxObs} :
    TxRun pf s (a ++ b) ↔ TxRun pf s a ∧ TxRun pf (txEnd s a) b := by
  induction a generalizing s with
  | nil => simp [TxRun, txEnd]
  | cons e es ih => simp [TxRun, txEnd, ih, and_assoc]

theorem txEnd_append {s : TxSM} {a b : List TxObs} : txEnd s (a ++ b) = txEnd (txEnd s a) b := by
  induction a generalizing s with
  | nil => rfl
  | cons e es ih => simp [txEnd, ih]

theorem txCmds_append (a b : List TxObs) : txCmds (a ++ b) = txCmds a ++ txCmds b := by
  simp [txCmds]

/-- Induction along an execution: from the start state to the end, one call at a time at the end. -/
theorem TxRun.fwd {pf : Platform} {s0 : TxSM} {P : List TxObs → TxSM → Prop}
    (h0 : P [] s0)
    (hs : ∀ past s e, P past s → s.call pf e.call = .ok (e.after, e.cmds) → P (past ++ [e]) e.after)
    (es : List TxObs) (hr : TxRun pf s0 es) : P es (txEnd s0 es) := by
  suffices h : ∀ (es past : List TxObs) (s : TxSM), P past s → TxRun pf s es → P (past ++ es) (txEnd s es) by
    simpa using h es [] s0 h0 hr
  intro es
  induction es with
  | nil => intro past s hp _; simpa [txEnd] using hp
  | cons e es ih =>
    intro past s hp hr
    have := ih (past ++ [e]) e.after (hs past s e hp hr.1) hr.2
    simpa [txEnd] using this

/-- All cases of one `Update` that does not fail early. -/
theorem TxSM.update_cases {pf : Platform} {s s' : TxSM} {i : UpdIn} {c : List HwCmd}
    (h : s.update pf i = .ok (s', c)) :
    -- early failure
    ((s.timedOutError i || s.st.lineStateIsError i.busy) = true ∧
      s' = { s with rxMsg := { s.rxMsg with status := if i.busy then 1 else 4 }, st := .idle, dl := 0, err := true } ∧
      c = [.shutdown true]) ∨
    ((s.timedOutError i || s.st.lineStateIsError i.busy) = false ∧ s.st ≠ .idle ∧ i.hwErr = true ∧
      s' = { s with rxMsg := { s.rxMsg with status := 5 }, st := .idle, dl := 0, err := true } ∧
      c = [.shutdown true]) ∨
    ((s.timedOutError i || s.st.lineStateIsError i.busy) = false ∧ (s.st = .idle ∨ i.hwErr = false) ∧
      ∃ d, s.dispatch pf i = .ok d ∧
      ((d.2.2 = false ∧ s' = d.1 ∧ c = d.2.1) ∨
       (d.2.2 = true ∧ c = d.2.1 ++ [.clearFifo] ∧
        s' = { d.1 with st := .runningWaitForIdle, dl := i.tNew + 4000, err := true,
                        rxMsg := if d.1.rxMsg.status = 0 then { d.1.rxMsg with status := 21 } else d.1.rxMsg }))) := by
  unfold TxSM.update at h
  split at h
  · rename_i hc
    left
    simp only [TxSM.change, Res.ok.injEq, Prod.mk.injEq] at h
    refine ⟨hc, ?_, ?_⟩
    · rw [← h.1]; simp [waitCounter, TxSt.timeout, Message.errBusCollision, Message.errNoFraming]
    · rw [← h.2]; rfl
  · rename_i hc
    right
    split at h
    · rename_i hh
      left
      simp only [TxSM.change, Res.ok.injEq, Prod.mk.injEq] at h
      simp only [Bool.and_eq_true, Bool.not_eq_true', TxSM.isIdle, decide_eq_false_iff_not] at hh
      refine ⟨by simpa using hc, hh.1, hh.2, ?_, ?_⟩
      · rw [← h.1]; simp [waitCounter, TxSt.timeout, Message.errInternal]
      · rw [← h.2]; rfl
    · rename_i hh
      right
      refine ⟨by simpa using hc, ?_, ?_⟩
      · simp only [TxSM.isIdle, Bool.and_eq_true, Bool.not_eq_true', decide_eq_false_iff_not, not_and,
          Bool.not_eq_true] at hh
        by_cases hi : s.st = .idle
        · exact .inl hi
        · exact .inr (hh hi)
      · obtain ⟨d, hd, h⟩ := Res.bind_eq_ok.mp h
        refine ⟨d, hd, ?_⟩
        split at h
        · rename_i hb
          right
          simp only [TxSM.change, Res.ok.injEq, Prod.mk.injEq] at h
          refine ⟨hb, h.2.symm, ?_⟩
          rw [← h.1]; simp [waitCounter, TxSt.timeout]; rfl
        · rename_i hb
          left
          simp only [Res.ok.injEq, Prod.mk.injEq] at h
          exact ⟨by simpa using hb, h.1.symm, h.2.symm⟩

/-- All cases of the echo check. -/
theorem TxSM.checkData_cases {pf : Platform} {s : TxSM} {i : UpdIn} {bc : Bool} {d : TxSM × List HwCmd × Bool}
    (h : s.checkData pf i bc = .ok d) :
    (i.rxError = true ∧ d = ({ s with rxMsg := { s.rxMsg with status := 3 } }, [], true)) ∨
    (i.rxError = false ∧ i.rxValid = false ∧ d = (s, [], bc)) ∨
    (i.rxError = false ∧ i.rxValid = true ∧ s.txOffset < 32 ∧ ∃ rx,
      s.rxMsg.append (s.txMsg.data s.txOffset) = .ok rx ∧
      ((s.txOffset + 1 = s.txMsg.length ∧
        d = ({ s with rxMsg := rx, txOffset := s.txOffset + 1, st := .runningWaitForIdle, dl := i.tNew + 4000 },
             [.clearFifo], bc || TxSM.echoDiffers pf (s.txMsg.data s.txOffset) i.rxChar)) ∨
       (s.txOffset + 1 ≠ s.txMsg.length ∧
        d = ({ s with rxMsg := rx, txOffset := s.txOffset + 1, st := .runningCheckData, dl := i.tNew + 4000 },
             [], bc || TxSM.echoDiffers pf (s.txMsg.data s.txOffset) i.rxChar)))) := by
  unfold TxSM.checkData at h
  split at h
  · rename_i he
    left
    simp only [Res.ok.injEq] at h
    exact ⟨he, h.symm⟩
  · rename_i he
    right
    split at h
    · rename_i hv
      right
      obtain ⟨b, hb, h⟩ := Res.bind_eq_ok.mp h
      obtain ⟨rx, hrx, h⟩ := Res.bind_eq_ok.mp h
      have hlt : s.txOffset < 32 := by
        by_cases hlt : s.txOffset < 32
        · exact hlt
        · rw [rd_of_ge _ (by simpa [maxPacket] using hlt)] at hb; exact absurd hb (by simp)
      rw [rd_of_lt _ (by simpa [maxPacket] using hlt)] at hb
      simp only [Res.ok.injEq] at hb
      subst hb
      refine ⟨by simpa using he, hv, hlt, rx, hrx, ?_⟩
      simp only [] at h
      split at h
      · rename_i hl
        left
        refine ⟨hl, ?_⟩
        simp only [Res.ok.injEq] at h
        rw [← h]; simp [TxSM.change, waitCounter, TxSt.timeout, TxSM.entryCmds]
      · rename_i hl
        right
        refine ⟨hl, ?_⟩
        simp only [Res.ok.injEq] at h
        rw [← h]; simp [TxSM.change, waitCounter, TxSt.timeout, TxSM.entryCmds]
    · rename_i hv
      left
      simp only [Res.ok.injEq] at h
      exact ⟨by simpa using he, by simpa using hv, h.symm⟩

/-- Appending to a message never fails. -/
theorem Message.append_ok (m : Message) (b : UInt8) : ∃ m', m.append b = .ok m' := by
  unfold Message.append
  split
  · rename_i h
    rw [wr_of_lt _ _ h]
    exact ⟨_, rfl⟩
  · exact ⟨_, rfl⟩

theorem TxSM.checkData_ok {pf : Platform} {s : TxSM} {i : UpdIn} {bc : Bool} (h : s.txOffset < 32) :
    ∃ d, s.checkData pf i bc = .ok d := by
  unfold TxSM.checkData
  split
  · exact ⟨_, rfl⟩
  · split
    · obtain ⟨rx, hrx⟩ := Message.append_ok s.rxMsg (s.txMsg.data s.txOffset)
      rw [rd_of_lt _ (by simpa [maxPacket] using h)]
      simp only [Res.ok_bind, hrx]
      exact ⟨_, rfl⟩
    · exact ⟨_, rfl⟩

theorem TxSM.dispatch_ok {pf : Platform} {s : TxSM} {i : UpdIn}
    (h : s.st = .startedWaitForBusy ∨ s.st = .runningCheckData → s.txOffset < 32) :
    ∃ d, s.dispatch pf i = .ok d := by
  unfold TxSM.dispatch
  cases hst : s.st <;> simp only []
  · exact ⟨_, rfl⟩
  · split <;> exact ⟨_, rfl⟩
  · split <;> exact ⟨_, rfl⟩
  · split
    · exact ⟨_, rfl⟩
    · have ho := h (.inl hst)
      generalize hr : s.sawStart i = r
      have hro : r.1.txOffset < 32 := by
        rw [← hr]
        unfold TxSM.sawStart
        split
        · exact ho
        · split <;> exact ho
      obtain ⟨d, hd⟩ := TxSM.checkData_ok (pf := pf) (i := i) (bc := r.2.2) (s := r.1) hro
      rw [hd]; exact ⟨_, rfl⟩
  · exact TxSM.checkData_ok (h (.inr hst))
  · split <;> exact ⟨_, rfl⟩

theorem TxSM.update_ok {pf : Platform} {s : TxSM} {i : UpdIn}
    (h : s.st = .startedWaitForBusy ∨ s.st = .runningCheckData → s.txOffset < 32) :
    ∃ r, s.update pf i = .ok r := by
  unfold TxSM.update
  split
  · exact ⟨_, rfl⟩
  · split
    · exact ⟨_, rfl⟩
    · obtain ⟨d, hd⟩ := TxSM.dispatch_ok (pf := pf) (i := i) h
      rw [hd]
      simp only [Res.ok_bind]
      split <;> exact ⟨_, rfl⟩

/-- All outcomes of one `Update`, by phase. -/
inductive UpdCase (pf : Platform) (s : TxSM) (i : UpdIn) (s' : TxSM) (c : List HwCmd) : Prop
  /-- timeout or unexpected line state -/
  | early (hf : (s.timedOutError i || s.st.lineStateIsError i.busy) = true)
      (hs : s' = { s with rxMsg := { s.rxMsg with status := if i.busy then 1 else 4 }, st := .idle, dl := 0, err := true })
      (hc : c = [.shutdown true])
  /-- hardware error -/
  | hw (hf : (s.timedOutError i || s.st.lineStateIsError i.busy) = false) (hi : s.st ≠ .idle) (he : i.hwErr = true)
      (hs : s' = { s with rxMsg := { s.rxMsg with status := 5 }, st := .idle, dl := 0, err := true })
      (hc : c = [.shutdown true])
  /-- nothing happens -/
  | stay (hf : (s.timedOutError i || s.st.lineStateIsError i.busy) = false) (he : s.st = .idle ∨ i.hwErr = false)
      (hn : s.st = .startedWaitForBusy → i.busy = false)
      (hb : s.st = .startedWaitForBusy ∨ s.st = .runningCheckData → i.rxValid = false ∧ i.rxError = false)
      (hd : s.st = .waitPowerOn → i.tPow < s.dl)
      (hl : s.st = .waitLineFree → i.busy = true ∨ i.transmitting = true ∨ s.txOffset ≠ 0)
      (hw : s.st = .runningWaitForIdle → i.busy = true)
      (hs : s' = s) (hc : c = [])
  /-- power up -/
  | power (hf : (s.timedOutError i || s.st.lineStateIsError i.busy) = false) (he : i.hwErr = false)
      (hst : s.st = .waitLineFree) (hb : i.busy = false) (ht : i.transmitting = false) (ho : s.txOffset = 0)
      (hs : s' = { s with st := .waitPowerOn, dl := i.tNew + 32000 }) (hc : c = [.shutdown false])
  /-- start -/
  | start (hf : (s.timedOutError i || s.st.lineStateIsError i.busy) = false) (he : i.hwErr = false)
      (hst : s.st = .waitPowerOn) (ht : s.dl ≤ i.tPow)
      (hs : s' = { s with st := .startedWaitForBusy, dl := i.tNew + 2000 }) (hc : c = [.send s.txMsg])
  /-- line became busy -/
  | busy (hf : (s.timedOutError i || s.st.lineStateIsError i.busy) = false) (he : i.hwErr = false)
      (hst : s.st = .startedWaitForBusy) (hb : i.busy = true) (hv : i.rxValid = false) (hr : i.rxError = false)
      (hs : s' = { s with st := .runningCheckData, dl := i.tNew + 4000 }) (hc : c = [])
  /-- receive error -/
  | rxErr (hf : (s.timedOutError i || s.st.lineStateIsError i.busy) = false) (he : i.hwErr = false)
      (hst : s.st = .startedWaitForBusy ∨ s.st = .runningCheckData) (hr : i.rxError = true)
      (hs : s' = { s with rxMsg := { s.rxMsg with status := 3 }, st := .runningWaitForIdle, dl := i.tNew + 4000, err := true })
      (hc : c = [.clearFifo])
  /-- matching echo -/
  | good (hf : (s.timedOutError i || s.st.lineStateIsError i.busy) = false) (he : i.hwErr = false)
      (hst : s.st = .startedWaitForBusy ∨ s.st = .runningCheckData) (hr : i.rxError = false) (hv : i.rxValid = true)
      (ho : s.txOffset < 32) (hd : TxSM.echoDiffers pf (s.txMsg.data s.txOffset) i.rxChar = false)
      (rx : Message) (hrx : s.rxMsg.append (s.txMsg.data s.txOffset) = .ok rx)
      (hs : s' = { s with rxMsg := rx, txOffset := s.txOffset + 1, dl := i.tNew + 4000,
                          st := if s.txOffset + 1 = s.txMsg.length then .runningWaitForIdle else .runningCheckData })
      (hc : c = if s.txOffset + 1 = s.txMsg.length then [.clearFifo] else [])
  /-- differing echo -/
  | bad (hf : (s.timedOutError i || s.st.lineStateIsError i.busy) = false) (he : i.hwErr = false)
      (hst : s.st = .startedWaitForBusy ∨ s.st = .runningCheckData) (hr : i.rxError = false) (hv : i.rxValid = true)
      (ho : s.txOffset < 32) (hd : TxSM.echoDiffers pf (s.txMsg.data s.txOffset) i.rxChar = true)
      (rx : Message) (hrx : s.rxMsg.append (s.txMsg.data s.txOffset) = .ok rx)
      (hs : s' = { s with rxMsg := if rx.status = 0 then { rx with status := 21 } else rx,
                          txOffset := s.txOffset + 1, dl := i.tNew + 4000, st := .runningWaitForIdle, err := true })
      (hc : c = (if s.txOffset + 1 = s.txMsg.length then [.clearFifo] else []) ++ [.clearFifo])
  /-- end -/
  | finish (hf : (s.timedOutError i || s.st.lineStateIsError i.busy) = false) (he : i.hwErr = false)
      (hst : s.st = .runningWaitForIdle) (hb : i.busy = false)
      (hs : s' = { s with st := .idle, dl := 0 }) (hc : c = [.shutdown true])

theorem TxSM.updCase {pf : Platform} {s s' : TxSM} {i : UpdIn} {c : List HwCmd}
    (h : s.update pf i = .ok (s', c)) : UpdCase pf s i s' c := by
  rcases TxSM.update_cases h with ⟨hf, hs, hc⟩ | ⟨hf, hi, he, hs, hc⟩ | ⟨hf, he, d, hd, hr⟩
  · exact .early hf hs hc
  · exact .hw hf hi he hs hc
  · unfold TxSM.dispatch at hd
    cases hst : s.st <;> simp only [hst] at hd
    · -- idle
      simp only [Res.ok.injEq] at hd
      subst hd
      simp at hr
      exact .stay hf he (by simp [hst]) (by simp [hst]) (by simp [hst]) (by simp [hst]) (by simp [hst]) hr.1 hr.2
    · -- waitLineFree
      have he' : i.hwErr = false := by simpa [hst] using he
      split at hd
      · rename_i hc
        simp only [Res.ok.injEq] at hd
        subst hd
        simp [TxSM.change, waitCounter, TxSt.timeout, TxSM.entryCmds] at hr
        simp at hc
        exact .power hf he' hst hc.1.1 hc.1.2 hc.2 hr.1 hr.2
      · rename_i hc
        simp only [Res.ok.injEq] at hd
        subst hd
        simp at hr
        refine .stay hf he (by simp [hst]) (by simp [hst]) (by simp [hst]) (fun _ => ?_) (by simp [hst]) hr.1 hr.2
        by_cases hb : i.busy = true
        · exact .inl hb
        · by_cases ht : i.transmitting = true
          · exact .inr (.inl ht)
          · simp [hb, ht] at hc
            exact .inr (.inr hc)
    · -- waitPowerOn
      have he' : i.hwErr = false := by simpa [hst] using he
      split at hd
      · rename_i hc
        simp only [Res.ok.injEq] at hd
        subst hd
        simp [TxSM.change, waitCounter, TxSt.timeout, TxSM.entryCmds] at hr
        exact .start hf he' hst hc hr.1 hr.2
      · rename_i hc
        simp only [Res.ok.injEq] at hd
        subst hd
        simp at hr
        exact .stay hf he (by simp [hst]) (by simp [hst]) (fun _ => by omega) (by simp [hst]) (by simp [hst]) hr.1 hr.2
    · -- started
      have he' : i.hwErr = false := by simpa [hst] using he
      unfold TxSM.sawStart at hd
      split at hd
      · rename_i hv
        have hv : i.rxValid = false := by simpa using hv
        simp only [Res.ok.injEq] at hd
        subst hd
        by_cases hre : i.rxError = true
        · simp [hre, Message.errParity] at hr
          exact .rxErr hf he' (.inl hst) hre hr.2 hr.1
        · have hre : i.rxError = false := by simpa using hre
          by_cases hb : i.busy = true
          · simp [hre, hb, TxSM.change, waitCounter, TxSt.timeout, TxSM.entryCmds] at hr
            exact .busy hf he' hst hb hv hre hr.1 hr.2
          · simp [hre, hb, hv] at hr
            exact .stay hf he (fun _ => by simpa using hb) (fun _ => ⟨hv, hre⟩) (by simp [hst]) (by simp [hst])
              (by simp [hst]) hr.1 hr.2
      · rename_i hv
        have hv : i.rxValid = true := by simpa using hv
        obtain ⟨q, hq, hd⟩ := Res.bind_eq_ok.mp hd
        simp only [Res.ok.injEq] at hd
        by_cases hre : i.rxError = true
        · simp only [hre, if_true] at hq hd
          rcases TxSM.checkData_cases hq with ⟨_, hq⟩ | ⟨h, _⟩ | ⟨h, _⟩
          · subst hq
            subst hd
            simp at hr
            exact .rxErr hf he' (.inl hst) hre hr.2 hr.1
          · simp [hre] at h
          · simp [hre] at h
        · have hre : i.rxError = false := by simpa using hre
          simp only [hre, hv, Bool.or_true, Bool.false_eq_true, if_false, if_true] at hq hd
          rcases TxSM.checkData_cases hq with ⟨h, _⟩ | ⟨_, h, _⟩ | ⟨_, _, ho, rx, hrx, hq⟩
          · simp [hre] at h
          · simp [hv] at h
          · rcases hq with ⟨hl, hq⟩ | ⟨hl, hq⟩
            all_goals
              subst hq
              subst hd
              simp only [TxSM.change, TxSM.entryCmds, List.nil_append, Bool.false_or] at hr hl hrx ho
              rcases hr with ⟨hdf, hs, hc⟩ | ⟨hdf, hc, hs⟩
              · refine .good hf he' (.inl hst) hre hv ho hdf rx hrx ?_ ?_
                · rw [hs]; simp [hl]
                · rw [hc]; simp [hl]
              · refine .bad hf he' (.inl hst) hre hv ho hdf rx hrx ?_ ?_
                · rw [hs]
                · rw [hc]; simp [hl]
    · -- checkData
      have he' : i.hwErr = false := by simpa [hst] using he
      rcases TxSM.checkData_cases hd with ⟨hre, hq⟩ | ⟨hre, hv, hq⟩ | ⟨hre, hv, ho, rx, hrx, hq⟩
      · subst hq
        simp at hr
        exact .rxErr hf he' (.inr hst) hre hr.2 hr.1
      · subst hq
        simp at hr
        exact .stay hf he (by simp [hst]) (fun _ => ⟨hv, hre⟩) (by simp [hst]) (by simp [hst]) (by simp [hst])
          hr.1 hr.2
      · rcases hq with ⟨hl, hq⟩ | ⟨hl, hq⟩
        all_goals
          subst hq
          simp only [Bool.false_or] at hr
          rcases hr with ⟨hdf, hs, hc⟩ | ⟨hdf, hc, hs⟩
          · refine .good hf he' (.inr hst) hre hv ho hdf rx hrx ?_ ?_
            · rw [hs]; simp [hl]
            · rw [hc]; simp [hl]
          · refine .bad hf he' (.inr hst) hre hv ho hdf rx hrx ?_ ?_
            · rw [hs]
            · rw [hc]; simp [hl]
    · -- waitIdle
      have he' : i.hwErr = false := by simpa [hst] using he
      split at hd
      · rename_i hc
        simp only [Res.ok.injEq] at hd
        subst hd
        simp [TxSM.change, waitCounter, TxSt.timeout, TxSM.entryCmds] at hr
        exact .finish hf he' hst (by simpa using hc) hr.1 hr.2
      · rename_i hc
        simp only [Res.ok.injEq] at hd
        subst hd
        simp at hr
        exact .stay hf he (by simp [hst]) (by simp [hst]) (by simp [hst]) (by simp [hst]) (fun _ => by simpa using hc)
          hr.1 hr.2

/-- Outcomes of `WakeAndTransmit`. -/
theorem TxSM.wake_idle {s : TxSM} (h : s.st = .idle) (m : Message) (t : Nat) :
    s.wake m t = ({ s with txMsg := m, txOffset := 0, err := false, rxMsg := s.rxMsg.clear, st := .waitLineFree,
                           dl := t + 34000 }, []) := by
  simp [TxSM.wake, TxSM.isIdle, h, TxSM.change, waitCounter, TxSt.timeout, TxSM.entryCmds]

theorem TxSM.wake_busy {s : TxSM} (h : s.st ≠ .idle) (m : Message) (t : Nat) : s.wake m t = (s, []) := by
  simp [TxSM.wake, TxSM.isIdle, h]

/-- All outcomes of one call. -/
inductive CallCase (pf : Platform) (s : TxSM) (call : TxCall) (s' : TxSM) (c : List HwCmd) : Prop
  | upd (i : UpdIn) (hcall : call = .update i) (h : UpdCase pf s i s' c)
  | accept (m : Message) (t : Nat) (hcall : call = .wake m t) (hst : s.st = .idle)
      (hs : s' = { s with txMsg := m, txOffset := 0, err := false, rxMsg := s.rxMsg.clear, st := .waitLineFree,
                          dl := t + 34000 }) (hc : c = [])
  | refuse (m : Message) (t : Nat) (hcall : call = .wake m t) (hst : s.st ≠ .idle) (hs : s' = s) (hc : c = [])
  | error (hcall : call = .error) (hs : s' = { s with err := false }) (hc : c = [])
  | clearRx (hcall : call = .clearRx) (hs : s' = { s with rxMsg := s.rxMsg.clear }) (hc : c = [])

theorem TxSM.callCase {pf : Platform} {s s' : TxSM} {call : TxCall} {c : List HwCmd}
    (h : s.call pf call = .ok (s', c)) : CallCase pf s call s' c := by
  cases call with
  | update i => exact .upd i rfl (TxSM.updCase h)
  | wake m t =>
    simp only [TxSM.call, Res.ok.injEq] at h
    by_cases hi : s.st = .idle
    · rw [TxSM.wake_idle hi] at h
      simp only [Prod.mk.injEq] at h
      exact .accept m t rfl hi h.1.symm h.2.symm
    · rw [TxSM.wake_busy hi] at h
      simp only [Prod.mk.injEq] at h
      exact .refuse m t rfl hi h.1.symm h.2.symm
  | error =>
    simp only [TxSM.call, TxSM.error, Res.ok.injEq, Prod.mk.injEq] at h
    exact .error rfl h.1.symm h.2.symm
  | clearRx =>
    simp only [TxSM.call, Res.ok.injEq, Prod.mk.injEq] at h
    exact .clearRx rfl h.1.symm h.2.symm

/-- The execution that a list of calls produces (up to the first undefined behaviour). -/
def annotate (pf : Platform) : TxSM → List TxCall → List TxObs
  | _, [] => []
  | s, c :: cs => match s.call pf c with
    | .ok r => ⟨c, r.2, r.1⟩ :: annotate pf r.1 cs
    | .ub => []

theorem TxRun.annotate (pf : Platform) (s : TxSM) (cs : List TxCall) : TxRun pf s (annotate pf s cs) := by
  induction cs generalizing s with
  | nil => trivial
  | cons c cs ih =>
    unfold P1P2.annotate
    split
    · rename_i r h; exact ⟨h, ih _⟩
    · trivial

end P1P2
