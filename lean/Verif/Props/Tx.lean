import Verif.Proofs.Tx
/-!
# Properties C22 - C29: the transmitter
-/
namespace P1P2

/-! ## C22 -/

/-- **C22**: after every history of calls the shutdown pin is asserted exactly if the transmitter is idle or
waits for a free line. -/
theorem C22_amplifier (pf : Platform) (g : Nat → UInt8) (es : List TxObs) (hr : TxRun pf (TxSM.init g) es) :
    shutdownPin (TxSM.initCmds ++ txCmds es) = true ↔
      (txEnd (TxSM.init g) es).st = .idle ∨ (txEnd (TxSM.init g) es).st = .waitLineFree := by
  refine TxRun.fwd (P := fun past s => shutdownPin (TxSM.initCmds ++ txCmds past) = true ↔
      s.st = .idle ∨ s.st = .waitLineFree) ?_ ?_ es hr
  · simp [shutdownPin, TxSM.initCmds, txCmds, TxSM.init, pinStep]
  · intro past s e ih h
    have hfold : shutdownPin (TxSM.initCmds ++ txCmds (past ++ [e])) =
        e.cmds.foldl pinStep (shutdownPin (TxSM.initCmds ++ txCmds past)) := by
      simp [shutdownPin, txCmds, List.foldl_append]
    rw [hfold]
    generalize shutdownPin (TxSM.initCmds ++ txCmds past) = p at ih
    obtain ⟨call, cmds, after⟩ := e
    simp only at h ⊢
    cases call with
    | update i =>
      cases TxSM.updCase h with
      | early _ hs hc => simp [hs, hc, pinStep]
      | hw _ _ _ hs hc => simp [hs, hc, pinStep]
      | stay _ _ _ _ _ _ _ hs hc => simp [hs, hc, ih]
      | power _ _ hst _ _ _ hs hc => simp [hs, hc, pinStep]
      | start _ _ hst _ hs hc => simpa [hs, hc, hst, pinStep] using ih
      | busy _ _ hst _ _ _ hs hc => simpa [hs, hc, hst, pinStep] using ih
      | rxErr _ _ hst _ hs hc => rcases hst with hst | hst <;> simpa [hs, hc, hst, pinStep] using ih
      | good _ _ hst _ _ _ _ rx _ hs hc =>
        rcases hst with hst | hst <;> by_cases hl : s.txOffset + 1 = s.txMsg.length <;>
          simpa [hs, hc, hst, hl, pinStep] using ih
      | bad _ _ hst _ _ _ _ rx _ hs hc =>
        rcases hst with hst | hst <;> by_cases hl : s.txOffset + 1 = s.txMsg.length <;>
          simpa [hs, hc, hst, hl, pinStep] using ih
      | finish _ _ hst _ hs hc => simp [hs, hc, pinStep]
    | wake m t =>
      simp only [TxSM.call, Res.ok.injEq] at h
      by_cases hi : s.st = .idle
      · rw [TxSM.wake_idle hi] at h
        simp only [Prod.mk.injEq] at h
        rw [← h.1, ← h.2]
        simpa [hi] using ih
      · rw [TxSM.wake_busy hi] at h
        simp only [Prod.mk.injEq] at h
        rw [← h.1, ← h.2]
        simpa using ih
    | error =>
      simp only [TxSM.call, TxSM.error, Res.ok.injEq, Prod.mk.injEq] at h
      rw [← h.1, ← h.2]; simpa using ih
    | clearRx =>
      simp only [TxSM.call, Res.ok.injEq, Prod.mk.injEq] at h
      rw [← h.1, ← h.2]; simpa using ih

/-! ## C23 -/

/-- Every call of the execution saw the line free (if it looked at all). -/
def lineFreeDuring (es : List TxObs) : Prop := ∀ e ∈ es, ∀ i, e.call = .update i → i.busy = false

/-- What must have happened for a transmitter to be in the power-up phase with message `m`. -/
def PoweredSince (s0 : TxSM) (past : List TxObs) (s : TxSM) : Prop :=
  ∃ pre x mid i0, past = pre ++ x :: mid ∧ x.call = .update i0 ∧
    i0.busy = false ∧ i0.transmitting = false ∧ i0.hwErr = false ∧
    (txEnd s0 pre).st = .waitLineFree ∧ x.cmds = [.shutdown false] ∧ txCmds mid = [] ∧
    lineFreeDuring mid ∧ s.dl = i0.tNew + 32000 ∧ s.txMsg = (txEnd s0 pre).txMsg

theorem poweredSince (pf : Platform) (g : Nat → UInt8) (es : List TxObs) (hr : TxRun pf (TxSM.init g) es) :
    (txEnd (TxSM.init g) es).st = .waitPowerOn → PoweredSince (TxSM.init g) es (txEnd (TxSM.init g) es) := by
  let s0 := TxSM.init g
  have hext : ∀ past s e, txEnd s0 past = s → PoweredSince s0 past s → e.cmds = [] →
      (∀ i, e.call = .update i → i.busy = false) → e.after.dl = s.dl → e.after.txMsg = s.txMsg →
      PoweredSince s0 (past ++ [e]) e.after := by
    rintro past s e _ ⟨pre, x, mid, i0, hp, hx, h1, h2, h3, h4, h5, h6, h7, h8, h9⟩ hc hb hd hm
    refine ⟨pre, x, mid ++ [e], i0, by simp [hp], hx, h1, h2, h3, h4, h5, ?_, ?_, by rw [hd, h8], by rw [hm, h9]⟩
    · rw [txCmds_append, h6]; simp [txCmds, hc]
    · intro y hy i hyi
      rcases List.mem_append.mp hy with hy | hy
      · exact h7 y hy i hyi
      · simp only [List.mem_singleton] at hy; subst hy; exact hb i hyi
  have := TxRun.fwd (pf := pf) (s0 := s0)
    (P := fun past s => txEnd s0 past = s ∧ (s.st = .waitPowerOn → PoweredSince s0 past s)) ?_ ?_ es hr
  · exact this.2
  · exact ⟨rfl, by simp [s0, TxSM.init]⟩
  · rintro past s e ⟨hend, ih⟩ h
    refine ⟨by rw [txEnd_append, hend]; rfl, ?_⟩
    intro hst'
    obtain ⟨call, cmds, after⟩ := e
    simp only at h hst' ⊢
    cases call with
    | update i =>
      cases TxSM.updCase h with
      | early _ hs hc => simp [hs] at hst'
      | hw _ _ _ hs hc => simp [hs] at hst'
      | stay hf _ _ _ _ _ _ hs hc =>
        rw [hs] at hst'
        refine hext past s _ hend (ih hst') hc ?_ (by rw [hs]) (by rw [hs])
        intro j hj
        simp only [TxCall.update.injEq] at hj
        subst hj
        rw [hst'] at hf
        cases hb : i.busy <;> simp [hb, TxSt.lineStateIsError, TxSt.busyIsError] at hf ⊢
      | power _ he hst hb ht _ hs hc =>
        refine ⟨past, _, [], i, rfl, rfl, hb, ht, he, by rw [hend]; exact hst, hc, rfl, ?_, ?_, ?_⟩
        · intro y hy; simp at hy
        · rw [hs]
        · rw [hs, hend]
      | start _ _ hst _ hs hc => simp [hs] at hst'
      | busy _ _ hst _ _ _ hs hc => simp [hs] at hst'
      | rxErr _ _ hst _ hs hc => simp [hs] at hst'
      | good _ _ hst _ _ _ _ rx _ hs hc =>
        rw [hs] at hst'
        by_cases hl : s.txOffset + 1 = s.txMsg.length <;> simp [hl] at hst'
      | bad _ _ hst _ _ _ _ rx _ hs hc => simp [hs] at hst'
      | finish _ _ hst _ hs hc => simp [hs] at hst'
    | wake m t =>
      simp only [TxSM.call, Res.ok.injEq] at h
      by_cases hi : s.st = .idle
      · rw [TxSM.wake_idle hi] at h
        simp only [Prod.mk.injEq] at h
        rw [← h.1] at hst'
        simp at hst'
      · rw [TxSM.wake_busy hi] at h
        simp only [Prod.mk.injEq] at h
        rw [← h.1] at hst' ⊢
        exact hext past s ⟨.wake m t, cmds, s⟩ hend (ih hst') h.2.symm (by simp) rfl rfl
    | error =>
      simp only [TxSM.call, TxSM.error, Res.ok.injEq, Prod.mk.injEq] at h
      rw [← h.1] at hst' ⊢
      exact hext past s ⟨.error, cmds, { s with err := false }⟩ hend (ih hst') h.2.symm (by simp) rfl rfl
    | clearRx =>
      simp only [TxSM.call, Res.ok.injEq, Prod.mk.injEq] at h
      rw [← h.1] at hst' ⊢
      exact hext past s ⟨.clearRx, cmds, { s with rxMsg := s.rxMsg.clear }⟩ hend (ih hst') h.2.symm (by simp)
        rfl rfl

/-- **C23**: if a call hands message `m` to the hardware, then it is an update that saw the bus free, and
there was an earlier update that saw the bus free and the hardware drained, that released the shutdown pin
at least 32 ms ago; every update since saw the bus free, and the pin was not touched in between. -/
theorem C23_listen_before_talk (pf : Platform) (g : Nat → UInt8) (es : List TxObs) (e : TxObs) (m : Message)
    (hr : TxRun pf (TxSM.init g) (es ++ [e])) (hm : HwCmd.send m ∈ e.cmds) :
    ∃ i, e.call = .update i ∧ i.busy = false ∧
    ∃ pre x mid i0, es = pre ++ x :: mid ∧ x.call = .update i0 ∧
      i0.busy = false ∧ i0.transmitting = false ∧ i0.hwErr = false ∧
      x.cmds = [.shutdown false] ∧ txCmds mid = [] ∧ lineFreeDuring mid ∧
      i0.tNew + 32000 ≤ i.tPow ∧ (txEnd (TxSM.init g) pre).txMsg = m := by
  obtain ⟨h1, h2⟩ := TxRun.append.mp hr
  have h := h2.1
  have hps := poweredSince pf g es h1
  generalize txEnd (TxSM.init g) es = s at h hps
  obtain ⟨call, cmds, after⟩ := e
  simp only at h hm ⊢
  cases call with
  | update i =>
    refine ⟨i, rfl, ?_⟩
    cases TxSM.updCase h with
    | start hf _ hst ht hs hc =>
      obtain ⟨pre, x, mid, i0, hp, hx, h1, h2, h3, h4, h5, h6, h7, h8, h9⟩ := hps hst
      refine ⟨?_, pre, x, mid, i0, hp, hx, h1, h2, h3, h5, h6, h7, by omega, ?_⟩
      · rw [hst] at hf
        cases hb : i.busy <;> simp [hb, TxSt.lineStateIsError, TxSt.busyIsError] at hf ⊢
      · rw [hc] at hm
        simp at hm
        rw [hm, h9]
    | early _ hs hc => simp [hc] at hm
    | hw _ _ _ hs hc => simp [hc] at hm
    | stay hf _ _ _ _ _ _ hs hc => simp [hc] at hm
    | power _ he hst hb ht _ hs hc => simp [hc] at hm
    | busy _ _ hst _ _ _ hs hc => simp [hc] at hm
    | rxErr _ _ hst _ hs hc => simp [hc] at hm
    | good _ _ hst _ _ _ _ rx _ hs hc =>
      by_cases hl : s.txOffset + 1 = s.txMsg.length <;> simp [hc, hl] at hm
    | bad _ _ hst _ _ _ _ rx _ hs hc =>
      by_cases hl : s.txOffset + 1 = s.txMsg.length <;> simp [hc, hl] at hm
    | finish _ _ hst _ hs hc => simp [hc] at hm
  | wake m' t =>
    simp only [TxSM.call, Res.ok.injEq] at h
    have : (s.wake m' t).2 = [] := by
      by_cases hi : s.st = .idle
      · rw [TxSM.wake_idle hi]
      · rw [TxSM.wake_busy hi]
    rw [h] at this
    simp only at this
    simp [this] at hm
  | error =>
    simp only [TxSM.call, TxSM.error, Res.ok.injEq, Prod.mk.injEq] at h
    simp [← h.2] at hm
  | clearRx =>
    simp only [TxSM.call, Res.ok.injEq, Prod.mk.injEq] at h
    simp [← h.2] at hm

/-! ## C24 -/

/-- What the transmitter knows about the echo of `m` in each phase, as long as no error was raised. -/
def EchoInv (m : Message) (past : List TxObs) (s : TxSM) : Prop :=
  s.txMsg = m ∧ match s.st with
  | .idle => False
  | .waitLineFree | .waitPowerOn => s.txOffset = 0 ∧ noSend past
  | .startedWaitForBusy => s.txOffset = 0 ∧ ∃ a x b, past = a ++ x :: b ∧ noSend a ∧ x.cmds = [.send m] ∧ echoes b = [] ∧
      noRxError b
  | .runningCheckData => s.txOffset < m.length ∧ ∃ a x b, past = a ++ x :: b ∧ noSend a ∧ x.cmds = [.send m] ∧
      echoes b = m.bytes.take s.txOffset ∧ noRxError b
  | .runningWaitForIdle => s.txOffset = m.length ∧ ∃ a x b c, past = a ++ x :: (b ++ c) ∧ noSend a ∧ x.cmds = [.send m] ∧
      echoes b = m.bytes ∧ noRxError b

theorem echoes_append (a b : List TxObs) : echoes (a ++ b) = echoes a ++ echoes b := by
  simp [echoes]

theorem noRxError_snoc {b : List TxObs} {e : TxObs} (h : noRxError b)
    (he : ∀ i, e.call = .update i → i.rxError = false) : noRxError (b ++ [e]) := by
  intro y hy i hyi
  rcases List.mem_append.mp hy with hy | hy
  · exact h y hy i hyi
  · simp only [List.mem_singleton] at hy; subst hy; exact he i hyi

theorem noSend_snoc {b : List TxObs} {e : TxObs} (h : noSend b) (he : e.cmds = []) : noSend (b ++ [e]) := by
  intro y hy m hm
  rcases List.mem_append.mp hy with hy | hy
  · exact h y hy m hm
  · simp only [List.mem_singleton] at hy; subst hy; simp [he] at hm

theorem bytes_take_succ (m : Message) {n : Nat} (h : n < m.length) :
    m.bytes.take (n + 1) = m.bytes.take n ++ [m.data n] := by
  have hl : n < m.bytes.length := by simpa [Message.bytes] using h
  rw [List.take_succ_eq_append_getElem hl]
  simp [Message.bytes]

/-- A call that neither looks at the bus nor changes phase keeps the invariant. -/
theorem EchoInv.skip {m : Message} {past : List TxObs} {s s' : TxSM} {e : TxObs} (h : EchoInv m past s)
    (hc : e.cmds = []) (hm : s'.txMsg = s.txMsg) (hst : s'.st = s.st) (ho : s'.txOffset = s.txOffset)
    (hv : s.st = .startedWaitForBusy ∨ s.st = .runningCheckData → echoes [e] = [])
    (he : s.st = .startedWaitForBusy ∨ s.st = .runningCheckData → ∀ i, e.call = .update i → i.rxError = false) :
    EchoInv m (past ++ [e]) s' := by
  obtain ⟨h1, h2⟩ := h
  refine ⟨by rw [hm, h1], ?_⟩
  rw [hst, ho]
  cases hs : s.st <;> simp only [hs] at h2 ⊢
  · exact ⟨h2.1, noSend_snoc h2.2 hc⟩
  · exact ⟨h2.1, noSend_snoc h2.2 hc⟩
  · obtain ⟨h3, a, x, b, hp, ha, hx, hb, hn⟩ := h2
    refine ⟨h3, a, x, b ++ [e], by simp [hp], ha, hx, ?_, noRxError_snoc hn (he (.inl hs))⟩
    rw [echoes_append, hb, hv (.inl hs)]; rfl
  · obtain ⟨h3, a, x, b, hp, ha, hx, hb, hn⟩ := h2
    refine ⟨h3, a, x, b ++ [e], by simp [hp], ha, hx, ?_, noRxError_snoc hn (he (.inr hs))⟩
    rw [echoes_append, hb, hv (.inr hs)]; simp
  · obtain ⟨h3, a, x, b, c, hp, ha, hx, hb, hn⟩ := h2
    exact ⟨h3, a, x, b, c ++ [e], by simp [hp], ha, hx, hb, hn⟩

theorem EchoInv.step {pf : Platform} (hpf : pf.charSigned = false) {m : Message} (hm : Sendable m)
    {past : List TxObs} {s : TxSM} {e : TxObs} (ih : EchoInv m past s)
    (h : s.call pf e.call = .ok (e.after, e.cmds)) (herr : e.after.err = false) :
    (e.after.st ≠ .idle → EchoInv m (past ++ [e]) e.after) ∧
    (e.after.st = .idle → s.st = .runningWaitForIdle ∧ e.after.txMsg = s.txMsg ∧ e.after.txOffset = s.txOffset) := by
  obtain ⟨call, cmds, after⟩ := e
  simp only at h herr ⊢
  have hnidle : s.st ≠ .idle := by
    intro hi
    have := ih.2
    simp [hi] at this
  cases TxSM.callCase h with
  | upd i hcall hu =>
    cases hu with
    | early _ hs hc => simp [hs] at herr
    | hw _ _ _ hs hc => simp [hs] at herr
    | stay hf he _ hb _ _ _ hs hc =>
      refine ⟨fun _ => ih.skip hc (by rw [hs]) (by rw [hs]) (by rw [hs]) ?_ ?_, ?_⟩
      · intro hst
        have := hb hst
        simp [echoes, hcall, this.1]
      · intro hst j hj
        rw [hcall] at hj
        simp only [TxCall.update.injEq] at hj
        subst hj
        exact (hb hst).2
      · intro hi; rw [hs] at hi; exact absurd hi hnidle
    | power _ _ hst _ _ ho hs hc =>
      refine ⟨fun _ => ⟨by rw [hs]; exact ih.1, ?_⟩, by intro hi; simp [hs] at hi⟩
      have h2 := ih.2
      simp only [hst] at h2
      have e1 : after.st = .waitPowerOn := by rw [hs]
      simp only [e1]
      refine ⟨by rw [hs]; exact ho, ?_⟩
      intro y hy m' hm'
      rcases List.mem_append.mp hy with hy | hy
      · exact h2.2 y hy m' hm'
      · simp only [List.mem_singleton] at hy
        subst hy
        simp [hc] at hm'
    | start _ _ hst _ hs hc =>
      refine ⟨fun _ => ⟨by rw [hs]; exact ih.1, ?_⟩, by intro hi; simp [hs] at hi⟩
      have h2 := ih.2
      simp only [hst] at h2
      simp only [hs]
      refine ⟨h2.1, past, _, [], rfl, h2.2, ?_, by simp [echoes], by intro y hy; simp at hy⟩
      simp only [hc, ih.1]
    | busy _ _ hst _ hv hr hs hc =>
      refine ⟨fun _ => ⟨by rw [hs]; exact ih.1, ?_⟩, by intro hi; simp [hs] at hi⟩
      have h2 := ih.2
      simp only [hst] at h2
      obtain ⟨h3, a, x, b, hp, ha, hx, hb, hn⟩ := h2
      have e1 : after.st = .runningCheckData := by rw [hs]
      have e2 : after.txOffset = s.txOffset := by rw [hs]
      simp only [e1, e2]
      refine ⟨by rw [h3]; exact hm.1, a, x, b ++ [⟨call, cmds, after⟩], by rw [hp]; simp, ha, hx, ?_, noRxError_snoc hn ?_⟩
      · rw [echoes_append, hb, h3]; simp [echoes, hcall, hv]
      · intro j hj
        simp only [hcall, TxCall.update.injEq] at hj
        subst hj; exact hr
    | rxErr _ _ hst _ hs hc => simp [hs] at herr
    | good _ _ hst hr hv ho hd rx hrx hs hc =>
      have hecho : ∃ a x b, past = a ++ x :: b ∧ noSend a ∧ x.cmds = [.send m] ∧ s.txOffset < m.length ∧
          echoes b = m.bytes.take s.txOffset ∧ noRxError b := by
        have h2 := ih.2
        rcases hst with hst | hst <;> simp only [hst] at h2
        · obtain ⟨h3, a, x, b, hp, ha, hx, hb, hn⟩ := h2
          exact ⟨a, x, b, hp, ha, hx, by rw [h3]; exact hm.1, by rw [hb, h3]; rfl, hn⟩
        · obtain ⟨h3, a, x, b, hp, ha, hx, hb, hn⟩ := h2
          exact ⟨a, x, b, hp, ha, hx, h3, hb, hn⟩
      obtain ⟨a, x, b, hp, ha, hx, hlt, hb, hn⟩ := hecho
      have hchar : m.data s.txOffset = i.rxChar := by
        rw [ih.1] at hd
        simpa [TxSM.echoDiffers, hpf] using hd
      have hn' : noRxError (b ++ [⟨call, cmds, after⟩]) := by
        refine noRxError_snoc hn ?_
        intro j hj
        simp only [hcall, TxCall.update.injEq] at hj
        subst hj; exact hr
      have hb' : echoes (b ++ [⟨call, cmds, after⟩]) = m.bytes.take (s.txOffset + 1) := by
        rw [echoes_append, hb, bytes_take_succ m hlt]
        simp [echoes, hcall, hv, hr, hchar]
      refine ⟨fun _ => ⟨by rw [hs]; exact ih.1, ?_⟩, ?_⟩
      · by_cases hl : s.txOffset + 1 = s.txMsg.length
        · have e1 : after.st = .runningWaitForIdle := by rw [hs]; simp [hl]
          have e2 : after.txOffset = s.txOffset + 1 := by rw [hs]
          simp only [e1, e2]
          rw [ih.1] at hl
          refine ⟨hl, a, x, b ++ [⟨call, cmds, after⟩], [], by rw [hp]; simp, ha, hx, ?_, hn'⟩
          rw [hb', hl]
          apply List.take_of_length_le
          simp [Message.bytes]
        · have e1 : after.st = .runningCheckData := by rw [hs]; simp [hl]
          have e2 : after.txOffset = s.txOffset + 1 := by rw [hs]
          simp only [e1, e2]
          rw [ih.1] at hl
          exact ⟨by omega, a, x, b ++ [⟨call, cmds, after⟩], by rw [hp]; simp, ha, hx, hb', hn'⟩
      · intro hi
        rw [hs] at hi
        by_cases hl : s.txOffset + 1 = s.txMsg.length <;> simp [hl] at hi
    | bad _ _ hst _ _ _ _ rx _ hs hc => simp [hs] at herr
    | finish _ _ hst _ hs hc =>
      refine ⟨fun hn => absurd (by rw [hs]) hn, fun _ => ⟨hst, by rw [hs], by rw [hs]⟩⟩
  | accept m t hcall hst hs hc => exact absurd hst hnidle
  | refuse m t hcall hst hs hc =>
    exact ⟨fun _ => ih.skip hc (by rw [hs]) (by rw [hs]) (by rw [hs]) (by simp [echoes, hcall])
      (by simp [hcall]), fun hi => absurd (by rw [← hi, hs]) hnidle⟩
  | error hcall hs hc =>
    exact ⟨fun _ => ih.skip hc (by rw [hs]) (by rw [hs]) (by rw [hs]) (by simp [echoes, hcall])
      (by simp [hcall]), fun hi => absurd (by rw [← hi, hs]) hnidle⟩
  | clearRx hcall hs hc =>
    exact ⟨fun _ => ih.skip hc (by rw [hs]) (by rw [hs]) (by rw [hs]) (by simp [echoes, hcall])
      (by simp [hcall]), fun hi => absurd (by rw [← hi, hs]) hnidle⟩

theorem EchoInv.run {pf : Platform} (hpf : pf.charSigned = false) {m : Message} (hm : Sendable m) {s : TxSM}
    {es : List TxObs} (hi : EchoInv m [] s) (hr : TxRun pf s es) (hb : ∀ e ∈ es, e.after.st ≠ .idle)
    (ho : ∀ e ∈ es, e.after.err = false) : EchoInv m es (txEnd s es) := by
  suffices key : ∀ (es past : List TxObs) (s : TxSM), EchoInv m past s → TxRun pf s es →
      (∀ e ∈ es, e.after.st ≠ .idle) → (∀ e ∈ es, e.after.err = false) →
      EchoInv m (past ++ es) (txEnd s es) by
    simpa using key es [] s hi hr hb ho
  intro es
  induction es with
  | nil => intro past s hi _ _ _; simpa [txEnd] using hi
  | cons e es ih =>
    intro past s hi hr hb ho
    have := (EchoInv.step hpf hm hi hr.1 (ho e (by simp))).1 (hb e (by simp))
    simpa [txEnd] using ih (past ++ [e]) e.after this hr.2 (fun x hx => hb x (by simp [hx]))
      (fun x hx => ho x (by simp [hx]))

/-- **C24** (target: plain `char` is unsigned): a message is loaded into an idle transmitter and some calls
later the transmitter is idle again for the first time; if it never raised the error flag meanwhile, then the
message was handed to the hardware, and after that bytes were received without any receive error: they
start with exactly the bytes of the message (`b` is the part of the execution that ends with the last of
them).  `Done()` is true then. -/
theorem C24_verified_echo (pf : Platform) (hpf : pf.charSigned = false) (s0 : TxSM) (h0 : s0.st = .idle)
    (m : Message) (hm : Sendable m) (t : Nat) (w : TxObs) (es : List TxObs) (last : TxObs)
    (hw : w.call = .wake m t) (hr : TxRun pf s0 (w :: (es ++ [last])))
    (hbusy : ∀ e ∈ es, e.after.st ≠ .idle) (hend : last.after.st = .idle)
    (hok : ∀ e ∈ es ++ [last], e.after.err = false) :
    last.after.done = true ∧ ∃ a x b c, es = a ++ x :: (b ++ c) ∧ noSend a ∧ x.cmds = [.send m] ∧ echoes b = m.bytes ∧
      noRxError b := by
  obtain ⟨hw1, hr⟩ := hr
  rw [hw] at hw1
  simp only [TxSM.call, TxSM.wake_idle h0, Res.ok.injEq, Prod.mk.injEq] at hw1
  obtain ⟨hr1, hr2⟩ := TxRun.append.mp hr
  have hinv : EchoInv m es (txEnd w.after es) := by
    refine EchoInv.run hpf hm ?_ hr1 hbusy (fun e he => hok e (by simp [he]))
    rw [← hw1.1]
    exact ⟨rfl, rfl, by intro y hy; simp at hy⟩
  have hl := (EchoInv.step hpf hm hinv hr2.1 (hok last (by simp))).2 hend
  have h2 := hinv.2
  simp only [hl.1] at h2
  obtain ⟨h3, a, x, b, c, hp, ha, hx, hb, hn⟩ := h2
  refine ⟨?_, a, x, b, c, hp, ha, hx, hb, hn⟩
  simp [TxSM.done, hl.2.1, hl.2.2, hinv.1, h3]

end P1P2
