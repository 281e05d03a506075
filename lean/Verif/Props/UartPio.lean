import Verif.Model.UartPio
import Verif.Props.TxFail
/-!
# Properties C30, C77, C80: the transmit hardware
-/
namespace P1P2

/-- Bytes the DMA still has to copy. -/
def TxHw.dmaBytes (h : TxHw) : List UInt8 := (List.range h.dmaCount).map fun k => h.buf (h.dmaPos + k)

/-- Everything that is on its way to the bus, oldest first. -/
def TxHw.pending (h : TxHw) : List UInt8 := h.osr.toList ++ h.fifo ++ h.dmaBytes

/-- Only sendable messages are requested. -/
def SendableEvs (es : List SysEv) : Prop := ∀ m t, SysEv.call (.wake m t) ∈ es → Sendable m

structure SysInv (s : Sys) : Prop where
  pre : s.hw.wire.drop s.mark ++ s.hw.pending <+: s.cur
  mark : s.mark ≤ s.hw.wire.length
  pt : s.hw.pulledAt ≤ s.now
  err : s.hw.error = false
  off : OffInv s.sm
  st1 : s.stage ≠ 0 → s.sm.st = .waitLineFree
  st2 : 2 ≤ s.stage → s.rdFifo = false → s.hw.fifo = [] ∧ s.hw.dmaCount = 0
  pow : s.sm.st = .waitPowerOn → s.hw.fifo = [] ∧ s.hw.dmaCount = 0 ∧ (s.hw.working → s.hw.pulledAt + 32000 ≤ s.sm.dl)

theorem SysInv.init (g : Nat → UInt8) : SysInv (Sys.init g) where
  pre := by
    simp [Sys.init, TxSM.initCmds, TxHw.apply, TxHw.clearFifo, TxHw.init, TxHw.pending, TxHw.dmaBytes]
  mark := by simp [Sys.init]
  pt := by simp [Sys.init, TxSM.initCmds, TxHw.apply, TxHw.clearFifo, TxHw.init]
  err := by simp [Sys.init, TxSM.initCmds, TxHw.apply, TxHw.clearFifo, TxHw.init]
  off := by intro hn; simp [Sys.init, TxSM.init] at hn
  st1 := by simp [Sys.init]
  st2 := by simp [Sys.init]
  pow := by simp [Sys.init, TxSM.init]

theorem TxHw.pending_dma {h h' : TxHw} (hd : h.dmaStep = some h') :
    h'.pending = h.pending ∧ h'.wire = h.wire ∧ h'.osr = h.osr ∧ h'.flag = h.flag ∧ h'.pulledAt = h.pulledAt ∧
    h'.error = h.error ∧ 0 < h.dmaCount := by
  unfold TxHw.dmaStep at hd
  split at hd
  · rename_i hc
    simp only [Option.some.injEq] at hd
    subst hd
    refine ⟨?_, rfl, rfl, rfl, rfl, rfl, hc.1⟩
    simp only [TxHw.pending, TxHw.dmaBytes]
    have : List.range h.dmaCount = 0 :: (List.range (h.dmaCount - 1)).map (· + 1) := by
      have e : h.dmaCount = (h.dmaCount - 1) + 1 := by omega
      rw [e, List.range_succ_eq_map]; simp
    rw [this]
    simp only [List.map_cons, List.map_map, Function.comp_def, Nat.add_zero, List.append_assoc,
      List.singleton_append]
    simp only [Nat.add_assoc, Nat.add_comm 1]
  · simp at hd

theorem prefix_of_append_right {α : Type} {a b c l : List α} (h : a ++ (b ++ c) <+: l) : a ++ b <+: l :=
  List.IsPrefix.trans ⟨c, by simp⟩ h

/-- The calls of one update and their effect. -/
theorem SysInv.update {pf : Platform} {s s' : Sys} {i : UpdIn} (h : SysInv s) (hn : s.next pf (.update i) = some s') :
    SysInv s' := by
  simp only [Sys.next] at hn
  split at hn
  rotate_left
  · simp at hn
  rename_i hg
  obtain ⟨⟨hg1, hg2⟩, hg3, hg4, hg5, hg6, hg7⟩ := hg
  split at hn
  rotate_left
  · simp at hn
  rename_i r hr
  obtain ⟨sm', c⟩ := r
  simp only [Option.some.injEq] at hn
  have hoff : OffInv sm' := h.off.step (c := .update i) (by simp) (cmds := c) (by simpa [TxSM.call] using hr)
  -- the error flag is clear anyway
  have hs1 : (if (s.sm.timedOutError i || s.sm.st.lineStateIsError i.busy || s.sm.isIdle) = true then s
      else { s with hw := { s.hw with error := false } }) = s := by
    split
    · rfl
    · have := h.err
      cases s with | mk sm hw now stage a b c d e => cases hw; simp_all
  rw [hs1] at hn
  have hpend0 : ∀ hw : TxHw, s.hw.wire.drop s.mark ++ s.hw.osr.toList <+: s.cur := by
    intro _
    have := h.pre
    rw [TxHw.pending, List.append_assoc, ← List.append_assoc] at this
    exact (List.prefix_append _ _).trans this
  have hw0 := hpend0 s.hw
  have hnoop : ∀ (sm' : TxSM), OffInv sm' → sm'.st ≠ .waitPowerOn →
      ∀ hw', hw'.wire = s.hw.wire → hw'.pulledAt = s.hw.pulledAt → hw'.error = s.hw.error →
      s.hw.wire.drop s.mark ++ hw'.pending <+: s.cur →
      SysInv { s with sm := sm', hw := hw', now := i.tNew, stage := 0 } := by
    intro sm' ho hst hw' e1 e2 e3 e4
    exact ⟨by simpa [e1] using e4, by simpa [e1] using h.mark, by simp only [e2]; have := h.pt; omega,
      by simp only [e3, h.err], ho, by simp, by simp, fun hx => absurd hx hst⟩
  have hshut : ∀ b, s.hw.wire.drop s.mark ++ (s.hw.apply (.shutdown b)).pending <+: s.cur := fun b => h.pre
  have hclr : s.hw.wire.drop s.mark ++ (s.hw.apply .clearFifo).pending <+: s.cur := by
    simpa [TxHw.apply, TxHw.clearFifo, TxHw.pending, TxHw.dmaBytes] using hw0
  have hclr2 : s.hw.wire.drop s.mark ++ ((s.hw.apply .clearFifo).apply .clearFifo).pending <+: s.cur := by
    simpa [TxHw.apply, TxHw.clearFifo, TxHw.pending, TxHw.dmaBytes] using hw0
  cases TxSM.updCase hr with
  | early _ hs hc =>
    subst hc; subst hn
    exact hnoop sm' hoff (by simp [hs]) _ rfl rfl rfl (hshut true)
  | hw _ _ _ hs hc =>
    subst hc; subst hn
    exact hnoop sm' hoff (by simp [hs]) _ rfl rfl rfl (hshut true)
  | stay hf he _ hb _ _ _ hs hc =>
    subst hc; subst hn; subst hs
    refine ⟨h.pre, h.mark, ?_, h.err, h.off, by simp, by simp, h.pow⟩
    simp only [Sys.effect, Sys.sentBy]
    have := h.pt; simp only [List.foldl_nil]; omega
  | power _ _ hst hb ht ho hs hc =>
    subst hc; subst hn
    rw [if_pos hst] at hg7
    have hrd : s.rdFifo = false := by
      have := hg7.2; rw [ht] at this; simp at this; exact this.1.2
    have hem := h.st2 (by omega) hrd
    refine ⟨h.pre, h.mark, ?_, h.err, hoff, by simp, by simp, ?_⟩
    · simp only [Sys.effect, Sys.sentBy, List.foldl_cons, List.foldl_nil, TxHw.apply]
      have := h.pt; omega
    · intro _
      simp only [Sys.effect, Sys.sentBy, List.foldl_cons, List.foldl_nil, TxHw.apply]
      refine ⟨hem.1, hem.2, fun _ => ?_⟩
      rw [hs]; simp only
      have := h.pt; omega
  | start _ _ hst ht hs hc =>
    subst hc; subst hn
    obtain ⟨hp1, hp2, hp3⟩ := h.pow hst
    have hsend := (h.off (by simp [hst])).1
    have hnw : ¬ s.hw.working := by
      intro hw
      have := hp3 hw
      have := hg2 hw
      omega
    have hosr : s.hw.osr = none := by
      unfold TxHw.working at hnw
      cases ho : s.hw.osr <;> simp_all
    have hsd : s.hw.send s.sm.txMsg = { s.hw with
        buf := fun k => if k < s.sm.txMsg.length then s.sm.txMsg.data k else s.hw.buf k, dmaPos := 0,
        dmaCount := s.sm.txMsg.length } := by
      have h32 : ¬ s.sm.txMsg.length > 32 := by have := hsend.2; omega
      simp [TxHw.send, TxHw.dmaBusy, hp2, h32]
    refine ⟨?_, ?_, ?_, ?_, hoff, by simp, by simp, by intro hx; simp [Sys.effect, Sys.sentBy, hs] at hx⟩
    · simp only [Sys.effect, Sys.sentBy, List.foldl_cons, List.foldl_nil, TxHw.apply, hsd, TxHw.pending,
        TxHw.dmaBytes, hp1, hosr, List.drop_length]
      apply List.IsPrefix.trans (l₂ := s.sm.txMsg.bytes) _ (List.prefix_refl _)
      have : List.map (fun k => if 0 + k < s.sm.txMsg.length then s.sm.txMsg.data (0 + k) else s.hw.buf (0 + k))
          (List.range s.sm.txMsg.length) = s.sm.txMsg.bytes := by
        unfold Message.bytes
        apply List.map_congr_left
        intro k hk
        simp at hk
        simp [hk]
      simp only [Nat.zero_add] at this
      simp [this]
    · simp [Sys.effect, Sys.sentBy, TxHw.apply, hsd]
    · simp only [Sys.effect, Sys.sentBy, List.foldl_cons, List.foldl_nil, TxHw.apply, hsd]
      have := h.pt; omega
    · simp only [Sys.effect, Sys.sentBy, List.foldl_cons, List.foldl_nil, TxHw.apply, hsd]
      exact h.err
  | busy _ _ hst _ hv hr hs hc =>
    subst hc; subst hn
    exact hnoop sm' hoff (by simp [hs]) _ rfl rfl rfl h.pre
  | rxErr _ _ hst _ hs hc =>
    subst hc; subst hn
    exact hnoop sm' hoff (by simp [hs]) _ rfl rfl rfl hclr
  | good _ _ hst hr hv ho hd rx hrx hs hc =>
    have hns : sm'.st ≠ .waitPowerOn := by
      rw [hs]; by_cases hl : s.sm.txOffset + 1 = s.sm.txMsg.length <;> simp [hl]
    by_cases hl : s.sm.txOffset + 1 = s.sm.txMsg.length
    · rw [if_pos hl] at hc
      subst hc; subst hn
      exact hnoop sm' hoff hns _ rfl rfl rfl hclr
    · rw [if_neg hl] at hc
      subst hc; subst hn
      exact hnoop sm' hoff hns _ rfl rfl rfl h.pre
  | bad _ _ hst hr hv ho hd rx hrx hs hc =>
    have hns : sm'.st ≠ .waitPowerOn := by rw [hs]; simp
    by_cases hl : s.sm.txOffset + 1 = s.sm.txMsg.length
    · rw [if_pos hl] at hc
      subst hc; subst hn
      exact hnoop sm' hoff hns _ rfl rfl rfl hclr2
    · rw [if_neg hl] at hc
      subst hc; subst hn
      exact hnoop sm' hoff hns _ rfl rfl rfl hclr
  | finish _ _ hst _ hs hc =>
    subst hc; subst hn
    exact hnoop sm' hoff (by simp [hs]) _ rfl rfl rfl (hshut true)

theorem SysInv.step {pf : Platform} {s s' : Sys} {e : SysEv} (h : SysInv s)
    (hm : ∀ m t, e = .call (.wake m t) → Sendable m) (hn : s.next pf e = some s') : SysInv s' := by
  cases e with
  | update i => exact h.update hn
  | dma =>
    simp only [Sys.next, Option.map_eq_some_iff] at hn
    obtain ⟨hw, hd, hn⟩ := hn
    obtain ⟨e1, e2, e3, e4, e5, e6, e7⟩ := TxHw.pending_dma hd
    subst hn
    refine ⟨by simpa [e1, e2] using h.pre, by simpa [e2] using h.mark, by simpa [e5] using h.pt,
      by simpa [e6] using h.err, h.off, h.st1, ?_, ?_⟩
    · intro h2 hr
      have := h.st2 h2 hr
      omega
    · intro hst
      have := h.pow hst
      omega
  | pull t =>
    simp only [Sys.next] at hn
    split at hn <;> simp only [Option.map_eq_some_iff, reduceCtorEq] at hn
    rename_i ht
    obtain ⟨hw, hd, hn⟩ := hn
    unfold TxHw.pull at hd
    split at hd
    · rename_i b q hf
      split at hd
      · rename_i hc
        simp only [Option.some.injEq] at hd
        subst hd; subst hn
        refine ⟨?_, h.mark, by simp, h.err, h.off, h.st1, ?_, ?_⟩
        · have := h.pre
          simpa [TxHw.pending, TxHw.dmaBytes, hf, hc.1] using this
        · intro h2 hr
          have := (h.st2 h2 hr).1
          simp [hf] at this
        · intro hst
          have := (h.pow hst).1
          simp [hf] at this
      · simp at hd
    · simp at hd
  | startBit t =>
    simp only [Sys.next] at hn
    split at hn <;> simp only [Option.map_eq_some_iff, reduceCtorEq] at hn
    rename_i ht
    obtain ⟨hw, hd, hn⟩ := hn
    unfold TxHw.startBit at hd
    split at hd
    · rename_i b hb
      simp only [Option.some.injEq] at hd
      subst hd; subst hn
      refine ⟨?_, ?_, ?_, h.err, h.off, h.st1, h.st2, ?_⟩
      · have := h.pre
        simp only [TxHw.pending, TxHw.dmaBytes] at this ⊢
        rw [List.drop_append_of_le_length h.mark]
        simpa [hb] using this
      · have := h.mark; simp only [List.length_append]; omega
      · have := h.pt; have := ht.1; simp only; omega
      · intro hst
        have h3 := h.pow hst
        refine ⟨h3.1, h3.2.1, fun _ => h3.2.2 ?_⟩
        left; simp [hb]
    · simp at hd
  | byteDone t =>
    simp only [Sys.next] at hn
    split at hn <;> simp only [Option.map_eq_some_iff, reduceCtorEq] at hn
    rename_i ht
    obtain ⟨hw, hd, hn⟩ := hn
    unfold TxHw.byteDone at hd
    split at hd
    · rename_i hb
      simp only [Option.some.injEq] at hd
      subst hd; subst hn
      refine ⟨h.pre, h.mark, ?_, h.err, h.off, h.st1, h.st2, ?_⟩
      · have := h.pt; have := ht.1; simp only; omega
      · intro hst
        have h3 := h.pow hst
        exact ⟨h3.1, h3.2.1, fun _ => h3.2.2 (.inr hb)⟩
    · simp at hd
  | readFlag t =>
    simp only [Sys.next] at hn
    split at hn <;> simp only [Option.some.injEq, reduceCtorEq] at hn
    rename_i hc
    subst hn
    refine ⟨h.pre, h.mark, ?_, h.err, h.off, fun _ => hc.2.2, by simp, h.pow⟩
    have := h.pt; have := hc.1.1; simp only; omega
  | readFifo t =>
    simp only [Sys.next] at hn
    split at hn <;> simp only [Option.some.injEq, reduceCtorEq] at hn
    rename_i hc
    subst hn
    refine ⟨h.pre, h.mark, ?_, h.err, h.off, fun _ => h.st1 (by omega), ?_, h.pow⟩
    · have := h.pt; have := hc.1.1; simp only; omega
    · intro _ hr
      simp at hr
      refine ⟨hr, ?_⟩
      rcases hc.2.2 with hd | hd
      · exact hd
      · rw [hr] at hd; simp at hd
  | readDma t =>
    simp only [Sys.next] at hn
    split at hn <;> simp only [Option.some.injEq, reduceCtorEq] at hn
    rename_i hc
    subst hn
    refine ⟨h.pre, h.mark, ?_, h.err, h.off, fun _ => h.st1 (by omega), fun _ hr => h.st2 (by omega) hr, h.pow⟩
    have := h.pt; have := hc.1.1; simp only; omega
  | call c =>
    simp only [Sys.next] at hn
    split at hn
    rotate_left
    · simp at hn
    rename_i hst0
    cases c with
    | update i => simp at hn
    | wake m t =>
      simp only at hn
      split at hn <;> simp only [Option.some.injEq, reduceCtorEq] at hn
      rename_i ht
      subst hn
      have hoff : OffInv (s.sm.wake m t).1 := h.off.step (pf := pf) (c := .wake m t)
        (cmds := (s.sm.wake m t).2) (by rintro m' t' e; cases e; exact hm m t rfl) rfl
      refine ⟨h.pre, h.mark, ?_, h.err, hoff, by simp [hst0], by simp [hst0], ?_⟩
      · have := h.pt; have := ht.1; simp only; omega
      · intro hst
        by_cases hi : s.sm.st = .idle
        · rw [TxSM.wake_idle hi] at hst; simp at hst
        · rw [TxSM.wake_busy hi] at hst ⊢; exact h.pow hst
    | error =>
      simp only [Option.some.injEq] at hn
      subst hn
      exact ⟨h.pre, h.mark, h.pt, h.err, h.off, by simp [hst0], by simp [hst0], h.pow⟩
    | clearRx =>
      simp only [Option.some.injEq] at hn
      subst hn
      exact ⟨h.pre, h.mark, h.pt, h.err, h.off, by simp [hst0], by simp [hst0], h.pow⟩
  | clearError =>
    simp only [Sys.next] at hn
    split at hn <;> simp only [Option.some.injEq, reduceCtorEq] at hn
    subst hn
    exact ⟨h.pre, h.mark, h.pt, rfl, h.off, h.st1, h.st2, h.pow⟩

theorem SysInv.run {pf : Platform} {s s' : Sys} {es : List SysEv} (h : SysInv s) (hm : SendableEvs es)
    (hn : s.run pf es = some s') : SysInv s' := by
  induction es generalizing s with
  | nil => simp only [Sys.run, Option.some.injEq] at hn; subst hn; exact h
  | cons e es ih =>
    simp only [Sys.run] at hn
    split at hn
    · rename_i s1 h1
      exact ih (h.step (fun m t he => hm m t (by simp [he])) h1) (fun m t he => hm m t (by simp [he])) hn
    · simp at hn

/-- **C30**: in every interleaving of software, DMA and PIO, the bytes put on the bus since the last message
was handed over (`mark` is the number of bytes before) are a prefix of that message. -/
theorem C30_no_stale_bytes (pf : Platform) (g : Nat → UInt8) (es : List SysEv) (hm : SendableEvs es) (s : Sys)
    (hr : (Sys.init g).run pf es = some s) : s.hw.wire.drop s.mark <+: s.cur :=
  (List.prefix_append _ _).trans ((SysInv.init g).run hm hr).pre

theorem SysInv.handover {pf : Platform} {s s' : Sys} (h : SysInv s) {i : UpdIn} {sm' : TxSM} {m : Message}
    (hu : s.sm.update pf i = .ok (sm', [.send m])) (hn : s.next pf (.update i) = some s') :
    s'.cur = m.bytes ∧ s'.mark = s.hw.wire.length ∧ s.hw.pending = [] ∧ s.hw.flag = false := by
  cases TxSM.updCase hu with
  | start hf _ hst ht hs hc =>
    simp only [List.cons.injEq, HwCmd.send.injEq, and_true] at hc
    simp only [Sys.next] at hn
    split at hn
    rotate_left
    · simp at hn
    rename_i hg
    unfold Sys.updateOk at hg
    rw [hu] at hn
    simp only [Option.some.injEq] at hn
    obtain ⟨hp1, hp2, hp3⟩ := h.pow hst
    have hnw : ¬ s.hw.working := by
      intro hw
      have := hp3 hw
      have := hg.1.2 hw
      omega
    have hosr : s.hw.osr = none := by
      unfold TxHw.working at hnw
      cases ho : s.hw.osr <;> simp_all
    have hfl : s.hw.flag = false := by
      unfold TxHw.working at hnw
      cases ho : s.hw.flag <;> simp_all
    refine ⟨?_, ?_, by simp [TxHw.pending, TxHw.dmaBytes, hp1, hp2, hosr], hfl⟩
    · rw [← hn]; simp only [Sys.effect, Sys.sentBy]
    · rw [← hn]; simp only [Sys.effect, Sys.sentBy]; split <;> rfl
  | early _ hs hc => simp at hc
  | hw _ _ _ hs hc => simp at hc
  | stay hf _ _ _ _ _ _ hs hc => simp at hc
  | power _ he hst hb ht _ hs hc => simp at hc
  | busy _ _ hst _ _ _ hs hc => simp at hc
  | rxErr _ _ hst _ hs hc => simp at hc
  | good _ _ hst _ _ _ _ rx _ hs hc =>
    by_cases hl : s.sm.txOffset + 1 = s.sm.txMsg.length <;> simp [hl] at hc
  | bad _ _ hst _ _ _ _ rx _ hs hc =>
    by_cases hl : s.sm.txOffset + 1 = s.sm.txMsg.length <;> simp [hl] at hc
  | finish _ _ hst _ hs hc => simp at hc

/-- **C30**, what the bookkeeping means: exactly the update that hands message `m` over sets `cur` to the bytes
of `m` and `mark` to the number of bytes on the bus so far; the PIO is idle then and all buffers are empty. -/
theorem C30_handover (pf : Platform) (g : Nat → UInt8) (es : List SysEv) (hm : SendableEvs es) (s s' : Sys)
    (i : UpdIn) (sm' : TxSM) (m : Message) (hr : (Sys.init g).run pf es = some s)
    (hu : s.sm.update pf i = .ok (sm', [.send m])) (hn : s.next pf (.update i) = some s') :
    s'.cur = m.bytes ∧ s'.mark = s.hw.wire.length ∧ s.hw.pending = [] ∧ s.hw.flag = false := by
  exact ((SysInv.init g).run hm hr).handover hu hn

/-- **C80**: the hardware object never reports an error for messages of 1 to 32 bytes: a message is never
refused because the previous one is still being copied. -/
theorem C80_never_refused (pf : Platform) (g : Nat → UInt8) (es : List SysEv) (hm : SendableEvs es) (s : Sys)
    (hr : (Sys.init g).run pf es = some s) : s.hw.error = false :=
  ((SysInv.init g).run hm hr).err

/-- **C77, the part that holds**: when all three registers read idle, the buffers are empty; at most the byte
the PIO has already pulled is left. -/
theorem C77_buffers_empty_partial (pf : Platform) (g : Nat → UInt8) (es : List SysEv) (hm : SendableEvs es)
    (s : Sys) (hr : (Sys.init g).run pf es = some s) (h3 : s.stage = 3)
    (hidle : (s.rdFlag || s.rdFifo || s.rdDma) = false) : s.hw.fifo = [] ∧ s.hw.dmaCount = 0 := by
  simp at hidle
  exact ((SysInv.init g).run hm hr).st2 (by omega) hidle.1.2

/-- Events of an execution in which a timed out message leaves a byte in the FIFO, and the next message
powers up the amplifier while that byte is between FIFO and pin. -/
def staleByteRun : List SysEv :=
  [.call (.wake demoMsg 0), .readFlag 1, .readFifo 2, .readDma 3, .update (upd0 10 false),
   .update (upd0 32010 false), .dma, .dma, .pull 32011, .startBit 32018,
   .update (upd0 34010 false),
   .byteDone 34020, .call (.wake demoMsg 34021), .readFlag 34022, .pull 34023, .readFifo 34024, .readDma 34025,
   .update (upd0 34026 false), .startBit 34030]

/-- **C77 is violated**: the transmitter saw the hardware idle and powered the amplifier, and then the
second byte of the aborted first message goes out on the bus. -/
theorem C77_refuted : ∃ s1 s2, (Sys.init fun _ => 0).run .arm (staleByteRun.take 17) = some s1 ∧
    (Sys.init fun _ => 0).run .arm staleByteRun = some s2 ∧
    s1.stage = 3 ∧ (s1.rdFlag || s1.rdFifo || s1.rdDma) = false ∧ s1.hw.wire = [0x40] ∧
    s2.hw.pin = false ∧ s2.hw.wire = [0x40, 0xf0] ∧ SendableEvs staleByteRun := by
  refine ⟨((Sys.init fun _ => 0).run .arm (staleByteRun.take 17)).get (by decide),
    ((Sys.init fun _ => 0).run .arm staleByteRun).get (by decide), by simp, by simp, by decide, by decide, by decide,
    by decide, by decide, ?_⟩
  intro m t hmem
  simp [staleByteRun] at hmem
  rcases hmem with ⟨h, _⟩ | ⟨h, _⟩ <;> subst h <;> exact ⟨by decide, by decide⟩

/-- A complete transmission for C30: the message reaches the bus. -/
example : ((Sys.init fun _ => 0).run .arm
    [.call (.wake demoMsg 0), .readFlag 1, .readFifo 2, .readDma 3, .update (upd0 10 false),
     .update (upd0 32010 false), .dma, .dma, .pull 32011, .startBit 32018, .byteDone 33150, .pull 33156,
     .startBit 33163]).map (fun s => (s.hw.wire.drop s.mark, s.cur)) = some ([0x40, 0xf0], [0x40, 0xf0]) := by
  decide

end P1P2
