import Verif.Props.Tx
/-!
# Properties C25 - C29, C79: failures, termination and bounds of the transmitter
-/
namespace P1P2

/-! ## C25 -/

/-- What a failure does: the flag is raised, the transmitter is idle with the amplifier shut down, or waits
for the line to become idle with the transmit buffers discarded; nothing is handed to the hardware. -/
def Failed (s' : TxSM) (c : List HwCmd) : Prop :=
  s'.err = true ∧ (∀ m, HwCmd.send m ∉ c) ∧
  ((s'.st = .idle ∧ c = [.shutdown true]) ∨ (s'.st = .runningWaitForIdle ∧ HwCmd.clearFifo ∈ c))

theorem failed_of {s s' : TxSM} {c : List HwCmd} {pf : Platform} {i : UpdIn} (h : s.update pf i = .ok (s', c))
    (hf : (s.timedOutError i || s.st.lineStateIsError i.busy) = true ∨ (s.st ≠ .idle ∧ i.hwErr = true) ∨
      ((s.st = .startedWaitForBusy ∨ s.st = .runningCheckData) ∧ (i.rxError = true ∨
        (i.rxValid = true ∧ TxSM.echoDiffers pf (s.txMsg.data s.txOffset) i.rxChar = true)))) : Failed s' c := by
  cases TxSM.updCase h with
  | early _ hs hc => exact ⟨by rw [hs], by simp [hc], .inl ⟨by rw [hs], hc⟩⟩
  | hw _ _ _ hs hc => exact ⟨by rw [hs], by simp [hc], .inl ⟨by rw [hs], hc⟩⟩
  | rxErr _ _ _ _ hs hc => exact ⟨by rw [hs], by simp [hc], .inr ⟨by rw [hs], by simp [hc]⟩⟩
  | bad _ _ _ _ _ _ _ rx _ hs hc =>
    refine ⟨by rw [hs], ?_, .inr ⟨by rw [hs], by simp [hc]⟩⟩
    intro m
    by_cases hl : s.txOffset + 1 = s.txMsg.length <;> simp [hc, hl]
  | stay hf1 he hn hb _ _ _ hs hc =>
    exfalso
    rcases hf with hf | ⟨hf, hh⟩ | ⟨hst, hf⟩
    · simp [hf1] at hf
    · rcases he with he | he
      · exact hf he
      · simp [hh] at he
    · have := hb hst
      rcases hf with hf | hf <;> simp [this] at hf
  | power hf1 he hst _ _ _ hs hc => exfalso; rw [hf1] at hf; simp [he, hst] at hf
  | start hf1 he hst _ hs hc => exfalso; rw [hf1] at hf; simp [he, hst] at hf
  | busy hf1 he hst _ hv hr hs hc => exfalso; rw [hf1] at hf; simp [he, hst, hv, hr] at hf
  | good hf1 he hst hr hv _ hd rx _ hs hc => exfalso; rw [hf1] at hf; simp [he, hst, hr, hv, hd] at hf
  | finish hf1 he hst _ hs hc => exfalso; rw [hf1] at hf; simp [he, hst] at hf

/-- **C25, bus and hardware**: a busy bus while powering up, a free bus while checking data, a hardware error
in any phase but idle, and a receive error after the start each make the update fail. -/
theorem C25_failure (pf : Platform) (s s' : TxSM) (i : UpdIn) (c : List HwCmd) (h : s.update pf i = .ok (s', c))
    (hf : (s.st = .waitPowerOn ∧ i.busy = true) ∨ (s.st = .runningCheckData ∧ i.busy = false) ∨
      (s.st ≠ .idle ∧ i.hwErr = true) ∨
      ((s.st = .startedWaitForBusy ∨ s.st = .runningCheckData) ∧ i.rxError = true)) : Failed s' c := by
  apply failed_of h
  rcases hf with ⟨hst, hb⟩ | ⟨hst, hb⟩ | hf | ⟨hst, hr⟩
  · left; simp [hst, hb, TxSt.lineStateIsError, TxSt.busyIsError]
  · left; simp [hst, hb, TxSt.lineStateIsError, TxSt.freeIsError]
  · exact .inr (.inl hf)
  · exact .inr (.inr ⟨hst, .inl hr⟩)

theorem split_unique {a a' b b' : List TxObs} {x x' : TxObs} {m m' : Message} (ha : noSend a) (ha' : noSend a')
    (hx : x.cmds = [.send m]) (hx' : x'.cmds = [.send m']) (h : a ++ x :: b = a' ++ x' :: b') : b = b' := by
  induction a generalizing a' with
  | nil =>
    cases a' with
    | nil => simp only [List.nil_append, List.cons.injEq] at h; exact h.2
    | cons y ys =>
      simp only [List.nil_append, List.cons_append, List.cons.injEq] at h
      exact absurd (by rw [← h.1, hx]; simp) (ha' y (by simp) m)
  | cons z zs ih =>
    cases a' with
    | nil =>
      simp only [List.nil_append, List.cons_append, List.cons.injEq] at h
      exact absurd (by rw [h.1, hx']; simp) (ha z (by simp) m')
    | cons y ys =>
      simp only [List.cons_append, List.cons.injEq] at h
      exact ih (fun e he => ha e (by simp [he])) (fun e he => ha' e (by simp [he])) h.2

/-- **C25, differing echo**: after message `m` was loaded, handed over (`x`) and some bytes came back without
any error so far, a received byte other than the next byte of the message makes the update fail. -/
theorem C25_differing_echo (pf : Platform) (hpf : pf.charSigned = false) (s0 : TxSM) (h0 : s0.st = .idle)
    (m : Message) (hm : Sendable m) (t : Nat) (w x last : TxObs) (a b : List TxObs) (i : UpdIn)
    (hw : w.call = .wake m t) (hr : TxRun pf s0 (w :: (a ++ x :: b ++ [last])))
    (hbusy : ∀ e ∈ a ++ x :: b, e.after.st ≠ .idle) (hok : ∀ e ∈ a ++ x :: b, e.after.err = false)
    (ha : noSend a) (hx : x.cmds = [.send m]) (hl : last.call = .update i)
    (hv : i.rxValid = true) (hlen : (echoes b).length < m.length)
    (hd : m.bytes[(echoes b).length]? ≠ some i.rxChar) : Failed last.after last.cmds := by
  obtain ⟨hw1, hr⟩ := hr
  rw [hw] at hw1
  simp only [TxSM.call, TxSM.wake_idle h0, Res.ok.injEq, Prod.mk.injEq] at hw1
  obtain ⟨hr1, hr2⟩ := TxRun.append.mp hr
  have hinv : EchoInv m (a ++ x :: b) (txEnd w.after (a ++ x :: b)) := by
    refine EchoInv.run hpf hm ?_ hr1 hbusy hok
    rw [← hw1.1]
    exact ⟨rfl, rfl, by intro y hy; simp at hy⟩
  have h := hr2.1
  rw [hl] at h
  generalize txEnd w.after (a ++ x :: b) = s at h hinv
  apply failed_of h
  have key : (s.st = .startedWaitForBusy ∨ s.st = .runningCheckData) ∧ s.txOffset = (echoes b).length := by
    have h2 := hinv.2
    cases hst : s.st <;> simp only [hst] at h2
    · exact absurd hx (fun hx => (h2.2 x (by simp) m) (by simp [hx]))
    · exact absurd hx (fun hx => (h2.2 x (by simp) m) (by simp [hx]))
    · obtain ⟨h3, a', x', b', hp, ha', hx', hb', hn⟩ := h2
      have := split_unique ha ha' hx hx' hp
      exact ⟨.inl rfl, by rw [this, hb', h3]; rfl⟩
    · obtain ⟨h3, a', x', b', hp, ha', hx', hb', hn⟩ := h2
      have := split_unique ha ha' hx hx' hp
      refine ⟨.inr rfl, ?_⟩
      rw [this, hb', List.length_take]
      simp only [Message.bytes, List.length_map, List.length_range]
      omega
    · exfalso
      obtain ⟨h3, a', x', b', c', hp, ha', hx', hb', hn⟩ := h2
      have := split_unique ha ha' hx hx' hp
      rw [this, echoes_append, hb'] at hlen
      simp [Message.bytes] at hlen
      omega
  refine .inr (.inr ⟨key.1, ?_⟩)
  by_cases hre : i.rxError = true
  · exact .inl hre
  · right
    refine ⟨hv, ?_⟩
    simp only [TxSM.echoDiffers, hpf, Bool.false_and, Bool.false_eq_true, if_false, bne_iff_ne, ne_eq]
    intro he
    apply hd
    rw [hinv.1] at he
    rw [List.getElem?_eq_getElem (by simpa [Message.bytes] using hlen)]
    simp only [Message.bytes, List.getElem_map, List.getElem_range]
    rw [← key.2, he]

theorem timedOut_of_dl {s : TxSM} {i : UpdIn} {l : Nat} (hp : phaseLimit s.st = some l) (h : s.dl ≤ i.tErr) :
    s.timedOutError i = true := by
  unfold TxSM.timedOutError
  cases hst : s.st <;> simp [hst, phaseLimit, TxSt.timeoutIsError] at hp ⊢ <;> exact h

/-- **C25, timeout**: a phase is entered by call `x` (from another phase, or by a received echo byte), the
transmitter stays in it without receiving a byte, and an update reads the clock at or after the limit of
that phase: the update fails. -/
theorem C25_timeout (pf : Platform) (s : TxSM) (x : TxObs) (mid : List TxObs) (last : TxObs) (q : TxSt) (l : Nat)
    (i : UpdIn) (hr : TxRun pf s (x :: (mid ++ [last]))) (hq : phaseLimit q = some l)
    (hx : x.after.st = q) (hnew : s.st ≠ q ∨ (q = .runningCheckData ∧ echoes [x] ≠ []))
    (hmid : ∀ e ∈ mid, e.after.st = q ∧ (q = .runningCheckData → echoes [e] = []))
    (hl : last.call = .update i) (ht : entryTime x.call + l ≤ i.tErr) : Failed last.after last.cmds := by
  obtain ⟨hx1, hr⟩ := hr
  obtain ⟨hr1, hr2⟩ := TxRun.append.mp hr
  -- the deadline set by `x`
  have hdl : x.after.dl = entryTime x.call + l := by
    generalize hc : x.call = call at *
    generalize hcm : x.cmds = cmds at *
    generalize x.after = s' at *
    cases TxSM.callCase hx1 with
    | upd i hcall hu =>
      cases hu with
      | early _ hs hc => rw [hs] at hx; simp at hx; subst hx; simp [phaseLimit] at hq
      | hw _ _ _ hs hc => rw [hs] at hx; simp at hx; subst hx; simp [phaseLimit] at hq
      | stay hf he _ hb _ _ _ hs hc' =>
        rw [hs] at hx
        rcases hnew with hnew | ⟨hqc, hnew⟩
        · exact absurd hx hnew
        · exfalso
          apply hnew
          have := hb (.inr (by rw [hx, hqc]))
          simp [echoes, hc, hcall, this.1]
      | power _ _ hst _ _ ho hs hc => rw [hs] at hx; simp at hx; subst hx; simp [phaseLimit] at hq
      | start _ _ hst _ hs hc =>
        rw [hs] at hx ⊢; simp at hx; subst hx; simp [phaseLimit] at hq; simp [hcall, entryTime, hq]
      | busy _ _ hst _ hv hr hs hc =>
        rw [hs] at hx ⊢; simp at hx; subst hx; simp [phaseLimit] at hq; simp [hcall, entryTime, hq]
      | rxErr _ _ hst _ hs hc =>
        rw [hs] at hx ⊢; simp at hx; subst hx; simp [phaseLimit] at hq; simp [hcall, entryTime, hq]
      | good _ _ hst hr hv ho hd rx hrx hs hc =>
        rw [hs] at hx ⊢; simp only at hx
        by_cases hl : s.txOffset + 1 = s.txMsg.length <;> simp [hl] at hx <;> subst hx <;>
          simp [phaseLimit] at hq <;> simp [hcall, entryTime, hq]
      | bad _ _ hst hr hv ho hd rx hrx hs hc =>
        rw [hs] at hx ⊢; simp only at hx; subst hx; simp [phaseLimit] at hq; simp [hcall, entryTime, hq]
      | finish _ _ hst _ hs hc => rw [hs] at hx; simp at hx; subst hx; simp [phaseLimit] at hq
    | accept m t hcall hst hs hc =>
      rw [hs] at hx ⊢; simp at hx; subst hx; simp [phaseLimit] at hq; simp [hcall, entryTime, hq]
    | refuse m t hcall hst hs hc' =>
      rw [hs] at hx
      rcases hnew with hnew | ⟨_, hnew⟩
      · exact absurd hx hnew
      · exact absurd (by simp [echoes, hc, hcall]) hnew
    | error hcall hs hc' =>
      rw [hs] at hx
      rcases hnew with hnew | ⟨_, hnew⟩
      · exact absurd hx hnew
      · exact absurd (by simp [echoes, hc, hcall]) hnew
    | clearRx hcall hs hc' =>
      rw [hs] at hx
      rcases hnew with hnew | ⟨_, hnew⟩
      · exact absurd hx hnew
      · exact absurd (by simp [echoes, hc, hcall]) hnew
  -- it is kept
  have hkeep : ∀ (mid : List TxObs) (s1 : TxSM), s1.st = q → TxRun pf s1 mid →
      (∀ e ∈ mid, e.after.st = q ∧ (q = .runningCheckData → echoes [e] = [])) →
      (txEnd s1 mid).st = q ∧ (txEnd s1 mid).dl = s1.dl := by
    intro mid
    induction mid with
    | nil => intro s1 h1 _ _; exact ⟨h1, rfl⟩
    | cons e mid ih =>
      intro s1 h1 hr hm
      have he := hm e (by simp)
      have := ih e.after he.1 hr.2 (fun y hy => hm y (by simp [hy]))
      refine ⟨this.1, ?_⟩
      have hcall := hr.1
      rw [show txEnd s1 (e :: mid) = txEnd e.after mid from rfl, this.2]
      generalize hcm : e.cmds = cmds at *
      generalize hea : e.after = s' at *
      generalize hec : e.call = call at *
      have he1 := he.1
      cases TxSM.callCase hcall with
      | upd i hcall hu =>
        cases hu with
        | early _ hs hc => rw [hs] at he1; simp at he1; subst he1; simp [phaseLimit] at hq
        | hw _ _ _ hs hc => rw [hs] at he1; simp at he1; subst he1; simp [phaseLimit] at hq
        | stay hf he _ hb _ _ _ hs hc' => rw [hs]
        | power _ _ hst _ _ ho hs hc => rw [hs] at he1; simp at he1; subst he1; simp [phaseLimit] at hq
        | start _ _ hst _ hs hc => rw [hs] at he1; simp at he1; rw [h1] at hst; simp [hst] at he1
        | busy _ _ hst _ hv hr hs hc => rw [hs] at he1; simp at he1; rw [h1] at hst; simp [hst] at he1
        | rxErr _ _ hst _ hs hc =>
          rw [hs] at he1; simp at he1; rw [h1] at hst; rcases hst with hst | hst <;> simp [hst] at he1
        | good _ _ hst hr hv ho hd rx hrx hs hc =>
          exfalso
          rw [hs] at he1; simp only at he1; rw [h1] at hst
          rcases hst with hst | hst
          · by_cases hl : s1.txOffset + 1 = s1.txMsg.length <;> simp [hl, hst] at he1
          · have := he.2 hst
            simp [echoes, hec, hcall, hv, hr] at this
        | bad _ _ hst hr hv ho hd rx hrx hs hc =>
          rw [hs] at he1; simp only at he1; rw [h1] at hst; rcases hst with hst | hst <;> simp [hst] at he1
        | finish _ _ hst _ hs hc => rw [hs] at he1; simp at he1; subst he1; simp [phaseLimit] at hq
      | accept m t hcall hst hs hc => rw [h1] at hst; subst hst; simp [phaseLimit] at hq
      | refuse m t hcall hst hs hc' => rw [hs]
      | error hcall hs hc' => rw [hs]
      | clearRx hcall hs hc' => rw [hs]
  have hk := hkeep mid x.after hx hr1 hmid
  have h := hr2.1
  rw [hl] at h
  apply failed_of h
  left
  rw [timedOut_of_dl (l := l) (by rw [hk.1]; exact hq) (by rw [hk.2, hdl]; exact ht)]
  rfl

/-- **C25, the flag stays** until it is read or a new message is accepted. -/
theorem C25_flag_stays (pf : Platform) (s : TxSM) (es : List TxObs) (hr : TxRun pf s es) (h : s.err = true)
    (hne : ∀ e ∈ es, e.call ≠ .error) (hnw : ∀ e ∈ es, ∀ m t, e.call ≠ .wake m t) : (txEnd s es).err = true := by
  induction es generalizing s with
  | nil => exact h
  | cons e es ih =>
    obtain ⟨h1, h2⟩ := hr
    refine ih e.after h2 ?_ (fun y hy => hne y (by simp [hy])) (fun y hy => hnw y (by simp [hy]))
    cases TxSM.callCase h1 with
    | upd i hcall hu =>
      cases hu with
      | early _ hs hc => rw [hs]
      | hw _ _ _ hs hc => rw [hs]
      | stay hf he _ hb _ _ _ hs hc' => rw [hs]; exact h
      | power _ _ hst _ _ ho hs hc => rw [hs]; exact h
      | start _ _ hst _ hs hc => rw [hs]; exact h
      | busy _ _ hst _ hv hr hs hc => rw [hs]; exact h
      | rxErr _ _ hst _ hs hc => rw [hs]
      | good _ _ hst hr hv ho hd rx hrx hs hc => rw [hs]; exact h
      | bad _ _ hst hr hv ho hd rx hrx hs hc => rw [hs]
      | finish _ _ hst _ hs hc => rw [hs]; exact h
    | accept m t hcall hst hs hc => exact absurd hcall (hnw e (by simp) m t)
    | refuse m t hcall hst hs hc' => rw [hs]; exact h
    | error hcall hs hc' => exact absurd hcall (hne e (by simp))
    | clearRx hcall hs hc' => rw [hs]; exact h

/-- **C25, a failed transmission is not continued**: after a failure (the transmitter is idle or waits for
the end) nothing is handed to the hardware until a new message is requested. -/
theorem C25_stops (pf : Platform) (s : TxSM) (es : List TxObs) (hr : TxRun pf s es)
    (h : s.st = .idle ∨ s.st = .runningWaitForIdle) (hnw : ∀ e ∈ es, ∀ m t, e.call ≠ .wake m t) : noSend es := by
  induction es generalizing s with
  | nil => intro e he; simp at he
  | cons e es ih =>
    obtain ⟨h1, h2⟩ := hr
    have key : (e.after.st = .idle ∨ e.after.st = .runningWaitForIdle) ∧ ∀ m, HwCmd.send m ∉ e.cmds := by
      cases TxSM.callCase h1 with
      | upd i hcall hu =>
        cases hu with
        | early _ hs hc => simp [hs, hc]
        | hw _ _ _ hs hc => simp [hs, hc]
        | stay hf he _ hb _ _ _ hs hc => simp [hs, hc, h]
        | power _ _ hst _ _ ho hs hc => simp [hst] at h
        | start _ _ hst _ hs hc => simp [hst] at h
        | busy _ _ hst _ hv hr hs hc => simp [hst] at h
        | rxErr _ _ hst _ hs hc => rcases hst with hst | hst <;> simp [hst] at h
        | good _ _ hst hr hv ho hd rx hrx hs hc => rcases hst with hst | hst <;> simp [hst] at h
        | bad _ _ hst hr hv ho hd rx hrx hs hc => rcases hst with hst | hst <;> simp [hst] at h
        | finish _ _ hst _ hs hc => simp [hs, hc]
      | accept m t hcall hst hs hc => exact absurd hcall (hnw e (by simp) m t)
      | refuse m t hcall hst hs hc => simp [hs, hc, h]
      | error hcall hs hc => simp [hs, hc, h]
      | clearRx hcall hs hc => simp [hs, hc, h]
    intro y hy m
    rcases List.mem_cons.mp hy with hy | hy
    · subst hy; exact key.2 m
    · exact ih e.after h2 key.1 (fun y hy => hnw y (by simp [hy])) y hy m

/-! ## C26 -/

/-- Clock readings never go back, and each update is completed at most `d` after the one before
(`t`: completion of the previous one). -/
def Paced (d : Nat) : Nat → List TxObs → Prop
  | _, [] => True
  | t, e :: es => match e.call with
    | .update i => t ≤ i.tErr ∧ i.tErr ≤ i.tPow ∧ i.tPow ≤ i.tNew ∧ i.tNew ≤ t + d ∧ Paced d i.tNew es
    | _ => Paced d t es

/-- Time of the last update. -/
def lastTime : Nat → List TxObs → Nat
  | t, [] => t
  | t, e :: es => match e.call with
    | .update i => lastTime i.tNew es
    | _ => lastTime t es

/-- Progress invariant: `w` is the time of the request. -/
def PaceInv (m : Message) (w d now : Nat) (s : TxSM) : Prop :=
  s.txMsg = m ∧ now ≤ s.dl + d ∧ match s.st with
  | .idle => False
  | .waitLineFree => s.dl = w + 34000 ∧ s.txOffset = 0
  | .waitPowerOn => s.dl ≤ w + 66000 + d ∧ s.txOffset = 0
  | .startedWaitForBusy => s.dl ≤ w + 68000 + 3 * d ∧ s.txOffset = 0
  | .runningCheckData => s.dl ≤ w + 68000 + 3 * d + (s.txOffset + 1) * (4000 + d) ∧ s.txOffset < m.length
  | .runningWaitForIdle => s.dl ≤ w + 68000 + 3 * d + (m.length + 1) * (4000 + d)

theorem PaceInv.step {pf : Platform} {m : Message} (hm : Sendable m) {w d t : Nat} {s : TxSM} {e : TxObs}
    (ih : PaceInv m w d t s) (h : s.call pf e.call = .ok (e.after, e.cmds)) (hn : e.after.st ≠ .idle)
    (hp : Paced d t [e]) : PaceInv m w d (lastTime t [e]) e.after := by
  obtain ⟨hmsg, hnow, hst0⟩ := ih
  obtain ⟨call, cmds, after⟩ := e
  simp only at h hn ⊢
  have hmul : ∀ a b : Nat, a + 1 ≤ b → (a + 1) * (4000 + d) + (4000 + d) ≤ (b + 1) * (4000 + d) := by
    intro a b hab
    have : (a + 1) * (4000 + d) + (4000 + d) = (a + 2) * (4000 + d) := by
      rw [Nat.add_mul, Nat.add_mul]; omega
    rw [this]
    exact Nat.mul_le_mul_right _ (by omega)
  have hone : 1 * (4000 + d) ≤ (m.length + 1) * (4000 + d) := Nat.mul_le_mul_right _ (by omega)
  have hone' : (0 + 1) * (4000 + d) = 4000 + d := by omega
  cases TxSM.callCase h with
  | upd i hcall hu =>
    simp only [hcall, Paced, lastTime, and_true] at hp ⊢
    obtain ⟨p1, p2, p3, p4⟩ := hp
    have hto : s.st ≠ .idle → s.st ≠ .waitPowerOn →
        (s.timedOutError i || s.st.lineStateIsError i.busy) = false → i.tErr < s.dl := by
      intro a b hf
      simp only [Bool.or_eq_false_iff] at hf
      have hf := hf.1
      unfold TxSM.timedOutError at hf
      cases hst : s.st <;> simp [hst, TxSt.timeoutIsError] at hf a b <;> omega
    cases hu with
    | early _ hs hc => simp [hs] at hn
    | hw _ _ _ hs hc => simp [hs] at hn
    | stay hf he _ hb hdl _ _ hs hc =>
      subst hs
      refine ⟨hmsg, ?_, hst0⟩
      by_cases hpo : after.st = .waitPowerOn
      · have := hdl hpo; omega
      · have := hto hn hpo hf; omega
    | power hf _ hst _ _ ho hs hc =>
      have := hto (by simp [hst]) (by simp [hst]) hf
      simp only [hst] at hst0
      refine ⟨by rw [hs]; exact hmsg, by rw [hs]; simp only; omega, ?_⟩
      simp only [hs]
      omega
    | start hf _ hst _ hs hc =>
      simp only [hst] at hst0
      refine ⟨by rw [hs]; exact hmsg, by rw [hs]; simp only; omega, ?_⟩
      simp only [hs]
      omega
    | busy hf _ hst _ hv hr hs hc =>
      have := hto (by simp [hst]) (by simp [hst]) hf
      simp only [hst] at hst0
      refine ⟨by rw [hs]; exact hmsg, by rw [hs]; simp only; omega, ?_⟩
      simp only [hs, hst0.2]
      have := hm.1
      omega
    | rxErr hf _ hst _ hs hc =>
      have := hto (by rcases hst with hst | hst <;> simp [hst]) (by rcases hst with hst | hst <;> simp [hst]) hf
      refine ⟨by rw [hs]; exact hmsg, by rw [hs]; simp only; omega, ?_⟩
      simp only [hs]
      rcases hst with hst | hst <;> simp only [hst] at hst0
      · omega
      · have := hmul s.txOffset m.length (by omega); omega
    | good hf _ hst hr hv ho hd rx hrx hs hc =>
      have := hto (by rcases hst with hst | hst <;> simp [hst]) (by rcases hst with hst | hst <;> simp [hst]) hf
      refine ⟨by rw [hs]; exact hmsg, by rw [hs]; simp only; omega, ?_⟩
      by_cases hl : s.txOffset + 1 = s.txMsg.length
      · simp only [hs, hl, if_true]
        rcases hst with hst | hst <;> simp only [hst] at hst0
        · omega
        · have := hmul s.txOffset m.length (by omega); omega
      · simp only [hs, hl, if_false]
        rw [hmsg] at hl
        have := hm.1
        rcases hst with hst | hst <;> simp only [hst] at hst0
        · refine ⟨?_, by omega⟩
          have := hmul s.txOffset (s.txOffset + 1) (by omega)
          omega
        · refine ⟨?_, by omega⟩
          have := hmul s.txOffset (s.txOffset + 1) (by omega)
          omega
    | bad hf _ hst hr hv ho hd rx hrx hs hc =>
      have := hto (by rcases hst with hst | hst <;> simp [hst]) (by rcases hst with hst | hst <;> simp [hst]) hf
      refine ⟨by rw [hs]; exact hmsg, by rw [hs]; simp only; omega, ?_⟩
      simp only [hs]
      rcases hst with hst | hst <;> simp only [hst] at hst0
      · omega
      · have := hmul s.txOffset m.length (by omega); omega
    | finish _ _ hst _ hs hc => simp [hs] at hn
  | accept m t hcall hst hs hc => simp [hst] at hst0
  | refuse m t hcall hst hs hc =>
    simp only [hcall, lastTime]
    rw [hs]; exact ⟨hmsg, hnow, hst0⟩
  | error hcall hs hc =>
    simp only [hcall, lastTime]
    rw [hs]; exact ⟨hmsg, hnow, hst0⟩
  | clearRx hcall hs hc =>
    simp only [hcall, lastTime]
    rw [hs]; exact ⟨hmsg, hnow, hst0⟩

/-- **C26**: as long as the transmitter has not returned to idle after a request at time `w`, no more than
72 ms + 4 ms per byte (plus `d` for each of the `length + 5` phase changes) have passed, whatever happens on
the bus. -/
theorem C26_ends (pf : Platform) (s0 : TxSM) (h0 : s0.st = .idle) (m : Message) (hm : Sendable m) (w d : Nat)
    (x : TxObs) (es : List TxObs) (hx : x.call = .wake m w) (hr : TxRun pf s0 (x :: es))
    (hp : Paced d w es) (hbusy : ∀ e ∈ es, e.after.st ≠ .idle) :
    lastTime w es ≤ w + 72000 + 4000 * m.length + (m.length + 5) * d := by
  obtain ⟨hx1, hr⟩ := hr
  rw [hx] at hx1
  simp only [TxSM.call, TxSM.wake_idle h0, Res.ok.injEq, Prod.mk.injEq] at hx1
  have hi : PaceInv m w d w x.after := by
    rw [← hx1.1]
    exact ⟨rfl, by simp only; omega, rfl, rfl⟩
  have key : ∀ (es : List TxObs) (t : Nat) (s : TxSM), PaceInv m w d t s → TxRun pf s es → Paced d t es →
      (∀ e ∈ es, e.after.st ≠ .idle) → PaceInv m w d (lastTime t es) (txEnd s es) := by
    intro es
    induction es with
    | nil => intro t s hi _ _ _; exact hi
    | cons e es ih =>
      intro t s hi hr hp hb
      have hp1 : Paced d t [e] := by
        simp only [Paced] at hp ⊢
        split <;> simp_all
      have h1 := hi.step hm hr.1 (hb e (by simp)) hp1
      have h2 := ih (lastTime t [e]) e.after h1 hr.2 ?_ (fun y hy => hb y (by simp [hy]))
      · have e1 : lastTime t (e :: es) = lastTime (lastTime t [e]) es := by
          simp only [lastTime]; split <;> rfl
        rw [e1]; exact h2
      · simp only [Paced, lastTime] at hp ⊢
        split at hp <;> simp_all
  have hfin := key es w x.after hi hr hp hbusy
  generalize lastTime w es = now at hfin
  generalize txEnd x.after es = s at hfin
  obtain ⟨_, h1, h2⟩ := hfin
  have e1 : (m.length + 1) * (4000 + d) = 4000 * m.length + 4000 + (m.length * d + d) := by
    rw [Nat.mul_add, Nat.add_mul m.length 1 d]; omega
  have e2 : (m.length + 5) * d = m.length * d + 5 * d := Nat.add_mul _ _ _
  cases hst : s.st <;> simp only [hst] at h2
  · omega
  · omega
  · omega
  · have : (s.txOffset + 1) * (4000 + d) ≤ (m.length + 1) * (4000 + d) := Nat.mul_le_mul_right _ (by omega)
    omega
  · omega

/-! ## C27 -/

/-- Invariant: the offset is inside the message whenever it is used. -/
def OffInv (s : TxSM) : Prop :=
  s.st ≠ .idle → Sendable s.txMsg ∧
    (s.st = .waitLineFree ∨ s.st = .waitPowerOn ∨ s.st = .startedWaitForBusy → s.txOffset = 0) ∧
    (s.st = .runningCheckData → s.txOffset < s.txMsg.length)

/-- Only sendable messages are requested. -/
def SendableCalls (cs : List TxCall) : Prop := ∀ m t, TxCall.wake m t ∈ cs → Sendable m

theorem OffInv.call_ok {pf : Platform} {s : TxSM} (h : OffInv s) (c : TxCall) : ∃ r, s.call pf c = .ok r := by
  cases c with
  | update i =>
    apply TxSM.update_ok
    intro hst
    have h1 := h (by rcases hst with hst | hst <;> simp [hst])
    have := h1.1.2
    have := h1.1.1
    rcases hst with hst | hst
    · rw [h1.2.1 (by simp [hst])]; omega
    · have := h1.2.2 hst; omega
  | wake m t => exact ⟨_, rfl⟩
  | error => exact ⟨_, rfl⟩
  | clearRx => exact ⟨_, rfl⟩

theorem OffInv.step {pf : Platform} {s s' : TxSM} {c : TxCall} {cmds : List HwCmd} (h : OffInv s)
    (hm : ∀ m t, c = .wake m t → Sendable m) (hc : s.call pf c = .ok (s', cmds)) : OffInv s' := by
  cases TxSM.callCase hc with
  | upd i hcall hu =>
    cases hu with
    | early _ hs hc => intro hn; simp [hs] at hn
    | hw _ _ _ hs hc => intro hn; simp [hs] at hn
    | stay hf he _ hb _ _ _ hs hc' => rw [hs]; exact h
    | power _ _ hst _ _ ho hs hc =>
      have := h (by simp [hst])
      intro _; rw [hs]; exact ⟨this.1, by simp [ho], by simp⟩
    | start _ _ hst _ hs hc =>
      have := h (by simp [hst])
      intro _; rw [hs]; exact ⟨this.1, fun _ => this.2.1 (by simp [hst]), by simp⟩
    | busy _ _ hst _ hv hr hs hc =>
      have := h (by simp [hst])
      intro _; rw [hs]; refine ⟨this.1, by simp, fun _ => ?_⟩
      simp only
      rw [this.2.1 (by simp [hst])]; exact this.1.1
    | rxErr _ _ hst _ hs hc =>
      have := h (by rcases hst with hst | hst <;> simp [hst])
      intro _; rw [hs]; exact ⟨this.1, by simp, by simp⟩
    | good _ _ hst hr hv ho hd rx hrx hs hc =>
      have := h (by rcases hst with hst | hst <;> simp [hst])
      intro _; rw [hs]
      refine ⟨this.1, ?_, ?_⟩ <;> simp only <;> by_cases hl : s.txOffset + 1 = s.txMsg.length <;> simp [hl]
      have h1 := this.1.1
      rcases hst with hst | hst
      · have := this.2.1 (by simp [hst]); omega
      · have := this.2.2 hst; omega
    | bad _ _ hst hr hv ho hd rx hrx hs hc =>
      have := h (by rcases hst with hst | hst <;> simp [hst])
      intro _; rw [hs]; exact ⟨this.1, by simp, by simp⟩
    | finish _ _ hst _ hs hc => intro hn; simp [hs] at hn
  | accept m t hcall hst hs hc =>
    intro _; rw [hs]; exact ⟨hm m t hcall, by simp, by simp⟩
  | refuse m t hcall hst hs hc => rw [hs]; exact h
  | error hcall hs hc => rw [hs]; exact h
  | clearRx hcall hs hc => rw [hs]; exact h

/-- **C27, no access outside the arrays**: no history of calls with messages of 1 to 32 bytes leads to
undefined behaviour. -/
theorem C27_in_bounds (pf : Platform) (g : Nat → UInt8) (cs : List TxCall) (hcs : SendableCalls cs) :
    ∃ r, (TxSM.init g).runCalls pf cs = .ok r := by
  suffices key : ∀ (cs : List TxCall) (s : TxSM), OffInv s → SendableCalls cs → ∃ r, s.runCalls pf cs = .ok r from
    key cs _ (by intro hn; simp [TxSM.init] at hn) hcs
  intro cs
  induction cs with
  | nil => intro s _ _; exact ⟨_, rfl⟩
  | cons c cs ih =>
    intro s hi hcs
    obtain ⟨⟨s1, c1⟩, h1⟩ := hi.call_ok (pf := pf) c
    have hi' := hi.step (fun m t e => hcs m t (by simp [e])) h1
    obtain ⟨r, hr⟩ := ih s1 hi' (fun m t hm => hcs m t (by simp [hm]))
    exact ⟨(r.1, c1 ++ r.2), by simp only [TxSM.runCalls, h1, Res.ok_bind, hr]⟩

/-- Two states that differ at most in the unused part of the payloads. -/
def TxSame (s s' : TxSM) : Prop :=
  SamePacket s.txMsg s'.txMsg ∧ SamePacket s.rxMsg s'.rxMsg ∧ s.st = s'.st ∧ s.dl = s'.dl ∧
  s.txOffset = s'.txOffset ∧ s.err = s'.err

/-- The same hardware call, up to the unused part of the payload. -/
inductive CmdSame : HwCmd → HwCmd → Prop
  | shutdown (b : Bool) : CmdSame (.shutdown b) (.shutdown b)
  | send {m m' : Message} (h : SamePacket m m') : CmdSame (.send m) (.send m')
  | clearFifo : CmdSame .clearFifo .clearFifo

inductive CmdsSame : List HwCmd → List HwCmd → Prop
  | nil : CmdsSame [] []
  | cons {c c' : HwCmd} {l l' : List HwCmd} (h : CmdSame c c') (t : CmdsSame l l') : CmdsSame (c :: l) (c' :: l')

/-- The same call, up to the unused part of the payload. -/
inductive CallSame : TxCall → TxCall → Prop
  | update (i : UpdIn) : CallSame (.update i) (.update i)
  | wake {m m' : Message} (t : Nat) (h : SamePacket m m') : CallSame (.wake m t) (.wake m' t)
  | error : CallSame .error .error
  | clearRx : CallSame .clearRx .clearRx

inductive CallsSame : List TxCall → List TxCall → Prop
  | nil : CallsSame [] []
  | cons {c c' : TxCall} {l l' : List TxCall} (h : CallSame c c') (t : CallsSame l l') : CallsSame (c :: l) (c' :: l')

theorem SamePacket.data_eq {m m' : Message} (h : SamePacket m m') {k : Nat} (hk : k < m.length) :
    m.data k = m'.data k := by
  have h1 : m.bytes[k]? = m'.bytes[k]? := by rw [h.2.2.2]
  have hk' : k < m'.length := by rw [← h.2.2.1]; exact hk
  rw [List.getElem?_eq_getElem (by simpa [Message.bytes] using hk),
    List.getElem?_eq_getElem (by simpa [Message.bytes] using hk')] at h1
  simpa [Message.bytes] using h1

theorem samePacket_of {m m' : Message} (h1 : m.status = m'.status) (h2 : m.time = m'.time)
    (h3 : m.length = m'.length) (h4 : ∀ k < m.length, m.data k = m'.data k) : SamePacket m m' := by
  refine ⟨h1, h2, h3, ?_⟩
  unfold Message.bytes
  rw [← h3]
  apply List.map_congr_left
  intro k hk
  exact h4 k (by simpa using hk)

theorem SamePacket.status {m m' : Message} (h : SamePacket m m') (n : Nat) :
    SamePacket { m with status := n } { m' with status := n } :=
  samePacket_of rfl h.2.1 h.2.2.1 (fun _ hk => h.data_eq hk)

theorem SamePacket.clear {m m' : Message} (h : SamePacket m m') : SamePacket m.clear m'.clear :=
  samePacket_of rfl h.2.1 rfl (fun _ hk => by simp [Message.clear] at hk)

theorem SamePacket.append {m m' r r' : Message} (h : SamePacket m m') (b : UInt8) (hr : m.append b = .ok r)
    (hr' : m'.append b = .ok r') : SamePacket r r' := by
  unfold Message.append at hr hr'
  by_cases hl : m.length < maxPacket
  · have hl' : m'.length < maxPacket := by rw [← h.2.2.1]; exact hl
    rw [if_pos hl, wr_of_lt _ _ hl] at hr
    rw [if_pos hl', wr_of_lt _ _ hl'] at hr'
    simp only [Res.ok_bind, Res.ok.injEq] at hr hr'
    subst hr; subst hr'
    refine samePacket_of h.1 h.2.1 (by simp [h.2.2.1]) ?_
    intro k hk
    simp only at hk ⊢
    unfold upd
    rw [← h.2.2.1]
    by_cases e : k = m.length
    · simp [e]
    · simp [e]; exact h.data_eq (by omega)
  · have hl' : ¬ m'.length < maxPacket := by rw [← h.2.2.1]; exact hl
    rw [if_neg hl] at hr
    rw [if_neg hl'] at hr'
    simp only [Res.ok.injEq] at hr hr'
    subst hr; subst hr'; exact h

theorem CmdsSame.append {a a' b b' : List HwCmd} (h1 : CmdsSame a a') (h2 : CmdsSame b b') :
    CmdsSame (a ++ b) (a' ++ b') := by
  induction h1 with
  | nil => exact h2
  | cons h _ ih => exact .cons h ih

/-- Outcome of one update, as far as the used part of the message matters, is a function of the equivalence
class. -/
theorem TxSame.update {pf : Platform} {s s' r r' : TxSM} {i : UpdIn} {c c' : List HwCmd} (h : TxSame s s')
    (ho : OffInv s) (h1 : s.update pf i = .ok (r, c)) (h2 : s'.update pf i = .ok (r', c')) :
    TxSame r r' ∧ CmdsSame c c' := by
  obtain ⟨e1, e2, e3, e4, e5, e6⟩ := h
  have hfe : (s.timedOutError i || s.st.lineStateIsError i.busy) =
      (s'.timedOutError i || s'.st.lineStateIsError i.busy) := by
    simp [TxSM.timedOutError, e3, e4]
  have hdata : (s.st = .startedWaitForBusy ∨ s.st = .runningCheckData) →
      s.txMsg.data s.txOffset = s'.txMsg.data s'.txOffset := by
    intro hst
    rw [← e5]
    have := ho (by rcases hst with hst | hst <;> simp [hst])
    apply e1.data_eq
    have h1 := this.1.1
    rcases hst with hst | hst
    · rw [this.2.1 (by simp [hst])]; omega
    · exact this.2.2 hst
  unfold TxSM.update at h1 h2
  rw [← hfe] at h2
  split at h1
  · rename_i hf
    simp only [hf, if_true, TxSM.change, Res.ok.injEq, Prod.mk.injEq] at h1 h2
    rw [← h1.1, ← h2.1, ← h1.2, ← h2.2]
    exact ⟨⟨e1, e2.status _, rfl, rfl, e5, rfl⟩, .cons (.shutdown _) .nil⟩
  · rename_i hf
    rw [if_neg hf] at h2
    have hie : s'.isIdle = s.isIdle := by simp [TxSM.isIdle, e3]
    rw [hie] at h2
    split at h1
    · rename_i hh
      simp only [hh, if_true, TxSM.change, Res.ok.injEq, Prod.mk.injEq] at h1 h2
      rw [← h1.1, ← h2.1, ← h1.2, ← h2.2]
      exact ⟨⟨e1, e2.status _, rfl, rfl, e5, rfl⟩, .cons (.shutdown _) .nil⟩
    · rename_i hh
      rw [if_neg hh] at h2
      obtain ⟨d, hd, h1⟩ := Res.bind_eq_ok.mp h1
      obtain ⟨d', hd', h2⟩ := Res.bind_eq_ok.mp h2
      -- checkData on equivalent states
      have hck : ∀ (q q' : TxSM) (bc : Bool) (x x' : TxSM × List HwCmd × Bool), TxSame q q' →
          q.txMsg.data q.txOffset = q'.txMsg.data q'.txOffset →
          q.checkData pf i bc = .ok x → q'.checkData pf i bc = .ok x' →
          TxSame x.1 x'.1 ∧ CmdsSame x.2.1 x'.2.1 ∧ x.2.2 = x'.2.2 := by
        rintro q q' bc x x' ⟨f1, f2, f3, f4, f5, f6⟩ hdat hx hx'
        rcases TxSM.checkData_cases hx with ⟨hr, hx⟩ | ⟨hr, hv, hx⟩ | ⟨hr, hv, _, rx, hrx, hx⟩ <;>
        rcases TxSM.checkData_cases hx' with ⟨hr', hx'⟩ | ⟨hr', hv', hx'⟩ | ⟨hr', hv', _, rx', hrx', hx'⟩ <;>
        simp_all
        · exact ⟨⟨f1, f2.status _, rfl, rfl, rfl, rfl⟩, .nil⟩
        · exact ⟨⟨f1, f2, f3, f4, f5, f6⟩, .nil⟩
        · have hrr : SamePacket rx rx' := f2.append _ hrx hrx'
          have hlen := f1.2.2.1
          rcases hx with ⟨hl, hx⟩ | ⟨hl, hx⟩ <;> rcases hx' with ⟨hl', hx'⟩ | ⟨hl', hx'⟩
          · subst hx; subst hx'
            exact ⟨⟨f1, hrr, rfl, rfl, by simp, rfl⟩, .cons .clearFifo .nil, rfl⟩
          · omega
          · omega
          · subst hx; subst hx'
            exact ⟨⟨f1, hrr, rfl, rfl, by simp, rfl⟩, .nil, rfl⟩
      have hdd : TxSame d.1 d'.1 ∧ CmdsSame d.2.1 d'.2.1 ∧ d.2.2 = d'.2.2 := by
        unfold TxSM.dispatch at hd hd'
        rw [← e3] at hd'
        cases hst : s.st <;> simp only [hst] at hd hd'
        · simp only [Res.ok.injEq] at hd hd'
          rw [← hd, ← hd']
          exact ⟨⟨e1, e2, e3, e4, e5, e6⟩, .nil, rfl⟩
        · rw [← e5] at hd'
          split at hd <;> rename_i hc <;> simp only [hc, if_true, if_false, Bool.false_eq_true] at hd' <;>
            simp only [Res.ok.injEq] at hd hd' <;> rw [← hd, ← hd']
          · exact ⟨⟨e1, e2, rfl, rfl, e5, e6⟩, .cons (.shutdown _) .nil, rfl⟩
          · exact ⟨⟨e1, e2, e3, e4, e5, e6⟩, .nil, rfl⟩
        · rw [← e4] at hd'
          split at hd <;> rename_i hc <;> simp only [hc, if_true, if_false] at hd' <;>
            simp only [Res.ok.injEq] at hd hd' <;> rw [← hd, ← hd']
          · exact ⟨⟨e1, e2, rfl, rfl, e5, e6⟩, .cons (.send e1) .nil, rfl⟩
          · exact ⟨⟨e1, e2, e3, e4, e5, e6⟩, .nil, rfl⟩
        · -- started
          obtain ⟨p1, p2, p3, p4⟩ : TxSame (s.sawStart i).1 (s'.sawStart i).1 ∧
              CmdsSame (s.sawStart i).2.1 (s'.sawStart i).2.1 ∧ (s.sawStart i).2.2 = (s'.sawStart i).2.2 ∧
              (s.sawStart i).1.txMsg.data (s.sawStart i).1.txOffset =
                (s'.sawStart i).1.txMsg.data (s'.sawStart i).1.txOffset := by
            have hdat := hdata (.inl hst)
            unfold TxSM.sawStart
            split
            · exact ⟨⟨e1, e2.status _, e3, e4, e5, e6⟩, .nil, rfl, hdat⟩
            · split
              · exact ⟨⟨e1, e2, rfl, rfl, e5, e6⟩, .nil, rfl, hdat⟩
              · exact ⟨⟨e1, e2, e3, e4, e5, e6⟩, .nil, rfl, hdat⟩
          split at hd <;> rename_i hc
          · simp only [hc, if_true] at hd'
            simp only [Res.ok.injEq] at hd hd'
            rw [← hd, ← hd']
            exact ⟨p1, p2, p3⟩
          · rw [if_neg hc] at hd'
            obtain ⟨q, hq, hd⟩ := Res.bind_eq_ok.mp hd
            obtain ⟨q', hq', hd'⟩ := Res.bind_eq_ok.mp hd'
            simp only [Res.ok.injEq] at hd hd'
            rw [← p3] at hq'
            have := hck _ _ _ q q' p1 p4 hq hq'
            rw [← hd, ← hd']
            exact ⟨this.1, p2.append this.2.1, this.2.2⟩
        · exact hck _ _ _ d d' ⟨e1, e2, e3, e4, e5, e6⟩ (hdata (.inr hst)) hd hd'
        · split at hd <;> rename_i hc <;> simp only [hc, if_true, if_false, Bool.false_eq_true] at hd' <;>
            simp only [Res.ok.injEq] at hd hd' <;> rw [← hd, ← hd']
          · exact ⟨⟨e1, e2, rfl, rfl, e5, e6⟩, .cons (.shutdown _) .nil, rfl⟩
          · exact ⟨⟨e1, e2, e3, e4, e5, e6⟩, .nil, rfl⟩
      obtain ⟨⟨g1, g2, g3, g4, g5, g6⟩, hcs, hbc⟩ := hdd
      rw [← hbc] at h2
      split at h1 <;> rename_i hb <;> simp only [hb, if_true, if_false, Bool.false_eq_true] at h2 <;>
        simp only [TxSM.change, Res.ok.injEq, Prod.mk.injEq] at h1 h2 <;> rw [← h1.1, ← h2.1, ← h1.2, ← h2.2]
      · refine ⟨⟨g1, ?_, rfl, rfl, g5, rfl⟩, hcs.append (.cons .clearFifo .nil)⟩
        change SamePacket (if d.1.rxMsg.status = 0 then { d.1.rxMsg with status := 21 } else d.1.rxMsg)
          (if d'.1.rxMsg.status = 0 then { d'.1.rxMsg with status := 21 } else d'.1.rxMsg)
        by_cases h0 : d.1.rxMsg.status = 0
        · rw [if_pos h0, if_pos (by rw [← g2.1]; exact h0)]; exact g2.status _
        · rw [if_neg h0, if_neg (by rw [← g2.1]; exact h0)]; exact g2
      · exact ⟨⟨g1, g2, g3, g4, g5, g6⟩, hcs⟩

/-- **C27, only the bytes of the message matter**: two histories with the same packets but arbitrary other
content behind them in the payload arrays are indistinguishable: same phases, same error flags, same packets
to the hardware, same reports. -/
theorem C27_depends_on_bytes_only (pf : Platform) (g g' : Nat → UInt8) (cs cs' : List TxCall)
    (hcs : SendableCalls cs) (hsame : CallsSame cs cs') (r r' : TxSM × List HwCmd)
    (h : (TxSM.init g).runCalls pf cs = .ok r) (h' : (TxSM.init g').runCalls pf cs' = .ok r') :
    TxSame r.1 r'.1 ∧ CmdsSame r.2 r'.2 := by
  have h0 : TxSame (TxSM.init g) (TxSM.init g') :=
    ⟨⟨rfl, rfl, rfl, rfl⟩, ⟨rfl, rfl, rfl, rfl⟩, rfl, rfl, rfl, rfl⟩
  have hi : OffInv (TxSM.init g) := by intro hn; simp [TxSM.init] at hn
  generalize TxSM.init g = s at *
  generalize TxSM.init g' = s' at *
  induction hsame generalizing s s' r r' with
  | nil =>
    simp only [TxSM.runCalls, Res.ok.injEq] at h h'
    rw [← h, ← h']; exact ⟨h0, .nil⟩
  | @cons c c' l l' hc hl ih =>
    simp only [TxSM.runCalls] at h h'
    obtain ⟨⟨q, k⟩, hq, h⟩ := Res.bind_eq_ok.mp h
    obtain ⟨⟨q', k'⟩, hq', h'⟩ := Res.bind_eq_ok.mp h'
    obtain ⟨p, hp, h⟩ := Res.bind_eq_ok.mp h
    obtain ⟨p', hp', h'⟩ := Res.bind_eq_ok.mp h'
    simp only [Res.ok.injEq] at h h'
    have hstep : TxSame q q' ∧ CmdsSame k k' := by
      obtain ⟨e1, e2, e3, e4, e5, e6⟩ := h0
      cases hc with
      | update i => exact TxSame.update ⟨e1, e2, e3, e4, e5, e6⟩ hi hq hq'
      | wake t hm =>
        simp only [TxSM.call, Res.ok.injEq] at hq hq'
        by_cases hid : s.st = .idle
        · rw [TxSM.wake_idle hid] at hq
          rw [TxSM.wake_idle (by rw [← e3]; exact hid)] at hq'
          simp only [Prod.mk.injEq] at hq hq'
          rw [← hq.1, ← hq'.1, ← hq.2, ← hq'.2]
          exact ⟨⟨hm, e2.clear, rfl, rfl, rfl, rfl⟩, .nil⟩
        · rw [TxSM.wake_busy hid] at hq
          rw [TxSM.wake_busy (by rw [← e3]; exact hid)] at hq'
          simp only [Prod.mk.injEq] at hq hq'
          rw [← hq.1, ← hq'.1, ← hq.2, ← hq'.2]
          exact ⟨⟨e1, e2, e3, e4, e5, e6⟩, .nil⟩
      | error =>
        simp only [TxSM.call, TxSM.error, Res.ok.injEq, Prod.mk.injEq] at hq hq'
        rw [← hq.1, ← hq'.1, ← hq.2, ← hq'.2]
        exact ⟨⟨e1, e2, e3, e4, e5, rfl⟩, .nil⟩
      | clearRx =>
        simp only [TxSM.call, Res.ok.injEq, Prod.mk.injEq] at hq hq'
        rw [← hq.1, ← hq'.1, ← hq.2, ← hq'.2]
        exact ⟨⟨e1, e2.clear, e3, e4, e5, e6⟩, .nil⟩
    have hi' := hi.step (fun m t e => hcs m t (by simp [e])) hq
    have := ih (fun m t hm => hcs m t (by simp [hm])) p p' q hp hi' q' hp' hstep.1
    rw [← h, ← h']
    exact ⟨this.1, hstep.2.append this.2⟩

/-! ## C28 -/

/-- The status codes documented in pico/doc/uart.md:26-40 and message.hpp:9-22. -/
def documentedStatus (n : Nat) : Prop := n ≤ 5

/-- **C28 is violated**: whenever the echo differs (with nothing else wrong and no status pending), the
reported status is 21, not STATUS_ERR_BUS_COLLISION = 1, and not a documented code at all. -/
theorem C28_refuted (pf : Platform) (s s' : TxSM) (i : UpdIn) (c : List HwCmd) (h : s.update pf i = .ok (s', c))
    (hst : s.st = .startedWaitForBusy ∨ s.st = .runningCheckData) (hb : i.busy = true) (ht : i.tErr < s.dl)
    (hh : i.hwErr = false) (hv : i.rxValid = true) (he : i.rxError = false)
    (hd : s.txMsg.data s.txOffset ≠ i.rxChar) (h0 : s.rxMsg.status = 0) :
    s'.rxMsg.status = 21 ∧ s'.rxMsg.status ≠ Message.errBusCollision ∧ ¬ documentedStatus s'.rxMsg.status := by
  have key : s'.rxMsg.status = 21 := by
    have hto : s.timedOutError i = false := by
      simp only [TxSM.timedOutError, Bool.and_eq_false_iff, decide_eq_false_iff_not]
      left; omega
    have hdf : TxSM.echoDiffers pf (s.txMsg.data s.txOffset) i.rxChar = true := by
      unfold TxSM.echoDiffers
      split
      · rfl
      · simpa using hd
    cases TxSM.updCase h with
    | early hf hs hc =>
      rcases hst with hst | hst <;>
        simp [hto, hst, hb, TxSt.lineStateIsError, TxSt.busyIsError] at hf
    | hw _ _ hx hs hc => simp [hh] at hx
    | stay hf1 hx hn hbb _ _ _ hs hc => have := hbb hst; simp [hv] at this
    | power hf1 hx hst' _ _ _ hs hc => rcases hst with hst | hst <;> simp [hst] at hst'
    | start hf1 hx hst' _ hs hc => rcases hst with hst | hst <;> simp [hst] at hst'
    | busy hf1 hx hst' _ hv' hr hs hc => simp [hv] at hv'
    | rxErr _ _ _ hr hs hc => simp [he] at hr
    | good hf1 hx hst' hr hv' _ hd' rx _ hs hc => simp [hdf] at hd'
    | bad _ _ _ _ _ _ _ rx hrx hs hc =>
      have hrs : rx.status = 0 := by
        unfold Message.append at hrx
        split at hrx
        · obtain ⟨d, _, hrx⟩ := Res.bind_eq_ok.mp hrx
          simp only [Res.ok.injEq] at hrx
          rw [← hrx]; exact h0
        · simp only [Res.ok.injEq] at hrx
          rw [← hrx]; exact h0
      rw [hs]; simp [hrs]
    | finish hf1 hx hst' _ hs hc => rcases hst with hst | hst <;> simp [hst] at hst'
  rw [key]
  exact ⟨rfl, by decide, by unfold documentedStatus; omega⟩

/-- **C28, the part that holds**: a collision ends the transmission with the error flag, and the status is that of an error, never 0 and never that
of a wrong byte (3), so that the main loop reports it. -/
theorem C28_reported_partial (pf : Platform) (s s' : TxSM) (i : UpdIn) (c : List HwCmd) (h : s.update pf i = .ok (s', c))
    (hst : s.st = .startedWaitForBusy ∨ s.st = .runningCheckData) (hb : i.busy = true) (ht : i.tErr < s.dl)
    (hh : i.hwErr = false) (hv : i.rxValid = true) (he : i.rxError = false)
    (hd : s.txMsg.data s.txOffset ≠ i.rxChar) (h0 : s.rxMsg.status = 0) :
    s'.err = true ∧ s'.st = .runningWaitForIdle ∧ s'.rxMsg.status ≠ 0 ∧ s'.rxMsg.status ≠ Message.errParity := by
  have hto : s.timedOutError i = false := by
    simp only [TxSM.timedOutError, Bool.and_eq_false_iff, decide_eq_false_iff_not]
    left; omega
  have hdf : TxSM.echoDiffers pf (s.txMsg.data s.txOffset) i.rxChar = true := by
    unfold TxSM.echoDiffers
    split
    · rfl
    · simpa using hd
  have k := (C28_refuted pf s s' i c h hst hb ht hh hv he hd h0).1
  rw [k]
  refine ⟨?_, ?_, by decide, by decide⟩ <;> cases TxSM.updCase h with
    | early hf hs hc =>
      rcases hst with hst | hst <;>
        simp [hto, hst, hb, TxSt.lineStateIsError, TxSt.busyIsError] at hf
    | hw _ _ hx hs hc => simp [hh] at hx
    | stay hf1 hx hn hbb _ _ _ hs hc => have := hbb hst; simp [hv] at this
    | power hf1 hx hst' _ _ _ hs hc => rcases hst with hst | hst <;> simp [hst] at hst'
    | start hf1 hx hst' _ hs hc => rcases hst with hst | hst <;> simp [hst] at hst'
    | busy hf1 hx hst' _ hv' hr hs hc => simp [hv] at hv'
    | rxErr _ _ _ hr hs hc => simp [he] at hr
    | good hf1 hx hst' hr hv' _ hd' rx _ hs hc => simp [hdf] at hd'
    | bad _ _ _ _ _ _ _ rx hrx hs hc => rw [hs]
    | finish hf1 hx hst' _ hs hc => rcases hst with hst | hst <;> simp [hst] at hst'

/-! ## C29 -/

/-- **C29**: a request during a transmission changes nothing and touches no hardware; when idle it loads the
message, clears error flag and echo and starts waiting for the line. -/
theorem C29_request (s : TxSM) (m : Message) (now : Nat) :
    (s.st ≠ .idle → s.wake m now = (s, [])) ∧
    (s.st = .idle → (s.wake m now).2 = [] ∧ (s.wake m now).1.txMsg = m ∧ (s.wake m now).1.err = false ∧
      (s.wake m now).1.rxMsg.bytes = [] ∧ (s.wake m now).1.rxMsg.status = 0 ∧
      (s.wake m now).1.st = .waitLineFree) := by
  refine ⟨fun h => TxSM.wake_busy h m now, fun h => ?_⟩
  rw [TxSM.wake_idle h]
  simp [Message.clear, Message.bytes]

/-! ## C79 and concrete executions -/

/-- A message without data bytes. -/
def emptyPacket : Message := { status := 0, time := 0, data := fun _ => 0, length := 0 }

/-- An update at time `t` with nothing special. -/
def upd0 (t : Nat) (busy : Bool) : UpdIn :=
  { busy := busy, rxError := false, rxValid := false, rxChar := 0, hwErr := false, transmitting := false,
    tErr := t, tPow := t, tNew := t }

/-- An update at time `t` that received byte `b`. -/
def updRx (t : Nat) (b : UInt8) : UpdIn := { upd0 t true with rxValid := true, rxChar := b }

/-- **C79 is violated**: requesting an empty message makes the echo check run past the payload: 33 bytes equal
to the content of memory lead to an out-of-range access. -/
theorem C79_refuted :
    (TxSM.init (fun _ => 0)).runCalls .arm ([.wake emptyPacket 0, .update (upd0 10 false),
      .update (upd0 32010 false)] ++ List.replicate 33 (.update (updRx 32020 0))) = .ub := rfl

/-- A two byte message. -/
def demoMsg : Message := { status := 0, time := 0, data := fun k => if k = 0 then 0x40 else 0xf0, length := 2 }

/-- A successful transmission of it. -/
def demoCalls : List TxCall :=
  [.wake demoMsg 0, .update (upd0 10 false), .update (upd0 32010 false), .update (upd0 32020 true),
   .update (updRx 33000 0x40), .error, .update (updRx 34000 0xf0), .update (upd0 35000 false)]

/-- The demo execution (a `TxRun` by `TxRun.annotate`). -/
def demoRun : List TxObs := annotate .arm (TxSM.init fun _ => 0) demoCalls

/-- It is complete, ends idle without error after a complete echo, is not idle in between, and is paced: the
hypotheses of C22 - C24, C26 and C27 are met. -/
example : TxRun .arm (TxSM.init fun _ => 0) demoRun ∧ demoRun.map (fun e => e.after.st) =
    [.waitLineFree, .waitPowerOn, .startedWaitForBusy, .runningCheckData, .runningCheckData, .runningCheckData,
     .runningWaitForIdle, .idle] ∧ (∀ e ∈ demoRun, e.after.err = false) ∧ echoes demoRun = demoMsg.bytes ∧
    Sendable demoMsg ∧ Paced 32000 0 (demoRun.drop 1) := by
  refine ⟨TxRun.annotate _ _ _, by decide, ?_, by decide, ⟨by decide, by decide⟩, ?_⟩
  · have : demoRun.all (fun e => !e.after.err) = true := by decide
    simpa using this
  · simp [Paced, demoRun, demoCalls, annotate, TxSM.call, TxSM.error, TxSM.wake, TxSM.isIdle, TxSM.init,
      TxSM.change, TxSM.update, TxSM.timedOutError, TxSt.lineStateIsError, waitCounter, TxSt.timeout,
      TxSt.timeoutIsError, TxSt.busyIsError, TxSt.freeIsError, upd0, updRx, TxSM.dispatch, TxSM.sawStart,
      TxSM.checkData, rd, maxPacket, demoMsg, Message.append, wr, Message.clear, Message.empty,
      TxSM.echoDiffers, Platform.arm]

/-- Failing executions (hypotheses of C25, C28): a wrong echo, a late line, a busy line at power-up. -/
example :
    (annotate .arm (TxSM.init fun _ => 0) (demoCalls.take 4 ++ [.update (updRx 33000 0x41)])).map
      (fun e => (e.after.st, e.after.err, e.after.rxMsg.status)) =
      [(.waitLineFree, false, 0), (.waitPowerOn, false, 0), (.startedWaitForBusy, false, 0),
       (.runningCheckData, false, 0), (.runningWaitForIdle, true, 21)] ∧
    (annotate .arm (TxSM.init fun _ => 0) [.wake demoMsg 0, .update (upd0 33999 true),
      .update (upd0 34000 true)]).map (fun e => (e.after.st, e.after.err, e.after.rxMsg.status)) =
      [(.waitLineFree, false, 0), (.waitLineFree, false, 0), (.idle, true, 1)] ∧
    (annotate .arm (TxSM.init fun _ => 0) [.wake demoMsg 0, .update (upd0 5 false),
      .update (upd0 6 true)]).map (fun e => (e.after.st, e.after.err, e.after.rxMsg.status)) =
      [(.waitLineFree, false, 0), (.waitPowerOn, false, 0), (.idle, true, 1)] := by decide

end P1P2
