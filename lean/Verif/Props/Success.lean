import Verif.Props.LoopTx
import Verif.Spec.Success
/-!
# Property C114: an undisturbed transmission succeeds
-/
namespace P1P2

/-- A transmission of `m` is under way, without failure so far. -/
structure Trk (m : Message) (c : Core0) (st : TxSt) (dl off : Nat) : Prop where
  good : c.Good
  word : c.word = .zero
  st : c.sm.st = st
  dl : c.sm.dl = dl
  msg : c.sm.txMsg = m
  off : c.sm.txOffset = off
  err : c.sm.err = false

/-- What the transmitter is told in an iteration. -/
def toldIn (busy : Bool) (e : Env2) : UpdIn :=
  { busy := busy, rxError := (e.word.getD .zero).rxError, rxValid := (e.word.getD .zero).rxValid, rxChar := (e.word.getD .zero).rxChar, hwErr := e.hwErr,
    transmitting := e.transmitting, tErr := e.tErr, tPow := e.tPow, tNew := e.tNew }

theorem same_tx {s s' : TxSM} (h : SameTx s s') (he : s.err = false) (hr : s'.rxMsg = s.rxMsg) : s' = s := by
  obtain ⟨h1, h2, h3, h4, h5⟩ := h
  cases s; cases s'
  simp_all

theorem Trk.step {pf : Platform} {g : Nat → UInt8} {m : Message} {c c' : Core0} {st : TxSt} {dl off : Nat} {e : Env1 × Env2} {o : Out2} (h : Trk m c st dl off)
    (hi : st ≠ .idle) (hw : ∀ w, e.2.word = some w → WordOk w) (h1 : c.iter pf g e = .ok (c', o)) :
    c.sm.update pf (toldIn c'.lineBusy e.2) = .ok (c'.sm, o.cmds) ∧ c'.Good ∧ c'.word = .zero ∧ o.started = none ∧ txMsgs o.reports = [] ∧
    c'.lineBusy = busKnownBusy c.lineBusy (wordsOf [e]) := by
  obtain ⟨p, hp, hc⟩ := iter_trace h.good h1
  have hb : c.sm.st ≠ .idle := by rw [h.st]; exact hi
  have hs : txEnd c.sm p = c.sm := by
    refine same_tx hp.last h.err ?_
    rcases hp.keep with hk | ⟨hk, _⟩
    · exact hk
    · rw [h.err] at hk; cases hk
  have ht : txMsgs o.reports = [] := by rw [iter_tx h.good h1, if_neg (by simp [h.err])]
  rcases hc with ⟨_, hi', _⟩ | ⟨_, hz, ⟨hst, hu⟩ | ⟨m', hst, hm', hi', hu⟩⟩
  · exact absurd hi' hb
  · rw [hs, h.word] at hu
    exact ⟨hu, (h.good.iter h1).1, hz, hst, ht, iter_lineBusy h1 hw⟩
  · exact absurd hi' hb

/-! ## The phases -/

theorem upd_wait {pf : Platform} {s : TxSM} {i : UpdIn} (hs : s.st = .waitLineFree) (ht : i.tErr < s.dl) (he : i.hwErr = false)
    (hb : i.busy = true ∨ i.transmitting = true) : s.update pf i = .ok (s, []) := by
  have : ¬ s.dl ≤ i.tErr := by omega
  rcases hb with hb | hb <;>
  simp [TxSM.update, TxSM.timedOutError, hs, this, TxSt.timeoutIsError, TxSt.lineStateIsError, TxSt.busyIsError, TxSt.freeIsError, he, TxSM.dispatch, hb]

theorem upd_on {pf : Platform} {s : TxSM} {i : UpdIn} (hs : s.st = .waitLineFree) (ht : i.tErr < s.dl) (he : i.hwErr = false) (ho : s.txOffset = 0)
    (hb : i.busy = false) (htr : i.transmitting = false) : s.update pf i = .ok ({ s with st := .waitPowerOn, dl := i.tNew + 32000 }, [.shutdown false]) := by
  have : ¬ s.dl ≤ i.tErr := by omega
  simp [TxSM.update, TxSM.timedOutError, hs, this, TxSt.timeoutIsError, TxSt.lineStateIsError, TxSt.busyIsError, TxSt.freeIsError, he, TxSM.dispatch, hb, htr, ho,
    TxSM.change, waitCounter, TxSt.timeout, TxSM.entryCmds]

theorem upd_power {pf : Platform} {s : TxSM} {i : UpdIn} (hs : s.st = .waitPowerOn) (ht : i.tPow < s.dl) (he : i.hwErr = false)
    (hb : i.busy = false) : s.update pf i = .ok (s, []) := by
  have : ¬ s.dl ≤ i.tPow := by omega
  simp [TxSM.update, TxSM.timedOutError, hs, this, TxSt.timeoutIsError, TxSt.lineStateIsError, TxSt.busyIsError, TxSt.freeIsError, he, TxSM.dispatch, hb]

theorem upd_snd {pf : Platform} {s : TxSM} {i : UpdIn} (hs : s.st = .waitPowerOn) (ht : s.dl ≤ i.tPow) (he : i.hwErr = false)
    (hb : i.busy = false) : s.update pf i = .ok ({ s with st := .startedWaitForBusy, dl := i.tNew + 2000 }, [.send s.txMsg]) := by
  simp [TxSM.update, TxSM.timedOutError, hs, ht, TxSt.timeoutIsError, TxSt.lineStateIsError, TxSt.busyIsError, TxSt.freeIsError, he, TxSM.dispatch, hb,
    TxSM.change, waitCounter, TxSt.timeout, TxSM.entryCmds]

theorem upd_listen {pf : Platform} {s : TxSM} {i : UpdIn} (hs : s.st = .startedWaitForBusy) (ht : i.tErr < s.dl) (he : i.hwErr = false)
    (hb : i.busy = false) (hv : i.rxValid = false) (hr : i.rxError = false) : s.update pf i = .ok (s, []) := by
  have : ¬ s.dl ≤ i.tErr := by omega
  simp [TxSM.update, TxSM.timedOutError, hs, this, TxSt.timeoutIsError, TxSt.lineStateIsError, TxSt.busyIsError, TxSt.freeIsError, he, TxSM.dispatch, hb, hv, hr,
    TxSM.sawStart]

theorem upd_first {pf : Platform} {s : TxSM} {i : UpdIn} (hs : s.st = .startedWaitForBusy) (ht : i.tErr < s.dl) (he : i.hwErr = false)
    (hb : i.busy = true) (hv : i.rxValid = false) (hr : i.rxError = false) :
    s.update pf i = .ok ({ s with st := .runningCheckData, dl := i.tNew + 4000 }, []) := by
  have : ¬ s.dl ≤ i.tErr := by omega
  simp [TxSM.update, TxSM.timedOutError, hs, this, TxSt.timeoutIsError, TxSt.lineStateIsError, TxSt.busyIsError, TxSt.freeIsError, he, TxSM.dispatch, hb, hv, hr,
    TxSM.sawStart, TxSM.change, waitCounter, TxSt.timeout, TxSM.entryCmds]

theorem upd_quiet {pf : Platform} {s : TxSM} {i : UpdIn} (hs : s.st = .runningCheckData) (ht : i.tErr < s.dl) (he : i.hwErr = false)
    (hb : i.busy = true) (hv : i.rxValid = false) (hr : i.rxError = false) : s.update pf i = .ok (s, []) := by
  have : ¬ s.dl ≤ i.tErr := by omega
  simp [TxSM.update, TxSM.timedOutError, hs, this, TxSt.timeoutIsError, TxSt.lineStateIsError, TxSt.busyIsError, TxSt.freeIsError, he, TxSM.dispatch, hb, hv, hr,
    TxSM.checkData]

theorem upd_tail {pf : Platform} {s : TxSM} {i : UpdIn} (hs : s.st = .runningWaitForIdle) (ht : i.tErr < s.dl) (he : i.hwErr = false)
    (hb : i.busy = true) : s.update pf i = .ok (s, []) := by
  have : ¬ s.dl ≤ i.tErr := by omega
  simp [TxSM.update, TxSM.timedOutError, hs, this, TxSt.timeoutIsError, TxSt.lineStateIsError, TxSt.busyIsError, TxSt.freeIsError, he, TxSM.dispatch, hb]

theorem upd_fin {pf : Platform} {s : TxSM} {i : UpdIn} (hs : s.st = .runningWaitForIdle) (ht : i.tErr < s.dl) (he : i.hwErr = false)
    (hb : i.busy = false) : s.update pf i = .ok ({ s with st := .idle, dl := 0 }, [.shutdown true]) := by
  have : ¬ s.dl ≤ i.tErr := by omega
  simp [TxSM.update, TxSM.timedOutError, hs, this, TxSt.timeoutIsError, TxSt.lineStateIsError, TxSt.busyIsError, TxSt.freeIsError, he, TxSM.dispatch, hb,
    TxSM.change, waitCounter, TxSt.timeout, TxSM.entryCmds]

theorem upd_byte {pf : Platform} (hpf : pf.charSigned = false) {s s' : TxSM} {i : UpdIn} {cmds : List HwCmd}
    (hs : s.st = .startedWaitForBusy ∨ s.st = .runningCheckData) (ht : i.tErr < s.dl) (he : i.hwErr = false)
    (hb : i.busy = true) (hv : i.rxValid = true) (hr : i.rxError = false) (hc : s.txMsg.data s.txOffset = i.rxChar) (h : s.update pf i = .ok (s', cmds)) :
    s'.st = (if s.txOffset + 1 = s.txMsg.length then .runningWaitForIdle else .runningCheckData) ∧ s'.dl = i.tNew + 4000 ∧ s'.txMsg = s.txMsg ∧
    s'.txOffset = s.txOffset + 1 ∧ s'.err = s.err ∧ cmds = if s.txOffset + 1 = s.txMsg.length then [.clearFifo] else [] := by
  have hf0 : (s.timedOutError i || s.st.lineStateIsError i.busy) = false := by
    have : ¬ s.dl ≤ i.tErr := by omega
    rcases hs with hs | hs <;> simp [TxSM.timedOutError, this, hs, TxSt.lineStateIsError, hb, TxSt.busyIsError]
  cases TxSM.updCase h with
  | early hf => rw [hf0] at hf; cases hf
  | hw _ _ hh => rw [he] at hh; cases hh
  | stay _ _ _ h1 => have := (h1 hs).1; rw [hv] at this; cases this
  | power _ _ hst => rcases hs with hs | hs <;> rw [hs] at hst <;> cases hst
  | start _ _ hst => rcases hs with hs | hs <;> rw [hs] at hst <;> cases hst
  | busy _ _ _ _ h1 => rw [hv] at h1; cases h1
  | rxErr _ _ _ h1 => rw [hr] at h1; cases h1
  | good _ _ _ _ _ ho hd rx hrx h1 h2 => subst h1 h2; exact ⟨rfl, rfl, rfl, rfl, rfl, rfl⟩
  | bad _ _ _ _ _ ho hd rx hrx h1 h2 => simp [TxSM.echoDiffers, hpf, hc] at hd
  | finish _ _ hst => rcases hs with hs | hs <;> rw [hs] at hst <;> cases hst

/-- What the iterations of a phase did. -/
structure Quietly (os : List Out2) (cmds : List HwCmd) : Prop where
  cmds : os.flatMap Out2.cmds = cmds
  started : os.filterMap Out2.started = []
  told : ∀ o ∈ os, txMsgs o.reports = []

theorem Quietly.nil : Quietly [] [] := ⟨rfl, rfl, by simp⟩

theorem Quietly.cons {o : Out2} {os : List Out2} {a b : List HwCmd} (h1 : o.cmds = a) (h2 : o.started = none) (h3 : txMsgs o.reports = []) (h : Quietly os b) :
    Quietly (o :: os) (a ++ b) := by
  refine ⟨by rw [List.flatMap_cons, h1, h.cmds], by rw [List.filterMap_cons_none h2, h.started], ?_⟩
  intro x hx
  rcases List.mem_cons.mp hx with rfl | hx
  · exact h3
  · exact h.told x hx

theorem Quietly.append {os os' : List Out2} {a b : List HwCmd} (h : Quietly os a) (h' : Quietly os' b) : Quietly (os ++ os') (a ++ b) := by
  refine ⟨by rw [List.flatMap_append, h.cmds, h'.cmds], by rw [List.filterMap_append, h.started, h'.started]; rfl, ?_⟩
  intro x hx
  rcases List.mem_append.mp hx with hx | hx
  · exact h.told x hx
  · exact h'.told x hx

theorem noBusy_busy {b : Bool} {e : Env1 × Env2} (hb : b = false) (h : NoBusy e) : busKnownBusy b (wordsOf [e]) = false := by
  subst hb
  cases hw : e.2.word with
  | none => simp [wordsOf, hw, busKnownBusy]
  | some w => have := h w hw; cases hf : w.lineFree <;> simp [wordsOf, hw, busKnownBusy, this, hf]

theorem noByte_told {b : Bool} {e : Env1 × Env2} (h : NoByte e) : (toldIn b e.2).rxValid = false ∧ (toldIn b e.2).rxError = false := by
  cases hw : e.2.word with
  | none => simp [toldIn, hw, Word.zero]
  | some w => simpa [toldIn, hw] using h w hw

theorem run_wait {pf : Platform} {g : Nat → UInt8} {m : Message} {dl : Nat} : ∀ {es : List (Env1 × Env2)} {c c' : Core0} {os : List Out2}, Trk m c .waitLineFree dl 0 →
    LoopWordsOk es →
    (∀ a e a', es = a ++ e :: a' → e.2.hwErr = false ∧ e.2.tErr < dl ∧ (busKnownBusy c.lineBusy (wordsOf (a ++ [e])) = true ∨ e.2.transmitting = true)) →
    c.run pf g es = .ok (c', os) → Trk m c' .waitLineFree dl 0 ∧ Quietly os [] ∧ c'.lineBusy = busKnownBusy c.lineBusy (wordsOf es) := by
  intro es
  induction es with
  | nil => intro c c' os ht _ _ h; cases h; exact ⟨ht, .nil, rfl⟩
  | cons e es ih =>
    intro c c' os ht hw hyp h
    obtain ⟨c1, o, os', h1, h2, rfl⟩ := Core0.run_cons h
    obtain ⟨a1, a2, a3⟩ := hyp [] e es rfl
    obtain ⟨s1, s2, s3, s4, s5, s6⟩ := ht.step (by simp) (fun w hh => hw w (by simp [wordsOf, hh])) h1
    rw [List.nil_append, ← s6] at a3
    rw [upd_wait ht.st (by rw [ht.dl]; exact a2) a1 a3] at s1
    simp only [Res.ok.injEq, Prod.mk.injEq] at s1
    obtain ⟨s1, s7⟩ := s1
    have ht1 : Trk m c1 .waitLineFree dl 0 := ⟨s2, s3, by rw [← s1]; exact ht.st, by rw [← s1]; exact ht.dl, by rw [← s1]; exact ht.msg, by rw [← s1]; exact ht.off,
      by rw [← s1]; exact ht.err⟩
    have hws : wordsOf (e :: es) = wordsOf [e] ++ wordsOf es := by rw [← wordsOf_append]; rfl
    obtain ⟨r1, r2, r3⟩ := ih ht1 (fun w hh => hw w (by rw [hws]; exact List.mem_append_right _ hh)) (by
      intro a e' a' hea
      obtain ⟨b1, b2, b3⟩ := hyp (e :: a) e' a' (by rw [hea]; rfl)
      refine ⟨b1, b2, ?_⟩
      rw [s6, ← busKnownBusy_append, ← wordsOf_append]
      exact b3) h2
    refine ⟨r1, ?_, by rw [r3, s6, hws, busKnownBusy_append]⟩
    have := Quietly.cons s7.symm s4 s5 r2
    exact this

theorem run_stay {pf : Platform} {g : Nat → UInt8} {m : Message} {dl off : Nat} {st : TxSt} (hst : st ≠ .idle) (P : Env1 × Env2 → Prop)
    (hP : ∀ (s : TxSM) e, P e → s.st = st → s.dl = dl → s.update pf (toldIn false e.2) = .ok (s, [])) (hN : ∀ e, P e → NoBusy e) :
    ∀ {es : List (Env1 × Env2)} {c c' : Core0} {os : List Out2}, Trk m c st dl off → c.lineBusy = false →
    LoopWordsOk es → (∀ e ∈ es, P e) →
    c.run pf g es = .ok (c', os) → Trk m c' st dl off ∧ Quietly os [] ∧ c'.lineBusy = false := by
  intro es
  induction es with
  | nil => intro c c' os ht hb _ _ h; cases h; exact ⟨ht, .nil, hb⟩
  | cons e es ih =>
    intro c c' os ht hb hw hyp h
    obtain ⟨c1, o, os', h1, h2, rfl⟩ := Core0.run_cons h
    have he := hyp e (by simp)
    obtain ⟨s1, s2, s3, s4, s5, s6⟩ := ht.step hst (fun w hh => hw w (by simp [wordsOf, hh])) h1
    rw [noBusy_busy hb (hN e he)] at s6
    rw [s6, hP _ e he ht.st ht.dl] at s1
    simp only [Res.ok.injEq, Prod.mk.injEq] at s1
    obtain ⟨s1, s7⟩ := s1
    have ht1 : Trk m c1 st dl off := ⟨s2, s3, by rw [← s1]; exact ht.st, by rw [← s1]; exact ht.dl, by rw [← s1]; exact ht.msg, by rw [← s1]; exact ht.off,
      by rw [← s1]; exact ht.err⟩
    have hws : wordsOf (e :: es) = wordsOf [e] ++ wordsOf es := by rw [← wordsOf_append]; rfl
    obtain ⟨r1, r2, r3⟩ := ih ht1 s6 (fun w hh => hw w (by rw [hws]; exact List.mem_append_right _ hh)) (fun e' he' => hyp e' (by simp [he'])) h2
    have := Quietly.cons s7.symm s4 s5 r2
    exact ⟨r1, this, r3⟩

theorem bytes_drop {m : Message} {n : Nat} {b : UInt8} {r : List UInt8} (h : m.bytes.drop n = b :: r) : m.data n = b ∧ n < m.length ∧ m.bytes.drop (n + 1) = r := by
  have hl : n < m.bytes.length := by
    have := congrArg List.length h
    simp at this
    omega
  have hg : m.bytes[n] = b := by
    have := List.drop_eq_getElem_cons hl
    rw [h] at this
    simp only [List.cons.injEq] at this
    exact this.1.symm
  have hlen : m.bytes.length = m.length := by simp [Message.bytes]
  refine ⟨?_, by omega, ?_⟩
  · rw [← hg]; simp [Message.bytes]
  · have := List.drop_eq_getElem_cons hl
    rw [h] at this
    simp only [List.cons.injEq] at this
    exact this.2.symm

theorem bytes_done {m : Message} {n : Nat} (h : m.bytes.drop n = []) (hn : n ≤ m.length) : n = m.length := by
  have hlen : m.bytes.length = m.length := by simp [Message.bytes]
  have := congrArg List.length h
  simp at this
  omega

/-- Where the transmitter is after `off` bytes were heard. -/
def afterBytes (m : Message) (off : Nat) : TxSt := if off = m.length then .runningWaitForIdle else .runningCheckData

theorem run_echo {pf : Platform} (hpf : pf.charSigned = false) {g : Nat → UInt8} {m : Message} {fin : Env1 × Env2} : ∀ {es : List (Env1 × Env2)} {c c' : Core0} {os : List Out2}
    {t off : Nat}, Trk m c (afterBytes m off) (t + 4000) off → c.lineBusy = true → off ≤ m.length → LoopWordsOk (es ++ [fin]) → Echoed fin t (m.bytes.drop off) es →
    c.run pf g (es ++ [fin]) = .ok (c', os) →
    c'.sm.st = .idle ∧ c'.sm.err = false ∧ c'.Good ∧ Quietly os ((if off = m.length then [] else [.clearFifo]) ++ [.shutdown true]) := by
  intro es
  induction es with
  | nil =>
    intro c c' os t off ht hb ho hw ⟨e1, e2, e3, w, e4, e5⟩ h
    obtain ⟨c1, o, os', h1, h2, rfl⟩ := Core0.run_cons h
    cases h2
    have hd := bytes_done e1 ho
    have hst : afterBytes m off = .runningWaitForIdle := by rw [afterBytes, if_pos hd]
    rw [hst] at ht
    obtain ⟨s1, s2, s3, s4, s5, s6⟩ := ht.step (by simp) (fun w hh => hw w (by simp [wordsOf, hh])) h1
    have hbf : c'.lineBusy = false := by
      rw [s6]; simp [wordsOf, e4, busKnownBusy, e5]
    rw [hbf, upd_fin ht.st (by rw [ht.dl]; exact e3) e2 rfl] at s1
    simp only [Res.ok.injEq, Prod.mk.injEq] at s1
    obtain ⟨s1, s7⟩ := s1
    refine ⟨by rw [← s1], by rw [← s1]; exact ht.err, s2, ?_⟩
    rw [if_pos hd]
    have := Quietly.cons s7.symm s4 s5 .nil
    exact this
  | cons e es ih =>
    intro c c' os t off ht hb ho hw ⟨e1, e2, e3⟩ h
    obtain ⟨c1, o, os', h1, h2, rfl⟩ := Core0.run_cons h
    have hws : wordsOf (e :: es ++ [fin]) = wordsOf [e] ++ wordsOf (es ++ [fin]) := by rw [← wordsOf_append]; rfl
    have hw' : LoopWordsOk (es ++ [fin]) := fun w hh => hw w (by rw [hws]; exact List.mem_append_right _ hh)
    have hni : afterBytes m off ≠ .idle := by unfold afterBytes; split <;> simp
    obtain ⟨s1, s2, s3, s4, s5, s6⟩ := ht.step hni (fun w hh => hw w (by rw [hws]; exact List.mem_append_left _ (by simp [wordsOf, hh]))) h1
    -- nothing heard
    have quiet : (∀ w, e.2.word = some w → w.rxValid = false ∧ w.rxError = false ∧ w.lineFree = false) → Echoed fin t (m.bytes.drop off) es →
        c'.sm.st = .idle ∧ c'.sm.err = false ∧ c'.Good ∧ Quietly (o :: os') ((if off = m.length then [] else [.clearFifo]) ++ [.shutdown true]) := by
      intro hq he
      have hbt : c1.lineBusy = true := by
        rw [s6, hb]
        cases hww : e.2.word with
        | none => simp [wordsOf, hww, busKnownBusy]
        | some w => simp [wordsOf, hww, busKnownBusy, (hq w hww).2.2]
      obtain ⟨n1, n2⟩ := noByte_told (b := true) (e := e) (fun w hh => ⟨(hq w hh).1, (hq w hh).2.1⟩)
      have hupd : c.sm.update pf (toldIn true e.2) = .ok (c.sm, []) := by
        by_cases hd : off = m.length
        · exact upd_tail (by rw [ht.st, afterBytes, if_pos hd]) (by rw [ht.dl]; exact e2) e1 rfl
        · exact upd_quiet (by rw [ht.st, afterBytes, if_neg hd]) (by rw [ht.dl]; exact e2) e1 rfl n1 n2
      rw [hbt, hupd] at s1
      simp only [Res.ok.injEq, Prod.mk.injEq] at s1
      obtain ⟨s1, s7⟩ := s1
      have ht1 : Trk m c1 (afterBytes m off) (t + 4000) off := ⟨s2, s3, by rw [← s1]; exact ht.st, by rw [← s1]; exact ht.dl, by rw [← s1]; exact ht.msg,
        by rw [← s1]; exact ht.off, by rw [← s1]; exact ht.err⟩
      obtain ⟨r1, r2, r3, r4⟩ := ih ht1 hbt ho hw' he h2
      have := Quietly.cons s7.symm s4 s5 r4
      exact ⟨r1, r2, r3, this⟩
    cases hww : e.2.word with
    | none => rw [hww] at e3; exact quiet (by simp [hww]) e3
    | some w =>
      rw [hww] at e3
      obtain ⟨f1, f2, f3⟩ := e3
      cases hv : w.rxValid with
      | false =>
        rw [hv] at f3
        exact quiet (fun w' hh => by rw [hww] at hh; cases hh; exact ⟨hv, f1, f2⟩) f3
      | true =>
        rw [hv, if_pos rfl] at f3
        obtain ⟨r, hr, he⟩ := f3
        obtain ⟨d1, d2, d3⟩ := bytes_drop hr
        have hne : off ≠ m.length := by omega
        have hbt : c1.lineBusy = true := by
          rw [s6, hb]; simp [wordsOf, hww, busKnownBusy, f2]
        rw [hbt] at s1
        obtain ⟨k1, k2, k3, k4, k5, k6⟩ := upd_byte hpf (.inr (by rw [ht.st, afterBytes, if_neg hne])) (by rw [ht.dl]; exact e2) e1 rfl
          (by simp [toldIn, hww, hv]) (by simp [toldIn, hww, f1]) (by rw [ht.msg, ht.off, d1]; simp [toldIn, hww]) s1
        rw [ht.msg, ht.off] at k1 k6
        rw [← d3] at he
        obtain ⟨r1, r2, r3, r4⟩ := ih (t := e.2.tNew) (off := off + 1) ⟨s2, s3, by rw [k1]; rfl, k2, by rw [k3, ht.msg], by rw [k4, ht.off], by rw [k5, ht.err]⟩ hbt
          (by omega) hw' he h2
        have := Quietly.cons k6 s4 s5 r4
        refine ⟨r1, r2, r3, ?_⟩
        rw [if_neg hne]
        by_cases hd : off + 1 = m.length
        · rw [if_pos hd, if_pos hd] at this; exact this
        · rw [if_neg hd, if_neg hd] at this; exact this

theorem Core0.run_append {pf : Platform} {g : Nat → UInt8} {a b : List (Env1 × Env2)} : ∀ {c c' : Core0} {os : List Out2}, c.run pf g (a ++ b) = .ok (c', os) →
    ∃ c1 o1 o2, c.run pf g a = .ok (c1, o1) ∧ c1.run pf g b = .ok (c', o2) ∧ os = o1 ++ o2 := by
  induction a with
  | nil => intro c c' os h; exact ⟨c, [], os, rfl, h, rfl⟩
  | cons e a ih =>
    intro c c' os h
    obtain ⟨c1, o, os', h1, h2, rfl⟩ := Core0.run_cons h
    obtain ⟨c2, o1, o2, h3, h4, rfl⟩ := ih h2
    refine ⟨c2, o :: o1, o2, ?_, h4, rfl⟩
    rw [Core0.run, h1, Res.ok_bind]
    dsimp only
    rw [h3]; rfl

/-- The rest of a transmission, from the power-up decision on. -/
theorem run_rest {pf : Platform} (hpf : pf.charSigned = false) {g : Nat → UInt8} {m : Message} (hm : 1 ≤ m.length) {power listen echo : List (Env1 × Env2)}
    {snd first fin : Env1 × Env2} {c c' : Core0} {os : List Out2} {T : Nat} (ht : Trk m c .waitPowerOn (T + 32000) 0) (hb : c.lineBusy = false)
    (hw : LoopWordsOk (power ++ snd :: (listen ++ first :: (echo ++ [fin]))))
    (h1 : ∀ e ∈ power, e.2.hwErr = false ∧ NoBusy e ∧ e.2.tPow < T + 32000) (h2 : snd.2.hwErr = false ∧ NoBusy snd ∧ T + 32000 ≤ snd.2.tPow)
    (h3 : ∀ e ∈ listen, e.2.hwErr = false ∧ NoBusy e ∧ NoByte e ∧ e.2.tErr < snd.2.tNew + 2000)
    (h4 : first.2.hwErr = false ∧ first.2.tErr < snd.2.tNew + 2000 ∧ ∃ w, first.2.word = some w ∧ w.lineBusy = true ∧ w.rxError = false)
    (h5 : ∃ r, m.bytes = goodBytes (wordsOf [first]) ++ r ∧ Echoed fin first.2.tNew r echo)
    (h : c.run pf g (power ++ snd :: (listen ++ first :: (echo ++ [fin]))) = .ok (c', os)) :
    c'.sm.st = .idle ∧ c'.sm.err = false ∧ c'.Good ∧ Quietly os [.send m, .clearFifo, .shutdown true] := by
  have wsub : ∀ {a b : List (Env1 × Env2)}, LoopWordsOk (a ++ b) → LoopWordsOk a ∧ LoopWordsOk b := by
    intro a b hab
    exact ⟨fun w hh => hab w (by rw [wordsOf_append]; exact List.mem_append_left _ hh), fun w hh => hab w (by rw [wordsOf_append]; exact List.mem_append_right _ hh)⟩
  have wone : ∀ {a : Env1 × Env2} {b : List (Env1 × Env2)}, LoopWordsOk (a :: b) → (∀ w, a.2.word = some w → WordOk w) ∧ LoopWordsOk b := by
    intro a b hab
    obtain ⟨q1, q2⟩ := wsub (a := [a]) (b := b) hab
    exact ⟨fun w hh => q1 w (by simp [wordsOf, hh]), q2⟩
  obtain ⟨w1, w2⟩ := wsub hw
  obtain ⟨w2, w3⟩ := wone w2
  obtain ⟨w3, w4⟩ := wsub w3
  obtain ⟨w4, w5⟩ := wone w4
  -- powering up
  obtain ⟨ca, oa, ob, ra, ha, rfl⟩ := Core0.run_append h
  obtain ⟨t1, q1, b1⟩ := run_stay (by simp) (fun e => e.2.hwErr = false ∧ NoBusy e ∧ e.2.tPow < T + 32000)
    (fun s e he hs hd => upd_power hs (by rw [hd]; exact he.2.2) he.1 rfl) (fun e he => he.2.1) ht hb w1 h1 ra
  -- handing over
  obtain ⟨cb, o, oc, rb, hb', rfl⟩ := Core0.run_cons ha
  obtain ⟨s1, s2, s3, s4, s5, s6⟩ := t1.step (by simp) w2 rb
  rw [noBusy_busy b1 h2.2.1] at s6
  rw [s6, upd_snd t1.st (by rw [t1.dl]; exact h2.2.2) h2.1 rfl] at s1
  simp only [Res.ok.injEq, Prod.mk.injEq] at s1
  obtain ⟨s1, s7⟩ := s1
  have t2 : Trk m cb .startedWaitForBusy (snd.2.tNew + 2000) 0 := ⟨s2, s3, by rw [← s1], by rw [← s1]; rfl, by rw [← s1]; exact t1.msg, by rw [← s1]; exact t1.off,
    by rw [← s1]; exact t1.err⟩
  -- nothing heard yet
  obtain ⟨cd, od, oe, rd, hd', rfl⟩ := Core0.run_append hb'
  obtain ⟨t3, q3, b3⟩ := run_stay (by simp) (fun e => e.2.hwErr = false ∧ NoBusy e ∧ NoByte e ∧ e.2.tErr < snd.2.tNew + 2000)
    (fun s e he hs hd => upd_listen hs (by rw [hd]; exact he.2.2.2) he.1 rfl (noByte_told he.2.2.1).1 (noByte_told he.2.2.1).2) (fun e he => he.2.1) t2 s6 w3 h3 rd
  -- the bus becomes busy
  obtain ⟨ce, o2, of, re, he', rfl⟩ := Core0.run_cons hd'
  obtain ⟨v1, v2, v3, v4, v5, v6⟩ := t3.step (by simp) w4 re
  obtain ⟨f1, f2, w, f3, f4, f5⟩ := h4
  have f6 : w.lineFree = false := by
    have := (w4 w f3).2.1
    cases hf : w.lineFree with
    | false => rfl
    | true => exact absurd ⟨f4, hf⟩ this
  have hbt : ce.lineBusy = true := by rw [v6]; simp [wordsOf, f3, busKnownBusy, f4, f6]
  rw [hbt] at v1
  obtain ⟨r, hr, he⟩ := h5
  have fin : ∀ (off : Nat) (cm : List HwCmd), Trk m ce (afterBytes m off) (first.2.tNew + 4000) off → off ≤ m.length → m.bytes.drop off = r →
      o2.cmds = cm → cm ++ ((if off = m.length then [] else [.clearFifo]) ++ [.shutdown true]) = [.clearFifo, .shutdown true] →
      c'.sm.st = .idle ∧ c'.sm.err = false ∧ c'.Good ∧ Quietly (oa ++ o :: (od ++ o2 :: of)) [.send m, .clearFifo, .shutdown true] := by
    intro off cm ht ho hd hcm hall
    rw [← hd] at he
    obtain ⟨x1, x2, x3, x4⟩ := run_echo hpf ht hbt ho w5 he he'
    refine ⟨x1, x2, x3, ?_⟩
    have y1 := Quietly.cons hcm v4 v5 x4
    rw [hall] at y1
    have y2 := Quietly.append q3 y1
    have y3 := Quietly.cons s7.symm s4 s5 y2
    have y4 := Quietly.append q1 y3
    rw [t1.msg] at y4
    exact y4
  cases hv : w.rxValid with
  | false =>
    rw [upd_first t3.st (by rw [t3.dl]; exact f2) f1 rfl (by simp [toldIn, f3, hv]) (by simp [toldIn, f3, f5])] at v1
    simp only [Res.ok.injEq, Prod.mk.injEq] at v1
    obtain ⟨v1, v7⟩ := v1
    refine fin 0 [] ⟨v2, v3, by rw [← v1, afterBytes, if_neg (by omega)], by rw [← v1]; rfl, by rw [← v1]; exact t3.msg, by rw [← v1]; exact t3.off, by rw [← v1]; exact t3.err⟩
      (by omega) ?_ v7.symm ?_
    · rw [hr]; simp [goodBytes, wordsOf, f3, hv]
    · rw [if_neg (by omega)]; rfl
  | true =>
    have hr' : m.bytes.drop 0 = w.rxChar :: r := by rw [List.drop_zero, hr]; simp [goodBytes, wordsOf, f3, hv, f5]
    obtain ⟨d1, d2, d3⟩ := bytes_drop hr'
    obtain ⟨k1, k2, k3, k4, k5, k6⟩ := upd_byte hpf (.inl t3.st) (by rw [t3.dl]; exact f2) f1 rfl
      (by simp [toldIn, f3, hv]) (by simp [toldIn, f3, f5]) (by rw [t3.msg, t3.off, d1]; simp [toldIn, f3]) v1
    rw [t3.msg, t3.off] at k1 k6
    refine fin 1 _ ⟨v2, v3, by rw [k1]; rfl, k2, by rw [k3, t3.msg], by rw [k4, t3.off], by rw [k5, t3.err]⟩ (by omega) d3 k6 ?_
    by_cases hd : 0 + 1 = m.length
    · rw [if_pos hd, if_pos (by omega)]; rfl
    · rw [if_neg hd, if_neg (by omega)]; rfl

/-- The iteration that starts the transmission. -/
theorem start_iter {pf : Platform} {g : Nat → UInt8} {m : Message} {c c' : Core0} {e : Env1 × Env2} {o : Out2} (hg : c.Good) (h : c.iter pf g e = .ok (c', o))
    (hs : o.started = some m) (hw : ∀ w, e.2.word = some w → WordOk w) (he : e.2.hwErr = false) (ht : e.2.tErr < e.2.tWake + 34000) :
    c'.lineBusy = busKnownBusy c.lineBusy (wordsOf [e]) ∧
    ((c'.lineBusy = true ∨ e.2.transmitting = true) → Trk m c' .waitLineFree (e.2.tWake + 34000) 0 ∧ o.cmds = []) ∧
    (c'.lineBusy = false → e.2.transmitting = false → Trk m c' .waitPowerOn (e.2.tNew + 32000) 0 ∧ o.cmds = [.shutdown false]) := by
  obtain ⟨p, hp, hc⟩ := iter_trace hg h
  have hg' := (hg.iter h).1
  rcases hc with ⟨_, _, _, hn, _⟩ | ⟨_, hz, ⟨hn, _⟩ | ⟨m', hst, hsd, hi, hu⟩⟩
  · rw [hn] at hs; cases hs
  · rw [hn] at hs; cases hs
  rw [hst] at hs
  cases hs
  have hi' : (txEnd c.sm p).st = .idle := by rw [hp.last.1]; exact hi
  rw [TxSM.wake_idle hi'] at hu
  refine ⟨iter_lineBusy h hw, fun hb => ?_, fun hb htr => ?_⟩
  · rw [upd_wait rfl ht he hb] at hu
    simp only [Res.ok.injEq, Prod.mk.injEq] at hu
    obtain ⟨u1, u2⟩ := hu
    exact ⟨⟨hg', hz, by rw [← u1], by rw [← u1], by rw [← u1], by rw [← u1], by rw [← u1]⟩, u2.symm⟩
  · rw [upd_on rfl ht he rfl hb htr] at hu
    simp only [Res.ok.injEq, Prod.mk.injEq] at hu
    obtain ⟨u1, u2⟩ := hu
    exact ⟨⟨hg', hz, by rw [← u1], by rw [← u1]; rfl, by rw [← u1], by rw [← u1], by rw [← u1]⟩, u2.symm⟩

/-- **C114.** In every history: iteration `x` starts to transmit the packet `m`, and the course of this and the following iterations is undisturbed (the bus becomes
free within 34 ms, stays so for 32 ms, then becomes busy within 2 ms, the bytes of the packet are heard at most 4 ms apart, and the bus becomes free again).
Then at the end the transmitter is idle; the transmit hardware was asked, in this order, to switch on the amplifier, to send the packet, to clear its buffer and to
switch off the amplifier, and nothing else; no other packet was started; and the host is told of no failure, neither meanwhile nor in the next iteration (`z`). -/
theorem C114_undisturbed_succeeds (pf : Platform) (hpf : pf.charSigned = false) (g : Nat → UInt8) (es : List (Env1 × Env2)) (c0 c1 c2 : Core0) (os om : List Out2)
    (ox oz : Out2) (m : Message) (wait power listen echo : List (Env1 × Env2)) (on snd first fin x z : Env1 × Env2) (rest : List (Env1 × Env2))
    (hr : LoopRun pf g es c0 os) (hx : wait ++ on :: (power ++ snd :: (listen ++ first :: (echo ++ [fin]))) = x :: rest)
    (hw : ∀ w ∈ wordsOf (es ++ x :: rest), WordOk w)
    (h : c0.run pf g (x :: rest) = .ok (c1, ox :: om)) (hs : ox.started = some m)
    (hu : Undisturbed (busKnownBusy true (wordsOf es)) m.bytes x.2.tWake wait on power snd listen first echo fin)
    (hz : c1.iter pf g z = .ok (c2, oz)) :
    c1.sm.isIdle = true ∧ (ox :: om).flatMap Out2.cmds = [.shutdown false, .send m, .clearFifo, .shutdown true] ∧
    om.filterMap Out2.started = [] ∧ ∀ o ∈ om ++ [oz], txMsgs o.reports = [] := by
  have hg := hr.good
  have hwe : LoopWordsOk es := fun w hh => hw w (by rw [wordsOf_append]; exact List.mem_append_left _ hh)
  have hwx : LoopWordsOk (x :: rest) := fun w hh => hw w (by rw [wordsOf_append]; exact List.mem_append_right _ hh)
  have hl0 := hr.lineBusy hwe
  rw [← hl0] at hu
  have hrun := h
  obtain ⟨ca, oa, om', h1, h2, hoe⟩ := Core0.run_cons h
  cases hoe
  have hm : 1 ≤ m.length := (C85_sendable pf g (es ++ [x]) ca (os ++ [ox]) (hr.snoc h1) ox (by simp) m hs).1
  have hw1 : ∀ w, x.2.word = some w → WordOk w := fun w hh => hwx w (by simp [wordsOf, hh])
  -- the end
  suffices key : c1.sm.st = .idle ∧ c1.sm.err = false ∧ c1.Good ∧ om.filterMap Out2.started = [] ∧ (∀ o ∈ om, txMsgs o.reports = []) ∧
      (ox :: om).flatMap Out2.cmds = [.shutdown false, .send m, .clearFifo, .shutdown true] by
    obtain ⟨k1, k2, k3, k4, k5, k6⟩ := key
    refine ⟨by simp [TxSM.isIdle, k1], k6, k4, ?_⟩
    intro o ho
    rcases List.mem_append.mp ho with ho | ho
    · exact k5 o ho
    · rw [List.mem_singleton.mp ho, iter_tx k3 hz, if_neg (by simp [k2])]
  cases wait with
  | nil =>
    simp only [List.nil_append, List.cons.injEq] at hx
    obtain ⟨rfl, rfl⟩ := hx
    obtain ⟨a1, a2, a3, a4⟩ := hu.freeOn
    obtain ⟨b1, _, b3⟩ := start_iter hg h1 hs hw1 a1 a2
    rw [List.nil_append, ← b1] at a3
    obtain ⟨b3, b4⟩ := b3 a3 a4
    obtain ⟨r1, r2, r3, r4⟩ := run_rest hpf hm b3 a3 (fun w hh => hwx w (by
      rw [show ∀ l, (on :: l : List (Env1 × Env2)) = [on] ++ l from fun _ => rfl, wordsOf_append]; exact List.mem_append_right _ hh))
      hu.powers hu.sends hu.listens hu.starts hu.echoes h2
    exact ⟨r1, r2, r3, r4.started, r4.told, by rw [List.flatMap_cons, b4, r4.cmds]; rfl⟩
  | cons y wait =>
    simp only [List.cons_append, List.cons.injEq] at hx
    obtain ⟨rfl, rfl⟩ := hx
    obtain ⟨a1, a2, a3⟩ := hu.waits [] y wait rfl
    obtain ⟨b1, b2, _⟩ := start_iter hg h1 hs hw1 a1 a2
    rw [List.nil_append, ← b1] at a3
    obtain ⟨b2, b4⟩ := b2 a3
    have hwy : LoopWordsOk (wait ++ on :: (power ++ snd :: (listen ++ first :: (echo ++ [fin])))) := fun w hh => hwx w (by
      rw [show ∀ l, (y :: l : List (Env1 × Env2)) = [y] ++ l from fun _ => rfl, wordsOf_append]; exact List.mem_append_right _ hh)
    have hcat : ∀ l : List (Env1 × Env2), busKnownBusy ca.lineBusy (wordsOf l) = busKnownBusy c0.lineBusy (wordsOf (y :: l)) := by
      intro l
      rw [show (y :: l : List (Env1 × Env2)) = [y] ++ l from rfl, wordsOf_append, busKnownBusy_append, ← b1]
    obtain ⟨cb, o1, o2, h3, h4, rfl⟩ := Core0.run_append h2
    obtain ⟨t1, q1, l1⟩ := run_wait b2 (fun w hh => hwy w (by rw [wordsOf_append]; exact List.mem_append_left _ hh)) (by
      intro a e a' hea
      obtain ⟨d1, d2, d3⟩ := hu.waits (y :: a) e a' (by rw [hea]; rfl)
      exact ⟨d1, d2, by rw [hcat]; exact d3⟩) h3
    obtain ⟨cc, o, o3, h5, h6, rfl⟩ := Core0.run_cons h4
    obtain ⟨e1, e2, e3, e4⟩ := hu.freeOn
    have hwo : LoopWordsOk (on :: (power ++ snd :: (listen ++ first :: (echo ++ [fin])))) := fun w hh => hwy w (by
      rw [wordsOf_append]; exact List.mem_append_right _ hh)
    obtain ⟨s1, s2, s3, s4, s5, s6⟩ := t1.step (by simp) (fun w hh => hwo w (by simp [wordsOf, hh])) h5
    have hlb : cc.lineBusy = false := by
      rw [s6, l1, ← busKnownBusy_append, ← wordsOf_append, hcat]
      exact e3
    rw [hlb, upd_on t1.st (by rw [t1.dl]; exact e2) e1 t1.off rfl e4] at s1
    simp only [Res.ok.injEq, Prod.mk.injEq] at s1
    obtain ⟨s1, s7⟩ := s1
    have t2 : Trk m cc .waitPowerOn (on.2.tNew + 32000) 0 := ⟨s2, s3, by rw [← s1], by rw [← s1]; rfl, by rw [← s1]; exact t1.msg, by rw [← s1]; exact t1.off,
      by rw [← s1]; exact t1.err⟩
    obtain ⟨r1, r2, r3, r4⟩ := run_rest hpf hm t2 hlb (fun w hh => hwo w (by
      rw [show ∀ l, (on :: l : List (Env1 × Env2)) = [on] ++ l from fun _ => rfl, wordsOf_append]; exact List.mem_append_right _ hh))
      hu.powers hu.sends hu.listens hu.starts hu.echoes h6
    have y1 := Quietly.append q1 (Quietly.cons s7.symm s4 s5 r4)
    exact ⟨r1, r2, r3, y1.started, y1.told, by rw [List.flatMap_cons, b4, y1.cmds]; rfl⟩

/-- The hypotheses of C114 are met by the run `echoLoop` of C88: the iteration 4 (at 2301 ms) starts, and the course from there is undisturbed. -/
example : Undisturbed (busKnownBusy true (wordsOf opRun)) [0x40, 0xF0] 2301000 [] (bothIter 2301000 [52, 48, 70, 48, 10] none)
    [bothIter 2302000 [] none, bothIter 2303000 [] none] (bothIter 2334000 [] none) [] (bothIter 2334500 [] (some wBusy))
    [bothIter 2335500 [] (some (wByte 0x40)), bothIter 2336500 [] (some (wByte 0xF0)), bothIter 2337500 [] none] (bothIter 2338500 [] (some wFree)) where
  waits := by intro a e a' h; simp at h
  freeOn := ⟨rfl, by decide, rfl, rfl⟩
  powers := by
    intro e he
    simp only [List.mem_cons, List.not_mem_nil, or_false] at he
    rcases he with rfl | rfl <;> exact ⟨rfl, fun w hw => (by cases hw), by decide⟩
  sends := ⟨rfl, fun w hw => (by cases hw), by decide⟩
  listens := by simp
  starts := ⟨rfl, by decide, wBusy, rfl, rfl, rfl⟩
  echoes := ⟨[0x40, 0xF0], rfl, rfl, by decide, rfl, rfl, ⟨[0xF0], rfl, rfl, by decide, rfl, rfl, [], rfl, rfl, by decide, rfl, rfl, by decide, wFree, rfl, rfl⟩⟩

example : echoLoop = opRun ++ ([] ++ bothIter 2301000 [52, 48, 70, 48, 10] none :: ([bothIter 2302000 [] none, bothIter 2303000 [] none] ++
    bothIter 2334000 [] none :: ([] ++ bothIter 2334500 [] (some wBusy) :: ([bothIter 2335500 [] (some (wByte 0x40)), bothIter 2336500 [] (some (wByte 0xF0)),
      bothIter 2337500 [] none] ++ [bothIter 2338500 [] (some wFree)])))) ++ [bothIter 2339500 [] none] := rfl

end P1P2
