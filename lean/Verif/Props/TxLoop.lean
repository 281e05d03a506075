import Verif.Props.Started
import Verif.Spec.TxLoop
/-!
# Properties C97, C98: transmissions by the main loop end, and what the line about a failed one says
-/
namespace P1P2

/-! ## C97 -/

theorem PaceInv.same {m : Message} {w d t : Nat} {s s' : TxSM} (h : PaceInv m w d t s) (hs : SameTx s s') : PaceInv m w d t s' := by
  obtain ⟨h1, h2, h3⟩ := h
  obtain ⟨e1, e2, e3, e4, _⟩ := hs
  refine ⟨by rw [e2]; exact h1, by rw [e3]; exact h2, ?_⟩
  rw [e1, e3, e4]
  exact h3

theorem paced_run {pf : Platform} {g : Nat → UInt8} {m : Message} (hm : Sendable m) {w d : Nat} {es : List (Env1 × Env2)} :
    ∀ {c c' : Core0} {os : List Out2} {t : Nat}, c.Good → PaceInv m w d t c.sm → c.run pf g es = .ok (c', os) → LoopPaced d t es →
    (∀ pre post cp op, es = pre ++ post → c.run pf g pre = .ok (cp, op) → cp.sm.st ≠ .idle) → PaceInv m w d (loopTime t es) c'.sm := by
  induction es with
  | nil => intro c c' os t _ hi h _ _; cases h; exact hi
  | cons e es ih =>
    intro c c' os t hg hi h hp hb
    obtain ⟨c1, o, os', h1, h2, rfl⟩ := Core0.run_cons h
    have hc1 := hb [e] es c1 [o] rfl (by rw [Core0.run, h1]; rfl)
    have hc0 := hb [] (e :: es) c [] rfl rfl
    obtain ⟨p1, p2, p3, p4, p5⟩ := hp
    have hi1 : PaceInv m w d e.2.tNew c1.sm := by
      obtain ⟨p, hp, hc⟩ := iter_trace hg h1
      rcases hc with ⟨_, hid, _⟩ | ⟨_, _, ⟨_, hu⟩ | ⟨_, _, _, hid, _⟩⟩
      · exact absurd hid hc0
      · exact PaceInv.step hm (e := ⟨.update (loopIn c1 e.2 (e.2.word.getD c.word)), o.cmds, c1.sm⟩) (hi.same hp.last) hu hc1 ⟨p1, p2, p3, p4, trivial⟩
      · exact absurd hid hc0
    refine ih (hg.iter h1).1 hi1 h2 p5 ?_
    intro pre post cp op hpre hr
    refine hb (e :: pre) post cp (o :: op) (by rw [hpre]; rfl) ?_
    rw [Core0.run, h1, Res.ok_bind]
    dsimp only
    rw [hr]; rfl

/-- **C97.** In every history: iteration `x` starts to transmit the packet `m` at time `x.2.tWake`, followed by the iterations `mid`, each completed at most `d` after
the one before.  If the transmitter was not idle after any of them, then no more than 72 ms + 4 ms per byte (plus `d` for each of the `length + 5` phase
changes) have passed: whatever happens on the bus, the transmission ends, and the next packet is not delayed for longer. -/
theorem C97_ends (pf : Platform) (g : Nat → UInt8) (es mid : List (Env1 × Env2)) (x : Env1 × Env2) (c0 c1 c2 : Core0) (os om : List Out2) (ox : Out2)
    (m : Message) (d : Nat) (hr : LoopRun pf g es c0 os) (hx : c0.iter pf g x = .ok (c1, ox)) (hs : ox.started = some m)
    (hm : c1.run pf g mid = .ok (c2, om)) (hp : LoopPaced d x.2.tWake (x :: mid))
    (hbusy : ∀ pre post cp op, mid = pre ++ post → c1.run pf g pre = .ok (cp, op) → cp.sm.isIdle = false) :
    loopTime x.2.tWake (x :: mid) ≤ x.2.tWake + 72000 + 4000 * m.length + (m.length + 5) * d := by
  have hbusy' : ∀ pre post cp op, mid = pre ++ post → c1.run pf g pre = .ok (cp, op) → cp.sm.st ≠ .idle := by
    intro pre post cp op h1 h2
    simpa [TxSM.isIdle] using hbusy pre post cp op h1 h2
  obtain ⟨p, hpp, hc⟩ := iter_trace hr.good hx
  rcases hc with ⟨_, _, _, hn, _⟩ | ⟨_, hz1, ⟨hn, _⟩ | ⟨m', hst, hsd, hi, hu⟩⟩
  · rw [hn] at hs; cases hs
  · rw [hn] at hs; cases hs
  rw [hst] at hs
  cases hs
  have hi' : (txEnd c0.sm p).st = .idle := by rw [hpp.last.1]; exact hi
  rw [TxSM.wake_idle hi'] at hu
  obtain ⟨p1, p2, p3, p4, p5⟩ := hp
  have h0 : PaceInv m x.2.tWake d x.2.tWake { txEnd c0.sm p with txMsg := m, txOffset := 0, err := false, rxMsg := (txEnd c0.sm p).rxMsg.clear, st := .waitLineFree, dl := x.2.tWake + 34000 } :=
    ⟨rfl, by simp only; omega, rfl, rfl⟩
  have h1 : PaceInv m x.2.tWake d x.2.tNew c1.sm :=
    PaceInv.step hsd (e := ⟨.update (loopIn c1 x.2 (x.2.word.getD c0.word)), ox.cmds, c1.sm⟩) h0 hu (hbusy' [] mid c1 [] rfl rfl) ⟨p1, p2, p3, p4, trivial⟩
  have hfin := paced_run hsd (hr.good.iter hx).1 h1 hm p5 hbusy'
  show loopTime x.2.tNew mid ≤ _
  generalize loopTime x.2.tNew mid = now at hfin
  generalize c2.sm = s at hfin
  obtain ⟨_, h1, h2⟩ := hfin
  have e1 : (m.length + 1) * (4000 + d) = 4000 * m.length + 4000 + m.length * d + d := by
    rw [Nat.add_mul, Nat.mul_add, Nat.mul_comm m.length 4000]; omega
  have e2 : (m.length + 5) * d = m.length * d + 5 * d := by rw [Nat.add_mul]
  have hmul : ∀ a b : Nat, a + 1 ≤ b → (a + 1) * (4000 + d) ≤ (b + 1) * (4000 + d) := by
    intro a b hab
    exact Nat.mul_le_mul_right _ (by omega)
  cases hst : s.st <;> simp only [hst] at h2
  · omega
  · omega
  · omega
  · have := hmul _ _ (show s.txOffset + 1 ≤ m.length by omega)
    omega
  · omega

/-- In `echoLoop` a packet of two bytes is started in iteration 3 and the transmitter is idle after iteration 11 (see the example after C88); the iterations 3 to 10 are
paced with `d` = 31 ms, and C97 applies. -/
example : LoopPaced 31000 2301000 ((echoLoop.drop 3).take 8) ∧ loopTime 2301000 ((echoLoop.drop 3).take 8) = 2337500 := by
  refine ⟨?_, rfl⟩
  simp [LoopPaced, echoLoop, opRun, bothIter, env2]

/-! ## C98 -/

theorem append_prefix {m m' p : Message} {b : UInt8} (h : m.append b = .ok m') (hl : m.length < 32) (hp : m.bytes <+: p.bytes) (hb : b = p.data m.length)
    (hlt : m.length < p.length) : m'.bytes <+: p.bytes ∧ m'.length = m.length + 1 := by
  obtain ⟨e1, e2, _⟩ := Message.append_snoc hl h
  refine ⟨?_, e2⟩
  rw [e1]
  have hlen : m.bytes.length = m.length := by simp [Message.bytes]
  have hplen : p.bytes.length = p.length := by simp [Message.bytes]
  rw [List.prefix_iff_eq_take] at hp ⊢
  rw [List.length_append, List.length_singleton, hlen, List.take_add_one, ← hlen, ← hp, List.getElem?_eq_getElem (by omega)]
  simp [Message.bytes, hb]

/-- What the transmitter has collected is the beginning of the packet; while bytes are expected, it is what was compared. -/
structure HeardInv (s : TxSM) : Prop where
  pre : s.st ≠ .idle → s.rxMsg.bytes <+: s.txMsg.bytes
  off : s.st ≠ .idle → s.st ≠ .runningWaitForIdle → s.rxMsg.length = s.txOffset

theorem HeardInv.preface {pf : Platform} {c : Core0} {p : List TxObs} (hg : c.Good) (h : HeardInv c.sm) (hp : Preface pf c.sm p) : HeardInv (txEnd c.sm p) := by
  obtain ⟨l1, l2, _, l4, _⟩ := hp.last
  rcases hp.keep with hk | ⟨he, hk⟩
  · exact ⟨by rw [l1, l2, hk]; exact h.pre, by rw [l1, l4, hk]; exact h.off⟩
  · refine ⟨fun _ => by rw [hk]; simp [Message.clear, Message.bytes], fun h1 h2 => ?_⟩
    rw [l1] at h1 h2
    exact absurd (hg.txSt h1 h2) (hg.txErr he)

/-- Why an update raises the error flag. -/
theorem update_echo {pf : Platform} {s s' : TxSM} {i : UpdIn} {cmds : List HwCmd} (h : s.update pf i = .ok (s', cmds)) (hv : HeardInv s) (ho : OffInv s)
    (h0 : s.st ≠ .idle → s.st ≠ .runningWaitForIdle → s.rxMsg.status = 0) (he : s.err = false) :
    HeardInv s' ∧ (s'.err = true → s.st ≠ .idle ∧ s'.rxMsg.bytes <+: s.txMsg.bytes ∧
      ((s'.rxMsg.status = 1 ∧ i.busy = true) ∨ (s'.rxMsg.status = 4 ∧ i.busy = false) ∨ (s'.rxMsg.status = 5 ∧ i.hwErr = true) ∨
       (s'.rxMsg.status = 3 ∧ i.rxError = true) ∨
       (s'.rxMsg.status = 21 ∧ i.rxValid = true ∧ i.rxError = false ∧ s'.rxMsg.length = s.txOffset + 1 ∧ s.txOffset < s.txMsg.length ∧
        TxSM.echoDiffers pf (s.txMsg.data s.txOffset) i.rxChar = true))) := by
  have hni : (s.timedOutError i || s.st.lineStateIsError i.busy) = true → s.st ≠ .idle := by
    intro hf hi
    rw [hi] at hf
    cases hb : i.busy <;> simp [TxSM.timedOutError, hi, hb, TxSt.timeoutIsError, TxSt.lineStateIsError, TxSt.busyIsError, TxSt.freeIsError] at hf
  have happ : (s.st = .startedWaitForBusy ∨ s.st = .runningCheckData) → ∀ rx, s.rxMsg.append (s.txMsg.data s.txOffset) = .ok rx →
      rx.bytes <+: s.txMsg.bytes ∧ rx.length = s.txOffset + 1 ∧ rx.status = 0 ∧ s.txOffset < s.txMsg.length := by
    intro hst rx hrx
    have hi : s.st ≠ .idle := by rcases hst with hst | hst <;> simp [hst]
    have hw : s.st ≠ .runningWaitForIdle := by rcases hst with hst | hst <;> simp [hst]
    have hoff := hv.off hi hw
    obtain ⟨⟨o1, o1'⟩, o2, o3⟩ := ho hi
    have hlt : s.txOffset < s.txMsg.length := by
      rcases hst with hst | hst
      · rw [o2 (.inr (.inr hst))]; omega
      · exact o3 hst
    obtain ⟨a1, a2⟩ := append_prefix hrx (by omega) (hv.pre hi) (by rw [hoff]) (by omega)
    exact ⟨a1, by omega, by rw [append_status hrx]; exact h0 hi hw, hlt⟩
  cases TxSM.updCase h with
  | early hf hs hc =>
    subst hs
    refine ⟨⟨fun a => absurd rfl a, fun a => absurd rfl a⟩, fun _ => ⟨hni hf, hv.pre (hni hf), ?_⟩⟩
    cases hb : i.busy
    · right; left; exact ⟨rfl, rfl⟩
    · left; exact ⟨rfl, rfl⟩
  | hw hf hi hh hs hc =>
    subst hs
    exact ⟨⟨fun a => absurd rfl a, fun a => absurd rfl a⟩, fun _ => ⟨hi, hv.pre hi, .inr (.inr (.inl ⟨rfl, hh⟩))⟩⟩
  | stay _ _ _ _ _ _ _ hs hc => subst hs; exact ⟨hv, fun h => by rw [he] at h; cases h⟩
  | power _ _ hst _ _ _ hs hc =>
    subst hs
    refine ⟨⟨fun _ => hv.pre (by rw [hst]; simp), fun _ _ => hv.off (by rw [hst]; simp) (by rw [hst]; simp)⟩, fun h => by rw [he] at h; cases h⟩
  | start _ _ hst _ hs hc =>
    subst hs
    refine ⟨⟨fun _ => hv.pre (by rw [hst]; simp), fun _ _ => hv.off (by rw [hst]; simp) (by rw [hst]; simp)⟩, fun h => by rw [he] at h; cases h⟩
  | busy _ _ hst _ _ _ hs hc =>
    subst hs
    refine ⟨⟨fun _ => hv.pre (by rw [hst]; simp), fun _ _ => hv.off (by rw [hst]; simp) (by rw [hst]; simp)⟩, fun h => by rw [he] at h; cases h⟩
  | rxErr _ _ hst hr hs hc =>
    subst hs
    have hi : s.st ≠ .idle := by rcases hst with hst | hst <;> simp [hst]
    exact ⟨⟨fun _ => hv.pre hi, fun _ a => absurd rfl a⟩, fun _ => ⟨hi, hv.pre hi, .inr (.inr (.inr (.inl ⟨rfl, hr⟩)))⟩⟩
  | good _ _ hst _ _ _ _ rx hrx hs hc =>
    subst hs
    obtain ⟨a1, a2, a3, a4⟩ := happ hst rx hrx
    exact ⟨⟨fun _ => a1, fun _ _ => a2⟩, fun h => by rw [he] at h; cases h⟩
  | bad _ _ hst hr hva _ hd rx hrx hs hc =>
    subst hs
    have hi : s.st ≠ .idle := by rcases hst with hst | hst <;> simp [hst]
    obtain ⟨a1, a2, a3, a4⟩ := happ hst rx hrx
    rw [if_pos a3]
    exact ⟨⟨fun _ => a1, fun _ a => absurd rfl a⟩, fun _ => ⟨hi, a1, .inr (.inr (.inr (.inr ⟨rfl, hva, hr, a2, a4, hd⟩)))⟩⟩
  | finish _ _ hst _ hs hc =>
    subst hs
    exact ⟨⟨fun a => absurd rfl a, fun a => absurd rfl a⟩, fun h => by rw [he] at h; cases h⟩

/-- The state before the update of an iteration, and what is known of it. -/
theorem iter_update {pf : Platform} {g : Nat → UInt8} {es : List (Env1 × Env2)} {c c' : Core0} {os : List Out2} {e : Env1 × Env2} {o : Out2}
    (hr : LoopRun pf g es c os) (hv : HeardInv c.sm) (h : c.iter pf g e = .ok (c', o)) :
    (c'.sm.st = .idle ∧ c'.sm.err = false ∧ c.sm.st = .idle ∧ o.started = none) ∨
    ∃ s i, s.update pf i = .ok (c'.sm, o.cmds) ∧ HeardInv s ∧ OffInv s ∧ (s.st ≠ .idle → s.st ≠ .runningWaitForIdle → s.rxMsg.status = 0) ∧ s.err = false ∧
      i = loopIn c' e.2 (e.2.word.getD c.word) ∧ (c.sm.st ≠ .idle ∨ o.started ≠ none → s.st ≠ .idle) ∧
      (s.st ≠ .idle → ((os ++ [o]).filterMap Out2.started).getLast? = some s.txMsg) ∧
      (s.st = .startedWaitForBusy ∨ s.st = .runningCheckData → c.word = .zero) := by
  have hg := hr.good
  obtain ⟨p, hp, hc⟩ := iter_trace hg h
  obtain ⟨l1, l2, l3, l4, l5⟩ := hp.last
  have hv' := hv.preface hg hp
  rcases hc with ⟨_, hi, _, hn, _, hsm, _⟩ | ⟨_, _, ⟨hst, hu⟩ | ⟨m, hst, hm, hi, hu⟩⟩
  · left
    refine ⟨?_, ?_, hi, hn⟩
    · rw [hsm, l1]; exact hi
    · rw [hsm]; exact l5
  · right
    refine ⟨_, _, hu, hv', ?_, ?_, l5, rfl, ?_, ?_, ?_⟩
    · intro hn
      rw [l1] at hn
      have := hg.off hn
      rw [l1, l2, l4]; exact this
    · intro h1 h2
      rw [l1] at h1 h2
      rcases hp.keep with hk | ⟨he, hk⟩
      · rw [hk]; exact hg.txSt h1 h2
      · rw [hk]; rfl
    · rintro (hc | hc)
      · rw [l1]; exact hc
      · exact absurd hst hc
    · intro hn
      rw [started_snoc, hst, Option.toList_none, List.append_nil, l2]
      exact hr.txKnown.1 (by rw [← l1]; exact hn)
    · rw [l1]
      intro hc
      rcases hg.word with hw | hw
      · exact hw
      · rw [hw] at hc; simp at hc
  · right
    have hi' : (txEnd c.sm p).st = .idle := by rw [l1]; exact hi
    rw [TxSM.wake_idle hi'] at hu
    refine ⟨_, _, hu, ⟨fun _ => ?_, fun _ _ => rfl⟩, ?_, fun _ _ => rfl, rfl, rfl, fun _ => by simp, ?_, by simp⟩
    · simp [Message.clear, Message.bytes]
    · intro _
      exact ⟨hm, fun _ => rfl, fun h => by simp at h⟩
    · intro _
      rw [started_snoc, hst]
      simp

theorem LoopRun.echo {pf : Platform} {g : Nat → UInt8} {es : List (Env1 × Env2)} {c : Core0} {os : List Out2} (h : LoopRun pf g es c os) : HeardInv c.sm := by
  refine h.fwd (P := fun _ c _ => HeardInv c.sm) (fun _ _ _ => ⟨fun a => absurd rfl a, fun a => absurd rfl a⟩) ?_
  intro es c os e c' o hr ih h1
  rcases iter_update hr ih h1 with ⟨hi, _⟩ | ⟨s, i, hu, u1, u2, u3, u4, _⟩
  · exact ⟨fun a => absurd hi a, fun a => absurd hi a⟩
  · exact (update_echo hu u1 u2 u3 u4).1

/-- **C98** (target). In every history: let iteration `y`, which follows iteration `x`, give the host a line `m` about a failed transmission, and let `p` be the last packet
that was started up to iteration `x`.  The bytes of the line are the beginning of `p`, and its status says why the transmission failed in iteration `x`
(`FailureCause`). -/
theorem C98_failure_line (pf : Platform) (hpf : pf.charSigned = false) (g : Nat → UInt8) (es : List (Env1 × Env2)) (x y : Env1 × Env2) (c0 c1 c2 : Core0)
    (os : List Out2) (ox oy : Out2) (hr : LoopRun pf g es c0 os) (hx : c0.iter pf g x = .ok (c1, ox)) (hy : c1.iter pf g y = .ok (c2, oy))
    (hw : ∀ w ∈ wordsOf (es ++ [x]), WordOk w) (m : Message) (hm : m ∈ txMsgs oy.reports) :
    ∃ p, ((os ++ [ox]).filterMap Out2.started).getLast? = some p ∧ m.bytes <+: p.bytes ∧
      FailureCause p x (busKnownBusy true (wordsOf (es ++ [x]))) m := by
  rw [iter_tx (hr.good.iter hx).1 hy] at hm
  split at hm
  case isFalse => cases hm
  rename_i hc
  rw [List.mem_singleton] at hm
  subst hm
  obtain ⟨he, h3⟩ := hc
  rw [← (hr.snoc hx).lineBusy hw]
  rcases iter_update hr hr.echo hx with ⟨_, hi, _⟩ | ⟨s, i, hu, u1, u2, u3, u4, u5, _, u6, u7⟩
  · rw [hi] at he; cases he
  obtain ⟨k1, k2, k3⟩ := (update_echo hu u1 u2 u3 u4).2 he
  refine ⟨s.txMsg, u6 k1, k2, ?_⟩
  rw [u5] at k3
  rcases k3 with k | k | k | k | ⟨k, k4, k5, k6, k7, k8⟩
  · exact .inl k
  · exact .inr (.inl k)
  · exact .inr (.inr (.inl k))
  · exact absurd k.1 h3
  · refine .inr (.inr (.inr ⟨k, ?_⟩))
    have hz : c0.word = .zero := by
      apply u7
      cases TxSM.updCase hu with
      | early _ hs _ => rw [hs] at k; simp only at k; split at k <;> cases k
      | hw _ _ _ hs _ => rw [hs] at k; cases k
      | stay _ _ _ _ _ _ _ hs _ => rw [hs, u4] at he; cases he
      | power _ _ _ _ _ _ hs _ => rw [hs] at he; simp only [u4] at he; cases he
      | start _ _ _ _ hs _ => rw [hs] at he; simp only [u4] at he; cases he
      | busy _ _ _ _ _ _ hs _ => rw [hs] at he; simp only [u4] at he; cases he
      | rxErr _ _ hst _ _ _ => exact hst
      | good _ _ hst _ _ _ _ _ _ _ _ => exact hst
      | bad _ _ hst _ _ _ _ _ _ _ _ => exact hst
      | finish _ _ _ _ hs _ => rw [hs] at he; simp only [u4] at he; cases he
    rw [hz] at k4 k5 k8
    cases hww : x.2.word with
    | none => rw [hww] at k4; cases k4
    | some w =>
      rw [hww] at k4 k5 k8
      refine ⟨w, s.txOffset, rfl, k4, k5, by simp [Message.bytes, k6], by simp [Message.bytes, k7], ?_⟩
      have : s.txMsg.bytes[s.txOffset]? = some (s.txMsg.data s.txOffset) := by
        rw [List.getElem?_eq_getElem (by simp [Message.bytes, k7])]
        simp [Message.bytes]
      rw [this]
      simp only [loopIn, Option.getD_some, TxSM.echoDiffers, hpf, Bool.false_and, Bool.false_eq_true, if_false, bne_iff_ne, ne_eq] at k8
      simp only [ne_eq, Option.some.injEq]
      exact k8

/-- **C98, errors of the transmit hardware.** If the transmit hardware reports an error in an iteration in which a transmission is under way or is started, the
transmission is given up: the transmitter is idle and switched off, and the next iteration gives the host one line that says so (status 5, or 1 / 4 if the time was over or the state
of the bus was wrong as well). -/
theorem C98_hw_error (pf : Platform) (g : Nat → UInt8) (es : List (Env1 × Env2)) (x y : Env1 × Env2) (c0 c1 c2 : Core0)
    (os : List Out2) (ox oy : Out2) (hr : LoopRun pf g es c0 os) (hx : c0.iter pf g x = .ok (c1, ox)) (hy : c1.iter pf g y = .ok (c2, oy))
    (hb : c0.sm.isIdle = false ∨ ox.started ≠ none) (hh : x.2.hwErr = true) :
    c1.sm.isIdle = true ∧ ox.cmds = [.shutdown true] ∧ ∃ m, txMsgs oy.reports = [m] ∧ (m.status = 5 ∨ m.status = 1 ∨ m.status = 4) := by
  rw [iter_tx (hr.good.iter hx).1 hy]
  have hb' : c0.sm.st ≠ .idle ∨ ox.started ≠ none := by
    rcases hb with hb | hb
    · left; simpa [TxSM.isIdle] using hb
    · exact .inr hb
  rcases iter_update hr hr.echo hx with ⟨_, _, h1, h2⟩ | ⟨s, i, hu, u1, u2, u3, u4, u5, u6, _⟩
  · rcases hb' with hb' | hb'
    · exact absurd h1 hb'
    · exact absurd h2 hb'
  have hne := u6 hb'
  have hhi : i.hwErr = true := by rw [u5]; exact hh
  cases TxSM.updCase hu with
  | early _ hs hc =>
    rw [hc, hs]
    have h3 : (if i.busy = true then 1 else 4) ≠ 3 := by split <;> decide
    refine ⟨rfl, rfl, _, if_pos ⟨rfl, h3⟩, ?_⟩
    cases i.busy
    · exact .inr (.inr rfl)
    · exact .inr (.inl rfl)
  | hw _ _ _ hs hc =>
    rw [hc, hs]
    exact ⟨rfl, rfl, _, if_pos ⟨rfl, (by dsimp only; decide)⟩, .inl rfl⟩
  | stay _ he _ _ _ _ _ hs _ =>
    rcases he with he | he
    · exact absurd he hne
    · rw [hhi] at he; cases he
  | power _ he _ _ _ _ _ _ => rw [hhi] at he; cases he
  | start _ he _ _ _ _ => rw [hhi] at he; cases he
  | busy _ he _ _ _ _ _ _ => rw [hhi] at he; cases he
  | rxErr _ he _ _ _ _ => rw [hhi] at he; cases he
  | good _ he _ _ _ _ _ _ _ _ _ => rw [hhi] at he; cases he
  | bad _ he _ _ _ _ _ _ _ _ _ => rw [hhi] at he; cases he
  | finish _ he _ _ _ _ => rw [hhi] at he; cases he

/-- Three failing transmissions of the packet `40F0`: the bus gets busy before it is sent (status 1), nothing is heard (status 4), and the second byte is heard as `F1`
(status 21, with the byte that was sent); and an error of the hardware (status 5). -/
example :
    (loopSeen (opRun ++ [bothIter 2301000 [52, 48, 70, 48, 10] none, bothIter 2302000 [] none, bothIter 2303000 [] (some wBusy), bothIter 2304000 [] none])).map LoopSeen.failures =
      some [(1, [])] ∧
    (loopSeen (opRun ++ [bothIter 2301000 [52, 48, 70, 48, 10] none, bothIter 2302000 [] none, bothIter 2303000 [] none, bothIter 2334000 [] none,
      bothIter 2336500 [] none, bothIter 2337000 [] none])).map LoopSeen.failures = some [(4, [])] ∧
    (loopSeen (opRun ++ [bothIter 2301000 [52, 48, 70, 48, 10] none, bothIter 2302000 [] none, bothIter 2303000 [] none, bothIter 2334000 [] none,
      bothIter 2334500 [] (some wBusy), bothIter 2335500 [] (some (wByte 0x40)), bothIter 2336500 [] (some (wByte 0xF1)), bothIter 2337500 [] none])).map LoopSeen.failures =
      some [(21, [0x40, 0xF0])] ∧
    (loopSeen (opRun ++ [bothIter 2301000 [52, 48, 70, 48, 10] none, bothIter 2302000 [] none, bothIter 2303000 [] none, bothIter 2334000 [] none,
      bothIter 2334500 [] (some wBusy), bothIter 2335500 [] (some (wByte 0x40)), (env1 2336000 [], { env2 2336000 none with hwErr := true }), bothIter 2337500 [] none])).map LoopSeen.failures =
      some [(5, [0x40])] := by decide +kernel

/-! ## C99 -/

theorem heardBytes_snoc (ws : List Word) (w : Word) : (heardBytes (ws ++ [w])).length ≤ (heardBytes ws).length + 1 := by
  unfold heardBytes
  rw [List.filter_append, List.map_append, List.length_append]
  have : ((List.filter (fun w => !w.dadcError && (w.rxValid || w.rxError)) [w]).map Word.rxChar).length ≤ 1 := by
    rw [List.length_map]
    exact List.length_filter_le _ _
  omega

theorem heardStatus_codes (ws : List Word) : heardStatus ws = 0 ∨ heardStatus ws = 2 ∨ heardStatus ws = 3 := by
  unfold heardStatus
  split
  · exact .inl rfl
  · split
    · exact .inr (.inl rfl)
    · exact .inr (.inr rfl)

/-- What a raised error leaves to be told. -/
theorem LoopRun.failed {pf : Platform} {g : Nat → UInt8} {es : List (Env1 × Env2)} {c : Core0} {os : List Out2} (h : LoopRun pf g es c os) :
    c.sm.err = true → c.sm.rxMsg.length ≤ 32 ∧ c.sm.rxMsg.status ∈ [1, 3, 4, 5, 21] := by
  refine h.fwd (P := fun _ c _ => c.sm.err = true → c.sm.rxMsg.length ≤ 32 ∧ c.sm.rxMsg.status ∈ [1, 3, 4, 5, 21]) (fun _ _ _ h => by cases h) ?_
  intro es c os e c' o hr _ h1 he
  rcases iter_update hr hr.echo h1 with ⟨_, hi, _⟩ | ⟨s, i, hu, u1, u2, u3, u4, _⟩
  · rw [hi] at he; cases he
  · obtain ⟨k1, k2, k3⟩ := (update_echo hu u1 u2 u3 u4).2 he
    constructor
    · have := k2.length_le
      simp only [Message.bytes, List.length_map, List.length_range] at this
      have := (u2 k1).1.2
      omega
    · rcases k3 with ⟨k, _⟩ | ⟨k, _⟩ | ⟨k, _⟩ | ⟨k, _⟩ | ⟨k, _⟩ <;> rw [k] <;> simp

/-- **C99, lines.** In every history, every line about the bus has at most 32 bytes and status 0, 2, 3 or 4, and every line about a failed transmission has at most 32 bytes and
status 1, 4, 5 or 21. -/
theorem C99_lines (pf : Platform) (g : Nat → UInt8) (es : List (Env1 × Env2)) (c : Core0) (os : List Out2) (h : LoopRun pf g es c os) :
    ∀ o ∈ os, (∀ m ∈ rxMsgs o.reports, m.bytes.length ≤ 32 ∧ m.status ∈ [0, 2, 3, 4]) ∧
      (∀ m ∈ txMsgs o.reports, m.bytes.length ≤ 32 ∧ m.status ∈ [1, 4, 5, 21]) := by
  refine h.fwd (P := fun _ _ os => ∀ o ∈ os, (∀ m ∈ rxMsgs o.reports, m.bytes.length ≤ 32 ∧ m.status ∈ [0, 2, 3, 4]) ∧
      (∀ m ∈ txMsgs o.reports, m.bytes.length ≤ 32 ∧ m.status ∈ [1, 4, 5, 21])) (fun _ _ _ o ho => by cases ho) ?_
  intro es c os e c' o hr ih h1 x hx
  rcases List.mem_append.mp hx with hx | hx
  · exact ih x hx
  rw [List.mem_singleton.mp hx]
  constructor
  · obtain ⟨ws, _, h2, h3⟩ := C91_lines_explained pf g es c os hr
    have hc : Collected c.rxMsg ws := ⟨⟨h3, h2⟩, hr.good.rx⟩
    have hlen : (heardBytes ws).length < 32 := by
      rw [← h2]
      simpa [Message.bytes] using hr.good.rx
    obtain ⟨ws', t1, t2⟩ := RxSide.step_tells (s := c.rxSide) (s' := c'.rxSide) (ms := rxMsgs o.reports) hc (iter_rxSide h1)
    obtain ⟨busy, lost, heard, ws1, ws2, k1, k2, k3, k4⟩ := t1
    have e1 : (heardBytes ws1).length < 32 := by
      rcases k2 with ⟨_, k2⟩ | ⟨_, _, _, k2⟩
      · rw [k2]; exact hlen
      · rw [k2]; simp [heardBytes]
    have e2 : (heardBytes ws2).length < 32 := by
      rcases k3 with ⟨_, _, k3⟩ | ⟨_, _, _, _, k3⟩
      · rw [k3]; exact e1
      · rw [k3]; simp [heardBytes]
    intro m hm
    rw [k1] at hm
    rcases List.mem_append.mp hm with hm | hm
    · rcases List.mem_append.mp hm with hm | hm
      · rcases k2 with ⟨k2, _⟩ | ⟨m', k2, ⟨s1, s2⟩, _⟩
        · rw [k2] at hm; cases hm
        · rw [k2, List.mem_singleton] at hm
          rw [hm, s1, s2]
          exact ⟨by omega, by simp⟩
      · rcases k3 with ⟨_, k3, _⟩ | ⟨_, m', k3, ⟨s1, s2⟩, _⟩
        · rw [k3] at hm; cases hm
        · rw [k3, List.mem_singleton] at hm
          rw [hm, s1, s2]
          exact ⟨by omega, by simp⟩
    · rcases k4 with ⟨_, k4, _⟩ | ⟨w, _, k4⟩
      · rw [k4] at hm; cases hm
      · have := heardBytes_snoc ws2 w
        rcases k4 with ⟨_, m', k4, ⟨s1, s2⟩, _⟩ | ⟨_, _, m', k4, ⟨s1, s2⟩, _⟩ | ⟨_, _, k4, _⟩
        · rw [k4, List.mem_singleton] at hm
          rw [hm, s1, s2]
          refine ⟨by omega, ?_⟩
          rcases heardStatus_codes (ws2 ++ [w]) with q | q | q <;> rw [q] <;> simp
        · rw [k4, List.mem_singleton] at hm
          rw [hm, s1, s2]
          exact ⟨by omega, by simp⟩
        · rw [k4] at hm; cases hm
  · intro m hm
    rw [iter_tx hr.good h1] at hm
    split at hm
    case isFalse => cases hm
    rename_i hc
    rw [List.mem_singleton] at hm
    subst hm
    obtain ⟨f1, f2⟩ := hr.failed hc.1
    refine ⟨by simpa [Message.bytes] using f1, ?_⟩
    simp only [List.mem_cons, List.not_mem_nil, or_false] at f2 ⊢
    have := hc.2
    omega

/-- **C99, readable.** In every history: every line given to the host, with the time `t` put into it and with or without the overflow flag or-ed into its status, is printed as
documented in at most 94 characters, and a program that reads the line with this parser gets the same packet. -/
theorem C99_readable (pf pf' : Platform) (hpf : pf'.Real) (g g' buf : Nat → UInt8) (es : List (Env1 × Env2)) (c : Core0) (os : List Out2) (h : LoopRun pf g es c os)
    (o : Out2) (ho : o ∈ os) (r : Report) (hr : r ∈ o.reports) (t : Nat) (ht : t < 2 ^ 63) (s : Nat) (hs : s = r.msg.status ∨ s = r.msg.status ||| 2) :
    Message.lineOf { r.msg with time := t, status := s } buf = .ok (Spec.line t s r.msg.bytes) ∧ (Spec.line t s r.msg.bytes).length ≤ 94 ∧
      ∃ m, Message.parse pf' g' (Spec.line t s r.msg.bytes) = .ok m ∧ m.Is t s r.msg.bytes := by
  obtain ⟨h1, h2⟩ := C99_lines pf g es c os h o ho
  have hl : r.msg.bytes.length ≤ 32 ∧ r.msg.status < 32 := by
    cases r with
    | rx m =>
      obtain ⟨k1, k2⟩ := h1 m (List.mem_filterMap.mpr ⟨_, hr, rfl⟩)
      refine ⟨k1, ?_⟩
      simp only [List.mem_cons, List.not_mem_nil, or_false] at k2
      show m.status < 32
      omega
    | tx m =>
      obtain ⟨k1, k2⟩ := h2 m (List.mem_filterMap.mpr ⟨_, hr, rfl⟩)
      refine ⟨k1, ?_⟩
      simp only [List.mem_cons, List.not_mem_nil, or_false] at k2
      show m.status < 32
      omega
  have hs' : s < 2 ^ 5 := by
    rcases hs with rfl | rfl
    · exact hl.2
    · exact Nat.or_lt_two_pow hl.2 (by omega)
  have his : ({ r.msg with time := t, status := s } : Message).Is t s r.msg.bytes :=
    ⟨rfl, rfl, by simp [Message.bytes], by intro i hi; simp [Message.bytes]⟩
  obtain ⟨a1, a2⟩ := C02_printed_line _ t s _ his hl.1 (by omega) (by omega) buf
  obtain ⟨text, m', b1, b2, b3⟩ := C01_round_trip pf' hpf _ t s _ his hl.1 ht (by omega) buf g'
  rw [a1] at b1
  cases b1
  exact ⟨a1, a2, m', b2, b3⟩

end P1P2
