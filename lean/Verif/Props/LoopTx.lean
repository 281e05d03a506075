import Verif.Proofs.LoopTrace
/-!
# Properties C85, C87, C88: transmissions by the main loop
-/
namespace P1P2

/-! ## C85 -/

/-- **C85.** In every history, every message given to the transmitter has 1 to 32 bytes. -/
theorem C85_sendable (pf : Platform) (g : Nat → UInt8) (es : List (Env1 × Env2)) (c : Core0) (os : List Out2) (h : LoopRun pf g es c os) :
    ∀ o ∈ os, ∀ m, o.started = some m → 1 ≤ m.length ∧ m.length ≤ 32 := by
  obtain ⟨w0, t0, t1, h⟩ := h
  exact ((Core0.Good.init g w0 t0 t1).run h).2

/-! ## C87 -/

/-- Words as the receiving core sends them. -/
def LoopWordsOk (es : List (Env1 × Env2)) : Prop := ∀ w ∈ wordsOf es, WordOk w

theorem LoopWordsOk.snoc {es : List (Env1 × Env2)} {e : Env1 × Env2} (h : LoopWordsOk (es ++ [e])) :
    LoopWordsOk es ∧ ∀ w, e.2.word = some w → WordOk w := by
  refine ⟨fun w hw => h w (by rw [wordsOf_append]; exact List.mem_append_left _ hw), fun w hw => h w ?_⟩
  rw [wordsOf_append]
  exact List.mem_append_right _ (by simp [wordsOf, hw])

/-- The main loop knows the bus as busy exactly if the last change it was told was that it became busy (busy at the start). -/
theorem LoopRun.lineBusy {pf : Platform} {g : Nat → UInt8} {es : List (Env1 × Env2)} {c : Core0} {os : List Out2} (h : LoopRun pf g es c os) :
    LoopWordsOk es → c.lineBusy = busKnownBusy true (wordsOf es) := by
  refine h.fwd (P := fun es c _ => LoopWordsOk es → c.lineBusy = busKnownBusy true (wordsOf es)) (fun _ _ _ _ => rfl) ?_
  intro es c os e c' o _ ih h1 hw
  obtain ⟨hw1, hw2⟩ := hw.snoc
  rw [iter_lineBusy h1 hw2, ih hw1, wordsOf_append, busKnownBusy_append]

theorem LoopRun.length {pf : Platform} {g : Nat → UInt8} {es : List (Env1 × Env2)} {c : Core0} {os : List Out2} (h : LoopRun pf g es c os) :
    os.length = es.length :=
  h.fwd (P := fun es _ os => os.length = es.length) (fun _ _ _ => rfl) (by intros; simp_all)

/-- The transmitter is powering up: since when, and what happened since. -/
def Powering (es : List (Env1 × Env2)) (c : Core0) (os : List Out2) : Prop :=
  ∃ pre x mid opre ox omid, es = pre ++ x :: mid ∧ os = opre ++ ox :: omid ∧ opre.length = pre.length ∧ omid.length = mid.length ∧
    ox.cmds = [.shutdown false] ∧ x.2.transmitting = false ∧ (∀ y ∈ omid, y.cmds = [] ∧ y.started = none) ∧
    c.sm.dl = x.2.tNew + 32000 ∧ ∀ a b, mid = a ++ b → busKnownBusy true (wordsOf (pre ++ x :: a)) = false

/-- What is known of the transmitter in a history. -/
def TxKnown (es : List (Env1 × Env2)) (c : Core0) (os : List Out2) : Prop :=
  (c.sm.st ≠ .idle → (os.filterMap Out2.started).getLast? = some c.sm.txMsg) ∧
  (LoopWordsOk es → c.sm.st = .waitPowerOn → Powering es c os)

theorem started_snoc (os : List Out2) (o : Out2) : (os ++ [o]).filterMap Out2.started = os.filterMap Out2.started ++ o.started.toList := by
  rw [List.filterMap_append]
  cases h : o.started <;> simp [List.filterMap, h]

theorem append_singleton_eq {α : Type} {x : α} {l a b : List α} (h : l ++ [x] = a ++ b) : (b = [] ∧ a = l ++ [x]) ∨ ∃ b', b = b' ++ [x] ∧ l = a ++ b' := by
  rcases List.append_eq_append_iff.mp h with ⟨k, h1, h2⟩ | ⟨k, h1, h2⟩
  · cases k with
    | nil => simp at h1 h2; exact .inr ⟨[], by simpa using h2.symm, by simpa using h1.symm⟩
    | cons y ys =>
      simp only [List.cons_append, List.cons.injEq] at h2
      obtain ⟨rfl, h2⟩ := h2
      have h3 := List.append_eq_nil_iff.mp h2.symm
      left; exact ⟨h3.2, by rw [h1, h3.1]⟩
  · exact .inr ⟨k, h2, h1⟩

/-- The kinds of updates as far as powering up and sending is concerned. -/
theorem update_power {pf : Platform} {s s' : TxSM} {i : UpdIn} {cmds : List HwCmd} (h : s.update pf i = .ok (s', cmds)) :
    s'.txMsg = s.txMsg ∧ (s'.st ≠ .idle → s.st ≠ .idle) ∧
    (s'.st = .waitPowerOn → (s.st = .waitPowerOn ∧ i.busy = false ∧ cmds = [] ∧ s'.dl = s.dl) ∨
      (s.st = .waitLineFree ∧ i.busy = false ∧ i.transmitting = false ∧ cmds = [.shutdown false] ∧ s'.dl = i.tNew + 32000)) ∧
    (∀ m, HwCmd.send m ∈ cmds → s.st = .waitPowerOn ∧ i.busy = false ∧ cmds = [.send m] ∧ m = s.txMsg ∧ s.dl ≤ i.tPow) := by
  have hb : ∀ (b : Bool), s.st = .waitPowerOn → (s.timedOutError i || s.st.lineStateIsError i.busy) = false → i.busy = false := by
    intro b hst hf
    cases hi : i.busy with
    | false => rfl
    | true => rw [hst] at hf; simp [hi, TxSt.lineStateIsError, TxSt.busyIsError] at hf
  cases TxSM.updCase h with
  | early _ hs hc => subst hs hc; simp
  | hw _ _ _ hs hc => subst hs hc; simp
  | stay hf _ _ _ _ _ _ hs hc =>
    subst hs hc
    refine ⟨rfl, fun h => h, fun hst => .inl ⟨hst, hb true hst hf, rfl, rfl⟩, by simp⟩
  | power hf _ hst hbu htr _ hs hc =>
    subst hs hc
    simp [hst, hbu, htr]
  | start hf _ hst hdl hs hc =>
    subst hs hc
    refine ⟨rfl, fun _ => by simp [hst], by simp, ?_⟩
    intro m hm
    simp only [List.mem_singleton, HwCmd.send.injEq] at hm
    subst hm
    exact ⟨hst, hb true hst hf, rfl, rfl, hdl⟩
  | busy _ _ hst _ _ _ hs hc => subst hs hc; simp [hst]
  | rxErr _ _ hst _ hs hc => subst hs hc; rcases hst with hst | hst <;> simp [hst]
  | good _ _ hst _ _ _ _ rx _ hs hc => subst hs hc; rcases hst with hst | hst <;> simp [hst] <;> (try split) <;> simp
  | bad _ _ hst _ _ _ _ rx _ hs hc => subst hs hc; rcases hst with hst | hst <;> simp [hst] <;> (try split) <;> simp
  | finish _ _ hst _ hs hc => subst hs hc; simp [hst]

theorem LoopRun.txKnown {pf : Platform} {g : Nat → UInt8} {es : List (Env1 × Env2)} {c : Core0} {os : List Out2} (h : LoopRun pf g es c os) :
    TxKnown es c os := by
  refine h.fwd (P := TxKnown) ?_ ?_
  · intro w0 t0 t1
    exact ⟨fun h => absurd rfl h, fun _ h => by cases h⟩
  · intro es c os e c' o hr ih h1
    obtain ⟨p, hp, hc⟩ := iter_trace hr.good h1
    obtain ⟨l1, l2, l3, l4, l5⟩ := hp.last
    rcases hc with ⟨_, hi, _, hst, hw, hsm, _⟩ | ⟨_, _, ⟨hst, hu⟩ | ⟨m, hst, hm, hi, hu⟩⟩
    · have : c'.sm.st = .idle := by rw [hsm, l1]; exact hi
      exact ⟨fun h => absurd this h, fun _ h => by rw [this] at h; cases h⟩
    · obtain ⟨u1, u2, u3, u4⟩ := update_power hu
      refine ⟨fun hn => ?_, fun hw hpo => ?_⟩
      · rw [started_snoc, hst]
        simp only [Option.toList_none, List.append_nil]
        rw [ih.1 (by rw [← l1]; exact u2 hn), u1, l2]
      · obtain ⟨hw1, hw2⟩ := hw.snoc
        have hbusy : busKnownBusy true (wordsOf (es ++ [e])) = c'.lineBusy := ((hr.snoc h1).lineBusy hw).symm
        rcases u3 hpo with ⟨v1, v2, v3, v4⟩ | ⟨v1, v2, v3, v4, v5⟩
        · obtain ⟨pre, x, mid, opre, ox, omid, k1, k2, k3, k4, k5, k6, k7, k8, k9⟩ := ih.2 hw1 (by rw [← l1]; exact v1)
          refine ⟨pre, x, mid ++ [e], opre, ox, omid ++ [o], by rw [k1]; simp, by rw [k2]; simp, k3, by simp [k4], k5, k6, ?_, by rw [v4, l3, k8], ?_⟩
          · intro y hy
            rcases List.mem_append.mp hy with hy | hy
            · exact k7 y hy
            · rw [List.mem_singleton.mp hy]; exact ⟨v3, hst⟩
          · intro a b hab
            rcases append_singleton_eq hab with ⟨rfl, rfl⟩ | ⟨b', rfl, hm'⟩
            · have : pre ++ x :: (mid ++ [e]) = es ++ [e] := by rw [k1]; simp
              rw [this, hbusy]; exact v2
            · exact k9 a b' hm'
        · refine ⟨es, e, [], os, o, [], rfl, rfl, ?_, rfl, v4, v3, by simp, v5, ?_⟩
          · exact hr.length
          · intro a b hab
            have ha : a = [] := (List.append_eq_nil_iff.mp hab.symm).1
            subst ha
            rw [hbusy]; exact v2
    · have hi' : (txEnd c.sm p).st = .idle := by rw [l1]; exact hi
      rw [TxSM.wake_idle hi'] at hu
      obtain ⟨u1, u2, u3, u4⟩ := update_power hu
      refine ⟨fun hn => ?_, fun hw hpo => ?_⟩
      · rw [started_snoc, hst, u1]; simp
      · obtain ⟨hw1, hw2⟩ := hw.snoc
        have hbusy : busKnownBusy true (wordsOf (es ++ [e])) = c'.lineBusy := ((hr.snoc h1).lineBusy hw).symm
        rcases u3 hpo with ⟨v1, v2, v3, v4⟩ | ⟨v1, v2, v3, v4, v5⟩
        · cases v1
        · refine ⟨es, e, [], os, o, [], rfl, rfl, ?_, rfl, v4, v3, by simp, v5, ?_⟩
          · exact hr.length
          · intro a b hab
            have ha : a = [] := (List.append_eq_nil_iff.mp hab.symm).1
            subst ha
            rw [hbusy]; exact v2

/-- **C87.** In every history: if an iteration (`e`, with output `o`) hands a message to the transmit hardware, then it is the message given to the
transmitter last, the last the main loop was told is that the bus is free, and an earlier iteration (`x`), at least 32 ms ago, switched on the
amplifier while the hardware was drained; in that iteration and all since the bus was known to be free, and none of them used the hardware or
started a transmission. -/
theorem C87_listen_first (pf : Platform) (g : Nat → UInt8) (es : List (Env1 × Env2)) (e : Env1 × Env2) (c c' : Core0) (os : List Out2) (o : Out2) (m : Message)
    (hr : LoopRun pf g es c os) (h : c.iter pf g e = .ok (c', o)) (hw : ∀ w ∈ wordsOf (es ++ [e]), WordOk w) (hm : HwCmd.send m ∈ o.cmds) :
    o.cmds = [.send m] ∧ (os.filterMap Out2.started).getLast? = some m ∧ o.started = none ∧ busKnownBusy true (wordsOf (es ++ [e])) = false ∧
    ∃ pre x mid opre ox omid, es = pre ++ x :: mid ∧ os = opre ++ ox :: omid ∧ opre.length = pre.length ∧ omid.length = mid.length ∧
      ox.cmds = [.shutdown false] ∧ x.2.transmitting = false ∧ x.2.tNew + 32000 ≤ e.2.tPow ∧
      (∀ y ∈ omid, y.cmds = [] ∧ y.started = none) ∧ ∀ a b, mid = a ++ b → busKnownBusy true (wordsOf (pre ++ x :: a)) = false := by
  have hw' : LoopWordsOk (es ++ [e]) := hw
  obtain ⟨hk1, hk2⟩ := hr.txKnown
  obtain ⟨p, hp, hc⟩ := iter_trace hr.good h
  obtain ⟨l1, l2, l3, l4, l5⟩ := hp.last
  rcases hc with ⟨_, hi, hcm, _⟩ | ⟨_, _, ⟨hst, hu⟩ | ⟨m', hst, hm', hi, hu⟩⟩
  · rw [hcm] at hm; cases hm
  · obtain ⟨u1, u2, u3, u4⟩ := update_power hu
    obtain ⟨v1, v2, v3, v4, v5⟩ := u4 m hm
    have hpo : c.sm.st = .waitPowerOn := by rw [← l1]; exact v1
    obtain ⟨pre, x, mid, opre, ox, omid, k1, k2, k3, k4, k5, k6, k7, k8, k9⟩ := hk2 hw'.snoc.1 hpo
    refine ⟨v3, ?_, hst, ?_, pre, x, mid, opre, ox, omid, k1, k2, k3, k4, k5, k6, ?_, k7, k9⟩
    · rw [hk1 (by rw [hpo]; simp), v4, l2]
    · rw [← (hr.snoc h).lineBusy hw']; exact v2
    · rw [← k8, ← l3]; exact v5
  · have hi' : (txEnd c.sm p).st = .idle := by rw [l1]; exact hi
    rw [TxSM.wake_idle hi'] at hu
    obtain ⟨v1, _⟩ := (update_power hu).2.2.2 m hm
    cases v1

/-! ## C88 -/

/-- One iteration while a transmission is under way: only the last call has commands. -/
theorem busy_iter_last {pf : Platform} {g : Nat → UInt8} {c c' : Core0} {e : Env1 × Env2} {o : Out2} (hg : c.Good) (hz : c.word = .zero)
    (hb : c.sm.st ≠ .idle) (h : c.iter pf g e = .ok (c', o)) :
    ∃ p last, TxRun pf c.sm (p ++ [last]) ∧ txEnd c.sm (p ++ [last]) = c'.sm ∧ (∀ x ∈ p, x.after.st ≠ .idle ∧ x.after.err = false) ∧ last.after = c'.sm ∧
      echoes (p ++ [last]) = goodBytes (wordsOf [e]) ∧ txCmds (p ++ [last]) = o.cmds ∧ c'.word = .zero ∧ last.cmds = o.cmds ∧ ∀ x ∈ p, x.cmds = [] := by
  obtain ⟨p, hp, hc⟩ := iter_trace hg h
  rcases hc with ⟨_, hi, _⟩ | ⟨_, hz', ⟨hst, hu⟩ | ⟨m', hst, hm', hi, hu⟩⟩
  · exact absurd hi hb
  · refine ⟨p, ⟨.update (loopIn c' e.2 (e.2.word.getD c.word)), o.cmds, c'.sm⟩, TxRun.append.mpr ⟨hp.run, hu, trivial⟩, by rw [txEnd_append]; rfl, ?_, rfl, ?_, ?_, hz', rfl, fun x hx => (hp.quiet x hx).1⟩
    · intro x hx
      obtain ⟨_, _, h1, _, _, _, h2⟩ := hp.quiet x hx
      exact ⟨by rw [h1]; exact hb, h2⟩
    · have e0 : ∀ l : List TxObs, (∀ x ∈ l, x.call = .error ∨ x.call = .clearRx) → echoes l = [] := by
        intro l
        induction l with
        | nil => intro _; rfl
        | cons x xs ih =>
          intro hl
          unfold echoes
          rw [List.filterMap_cons]
          rcases hl x (by simp) with h | h <;> rw [h] <;> exact ih (fun y hy => hl y (by simp [hy]))
      have e1 : echoes (p ++ [⟨.update (loopIn c' e.2 (e.2.word.getD c.word)), o.cmds, c'.sm⟩]) =
          echoes p ++ echoes [⟨.update (loopIn c' e.2 (e.2.word.getD c.word)), o.cmds, c'.sm⟩] := List.filterMap_append
      rw [e1, e0 p (fun x hx => (hp.quiet x hx).2.1), List.nil_append, hz]
      cases hw : e.2.word with
      | none => simp [wordsOf, hw, goodBytes, echoes, loopIn, Word.zero]
      | some w => cases h1 : w.rxValid <;> cases h2 : w.rxError <;> simp [wordsOf, hw, goodBytes, echoes, loopIn, h1, h2]
    · rw [txCmds_append]
      have : txCmds p = [] := by
        unfold txCmds
        rw [List.flatMap_eq_nil_iff]
        intro x hx
        exact (hp.quiet x hx).1
      rw [this]
      simp [txCmds]
  · exact absurd hi hb

/-- One iteration while a transmission is under way. -/
theorem busy_iter {pf : Platform} {g : Nat → UInt8} {c c' : Core0} {e : Env1 × Env2} {o : Out2} (hg : c.Good) (hz : c.word = .zero)
    (hb : c.sm.st ≠ .idle) (h : c.iter pf g e = .ok (c', o)) :
    ∃ p last, TxRun pf c.sm (p ++ [last]) ∧ txEnd c.sm (p ++ [last]) = c'.sm ∧ (∀ x ∈ p, x.after.st ≠ .idle ∧ x.after.err = false) ∧ last.after = c'.sm ∧
      echoes (p ++ [last]) = goodBytes (wordsOf [e]) ∧ txCmds (p ++ [last]) = o.cmds ∧ c'.word = .zero := by
  obtain ⟨p, last, h1, h2, h3, h4, h5, h6, h7, _⟩ := busy_iter_last hg hz hb h
  exact ⟨p, last, h1, h2, h3, h4, h5, h6, h7⟩

theorem goodBytes_append (a b : List Word) : goodBytes (a ++ b) = goodBytes a ++ goodBytes b := List.filterMap_append

/-- A period in which a transmission is under way. -/
theorem busy_run {pf : Platform} {g : Nat → UInt8} {es : List (Env1 × Env2)} : ∀ {c c' : Core0} {os : List Out2}, c.Good → c.word = .zero →
    (∀ pre post cp op, es = pre ++ post → c.run pf g pre = .ok (cp, op) → cp.sm.st ≠ .idle ∧ cp.sm.err = false) → c.run pf g es = .ok (c', os) →
    ∃ obs, TxRun pf c.sm obs ∧ txEnd c.sm obs = c'.sm ∧ (∀ x ∈ obs, x.after.st ≠ .idle ∧ x.after.err = false) ∧ echoes obs = goodBytes (wordsOf es) ∧
      txCmds obs = os.flatMap Out2.cmds ∧ c'.word = .zero ∧ c'.Good := by
  induction es with
  | nil => intro c c' os hg hz _ h; cases h; exact ⟨[], trivial, rfl, by simp, rfl, rfl, hz, hg⟩
  | cons e es ih =>
    intro c c' os hg hz hb h
    obtain ⟨c1, o, os', h1, h2, rfl⟩ := Core0.run_cons h
    obtain ⟨p, last, t1, t2, t3, t4, t5, t6, t7⟩ := busy_iter hg hz (hb [] _ c [] rfl rfl).1 h1
    have hc1 := hb [e] es c1 [o] rfl (by rw [Core0.run, h1]; rfl)
    obtain ⟨obs, r1, r2, r3, r4, r5, r6, r7⟩ := ih (hg.iter h1).1 t7 (by
      intro pre post cp op hp hr
      refine hb (e :: pre) post cp (o :: op) (by rw [hp]; rfl) ?_
      rw [Core0.run, h1, Res.ok_bind]
      dsimp only
      rw [hr]; rfl) h2
    refine ⟨(p ++ [last]) ++ obs, TxRun.append.mpr ⟨t1, by rw [t2]; exact r1⟩, by rw [txEnd_append, t2]; exact r2, ?_, ?_, ?_, r6, r7⟩
    · intro x hx
      rcases List.mem_append.mp hx with hx | hx
      · rcases List.mem_append.mp hx with hx | hx
        · exact t3 x hx
        · rw [List.mem_singleton.mp hx, t4]; exact hc1
      · exact r3 x hx
    · rw [echoes_append, t5, r4, show e :: es = [e] ++ es from rfl, wordsOf_append, goodBytes_append]
    · rw [txCmds_append, t6, r5, List.flatMap_cons]

/-- If no line about a failed transmission follows and nothing was received with an error, no failure was raised. -/
theorem err_false {pf : Platform} {g : Nat → UInt8} {c c1 c2 : Core0} {e1 e2 : Env1 × Env2} {o1 o2 : Out2} (hg : c.Good)
    (h1 : c.iter pf g e1 = .ok (c1, o1)) (h2 : c1.iter pf g e2 = .ok (c2, o2)) (hn : txMsgs o2.reports = [])
    (hw : ∀ w, e1.2.word = some w → w.rxError = false) : c1.sm.err = false := by
  cases he : c1.sm.err with
  | false => rfl
  | true =>
    rw [iter_tx (hg.iter h1).1 h2] at hn
    by_cases hs : c1.sm.rxMsg.status = 3
    · obtain ⟨w, w1, w2⟩ := iter_rx_failure hg h1 he hs
      rw [hw w w1] at w2; cases w2
    · rw [if_pos ⟨he, hs⟩] at hn; cases hn

theorem run_errs {pf : Platform} {g : Nat → UInt8} {es : List (Env1 × Env2)} : ∀ {c c1 c2 c3 : Core0} {os : List Out2} {x y : Env1 × Env2} {ox oy : Out2}, c.Good →
    c.iter pf g x = .ok (c1, ox) → c1.run pf g es = .ok (c2, os) → c2.iter pf g y = .ok (c3, oy) → (∀ o ∈ os ++ [oy], txMsgs o.reports = []) →
    (∀ w ∈ wordsOf (x :: es), w.rxError = false) →
    ∀ pre post cp op, es = pre ++ post → c1.run pf g pre = .ok (cp, op) → cp.sm.err = false := by
  induction es with
  | nil =>
    intro c c1 c2 c3 os x y ox oy hg hx hr hy hn hw pre post cp op hp hpr
    obtain ⟨rfl, rfl⟩ := List.append_eq_nil_iff.mp hp.symm
    cases hpr
    cases hr
    exact err_false hg hx hy (hn oy (by simp)) (fun w hh => hw w (by simp [wordsOf, hh]))
  | cons e es ih =>
    intro c c1 c2 c3 os x y ox oy hg hx hr hy hn hw pre post cp op hp hpr
    obtain ⟨c4, o4, os', h1, h2, rfl⟩ := Core0.run_cons hr
    have hw' : ∀ w ∈ wordsOf (e :: es), w.rxError = false := by
      intro w hh
      apply hw w
      rw [show x :: e :: es = [x] ++ (e :: es) from rfl, wordsOf_append]
      exact List.mem_append_right _ hh
    cases pre with
    | nil =>
      cases hpr
      exact err_false hg hx h1 (hn o4 (by simp)) (fun w hh => hw w (by simp [wordsOf, hh]))
    | cons a pre =>
      simp only [List.cons_append, List.cons.injEq] at hp
      obtain ⟨rfl, hp⟩ := hp
      obtain ⟨c5, o5, os5, h3, h4, rfl⟩ := Core0.run_cons hpr
      rw [h1] at h3
      cases h3
      exact ih (hg.iter hx).1 h1 h2 hy (fun o ho => hn o (by
        rcases List.mem_append.mp ho with ho | ho
        · simp [ho]
        · simp [List.mem_singleton.mp ho])) hw' pre post cp os5 hp h4

/-- **C88** (target). In every history: iteration `x` starts to transmit the packet `m`, after the iterations `mid`, in which the transmitter is not
idle, iteration `y` finds it idle again, and `z` is the next one.  If no line about a failed transmission was given to the host and nothing was
received with an error meanwhile, then the packet was handed to the transmit hardware and all its bytes were received from the bus, in order and
with nothing in between. -/
theorem C88_success_means_echo (pf : Platform) (hpf : pf.charSigned = false) (g : Nat → UInt8) (es mid : List (Env1 × Env2)) (x y z : Env1 × Env2)
    (c0 c1 c2 c3 c4 : Core0) (os om : List Out2) (ox oy oz : Out2) (m : Message) (hr : LoopRun pf g es c0 os)
    (hx : c0.iter pf g x = .ok (c1, ox)) (hs : ox.started = some m) (hm : c1.run pf g mid = .ok (c2, om)) (hy : c2.iter pf g y = .ok (c3, oy))
    (hz : c3.iter pf g z = .ok (c4, oz))
    (hbusy : ∀ pre post cp op, mid = pre ++ post → c1.run pf g pre = .ok (cp, op) → cp.sm.isIdle = false) (hidle : c3.sm.isIdle = true)
    (hno : ∀ o ∈ om ++ [oy, oz], txMsgs o.reports = []) (hrx : ∀ w ∈ wordsOf (x :: mid ++ [y]), w.rxError = false) :
    (∃ o ∈ om ++ [oy], HwCmd.send m ∈ o.cmds) ∧ m.bytes <:+: goodBytes (wordsOf (mid ++ [y])) := by
  have hg := hr.good
  have hg1 := (hg.iter hx).1
  have hidle' : c3.sm.st = .idle := by simpa [TxSM.isIdle] using hidle
  have hbusy' : ∀ pre post cp op, mid = pre ++ post → c1.run pf g pre = .ok (cp, op) → cp.sm.st ≠ .idle := by
    intro pre post cp op h1 h2
    simpa [TxSM.isIdle] using hbusy pre post cp op h1 h2
  have herr := run_errs hg hx hm hy (fun o ho => hno o (by
    rcases List.mem_append.mp ho with ho | ho
    · simp [ho]
    · simp [List.mem_singleton.mp ho])) (fun w hw => hrx w (by
      rw [wordsOf_append]; exact List.mem_append_left _ hw))
  have hg2 := (hg1.run hm).1
  have herr3 : c3.sm.err = false := err_false hg2 hy hz (hno oz (by simp)) (fun w hw => hrx w (by
    rw [wordsOf_append]; exact List.mem_append_right _ (by simp [wordsOf, hw])))
  -- the iteration that starts
  obtain ⟨p, hp, hc⟩ := iter_trace hg hx
  rcases hc with ⟨_, _, _, hn, _⟩ | ⟨_, hz1, ⟨hn, _⟩ | ⟨m', hst, hsd, hi, hu⟩⟩
  · rw [hn] at hs; cases hs
  · rw [hn] at hs; cases hs
  rw [hst] at hs
  cases hs
  have hi' : (txEnd c0.sm p).st = .idle := by rw [hp.last.1]; exact hi
  obtain ⟨obs, r1, r2, r3, r4, r5, r6, r7⟩ := busy_run hg1 hz1 (fun pre post cp op a b => ⟨hbusy' pre post cp op a b, herr pre post cp op a b⟩) hm
  obtain ⟨q, last, t1, t2, t3, t4, t5, t6, _⟩ := busy_iter hg2 r6 (hbusy' mid [] c2 om (by simp) hm) hy
  let s0 := txEnd c0.sm p
  let wk : TxObs := ⟨.wake m x.2.tWake, [], (s0.wake m x.2.tWake).1⟩
  let up : TxObs := ⟨.update (loopIn c1 x.2 (x.2.word.getD c0.word)), ox.cmds, c1.sm⟩
  have hwk : s0.wake m x.2.tWake = ((s0.wake m x.2.tWake).1, []) := by rw [TxSM.wake_idle hi']
  have run : TxRun pf s0 (wk :: (up :: (obs ++ q) ++ [last])) := by
    refine ⟨?_, hu, ?_⟩
    · show Res.ok (s0.wake m x.2.tWake) = _
      rw [hwk]
    · show TxRun pf c1.sm ((obs ++ q) ++ [last])
      rw [List.append_assoc]
      exact TxRun.append.mpr ⟨r1, by rw [r2]; exact t1⟩
  have hb : ∀ e ∈ up :: (obs ++ q), e.after.st ≠ .idle ∧ e.after.err = false := by
    intro e he
    rcases List.mem_cons.mp he with rfl | he
    · exact ⟨hbusy' [] mid c1 [] rfl rfl, herr [] mid c1 [] rfl rfl⟩
    · rcases List.mem_append.mp he with he | he
      · exact r3 e he
      · exact t3 e he
  obtain ⟨_, a, s, b, d, k1, k2, k3, k4, k5⟩ := C24_verified_echo pf hpf s0 hi' m hsd x.2.tWake wk (up :: (obs ++ q)) last rfl run
    (fun e he => (hb e he).1) (by rw [t4]; exact hidle') (by
      intro e he
      rcases List.mem_append.mp he with he | he
      · exact (hb e he).2
      · rw [List.mem_singleton.mp he, t4]; exact herr3)
  -- the part after the start
  have hsplit : (a = [] ∧ up = s ∧ obs ++ q = b ++ d) ∨ ∃ a', a = up :: a' ∧ obs ++ q = a' ++ s :: (b ++ d) := by
    cases a with
    | nil =>
      simp only [List.nil_append, List.cons.injEq] at k1
      exact .inl ⟨rfl, k1.1, k1.2⟩
    | cons a0 a' =>
      simp only [List.cons_append, List.cons.injEq] at k1
      exact .inr ⟨a', by rw [k1.1], k1.2⟩
  have hech : echoes (obs ++ q ++ [last]) = goodBytes (wordsOf (mid ++ [y])) := by
    rw [List.append_assoc, echoes_append, r4, t5, wordsOf_append, goodBytes_append]
  have hcm : txCmds (obs ++ q ++ [last]) = (om ++ [oy]).flatMap Out2.cmds := by
    rw [List.append_assoc, txCmds_append, r5, t6, List.flatMap_append]; simp
  rcases hsplit with ⟨rfl, hs, hod⟩ | ⟨a', rfl, hod⟩
  · exfalso
    rw [TxSM.wake_idle hi'] at hu
    have : HwCmd.send m ∈ ox.cmds := by
      have : s.cmds = ox.cmds := by rw [← hs]
      rw [← this, k3]; simp
    obtain ⟨v1, _⟩ := (update_power hu).2.2.2 m this
    cases v1
  · constructor
    · have : HwCmd.send m ∈ txCmds (obs ++ q ++ [last]) := by
        rw [hod]
        simp [txCmds, k3]
      rw [hcm] at this
      obtain ⟨o, ho1, ho2⟩ := List.mem_flatMap.mp this
      exact ⟨o, ho1, ho2⟩
    · rw [← hech, hod, ← k4]
      refine ⟨echoes (a' ++ [s]), echoes (d ++ [last]), ?_⟩
      rw [← echoes_append, ← echoes_append]
      congr 1
      simp

/-- The host sends the packet `40F0`; it is transmitted and echoed. -/
def echoLoop : List (Env1 × Env2) := opRun ++ [bothIter 2301000 [52, 48, 70, 48, 10] none, bothIter 2302000 [] none, bothIter 2303000 [] none,
  bothIter 2334000 [] none, bothIter 2334500 [] (some wBusy), bothIter 2335500 [] (some (wByte 0x40)), bothIter 2336500 [] (some (wByte 0xF0)),
  bothIter 2337500 [] none, bothIter 2338500 [] (some wFree), bothIter 2339500 [] none]

/-- The hypotheses of C87 and C88 are met by this run: started in iteration 3, powering up since iteration 3, handed to the hardware in iteration 6, not
idle up to iteration 10, idle after iteration 11, no line about a failure. -/
example : (List.range 14).map (fun n => loopSeen (echoLoop.take n)) =
    [some ⟨[], [], [], true, false⟩, some ⟨[], [], [], true, false⟩, some ⟨[], [], [], true, false⟩, some ⟨[], [], [], true, false⟩,
     some ⟨[[0x40, 0xF0]], [], [], false, false⟩, some ⟨[[0x40, 0xF0]], [], [], false, false⟩, some ⟨[[0x40, 0xF0]], [], [], false, false⟩,
     some ⟨[[0x40, 0xF0]], [], [[0x40, 0xF0]], false, false⟩, some ⟨[[0x40, 0xF0]], [], [[0x40, 0xF0]], false, false⟩,
     some ⟨[[0x40, 0xF0]], [], [[0x40, 0xF0]], false, false⟩, some ⟨[[0x40, 0xF0]], [], [[0x40, 0xF0]], false, false⟩,
     some ⟨[[0x40, 0xF0]], [], [[0x40, 0xF0]], false, false⟩, some ⟨[[0x40, 0xF0]], [], [[0x40, 0xF0]], true, false⟩,
     some ⟨[[0x40, 0xF0]], [], [[0x40, 0xF0]], true, false⟩] := by decide +kernel

end P1P2
