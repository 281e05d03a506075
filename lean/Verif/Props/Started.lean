import Verif.Props.Lines
/-!
# Properties C89, C90: what the main loop transmits, and what it tells the controller
-/
namespace P1P2

/-! ## C89 -/

theorem AnswerTo.taken {addr : Nat} {r : Message} {k : Ctrl} (h : AnswerTo addr r k.answer) (out : Message) {k' : Ctrl} {o : Message}
    (e : k.txAnswer out = .ok (k', o)) : AnswerTo addr r o := by
  have hlen := h.le18
  rw [txAnswer_eq (by omega)] at e
  simp only [Res.ok.injEq, Prod.mk.injEq] at e
  obtain ⟨_, rfl⟩ := e
  have hpos : 16 ≤ k.answer.length := by rw [h.length]; split <;> omega
  have hd : ∀ i, i < k.answer.length → (if i < k.answer.length then k.answer.data i else out.data i) = k.answer.data i :=
    fun i hi => by rw [if_pos hi]
  refine ⟨h.length, (hd 0 (by omega)).trans h.cmd, ?_, (hd 2 (by omega)).trans h.type, ?_, ?_, ?_⟩
  · exact (congrArg UInt8.toNat (hd 1 (by omega))).trans h.addr
  · exact fun ht => ⟨(hd 7 (by omega)).trans (h.lan ht).1, (hd 8 (by omega)).trans (h.lan ht).2⟩
  · intro i h1 h2 h3
    exact (hd i (by dsimp only at h2; omega)).trans (h.echo i h1 h2 h3)
  · unfold ChecksumOk
    dsimp only
    rw [hd _ (by omega), ← h.crc]
    exact genCRC_congr fun i hi => by rw [if_pos (by omega)]

/-- What is known about the controller: the answers taken belong to different requests among the lines, in order, and the pending answer
belongs to a later one. -/
structure AnsInv (k : Ctrl) (lines : List Message) (ps : Origins) : Prop where
  ok : k.Ok
  old : ∀ p ∈ ps, ∀ r, p.2 = some r → Answers r p.1
  sub : ps.requests.Sublist lines
  pend : k.ready = true → ∃ r, Answers r k.answer ∧ (ps.requests ++ [r]).Sublist lines

theorem AnsInv.more {k : Ctrl} {lines : List Message} {ps : Origins} (h : AnsInv k lines ps) (l : List Message) : AnsInv k (lines ++ l) ps :=
  ⟨h.ok, h.old, h.sub.trans (List.sublist_append_left _ _), fun hr => by
    obtain ⟨r, h1, h2⟩ := h.pend hr
    exact ⟨r, h1, h2.trans (List.sublist_append_left _ _)⟩⟩

theorem AnsInv.quiet {k : Ctrl} {lines : List Message} {ps : Origins} (h : AnsInv k lines ps) {k' : Ctrl} (hok : k'.Ok) (hr : k'.ready = true → k.ready = true ∧ k'.answer = k.answer) :
    AnsInv k' lines ps :=
  ⟨hok, h.old, h.sub, fun h1 => by
    obtain ⟨a, b⟩ := hr h1
    rw [b]; exact h.pend a⟩

theorem AnsInv.check {k : Ctrl} {lines : List Message} {ps : Origins} (h : AnsInv k lines ps) (t1 t2 : Nat) : AnsInv (k.check t1 t2) lines ps := by
  obtain ⟨k', e, hok⟩ := h.ok.call (x := .check t1 t2) trivial
  have : k' = k.check t1 t2 := by cases e; rfl
  subst this
  refine h.quiet hok ?_
  unfold Ctrl.check
  cases hs : k.state <;> dsimp only <;> split <;> simp_all

theorem AnsInv.collision {k : Ctrl} {lines : List Message} {ps : Origins} (h : AnsInv k lines ps) (t : Nat) : AnsInv (k.busCollision t) lines ps := by
  obtain ⟨k', e, hok⟩ := h.ok.call (x := .busCollision t) trivial
  have : k' = k.busCollision t := by cases e; rfl
  subst this
  exact h.quiet hok (by simp [Ctrl.busCollision])

theorem AnsInv.receive {k k' : Ctrl} {lines l : List Message} {ps : Origins} (h : AnsInv k lines ps) {m : Message} (hm : m.length ≤ 32) (hl : m ∈ l)
    (e : k.receive m = .ok k') : AnsInv k' (lines ++ l) ps := by
  obtain ⟨k2, e2, hok⟩ := h.ok.call (x := .receive m) hm
  have e2 : k.receive m = .ok k2 := e2
  rw [e] at e2
  cases e2
  have h' := h.more l
  have nr : k.state ≠ .operating → k.ready = false := fun hs => by
    cases hr : k.ready
    · rfl
    · exact absurd (h.ok.ready hr) hs
  have hcase := receive_eq h.ok hm
  rw [e] at hcase
  rcases hcase with ⟨_, g⟩ | ⟨_, _, g⟩ | ⟨_, _, _, g⟩ | ⟨_, hs, _, d, g, _⟩ | g | g
  · cases g; exact h'
  · cases g; exact h'
  · cases g; exact h'
  · cases g
    refine h'.quiet hok ?_
    intro hr
    have : k.ready = true := hr
    rw [nr (by rw [hs]; simp)] at this
    cases this
  · obtain ⟨_, _, _, g⟩ := g
    cases g
    exact h'.quiet hok (by intro hr; cases hr)
  · obtain ⟨_, hv, a, g, ha⟩ := g
    cases g
    refine ⟨hok, h'.old, h'.sub, fun _ => ⟨m, ⟨k.address, h.ok.range, hv, ha⟩, ?_⟩⟩
    exact h.sub.append (List.singleton_sublist.mpr hl)

theorem Origins.requests_snoc (ps : Origins) (m : Message) (r : Option Message) : Origins.requests (ps ++ [(m, r)]) = ps.requests ++ r.toList := by
  unfold Origins.requests
  rw [List.filterMap_append]
  cases r <;> simp

theorem Origins.host_snoc (ps : Origins) (m : Message) (r : Option Message) :
    Origins.host (ps ++ [(m, r)]) = ps.host ++ (match r with | none => [m] | some _ => []) := by
  unfold Origins.host
  rw [List.filterMap_append]
  cases r <;> simp

theorem AnsInv.hostSent {k : Ctrl} {lines : List Message} {ps : Origins} (h : AnsInv k lines ps) (m : Message) : AnsInv k lines (ps ++ [(m, none)]) := by
  have e : Origins.requests (ps ++ [(m, none)]) = ps.requests := by rw [Origins.requests_snoc]; simp
  refine ⟨h.ok, ?_, by rw [e]; exact h.sub, by rw [e]; exact h.pend⟩
  intro p hp r hr
  rcases List.mem_append.mp hp with hp | hp
  · exact h.old p hp r hr
  · rw [List.mem_singleton.mp hp] at hr; cases hr

theorem AnsInv.taken {k k' : Ctrl} {lines : List Message} {ps : Origins} (h : AnsInv k lines ps) (hr : k.ready = true) {out m : Message}
    (e : k.txAnswer out = .ok (k', m)) : ∃ r, AnsInv k' lines (ps ++ [(m, some r)]) := by
  obtain ⟨r, ⟨addr, a1, a2, a3⟩, a4⟩ := h.pend hr
  obtain ⟨k2, e2, hok⟩ := h.ok.call (x := .txAnswer out) trivial
  have e2 : (do let r ← k.txAnswer out; .ok r.1) = Res.ok k2 := e2
  rw [e, Res.ok_bind] at e2
  cases e2
  have hm := a3.taken out e
  have hk : k'.ready = false := by
    have := h.ok.len
    rw [txAnswer_eq (by omega)] at e
    cases e; rfl
  have er : Origins.requests (ps ++ [(m, some r)]) = ps.requests ++ [r] := by rw [Origins.requests_snoc]; simp
  refine ⟨r, hok, ?_, by rw [er]; exact a4, by rw [hk]; intro h; cases h⟩
  intro p hp r' hr'
  rcases List.mem_append.mp hp with hp | hp
  · exact h.old p hp r' hr'
  · rw [List.mem_singleton.mp hp] at hr' ⊢
    cases hr'
    exact ⟨addr, a1, a2, hm⟩

/-- Before a transmission can be started: the controller was possibly told of a collision and possibly of the packet that is reported. -/
theorem GoodMid.beforeStart {pf : Platform} {g : Nat → UInt8} {c c' : Core0} {e : Env2} {o : Out2} (hg : c.GoodMid) (h : c.part2 pf g e = .ok (c', o)) :
    ∃ a : Core0, a.GoodIn ∧ a.sm.st = c.sm.st ∧ a.host = c.host ∧
      (a.ctrl = (c.reportFailure e.tColl).1.ctrl ∨ ∃ m, m.length ≤ 32 ∧ (c.reportFailure e.tColl).1.ctrl.receive m = .ok a.ctrl ∧ m ∈ rxMsgs o.reports) ∧
      (a.finish pf g e o.reports = .ok (c', o) ∨
        (a.ctrl.hasTxData = false ∧ a.host.hasData = false ∧ a.sm.st = .idle ∧ c' = a ∧ o.started = none ∧ o.cmds = [])) := by
  have hin := hg.reportFailure e.tColl
  obtain ⟨m, k, r1, r2, r3, _⟩ := reportFailure_eq c e.tColl
  have hst : (c.reportFailure e.tColl).1.sm.st = c.sm.st ∧ (c.reportFailure e.tColl).1.host = c.host := by rw [r1]; exact ⟨rfl, rfl⟩
  rcases Core0.part2_ok h with ⟨w, t, hw, h1, h2⟩ | ⟨hw, h2⟩ | ⟨hw, b1, b2, b3, b4, b5⟩
  · obtain ⟨t1, t2, t3, t4, t5⟩ := takeWord_rest h1 hin.rx
    have hrep := (Core0.finish_rxMsg h2).2
    refine ⟨t.1, hin.takeWord h1, by rw [t1]; exact hst.1, by rw [t2]; exact hst.2, ?_, .inl (by rw [hrep]; exact h2)⟩
    rcases t5 with t5 | ⟨m', m1, m2, m3, _⟩
    · exact .inl t5
    · refine .inr ⟨m', m1, m2, ?_⟩
      rw [hrep]
      exact List.mem_filterMap.mpr ⟨_, List.mem_append_right _ m3, rfl⟩
  · exact ⟨_, hin, hst.1, hst.2, .inl rfl, .inl (by rw [(Core0.finish_rxMsg h2).2]; exact h2)⟩
  · cases b5
    exact ⟨_, hin, hst.1, hst.2, .inl rfl, .inr ⟨b2, b3, by simpa [TxSM.isIdle] using b4, rfl, rfl, rfl⟩⟩

theorem Fifo.Rep.unique {α : Type} {N : Nat} {f : Fifo α} {a b : List α} (h1 : Fifo.Rep N f a) (h2 : Fifo.Rep N f b) : a = b := by
  have hl : a.length = b.length := by rw [← h1.len, ← h2.len]
  refine List.ext_getElem hl fun i ha hb => ?_
  rw [← h1.at_ i ha, ← h2.at_ i hb]

/-- One iteration. -/
theorem iter_started {pf : Platform} {g : Nat → UInt8} {c c' : Core0} {e : Env1 × Env2} {o : Out2} {lines : List Message} {ps : Origins} {q : List Message}
    (hg : c.Good) (h : c.iter pf g e = .ok (c', o)) (ha : AnsInv c.ctrl lines ps) (hq : HostGood c.host q) :
    ∃ (ps' : Origins) (ls : List (List UInt8)) (q1 q' : List Message), ps'.map Prod.fst = o.started.toList ∧ AnsInv c'.ctrl (lines ++ rxMsgs o.reports) (ps ++ ps') ∧
      Host.poll c.host.rx e.1.chunk = .ok (c'.host.rx, ls) ∧ HostGood c'.host q' ∧ q1 = Origins.host ps' ++ q' ∧
      ((q1 = q ∧ (ls.filterMap (packetOf pf g) = [] ∨ q.length = 8)) ∨ q1 = q ++ ls.filterMap (packetOf pf g)) := by
  obtain ⟨c1, rs, b, h1, h2, hr⟩ := Core0.iter_ok h
  obtain ⟨hg1, hsm, _, hctrl, hcheck, _⟩ := hg.part1 h1
  obtain ⟨ls, q1, k1, k2, k3⟩ := check_good hq hcheck
  have hrx := GoodMid.rx hg1 h2
  simp only [Prod.mk.injEq] at hr
  obtain ⟨rfl, rfl⟩ := hr
  dsimp only
  rw [rxMsgs_append]
  obtain ⟨a, a1, a2, a3, a4, a5⟩ := GoodMid.beforeStart hg1 h2
  -- the controller before a transmission can be started
  have hk : AnsInv a.ctrl (lines ++ (rxMsgs rs ++ rxMsgs b.2.reports)) ps := by
    have i1 : AnsInv c1.ctrl lines ps := by rw [hctrl]; exact ha.check _ _
    have i2 : AnsInv (c1.reportFailure e.2.tColl).1.ctrl lines ps := by
      obtain ⟨m, k, r1, r2, r3, _⟩ := reportFailure_eq c1 e.2.tColl
      rw [r1]
      rcases r3 with rfl | rfl
      · exact i1
      · exact i1.collision _
    rcases a4 with a4 | ⟨m, m1, m2, m3⟩
    · rw [a4]; exact i2.more _
    · rw [← List.append_assoc]
      exact (i2.more _).receive m1 m3 m2
  rw [← hrx] at k1
  have k2' : HostGood a.host q1 := by rw [a3]; exact k2
  have uniq : ∀ q2, HostGood a.host q2 → q2 = q1 := fun q2 h2 => h2.2.1.unique k2'.2.1
  rcases a5 with a5 | ⟨b1, b2, b3, b4, b5, b6⟩
  · obtain ⟨s, u, s1, s2, s3⟩ := Core0.finish_ok a5
    obtain ⟨_, _, u2⟩ := Core0.updateTx_ok s2
    simp only [Prod.mk.injEq] at s3
    obtain ⟨s3, s4⟩ := s3
    have e1 : b.2.started = s.2.1 := by rw [s4]
    have e2 : b.1.host = s.1.host ∧ b.1.ctrl = s.1.ctrl := by rw [s3, u2]; exact ⟨rfl, rfl⟩
    rw [e1, e2.2]
    rcases a1.startTx s1 with ⟨rfl, _⟩ | ⟨hi, m, q2, host, q3, q4, rfl⟩ | ⟨hi, q2, q3, k, m, q4, q5, rfl⟩
    · exact ⟨[], ls, q1, q1, rfl, by simpa using hk, k1, by rw [e2.1]; exact k2', rfl, k3⟩
    · have := uniq _ q3
      refine ⟨[(m, none)], ls, q1, q2, rfl, hk.hostSent m, k1, by rw [e2.1]; exact q4, ?_, k3⟩
      rw [← this]; rfl
    · obtain ⟨r, hr⟩ := hk.taken q3 q5
      exact ⟨[(m, some r)], ls, q1, q1, rfl, hr, k1, by rw [e2.1]; exact k2', rfl, k3⟩
  · rw [b4, b5]
    exact ⟨[], ls, q1, q1, rfl, by simpa using hk, by rw [← b4]; exact k1, k2', rfl, k3⟩

/-- What holds after every history about the messages given to the transmitter and the packets that wait. -/
theorem started_inv (pf : Platform) (g : Nat → UInt8) (es : List (Env1 × Env2)) (c : Core0) (os : List Out2) (h : LoopRun pf g es c os) :
    ∃ (ps : Origins) (q : List Message), ps.map Prod.fst = os.filterMap Out2.started ∧ AnsInv c.ctrl (busLines os) ps ∧
      HostGood c.host q ∧ (ps.host ++ q).Sublist ((hostLines es).filterMap (packetOf pf g)) ∧
      (ps.host ++ q = (hostLines es).filterMap (packetOf pf g) ∨
        ∃ pre post cp op, es = pre ++ post ∧ LoopRun pf g pre cp op ∧ cp.host.msgs.length = 8) := by
  refine h.fwd (P := fun es c os => ∃ (ps : Origins) (q : List Message), ps.map Prod.fst = os.filterMap Out2.started ∧ AnsInv c.ctrl (busLines os) ps ∧
      HostGood c.host q ∧ (ps.host ++ q).Sublist ((hostLines es).filterMap (packetOf pf g)) ∧
      (ps.host ++ q = (hostLines es).filterMap (packetOf pf g) ∨
        ∃ pre post cp op, es = pre ++ post ∧ LoopRun pf g pre cp op ∧ cp.host.msgs.length = 8)) ?_ ?_
  · intro w0 t0 t1
    refine ⟨[], [], rfl, ⟨Ctrl.Ok.init g t0, by simp, by simp [Origins.requests], fun h => by cases h⟩,
      ⟨⟨[], rep_rx0⟩, Fifo.rep_mk0 (by omega) _, by simp⟩, by simp [Origins.host], .inl ?_⟩
    rfl
  · rintro es c os e c' o hr ⟨ps, q, h1, h2, h3, h4, h5⟩ hi
    obtain ⟨ps', ls, q1, q', i1, i2, i3, i4, i5, i6⟩ := iter_started hr.good hi h2 h3
    have hl : hostLines (es ++ [e]) = hostLines es ++ ls := hostLines_snoc hr.polls i3
    have hb : busLines (os ++ [o]) = busLines os ++ rxMsgs o.reports := by simp [busLines]
    have hh : Origins.host (ps ++ ps') = ps.host ++ Origins.host ps' := List.filterMap_append
    refine ⟨ps ++ ps', q', by rw [List.map_append, h1, i1, started_snoc], by rw [hb]; exact i2, i4, ?_, ?_⟩
    · rw [hl, List.filterMap_append, hh, List.append_assoc, ← i5]
      rcases i6 with ⟨rfl, _⟩ | i6
      · exact h4.trans (List.sublist_append_left _ _)
      · rw [i6, ← List.append_assoc]
        exact h4.append (List.Sublist.refl _)
    · rw [hl, List.filterMap_append, hh, List.append_assoc, ← i5]
      rcases h5 with h5 | ⟨pre, post, cp, op, p1, p2, p3⟩
      · rcases i6 with ⟨rfl, hn | h8⟩ | i6
        · left; rw [hn, List.append_nil]; exact h5
        · right
          exact ⟨es, [e], c, os, rfl, hr, by rw [h3.2.1.len]; exact h8⟩
        · left; rw [i6, ← List.append_assoc, h5]
      · right
        exact ⟨pre, post ++ [e], cp, op, by rw [p1, List.append_assoc], p2, p3⟩

/-- **C89.** In every history, every message given to the transmitter is either a packet the host requested, in the order of the requests, each at
most once - none is missing except the ones that wait and, if there ever were 8 waiting, possibly others - or a well-formed answer of the
controller to a valid request that was reported to the host, each request answered at most once, in the order of the requests. -/
theorem C89_what_is_sent (pf : Platform) (g : Nat → UInt8) (es : List (Env1 × Env2)) (c : Core0) (os : List Out2) (h : LoopRun pf g es c os) :
    ∃ (ps : Origins) (q : List Message), ps.map Prod.fst = os.filterMap Out2.started ∧
      (∀ p ∈ ps, ∀ r, p.2 = some r → Answers r p.1) ∧ ps.requests.Sublist (busLines os) ∧
      c.host.msgs.length = q.length ∧ (ps.host ++ q).Sublist ((hostLines es).filterMap (packetOf pf g)) ∧
      (ps.host ++ q = (hostLines es).filterMap (packetOf pf g) ∨
        ∃ pre post cp op, es = pre ++ post ∧ LoopRun pf g pre cp op ∧ cp.host.msgs.length = 8) := by
  obtain ⟨ps, q, h1, h2, h3, h4, h5⟩ := started_inv pf g es c os h
  exact ⟨ps, q, h1, h2.old, h2.sub, h3.2.1.len, h4, h5⟩

/-- Requests of other devices, and packets of the host, in one run: the host asks for `40F0`, a valid request arrives; the packet of the host is
transmitted, is not echoed and fails (the bus gets busy); then the answer to the request is transmitted. -/
def bothRun : List (Env1 × Env2) :=
  opRun ++ request30.map (fun b => bothIter 2301000 [] (some (wByte b))) ++ [bothIter 2301000 [52, 48, 70, 48, 10] (some wFree), bothIter 2302000 [] none,
    bothIter 2303000 [] (some wBusy), bothIter 2304000 [] none]

set_option maxRecDepth 8000 in
example : loopSeen bothRun = some ⟨[[0x40, 0xF0], [0x40, 0xF0, 0x30, 1, 2, 3, 4, 5, 6, 7, 8, 9, 10, 11, 12, 13, 14, 0x70]], [(1, [])], [], false, false⟩ := by
  decide +kernel

/-- The controller is told of a packet with the word that ends it. -/
theorem takeWord_receive {c : Core0} {w : Word} {u : Nat} {t : Core0 × List Report} (h : c.takeWord w u = .ok t) (hf : w.lineFree = true) {m : Message}
    (hm : m ∈ rxMsgs t.2) : c.ctrl.receive m = .ok t.1.ctrl := by
  obtain ⟨c1, p, h1, h2, rfl⟩ := Core0.takeWord_ok h
  obtain ⟨_, e1⟩ := collectByte_rxSide h1
  have hctrl : c1.ctrl = c.ctrl := by rw [e1]
  have hls : ∀ (a : Core0), (a.lineState w u).ctrl = a.ctrl := by
    intro a
    unfold Core0.lineState
    split
    · rfl
    · split <;> rfl
  have hov : ∀ (a : Core0), a.overflowCheck.1.ctrl = a.ctrl := by
    intro a
    unfold Core0.overflowCheck
    split <;> rfl
  dsimp only at hm ⊢
  rw [hls, hov]
  unfold Core0.packetEnd at h2
  split at h2
  · rw [Res.bind_eq_ok] at h2
    obtain ⟨k, k1, h2⟩ := h2
    simp only [Res.ok.injEq] at h2
    subst h2
    rw [rxMsgs_append] at hm
    rcases List.mem_append.mp hm with hm | hm
    · have : m = c1.rxMsg := by simpa [rxMsgs] using hm
      rw [this, ← hctrl]; exact k1
    · exfalso
      rcases Core0.overflowCheck_eq ({ c1 with ctrl := k, rxMsg := c1.rxMsg.clear } : Core0) with ⟨h0, _⟩ | ⟨_, h0⟩
      · exact absurd h0 (by show ¬ (0 = 32); omega)
      · rw [h0] at hm; cases hm
  · rename_i hn
    simp only [Res.ok.injEq] at h2
    subst h2
    exfalso
    rw [hf] at hn
    simp only [Bool.true_and, Bool.or_eq_true, not_or, decide_eq_true_eq] at hn
    rcases Core0.overflowCheck_eq c1 with ⟨h0, _⟩ | ⟨_, h0⟩
    · omega
    · rw [h0] at hm; cases hm

/-- **C89, the other direction.** In every history: if an iteration (`c1` is the state after its first part) takes a word that tells that the bus
is free, and gives the host a packet that is a valid request to the controller, the controller operates and no transmission had just failed, then the answer is transmitted at
once if the transmitter is idle and no packet of the host waits; otherwise it waits. -/
theorem C89_requests_answered (pf : Platform) (g : Nat → UInt8) (es : List (Env1 × Env2)) (c : Core0) (os : List Out2) (hr : LoopRun pf g es c os)
    (e : Env1 × Env2) (c1 c2 : Core0) (rs : List Report) (o : Out2) (h1 : c.part1 pf g e.1 = .ok (c1, rs)) (h2 : c1.part2 pf g e.2 = .ok (c2, o))
    (w : Word) (hw : e.2.word = some w) (hf : w.lineFree = true) (m : Message) (hm : m ∈ rxMsgs o.reports) (he : c.sm.err = false)
    (hop : c1.ctrl.state = .operating) (hv : ValidRequest c1.ctrl.address m) :
    if c1.sm.isIdle = true ∧ c1.host.hasData = false then ∃ a, o.started = some a ∧ AnswerTo c1.ctrl.address m a
    else c2.ctrl.hasTxData = true ∧ AnswerTo c1.ctrl.address m c2.ctrl.answer := by
  obtain ⟨hg1, _, hfail, _⟩ := hr.good.part1 h1
  have hin := hg1.reportFailure e.2.tColl
  have hno : c1.reportFailure e.2.tColl = (c1, []) := by
    unfold Core0.reportFailure
    rw [hfail, he]; rfl
  rw [hno] at hin
  have hml : m.length ≤ 32 := by
    have := (part2_rxSide h2)
    rcases this with ⟨hn, _⟩ | ⟨w', hw', ht⟩
    · rw [hn] at hw; cases hw
    · rw [RxSide.take, Res.bind_eq_ok] at ht
      obtain ⟨m0, m1, m2⟩ := ht
      obtain ⟨ws, q1, q2, q3⟩ := C91_lines_explained pf g es c os hr
      have hc1 : c1.rxMsg.length < 32 := hg1.rx
      have hl0 : m0.length ≤ 32 := by
        unfold RxSide.collect at m1
        have happ : ∀ {a a' : Message} {b : UInt8}, a.length < 32 → a.append b = .ok a' → a'.length ≤ 32 := by
          intro a a' b hl h
          obtain ⟨_, _, h3, _⟩ := Message.append_snoc hl h
          omega
        split at m1
        · cases m1; exact Nat.le_of_lt hc1
        · split at m1
          · exact happ (a := { c1.rxMsg with status := Message.errParity }) hc1 m1
          · split at m1
            · exact happ hc1 m1
            · cases m1; exact Nat.le_of_lt hc1
      simp only [Res.ok.injEq, Prod.mk.injEq] at m2
      rw [← m2.2] at hm
      unfold RxSide.ends RxSide.full at hm
      rcases List.mem_append.mp hm with hm | hm
      · split at hm
        · rw [List.mem_singleton.mp hm]; exact hl0
        · cases hm
      · split at hm
        · split at hm
          · exact absurd (by assumption) (show ¬ (0 = 32) by omega)
          · cases hm
        · split at hm
          · rw [List.mem_singleton.mp hm]; exact hl0
          · cases hm
  rcases Core0.part2_ok h2 with ⟨w', t, hw', k1, k2⟩ | ⟨hn, _⟩ | ⟨hn, _⟩
  case inr.inl => rw [hn] at hw; cases hw
  case inr.inr => rw [hn] at hw; cases hw
  rw [hw] at hw'
  cases hw'
  rw [hno] at k1 k2
  have hm' : m ∈ rxMsgs t.2 := by
    rw [(Core0.finish_rxMsg k2).2] at hm
    simpa using hm
  have hrec := takeWord_receive k1 hf hm'
  obtain ⟨t1, t2, _⟩ := takeWord_rest k1 hin.rx
  have htg := hin.takeWord k1
  -- the controller has the answer
  obtain ⟨calls, hcalls⟩ := hg1.ctrl
  have hans : t.1.ctrl.ready = true ∧ AnswerTo c1.ctrl.address m t.1.ctrl.answer := by
    have hcase := receive_eq hcalls.ok hml
    rw [hrec] at hcase
    rcases hcase with ⟨x, _⟩ | ⟨_, x, _⟩ | ⟨_, x, _⟩ | ⟨_, x, _⟩ | ⟨_, _, x, _⟩ | ⟨_, _, a, x, y⟩
    · exact absurd hv.long (by omega)
    · rw [hop] at x; cases x
    · rw [hop] at x; cases x
    · rw [hop] at x; cases x
    · exact absurd hv x
    · simp only [Res.ok.injEq] at x
      rw [x]; exact ⟨rfl, y⟩
  obtain ⟨s, u, s1, s2, s3⟩ := Core0.finish_ok k2
  obtain ⟨_, _, u2⟩ := Core0.updateTx_ok s2
  simp only [Prod.mk.injEq] at s3
  obtain ⟨s3, s4⟩ := s3
  have e1 : o.started = s.2.1 := by rw [s4]
  have e2 : c2.ctrl = s.1.ctrl := by rw [s3, u2]
  have hhost : t.1.host = c1.host := t2
  have hsm : t.1.sm = c1.sm := t1
  rw [e1, e2]
  rcases htg.startTx s1 with ⟨rfl, hc⟩ | ⟨hi, m', q, host, q1, q2, rfl⟩ | ⟨hi, q1, q2, k, m', q3, q4, rfl⟩
  · rw [if_neg]
    · exact hans
    · rintro ⟨i1, i2⟩
      rcases hc with hc | ⟨_, hc⟩
      · rw [hsm] at hc
        exact hc (by simpa [TxSM.isIdle] using i1)
      · exact absurd hans.1 (by rw [show t.1.ctrl.ready = t.1.ctrl.hasTxData from rfl, hc]; simp)
  · rw [if_neg]
    · exact hans
    · rintro ⟨_, i2⟩
      have := q1.hasData.mpr (by simp)
      rw [hhost, i2] at this
      cases this
  · rw [if_pos]
    · exact ⟨m', rfl, hans.2.taken _ q4⟩
    · refine ⟨by rw [← hsm]; simp [TxSM.isIdle, hi], ?_⟩
      cases hh : c1.host.hasData with
      | false => rfl
      | true => rw [← hhost] at hh; exact absurd rfl (q1.hasData.mp hh)


/-! ## C90 -/

/-- The transmitter holds the message that was started last. -/
theorem LoopRun.lastStarted {pf : Platform} {g : Nat → UInt8} {es : List (Env1 × Env2)} {c : Core0} {os : List Out2} (h : LoopRun pf g es c os) :
    ∀ m, (os.filterMap Out2.started).getLast? = some m → c.sm.txMsg = m := by
  refine h.fwd (P := fun _ c os => ∀ m, (os.filterMap Out2.started).getLast? = some m → c.sm.txMsg = m) (fun _ _ _ m hm => by cases hm) ?_
  intro es c os e c' o hr ih hi m hm
  rw [started_snoc] at hm
  obtain ⟨p, hp, hcase⟩ := iter_trace hr.good hi
  rcases hcase with ⟨_, _, _, h4, _, h6, _⟩ | ⟨_, _, ⟨h4, h5⟩ | ⟨m', h4, _, h6, h7⟩⟩
  · rw [h4, Option.toList_none, List.append_nil] at hm
    rw [h6, hp.last.2.1]; exact ih m hm
  · rw [h4, Option.toList_none, List.append_nil] at hm
    rw [(update_power h5).1, hp.last.2.1]; exact ih m hm
  · rw [h4] at hm
    simp only [Option.toList_some, List.getLast?_append, List.getLast?_singleton, Option.some_or, Option.some.injEq] at hm
    rw [(update_power h7).1, TxSM.wake_idle (by rw [hp.last.1]; exact h6)]
    exact hm

theorem finish_ctrlState {pf : Platform} {g : Nat → UInt8} {a : Core0} (ha : a.GoodIn) {e : Env2} {rs : List Report} {r : Core0 × Out2}
    (h : a.finish pf g e rs = .ok r) : r.1.ctrl.state = a.ctrl.state := by
  obtain ⟨s, u, s1, s2, rfl⟩ := Core0.finish_ok h
  obtain ⟨_, _, u2⟩ := Core0.updateTx_ok s2
  have : u.1.ctrl = s.1.ctrl := by rw [u2]
  dsimp only
  rw [this]
  rcases ha.startTx s1 with ⟨rfl, _⟩ | ⟨_, _, _, _, _, _, rfl⟩ | ⟨_, _, _, k, m, _, q4, rfl⟩
  · rfl
  · rfl
  · dsimp only
    obtain ⟨calls, hc⟩ := ha.ctrl
    have := hc.ok.len
    rw [txAnswer_eq (by omega)] at q4
    cases q4; rfl

/-- **C90, what the code does.** In every history: let `m` be the message given to the transmitter last.  An iteration in which nothing is
received (`c1` is the state after its first part) makes the controller silent exactly if a transmission had failed and `m` looks like an answer of
another controller: its first byte is 40, its third 30 or 31, and its second is not the address of the controller. -/
theorem C90_exact_partial (pf : Platform) (g : Nat → UInt8) (es : List (Env1 × Env2)) (c : Core0) (os : List Out2) (hr : LoopRun pf g es c os)
    (e : Env1 × Env2) (c1 c2 : Core0) (rs : List Report) (o : Out2) (h1 : c.part1 pf g e.1 = .ok (c1, rs)) (h2 : c1.part2 pf g e.2 = .ok (c2, o))
    (hw : e.2.word = none) (m : Message) (hm : (os.filterMap Out2.started).getLast? = some m) :
    c2.ctrl.state = if c.sm.err = true ∧ m.data 0 = 0x40 ∧ (m.data 1).toNat ≠ c1.ctrl.address ∧ (m.data 2 = 0x30 ∨ m.data 2 = 0x31)
      then .idle else c1.ctrl.state := by
  obtain ⟨hg1, hsm, hfail, _⟩ := hr.good.part1 h1
  have htx : c1.sm.txMsg = m := by rw [hsm]; exact hr.lastStarted m hm
  have key : (c1.reportFailure e.2.tColl).1.ctrl.state =
      if c.sm.err = true ∧ m.data 0 = 0x40 ∧ (m.data 1).toNat ≠ c1.ctrl.address ∧ (m.data 2 = 0x30 ∨ m.data 2 = 0x31) then .idle else c1.ctrl.state := by
    have hown : c1.ctrl.isTxAnswer m = true ↔ m.data 0 = 0x40 ∧ (m.data 1).toNat ≠ c1.ctrl.address ∧ (m.data 2 = 0x30 ∨ m.data 2 = 0x31) := by
      unfold Ctrl.isTxAnswer
      by_cases a : m.data 0 = 0x40
      · by_cases b : (m.data 1).toNat = c1.ctrl.address
        · simp [a, b]
        · simp [a, b]
      · simp [a]
    unfold Core0.reportFailure
    rw [hfail]
    cases he : c.sm.err
    · simp
    · simp only [if_true, true_and]
      split
      · dsimp only
        rw [htx]
        split
        · rename_i hx
          rw [if_pos (hown.mp hx)]; rfl
        · rename_i hx
          rw [if_neg (fun h => hx (hown.mpr h))]
      · dsimp only
        rw [htx]
        split
        · rename_i hx
          rw [if_pos (hown.mp hx)]; rfl
        · rename_i hx
          rw [if_neg (fun h => hx (hown.mpr h))]
  rw [← key]
  have hin := hg1.reportFailure e.2.tColl
  rcases Core0.part2_ok h2 with ⟨w, _, hw', _⟩ | ⟨_, k2⟩ | ⟨_, _, _, _, _, k2⟩
  · rw [hw] at hw'; cases hw'
  · exact finish_ctrlState hin k2
  · cases k2; rfl

/-- **C90 fails, always**: if the transmission of an answer of the controller (with its address) failed, the controller is not made silent by it. -/
theorem C90_refuted (pf : Platform) (g : Nat → UInt8) (es : List (Env1 × Env2)) (c : Core0) (os : List Out2) (hr : LoopRun pf g es c os)
    (e : Env1 × Env2) (c1 c2 : Core0) (rs : List Report) (o : Out2) (h1 : c.part1 pf g e.1 = .ok (c1, rs)) (h2 : c1.part2 pf g e.2 = .ok (c2, o))
    (hw : e.2.word = none) (m r : Message) (hm : (os.filterMap Out2.started).getLast? = some m) (ha : AnswerTo c1.ctrl.address r m) :
    c2.ctrl.state = c1.ctrl.state := by
  rw [C90_exact_partial pf g es c os hr e c1 c2 rs o h1 h2 hw m hm, if_neg]
  rintro ⟨_, _, h, _⟩
  exact h ha.addr

/-- State of the controller at the end of a run, and the number of lines about failed transmissions. -/
def ctrlSeen (es : List (Env1 × Env2)) : Option (CtrlSt × Nat) :=
  match (Core0.init (fun _ => 0) .zero 0 0).run .arm (fun _ => 0) es with
  | .ok (c, os) => some (c.ctrl.state, (os.flatMap fun o => txMsgs o.reports).length)
  | .ub => none

set_option maxRecDepth 8000 in
/-- In this run the answer to a request fails because the bus gets busy before it is transmitted: one line tells this to the host, the
controller goes on operating.  If the host transmits an answer of the other controller and that fails, the controller is made silent. -/
example : ctrlSeen (opRun ++ request30.map (fun b => bothIter 2301000 [] (some (wByte b))) ++ [bothIter 2301000 [] (some wFree), bothIter 2302000 [] none,
      bothIter 2303000 [] (some wBusy), bothIter 2304000 [] none]) = some (.operating, 1) ∧
    ctrlSeen (opRun ++ [bothIter 2301000 [52, 48, 70, 49, 51, 48, 10] none, bothIter 2302000 [] none, bothIter 2303000 [] (some wBusy), bothIter 2304000 [] none]) =
      some (.idle, 1) := by decide +kernel

end P1P2
