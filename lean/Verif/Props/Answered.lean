import Verif.Props.HealLines
import Verif.Props.Started
import Verif.Props.Success
import Verif.Props.Alone
/-!
# C128: a request on the bus is answered on the bus
-/
namespace P1P2

/-- The answer depends on the bytes of the request only, if it is not shorter than the part that is echoed. -/
theorem AnswerTo.same_bytes {addr : Nat} {m r a : Message} (h : AnswerTo addr m a) (hb : m.bytes = r.bytes) (hl : 3 < r.length) (h30 : r.data 2 = 0x30 → 17 ≤ r.length)
    (h31 : r.data 2 ≠ 0x30 → 15 ≤ r.length) : AnswerTo addr r a := by
  obtain ⟨k1, k2⟩ := bytes_get hb
  have e2 : m.data 2 = r.data 2 := k2 2 (by omega)
  refine ⟨by rw [← e2]; exact h.length, h.cmd, h.addr, by rw [← e2]; exact h.type, by rw [← e2]; exact h.lan, ?_, h.crc⟩
  intro i q1 q2 q3
  rw [← e2] at q3
  rw [h.echo i q1 q2 q3]
  refine k2 i ?_
  rw [h.length] at q2
  split at q2
  · next h3 => have := h30 (e2 ▸ h3); omega
  · next h3 => have := h31 (e2 ▸ h3); omega

/-- The words of a packet up to its last byte lead to no line, the word that tells that the line is free leads to the line with its bytes. -/
theorem line_at_end (pf : Platform) (g : Nat → UInt8) {es0 es : List (Env1 × Env2)} {x : Env1 × Env2} {c c1 c2 : Core0} {os0 os : List Out2} {o : Out2} (h0 : LoopRun pf g es0 c os0)
    (h : c.run pf g es = .ok (c1, os)) (hx : c1.iter pf g x = .ok (c2, o)) {p : List UInt8} (hp : 1 ≤ p.length ∧ p.length ≤ 31) (hw : wordsOf es = wBusy :: p.map wByte)
    (hwx : x.2.word = some wFree) (hlast : wordsOf es0 = [] ∨ ∃ Z, wordsOf es0 = Z ++ [wFree])
    (hf : ∀ e ∈ es ++ [x], e.1.fifoErr = false) (hd : ∀ m ∈ busLines (os ++ [o]), m.status ≠ 4) :
    (rxMsgs o.reports).map lineShown = [(0, p)] := by
  obtain ⟨ws, h1, h2, h3⟩ := C91_lines_explained pf g es0 c os0 h0
  obtain ⟨ws', h4, h5⟩ := run_tells (ws := ws) ⟨⟨h3, h2⟩, h0.good.rx⟩ h
  have hh : Hears ws [] := h1.idle (hlast.imp_left fun q => ⟨q, .nil⟩)
  have hb : busLines (os ++ [o]) = busLines os ++ rxMsgs o.reports := by simp [busLines]
  rw [hb] at hd
  have k1 := h4.told (fun e he => hf e (by simp [he])) (fun m hm => hd m (by simp [hm]))
  have hbl : (busLines os).map lineShown = [] := by
    rw [k1, hw, told_busy hh (by simp)]
    obtain ⟨w2, q1, q2⟩ := told_bytes p (rest := []) hh.busy (by simp; omega)
    rw [List.append_nil] at q2
    rw [q2]; rfl
  have hrun : c.run pf g (es ++ [x]) = .ok (c2, os ++ [o]) := Core0.run_snoc h hx
  obtain ⟨K, k2, k3⟩ := C122_main_loop pf g h0 hrun (X := []) (ps := [p]) (by
      have : wordsOf (es ++ [x]) = wordsOf es ++ [wFree] := by simp [wordsOf, hwx]
      rw [this, hw]; simp) (Or.inl ⟨rfl, hlast⟩) (by intro q hq; rw [List.mem_singleton] at hq; subst hq; exact hp) hf (by rw [hb]; exact hd)
  rw [hb, List.map_append, hbl, k3 rfl] at k2
  simpa using k2

/-- **C128, the answer is started.** After any history of the main loop whose last word told that the bus is free: the words of a packet are taken (line busy, its bytes, in the
iterations `es`; line free in the iteration `x`), none is lost and the watchdog does not report.  The packet `r` is a valid request to the address of the controller (and at least as long as the
part that is echoed), the controller is operating, the transmitter idle and no packet of the host waits (`cm`: the state in the middle of the iteration `x`).  Then this
iteration gives the answer to `r` to the transmitter. -/
theorem C128_answer_started (pf : Platform) (g : Nat → UInt8) {es0 es : List (Env1 × Env2)} {x : Env1 × Env2} {c c1 cm c2 : Core0} {os0 os : List Out2} {rs : List Report} {o : Out2}
    (h0 : LoopRun pf g es0 c os0) (h : c.run pf g es = .ok (c1, os)) (hx1 : c1.part1 pf g x.1 = .ok (cm, rs)) (hx2 : cm.part2 pf g x.2 = .ok (c2, o))
    {r : Message} (hw : wordsOf es = wBusy :: r.bytes.map wByte) (hwx : x.2.word = some wFree) (hlast : wordsOf es0 = [] ∨ ∃ Z, wordsOf es0 = Z ++ [wFree])
    (hf : ∀ e ∈ es ++ [x], e.1.fifoErr = false) (hd : ∀ m ∈ busLines os ++ rxMsgs (rs ++ o.reports), m.status ≠ 4)
    (hl : r.length ≤ 31) (h30 : r.data 2 = 0x30 → 17 ≤ r.length) (h31 : r.data 2 ≠ 0x30 → 15 ≤ r.length)
    (hop : cm.ctrl.state = .operating) (hv : ValidRequest cm.ctrl.address r) (hidle : cm.sm.isIdle = true) (hq : cm.host.hasData = false) (herr : c1.sm.err = false) :
    ∃ a, o.started = some a ∧ AnswerTo cm.ctrl.address r a := by
  have hlen : r.bytes.length = r.length := by simp [Message.bytes]
  have hlong := hv.long
  have hi : c1.iter pf g x = .ok (c2, { o with reports := rs ++ o.reports }) := by
    unfold Core0.iter
    rw [hx1, Res.ok_bind, hx2, Res.ok_bind]
  have hline := line_at_end pf g h0 h hi (p := r.bytes) (by omega) hw hwx hlast hf (by
    intro m hm
    refine hd m ?_
    simpa [busLines] using hm)
  have hline : (rxMsgs (rs ++ o.reports)).map lineShown = [(0, r.bytes)] := hline
  have hr1 : LoopRun pf g (es0 ++ es) c1 (os0 ++ os) := by
    obtain ⟨w0, t0, t1, h0⟩ := h0
    exact ⟨w0, t0, t1, Core0.run_then h0 h⟩
  -- the first part of the iteration reports nothing about the bus
  have hrs : rxMsgs rs = [] := by
    rw [Core0.part1, Res.bind_eq_ok] at hx1
    obtain ⟨k, -, hx1⟩ := hx1
    simp only [Res.ok.injEq, Prod.mk.injEq] at hx1
    obtain ⟨-, rfl⟩ := hx1
    rw [hf x (by simp)] at hd ⊢
    generalize hcc : ({ c1 with host := k, ctrl := c1.ctrl.check x.1.tCtrl1 x.1.tCtrl2, sm := c1.sm.error.1, fail := c1.sm.error.2 } : Core0) = cc at *
    unfold Core0.watchdog at hd ⊢
    split
    · next hb =>
      rw [if_pos hb] at hd
      exact absurd rfl (hd { cc.rxMsg with status := Message.errNoFraming } (by
        refine List.mem_append_right _ ?_
        simp [rxMsgs]))
    · rfl
  rw [rxMsgs_append, hrs, List.nil_append] at hline
  obtain ⟨m, hm, hms⟩ : ∃ m, rxMsgs o.reports = [m] ∧ lineShown m = (0, r.bytes) := by
    cases hmm : rxMsgs o.reports with
    | nil => rw [hmm] at hline; cases hline
    | cons m ms =>
      rw [hmm] at hline
      simp only [List.map_cons, List.cons.injEq, List.map_eq_nil_iff] at hline
      exact ⟨m, by rw [hline.2], hline.1⟩
  have hbytes : m.bytes = r.bytes := by simpa [lineShown] using congrArg Prod.snd hms
  have hvm : ValidRequest cm.ctrl.address m := hv.congr hbytes.symm
  have hans := C89_requests_answered pf g _ c1 _ hr1 x cm c2 rs o hx1 hx2 wFree hwx rfl m (by rw [hm]; exact List.mem_singleton.mpr rfl) herr hop hvm
  rw [if_pos ⟨hidle, hq⟩] at hans
  obtain ⟨a, q1, q2⟩ := hans
  exact ⟨a, q1, q2.same_bytes hbytes hlong h30 h31⟩

/-- **C128, the answer goes out.** As `C128_answer_started`, and from the iteration `x` on the course of the transmission is undisturbed, as in C114.  Then the transmit hardware is asked exactly to
power up, to send the answer to `r`, to clear its FIFO and to power down, and the host is told of no failure. -/
theorem C128_answer_sent (pf : Platform) (hpf : pf.charSigned = false) (g : Nat → UInt8) {es0 es : List (Env1 × Env2)} {x z : Env1 × Env2} {c c1 cm c2 c3 : Core0} {os0 os om : List Out2}
    {rs : List Report} {ox oz : Out2} (h0 : LoopRun pf g es0 c os0) (h : c.run pf g es = .ok (c1, os)) (hx1 : c1.part1 pf g x.1 = .ok (cm, rs))
    {r : Message} (hw : wordsOf es = wBusy :: r.bytes.map wByte) (hwx : x.2.word = some wFree) (hlast : wordsOf es0 = [] ∨ ∃ Z, wordsOf es0 = Z ++ [wFree])
    (hf : ∀ e ∈ es ++ [x], e.1.fifoErr = false) (hd : ∀ m ∈ busLines (os ++ [ox]), m.status ≠ 4)
    (hl : r.length ≤ 31) (h30 : r.data 2 = 0x30 → 17 ≤ r.length) (h31 : r.data 2 ≠ 0x30 → 15 ≤ r.length)
    (hop : cm.ctrl.state = .operating) (hv : ValidRequest cm.ctrl.address r) (hidle : cm.sm.isIdle = true) (hq : cm.host.hasData = false) (herr : c1.sm.err = false)
    {wait power listen echo rest : List (Env1 × Env2)} {on snd first fin : Env1 × Env2} (hcourse : wait ++ on :: (power ++ snd :: (listen ++ first :: (echo ++ [fin]))) = x :: rest)
    (hok : ∀ w ∈ wordsOf (es0 ++ es ++ x :: rest), WordOk w) (hrun : c1.run pf g (x :: rest) = .ok (c2, ox :: om))
    (hu : ∀ a, AnswerTo cm.ctrl.address r a → Undisturbed (busKnownBusy true (wordsOf (es0 ++ es))) a.bytes x.2.tWake wait on power snd listen first echo fin)
    (hz : c2.iter pf g z = .ok (c3, oz)) :
    ∃ a, AnswerTo cm.ctrl.address r a ∧ c2.sm.isIdle = true ∧ (ox :: om).flatMap Out2.cmds = [.shutdown false, .send a, .clearFifo, .shutdown true] ∧
      ∀ o ∈ om ++ [oz], txMsgs o.reports = [] := by
  obtain ⟨ca, oa, om', k1, k2, k3⟩ := Core0.run_cons hrun
  cases k3
  have k1' := k1
  unfold Core0.iter at k1'
  rw [hx1, Res.ok_bind, Res.bind_eq_ok] at k1'
  obtain ⟨b, hx2, k1'⟩ := k1'
  simp only [Res.ok.injEq, Prod.mk.injEq] at k1'
  obtain ⟨rfl, rfl⟩ := k1'
  obtain ⟨a, q1, q2⟩ := C128_answer_started pf g h0 h hx1 hx2 hw hwx hlast hf (by intro m hm; refine hd m ?_; simpa [busLines] using hm) hl h30 h31 hop hv hidle hq herr
  have hr1 : LoopRun pf g (es0 ++ es) c1 (os0 ++ os) := by
    obtain ⟨w0, t0, t1, h0⟩ := h0
    exact ⟨w0, t0, t1, Core0.run_then h0 h⟩
  obtain ⟨e1, e2, -, e4⟩ := C114_undisturbed_succeeds pf hpf g (es0 ++ es) c1 c2 c3 (os0 ++ os) om _ oz a wait power listen echo on snd first fin x z rest hr1 hcourse hok hrun q1 (hu a q2) hz
  exact ⟨a, q2, e1, e2, e4⟩

/-- The request arrives, in 20 iterations. -/
def askRun : List (Env1 × Env2) := bothIter 2301000 [] (some wBusy) :: request30.map fun b => bothIter 2302000 [] (some (wByte b))

/-- Its answer. -/
def reply30 : List UInt8 := [0x40, 0xF0, 0x30, 1, 2, 3, 4, 5, 6, 7, 8, 9, 10, 11, 12, 13, 14, 0x70]

/-- The bus becomes free, the amplifier is powered for 32 ms, the answer is heard, a byte per millisecond. -/
def replyRun : List (Env1 × Env2) := [bothIter 2303000 [] (some wFree), bothIter 2304000 [] none, bothIter 2336000 [] none, bothIter 2337000 [] (some wBusy)] ++
  (reply30.zipIdx.map fun b => bothIter (2338000 + 1000 * b.2) [] (some (wByte b.1))) ++ [bothIter 2357000 [] (some wFree), bothIter 2358000 [] none]

/-- In the middle of the iteration that takes the last word: controller operating, its address, transmitter idle, no packet of the host, no failed transmission, the status of the lines so far. -/
def askSeen : Option (Bool × Nat × Bool × Bool × Bool × List Nat) :=
  match (Core0.init (fun _ => 0) .zero 0 0).run .arm (fun _ => 0) opRun with
  | .ok (c, _) => match c.run .arm (fun _ => 0) askRun with
    | .ok (c1, os) => match c1.part1 .arm (fun _ => 0) (env1 2303000 []) with
      | .ok (cm, _) => some (decide (cm.ctrl.state = .operating), cm.ctrl.address, cm.sm.isIdle, cm.host.hasData, c1.sm.err, (busLines os).map Message.status)
      | .ub => none
    | .ub => none
  | .ub => none

set_option synthInstance.maxSize 512 in
set_option maxRecDepth 8000 in
/-- The hypotheses of `C128_answer_started` are met, and the answer goes out. -/
example : wordsOf opRun = [wFree] ∧ wordsOf askRun = wBusy :: (messageOf 0 request30).bytes.map wByte ∧ askSeen = some (true, 0xF0, true, false, false, []) ∧
    ValidRequest 0xF0 (messageOf 0 request30) ∧
    loopSeen (opRun ++ askRun ++ replyRun) = some ⟨[reply30], [], [reply30], true, false⟩ := by
  refine ⟨rfl, rfl, by decide +kernel, ⟨by decide, by decide, by decide, by decide, ?_⟩, by decide +kernel⟩
  show genCRC (messageOf 0 request30).data 17 = .ok 0xF3
  decide +kernel

end P1P2
