import Verif.Props.Watch
import Verif.Props.EndToEnd
import Verif.Props.Eye
import Verif.Props.Sender
/-!
# C146: two whole modems, in real time
-/
namespace P1P2
open Spec

/-- **C146, any sender within the mask.** C144 for a sender with a clock of its own and pulses within the mask (C111). -/
theorem C146_mask {S : Nat} (hS : 9 ≤ S) (rxErr : Bool) {a v : Int} (h1 : 49 ≤ a) (h2 : a ≤ 88) {P : Nat} (hP : 0 < P) {M : Nat} (hM : M + 70 ≤ 2 * 2 ^ S)
    (ps : List BusPacket) (hp : ∀ p ∈ ps, p.EyeOk P ∧ p.bytes.length ≤ 31) (hg : ∀ b ∈ ps.flatMap BusPacket.frames, b.1 ≤ M * P)
    {L : Nat → Level} (hL : EyeCarries P L 0 (byteFrames (ps.flatMap BusPacket.frames))) {q : Nat → UInt8} (hq : Codes a v (fun k => L (k * P)) q)
    (pf : Platform) (g : Nat → UInt8) (w0 : Word) (t0 t1 : Nat) (ht1 : t1 ≤ 4000000000000) (xs : List BoardStep) (b : Board) (os : List BoardOut)
    (h : (Board.init (fun _ => 0) rxErr g w0 t0 t1).run S pf g xs = .ok (some (b, os)))
    (hv : converted xs = (List.range (converted xs).length).map fun k => Pio.sampleValue k (q k))
    (hN : eyeEnd P 0 (ps.flatMap BusPacket.frames) + 378 * P ≤ (converted xs).length * P)
    (hN' : (converted xs).length * P + 2 * P ≤ eyeEnd P 0 (ps.flatMap BusPacket.frames) + M * P) (hblock : (converted xs).length < adcBlock)
    (hb : ∀ o ∈ os, o.behind ≤ 253) (hf : FastEnough xs) (hclk : Clocked t1 xs)
    (he : b.rx.adc.behind = 0 ∧ b.rx.core.word = .zero ∧ b.main.fifo = [] ∧ b.main.pc = .top) :
    (∀ o ∈ os, o.dropped = false) ∧ (∀ m ∈ rxMsgs (os.flatMap BoardOut.reports), m.status ≠ 4) ∧
    (rxMsgs (os.flatMap BoardOut.reports)).map lineShown = ps.map fun p => (0, p.bytes) := by
  obtain ⟨d1, -, -⟩ := C141_no_overflow hS _ rxErr pf g w0 t0 t1 xs b os h (fun o ho => Nat.le_succ_of_le (hb o ho)) hf
  refine ⟨d1, ?_⟩
  have hhead : ∀ b ∈ (ps.flatMap BusPacket.frames).head?, 2 * P ≤ 0 + b.1 := by
    intro b hb
    cases ps with
    | nil => cases hb
    | cons p ps =>
      have := (hp p (List.mem_cons_self ..)).1.gap
      have hb : (p.gap, p.pol, p.first) = b := Option.some.inj hb
      rw [← hb]
      dsimp only
      omega
  have hbase : eyeBase P 0 = 0 := by
    have : ceilDiv 0 P ≤ 0 := (ceilDiv_le hP 0).mpr (by omega)
    unfold eyeBase; omega
  have hc := eye_carries hP _ 0 hhead hL
  have hend := eye_rawEnd hP _ 0 hhead
  rw [hbase, ← eyePackets_frames] at hc
  rw [hbase, ← eyePackets_frames] at hend
  generalize eyeEnd P 0 (ps.flatMap BusPacket.frames) = T at *
  have hpe : ∀ p ∈ eyePackets P 0 ps, p.RawOk ∧ p.bytes.length ≤ 31 := by
    intro p hp'
    refine ⟨eyePackets_ok hP ps 0 (.inl rfl) (fun p hp' => (hp p hp').1) p hp', ?_⟩
    have : p.bytes ∈ (eyePackets P 0 ps).map BusPacket.bytes := List.mem_map_of_mem hp'
    rw [eyePackets_bytes] at this
    obtain ⟨p', k1, k2⟩ := List.mem_map.mp this
    rw [← k2]
    exact (hp p' k1).2
  obtain ⟨r1, r2⟩ := C144_device hS rxErr h1 h2 hq hM (eyePackets P 0 ps) hpe
    (by rw [eyePackets_frames]; exact eyeCodes_le hP _ 0 hg) hc pf g w0 t0 t1 ht1 xs b os h hv
    (by
      rw [hend]
      have : eyeBase P T ≤ (converted xs).length - 378 := by
        rw [eyeBase_le hP, Nat.sub_mul]; omega
      have : 378 ≤ (converted xs).length := Nat.le_of_mul_le_mul_right (c := P) (by omega) hP
      omega)
    (by
      rw [hend]
      have := ceilDiv_mul (x := T) hP
      refine Nat.le_of_mul_le_mul_right (c := P) ?_ hP
      unfold eyeBase
      rw [Nat.add_mul, Nat.sub_mul]
      omega) hblock hb hf hclk he
  refine ⟨r1, r2.trans ?_⟩
  have e : ∀ l : List BusPacket, (l.map fun p => ((0 : Nat), p.bytes)) = (l.map BusPacket.bytes).map fun b => (0, b) := by
    intro l; rw [List.map_map]; rfl
  rw [e, e, eyePackets_bytes]

/-- **C146, driver calls of the sender.** C118 for a receiver that is a whole device. -/
theorem C146_calls {S : Nat} (hS : 9 ≤ S) (rxErr : Bool) {a v : Int} (h1 : 49 ≤ a) (h2 : a ≤ 88) {P : Nat} (hP : 0 < P) {M : Nat} (hM : M + 70 ≤ 2 * 2 ^ S)
    {c : Nat → Nat} (hc : SenderClock P c) (ev : List DevEv) (d : TxDev) (pins : List (Nat × Bool)) (rs : List Bool)
    (hrun : TxDev.init.run ev = some (d, pins, rs)) (hcl : ClearsLate 1 0 0 ev)
    (hm : ∀ x ∈ sendsFrom 0 ev, 1 ≤ x.1 ∧ 1 ≤ x.2.length ∧ x.2.length ≤ 31 ∧ finalStart x.1 x.2 + 173 ≤ cyclesOf ev) (ha : CallsApart P M c 0 (sendsFrom 0 ev))
    {L : Nat → Level} (hL : Plays c (lineOf (pins.map Pio.view)) L) {q : Nat → UInt8} (hq : Codes a v (fun k => L (k * P)) q)
    (pf : Platform) (g : Nat → UInt8) (w0 : Word) (t0 t1 : Nat) (ht1 : t1 ≤ 4000000000000) (xs : List BoardStep) (b : Board) (os : List BoardOut)
    (h : (Board.init (fun _ => 0) rxErr g w0 t0 t1).run S pf g xs = .ok (some (b, os)))
    (hv : converted xs = (List.range (converted xs).length).map fun k => Pio.sampleValue k (q k))
    (hN : callsEnd P c 0 (sendsFrom 0 ev) + 378 * P ≤ (converted xs).length * P)
    (hN' : (converted xs).length * P + 2 * P ≤ callsEnd P c 0 (sendsFrom 0 ev) + M * P) (hblock : (converted xs).length < adcBlock)
    (hb : ∀ o ∈ os, o.behind ≤ 253) (hf : FastEnough xs) (hclk : Clocked t1 xs)
    (he : b.rx.adc.behind = 0 ∧ b.rx.core.word = .zero ∧ b.main.fifo = [] ∧ b.main.pc = .top) :
    (∀ o ∈ os, o.dropped = false) ∧ (∀ m ∈ rxMsgs (os.flatMap BoardOut.reports), m.status ≠ 4) ∧
    (rxMsgs (os.flatMap BoardOut.reports)).map lineShown = (sendsFrom 0 ev).map fun x => (0, x.2.bytes) := by
  obtain ⟨-, w2, w3⟩ := sender_wire hP hc (M := M) ev d pins rs hrun hcl (fun x hx => ⟨(hm x hx).1, (hm x hx).2.1, Nat.le_succ_of_le (hm x hx).2.2.1⟩) ha
  rw [← callsEnd_hand] at hN hN'
  have ht : ∀ p ∈ (sendsFrom 0 ev).map handOf, 1 ≤ p.at_ ∧ InTime (p.at_ + 1) p.rest ∧ p.rest.length ≤ 32 ∧ p.last + 173 ≤ (pins.map Pio.view).length := by
    intro p hp
    obtain ⟨x, hx, rfl⟩ := List.mem_map.mp hp
    obtain ⟨m1, m2, m3, m4⟩ := hm x hx
    refine ⟨m1, inTime_at _ _ _ (by show x.1 < x.1 + 1 + 175; omega), ?_, ?_⟩
    · rw [handOf_rest]; omega
    · rw [handOf_last, w2]; exact m4
  have ha' := callsApart_hand _ _ ha
  obtain ⟨-, -, b3, b4, b5, b6⟩ := busPackets_ok hP hc (M := M) ((sendsFrom 0 ev).map handOf) 2 0 (fun p hp => ⟨(ht p hp).2.1, (ht p hp).2.2.1⟩) (fun p hp => by
    have := (ht p (List.mem_of_mem_head? hp)).1; omega) ha'
  rw [← b6] at hN hN'
  have hlen : ∀ p ∈ busPackets P c 0 ((sendsFrom 0 ev).map handOf), p.bytes.length ≤ 31 := by
    intro p hp
    have : p.bytes ∈ (busPackets P c 0 ((sendsFrom 0 ev).map handOf)).map BusPacket.bytes := List.mem_map_of_mem hp
    rw [b5, List.map_map] at this
    obtain ⟨x, hx, e⟩ := List.mem_map.mp this
    rw [← e]
    show (handOf x).bytes.length ≤ 31
    rw [handOf_bytes (hm x hx).2.1]
    have := (hm x hx).2.2.1
    simpa [Message.bytes] using this
  obtain ⟨r0, r1, r2⟩ := C146_mask hS rxErr h1 h2 hP hM _ (fun p hp => ⟨b3 p hp, hlen p hp⟩) b4 (wire_eye hP hc _ _ w3 ht ha' hL) hq pf g w0 t0 t1 ht1 xs b os h hv hN hN' hblock hb hf hclk he
  refine ⟨r0, r1, r2.trans ?_⟩
  have e : ∀ l : List BusPacket, (l.map fun p => ((0 : Nat), p.bytes)) = (l.map BusPacket.bytes).map fun b => (0, b) := by
    intro l; rw [List.map_map]; rfl
  rw [e, b5, List.map_map, List.map_map]
  exact List.map_congr_left fun x hx => by show (0, (handOf x).bytes) = _; rw [handOf_bytes (hm x hx).2.1]

/-- The lines of the receiving device, for what a modem that is alone on the bus with listeners starts. -/
theorem C146_other_lines (pf : Platform) (hpf : pf.charSigned = false) (g : Nat → UInt8) (x : Bench) (ev : List DevEv) (rs : List Round) (c : Core0)
    (hl : LoopRun pf g (rs.map Round.env) c (rs.map Round.out)) (ha : AloneOnBus x ev rs) (hid : c.sm.isIdle = true) (hm : ∀ r ∈ rs, ∀ m, r.out.started = some m → m.length ≤ 31)
    (d : TxDev) (pins : List (Nat × Bool)) (errs : List Bool) (hrun : TxDev.init.run (devEvents ev rs) = some (d, pins, errs))
    {S : Nat} (hS : 9 ≤ S) (rxErr : Bool) {a v : Int} (h1 : 49 ≤ a) (h2 : a ≤ 88) {P : Nat} (hP : 0 < P) (hU : P ≤ 4 * x.U) {M : Nat} (hM : M + 70 ≤ 2 * 2 ^ S)
    {c' : Nat → Nat} (hc : SenderClock P c') (τ0 τ1 : Nat) (hsh : ∀ k, c' k + τ0 = x.c k + τ1) (h0 : τ0 ≤ 30000 * x.U) (hMM : x.M * x.P + 348 * x.P + τ1 ≤ M * P)
    {L : Nat → Level} (hL : Plays c' (lineOf (pins.map Pio.view)) L) {q : Nat → UInt8} (hq : Codes a v (fun k => L (k * P)) q)
    (pf' : Platform) (g' : Nat → UInt8) (w0 : Word) (t0 t1 : Nat) (ht1 : t1 ≤ 4000000000000) (xs : List BoardStep) (b : Board) (os : List BoardOut)
    (h : (Board.init (fun _ => 0) rxErr g' w0 t0 t1).run S pf' g' xs = .ok (some (b, os)))
    (hv : converted xs = (List.range (converted xs).length).map fun k => Pio.sampleValue k (q k))
    (hN : callsEnd P c' 0 (sendsFrom 0 (devEvents ev rs)) + 378 * P ≤ (converted xs).length * P)
    (hN' : (converted xs).length * P + 2 * P ≤ callsEnd P c' 0 (sendsFrom 0 (devEvents ev rs)) + M * P) (hblock : (converted xs).length < adcBlock)
    (hb : ∀ o ∈ os, o.behind ≤ 253) (hf : FastEnough xs) (hclk : Clocked t1 xs)
    (he : b.rx.adc.behind = 0 ∧ b.rx.core.word = .zero ∧ b.main.fifo = [] ∧ b.main.pc = .top) :
    (rxMsgs (os.flatMap BoardOut.reports)).map lineShown = (rs.filterMap fun r => r.out.started).map fun m => (0, m.bytes) := by
  have hev := (alone_at hpf hl ha).events
  obtain ⟨hset, k1, -⟩ := alone_idle hpf hl ha hid
  have hsz : ∀ y ∈ sendsFrom 0 (devEvents ev rs), 1 ≤ y.1 ∧ 1 ≤ y.2.length ∧ y.2.length ≤ 31 ∧ finalStart y.1 y.2 + 173 ≤ cyclesOf (devEvents ev rs) := by
    intro y hy
    obtain ⟨z1, z2, -⟩ := hev.sizes y hy
    refine ⟨z1, z2, ?_, ?_⟩
    · have hy' : y.2 ∈ rs.filterMap fun r => r.out.started := by rw [k1]; exact List.mem_map_of_mem hy
      rw [List.mem_filterMap] at hy'
      obtain ⟨r, hr', hst⟩ := hy'
      exact hm r hr' y.2 hst
    · have := hev.ends y hy
      rcases hset.over with ho | ho
      · rw [ho] at hy; cases hy
      · omega
  have hap := apart_other (P' := P) (M' := M) (τ0 := τ0) (τ1 := τ1) (c' := c') hU hsh (by omega) _ 0 0 0 hev.gap hev.apart (by omega) (by omega)
  rw [(C146_calls hS rxErr h1 h2 hP hM hc _ d pins errs hrun hev.late hsz hap hL hq pf' g' w0 t0 t1 ht1 xs b os h hv hN hN' hblock hb hf hclk he).2.2, k1, msgsOf, List.map_map]
  rfl

/-- **C146.** Two whole modems, in real time.  Modem A is as in C132: any history, alone on the bus with listeners, at the end of which nothing waits and the transmitter is idle; its host types
lines that denote the packets `bss`.  Modem B is a whole device (C144), in any interleaving of its conversions, its receive core and its main loop, as long as the receive core is never more
than 253 conversions behind, the main loop is fast enough, and the clock does not run away.  Then, when everything has been processed, what the host of B reads is, one line per packet with
status 0 and in order, exactly the packets typed at A, and between them at most answers of the controller of A to valid requests. -/
theorem C146_typed_is_read (pf : Platform) (hpf : pf.charSigned = false) (g : Nat → UInt8) (x : Bench) (ev : List DevEv) (rs : List Round) (c : Core0)
    (hl : LoopRun pf g (rs.map Round.env) c (rs.map Round.out)) (ha : AloneOnBus x ev rs) (hid : c.sm.isIdle = true) (hw : c.host.hasData = false)
    (h8 : FewWait pf g (rs.map Round.env))
    (chunks : List Chunk) (hch : (rs.map Round.env).map (fun e => e.1.chunk) = chunks.map Chunk.bytes)
    (hcb : ∀ c ∈ chunks, (∀ x ∈ c.body, ¬ Term x ∧ x ≠ 0) ∧ ∀ x ∈ c.terms, Term x) (hcf : Fits [] chunks)
    (bss : List (List UInt8)) (hbs : WritesAll (linesOf [] chunks) bss)
    (d : TxDev) (pins : List (Nat × Bool)) (errs : List Bool) (hrun : TxDev.init.run (devEvents ev rs) = some (d, pins, errs))
    {S : Nat} (hS : 9 ≤ S) (rxErr : Bool) {a v : Int} (h1 : 49 ≤ a) (h2 : a ≤ 88) {P : Nat} (hP : 0 < P) (hU : P ≤ 4 * x.U) {M : Nat} (hM : M + 70 ≤ 2 * 2 ^ S)
    {c' : Nat → Nat} (hc : SenderClock P c') (τ0 τ1 : Nat) (hsh : ∀ k, c' k + τ0 = x.c k + τ1) (h0 : τ0 ≤ 30000 * x.U) (hMM : x.M * x.P + 348 * x.P + τ1 ≤ M * P)
    {L : Nat → Level} (hL : Plays c' (lineOf (pins.map Pio.view)) L) {q : Nat → UInt8} (hq : Codes a v (fun k => L (k * P)) q)
    (pf' : Platform) (g' : Nat → UInt8) (w0 : Word) (t0 t1 : Nat) (ht1 : t1 ≤ 4000000000000) (xs : List BoardStep) (b : Board) (os : List BoardOut)
    (h : (Board.init (fun _ => 0) rxErr g' w0 t0 t1).run S pf' g' xs = .ok (some (b, os)))
    (hv : converted xs = (List.range (converted xs).length).map fun k => Pio.sampleValue k (q k))
    (hN : callsEnd P c' 0 (sendsFrom 0 (devEvents ev rs)) + 378 * P ≤ (converted xs).length * P)
    (hN' : (converted xs).length * P + 2 * P ≤ callsEnd P c' 0 (sendsFrom 0 (devEvents ev rs)) + M * P) (hblock : (converted xs).length < adcBlock)
    (hb : ∀ o ∈ os, o.behind ≤ 253) (hf : FastEnough xs) (hclk : Clocked t1 xs)
    (he : b.rx.adc.behind = 0 ∧ b.rx.core.word = .zero ∧ b.main.fifo = [] ∧ b.main.pc = .top)
    (off : Int) (hoff : off + 2 ^ 32 ≤ 2 ^ 63) (sends : List SendEv) (hsd : sends.map (fun e => Report.rx e.m) = os.flatMap BoardOut.reports) :
    ∃ (ps : Origins) (h' : Host) (text : List UInt8), runTx { Host.init g' with time := off } [] (printing sends ++ [.drain 128]) = .ok (h', text) ∧
      Reads text (ps.map fun p => p.1.bytes) ∧ ps.host.map Message.bytes = bss ∧ (∀ p ∈ ps, ∀ r, p.2 = some r → Answers r p.1) ∧
      ps.map Prod.fst = (rs.filterMap fun r => r.out.started) ∧ ps.requests.Sublist (busLines (rs.map Round.out)) := by
  obtain ⟨ps, hhost, o2, hst, o3, hsz, hm⟩ := typed_started pf g rs c hl hw h8 chunks hch hcb hcf bss hbs
  have lines := C146_other_lines pf hpf g x ev rs c hl ha hid hm d pins errs hrun hS rxErr h1 h2 hP hU hM hc τ0 τ1 hsh h0 hMM hL hq pf' g' w0 t0 t1 ht1 xs b os h hv hN hN' hblock hb hf hclk he
  rw [← hst] at lines
  obtain ⟨h', text, p1, p2⟩ := lines_read g' ps hsz lines off hoff sends hsd
  exact ⟨ps, h', text, p1, p2, hhost, o2, hst, o3⟩

/-- **C146, exactly.** If moreover none of the packets is a request that the controller of A answers, and A had no trouble with its own reception, the host of B reads exactly the packets
typed at A. -/
theorem C146_exactly (pf : Platform) (hpf : pf.charSigned = false) (g : Nat → UInt8) (x : Bench) (ev : List DevEv) (rs : List Round) (c : Core0)
    (hl : LoopRun pf g (rs.map Round.env) c (rs.map Round.out)) (ha : AloneOnBus x ev rs) (hid : c.sm.isIdle = true) (hw : c.host.hasData = false)
    (h8 : FewWait pf g (rs.map Round.env))
    (chunks : List Chunk) (hch : (rs.map Round.env).map (fun e => e.1.chunk) = chunks.map Chunk.bytes)
    (hcb : ∀ c ∈ chunks, (∀ x ∈ c.body, ¬ Term x ∧ x ≠ 0) ∧ ∀ x ∈ c.terms, Term x) (hcf : Fits [] chunks)
    (bss : List (List UInt8)) (hbs : WritesAll (linesOf [] chunks) bss)
    (d : TxDev) (pins : List (Nat × Bool)) (errs : List Bool) (hrun : TxDev.init.run (devEvents ev rs) = some (d, pins, errs))
    {S : Nat} (hS : 9 ≤ S) (rxErr : Bool) {a v : Int} (h1 : 49 ≤ a) (h2 : a ≤ 88) {P : Nat} (hP : 0 < P) (hU : P ≤ 4 * x.U) {M : Nat} (hM : M + 70 ≤ 2 * 2 ^ S)
    {c' : Nat → Nat} (hc : SenderClock P c') (τ0 τ1 : Nat) (hsh : ∀ k, c' k + τ0 = x.c k + τ1) (h0 : τ0 ≤ 30000 * x.U) (hMM : x.M * x.P + 348 * x.P + τ1 ≤ M * P)
    {L : Nat → Level} (hL : Plays c' (lineOf (pins.map Pio.view)) L) {q : Nat → UInt8} (hq : Codes a v (fun k => L (k * P)) q)
    (pf' : Platform) (g' : Nat → UInt8) (w0 : Word) (t0 t1 : Nat) (ht1 : t1 ≤ 4000000000000) (xs : List BoardStep) (b : Board) (os : List BoardOut)
    (h : (Board.init (fun _ => 0) rxErr g' w0 t0 t1).run S pf' g' xs = .ok (some (b, os)))
    (hv : converted xs = (List.range (converted xs).length).map fun k => Pio.sampleValue k (q k))
    (hN : callsEnd P c' 0 (sendsFrom 0 (devEvents ev rs)) + 378 * P ≤ (converted xs).length * P)
    (hN' : (converted xs).length * P + 2 * P ≤ callsEnd P c' 0 (sendsFrom 0 (devEvents ev rs)) + M * P) (hblock : (converted xs).length < adcBlock)
    (hb : ∀ o ∈ os, o.behind ≤ 253) (hf : FastEnough xs) (hclk : Clocked t1 xs)
    (he : b.rx.adc.behind = 0 ∧ b.rx.core.word = .zero ∧ b.main.fifo = [] ∧ b.main.pc = .top)
    (off : Int) (hoff : off + 2 ^ 32 ≤ 2 ^ 63) (sends : List SendEv) (hsd : sends.map (fun e => Report.rx e.m) = os.flatMap BoardOut.reports)
    (hno : ∀ bs ∈ bss, ¬ IsRequest bs) (hfe : ∀ r ∈ rs, r.env.1.fifoErr = false) (hd4 : ∀ m ∈ busLines (rs.map Round.out), m.status ≠ 4) :
    ∃ (h' : Host) (text : List UInt8), runTx { Host.init g' with time := off } [] (printing sends ++ [.drain 128]) = .ok (h', text) ∧ Reads text bss := by
  obtain ⟨ps, hhost, o2, hst, o3, hsz, hm⟩ := typed_started pf g rs c hl hw h8 chunks hch hcb hcf bss hbs
  have lines := C146_other_lines pf hpf g x ev rs c hl ha hid hm d pins errs hrun hS rxErr h1 h2 hP hU hM hc τ0 τ1 hsh h0 hMM hL hq pf' g' w0 t0 t1 ht1 xs b os h hv hN hN' hblock hb hf hclk he
  rw [← hst] at lines
  obtain ⟨h', text, p1, p2⟩ := lines_read g' ps hsz lines off hoff sends hsd
  rw [typed_only pf hpf g x ev rs c hl ha hid hhost o2 hst o3 hm hno hfe hd4] at p2
  exact ⟨h', text, p1, p2⟩

end P1P2
