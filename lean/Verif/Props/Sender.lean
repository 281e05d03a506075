import Verif.Props.TxDev
/-!
# C118: from the calls of one modem's main loop to the lines of another modem
-/
namespace P1P2
open Pio

/-- Messages handed over when the one before is sent. -/
def CallsSpaced : Nat → List (Nat × Message) → Prop
  | _, [] => True
  | e, (n, m) :: ms => e ≤ n ∧ m.length ≤ 32 ∧ CallsSpaced (n + 175 * m.length) ms

theorem calls_accepted : ∀ (es : List DevEv) {d d' : TxDev} {r : LineRef} {f : List UInt8} {outs : List (Nat × Bool)} {rs : List Bool} (n e : Nat), DevSim d r f →
    d.run es = some (d', outs, rs) → (r.left = 0 ∨ n + r.left ≤ e) → d.error = false → CallsSpaced e (sendsFrom n es) →
    acceptedFrom n d.dmaCount es = (sendsFrom n es).flatMap (fun x => x.2.bytes.map fun b => (x.1, b)) ∧ outs.length = cyclesOf es ∧ ∀ x ∈ rs, x = false := by
  intro es
  induction es with
  | nil =>
    intro d d' r f outs rs n e _ hr _ _ _
    simp only [TxDev.run, Option.some.injEq, Prod.mk.injEq] at hr
    obtain ⟨rfl, rfl, rfl⟩ := hr
    exact ⟨rfl, rfl, by intro x hx; cases hx⟩
  | cons ev es ih =>
    intro d d' r f outs rs n e h hr hle he hs
    rw [TxDev.run, Option.bind_eq_some_iff] at hr
    obtain ⟨⟨d1, o1, r1⟩, e1, hr⟩ := hr
    rw [Option.map_eq_some_iff] at hr
    obtain ⟨⟨d2, o2, r2⟩, e2, hr⟩ := hr
    simp only [Prod.mk.injEq] at hr
    obtain ⟨rfl, rfl, rfl⟩ := hr
    cases ev with
    | call c =>
      simp only [TxDev.step, Option.some.injEq, Prod.mk.injEq] at e1
      obtain ⟨rfl, rfl, rfl⟩ := e1
      cases c with
      | shutdown b => exact ih (d := { d with pin := b }) (r := r) (f := f) n e ⟨h.sim, h.queue⟩ e2 hle he hs
      | clearFifo =>
        refine ih (d := d.clearFifo) n e h.clear e2 ?_ he hs
        have h1 : r.left = r.rest.length + 175 * r.queue.length := rfl
        have h2 : ({ r with queue := [] } : LineRef).left = r.rest.length + 175 * 0 := rfl
        omega
      | send m =>
        obtain ⟨s1, s2, s3⟩ := hs
        have hl : r.left = 0 := by omega
        have hl' : r.left = r.rest.length + 175 * r.queue.length := rfl
        have hq : r.queue = [] := by rw [← List.length_eq_zero_iff]; omega
        have h0 : d.dmaCount = 0 := by
          have := congrArg List.length h.queue
          rw [hq, List.length_append] at this
          unfold TxDev.dmaBytes at this
          rw [List.length_map, List.length_range, List.length_nil] at this
          omega
        have hc := h.call m
        rw [if_pos ⟨h0, s2⟩] at hc
        obtain ⟨c1, c2, c3⟩ := hc
        have := ih n (n + 175 * m.length) c1 e2 (.inr ?_) (c3.trans he) s3
        · rw [c2] at this
          rw [acceptedFrom, if_pos ⟨h0, s2⟩, this.1]
          exact ⟨rfl, this.2⟩
        · show n + (r.rest.length + 175 * (r.queue ++ m.bytes).length) ≤ _
          rw [hq, List.nil_append, Message.bytes_length]
          omega
    | error =>
      simp only [TxDev.step, Option.some.injEq, Prod.mk.injEq] at e1
      obtain ⟨rfl, rfl, rfl⟩ := e1
      obtain ⟨i1, i2, i3⟩ := ih (d := { d with error := false }) (r := r) (f := f) n e ⟨h.sim, h.queue⟩ e2 hle rfl hs
      refine ⟨i1, i2, fun x hx => ?_⟩
      rcases List.mem_cons.mp hx with rfl | hx
      · exact he
      · exact i3 x hx
    | dma =>
      simp only [TxDev.step, Option.map_eq_some_iff, Prod.mk.injEq] at e1
      obtain ⟨d0, e1, rfl, rfl, rfl⟩ := e1
      obtain ⟨c1, c2, c3⟩ := h.dma e1
      have := ih n e c1 e2 hle (c3.trans he) hs
      rw [c2] at this
      exact this
    | cycle =>
      simp only [TxDev.step, Option.map_eq_some_iff, Prod.mk.injEq] at e1
      obtain ⟨d0, e1, rfl, rfl, rfl⟩ := e1
      obtain ⟨⟨f', c1⟩, c2, c3, c4⟩ := h.cycle e1
      have := ih (n + 1) e c1 e2 (by have := r.cycle_left; omega) (c4.trans he) hs
      rw [c3] at this
      refine ⟨this.1, ?_, this.2.2⟩
      show (_ :: o2).length = cyclesOf es + 1
      rw [List.length_cons, this.2.1]

/-- A message handed over, as a packet. -/
def handOf (x : Nat × Message) : Handed := { at_ := x.1, first := x.2.data 0, rest := x.2.bytes.tail.map fun b => (x.1, b) }

theorem bytes_cons {m : Message} (h : 1 ≤ m.length) : m.bytes = m.data 0 :: m.bytes.tail := by
  unfold Message.bytes
  obtain ⟨n, hn⟩ : ∃ n, m.length = n + 1 := ⟨m.length - 1, by omega⟩
  rw [hn, List.range_succ_eq_map]
  rfl

theorem handOf_writes {x : Nat × Message} (h : 1 ≤ x.2.length) : (handOf x).writes = x.2.bytes.map fun b => (x.1, b) := by
  rw [bytes_cons h]
  rfl

theorem handOf_bytes {x : Nat × Message} (h : 1 ≤ x.2.length) : (handOf x).bytes = x.2.bytes := by
  unfold Handed.bytes handOf
  rw [List.map_map]
  conv => rhs; rw [bytes_cons h]
  show x.2.data 0 :: (x.2.bytes.tail).map id = _
  rw [List.map_id]

theorem handOf_rest (x : Nat × Message) : (handOf x).rest.length = x.2.length - 1 := by
  unfold handOf
  rw [List.length_map, List.length_tail, Message.bytes_length]

theorem handOf_last (x : Nat × Message) : (handOf x).last = finalStart x.1 x.2 := by
  unfold Handed.last finalStart
  rw [handOf_rest]
  rfl

theorem inTime_at (n : Nat) : ∀ (bs : List UInt8) (s : Nat), n < s + 175 → InTime s (bs.map fun b => (n, b)) := by
  intro bs
  induction bs with
  | nil => intro s _; trivial
  | cons b bs ih => intro s h; exact ⟨h, ih _ (by omega)⟩

theorem callsApart_hand {P M : Nat} {c : Nat → Nat} : ∀ (l : List (Nat × Message)) (t : Nat), CallsApart P M c t l → Apart P M c t (l.map handOf) := by
  intro l
  induction l with
  | nil => intro t _; trivial
  | cons x l ih =>
    intro t h
    obtain ⟨n, m⟩ := x
    obtain ⟨h1, h2, h3⟩ := h
    refine ⟨h1, h2, ?_⟩
    rw [handOf_last]
    exact ih _ h3

theorem callsEnd_hand {P : Nat} {c : Nat → Nat} : ∀ (l : List (Nat × Message)) (t : Nat), sendEnd P c t (l.map handOf) = callsEnd P c t l := by
  intro l
  induction l with
  | nil => intro t; rfl
  | cons x l ih =>
    intro t
    obtain ⟨n, m⟩ := x
    show sendEnd P c (c (handOf (n, m)).last + 348 * P) (l.map handOf) = callsEnd P c (c (finalStart n m) + 348 * P) l
    rw [handOf_last]
    exact ih _

theorem callsApart_spaced {P M : Nat} (hP : 0 < P) {c : Nat → Nat} (hc : SenderClock P c) : ∀ (l : List (Nat × Message)) (t e : Nat), (∀ x ∈ l, 1 ≤ x.2.length ∧ x.2.length ≤ 32) →
    (∀ x ∈ l.head?, t + 352 * P ≤ c (x.1 + 1) → e ≤ x.1) → CallsApart P M c t l → CallsSpaced e l := by
  intro l
  induction l with
  | nil => intro t e _ _ _; trivial
  | cons x l ih =>
    intro t e hl he h
    obtain ⟨n, m⟩ := x
    obtain ⟨h1, h2, h3⟩ := h
    have hm := hl (n, m) (List.mem_cons_self ..)
    refine ⟨he (n, m) rfl h1, hm.2, ih _ _ (fun x hx => hl x (List.mem_cons_of_mem _ hx)) ?_ h3⟩
    intro x _ hx
    have hh := hc.high (finalStart n m) 175 (Nat.le_refl _)
    have : finalStart n m + 175 < x.1 + 1 := hc.lt_iff.mpr (by omega)
    have hf : finalStart n m = n + 1 + 175 * (m.length - 1) := rfl
    have := hm.1
    have : 1 ≤ m.length := this
    omega

/-- What the pins of the sender show: the frames of all messages. -/
theorem sender_wire {P : Nat} (hP : 0 < P) {M : Nat} {c : Nat → Nat} (hc : SenderClock P c) (ev : List DevEv) (d : TxDev) (pins : List (Nat × Bool)) (rs : List Bool)
    (hrun : TxDev.init.run ev = some (d, pins, rs)) (hcl : ClearsLate 1 0 0 ev)
    (hm : ∀ x ∈ sendsFrom 0 ev, 1 ≤ x.1 ∧ 1 ≤ x.2.length ∧ x.2.length ≤ 32) (ha : CallsApart P M c 0 (sendsFrom 0 ev)) :
    (∀ x ∈ rs, x = false) ∧ (pins.map Pio.view).length = cyclesOf ev ∧
      ∀ k, k < (pins.map Pio.view).length → (pins.map Pio.view)[k]? = some (wireAt (startsFrom 2 (((sendsFrom 0 ev).map handOf).flatMap Handed.writes)) k) := by
  have hsp := callsApart_spaced hP hc (M := M) (sendsFrom 0 ev) 0 1 (fun x hx => (hm x hx).2) (fun x hx _ => (hm x (List.mem_of_mem_head? hx)).1) ha
  obtain ⟨a1, a2, a3⟩ := calls_accepted ev 0 1 DevSim.init hrun (.inr (Nat.le_refl _)) rfl hsp
  have e : acceptedFrom 0 0 ev = ((sendsFrom 0 ev).map handOf).flatMap Handed.writes := by
    refine a1.trans ?_
    rw [List.flatMap_map]
    have hm' : ∀ x ∈ sendsFrom 0 ev, 1 ≤ x.2.length := fun x hx => (hm x hx).2.1
    clear a1 ha hm hsp
    generalize sendsFrom 0 ev = l at *
    induction l with
    | nil => rfl
    | cons x l ih =>
      rw [List.flatMap_cons, List.flatMap_cons, ih (fun x hx => hm' x (List.mem_cons_of_mem _ hx)), ← handOf_writes (hm' x (List.mem_cons_self ..))]
  refine ⟨a3, by rw [List.length_map, a2], fun k hk => ?_⟩
  rw [C117_times ev hcl d pins rs hrun k (by rw [List.length_map] at hk; omega), e]

/-- **C118.** The main loop of one modem hands messages to its driver (each when the bus has been silent for the time of 352 codes after the one before); DMA transfers and cycles of the transmit
program are interleaved in any way such that the DMA keeps up; `ClearFifo` is called only after the last frame has begun.  No message is refused, and some 378 codes after the last one
the words for the other core of a receiving modem are those of the messages, in order and without anything else. -/
theorem C118_words {S : Nat} (hS : 8 ≤ S) (rxErr : Bool) {a v : Int} (h1 : 49 ≤ a) (h2 : a ≤ 88) {P : Nat} (hP : 0 < P) {M : Nat} (hM : M + 70 ≤ 2 * 2 ^ S)
    {c : Nat → Nat} (hc : SenderClock P c) (ev : List DevEv) (d : TxDev) (pins : List (Nat × Bool)) (rs : List Bool)
    (hrun : TxDev.init.run ev = some (d, pins, rs)) (hcl : ClearsLate 1 0 0 ev)
    (hm : ∀ x ∈ sendsFrom 0 ev, 1 ≤ x.1 ∧ 1 ≤ x.2.length ∧ x.2.length ≤ 32 ∧ finalStart x.1 x.2 + 173 ≤ cyclesOf ev) (ha : CallsApart P M c 0 (sendsFrom 0 ev))
    {L : Nat → Level} (hL : Plays c (lineOf (pins.map Pio.view)) L) {q : Nat → UInt8} (hq : Codes a v (fun k => L (k * P)) q)
    (es : List (AdcEv × Bool)) (hk : keepsUp 254 0 0 (es.map Prod.fst))
    (hN : callsEnd P c 0 (sendsFrom 0 ev) + 378 * P ≤ deliveries 0 0 (es.map Prod.fst) * P)
    (hN' : deliveries 0 0 (es.map Prod.fst) * P + 2 * P ≤ callsEnd P c 0 (sendsFrom 0 ev) + M * P) :
    (∀ x ∈ rs, x = false) ∧
    ∃ s outs, RxSystem.run S (RxSystem.init (fun _ => 0) rxErr) (scheduleEvents (fun k => Pio.sampleValue k (q k)) 0 0 es) = .ok (s, outs) ∧
      sent outs ++ (if s.core.word = .zero then [] else [s.core.word]) = ((sendsFrom 0 ev).flatMap fun x => wFree :: wBusy :: x.2.bytes.map wByte) ++ [wFree] := by
  obtain ⟨w1, w2, w3⟩ := sender_wire hP hc (M := M) ev d pins rs hrun hcl (fun x hx => ⟨(hm x hx).1, (hm x hx).2.1, (hm x hx).2.2.1⟩) ha
  refine ⟨w1, ?_⟩
  rw [← callsEnd_hand] at hN hN'
  have ht : ∀ p ∈ (sendsFrom 0 ev).map handOf, 1 ≤ p.at_ ∧ InTime (p.at_ + 1) p.rest ∧ p.rest.length ≤ 32 ∧ p.last + 173 ≤ (pins.map Pio.view).length := by
    intro p hp
    obtain ⟨x, hx, rfl⟩ := List.mem_map.mp hp
    obtain ⟨m1, m2, m3, m4⟩ := hm x hx
    refine ⟨m1, inTime_at _ _ _ (by show x.1 < x.1 + 1 + 175; omega), ?_, ?_⟩
    · rw [handOf_rest]; omega
    · rw [handOf_last, w2]; exact m4
  obtain ⟨s, outs, r1, r2⟩ := wire_words hS rxErr h1 h2 hP hM hc _ ((sendsFrom 0 ev).map handOf) w3 ht (callsApart_hand _ _ ha) hL hq es hk hN hN'
  refine ⟨s, outs, r1, r2.trans ?_⟩
  congr 1
  rw [List.flatMap_map]
  have hm' : ∀ x ∈ sendsFrom 0 ev, 1 ≤ x.2.length := fun x hx => (hm x hx).2.1
  clear r2 ha hm w3 hN hN' hcl ht
  generalize sendsFrom 0 ev = l at *
  induction l with
  | nil => rfl
  | cons x l ih =>
    rw [List.flatMap_cons, List.flatMap_cons, ih (fun x hx => hm' x (List.mem_cons_of_mem _ hx)), handOf_bytes (hm' x (List.mem_cons_self ..))]

/-- **C118, lines.** With messages of at most 31 bytes and the two cores of the receiver interleaved in any way such that no word is dropped, all are taken, and the watchdog does not report, the host of the
receiver is given exactly one line for each message, in order, with status 0 and the bytes of the message. -/
theorem C118_lines {S : Nat} (hS : 8 ≤ S) (rxErr : Bool) {a v : Int} (h1 : 49 ≤ a) (h2 : a ≤ 88) {P : Nat} (hP : 0 < P) {M : Nat} (hM : M + 70 ≤ 2 * 2 ^ S)
    {c : Nat → Nat} (hc : SenderClock P c) (ev : List DevEv) (d : TxDev) (pins : List (Nat × Bool)) (rs : List Bool)
    (hrun : TxDev.init.run ev = some (d, pins, rs)) (hcl : ClearsLate 1 0 0 ev)
    (hm : ∀ x ∈ sendsFrom 0 ev, 1 ≤ x.1 ∧ 1 ≤ x.2.length ∧ x.2.length ≤ 31 ∧ finalStart x.1 x.2 + 173 ≤ cyclesOf ev) (ha : CallsApart P M c 0 (sendsFrom 0 ev))
    {L : Nat → Level} (hL : Plays c (lineOf (pins.map Pio.view)) L) {q : Nat → UInt8} (hq : Codes a v (fun k => L (k * P)) q)
    (es : List (AdcEv × Bool)) (hk : keepsUp 254 0 0 (es.map Prod.fst))
    (hN : callsEnd P c 0 (sendsFrom 0 ev) + 378 * P ≤ deliveries 0 0 (es.map Prod.fst) * P)
    (hN' : deliveries 0 0 (es.map Prod.fst) * P + 2 * P ≤ callsEnd P c 0 (sendsFrom 0 ev) + M * P)
    (s : RxSystem) (outs : List C1Out)
    (hr : RxSystem.run S (RxSystem.init (fun _ => 0) rxErr) (scheduleEvents (fun k => Pio.sampleValue k (q k)) 0 0 es) = .ok (s, outs))
    (hs : s.core.word = .zero)
    (pf : Platform) (g : Nat → UInt8) (w0 : Word) (t0 t1 : Nat) (t : TwoCores) (xs : List TwoStep) (os : List TwoOut)
    (hx : pushes xs = sent outs) (h : (TwoCores.init g w0 t0 t1 false).run pf g xs = .ok (some (t, os))) (hd : drops os = 0) (htop : t.pc = .top)
    (hf : t.fifo = []) (h4 : ∀ m ∈ rxMsgs (reportsOf os), m.status ≠ 4) :
    (rxMsgs (reportsOf os)).map lineShown = (sendsFrom 0 ev).map fun x => (0, x.2.bytes) := by
  obtain ⟨-, s', outs', e1, e2⟩ := C118_words hS rxErr h1 h2 hP hM hc ev d pins rs hrun hcl
    (fun x hx => by obtain ⟨m1, m2, m3, m4⟩ := hm x hx; exact ⟨m1, m2, by omega, m4⟩) ha hL hq es hk hN hN'
  rw [hr] at e1
  simp only [Res.ok.injEq, Prod.mk.injEq] at e1
  obtain ⟨rfl, rfl⟩ := e1
  rw [if_pos hs, List.append_nil] at e2
  have hb : ∀ x ∈ sendsFrom 0 ev, (handOf x).bytes = x.2.bytes := fun x hx => handOf_bytes (hm x hx).2.1
  have e3 : sent outs = (((sendsFrom 0 ev).map handOf).flatMap fun p => wFree :: wBusy :: p.bytes.map wByte) ++ [wFree] := by
    rw [e2, List.flatMap_map]
    congr 1
    clear e2 ha hm hN hN' hcl
    generalize sendsFrom 0 ev = l at *
    induction l with
    | nil => rfl
    | cons x l ih =>
      rw [List.flatMap_cons, List.flatMap_cons, ih (fun x hx => hb x (List.mem_cons_of_mem _ hx)), hb x (List.mem_cons_self ..)]
  rw [lines_of_words ((sendsFrom 0 ev).map handOf) ?_ e3 pf g w0 t0 t1 t xs os hx h hd htop hf h4, List.map_map]
  · exact List.map_congr_left fun x hx => by show (0, (handOf x).bytes) = _; rw [hb x hx]
  · intro p hp
    obtain ⟨x, hx, rfl⟩ := List.mem_map.mp hp
    have := (hm x hx).2.2.1
    rw [handOf_rest]; omega

/-! ## A case that meets the hypotheses: the packet 40 F0 from one device to another -/

/-- 300 cycles, the call of `Send`, the DMA, and when the second frame has begun `ClearFifo` as the state machine calls it. -/
def senderRun : List DevEv :=
  List.replicate 300 .cycle ++ [.call (.send demoMsg), .dma, .dma] ++ List.replicate 300 .cycle ++ [.call .clearFifo, .error] ++ List.replicate 102 .cycle

theorem senderRun_pins : (TxDev.init.run senderRun).map (fun r => (r.2.1.map Pio.view, r.2.2)) =
    some ((trace uartTx reset (modemWrites.map putEnv)).map State.view, [false]) := by decide +kernel

set_option maxRecDepth 20000 in
theorem senderRun_sends : sendsFrom 0 senderRun = [(300, demoMsg)] := rfl

example : ∃ d pins rs s outs, TxDev.init.run senderRun = some (d, pins, rs) ∧ Plays (dividerClock 48 0 0) (lineOf (pins.map Pio.view)) modemLine ∧
    RxSystem.run 32 (RxSystem.init (fun _ => 0) false) (scheduleEvents (fun k => Pio.sampleValue k (modemCodes k)) 0 0 (atOnceIdle 1700)) = .ok (s, outs) ∧
    s.core.word = .zero ∧ sent outs = [wFree, wBusy, wByte 0x40, wByte 0xF0, wFree] ∧ pushes handOver = sent outs ∧
    handedOver handOver = some (0, true, 0, [(0, [0x40, 0xF0])]) := by
  have hp := senderRun_pins
  rw [Option.map_eq_some_iff] at hp
  obtain ⟨⟨d, pins, rs⟩, e0, hp⟩ := hp
  simp only [Prod.mk.injEq] at hp
  obtain ⟨hp, -⟩ := hp
  obtain ⟨k1, k2⟩ := atOnceIdle_ok 1700 0 (by decide)
  have hL : Plays (dividerClock 48 0 0) (lineOf (pins.map Pio.view)) modemLine := by rw [hp]; exact modemLine_plays
  obtain ⟨-, s, outs, e1, e2⟩ := C118_words (S := 32) (by decide) false (by decide) (by decide) (P := 19625) (by decide) (M := 1000) (by decide) modemClock
    senderRun d pins rs e0 (by decide +kernel)
    (by rw [senderRun_sends]; intro x hx; rw [List.mem_singleton] at hx; subst hx; exact ⟨by decide, by decide, by decide, by decide +kernel⟩)
    (by rw [senderRun_sends]; exact ⟨by decide, by decide, trivial⟩)
    hL (codesOf_ok _) (atOnceIdle 1700) k1 (by rw [k2, senderRun_sends]; decide) (by rw [k2, senderRun_sends]; decide)
  have e1 : RxSystem.run 32 (RxSystem.init (fun _ => 0) false) (scheduleEvents (fun k => Pio.sampleValue k (modemCodes k)) 0 0 (atOnceIdle 1700)) = .ok (s, outs) := e1
  have hr : SampleRange fun k => Pio.sampleValue k (modemCodes k) := fun k => C41_conversion k (modemCodes k)
  have h0 : SampleRange fun _ => 0 := fun _ => by show (-256 : Int) ≤ 0 ∧ (0 : Int) ≤ 255; decide
  obtain ⟨ad, e3⟩ := C101_samples (S := 32) (fun _ => 0) _ h0 hr false (atOnceIdle 1700) k1
  obtain ⟨is, e4⟩ := atOnceIdle_last 4992 (adcHist (fun _ => 0) fun k => Pio.sampleValue k (modemCodes k)) 1700 0
  rw [e1, e4] at e3
  have hz : s.core.word = .zero := by
    cases hcr : (Core1.init false).run 32 (is ++ [{ ready := true, adc := .none }]) with
    | ub => rw [hcr] at e3; cases e3
    | ok r =>
      rw [hcr] at e3
      simp only [Res.bind, Res.ok.injEq, Prod.mk.injEq] at e3
      rw [e3.1]
      exact Core1.idle_last is hcr
  rw [if_pos hz, List.append_nil, senderRun_sends] at e2
  refine ⟨d, pins, rs, s, outs, e0, hL, e1, hz, e2, ?_, handOver_seen⟩
  rw [e2]; rfl

end P1P2
