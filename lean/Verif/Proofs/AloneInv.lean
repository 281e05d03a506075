import Verif.Proofs.AloneWords
import Verif.Props.Success
/-!
# The transmitter of a modem alone on the bus: what holds between iterations
-/
namespace P1P2

/-- So far all messages were apart and nothing was cleared too early. -/
structure EvInv (x : Bench) (ev : List DevEv) : Prop where
  late : ClearsLate 1 0 0 ev
  sizes : ∀ y ∈ sendsFrom 0 ev, 1 ≤ y.1 ∧ 1 ≤ y.2.length ∧ y.2.length ≤ 32
  apart : CallsApart x.P x.M x.c 0 (sendsFrom 0 ev)
  gap : CallsGap (32000 * x.U) x.c 0 (sendsFrom 0 ev)
  ends : ∀ y ∈ sendsFrom 0 ev, finalStart y.1 y.2 + 174 ≤ (lateEnd 1 0 0 ev).1

/-- Nothing waits to be sent. -/
structure Settled (x : Bench) (ev : List DevEv) : Prop where
  queue : (LineRef.init.after 0 ev).queue = []
  left : (lateEnd 1 0 0 ev).2 = 0
  past : x.c (lateEnd 1 0 0 ev).1 ≤ callsEnd x.P x.c 0 (sendsFrom 0 ev) + 32000 * x.U
  over : sendsFrom 0 ev = [] ∨ (lateEnd 1 0 0 ev).1 ≤ cyclesOf ev

theorem sends_quiet {ev a : List DevEv} (h : callsOf a = []) : sendsFrom 0 (ev ++ a) = sendsFrom 0 ev := by
  rw [sendsFrom_append, quiet_sends _ h, List.append_nil]

theorem late_quiet {ev a : List DevEv} (h : callsOf a = []) : (lateEnd 1 0 0 (ev ++ a)).1 = (lateEnd 1 0 0 ev).1 := by
  rw [lateEnd_append, (quiet_late _ _ _ h).2.1]

theorem EvInv.quiet {x : Bench} {ev a : List DevEv} (h : EvInv x ev) (ha : callsOf a = []) : EvInv x (ev ++ a) := by
  refine ⟨?_, ?_, ?_, ?_, ?_⟩
  · rw [clearsLate_append]; exact ⟨h.late, (quiet_late _ _ _ ha).1⟩
  · rw [sends_quiet ha]; exact h.sizes
  · rw [sends_quiet ha]; exact h.apart
  · rw [sends_quiet ha]; exact h.gap
  · rw [sends_quiet ha, late_quiet ha]; exact h.ends

theorem Settled.quiet {x : Bench} {ev a : List DevEv} (h : Settled x ev) (ha : callsOf a = []) : Settled x (ev ++ a) := by
  refine ⟨?_, ?_, ?_, ?_⟩
  · rw [after_append ev a _ 1 0 0]; exact quiet_after _ _ ha h.queue
  · rw [lateEnd_append]; exact (quiet_late _ _ _ ha).2.2 h.left
  · rw [late_quiet ha, sends_quiet ha]; exact h.past
  · rw [late_quiet ha, sends_quiet ha, cyclesOf_append]
    rcases h.over with h | h
    · exact .inl h
    · exact .inr (by omega)

theorem sends_shutdown {ev : List DevEv} {b : Bool} : sendsFrom 0 (ev ++ [.call (.shutdown b)]) = sendsFrom 0 ev := by
  rw [sendsFrom_append]; simp [sendsFrom]

theorem EvInv.shutdown {x : Bench} {ev : List DevEv} (h : EvInv x ev) (b : Bool) : EvInv x (ev ++ [.call (.shutdown b)]) := by
  refine ⟨?_, ?_, ?_, ?_, ?_⟩
  · rw [clearsLate_append]; exact ⟨h.late, trivial⟩
  · rw [sends_shutdown]; exact h.sizes
  · rw [sends_shutdown]; exact h.apart
  · rw [sends_shutdown]; exact h.gap
  · rw [sends_shutdown, lateEnd_append]; exact h.ends

theorem Settled.shutdown {x : Bench} {ev : List DevEv} (h : Settled x ev) (b : Bool) : Settled x (ev ++ [.call (.shutdown b)]) := by
  refine ⟨?_, ?_, ?_, ?_⟩
  · rw [after_append ev _ _ 1 0 0]; exact h.queue
  · rw [lateEnd_append]; exact h.left
  · rw [sends_shutdown, lateEnd_append]; exact h.past
  · rw [sends_shutdown, lateEnd_append, cyclesOf_append]; exact h.over

theorem sends_clear {ev : List DevEv} : sendsFrom 0 (ev ++ [.call .clearFifo]) = sendsFrom 0 ev := by
  rw [sendsFrom_append]; simp [sendsFrom]

theorem EvInv.clear {x : Bench} {ev : List DevEv} (h : EvInv x ev) (h1 : (lateEnd 1 0 0 ev).1 ≤ cyclesOf ev + 174) : EvInv x (ev ++ [.call .clearFifo]) := by
  refine ⟨?_, ?_, ?_, ?_, ?_⟩
  · rw [clearsLate_append]
    refine ⟨h.late, ?_, trivial⟩
    rw [Nat.zero_add]; exact h1
  · rw [sends_clear]; exact h.sizes
  · rw [sends_clear]; exact h.apart
  · rw [sends_clear]; exact h.gap
  · rw [sends_clear, lateEnd_append]; exact h.ends

theorem Settled.clear {x : Bench} {ev : List DevEv} (h1 : x.c (lateEnd 1 0 0 ev).1 ≤ callsEnd x.P x.c 0 (sendsFrom 0 ev) + 32000 * x.U)
    (h2 : sendsFrom 0 ev = [] ∨ (lateEnd 1 0 0 ev).1 ≤ cyclesOf ev) : Settled x (ev ++ [.call .clearFifo]) := by
  refine ⟨?_, ?_, ?_, ?_⟩
  · rw [after_append ev _ _ 1 0 0]; rfl
  · rw [lateEnd_append]; rfl
  · rw [sends_clear, lateEnd_append]; exact h1
  · rw [sends_clear, lateEnd_append, cyclesOf_append]; exact h2

theorem sends_send {ev : List DevEv} {m : Message} : sendsFrom 0 (ev ++ [.call (.send m)]) = sendsFrom 0 ev ++ [(cyclesOf ev, m)] := by
  rw [sendsFrom_append, Nat.zero_add]; rfl

theorem EvInv.send {x : Bench} {ev : List DevEv} (h : EvInv x ev) {m : Message} (hm : Sendable m) (hleft : (lateEnd 1 0 0 ev).2 = 0) (h0 : 1 ≤ cyclesOf ev)
    (h1 : callsEnd x.P x.c 0 (sendsFrom 0 ev) + 352 * x.P ≤ x.c (cyclesOf ev + 1)) (h2 : x.c (cyclesOf ev + 1) ≤ callsEnd x.P x.c 0 (sendsFrom 0 ev) + x.M * x.P)
    (h3 : callsEnd x.P x.c 0 (sendsFrom 0 ev) + 32000 * x.U ≤ x.c (cyclesOf ev + 1)) :
    EvInv x (ev ++ [.call (.send m)]) := by
  refine ⟨?_, ?_, ?_, ?_, ?_⟩
  · rw [clearsLate_append]
    refine ⟨h.late, ?_⟩
    rw [ClearsLate]
    split <;> trivial
  · rw [sends_send]
    intro y hy
    rcases List.mem_append.mp hy with hy | hy
    · exact h.sizes y hy
    · rw [List.mem_singleton.mp hy]; exact ⟨h0, hm.1, hm.2⟩
  · rw [sends_send]
    exact callsApart_append _ _ _ _ h.apart h1 h2
  · rw [sends_send]
    exact callsGap_append _ _ _ _ _ (Nat.le_refl _) h.gap h3
  · rw [sends_send, lateEnd_append, hleft, Nat.zero_add, lateEnd, if_pos ⟨rfl, hm.2⟩, lateEnd]
    intro y hy
    dsimp only
    rcases List.mem_append.mp hy with hy | hy
    · have := h.ends y hy
      omega
    · rw [List.mem_singleton.mp hy]
      have := hm.1
      unfold finalStart
      dsimp only
      omega

theorem late_send {x : Bench} {ev : List DevEv} (h : Settled x ev) {m : Message} (hm : Sendable m) (h0 : (lateEnd 1 0 0 ev).1 ≤ cyclesOf ev) :
    (lateEnd 1 0 0 (ev ++ [.call (.send m)])).1 = finalStart (cyclesOf ev) m + 174 := by
  rw [lateEnd_append, h.left, Nat.zero_add, lateEnd, if_pos ⟨rfl, hm.2⟩, lateEnd]
  have h1 := hm.1
  unfold finalStart
  dsimp only
  omega

/-! ## `Transmitting()` -/

theorem after_left : ∀ (es : List DevEv) (r : LineRef) (e n left : Nat), ClearsLate e n left es → (r.left = 0 ∨ n + r.left ≤ e) →
    ((r.after left es).left = 0 ∨ n + cyclesOf es + (r.after left es).left ≤ (lateEnd e n left es).1) := by
  intro es
  induction es with
  | nil => intro r e n left _ h; simpa [LineRef.after, lateEnd, cyclesOf] using h
  | cons y es ih =>
    intro r e n left hc h
    cases y with
    | call c =>
      cases c with
      | shutdown s => exact ih r e n left hc h
      | clearFifo =>
        refine ih { r with queue := [] } e n 0 hc.2 ?_
        have h' : r.left = r.rest.length + 175 * r.queue.length := rfl
        have h'' : ({ r with queue := [] } : LineRef).left = r.rest.length + 175 * 0 := rfl
        omega
      | send m =>
        rw [LineRef.after, lateEnd]
        rw [ClearsLate] at hc
        by_cases ha : left = 0 ∧ m.length ≤ 32
        · simp only [if_pos ha] at hc ⊢
          refine ih { r with queue := r.queue ++ m.bytes } _ n m.length hc ?_
          have h' : r.left = r.rest.length + 175 * r.queue.length := rfl
          have h'' : ({ r with queue := r.queue ++ m.bytes } : LineRef).left = r.rest.length + 175 * (r.queue ++ m.bytes).length := rfl
          have h3 : m.bytes.length = m.length := by simp [Message.bytes]
          rw [List.length_append] at h''
          omega
        · simp only [if_neg ha] at hc ⊢
          exact ih r e n left hc h
    | error => exact ih r e n left hc h
    | dma => exact ih r e n _ hc h
    | cycle =>
      have := ih r.cycle.2 e (n + 1) left hc (by rw [r.cycle_left]; omega)
      rw [LineRef.after, lateEnd, cyclesOf]
      omega

theorem not_transmitting {x : Bench} (hP : 0 < x.P) (hc : SenderClock x.P x.c) {ev : List DevEv} (hi : EvInv x ev) (hs : Settled x ev) {d : TxDev} {pins : List (Nat × Bool)} {rs : List Bool}
    (hr : TxDev.init.run ev = some (d, pins, rs)) : d.transmitting = false := by
  rw [Bool.eq_false_iff]
  intro ht
  rw [C117_transmitting ev d pins rs hr] at ht
  rcases ht with ht | ht
  · obtain ⟨w1, w2, w3⟩ := sender_wire hP hc ev d pins rs hr hi.late hi.sizes hi.apart
    rcases hs.over with h0 | h0
    · rw [h0] at w3
      rw [Option.map_eq_some_iff] at ht
      obtain ⟨p, hp, hf⟩ := ht
      rw [List.getLast?_eq_getElem?] at hp
      have hl : pins.length - 1 < (pins.map Pio.view).length := by
        have := List.getElem?_eq_some_iff.mp hp
        obtain ⟨this, _⟩ := this
        rw [List.length_map]; exact this
      have := w3 _ hl
      rw [List.getElem?_map, hp, Option.map_some] at this
      have hw : wireAt (startsFrom 2 (([] : List (Nat × Message)).map handOf |>.flatMap Handed.writes)) (pins.length - 1) = (.mid, false) := rfl
      rw [hw, Option.some.injEq] at this
      have h2 : (Pio.view p).2 = false := by rw [this]
      have h3 : (Pio.view p).2 = p.2 := rfl
      rw [h3, hf] at h2
      cases h2
    · obtain ⟨⟨f, h⟩, h2⟩ := dev_after ev DevSim.init hr
      have h : DevSim d (LineRef.init.after 0 ev) f := h
      have hl := after_left ev LineRef.init 1 0 0 hi.late (.inr (Nat.le_refl _))
      have hl0 : (LineRef.init.after 0 ev).left = 0 := by omega
      have hrest : (LineRef.init.after 0 ev).rest = [] := by
        have : (LineRef.init.after 0 ev).left = (LineRef.init.after 0 ev).rest.length + 175 * (LineRef.init.after 0 ev).queue.length := rfl
        rw [← List.length_eq_zero_iff]; omega
      obtain ⟨y, o, k, l, hcore, -⟩ := h.sim.core
      rw [show (TxRef.mk (LineRef.init.after 0 ev).rest f).rest = (LineRef.init.after 0 ev).rest from rfl, hrest] at hcore
      simp only [List.length_nil, Pio.Core.steps, Option.some.injEq, Prod.mk.injEq] at hcore
      have hirq : d.pio.core.irq = false := by rw [hcore.1]; rfl
      rw [hirq] at h2
      rw [Option.map_eq_some_iff] at ht
      obtain ⟨p, hp, hf⟩ := ht
      rw [hp, Option.map_some, Option.getD_some, hf] at h2
      cases h2
  · exact ht hs.queue

/-! ## What is heard -/

theorem heard_now {x : Bench} {ev0 : List DevEv} {rs : List Round} (ha : AloneOnBus x ev0 rs) {ev rest : List DevEv} (he : devEvents ev0 rs = ev ++ rest) (hi : EvInv x ev) :
    (∀ d pins errs, TxDev.init.run ev = some (d, pins, errs) → ∀ e ∈ errs, e = false) ∧
    ∃ ts, MessagesHeard x.P x.c 0 (sendsFrom 0 ev) ts ∧ (ts.Pairwise fun a b => a.1 < b.1) ∧
      ∀ N w, x.Receives N w → N * x.P ≤ x.c (cyclesOf ev) → N * x.P + 2 * x.P ≤ callsEnd x.P x.c 0 (sendsFrom 0 ev) + x.M * x.P → w = comeBy ts N := by
  obtain ⟨d, pins, errs, hrun, L, hL, a, v, a1, a2, a3, a4, hq⟩ := ha.hears
  rw [he] at hrun
  obtain ⟨d1, o1, r1, o2, r2, hr1, hr2, rfl, rfl⟩ := TxDev.run_append hrun
  obtain ⟨hP, -, -⟩ := ha.units
  have hc := ha.clock.1
  have hcyc : cyclesOf (devEvents ev0 rs) = cyclesOf ev + cyclesOf rest := by rw [he, cyclesOf_append]
  have hK : x.c (cyclesOf ev) / x.P * x.P < x.c (cyclesOf ev) + x.P := by
    have := Nat.div_mul_le_self (x.c (cyclesOf ev)) x.P
    omega
  have hL' : PlaysDuring x.c (o1.map Pio.view) L := by
    refine ⟨hL.1, fun k u hu => hL.2 k u ?_⟩
    rw [List.map_append, List.getElem?_append_left (List.getElem?_eq_some_iff.mp hu).1]
    exact hu
  have hq' := hq (x.c (cyclesOf ev) / x.P) (by
    have := hc.le (show cyclesOf ev ≤ cyclesOf (devEvents ev0 rs) by omega)
    omega)
  obtain ⟨b1, ts, b2, b3, b4⟩ := C120_device ha.limits.1 x.rxErr a1 a2 a3 a4 hP ha.limits.2.1 ha.limits.2.2 hc ev d1 o1 r1 hr1 hi.late hi.sizes hi.apart hL' hq' hK
  refine ⟨fun d' p' e' hr' => ?_, ts, b2, b3, ?_⟩
  · rw [hr1] at hr'
    simp only [Option.some.injEq, Prod.mk.injEq] at hr'
    rw [← hr'.2.2]
    exact b1
  · intro N w ⟨es, s, outs, k1, k2, k3, k4⟩ hN hM
    subst k2
    obtain ⟨s', outs', c1, c2⟩ := b4 es k1 ((Nat.le_div_iff_mul_le hP).mpr hN) hM
    rw [k3] at c1
    simp only [Res.ok.injEq, Prod.mk.injEq] at c1
    obtain ⟨rfl, rfl⟩ := c1
    rw [k4, c2]

end P1P2
