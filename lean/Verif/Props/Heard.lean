import Verif.Props.Times
import Verif.Props.Sender
import Verif.Spec.Heard
/-!
# C120 for messages handed to the driver
-/
namespace P1P2

section
variable {P : Nat} {c : Nat → Nat}

theorem frames_heard (hc : SenderClock P c) : ∀ (ws : List (Nat × UInt8)) (s : Nat) (ts : List (Nat × Word)),
    BytesTimed P (c s + 348 * P) (eyeGaps P c (c s + 348 * P) (follow s ws)) ts → FramesHeard P c (s + 175) (ws.map Prod.snd) ts := by
  intro ws
  induction ws with
  | nil => intro s ts h; exact h
  | cons a ws ih =>
    intro s ts h
    obtain ⟨w, b⟩ := a
    obtain ⟨k, ts', rfl, h1, h2, h3⟩ := h
    have lo := hc.low s 175 (by omega)
    have e : c s + 348 * P + (c (s + 175) - (c s + 348 * P)) = c (s + 175) := by omega
    rw [e] at h1 h2 h3
    exact ⟨k, ts', rfl, h1, h2, ih _ _ h3⟩

theorem eyeEnd_packet (hc : SenderClock P c) (t : Nat) (p : Handed) (h : t ≤ c (p.at_ + 1)) :
    eyeEnd P t (BusPacket.frames { gap := c (p.at_ + 1) - t, pol := true, first := p.first, rest := eyeGaps P c (c (p.at_ + 1) + 348 * P) (follow (p.at_ + 1) p.rest) }) = c p.last + 348 * P := by
  show eyeEnd P (t + (c (p.at_ + 1) - t) + 348 * P) (eyeGaps P c (c (p.at_ + 1) + 348 * P) (follow (p.at_ + 1) p.rest)) = _
  rw [show t + (c (p.at_ + 1) - t) = c (p.at_ + 1) by omega]
  exact (eyeGaps_follow hc p.rest (p.at_ + 1) []).2.2.2

theorem messages_heard (hc : SenderClock P c) {M : Nat} : ∀ (ms : List (Nat × Message)) (t : Nat) (ts : List (Nat × Word)), (∀ x ∈ ms, 1 ≤ x.2.length) → CallsApart P M c t ms →
    PacketsTimed P t (busPackets P c t (ms.map handOf)) ts → MessagesHeard P c t ms ts := by
  intro ms
  induction ms with
  | nil => intro t ts _ _ h; exact h
  | cons x ms ih =>
    intro t ts hm ha h
    obtain ⟨n, m⟩ := x
    obtain ⟨a1, a2, a3⟩ := ha
    obtain ⟨f, b, ts1, ts2, rfl, h1, h2, h3, h4, h5, h6⟩ := h
    have e : t + (c (n + 1) - t) = c (n + 1) := by omega
    have h3 : t + (c (n + 1) - t) + 25 * P ≤ b * P := h3
    have h4 : b * P ≤ t + (c (n + 1) - t) + 33 * P := h4
    rw [e] at h3 h4
    obtain ⟨k, ts', rfl, k1, k2, k3⟩ := h5
    have k1 : t + (c (n + 1) - t) + 359 * P ≤ k * P := k1
    have k2 : k * P ≤ t + (c (n + 1) - t) + 367 * P := k2
    have k3 : BytesTimed P (t + (c (n + 1) - t) + 348 * P) (eyeGaps P c (c (n + 1) + 348 * P) (follow (n + 1) (handOf (n, m)).rest)) ts' := k3
    rw [e] at k1 k2 k3
    have k3 := frames_heard hc _ _ _ k3
    have hb : m.bytes = m.data 0 :: (handOf (n, m)).rest.map Prod.snd := (handOf_bytes (x := (n, m)) (hm _ (List.mem_cons_self ..))).symm
    have h6 : PacketsTimed P (eyeEnd P t (BusPacket.frames _)) (busPackets P c (c (handOf (n, m)).last + 348 * P) (ms.map handOf)) ts2 := h6
    rw [eyeEnd_packet hc t (handOf (n, m)) (by show t ≤ c (n + 1); omega), handOf_last] at h6
    refine ⟨f, b, (k, wByte (m.data 0)) :: ts', ts2, rfl, h1, h2, h3, h4, ?_, ih _ _ (fun x hx => hm x (List.mem_cons_of_mem _ hx)) a3 h6⟩
    rw [hb]
    exact ⟨k, ts', rfl, k1, k2, k3⟩

open Classical in
/-- The line that shows `w` for ever. -/
noncomputable def idealLine (c : Nat → Nat) (w : Nat → Level) (τ : Nat) : Level :=
  if h : ∃ k, c k ≤ τ ∧ τ < c (k + 1) then w h.choose else .mid

theorem idealLine_at (hc : SenderClock P c) (w : Nat → Level) {k τ : Nat} (h1 : c k ≤ τ) (h2 : τ < c (k + 1)) : idealLine c w τ = w k := by
  have h : ∃ k, c k ≤ τ ∧ τ < c (k + 1) := ⟨k, h1, h2⟩
  unfold idealLine
  rw [dif_pos h]
  obtain ⟨g1, g2⟩ := h.choose_spec
  have : h.choose < k + 1 := hc.lt_iff.mpr (by omega)
  have : k < h.choose + 1 := hc.lt_iff.mpr (by omega)
  rw [show h.choose = k by omega]

theorem idealLine_before (hc : SenderClock P c) (w : Nat → Level) {τ : Nat} (h : τ < c 0) : idealLine c w τ = .mid := by
  unfold idealLine
  rw [dif_neg]
  rintro ⟨k, h1, h2⟩
  have := hc.le (Nat.zero_le k)
  omega

end

/-- **C120, for the driver.** The main loop hands messages to the driver (each when the bus has been silent for the time of 352 codes after the one before); DMA transfers and cycles of the transmit
program are interleaved in any way such that the DMA keeps up; so far `ClearFifo` was called only after the last frame had begun.  The bus so far carries what the pins show, the codes so far (`K` of them) are those of the bus up to
an error of one.  Then no message was refused, and there is one sequence of words with the codes they come with, in the order and within the times `MessagesHeard` says, such that for
every schedule of the receiver that keeps up and at any point of it the words for the other core are exactly those that come with the codes processed so far.  (This includes messages that are not yet completely sent.) -/
theorem C120_device {S : Nat} (hS : 8 ≤ S) (rxErr : Bool) {a v : Int} (h1 : 49 ≤ a) (h2 : a ≤ 88) (h3 : a ≤ v) (h4 : v + a ≤ 255) {P : Nat} (hP : 0 < P) {M : Nat} (hM : M + 70 ≤ 2 * 2 ^ S)
    (hM' : 378 ≤ M) {c : Nat → Nat} (hc : SenderClock P c) (ev : List DevEv) (d : TxDev) (pins : List (Nat × Bool)) (rs : List Bool)
    (hrun : TxDev.init.run ev = some (d, pins, rs)) (hcl : ClearsLate 1 0 0 ev)
    (hm : ∀ x ∈ sendsFrom 0 ev, 1 ≤ x.1 ∧ 1 ≤ x.2.length ∧ x.2.length ≤ 32) (ha : CallsApart P M c 0 (sendsFrom 0 ev))
    {L : Nat → Level} (hL : PlaysDuring c (pins.map Pio.view) L) {q : Nat → UInt8} {K : Nat} (hq : CodesUntil K a v (fun k => L (k * P)) q) (hK : K * P < c (cyclesOf ev) + P) :
    (∀ x ∈ rs, x = false) ∧
    ∃ ts, MessagesHeard P c 0 (sendsFrom 0 ev) ts ∧ (ts.Pairwise fun x y => x.1 < y.1) ∧
      ∀ (es : List (AdcEv × Bool)), keepsUp 254 0 0 (es.map Prod.fst) → deliveries 0 0 (es.map Prod.fst) ≤ K →
        deliveries 0 0 (es.map Prod.fst) * P + 2 * P ≤ callsEnd P c 0 (sendsFrom 0 ev) + M * P →
        ∃ s outs, RxSystem.run S (RxSystem.init (fun _ => 0) rxErr) (scheduleEvents (fun k => Pio.sampleValue k (q k)) 0 0 es) = .ok (s, outs) ∧
          sent outs ++ (if s.core.word = .zero then [] else [s.core.word]) = comeBy ts (deliveries 0 0 (es.map Prod.fst)) := by
  obtain ⟨w1, w2, w3⟩ := sender_wire hP hc (M := M) ev d pins rs hrun hcl hm ha
  refine ⟨w1, ?_⟩
  have hap := callsApart_hand _ _ ha
  have ht : ∀ p ∈ (sendsFrom 0 ev).map handOf, 1 ≤ p.at_ ∧ InTime (p.at_ + 1) p.rest ∧ p.rest.length ≤ 32 := by
    intro p hp
    obtain ⟨x, hx, rfl⟩ := List.mem_map.mp hp
    obtain ⟨m1, m2, m3⟩ := hm x hx
    refine ⟨m1, inTime_at _ _ _ (by show x.1 < x.1 + 1 + 175; omega), ?_⟩
    rw [handOf_rest]; omega
  obtain ⟨b1, b2, b3, b4, b5, b6⟩ := busPackets_ok hP hc (M := M) ((sendsFrom 0 ev).map handOf) 2 0 (fun p hp => ⟨(ht p hp).2.1, (ht p hp).2.2⟩) (fun p hp => by
    have := (ht p (List.mem_of_mem_head? hp)).1; omega) hap
  have heye : EyeCarries P (idealLine c fun k => (wireAt (startsFrom 2 (((sendsFrom 0 ev).map handOf).flatMap Handed.writes)) k).1) 0
      (byteFrames ((busPackets P c 0 ((sendsFrom 0 ev).map handOf)).flatMap BusPacket.frames)) := by
    rw [b2, ← b1]
    exact eye_starts hc _ 2 0 (fun x _ => Nat.zero_le _) (fun τ _ h => idealLine_before hc _ h) fun k τ _ h1 h2 => idealLine_at hc _ h1 h2
  have hq' : CodesUntil K a v (fun k => idealLine c (fun k => (wireAt (startsFrom 2 (((sendsFrom 0 ev).map handOf).flatMap Handed.writes)) k).1) (k * P)) q := by
    intro k hk
    have hkP : k * P < c (cyclesOf ev) := by
      have := Nat.mul_le_mul_right P (show k + 1 ≤ K by omega)
      rw [Nat.add_mul] at this
      omega
    have e : idealLine c (fun k => (wireAt (startsFrom 2 (((sendsFrom 0 ev).map handOf).flatMap Handed.writes)) k).1) (k * P) = L (k * P) := by
      by_cases h : k * P < c 0
      · rw [idealLine_before hc _ h, hL.1 _ h]
      · obtain ⟨i, i1, i2⟩ := hc.cycle (Nat.not_lt.mp h)
        have hi : i < cyclesOf ev := hc.lt_iff.mpr (by omega)
        rw [idealLine_at hc _ i1 i2, hL.2 i _ (w3 i (by omega)) _ i1 i2]
    have := hq k hk
    dsimp only at this ⊢
    rw [e]
    exact this
  obtain ⟨ts, t1, t2, t3⟩ := C120_times hS rxErr h1 h2 h3 h4 hP hM hM' _ b3 b4 heye hq'
  refine ⟨ts, messages_heard hc _ _ _ (fun x hx => (hm x hx).2.1) ha t1, t2, fun es k1 k2 k3 => t3 es k1 k2 ?_⟩
  rw [b6, callsEnd_hand]
  exact k3

/-! ## A case that meets the hypotheses: the modem hears its own packet 40 F0 while it is sent -/

theorem codes_until {a c : Int} {L : Nat → Level} {q : Nat → UInt8} (h : Codes a c L q) (K : Nat) : CodesUntil K a c L q := fun k _ => h k

/-- After 1200 codes the line was free, is busy, and the first byte is complete, but not the second one. -/
example : ∃ d pins rs s outs, TxDev.init.run senderRun = some (d, pins, rs) ∧ PlaysDuring (dividerClock 48 0 0) (pins.map Pio.view) modemLine ∧
    RxSystem.run 32 (RxSystem.init (fun _ => 0) false) (scheduleEvents (fun k => Pio.sampleValue k (modemCodes k)) 0 0 (atOnce 1200)) = .ok (s, outs) ∧
    sent outs ++ (if s.core.word = .zero then [] else [s.core.word]) = [wFree, wBusy, wByte 0x40] := by
  have hp := senderRun_pins
  rw [Option.map_eq_some_iff] at hp
  obtain ⟨⟨d, pins, rs⟩, e0, hp⟩ := hp
  simp only [Prod.mk.injEq] at hp
  obtain ⟨hp, -⟩ := hp
  obtain ⟨k1, k2⟩ := atOnce_ok 1200 0 (by decide)
  have hL : PlaysDuring (dividerClock 48 0 0) (pins.map Pio.view) modemLine := by
    rw [hp]
    refine ⟨modemLine_plays.1, fun k v hv τ h1 h2 => ?_⟩
    rw [modemLine_plays.2 k τ h1 h2]
    unfold lineOf
    rw [List.getD_eq_getElem?_getD, hv]
    rfl
  obtain ⟨-, ts, t1, -, t3⟩ := C120_device (S := 32) (by decide) false (a := 60) (v := 127) (by decide) (by decide) (by decide) (by decide) (P := 19625) (by decide) (M := 1000) (by decide) (by decide) modemClock
    senderRun d pins rs e0 (by decide +kernel)
    (by rw [senderRun_sends]; intro x hx; rw [List.mem_singleton] at hx; subst hx; exact ⟨by decide, by decide, by decide⟩)
    (by rw [senderRun_sends]; exact ⟨by decide, by decide, trivial⟩)
    hL (codes_until (codesOf_ok _) 1300) (by rw [show cyclesOf senderRun = 702 by decide +kernel]; decide)
  obtain ⟨s, outs, e1, e2⟩ := t3 (atOnce 1200) k1 (by rw [k2]; decide) (by rw [k2, senderRun_sends]; decide)
  refine ⟨d, pins, rs, s, outs, e0, hL, e1, e2.trans ?_⟩
  rw [k2]
  rw [senderRun_sends] at t1
  obtain ⟨f, b, ts1, ts2, rfl, f1, f2, f3, f4, ⟨k, ts', rfl, g1, g2, k', ts'', rfl, g3, g4, rfl⟩, f', rfl, f5, f6⟩ := t1
  have c1 : dividerClock 48 0 0 (300 + 1) = 11757792 := by decide
  have c2 : dividerClock 48 0 0 (300 + 1 + 175) = 18593712 := by decide
  have c3 : dividerClock 48 0 0 (finalStart 300 demoMsg) = 18593712 := by decide
  rw [c1] at f3 f4 g1 g2
  rw [c2] at g3 g4
  rw [c3] at f5 f6
  unfold comeBy
  rw [List.filter_cons_of_pos (by simp; omega), List.filter_cons_of_pos (by simp; omega), List.cons_append, List.filter_cons_of_pos (by simp; omega), List.cons_append,
    List.filter_cons_of_neg (by simp; omega), List.nil_append, List.filter_cons_of_neg (by simp; omega)]
  rfl

end P1P2
