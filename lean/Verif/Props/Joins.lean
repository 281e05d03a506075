import Verif.Props.Sender
import Verif.Props.HealHost
import Verif.Props.Heard
import Verif.Props.Standalone
/-!
# C134: a modem that joins late, or was disturbed, hears everything after the next pause
-/
namespace P1P2
open Spec Pio

/-- A line that carries frames carries the later ones after the earlier ones. -/
theorem eye_later {P : Nat} {L : Nat → Level} : ∀ (as bs : List (Nat × Bool × UInt8)) (t : Nat), EyeCarries P L t (byteFrames (as ++ bs)) →
    EyeCarries P L (eyeEnd P t as) (byteFrames bs) := by
  intro as
  induction as with
  | nil => intro bs t h; exact h
  | cons a as ih =>
    intro bs t h
    obtain ⟨g, b⟩ := a
    exact ih bs _ h.2.2

/-- Counting the time from `τ0` on. -/
theorem eye_shift {P : Nat} {L : Nat → Level} (τ0 : Nat) : ∀ (fs : List (Nat × (Nat → Level))) (t : Nat), (∀ f ∈ fs.head?, 2 * P ≤ t + f.1) →
    EyeCarries P L (t + τ0) fs → EyeCarries P (fun τ => L (τ0 + τ)) t fs := by
  intro fs
  induction fs with
  | nil => intro t _ h τ hτ; exact h (τ0 + τ) (by omega)
  | cons f fs ih =>
    intro t ht h
    obtain ⟨g, σ⟩ := f
    obtain ⟨h1, ⟨h2, h3⟩, h4⟩ := h
    have ht : 2 * P ≤ t + g := ht (g, σ) rfl
    refine ⟨fun τ k1 k2 => h1 (τ0 + τ) (by omega) (by omega), ⟨fun i hi => ?_, fun τ k1 k2 => h3 (τ0 + τ) (by omega) (by omega)⟩, ih _ (fun f _ => by omega) ?_⟩
    · have hi' : 32 * i * P = 32 * (i * P) := by rw [Nat.mul_assoc]
      have e14 : (32 * i + 14) * P = 32 * (i * P) + 14 * P := by rw [Nat.add_mul, hi']
      have e32 : (32 * i + 32) * P = 32 * (i * P) + 32 * P := by rw [Nat.add_mul, hi']
      rcases h2 i hi with ⟨e1, e2⟩ | ⟨u, v, e1, e2, e3, e4⟩
      · exact Or.inl ⟨e1, fun τ k1 k2 => e2 (τ0 + τ) (by omega) (by omega)⟩
      · rw [e14] at e2
        rw [hi'] at e1
        have hu : τ0 ≤ u := by omega
        refine Or.inr ⟨u - τ0, v - τ0, by omega, by omega, by omega, fun τ k1 k2 => ?_⟩
        show L (τ0 + τ) = _
        rw [e4 (τ0 + τ) (by omega) (by omega)]
        have : (u ≤ τ0 + τ ∧ τ0 + τ < v) ↔ (u - τ0 ≤ τ ∧ τ < v - τ0) := by omega
        simp only [this]
    · rw [show t + g + 348 * P + τ0 = t + τ0 + g + 348 * P by omega]
      exact h4

/-- The packets as heard from a time on that is `d` after the end of the one before. -/
def joinAt (d : Nat) : List BusPacket → List BusPacket
  | [] => []
  | p :: ps => { gap := p.gap - d, pol := p.pol, first := p.first, rest := p.rest } :: ps

theorem joinAt_bytes (d : Nat) (ps : List BusPacket) : (joinAt d ps).map BusPacket.bytes = ps.map BusPacket.bytes := by
  cases ps <;> rfl

theorem joinAt_le {d B : Nat} {ps : List BusPacket} (h : ∀ b ∈ ps.flatMap BusPacket.frames, b.1 ≤ B) : ∀ b ∈ (joinAt d ps).flatMap BusPacket.frames, b.1 ≤ B := by
  cases ps with
  | nil => intro b hb; cases hb
  | cons p ps =>
    intro b hb
    have hb : b ∈ (p.gap - d, p.pol, p.first) :: (p.rest ++ ps.flatMap BusPacket.frames) := hb
    have h : ∀ b ∈ (p.gap, p.pol, p.first) :: (p.rest ++ ps.flatMap BusPacket.frames), b.1 ≤ B := h
    rcases List.mem_cons.mp hb with rfl | hb
    · have := h _ (List.mem_cons_self ..)
      show p.gap - d ≤ B
      have : p.gap ≤ B := this
      omega
    · exact h b (List.mem_cons_of_mem _ hb)

/-- What is heard from time `τ0` on, in the pause before the packets `ps`. -/
theorem joinAt_carries {P : Nat} {L : Nat → Level} {t τ0 : Nat} (ht : t ≤ τ0) : ∀ {ps : List BusPacket}, (∀ p ∈ ps.head?, τ0 + 2 * P ≤ t + p.gap) →
    EyeCarries P L t (byteFrames (ps.flatMap BusPacket.frames)) →
    EyeCarries P (fun τ => L (τ0 + τ)) 0 (byteFrames ((joinAt (τ0 - t) ps).flatMap BusPacket.frames)) := by
  intro ps hp h
  cases ps with
  | nil => intro τ _; exact h (τ0 + τ) (by omega)
  | cons p ps =>
    have hp : τ0 + 2 * P ≤ t + p.gap := hp p rfl
    obtain ⟨h1, h2, h3⟩ := h
    refine eye_shift τ0 (byteFrames ((p.gap - (τ0 - t), p.pol, p.first) :: (p.rest ++ ps.flatMap BusPacket.frames))) 0 ?_ ?_
    · intro f hf
      have hf : some (p.gap - (τ0 - t), _) = some f := hf
      cases hf
      show 2 * P ≤ 0 + (p.gap - (τ0 - t))
      omega
    · have e : 0 + τ0 + (p.gap - (τ0 - t)) = t + p.gap := by omega
      refine ⟨fun τ k1 k2 => h1 τ (by omega) (by omega), ?_, ?_⟩
      · show EyeFrame P (0 + τ0 + (p.gap - (τ0 - t))) _ L
        rw [e]; exact h2
      · show EyeCarries P L (0 + τ0 + (p.gap - (τ0 - t)) + 348 * P) (byteFrames (p.rest ++ ps.flatMap BusPacket.frames))
        rw [e]; exact h3

theorem eyeEnd_shift {P : Nat} (d : Nat) : ∀ (bs : List (Nat × Bool × UInt8)) (t : Nat), eyeEnd P (t + d) bs = eyeEnd P t bs + d := by
  intro bs
  induction bs with
  | nil => intro t; rfl
  | cons b bs ih =>
    intro t
    obtain ⟨g, b⟩ := b
    show eyeEnd P (t + d + g + 348 * P) bs = eyeEnd P (t + g + 348 * P) bs + d
    rw [← ih, show t + d + g + 348 * P = t + g + 348 * P + d by omega]

theorem joinAt_end {P t τ0 : Nat} (ht : t ≤ τ0) {ps : List BusPacket} (h0 : ps ≠ []) (hp : ∀ p ∈ ps.head?, τ0 ≤ t + p.gap) :
    eyeEnd P 0 ((joinAt (τ0 - t) ps).flatMap BusPacket.frames) + τ0 = eyeEnd P t (ps.flatMap BusPacket.frames) := by
  cases ps with
  | nil => exact absurd rfl h0
  | cons p ps =>
    have hp : τ0 ≤ t + p.gap := hp p rfl
    show eyeEnd P (0 + (p.gap - (τ0 - t)) + 348 * P) (p.rest ++ ps.flatMap BusPacket.frames) + τ0 = eyeEnd P (t + p.gap + 348 * P) (p.rest ++ ps.flatMap BusPacket.frames)
    rw [← eyeEnd_shift, show 0 + (p.gap - (τ0 - t)) + 348 * P + τ0 = t + p.gap + 348 * P by omega]

/-- Pulses within the mask, after any history of the receiver. -/
theorem eye_heals {S : Nat} (hS : 8 ≤ S) {ring : Nat → Int} (hr : SampleRange ring) {rxErr : Bool} {e1 e2 es : List PathEv}
    (hp1 : (DevSystem.init ring rxErr).Prompt S e1) {s1 s s' : DevSystem} {o1 o2 outs : List C1Out}
    (r1 : (DevSystem.init ring rxErr).run S e1 = .ok (s1, o1)) (hres : e1 = [] ∨ s1.core.word.result ≠ [])
    (hp2 : s1.Prompt S e2) (r2 : s1.run S e2 = .ok (s, o2))
    (hk : s.KeepsUp S es) (hl : s.Lossless S es) (r3 : s.run S es = .ok (s', outs))
    {a v : Int} (h1 : 49 ≤ a) (h2 : a ≤ 88) {P : Nat} (hP : 0 < P) {L : Nat → Level} {q : Nat → UInt8} (hq : Codes a v (fun k => L (k * P)) q)
    {n : Nat} (hcv : s.converted S es = (List.range n).map q)
    {M : Nat} (hM : (s1.stores S e2).length + M + 2213 ≤ 2 * 2 ^ S) {ps : List BusPacket} (hp : ∀ p ∈ ps, p.EyeOk P)
    (hg : ∀ b ∈ ps.flatMap BusPacket.frames, b.1 ≤ M * P) (hL : EyeCarries P L 0 (byteFrames (ps.flatMap BusPacket.frames)))
    (hgap : ∀ p, ps.head? = some p → 1922 * P ≤ p.gap)
    (hN0 : 1920 + 13 + s'.dev.adc.lag ≤ n) (hN : eyeEnd P 0 (ps.flatMap BusPacket.frames) + (391 + s'.dev.adc.lag) * P ≤ n * P)
    (hN' : n * P + 2 * P ≤ eyeEnd P 0 (ps.flatMap BusPacket.frames) + M * P) :
    ∃ Y, sent outs ++ (if s'.core.word = .zero then [] else [s'.core.word]) =
        (if s.core.word = .zero then [] else [s.core.word]) ++ Y ++ (ps.flatMap fun p => wBusy :: (p.bytes.map wByte ++ [wFree])) ∧
      ((Y = [] ∧ s.core.busy = false) ∨ ∃ Y', Y = Y' ++ [wFree]) := by
  have hhead : ∀ b ∈ (ps.flatMap BusPacket.frames).head?, 2 * P ≤ 0 + b.1 := by
    intro b hb
    cases ps with
    | nil => cases hb
    | cons p ps =>
      have := (hp p (List.mem_cons_self ..)).gap
      have hb : (p.gap, p.pol, p.first) = b := Option.some.inj hb
      rw [← hb]
      dsimp only
      omega
  have h0 : eyeBase P 0 = 0 := by
    have : ceilDiv 0 P ≤ 0 := (ceilDiv_le hP 0).mpr (by omega)
    unfold eyeBase; omega
  have hc := eye_carries hP _ 0 hhead hL
  have he := eye_rawEnd hP _ 0 hhead
  rw [h0, ← eyePackets_frames] at hc
  rw [h0, ← eyePackets_frames] at he
  generalize eyeEnd P 0 (ps.flatMap BusPacket.frames) = T at *
  obtain ⟨Y, y1, y2⟩ := C126_words hS hr hp1 r1 hres hp2 r2 hk hl r3 h1 h2 hq hcv hM (ps := eyePackets P 0 ps) (eyePackets_ok hP ps 0 (.inl rfl) hp)
    (by rw [eyePackets_frames]; exact eyeCodes_le hP _ 0 hg) hc
    (by
      intro p hpp
      cases ps with
      | nil => cases hpp
      | cons k ps =>
        cases hpp
        show 1920 ≤ eyeBase P (0 + k.gap) - eyeBase P 0
        have hk := hgap k rfl
        have := ceilDiv_mono hP (show 0 + 1922 * P ≤ 0 + k.gap by omega)
        rw [ceilDiv_add hP] at this
        rw [h0]
        unfold eyeBase
        omega)
    hN0
    (by
      rw [he]
      have : 391 + s'.dev.adc.lag ≤ n := Nat.le_of_mul_le_mul_right (c := P) (by omega) hP
      have : eyeBase P T ≤ n - (391 + s'.dev.adc.lag) := by
        rw [eyeBase_le hP, Nat.sub_mul]; omega
      omega)
    (by
      rw [he]
      have := ceilDiv_mul (x := T) hP
      refine Nat.le_of_mul_le_mul_right (c := P) ?_ hP
      unfold eyeBase
      rw [Nat.add_mul, Nat.sub_mul]
      omega)
  refine ⟨Y, y1.trans ?_, y2⟩
  congr 1
  have e : ∀ l : List BusPacket, l.flatMap (fun p => wBusy :: (p.bytes.map wByte ++ [wFree])) =
      (l.map BusPacket.bytes).flatMap fun b => wBusy :: (b.map wByte ++ [wFree]) := by
    intro l; rw [List.flatMap_map]
  rw [e, e, eyePackets_bytes]

theorem busPackets_append {P : Nat} {c : Nat → Nat} : ∀ (as bs : List Handed) (t : Nat), busPackets P c t (as ++ bs) = busPackets P c t as ++ busPackets P c (sendEnd P c t as) bs := by
  intro as
  induction as with
  | nil => intro bs t; rfl
  | cons p as ih =>
    intro bs t
    rw [List.cons_append, busPackets, busPackets, ih, sendEnd, List.cons_append]

theorem sendEnd_append {P : Nat} {c : Nat → Nat} : ∀ (as bs : List Handed) (t : Nat), sendEnd P c t (as ++ bs) = sendEnd P c (sendEnd P c t as) bs := by
  intro as
  induction as with
  | nil => intro bs t; rfl
  | cons p as ih => intro bs t; rw [List.cons_append, sendEnd, ih, sendEnd]

theorem apart_append {P M : Nat} {c : Nat → Nat} : ∀ (as bs : List Handed) (t : Nat), Apart P M c t (as ++ bs) → Apart P M c t as ∧ Apart P M c (sendEnd P c t as) bs := by
  intro as
  induction as with
  | nil => intro bs t h; exact ⟨trivial, h⟩
  | cons p as ih =>
    intro bs t h
    obtain ⟨h1, h2, h3⟩ := h
    obtain ⟨h4, h5⟩ := ih bs _ h3
    exact ⟨⟨h1, h2, h4⟩, h5⟩

theorem sendEnd_ge {P M : Nat} {c : Nat → Nat} (hc : SenderClock P c) : ∀ (as : List Handed) (t : Nat), Apart P M c t as → t ≤ sendEnd P c t as := by
  intro as
  induction as with
  | nil => intro t _; exact Nat.le_refl _
  | cons p as ih =>
    intro t h
    have h1 := ih _ h.2.2
    have h2 := hc.le (show p.at_ + 1 ≤ p.last by unfold Handed.last; omega)
    have h3 := h.1
    rw [sendEnd]
    omega

/-- What a receiver that starts to listen at `τ0` finds on the bus: the packets for the messages after the pause. -/
theorem joined {P : Nat} (hP : 0 < P) {M : Nat} {c : Nat → Nat} (hc : SenderClock P c) (ev : List DevEv) (d : TxDev) (pins : List (Nat × Bool)) (rs : List Bool)
    (hrun : TxDev.init.run ev = some (d, pins, rs)) (hcl : ClearsLate 1 0 0 ev)
    (hm : ∀ x ∈ sendsFrom 0 ev, 1 ≤ x.1 ∧ 1 ≤ x.2.length ∧ x.2.length ≤ 32 ∧ finalStart x.1 x.2 + 173 ≤ cyclesOf ev) (ha : CallsApart P M c 0 (sendsFrom 0 ev))
    {L : Nat → Level} (hL : Plays c (lineOf (pins.map Pio.view)) L)
    {l1 l2 : List (Nat × Message)} {j : Nat} {m : Message} (hsplit : sendsFrom 0 ev = l1 ++ (j, m) :: l2)
    {τ0 : Nat} (hτ : callsEnd P c 0 l1 ≤ τ0) (hpause : τ0 + 1922 * P ≤ c (j + 1)) :
    ∃ ps : List BusPacket, (∀ p ∈ ps, p.EyeOk P) ∧ (∀ b ∈ ps.flatMap BusPacket.frames, b.1 ≤ M * P) ∧
      EyeCarries P (fun τ => L (τ0 + τ)) 0 (byteFrames (ps.flatMap BusPacket.frames)) ∧ (∀ p, ps.head? = some p → c (j + 1) ≤ τ0 + p.gap) ∧
      ps.map BusPacket.bytes = (((j, m) :: l2).map fun x => x.2.bytes) ∧ eyeEnd P 0 (ps.flatMap BusPacket.frames) + τ0 = callsEnd P c 0 (sendsFrom 0 ev) ∧
      c (j + 1) ≤ callsEnd P c 0 (sendsFrom 0 ev) := by
  obtain ⟨w1, w2, w3⟩ := sender_wire hP hc (M := M) ev d pins rs hrun hcl (fun x hx => ⟨(hm x hx).1, (hm x hx).2.1, (hm x hx).2.2.1⟩) ha
  rw [← callsEnd_hand] at hτ ⊢
  have ht : ∀ p ∈ (sendsFrom 0 ev).map handOf, 1 ≤ p.at_ ∧ InTime (p.at_ + 1) p.rest ∧ p.rest.length ≤ 32 ∧ p.last + 173 ≤ (pins.map Pio.view).length := by
    intro p hp
    obtain ⟨x, hx, rfl⟩ := List.mem_map.mp hp
    obtain ⟨m1, m2, m3, m4⟩ := hm x hx
    refine ⟨m1, inTime_at _ _ _ (by show x.1 < x.1 + 1 + 175; omega), ?_, ?_⟩
    · rw [handOf_rest]; omega
    · rw [handOf_last, w2]; exact m4
  have ha' := callsApart_hand _ _ ha
  have heye := wire_eye hP hc _ _ w3 ht ha' hL
  rw [hsplit, List.map_append] at ha' heye ht ⊢
  rw [busPackets_append, List.flatMap_append] at heye
  obtain ⟨a1, a2⟩ := apart_append _ _ _ ha'
  have hin : ∀ p ∈ l1.map handOf ++ ((j, m) :: l2).map handOf, InTime (p.at_ + 1) p.rest ∧ p.rest.length ≤ 32 := fun p hp => ⟨(ht p hp).2.1, (ht p hp).2.2.1⟩
  obtain ⟨-, -, -, -, -, b6⟩ := busPackets_ok hP hc (M := M) (l1.map handOf) 0 0 (fun p hp => hin p (List.mem_append_left _ hp)) (fun p _ => Nat.zero_le _) a1
  have heye := eye_later _ _ _ heye
  rw [b6] at heye
  rw [sendEnd_append]
  generalize htt : sendEnd P c 0 (l1.map handOf) = t at *
  obtain ⟨-, -, c3, c4, c5, c6⟩ := busPackets_ok hP hc (M := M) (((j, m) :: l2).map handOf) 0 t (fun p hp => hin p (List.mem_append_right _ hp)) (fun p _ => Nat.zero_le _) a2
  have hgap : ∀ p ∈ (busPackets P c t (((j, m) :: l2).map handOf)).head?, p.gap = c (j + 1) - t := by
    intro p hp
    have hp : some _ = some p := hp
    cases hp; rfl
  have hhead : ∀ p ∈ (busPackets P c t (((j, m) :: l2).map handOf)).head?, τ0 + 2 * P ≤ t + p.gap := by
    intro p hp; rw [hgap p hp]; omega
  have hend := joinAt_end (P := P) hτ (ps := busPackets P c t (((j, m) :: l2).map handOf)) (by intro h; cases h) (fun p hp => by have := hhead p hp; omega)
  rw [c6] at hend
  have hcar := joinAt_carries hτ hhead heye
  have hsub := joinAt_le (d := τ0 - t) c4
  have hby := joinAt_bytes (τ0 - t) (busPackets P c t (((j, m) :: l2).map handOf))
  have hgap' : ∀ p, (joinAt (τ0 - t) (busPackets P c t (((j, m) :: l2).map handOf))).head? = some p → c (j + 1) ≤ τ0 + p.gap := by
    intro p hp
    have hp : some _ = some p := hp
    cases hp
    show c (j + 1) ≤ τ0 + (c (j + 1) - t - (τ0 - t))
    omega
  have hok : ∀ p ∈ joinAt (τ0 - t) (busPackets P c t (((j, m) :: l2).map handOf)), p.EyeOk P := by
    intro p hp
    have hp : p ∈ joinAt (τ0 - t) (busPackets P c t (handOf (j, m) :: l2.map handOf)) := hp
    rw [busPackets, joinAt] at hp
    rcases List.mem_cons.mp hp with rfl | hp
    · obtain ⟨k1, k2, k3⟩ := c3 _ (List.mem_cons_self ..)
      exact ⟨(by show 352 * P ≤ c (j + 1) - t - (τ0 - t); omega), k2, k3⟩
    · exact c3 p (List.mem_cons_of_mem _ hp)
  have hE : t ≤ sendEnd P c t (((j, m) :: l2).map handOf) := sendEnd_ge hc _ _ a2
  have hE' : c (j + 1) ≤ sendEnd P c t (((j, m) :: l2).map handOf) := by
    have h3 := sendEnd_ge hc _ _ a2.2.2
    have h4 := hc.le (show j + 1 ≤ (handOf (j, m)).last by unfold Handed.last; exact Nat.le_add_right _ _)
    have : sendEnd P c t (((j, m) :: l2).map handOf) = sendEnd P c (c (handOf (j, m)).last + 348 * P) (l2.map handOf) := rfl
    omega
  have eb : (((j, m) :: l2).map handOf).map Handed.bytes = ((j, m) :: l2).map fun x => x.2.bytes := by
    rw [List.map_map]
    refine List.map_congr_left fun x hx => handOf_bytes (hm x ?_).2.1
    rw [hsplit]; exact List.mem_append_right _ hx
  exact ⟨_, hok, hsub, hcar, hgap', by rw [hby, c5, eb], hend, hE'⟩

/-- **C134.** The main loop of one modem hands messages to its driver, from power-up on, as in `C118_words`.  Another modem, which has any history (it was switched on, or recovered from a stall of its loop, an overflow
of its ring, a reset of its ADC, disturbances or traffic of other modems on the bus: `e1`, `e2`), listens from time `τ0` on, in the pause between the messages `l1` and the next one; the pause
lasts the time of another 1922 codes, and from then on the bus carries what the pins of the sender show.  Then the words for the other core of the receiver are those of all later messages, in order and exactly
once: line busy, the bytes, line free.  Before them there may be a rest of the history (`Y`), which is over. -/
theorem C134_words {P : Nat} (hP : 0 < P) {M : Nat} {c : Nat → Nat} (hc : SenderClock P c) (ev : List DevEv) (d : TxDev) (pins : List (Nat × Bool)) (rs : List Bool)
    (hrun : TxDev.init.run ev = some (d, pins, rs)) (hcl : ClearsLate 1 0 0 ev)
    (hm : ∀ x ∈ sendsFrom 0 ev, 1 ≤ x.1 ∧ 1 ≤ x.2.length ∧ x.2.length ≤ 32 ∧ finalStart x.1 x.2 + 173 ≤ cyclesOf ev) (ha : CallsApart P M c 0 (sendsFrom 0 ev))
    {L : Nat → Level} (hL : Plays c (lineOf (pins.map Pio.view)) L)
    {l1 l2 : List (Nat × Message)} {j : Nat} {m : Message} (hsplit : sendsFrom 0 ev = l1 ++ (j, m) :: l2)
    {τ0 : Nat} (hτ : callsEnd P c 0 l1 ≤ τ0) (hpause : τ0 + 1922 * P ≤ c (j + 1))
    {S : Nat} (hS : 8 ≤ S) {ring : Nat → Int} (hr : SampleRange ring) {rxErr : Bool} {e1 e2 es : List PathEv}
    (hp1 : (DevSystem.init ring rxErr).Prompt S e1) {s1 s s' : DevSystem} {o1 o2 outs : List C1Out}
    (r1 : (DevSystem.init ring rxErr).run S e1 = .ok (s1, o1)) (hres : e1 = [] ∨ s1.core.word.result ≠ [])
    (hp2 : s1.Prompt S e2) (r2 : s1.run S e2 = .ok (s, o2))
    (hk : s.KeepsUp S es) (hl : s.Lossless S es) (r3 : s.run S es = .ok (s', outs))
    {a v : Int} (h1 : 49 ≤ a) (h2 : a ≤ 88) {q : Nat → UInt8} (hq : Codes a v (fun k => L (τ0 + k * P)) q)
    {n : Nat} (hcv : s.converted S es = (List.range n).map q) (hM : (s1.stores S e2).length + M + 2213 ≤ 2 * 2 ^ S)
    (hN : callsEnd P c 0 (sendsFrom 0 ev) + (391 + s'.dev.adc.lag) * P ≤ τ0 + n * P)
    (hN' : τ0 + n * P + 2 * P ≤ callsEnd P c 0 (sendsFrom 0 ev) + M * P) :
    ∃ Y, sent outs ++ (if s'.core.word = .zero then [] else [s'.core.word]) =
        (if s.core.word = .zero then [] else [s.core.word]) ++ Y ++ (((j, m) :: l2).flatMap fun x => wBusy :: (x.2.bytes.map wByte ++ [wFree])) ∧
      ((Y = [] ∧ s.core.busy = false) ∨ ∃ Y', Y = Y' ++ [wFree]) := by
  obtain ⟨ps, hok, hsub, hcar, hgap0, hby, hend, hE'⟩ := joined hP hc ev d pins rs hrun hcl hm ha hL hsplit hτ hpause
  have hgap' : ∀ p, ps.head? = some p → 1922 * P ≤ p.gap := fun p hp => by have := hgap0 p hp; omega
  obtain ⟨Y, y1, y2⟩ := eye_heals hS hr hp1 r1 hres hp2 r2 hk hl r3 h1 h2 hP (L := fun τ => L (τ0 + τ)) hq hcv hM hok hsub hcar hgap'
    (by
      refine Nat.le_of_mul_le_mul_right (c := P) ?_ hP
      rw [Nat.add_mul]
      rw [Nat.add_mul] at hN
      omega)
    (by omega) (by omega)
  refine ⟨Y, y1.trans ?_, y2⟩
  congr 1
  have e : ∀ l : List BusPacket, l.flatMap (fun p => wBusy :: (p.bytes.map wByte ++ [wFree])) =
      (l.map BusPacket.bytes).flatMap fun b => wBusy :: (b.map wByte ++ [wFree]) := by
    intro l; rw [List.flatMap_map]
  rw [e, hby, List.flatMap_map]

/-- A message as a packet with some gaps. -/
def packetLike (m : Message) : BusPacket := { gap := 0, pol := true, first := m.data 0, rest := m.bytes.tail.map fun b => (0, true, b) }

theorem packetLike_bytes {m : Message} (h : 1 ≤ m.length) : (packetLike m).bytes = m.bytes := by
  unfold BusPacket.bytes packetLike
  rw [List.map_map]
  conv => rhs; rw [bytes_cons h]
  show m.data 0 :: (m.bytes.tail).map id = _
  rw [List.map_id]

/-- **C134, lines.** As `C134_words` with messages of at most 31 bytes; the words (with the one still waiting, if any) are handed over to the main loop of the receiver, which has any history (`es0`): the two cores are interleaved in any way such
that no word is dropped and the main loop takes all of them, and the watchdog does not report.  If the receiving core takes the line for free at the start, the last word of the history told
so.  Then the host of the receiver is given exactly one line for each message handed to the driver of the sender after the pause, in order, with status 0 and the bytes of the message, after lines (`K`) about the history. -/
theorem C134_lines {P : Nat} (hP : 0 < P) {M : Nat} {c : Nat → Nat} (hc : SenderClock P c) (ev : List DevEv) (d : TxDev) (pins : List (Nat × Bool)) (rs : List Bool)
    (hrun : TxDev.init.run ev = some (d, pins, rs)) (hcl : ClearsLate 1 0 0 ev)
    (hm : ∀ x ∈ sendsFrom 0 ev, 1 ≤ x.1 ∧ 1 ≤ x.2.length ∧ x.2.length ≤ 31 ∧ finalStart x.1 x.2 + 173 ≤ cyclesOf ev) (ha : CallsApart P M c 0 (sendsFrom 0 ev))
    {L : Nat → Level} (hL : Plays c (lineOf (pins.map Pio.view)) L)
    {l1 l2 : List (Nat × Message)} {j : Nat} {m : Message} (hsplit : sendsFrom 0 ev = l1 ++ (j, m) :: l2)
    {τ0 : Nat} (hτ : callsEnd P c 0 l1 ≤ τ0) (hpause : τ0 + 1922 * P ≤ c (j + 1))
    {S : Nat} (hS : 8 ≤ S) {ring : Nat → Int} (hr : SampleRange ring) {rxErr : Bool} {e1 e2 es : List PathEv}
    (hp1 : (DevSystem.init ring rxErr).Prompt S e1) {s1 s s' : DevSystem} {o1 o2 outs : List C1Out}
    (r1 : (DevSystem.init ring rxErr).run S e1 = .ok (s1, o1)) (hres : e1 = [] ∨ s1.core.word.result ≠ [])
    (hp2 : s1.Prompt S e2) (r2 : s1.run S e2 = .ok (s, o2))
    (hk : s.KeepsUp S es) (hl : s.Lossless S es) (r3 : s.run S es = .ok (s', outs))
    {a v : Int} (h1 : 49 ≤ a) (h2 : a ≤ 88) {q : Nat → UInt8} (hq : Codes a v (fun k => L (τ0 + k * P)) q)
    {n : Nat} (hcv : s.converted S es = (List.range n).map q) (hM : (s1.stores S e2).length + M + 2213 ≤ 2 * 2 ^ S)
    (hN : callsEnd P c 0 (sendsFrom 0 ev) + (391 + s'.dev.adc.lag) * P ≤ τ0 + n * P)
    (hN' : τ0 + n * P + 2 * P ≤ callsEnd P c 0 (sendsFrom 0 ev) + M * P)
    (pf : Platform) (g : Nat → UInt8) {es0 : List (Env1 × Env2)} {os0 : List Out2} {tc t : TwoCores} {xs : List TwoStep} {os : List TwoOut}
    (l0 : LoopRun pf g es0 tc.c0 os0) (hpc : tc.pc = .top) (hfe : tc.fifoErr = false)
    (hlast : s.core.busy = false → wordsOf es0 ++ tc.fifo ++ (if s.core.word = .zero then [] else [s.core.word]) = [] ∨
      ∃ Z, wordsOf es0 ++ tc.fifo ++ (if s.core.word = .zero then [] else [s.core.word]) = Z ++ [wFree])
    (ht : tc.run pf g xs = .ok (some (t, os))) (hx : pushes xs = sent outs ++ (if s'.core.word = .zero then [] else [s'.core.word])) (hdr : drops os = 0) (htop : t.pc = .top) (hf : t.fifo = [])
    (h4 : ∀ m ∈ rxMsgs (reportsOf os), m.status ≠ 4) :
    ∃ K, (rxMsgs (reportsOf os)).map lineShown = K ++ ((j, m) :: l2).map fun x => (0, x.2.bytes) := by
  obtain ⟨Y, y1, y2⟩ := C134_words hP hc ev d pins rs hrun hcl (fun x hx => by obtain ⟨m1, m2, m3, m4⟩ := hm x hx; exact ⟨m1, m2, by omega, m4⟩) ha hL hsplit hτ hpause hS hr hp1 r1 hres hp2 r2
    hk hl r3 h1 h2 hq hcv hM hN hN'
  have hmem : ∀ x ∈ (j, m) :: l2, 1 ≤ x.2.length ∧ x.2.length ≤ 31 := fun x hx => by
    obtain ⟨-, m2, m3, -⟩ := hm x (by rw [hsplit]; exact List.mem_append_right _ hx)
    exact ⟨m2, m3⟩
  have e : (((j, m) :: l2).flatMap fun x => wBusy :: (x.2.bytes.map wByte ++ [wFree])) =
      ((((j, m) :: l2).map fun x => packetLike x.2).flatMap fun p => wBusy :: (p.bytes.map wByte ++ [wFree])) := by
    generalize (j, m) :: l2 = l at hmem ⊢
    clear y1 hsplit
    induction l with
    | nil => rfl
    | cons x l ih =>
      rw [List.map_cons, List.flatMap_cons, List.flatMap_cons, ih (fun x hx => hmem x (List.mem_cons_of_mem _ hx)), packetLike_bytes (hmem x (List.mem_cons_self ..)).1]
  rw [e] at y1
  obtain ⟨K, hK⟩ := healed_lines (fun p hp => by
    obtain ⟨x, hx, rfl⟩ := List.mem_map.mp hp
    rw [packetLike_bytes (hmem x hx).1, Message.bytes_length]; exact (hmem x hx).2) y1 y2 l0 hpc hfe hlast ht hx hdr htop hf h4
  refine ⟨K, hK.trans ?_⟩
  congr 1
  rw [List.map_map]
  exact List.map_congr_left fun x hx => by show (0, (packetLike x.2).bytes) = _; rw [packetLike_bytes (hmem x hx).1]

/-! ## A case that meets the hypotheses -/

/-- The packet 40 F0 is sent, and after a pause of 1224 cycles 00 10. -/
@[irreducible] def twiceSender : List DevEv :=
  List.replicate 300 .cycle ++ [.call (.send demoMsg), .dma, .dma] ++ List.replicate 300 .cycle ++ [.call .clearFifo, .error] ++ List.replicate 1100 .cycle ++
    [.call (.send (messageOf 0 [0x00, 0x10])), .dma, .dma] ++ List.replicate 300 .cycle ++ [.call .clearFifo, .error] ++ List.replicate 102 .cycle

theorem twiceSender_runs : (TxDev.init.run twiceSender).isSome = true := by decide +kernel

theorem twiceSender_clears : ClearsLate 1 0 0 twiceSender := by decide +kernel

set_option maxRecDepth 100000 in
theorem twiceSender_sends : sendsFrom 0 twiceSender = [(300, demoMsg), (1700, messageOf 0 [0x00, 0x10])] := by
  unfold twiceSender
  rfl

set_option maxRecDepth 100000 in
theorem twiceSender_cycles : cyclesOf twiceSender = 2102 := by
  unfold twiceSender
  rfl

/-- The loop of the receiver stalls until its ring overflows, and is reset, while the first packet is on the bus; then it hears the second one, and its host is told. -/
example : ∃ (pins : List (Nat × Bool)) (L : Nat → Level) (q : Nat → UInt8) (s s' : DevSystem) (o2 outs : List C1Out) (t : TwoCores) (os : List TwoOut) (K : List (Nat × List UInt8)),
    (∃ d errs, TxDev.init.run twiceSender = some (d, pins, errs)) ∧ Plays (dividerClock 48 0 0) (lineOf (pins.map Pio.view)) L ∧ Codes 60 127 (fun k => L (26000000 + k * 19625)) q ∧
    (DevSystem.init (fun _ => 0) true).run 32 (resetRun [0]) = .ok (s, o2) ∧ (∃ o ∈ o2, o.reset = true) ∧
    s.run 32 (((List.range 3200).map q).flatMap (oneSample prompt)) = .ok (s', outs) ∧
    (TwoCores.init (fun _ => 0) .zero 0 0 false).run .arm (fun _ => 0) (handEach (sent outs ++ (if s'.core.word = .zero then [] else [s'.core.word]))) = .ok (some (t, os)) ∧
    (rxMsgs (reportsOf os)).map lineShown = K ++ [(0, [0x00, 0x10])] := by
  have h := twiceSender_runs
  rw [Option.isSome_iff_exists] at h
  obtain ⟨⟨d, pins, errs⟩, hrun⟩ := h
  have hL : Plays (dividerClock 48 0 0) (lineOf (pins.map Pio.view)) (idealLine (dividerClock 48 0 0) (lineOf (pins.map Pio.view))) :=
    ⟨fun τ ht => idealLine_before modemClock _ ht, fun k τ h1 h2 => idealLine_at modemClock _ h1 h2⟩
  generalize hLL : idealLine (dividerClock 48 0 0) (lineOf (pins.map Pio.view)) = L at hL
  have hq := codesOf_ok fun k => L (26000000 + k * 19625)
  generalize codesOf (fun k => L (26000000 + k * 19625)) = q at hq
  obtain ⟨n, hn⟩ : ∃ n, n = 3200 := ⟨_, rfl⟩
  rw [← hn]
  have hb : adcBlock = 268435456 := rfl
  have h0 : SampleRange fun _ => 0 := fun _ => by show (-256 : Int) ≤ 0 ∧ (0 : Int) ≤ 255; decide
  obtain ⟨s, o2, h1, h2, h3, h4, h5, h6, h7, h8⟩ := reset_scene (S := 32) (by decide) (fun _ => 0) h0 true [0]
  obtain ⟨t, u, -, -, a1, a2, -, -, -, -⟩ := dev_run_refines (by decide) _ (DevInv.init h0 true) h2
  have a1 := h1.symm.trans a1
  simp only [Res.ok.injEq, Prod.mk.injEq] at a1
  obtain ⟨rfl, rfl⟩ := a1
  have hlen : ((List.range n).map q).length = 3200 := by rw [List.length_map, List.length_range, hn]
  obtain ⟨b1, b2, b3, s', outs, b4, b5⟩ := steady_run (S := 32) (by decide) prompt_serves (k := 1) (by decide) ((List.range n).map q) a2 h3 (by rw [hlen]; omega)
    (by rw [hlen]; omega) (by omega)
  have hsz := Nat.le_trans (DevSystem.stores_le (S := 32) (resetRun [0]) (DevSystem.init (fun _ => 0) true)) (resetRun_size [0])
  rw [List.length_singleton] at hsz
  have hM : ((DevSystem.init (fun _ => 0) true).stores 32 (resetRun [0])).length + 3000 + 2213 ≤ 2 * 2 ^ 32 := by
    generalize ((DevSystem.init (fun _ => 0) true).stores 32 (resetRun [0])).length = z at hsz ⊢
    exact Nat.le_trans (show z + 3000 + 2213 ≤ 20000 by omega) (by decide)
  obtain ⟨is1, w1⟩ := dev_core _ h1
  obtain ⟨is2, w2⟩ := dev_core _ b4
  have w3 := (words_wf w2 (words_wf w1 Word.Wf.zero).2).1
  obtain ⟨t, os, t1, t2, t3, t4, t5⟩ := handEach_ok _ w3
  have hcyc := twiceSender_cycles
  have hm : ∀ x ∈ sendsFrom 0 twiceSender, 1 ≤ x.1 ∧ 1 ≤ x.2.length ∧ x.2.length ≤ 31 ∧ finalStart x.1 x.2 + 173 ≤ cyclesOf twiceSender := by
    rw [twiceSender_sends, hcyc]; intro x hx
    rcases List.mem_cons.mp hx with rfl | hx
    · exact ⟨by decide, by decide, by decide, by decide⟩
    · rw [List.mem_singleton] at hx; subst hx
      exact ⟨by decide, by decide, by decide, by decide⟩
  have hap : CallsApart 19625 3000 (dividerClock 48 0 0) 0 (sendsFrom 0 twiceSender) := by rw [twiceSender_sends]; exact ⟨by decide, by decide, by decide, by decide, trivial⟩
  have cend : callsEnd 19625 (dividerClock 48 0 0) 0 (sendsFrom 0 twiceSender) = dividerClock 48 0 0 1876 + 348 * 19625 := by rw [twiceSender_sends]; rfl
  have cval : dividerClock 48 0 0 1876 + 348 * 19625 = 80110620 := by decide
  obtain ⟨K, hK⟩ := C134_lines (P := 19625) (by decide) (M := 3000) modemClock _ d pins errs hrun twiceSender_clears hm hap hL (l1 := [(300, demoMsg)]) (l2 := []) twiceSender_sends
    (τ0 := 26000000) (by decide) (by decide) (S := 32) (by decide) h0 (e1 := []) (e2 := resetRun [0]) trivial rfl (Or.inl rfl) h2 h1 b1 b2 b4
    (by decide) (by decide) hq (n := n) b3 hM (by rw [cend, cval, b5, hn]; decide) (by rw [cend, cval, hn]; decide)
    .arm (fun _ => 0) (es0 := []) (os0 := []) (tc := TwoCores.init (fun _ => 0) .zero 0 0 false) ⟨_, _, _, rfl⟩ rfl rfl (fun h => (by rw [h8] at h; cases h))
    t1 (handEach_pushes _) t2 t3 t4 t5
  exact ⟨pins, L, q, s, s', o2, outs, t, os, K, ⟨d, errs, hrun⟩, hL, hq, h1, h7, b4, t1, hK⟩

end P1P2
