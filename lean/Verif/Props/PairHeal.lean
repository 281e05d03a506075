import Verif.Props.Recover
import Verif.Props.Pair
import Verif.Props.Joins
/-!
# C147: a whole device that was disturbed, or joins late, hears another one after the next pause
-/
namespace P1P2
open Spec

/-- The gaps in codes of the ADC. -/
theorem eyePackets_gap {P : Nat} (hP : 0 < P) : ∀ (ps : List BusPacket) (t : Nat), 2 * P ≤ t → (∀ p ∈ ps, p.EyeOk P) → ∀ p ∈ eyePackets P t ps, 352 ≤ p.gap := by
  intro ps
  induction ps with
  | nil => intro t _ _ p hp; cases hp
  | cons k ps ih =>
    intro t ht hok p hp
    have g1 := (hok k (List.mem_cons_self ..)).gap
    rcases List.mem_cons.mp hp with rfl | hp
    · show 352 ≤ eyeBase P (t + k.gap) - eyeBase P t
      have := ceilDiv_mono hP (show t + 352 * P ≤ t + k.gap by omega)
      rw [ceilDiv_add hP] at this
      have h2 := ceilDiv_mono hP ht
      have h3 : 2 ≤ ceilDiv (2 * P) P := by
        have := ceilDiv_mul (x := 2 * P) hP
        refine Nat.le_of_mul_le_mul_right (c := P) ?_ hP
        omega
      unfold eyeBase
      omega
    · have htl : ∀ (l : List (Nat × Bool × UInt8)) (t : Nat), t ≤ eyeEnd P t l := by
        intro l
        induction l with
        | nil => intro t; exact Nat.le_refl _
        | cons a l ih => intro t; obtain ⟨g, a⟩ := a; have := ih (t + g + 348 * P); show t ≤ eyeEnd P (t + g + 348 * P) l; omega
      refine ih _ ?_ (fun p hp => hok p (List.mem_cons_of_mem _ hp)) p hp
      have := htl k.frames t
      omega

/-- What pulses within the mask look like to the ADC. -/
theorem eye_as_raw {P : Nat} (hP : 0 < P) {M : Nat} {L : Nat → Level} {ps : List BusPacket} (hp : ∀ p ∈ ps, p.EyeOk P) (hg : ∀ b ∈ ps.flatMap BusPacket.frames, b.1 ≤ M * P)
    (hL : EyeCarries P L 0 (byteFrames (ps.flatMap BusPacket.frames))) {n0 : Nat} (hn0 : 1920 ≤ n0) (hgap : ∀ p, ps.head? = some p → (n0 + 2) * P ≤ p.gap) :
    ∃ ps' : List BusPacket, (∀ p ∈ ps', p.RawOk ∧ 351 ≤ p.gap) ∧ (∀ b ∈ ps'.flatMap BusPacket.frames, b.1 ≤ M) ∧ RawCarries (fun k => L (k * P)) 0 (byteFrames (ps'.flatMap BusPacket.frames)) ∧
      (∀ p, ps'.head? = some p → n0 ≤ p.gap) ∧ ps'.map BusPacket.bytes = ps.map BusPacket.bytes ∧
      ∀ n, (eyeEnd P 0 (ps.flatMap BusPacket.frames) + 378 * P ≤ n * P → rawEnd 0 (byteFrames (ps'.flatMap BusPacket.frames)) + 378 ≤ n) ∧
        (n * P + 2 * P ≤ eyeEnd P 0 (ps.flatMap BusPacket.frames) + M * P → n ≤ rawEnd 0 (byteFrames (ps'.flatMap BusPacket.frames)) + M) := by
  have hhead : ∀ b ∈ (ps.flatMap BusPacket.frames).head?, 2 * P ≤ 0 + b.1 := by
    intro b hb
    cases ps with
    | nil => cases hb
    | cons p ps =>
      have := (hp p (List.mem_cons_self ..)).gap
      have hb : (p.gap, p.pol, p.first) = b := Option.some.inj hb
      rw [← hb]
      dsimp only
      omega
  have h0 : eyeBase P 0 = 0 := by
    have : ceilDiv 0 P ≤ 0 := (ceilDiv_le hP 0).mpr (by omega)
    unfold eyeBase; omega
  have hc := eye_carries hP _ 0 hhead hL
  have he := eye_rawEnd hP _ 0 hhead
  rw [h0, ← eyePackets_frames] at hc
  rw [h0, ← eyePackets_frames] at he
  have hfirst : ∀ p, (eyePackets P 0 ps).head? = some p → n0 ≤ p.gap := by
    intro p hpp
    cases ps with
    | nil => cases hpp
    | cons k ps =>
      cases hpp
      show n0 ≤ eyeBase P (0 + k.gap) - eyeBase P 0
      have hk := hgap k rfl
      have := ceilDiv_mono hP (show 0 + (n0 + 2) * P ≤ 0 + k.gap by omega)
      rw [ceilDiv_add hP] at this
      rw [h0]
      unfold eyeBase
      omega
  have h351 : ∀ p ∈ eyePackets P 0 ps, 351 ≤ p.gap := by
    cases ps with
    | nil => intro p hpp; cases hpp
    | cons k ps =>
      intro p hpp
      rcases List.mem_cons.mp hpp with rfl | hm
      · have := hfirst _ rfl; omega
      · have htl : ∀ (l : List (Nat × Bool × UInt8)) (t : Nat), t ≤ eyeEnd P t l := by
          intro l
          induction l with
          | nil => intro t; exact Nat.le_refl _
          | cons a l ih => intro t; obtain ⟨g, a⟩ := a; have := ih (t + g + 348 * P); show t ≤ eyeEnd P (t + g + 348 * P) l; omega
        have h2 : 2 * P ≤ eyeEnd P 0 k.frames := by
          have e : eyeEnd P 0 k.frames = eyeEnd P (0 + k.gap + 348 * P) k.rest := rfl
          have := htl k.rest (0 + k.gap + 348 * P)
          omega
        have := eyePackets_gap hP ps _ h2 (fun p hp' => hp p (List.mem_cons_of_mem _ hp')) p hm
        omega
  refine ⟨eyePackets P 0 ps, fun p hp' => ⟨eyePackets_ok hP ps 0 (.inl rfl) hp p hp', h351 p hp'⟩, (by rw [eyePackets_frames]; exact eyeCodes_le hP _ 0 hg), hc, hfirst, eyePackets_bytes ps 0, fun n => ⟨fun hN => ?_, fun hN' => ?_⟩⟩
  · rw [he]
    have : 378 ≤ n := Nat.le_of_mul_le_mul_right (c := P) (by omega) hP
    have : eyeBase P (eyeEnd P 0 (ps.flatMap BusPacket.frames)) ≤ n - 378 := by
      rw [eyeBase_le hP, Nat.sub_mul]; omega
    omega
  · rw [he]
    have := ceilDiv_mul (x := eyeEnd P 0 (ps.flatMap BusPacket.frames)) hP
    refine Nat.le_of_mul_le_mul_right (c := P) ?_ hP
    unfold eyeBase
    rw [Nat.add_mul, Nat.sub_mul]
    omega

/-- **C147.** A whole device that was disturbed, or joins late, hears another one after the next pause.  The receiver runs from the start for any time, in any way (`hist1`, `hist2`, as in C145), to the
time `τ0`, at which its FIFO between the cores is empty, no loss is waiting to be told, and, if its receive core takes the bus for free, the last word its main loop took told so.  The sender hands
the messages of `sendsFrom 0 ev` to its driver; at `τ0` the frames of the messages `l1` are over, and the next message `m` begins at least the time of 1922 conversions (6.3 ms) later.  From `τ0` on
the receive core is never more than 253 conversions behind and the main loop is fast enough.  Then no word is dropped, and when everything has been processed, the host of the receiver was given,
after what the history leads to (`K`), exactly one line for each message after the pause, in order, with status 0 and the bytes of the message; unless the watchdog reports (a bus that was
busy before). -/
theorem C147_hears {S : Nat} (hS : 9 ≤ S) {ring : Nat → Int} (hr : SampleRange ring) (rxErr : Bool) (pf : Platform) (g : Nat → UInt8) (w0 : Word) (t0 t1 : Nat)
    (hist1 hist2 : List BoardStep) (hh1 : ∀ v ∈ converted hist1, -256 ≤ v ∧ v ≤ 255) (hh2 : ∀ v ∈ converted hist2, -256 ≤ v ∧ v ≤ 255) {b1 b : Board} {o1 o2 : List BoardOut}
    (r1 : (Board.init ring rxErr g w0 t0 t1).run S pf g hist1 = .ok (some (b1, o1))) (hres : hist1 = [] ∨ b1.rx.core.word.result ≠ [])
    (r2 : b1.run S pf g hist2 = .ok (some (b, o2)))
    (hquiet : b.main.pc = .top ∧ b.main.fifo = [] ∧ b.main.fifoErr = false ∧ b.rx.core.word = .zero ∧ b.rx.adc.behind ≤ 253)
    (hfree : b.rx.core.busy = false → taken (hist1 ++ hist2) = [] ∨ ∃ Z, taken (hist1 ++ hist2) = Z ++ [wFree])
    {P : Nat} (hP : 0 < P) {M : Nat} {c : Nat → Nat} (hc : SenderClock P c) (ev : List DevEv) (d : TxDev) (pins : List (Nat × Bool)) (rs : List Bool)
    (hrun : TxDev.init.run ev = some (d, pins, rs)) (hcl : ClearsLate 1 0 0 ev)
    (hm : ∀ x ∈ sendsFrom 0 ev, 1 ≤ x.1 ∧ 1 ≤ x.2.length ∧ x.2.length ≤ 31 ∧ finalStart x.1 x.2 + 173 ≤ cyclesOf ev) (ha : CallsApart P M c 0 (sendsFrom 0 ev))
    {L : Nat → Level} (hL : Plays c (lineOf (pins.map Pio.view)) L)
    {l1 l2 : List (Nat × Message)} {j : Nat} {m : Message} (hsplit : sendsFrom 0 ev = l1 ++ (j, m) :: l2)
    {τ0 : Nat} (hτ : callsEnd P c 0 l1 ≤ τ0) (hpause : τ0 + 1922 * P ≤ c (j + 1))
    {a v : Int} (h1 : 49 ≤ a) (h2 : a ≤ 88) {h : Nat → Int} (hh : SampleRange h) (hq : Samples a v (fun k => L (τ0 + k * P)) h)
    (hM : (converted hist2).length + M + 2200 ≤ 2 * 2 ^ S)
    (xs : List BoardStep) (t : Board) (os : List BoardOut) (r3 : b.run S pf g xs = .ok (some (t, os)))
    (hv : converted xs = (List.range (converted xs).length).map h)
    (hN : callsEnd P c 0 (sendsFrom 0 ev) + 378 * P ≤ τ0 + (converted xs).length * P)
    (hN' : τ0 + (converted xs).length * P + 2 * P ≤ callsEnd P c 0 (sendsFrom 0 ev) + M * P) (hblock : (converted xs).length < b.rx.adc.tcHw)
    (hb : ∀ o ∈ os, o.behind ≤ 253) (hf : FastEnough xs) (he : t.rx.adc.behind = 0 ∧ t.rx.core.word = .zero ∧ t.main.fifo = [] ∧ t.main.pc = .top) :
    (∀ o ∈ os, o.dropped = false) ∧
    ((∀ m ∈ rxMsgs (os.flatMap BoardOut.reports), m.status ≠ 4) →
      ∃ K, (rxMsgs (os.flatMap BoardOut.reports)).map lineShown = K ++ ((j, m) :: l2).map fun x => (0, x.2.bytes)) := by
  obtain ⟨ps, p1, p2, p3, p4, p5, p6, p7⟩ := joined hP hc ev d pins rs hrun hcl (fun x hx => by obtain ⟨m1, m2, m3, m4⟩ := hm x hx; exact ⟨m1, m2, by omega, m4⟩) ha hL hsplit hτ hpause
  obtain ⟨qs, q1, q2, q3, q4, q5, q6⟩ := eye_as_raw hP p1 p2 p3 (n0 := 1920) (Nat.le_refl _) (fun p hp => by have := p4 p hp; show 1922 * P ≤ p.gap; omega)
  have hlen : ∀ p ∈ qs, p.bytes.length ≤ 31 := by
    intro p hp
    have : p.bytes ∈ qs.map BusPacket.bytes := List.mem_map_of_mem hp
    rw [q5, p5] at this
    obtain ⟨x, hx, e⟩ := List.mem_map.mp this
    rw [← e, Message.bytes_length]
    exact (hm x (by rw [hsplit]; exact List.mem_append_right _ hx)).2.2.1
  have hN0 : 1920 ≤ (converted xs).length := by
    refine Nat.le_of_mul_le_mul_right (c := P) ?_ hP
    omega
  obtain ⟨z1, z2⟩ := C145_recovers hS hr rxErr pf g w0 t0 t1 hist1 hist2 hh1 hh2 r1 hres r2 hquiet hfree h1 h2 hh hq hM qs (fun p hp => ⟨(q1 p hp).1, hlen p hp⟩) q2 q3 q4 xs t os r3 hv hN0
    ((q6 _).1 (by omega)) ((q6 _).2 (by omega)) hblock hb hf he
  refine ⟨z1, fun h4 => ?_⟩
  obtain ⟨K, hK⟩ := z2 h4
  refine ⟨K, hK.trans ?_⟩
  have e : ∀ l : List BusPacket, (l.map fun p => ((0 : Nat), p.bytes)) = (l.map BusPacket.bytes).map fun b => (0, b) := by
    intro l; rw [List.map_map]; rfl
  rw [e, q5, p5, List.map_map]
  rfl

end P1P2
