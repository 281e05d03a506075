import Verif.Props.LongRun
import Verif.Props.PairHeal
/-!
# C150: two whole modems over the end of a DMA block of the receiver
-/
namespace P1P2
open Spec

theorem raw_later {L L' : Nat → Level} : ∀ {fs : List (Nat × (Nat → Level))} {t : Nat}, RawCarries L (t + 1) fs → (∀ k, t ≤ k → L' k = L (k + 1)) → RawCarries L' t fs := by
  intro fs
  induction fs with
  | nil => intro t h h1 k hk; rw [h1 k hk]; exact h _ (by omega)
  | cons f fs ih =>
    obtain ⟨g, σ⟩ := f
    intro t ⟨c1, ⟨δ, ε, ho, c2⟩, c3⟩ h1
    refine ⟨fun k k1 k2 => by rw [h1 k k1]; exact c1 _ (by omega) (by omega), ⟨δ, ε, ho, fun j hj => ?_⟩, ?_⟩
    · rw [h1 _ (by omega), show t + g + j + 1 = t + 1 + g + j by omega]; exact c2 j hj
    · refine ih (t := t + g + 348) ?_ (fun k hk => h1 k (by omega))
      rw [show t + g + 348 + 1 = t + 1 + g + 348 by omega]; exact c3

/-- A lost sample in a silence: the gap before the next frame is shorter by one. -/
theorem raw_cut {L : Nat → Level} {J : Nat} (hs : ∀ k, k ≤ J + 2 → J ≤ k + 352 → L k = .mid) : ∀ {bs : List (Nat × Bool × UInt8)} {t : Nat}, t ≤ J → RawCarries L t (byteFrames bs) →
    RawCarries (fun k => L (del J k)) t (byteFrames (shave t J bs)) := by
  intro bs
  induction bs with
  | nil =>
    intro t ht hc k hk
    refine hc _ ?_
    unfold del; split <;> omega
  | cons b bs ih =>
    obtain ⟨g, pol, x⟩ := b
    intro t ht ⟨c1, ⟨δ, ε, ho, c2⟩, c3⟩
    rw [shave]
    by_cases hJ : J < t + g
    · rw [if_pos (by omega)]
      have hlater : ∀ k, J ≤ k → L (del J k) = L (k + 1) := fun k hk => by rw [del_ge hk]
      refine ⟨fun k k1 k2 => ?_, ⟨δ, ε, ho, fun j hj => ?_⟩, ?_⟩
      · have k2 : k < t + (g - 1) := k2
        refine c1 _ ?_ ?_ <;> unfold del <;> split <;> omega
      · have e : t + (g - 1) + j + 1 = t + g + j := by omega
        show L (del J (t + (g - 1) + j)) = _
        rw [hlater _ (by omega), e]
        exact c2 j hj
      · refine raw_later (t := t + (g - 1) + 348) ?_ (fun k hk => hlater k (by omega))
        rw [show t + (g - 1) + 348 + 1 = t + g + 348 by omega]; exact c3
    · by_cases hJ2 : J < t + g + 348
      · exfalso
        have c := c2 2 (by decide)
        have hm := hs (t + g + 2) (by omega) (by omega)
        have hd := ho 0
        rw [hm, if_pos ⟨by show δ 0 ≤ 2; exact hd.2, by show 2 < 16 + ε 0; omega⟩] at c
        have c : Level.mid = symbolsOf pol x 0 := c
        rw [symbolsOf_start] at c
        cases pol <;> cases c
      · rw [if_neg hJ2]
        refine ⟨fun k k1 k2 => ?_, ⟨δ, ε, ho, fun j hj => ?_⟩, ih (by omega) c3⟩
        · have k2 : k < t + g := k2
          dsimp only
          rw [del_lt (by omega)]; exact c1 k k1 k2
        · dsimp only
          rw [del_lt (by omega)]; exact c2 j hj

theorem shave_short {J : Nat} : ∀ (bs : List (Nat × Bool × UInt8)) (t : Nat), bytesEnd t (shave t J bs) ≤ bytesEnd t bs ∧ bytesEnd t bs ≤ bytesEnd t (shave t J bs) + 1 := by
  intro bs
  induction bs with
  | nil => intro t; exact ⟨Nat.le_refl _, Nat.le_succ _⟩
  | cons b bs ih =>
    obtain ⟨g, x⟩ := b
    intro t
    rw [shave]
    split
    · by_cases hg : g = 0
      · subst hg; exact ⟨Nat.le_refl _, Nat.le_succ _⟩
      · have e := bytesEnd_succ bs (t + (g - 1) + 348)
        rw [show t + (g - 1) + 348 + 1 = t + g + 348 by omega] at e
        show bytesEnd (t + (g - 1) + 348) bs ≤ bytesEnd (t + g + 348) bs ∧ bytesEnd (t + g + 348) bs ≤ bytesEnd (t + (g - 1) + 348) bs + 1
        omega
    · exact ih _

/-- **C150.** As C147, but on the way, between two messages (or before the first one or after the last one), the block of 2^28 conversions of the receiver ends: `xs1` goes to the last but one
conversion of the block, and at its end everything converted has been processed; then comes the last conversion of the block (`v`), which is lost, and before the next one an iteration of the receive
core, while the main loop may do anything (`mid`); `xs2` is the rest.  The bus is silent at the lost conversion, in the 352 before it (that is less than the pause between two messages) and in the
two after it.  The pause at the start lasts one conversion longer than in C147. -/
theorem C150_hears {S : Nat} (hS : 9 ≤ S) {ring : Nat → Int} (hr : SampleRange ring) (rxErr : Bool) (pf : Platform) (g : Nat → UInt8) (w0 : Word) (t0 t1 : Nat)
    (hist1 hist2 : List BoardStep) (hh1 : ∀ v ∈ converted hist1, -256 ≤ v ∧ v ≤ 255) (hh2 : ∀ v ∈ converted hist2, -256 ≤ v ∧ v ≤ 255) {b1 b : Board} {o1 o2 : List BoardOut}
    (r1 : (Board.init ring rxErr g w0 t0 t1).run S pf g hist1 = .ok (some (b1, o1))) (hres : hist1 = [] ∨ b1.rx.core.word.result ≠ [])
    (r2 : b1.run S pf g hist2 = .ok (some (b, o2)))
    (hquiet : b.main.pc = .top ∧ b.main.fifo = [] ∧ b.main.fifoErr = false ∧ b.rx.core.word = .zero ∧ b.rx.adc.behind ≤ 253)
    (hfree : b.rx.core.busy = false → taken (hist1 ++ hist2) = [] ∨ ∃ Z, taken (hist1 ++ hist2) = Z ++ [wFree])
    {P : Nat} (hP : 0 < P) {M : Nat} {c : Nat → Nat} (hc : SenderClock P c) (ev : List DevEv) (d : TxDev) (pins : List (Nat × Bool)) (rs : List Bool)
    (hrun : TxDev.init.run ev = some (d, pins, rs)) (hcl : ClearsLate 1 0 0 ev)
    (hm : ∀ x ∈ sendsFrom 0 ev, 1 ≤ x.1 ∧ 1 ≤ x.2.length ∧ x.2.length ≤ 31 ∧ finalStart x.1 x.2 + 173 ≤ cyclesOf ev) (ha : CallsApart P M c 0 (sendsFrom 0 ev))
    {L : Nat → Level} (hL : Plays c (lineOf (pins.map Pio.view)) L)
    {l1 l2 : List (Nat × Message)} {j : Nat} {m : Message} (hsplit : sendsFrom 0 ev = l1 ++ (j, m) :: l2)
    {τ0 : Nat} (hτ : callsEnd P c 0 l1 ≤ τ0) (hpause : τ0 + 1923 * P ≤ c (j + 1))
    {a z : Int} (h1 : 49 ≤ a) (h2 : a ≤ 88) {h : Nat → Int} (hh : SampleRange h) (hq : Samples a z (fun k => L (τ0 + k * P)) h)
    (hM : (converted hist2).length + M + 2200 ≤ 2 * 2 ^ S)
    (xs1 : List BoardStep) (bm : Board) (os1 : List BoardOut) (r3 : b.run S pf g xs1 = .ok (some (bm, os1))) (hblock : (converted xs1).length + 1 = b.rx.adc.tcHw) (hcaught : bm.rx.adc.behind = 0)
    (v : Int) (mid : List BoardStep) (hmid : ∀ x ∈ mid, (∀ v, x ≠ .convert v) ∧ ∀ l, x ≠ .receive l)
    (hsilent : ∀ k, k ≤ (converted xs1).length + 2 → (converted xs1).length ≤ k + 352 → L (τ0 + k * P) = .mid)
    (xs2 : List BoardStep) (t : Board) (os2 : List BoardOut) (r4 : bm.run S pf g (.convert v :: (mid ++ .receive [] :: xs2)) = .ok (some (t, os2)))
    {xs : List BoardStep} (hxs : xs = xs1 ++ .convert v :: (mid ++ .receive [] :: xs2))
    (hv : converted xs = (List.range (converted xs).length).map h) (hblock2 : (converted xs2).length < adcBlock)
    (hN : callsEnd P c 0 (sendsFrom 0 ev) + 379 * P ≤ τ0 + (converted xs).length * P)
    (hN' : τ0 + (converted xs).length * P + 2 * P ≤ callsEnd P c 0 (sendsFrom 0 ev) + M * P)
    (hb : ∀ o ∈ os1 ++ os2, o.behind ≤ 253) (hf : FastEnough xs) (he : t.rx.adc.behind = 0 ∧ t.rx.core.word = .zero ∧ t.main.fifo = [] ∧ t.main.pc = .top) :
    (∀ o ∈ os1 ++ os2, o.dropped = false) ∧
    ((∀ m ∈ rxMsgs ((os1 ++ os2).flatMap BoardOut.reports), m.status ≠ 4) →
      ∃ K, (rxMsgs ((os1 ++ os2).flatMap BoardOut.reports)).map lineShown = K ++ ((j, m) :: l2).map fun x => (0, x.2.bytes)) := by
  obtain ⟨ps, p1, p2, p3, p4, p5, p6, p7⟩ := joined hP hc ev d pins rs hrun hcl (fun x hx => by obtain ⟨m1, m2, m3, m4⟩ := hm x hx; exact ⟨m1, m2, by omega, m4⟩) ha hL hsplit hτ (by omega)
  obtain ⟨qs, q1, q2, q3, q4, q5, q6⟩ := eye_as_raw hP p1 p2 p3 (n0 := 1921) (by decide) (fun p hp => by have := p4 p hp; show 1923 * P ≤ p.gap; omega)
  obtain ⟨J, hJ⟩ : ∃ J, J = (converted xs1).length := ⟨_, rfl⟩
  rw [← hJ] at hsilent
  have hcut : NoEdge (fun k => L (τ0 + k * P)) J := fun k k1 k2 => (hsilent k (by omega) (by omega)).trans (hsilent J (by omega) (by omega)).symm
  have hcl := raw_cut (L := fun k => L (τ0 + k * P)) hsilent (Nat.zero_le _) q3
  rw [← shavePackets_frames _ _ (Nat.zero_le _)] at hcl
  have hps := shavePackets_ok (J := J) (t := 0) q1
  have hby := shavePackets_bytes (J := J) qs 0
  have hlen : ∀ p ∈ shavePackets J 0 qs, p.bytes.length ≤ 31 := by
    intro p hp
    have : p.bytes ∈ (shavePackets J 0 qs).map BusPacket.bytes := List.mem_map_of_mem hp
    rw [hby, q5, p5] at this
    obtain ⟨x, hx, e⟩ := List.mem_map.mp this
    rw [← e, Message.bytes_length]
    exact (hm x (by rw [hsplit]; exact List.mem_append_right _ hx)).2.2.1
  have hm1 : ∀ x ∈ (shavePackets J 0 qs).flatMap BusPacket.frames, x.1 ≤ M := by
    intro x hx
    rw [shavePackets_frames _ _ (Nat.zero_le _)] at hx
    obtain ⟨x', g1, g2, -⟩ := shave_mem (t := 0) hx
    have := q2 x' g1
    omega
  have hgap' : GapFrom 1920 ((shavePackets J 0 qs).flatMap BusPacket.frames) := by
    rw [shavePackets_frames _ _ (Nat.zero_le _)]
    refine shave_gap ?_
    cases qs with
    | nil => intro f hf; cases hf
    | cons p qs =>
      intro f hf
      obtain rfl : (p.gap, p.pol, p.first) = f := by simpa [BusPacket.frames] using hf
      exact q4 p rfl
  have hsh := shave_short (J := J) (qs.flatMap BusPacket.frames) 0
  rw [← shavePackets_frames _ _ (Nat.zero_le _), ← bytesEnd_raw, ← bytesEnd_raw] at hsh
  have hN0 : 1921 ≤ (converted xs).length := by
    refine Nat.le_of_mul_le_mul_right (c := P) ?_ hP
    omega
  have hN1 := (q6 ((converted xs).length - 1)).1 (by rw [Nat.sub_mul]; omega)
  have hN2 := (q6 (converted xs).length).2 (by omega)
  subst hJ
  obtain ⟨z1, z2⟩ := cut_block hS hr rxErr pf g w0 t0 t1 hist1 hist2 hh1 hh2 r1 hres r2 hquiet hfree h1 h2 hh hq hM _ (fun p hp' => ⟨hps p hp', hlen p hp'⟩) hm1 hgap' xs1 bm os1 r3 hblock hcaught
    v mid hmid hcut hcl xs2 t os2 r4 hxs hv hblock2 hN0 (by omega) (by omega) hb hf he
  refine ⟨z1, fun h4 => ?_⟩
  obtain ⟨K, hK⟩ := z2 h4
  refine ⟨K, hK.trans ?_⟩
  have e : ∀ l : List BusPacket, (l.map fun p => ((0 : Nat), p.bytes)) = (l.map BusPacket.bytes).map fun b => (0, b) := by
    intro l; rw [List.map_map]; rfl
  rw [e, hby, q5, p5, List.map_map]
  rfl

end P1P2
