import Verif.Proofs.RawTimes
/-!
# C120: when the words of the receiving core come

`PacketsTimed`, `comeBy`: `Verif/Spec/Times.lean`.
-/
namespace P1P2

/-- The words of the receiver, from those behind the DC blocker. -/
theorem words_of_tail {S : Nat} (hS : 8 ≤ S) (rxErr : Bool) (q : Nat → UInt8) (es : List (AdcEv × Bool)) (hk : keepsUp 254 0 0 (es.map Prod.fst))
    {t : C1Tail} {tr : List AcOut}
    (ht : (C1Tail.init rxErr).run S ((List.range ((deliveries 0 0 (es.map Prod.fst) + 1) / 2)).map (rawZ q)) = .ok (t, tr)) :
    ∃ s outs, RxSystem.run S (RxSystem.init (fun _ => 0) rxErr) (scheduleEvents (fun k => Pio.sampleValue k (q k)) 0 0 es) = .ok (s, outs) ∧
      sent outs ++ (if s.core.word = .zero then [] else [s.core.word]) = nonzero (tr.map AcOut.word) := by
  have hr : SampleRange fun k => Pio.sampleValue k (q k) := fun k => C41_conversion k (q k)
  have h0 : SampleRange fun _ => 0 := fun _ => by show (-256 : Int) ≤ 0 ∧ (0 : Int) ≤ 255; decide
  obtain ⟨s, outs, hrun⟩ := C41_no_undefined hS (fun _ => 0) h0 rxErr _ (schedule_range hr es 0 0)
  obtain ⟨ad, e1⟩ := C101_samples (S := S) (fun _ => 0) _ h0 hr rxErr es hk
  refine ⟨s, outs, hrun, ?_⟩
  rw [hrun] at e1
  cases hcr : (Core1.init rxErr).run S (idealInputs 4992 (adcHist (fun _ => 0) fun k => Pio.sampleValue k (q k)) 0 0 es) with
  | ub => rw [hcr] at e1; cases e1
  | ok r =>
    obtain ⟨c1, outs'⟩ := r
    rw [hcr] at e1
    simp only [Res.bind, Res.ok.injEq, Prod.mk.injEq] at e1
    obtain ⟨e2, rfl⟩ := e1
    obtain ⟨xs, tr', k1, k2, k3⟩ := run_ac _ hcr
    rw [samples_ideal, rawMv_adc] at k1
    obtain ⟨f, e3⟩ := front_run (rawMv_bound q) (deliveries 0 0 (es.map Prod.fst))
    have e3 : RxFront.run .init ((List.range (deliveries 0 0 (es.map Prod.fst))).map (rawMv q)) =
      .ok (f, (List.range ((deliveries 0 0 (es.map Prod.fst) + 1) / 2)).map (rawZ q)) := e3
    have k1 : RxFront.run .init _ = _ := k1
    rw [e3] at k1
    simp only [Res.ok.injEq, Prod.mk.injEq] at k1
    rw [k1.2] at ht
    have k2 : (C1Tail.init rxErr).run S xs = .ok (c1.tail, tr') := k2
    rw [k2] at ht
    simp only [Res.ok.injEq, Prod.mk.injEq] at ht
    obtain ⟨-, rfl⟩ := ht
    have := k3 (fun w => if w = .zero then [] else [w]) (if_pos rfl) (Or.inr (ideal_no_error _ _ _ _ _))
    have hflat : ∀ l : List Word, l.flatMap (fun w => if w = .zero then [] else [w]) = nonzero l := by
      intro l
      induction l with
      | nil => rfl
      | cons w l ih =>
        rw [List.flatMap_cons, ih]
        unfold nonzero
        by_cases hw : w = .zero
        · rw [if_pos hw, List.filter_cons_of_neg (by simpa using hw)]; rfl
        · rw [if_neg hw, List.filter_cons_of_pos (by simpa using hw)]; rfl
    rw [hflat, hflat] at this
    have hz : nonzero (sent outs) = sent outs := by
      unfold nonzero
      rw [List.filter_eq_self]
      intro w hw
      simpa using sent_nonzero _ hcr w hw
    rw [hz] at this
    rw [e2]
    refine Eq.trans this ?_
    show (if Word.zero = Word.zero then [] else [Word.zero]) ++ _ = _
    rw [if_pos rfl]
    rfl

/-- **C120.** Under the conditions of C111 there is one sequence of words with the codes they come with, in the order and within the times `PacketsTimed` says, such that, for these codes and whatever the
schedule of DMA transfers and iterations of the loop, as long as it keeps up, the words for the other core are at any point exactly those that come with the codes processed so far.  What the line carries later has no influence: only the
codes so far must be those of the line. -/
theorem C120_times {S : Nat} (hS : 8 ≤ S) (rxErr : Bool) {a c : Int} (h1 : 49 ≤ a) (h2 : a ≤ 88) (h3 : a ≤ c) (h4 : c + a ≤ 255) {P : Nat} (hP : 0 < P) {M : Nat}
    (hM : M + 70 ≤ 2 * 2 ^ S) (hM' : 378 ≤ M) (ps : List BusPacket) (hp : ∀ p ∈ ps, p.EyeOk P) (hg : ∀ b ∈ ps.flatMap BusPacket.frames, b.1 ≤ M * P)
    {L : Nat → Level} (hL : EyeCarries P L 0 (byteFrames (ps.flatMap BusPacket.frames))) {q : Nat → UInt8} {K : Nat} (hq : CodesUntil K a c (fun k => L (k * P)) q) :
    ∃ ts, PacketsTimed P 0 ps ts ∧ (ts.Pairwise fun x y => x.1 < y.1) ∧
      ∀ (es : List (AdcEv × Bool)), keepsUp 254 0 0 (es.map Prod.fst) → deliveries 0 0 (es.map Prod.fst) ≤ K →
        deliveries 0 0 (es.map Prod.fst) * P + 2 * P ≤ eyeEnd P 0 (ps.flatMap BusPacket.frames) + M * P →
        ∃ s outs, RxSystem.run S (RxSystem.init (fun _ => 0) rxErr) (scheduleEvents (fun k => Pio.sampleValue k (q k)) 0 0 es) = .ok (s, outs) ∧
          sent outs ++ (if s.core.word = .zero then [] else [s.core.word]) = comeBy ts (deliveries 0 0 (es.map Prod.fst)) := by
  have hhead : ∀ b ∈ (ps.flatMap BusPacket.frames).head?, 2 * P ≤ 0 + b.1 := by
    intro b hb
    cases ps with
    | nil => cases hb
    | cons p ps =>
      have := (hp p (List.mem_cons_self ..)).gap
      have hb : (p.gap, p.pol, p.first) = b := Option.some.inj hb
      rw [← hb]
      dsimp only
      omega
  have h0 : eyeBase P 0 = 0 := by
    have : ceilDiv 0 P ≤ 0 := (ceilDiv_le hP 0).mpr (by omega)
    unfold eyeBase; omega
  have hc := eye_carries hP _ 0 hhead hL
  have he := eye_rawEnd hP _ 0 hhead
  rw [h0, ← eyePackets_frames] at hc
  rw [h0, ← eyePackets_frames] at he
  obtain ⟨ts, r1, r3, r2⟩ := raw_times hS rxErr h1 h2 (codesThen_ok (by omega) h3 h4 hq) hM hM' (eyePackets_ok hP ps 0 (.inl rfl) hp)
    (by rw [eyePackets_frames]; exact eyeCodes_le hP _ 0 hg) hc
  rw [he] at r2
  refine ⟨ts, eye_packets hP ps 0 ts (.inl rfl) hp (by rw [h0]; exact r1), r3, fun es hk hK hN => ?_⟩
  generalize eyeEnd P 0 (ps.flatMap BusPacket.frames) = T at *
  obtain ⟨t, tr, t1, t2⟩ := r2 (deliveries 0 0 (es.map Prod.fst)) (by
    have := ceilDiv_mul (x := T) hP
    refine Nat.le_of_mul_le_mul_right (c := P) ?_ hP
    unfold eyeBase
    rw [Nat.add_mul, Nat.sub_mul]
    omega)
  have e : (List.range ((deliveries 0 0 (es.map Prod.fst) + 1) / 2)).map (rawZ (codesThen K a c (fun k => L (k * P)) q)) =
      (List.range ((deliveries 0 0 (es.map Prod.fst) + 1) / 2)).map (rawZ q) := by
    refine List.map_congr_left fun n hn => ?_
    rw [List.mem_range] at hn
    refine rawZ_congr (K := deliveries 0 0 (es.map Prod.fst)) (fun k hk => ?_) n (by omega)
    unfold codesThen
    rw [if_pos (by omega)]
  rw [e] at t1
  obtain ⟨s, outs, s1, s2⟩ := words_of_tail hS rxErr q es hk t1
  exact ⟨s, outs, s1, s2.trans t2⟩

end P1P2
