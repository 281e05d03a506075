import Verif.Proofs.Splice
/-!
# C151: a reception over any number of DMA blocks

`blockEvents`, `BlockOk`, `processed`, `heardAt`, `FlatLoss`, `RestLoss`: `Verif/Spec/Blocks.lean`; `Codes`, `RawCarries`, `BusPacket.RawOk`: `Verif/Spec/Raw.lean`.
-/
namespace P1P2

theorem BlockOk.range {es : List (AdcEv × Bool)} (h : BlockOk es) : 9 ≤ deliveries 0 0 (es.map Prod.fst) ∧ deliveries 0 0 (es.map Prod.fst) < adcBlock := by
  obtain ⟨a, i, -, -⟩ := schedule_run (S := 32) (s := RxSystem.init (fun _ => 0) true) (ring := fun _ => 0) (h := fun _ => 0) (g := 4992)
    (fun _ => by show (-256 : Int) ≤ 0 ∧ (0 : Int) ≤ 255; decide) (fun _ => by show (-256 : Int) ≤ 0 ∧ (0 : Int) ≤ 255; decide) (by decide) es
    (AdcInv.start _ _ 426) rfl h.keeps
  have h1 := i.dle
  rw [h.all] at h1
  have h2 := h.lag
  have hB : 1000 ≤ adcBlock := by decide
  omega

/-- **C151.** From the start on, over any number of DMA blocks: if what the loop hears, the line without the samples lost at the end of each block, carries the
packets `ps` and nothing else, and no level changes around the losses, then the words for the other core are those of the packets, in order and without anything
else: line free, line busy, the bytes.  (The last word may be still pending.) -/
theorem C151_words {S : Nat} (hS : 8 ≤ S) (rxErr : Bool) {a c : Int} (h1 : 49 ≤ a) (h2 : a ≤ 88) {L : Nat → Level} {q : Nat → UInt8}
    (hq : Codes a c L q) {M : Nat} (hM : M + 70 ≤ 2 * 2 ^ S) (bs : List (List (AdcEv × Bool) × Bool)) (hbs : ∀ b ∈ bs, BlockOk b.1)
    (last : List (AdcEv × Bool)) (hk : keepsUp 254 0 0 (last.map Prod.fst)) (hf : FlatLoss L (processed bs))
    (ps : List BusPacket) (hp : ∀ p ∈ ps, p.RawOk) (hg : ∀ b ∈ ps.flatMap BusPacket.frames, b.1 ≤ M)
    (hc : RawCarries (fun k => L (heardAt (processed bs) k)) 0 (byteFrames (ps.flatMap BusPacket.frames)))
    (hN : rawEnd 0 (byteFrames (ps.flatMap BusPacket.frames)) + 378 ≤ (processed bs).sum + deliveries 0 0 (last.map Prod.fst))
    (hN' : (processed bs).sum + deliveries 0 0 (last.map Prod.fst) ≤ rawEnd 0 (byteFrames (ps.flatMap BusPacket.frames)) + M) :
    ∃ s outs, RxSystem.run S (RxSystem.init (fun _ => 0) rxErr) (blockEvents (fun k => Pio.sampleValue k (q k)) bs last) = .ok (s, outs) ∧
      sent outs ++ (if s.core.word = .zero then [] else [s.core.word]) =
        (ps.flatMap fun p => wFree :: wBusy :: p.bytes.map wByte) ++ [wFree] := by
  have hr : SampleRange fun k => Pio.sampleValue k (q k) := fun k => C41_conversion k (q k)
  have h0 : SampleRange fun _ => 0 := fun _ => by show (-256 : Int) ≤ 0 ∧ (0 : Int) ≤ 255; decide
  have hi := HistOk.init (S := S) h0 rxErr
  obtain ⟨is, ad, c1, outs, r1, r2, r3, r4⟩ := blocks_run (S := S) hS bs (last := last) h0 hr (AdcInv.start _ _ 426) rfl hi.adc hi.core hbs hk
  refine ⟨_, outs, r2, ?_⟩
  have hd : ∀ d ∈ processed bs, 9 ≤ d ∧ d < adcBlock := by
    intro d hd
    unfold processed at hd
    obtain ⟨b, hb, rfl⟩ := List.mem_map.mp hd
    exact (hbs b hb).range
  generalize (processed bs).sum + deliveries 0 0 (last.map Prod.fst) = N at *
  generalize processed bs = ds at *
  have r4 : samplesOf is = (List.range N).map fun k => rawMv q (heardAt ds k) := r4
  obtain ⟨xs, tr, k1, k2, k3⟩ := run_ac _ r1
  rw [r4] at k1
  have hvb : ∀ k, -9984 ≤ rawMv q (heardAt ds k) ∧ rawMv q (heardAt ds k) ≤ 9984 := fun k => rawMv_bound q _
  obtain ⟨f, e3⟩ := front_run hvb N
  have k1 : RxFront.run .init _ = _ := k1
  rw [e3] at k1
  simp only [Res.ok.injEq, Prod.mk.injEq] at k1
  obtain ⟨-, rfl⟩ := k1
  have hsm : ∀ k, k < 9 → heardAt ds k = k := fun k hk => heardAt_small (fun d h => (hd d h).1) hk
  obtain ⟨t, tr', t1, t2⟩ := mv_tail hS rxErr h1 h2 hq hvb (fun k hk => by rw [hsm k hk]) (fun k hk => by rw [hsm k hk]) (heard_mv hd (fun i _ => raw_mv hq i) hf)
    hM hp hg hc hN hN'
  have k2 : (C1Tail.init rxErr).run S _ = .ok (c1.tail, tr) := k2
  rw [k2] at t1
  simp only [Res.ok.injEq, Prod.mk.injEq] at t1
  obtain ⟨-, rfl⟩ := t1
  have := k3 (fun w => if w = .zero then [] else [w]) (if_pos rfl) (Or.inr r3)
  have hflat : ∀ l : List Word, l.flatMap (fun w => if w = .zero then [] else [w]) = nonzero l := by
    intro l
    induction l with
    | nil => rfl
    | cons w l ih =>
      rw [List.flatMap_cons, ih]
      unfold nonzero
      by_cases hw : w = .zero
      · rw [if_pos hw, List.filter_cons_of_neg (by simpa using hw)]; rfl
      · rw [if_neg hw, List.filter_cons_of_pos (by simpa using hw)]; rfl
  rw [hflat, hflat, t2] at this
  have hz : nonzero (sent outs) = sent outs := by
    unfold nonzero
    rw [List.filter_eq_self]
    intro w hw
    simpa using sent_nonzero _ r1 w hw
  rw [hz] at this
  refine Eq.trans this ?_
  show (if Word.zero = Word.zero then [] else [Word.zero]) ++ _ = _
  rw [if_pos rfl]
  rfl

theorem processed_range {bs : List (List (AdcEv × Bool) × Bool)} (h : ∀ b ∈ bs, BlockOk b.1) : ∀ d ∈ processed bs, adcBlock ≤ d + 255 ∧ d < adcBlock := by
  intro d hd
  unfold processed at hd
  obtain ⟨b, hb, rfl⟩ := List.mem_map.mp hd
  have := (h b hb).range
  have := (h b hb).lag
  omega

/-- **C151.** From the start on, over any number of DMA blocks: if the bus carries the packets `ps` and nothing else, and is silent around the end of each block,
for 700 codes before the samples that are lost and two codes after them, then the words for the other core are those of the packets, in order and without anything
else: line free, line busy, the bytes.  (The last word may be still pending.) -/
theorem C151_rested {S : Nat} (hS : 8 ≤ S) (rxErr : Bool) {a c : Int} (h1 : 49 ≤ a) (h2 : a ≤ 88) {L : Nat → Level} {q : Nat → UInt8}
    (hq : Codes a c L q) {M : Nat} (hM : M + 70 ≤ 2 * 2 ^ S) (bs : List (List (AdcEv × Bool) × Bool)) (hbs : ∀ b ∈ bs, BlockOk b.1)
    (last : List (AdcEv × Bool)) (hk : keepsUp 254 0 0 (last.map Prod.fst)) (hf : RestLoss L (processed bs))
    (ps : List BusPacket) (hp : ∀ p ∈ ps, p.RawOk) (hg : ∀ b ∈ ps.flatMap BusPacket.frames, b.1 ≤ M)
    (hc : RawCarries L 0 (byteFrames (ps.flatMap BusPacket.frames)))
    (hN : rawEnd 0 (byteFrames (ps.flatMap BusPacket.frames)) + 378 ≤ (processed bs).sum + deliveries 0 0 (last.map Prod.fst))
    (hN' : (processed bs).sum + deliveries 0 0 (last.map Prod.fst) + 255 * bs.length ≤ rawEnd 0 (byteFrames (ps.flatMap BusPacket.frames)) + M) :
    ∃ s outs, RxSystem.run S (RxSystem.init (fun _ => 0) rxErr) (blockEvents (fun k => Pio.sampleValue k (q k)) bs last) = .ok (s, outs) ∧
      sent outs ++ (if s.core.word = .zero then [] else [s.core.word]) =
        (ps.flatMap fun p => wFree :: wBusy :: p.bytes.map wByte) ++ [wFree] := by
  have hd := processed_range hbs
  have hl : (processed bs).length = bs.length := List.length_map ..
  obtain ⟨fs', k1, k2, k3, k4⟩ := heard_line hd hf _ hc
  obtain ⟨qs, q1, q2, q3⟩ := Shorter.packets hp k2
  rw [← bytesEnd_raw] at k3
  rw [← bytesEnd_raw, ← bytesEnd_raw, hl] at k4
  rw [← bytesEnd_raw] at k3
  have hg' := k2.le hg
  rw [← q1] at k1 k3 k4 hg'
  obtain ⟨s, outs, r1, r2⟩ := C151_words hS rxErr h1 h2 hq hM bs hbs last hk (hf.flat fun d h => (hd d h).2) qs q2 hg' k1 (by omega) (by omega)
  refine ⟨s, outs, r1, ?_⟩
  rw [r2]
  congr 1
  have : ∀ {xs ys : List BusPacket}, xs.map BusPacket.bytes = ys.map BusPacket.bytes →
      (xs.flatMap fun p => wFree :: wBusy :: p.bytes.map wByte) = ys.flatMap fun p => wFree :: wBusy :: p.bytes.map wByte := by
    intro xs ys h
    have e : ∀ zs : List BusPacket, (zs.flatMap fun p => wFree :: wBusy :: p.bytes.map wByte) = (zs.map BusPacket.bytes).flatMap fun b => wFree :: wBusy :: b.map wByte := by
      intro zs
      induction zs with
      | nil => rfl
      | cons z zs ih => rw [List.flatMap_cons, List.map_cons, List.flatMap_cons, ih]
    rw [e, e, h]
  exact this q3

end P1P2
