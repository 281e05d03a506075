import Verif.Props.LongRun
import Verif.Props.RecoverDemo
/-!
# A device that meets the hypotheses of C149: the block of the DMA ends in the middle of a pulse of the first byte
-/
namespace P1P2

/-- Conversions and iterations differ by at most `k` in every beginning. -/
def EvenBy (k : Nat) (xs : List BoardStep) : Prop := ∀ p r, xs = p ++ r → looksIn p ≤ (converted p).length + k ∧ (converted p).length ≤ looksIn p + k

theorem EvenBy.append {k j : Nat} {a b : List BoardStep} (ha : EvenBy k a) (hb : EvenBy j b) : EvenBy (k + j) (a ++ b) := by
  intro p r e
  rcases List.append_eq_append_iff.mp e with ⟨q, h1, h2⟩ | ⟨q, h1, h2⟩
  · have x := ha a [] (by simp)
    have y := hb q r h2
    rw [h1, looksIn_append, converted_append]
    omega
  · have x := ha p q h1
    omega

theorem EvenBy.fast {k : Nat} {xs : List BoardStep} (h : EvenBy k xs) (hk : 2 * k ≤ 906) : FastEnough xs := by
  intro a b c e
  have h1 := h a (b ++ c) (by rw [e, List.append_assoc])
  have h2 := h (a ++ b) c e
  rw [looksIn_append, converted_append] at h2
  omega

theorem shift_long {G B : Nat} (hG : G + 500 = B) (hB : 5000 ≤ B) : 0 + (G + 499) < B ∧ 0 + (G + 499) = B - 1 ∧ 0 + 1500 < B ∧ G + 499 + 1 = B ∧ G + 499 + 1 + 1500 = B + 1500 ∧ B - 1 + 1 = B := by omega

theorem atOnceIdle_written (n : Nat) : ∀ k : Nat, written k k ((atOnceIdle n).map Prod.fst) = k + n := by
  induction n with
  | zero => intro k; show written k k [.poll 0] = k; simp [written]
  | succ n ih =>
    intro k
    have e : (atOnceIdle (n + 1)).map Prod.fst = .write :: .poll 0 :: (atOnceIdle n).map Prod.fst := rfl
    rw [e]
    simp only [written, if_neg (show ¬ k + 1 = k by omega)]
    rw [Nat.add_zero, ih]; omega

/-- A run in which a block of the DMA ends. -/
theorem block_device {h : Nat → Int} (hh : SampleRange h) {n m B : Nat} (hB : B = adcBlock) (hn : n + 1 = B) (hm : m < B) : ∃ (bm t : Board) (xs1 : List BoardStep) (os1 : List BoardOut)
    (xs2 : List BoardStep) (os2 : List BoardOut),
    (Board.init (fun _ => 0) true (fun _ => 0) .zero 0 0).run 32 .arm (fun _ => 0) xs1 = .ok (some (bm, os1)) ∧ bm.rx.adc.behind = 0 ∧
    bm.run 32 .arm (fun _ => 0) (.convert (h n) :: ([] ++ .receive [] :: xs2)) = .ok (some (t, os2)) ∧ converted xs1 = (List.range n).map h ∧ converted xs2 = nextSamples (fun k => h (B + k)) 0 m ∧
    (∀ o ∈ os1 ++ os2, o.behind ≤ 253) ∧ FastEnough (xs1 ++ .convert (h n) :: ([] ++ .receive [] :: xs2)) ∧
    (t.rx.adc.behind = 0 ∧ t.rx.core.word = .zero ∧ t.main.fifo = [] ∧ t.main.pc = .top) ∧ ∀ m ∈ rxMsgs ((os1 ++ os2).flatMap BoardOut.reports), m.status ≠ 4 := by
  have h0 : SampleRange fun _ => 0 := fun _ => by show (-256 : Int) ≤ 0 ∧ (0 : Int) ≤ 255; decide
  obtain ⟨h3, hh3⟩ : ∃ h3 : Nat → Int, h3 = fun k => h (B + k) := ⟨_, rfl⟩
  have hr3 : SampleRange h3 := fun k => by rw [hh3]; exact hh _
  rw [← hh3]
  obtain ⟨m1, m2⟩ := atOnceIdle_ok n 0 (by omega)
  have m3 := atOnceIdle_written n 0
  obtain ⟨m4, m5⟩ := atOnceIdle_ok m 0 (by omega)
  -- the receive side
  have hrange : ∀ e ∈ scheduleEvents h 0 0 (atOnceIdle n) ++ ([.transfer (h n)] ++ ([.iterate true []] ++ scheduleEvents h3 0 0 (atOnceIdle m))), e.InRange := by
    intro e he
    rcases List.mem_append.mp he with he | he
    · exact schedule_range hh _ 0 0 e he
    · rcases List.mem_append.mp he with he | he
      · rw [List.mem_singleton] at he; subst he; exact hh n
      · rcases List.mem_append.mp he with he | he
        · rw [List.mem_singleton] at he; subst he; exact (fun v hv => (by cases hv))
        · exact schedule_range hr3 _ 0 0 e he
  obtain ⟨s', oall, hall⟩ := C41_no_undefined (S := 32) (by decide) (fun _ => 0) h0 true _ hrange
  obtain ⟨s1, outs1, o2, e1, e2, -⟩ := RxSystem.run_split _ hall
  obtain ⟨s2, ot, o3, e3, e4, -⟩ := RxSystem.run_split _ e2
  obtain ⟨s3, oi, outs2, e5, e6, -⟩ := RxSystem.run_split _ e4
  have inv0 : AdcInv (fun _ => 0) h 4992 0 0 (RxSystem.init (fun _ => 0) true).adc := AdcInv.start _ _ 426
  obtain ⟨ad, i1, i2, i3⟩ := schedule_run (S := 32) (s := RxSystem.init (fun _ => 0) true) h0 hh (by decide) (atOnceIdle n) inv0 rfl m1
  have had : s1.adc = ad := by
    rw [e1] at i3
    cases hcr : (RxSystem.init (fun _ => 0) true).core.run 32 (idealInputs 4992 (adcHist (fun _ => 0) h) 0 0 (atOnceIdle n)) with
    | ub => rw [hcr] at i3; cases i3
    | ok r =>
      rw [hcr] at i3
      simp only [Res.bind, Res.ok.injEq, Prod.mk.injEq] at i3
      rw [i3.1]
  subst had
  rw [m2, m3, Nat.zero_add] at i1
  have hs2 : s2 = { s1 with adc := s1.adc.write (h n) } := by
    rw [RxSystem.run, RxSystem.step, Res.ok_bind, RxSystem.run, Res.ok_bind] at e3
    simp only [Res.ok.injEq, Prod.mk.injEq] at e3
    exact e3.1.symm
  have invB := i1.write (by omega)
  rw [hn, show n = adcBlock - 1 by omega] at invB
  rw [show adcBlock - 1 = n by omega, hB] at invB
  rw [show n = adcBlock - 1 by omega] at invB
  obtain ⟨u1, inv2, -⟩ := block_next invB h3 (fun k => by rw [hh3, hB])
  rw [show adcBlock - 1 = n by omega] at u1 inv2
  obtain ⟨o4, y1, y2⟩ : ∃ o4, s2.step 32 (.iterate true []) = .ok (s3, some o4) ∧ oi = [o4] := by
    rw [RxSystem.run, Res.bind_eq_ok] at e5
    obtain ⟨r, h1, h2⟩ := e5
    simp only [RxSystem.run, Res.ok_bind, Res.ok.injEq, Prod.mk.injEq, List.append_nil] at h2
    obtain ⟨rfl, rfl⟩ := h2
    have h1' := h1
    rw [hs2, RxSystem.step] at h1'
    dsimp only at h1'
    rw [u1, Res.ok_bind] at h1'
    dsimp only at h1'
    rw [Res.bind_eq_ok] at h1'
    obtain ⟨c, -, h3⟩ := h1'
    simp only [Res.ok.injEq] at h3
    refine ⟨c.2, ?_, ?_⟩
    · rw [h1, ← h3]
    · rw [← h3]; rfl
  have ha3 : s3.adc = (s1.adc.write (h n)).restart := by
    have h1' := y1
    rw [hs2, RxSystem.step] at h1'
    dsimp only at h1'
    rw [u1, Res.ok_bind] at h1'
    dsimp only at h1'
    rw [Res.bind_eq_ok] at h1'
    obtain ⟨c, -, h3⟩ := h1'
    simp only [Res.ok.injEq, Prod.mk.injEq] at h3
    rw [← h3.1]
  rw [← ha3] at inv2
  have herr : s3.adc.err = false := by rw [ha3]; exact (write_err _ _).trans i2
  have hdat : SampleRange (s1.adc.write (h n)).data := by
    obtain ⟨u, -⟩ := hist_run (S := 32) (by decide) _ (HistOk.init h0 true) (schedule_range hh (atOnceIdle n) 0 0) e1
    exact (u.adc.write (hh n)).data
  obtain ⟨ad5, -, -, j3⟩ := schedule_run (S := 32) (s := s3) hdat hr3 (by decide) (atOnceIdle m) inv2 herr m4
  obtain ⟨is, j4⟩ := atOnceIdle_last 4992 (adcHist (s1.adc.write (h n)).data h3) m 0
  have hz : s'.core.word = .zero := by
    rw [e6, j4] at j3
    cases hcr : s3.core.run 32 (is ++ [{ ready := true, adc := .none }]) with
    | ub => rw [hcr] at j3; cases j3
    | ok r =>
      rw [hcr] at j3
      simp only [Res.bind, Res.ok.injEq, Prod.mk.injEq] at j3
      rw [j3.1]
      exact Core1.idle_last is hcr
  -- the main loop
  obtain ⟨c, os0, g1⟩ := calm_run (outs1.map C1Out.word ++ ([o4.word] ++ outs2.map C1Out.word))
  rw [List.map_append, List.map_append] at g1
  obtain ⟨ca, p1, p2, g2, g3, -⟩ := Core0.run_append g1
  obtain ⟨cb, p3, p4, g4, g5, -⟩ := Core0.run_append g3
  obtain ⟨w1, w2⟩ := calm_silent _ g2 (by show 0 ≠ 4; decide)
  obtain ⟨w3, w4⟩ := calm_silent [o4.word] g4 w1
  obtain ⟨-, w6⟩ := calm_silent _ g5 w3
  rw [List.map_map] at g2 g5
  have g4 : ca.run .arm (fun _ => 0) [calmIter 0 o4.word] = .ok (cb, p3) := g4
  obtain ⟨cc, pq, pr, x1, x2, x3⟩ := Core0.run_cons g4
  simp only [Core0.run, Res.ok.injEq, Prod.mk.injEq] at x2
  obtain ⟨rfl, rfl⟩ := x2
  -- the device
  obtain ⟨l1, l2, os1, l3, l4, l5⟩ := prompt_run (S := 32) h0 hh n 0 (b := Board.init (fun _ => 0) true (fun _ => 0) .zero 0 0) e1 inv0 rfl (by omega) rfl rfl rfl g2
  obtain ⟨k1, k2, os3, k3, k4, k5⟩ := prompt_run (S := 32) hdat hr3 m 0 (b := { rx := s3, main := { (TwoCores.init (fun _ => 0) .zero 0 0 false) with c0 := cc } }) e6 inv2 herr (by omega) rfl rfl rfl g5
  obtain ⟨os4, n1, n2, n3⟩ := prompt_iteration (b := { rx := s2, main := { (TwoCores.init (fun _ => 0) .zero 0 0 false) with c0 := ca } }) y1 rfl rfl rfl x1
    (by rw [inv2.behind]; decide) k3
  have n4 : Board.run 32 .arm (fun _ => 0) { rx := s1, main := { (TwoCores.init (fun _ => 0) .zero 0 0 false) with c0 := ca } }
      (.convert (h n) :: .receive [] :: .first (env1 0 []) :: .clear :: .second (env2 0 o4.word) :: eachAtOnce h3 0 m outs2) =
      .ok (some ({ rx := s', main := { (TwoCores.init (fun _ => 0) .zero 0 0 false) with c0 := c } }, { reports := [], dropped := false, behind := s2.adc.behind } :: (os4 ++ os3))) := by
    rw [Board.run, Board.step, RxSystem.step, Res.ok_bind]
    dsimp only [Board.after]
    rw [Res.ok_bind]
    dsimp only
    rw [hs2] at n1 ⊢
    dsimp only at n1
    rw [n1]; rfl
  have hcv1 := eachAtOnce_converted h n 0 outs1 l1
  have hcv2 := eachAtOnce_converted h3 m 0 outs2 k1
  have hbh : s2.adc.behind ≤ 253 := by
    rw [hs2]
    show (s1.adc.write (h n)).behind ≤ 253
    have hx := invB.behind
    rw [show adcBlock - 1 = n by omega] at hx
    omega
  have hf : FastEnough (eachAtOnce h 0 n outs1 ++ ([.convert (h n), .receive [], .first (env1 0 []), .clear, .second (env2 0 o4.word)] ++ eachAtOnce h3 0 m outs2)) := by
    have a : EvenBy 1 (eachAtOnce h 0 n outs1) := eachAtOnce_even h n 0 outs1
    have c : EvenBy 1 (eachAtOnce h3 0 m outs2) := eachAtOnce_even h3 m 0 outs2
    have d : EvenBy 5 [.convert (h n), .receive [], .first (env1 0 []), .clear, .second (env2 0 o4.word)] := by
      intro p r e
      have hl : p.length + r.length = 5 := by
        have := congrArg List.length e
        rw [List.length_append] at this
        exact this.symm
      have hc : converted [.convert (h n), .receive [], .first (env1 0 []), .clear, .second (env2 0 o4.word)] = [h n] := rfl
      have hk : looksIn [.convert (h n), .receive [], .first (env1 0 []), .clear, .second (env2 0 o4.word)] = 1 := rfl
      rw [e, looksIn_append] at hk
      have hc := congrArg List.length hc
      rw [e, converted_append] at hc
      have hc : (converted p).length + (converted r).length = 1 := hc
      omega
    exact (a.append (d.append c)).fast (by decide)
  refine ⟨_, _, _, os1, .first (env1 0 []) :: .clear :: .second (env2 0 o4.word) :: eachAtOnce h3 0 m outs2, _, l3, l2, n4, ?_, hcv2, ?_, hf, ⟨k2, hz, rfl, rfl⟩, ?_⟩
  · rw [hcv1, nextSamples]
    simp only [Nat.zero_add]
  · intro o ho
    rcases List.mem_append.mp ho with ho | ho
    · exact l4 o ho
    · rcases List.mem_cons.mp ho with rfl | ho
      · exact hbh
      · exact (List.mem_append.mp ho).elim (n2 o) (k4 o)
  · intro m hm
    rw [List.flatMap_append, rxMsgs_append, l5, List.flatMap_cons, List.flatMap_append, n3, k5] at hm
    rcases List.mem_append.mp hm with hm | hm
    · exact w2 m hm
    · have hm : m ∈ rxMsgs (pq.reports ++ p4.flatMap Out2.reports) := hm
      rw [rxMsgs_append] at hm
      rcases List.mem_append.mp hm with hm | hm
      · exact w4 m (by rw [x3]; simpa using hm)
      · exact w6 m hm

theorem block_values {h : Nat → Int} {n B m N : Nat} (hn : n + 1 = B) (hN : B + m = N) {xs1 xs2 : List BoardStep} (h1 : converted xs1 = (List.range n).map h)
    (h2 : converted xs2 = nextSamples (fun k => h (B + k)) 0 m) : converted (xs1 ++ .convert (h n) :: ([] ++ .receive [] :: xs2)) = (List.range N).map h := by
  have e : converted (xs1 ++ .convert (h n) :: ([] ++ .receive [] :: xs2)) = converted xs1 ++ (h n :: converted xs2) := by rw [converted_two]; rfl
  subst hn hN
  rw [e, h1, h2, List.range_add, List.map_append, List.range_succ, List.map_append, List.append_assoc]
  congr 1
  show _ :: _ = _ :: _
  congr 1
  unfold nextSamples
  rw [List.map_map]
  refine List.map_congr_left fun i _ => ?_
  show h (n + 1 + (0 + i)) = h (n + 1 + i)
  rw [Nat.zero_add]

/-- A run of the device that meets the hypotheses of C149, without a history, and what the host is given: the block ends in the middle of the pulse of the third data bit of the byte 40, whose sample
`G + 499` is lost. -/
example (G : Nat) (hG : G + 500 = adcBlock) : ∃ (t : Board) (xs : List BoardStep) (os : List BoardOut) (K : List (Nat × List UInt8)),
    (Board.init (fun _ => 0) true (fun _ => 0) .zero 0 0).run 32 .arm (fun _ => 0) xs = .ok (some (t, os)) ∧ converted xs = (List.range (adcBlock + 1500)).map (shiftSamples G) ∧ FastEnough xs ∧
    (rxMsgs (os.flatMap BoardOut.reports)).map lineShown = K ++ [(0, [0x40, 0xF0])] := by
  have h0 : SampleRange fun _ => 0 := fun _ => by show (-256 : Int) ≤ 0 ∧ (0 : Int) ≤ 255; decide
  obtain ⟨-, -, -, -, y5, y6, y7, y8, y9, y10⟩ := shift_nums hG (by decide)
  obtain ⟨-, -, z3, z4, z5, -⟩ := shift_long hG (by decide)
  obtain ⟨bm, t, xs1, os1, xs2, os2, r1, r2, r3, r4, r5, r6, r7, r8, r9⟩ := block_device (shiftSamples_range G) (n := G + 499) (m := 1500) rfl z4 (by decide)
  have hl1 : (converted xs1).length = G + 499 := by rw [r4, List.length_map, List.length_range]
  have hl2 : (converted xs2).length = 1500 := by rw [r5, nextSamples_len]
  have hv : converted (xs1 ++ .convert (shiftSamples G (G + 499)) :: ([] ++ .receive [] :: xs2)) = (List.range (adcBlock + 1500)).map (shiftSamples G) := block_values z4 rfl r4 r5
  have hlen := congrArg List.length hv
  rw [List.length_map, List.length_range] at hlen
  obtain ⟨-, key⟩ := C149_block (S := 32) (by decide) h0 true .arm (fun _ => 0) .zero 0 0 [] [] (fun v hv => (by cases hv)) (fun v hv => (by cases hv)) rfl (.inl rfl) rfl
    ⟨rfl, rfl, rfl, rfl, by decide⟩ (fun _ => .inl rfl) (by decide) (by decide) (shiftSamples_range G) (shiftSamples_ok G) (M := adcBlock) (by decide) [shiftPacket G]
    (by intro p hp; rw [List.mem_singleton] at hp; subst hp; exact ⟨(shiftPacket_ok y8).1, (shiftPacket_ok y8).2, (by show (2 : Nat) ≤ 31; decide)⟩) (shift_gaps y9 y10) (shiftLine_carries G)
    (by intro p hp; cases hp; exact y8) xs1 bm os1 r1 (by rw [hl1]; exact z4) r2 (shiftSamples G (G + 499)) [] (fun x hx => (by cases hx)) (by rw [hl1]; exact shiftLine_cut G) xs2 t os2 r3 rfl
    (by rw [hlen]; exact hv) (by rw [hl2]; decide) (by rw [hlen]; exact y5) (by rw [hlen, shift_end]; exact y6) (by rw [hlen, shift_end]; exact y7) r6 r7 r8
  obtain ⟨K, hK⟩ := key r9
  exact ⟨t, _, _, K, Board.run_append xs1 r1 r3, hv, r7, hK⟩

end P1P2
