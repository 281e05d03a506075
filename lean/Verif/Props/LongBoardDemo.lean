import Verif.Props.LongBoard
import Verif.Props.BlocksDemo
/-!
# C152: a device that meets the hypotheses, for any number of DMA blocks with a packet in each
-/
namespace P1P2

/-- Looks and conversions keep step, in each stretch. -/
structure Steady (xs : List BoardStep) : Prop where
  pre : ∀ p r, xs = p ++ r → (converted p).length ≤ looksIn p + 6
  suf : ∀ p r, xs = p ++ r → (converted r).length ≤ looksIn r + 6
  sub : ∀ p s r, xs = p ++ s ++ r → (converted s).length ≤ looksIn s + 12
  tot : (converted xs).length ≤ looksIn xs

theorem EvenBy.steady {xs : List BoardStep} (h : EvenBy 6 xs) (ht : (converted xs).length ≤ looksIn xs) : Steady xs := by
  refine ⟨fun p r e => (h p r e).2, fun p r e => ?_, fun p s r e => ?_, ht⟩
  · have h1 := h p r e
    rw [e, looksIn_append, converted_append] at ht
    omega
  · have h1 := h p (s ++ r) (by rw [e, List.append_assoc])
    have h2 := h (p ++ s) r e
    rw [looksIn_append, converted_append] at h2
    omega

theorem Steady.append {a b : List BoardStep} (ha : Steady a) (hb : Steady b) : Steady (a ++ b) := by
  refine ⟨fun p r e => ?_, fun p r e => ?_, fun p s r e => ?_, ?_⟩
  · rcases List.append_eq_append_iff.mp e with ⟨q, h1, h2⟩ | ⟨q, h1, h2⟩
    · have x := ha.tot
      have y := hb.pre q r h2
      rw [h1, looksIn_append, converted_append]
      omega
    · exact ha.pre p q h1
  · rcases List.append_eq_append_iff.mp e with ⟨q, h1, h2⟩ | ⟨q, h1, h2⟩
    · exact hb.suf q r h2
    · have x := hb.tot
      have y := ha.suf p q h1
      rw [h2, looksIn_append, converted_append]
      omega
  · rcases List.append_eq_append_iff.mp e with ⟨q, h1, h2⟩ | ⟨q, h1, h2⟩
    · -- the stretch ends in b
      rcases List.append_eq_append_iff.mp h1 with ⟨u, h3, h4⟩ | ⟨u, h3, h4⟩
      · have x := ha.suf p u h3
        have y := hb.pre q r h2
        rw [h4, looksIn_append, converted_append]
        omega
      · exact hb.sub u s r (by rw [h2, h4])
    · exact ha.sub p s q h1
  · have x := ha.tot
    have y := hb.tot
    rw [looksIn_append, converted_append]
    omega

theorem Steady.fast {xs : List BoardStep} (h : Steady xs) : FastEnough xs := by
  intro p s r e
  have := h.sub p s r e
  omega

/-- A main loop that only takes words. -/
def Calm (c : Core0) : Prop := ∃ (ws : List (Option Word)) (os : List Out2), (Core0.init (fun _ => 0) .zero 0 0).run .arm (fun _ => 0) (ws.map fun w => calmIter 0 w) = .ok (c, os)

theorem calm_next {c : Core0} (h : Calm c) (ws : List (Option Word)) : ∃ c' os, c.run .arm (fun _ => 0) (ws.map fun w => calmIter 0 w) = .ok (c', os) ∧ Calm c' ∧
    ∀ m ∈ rxMsgs (os.flatMap Out2.reports), m.status ≠ 4 := by
  obtain ⟨ws0, os0, h0⟩ := h
  obtain ⟨c', os, g1⟩ := calm_run (ws0 ++ ws)
  have g0 := g1
  rw [List.map_append] at g1
  obtain ⟨ca, p1, p2, g2, g3, -⟩ := Core0.run_append g1
  rw [h0] at g2
  simp only [Res.ok.injEq, Prod.mk.injEq] at g2
  obtain ⟨rfl, rfl⟩ := g2
  exact ⟨c', p2, g3, ⟨_, _, g0⟩, (calm_silent _ g3 (calm_silent _ h0 (by show 0 ≠ 4; decide)).1).2⟩

theorem calm_one {c : Core0} (h : Calm c) (w : Option Word) : ∃ r : Core0 × Out2, c.iter .arm (fun _ => 0) (calmIter 0 w) = .ok r ∧ Calm r.1 ∧ ∀ m ∈ rxMsgs r.2.reports, m.status ≠ 4 := by
  obtain ⟨c', os, h1, h2, h3⟩ := calm_next h [w]
  obtain ⟨cc, pq, pr, x1, x2, x3⟩ := Core0.run_cons h1
  simp only [List.map_nil, Core0.run, Res.ok.injEq, Prod.mk.injEq] at x2
  obtain ⟨rfl, rfl⟩ := x2
  refine ⟨(cc, pq), x1, h2, ?_⟩
  rw [x3] at h3
  simpa using h3

/-- The last steps of a block. -/
def blockTail (v : Int) (w : Option Word) : List BoardStep := [.convert v, .receive [], .first (env1 0 []), .clear, .second (env2 0 w)]

theorem eachAtOnce_looks (h : Nat → Int) : ∀ (n k : Nat) (os : List C1Out), os.length = n + 1 → looksIn (eachAtOnce h k n os) = n + 1 := by
  intro n
  induction n with
  | zero =>
    intro k os hl
    cases os with
    | nil => cases hl
    | cons o os => rfl
  | succ n ih =>
    intro k os hl
    cases os with
    | nil => cases hl
    | cons o os =>
      have := ih (k + 1) os (by simpa using hl)
      show looksIn ([.convert (h k), .receive [], .first (env1 0 []), .clear, .second (env2 0 o.word)] ++ eachAtOnce h (k + 1) n os) = _
      rw [looksIn_append, this]
      show 1 + (n + 1) = _
      omega

theorem blockTail_even (v : Int) (w : Option Word) : EvenBy 5 (blockTail v w) := by
  intro p r e
  have hc : (converted (blockTail v w)).length = 1 := rfl
  have hk : looksIn (blockTail v w) = 1 := rfl
  rw [e, looksIn_append] at hk
  rw [e, converted_append] at hc
  omega

theorem nextSamples_shift (h : Nat → Int) (B m : Nat) : nextSamples (fun k => h (B + k)) 0 m = nextSamples h B m := by
  unfold nextSamples
  refine List.map_congr_left fun i _ => ?_
  show h (B + (0 + i)) = _
  rw [Nat.zero_add]

theorem long_device {m B : Nat} (hB : B = adcBlock) (hm : m < B) : ∀ (n : Nat) {ring h : Nat → Int} {b : Board}, SampleRange ring → SampleRange h → AdcInv ring h 4992 0 0 b.rx.adc →
    b.rx.adc.err = false → b.rx.adc.Ok → b.rx.core.Ok 32 → b.main.pc = .top → b.main.fifo = [] → b.main.fifoErr = false → Calm b.main.c0 →
    ∃ (xs : List BoardStep) (t : Board) (os : List BoardOut), b.run 32 .arm (fun _ => 0) xs = .ok (some (t, os)) ∧
      (∀ pre, converted pre = [] → ∃ cs last, pre ++ xs = boardSteps cs last ∧ cs.length = n ∧ (∀ c ∈ cs, CutOk c) ∧ (converted last).length = m) ∧
      converted xs = nextSamples h 0 (n * B + m) ∧ Steady xs ∧ (∀ o ∈ os, o.behind ≤ 253) ∧
      (t.rx.adc.behind = 0 ∧ t.rx.core.word = .zero ∧ t.main.fifo = [] ∧ t.main.pc = .top) ∧ ∀ m ∈ rxMsgs (os.flatMap BoardOut.reports), m.status ≠ 4 := by
  intro n
  induction n with
  | zero =>
    intro ring h b hr hh inv herr hok hcok hpc hfi hfe hcalm
    obtain ⟨m1, m2⟩ := atOnceIdle_ok m 0 (by omega)
    obtain ⟨s1, outs1, e1⟩ := rx_run_ok (S := 32) (by decide) _ hok hcok (schedule_range hh (atOnceIdle m) 0 0)
    obtain ⟨ad, i1, i2, i3⟩ := schedule_run (S := 32) hr hh (by decide) (atOnceIdle m) inv herr m1
    obtain ⟨is, j4⟩ := atOnceIdle_last 4992 (adcHist ring h) m 0
    have hz : s1.core.word = .zero := by
      rw [e1, j4] at i3
      cases hcr : b.rx.core.run 32 (is ++ [{ ready := true, adc := .none }]) with
      | ub => rw [hcr] at i3; cases i3
      | ok r =>
        rw [hcr] at i3
        simp only [Res.bind, Res.ok.injEq, Prod.mk.injEq] at i3
        rw [i3.1]
        exact Core1.idle_last is hcr
    obtain ⟨c, os0, g1, -, g3⟩ := calm_next hcalm (outs1.map C1Out.word)
    rw [List.map_map] at g1
    obtain ⟨l1, l2, os1, l3, l4, l5⟩ := prompt_run (S := 32) hr hh m 0 e1 inv herr (by omega) hpc hfi hfe g1
    have hcv := eachAtOnce_converted h m 0 outs1 l1
    refine ⟨_, _, os1, l3, fun pre hpre => ⟨[], _, rfl, rfl, (fun c hc => by cases hc), ?_⟩, ?_, ?_, l4, ⟨l2, hz, hfi, hpc⟩, ?_⟩
    · rw [converted_append, hpre, hcv, nextSamples_len]; simp
    · rw [hcv, Nat.zero_mul, Nat.zero_add]
    · refine EvenBy.steady (fun p r e => ?_) ?_
      · have := eachAtOnce_even h m 0 outs1 p r e
        unfold Even at this
        omega
      · rw [hcv, nextSamples_len, eachAtOnce_looks h m 0 outs1 l1]; omega
    · rw [l5]; exact g3
  | succ n ih =>
    intro ring h b hr hh inv herr hok hcok hpc hfi hfe hcalm
    have hB1 : B - 1 + 1 = B := by omega
    generalize hk : B - 1 = k at hB1
    obtain ⟨h3, hh3⟩ : ∃ h3 : Nat → Int, h3 = fun j => h (B + j) := ⟨_, rfl⟩
    have hr3 : SampleRange h3 := fun k => by rw [hh3]; exact hh _
    obtain ⟨m1, m2⟩ := atOnceIdle_ok k 0 (by omega)
    have m3 := atOnceIdle_written k 0
    obtain ⟨s1, outs1, e1⟩ := rx_run_ok (S := 32) (by decide) _ hok hcok (schedule_range hh (atOnceIdle k) 0 0)
    obtain ⟨ad, i1, i2, i3⟩ := schedule_run (S := 32) hr hh (by decide) (atOnceIdle k) inv herr m1
    obtain ⟨hok1, hcok1⟩ := run_ok_inv (S := 32) (by decide) _ (schedule_range hh (atOnceIdle k) 0 0) hok hcok e1
    have had : s1.adc = ad := by
      rw [e1] at i3
      cases hcr : b.rx.core.run 32 (idealInputs 4992 (adcHist ring h) 0 0 (atOnceIdle k)) with
      | ub => rw [hcr] at i3; cases i3
      | ok r =>
        rw [hcr] at i3
        simp only [Res.bind, Res.ok.injEq, Prod.mk.injEq] at i3
        rw [i3.1]
    subst had
    rw [m2, m3, Nat.zero_add] at i1
    have invB := i1.write (by omega)
    rw [hB1] at invB
    have hokw : (s1.adc.write (h k)).Ok := hok1.write (hh k)
    have herrw : (s1.adc.write (h k)).restart.err = false := (write_err _ _).trans i2
    have hbh : (s1.adc.write (h k)).behind ≤ 253 := by rw [invB.behind]; omega
    have hw0 : RxSystem.step 32 s1 (.transfer (h k)) = .ok ({ s1 with adc := s1.adc.write (h k) }, none) := rfl
    generalize s1.adc.write (h k) = ad2 at *
    have hbn := block_next' (a := ad2) (by rw [← hB]; exact invB) h3 (fun j => by rw [hh3, hB])
    obtain ⟨u1, inv2, -⟩ := hbn
    obtain ⟨s3, o4', q1, q2, q3⟩ := rx_step_ok (S := 32) (by decide) (s := { adc := ad2, core := s1.core }) hokw hcok1 (e := .iterate true []) (fun v hv => (by cases hv))
    have hj := q1
    rw [RxSystem.step] at hj
    dsimp only at hj
    rw [u1, Res.ok_bind] at hj
    dsimp only at hj
    rw [Res.bind_eq_ok] at hj
    obtain ⟨cc, -, hj⟩ := hj
    simp only [Res.ok.injEq, Prod.mk.injEq] at hj
    have ha3 : s3.adc = ad2.restart := by rw [← hj.1]
    obtain ⟨o4, rfl⟩ : ∃ o4, o4' = some o4 := ⟨_, hj.2.symm⟩
    rw [← ha3] at inv2 herrw
    -- the main loop
    obtain ⟨c, os0, g1, g2, g3⟩ := calm_next hcalm (outs1.map C1Out.word)
    rw [List.map_map] at g1
    obtain ⟨rc, x1, x2, x3⟩ := calm_one g2 o4.word
    obtain ⟨l1, l2, os1, l3, l4, l5⟩ := prompt_run (S := 32) hr hh k 0 e1 inv herr (by omega) hpc hfi hfe g1
    obtain ⟨xs, t, os, r1, r2, r3, r4, r5, r6, r7⟩ := ih (b := { rx := s3, main := { b.main with c0 := rc.1 } }) hokw.data hr3 inv2 herrw q2 q3 hpc hfi hfe x2
    obtain ⟨os4, n1, n2, n3⟩ := prompt_iteration (b := { rx := { adc := ad2, core := s1.core }, main := { b.main with c0 := c } }) q1 hpc hfi hfe x1 (by rw [inv2.behind]; decide) r1
    have n4 : Board.run 32 .arm (fun _ => 0) { rx := s1, main := { b.main with c0 := c } } (.convert (h k) :: .receive [] :: .first (env1 0 []) :: .clear :: .second (env2 0 o4.word) :: xs) =
        .ok (some (t, { reports := [], dropped := false, behind := ad2.behind } :: (os4 ++ os))) := by
      rw [Board.run, Board.step, hw0, Res.ok_bind]
      dsimp only [Board.after]
      rw [Res.ok_bind]
      dsimp only
      dsimp only at n1
      rw [n1]; rfl
    have hcv := eachAtOnce_converted h k 0 outs1 l1
    have hsplit : eachAtOnce h 0 k outs1 ++ (.convert (h k) :: .receive [] :: .first (env1 0 []) :: .clear :: .second (env2 0 o4.word) :: xs) =
        (eachAtOnce h 0 k outs1 ++ blockTail (h k) o4.word) ++ xs := by rw [List.append_assoc]; rfl
    refine ⟨_, _, _, Board.run_append _ l3 n4, fun pre hpre => ?_, ?_, ?_, fun o ho => ?_, r6, fun m hm => ?_⟩
    · obtain ⟨cs, last, y1, y2, y3, y4⟩ := r2 [.first (env1 0 []), .clear, .second (env2 0 o4.word)] rfl
      refine ⟨(pre ++ eachAtOnce h 0 k outs1, h k, []) :: cs, last, ?_, ?_, fun c hc => ?_, y4⟩
      · show _ = pre ++ eachAtOnce h 0 k outs1 ++ .convert (h k) :: ([] ++ .receive [] :: boardSteps cs last)
        rw [← y1, List.append_assoc]; rfl
      · rw [List.length_cons, y2]
      · rcases List.mem_cons.mp hc with rfl | hc
        · refine ⟨?_, fun x hx => (by cases hx)⟩
          show (converted (pre ++ eachAtOnce h 0 k outs1)).length + 1 = adcBlock
          rw [converted_append, hpre, hcv, nextSamples_len, List.length_nil]
          omega
        · exact y3 c hc
    · rw [converted_two, hcv]
      show nextSamples h 0 k ++ (h k :: converted xs) = _
      rw [r3, hh3, nextSamples_shift, Nat.succ_mul, show n * B + B + m = k + (1 + (n * B + m)) by omega, nextSamples_two h 0 k, nextSamples_two h (0 + k) 1, Nat.zero_add, hB1]
      rfl
    · rw [hsplit]
      refine Steady.append (EvenBy.steady ?_ ?_) r4
      · have a : EvenBy 1 (eachAtOnce h 0 k outs1) := eachAtOnce_even h k 0 outs1
        exact a.append (blockTail_even (h k) o4.word)
      · rw [converted_append, looksIn_append, hcv, nextSamples_len, eachAtOnce_looks h k 0 outs1 l1]
        show k + 1 ≤ k + 1 + 1
        omega
    · rcases List.mem_append.mp ho with ho | ho
      · exact l4 o ho
      · rcases List.mem_cons.mp ho with rfl | ho
        · exact hbh
        · exact (List.mem_append.mp ho).elim (n2 o) (r5 o)
    · rw [List.flatMap_append, rxMsgs_append, l5, List.flatMap_cons, List.flatMap_append, n3] at hm
      rcases List.mem_append.mp hm with hm | hm
      · exact g3 m hm
      · have hm : m ∈ rxMsgs (rc.2.reports ++ os.flatMap BoardOut.reports) := hm
        rw [rxMsgs_append] at hm
        exact (List.mem_append.mp hm).elim (x3 m) (r7 m)

theorem blockLine_silent {B : Nat} (h5 : 5000 ≤ B) : ∀ n i, 1 ≤ i → i ≤ n → ∀ j, i * B ≤ j + 955 → j < i * B + 2 → blockLine B n j = .mid := by
  intro n
  induction n with
  | zero => intro i h1 h2; omega
  | succ n ih =>
    intro i h1 h2 j h3 h4
    obtain ⟨i, rfl⟩ : ∃ k, i = k + 1 := ⟨i - 1, by omega⟩
    rw [Nat.succ_mul] at h3 h4
    by_cases hj : j < B
    · rw [show blockLine B (n + 1) j = rawLine j from if_pos hj]
      exact rawLine_late (by omega)
    · rw [show blockLine B (n + 1) j = blockLine B n (j - B) from if_neg hj]
      by_cases hi : i = 0
      · subst hi
        rw [blockLine_early h5 n (by omega)]
        unfold rawLine; rw [if_neg (by omega), if_neg (by omega)]
      · exact ih i (by omega) (by omega) (j - B) (by omega) (by omega)

/-- A run of the device over `n` blocks that meets the hypotheses of C152, with a packet 40 F0 in each block and in the one after them, and what the host is given: `n + 1` lines. -/
example (n : Nat) (hn : n ≤ 1000000) : ∃ (xs : List BoardStep) (t : Board) (os : List BoardOut),
    (Board.init (fun _ => 0) true (fun _ => 0) .zero 0 0).run 32 .arm (fun _ => 0) xs = .ok (some (t, os)) ∧ n * adcBlock ≤ (converted xs).length ∧
    (rxMsgs (os.flatMap BoardOut.reports)).map lineShown = List.replicate (n + 1) (0, [0x40, 0xF0]) := by
  obtain ⟨B, hB⟩ : ∃ B, B = adcBlock := ⟨_, rfl⟩
  have hB0 : B = 268435456 := hB
  obtain ⟨G, hG⟩ : ∃ G, B = G + 716 := ⟨B - 716, by omega⟩
  obtain ⟨m, hm⟩ : ∃ m, m = 1500 + 255 * n := ⟨_, rfl⟩
  have h0 : SampleRange fun _ => 0 := fun _ => by show (-256 : Int) ≤ 0 ∧ (0 : Int) ≤ 255; decide
  obtain ⟨q, hqd⟩ : ∃ q, q = codesOf (blockLine B n) := ⟨_, rfl⟩
  have hq : Codes 60 127 (blockLine B n) q := by rw [hqd]; exact codesOf_ok (blockLine B n)
  have hok := HistOk.init (S := 32) h0 true
  obtain ⟨xs, t, os, r1, r2, r3, r4, r5, r6, r7⟩ := long_device hB (m := m) (by omega) n (h := fun k => Pio.sampleValue k (q k)) (b := Board.init (fun _ => 0) true (fun _ => 0) .zero 0 0)
    h0 (fun k => C41_conversion k (q k)) (AdcInv.start _ _ 426) rfl hok.adc (Core1.Ok.init 32 true) rfl rfl rfl ⟨[], [], rfl⟩
  obtain ⟨cs, last, y1, y2, y3, y4⟩ := r2 [] rfl
  rw [List.nil_append] at y1
  have hlen : (converted xs).length = n * B + m := by rw [r3, nextSamples_len]
  rw [y1] at r1 r3 r4 hlen
  have hend := blockPackets_end hG n
  have hmem : ∀ p ∈ blockPackets G n, p = rawPacket ∨ p = { gap := G, pol := true, first := 0x40, rest := [(20, true, 0xF0)] } := by
    intro p hp
    rcases List.mem_cons.mp hp with rfl | hp
    · exact Or.inl rfl
    · exact Or.inr (List.eq_of_mem_replicate hp)
  have key := C152_device (S := 32) (by decide) true (by decide) (by decide) hq (M := 8500000000) (by decide) (blockPackets G n)
    (fun p hp => by
      rcases hmem p hp with rfl | rfl
      · exact ⟨⟨by decide, by decide, by decide⟩, by decide⟩
      · exact ⟨⟨by show 350 ≤ G; omega, by show (20 + 10 + 0 : Nat) ≤ 345; decide, fun b hb => by rw [List.mem_singleton] at hb; rw [hb]⟩, by show (2 : Nat) ≤ 31; decide⟩)
    (fun b hb => by
      obtain ⟨p, hp, hb⟩ := List.mem_flatMap.mp hb
      rcases hmem p hp with rfl | rfl
      · have : ∀ b ∈ rawPacket.frames, b.1 ≤ 8500000000 := by decide
        exact this b hb
      · rcases List.mem_cons.mp hb with rfl | hb
        · show G ≤ 8500000000; omega
        · rw [List.mem_singleton] at hb; rw [hb]; show 20 ≤ 8500000000; decide)
    (blockLine_carries hG (by omega) n) .arm (fun _ => 0) .zero 0 0 cs last y3 (by rw [y2, ← hB]; exact blockLine_silent (by omega) n) t os r1
    (by rw [hlen, r3, nextSamples]; simp only [Nat.zero_add]) (by rw [y4, ← hB]; omega) (by rw [hend, hlen, y2]; omega) (by rw [hend, hlen, y2]; omega) r5 r4.fast r6 r7
  refine ⟨_, t, os, r1, by rw [hlen, ← hB]; omega, key.trans ?_⟩
  unfold blockPackets
  rw [List.map_cons, List.map_replicate, List.replicate_succ]
  rfl

end P1P2
