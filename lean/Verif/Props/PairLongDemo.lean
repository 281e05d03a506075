import Verif.Props.PairLong
import Verif.Props.PairHealDemo
import Verif.Props.LongRunDemo
/-!
# Two modems that meet the hypotheses of C150

The sender is that of C134: the packet 40 F0, and after a pause 00 10.  The receiver has seen a silent bus until 1001 conversions before the end of the block of the DMA, which then ends in the pause.
-/
namespace P1P2
open Spec

theorem schedule_congr {h h' : Nat → Int} : ∀ (n k : Nat), (∀ j, k ≤ j → j < k + n → h j = h' j) → scheduleEvents h k k (atOnceIdle n) = scheduleEvents h' k k (atOnceIdle n) := by
  intro n
  induction n with
  | zero => intro k _; show scheduleEvents h k k [(.poll 0, true)] = scheduleEvents h' k k [(.poll 0, true)]; simp [scheduleEvents]
  | succ n ih =>
    intro k hk
    have e : ∀ h : Nat → Int, scheduleEvents h k k (atOnceIdle (n + 1)) = .transfer (h k) :: .iterate true [] :: scheduleEvents h (k + 1) (k + 1) (atOnceIdle n) := by
      intro h
      have e : atOnceIdle (n + 1) = (.write, true) :: (.poll 0, true) :: atOnceIdle n := rfl
      rw [e]
      simp only [scheduleEvents, if_neg (show ¬ k + 1 = k by omega), Nat.add_zero]
      rfl
    rw [e, e, hk k (Nat.le_refl _) (by omega), ih (k + 1) fun j h1 h2 => hk j (by omega) (by omega)]

theorem taken_four (v : Int) (w : Option Word) (xs : List BoardStep) : taken (.convert v :: .receive [] :: .first (env1 0 []) :: .clear :: .second (env2 0 w) :: xs) = w.toList ++ taken xs := by
  have e : taken [.convert v, .receive [], .first (env1 0 []), .clear, .second (env2 0 w)] = w.toList := by
    have e : (env2 0 w).word = w := rfl
    unfold taken
    simp only [List.filterMap_cons, List.filterMap_nil, e]
    cases w <;> rfl
  rw [← e]
  exact List.filterMap_append (l := [.convert v, .receive [], .first (env1 0 []), .clear, .second (env2 0 w)]) (l' := xs)

theorem sent_cons (o : C1Out) (os : List C1Out) : sent (o :: os) = o.word.toList ++ sent os := by
  unfold sent
  rw [List.filterMap_cons]
  cases o.word <;> rfl

theorem eachAtOnce_taken (h : Nat → Int) : ∀ (n k : Nat) (os : List C1Out), os.length = n + 1 → taken (eachAtOnce h k n os) = sent os := by
  intro n
  induction n with
  | zero =>
    intro k os hl
    cases os with
    | nil => cases hl
    | cons o os =>
      have : os = [] := List.length_eq_zero_iff.mp (by simpa using hl)
      subst this
      exact (taken_four 0 o.word []).trans (sent_cons o []).symm
  | succ n ih =>
    intro k os hl
    cases os with
    | nil => cases hl
    | cons o os =>
      have hl' : os.length = n + 1 := by simpa using hl
      rw [eachAtOnce, taken_four, ih _ _ hl', sent_cons]

/-- On a silent bus the receiver says nothing, or it says at last that the line is free. -/
theorem silent_words {N : Nat} (hN : 1920 ≤ N) (hN' : N < adcBlock) {s1 : RxSystem} {outs1 : List C1Out}
    (e1 : (RxSystem.init (fun _ => 0) true).run 32 (scheduleEvents (pulsesOn fun _ => .mid) 0 0 (atOnceIdle N)) = .ok (s1, outs1)) (hz : s1.core.word = .zero) :
    sent outs1 = [] ∨ ∃ Z, sent outs1 = Z ++ [wFree] := by
  have h0 : SampleRange fun _ => 0 := fun _ => by show (-256 : Int) ≤ 0 ∧ (0 : Int) ≤ 255; decide
  obtain ⟨m1, m2⟩ := atOnceIdle_ok N 0 (by omega)
  obtain ⟨s', outs, Y, q1, q2, q3⟩ := C122_words (S := 32) (by decide) h0 (rxErr := true) (p1 := []) (p2 := []) (fun e he => (by cases he)) (fun e he => (by cases he))
    (s1 := RxSystem.init (fun _ => 0) true) (s := RxSystem.init (fun _ => 0) true) (o1 := []) (o2 := []) rfl (.inl rfl) rfl (a := 60) (c := 127) (by decide) (by decide)
    (L := fun _ => .mid) (pulsesOn_range _) (pulsesOn_ok _) (M := adcBlock) (by show (0 : Nat) + 268435456 + 2200 ≤ _; decide) (ps := []) (fun p hp => (by cases hp))
    (fun b hb => (by cases hb)) (fun k _ => rfl) (fun p hp => (by cases hp)) (W := 0) (D := 0) (Nat.sub_self _).symm (Nat.sub_self _).symm (es := atOnceIdle N) m1 (N := N) (by rw [m2]) hN
    (by show 0 + 378 ≤ N; omega) (by show N ≤ 0 + adcBlock; omega)
  have q1 : (RxSystem.init (fun _ => 0) true).run 32 (scheduleEvents (pulsesOn fun _ => .mid) 0 0 (atOnceIdle N)) = .ok (s', outs) := q1
  rw [e1] at q1
  simp only [Res.ok.injEq, Prod.mk.injEq] at q1
  obtain ⟨rfl, rfl⟩ := q1
  rw [if_pos hz, List.append_nil] at q2
  have q2 : sent outs1 = [] ++ Y ++ [] := q2
  rw [List.append_nil, List.nil_append] at q2
  rw [q2]
  exact q3.imp (fun h => h.1) id

/-- A run with a silent bus at first, in which a block of the DMA ends. -/
theorem silent_block {h : Nat → Int} (hh : SampleRange h) {n0 K n m B : Nat} (hB : B = adcBlock) (hn0 : n0 + K = n) (hn : n + 1 = B) (hm : m < B) (h1920 : 1920 ≤ n0)
    (hsil : ∀ k, k < n0 → h k = pulsesOn (fun _ => .mid) k) : ∃ (hist : List BoardStep) (b bm t : Board) (o : List BoardOut) (xs1 : List BoardStep) (os1 : List BoardOut)
    (xs2 : List BoardStep) (os2 : List BoardOut),
    (Board.init (fun _ => 0) true (fun _ => 0) .zero 0 0).run 32 .arm (fun _ => 0) hist = .ok (some (b, o)) ∧ converted hist = nextSamples h 0 n0 ∧
    (taken hist = [] ∨ ∃ Z, taken hist = Z ++ [wFree]) ∧
    (b.main.pc = .top ∧ b.main.fifo = [] ∧ b.main.fifoErr = false ∧ b.rx.core.word = .zero ∧ b.rx.adc.behind ≤ 253) ∧ b.rx.adc.tcHw = B - n0 ∧
    b.run 32 .arm (fun _ => 0) xs1 = .ok (some (bm, os1)) ∧ bm.rx.adc.behind = 0 ∧
    bm.run 32 .arm (fun _ => 0) (.convert (h n) :: ([] ++ .receive [] :: xs2)) = .ok (some (t, os2)) ∧ converted xs1 = nextSamples h n0 K ∧ converted xs2 = nextSamples (fun k => h (B + k)) 0 m ∧
    (∀ o ∈ os1 ++ os2, o.behind ≤ 253) ∧ FastEnough (xs1 ++ .convert (h n) :: ([] ++ .receive [] :: xs2)) ∧
    (t.rx.adc.behind = 0 ∧ t.rx.core.word = .zero ∧ t.main.fifo = [] ∧ t.main.pc = .top) ∧ ∀ m ∈ rxMsgs ((os1 ++ os2).flatMap BoardOut.reports), m.status ≠ 4 := by
  have h0 : SampleRange fun _ => 0 := fun _ => by show (-256 : Int) ≤ 0 ∧ (0 : Int) ≤ 255; decide
  obtain ⟨h3, hh3⟩ : ∃ h3 : Nat → Int, h3 = fun k => h (B + k) := ⟨_, rfl⟩
  have hr3 : SampleRange h3 := fun k => by rw [hh3]; exact hh _
  rw [← hh3]
  obtain ⟨a1, a2⟩ := atOnceIdle_ok n0 0 (by omega)
  have a3 := atOnceIdle_written n0 0
  obtain ⟨m1, m2⟩ := atOnceIdle_ok K n0 (by omega)
  have m3 := atOnceIdle_written K n0
  obtain ⟨m4, m5⟩ := atOnceIdle_ok m 0 (by omega)
  -- the receive side
  have hrange : ∀ e ∈ scheduleEvents h 0 0 (atOnceIdle n0) ++ (scheduleEvents h n0 n0 (atOnceIdle K) ++ ([.transfer (h n)] ++ ([.iterate true []] ++ scheduleEvents h3 0 0 (atOnceIdle m)))), e.InRange := by
    intro e he
    rcases List.mem_append.mp he with he | he
    · exact schedule_range hh _ 0 0 e he
    rcases List.mem_append.mp he with he | he
    · exact schedule_range hh _ n0 n0 e he
    · rcases List.mem_append.mp he with he | he
      · rw [List.mem_singleton] at he; subst he; exact hh n
      · rcases List.mem_append.mp he with he | he
        · rw [List.mem_singleton] at he; subst he; exact (fun v hv => (by cases hv))
        · exact schedule_range hr3 _ 0 0 e he
  obtain ⟨s', oall, hall⟩ := C41_no_undefined (S := 32) (by decide) (fun _ => 0) h0 true _ hrange
  obtain ⟨s0, outs0, o1, e0, e0', -⟩ := RxSystem.run_split _ hall
  obtain ⟨s1, outs1, o2, e1, e2, -⟩ := RxSystem.run_split _ e0'
  obtain ⟨s2, ot, o3, e3, e4, -⟩ := RxSystem.run_split _ e2
  obtain ⟨s3, oi, outs2, e5, e6, -⟩ := RxSystem.run_split _ e4
  have inv00 : AdcInv (fun _ => 0) h 4992 0 0 (RxSystem.init (fun _ => 0) true).adc := AdcInv.start _ _ 426
  obtain ⟨ad0, c1, c2, c3⟩ := schedule_run (S := 32) (s := RxSystem.init (fun _ => 0) true) h0 hh (by decide) (atOnceIdle n0) inv00 rfl a1
  obtain ⟨is0, c4⟩ := atOnceIdle_last 4992 (adcHist (fun _ => 0) h) n0 0
  have had0 : s0.adc = ad0 ∧ s0.core.word = .zero := by
    rw [e0, c4] at c3
    cases hcr : (RxSystem.init (fun _ => 0) true).core.run 32 (is0 ++ [{ ready := true, adc := .none }]) with
    | ub => rw [hcr] at c3; cases c3
    | ok r =>
      rw [hcr] at c3
      simp only [Res.bind, Res.ok.injEq, Prod.mk.injEq] at c3
      rw [c3.1]
      exact ⟨rfl, Core1.idle_last is0 hcr⟩
  obtain ⟨rfl, hz0⟩ := had0
  rw [a2, a3, Nat.zero_add] at c1
  obtain ⟨ad, i1, i2, i3⟩ := schedule_run (S := 32) (s := s0) h0 hh (by decide) (atOnceIdle K) c1 c2 m1
  have had : s1.adc = ad := by
    rw [e1] at i3
    cases hcr : s0.core.run 32 (idealInputs 4992 (adcHist (fun _ => 0) h) n0 n0 (atOnceIdle K)) with
    | ub => rw [hcr] at i3; cases i3
    | ok r =>
      rw [hcr] at i3
      simp only [Res.bind, Res.ok.injEq, Prod.mk.injEq] at i3
      rw [i3.1]
  subst had
  rw [m2, m3, hn0] at i1
  have hs2 : s2 = { s1 with adc := s1.adc.write (h n) } := by
    rw [RxSystem.run, RxSystem.step, Res.ok_bind, RxSystem.run, Res.ok_bind] at e3
    simp only [Res.ok.injEq, Prod.mk.injEq] at e3
    exact e3.1.symm
  have invB := i1.write (by omega)
  rw [hn, show n = adcBlock - 1 by omega] at invB
  rw [show adcBlock - 1 = n by omega, hB] at invB
  rw [show n = adcBlock - 1 by omega] at invB
  obtain ⟨u1, inv2, -⟩ := block_next invB h3 (fun k => by rw [hh3, hB])
  rw [show adcBlock - 1 = n by omega] at u1 inv2
  obtain ⟨o4, y1, y2⟩ : ∃ o4, s2.step 32 (.iterate true []) = .ok (s3, some o4) ∧ oi = [o4] := by
    rw [RxSystem.run, Res.bind_eq_ok] at e5
    obtain ⟨r, h1, h2⟩ := e5
    simp only [RxSystem.run, Res.ok_bind, Res.ok.injEq, Prod.mk.injEq, List.append_nil] at h2
    obtain ⟨rfl, rfl⟩ := h2
    have h1' := h1
    rw [hs2, RxSystem.step] at h1'
    dsimp only at h1'
    rw [u1, Res.ok_bind] at h1'
    dsimp only at h1'
    rw [Res.bind_eq_ok] at h1'
    obtain ⟨c, -, h3⟩ := h1'
    simp only [Res.ok.injEq] at h3
    refine ⟨c.2, ?_, ?_⟩
    · rw [h1, ← h3]
    · rw [← h3]; rfl
  have ha3 : s3.adc = (s1.adc.write (h n)).restart := by
    have h1' := y1
    rw [hs2, RxSystem.step] at h1'
    dsimp only at h1'
    rw [u1, Res.ok_bind] at h1'
    dsimp only at h1'
    rw [Res.bind_eq_ok] at h1'
    obtain ⟨c, -, h3⟩ := h1'
    simp only [Res.ok.injEq, Prod.mk.injEq] at h3
    rw [← h3.1]
  rw [← ha3] at inv2
  have herr : s3.adc.err = false := by rw [ha3]; exact (write_err _ _).trans i2
  have hdat : SampleRange (s1.adc.write (h n)).data := by
    obtain ⟨u, -⟩ := hist_run (S := 32) (by decide) _ (HistOk.init h0 true) (schedule_range hh (atOnceIdle n0) 0 0) e0
    obtain ⟨u, -⟩ := hist_run (S := 32) (by decide) _ u (schedule_range hh (atOnceIdle K) n0 n0) e1
    exact (u.adc.write (hh n)).data
  obtain ⟨ad5, -, -, j3⟩ := schedule_run (S := 32) (s := s3) hdat hr3 (by decide) (atOnceIdle m) inv2 herr m4
  obtain ⟨is, j4⟩ := atOnceIdle_last 4992 (adcHist (s1.adc.write (h n)).data h3) m 0
  have hz : s'.core.word = .zero := by
    rw [e6, j4] at j3
    cases hcr : s3.core.run 32 (is ++ [{ ready := true, adc := .none }]) with
    | ub => rw [hcr] at j3; cases j3
    | ok r =>
      rw [hcr] at j3
      simp only [Res.bind, Res.ok.injEq, Prod.mk.injEq] at j3
      rw [j3.1]
      exact Core1.idle_last is hcr
  -- the main loop
  obtain ⟨c, os0, g1⟩ := calm_run (outs0.map C1Out.word ++ (outs1.map C1Out.word ++ ([o4.word] ++ outs2.map C1Out.word)))
  rw [List.map_append, List.map_append, List.map_append] at g1
  obtain ⟨cs, p7, p8, g7, g8, -⟩ := Core0.run_append g1
  obtain ⟨ca, p1, p2, g2, g3, -⟩ := Core0.run_append g8
  obtain ⟨cb, p3, p4, g4, g5, -⟩ := Core0.run_append g3
  obtain ⟨w0, -⟩ := calm_silent _ g7 (by show 0 ≠ 4; decide)
  obtain ⟨w1, w2⟩ := calm_silent _ g2 w0
  obtain ⟨w3, w4⟩ := calm_silent [o4.word] g4 w1
  obtain ⟨-, w6⟩ := calm_silent _ g5 w3
  rw [List.map_map] at g2 g5 g7
  have g4 : ca.run .arm (fun _ => 0) [calmIter 0 o4.word] = .ok (cb, p3) := g4
  obtain ⟨cc, pq, pr, x1, x2, x3⟩ := Core0.run_cons g4
  simp only [Core0.run, Res.ok.injEq, Prod.mk.injEq] at x2
  obtain ⟨rfl, rfl⟩ := x2
  -- the device
  obtain ⟨d1, d2, osh, d3, d4, d5⟩ := prompt_run (S := 32) h0 hh n0 0 (b := Board.init (fun _ => 0) true (fun _ => 0) .zero 0 0) e0 inv00 rfl (by omega) rfl rfl rfl g7
  obtain ⟨l1, l2, os1, l3, l4, l5⟩ := prompt_run (S := 32) h0 hh K n0 (b := { rx := s0, main := { (TwoCores.init (fun _ => 0) .zero 0 0 false) with c0 := cs } }) e1 c1 c2 (by omega) rfl rfl rfl g2
  obtain ⟨k1, k2, os3, k3, k4, k5⟩ := prompt_run (S := 32) hdat hr3 m 0 (b := { rx := s3, main := { (TwoCores.init (fun _ => 0) .zero 0 0 false) with c0 := cc } }) e6 inv2 herr (by omega) rfl rfl rfl g5
  obtain ⟨os4, n1, n2, n3⟩ := prompt_iteration (b := { rx := s2, main := { (TwoCores.init (fun _ => 0) .zero 0 0 false) with c0 := ca } }) y1 rfl rfl rfl x1
    (by rw [inv2.behind]; decide) k3
  have n4 : Board.run 32 .arm (fun _ => 0) { rx := s1, main := { (TwoCores.init (fun _ => 0) .zero 0 0 false) with c0 := ca } }
      (.convert (h n) :: .receive [] :: .first (env1 0 []) :: .clear :: .second (env2 0 o4.word) :: eachAtOnce h3 0 m outs2) =
      .ok (some ({ rx := s', main := { (TwoCores.init (fun _ => 0) .zero 0 0 false) with c0 := c } }, { reports := [], dropped := false, behind := s2.adc.behind } :: (os4 ++ os3))) := by
    rw [Board.run, Board.step, RxSystem.step, Res.ok_bind]
    dsimp only [Board.after]
    rw [Res.ok_bind]
    dsimp only
    rw [hs2] at n1 ⊢
    dsimp only at n1
    rw [n1]; rfl
  have hcv0 := eachAtOnce_converted h n0 0 outs0 d1
  have hcv1 := eachAtOnce_converted h K n0 outs1 l1
  have hcv2 := eachAtOnce_converted h3 m 0 outs2 k1
  have hbh : s2.adc.behind ≤ 253 := by
    rw [hs2]
    show (s1.adc.write (h n)).behind ≤ 253
    have hx := invB.behind
    rw [show adcBlock - 1 = n by omega] at hx
    omega
  have hf : FastEnough (eachAtOnce h n0 K outs1 ++ ([.convert (h n), .receive [], .first (env1 0 []), .clear, .second (env2 0 o4.word)] ++ eachAtOnce h3 0 m outs2)) := by
    have a : EvenBy 1 (eachAtOnce h n0 K outs1) := eachAtOnce_even h K n0 outs1
    have c : EvenBy 1 (eachAtOnce h3 0 m outs2) := eachAtOnce_even h3 m 0 outs2
    have d : EvenBy 5 [.convert (h n), .receive [], .first (env1 0 []), .clear, .second (env2 0 o4.word)] := by
      intro p r e
      have hl : p.length + r.length = 5 := by
        have := congrArg List.length e
        rw [List.length_append] at this
        exact this.symm
      have hc : converted [.convert (h n), .receive [], .first (env1 0 []), .clear, .second (env2 0 o4.word)] = [h n] := rfl
      have hk : looksIn [.convert (h n), .receive [], .first (env1 0 []), .clear, .second (env2 0 o4.word)] = 1 := rfl
      rw [e, looksIn_append] at hk
      have hc := congrArg List.length hc
      rw [e, converted_append] at hc
      have hc : (converted p).length + (converted r).length = 1 := hc
      omega
    exact (a.append (d.append c)).fast (by decide)
  have hws : taken (eachAtOnce h 0 n0 outs0) = [] ∨ ∃ Z, taken (eachAtOnce h 0 n0 outs0) = Z ++ [wFree] := by
    rw [eachAtOnce_taken h n0 0 outs0 d1]
    refine silent_words h1920 (by omega) ?_ hz0
    rw [schedule_congr n0 0 (h' := h) (fun j _ hj => (hsil j (by omega)).symm)]
    exact e0
  have htc : s0.adc.tcHw = B - n0 := by rw [hB]; exact c1.hw
  have hb0 : s0.adc.behind ≤ 253 := by rw [d2]; exact Nat.zero_le _
  refine ⟨_, _, _, _, osh, _, os1, .first (env1 0 []) :: .clear :: .second (env2 0 o4.word) :: eachAtOnce h3 0 m outs2, _, d3, hcv0, hws, ⟨rfl, rfl, rfl, hz0, hb0⟩, htc, l3, l2, n4, hcv1, hcv2, ?_, hf,
    ⟨k2, hz, rfl, rfl⟩, ?_⟩
  · intro o ho
    rcases List.mem_append.mp ho with ho | ho
    · exact l4 o ho
    · rcases List.mem_cons.mp ho with rfl | ho
      · exact hbh
      · exact (List.mem_append.mp ho).elim (n2 o) (k4 o)
  · intro m hm
    rw [List.flatMap_append, rxMsgs_append, l5, List.flatMap_cons, List.flatMap_append, n3, k5] at hm
    rcases List.mem_append.mp hm with hm | hm
    · exact w2 m hm
    · have hm : m ∈ rxMsgs (pq.reports ++ p4.flatMap Out2.reports) := hm
      rw [rxMsgs_append] at hm
      rcases List.mem_append.mp hm with hm | hm
      · exact w4 m (by rw [x3]; simpa using hm)
      · exact w6 m hm

/-- The samples: a silent bus for `n0` conversions, then what is on the bus from time 26000000 on. -/
def afterSilence (L : Nat → Level) (n0 k : Nat) : Int :=
  if k < n0 then pulsesOn (fun _ => .mid) k else pulsesOn (fun k => L (26000000 + k * 19625)) (k - n0)

theorem afterSilence_range (L : Nat → Level) (n0 : Nat) : SampleRange (afterSilence L n0) := by
  intro k
  unfold afterSilence
  split
  · exact pulsesOn_range _ _
  · exact pulsesOn_range _ _

theorem afterSilence_at (L : Nat → Level) (n0 k : Nat) : afterSilence L n0 (n0 + k) = pulsesOn (fun k => L (26000000 + k * 19625)) k := by
  unfold afterSilence
  rw [if_neg (by omega), Nat.add_sub_cancel_left]

theorem long_nums {B n0 : Nat} (hB : B = adcBlock) (hn0 : n0 + 1001 = B) : n0 + 1000 + 1 = B ∧ 2199 < B ∧ 1920 ≤ n0 ∧ n0 + 3000 + 2200 ≤ 2 * 2 ^ 32 ∧ 1000 + 1 = B - n0 ∧ 2199 < adcBlock := by
  have h : B = 268435456 := hB
  have : adcBlock = 268435456 := rfl
  omega

/-- The hypotheses of C150 are met by a receiver whose block of the DMA ends 1001 conversions after the time 26000000, in the pause between the two messages; its host is told of the second one. -/
example : ∃ (pins : List (Nat × Bool)) (L : Nat → Level) (hist : List BoardStep) (b t : Board) (o : List BoardOut) (xs : List BoardStep) (os : List BoardOut) (K : List (Nat × List UInt8)),
    (∃ d errs, TxDev.init.run twiceSender = some (d, pins, errs)) ∧ Plays (dividerClock 48 0 0) (lineOf (pins.map Pio.view)) L ∧
    (Board.init (fun _ => 0) true (fun _ => 0) .zero 0 0).run 32 .arm (fun _ => 0) hist = .ok (some (b, o)) ∧ (converted hist).length + 1001 = adcBlock ∧
    b.run 32 .arm (fun _ => 0) xs = .ok (some (t, os)) ∧ converted xs = (List.range 3200).map (pulsesOn fun k => L (26000000 + k * 19625)) ∧ FastEnough xs ∧
    (rxMsgs (os.flatMap BoardOut.reports)).map lineShown = K ++ [(0, [0x00, 0x10])] := by
  have h := twiceSender_runs
  rw [Option.isSome_iff_exists] at h
  obtain ⟨⟨d, pins, errs⟩, hrun⟩ := h
  have hL : Plays (dividerClock 48 0 0) (lineOf (pins.map Pio.view)) (idealLine (dividerClock 48 0 0) (lineOf (pins.map Pio.view))) :=
    ⟨fun τ ht => idealLine_before modemClock _ ht, fun k τ h1 h2 => idealLine_at modemClock _ h1 h2⟩
  generalize idealLine (dividerClock 48 0 0) (lineOf (pins.map Pio.view)) = L at hL
  have h0 : SampleRange fun _ => 0 := fun _ => by show (-256 : Int) ≤ 0 ∧ (0 : Int) ≤ 255; decide
  have hh := pulsesOn_range fun k => L (26000000 + k * 19625)
  have hq := pulsesOn_ok fun k => L (26000000 + k * 19625)
  obtain ⟨B, hB⟩ : ∃ B, B = adcBlock := ⟨_, rfl⟩
  obtain ⟨n0, hn0⟩ : ∃ n0, n0 + 1001 = B := ⟨B - 1001, by have : (1001 : Nat) ≤ adcBlock := by decide
                                                          omega⟩
  obtain ⟨e1, e2, e3, e4, e5, e6⟩ := long_nums hB hn0
  obtain ⟨hist, b, bm, t, o, xs1, os1, xs2, os2, r1, hv0, hw, hqu, htc, r2, hc, r3, hv1, hv2, hb, hf, hend, h4⟩ := silent_block (afterSilence_range L n0) (K := 1000) (m := 2199) hB rfl e1 e2 e3
    (fun k hk => by unfold afterSilence; rw [if_pos hk])
  have hl0 : (converted hist).length = n0 := by rw [hv0, nextSamples_len]
  have hl1 : (converted xs1).length = 1000 := by rw [hv1, nextSamples_len]
  have hl2 : (converted xs2).length = 2199 := by rw [hv2, nextSamples_len]
  have hval : converted (xs1 ++ .convert (afterSilence L n0 (n0 + 1000)) :: ([] ++ .receive [] :: xs2)) = (List.range 3200).map (pulsesOn fun k => L (26000000 + k * 19625)) := by
    have e : (fun k => afterSilence L n0 (n0 + k)) = pulsesOn fun k => L (26000000 + k * 19625) := funext fun k => afterSilence_at L n0 k
    rw [← e]
    refine block_values (h := fun k => afterSilence L n0 (n0 + k)) (n := 1000) (B := 1001) (m := 2199) (N := 3200) rfl rfl hv1 ?_
    rw [hv2, ← hn0]
    congr 1
    funext k
    rw [Nat.add_assoc]
  have hlen := congrArg List.length hval
  rw [List.length_map, List.length_range] at hlen
  have hcyc := twiceSender_cycles
  have hm : ∀ x ∈ sendsFrom 0 twiceSender, 1 ≤ x.1 ∧ 1 ≤ x.2.length ∧ x.2.length ≤ 31 ∧ finalStart x.1 x.2 + 173 ≤ cyclesOf twiceSender := by
    rw [twiceSender_sends, hcyc]; intro x hx
    rcases List.mem_cons.mp hx with rfl | hx
    · exact ⟨by decide, by decide, by decide, by decide⟩
    · rw [List.mem_singleton] at hx; subst hx
      exact ⟨by decide, by decide, by decide, by decide⟩
  have hap : CallsApart 19625 3000 (dividerClock 48 0 0) 0 (sendsFrom 0 twiceSender) := by rw [twiceSender_sends]; exact ⟨by decide, by decide, by decide, by decide, trivial⟩
  have cend : callsEnd 19625 (dividerClock 48 0 0) 0 (sendsFrom 0 twiceSender) = dividerClock 48 0 0 1876 + 348 * 19625 := by rw [twiceSender_sends]; rfl
  have cval : dividerClock 48 0 0 1876 + 348 * 19625 = 80110620 := by decide
  have hsil : ∀ k, k ≤ 1002 → L (26000000 + k * 19625) = .mid := by
    obtain ⟨ps, -, -, p3, p4, p5, -, -⟩ := joined (P := 19625) (by decide) (M := 3000) modemClock _ d pins errs hrun twiceSender_clears
      (fun x hx => by obtain ⟨m1, m2, m3, m4⟩ := hm x hx; exact ⟨m1, m2, by omega, m4⟩) hap hL (l1 := [(300, demoMsg)]) (l2 := []) twiceSender_sends (τ0 := 26000000) (by decide) (by decide)
    cases ps with
    | nil => cases p5
    | cons p ps =>
      have hg := p4 p rfl
      have hx : 26000000 + 1923 * 19625 ≤ dividerClock 48 0 0 (1700 + 1) := by decide
      intro k hk
      refine p3.1 (k * 19625) (by omega) ?_
      show k * 19625 + 2 * 19625 < 0 + p.gap
      omega
  obtain ⟨-, r⟩ := C150_hears (S := 32) (by decide) h0 true .arm (fun _ => 0) .zero 0 0 [] hist (fun v hv => (by cases hv))
    (fun v hv => by
      rw [hv0] at hv
      obtain ⟨i, -, rfl⟩ := List.mem_map.mp hv
      exact afterSilence_range L n0 _) rfl (.inl rfl) r1 hqu (fun _ => hw)
    (P := 19625) (by decide) (M := 3000) modemClock _ d pins errs hrun twiceSender_clears hm hap hL (l1 := [(300, demoMsg)]) (l2 := []) twiceSender_sends
    (τ0 := 26000000) (by decide) (by decide) (by decide) (by decide) hh hq (by rw [hl0]; exact e4) xs1 bm os1 r2 (by rw [hl1, htc]; exact e5) hc _ []
    (fun x hx => (by cases hx)) (fun k hk _ => hsil k (by rw [hl1] at hk; exact hk)) xs2 t os2 r3 rfl (by rw [hlen]; exact hval) (by rw [hl2]; exact e6)
    (by rw [cend, cval, hlen]; decide) (by rw [cend, cval, hlen]; decide) hb hf hend
  obtain ⟨K, hK⟩ := r h4
  exact ⟨pins, L, hist, b, t, o, _, _, K, ⟨d, errs, hrun⟩, hL, r1, by rw [hl0, hn0, hB], Board.run_append xs1 r2 r3, hval, hf, hK⟩

end P1P2
