import Verif.Spec.Blocks
import Verif.Proofs.RawTimes
import Verif.Props.BlockEnd
/-!
# A reception over any number of DMA blocks
-/
namespace P1P2

/-! ## The signal, for samples that follow the levels from the start on -/

/-- As `raw_shape`, for any samples `v` in millivolt that follow the levels. -/
theorem mv_shape {a : Int} (h1 : 49 ≤ a) {L : Nat → Level} {v : Nat → Int} (hm : MvFrom a L v 0)
    (x0 : -180 ≤ decimated v 0 ∧ decimated v 0 ≤ 180) (x1 : -910 ≤ decimated v 1 ∧ decimated v 1 ≤ 910)
    (x2 : -1905 ≤ decimated v 2 ∧ decimated v 2 ≤ 1905) (x3 : -380 ≤ decimated v 3 ∧ decimated v 3 ≤ 380) (htol : (frontShape (39 * a)).Tol) {ps : List BusPacket}
    (hp : ∀ p ∈ ps, p.RawOk) (hc : RawCarries L 0 (byteFrames (ps.flatMap BusPacket.frames))) :
    (frontShape (39 * a)).Carries (silenced (dcRef (decimated v))) 0 (byteFrames ((uartPackets ps).flatMap BusPacket.frames)) ∧
      ∀ k, detStream (past (levelOut (dcRef (decimated v)))) k = detStream (past (levelOut (silenced (dcRef (decimated v))))) k := by
  have hA : 0 ≤ 39 * a := by omega
  generalize hz : dcRef (decimated v) = z
  have hsil : ∀ k, 6 ≤ k → z k = silenced z k := fun k hk => by unfold silenced; rw [if_neg (by omega)]
  have hL : ∀ k, k < 9 → L k = .mid := by
    intro k hk
    cases ps with
    | nil => exact hc k (Nat.zero_le _)
    | cons p ps =>
      rw [raw_frames] at hc
      have := (hp p (List.mem_cons_self ..)).gap
      exact hc.1 k (Nat.zero_le _) (by omega)
  -- the carried frames from code 9 on
  have hc9 : ∃ fs, RawCarries L 9 (byteFrames fs) ∧ PolOk true (halve 9 fs) ∧
      byteFrames (halve 9 fs) = (match ps with
        | [] => []
        | p :: ps => (p.gap / 2 - 4, symbolsOf p.pol p.first) :: halve (p.gap + 348) (byteFrames (p.rest ++ ps.flatMap BusPacket.frames))) := by
    cases ps with
    | nil => exact ⟨[], fun k hk => hc k (Nat.zero_le _), trivial, rfl⟩
    | cons p ps =>
      have hp0 := hp p (List.mem_cons_self ..)
      have hg := hp0.gap
      rw [raw_frames] at hc
      obtain ⟨c1, ⟨δ, ε, ho, c2⟩, c3⟩ := hc
      refine ⟨(p.gap - 9, p.pol, p.first) :: (p.rest ++ ps.flatMap BusPacket.frames), ⟨fun k k1 k2 => c1 k (Nat.zero_le _) (by omega), ⟨δ, ε, ho, fun j hj => ?_⟩, ?_⟩,
        ⟨Or.inr (by omega), polOk_rest _ _ _ hp0.pol fun R' => polOk_packets _ _ _ fun p hp' => hp p (List.mem_cons_of_mem _ hp')⟩, ?_⟩
      · have := c2 j hj
        rw [show 9 + (p.gap - 9) + j = 0 + p.gap + j by omega]
        exact this
      · rw [show 9 + (p.gap - 9) + 348 = 0 + p.gap + 348 by omega]
        exact c3
      · rw [← halve_byteFrames]
        show ((9 + (p.gap - 9)) / 2 - 9 / 2, _) :: halve (9 + (p.gap - 9) + 348) _ = _
        rw [show 9 + (p.gap - 9) = p.gap by omega]
        rfl
  obtain ⟨fs, f1, f2, f3⟩ := hc9
  have hpre := mv_carries hm (by omega) _ f1 (by omega) (fun k _ hk => hL k hk)
  rw [halve_byteFrames] at hpre
  have hx0 : ∀ k, 4 ≤ k → k < 9 → -66 ≤ decimated v k ∧ decimated v k ≤ 66 := by
    intro k k1 k2
    have hpre' := hpre
    rw [f3] at hpre'
    cases ps with
    | nil => exact hpre' k k1
    | cons p ps =>
      have := (hp p (List.mem_cons_self ..)).gap
      exact hpre'.1 k k1 (by omega)
  obtain ⟨b4, bz⟩ := boot_dc x0 x1 x2 x3 (hx0 4 (by decide) (by decide)) (hx0 5 (by decide) (by decide))
  have hbase : ∀ k, 4 ≤ k → BaseOk (39 * a) (dcB (decimated v) k) := by
    refine base_frames hA _ f2 hpre ?_
    show ReadyUp _ _
    unfold ReadyUp BaseIn
    show -(22528 * (39 * a) + 17563648) ≤ 1024 * dcB (decimated v) 4 ∧ 1024 * dcB (decimated v) 4 ≤ 6656 * (39 * a) + 17563648
    omega
  have hcar := front_carries hA _ hpre hbase
  rw [hz] at hcar bz
  have hcar6 : (frontShape (39 * a)).Carries z 6 (byteFrames (halve 9 fs)) := hcar
  have hq6 : ∀ k, 6 ≤ k → k < 21 → (frontShape (39 * a)).Quiet (z k) := by
    intro k k1 k2
    rw [f3] at hcar6
    cases ps with
    | nil => exact hcar6 k k1
    | cons p ps =>
      have := (hp p (List.mem_cons_self ..)).gap
      exact hcar6.1 k k1 (by omega)
  refine ⟨?_, boot_det htol bz hq6⟩
  have hcs := Carries_congr _ hsil hcar6
  rw [f3] at hcs
  have hzero : ∀ k, k < 6 → (frontShape (39 * a)).Quiet (silenced z k) := by
    intro k hk
    have := htol.quiet0
    unfold silenced
    rw [if_pos hk]
    unfold Shape.Quiet
    omega
  cases ps with
  | nil =>
    intro k _
    by_cases hk : k < 6
    · exact hzero k hk
    · exact hcs k (by omega)
  | cons p ps =>
    have hg := (hp p (List.mem_cons_self ..)).gap
    rw [uart_frames]
    obtain ⟨c1, ⟨o, o', ho, c2⟩, c3⟩ := hcs
    refine ⟨fun k _ k2 => ?_, ⟨o, o', ho, fun j hj => ?_⟩, ?_⟩
    · by_cases hk : k < 6
      · exact hzero k hk
      · exact c1 k (by omega) (by omega)
    · have := c2 j hj
      rw [show 6 + (p.gap / 2 - 4) + j = 0 + (p.gap / 2 + 2) + j by omega] at this
      exact this
    · rw [show 6 + (p.gap / 2 - 4) + 174 = 0 + (p.gap / 2 + 2) + 174 by omega] at c3
      exact c3

theorem decimated_congr {v v' : Nat → Int} {K : Nat} (h : ∀ k, k < K → v k = v' k) {n : Nat} (hn : 2 * n < K) : decimated v n = decimated v' n := by
  have hp : ∀ j : Int, j < K → past v j = past v' j := past_congr h
  unfold decimated firRef
  rw [hp _ (by omega), hp _ (by omega), hp _ (by omega), hp _ (by omega), hp _ (by omega), hp _ (by omega), hp _ (by omega)]

/-- Core 1 on samples that follow the levels from the start on. -/
theorem mv_tail {S : Nat} (hS : 8 ≤ S) (e : Bool) {a c : Int} (h1 : 49 ≤ a) (h2 : a ≤ 88) {L L0 : Nat → Level} {q : Nat → UInt8} (h : Codes a c L0 q)
    {v : Nat → Int} (hb : ∀ k, -9984 ≤ v k ∧ v k ≤ 9984) (hv : ∀ k, k < 9 → v k = rawMv q k) (hL : ∀ k, k < 9 → L k = L0 k) (hm : MvFrom a L v 0)
    {M : Nat} (hM : M + 70 ≤ 2 * 2 ^ S) {ps : List BusPacket} (hp : ∀ p ∈ ps, p.RawOk) (hg : ∀ b ∈ ps.flatMap BusPacket.frames, b.1 ≤ M)
    (hc : RawCarries L 0 (byteFrames (ps.flatMap BusPacket.frames))) {N : Nat}
    (hN : rawEnd 0 (byteFrames (ps.flatMap BusPacket.frames)) + 378 ≤ N) (hN' : N ≤ rawEnd 0 (byteFrames (ps.flatMap BusPacket.frames)) + M) :
    ∃ t tr, (C1Tail.init e).run S ((List.range ((N + 1) / 2)).map (dcRef (decimated v))) = .ok (t, tr) ∧
      nonzero (tr.map AcOut.word) = ps.flatMap BusPacket.words ++ [wFree] := by
  have hL0 : ∀ k, k < 9 → L0 k = .mid := by
    intro k hk
    rw [← hL k hk]
    cases ps with
    | nil => exact hc k (Nat.zero_le _)
    | cons p ps =>
      rw [raw_frames] at hc
      have := (hp p (List.mem_cons_self ..)).gap
      exact hc.1 k (Nat.zero_le _) (by omega)
  obtain ⟨x0, x1, x2, x3⟩ := boot_x h hL0
  rw [rawX_eq] at x0 x1 x2 x3
  rw [← decimated_congr hv (by decide)] at x0 x1 x2 x3
  have htol := frontShape_tol h1 h2
  obtain ⟨s1, s2⟩ := mv_shape h1 hm x0 x1 x2 x3 htol hp hc
  obtain ⟨u1, u2⟩ := uart_end ps
  have hz : ∀ k, -80000000 ≤ dcRef (decimated v) k ∧ dcRef (decimated v) k ≤ 80000000 := by
    intro k
    have := (C38_bounded (decimated v) 12978 (by decide) (fun n => fir_bound hb (2 * n)) k).2
    omega
  generalize dcRef (decimated v) = z at *
  obtain ⟨t, tr, k1, k2⟩ := tail_packets (n := (N + 1) / 2) hS e htol (x := z) (G := (M + 1) / 2 + 2) (by omega)
    (uartPackets_ok hp) (uartPackets_le hg) hz s2 s1 (by omega) (by omega)
  refine ⟨t, tr, ?_, ?_⟩
  · have : segment z 0 ((N + 1) / 2) = (List.range ((N + 1) / 2)).map z := by
      unfold segment
      exact List.map_congr_left fun i _ => by rw [Nat.zero_add]
    rw [← this]; exact k1
  · rw [k2, uartPackets_words]

/-! ## The samples that are processed -/

theorem heardAt_lt {d : Nat} {ds : List Nat} {k : Nat} (h : k < d) : heardAt (d :: ds) k = k := if_pos h
theorem heardAt_ge {d : Nat} {ds : List Nat} {k : Nat} (h : d ≤ k) : heardAt (d :: ds) k = adcBlock + heardAt ds (k - d) := if_neg (by omega)

theorem heardAt_small : ∀ {ds : List Nat}, (∀ d ∈ ds, 9 ≤ d) → ∀ {k : Nat}, k < 9 → heardAt ds k = k := by
  intro ds h k hk
  cases ds with
  | nil => rfl
  | cons d ds =>
    have := h d (List.mem_cons_self ..)
    exact heardAt_lt (by omega)

/-- The samples that are processed follow the levels that are heard. -/
theorem heard_mv {a : Int} : ∀ {ds : List Nat} {L : Nat → Level} {v : Nat → Int}, (∀ d ∈ ds, 9 ≤ d ∧ d < adcBlock) → MvFrom a L v 0 → FlatLoss L ds →
    MvFrom a (fun k => L (heardAt ds k)) (fun k => v (heardAt ds k)) 0 := by
  intro ds
  induction ds with
  | nil => intro L v _ hm _; exact hm
  | cons d ds ih =>
    intro L v hd hm ⟨hf, hfs⟩ i _
    obtain ⟨d1, d2⟩ := hd d (List.mem_cons_self ..)
    have hds : ∀ d ∈ ds, 9 ≤ d ∧ d < adcBlock := fun d h => hd d (List.mem_cons_of_mem _ h)
    have hsm : ∀ {k : Nat}, k < 9 → heardAt ds k = k := fun h => heardAt_small (fun d h => (hds d h).1) h
    dsimp only
    by_cases c1 : i + 2 < d
    · rw [heardAt_lt c1, heardAt_lt (show i + 1 < d by omega), heardAt_lt (show i < d by omega)]
      exact hm i (Nat.zero_le _)
    · by_cases c2 : d ≤ i
      · have := ih (L := fun k => L (adcBlock + k)) (v := fun k => v (adcBlock + k)) hds (fun j _ => hm (adcBlock + j) (Nat.zero_le _)) hfs (i - d) (Nat.zero_le _)
        rw [heardAt_ge (show d ≤ i + 2 by omega), heardAt_ge (show d ≤ i + 1 by omega), heardAt_ge c2, show i + 2 - d = i - d + 2 by omega,
          show i + 1 - d = i - d + 1 by omega]
        exact this
      · by_cases c3 : d = i + 1
        · rw [heardAt_ge (show d ≤ i + 2 by omega), heardAt_ge (show d ≤ i + 1 by omega), heardAt_lt (show i < d by omega), hsm (show i + 2 - d < 9 by omega),
            hsm (show i + 1 - d < 9 by omega), show i + 2 - d = 1 by omega, show i + 1 - d = 0 by omega]
          have := hm (adcBlock - 1) (Nat.zero_le _)
          rw [show adcBlock - 1 + 2 = adcBlock + 1 by omega, show adcBlock - 1 + 1 = adcBlock + 0 by omega, hf (adcBlock - 1) (by omega) (by omega),
            ← hf i (by omega) (by omega)] at this
          exact this
        · rw [heardAt_ge (show d ≤ i + 2 by omega), heardAt_lt (show i + 1 < d by omega), heardAt_lt (show i < d by omega), hsm (show i + 2 - d < 9 by omega),
            show i + 2 - d = 0 by omega]
          have := hm (adcBlock - 2) (Nat.zero_le _)
          rw [show adcBlock - 2 + 2 = adcBlock + 0 by omega, show adcBlock - 2 + 1 = adcBlock - 1 by omega, hf (adcBlock - 1) (by omega) (by omega),
            hf (adcBlock - 2) (by omega) (by omega)] at this
          rw [hf (i + 1) (by omega) (by omega), hf i (by omega) (by omega)]
          exact this

/-- The end of a block: the next iteration processes nothing and starts a block whose samples `h'` follow those of the old one. -/
theorem block_next' {ring h : Nat → Int} {g : Int} {D : Nat} {a : Adc} (i : AdcInv ring h g adcBlock D a) (h' : Nat → Int) (hh : ∀ k, h' k = h (adcBlock + k)) :
    a.update [] = .ok (a.restart, none) ∧ AdcInv a.data h' g 0 0 a.restart ∧
      ∀ m : Int, -256 ≤ m → adcHist a.data h' m = adcHist ring h ((adcBlock : Int) + m) := by
  have hu : a.update [] = .ok (a.restart, none) := by
    have h1 := i.hw
    unfold Adc.update
    simp only [if_pos (show a.tcHw = 0 by omega)]
    rfl
  obtain ⟨a', e1, e2⟩ := block_end i [] h'
  rw [hu] at e1
  simp only [Res.ok.injEq, Prod.mk.injEq, and_true] at e1
  rw [← e1] at e2
  refine ⟨hu, e2, fun m hm => ?_⟩
  have hB : 256 ∣ adcBlock := by decide
  have hd := i.data
  generalize adcBlock = B at *
  by_cases h0 : m < 0
  · rw [← hd _ (by omega) (by omega)]
    unfold adcHist
    rw [if_pos h0]
    congr 1
    omega
  · unfold adcHist
    rw [if_neg h0, if_neg (by omega), hh]
    congr 1
    omega

/-- The whole reception: the loop sees the samples `heardAt`, in order. -/
theorem blocks_run {S : Nat} (hS : 8 ≤ S) : ∀ (bs : List (List (AdcEv × Bool) × Bool)) {last : List (AdcEv × Bool)} {ring h : Nat → Int} {s : RxSystem},
    SampleRange ring → SampleRange h → AdcInv ring h 4992 0 0 s.adc → s.adc.err = false → s.adc.Ok → s.core.Ok S → (∀ b ∈ bs, BlockOk b.1) →
    keepsUp 254 0 0 (last.map Prod.fst) →
    ∃ is a c outs, s.core.run S is = .ok (c, outs) ∧ s.run S (blockEvents h bs last) = .ok ({ adc := a, core := c }, outs) ∧
      (∀ i ∈ is, i.adc ≠ .error) ∧
      samplesOf is = (List.range ((processed bs).sum + deliveries 0 0 (last.map Prod.fst))).map fun k => adcRef 4992 (adcHist ring h) ((heardAt (processed bs) k : Nat) : Int) := by
  intro bs
  induction bs with
  | nil =>
    intro last ring h s hr hh inv herr hok hokc _ hk
    obtain ⟨ad, -, -, e1⟩ := schedule_run (S := S) hr hh (by decide) last inv herr hk
    obtain ⟨s3, outs1, hrun1⟩ := rx_run_ok hS (scheduleEvents h 0 0 last) hok hokc (schedule_range hh last 0 0)
    rw [hrun1] at e1
    cases hcr1 : s.core.run S (idealInputs 4992 (adcHist ring h) 0 0 last) with
    | ub => rw [hcr1] at e1; cases e1
    | ok r =>
    obtain ⟨c3, outs1'⟩ := r
    rw [hcr1] at e1
    simp only [Res.bind, Res.ok.injEq, Prod.mk.injEq] at e1
    obtain ⟨rfl, rfl⟩ := e1
    refine ⟨_, ad, c3, outs1, hcr1, hrun1, ideal_no_error 4992 _ last 0 0, ?_⟩
    rw [samples_ideal]
    show _ = (List.range (0 + _)).map _
    rw [Nat.zero_add, List.range_eq_range']
    rfl
  | cons b bs ih =>
    obtain ⟨es, r⟩ := b
    intro last ring h s hr hh inv herr hok hokc hbs hk
    obtain ⟨b1, b2, b3⟩ := hbs _ (List.mem_cons_self ..)
    dsimp only at b1 b2 b3
    obtain ⟨ad, inv1, err1, e1⟩ := schedule_run (S := S) hr hh (by decide) es inv herr b1
    obtain ⟨s3, outs1, hrun1⟩ := rx_run_ok hS (scheduleEvents h 0 0 es) hok hokc (schedule_range hh es 0 0)
    have hok3 := run_ok_inv hS _ (schedule_range hh es 0 0) hok hokc hrun1
    rw [hrun1] at e1
    cases hcr1 : s.core.run S (idealInputs 4992 (adcHist ring h) 0 0 es) with
    | ub => rw [hcr1] at e1; cases e1
    | ok r1 =>
    obtain ⟨c3, outs1'⟩ := r1
    rw [hcr1] at e1
    simp only [Res.bind, Res.ok.injEq, Prod.mk.injEq] at e1
    obtain ⟨rfl, rfl⟩ := e1
    rw [b2] at inv1
    have hB1 : adcBlock - 1 + 1 = adcBlock := by decide
    have invB := inv1.write (by omega)
    have hin : RxEv.InRange (.transfer (h (adcBlock - 1))) := hh _
    have hok2 : (ad.write (h (adcBlock - 1))).Ok := hok3.1.write hin
    have hokc3 : c3.Ok S := hok3.2
    obtain ⟨h3, hh3⟩ : ∃ h3 : Nat → Int, h3 = fun k => h (adcBlock + k) := ⟨_, rfl⟩
    have hr3 : SampleRange h3 := fun k => by rw [hh3]; exact hh _
    have herr2 : (ad.write (h (adcBlock - 1))).restart.err = false := (write_err _ _).trans err1
    have st1 : RxSystem.step S { adc := ad, core := c3 } (.transfer (h (adcBlock - 1))) = .ok ({ adc := ad.write (h (adcBlock - 1)), core := c3 }, none) := rfl
    rw [hB1] at invB
    generalize ad.write (h (adcBlock - 1)) = ad2 at *
    obtain ⟨u1, inv2, hy2⟩ := block_next' invB h3 (fun k => by rw [hh3])
    obtain ⟨c4, o4, hc4⟩ : ∃ c o, c3.step S { ready := r, adc := .none } = .ok (c, o) := ⟨_, _, rfl⟩
    have st2 : RxSystem.step S { adc := ad2, core := c3 } (.iterate r []) = .ok ({ adc := ad2.restart, core := c4 }, some o4) := by
      simp only [RxSystem.step, u1, Res.ok_bind, hc4]
    obtain ⟨s4, o4', g1, g2, g3⟩ := rx_step_ok (S := S) hS (s := { adc := ad2, core := c3 }) hok2 hokc3 (e := .iterate r []) (fun v hv => by cases hv)
    rw [st2] at g1
    simp only [Res.ok.injEq, Prod.mk.injEq] at g1
    rw [← g1.1] at g2 g3
    obtain ⟨is, a5, c5, outs2, k1, k2, k3, k4⟩ := ih (s := { adc := ad2.restart, core := c4 }) (last := last) hok2.data hr3 inv2 herr2 g2 g3
      (fun b hb => hbs b (List.mem_cons_of_mem _ hb)) hk
    refine ⟨idealInputs 4992 (adcHist ring h) 0 0 es ++ { ready := r, adc := .none } :: is, a5, c5, outs1 ++ (o4 :: outs2), ?_, ?_, ?_, ?_⟩
    · refine core_run_append _ _ hcr1 ?_
      simp only [Core1.run, hc4, Res.ok_bind]
      rw [show Core1.run S c4 is = _ from k1]
      rfl
    · show s.run S (scheduleEvents h 0 0 es ++ .transfer (h (adcBlock - 1)) :: .iterate r [] :: blockEvents (fun k => h (adcBlock + k)) bs last) = _
      rw [← hh3]
      refine RxSystem.run_append' S _ _ hrun1 ?_
      simp only [RxSystem.run, st1, st2, Res.ok_bind, k2]
      rfl
    · intro i hi
      rcases List.mem_append.mp hi with hi | hi
      · exact ideal_no_error 4992 _ es 0 0 i hi
      · rcases List.mem_cons.mp hi with rfl | hi
        · exact (fun h => by cases h)
        · exact k3 i hi
    · have hs3 : samplesOf (idealInputs 4992 (adcHist ring h) 0 0 es ++ { ready := r, adc := .none } :: is) = samplesOf (idealInputs 4992 (adcHist ring h) 0 0 es) ++ samplesOf is := by
        rw [samplesOf_append]; rfl
      rw [hs3, samples_ideal, k4]
      show _ = (List.range ((deliveries 0 0 (es.map Prod.fst) :: processed bs).sum + _)).map fun k => adcRef 4992 _ ((heardAt (deliveries 0 0 (es.map Prod.fst) :: processed bs) k : Nat) : Int)
      generalize deliveries 0 0 (es.map Prod.fst) = d at *
      generalize deliveries 0 0 (last.map Prod.fst) = e at *
      generalize processed bs = ds at *
      rw [List.sum_cons, Nat.add_assoc]
      generalize ds.sum + e = n
      rw [List.range_add, List.map_append, List.map_map]
      congr 1
      · rw [← List.range_eq_range']
        refine List.map_congr_left fun k hk => ?_
        rw [heardAt_lt (List.mem_range.mp hk)]
      · refine List.map_congr_left fun k hk => ?_
        dsimp only [Function.comp]
        rw [heardAt_ge (Nat.le_add_right _ _), Nat.add_sub_cancel_left]
        unfold adcRef
        rw [hy2 _ (by omega), hy2 _ (by omega), hy2 _ (by omega)]
        rw [show (adcBlock : Int) + ((heardAt ds k : Nat) : Int) = ((adcBlock + heardAt ds k : Nat) : Int) by omega]
        rw [show (adcBlock : Int) + (((heardAt ds k : Nat) : Int) - 1) = ((adcBlock + heardAt ds k : Nat) : Int) - 1 by omega]
        rw [show (adcBlock : Int) + (((heardAt ds k : Nat) : Int) - 2) = ((adcBlock + heardAt ds k : Nat) : Int) - 2 by omega]

end P1P2
