import Verif.Spec.Cut
import Verif.Proofs.CutLine
import Verif.Proofs.DevRefine
import Verif.Props.Heal
/-!
# C127: a packet during which a DMA block ends

`Samples`, `BusPacket.RawOk`: `Verif/Spec/Raw.lean`; `TightCarries`, `NoEdge`: `Verif/Spec/Cut.lean`.  `s.adc.tcHw` is the number of samples the DMA has still to
transfer within the block.  When the last one is transferred the next iteration of the loop restarts the DMA and processes nothing: the sample is lost (`C49_refuted`).
-/
namespace P1P2

/-- The values of the differential ADC: those of a history (`pre`) and those of the line. -/
theorem hist_line {pre : List Int} (hpre : ∀ x ∈ pre, -9984 ≤ x ∧ x ≤ 9984) {y : Int → Int} (hyb : ∀ j, -256 ≤ y j ∧ y j ≤ 255) {W D K0 : Nat} (hK0 : K0 = pre.length)
    (hDW : D ≤ W) {a c : Int} {L : Nat → Level} {h : Nat → Int} (hbase : ∀ j : Nat, y ((W + j : Nat) : Int) = h j) (hq : Samples a c L h) :
    ∃ v : Nat → Int, (∀ k, -9984 ≤ v k ∧ v k ≤ 9984) ∧ (List.range K0).map v = pre ∧ (∀ i, v (K0 + i) = adcRef 4992 y ((D + i : Nat) : Int)) ∧
      MvFrom a (fun k => L (k - (K0 + (W - D)))) v (K0 + (W - D)) := by
  refine ⟨fun k => if k < K0 then pre.getD k 0 else adcRef 4992 y ((D + (k - K0) : Nat) : Int), fun k => ?_, ?_, fun i => ?_, fun i hi => ?_⟩
  · dsimp only
    split
    · next hlt =>
      rw [List.getD_eq_getElem?_getD, List.getElem?_eq_getElem (by omega), Option.getD_some]
      exact hpre _ (List.getElem_mem _)
    · exact adcRef_bound hyb _
  · apply List.ext_getElem
    · simp [hK0]
    · intro i i1 i2
      rw [List.getElem_map, List.getElem_range, if_pos (by omega), List.getD_eq_getElem?_getD, List.getElem?_eq_getElem i2, Option.getD_some]
  · dsimp only
    rw [if_neg (by omega), Nat.add_sub_cancel_left]
  · obtain ⟨j, rfl⟩ : ∃ j, i = K0 + (W - D) + j := ⟨i - (K0 + (W - D)), by omega⟩
    dsimp only
    rw [if_neg (by omega), show K0 + (W - D) + j + 2 - (K0 + (W - D)) = j + 2 by omega, show K0 + (W - D) + j + 1 - (K0 + (W - D)) = j + 1 by omega,
      show K0 + (W - D) + j - (K0 + (W - D)) = j by omega, show D + (K0 + (W - D) + j + 2 - K0) = W + (j + 2) by omega]
    unfold adcRef
    rw [show ((W + (j + 2) : Nat) : Int) - 2 = ((W + j : Nat) : Int) by omega, show ((W + (j + 2) : Nat) : Int) - 1 = ((W + (j + 1) : Nat) : Int) by omega,
      hbase, hbase, hbase]
    have a0 := hq j; have a1 := hq (j + 1); have a2 := hq (j + 2)
    dsimp only at a0 a1 a2
    rcases Nat.mod_two_eq_zero_or_one j with hpj | hpj
    · rw [if_pos hpj] at a0
      rw [if_neg (by omega)] at a1
      rw [if_pos (by omega)] at a2
      exact mv_of a2 a1 a0
    · rw [if_neg (by omega)] at a0
      rw [if_pos (by omega)] at a1
      rw [if_neg (by omega)] at a2
      exact mv_of (c := -c) (by rw [Int.neg_neg]; exact a2) a1 (by rw [Int.neg_neg]; exact a0)

/-- The end of a block: the iteration processes nothing and a new block starts, whose samples `h'` follow those of the old one. -/
theorem block_next {ring h : Nat → Int} {g : Int} {a : Adc} (i : AdcInv ring h g adcBlock (adcBlock - 1) a) (h' : Nat → Int) (hh : ∀ k, h' k = h (adcBlock + k)) :
    a.update [] = .ok (a.restart, none) ∧ AdcInv a.data h' g 0 0 a.restart ∧
      ∀ m : Int, -256 ≤ m → adcHist a.data h' m = adcHist ring h ((adcBlock : Int) + m) := by
  have hu : a.update [] = .ok (a.restart, none) := by
    have h1 := i.hw
    unfold Adc.update
    simp only [if_pos (show a.tcHw = 0 by omega)]
    rfl
  obtain ⟨a', e1, e2⟩ := block_end i [] h'
  rw [hu] at e1
  simp only [Res.ok.injEq, Prod.mk.injEq, and_true] at e1
  rw [← e1] at e2
  refine ⟨hu, e2, fun m hm => ?_⟩
  have hB : 256 ∣ adcBlock := by decide
  have hd := i.data
  generalize adcBlock = B at *
  by_cases h0 : m < 0
  · rw [← hd _ (by omega) (by omega)]
    unfold adcHist
    rw [if_pos h0]
    congr 1
    omega
  · unfold adcHist
    rw [if_neg h0, if_neg (by omega), hh]
    congr 1
    omega

theorem written_ge : ∀ (es : List AdcEv) (W D : Nat), W ≤ written W D es := by
  intro es
  induction es with
  | nil => intro W D; exact Nat.le_refl _
  | cons e es ih =>
    intro W D
    cases e with
    | write => have := ih (W + 1) D; show W ≤ written (W + 1) D es; omega
    | poll n =>
      simp only [written]
      split
      · exact ih _ _
      · have := ih (W + n) (D + 1); omega

theorem NoEdge.shift {L : Nat → Level} {J : Nat} (h : NoEdge L J) (b : Nat) : NoEdge (fun k => L (k - b)) (b + J) := by
  intro k h1 h2
  dsimp only
  rw [Nat.add_sub_cancel_left]
  exact h _ (by omega) (by omega)

theorem bytesEnd_add (b : Nat) : ∀ (bs : List (Nat × Bool × UInt8)) (t : Nat), bytesEnd (t + b) bs = bytesEnd t bs + b := by
  induction b with
  | zero => intro bs t; rfl
  | succ b ih => intro bs t; rw [← Nat.add_assoc, bytesEnd_succ, ih]; rfl

theorem outWords_bytes : ∀ {ps qs : List BusPacket}, ps.map BusPacket.bytes = qs.map BusPacket.bytes → ps.flatMap BusPacket.outWords = qs.flatMap BusPacket.outWords := by
  intro ps
  induction ps with
  | nil =>
    intro qs h
    cases qs with
    | nil => rfl
    | cons q qs => cases h
  | cons p ps ih =>
    intro qs h
    cases qs with
    | nil => cases h
    | cons q qs =>
      simp only [List.map_cons, List.cons.injEq] at h
      rw [List.flatMap_cons, List.flatMap_cons, ih h.2]
      unfold BusPacket.outWords
      rw [h.1]

theorem RawCarries.congr {L L' : Nat → Level} : ∀ {fs : List (Nat × (Nat → Level))} {t : Nat}, (∀ k, t ≤ k → L' k = L k) → RawCarries L t fs → RawCarries L' t fs := by
  intro fs
  induction fs with
  | nil => intro t h hc k hk; rw [h k hk]; exact hc k hk
  | cons f fs ih =>
    obtain ⟨g, σ⟩ := f
    intro t h ⟨c1, ⟨δ, ε, ho, c2⟩, c3⟩
    refine ⟨fun k k1 k2 => by rw [h k k1]; exact c1 k k1 k2, ⟨δ, ε, ho, fun j hj => by rw [h _ (by omega)]; exact c2 j hj⟩, ih (fun k hk => h k (by omega)) c3⟩

/-- As `C127_words`, with what the line without the lost sample carries (`qs`). -/
theorem cut_words {S : Nat} (hS : 8 ≤ S) {ring : Nat → Int} (hr : SampleRange ring) {rxErr : Bool} {p1 p2 : List RxEv}
    (hp1 : ∀ e ∈ p1, e.InRange) (hp2 : ∀ e ∈ p2, e.InRange) {s1 s : RxSystem} {o1 o2 : List C1Out}
    (r1 : RxSystem.run S (RxSystem.init ring rxErr) p1 = .ok (s1, o1)) (hres : p1 = [] ∨ s1.core.word.result ≠ [])
    (r2 : s1.run S p2 = .ok (s, o2))
    {a c : Int} (h1 : 49 ≤ a) (h2 : a ≤ 88) {L : Nat → Level} {h : Nat → Int} (hh : SampleRange h) (hq : Samples a c L h)
    {M : Nat} (hM : arrivals p2 + M + 2200 ≤ 2 * 2 ^ S) {W D : Nat} (hW : W = adcBlock - s.adc.tcHw) (hD : D = adcBlock - s.adc.tc)
    {qs : List BusPacket} (hps : ∀ p ∈ qs, p.RawOk) (hm1 : ∀ b ∈ qs.flatMap BusPacket.frames, b.1 ≤ M)
    (hc : RawCarries (fun k => L (del (adcBlock - 1 - W) k)) 0 (byteFrames (qs.flatMap BusPacket.frames))) (hgap' : GapFrom 1920 (qs.flatMap BusPacket.frames))
    {es1 es2 : List (AdcEv × Bool)} (hk1 : keepsUp 254 W D (es1.map Prod.fst)) (hw1 : written W D (es1.map Prod.fst) = adcBlock - 1)
    (hd1 : D + deliveries W D (es1.map Prod.fst) = adcBlock - 1) (hcut : NoEdge L (adcBlock - 1 - W)) (ready : Bool)
    (hk2 : keepsUp 254 0 0 (es2.map Prod.fst)) {N : Nat} (hWN : W + N = adcBlock + deliveries 0 0 (es2.map Prod.fst))
    (hN0 : 1921 ≤ N) (hN : rawEnd 0 (byteFrames (qs.flatMap BusPacket.frames)) + 379 ≤ N)
    (hN' : N ≤ rawEnd 0 (byteFrames (qs.flatMap BusPacket.frames)) + M + 1) :
    ∃ s' outs Y, s.run S (scheduleEvents (fun k => h (k - W)) W D es1 ++ .transfer (h (adcBlock - 1 - W)) :: .iterate ready [] ::
        scheduleEvents (fun k => h (k + adcBlock - W)) 0 0 es2) = .ok (s', outs) ∧
      sent outs ++ (if s'.core.word = .zero then [] else [s'.core.word]) =
        (if s.core.word = .zero then [] else [s.core.word]) ++ Y ++ (qs.flatMap fun p => wBusy :: (p.bytes.map wByte ++ [wFree])) ∧
      ((Y = [] ∧ s.core.busy = false) ∨ ∃ Y', Y = Y' ++ [wFree]) := by
  obtain ⟨k1, is1, q1, b1, -⟩ := hist_run hS p1 (HistOk.init hr rxErr) hp1 r1
  obtain ⟨k2, is2, q2, b2, n2⟩ := hist_run hS p2 k1 hp2 r2
  have hfr : Aged S 0 s1.core.back.uart := by
    rcases hres with rfl | hres
    · simp only [RxSystem.run, Res.ok.injEq, Prod.mk.injEq] at r1
      rw [← r1.1]
      exact ⟨fun _ => rfl, fun _ => Or.inl rfl, fun _ => rfl, fun _ => Nat.zero_le _⟩
    · have fr := Fresh.run hS p1 (HistOk.init hr rxErr) (Fresh.init _) hp1 r1
      have hs := fr.2 hres
      exact .rest hs (fr.1.1 hs) 0
  have inv := AdcInv.ofAt k2.at' k2.adc.gain h
  have hlg : s.adc.lag = W - D := by
    have := k2.at'
    have g1 := this.hw; have g2 := this.tc
    show s.adc.tc - s.adc.tcHw = _
    omega
  rw [← hW, ← hD] at inv
  obtain ⟨h', hh'⟩ : ∃ h', h' = fun k => if k < W then s.adc.data (k % 256) else h (k - W) := ⟨_, rfl⟩
  rw [← hh'] at inv
  have hr' : SampleRange h' := by
    intro k
    rw [hh']
    dsimp only
    split
    · exact k2.adc.data _
    · exact hh _
  have hev : scheduleEvents (fun k => h (k - W)) W D es1 = scheduleEvents h' W D es1 := by
    refine scheduleEvents_congr es1 fun k hk => ?_
    rw [hh']
    dsimp only
    rw [if_neg (by omega)]
  have hWB : W + 1 ≤ adcBlock := by
    have := written_ge (es1.map Prod.fst) W D
    have hB : 1 ≤ adcBlock := by decide
    omega
  have hlag : W ≤ D + 254 := by
    by_cases h0 : 0 < deliveries W D (es1.map Prod.fst)
    · exact keepsUp_lag _ hk1 h0
    · omega
  -- the first block
  obtain ⟨ad, inv1, err1, e1⟩ := schedule_run (S := S) k2.adc.data hr' (by decide) es1 inv k2.err hk1
  obtain ⟨s3, outs1, hrun1⟩ := rx_run_ok hS (scheduleEvents h' W D es1) k2.adc k2.core (schedule_range hr' es1 W D)
  have hok3 := run_ok_inv hS _ (schedule_range hr' es1 W D) k2.adc k2.core hrun1
  rw [hrun1] at e1
  cases hcr1 : s.core.run S (idealInputs 4992 (adcHist s.adc.data h') W D es1) with
  | ub => rw [hcr1] at e1; cases e1
  | ok r =>
  obtain ⟨c3, outs1'⟩ := r
  rw [hcr1] at e1
  simp only [Res.bind, Res.ok.injEq, Prod.mk.injEq] at e1
  obtain ⟨rfl, rfl⟩ := e1
  rw [hw1, hd1] at inv1
  -- its end
  have hx : h' (adcBlock - 1) = h (adcBlock - 1 - W) := by
    rw [hh']
    dsimp only
    rw [if_neg (by omega)]
  have hB1 : adcBlock - 1 + 1 = adcBlock := by decide
  have invB := inv1.write (by omega)
  rw [hx] at invB
  have hin : RxEv.InRange (.transfer (h (adcBlock - 1 - W))) := hh _
  have hok2 : (ad.write (h (adcBlock - 1 - W))).Ok := hok3.1.write hin
  have hokc : c3.Ok S := hok3.2
  obtain ⟨h3, hh3⟩ : ∃ h3 : Nat → Int, h3 = fun k => h (k + adcBlock - W) := ⟨_, rfl⟩
  have hr3 : SampleRange h3 := fun k => by rw [hh3]; exact hh _
  have hh3' : ∀ k, h3 k = h' (adcBlock + k) := by
    intro k
    rw [hh3, hh']
    dsimp only
    rw [if_neg (by omega), Nat.add_comm]
  rw [← hh3]
  have herr2 : (ad.write (h (adcBlock - 1 - W))).restart.err = false := (write_err _ _).trans err1
  generalize hE : adcBlock - 1 - W = E at *
  have st1 : RxSystem.step S { adc := ad, core := c3 } (.transfer (h E)) = .ok ({ adc := ad.write (h E), core := c3 }, none) := rfl
  generalize ad.write (h E) = ad2 at *
  have invB' : AdcInv s.adc.data h' 4992 adcBlock (adcBlock - 1) ad2 := by rw [hB1] at invB; exact invB
  obtain ⟨u1, inv2, hy2⟩ := block_next invB' h3 hh3'
  obtain ⟨c4, o4, hc4⟩ : ∃ c o, c3.step S { ready := ready, adc := .none } = .ok (c, o) := ⟨_, _, rfl⟩
  have st2 : RxSystem.step S { adc := ad2, core := c3 } (.iterate ready []) = .ok ({ adc := ad2.restart, core := c4 }, some o4) := by
    simp only [RxSystem.step, u1, Res.ok_bind, hc4]
  obtain ⟨s4, o4', g1, g2, g3⟩ := rx_step_ok (S := S) hS (s := { adc := ad2, core := c3 }) hok2 hokc (e := .iterate ready []) (fun v hv => by cases hv)
  rw [st2] at g1
  simp only [Res.ok.injEq, Prod.mk.injEq] at g1
  rw [← g1.1] at g2 g3
  -- the second block
  obtain ⟨ad5, -, -, e5⟩ := schedule_run (S := S) (s := { adc := ad2.restart, core := c4 }) hok2.data hr3 (by decide) es2 inv2 herr2 hk2
  obtain ⟨s5, outs2, hrun2⟩ := rx_run_ok hS (scheduleEvents h3 0 0 es2) g2 g3 (schedule_range hr3 es2 0 0)
  rw [hrun2] at e5
  cases hcr2 : c4.run S (idealInputs 4992 (adcHist ad2.data h3) 0 0 es2) with
  | ub => rw [show ({ adc := ad2.restart, core := c4 } : RxSystem).core = c4 from rfl, hcr2] at e5; cases e5
  | ok r =>
  obtain ⟨c5, outs2'⟩ := r
  rw [show ({ adc := ad2.restart, core := c4 } : RxSystem).core = c4 from rfl, hcr2] at e5
  simp only [Res.bind, Res.ok.injEq, Prod.mk.injEq] at e5
  obtain ⟨rfl, rfl⟩ := e5
  have hrun : s.run S (scheduleEvents (fun k => h (k - W)) W D es1 ++ .transfer (h E) :: .iterate ready [] :: scheduleEvents h3 0 0 es2) =
      .ok ({ adc := ad5, core := c5 }, outs1 ++ (o4 :: outs2)) := by
    rw [hev]
    refine RxSystem.run_append' S _ _ hrun1 ?_
    simp only [RxSystem.run, st1, st2, Res.ok_bind, hrun2]
    rfl
  have hcr : s.core.run S (idealInputs 4992 (adcHist s.adc.data h') W D es1 ++ { ready := ready, adc := .none } :: idealInputs 4992 (adcHist ad2.data h3) 0 0 es2) =
      .ok (c5, outs1 ++ (o4 :: outs2)) := by
    refine core_run_append _ _ hcr1 ?_
    simp only [Core1.run, hc4, Res.ok_bind, hcr2]
  -- the values
  have hs1 := samples_ideal 4992 (adcHist s.adc.data h') es1 W D
  have hs2 := samples_ideal 4992 (adcHist ad2.data h3) es2 0 0
  have hno1 := ideal_no_error 4992 (adcHist s.adc.data h') es1 W D
  have hno2 := ideal_no_error 4992 (adcHist ad2.data h3) es2 0 0
  have hage : (samplesOf is2).length + (W - D) ≤ 255 + arrivals p2 := by omega
  generalize hI1 : idealInputs 4992 (adcHist s.adc.data h') W D es1 = I1 at *
  generalize hI2 : idealInputs 4992 (adcHist ad2.data h3) 0 0 es2 = I2 at *
  generalize hn1 : deliveries W D (es1.map Prod.fst) = n1 at *
  generalize hn2 : deliveries 0 0 (es2.map Prod.fst) = n2 at *
  have hDW := inv.dle
  have hyb := adcHist_range k2.adc.data hr'
  have hbase : ∀ j : Nat, adcHist s.adc.data h' ((W + j : Nat) : Int) = h j := by
    intro j
    rw [hh']
    unfold adcHist
    rw [if_neg (by omega)]
    dsimp only
    rw [if_neg (by omega)]
    congr 1
    omega
  have href : ∀ m : Nat, adcRef 4992 (adcHist ad2.data h3) m = adcRef 4992 (adcHist s.adc.data h') ((adcBlock + m : Nat) : Int) := by
    intro m
    unfold adcRef
    rw [hy2 m (by omega), hy2 (m - 1) (by omega), hy2 (m - 2) (by omega)]
    rw [show (adcBlock : Int) + (m : Int) = ((adcBlock + m : Nat) : Int) by omega, show (adcBlock : Int) + ((m : Int) - 1) = ((adcBlock + m : Nat) : Int) - 1 by omega,
      show (adcBlock : Int) + ((m : Int) - 2) = ((adcBlock + m : Nat) : Int) - 2 by omega]
  obtain ⟨K0, hK0⟩ : ∃ K0, K0 = (samplesOf is1).length + (samplesOf is2).length := ⟨_, rfl⟩
  obtain ⟨v, v1, v2, v3, v4⟩ := hist_line (pre := samplesOf is1 ++ samplesOf is2) (fun x hx => by
    rcases List.mem_append.mp hx with hm | hm
    · exact b1 _ hm
    · exact b2 _ hm) hyb (K0 := K0) (by rw [List.length_append, hK0]) hDW hbase hq
  generalize hB : adcBlock = B at *
  have hl1 : (samplesOf I1).length = n1 := by rw [hs1]; simp
  have hl2 : (samplesOf I2).length = n2 := by rw [hs2]; simp
  have hs3 : samplesOf (I1 ++ { ready := ready, adc := .none } :: I2) = samplesOf I1 ++ samplesOf I2 := by
    rw [samplesOf_append]; rfl
  have hsv : samplesOf is1 ++ samplesOf is2 ++ samplesOf (I1 ++ { ready := ready, adc := .none } :: I2) =
      (List.range ((samplesOf is1).length + (samplesOf is2).length + (samplesOf (I1 ++ { ready := ready, adc := .none } :: I2)).length)).map
        fun k => v (del (K0 + (W - D) + E) k) := by
    rw [hs3, List.length_append, hl1, hl2, ← hK0]
    apply List.ext_getElem
    · simp only [List.length_append, List.length_map, List.length_range]; omega
    · intro i i1 i2
      rw [List.getElem_map, List.getElem_range]
      by_cases hlt : i < K0
      · rw [List.getElem_append_left (by rw [List.length_append]; omega), del_lt (by omega)]
        simp only [← v2, List.getElem_map, List.getElem_range]
      · obtain ⟨m, rfl⟩ : ∃ m, i = K0 + m := ⟨i - K0, by omega⟩
        rw [List.getElem_append_right (by rw [List.length_append]; omega)]
        have hm : K0 + m - (samplesOf is1 ++ samplesOf is2).length = m := by rw [List.length_append]; omega
        simp only [hm]
        by_cases hlt1 : m < n1
        · rw [List.getElem_append_left (by omega), del_lt (by omega), v3]
          simp only [hs1, List.getElem_map, List.getElem_range', Nat.one_mul]
        · rw [List.getElem_append_right (by omega), del_ge (by omega), Nat.add_assoc, v3]
          simp only [hs2, hl1, List.getElem_map, List.getElem_range', Nat.one_mul]
          rw [href]
          congr 2
          omega
  have hmv := mv_del_flat v4 (hcut.shift (K0 + (W - D)))
  have hcl := hc.shift (K0 + (W - D))
  rw [Nat.zero_add] at hcl
  have hcl : RawCarries (fun k => L (del (K0 + (W - D) + E) k - (K0 + (W - D)))) (K0 + (W - D)) (byteFrames (qs.flatMap BusPacket.frames)) := by
    refine RawCarries.congr (fun k hk => ?_) hcl
    congr 1
    unfold del
    split <;> split <;> omega
  have hl3 : (samplesOf (I1 ++ { ready := ready, adc := .none } :: I2)).length = n1 + n2 := by rw [hs3, List.length_append, hl1, hl2]
  obtain ⟨Y, y1, y2⟩ := heal_core hS q1 q2 hcr (fun k => v1 _) hsv hfr h1 h2 (b := K0 + (W - D)) (N := N - 1) (M := M) (by omega) hmv hps hcl hm1 hgap' (by omega) (by omega) (by omega)
    (by omega) (by omega) (by
      intro i hi
      rcases List.mem_append.mp hi with hi | hi
      · exact hno1 i hi
      · rcases List.mem_cons.mp hi with rfl | hi
        · exact (fun h => by cases h)
        · exact hno2 i hi)
  refine ⟨_, _, Y, hrun, ?_, y2⟩
  exact y1

/-- **C127, from the samples to the words.** After any history of the receive side: the samples transferred from then on are those of a line that is silent for 1921 codes and then carries the
packets `ps`, and the loop keeps up.  At some time, perhaps within a packet, the block of the DMA ends (`es1` before, `es2` after; the loop has processed all samples when the last one
of the block, number `adcBlock - 1 - W` of the line, is transferred), so one sample is lost.  If there is no edge of a pulse at this sample or the one before, the words for the other
core are those of the packets, in order and exactly once, as if nothing were lost: line busy, the bytes, line free.  Before them there may be a rest of the history (`Y`), which is over.
(`N`: the samples of the line that are transferred and processed or lost.)  Not claimed: an edge at the lost sample, and a loop that lags behind at the end of the block. -/
theorem C127_words {S : Nat} (hS : 8 ≤ S) {ring : Nat → Int} (hr : SampleRange ring) {rxErr : Bool} {p1 p2 : List RxEv}
    (hp1 : ∀ e ∈ p1, e.InRange) (hp2 : ∀ e ∈ p2, e.InRange) {s1 s : RxSystem} {o1 o2 : List C1Out}
    (r1 : RxSystem.run S (RxSystem.init ring rxErr) p1 = .ok (s1, o1)) (hres : p1 = [] ∨ s1.core.word.result ≠ [])
    (r2 : s1.run S p2 = .ok (s, o2))
    {a c : Int} (h1 : 49 ≤ a) (h2 : a ≤ 88) {L : Nat → Level} {h : Nat → Int} (hh : SampleRange h) (hq : Samples a c L h)
    {M : Nat} (hM : arrivals p2 + M + 2200 ≤ 2 * 2 ^ S) {ps : List BusPacket} (hp : ∀ p ∈ ps, p.RawOk ∧ 351 ≤ p.gap)
    (hg : ∀ b ∈ ps.flatMap BusPacket.frames, b.1 ≤ M) (hc : TightCarries L 0 (byteFrames (ps.flatMap BusPacket.frames)))
    (hgap : ∀ p, ps.head? = some p → 1921 ≤ p.gap) {W D : Nat} (hW : W = adcBlock - s.adc.tcHw) (hD : D = adcBlock - s.adc.tc)
    {es1 es2 : List (AdcEv × Bool)} (hk1 : keepsUp 254 W D (es1.map Prod.fst)) (hw1 : written W D (es1.map Prod.fst) = adcBlock - 1)
    (hd1 : D + deliveries W D (es1.map Prod.fst) = adcBlock - 1) (hcut : NoEdge L (adcBlock - 1 - W)) (ready : Bool)
    (hk2 : keepsUp 254 0 0 (es2.map Prod.fst)) {N : Nat} (hWN : W + N = adcBlock + deliveries 0 0 (es2.map Prod.fst))
    (hN0 : 1921 ≤ N) (hN : rawEnd 0 (byteFrames (ps.flatMap BusPacket.frames)) + 379 ≤ N)
    (hN' : N ≤ rawEnd 0 (byteFrames (ps.flatMap BusPacket.frames)) + M) :
    ∃ s' outs Y, s.run S (scheduleEvents (fun k => h (k - W)) W D es1 ++ .transfer (h (adcBlock - 1 - W)) :: .iterate ready [] ::
        scheduleEvents (fun k => h (k + adcBlock - W)) 0 0 es2) = .ok (s', outs) ∧
      sent outs ++ (if s'.core.word = .zero then [] else [s'.core.word]) =
        (if s.core.word = .zero then [] else [s.core.word]) ++ Y ++ (ps.flatMap fun p => wBusy :: (p.bytes.map wByte ++ [wFree])) ∧
      ((Y = [] ∧ s.core.busy = false) ∨ ∃ Y', Y = Y' ++ [wFree]) := by
  obtain ⟨E, hE⟩ : ∃ E, E = adcBlock - 1 - W := ⟨_, rfl⟩
  have hcl := cut_line (J := E) hc (by omega)
  rw [shave_frames, ← shavePackets_frames _ _ (by omega)] at hcl
  have hend := shave_end (J := E) (t := 0) hc.gaps (by omega)
  rw [← shavePackets_frames _ _ (by omega)] at hend
  have hm1 : ∀ x ∈ (shavePackets E 0 ps).flatMap BusPacket.frames, x.1 ≤ M := by
    intro x hx
    rw [shavePackets_frames _ _ (by omega)] at hx
    obtain ⟨x', g1, g2, -⟩ := shave_mem (t := 0) hx
    have := hg x' g1
    omega
  have hgap' : GapFrom 1920 ((shavePackets E 0 ps).flatMap BusPacket.frames) := by
    rw [shavePackets_frames _ _ (by omega)]
    refine shave_gap ?_
    cases ps with
    | nil => intro f hf; cases hf
    | cons p ps =>
      intro f hf
      obtain rfl : (p.gap, p.pol, p.first) = f := by simpa [BusPacket.frames] using hf
      exact hgap p rfl
  have hps := shavePackets_ok (J := E) (t := 0) hp
  have hby := outWords_bytes (shavePackets_bytes (J := E) ps 0)
  rw [bytesEnd_raw] at hN hN'
  subst hE
  obtain ⟨s', outs, Y, e1, e2, e3⟩ := cut_words hS hr hp1 hp2 r1 hres r2 h1 h2 hh hq hM hW hD hps hm1 hcl hgap' hk1 hw1 hd1 hcut ready hk2 hWN hN0
    (by rw [bytesEnd_raw]; split at hend <;> omega) (by rw [bytesEnd_raw]; split at hend <;> omega)
  refine ⟨s', outs, Y, e1, ?_, e3⟩
  rw [e2]
  congr 1

/-! ## A case that meets the hypotheses: the block ends within a pulse of the first byte -/

/-- The line of `rawLine`, `G` codes later. -/
def shiftLine (G k : Nat) : Level := if k < G then .mid else rawLine (k - G)

def shiftPacket (G : Nat) : BusPacket := { rawPacket with gap := G + 400 }

/-- Samples with an offset of -90, an amplitude of 60 and an error. -/
def shiftSamples (G k : Nat) : Int := (if k % 2 = 0 then 90 else -90) + 60 * (shiftLine G k).sign + (if k % 3 = 0 then 1 else 0)

theorem shiftSamples_ok (G : Nat) : Samples 60 (-90) (shiftLine G) (shiftSamples G) := by
  intro k
  unfold shiftSamples
  dsimp only
  generalize 60 * (shiftLine G k).sign = z
  split <;> split <;> omega

theorem shiftSamples_range (G : Nat) : SampleRange (shiftSamples G) := by
  intro k
  unfold shiftSamples
  cases shiftLine G k <;> simp only [Level.sign] <;> split <;> split <;> omega

theorem shiftLine_mid {G k : Nat} (h : k < G + 400 ∨ (G + 748 ≤ k ∧ k < G + 768) ∨ G + 1116 ≤ k) : shiftLine G k = .mid := by
  unfold shiftLine rawLine
  split
  · rfl
  · rw [if_neg (by omega), if_neg (by omega)]

theorem shiftLine_carries (G : Nat) : TightCarries (shiftLine G) 0 (byteFrames ([shiftPacket G].flatMap BusPacket.frames)) := by
  show TightCarries (shiftLine G) 0 [(G + 400, symbolsOf true 0x40), (20, symbolsOf true 0xF0)]
  obtain ⟨H, hH⟩ : ∃ H, H = G + 400 := ⟨_, rfl⟩
  rw [← hH]
  refine ⟨?_, fun k _ hk => ?_, ⟨fun _ => 0, fun _ => 0, fun _ => by simp, fun j hj => ?_⟩, ?_, fun k hk hk' => ?_,
    ⟨fun _ => 0, fun _ => 0, fun _ => by simp, fun j hj => ?_⟩, fun k hk => ?_⟩
  · show 1 ≤ H
    omega
  · have hk : k < 0 + H := hk
    exact shiftLine_mid (Or.inl (by omega))
  · show shiftLine G (0 + H + j) = if 0 ≤ j % 32 ∧ j % 32 < 16 + 0 then symbolsOf true 0x40 (j / 32) else .mid
    unfold shiftLine rawLine
    rw [if_neg (by omega), if_pos (by omega), show 0 + H + j - G - 400 = j by omega]; simp
  · show 1 ≤ 20
    omega
  · have hk : 0 + H + 348 ≤ k := hk
    have hk' : k < 0 + H + 348 + 20 := hk'
    exact shiftLine_mid (Or.inr (Or.inl (by omega)))
  · show shiftLine G (0 + H + 348 + 20 + j) = if 0 ≤ j % 32 ∧ j % 32 < 16 + 0 then symbolsOf true 0xF0 (j / 32) else .mid
    unfold shiftLine rawLine
    rw [if_neg (by omega), if_neg (by omega), if_pos (by omega), show 0 + H + 348 + 20 + j - G - 768 = j by omega]; simp
  · have hk : 0 + H + 348 + 20 + 348 ≤ k := hk
    exact shiftLine_mid (Or.inr (Or.inr (by omega)))

theorem shift_end (G : Nat) : rawEnd 0 (byteFrames ([shiftPacket G].flatMap BusPacket.frames)) = G + 1116 := by
  rw [bytesEnd_raw]
  show bytesEnd 0 [(G + 400, true, 0x40), (20, true, 0xF0)] = _
  simp only [bytesEnd]
  omega

theorem shiftLine_cut (G : Nat) : NoEdge (shiftLine G) (G + 499) := by
  have key : ∀ r, 1 ≤ r → r ≤ 3 → shiftLine G (G + 496 + r) = symbolsOf true 0x40 3 := by
    intro r h1 h2
    unfold shiftLine rawLine
    rw [if_neg (by omega), if_pos (by omega), if_pos (by omega), show (G + 496 + r - G - 400) / 32 = 3 by omega]
  intro k h1 h2
  have e1 := key (k - (G + 496)) (by omega) (by omega)
  have e2 := key 3 (by omega) (by omega)
  rw [show G + 496 + (k - (G + 496)) = k by omega] at e1
  exact e1.trans e2.symm

theorem atOnce_written : ∀ (n k : Nat), written k k ((atOnce n).map Prod.fst) = k + n := by
  intro n
  induction n with
  | zero => intro k; rfl
  | succ n ih =>
    intro k
    have e : (atOnce (n + 1)).map Prod.fst = .write :: .poll 0 :: (atOnce n).map Prod.fst := rfl
    rw [e]
    simp only [written, if_neg (show ¬ k + 1 = k by omega)]
    rw [Nat.add_zero, ih]; omega

theorem shift_nums {G B : Nat} (hG : G + 500 = B) (hB : 5000 ≤ B) : 0 + (G + 499) < B ∧ 0 + (G + 499) = B - 1 ∧ G + 499 = B - 1 - 0 ∧ 0 + (B + 1500) = B + 1500 ∧ 1921 ≤ B + 1500 ∧
    G + 1116 + 379 ≤ B + 1500 ∧ B + 1500 ≤ G + 1116 + B ∧ 1921 ≤ G + 400 ∧ G + 400 ≤ B ∧ 20 ≤ B := by omega

theorem shiftPacket_ok {G : Nat} (h : 1921 ≤ G + 400) : (shiftPacket G).RawOk ∧ 351 ≤ (shiftPacket G).gap := by
  refine ⟨⟨?_, ?_, ?_⟩, ?_⟩
  · show 350 ≤ G + 400
    omega
  · show ([(20, true, 0xF0)].map fun b : Nat × Bool × UInt8 => b.1 + 10).sum ≤ 345
    decide
  · show ∀ b ∈ [((20, true, 0xF0) : Nat × Bool × UInt8)], b.2.1 = true
    decide
  · show 351 ≤ G + 400
    omega

theorem shift_gaps {G B : Nat} (h1 : G + 400 ≤ B) (h2 : 20 ≤ B) : ∀ b ∈ [shiftPacket G].flatMap BusPacket.frames, b.1 ≤ B := by
  show ∀ b ∈ [((G + 400, true, 0x40) : Nat × Bool × UInt8), (20, true, 0xF0)], b.1 ≤ B
  intro b hb
  rcases List.mem_cons.mp hb with rfl | hb
  · exact h1
  · rcases List.mem_cons.mp hb with rfl | hb
    · exact h2
    · cases hb

/-- The block ends in the middle of the pulse of the third data bit of the byte 40 (`G + 499` is the last sample of the block). -/
example (G : Nat) (hG : G + 500 = adcBlock) : ∃ s' outs Y,
    RxSystem.run 32 (RxSystem.init (fun _ => 0) true) (scheduleEvents (fun k => shiftSamples G (k - 0)) 0 0 (atOnce (G + 499)) ++ .transfer (shiftSamples G (adcBlock - 1 - 0)) ::
      .iterate true [] :: scheduleEvents (fun k => shiftSamples G (k + adcBlock - 0)) 0 0 (atOnce 1500)) = .ok (s', outs) ∧
    sent outs ++ (if s'.core.word = .zero then [] else [s'.core.word]) = Y ++ [wBusy, wByte 0x40, wByte 0xF0, wFree] ∧
    (Y = [] ∨ ∃ Y', Y = Y' ++ [wFree]) := by
  obtain ⟨y1, y2, y3, y4, y5, y6, y7, y8, y9, y10⟩ := shift_nums hG (by decide)
  have h0 : SampleRange fun _ => 0 := fun _ => by show (-256 : Int) ≤ 0 ∧ (0 : Int) ≤ 255; decide
  obtain ⟨k1, k2⟩ := atOnce_ok (G + 499) 0 y1
  have k3 := atOnce_written (G + 499) 0
  obtain ⟨m1, m2⟩ := atOnce_ok 1500 0 (by decide)
  have hM : arrivals [] + adcBlock + 2200 ≤ 2 * 2 ^ 32 := by decide
  have hcut := shiftLine_cut G
  rw [y3] at hcut
  obtain ⟨s', outs, Y, e1, e2, e3⟩ := C127_words (S := 32) (by decide) h0 (rxErr := true) (p1 := []) (p2 := []) (fun e he => (by cases he)) (fun e he => (by cases he)) rfl (Or.inl rfl) rfl
    (by decide) (by decide) (shiftSamples_range G) (shiftSamples_ok G) (M := adcBlock) hM (ps := [shiftPacket G])
    (by intro p hp; rw [List.mem_singleton] at hp; subst hp; exact shiftPacket_ok y8) (shift_gaps y9 y10) (shiftLine_carries G)
    (by intro p hp; cases hp; exact y8) (W := 0) (D := 0) rfl rfl k1 (k3.trans y2) (by rw [k2]; exact y2) hcut true m1 (N := adcBlock + 1500)
    (by rw [m2]; exact y4) y5 (by rw [shift_end]; exact y6) (by rw [shift_end]; exact y7)
  refine ⟨s', outs, Y, e1, e2, ?_⟩
  rcases e3 with e3 | e3
  · exact Or.inl e3.1
  · exact Or.inr e3

end P1P2
