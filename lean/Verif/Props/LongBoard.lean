import Verif.Props.Blocks
import Verif.Props.LongRun
/-!
# C152: the whole device from power-up, over any number of DMA blocks
-/
namespace P1P2

/-- The steps of a run over complete blocks: for each of them the steps before its last conversion, that conversion, the steps of the main loop that may follow, and the
iteration of core 1 that starts the next block. -/
def boardSteps : List (List BoardStep × Int × List BoardStep) → List BoardStep → List BoardStep
  | [], last => last
  | (a, v, m) :: cs, last => a ++ .convert v :: (m ++ .receive [] :: boardSteps cs last)

/-- A complete block: all its conversions but the last one, the last one, and steps of the main loop only. -/
structure CutOk (c : List BoardStep × Int × List BoardStep) : Prop where
  block : (converted c.1).length + 1 = adcBlock
  mid : ∀ x ∈ c.2.2, (∀ v, x ≠ .convert v) ∧ ∀ l, x ≠ .receive l

theorem board_behind {S : Nat} {pf : Platform} {g : Nat → UInt8} {n : Nat} : ∀ (xs : List BoardStep) {s t : Board} {os : List BoardOut}, s.run S pf g xs = .ok (some (t, os)) →
    s.rx.adc.behind ≤ n → (∀ o ∈ os, o.behind ≤ n) → t.rx.adc.behind ≤ n := by
  intro xs
  induction xs with
  | nil =>
    intro s t os h hs _
    obtain ⟨rfl, -⟩ := Board.run_nil h
    exact hs
  | cons x xs ih =>
    intro s t os h _ hb
    obtain ⟨s', o, os', h1, h2, rfl⟩ := Board.run_cons h
    exact ih h2 (by rw [← (Board.step_ok h1).1]; exact hb o (List.mem_cons_self ..)) (fun o ho => hb o (List.mem_cons_of_mem _ ho))

theorem long_parts {S : Nat} (hS : 8 ≤ S) {pf : Platform} {g : Nat → UInt8} : ∀ (cs : List (List BoardStep × Int × List BoardStep)) {last : List BoardStep} {ring h : Nat → Int}
    {s t : Board} {os : List BoardOut}, SampleRange ring → SampleRange h → s.run S pf g (boardSteps cs last) = .ok (some (t, os)) → AdcInv ring h 4992 0 0 s.rx.adc →
    s.rx.adc.err = false → s.rx.adc.Ok → s.rx.core.Ok S → (∀ c ∈ cs, CutOk c) → (∀ o ∈ os, o.behind ≤ 253) → (∀ o ∈ os, o.dropped = false) →
    converted (boardSteps cs last) = nextSamples h 0 (converted (boardSteps cs last)).length → (converted last).length < adcBlock →
    ∃ bs es c1s ys tos, s.rx.run S (blockEvents h bs es) = .ok (t.rx, c1s) ∧ (∀ b ∈ bs, BlockOk b.1) ∧ bs.length = cs.length ∧ keepsUp 254 0 0 (es.map Prod.fst) ∧
      deliveries 0 0 (es.map Prod.fst) + t.rx.adc.behind = (converted last).length ∧ s.main.run pf g ys = .ok (some (t.main, tos)) ∧ pushes ys = sent c1s ∧
      drops tos = 0 ∧ reportsOf tos = os.flatMap BoardOut.reports ∧ (converted (boardSteps cs last)).length = cs.length * adcBlock + (converted last).length := by
  have key : ∀ l : List BoardOut, (∀ o ∈ l, o.dropped = false) → l.countP BoardOut.dropped = 0 := fun l hl => by
    rw [List.countP_eq_zero]
    intro o ho
    rw [hl o ho]; decide
  intro cs
  induction cs with
  | nil =>
    intro last ring h s t os hr hh hrun i he _ _ _ hb hd hv hlast
    obtain ⟨es, c1s, ys, tos, a1, a2, a3, a4, a5, a6, a7, -⟩ := board_parts (S := S) (pf := pf) (g := g) hr hh last (W := 0) (D := 0) hrun i he (by rw [i.behind]; decide) hb hv (by omega)
    refine ⟨[], es, c1s, ys, tos, a1, (fun b hb => by cases hb), rfl, a2, by omega, a4, a5, by rw [a6, key os hd], a7, ?_⟩
    show (converted last).length = 0 * adcBlock + _
    omega
  | cons c cs ih =>
    obtain ⟨xs1, v, mid⟩ := c
    intro last ring h s t os hr hh hrun i he hok hokc hcs hb hd hv hlast
    obtain ⟨hblock, hmid⟩ := hcs _ (List.mem_cons_self ..)
    dsimp only at hblock hmid
    have hrun : s.run S pf g (xs1 ++ .convert v :: (mid ++ .receive [] :: boardSteps cs last)) = .ok (some (t, os)) := hrun
    obtain ⟨bm, os1, os2, r3, r4, rfl⟩ := Board.run_cut xs1 hrun
    obtain ⟨bc, oc, os3, e1, e2, rfl⟩ := Board.run_cons r4
    obtain ⟨br, o4, o5, e3, e4, rfl⟩ := Board.run_cut mid e2
    obtain ⟨bb, o6, o7, e5, e6, rfl⟩ := Board.run_cons e4
    obtain ⟨g1, g2, ysm, tosm, g3, g4, g5, g6⟩ := main_only mid e3 hmid
    generalize hxs : boardSteps ((xs1, v, mid) :: cs) last = xs at *
    generalize hxs2 : boardSteps cs last = xs2 at *
    have hcx : converted xs = converted xs1 ++ v :: converted xs2 := by
      rw [← hxs]
      show converted (xs1 ++ .convert v :: (mid ++ .receive [] :: boardSteps cs last)) = _
      rw [hxs2, converted_two]
      congr 1
      show [v] ++ converted (mid ++ .receive [] :: xs2) = _
      rw [converted_two, g2]
      rfl
    have hlen : (converted xs).length = (converted xs1).length + 1 + (converted xs2).length := by
      rw [hcx, List.length_append, List.length_cons]; omega
    have hva := hv
    rw [hcx] at hva
    obtain ⟨w1, w2⟩ := nextSamples_cut hva
    rw [Nat.zero_add] at w2
    have w2 : [v] ++ converted xs2 = nextSamples h (converted xs1).length ([v] ++ converted xs2).length := w2
    obtain ⟨w2, w3⟩ := nextSamples_cut w2
    have w2 : v = h (converted xs1).length := by
      have : [v] = [h (converted xs1).length] := w2
      simpa using this
    have hvr : -256 ≤ v ∧ v ≤ 255 := by rw [w2]; exact hh _
    obtain ⟨h3, hh3⟩ : ∃ h3 : Nat → Int, h3 = fun k => h (adcBlock + k) := ⟨_, rfl⟩
    have hr3 : SampleRange h3 := fun k => by rw [hh3]; exact hh _
    have w3 : converted xs2 = nextSamples h3 0 (converted xs2).length := by
      refine Eq.trans w3 ?_
      show nextSamples h ((converted xs1).length + 1) _ = _
      rw [hblock]
      unfold nextSamples
      refine List.map_congr_left fun k _ => ?_
      rw [hh3]
      dsimp only
      rw [Nat.zero_add]
    -- the block
    obtain ⟨esa, c1a, ysa, tosa, a1, a2, a3, a4, a5, a6, a7, -⟩ := board_parts (S := S) (pf := pf) (g := g) hr hh xs1 r3 i he (by rw [i.behind]; decide)
      (fun o ho => hb o (List.mem_append_left _ ho)) w1 (by omega)
    obtain ⟨ad, i1, err1, i2⟩ := schedule_run (S := S) hr hh (by decide) esa i he a2
    have hok3 := run_ok_inv hS _ (schedule_range hh esa 0 0) hok hokc a1
    rw [a1] at i2
    have had : ad = bm.rx.adc := by
      cases hcr : s.rx.core.run S (idealInputs 4992 (adcHist ring h) 0 0 esa) with
      | ub => rw [hcr] at i2; cases i2
      | ok r =>
        rw [hcr] at i2
        simp only [Res.bind, Res.ok.injEq, Prod.mk.injEq] at i2
        rw [i2.1]
    rw [had] at i1 err1
    have hbm : bm.rx.adc.behind ≤ 253 := board_behind xs1 r3 (by rw [i.behind]; decide) (fun o ho => hb o (List.mem_append_left _ ho))
    have hdl : deliveries 0 0 (esa.map Prod.fst) + bm.rx.adc.behind = adcBlock - 1 := by omega
    have hwr : written 0 0 (esa.map Prod.fst) = adcBlock - 1 := by
      have := i1.behind
      have := i1.dle
      omega
    -- its end
    obtain ⟨-, hcv⟩ := Board.step_ok e1
    have hbc : bc.rx = { bm.rx with adc := bm.rx.adc.write v } ∧ bc.main = bm.main ∧ oc.reports = [] := by
      rcases hcv with ⟨v', hv', rfl, x1, x2⟩ | ⟨late, c1, hv', -⟩ | ⟨y, to, hy, -⟩
      · simp only [BoardStep.convert.injEq] at hv'
        subst hv'
        exact ⟨rfl, rfl, x1⟩
      · cases hv'
      · rcases hy with ⟨h, -⟩ | ⟨e, h, -⟩ | ⟨e, h, -⟩ <;> cases h
    obtain ⟨f1, f2, f3⟩ := hbc
    obtain ⟨cm, ysr, tosr, j1, j2, j3, j4, j5⟩ := receive_main e5
    obtain ⟨rd, hrd⟩ : ∃ rd, rd = decide (br.main.fifo.length < 8) := ⟨_, rfl⟩
    rw [← hrd, g1, f1] at j1
    have hB1 : adcBlock - 1 + 1 = adcBlock := by decide
    rw [hwr] at i1
    have invB := i1.write (by omega)
    have hn1 : (converted xs1).length = adcBlock - 1 := by omega
    rw [hB1] at invB
    rw [hn1] at w2
    rw [← w2] at invB
    have hokw : (bm.rx.adc.write v).Ok := hok3.1.write hvr
    have herrw : (bm.rx.adc.write v).restart.err = false := (write_err _ _).trans err1
    have hw0 : RxSystem.step S bm.rx (.transfer v) = .ok ({ bm.rx with adc := bm.rx.adc.write v }, none) := rfl
    generalize bm.rx.adc.write v = ad2 at *
    obtain ⟨u1, inv2, -⟩ := block_next' invB h3 (fun k => by rw [hh3])
    have hj := j1
    rw [RxSystem.step] at hj
    dsimp only at hj
    rw [u1, Res.ok_bind] at hj
    dsimp only at hj
    rw [Res.bind_eq_ok] at hj
    obtain ⟨cc, -, hj⟩ := hj
    simp only [Res.ok.injEq, Prod.mk.injEq] at hj
    have hbs : bb.rx.adc = ad2.restart := by rw [← hj.1]
    obtain ⟨s4, o4', q1, q2, q3⟩ := rx_step_ok (S := S) hS (s := { adc := ad2, core := bm.rx.core }) hokw hok3.2 (e := .iterate rd []) (fun v hv => by cases hv)
    rw [show ({ bm.rx with adc := ad2 } : RxSystem) = { adc := ad2, core := bm.rx.core } from rfl] at j1
    rw [j1] at q1
    simp only [Res.ok.injEq, Prod.mk.injEq] at q1
    rw [← q1.1] at q2 q3
    obtain ⟨bs, es, c1s, ys, tos, b1, b2, b3, b4, b5, b6, b7, b8, b9, b10⟩ := ih (s := bb) (last := last) hokw.data hr3 (by rw [hxs2]; exact e6) (by rw [hbs]; exact inv2)
      (by rw [hbs]; exact herrw) q2 q3 (fun c hc => hcs c (List.mem_cons_of_mem _ hc)) (fun o ho => hb o (by simp [ho])) (fun o ho => hd o (by simp [ho])) (by rw [hxs2]; exact w3) hlast
    rw [hxs2] at b10
    rw [f2] at g3
    refine ⟨(esa, rd) :: bs, es, c1a ++ cm :: c1s, ysa ++ (ysm ++ (ysr ++ ys)), tosa ++ (tosm ++ (tosr ++ tos)), ?_, fun b hb => ?_, ?_, b4, b5, ?_, ?_, ?_, ?_, ?_⟩
    · show s.rx.run S (scheduleEvents h 0 0 esa ++ .transfer (h (adcBlock - 1)) :: .iterate rd [] :: blockEvents (fun k => h (adcBlock + k)) bs es) = _
      rw [← hh3]
      refine RxSystem.run_append' S _ _ a1 ?_
      rw [← w2, RxSystem.run, hw0, Res.ok_bind]
      dsimp only
      rw [RxSystem.run, show ({ bm.rx with adc := ad2 } : RxSystem) = { adc := ad2, core := bm.rx.core } from rfl, j1, Res.ok_bind, b1]
      rfl
    · rcases List.mem_cons.mp hb with rfl | hb
      · exact ⟨a2, hwr, by dsimp only; omega⟩
      · exact b2 b hb
    · rw [List.length_cons, List.length_cons, b3]
    · exact TwoCores.run_join ysa a4 (TwoCores.run_join ysm g3 (TwoCores.run_join ysr j2 b6))
    · have hp2 : ∀ x y : List TwoStep, pushes (x ++ y) = pushes x ++ pushes y := fun x y => List.filterMap_append ..
      have hs2 : ∀ x y : List C1Out, sent (x ++ y) = sent x ++ sent y := fun x y => List.filterMap_append ..
      rw [hp2, hp2, hp2, hs2, show cm :: c1s = [cm] ++ c1s from rfl, hs2, a5, g4, j3, b7, List.nil_append]
    · have hd2 : ∀ x y : List TwoOut, drops (x ++ y) = drops x + drops y := fun x y => List.countP_append ..
      rw [hd2, hd2, hd2, a6, g5, j4, b8, key os1 (fun o ho => hd o (by simp [ho])), key o4 (fun o ho => hd o (by simp [ho])),
        key [o6] (fun o ho => hd o (by simp at ho; simp [ho]))]
    · have hr2 : ∀ x y : List TwoOut, reportsOf (x ++ y) = reportsOf x ++ reportsOf y := fun x y => List.flatMap_append ..
      rw [hr2, hr2, hr2, a7, g6, j5, b9]
      simp [f3]
    · rw [hlen, b10, hblock, List.length_cons, Nat.succ_mul]
      omega

theorem rest_loss : ∀ {ds : List Nat} {L : Nat → Level}, (∀ d ∈ ds, adcBlock ≤ d + 255) →
    (∀ i, 1 ≤ i → i ≤ ds.length → ∀ j, i * adcBlock ≤ j + 955 → j < i * adcBlock + 2 → L j = .mid) → RestLoss L ds := by
  intro ds
  induction ds with
  | nil => intro L _ _; trivial
  | cons d ds ih =>
    intro L hd hL
    refine ⟨fun j h1 h2 => ?_, ih (fun d hd' => hd d (List.mem_cons_of_mem _ hd')) fun i h1 h2 j h3 h4 => ?_⟩
    · have := hd d (List.mem_cons_self ..)
      exact hL 1 (by omega) (by simp) j (by omega) (by omega)
    · have e : (i + 1) * adcBlock = i * adcBlock + adcBlock := Nat.succ_mul ..
      exact hL (i + 1) (by omega) (by simpa using h2) _ (by omega) (by omega)

theorem processed_sum {bs : List (List (AdcEv × Bool) × Bool)} (h : ∀ b ∈ bs, BlockOk b.1) :
    bs.length * adcBlock ≤ (processed bs).sum + 255 * bs.length ∧ (processed bs).sum ≤ bs.length * adcBlock := by
  induction bs with
  | nil => exact ⟨by simp, by simp [processed]⟩
  | cons b bs ih =>
    have hb := h b (List.mem_cons_self ..)
    have h1 := hb.range.2
    have h2 := hb.lag
    obtain ⟨i1, i2⟩ := ih fun b hb => h b (List.mem_cons_of_mem _ hb)
    have e : (processed (b :: bs)).sum = deliveries 0 0 (b.1.map Prod.fst) + (processed bs).sum := rfl
    rw [e, List.length_cons, Nat.succ_mul]
    omega

/-- **C152.** The whole device from power-up over any number of DMA blocks, without any assumption on what happens inside: the bus carries the packets `ps` of at most 31 bytes as in `C103` and is
silent at the end of each block (from 955 conversions before it to the second one after it); the samples transferred are those of the codes; each block ends as in `CutOk`: after its last conversion the
next thing core 1 does is an iteration; the receive core is never more than 253 conversions behind, the main loop is fast enough (C141); at the end everything that was converted has been processed, or
lost at the end of a block, and the words were taken; the watchdog does not report.  Then the host was given exactly one line for each packet, in order, with status 0 and the bytes of the packet. -/
theorem C152_device {S : Nat} (hS : 9 ≤ S) (rxErr : Bool) {a c : Int} (h1 : 49 ≤ a) (h2 : a ≤ 88) {L : Nat → Level} {q : Nat → UInt8}
    (hq : Codes a c L q) {M : Nat} (hM : M + 70 ≤ 2 * 2 ^ S) (ps : List BusPacket) (hp : ∀ p ∈ ps, p.RawOk ∧ p.bytes.length ≤ 31)
    (hg : ∀ b ∈ ps.flatMap BusPacket.frames, b.1 ≤ M) (hc : RawCarries L 0 (byteFrames (ps.flatMap BusPacket.frames)))
    (pf : Platform) (g : Nat → UInt8) (w0 : Word) (t0 t1 : Nat) (cs : List (List BoardStep × Int × List BoardStep)) (last : List BoardStep) (hcs : ∀ c ∈ cs, CutOk c)
    (hsil : ∀ i, 1 ≤ i → i ≤ cs.length → ∀ j, i * adcBlock ≤ j + 955 → j < i * adcBlock + 2 → L j = .mid)
    (b : Board) (os : List BoardOut)
    (h : (Board.init (fun _ => 0) rxErr g w0 t0 t1).run S pf g (boardSteps cs last) = .ok (some (b, os)))
    (hv : converted (boardSteps cs last) = (List.range (converted (boardSteps cs last)).length).map fun k => Pio.sampleValue k (q k))
    (hlast : (converted last).length < adcBlock)
    (hN : rawEnd 0 (byteFrames (ps.flatMap BusPacket.frames)) + 378 + 255 * cs.length ≤ (converted (boardSteps cs last)).length)
    (hN' : (converted (boardSteps cs last)).length + 255 * cs.length ≤ rawEnd 0 (byteFrames (ps.flatMap BusPacket.frames)) + M)
    (hb : ∀ o ∈ os, o.behind ≤ 253) (hf : FastEnough (boardSteps cs last))
    (he : b.rx.adc.behind = 0 ∧ b.rx.core.word = .zero ∧ b.main.fifo = [] ∧ b.main.pc = .top) (h4 : ∀ m ∈ rxMsgs (os.flatMap BoardOut.reports), m.status ≠ 4) :
    (rxMsgs (os.flatMap BoardOut.reports)).map lineShown = ps.map fun p => (0, p.bytes) := by
  have hr : SampleRange fun k => Pio.sampleValue k (q k) := fun k => C41_conversion k (q k)
  have h0 : SampleRange fun _ => 0 := fun _ => by show (-256 : Int) ≤ 0 ∧ (0 : Int) ≤ 255; decide
  obtain ⟨d1, -, -⟩ := C141_no_overflow hS _ rxErr pf g w0 t0 t1 _ b os h (fun o ho => Nat.le_succ_of_le (hb o ho)) hf
  have hv' : converted (boardSteps cs last) = nextSamples (fun k => Pio.sampleValue k (q k)) 0 (converted (boardSteps cs last)).length := by
    rw [nextSamples]
    simp only [Nat.zero_add]
    exact hv
  have hok := HistOk.init (S := S) h0 rxErr
  obtain ⟨bs, es, c1s, ys, tos, a1, a2, a3, a4, a5, a6, a7, a8, a9, a10⟩ := long_parts (S := S) (by omega) (pf := pf) (g := g) cs (ring := fun _ => 0)
    (h := fun k => Pio.sampleValue k (q k)) h0 hr h (AdcInv.start _ _ 426) rfl hok.adc (Core1.Ok.init S rxErr) hcs hb d1 hv' hlast
  obtain ⟨s1, s2⟩ := processed_sum a2
  rw [a3] at s1 s2
  have hl : (processed bs).length = cs.length := (List.length_map ..).trans a3
  have hrl : RestLoss L (processed bs) := rest_loss (fun d hd => by
    obtain ⟨b, hb, rfl⟩ := List.mem_map.mp hd
    have := (a2 b hb).lag
    omega) (by rw [hl]; exact hsil)
  obtain ⟨s', outs', e1, e2⟩ := C151_rested (by omega) rxErr h1 h2 hq hM bs a2 es a4 hrl ps (fun p hp' => (hp p hp').1) hg hc (by omega) (by rw [a3]; omega)
  rw [show (Board.init (fun _ => 0) rxErr g w0 t0 t1).rx = RxSystem.init (fun _ => 0) rxErr from rfl, e1] at a1
  simp only [Res.ok.injEq, Prod.mk.injEq] at a1
  obtain ⟨rfl, rfl⟩ := a1
  rw [if_pos he.2.1, List.append_nil] at e2
  have e3 : pushes ys = packetWords (ps.map BusPacket.bytes) := by
    rw [a7, e2]
    unfold packetWords
    rw [List.flatMap_map]
  rw [← a9] at h4 ⊢
  have := C104_interleaved pf g w0 t0 t1 b.main ys tos a6 a8 he.2.2.2 he.2.2.1 _ e3 ?_ h4
  · rw [this, List.map_map]; rfl
  · intro p hp'
    obtain ⟨b, hb, rfl⟩ := List.mem_map.mp hp'
    refine ⟨?_, (hp b hb).2⟩
    simp [BusPacket.bytes]

end P1P2
