import Verif.Props.Recover
import Verif.Props.HealHost
import Verif.Props.Watch
/-!
# C149: the whole device over the end of a DMA block
-/
namespace P1P2

/-- Steps of the main loop only. -/
theorem main_only {S : Nat} {pf : Platform} {g : Nat → UInt8} : ∀ (xs : List BoardStep) {s t : Board} {os : List BoardOut}, s.run S pf g xs = .ok (some (t, os)) →
    (∀ x ∈ xs, (∀ v, x ≠ .convert v) ∧ ∀ l, x ≠ .receive l) →
    t.rx = s.rx ∧ converted xs = [] ∧ ∃ ys tos, s.main.run pf g ys = .ok (some (t.main, tos)) ∧ pushes ys = [] ∧ drops tos = os.countP BoardOut.dropped ∧ reportsOf tos = os.flatMap BoardOut.reports := by
  intro xs
  induction xs with
  | nil =>
    intro s t os h _
    obtain ⟨rfl, rfl⟩ := Board.run_nil h
    exact ⟨rfl, rfl, [], [], rfl, rfl, rfl, rfl⟩
  | cons x xs ih =>
    intro s t os h hx
    obtain ⟨s', o, os', h1, h2, rfl⟩ := Board.run_cons h
    obtain ⟨i1, i2, ys, tos, i3, i4, i5, i6⟩ := ih h2 (fun x hx' => hx x (List.mem_cons_of_mem _ hx'))
    obtain ⟨n1, n2⟩ := hx x (List.mem_cons_self ..)
    obtain ⟨-, hc⟩ := Board.step_ok h1
    rcases hc with ⟨v, rfl, -⟩ | ⟨late, c1, rfl, -⟩ | ⟨y, to, hy, hrx, hm, hrep, hd⟩
    · exact absurd rfl (n1 v)
    · exact absurd rfl (n2 late)
    · have hval : x.values = [] := by
        rcases hy with ⟨rfl, -⟩ | ⟨e, rfl, -⟩ | ⟨e, rfl, -⟩ <;> rfl
      have hpu : pushes (y :: ys) = pushes ys := by
        rcases hy with ⟨-, rfl⟩ | ⟨e, -, rfl⟩ | ⟨e, -, rfl⟩ <;> rfl
      have hcv : converted (x :: xs) = x.values ++ converted xs := rfl
      refine ⟨i1.trans hrx, by rw [hcv, hval, i2]; rfl, y :: ys, to :: tos, TwoCores.run_step hm i3, by rw [hpu, i4], ?_, ?_⟩
      · rw [List.countP_cons, hd, ← i5]
        simp [drops, List.countP_cons]
      · rw [List.flatMap_cons, hrep, ← i6]; rfl

theorem Board.run_cut {S : Nat} {pf : Platform} {g : Nat → UInt8} {ys : List BoardStep} : ∀ (xs : List BoardStep) {s u : Board} {os : List BoardOut},
    s.run S pf g (xs ++ ys) = .ok (some (u, os)) → ∃ t o1 o2, s.run S pf g xs = .ok (some (t, o1)) ∧ t.run S pf g ys = .ok (some (u, o2)) ∧ os = o1 ++ o2 := by
  intro xs
  induction xs with
  | nil => intro s u os h; exact ⟨s, [], os, rfl, h, rfl⟩
  | cons x xs ih =>
    intro s u os h
    obtain ⟨s', o, os', h1, h2, rfl⟩ := Board.run_cons h
    obtain ⟨t, o1, o2, a1, a2, rfl⟩ := ih h2
    refine ⟨t, o :: o1, o2, ?_, a2, rfl⟩
    rw [Board.run, h1, Res.ok_bind]
    dsimp only
    rw [a1, Res.ok_bind]

theorem TwoCores.run_join {pf : Platform} {g : Nat → UInt8} {ys : List TwoStep} : ∀ (xs : List TwoStep) {s t u : TwoCores} {o1 o2 : List TwoOut},
    s.run pf g xs = .ok (some (t, o1)) → t.run pf g ys = .ok (some (u, o2)) → s.run pf g (xs ++ ys) = .ok (some (u, o1 ++ o2)) := by
  intro xs
  induction xs with
  | nil =>
    intro s t u o1 o2 h1 h2
    simp only [TwoCores.run, Res.ok.injEq, Option.some.injEq, Prod.mk.injEq] at h1
    obtain ⟨rfl, rfl⟩ := h1
    exact h2
  | cons x xs ih =>
    intro s t u o1 o2 h1 h2
    rw [TwoCores.run, Res.bind_eq_ok] at h1
    obtain ⟨a, k1, h1⟩ := h1
    cases a with
    | none => simp at h1
    | some a =>
      obtain ⟨s', o⟩ := a
      dsimp only at h1
      rw [Res.bind_eq_ok] at h1
      obtain ⟨b, k2, h1⟩ := h1
      cases b with
      | none => simp at h1
      | some b =>
        obtain ⟨t', os⟩ := b
        simp only [Res.ok.injEq, Option.some.injEq, Prod.mk.injEq] at h1
        obtain ⟨rfl, rfl⟩ := h1
        exact TwoCores.run_step k1 (ih k2 h2)

/-- An iteration of core 1, for the FIFO and the main loop. -/
theorem receive_main {S : Nat} {pf : Platform} {g : Nat → UInt8} {s s' : Board} {late : List Int} {o : BoardOut} (h : s.step S pf g (.receive late) = .ok (some (s', o))) :
    ∃ c1 ys tos, s.rx.step S (.iterate (decide (s.main.fifo.length < 8)) late) = .ok (s'.rx, some c1) ∧ s.main.run pf g ys = .ok (some (s'.main, tos)) ∧ pushes ys = sent [c1] ∧
      drops tos = [o].countP BoardOut.dropped ∧ reportsOf tos = o.reports := by
  obtain ⟨-, hc⟩ := Board.step_ok h
  rcases hc with ⟨v, h, -⟩ | ⟨late', c1, h, -, hrx, hc⟩ | ⟨y, to, hy, -⟩
  · cases h
  · simp only [BoardStep.receive.injEq] at h
    subst h
    rcases hc with ⟨w1, w2, w3, w4⟩ | ⟨w, to, w1, w2, w3, w4⟩
    · refine ⟨c1, [], [], hrx, by rw [w2]; rfl, ?_, ?_, ?_⟩
      · rw [sent, filterMap_cons', w1]; rfl
      · rw [List.countP_cons, w4]; rfl
      · rw [w3]; rfl
    · refine ⟨c1, [.push w], [to], hrx, TwoCores.run_step w2 rfl, ?_, ?_, ?_⟩
      · rw [sent, filterMap_cons', w1]; rfl
      · rw [List.countP_cons, w4]
        simp [drops, List.countP_cons]
      · rw [w3]; simp [reportsOf]
  · rcases hy with ⟨h, -⟩ | ⟨e, h, -⟩ | ⟨e, h, -⟩ <;> cases h

theorem cut_lines {S : Nat} (hS : 8 ≤ S) {ring : Nat → Int} (hr : SampleRange ring) {rxErr : Bool} {p1 p2 : List RxEv}
    (hp1 : ∀ e ∈ p1, e.InRange) (hp2 : ∀ e ∈ p2, e.InRange) {s1 s : RxSystem} {o1 o2 : List C1Out}
    (r1 : RxSystem.run S (RxSystem.init ring rxErr) p1 = .ok (s1, o1)) (hres : p1 = [] ∨ s1.core.word.result ≠ [])
    (r2 : s1.run S p2 = .ok (s, o2))
    {a c : Int} (h1 : 49 ≤ a) (h2 : a ≤ 88) {L : Nat → Level} {h : Nat → Int} (hh : SampleRange h) (hq : Samples a c L h)
    {M : Nat} (hM : arrivals p2 + M + 2200 ≤ 2 * 2 ^ S) {W D : Nat} (hW : W = adcBlock - s.adc.tcHw) (hD : D = adcBlock - s.adc.tc)
    {qs : List BusPacket} (hps : ∀ p ∈ qs, p.RawOk ∧ p.bytes.length ≤ 31) (hm1 : ∀ b ∈ qs.flatMap BusPacket.frames, b.1 ≤ M)
    (hc : RawCarries (fun k => L (del (adcBlock - 1 - W) k)) 0 (byteFrames (qs.flatMap BusPacket.frames))) (hgap' : GapFrom 1920 (qs.flatMap BusPacket.frames))
    {es1 es2 : List (AdcEv × Bool)} (hk1 : keepsUp 254 W D (es1.map Prod.fst)) (hw1 : written W D (es1.map Prod.fst) = adcBlock - 1)
    (hd1 : D + deliveries W D (es1.map Prod.fst) = adcBlock - 1) (hcut : NoEdge L (adcBlock - 1 - W)) (ready : Bool)
    (hk2 : keepsUp 254 0 0 (es2.map Prod.fst)) {N : Nat} (hWN : W + N = adcBlock + deliveries 0 0 (es2.map Prod.fst))
    (hN0 : 1921 ≤ N) (hN : rawEnd 0 (byteFrames (qs.flatMap BusPacket.frames)) + 379 ≤ N)
    (hN' : N ≤ rawEnd 0 (byteFrames (qs.flatMap BusPacket.frames)) + M + 1)
    {s' : RxSystem} {outs : List C1Out} (hrun : s.run S (scheduleEvents (fun k => h (k - W)) W D es1 ++ .transfer (h (adcBlock - 1 - W)) :: .iterate ready [] ::
        scheduleEvents (fun k => h (k + adcBlock - W)) 0 0 es2) = .ok (s', outs))
    (pf : Platform) (g : Nat → UInt8) {es0 : List (Env1 × Env2)} {os0 : List Out2} {tc t : TwoCores} {xs : List TwoStep} {os : List TwoOut}
    (l0 : LoopRun pf g es0 tc.c0 os0) (hpc : tc.pc = .top) (hfe : tc.fifoErr = false)
    (hlast : s.core.busy = false → wordsOf es0 ++ tc.fifo ++ (if s.core.word = .zero then [] else [s.core.word]) = [] ∨
      ∃ Z, wordsOf es0 ++ tc.fifo ++ (if s.core.word = .zero then [] else [s.core.word]) = Z ++ [wFree])
    (ht : tc.run pf g xs = .ok (some (t, os))) (hx : pushes xs = sent outs ++ (if s'.core.word = .zero then [] else [s'.core.word])) (hdr : drops os = 0) (htop : t.pc = .top) (hf : t.fifo = [])
    (h4 : ∀ m ∈ rxMsgs (reportsOf os), m.status ≠ 4) :
    ∃ K, (rxMsgs (reportsOf os)).map lineShown = K ++ qs.map fun p => (0, p.bytes) := by
  obtain ⟨s2, outs2, Y, e4, e5, e6⟩ := cut_words hS hr hp1 hp2 r1 hres r2 h1 h2 hh hq hM hW hD (fun p hp' => (hps p hp').1) hm1 hc hgap' hk1 hw1 hd1 hcut ready hk2 hWN hN0 hN hN'
  rw [hrun] at e4
  simp only [Res.ok.injEq, Prod.mk.injEq] at e4
  obtain ⟨rfl, rfl⟩ := e4
  exact healed_lines (fun p hp' => (hps p hp').2) e5 e6 l0 hpc hfe hlast ht hx hdr htop hf h4

/-- As `C149_block`, with what the line without the lost sample carries (`qs`). -/
theorem cut_block {S : Nat} (hS : 9 ≤ S) {ring : Nat → Int} (hr : SampleRange ring) (rxErr : Bool) (pf : Platform) (g : Nat → UInt8) (w0 : Word) (t0 t1 : Nat)
    (hist1 hist2 : List BoardStep) (hh1 : ∀ v ∈ converted hist1, -256 ≤ v ∧ v ≤ 255) (hh2 : ∀ v ∈ converted hist2, -256 ≤ v ∧ v ≤ 255) {b1 b : Board} {o1 o2 : List BoardOut}
    (r1 : (Board.init ring rxErr g w0 t0 t1).run S pf g hist1 = .ok (some (b1, o1))) (hres : hist1 = [] ∨ b1.rx.core.word.result ≠ [])
    (r2 : b1.run S pf g hist2 = .ok (some (b, o2)))
    (hquiet : b.main.pc = .top ∧ b.main.fifo = [] ∧ b.main.fifoErr = false ∧ b.rx.core.word = .zero ∧ b.rx.adc.behind ≤ 253)
    (hfree : b.rx.core.busy = false → taken (hist1 ++ hist2) = [] ∨ ∃ Z, taken (hist1 ++ hist2) = Z ++ [wFree])
    {a c : Int} (h1 : 49 ≤ a) (h2 : a ≤ 88) {L : Nat → Level} {h : Nat → Int} (hh : SampleRange h) (hq : Samples a c L h)
    {M : Nat} (hM : (converted hist2).length + M + 2200 ≤ 2 * 2 ^ S) (qs : List BusPacket) (hps : ∀ p ∈ qs, p.RawOk ∧ p.bytes.length ≤ 31)
    (hm1 : ∀ b ∈ qs.flatMap BusPacket.frames, b.1 ≤ M) (hgap' : GapFrom 1920 (qs.flatMap BusPacket.frames))
    (xs1 : List BoardStep) (bm : Board) (os1 : List BoardOut) (r3 : b.run S pf g xs1 = .ok (some (bm, os1))) (hblock : (converted xs1).length + 1 = b.rx.adc.tcHw) (hcaught : bm.rx.adc.behind = 0)
    (v : Int) (mid : List BoardStep) (hmid : ∀ x ∈ mid, (∀ v, x ≠ .convert v) ∧ ∀ l, x ≠ .receive l) (hcut : NoEdge L (converted xs1).length)
    (hc : RawCarries (fun k => L (del (converted xs1).length k)) 0 (byteFrames (qs.flatMap BusPacket.frames)))
    (xs2 : List BoardStep) (t : Board) (os2 : List BoardOut) (r4 : bm.run S pf g (.convert v :: (mid ++ .receive [] :: xs2)) = .ok (some (t, os2)))
    {xs : List BoardStep} (hxs : xs = xs1 ++ .convert v :: (mid ++ .receive [] :: xs2))
    (hv : converted xs = (List.range (converted xs).length).map h) (hblock2 : (converted xs2).length < adcBlock)
    (hN0 : 1921 ≤ (converted xs).length) (hN : rawEnd 0 (byteFrames (qs.flatMap BusPacket.frames)) + 379 ≤ (converted xs).length)
    (hN' : (converted xs).length ≤ rawEnd 0 (byteFrames (qs.flatMap BusPacket.frames)) + M + 1)
    (hb : ∀ o ∈ os1 ++ os2, o.behind ≤ 253) (hf : FastEnough xs) (he : t.rx.adc.behind = 0 ∧ t.rx.core.word = .zero ∧ t.main.fifo = [] ∧ t.main.pc = .top) :
    (∀ o ∈ os1 ++ os2, o.dropped = false) ∧
    ((∀ m ∈ rxMsgs ((os1 ++ os2).flatMap BoardOut.reports), m.status ≠ 4) →
      ∃ K, (rxMsgs ((os1 ++ os2).flatMap BoardOut.reports)).map lineShown = K ++ qs.map fun p => (0, p.bytes)) := by
  obtain ⟨q1, q2, q3, q4, q5⟩ := hquiet
  have hblk : adcBlock = 268435456 := rfl
  obtain ⟨ev1, c1, k1, k2, -, k4⟩ := board_events hist1 r1 hh1
  obtain ⟨ev2, c2, m1, m2, m3, -⟩ := board_events hist2 r2 hh2
  have k1 : RxSystem.run S (RxSystem.init ring rxErr) ev1 = .ok (b1.rx, c1) := k1
  obtain ⟨u1, is1, v1, -, -⟩ := hist_run (S := S) (by omega) ev1 (HistOk.init hr rxErr) k2 k1
  obtain ⟨u2, is2, v2, -, -⟩ := hist_run (S := S) (by omega) ev2 u1 m2 m1
  obtain ⟨z1, -⟩ := rated_run hS is1 v1 (.init S rxErr)
  obtain ⟨z2, -⟩ := rated_run hS is2 v2 z1
  have paid : Paid S 0 b := by
    refine ⟨z2, u2.at', u2.err, q3, ?_⟩
    have hw : b.rx.core.word.weight = 0 := by rw [q4]; rfl
    have := z2.bounds
    rw [hw, q2]
    show b.rx.core.credit S + 2 * 0 + 692 * (0 : Nat) + 3 * b.rx.adc.behind ≤ 3509 + 3 * (0 : Nat)
    omega
  have rall : b.run S pf g xs = .ok (some (t, os1 ++ os2)) := by rw [hxs]; exact Board.run_append xs1 r3 r4
  obtain ⟨-, -, hd⟩ := paid_run hS xs [] rall hf paid (by omega) (fun o ho => Nat.le_succ_of_le (hb o ho))
  refine ⟨hd, fun h4 => ?_⟩
  -- the conversions
  obtain ⟨n1, hn1⟩ : ∃ n, n = (converted xs1).length := ⟨_, rfl⟩
  obtain ⟨n2, hn2⟩ : ∃ n, n = (converted xs2).length := ⟨_, rfl⟩
  obtain ⟨bc, oc, os3, e1, e2, rfl⟩ := Board.run_cons r4
  obtain ⟨br, o4, o5, e3, e4, rfl⟩ := Board.run_cut mid e2
  obtain ⟨bs, o6, o7, e5, e6, rfl⟩ := Board.run_cons e4
  obtain ⟨g1, g2, ysm, tosm, g3, g4, g5, g6⟩ := main_only mid e3 hmid
  have hcx : converted xs = converted xs1 ++ v :: converted xs2 := by
    rw [hxs, converted_two]
    congr 1
    show [v] ++ converted (mid ++ .receive [] :: xs2) = _
    rw [converted_two, g2]
    rfl
  have hlen : (converted xs).length = n1 + 1 + n2 := by
    rw [hcx, List.length_append, List.length_cons, ← hn1, ← hn2]; omega
  have hvs : converted xs = nextSamples h 0 (converted xs).length := by
    unfold nextSamples
    simp only [Nat.zero_add]
    exact hv
  have hva := hvs
  rw [hcx] at hva
  obtain ⟨w1, w2⟩ := nextSamples_cut hva
  rw [← hn1, Nat.zero_add] at w2
  have w2 : [v] ++ converted xs2 = nextSamples h n1 ([v] ++ converted xs2).length := w2
  obtain ⟨w2, w3⟩ := nextSamples_cut w2
  have w2 : v = h n1 := by
    have : [v] = [h n1] := w2
    simpa using this
  have w3 : converted xs2 = nextSamples h (n1 + 1) n2 := by rw [hn2]; exact w3
  have hvr : -256 ≤ v ∧ v ≤ 255 := by rw [w2]; exact hh _
  have hrange : ∀ y ∈ converted xs, -256 ≤ y ∧ y ≤ 255 := by
    intro y hy
    rw [hv] at hy
    obtain ⟨k, -, rfl⟩ := List.mem_map.mp hy
    exact hh k
  -- the first part
  have inv := AdcInv.ofAt u2.at' u2.adc.gain h
  obtain ⟨W, hW⟩ : ∃ W, W = adcBlock - b.rx.adc.tcHw := ⟨_, rfl⟩
  obtain ⟨D, hD⟩ : ∃ D, D = adcBlock - b.rx.adc.tc := ⟨_, rfl⟩
  have hWn : W + n1 + 1 = adcBlock := by
    have := u2.at'.hw
    omega
  rw [← hW, ← hD] at inv
  obtain ⟨h', hh'⟩ : ∃ h', h' = fun k => if k < W then b.rx.adc.data (k % 256) else h (k - W) := ⟨_, rfl⟩
  rw [← hh'] at inv
  have hr' : SampleRange h' := by
    intro k
    rw [hh']
    dsimp only
    split
    · exact u2.adc.data _
    · exact hh _
  have hv' : converted xs1 = nextSamples h' W (converted xs1).length := by
    refine w1.trans ?_
    unfold nextSamples
    rw [hh']
    refine List.map_congr_left fun i _ => ?_
    dsimp only
    rw [if_neg (by omega)]
    congr 1
    omega
  obtain ⟨esa, c1a, ysa, tosa, a1, a2, a3, a4, a5, a6, a7, -⟩ := board_parts (S := S) (pf := pf) (g := g) u2.adc.data hr' xs1 r3 inv u2.err q5
    (fun o ho => hb o (List.mem_append_left _ ho)) hv' (by omega)
  obtain ⟨ad, i1, -, i2⟩ := schedule_run (S := S) u2.adc.data hr' (by decide) esa inv u2.err a2
  rw [i2, show ∀ (a : Res (Core1 × List C1Out)) f, Res.bind a f = (a >>= f) from fun _ _ => rfl, Res.bind_eq_ok] at a1
  obtain ⟨cr, i3, i4⟩ := a1
  have had : ad = bm.rx.adc := by
    simp only [Res.ok.injEq, Prod.mk.injEq] at i4
    rw [← i4.1]
  have a1 : b.rx.run S (scheduleEvents h' W D esa) = .ok (bm.rx, c1a) := by
    rw [i2, i3]
    exact i4
  rw [had] at i1
  have hdl : D + deliveries W D (esa.map Prod.fst) = adcBlock - 1 := by omega
  have hwr : written W D (esa.map Prod.fst) = adcBlock - 1 := by
    have := i1.behind
    have := i1.dle
    omega
  -- the end of the block
  obtain ⟨-, hcv⟩ := Board.step_ok e1
  have hbc : bc.rx = { bm.rx with adc := bm.rx.adc.write v } ∧ bc.main = bm.main ∧ oc.reports = [] ∧ oc.dropped = false := by
    rcases hcv with ⟨v', hv', rfl, x1, x2⟩ | ⟨late, c1, hv', -⟩ | ⟨y, to, hy, -⟩
    · simp only [BoardStep.convert.injEq] at hv'
      subst hv'
      exact ⟨rfl, rfl, x1, x2⟩
    · cases hv'
    · rcases hy with ⟨h, -⟩ | ⟨e, h, -⟩ | ⟨e, h, -⟩ <;> cases h
  obtain ⟨f1, f2, f3, f4⟩ := hbc
  obtain ⟨cm, ysr, tosr, j1, j2, j3, j4, j5⟩ := receive_main e5
  obtain ⟨rd, hrd⟩ : ∃ rd, rd = decide (br.main.fifo.length < 8) := ⟨_, rfl⟩
  rw [← hrd, g1, f1] at j1
  have htc : (bm.rx.adc.write v).tcHw = 0 := by
    have := i1.hw
    rw [hwr] at this
    unfold Adc.write
    rw [if_neg (by omega)]
    show bm.rx.adc.tcHw - 1 = 0
    omega
  have hup : (bm.rx.adc.write v).update [] = .ok ((bm.rx.adc.write v).restart, none) := by
    unfold Adc.update
    simp only [if_pos htc]
    rfl
  have hbs : bs.rx.adc = (bm.rx.adc.write v).restart := by
    have j := j1
    rw [RxSystem.step] at j
    dsimp only at j
    rw [hup, Res.ok_bind] at j
    dsimp only at j
    rw [Res.bind_eq_ok] at j
    obtain ⟨c, -, j⟩ := j
    simp only [Res.ok.injEq, Prod.mk.injEq] at j
    rw [← j.1]
  -- the second part
  obtain ⟨evx, cx, x1, x2, -, -⟩ := board_events xs1 r3 (fun y hy => hrange y (by rw [hcx]; exact List.mem_append_left _ hy))
  obtain ⟨u3, -⟩ := hist_run (S := S) (by omega) evx u2 x2 x1
  have hok : bs.rx.adc.Ok := by
    rw [hbs]
    have := u3.adc.write hvr
    exact ⟨this.data, this.gain⟩
  have hat : bs.rx.adc.At := by rw [hbs]; exact Adc.At.restart _
  have herr : bs.rx.adc.err = false := by
    rw [hbs]
    exact (write_err _ _).trans u3.err
  have invB := AdcInv.ofAt hat hok.gain (fun k => h (k + adcBlock - W))
  have hz : bs.rx.adc.tcHw = adcBlock ∧ bs.rx.adc.tc = adcBlock := by rw [hbs]; exact ⟨rfl, rfl⟩
  rw [hz.1, hz.2, Nat.sub_self] at invB
  simp only [Nat.not_lt_zero, if_false, Nat.sub_zero] at invB
  have hv2 : converted xs2 = nextSamples (fun k => h (k + adcBlock - W)) 0 (converted xs2).length := by
    rw [← hn2]
    refine w3.trans ?_
    unfold nextSamples
    refine List.map_congr_left fun i _ => ?_
    dsimp only
    congr 1
    omega
  obtain ⟨esb, c1b, ysb, tosb, b1', b2', b3', b4', b5', b6', b7', -⟩ := board_parts (S := S) (pf := pf) (g := g) hok.data (fun k => hh _) xs2 e6 invB herr
    (by rw [invB.behind]; decide) (fun o ho => hb o (by simp [ho])) hv2 (by omega)
  -- together
  have hev : scheduleEvents (fun k => h (k - W)) W D esa = scheduleEvents h' W D esa := by
    refine scheduleEvents_congr esa fun k hk => ?_
    rw [hh']
    dsimp only
    rw [if_neg (by omega)]
  rw [← hev] at a1
  have hrun : b.rx.run S (scheduleEvents (fun k => h (k - W)) W D esa ++ .transfer (h (adcBlock - 1 - W)) :: .iterate rd [] :: scheduleEvents (fun k => h (k + adcBlock - W)) 0 0 esb) =
      .ok (t.rx, c1a ++ cm :: c1b) := by
    refine RxSystem.run_append' S _ _ a1 ?_
    have e : adcBlock - 1 - W = n1 := by omega
    rw [e, ← w2, RxSystem.run, RxSystem.step, Res.ok_bind]
    dsimp only
    rw [RxSystem.run, j1, Res.ok_bind, b1']
    rfl
  have r12 : (Board.init ring rxErr g w0 t0 t1).run S pf g (hist1 ++ hist2) = .ok (some (b, o1 ++ o2)) := Board.run_append hist1 r1 r2
  obtain ⟨es0, os0, l1, l2⟩ := (board_loop (hist1 ++ hist2) r12 q1).1 rfl
  have l0 : LoopRun pf g es0 b.main.c0 os0 := ⟨w0, t0, t1, l1⟩
  rw [f2] at g3
  have hmain : b.main.run pf g (ysa ++ (ysm ++ (ysr ++ ysb))) = .ok (some (t.main, tosa ++ (tosm ++ (tosr ++ tosb)))) :=
    TwoCores.run_join ysa a4 (TwoCores.run_join ysm g3 (TwoCores.run_join ysr j2 b4'))
  have hpush : pushes (ysa ++ (ysm ++ (ysr ++ ysb))) = sent (c1a ++ cm :: c1b) := by
    have hp2 : ∀ x y : List TwoStep, pushes (x ++ y) = pushes x ++ pushes y := fun x y => List.filterMap_append ..
    have hs2 : ∀ x y : List C1Out, sent (x ++ y) = sent x ++ sent y := fun x y => List.filterMap_append ..
    rw [hp2, hp2, hp2, hs2, show cm :: c1b = [cm] ++ c1b from rfl, hs2, a5, g4, j3, b5', List.nil_append]
  have hrep : reportsOf (tosa ++ (tosm ++ (tosr ++ tosb))) = (os1 ++ oc :: (o4 ++ o6 :: o7)).flatMap BoardOut.reports := by
    have hr2 : ∀ x y : List TwoOut, reportsOf (x ++ y) = reportsOf x ++ reportsOf y := fun x y => List.flatMap_append ..
    rw [hr2, hr2, hr2, a7, g6, j5, b7']
    simp [f3]
  have hdrop : drops (tosa ++ (tosm ++ (tosr ++ tosb))) = 0 := by
    have hd2 : ∀ x y : List TwoOut, drops (x ++ y) = drops x + drops y := fun x y => List.countP_append ..
    have key : ∀ l : List BoardOut, (∀ o ∈ l, o.dropped = false) → l.countP BoardOut.dropped = 0 := fun l hl => by
      rw [List.countP_eq_zero]
      intro o ho
      rw [hl o ho]; decide
    rw [hd2, hd2, hd2, a6, g5, j4, b6', key os1 (fun o ho => hd o (by simp [ho])), key o4 (fun o ho => hd o (by simp [ho])), key [o6] (fun o ho => hd o (by simp at ho; simp [ho])),
      key o7 (fun o ho => hd o (by simp [ho]))]
  rw [← hrep] at h4 ⊢
  have hpend : (if b.rx.core.word = .zero then [] else [b.rx.core.word]) = ([] : List Word) := if_pos q4
  have e : adcBlock - 1 - W = (converted xs1).length := by omega
  have hcut' : NoEdge L (adcBlock - 1 - W) := by rw [e]; exact hcut
  have hc' : RawCarries (fun k => L (del (adcBlock - 1 - W) k)) 0 (byteFrames (qs.flatMap BusPacket.frames)) := by rw [e]; exact hc
  exact cut_lines (S := S) (by omega) hr k2 m2 k1 (hres.imp_left k4) m1 h1 h2 hh hq (by omega) hW hD hps hm1 hc' hgap' a2 hwr hdl hcut' rd b2'
    (N := (converted xs).length) (by have := invB.behind; omega) hN0 hN hN' hrun pf g l0 q1 q3
    (by rw [hpend, q2, List.append_nil, List.append_nil, l2]; exact hfree) hmain (by rw [if_pos he.2.1, List.append_nil]; exact hpush) hdrop he.2.2.2 he.2.2.1 h4

/-- **C149.** The whole device over the end of a DMA block.  As C145 (any history `hist1`, `hist2`, a quiet moment, then 1921 silent conversions and the packets `ps` of at most 31 bytes), but the block
of 2^28 conversions ends on the way: `xs1` goes to the last but one conversion of the block, and at its end everything converted has been processed; then comes the last conversion (`v`), which
is lost, and before the next one an iteration of core 1, while the main loop may do anything (`mid`); `xs2` is the rest.  If no pulse starts or ends at the lost conversion or the two before
(pulses start and end at most one conversion late), no word is dropped and the host was given, after what the history leads to (`K`), exactly one line for each packet, in order, with status 0 and
the bytes of the packet; unless the watchdog reports. -/
theorem C149_block {S : Nat} (hS : 9 ≤ S) {ring : Nat → Int} (hr : SampleRange ring) (rxErr : Bool) (pf : Platform) (g : Nat → UInt8) (w0 : Word) (t0 t1 : Nat)
    (hist1 hist2 : List BoardStep) (hh1 : ∀ v ∈ converted hist1, -256 ≤ v ∧ v ≤ 255) (hh2 : ∀ v ∈ converted hist2, -256 ≤ v ∧ v ≤ 255) {b1 b : Board} {o1 o2 : List BoardOut}
    (r1 : (Board.init ring rxErr g w0 t0 t1).run S pf g hist1 = .ok (some (b1, o1))) (hres : hist1 = [] ∨ b1.rx.core.word.result ≠ [])
    (r2 : b1.run S pf g hist2 = .ok (some (b, o2)))
    (hquiet : b.main.pc = .top ∧ b.main.fifo = [] ∧ b.main.fifoErr = false ∧ b.rx.core.word = .zero ∧ b.rx.adc.behind ≤ 253)
    (hfree : b.rx.core.busy = false → taken (hist1 ++ hist2) = [] ∨ ∃ Z, taken (hist1 ++ hist2) = Z ++ [wFree])
    {a c : Int} (h1 : 49 ≤ a) (h2 : a ≤ 88) {L : Nat → Level} {h : Nat → Int} (hh : SampleRange h) (hq : Samples a c L h)
    {M : Nat} (hM : (converted hist2).length + M + 2200 ≤ 2 * 2 ^ S) (ps : List BusPacket) (hp : ∀ p ∈ ps, p.RawOk ∧ 351 ≤ p.gap ∧ p.bytes.length ≤ 31)
    (hg : ∀ b ∈ ps.flatMap BusPacket.frames, b.1 ≤ M) (hc : TightCarries L 0 (byteFrames (ps.flatMap BusPacket.frames))) (hgap : ∀ p, ps.head? = some p → 1921 ≤ p.gap)
    (xs1 : List BoardStep) (bm : Board) (os1 : List BoardOut) (r3 : b.run S pf g xs1 = .ok (some (bm, os1))) (hblock : (converted xs1).length + 1 = b.rx.adc.tcHw) (hcaught : bm.rx.adc.behind = 0)
    (v : Int) (mid : List BoardStep) (hmid : ∀ x ∈ mid, (∀ v, x ≠ .convert v) ∧ ∀ l, x ≠ .receive l) (hcut : NoEdge L (converted xs1).length)
    (xs2 : List BoardStep) (t : Board) (os2 : List BoardOut) (r4 : bm.run S pf g (.convert v :: (mid ++ .receive [] :: xs2)) = .ok (some (t, os2)))
    {xs : List BoardStep} (hxs : xs = xs1 ++ .convert v :: (mid ++ .receive [] :: xs2))
    (hv : converted xs = (List.range (converted xs).length).map h) (hblock2 : (converted xs2).length < adcBlock)
    (hN0 : 1921 ≤ (converted xs).length) (hN : rawEnd 0 (byteFrames (ps.flatMap BusPacket.frames)) + 379 ≤ (converted xs).length)
    (hN' : (converted xs).length ≤ rawEnd 0 (byteFrames (ps.flatMap BusPacket.frames)) + M)
    (hb : ∀ o ∈ os1 ++ os2, o.behind ≤ 253) (hf : FastEnough xs) (he : t.rx.adc.behind = 0 ∧ t.rx.core.word = .zero ∧ t.main.fifo = [] ∧ t.main.pc = .top) :
    (∀ o ∈ os1 ++ os2, o.dropped = false) ∧
    ((∀ m ∈ rxMsgs ((os1 ++ os2).flatMap BoardOut.reports), m.status ≠ 4) →
      ∃ K, (rxMsgs ((os1 ++ os2).flatMap BoardOut.reports)).map lineShown = K ++ ps.map fun p => (0, p.bytes)) := by
  obtain ⟨E, hE⟩ : ∃ E, E = (converted xs1).length := ⟨_, rfl⟩
  have hcl := cut_line (J := E) hc (by omega)
  rw [shave_frames, ← shavePackets_frames _ _ (by omega)] at hcl
  have hend := shave_end (J := E) (t := 0) hc.gaps (by omega)
  rw [← shavePackets_frames _ _ (by omega)] at hend
  have hm1 : ∀ x ∈ (shavePackets E 0 ps).flatMap BusPacket.frames, x.1 ≤ M := by
    intro x hx
    rw [shavePackets_frames _ _ (by omega)] at hx
    obtain ⟨x', g1, g2, -⟩ := shave_mem (t := 0) hx
    have := hg x' g1
    omega
  have hgap' : GapFrom 1920 ((shavePackets E 0 ps).flatMap BusPacket.frames) := by
    rw [shavePackets_frames _ _ (by omega)]
    refine shave_gap ?_
    cases ps with
    | nil => intro f hf; cases hf
    | cons p ps =>
      intro f hf
      obtain rfl : (p.gap, p.pol, p.first) = f := by simpa [BusPacket.frames] using hf
      exact hgap p rfl
  have hps := shavePackets_ok (J := E) (t := 0) (fun p hp' => ⟨(hp p hp').1, (hp p hp').2.1⟩)
  have hby := shavePackets_bytes (J := E) ps 0
  have hlen : ∀ p ∈ shavePackets E 0 ps, p.bytes.length ≤ 31 := by
    intro p hp'
    have : p.bytes ∈ (shavePackets E 0 ps).map BusPacket.bytes := List.mem_map_of_mem hp'
    rw [hby] at this
    obtain ⟨x, hx, e⟩ := List.mem_map.mp this
    rw [← e]
    exact (hp x hx).2.2
  rw [bytesEnd_raw] at hN hN'
  subst hE
  obtain ⟨z1, z2⟩ := cut_block hS hr rxErr pf g w0 t0 t1 hist1 hist2 hh1 hh2 r1 hres r2 hquiet hfree h1 h2 hh hq hM _ (fun p hp' => ⟨hps p hp', hlen p hp'⟩) hm1 hgap' xs1 bm os1 r3 hblock hcaught
    v mid hmid hcut hcl xs2 t os2 r4 hxs hv hblock2 hN0 (by rw [bytesEnd_raw]; split at hend <;> omega) (by rw [bytesEnd_raw]; split at hend <;> omega) hb hf he
  refine ⟨z1, fun h4 => ?_⟩
  obtain ⟨K, hK⟩ := z2 h4
  refine ⟨K, hK.trans ?_⟩
  have e : ∀ l : List BusPacket, (l.map fun p => ((0 : Nat), p.bytes)) = (l.map BusPacket.bytes).map fun b => (0, b) := by
    intro l; rw [List.map_map]; rfl
  rw [e, e, hby]

end P1P2
