import Verif.Props.RateLines
import Verif.Props.HealLines
/-!
# C145: the whole device recovers from everything
-/
namespace P1P2

/-- A run of the device contains a history of the receive side. -/
theorem board_events {S : Nat} {pf : Platform} {g : Nat → UInt8} : ∀ (xs : List BoardStep) {s t : Board} {os : List BoardOut}, s.run S pf g xs = .ok (some (t, os)) →
    (∀ v ∈ converted xs, -256 ≤ v ∧ v ≤ 255) →
    ∃ evs c1s, s.rx.run S evs = .ok (t.rx, c1s) ∧ (∀ e ∈ evs, e.InRange) ∧ arrivals evs = (converted xs).length ∧ (xs = [] → evs = []) := by
  intro xs
  induction xs with
  | nil =>
    intro s t os h _
    obtain ⟨rfl, rfl⟩ := Board.run_nil h
    exact ⟨[], [], rfl, fun e he => (by cases he), rfl, fun _ => rfl⟩
  | cons x xs ih =>
    intro s t os h hv
    obtain ⟨s', o, os', h1, h2, rfl⟩ := Board.run_cons h
    have hcv : converted (x :: xs) = x.values ++ converted xs := rfl
    rw [hcv] at hv ⊢
    obtain ⟨evs, c1s, a1, a2, a3, -⟩ := ih h2 (fun v hv' => hv v (List.mem_append.mpr (.inr hv')))
    obtain ⟨-, hc⟩ := Board.step_ok h1
    rcases hc with ⟨v, rfl, rfl, -, -⟩ | ⟨late, c1, rfl, -, hrx, -⟩ | ⟨y, to, hy, hrx, -, -, -⟩
    · refine ⟨.transfer v :: evs, c1s, ?_, ?_, ?_, fun h => (by cases h)⟩
      · rw [RxSystem.run, RxSystem.step, Res.ok_bind]
        dsimp only at a1 ⊢
        rw [a1]; rfl
      · intro e he
        rcases List.mem_cons.mp he with rfl | he
        · exact hv v (by simp [BoardStep.values])
        · exact a2 e he
      · show 1 + arrivals evs = _
        rw [a3, List.length_append]; rfl
    · refine ⟨.iterate (decide (s.main.fifo.length < 8)) late :: evs, c1 :: c1s, ?_, ?_, ?_, fun h => (by cases h)⟩
      · rw [RxSystem.run, hrx, Res.ok_bind, a1]; rfl
      · intro e he
        rcases List.mem_cons.mp he with rfl | he
        · exact fun v hv' => hv v (List.mem_append.mpr (.inl hv'))
        · exact a2 e he
      · show late.length + arrivals evs = _
        rw [a3, List.length_append]; rfl
    · have hval : x.values = [] := by
        rcases hy with ⟨rfl, -⟩ | ⟨e, rfl, -⟩ | ⟨e, rfl, -⟩ <;> rfl
      rw [hval]
      exact ⟨evs, c1s, by rw [← hrx]; exact a1, a2, a3, fun h => (by cases h)⟩

/-- A run of the device contains a history of the main loop. -/
theorem board_loop {S : Nat} {pf : Platform} {g : Nat → UInt8} : ∀ (xs : List BoardStep) {s t : Board} {os : List BoardOut}, s.run S pf g xs = .ok (some (t, os)) → t.main.pc = .top →
    (s.main.pc = .top → ∃ es os', s.main.c0.run pf g es = .ok (t.main.c0, os') ∧ wordsOf es = taken xs) ∧
    (s.main.pc ≠ .top → ∀ (c : Core0) (e : Env1) (rs : List Report), c.part1 pf g e = .ok (s.main.c0, rs) →
      ∃ es os', c.run pf g es = .ok (t.main.c0, os') ∧ wordsOf es = taken xs) := by
  intro xs
  induction xs with
  | nil =>
    intro s t os h ht
    obtain ⟨rfl, rfl⟩ := Board.run_nil h
    exact ⟨fun _ => ⟨[], [], rfl, rfl⟩, fun h => absurd ht h⟩
  | cons x xs ih =>
    intro s t os h ht
    obtain ⟨s', o, os', h1, h2, rfl⟩ := Board.run_cons h
    obtain ⟨i1, i2⟩ := ih h2 ht
    obtain ⟨-, hc⟩ := Board.step_ok h1
    have same : s'.main.c0 = s.main.c0 → s'.main.pc = s.main.pc → taken (x :: xs) = taken xs →
        (s.main.pc = .top → ∃ es os', s.main.c0.run pf g es = .ok (t.main.c0, os') ∧ wordsOf es = taken (x :: xs)) ∧
        (s.main.pc ≠ .top → ∀ (c : Core0) (e : Env1) (rs : List Report), c.part1 pf g e = .ok (s.main.c0, rs) →
          ∃ es os', c.run pf g es = .ok (t.main.c0, os') ∧ wordsOf es = taken (x :: xs)) := by
      intro e1 e2 e3
      rw [e3, ← e1, ← e2]
      exact ⟨i1, i2⟩
    rcases hc with ⟨v, rfl, rfl, -, -⟩ | ⟨late, c1, rfl, -, -, hc⟩ | ⟨y, to, hy, -, hm, -, -⟩
    · exact same rfl rfl rfl
    · rcases hc with ⟨-, e, -, -⟩ | ⟨w, to, -, hm, -, -⟩
      · exact same (by rw [e]) (by rw [e]) rfl
      · rcases TwoCores.step_ok hm with ⟨w', q1, -, q2, -⟩ | ⟨w', q1, -, q2, -⟩ | ⟨e, c, rs, q1, -⟩ | ⟨q1, -⟩ | ⟨e, r, q1, -⟩
        · exact same (by rw [q2]) (by rw [q2]) rfl
        · exact same (by rw [q2]) (by rw [q2]) rfl
        · cases q1
        · cases q1
        · cases q1
    · rcases hy with ⟨rfl, rfl⟩ | ⟨e, rfl, rfl⟩ | ⟨e, rfl, rfl⟩
      · rcases TwoCores.step_ok hm with ⟨w', q1, -⟩ | ⟨w', q1, -⟩ | ⟨e, c, rs, q1, -⟩ | ⟨-, q1, q2, -⟩ | ⟨e, r, q1, -⟩
        · cases q1
        · cases q1
        · cases q1
        · refine ⟨fun hn => (by rw [q1] at hn; cases hn), fun _ c e rs hc' => ?_⟩
          have hp' : s'.main.pc ≠ .top := by rw [q2]; intro hn; cases hn
          exact i2 hp' c e rs (by rw [q2]; exact hc')
        · cases q1
      · rcases TwoCores.step_ok hm with ⟨w', q1, -⟩ | ⟨w', q1, -⟩ | ⟨e', c, rs, q1, q2, -, q4, q5, -⟩ | ⟨q1, -⟩ | ⟨e', r, q1, -⟩
        · cases q1
        · cases q1
        · simp only [TwoStep.first.injEq] at q1
          subst q1
          refine ⟨fun _ => ?_, fun hn => absurd q2 hn⟩
          have hp' : s'.main.pc ≠ .top := by rw [q5]; intro hn; cases hn
          exact i2 hp' s.main.c0 e rs (by rw [q5]; exact q4)
        · cases q1
        · cases q1
      · rcases TwoCores.step_ok hm with ⟨w', q1, -⟩ | ⟨w', q1, -⟩ | ⟨e', c, rs, q1, -⟩ | ⟨q1, -⟩ | ⟨e', r, q1, q2, -, q4, q5, -⟩
        · cases q1
        · cases q1
        · cases q1
        · cases q1
        · simp only [TwoStep.second.injEq] at q1
          subst q1
          refine ⟨fun hn => (by rw [q2] at hn; cases hn), fun _ c e1 rs hc' => ?_⟩
          obtain ⟨es, os2, a1, a2⟩ := i1 (by rw [q5])
          refine ⟨(e1, e) :: es, { reports := rs ++ r.2.reports, started := r.2.started, cmds := r.2.cmds, updated := r.2.updated } :: os2, ?_, ?_⟩
          · have hi : c.iter pf g (e1, e) = .ok (r.1, { reports := rs ++ r.2.reports, started := r.2.started, cmds := r.2.cmds, updated := r.2.updated }) := by
              unfold Core0.iter
              rw [hc', Res.ok_bind, q4, Res.ok_bind]
            have e0 : s'.main.c0 = r.1 := by rw [q5]
            rw [e0] at a1
            rw [Core0.run, hi, Res.ok_bind]
            dsimp only
            rw [a1, Res.ok_bind]
          · have hwo : wordsOf ((e1, e) :: es) = e.word.toList ++ wordsOf es := by cases hw : e.word <;> simp [wordsOf, hw]
            have htk : taken (BoardStep.second e :: xs) = e.word.toList ++ taken xs := by
              unfold taken
              rw [List.filterMap_cons]
              dsimp only
              cases e.word <;> rfl
            rw [hwo, htk, a2]

theorem Board.run_append {S : Nat} {pf : Platform} {g : Nat → UInt8} {ys : List BoardStep} : ∀ (xs : List BoardStep) {s t u : Board} {os os' : List BoardOut},
    s.run S pf g xs = .ok (some (t, os)) → t.run S pf g ys = .ok (some (u, os')) → s.run S pf g (xs ++ ys) = .ok (some (u, os ++ os')) := by
  intro xs
  induction xs with
  | nil =>
    intro s t u os os' h1 h2
    obtain ⟨rfl, rfl⟩ := Board.run_nil h1
    exact h2
  | cons y xs ih =>
    intro s t u os os' h1 h2
    obtain ⟨s', o', os2, k1, k2, rfl⟩ := Board.run_cons h1
    rw [List.cons_append, Board.run, k1, Res.ok_bind]
    dsimp only
    rw [ih k2 h2, Res.ok_bind]
    rfl

/-- **C145.** The whole device recovers from everything.  Let the device run from the start for any time, in any way (`hist1`, `hist2`: any samples, overruns and resets of the ADC, words
dropped because the FIFO was full, lines and transmissions of the host, the watchdog), to a moment between two iterations of the main loop at which the FIFO between the cores is empty, no
loss is waiting to be told, and, if the receive core takes the bus for free, the last word the main loop took told so.  From then on (`xs`) let the bus be silent for 1920 conversions and then
carry the packets `ps` of at most 31 bytes, the receive core be never more than 253 conversions behind, and the main loop be fast enough (C141).  Then no word is dropped, and when everything
has been processed, the host was given, after what the history leads to (`K`), exactly one line for each packet, in order, with status 0 and the bytes of the packet; unless the watchdog
reports (a bus that was busy before).  (`hist1` is the part of the history up to a byte of the UART, or empty: the UART has to see a byte, or to be started, every `2 ^ S` samples.) -/
theorem C145_recovers {S : Nat} (hS : 9 ≤ S) {ring : Nat → Int} (hr : SampleRange ring) (rxErr : Bool) (pf : Platform) (g : Nat → UInt8) (w0 : Word) (t0 t1 : Nat)
    (hist1 hist2 : List BoardStep) (hh1 : ∀ v ∈ converted hist1, -256 ≤ v ∧ v ≤ 255) (hh2 : ∀ v ∈ converted hist2, -256 ≤ v ∧ v ≤ 255) {b1 b : Board} {o1 o2 : List BoardOut}
    (r1 : (Board.init ring rxErr g w0 t0 t1).run S pf g hist1 = .ok (some (b1, o1))) (hres : hist1 = [] ∨ b1.rx.core.word.result ≠ [])
    (r2 : b1.run S pf g hist2 = .ok (some (b, o2)))
    (hquiet : b.main.pc = .top ∧ b.main.fifo = [] ∧ b.main.fifoErr = false ∧ b.rx.core.word = .zero ∧ b.rx.adc.behind ≤ 253)
    (hfree : b.rx.core.busy = false → taken (hist1 ++ hist2) = [] ∨ ∃ Z, taken (hist1 ++ hist2) = Z ++ [wFree])
    {a c : Int} (h1 : 49 ≤ a) (h2 : a ≤ 88) {L : Nat → Level} {h : Nat → Int} (hh : SampleRange h) (hq : Samples a c L h)
    {M : Nat} (hM : (converted hist2).length + M + 2200 ≤ 2 * 2 ^ S) (ps : List BusPacket) (hp : ∀ p ∈ ps, p.RawOk ∧ p.bytes.length ≤ 31)
    (hg : ∀ b ∈ ps.flatMap BusPacket.frames, b.1 ≤ M) (hc : RawCarries L 0 (byteFrames (ps.flatMap BusPacket.frames))) (hgap : ∀ p, ps.head? = some p → 1920 ≤ p.gap)
    (xs : List BoardStep) (t : Board) (os : List BoardOut) (r3 : b.run S pf g xs = .ok (some (t, os)))
    (hv : converted xs = (List.range (converted xs).length).map h)
    (hN0 : 1920 ≤ (converted xs).length) (hN : rawEnd 0 (byteFrames (ps.flatMap BusPacket.frames)) + 378 ≤ (converted xs).length)
    (hN' : (converted xs).length ≤ rawEnd 0 (byteFrames (ps.flatMap BusPacket.frames)) + M) (hblock : (converted xs).length < b.rx.adc.tcHw)
    (hb : ∀ o ∈ os, o.behind ≤ 253) (hf : FastEnough xs) (he : t.rx.adc.behind = 0 ∧ t.rx.core.word = .zero ∧ t.main.fifo = [] ∧ t.main.pc = .top) :
    (∀ o ∈ os, o.dropped = false) ∧
    ((∀ m ∈ rxMsgs (os.flatMap BoardOut.reports), m.status ≠ 4) →
      ∃ K, (rxMsgs (os.flatMap BoardOut.reports)).map lineShown = K ++ ps.map fun p => (0, p.bytes)) := by
  obtain ⟨q1, q2, q3, q4, q5⟩ := hquiet
  obtain ⟨ev1, c1, k1, k2, -, k4⟩ := board_events hist1 r1 hh1
  obtain ⟨ev2, c2, m1, m2, m3, -⟩ := board_events hist2 r2 hh2
  have k1 : RxSystem.run S (RxSystem.init ring rxErr) ev1 = .ok (b1.rx, c1) := k1
  obtain ⟨u1, is1, v1, -, -⟩ := hist_run (S := S) (by omega) ev1 (HistOk.init hr rxErr) k2 k1
  obtain ⟨u2, is2, v2, -, -⟩ := hist_run (S := S) (by omega) ev2 u1 m2 m1
  obtain ⟨z1, -⟩ := rated_run hS is1 v1 (.init S rxErr)
  obtain ⟨z2, -⟩ := rated_run hS is2 v2 z1
  have paid : Paid S 0 b := by
    refine ⟨z2, u2.at', u2.err, q3, ?_⟩
    have hw : b.rx.core.word.weight = 0 := by rw [q4]; rfl
    have := z2.bounds
    rw [hw, q2]
    show b.rx.core.credit S + 2 * 0 + 692 * (0 : Nat) + 3 * b.rx.adc.behind ≤ 3509 + 3 * (0 : Nat)
    omega
  obtain ⟨-, -, hd⟩ := paid_run hS xs [] r3 hf paid (by omega) (fun o ho => Nat.le_succ_of_le (hb o ho))
  refine ⟨hd, fun h4 => ?_⟩
  have inv := AdcInv.ofAt u2.at' u2.adc.gain h
  obtain ⟨W, hW⟩ : ∃ W, W = adcBlock - b.rx.adc.tcHw := ⟨_, rfl⟩
  obtain ⟨D, hD⟩ : ∃ D, D = adcBlock - b.rx.adc.tc := ⟨_, rfl⟩
  rw [← hW, ← hD] at inv
  obtain ⟨h', hh'⟩ : ∃ h', h' = fun k => if k < W then b.rx.adc.data (k % 256) else h (k - W) := ⟨_, rfl⟩
  rw [← hh'] at inv
  have hr' : SampleRange h' := by
    intro k
    rw [hh']
    dsimp only
    split
    · exact u2.adc.data _
    · exact hh _
  have hv' : converted xs = nextSamples h' W (converted xs).length := by
    unfold nextSamples
    rw [hh']
    refine hv.trans (List.map_congr_left fun i _ => ?_)
    dsimp only
    rw [if_neg (by omega)]
    congr 1
    omega
  obtain ⟨es, c1s, ys, tos, a1, a2, a3, a4, a5, a6, a7, -⟩ := board_parts (S := S) (pf := pf) (g := g) u2.adc.data hr' xs r3 inv u2.err q5 hb hv' (by have := u2.at'.hw; omega)
  have hdrop : drops tos = 0 := by
    rw [a6, List.countP_eq_zero]
    intro o ho
    rw [hd o ho]; decide
  have hev : scheduleEvents (fun k => h (k - W)) W D es = scheduleEvents h' W D es := by
    refine scheduleEvents_congr es fun k hk => ?_
    rw [hh']
    dsimp only
    rw [if_neg (by omega)]
  rw [← hev] at a1
  have r12 : (Board.init ring rxErr g w0 t0 t1).run S pf g (hist1 ++ hist2) = .ok (some (b, o1 ++ o2)) := Board.run_append hist1 r1 r2
  obtain ⟨es0, os0, l1, l2⟩ := (board_loop (hist1 ++ hist2) r12 q1).1 rfl
  have l0 : LoopRun pf g es0 b.main.c0 os0 := ⟨w0, t0, t1, l1⟩
  rw [← a7] at h4 ⊢
  have hpend : (if b.rx.core.word = .zero then [] else [b.rx.core.word]) = ([] : List Word) := if_pos q4
  exact C122_lines (S := S) (by omega) hr k2 m2 k1 (hres.imp_left k4) m1 h1 h2 hh hq (by omega) hp hg hc hgap hW hD a2 (by omega) hN0 hN hN' a1 pf g l0 q1 q3
    (by rw [hpend, q2, List.append_nil, List.append_nil, l2]; exact hfree) a4 (by rw [if_pos he.2.1, List.append_nil]; exact a5) hdrop he.2.2.2 he.2.2.1 h4

end P1P2
