import Verif.Proofs.DevCodes
import Verif.Proofs.DevScene
/-!
# A steady run of the device: every conversion is served and processed
-/
namespace P1P2
open Pio

theorem AdcDev.hw_tcHw (d : AdcDev) (e : HwEv) : (d.hw e).adc.tcHw ≤ d.adc.tcHw := by
  rw [AdcDev.hw_adc, writes_count]; omega

theorem AdcDev.hws_tcHw (l : List HwEv) (d : AdcDev) : (d.hws l).adc.tcHw ≤ d.adc.tcHw := by
  rw [AdcDev.hws_adc, writes_count]; omega

theorem keeps_hw {S : Nat} : ∀ (l : List HwEv) {s : DevSystem} {es : List PathEv}, (s.dev.hws l).adc.tcHw ≠ 0 → DevSystem.KeepsUp S { s with dev := s.dev.hws l } es →
    s.KeepsUp S (l.map PathEv.hw ++ es)
  | [], _, _, _, h => h
  | e :: l, s, es, h0, h => by
    refine ⟨?_, keeps_hw (S := S) l (s := { s with dev := s.dev.hw e }) h0 h⟩
    have := AdcDev.hws_tcHw (e :: l) s.dev
    omega

theorem lossless_hw {S : Nat} : ∀ (l : List HwEv) {s : DevSystem} {es : List PathEv}, s.dev.Lossless l → DevSystem.Lossless S { s with dev := s.dev.hws l } es →
    s.Lossless S (l.map PathEv.hw ++ es)
  | [], _, _, _, h => h
  | .convert b :: l, s, es, h0, h => ⟨⟨h0.1, trivial⟩, lossless_hw (S := S) l (s := { s with dev := s.dev.hw (.convert b) }) h0.2 h⟩
  | .cycle m1 m2 :: l, s, es, h0, h => ⟨⟨h0.1, trivial⟩, lossless_hw (S := S) l (s := { s with dev := s.dev.hw (.cycle m1 m2) }) h0.2 h⟩

theorem HwEv.codes_append (a b : List HwEv) : HwEv.codes (a ++ b) = HwEv.codes a ++ HwEv.codes b := by
  induction a with
  | nil => rfl
  | cons e a ih => cases e <;> simp [HwEv.codes, ih]

theorem converted_hw {S : Nat} : ∀ (l : List HwEv) {s : DevSystem} {es : List PathEv},
    s.converted S (l.map PathEv.hw ++ es) = HwEv.codes l ++ DevSystem.converted S { s with dev := s.dev.hws l } es
  | [], _, _ => rfl
  | e :: l, s, es => by
    have := converted_hw (S := S) l (s := { s with dev := s.dev.hw e }) (es := es)
    rw [List.map_cons, List.cons_append, DevSystem.converted, this, ← List.append_assoc, ← HwEv.codes_append]
    rfl

theorem HwEv.codes_cycles (ms : List (Bool × Bool)) : HwEv.codes (cycles ms) = [] := by
  induction ms with
  | nil => rfl
  | cons m ms ih => exact ih

/-- The state machine only takes from its transmit FIFO. -/
theorem cycle_tx (p : Prog) (s : Pio.State) (e : Pio.Env) : (Pio.cycle p s e).tx.length ≤ (enqueue p s.tx e).length := by
  unfold Pio.cycle
  dsimp only
  split
  · exact Nat.le_refl _
  · split
    · split
      · next h => rw [h]; exact Nat.zero_le _
      · next h => rw [h]; exact Nat.le_succ _
    · split
      · exact Nat.le_refl _
      · exact Nat.le_refl _
    · exact Nat.le_refl _

/-- Few codes on their way: none is lost. -/
theorem lossless_cycles : ∀ (ms : List (Bool × Bool)) {d : AdcDev}, d.fifo.length + d.pio.tx.length ≤ 4 → d.Lossless (cycles ms) := by
  intro ms
  induction ms with
  | nil => intro d _; trivial
  | cons m ms ih =>
    intro d h
    obtain ⟨m1, m2⟩ := m
    have hm : (d.moved1 m1).isSome → d.fifo ≠ [] := by
      intro hs hn
      unfold AdcDev.moved1 at hs
      rw [hn] at hs
      split at hs <;> cases hs
    refine ⟨fun hs => ?_, ih ?_⟩
    · have := List.length_pos_iff.mpr (hm hs)
      omega
    · have hf : (d.hw (.cycle m1 m2)).fifo = if (d.moved1 m1).isSome then d.fifo.tail else d.fifo := rfl
      have henq : ∀ g, (enqueue twosComplement d.pio.tx { put := (d.moved1 m1).map narrow, get := g }).length + (d.hw (.cycle m1 m2)).fifo.length ≤ 4 := by
        intro g
        rw [hf]
        unfold enqueue
        cases hv : d.moved1 m1 with
        | none => simp only [Option.map_none, Option.isSome_none, Bool.false_eq_true, if_false]; omega
        | some b =>
          rw [hv] at hm
          have := List.length_pos_iff.mpr (hm rfl)
          simp only [Option.map_some, Option.isSome_some, if_true, List.length_tail]
          split
          · simp only [List.length_append, List.length_singleton]; omega
          · omega
      have hle : (d.hw (.cycle m1 m2)).pio.tx.length ≤ (enqueue twosComplement d.pio.tx { put := (d.moved1 m1).map narrow, get := (d.moved2 m2).isSome }).length := by
        simp only [AdcDev.hw]
        split
        · exact cycle_tx _ _ _
        · exact Nat.le_refl _
      have hq := henq (d.moved2 m2).isSome
      show (d.hw (.cycle m1 m2)).fifo.length + (d.hw (.cycle m1 m2)).pio.tx.length ≤ 4
      omega

/-- An iteration without reset only changes the variables of the class. -/
theorem iterate_same {S : Nat} {s s' : DevSystem} {ready : Bool} {rst : ResetEnv} {o : C1Out} (h0 : s.dev.adc.tcHw ≠ 0)
    (h : s.step S (.iterate ready noUpd rst) = .ok (s', some o)) (ho : o.reset = false) :
    s'.dev.fifo = s.dev.fifo ∧ s'.dev.pio = s.dev.pio ∧ s'.dev.on = s.dev.on ∧ s'.dev.tc1 = s.dev.tc1 := by
  simp only [DevSystem.step] at h
  rw [Res.bind_eq_ok] at h
  obtain ⟨x, h3, h⟩ := h
  rw [Res.bind_eq_ok] at h
  obtain ⟨⟨y, oy⟩, h4, h⟩ := h
  simp only [Res.ok.injEq, Prod.mk.injEq, Option.some.injEq] at h
  obtain ⟨rfl, rfl⟩ := h
  have hbe : s.dev.blockEnd noUpd = s.dev := by unfold AdcDev.blockEnd; rw [if_neg h0]
  unfold AdcDev.update at h3
  rw [hbe] at h3
  have hx : x.1.fifo = s.dev.fifo ∧ x.1.pio = s.dev.pio ∧ x.1.on = s.dev.on ∧ x.1.tc1 = s.dev.tc1 := by
    unfold AdcDev.take at h3
    split at h3
    · simp only [Res.ok.injEq] at h3
      subst h3
      exact ⟨rfl, rfl, rfl, rfl⟩
    · dsimp only at h3
      rw [show noUpd.late = [] from rfl, AdcDev.hws_nil, Res.bind_eq_ok] at h3
      obtain ⟨v, -, h3⟩ := h3
      simp only [Res.ok.injEq] at h3
      subst h3
      obtain ⟨f, t, hb⟩ := s.dev.book_eq
      rw [hb]
      exact ⟨rfl, rfl, rfl, rfl⟩
  obtain ⟨d, v⟩ := x
  cases v with
  | none =>
    simp only [DevSystem.loop] at h4
    rw [Res.bind_eq_ok] at h4
    obtain ⟨⟨c, oc⟩, h5, h4⟩ := h4
    simp only [Res.ok.injEq, Prod.mk.injEq] at h4
    obtain ⟨rfl, rfl⟩ := h4
    exact hx
  | some v =>
    simp only [DevSystem.loop] at h4
    split at h4
    · rw [Res.bind_eq_ok] at h4
      obtain ⟨⟨c, oc⟩, h5, h4⟩ := h4
      simp only [Res.ok.injEq, Prod.mk.injEq] at h4
      obtain ⟨rfl, rfl⟩ := h4
      have hrs := (core_reset_iff h5).mpr rfl
      exact absurd (hrs.symm.trans ho) (by decide)
    · rw [Res.bind_eq_ok] at h4
      obtain ⟨⟨c, oc⟩, h5, h4⟩ := h4
      simp only [Res.ok.injEq, Prod.mk.injEq] at h4
      obtain ⟨rfl, rfl⟩ := h4
      exact hx

/-- Nothing happens during a reset. -/
def noReset : ResetEnv := ⟨[], [], [], [], [], []⟩

/-- A conversion is completed, served as in `ms`, and an iteration follows. -/
def oneSample (ms : List (Bool × Bool)) (b : UInt8) : List PathEv := (HwEv.convert b :: cycles ms).map PathEv.hw ++ [.iterate true noUpd noReset]

theorem steady_run {S : Nat} (hS : 8 ≤ S) {ms : List (Bool × Bool)} (hms : Serves ms) {k : Nat} (hk : k ≤ 253) :
    ∀ (bs : List UInt8) {s : DevSystem} {odd : Bool}, DevInv S s → AtRest s.dev odd → bs.length < s.dev.tc1 → bs.length < s.dev.adc.tcHw → s.dev.adc.tc = s.dev.adc.tcHw + k →
    s.KeepsUp S (bs.flatMap (oneSample ms)) ∧ s.Lossless S (bs.flatMap (oneSample ms)) ∧ s.converted S (bs.flatMap (oneSample ms)) = bs ∧
      ∃ s' outs, s.run S (bs.flatMap (oneSample ms)) = .ok (s', outs) ∧ s'.dev.adc.lag = k := by
  have hb : adcBlock = 268435456 := rfl
  intro bs
  induction bs with
  | nil =>
    intro s odd hi _ _ h0 ht
    refine ⟨?_, trivial, rfl, s, [], rfl, ?_⟩
    · show s.dev.adc.tcHw ≠ 0
      omega
    · show s.dev.adc.tc - s.dev.adc.tcHw = k; omega
  | cons b bs ih =>
    intro s odd hi hrest h1 h0 ht
    rw [List.length_cons] at h1 h0
    -- the hardware
    obtain ⟨a1, a2, a3, a4⟩ := hrest.sample (c1 := s.dev.tc1 - 1) (c2 := s.dev.adc.tcHw - 1) (by omega) (by omega) b hms
    have hadc := AdcDev.hws_adc (.convert b :: cycles ms) s.dev
    have htc : (s.dev.hws (.convert b :: cycles ms)).adc.tc = s.dev.adc.tc := by rw [hadc]; exact (writes_keep _ _).2.2
    obtain ⟨hr1, hp1⟩ := AdcDev.run_hw S (.convert b :: cycles ms) s
    obtain ⟨s1, outs1, -, -, b1, b2, -, -, -, -⟩ := dev_run_refines hS ((HwEv.convert b :: cycles ms).map PathEv.hw) hi hp1
    have b1 := hr1.symm.trans b1
    simp only [Res.ok.injEq, Prod.mk.injEq] at b1
    obtain ⟨rfl, rfl⟩ := b1
    have hl1 : s.dev.Lossless (.convert b :: cycles ms) := by
      obtain ⟨-, r2, r3, -, -⟩ := hrest
      refine ⟨by rw [r2]; exact Nat.zero_lt_succ _, lossless_cycles ms ?_⟩
      simp only [AdcDev.hw, r2, List.length_nil]
      rw [if_pos (by decide)]
      simp only [r3, List.length_append, List.length_nil, List.length_singleton]
      decide
    have hcode : HwEv.codes (.convert b :: cycles ms) = [b] := by rw [HwEv.codes, HwEv.codes_cycles]
    generalize hl : (HwEv.convert b :: cycles ms) = l at *
    generalize hd : s.dev.hws l = d at *
    have g3 := b2.hist.at'
    have g4 := b2.hist.err
    have g3 : d.adc.At := g3
    have g4 : d.adc.err = false := g4
    have gw := g3.hw
    -- the iteration
    obtain ⟨t, o, xs, w, c1, c2, -⟩ := iterate_refines hS b2 true noUpd noReset (fun h => absurd h (by show d.adc.tcHw ≠ 0; omega))
    have hkone : DevSystem.KeepsUp S { s with dev := d } [.iterate true noUpd noReset] := by
      have hbt : (d.book.hws noUpd.late).adc.tcHw = d.adc.tcHw := by
        rw [show noUpd.late = [] from rfl, AdcDev.hws_nil]; obtain ⟨f, tt, hb'⟩ := d.book_eq; rw [hb']
      refine ⟨by show d.adc.tcHw ≠ 0; omega, fun _ => ⟨?_, ?_⟩, fun s' o' hs => ?_⟩
      · show (d.book.hws noUpd.late).adc.tcHw ≠ 0
        rw [hbt]; omega
      · show d.adc.tc ≤ (d.book.hws noUpd.late).adc.tcHw + 254
        rw [hbt]; omega
      · have := c1.symm.trans hs
        simp only [Res.ok.injEq, Prod.mk.injEq] at this
        rw [← this.1]
        -- the count does not change
        show t.dev.adc.tcHw ≠ 0
        obtain ⟨v, sx, ox, t1, t2, t3, t4, t5⟩ := take_refines hS b2 (show d.adc.tcHw ≠ 0 by omega) noUpd.late noReset true
        have hbe : d.blockEnd noUpd = d := by unfold AdcDev.blockEnd; rw [if_neg (by omega)]
        have hstep : DevSystem.step S ⟨d, s.core⟩ (.iterate true noUpd noReset) = .ok (sx, some ox) := by
          simp only [DevSystem.step, AdcDev.update, hbe, t1, Res.ok_bind, t2]
        have h1' := c1.symm.trans hstep
        simp only [Res.ok.injEq, Prod.mk.injEq, Option.some.injEq] at h1'
        obtain ⟨rfl, rfl⟩ := h1'
        have hberr : d.book.adc.err = false := by
          show (d.adc.err || decide (256 ≤ (d.adc.tc + 4294967296 - d.adc.tcHw) % 4294967296)) = false
          rw [g4, Bool.false_or, decide_eq_false_iff_not]
          omega
        have hts : d.takeStores noUpd.late noReset = [] := by
          unfold AdcDev.takeStores
          split
          · rfl
          · rw [if_neg (by rw [hberr]; decide)]; rfl
        rw [hts] at t5
        obtain ⟨-, i2, -⟩ := iterate_some (show d.adc.tcHw ≠ 0 by omega) g3 g4 (by omega) (by show 0 < _; omega) (by simp only [List.length_nil]; omega) t5
        dsimp only at i2
        rw [i2, List.length_nil]
        omega
    have hrone : DevSystem.run S { s with dev := d } [.iterate true noUpd noReset] = .ok (t, [o]) := by rw [DevSystem.run, c1]; rfl
    obtain ⟨sch, -, -, e3, e4, e5, -⟩ := dev_schedule hS _ b2 hkone hrone
    have hko := e5 o (by simp)
    obtain ⟨f1, f2, f3, f4⟩ := iterate_same (show d.adc.tcHw ≠ 0 by omega) c1 hko
    have f1 : t.dev.fifo = d.fifo := f1
    have f2 : t.dev.pio = d.pio := f2
    have f3 : t.dev.on = d.on := f3
    have f4 : t.dev.tc1 = d.tc1 := f4
    -- counts after the iteration
    obtain ⟨i1, i2⟩ : t.dev.adc.tc = d.adc.tc - 1 ∧ t.dev.adc.tcHw = d.adc.tcHw := by
      obtain ⟨v, sx, ox, t1, t2, t3, t4, t5⟩ := take_refines hS b2 (show d.adc.tcHw ≠ 0 by omega) noUpd.late noReset true
      have hbe : d.blockEnd noUpd = d := by unfold AdcDev.blockEnd; rw [if_neg (by omega)]
      have hstep : DevSystem.step S ⟨d, s.core⟩ (.iterate true noUpd noReset) = .ok (sx, some ox) := by
        simp only [DevSystem.step, AdcDev.update, hbe, t1, Res.ok_bind, t2]
      have h1' := c1.symm.trans hstep
      simp only [Res.ok.injEq, Prod.mk.injEq, Option.some.injEq] at h1'
      obtain ⟨rfl, rfl⟩ := h1'
      have hberr : d.book.adc.err = false := by
        show (d.adc.err || decide (256 ≤ (d.adc.tc + 4294967296 - d.adc.tcHw) % 4294967296)) = false
        rw [g4, Bool.false_or, decide_eq_false_iff_not]
        omega
      have hts : d.takeStores noUpd.late noReset = [] := by
        unfold AdcDev.takeStores
        split
        · rfl
        · rw [if_neg (by rw [hberr]; decide)]; rfl
      rw [hts] at t5
      obtain ⟨i1, i2, -⟩ := iterate_some (show d.adc.tcHw ≠ 0 by omega) g3 g4 (by omega) (by show 0 < _; omega) (by simp only [List.length_nil]; omega) t5
      exact ⟨i1, i2⟩
    have hrest' : AtRest t.dev (!odd) := by
      unfold AtRest at a1 ⊢
      rw [f1, f2, f3]
      exact a1
    obtain ⟨k1, k2, k3, s', outs, k4, k5⟩ := ih c2 hrest' (by rw [f4]; omega) (by omega) (by omega)
    have hes : (b :: bs).flatMap (oneSample ms) = l.map PathEv.hw ++ (.iterate true noUpd noReset :: bs.flatMap (oneSample ms)) := by
      rw [List.flatMap_cons, oneSample, hl, List.append_assoc]; rfl
    rw [hes]
    refine ⟨keeps_hw l (by rw [hd]; omega) ?_, lossless_hw l hl1 ?_, ?_, s', o :: outs, ?_, k5⟩
    · rw [hd]
      refine ⟨hkone.1, hkone.2.1, fun s2 o2 hs => ?_⟩
      have := c1.symm.trans hs
      simp only [Res.ok.injEq, Prod.mk.injEq] at this
      rw [← this.1]
      exact k1
    · rw [hd]
      refine ⟨fun _ => trivial, fun s2 o2 hs => ?_⟩
      have := c1.symm.trans hs
      simp only [Res.ok.injEq, Prod.mk.injEq] at this
      rw [← this.1]
      exact k2
    · rw [converted_hw, hcode, hd, DevSystem.converted]
      simp only [c1, k3]
      have : HwEv.codes noUpd.late = [] := rfl
      rw [this]
      split <;> rfl
    · have hr2 : DevSystem.run S { s with dev := d } (.iterate true noUpd noReset :: bs.flatMap (oneSample ms)) = .ok (s', o :: outs) := by
        rw [DevSystem.run, c1, Res.ok_bind, k4]; rfl
      exact dev_run_append hr1 hr2

theorem AdcDev.stored_le : ∀ (es : List HwEv) (d : AdcDev), (d.stored es).length ≤ es.length := by
  intro es
  induction es with
  | nil => intro d; exact Nat.le_refl _
  | cons e es ih =>
    intro d
    have h1 : (d.stores e).length ≤ 1 := by
      cases e with
      | convert b => exact Nat.zero_le _
      | cycle m1 m2 =>
        simp only [AdcDev.stores, List.length_map]
        cases d.moved2 m2 <;> simp
    have h2 := ih (d.hw e)
    rw [AdcDev.stored, List.length_append, List.length_cons]
    omega

/-- The moments of an event. -/
def PathEv.size : PathEv → Nat
  | .hw _ => 1
  | .iterate _ u rst => u.mid.length + u.late.length + rst.drain.length + rst.abort1.length + rst.abort2.length

theorem AdcDev.takeStores_le (d : AdcDev) (late : List HwEv) (rst : ResetEnv) :
    (d.takeStores late rst).length ≤ late.length + rst.drain.length + rst.abort1.length + rst.abort2.length := by
  unfold AdcDev.takeStores
  split
  · exact Nat.zero_le _
  · have h1 := AdcDev.stored_le late d.book
    rw [List.length_append]
    split
    · unfold AdcDev.resetStores
      dsimp only
      rw [List.length_append, List.length_append]
      have h2 := AdcDev.stored_le rst.drain
      have h3 := AdcDev.stored_le rst.abort1
      have h4 := AdcDev.stored_le rst.abort2
      exact Nat.le_trans (Nat.add_le_add h1 (Nat.add_le_add (h2 _) (Nat.add_le_add (h3 _) (h4 _)))) (by omega)
    · simp only [List.length_nil]; omega

theorem AdcDev.iterStores_le (d : AdcDev) (r : Bool) (u : UpdEnv) (rst : ResetEnv) : (d.iterStores u rst).length ≤ (PathEv.iterate r u rst).size := by
  rw [show (PathEv.iterate r u rst).size = u.mid.length + u.late.length + rst.drain.length + rst.abort1.length + rst.abort2.length from rfl]
  unfold AdcDev.iterStores
  split
  · rw [List.length_append]
    have h1 := AdcDev.stored_le u.mid (d.hws u.wait).restart
    have h2 := AdcDev.takeStores_le ((d.hws u.wait).restart.hws u.mid) u.late rst
    omega
  · have h2 := AdcDev.takeStores_le d u.late rst
    omega

theorem DevSystem.stores_le {S : Nat} : ∀ (es : List PathEv) (s : DevSystem), (s.stores S es).length ≤ (es.map PathEv.size).sum := by
  intro es
  induction es with
  | nil => intro s; exact Nat.le_refl _
  | cons e es ih =>
    intro s
    rw [List.map_cons, List.sum_cons]
    cases e with
    | hw e =>
      rw [DevSystem.stores, List.length_append]
      have h1 := AdcDev.stored_le [e] s.dev
      rw [AdcDev.stored, AdcDev.stored, List.append_nil] at h1
      exact Nat.add_le_add h1 (ih _)
    | iterate r u rst =>
      rw [DevSystem.stores, List.length_append]
      refine Nat.add_le_add (AdcDev.iterStores_le _ r _ _) ?_
      split
      · exact ih _
      · exact Nat.zero_le _

theorem size_hw (es : List HwEv) : ((es.map PathEv.hw).map PathEv.size).sum = es.length := by
  induction es with
  | nil => rfl
  | cons e es ih => rw [List.map_cons, List.map_cons, List.sum_cons, ih, List.length_cons]; simp only [PathEv.size]; omega

theorem cycles_length (ms : List (Bool × Bool)) : (cycles ms).length = ms.length := by
  unfold cycles
  rw [List.length_map]

theorem samples_length (P : List (Bool × Bool)) : ∀ n : Nat, ((List.replicate n ((0 : UInt8), P)).flatMap fun x => HwEv.convert x.1 :: cycles x.2).length = n * (P.length + 1)
  | 0 => by simp
  | n + 1 => by rw [List.replicate_succ, List.flatMap_cons, List.length_append, samples_length P n, List.length_cons, cycles_length, Nat.succ_mul]; dsimp only; omega

theorem resetOf_size (U : List HwEv) (P : List (Bool × Bool)) (zs : List UInt8) : ((resetOf U P zs).map PathEv.size).sum = U.length + P.length + zs.length + 3 := by
  unfold resetOf
  rw [List.map_append, List.map_append, List.sum_append, List.sum_append, size_hw, size_hw, cycles_length]
  simp only [List.map_cons, List.map_nil, List.sum_cons, List.sum_nil, PathEv.size, noUpd, withDrain, List.length_nil, List.length_map, overrunOf, List.length_cons, List.length_append]
  omega

theorem resetRun_size (zs : List UInt8) : ((resetRun zs).map PathEv.size).sum ≤ 11000 + zs.length := by
  unfold resetRun
  rw [resetOf_size]
  unfold unread
  rw [samples_length]
  have : prompt.length = 41 := by unfold prompt; exact List.length_replicate
  omega

end P1P2
