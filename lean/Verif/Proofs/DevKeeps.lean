import Verif.Proofs.DevOrder
import Verif.Proofs.HealSystem
/-!
# Runs of the device in which the loop keeps up: they are schedules
-/
namespace P1P2
open Pio

theorem DevSystem.KeepsUp.prompt {S : Nat} : ∀ (es : List PathEv) {s : DevSystem}, s.KeepsUp S es → s.Prompt S es
  | [], _, _ => trivial
  | .hw _ :: es, _, h => DevSystem.KeepsUp.prompt es h.2
  | .iterate .. :: es, _, h => ⟨fun h0 => absurd h0 h.1, fun s' o hs => DevSystem.KeepsUp.prompt es (h.2.2 s' o hs)⟩

theorem writes_count : ∀ (X : List Int) (a : Adc), (X.foldl Adc.write a).tcHw = a.tcHw - X.length := by
  intro X
  induction X with
  | nil => intro a; rfl
  | cons v X ih =>
    intro a
    rw [List.foldl_cons, ih, List.length_cons]
    unfold Adc.write
    split
    · next h => rw [h]; omega
    · show a.tcHw - 1 - X.length = a.tcHw - (X.length + 1); omega

/-- An iteration that finds nothing. -/
theorem iterate_none {S : Nat} {a : Adc} {core : Core1} {r : Bool} {s' : RxSystem} {o : C1Out} (h0 : a.tcHw ≠ 0) (ht : a.tc = a.tcHw)
    (h : RxSystem.step S ⟨a, core⟩ (.iterate r []) = .ok (s', some o)) : s'.adc = a ∧ o.reset = false := by
  have hu : Adc.update a [] = .ok (a, none) := by
    unfold Adc.update
    simp only [if_neg h0]
    rw [if_pos ht]
  simp only [RxSystem.step, hu, Res.ok_bind] at h
  rw [Res.bind_eq_ok] at h
  obtain ⟨⟨c, oc⟩, q, h⟩ := h
  simp only [Res.ok.injEq, Prod.mk.injEq, Option.some.injEq] at h
  obtain ⟨rfl, rfl⟩ := h
  refine ⟨rfl, ?_⟩
  cases ho : oc.reset with
  | false => rfl
  | true => have := (core_reset_iff q).mp ho; cases this

/-- An iteration that takes a sample in time. -/
theorem iterate_some {S : Nat} {a : Adc} {core : Core1} {r : Bool} {X : List Int} {s' : RxSystem} {o : C1Out} (h0 : a.tcHw ≠ 0) (ha : a.At) (he : a.err = false)
    (ht : a.tc ≠ a.tcHw) (hX : X.length < a.tcHw) (hl : a.tc ≤ a.tcHw - X.length + 254) (h : RxSystem.step S ⟨a, core⟩ (.iterate r X) = .ok (s', some o)) :
    s'.adc.tc = a.tc - 1 ∧ s'.adc.tcHw = a.tcHw - X.length ∧ o.reset = false := by
  have hb : adcBlock = 268435456 := rfl
  have g1 := ha.hw; have g2 := ha.tc; have g3 := ha.le
  have herr : (a.err || decide (256 ≤ (a.tc + 4294967296 - a.tcHw) % 4294967296)) = false := by
    rw [he, Bool.false_or, decide_eq_false_iff_not]
    omega
  have htc : (a.tc + 4294967295) % 4294967296 = a.tc - 1 := by omega
  rw [RxSystem.step, Res.bind_eq_ok] at h
  obtain ⟨u, hu, h⟩ := h
  unfold Adc.update at hu
  simp only [if_neg h0] at hu
  rw [if_neg ht] at hu
  rw [herr, htc] at hu
  obtain ⟨b, hbdef⟩ : ∃ b : Adc, b = { a with err := false, tc := a.tc - 1 } := ⟨_, rfl⟩
  have hu : (do
      let v ← (X.foldl Adc.write b).value
      Res.ok ({ X.foldl Adc.write b with off := ((X.foldl Adc.write b).off + 1) % 256 }, some v)) = Res.ok u := by rw [hbdef]; exact hu
  rw [Res.bind_eq_ok] at hu
  obtain ⟨v, -, hu⟩ := hu
  simp only [Res.ok.injEq] at hu
  subst hu
  obtain ⟨-, k2, k3⟩ := writes_keep X b
  have k4 := writes_count X b
  have e1 : b.err = false := by rw [hbdef]
  have e2 : b.tc = a.tc - 1 := by rw [hbdef]
  have e3 : b.tcHw = a.tcHw := by rw [hbdef]
  generalize X.foldl Adc.write b = b2 at *
  have hne : ¬ (Adc.error { b2 with off := (b2.off + 1) % 256 }).2 = true := by
    show ¬ b2.err = true
    rw [k2, e1]; decide
  dsimp only at h
  rw [if_neg hne] at h
  rw [Res.bind_eq_ok] at h
  obtain ⟨⟨c, oc⟩, q, h⟩ := h
  simp only [Res.ok.injEq, Prod.mk.injEq, Option.some.injEq] at h
  obtain ⟨rfl, rfl⟩ := h
  refine ⟨?_, ?_, ?_⟩
  · show b2.tc = a.tc - 1
    rw [k3, e2]
  · show b2.tcHw = _
    rw [k4, e3]
  · cases ho : oc.reset with
    | false => rfl
    | true => have := (core_reset_iff q).mp ho; cases this

theorem nextSamples_append {h : Nat → Int} {W : Nat} {A B : List Int} (hh : nextSamples h W (A ++ B).length = A ++ B) :
    nextSamples h W A.length = A ∧ nextSamples h (W + A.length) B.length = B := by
  have key : ∀ i, (hi : i < (A ++ B).length) → h (W + i) = (A ++ B)[i] := by
    intro i hi
    have : (nextSamples h W (A ++ B).length)[i]? = (A ++ B)[i]? := by rw [hh]
    rw [List.getElem?_eq_getElem hi] at this
    unfold nextSamples at this
    rw [List.getElem?_map, List.getElem?_range hi] at this
    simpa using this
  constructor
  · apply List.ext_getElem
    · simp [nextSamples]
    · intro i h1 h2
      have := key i (by rw [List.length_append]; omega)
      rw [List.getElem_append_left h2] at this
      simpa [nextSamples] using this
  · apply List.ext_getElem
    · simp [nextSamples]
    · intro i h1 h2
      have := key (A.length + i) (by rw [List.length_append]; omega)
      rw [List.getElem_append_right (by omega)] at this
      simp only [Nat.add_sub_cancel_left] at this
      rw [← this]
      simp [nextSamples, Nat.add_assoc]

/-- Every run in which the loop keeps up is a schedule of the model behind the DMA. -/
theorem dev_schedule {S : Nat} (hS : 8 ≤ S) : ∀ (es : List PathEv) {s s' : DevSystem} {outs : List C1Out}, DevInv S s → s.KeepsUp S es → s.run S es = .ok (s', outs) →
    ∃ sch : List (AdcEv × Bool),
      (∀ h, nextSamples h (adcBlock - s.dev.adc.tcHw) (s.stores S es).length = s.stores S es →
        RxSystem.run S ⟨s.dev.adc, s.core⟩ (scheduleEvents h (adcBlock - s.dev.adc.tcHw) (adcBlock - s.dev.adc.tc) sch) = .ok (⟨s'.dev.adc, s'.core⟩, outs)) ∧
      keepsUp 254 (adcBlock - s.dev.adc.tcHw) (adcBlock - s.dev.adc.tc) (sch.map Prod.fst) ∧
      (adcBlock - s.dev.adc.tc) + deliveries (adcBlock - s.dev.adc.tcHw) (adcBlock - s.dev.adc.tc) (sch.map Prod.fst) = adcBlock - s'.dev.adc.tc ∧
      (adcBlock - s.dev.adc.tcHw) + (s.stores S es).length = adcBlock - s'.dev.adc.tcHw ∧ (∀ o ∈ outs, o.reset = false) ∧ DevInv S s' := by
  have hb : adcBlock = 268435456 := rfl
  intro es
  induction es with
  | nil =>
    intro s s' outs hi hk hr
    simp only [DevSystem.run, Res.ok.injEq, Prod.mk.injEq] at hr
    obtain ⟨rfl, rfl⟩ := hr
    have hk : s.dev.adc.tcHw ≠ 0 := hk
    have hw := hi.hist.at'.hw
    have hw : s.dev.adc.tcHw ≤ adcBlock := hw
    exact ⟨[], fun h _ => rfl, by show _ < adcBlock; omega, rfl, rfl, (fun o ho => by cases ho), hi⟩
  | cons e es ih =>
    intro s s' outs hi hk hr
    rw [DevSystem.run, Res.bind_eq_ok] at hr
    obtain ⟨⟨t, o⟩, h1, hr⟩ := hr
    rw [Res.bind_eq_ok] at hr
    obtain ⟨⟨t2, l⟩, h2, hr⟩ := hr
    simp only [Res.ok.injEq, Prod.mk.injEq] at hr
    obtain ⟨rfl, rfl⟩ := hr
    have hat := hi.hist.at'
    have herr : s.dev.adc.err = false := hi.hist.err
    have hat : s.dev.adc.At := hat
    have g1 := hat.hw; have g2 := hat.tc; have g3 := hat.le
    cases e with
    | hw e =>
      obtain ⟨hk0, hk⟩ := hk
      simp only [DevSystem.step, Res.ok.injEq, Prod.mk.injEq] at h1
      obtain ⟨rfl, rfl⟩ := h1
      have hi' : DevInv S { s with dev := s.dev.hw e } := by
        obtain ⟨hh, ph, vs, hd⟩ := hi
        obtain ⟨v1, k1, -⟩ := hd.hw e
        have hst := hd.stored_ok [e]
        have hst' : ∀ v ∈ s.dev.stores e, ValOk v := by simpa [AdcDev.stored] using hst
        have hrun := transfers_run S (s.dev.stores e) s.dev.adc s.core
        have hinr : ∀ x ∈ (s.dev.stores e).map RxEv.transfer, RxEv.InRange x := by
          intro x hx
          obtain ⟨v, hv, rfl⟩ := List.mem_map.mp hx
          exact hst' v hv
        rw [← s.dev.hw_adc e] at hrun
        exact ⟨(hist_run hS _ hh hinr hrun).1, _, _, k1⟩
      obtain ⟨sch, c1, c2, c3, c4, c5, c6⟩ := ih hi' hk h2
      dsimp only at c1 c2 c3 c4
      rw [DevSystem.stores]
      have hadc := s.dev.hw_adc e
      rw [hadc] at c1 c2 c3 c4
      have hlen : (s.dev.stores e).length ≤ 1 := by
        cases e with
        | convert b => exact Nat.zero_le _
        | cycle m1 m2 => simp only [AdcDev.stores]; cases s.dev.moved2 m2 <;> simp
      generalize DevSystem.stores S { s with dev := s.dev.hw e } es = R at *
      generalize s.dev.stores e = E at *
      rcases E with _ | ⟨v, _ | ⟨v', E⟩⟩
      · simp only [List.foldl_nil] at c1 c2 c3 c4
        rw [List.nil_append]
        exact ⟨sch, c1, c2, c3, c4, c5, c6⟩
      · simp only [List.foldl_cons, List.foldl_nil] at c1 c2 c3 c4
        have w1 : (s.dev.adc.write v).tcHw = s.dev.adc.tcHw - 1 := by unfold Adc.write; rw [if_neg hk0]
        have w2 : (s.dev.adc.write v).tc = s.dev.adc.tc := by unfold Adc.write; rw [if_neg hk0]
        rw [w1, w2] at c1 c2
        rw [w1, w2] at c3
        rw [w1] at c4
        have hW : adcBlock - (s.dev.adc.tcHw - 1) = (adcBlock - s.dev.adc.tcHw) + 1 := by omega
        rw [hW] at c1 c2 c3 c4
        refine ⟨(.write, true) :: sch, fun h hh => ?_, ⟨by omega, c2⟩, c3, ?_, c5, c6⟩
        · obtain ⟨n1, n2⟩ := nextSamples_append hh
          have n1 : h (adcBlock - s.dev.adc.tcHw) = v := by simpa [nextSamples] using n1
          have := c1 h n2
          rw [scheduleEvents, RxSystem.run, RxSystem.step, Res.ok_bind, n1, this]
          rfl
        · rw [List.length_append]
          show _ + (1 + R.length) = _
          omega
      · exact absurd hlen (by simp)
    | iterate ready u rst =>
      obtain ⟨hk0, hk1, hk2⟩ := hk
      have hkt := hk2 _ _ h1
      obtain ⟨d, core⟩ := s
      dsimp only at *
      obtain ⟨v, sx, ox, t1, t2, t3, t4, t5⟩ := take_refines hS hi hk0 u.late rst ready
      have hbe : d.blockEnd u = d := by unfold AdcDev.blockEnd; rw [if_neg hk0]
      have hstep : DevSystem.step S ⟨d, core⟩ (.iterate ready u rst) = .ok (sx, some ox) := by
        simp only [DevSystem.step, AdcDev.update, hbe, t1, Res.ok_bind, t2]
      have h1' := h1.symm.trans hstep
      simp only [Res.ok.injEq, Prod.mk.injEq] at h1'
      obtain ⟨rfl, rfl⟩ := h1'
      obtain ⟨sch, c1, c2, c3, c4, c5, c6⟩ := ih t3 hkt h2
      have hst : DevSystem.stores S ⟨d, core⟩ (.iterate ready u rst :: es) = d.takeStores u.late rst ++ DevSystem.stores S t es := by
        rw [DevSystem.stores]
        simp only [h1]
        unfold AdcDev.iterStores
        rw [if_neg hk0]
      rw [hst]
      generalize DevSystem.stores S t es = R at *
      by_cases ht : d.adc.tc = d.adc.tcHw
      · have hts : d.takeStores u.late rst = [] := by unfold AdcDev.takeStores; rw [if_pos ht]
        rw [hts] at t5 ⊢
        obtain ⟨i1, i2⟩ := iterate_none hk0 ht t5
        dsimp only at i1
        rw [i1] at c1 c2 c3 c4
        rw [List.nil_append]
        refine ⟨(.poll 0, ready) :: sch, fun h hh => ?_, ?_, ?_, c4, ?_, c6⟩
        · rw [scheduleEvents, if_pos (by rw [ht]), RxSystem.run, t5, Res.ok_bind]
          have := c1 h hh
          rw [i1, this]
          rfl
        · show if _ then _ else _
          rw [if_pos (by rw [ht])]
          exact ⟨by omega, c2⟩
        · rw [List.map_cons, deliveries, if_pos (by rw [ht])]
          exact c3
        · intro o ho
          rcases List.mem_append.mp ho with ho | ho
          · simp only [Option.toList_some, List.mem_singleton] at ho
            rw [ho]; exact i2
          · exact c5 o ho
      · obtain ⟨hl0, hl⟩ := hk1 ht
        have hadc := AdcDev.hws_adc u.late d.book
        have hcnt := writes_count (d.book.stored u.late) d.book.adc
        rw [← hadc] at hcnt
        have hbt : d.book.adc.tcHw = d.adc.tcHw := by obtain ⟨f, tt, hb'⟩ := d.book_eq; rw [hb']
        rw [hbt] at hcnt
        have hberr : d.book.adc.err = false := by
          show (d.adc.err || decide (256 ≤ (d.adc.tc + 4294967296 - d.adc.tcHw) % 4294967296)) = false
          rw [herr, Bool.false_or, decide_eq_false_iff_not]
          omega
        have hts : d.takeStores u.late rst = d.book.stored u.late := by
          unfold AdcDev.takeStores
          rw [if_neg ht, if_neg (by rw [hberr]; decide), List.append_nil]
        rw [hts] at t5 ⊢
        generalize d.book.stored u.late = X at *
        have hXl : X.length < d.adc.tcHw := by omega
        obtain ⟨i1, i2, i3⟩ := iterate_some hk0 hat herr ht hXl (by omega) t5
        dsimp only at i1 i2
        rw [i1, i2] at c1 c2 c3
        rw [i2] at c4
        have hW : adcBlock - (d.adc.tcHw - X.length) = (adcBlock - d.adc.tcHw) + X.length := by omega
        have hD : adcBlock - (d.adc.tc - 1) = (adcBlock - d.adc.tc) + 1 := by omega
        rw [hW, hD] at c1 c2 c3
        rw [hW] at c4
        have hWD : ¬ adcBlock - d.adc.tcHw = adcBlock - d.adc.tc := by omega
        refine ⟨(.poll X.length, ready) :: sch, fun h hh => ?_, ?_, ?_, ?_, ?_, c6⟩
        · obtain ⟨n1, n2⟩ := nextSamples_append hh
          rw [scheduleEvents, if_neg hWD, RxSystem.run, n1, t5, Res.ok_bind]
          have := c1 h n2
          rw [this]
          rfl
        · show if _ then _ else _
          rw [if_neg hWD]
          exact ⟨by omega, by omega, c2⟩
        · rw [List.map_cons, deliveries, if_neg hWD]
          omega
        · rw [List.length_append]; omega
        · intro o ho
          rcases List.mem_append.mp ho with ho | ho
          · simp only [Option.toList_some, List.mem_singleton] at ho
            rw [ho]; exact i3
          · exact c5 o ho

end P1P2
