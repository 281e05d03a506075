import Verif.Proofs.AdcDev
/-!
# Every run of the receive side with its hardware is a run of the model behind the DMA
-/
namespace P1P2
open Pio

theorem sends_sent {a b : List C1Out} (h : sends a = sends b) : sent a = sent b := by
  have : ∀ l : List C1Out, sent l = (sends l).map Prod.fst := by
    intro l
    induction l with
    | nil => rfl
    | cons o l ih =>
      unfold sent sends at *
      cases ho : o.word <;> simp [ho, ih]
  rw [this, this, h]

theorem writes_regs (X : List Int) (b : Adc) (k : Nat) (f : Bool) : X.foldl Adc.write { b with off := k, err := f } = { X.foldl Adc.write b with off := k, err := f } := by
  induction X generalizing b with
  | nil => rfl
  | cons v X ih =>
    rw [List.foldl_cons, List.foldl_cons, ← ih]
    congr 1
    unfold Adc.write
    dsimp only
    split <;> rfl

theorem writes_keep (X : List Int) (b : Adc) : (X.foldl Adc.write b).off = b.off ∧ (X.foldl Adc.write b).err = b.err ∧ (X.foldl Adc.write b).tc = b.tc := by
  induction X generalizing b with
  | nil => exact ⟨rfl, rfl, rfl⟩
  | cons v X ih =>
    rw [List.foldl_cons]
    obtain ⟨h1, h2, h3⟩ := ih (b.write v)
    have : (b.write v).off = b.off ∧ (b.write v).err = b.err ∧ (b.write v).tc = b.tc := by unfold Adc.write; split <;> exact ⟨rfl, rfl, rfl⟩
    exact ⟨h1.trans this.1, h2.trans this.2.1, h3.trans this.2.2⟩

/-- State of the receive side with its hardware. -/
structure DevInv (S : Nat) (s : DevSystem) : Prop where
  hist : HistOk S ⟨s.dev.adc, s.core⟩
  dev : ∃ ph vs, DevOk s.dev ph vs

theorem DevInv.init {S : Nat} {ring : Nat → Int} (hr : SampleRange ring) (rxErr : Bool) : DevInv S (DevSystem.init ring rxErr) :=
  ⟨HistOk.init hr rxErr, false, [], rfl, .reset, by show adcBlock + 0 ≤ adcBlock + 1; omega, ⟨Nat.zero_le _, Nat.zero_le _⟩⟩

theorem AdcDev.book_eq (d : AdcDev) : ∃ f t, d.book = { d with adc := { d.adc with err := f, tc := t } } := ⟨_, _, rfl⟩

theorem DevOk.book {d : AdcDev} {ph : Bool} {vs : List Int} (h : DevOk d ph vs) : DevOk d.book ph vs := by
  obtain ⟨f, t, hb⟩ := d.book_eq
  rw [hb]
  exact ⟨h.on, h.pipe, h.count, h.room⟩

theorem AdcDev.book_ok {d : AdcDev} (h : d.adc.Ok) : d.book.adc.Ok := by
  obtain ⟨f, t, hb⟩ := d.book_eq
  rw [hb]
  exact ⟨h.data, h.gain⟩

/-- The part of an iteration after the counts are compared. -/
theorem take_refines {S : Nat} (hS : 8 ≤ S) {d : AdcDev} {core : Core1} (hi : DevInv S ⟨d, core⟩) (h0 : d.adc.tcHw ≠ 0) (late : List HwEv)
    (rst : ResetEnv) (ready : Bool) :
    ∃ u s' o, d.take late = .ok u ∧ DevSystem.loop S core ready rst u = .ok (s', o) ∧ DevInv S s' ∧
      (RxEv.iterate ready (d.takeStores late rst)).InRange ∧
      RxSystem.step S ⟨d.adc, core⟩ (.iterate ready (d.takeStores late rst)) = .ok (⟨s'.dev.adc, s'.core⟩, some o) := by
  obtain ⟨hh, ph, vs, hd⟩ := hi
  unfold AdcDev.take AdcDev.takeStores
  by_cases ht : d.adc.tc = d.adc.tcHw
  · rw [if_pos ht, if_pos ht]
    have hrange : (RxEv.iterate ready []).InRange := fun v hv => (by cases hv)
    obtain ⟨s1, o1, r1, r2, r3⟩ := rx_step_ok hS hh.adc hh.core hrange
    have hu : Adc.update d.adc [] = .ok (d.adc, none) := by
      unfold Adc.update
      simp only [if_neg h0]
      rw [if_pos ht]
    have hs := r1
    simp only [RxSystem.step, hu, Res.ok_bind] at hs
    rw [Res.bind_eq_ok] at hs
    obtain ⟨⟨c, oc⟩, q, hs⟩ := hs
    simp only [Res.ok.injEq, Prod.mk.injEq] at hs
    obtain ⟨rfl, rfl⟩ := hs
    refine ⟨_, ⟨d, c⟩, oc, rfl, ?_, ⟨(hist_step hS hh hrange r1).1, ph, vs, hd⟩, hrange, r1⟩
    simp only [DevSystem.loop, q, Res.ok_bind]
  · rw [if_neg ht, if_neg ht]
    have hd1 : DevOk d.book ph vs := hd.book
    obtain ⟨vs2, hd2, -⟩ := hd1.hws late
    have hst := hd1.stored_ok late
    have hadc := AdcDev.hws_adc late d.book
    have hbk : d.book.adc.Ok := AdcDev.book_ok hh.adc
    obtain ⟨v, hv, -⟩ := (hbk.writes (vs := d.book.stored late) hst).value
    -- the result of `Update` on the device
    have htake : (do
        let d := d.book.hws late
        let v ← d.adc.value
        .ok ({ d with adc := { d.adc with off := (d.adc.off + 1) % 256 } }, some v) : Res (AdcDev × Option Int)) =
        .ok ({ d.book.hws late with adc := { (d.book.hws late).adc with off := ((d.book.hws late).adc.off + 1) % 256 } }, some v) := by
      dsimp only
      rw [hadc, hv]
      rfl
    rw [htake]
    generalize hX : d.book.stored late = X at *
    generalize hd2' : d.book.hws late = d2 at *
    have herr : d2.adc.err = d.book.adc.err := by rw [hadc]; exact (writes_keep X _).2.1
    by_cases he : d.book.adc.err = true
    · rw [if_pos he]
      dsimp only
      have hd3 : DevOk { d2 with adc := { d2.adc with off := (d2.adc.off + 1) % 256, err := false } } _ _ := ⟨hd2.on, hd2.pipe, hd2.count, hd2.room⟩
      obtain ⟨⟨ph', vs', k1, -⟩, k2, k3, -⟩ := hd3.reset rst
      generalize hY : AdcDev.resetStores { d2 with adc := { d2.adc with off := (d2.adc.off + 1) % 256, err := false } } rst = Y at *
      have hrange : (RxEv.iterate ready (X ++ Y)).InRange := by
        intro v hv
        rcases List.mem_append.mp hv with hv | hv
        · exact hst v hv
        · exact k3 v hv
      have hu : ∃ v', Adc.update d.adc (X ++ Y) = .ok ({ Y.foldl Adc.write d2.adc with off := ((Y.foldl Adc.write d2.adc).off + 1) % 256 }, some v') := by
        obtain ⟨v', hv', -⟩ := (hbk.writes (vs := X ++ Y) hrange).value
        refine ⟨v', ?_⟩
        unfold Adc.update
        simp only [if_neg h0]
        rw [if_neg ht]
        have hv' : (List.foldl Adc.write { d.adc with err := d.adc.err || decide (256 ≤ (d.adc.tc + 4294967296 - d.adc.tcHw) % 4294967296), tc := (d.adc.tc + 4294967295) % 4294967296 } (X ++ Y)).value = .ok v' := hv'
        rw [hv', hadc]
        rw [List.foldl_append]
        rfl
      obtain ⟨v', hu⟩ := hu
      have herr2 : (Y.foldl Adc.write d2.adc).err = true := by rw [(writes_keep Y _).2.1, herr, he]
      obtain ⟨s1, o1, r1, r2, r3⟩ := rx_step_ok hS hh.adc hh.core hrange
      have hs := r1
      simp only [RxSystem.step, hu, Res.ok_bind] at hs
      rw [if_pos (show (Adc.error { Y.foldl Adc.write d2.adc with off := ((Y.foldl Adc.write d2.adc).off + 1) % 256 }).2 = true from herr2)] at hs
      rw [Res.bind_eq_ok] at hs
      obtain ⟨⟨c, oc⟩, q, hs⟩ := hs
      simp only [Res.ok.injEq, Prod.mk.injEq] at hs
      obtain ⟨rfl, rfl⟩ := hs
      have hfin : (AdcDev.reset { d2 with adc := { d2.adc with off := (d2.adc.off + 1) % 256, err := false } } rst).adc =
          (Adc.error { Y.foldl Adc.write d2.adc with off := ((Y.foldl Adc.write d2.adc).off + 1) % 256 }).1.reset := by
        rw [k2, writes_regs]
        rfl
      refine ⟨_, ⟨AdcDev.reset { d2 with adc := { d2.adc with off := (d2.adc.off + 1) % 256, err := false } } rst, c⟩, oc, rfl, ?_, ⟨?_, ph', vs', k1⟩, hrange, ?_⟩
      · simp only [DevSystem.loop]
        rw [if_pos (show (Adc.error { d2.adc with off := (d2.adc.off + 1) % 256 }).2 = true from herr.trans he)]
        simp only [q, Res.ok_bind]
        rfl
      · show HistOk S ⟨(AdcDev.reset _ rst).adc, c⟩
        rw [hfin]
        exact (hist_step hS hh hrange r1).1
      · rw [r1]
        show _ = Res.ok (RxSystem.mk (AdcDev.reset _ rst).adc c, some oc)
        rw [hfin]
    · rw [if_neg he, List.append_nil]
      have hrange : (RxEv.iterate ready X).InRange := hst
      have hu : Adc.update d.adc X = .ok ({ d2.adc with off := (d2.adc.off + 1) % 256 }, some v) := by
        unfold Adc.update
        simp only [if_neg h0]
        rw [if_neg ht]
        have hv' : (List.foldl Adc.write { d.adc with err := d.adc.err || decide (256 ≤ (d.adc.tc + 4294967296 - d.adc.tcHw) % 4294967296), tc := (d.adc.tc + 4294967295) % 4294967296 } X).value = .ok v := hv
        rw [hv', hadc]
        rfl
      obtain ⟨s1, o1, r1, r2, r3⟩ := rx_step_ok hS hh.adc hh.core hrange
      have hne : ¬ (Adc.error { d2.adc with off := (d2.adc.off + 1) % 256 }).2 = true := by
        show ¬ d2.adc.err = true
        rw [herr]; exact he
      have hs := r1
      simp only [RxSystem.step, hu, Res.ok_bind] at hs
      rw [if_neg hne] at hs
      rw [Res.bind_eq_ok] at hs
      obtain ⟨⟨c, oc⟩, q, hs⟩ := hs
      simp only [Res.ok.injEq, Prod.mk.injEq] at hs
      obtain ⟨rfl, rfl⟩ := hs
      refine ⟨_, ⟨{ d2 with adc := { d2.adc with off := (d2.adc.off + 1) % 256, err := false } }, c⟩, oc, rfl, ?_, ⟨(hist_step hS hh hrange r1).1, _, _, ⟨hd2.on, hd2.pipe, hd2.count, hd2.room⟩⟩, hrange, r1⟩
      simp only [DevSystem.loop]
      rw [if_neg hne]
      simp only [q, Res.ok_bind]
      rfl

/-! ## The end of a block -/

theorem AdcDev.hws_append (d : AdcDev) (a b : List HwEv) : d.hws (a ++ b) = (d.hws a).hws b := List.foldl_append ..

/-- `channel` does not count up. -/
theorem AdcDev.hw_tc1 (d : AdcDev) (e : HwEv) : (d.hw e).tc1 ≤ d.tc1 ∧ (d.fifo ≠ [] → (d.hw e).tc1 < d.tc1 ∨ (d.hw e).fifo ≠ []) := by
  cases e with
  | convert b =>
    simp only [AdcDev.hw]
    split
    · exact ⟨Nat.le_refl _, fun _ => .inr (by simp)⟩
    · exact ⟨Nat.le_refl _, .inr⟩
  | cycle m1 m2 =>
    have hm : (d.moved1 m1).isSome → d.tc1 ≠ 0 := by
      unfold AdcDev.moved1
      split
      · rename_i hc; intro _; simp only [Bool.and_eq_true, decide_eq_true_eq] at hc; exact hc.2
      · intro hc; cases hc
    simp only [AdcDev.hw]
    cases h : d.moved1 m1 with
    | none => simp
    | some b =>
      rw [h] at hm
      have := hm rfl
      simp only [Option.isSome_some, if_true]
      exact ⟨Nat.sub_le _ _, fun _ => .inl (by omega)⟩

theorem AdcDev.hws_tc1 : ∀ (es : List HwEv) (d : AdcDev), (d.hws es).tc1 ≤ d.tc1 ∧ (d.fifo ≠ [] → (d.hws es).tc1 < d.tc1 ∨ (d.hws es).fifo ≠ []) := by
  intro es
  induction es with
  | nil => intro d; exact ⟨Nat.le_refl _, .inr⟩
  | cons e es ih =>
    intro d
    rw [AdcDev.hws_cons]
    obtain ⟨h1, h2⟩ := d.hw_tc1 e
    obtain ⟨h3, h4⟩ := ih (d.hw e)
    refine ⟨Nat.le_trans h3 h1, fun h => ?_⟩
    rcases h2 h with h2 | h2
    · exact .inl (by omega)
    · rcases h4 h2 with h4 | h4
      · exact .inl (by omega)
      · exact .inr h4

/-- The last byte of a block is moved as soon as there is one. -/
theorem AdcDev.served_done {d : AdcDev} (h : d.tc1 ≤ 1) {es : List HwEv} (hs : served es) : (d.hws es).tc1 = 0 := by
  obtain ⟨w1, b, w2, m, w3, rfl⟩ := hs
  rw [AdcDev.hws_append, AdcDev.hws_append, AdcDev.hws_cons, AdcDev.hws_cons]
  have h1 := (AdcDev.hws_tc1 w1 d).1
  generalize d.hws w1 = d1 at *
  have hf : (d1.hw (.convert b)).fifo ≠ [] := by
    simp only [AdcDev.hw]
    split
    · simp
    · rename_i hc; intro hn; rw [hn] at hc; exact hc (by decide)
  have h2 := (d1.hw_tc1 (.convert b)).1
  generalize d1.hw (.convert b) = d2 at *
  obtain ⟨h3, h4⟩ := AdcDev.hws_tc1 w2 d2
  generalize d2.hws w2 = d3 at *
  have h5 : (d3.hw (.cycle true m)).tc1 = 0 := by
    rcases h4 hf with h4 | h4
    · have := (d3.hw_tc1 (.cycle true m)).1
      omega
    · by_cases h6 : d3.tc1 = 0
      · have := (d3.hw_tc1 (.cycle true m)).1
        omega
      · simp only [AdcDev.hw]
        have : (d3.moved1 true).isSome = true := by
          simp only [AdcDev.moved1, Bool.true_and, decide_eq_true_eq]
          rw [if_pos h6]
          cases hq : d3.fifo with
          | nil => exact absurd hq h4
          | cons a l => rfl
        rw [this, if_pos rfl]
        omega
  have h6 := (AdcDev.hws_tc1 w3 (d3.hw (.cycle true m))).1
  omega

theorem AdcDev.stored_length : ∀ (es : List HwEv) (d : AdcDev), (d.stored es).length ≤ es.length := by
  intro es
  induction es with
  | nil => intro d; exact Nat.le_refl 0
  | cons e es ih =>
    intro d
    have : (d.stores e).length ≤ 1 := by
      cases e with
      | convert b => exact Nat.zero_le _
      | cycle m1 m2 => simp only [AdcDev.stores]; cases d.moved2 m2 <;> simp
    rw [AdcDev.stored, List.length_append, List.length_cons]
    have := ih (d.hw e)
    omega

theorem writes_tcHw : ∀ (X : List Int) (a : Adc), a.tcHw ≤ (X.foldl Adc.write a).tcHw + X.length := by
  intro X
  induction X with
  | nil => intro a; exact Nat.le_refl _
  | cons v X ih =>
    intro a
    rw [List.foldl_cons, List.length_cons]
    have h1 := ih (a.write v)
    have h2 : a.tcHw ≤ (a.write v).tcHw + 1 := by
      unfold Adc.write
      split
      · exact Nat.le_succ _
      · show a.tcHw ≤ a.tcHw - 1 + 1; omega
    omega

theorem send_again (core : Core1) (ready r : Bool) : (core.send ready).1.send r = ((core.send ready).1, none, false) := by
  unfold Core1.send
  by_cases hw : core.word.raw ≠ 0
  · rw [if_pos hw]
    dsimp only
    rw [if_neg (by decide)]
  · rw [if_neg hw]
    dsimp only
    rw [if_neg hw]

/-- An iteration in which `Update` finds nothing and another one do the same as one iteration. -/
theorem core_merge {S : Nat} {core c : Core1} {ready : Bool} {x : AdcIn} {o : C1Out}
    (h : (core.send ready).1.step S { ready := true, adc := x } = .ok (c, o)) :
    ∃ o', core.step S { ready := ready, adc := x } = .ok (c, o') ∧ o.word = none ∧ o'.word = (core.send ready).2.1 ∧ o'.dropped = (core.send ready).2.2 ∧
      o'.reset = o.reset := by
  cases x with
  | none =>
    simp only [Core1.step, send_again, Res.ok.injEq, Prod.mk.injEq] at h
    obtain ⟨rfl, rfl⟩ := h
    exact ⟨_, rfl, rfl, rfl, rfl, rfl⟩
  | error =>
    simp only [Core1.step, send_again, Res.ok.injEq, Prod.mk.injEq] at h
    obtain ⟨rfl, rfl⟩ := h
    exact ⟨_, rfl, rfl, rfl, rfl, rfl⟩
  | sample v =>
    simp only [Core1.step, send_again] at h
    rw [Res.bind_eq_ok] at h
    obtain ⟨c', h1, h⟩ := h
    simp only [Res.ok.injEq, Prod.mk.injEq] at h
    obtain ⟨rfl, rfl⟩ := h
    refine ⟨⟨(core.send ready).2.1, (core.send ready).2.2, false⟩, ?_, rfl, rfl, rfl, rfl⟩
    simp only [Core1.step, h1, Res.ok_bind]

theorem loop_merge {S : Nat} {core : Core1} {ready : Bool} {rst : ResetEnv} {u : AdcDev × Option Int} {s' : DevSystem} {o : C1Out}
    (h : DevSystem.loop S (core.send ready).1 true rst u = .ok (s', o)) :
    ∃ o', DevSystem.loop S core ready rst u = .ok (s', o') ∧ o.word = none ∧ o'.word = (core.send ready).2.1 ∧ o'.dropped = (core.send ready).2.2 ∧
      o'.reset = o.reset := by
  obtain ⟨d, x⟩ := u
  cases x with
  | none =>
    simp only [DevSystem.loop] at h ⊢
    rw [Res.bind_eq_ok] at h
    obtain ⟨⟨c, oc⟩, h1, h⟩ := h
    simp only [Res.ok.injEq, Prod.mk.injEq] at h
    obtain ⟨rfl, rfl⟩ := h
    obtain ⟨o', h2, h3⟩ := core_merge h1
    exact ⟨o', by rw [h2]; rfl, h3⟩
  | some v =>
    simp only [DevSystem.loop] at h ⊢
    split at h
    · rename_i hc
      rw [Res.bind_eq_ok] at h
      obtain ⟨⟨c, oc⟩, h1, h⟩ := h
      simp only [Res.ok.injEq, Prod.mk.injEq] at h
      obtain ⟨rfl, rfl⟩ := h
      obtain ⟨o', h2, h3⟩ := core_merge h1
      exact ⟨o', by simp only [hc, if_true, if_false, h2, Res.ok_bind, Bool.false_eq_true], h3⟩
    · rename_i hc
      rw [Res.bind_eq_ok] at h
      obtain ⟨⟨c, oc⟩, h1, h⟩ := h
      simp only [Res.ok.injEq, Prod.mk.injEq] at h
      obtain ⟨rfl, rfl⟩ := h
      obtain ⟨o', h2, h3⟩ := core_merge h1
      exact ⟨o', by simp only [hc, if_true, if_false, h2, Res.ok_bind, Bool.false_eq_true], h3⟩

theorem RxSystem.run_append' (S : Nat) : ∀ (xs ys : List RxEv) {s s1 s2 : RxSystem} {o1 o2 : List C1Out}, s.run S xs = .ok (s1, o1) → s1.run S ys = .ok (s2, o2) →
    s.run S (xs ++ ys) = .ok (s2, o1 ++ o2) := by
  intro xs
  induction xs with
  | nil =>
    intro ys s s1 s2 o1 o2 h1 h2
    simp only [RxSystem.run, Res.ok.injEq, Prod.mk.injEq] at h1
    obtain ⟨rfl, rfl⟩ := h1
    exact h2
  | cons x xs ih =>
    intro ys s s1 s2 o1 o2 h1 h2
    rw [RxSystem.run, Res.bind_eq_ok] at h1
    obtain ⟨⟨t, o⟩, h3, h1⟩ := h1
    rw [Res.bind_eq_ok] at h1
    obtain ⟨⟨t2, l⟩, h4, h1⟩ := h1
    simp only [Res.ok.injEq, Prod.mk.injEq] at h1
    obtain ⟨rfl, rfl⟩ := h1
    rw [List.cons_append, RxSystem.run, h3, Res.ok_bind, ih ys h4 h2, Res.ok_bind, List.append_assoc]

theorem values_transfer (X : List Int) : (X.map RxEv.transfer).flatMap RxEv.values = X := by
  induction X with
  | nil => rfl
  | cons a X ih => rw [List.map_cons, List.flatMap_cons, ih]; rfl

theorem transfers_run (S : Nat) : ∀ (X : List Int) (a : Adc) (c : Core1), RxSystem.run S ⟨a, c⟩ (X.map RxEv.transfer) = .ok (⟨X.foldl Adc.write a, c⟩, []) := by
  intro X
  induction X with
  | nil => intro a c; rfl
  | cons v X ih => intro a c; rw [List.map_cons, RxSystem.run, RxSystem.step, Res.ok_bind, ih]; rfl

theorem sends_append (a b : List C1Out) : sends (a ++ b) = sends a ++ sends b := by unfold sends; exact List.filterMap_append ..

theorem iterate_refines {S : Nat} (hS : 8 ≤ S) {s : DevSystem} (hi : DevInv S s) (ready : Bool) (u : UpdEnv) (rst : ResetEnv) (hp : s.dev.Prompt u) :
    ∃ s' o xs outs', s.step S (.iterate ready u rst) = .ok (s', some o) ∧ DevInv S s' ∧ (∀ x ∈ xs, RxEv.InRange x) ∧
      xs.flatMap RxEv.values = s.dev.iterStores u rst ∧
      RxSystem.run S ⟨s.dev.adc, s.core⟩ xs = .ok (⟨s'.dev.adc, s'.core⟩, outs') ∧ sends outs' = sends [o] := by
  obtain ⟨d, core⟩ := s
  dsimp only at hp
  by_cases h0 : d.adc.tcHw = 0
  · obtain ⟨hp1, hp2⟩ := hp h0
    obtain ⟨hh, ph, vs, hd⟩ := hi
    have hd : DevOk d ph vs := hd
    obtain ⟨vs1, hd1, -⟩ := hd.hws u.wait
    obtain ⟨w1, w2⟩ := AdcDev.stored_stopped u.wait h0
    have hc1 := hd1.count
    rw [w2, h0] at hc1
    have ht1 : (d.hws u.wait).tc1 = 0 := by
      rcases hp1 with h | h
      · have := (AdcDev.hws_tc1 u.wait d).1
        omega
      · have hle : d.tc1 ≤ 1 := by have := hd.count; rw [h0] at this; omega
        exact AdcDev.served_done hle h
    have hd2 : DevOk (d.hws u.wait).restart (turn ph (d.entered u.wait).length) vs1 := by
      refine ⟨hd1.on, hd1.pipe, ?_, hd1.room⟩
      show adcBlock + vs1.length ≤ adcBlock + 1
      omega
    have hst := hd2.stored_ok u.mid
    obtain ⟨vs3, hd3, -⟩ := hd2.hws u.mid
    have ha3 := AdcDev.hws_adc u.mid (d.hws u.wait).restart
    have hlen := AdcDev.stored_length u.mid (d.hws u.wait).restart
    generalize hX : (d.hws u.wait).restart.stored u.mid = X at *
    have hadc : ((d.hws u.wait).restart.hws u.mid).adc = X.foldl Adc.write d.adc.restart := by
      rw [ha3]
      show List.foldl Adc.write (d.hws u.wait).adc.restart X = _
      rw [w2]
    have hbe : d.blockEnd u = (d.hws u.wait).restart.hws u.mid := by
      unfold AdcDev.blockEnd
      rw [if_pos h0]
      dsimp only
      rw [if_pos ht1]
    generalize hd4 : (d.hws u.wait).restart.hws u.mid = d4 at *
    have hn0 : d4.adc.tcHw ≠ 0 := by
      rw [hadc]
      have := writes_tcHw X d.adc.restart
      have e : d.adc.restart.tcHw = adcBlock := rfl
      omega
    -- the two iterations of the model behind the DMA
    have hr1 : RxSystem.step S ⟨d.adc, core⟩ (.iterate ready []) =
        .ok (⟨d.adc.restart, (core.send ready).1⟩, some ⟨(core.send ready).2.1, (core.send ready).2.2, false⟩) := by
      have hu : Adc.update d.adc [] = .ok (d.adc.restart, none) := by
        unfold Adc.update
        simp only [if_pos h0]
        rw [if_pos (show d.adc.restart.tc = d.adc.restart.tcHw from rfl)]
      simp only [RxSystem.step, hu, Res.ok_bind, Core1.step]
    have hinr : (RxEv.iterate ready []).InRange := fun v hv => (by cases hv)
    have hh1 := (hist_step hS hh hinr hr1).1
    have hrun2 := transfers_run S X d.adc.restart (core.send ready).1
    have hinr2 : ∀ x ∈ X.map RxEv.transfer, RxEv.InRange x := by
      intro x hx
      obtain ⟨v, hv, rfl⟩ := List.mem_map.mp hx
      exact hst v hv
    have hh2 := (hist_run hS _ hh1 hinr2 hrun2).1
    have hi2 : DevInv S ⟨d4, (core.send ready).1⟩ := ⟨by rw [← hadc] at hh2; exact hh2, _, _, hd3⟩
    obtain ⟨v, s', o, t1, t2, t3, t4, t5⟩ := take_refines hS hi2 hn0 u.late rst true
    obtain ⟨o', l1, l2, l3, l4, -⟩ := loop_merge t2
    refine ⟨s', o', .iterate ready [] :: (X.map RxEv.transfer ++ [.iterate true (d4.takeStores u.late rst)]), [⟨(core.send ready).2.1, (core.send ready).2.2, false⟩, o], ?_, t3, ?_, ?_, ?_, ?_⟩
    · simp only [DevSystem.step, AdcDev.update, hbe, t1, Res.ok_bind, l1]
    · intro x hx
      rcases List.mem_cons.mp hx with rfl | hx
      · exact hinr
      · rcases List.mem_append.mp hx with hx | hx
        · exact hinr2 x hx
        · rw [List.mem_singleton.mp hx]; exact t4
    · unfold AdcDev.iterStores
      dsimp only
      rw [if_pos h0, hX, hd4]
      simp only [List.flatMap_cons, List.flatMap_append, RxEv.values, List.flatMap_nil, List.append_nil, List.nil_append]
      congr 1
      exact values_transfer X
    · rw [RxSystem.run, hr1, Res.ok_bind]
      rw [RxSystem.run_append' S _ _ hrun2 (show RxSystem.run S _ [.iterate true (d4.takeStores u.late rst)] = .ok (⟨s'.dev.adc, s'.core⟩, [o]) by
        rw [← hadc, RxSystem.run, t5]; rfl)]
      rfl
    · simp only [sends, List.filterMap_cons, List.filterMap_nil, l2, l3, l4, Option.map_none]
  · obtain ⟨v, s', o, t1, t2, t3, t4, t5⟩ := take_refines hS hi h0 u.late rst ready
    refine ⟨s', o, [.iterate ready (d.takeStores u.late rst)], [o], ?_, t3, ?_, ?_, ?_, rfl⟩
    · have hbe : d.blockEnd u = d := by unfold AdcDev.blockEnd; rw [if_neg h0]
      simp only [DevSystem.step, AdcDev.update, hbe, t1, Res.ok_bind, t2]
    · intro x hx
      rw [List.mem_singleton.mp hx]; exact t4
    · unfold AdcDev.iterStores
      dsimp only
      rw [if_neg h0]
      simp [RxEv.values]
    · rw [RxSystem.run, t5]; rfl

theorem dev_run_refines {S : Nat} (hS : 8 ≤ S) : ∀ (es : List PathEv) {s : DevSystem}, DevInv S s → s.Prompt S es →
    ∃ s' outs xs outs', s.run S es = .ok (s', outs) ∧ DevInv S s' ∧ (∀ x ∈ xs, RxEv.InRange x) ∧ xs.flatMap RxEv.values = s.stores S es ∧
      RxSystem.run S ⟨s.dev.adc, s.core⟩ xs = .ok (⟨s'.dev.adc, s'.core⟩, outs') ∧ sends outs' = sends outs := by
  intro es
  induction es with
  | nil => intro s h _; exact ⟨s, [], [], [], rfl, h, (fun x hx => by cases hx), rfl, rfl, rfl⟩
  | cons e es ih =>
    intro s h hp
    cases e with
    | hw e =>
      have hp : DevSystem.Prompt S { s with dev := s.dev.hw e } es := hp
      obtain ⟨hh, ph, vs, hd⟩ := h
      have hst := hd.stored_ok [e]
      have hst' : ∀ v ∈ s.dev.stores e, ValOk v := by simpa [AdcDev.stored] using hst
      obtain ⟨vs', hd', -⟩ := hd.hw e
      have hadc := s.dev.hw_adc e
      have hrun := transfers_run S (s.dev.stores e) s.dev.adc s.core
      have hinr : ∀ x ∈ (s.dev.stores e).map RxEv.transfer, RxEv.InRange x := by
        intro x hx
        obtain ⟨v, hv, rfl⟩ := List.mem_map.mp hx
        exact hst' v hv
      rw [← hadc] at hrun
      have hh' := (hist_run hS _ hh hinr hrun).1
      obtain ⟨s', outs, xs, outs', r1, r2, r3, r4, r5, r6⟩ := ih (s := { s with dev := s.dev.hw e }) ⟨hh', _, _, hd'⟩ hp
      refine ⟨s', outs, (s.dev.stores e).map RxEv.transfer ++ xs, outs', ?_, r2, ?_, ?_, RxSystem.run_append' S _ _ hrun r5, r6⟩
      · rw [DevSystem.run, DevSystem.step, Res.ok_bind, r1]; rfl
      · intro x hx
        rcases List.mem_append.mp hx with hx | hx
        · exact hinr x hx
        · exact r3 x hx
      · rw [List.flatMap_append, r4]
        show _ = s.dev.stores e ++ _
        rw [values_transfer]
    | iterate ready u rst =>
      obtain ⟨hp1, hp2⟩ := hp
      obtain ⟨s1, o, xs1, o1, q1, q2, q3, q4, q5, q6⟩ := iterate_refines hS h ready u rst hp1
      obtain ⟨s', outs, xs, outs', r1, r2, r3, r4, r5, r6⟩ := ih q2 (hp2 _ _ q1)
      refine ⟨s', o :: outs, xs1 ++ xs, o1 ++ outs', ?_, r2, ?_, ?_, RxSystem.run_append' S _ _ q5 r5, ?_⟩
      · rw [DevSystem.run, q1, Res.ok_bind, r1]; rfl
      · intro x hx
        rcases List.mem_append.mp hx with hx | hx
        · exact q3 x hx
        · exact r3 x hx
      · rw [List.flatMap_append, r4, q4]
        show _ = _ ++ _
        simp only [q1]
      · rw [sends_append, q6, r6, ← sends_append]; rfl

end P1P2
