import Verif.Proofs.DevKeeps
/-!
# From the conversions to the codes that get into the PIO
-/
namespace P1P2
open Pio

theorem AdcDev.Lossless.codes : ∀ (es : List HwEv) {d : AdcDev}, d.Lossless es → d.fifo ++ HwEv.codes es = d.entered es ++ (d.hws es).fifo := by
  intro es
  induction es with
  | nil => intro d _; simp [HwEv.codes, AdcDev.entered, AdcDev.hws]
  | cons e es ih =>
    intro d h
    cases e with
    | convert b =>
      obtain ⟨h1, h2⟩ := h
      have := ih h2
      rw [AdcDev.hws_cons, AdcDev.entered, HwEv.codes, List.append_assoc, ← this, AdcDev.enters, List.nil_append]
      simp only [AdcDev.hw, if_pos h1, List.append_assoc, List.singleton_append]
    | cycle m1 m2 =>
      obtain ⟨h1, h2⟩ := h
      have := ih h2
      rw [AdcDev.hws_cons, AdcDev.entered, HwEv.codes, List.append_assoc, ← this, ← List.append_assoc]
      congr 1
      have hf : (d.hw (.cycle m1 m2)).fifo = if (d.moved1 m1).isSome then d.fifo.tail else d.fifo := rfl
      rw [hf, AdcDev.enters]
      cases hm : d.moved1 m1 with
      | none => simp
      | some b =>
        rw [hm] at h1
        rw [if_pos (h1 rfl)]
        have : d.fifo.head? = some b := by
          unfold AdcDev.moved1 at hm
          split at hm
          · exact hm
          · cases hm
        cases hq : d.fifo with
        | nil => rw [hq] at this; cases this
        | cons x q =>
          rw [hq] at this
          cases this
          rfl

theorem take_fifo {S : Nat} {d : AdcDev} {core : Core1} {late : List HwEv} {rst : ResetEnv} {ready : Bool} {u : AdcDev × Option Int} {s' : DevSystem} {o : C1Out}
    (h1 : d.take late = .ok u) (h2 : DevSystem.loop S core ready rst u = .ok (s', o)) (ho : o.reset = false) :
    s'.dev.fifo = if d.adc.tc = d.adc.tcHw then d.fifo else (d.book.hws late).fifo := by
  unfold AdcDev.take at h1
  by_cases ht : d.adc.tc = d.adc.tcHw
  · rw [if_pos ht] at h1 ⊢
    simp only [Res.ok.injEq] at h1
    subst h1
    simp only [DevSystem.loop] at h2
    rw [Res.bind_eq_ok] at h2
    obtain ⟨⟨c, oc⟩, h3, h2⟩ := h2
    simp only [Res.ok.injEq, Prod.mk.injEq] at h2
    obtain ⟨rfl, rfl⟩ := h2
    rfl
  · rw [if_neg ht] at h1 ⊢
    dsimp only at h1
    rw [Res.bind_eq_ok] at h1
    obtain ⟨v, -, h1⟩ := h1
    simp only [Res.ok.injEq] at h1
    subst h1
    simp only [DevSystem.loop] at h2
    split at h2
    · rw [Res.bind_eq_ok] at h2
      obtain ⟨⟨c, oc⟩, h3, h2⟩ := h2
      simp only [Res.ok.injEq, Prod.mk.injEq] at h2
      obtain ⟨rfl, rfl⟩ := h2
      have hrs := (core_reset_iff h3).mpr rfl
      exact absurd (hrs.symm.trans ho) (by decide)
    · rw [Res.bind_eq_ok] at h2
      obtain ⟨⟨c, oc⟩, h3, h2⟩ := h2
      simp only [Res.ok.injEq, Prod.mk.injEq] at h2
      obtain ⟨rfl, rfl⟩ := h2
      rfl

theorem AdcDev.book_fifo (d : AdcDev) : d.book.fifo = d.fifo := by
  obtain ⟨f, t, hb⟩ := d.book_eq
  rw [hb]

theorem codes_run {S : Nat} : ∀ (es : List PathEv) {s s' : DevSystem} {outs : List C1Out}, s.KeepsUp S es → s.Lossless S es →
    s.run S es = .ok (s', outs) → (∀ o ∈ outs, o.reset = false) → s.dev.fifo ++ s.converted S es = s.enters S es ++ s'.dev.fifo := by
  intro es
  induction es with
  | nil =>
    intro s s' outs _ _ hr _
    simp only [DevSystem.run, Res.ok.injEq, Prod.mk.injEq] at hr
    obtain ⟨rfl, -⟩ := hr
    simp [DevSystem.converted, DevSystem.enters]
  | cons e es ih =>
    intro s s' outs hk hl hr hn
    rw [DevSystem.run, Res.bind_eq_ok] at hr
    obtain ⟨⟨s1, o⟩, h1, hr⟩ := hr
    rw [Res.bind_eq_ok] at hr
    obtain ⟨⟨s2, l⟩, h2, hr⟩ := hr
    simp only [Res.ok.injEq, Prod.mk.injEq] at hr
    obtain ⟨rfl, rfl⟩ := hr
    cases e with
    | hw e =>
      simp only [DevSystem.step, Res.ok.injEq, Prod.mk.injEq] at h1
      obtain ⟨rfl, rfl⟩ := h1
      obtain ⟨l1, l2⟩ := hl
      have k1 := AdcDev.Lossless.codes [e] l1
      have k2 := ih hk.2 l2 h2 hn
      rw [DevSystem.converted, DevSystem.enters, ← List.append_assoc, k1, List.append_assoc]
      have e1 : s.dev.entered [e] = s.dev.enters e := by simp [AdcDev.entered]
      rw [e1, List.append_assoc]
      congr 1
    | iterate ready u rst =>
      obtain ⟨hk0, hk1, hk2⟩ := hk
      obtain ⟨l1, l2⟩ := hl
      have hstep := h1
      simp only [DevSystem.step] at h1
      rw [Res.bind_eq_ok] at h1
      obtain ⟨x, h3, h1⟩ := h1
      rw [Res.bind_eq_ok] at h1
      obtain ⟨⟨y, oy⟩, h4, h1⟩ := h1
      simp only [Res.ok.injEq, Prod.mk.injEq] at h1
      obtain ⟨rfl, rfl⟩ := h1
      have hbe : s.dev.blockEnd u = s.dev := by unfold AdcDev.blockEnd; rw [if_neg hk0]
      unfold AdcDev.update at h3
      rw [hbe] at h3
      have hf := take_fifo h3 h4 (hn oy (by simp))
      have k2 := ih (hk2 _ _ hstep) (l2 _ _ hstep) h2 (fun o' h' => hn o' (by simp [h']))
      rw [DevSystem.converted, DevSystem.enters]
      simp only [hstep]
      unfold AdcDev.iterEnters AdcDev.takeEnters
      rw [if_neg hk0, List.append_assoc, ← k2, hf]
      by_cases ht : s.dev.adc.tc = s.dev.adc.tcHw
      · rw [if_pos ht, if_pos ht, if_pos ht]
        rfl
      · rw [if_neg ht, if_neg ht, if_neg ht, ← List.append_assoc, ← List.append_assoc]
        congr 1
        have := AdcDev.Lossless.codes u.late (l1 ht)
        rw [← this, AdcDev.book_fifo]

/-! ## The FIFO of the ADC has four entries -/

theorem AdcDev.hws_fifo : ∀ (es : List HwEv) {d : AdcDev}, d.fifo.length ≤ 4 → (d.hws es).fifo.length ≤ 4 := by
  intro es
  induction es with
  | nil => intro d h; exact h
  | cons e es ih =>
    intro d h
    rw [AdcDev.hws_cons]
    apply ih
    cases e with
    | convert b =>
      simp only [AdcDev.hw]
      split
      · next h1 => simp only [List.length_append, List.length_singleton]; omega
      · exact h
    | cycle m1 m2 =>
      simp only [AdcDev.hw]
      split
      · rw [List.length_tail]; omega
      · exact h

theorem AdcDev.reset_fifo (d : AdcDev) (e : ResetEnv) : (d.reset e).fifo.length ≤ 4 := by
  unfold AdcDev.reset AdcDev.startUp AdcDev.stop
  show (AdcDev.hws _ e.start).fifo.length ≤ 4
  apply AdcDev.hws_fifo
  show (AdcDev.hws _ e.on).fifo.length ≤ 4
  apply AdcDev.hws_fifo
  show (AdcDev.hws _ e.off).fifo.length ≤ 4
  apply AdcDev.hws_fifo
  show (AdcDev.hws _ e.abort2).fifo.length ≤ 4
  apply AdcDev.hws_fifo
  show (AdcDev.hws _ e.abort1).fifo.length ≤ 4
  apply AdcDev.hws_fifo
  exact Nat.zero_le _

theorem run_fifo {S : Nat} : ∀ (es : List PathEv) {s s' : DevSystem} {outs : List C1Out}, s.dev.fifo.length ≤ 4 → s.run S es = .ok (s', outs) →
    s'.dev.fifo.length ≤ 4 := by
  intro es
  induction es with
  | nil =>
    intro s s' outs h hr
    simp only [DevSystem.run, Res.ok.injEq, Prod.mk.injEq] at hr
    obtain ⟨rfl, -⟩ := hr
    exact h
  | cons e es ih =>
    intro s s' outs h hr
    rw [DevSystem.run, Res.bind_eq_ok] at hr
    obtain ⟨⟨s1, o⟩, h1, hr⟩ := hr
    rw [Res.bind_eq_ok] at hr
    obtain ⟨⟨s2, l⟩, h2, hr⟩ := hr
    simp only [Res.ok.injEq, Prod.mk.injEq] at hr
    obtain ⟨rfl, rfl⟩ := hr
    refine ih ?_ h2
    cases e with
    | hw e =>
      simp only [DevSystem.step, Res.ok.injEq, Prod.mk.injEq] at h1
      obtain ⟨rfl, rfl⟩ := h1
      exact AdcDev.hws_fifo [e] h
    | iterate ready u rst =>
      simp only [DevSystem.step] at h1
      rw [Res.bind_eq_ok] at h1
      obtain ⟨x, h3, h1⟩ := h1
      rw [Res.bind_eq_ok] at h1
      obtain ⟨⟨y, oy⟩, h4, h1⟩ := h1
      simp only [Res.ok.injEq, Prod.mk.injEq] at h1
      obtain ⟨rfl, rfl⟩ := h1
      have hb : (s.dev.blockEnd u).fifo.length ≤ 4 := by
        unfold AdcDev.blockEnd
        split
        · dsimp only
          apply AdcDev.hws_fifo
          split <;> exact AdcDev.hws_fifo _ h
        · exact h
      have hx : x.1.fifo.length ≤ 4 := by
        unfold AdcDev.update at h3
        generalize s.dev.blockEnd u = d at *
        unfold AdcDev.take at h3
        split at h3
        · simp only [Res.ok.injEq] at h3
          subst h3
          exact hb
        · dsimp only at h3
          rw [Res.bind_eq_ok] at h3
          obtain ⟨v, -, h3⟩ := h3
          simp only [Res.ok.injEq] at h3
          subst h3
          have hb' : d.book.fifo.length ≤ 4 := by rw [AdcDev.book_fifo]; exact hb
          exact AdcDev.hws_fifo u.late hb'
      obtain ⟨d, v⟩ := x
      cases v with
      | none =>
        simp only [DevSystem.loop] at h4
        rw [Res.bind_eq_ok] at h4
        obtain ⟨⟨c, oc⟩, h5, h4⟩ := h4
        simp only [Res.ok.injEq, Prod.mk.injEq] at h4
        obtain ⟨rfl, rfl⟩ := h4
        exact hx
      | some v =>
        simp only [DevSystem.loop] at h4
        split at h4
        · rw [Res.bind_eq_ok] at h4
          obtain ⟨⟨c, oc⟩, h5, h4⟩ := h4
          simp only [Res.ok.injEq, Prod.mk.injEq] at h4
          obtain ⟨rfl, rfl⟩ := h4
          exact AdcDev.reset_fifo _ rst
        · rw [Res.bind_eq_ok] at h4
          obtain ⟨⟨c, oc⟩, h5, h4⟩ := h4
          simp only [Res.ok.injEq, Prod.mk.injEq] at h4
          obtain ⟨rfl, rfl⟩ := h4
          exact hx

end P1P2
