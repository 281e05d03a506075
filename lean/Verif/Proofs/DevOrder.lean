import Verif.Proofs.DevRefine
/-!
# No value is lost, repeated or moved between the state machine and the ring
-/
namespace P1P2
open Pio

theorem core_reset_iff {S : Nat} {c c' : Core1} {r : Bool} {x : AdcIn} {o : C1Out} (h : c.step S { ready := r, adc := x } = .ok (c', o)) :
    o.reset = true ↔ x = .error := by
  cases x with
  | none =>
    simp only [Core1.step, Res.ok.injEq, Prod.mk.injEq] at h
    obtain ⟨-, rfl⟩ := h
    exact ⟨fun h => (by cases h), fun h => (by cases h)⟩
  | error =>
    simp only [Core1.step, Res.ok.injEq, Prod.mk.injEq] at h
    obtain ⟨-, rfl⟩ := h
    exact ⟨fun _ => rfl, fun _ => rfl⟩
  | sample v =>
    simp only [Core1.step] at h
    rw [Res.bind_eq_ok] at h
    obtain ⟨_, -, h⟩ := h
    simp only [Res.ok.injEq, Prod.mk.injEq] at h
    obtain ⟨-, rfl⟩ := h
    exact ⟨fun h => (by cases h), fun h => (by cases h)⟩

theorem take_order {S : Nat} {d : AdcDev} {core : Core1} {ph : Bool} {vs : List Int} (hd : DevOk d ph vs) {late : List HwEv} {rst : ResetEnv}
    {ready : Bool} {u : AdcDev × Option Int} {s' : DevSystem} {o : C1Out} (h1 : d.take late = .ok u)
    (h2 : DevSystem.loop S core ready rst u = .ok (s', o)) :
    (o.reset = false → ∃ vs', DevOk s'.dev (turn ph (d.takeEnters late).length) vs' ∧ vs ++ alternate ph (d.takeEnters late) = d.takeStores late rst ++ vs') ∧
    (o.reset = true → ∃ ph' vs', DevOk s'.dev ph' vs' ∧ vs'.length ≤ 1) := by
  unfold AdcDev.take at h1
  unfold AdcDev.takeEnters AdcDev.takeStores
  by_cases ht : d.adc.tc = d.adc.tcHw
  · rw [if_pos ht] at h1 ⊢
    rw [if_pos ht]
    simp only [Res.ok.injEq] at h1
    subst h1
    simp only [DevSystem.loop] at h2
    rw [Res.bind_eq_ok] at h2
    obtain ⟨⟨c, oc⟩, h3, h2⟩ := h2
    simp only [Res.ok.injEq, Prod.mk.injEq] at h2
    obtain ⟨rfl, rfl⟩ := h2
    refine ⟨fun _ => ⟨vs, by simpa [turn] using hd, by simp [alternate]⟩, fun hr => ?_⟩
    have := (core_reset_iff h3).mp hr
    cases this
  · rw [if_neg ht] at h1 ⊢
    rw [if_neg ht]
    dsimp only at h1 ⊢
    rw [Res.bind_eq_ok] at h1
    obtain ⟨v, -, h1⟩ := h1
    simp only [Res.ok.injEq] at h1
    subst h1
    have hd1 := hd.book
    have hadc := AdcDev.hws_adc late d.book
    have herr : (d.book.hws late).adc.err = d.book.adc.err := by rw [hadc]; exact (writes_keep _ _).2.1
    obtain ⟨vs2, hd2, ho⟩ := hd1.hws late
    generalize d.book.stored late = X at *
    generalize d.book.hws late = d2 at *
    have hd3 : DevOk { d2 with adc := { d2.adc with off := (d2.adc.off + 1) % 256, err := false } } _ _ := ⟨hd2.on, hd2.pipe, hd2.count, hd2.room⟩
    simp only [DevSystem.loop] at h2
    split at h2
    · rename_i he
      rw [Res.bind_eq_ok] at h2
      obtain ⟨⟨c, oc⟩, h3, h2⟩ := h2
      simp only [Res.ok.injEq, Prod.mk.injEq] at h2
      obtain ⟨rfl, rfl⟩ := h2
      have hrs := (core_reset_iff h3).mpr rfl
      refine ⟨fun hr => absurd (hrs.symm.trans hr) (by decide), fun _ => ?_⟩
      exact (hd3.reset rst).1
    · rename_i he
      have he' : ¬ d.book.adc.err = true := by rw [← herr]; exact he
      rw [Res.bind_eq_ok] at h2
      obtain ⟨⟨c, oc⟩, h3, h2⟩ := h2
      simp only [Res.ok.injEq, Prod.mk.injEq] at h2
      obtain ⟨rfl, rfl⟩ := h2
      refine ⟨fun _ => ⟨vs2, hd3, by rw [if_neg he', List.append_nil]; exact ho⟩, fun hr => ?_⟩
      have := (core_reset_iff h3).mp hr
      cases this

theorem iterate_order {S : Nat} {s s' : DevSystem} {ph : Bool} {vs : List Int} (hd : DevOk s.dev ph vs) {ready : Bool} {u : UpdEnv} {rst : ResetEnv}
    {o : C1Out} (hp : s.dev.Prompt u) (h : s.step S (.iterate ready u rst) = .ok (s', some o)) :
    (o.reset = false → ∃ vs', DevOk s'.dev (turn ph (s.dev.iterEnters u).length) vs' ∧
      vs ++ alternate ph (s.dev.iterEnters u) = s.dev.iterStores u rst ++ vs') ∧
    (o.reset = true → ∃ ph' vs', DevOk s'.dev ph' vs' ∧ vs'.length ≤ 1) := by
  obtain ⟨d, core⟩ := s
  have hd : DevOk d ph vs := hd
  dsimp only at hp
  simp only [DevSystem.step] at h
  rw [Res.bind_eq_ok] at h
  obtain ⟨x, h1, h⟩ := h
  rw [Res.bind_eq_ok] at h
  obtain ⟨⟨y, oy⟩, h2, h⟩ := h
  simp only [Res.ok.injEq, Prod.mk.injEq, Option.some.injEq] at h
  obtain ⟨rfl, rfl⟩ := h
  unfold AdcDev.update at h1
  unfold AdcDev.iterEnters AdcDev.iterStores
  dsimp only
  by_cases h0 : d.adc.tcHw = 0
  · obtain ⟨hp1, -⟩ := hp h0
    obtain ⟨vs1, hd1, ho1⟩ := hd.hws u.wait
    obtain ⟨w1, w2⟩ := AdcDev.stored_stopped u.wait h0
    have hc1 := hd1.count
    rw [w2, h0] at hc1
    have hle : d.tc1 ≤ 1 := by have := hd.count; rw [h0] at this; omega
    have ht1 : (d.hws u.wait).tc1 = 0 := by
      rcases hp1 with h | h
      · have := (AdcDev.hws_tc1 u.wait d).1
        omega
      · exact AdcDev.served_done hle h
    have hd2 : DevOk (d.hws u.wait).restart (turn ph (d.entered u.wait).length) vs1 := by
      refine ⟨hd1.on, hd1.pipe, ?_, hd1.room⟩
      show adcBlock + vs1.length ≤ adcBlock + 1
      omega
    obtain ⟨vs3, hd3, ho3⟩ := hd2.hws u.mid
    have hbe : d.blockEnd u = (d.hws u.wait).restart.hws u.mid := by
      unfold AdcDev.blockEnd
      rw [if_pos h0]
      dsimp only
      rw [if_pos ht1]
    rw [hbe] at h1
    obtain ⟨t1, t2⟩ := take_order (S := S) (core := core) hd3 h1 h2
    rw [if_pos h0, if_pos h0]
    refine ⟨fun hr => ?_, t2⟩
    obtain ⟨vs', k1, k2⟩ := t1 hr
    refine ⟨vs', ?_, ?_⟩
    · rw [List.length_append, List.length_append, ← turn_turn, ← turn_turn]; exact k1
    · rw [alternate_append, alternate_append, ← List.append_assoc, ho1, w1, List.nil_append, ← List.append_assoc, ho3, List.append_assoc, k2, List.append_assoc]
  · have hbe : d.blockEnd u = d := by unfold AdcDev.blockEnd; rw [if_neg h0]
    rw [hbe] at h1
    rw [if_neg h0, if_neg h0]
    exact take_order (S := S) (core := core) hd h1 h2

theorem order_run {S : Nat} : ∀ (es : List PathEv) {s s' : DevSystem} {outs : List C1Out} {ph : Bool} {vs : List Int}, DevOk s.dev ph vs → s.Prompt S es →
    s.run S es = .ok (s', outs) → (∀ o ∈ outs, o.reset = false) →
    ∃ vs', DevOk s'.dev (turn ph (s.enters S es).length) vs' ∧ vs ++ alternate ph (s.enters S es) = s.stores S es ++ vs' := by
  intro es
  induction es with
  | nil =>
    intro s s' outs ph vs hd _ hr _
    simp only [DevSystem.run, Res.ok.injEq, Prod.mk.injEq] at hr
    obtain ⟨rfl, -⟩ := hr
    exact ⟨vs, by simpa [turn, DevSystem.enters] using hd, by simp [DevSystem.enters, DevSystem.stores, alternate]⟩
  | cons e es ih =>
    intro s s' outs ph vs hd hp hr hn
    rw [DevSystem.run, Res.bind_eq_ok] at hr
    obtain ⟨⟨s1, o⟩, h1, hr⟩ := hr
    rw [Res.bind_eq_ok] at hr
    obtain ⟨⟨s2, l⟩, h2, hr⟩ := hr
    simp only [Res.ok.injEq, Prod.mk.injEq] at hr
    obtain ⟨rfl, rfl⟩ := hr
    cases e with
    | hw e =>
      simp only [DevSystem.step, Res.ok.injEq, Prod.mk.injEq] at h1
      obtain ⟨rfl, rfl⟩ := h1
      obtain ⟨v1, k1, k2⟩ := hd.hw e
      obtain ⟨v2, k3, k4⟩ := ih k1 hp h2 hn
      refine ⟨v2, ?_, ?_⟩
      · rw [DevSystem.enters, List.length_append, ← turn_turn]; exact k3
      · rw [DevSystem.enters, DevSystem.stores, alternate_append, ← List.append_assoc, k2, List.append_assoc, k4, List.append_assoc]
    | iterate ready u rst =>
      have ho : ∃ o', o = some o' := by
        simp only [DevSystem.step] at h1
        rw [Res.bind_eq_ok] at h1
        obtain ⟨_, -, h1⟩ := h1
        rw [Res.bind_eq_ok] at h1
        obtain ⟨r, -, h1⟩ := h1
        simp only [Res.ok.injEq, Prod.mk.injEq] at h1
        exact ⟨_, h1.2.symm⟩
      obtain ⟨o, rfl⟩ := ho
      obtain ⟨hp1, hp2⟩ := hp
      obtain ⟨v1, k1, k2⟩ := (iterate_order hd hp1 h1).1 (hn o (by simp))
      obtain ⟨v2, k3, k4⟩ := ih k1 (hp2 _ _ h1) h2 (fun o' h' => hn o' (by simp [h']))
      refine ⟨v2, ?_, ?_⟩
      · rw [DevSystem.enters]
        simp only [h1]
        rw [List.length_append, ← turn_turn]; exact k3
      · rw [DevSystem.enters, DevSystem.stores]
        simp only [h1]
        rw [alternate_append, ← List.append_assoc, k2, List.append_assoc, k4, List.append_assoc]

end P1P2
