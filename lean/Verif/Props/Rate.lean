import Verif.Spec.Rate
import Verif.Proofs.Rate
import Verif.Proofs.HealHist
import Verif.Props.Packets
/-!
# C140, C141: words arrive slowly enough, and the FIFO between the cores does not overflow
-/
namespace P1P2

/-! ## C140 -/

theorem rated_run {S : Nat} (hS : 9 ≤ S) : ∀ (is : List C1In) {c c' : Core1} {outs : List C1Out}, c.run S is = .ok (c', outs) → c.Rated S →
    c'.Rated S ∧ c'.credit S + 2 * c'.word.weight + 692 * (sent outs).length ≤ c.credit S + 2 * c.word.weight + 3 * samplesIn is + 693 * overrunsIn is := by
  intro is
  induction is with
  | nil =>
    intro c c' outs h hr
    simp only [Core1.run, Res.ok.injEq, Prod.mk.injEq] at h
    obtain ⟨rfl, rfl⟩ := h
    refine ⟨hr, ?_⟩
    simp [sent, samplesIn, overrunsIn]
  | cons i is ih =>
    intro c c' outs h hr
    rw [Core1.run, Res.bind_eq_ok] at h
    obtain ⟨⟨c1, o⟩, h1, h⟩ := h
    rw [Res.bind_eq_ok] at h
    obtain ⟨⟨c2, l⟩, h2, h⟩ := h
    simp only [Res.ok.injEq, Prod.mk.injEq] at h
    obtain ⟨rfl, rfl⟩ := h
    obtain ⟨r1, r2, r3⟩ := rated_step hS h1 hr
    obtain ⟨r4, r5⟩ := ih h2 r1
    refine ⟨r4, ?_⟩
    have hl : (692 * ((sent (o :: l)).length : Int)) = 2 * c.word.weight + 692 * (sent l).length := by
      rw [sent, filterMap_cons', r3, List.length_append]
      unfold Word.weight
      split <;> simp [sent] <;> omega
    have hp : i.adc.pays + 3 * samplesIn is + 693 * overrunsIn is = 3 * samplesIn (i :: is) + 693 * overrunsIn (i :: is) := by
      unfold samplesIn overrunsIn
      rw [List.countP_cons, List.countP_cons]
      cases i.adc <;> simp [AdcIn.pays] <;> omega
    dsimp only at r5 ⊢
    rw [hl]
    omega

theorem weight_le (w : Word) : 0 ≤ w.weight ∧ w.weight ≤ 346 := by
  unfold Word.weight
  split <;> omega

/-- **C140.** Whatever the bus carries: in every stretch of the operation of the receive core in which it is given `n` samples (and the ADC does not overrun) it hands over at most
(2747 + 3 n) / 692 words, that is 4 at once and then one for 230 samples (0.75 ms); every overrun adds one. -/
theorem C140_rate {S : Nat} (hS : 9 ≤ S) (rxErr : Bool) (before stretch : List C1In) {c c' : Core1} {o1 o2 : List C1Out}
    (h1 : (Core1.init rxErr).run S before = .ok (c, o1)) (h2 : c.run S stretch = .ok (c', o2)) :
    692 * (sent o2).length ≤ 2747 + 3 * samplesIn stretch + 693 * overrunsIn stretch := by
  obtain ⟨r1, -⟩ := rated_run hS before h1 (.init S rxErr)
  obtain ⟨r2, r3⟩ := rated_run hS stretch h2 r1
  have b1 := r1.bounds
  have b2 := r2.bounds
  have w1 := weight_le c.word
  have w2 := weight_le c'.word
  omega

/-! ## C141 -/

theorem Board.run_cons {S : Nat} {pf : Platform} {g : Nat → UInt8} {s t : Board} {x : BoardStep} {xs : List BoardStep} {os : List BoardOut}
    (h : s.run S pf g (x :: xs) = .ok (some (t, os))) : ∃ s' o os', s.step S pf g x = .ok (some (s', o)) ∧
      s'.run S pf g xs = .ok (some (t, os')) ∧ os = o :: os' := by
  rw [Board.run, Res.bind_eq_ok] at h
  obtain ⟨a, h1, h⟩ := h
  cases a with
  | none => simp at h
  | some a =>
    obtain ⟨s', o⟩ := a
    dsimp only at h
    rw [Res.bind_eq_ok] at h
    obtain ⟨b, h2, h⟩ := h
    cases b with
    | none => simp at h
    | some b =>
      obtain ⟨t', os'⟩ := b
      simp only [Res.ok.injEq, Option.some.injEq, Prod.mk.injEq] at h
      obtain ⟨rfl, rfl⟩ := h
      exact ⟨s', o, os', h1, h2, rfl⟩

theorem Board.run_nil {S : Nat} {pf : Platform} {g : Nat → UInt8} {s t : Board} {os : List BoardOut}
    (h : s.run S pf g [] = .ok (some (t, os))) : t = s ∧ os = [] := by
  simp only [Board.run, Res.ok.injEq, Option.some.injEq, Prod.mk.injEq] at h
  exact ⟨h.1.symm, h.2.symm⟩

theorem Board.after_ok {rx : RxSystem} {m : Option (TwoCores × TwoOut)} {b : Board} {o : BoardOut} (h : Board.after rx m = .ok (some (b, o))) :
    ∃ tm to, m = some (tm, to) ∧ b = { rx := rx, main := tm } ∧ o = { reports := to.reports, dropped := to.dropped, behind := rx.adc.behind } := by
  cases m with
  | none => simp [Board.after] at h
  | some m =>
    obtain ⟨tm, to⟩ := m
    simp only [Board.after, Res.ok.injEq, Option.some.injEq, Prod.mk.injEq] at h
    exact ⟨tm, to, rfl, h.1.symm, h.2.symm⟩

/-- What a step of the device does: to the receive side, and to the FIFO and the main loop. -/
theorem Board.step_ok {S : Nat} {pf : Platform} {g : Nat → UInt8} {s s' : Board} {x : BoardStep} {o : BoardOut} (h : s.step S pf g x = .ok (some (s', o))) :
    o.behind = s'.rx.adc.behind ∧
    ((∃ v, x = .convert v ∧ s' = { s with rx := { s.rx with adc := s.rx.adc.write v } } ∧ o.reports = [] ∧ o.dropped = false) ∨
    (∃ late c1, x = .receive late ∧ (s.rx.adc.idle = true → late = []) ∧ s.rx.step S (.iterate (decide (s.main.fifo.length < 8)) late) = .ok (s'.rx, some c1) ∧
      ((c1.word = none ∧ s'.main = s.main ∧ o.reports = [] ∧ o.dropped = false) ∨
        (∃ w to, c1.word = some w ∧ s.main.step pf g (.push w) = .ok (some (s'.main, to)) ∧ o.reports = to.reports ∧ o.dropped = to.dropped))) ∨
    (∃ y to, (x = .clear ∧ y = .clear ∨ (∃ e, x = .first e ∧ y = .first e) ∨ (∃ e, x = .second e ∧ y = .second e)) ∧ s'.rx = s.rx ∧
      s.main.step pf g y = .ok (some (s'.main, to)) ∧ o.reports = to.reports ∧ o.dropped = to.dropped)) := by
  have main : ∀ y, (s.main.step pf g y).bind (fun m => Board.after s.rx m) = .ok (some (s', o)) → o.behind = s'.rx.adc.behind ∧ s'.rx = s.rx ∧
      ∃ to, s.main.step pf g y = .ok (some (s'.main, to)) ∧ o.reports = to.reports ∧ o.dropped = to.dropped := by
    intro y h
    rw [show (s.main.step pf g y).bind (fun m => Board.after s.rx m) = (s.main.step pf g y >>= fun m => Board.after s.rx m) from rfl, Res.bind_eq_ok] at h
    obtain ⟨m, h1, h⟩ := h
    obtain ⟨tm, to, rfl, rfl, rfl⟩ := Board.after_ok h
    exact ⟨rfl, rfl, to, h1, rfl, rfl⟩
  cases x with
  | convert v =>
    rw [Board.step, Res.bind_eq_ok] at h
    obtain ⟨r, h1, h⟩ := h
    simp only [RxSystem.step, Res.ok.injEq] at h1
    subst h1
    obtain ⟨tm, to, e, rfl, rfl⟩ := Board.after_ok h
    simp only [Option.some.injEq, Prod.mk.injEq] at e
    obtain ⟨rfl, rfl⟩ := e
    exact ⟨rfl, .inl ⟨v, rfl, rfl, rfl, rfl⟩⟩
  | receive late =>
    rw [Board.step] at h
    split at h
    · simp at h
    rename_i hidle
    rw [Res.bind_eq_ok] at h
    obtain ⟨r, h1, h⟩ := h
    have hs : ∃ c1, r.2 = some c1 := by
      rw [RxSystem.step, Res.bind_eq_ok] at h1
      obtain ⟨⟨a, v⟩, -, h1⟩ := h1
      cases v with
      | none =>
        simp only at h1
        rw [Res.bind_eq_ok] at h1
        obtain ⟨c, -, h1⟩ := h1
        simp only [Res.ok.injEq] at h1
        exact ⟨_, by rw [← h1]⟩
      | some v =>
        simp only at h1
        split at h1 <;>
        · rw [Res.bind_eq_ok] at h1
          obtain ⟨c, -, h1⟩ := h1
          simp only [Res.ok.injEq] at h1
          exact ⟨_, by rw [← h1]⟩
    obtain ⟨c1, hc1⟩ := hs
    have hi : s.rx.adc.idle = true → late = [] := by
      intro hid
      by_cases hl : late = []
      · exact hl
      · exact absurd ⟨hid, hl⟩ hidle
    rw [hc1] at h
    have h1' : s.rx.step S (.iterate (decide (s.main.fifo.length < 8)) late) = .ok (r.1, some c1) := by rw [h1, ← hc1]
    cases hw : c1.word with
    | none =>
      simp only [Option.bind, hw] at h
      obtain ⟨tm, to, e, rfl, rfl⟩ := Board.after_ok h
      simp only [Option.some.injEq, Prod.mk.injEq] at e
      obtain ⟨rfl, rfl⟩ := e
      exact ⟨rfl, .inr (.inl ⟨late, c1, rfl, hi, h1', .inl ⟨hw, rfl, rfl, rfl⟩⟩)⟩
    | some w =>
      simp only [Option.bind, hw] at h
      rw [Res.bind_eq_ok] at h
      obtain ⟨m, h2, h⟩ := h
      obtain ⟨tm, to, rfl, rfl, rfl⟩ := Board.after_ok h
      exact ⟨rfl, .inr (.inl ⟨late, c1, rfl, hi, h1', .inr ⟨w, to, hw, h2, rfl, rfl⟩⟩)⟩
  | first e =>
    obtain ⟨m1, m2, to, m3, m4, m5⟩ := main (.first e) h
    exact ⟨m1, .inr (.inr ⟨.first e, to, .inr (.inl ⟨e, rfl, rfl⟩), m2, m3, m4, m5⟩)⟩
  | clear =>
    obtain ⟨m1, m2, to, m3, m4, m5⟩ := main .clear h
    exact ⟨m1, .inr (.inr ⟨.clear, to, .inl ⟨rfl, rfl⟩, m2, m3, m4, m5⟩)⟩
  | second e =>
    obtain ⟨m1, m2, to, m3, m4, m5⟩ := main (.second e) h
    exact ⟨m1, .inr (.inr ⟨.second e, to, .inr (.inr ⟨e, rfl, rfl⟩), m2, m3, m4, m5⟩)⟩

/-- Conversions that the main loop has not yet paid for by looking into the FIFO. -/
def BoardStep.owed (l : Nat) (x : BoardStep) : Nat := if x.looks then l - 230 else l + x.values.length

theorem owed_stretch (xs : List BoardStep) : ∃ a b, xs = a ++ b ∧ xs.foldl BoardStep.owed 0 + 230 * looksIn b ≤ (converted b).length := by
  have key : ∀ ys : List BoardStep, ∃ a b, ys.reverse = a ++ b ∧ ys.reverse.foldl BoardStep.owed 0 + 230 * looksIn b ≤ (converted b).length := by
    intro ys
    induction ys with
    | nil => exact ⟨[], [], rfl, by simp [looksIn, converted]⟩
    | cons x ys ih =>
      obtain ⟨a, b, e, h⟩ := ih
      rw [List.reverse_cons, List.foldl_append]
      show ∃ a' b', ys.reverse ++ [x] = a' ++ b' ∧ BoardStep.owed (ys.reverse.foldl BoardStep.owed 0) x + 230 * looksIn b' ≤ (converted b').length
      generalize ys.reverse.foldl BoardStep.owed 0 = l at *
      have hl : looksIn (b ++ [x]) = looksIn b + if x.looks then 1 else 0 := by
        unfold looksIn
        rw [List.countP_append, List.countP_cons, List.countP_nil, Nat.zero_add]
      have hc : (converted (b ++ [x])).length = (converted b).length + x.values.length := by simp [converted]
      unfold BoardStep.owed
      by_cases hx : x.looks = true
      · rw [if_pos hx]
        by_cases h230 : 230 ≤ l
        · refine ⟨a, b ++ [x], by rw [e, List.append_assoc], ?_⟩
          rw [hl, if_pos hx, hc]; omega
        · exact ⟨a ++ b ++ [x], [], by rw [e]; simp, by simp [looksIn, converted]; omega⟩
      · rw [if_neg hx]
        refine ⟨a, b ++ [x], by rw [e, List.append_assoc], ?_⟩
        rw [hl, if_neg hx, hc]; omega
  have := key xs.reverse
  rwa [List.reverse_reverse] at this

theorem FastEnough.owed {past rest : List BoardStep} (h : FastEnough (past ++ rest)) : past.foldl BoardStep.owed 0 ≤ 906 := by
  obtain ⟨a, b, e, h1⟩ := owed_stretch past
  have := h a b rest (by rw [e])
  omega

/-- What the states have in common while `l` conversions are owed. -/
structure Paid (S l : Nat) (b : Board) : Prop where
  rated : b.rx.core.Rated S
  at' : b.rx.adc.At
  err : b.rx.adc.err = false
  flag : b.main.fifoErr = false
  pay : b.rx.core.credit S + 2 * b.rx.core.word.weight + 692 * b.main.fifo.length + 3 * b.rx.adc.behind ≤ 3509 + 3 * l

theorem behind_init (ring : Nat → Int) (rxErr : Bool) (g : Nat → UInt8) (w0 : Word) (t0 t1 : Nat) : (Board.init ring rxErr g w0 t0 t1).rx.adc.behind = 0 := Nat.sub_self adcBlock

theorem Paid.init (S : Nat) (ring : Nat → Int) (rxErr : Bool) (g : Nat → UInt8) (w0 : Word) (t0 t1 : Nat) : Paid S 0 (Board.init ring rxErr g w0 t0 t1) := by
  refine ⟨.init S rxErr, Adc.At.restart _, rfl, rfl, ?_⟩
  have := (Core1.Rated.init S rxErr).bounds
  rw [behind_init]
  have h1 : (Board.init ring rxErr g w0 t0 t1).rx.core.word.weight = 0 := rfl
  have h2 : (Board.init ring rxErr g w0 t0 t1).main.fifo.length = 0 := rfl
  have h3 : (Board.init ring rxErr g w0 t0 t1).rx.core = Core1.init rxErr := rfl
  rw [h1, h2, h3]
  omega

/-- An iteration of core 1 that does not overrun. -/
theorem rx_iterate {S : Nat} {s s' : RxSystem} {ready : Bool} {late : List Int} {c1 : C1Out} (h : s.step S (.iterate ready late) = .ok (s', some c1))
    (ha : s.adc.At) (he : s.adc.err = false) (hb : s.adc.behind ≤ 254) :
    s'.adc.At ∧ s'.adc.err = false ∧ ∃ i : AdcIn, s.core.step S { ready := ready, adc := i } = .ok (s'.core, c1) ∧
      ((i = .none ∧ s'.adc.behind ≤ s.adc.behind) ∨ (∃ v, i = .sample v ∧ s'.adc.behind + 1 ≤ s.adc.behind + late.length)) := by
  rw [RxSystem.step, Res.bind_eq_ok] at h
  obtain ⟨⟨a, v⟩, h1, h⟩ := h
  obtain ⟨k1, k2, k3⟩ := ha.update he h1
  cases v with
  | none =>
    simp only at h
    rw [Res.bind_eq_ok] at h
    obtain ⟨⟨c, o1⟩, q, h⟩ := h
    simp only [Res.ok.injEq, Prod.mk.injEq, Option.some.injEq] at h
    obtain ⟨rfl, rfl⟩ := h
    exact ⟨k1, (k2 rfl).1, .none, q, .inl ⟨rfl, (k2 rfl).2⟩⟩
  | some v =>
    obtain ⟨k4, k5, k6⟩ := k3 v rfl
    have hb : s.adc.lag ≤ 254 := hb
    have ha : a.err = false := by rw [k4]; exact decide_eq_false (by omega)
    simp only [Adc.error, ha, Bool.false_eq_true, if_false] at h
    rw [Res.bind_eq_ok] at h
    obtain ⟨⟨c, o1⟩, q, h⟩ := h
    simp only [Res.ok.injEq, Prod.mk.injEq, Option.some.injEq] at h
    obtain ⟨rfl, rfl⟩ := h
    exact ⟨⟨k1.hw, k1.tc, k1.le, k1.wp, k1.off⟩, rfl, .sample v, q, .inr ⟨v, rfl, k6⟩⟩

theorem Paid.step {S : Nat} (hS : 9 ≤ S) {pf : Platform} {g : Nat → UInt8} {s s' : Board} {x : BoardStep} {o : BoardOut} {l : Nat}
    (h : s.step S pf g x = .ok (some (s', o))) (hp : Paid S l s) (hl : l ≤ 906) (hb : s.rx.adc.behind ≤ 254) (hb' : s'.rx.adc.behind ≤ 254) :
    Paid S (x.owed l) s' ∧ o.dropped = false := by
  obtain ⟨h1, h2, h3, h4, h5⟩ := hp
  have bd := h1.bounds
  have wt := weight_le s.rx.core.word
  obtain ⟨-, hc⟩ := Board.step_ok h
  rcases hc with ⟨v, rfl, rfl, -, hd⟩ | ⟨late, c1, rfl, -, hrx, hc⟩ | ⟨y, to, hy, hrx, hm, -, hd⟩
  · refine ⟨⟨h1, (h2.write v).1, by rw [← h3]; exact write_err _ _, h4, ?_⟩, hd⟩
    have := (h2.write v).2.1
    have : (s.rx.adc.write v).behind ≤ s.rx.adc.behind + 1 := this
    show s.rx.core.credit S + 2 * s.rx.core.word.weight + 692 * s.main.fifo.length + 3 * (s.rx.adc.write v).behind ≤ 3509 + 3 * (l + 1 : Nat)
    omega
  · obtain ⟨k1, k2, i, k3, k4⟩ := rx_iterate hrx h2 h3 hb
    obtain ⟨r1, r2, r3⟩ := rated_step hS k3 h1
    have hpay : s'.rx.core.credit S + 2 * s'.rx.core.word.weight + 3 * s'.rx.adc.behind ≤ s.rx.core.credit S + 3 * s.rx.adc.behind + 3 * late.length := by
      rcases k4 with ⟨rfl, k⟩ | ⟨v, rfl, k⟩
      · have r2 : s'.rx.core.credit S + 2 * s'.rx.core.word.weight ≤ s.rx.core.credit S + 0 := r2
        omega
      · have r2 : s'.rx.core.credit S + 2 * s'.rx.core.word.weight ≤ s.rx.core.credit S + 3 := r2
        omega
    rcases hc with ⟨e1, e2, -, hd⟩ | ⟨w, to, e1, e2, -, hd⟩
    · rw [r3] at e1
      have hw : s.rx.core.word = .zero := by
        split at e1
        · assumption
        · cases e1
      refine ⟨⟨r1, k1, k2, by rw [e2]; exact h4, ?_⟩, hd⟩
      rw [e2]
      show s'.rx.core.credit S + 2 * s'.rx.core.word.weight + 692 * s.main.fifo.length + 3 * s'.rx.adc.behind ≤ 3509 + 3 * (l + late.length : Nat)
      omega
    · rw [r3] at e1
      have hw : s.rx.core.word.weight = 346 := by
        unfold Word.weight
        split at e1
        · cases e1
        · rename_i hne; rw [if_neg hne]
      have hfull : s.main.fifo.length < 8 := by omega
      rw [TwoCores.step, if_pos hfull] at e2
      simp only [Res.ok.injEq, Option.some.injEq, Prod.mk.injEq] at e2
      obtain ⟨e2, rfl⟩ := e2
      refine ⟨⟨r1, k1, k2, by rw [← e2]; exact h4, ?_⟩, hd⟩
      have hlen : s'.main.fifo.length = s.main.fifo.length + 1 := by rw [← e2]; simp
      show s'.rx.core.credit S + 2 * s'.rx.core.word.weight + 692 * s'.main.fifo.length + 3 * s'.rx.adc.behind ≤ 3509 + 3 * (l + late.length : Nat)
      omega
  · rcases TwoCores.step_ok hm with ⟨w, rfl, -⟩ | ⟨w, rfl, -⟩ | ⟨e, c, rs, rfl, -, -, -, e2, e3⟩ | ⟨rfl, -, e2, e3⟩ | ⟨e, r, rfl, -, -, -, e2, e3⟩
    · rcases hy with ⟨-, h⟩ | ⟨e, -, h⟩ | ⟨e, -, h⟩ <;> cases h
    · rcases hy with ⟨-, h⟩ | ⟨e, -, h⟩ | ⟨e, -, h⟩ <;> cases h
    · have hx : x.owed l = l := by
        rcases hy with ⟨-, h⟩ | ⟨e, rfl, h⟩ | ⟨e, -, h⟩
        · cases h
        · rfl
        · cases h
      rw [hx]
      refine ⟨⟨by rw [hrx]; exact h1, by rw [hrx]; exact h2, by rw [hrx]; exact h3, by rw [e2]; exact h4, ?_⟩, by rw [hd, e3]⟩
      rw [hrx, e2]; exact h5
    · have hx : x.owed l = l := by
        rcases hy with ⟨rfl, -⟩ | ⟨e, -, h⟩ | ⟨e, -, h⟩
        · rfl
        · cases h
        · cases h
      rw [hx]
      refine ⟨⟨by rw [hrx]; exact h1, by rw [hrx]; exact h2, by rw [hrx]; exact h3, ?_, ?_⟩, by rw [hd, e3]⟩
      · rw [e2]; dsimp only; rw [h4]; split <;> rfl
      · rw [hrx, e2]; exact h5
    · have hx : x.owed l = l - 230 := by
        rcases hy with ⟨-, h⟩ | ⟨e, -, h⟩ | ⟨e, rfl, -⟩
        · cases h
        · cases h
        · rfl
      rw [hx]
      refine ⟨⟨by rw [hrx]; exact h1, by rw [hrx]; exact h2, by rw [hrx]; exact h3, by rw [e2]; exact h4, ?_⟩, by rw [hd, e3]⟩
      rw [hrx, e2]
      show s.rx.core.credit S + 2 * s.rx.core.word.weight + 692 * s.main.fifo.tail.length + 3 * s.rx.adc.behind ≤ 3509 + 3 * (l - 230 : Nat)
      rw [List.length_tail]
      omega

theorem paid_run {S : Nat} (hS : 9 ≤ S) {pf : Platform} {g : Nat → UInt8} : ∀ (xs past : List BoardStep) {s t : Board} {os : List BoardOut},
    s.run S pf g xs = .ok (some (t, os)) → FastEnough (past ++ xs) → Paid S (past.foldl BoardStep.owed 0) s → s.rx.adc.behind ≤ 254 → (∀ o ∈ os, o.behind ≤ 254) →
    Paid S ((past ++ xs).foldl BoardStep.owed 0) t ∧ t.rx.adc.behind ≤ 254 ∧ ∀ o ∈ os, o.dropped = false := by
  intro xs
  induction xs with
  | nil =>
    intro past s t os h _ hp hb _
    obtain ⟨rfl, rfl⟩ := Board.run_nil h
    rw [List.append_nil]
    exact ⟨hp, hb, fun o ho => (by cases ho)⟩
  | cons x xs ih =>
    intro past s t os h hf hp hb hbs
    obtain ⟨s', o, os', h1, h2, rfl⟩ := Board.run_cons h
    have hb' : s'.rx.adc.behind ≤ 254 := by rw [← (Board.step_ok h1).1]; exact hbs o (List.mem_cons_self ..)
    obtain ⟨p1, p2⟩ := hp.step hS h1 hf.owed hb hb'
    have e : past ++ x :: xs = past ++ [x] ++ xs := by simp
    rw [e] at hf ⊢
    obtain ⟨q1, q2, q3⟩ := ih (past ++ [x]) h2 hf (by rw [List.foldl_append]; exact p1) hb' (fun o ho => hbs o (List.mem_cons_of_mem _ ho))
    refine ⟨q1, q2, fun o ho => ?_⟩
    rcases List.mem_cons.mp ho with rfl | ho
    · exact p2
    · exact q3 o ho

/-- **C141.** Whatever the bus carries, for every interleaving of conversions, iterations of the receive core and parts of iterations of the main loop, from the start: if the receive
core is never more than 254 conversions behind and the main loop is fast enough (in every stretch of the history it looks into the FIFO once for 230 conversions, apart from 906
conversions), then no word is ever dropped, `FifoErr` is never set, and there are never more than 8 words in the FIFO. -/
theorem C141_no_overflow {S : Nat} (hS : 9 ≤ S) (ring : Nat → Int) (rxErr : Bool) (pf : Platform) (g : Nat → UInt8) (w0 : Word) (t0 t1 : Nat) (xs : List BoardStep) (b : Board)
    (os : List BoardOut) (h : (Board.init ring rxErr g w0 t0 t1).run S pf g xs = .ok (some (b, os))) (hb : ∀ o ∈ os, o.behind ≤ 254) (hf : FastEnough xs) :
    (∀ o ∈ os, o.dropped = false) ∧ b.main.fifoErr = false ∧ b.main.fifo.length ≤ 8 := by
  obtain ⟨p, -, p2⟩ := paid_run hS xs [] h hf (Paid.init S ring rxErr g w0 t0 t1) (by rw [behind_init]; decide) hb
  refine ⟨p2, p.flag, ?_⟩
  have h1 := p.pay
  have h2 := p.rated.bounds
  have h3 := weight_le b.rx.core.word
  have h4 : xs.foldl BoardStep.owed 0 ≤ 906 := FastEnough.owed (rest := []) (by rw [List.append_nil]; exact hf)
  rw [List.nil_append] at h1
  omega

end P1P2
