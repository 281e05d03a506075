import Verif.Proofs.HealRun
import Verif.Props.Overrun
/-!
# The receive side after any history: core 1 as a whole
-/
namespace P1P2

theorem front_append : ∀ (xs ys : List Int) {f f1 f2 : RxFront} {o1 o2 : List Int}, RxFront.run f xs = .ok (f1, o1) → RxFront.run f1 ys = .ok (f2, o2) →
    RxFront.run f (xs ++ ys) = .ok (f2, o1 ++ o2) := by
  intro xs
  induction xs with
  | nil =>
    intro ys f f1 f2 o1 o2 h1 h2
    simp only [RxFront.run, Res.ok.injEq, Prod.mk.injEq] at h1
    obtain ⟨rfl, rfl⟩ := h1
    exact h2
  | cons x xs ih =>
    intro ys f f1 f2 o1 o2 h1 h2
    rw [RxFront.run, Res.bind_eq_ok] at h1
    obtain ⟨⟨f3, o3⟩, q1, h1⟩ := h1
    rw [Res.bind_eq_ok] at h1
    obtain ⟨⟨f4, o4⟩, q2, h1⟩ := h1
    simp only [Res.ok.injEq, Prod.mk.injEq] at h1
    obtain ⟨rfl, rfl⟩ := h1
    simp only [List.cons_append, RxFront.run, q1, Res.ok_bind, ih ys q2 h2, List.append_assoc]

theorem rx_run_ok {S : Nat} (hS : 8 ≤ S) : ∀ (es : List RxEv) {s : RxSystem}, s.adc.Ok → s.core.Ok S → (∀ e ∈ es, e.InRange) →
    ∃ s' outs, s.run S es = .ok (s', outs) := by
  intro es
  induction es with
  | nil => intro s _ _ _; exact ⟨s, [], rfl⟩
  | cons e es ih =>
    intro s ha hc he
    obtain ⟨s1, o, h1, h2, h3⟩ := rx_step_ok hS ha hc (he e (List.mem_cons_self ..))
    obtain ⟨s2, l, h4⟩ := ih h2 h3 fun x hx => he x (List.mem_cons_of_mem _ hx)
    exact ⟨s2, o.toList ++ l, by rw [RxSystem.run, h1, Res.ok_bind, h4]; rfl⟩

theorem keepsUp_lag : ∀ (es : List AdcEv) {W D : Nat}, keepsUp 254 W D es → 0 < deliveries W D es → W ≤ D + 254 := by
  intro es
  induction es with
  | nil => intro W D _ h; exact absurd h (by show ¬ 0 < 0; omega)
  | cons e es ih =>
    intro W D hk hd
    cases e with
    | write =>
      have := ih hk.2 hd
      omega
    | poll n =>
      by_cases h : W = D
      · omega
      · simp only [keepsUp, if_neg h] at hk
        omega

theorem scheduleEvents_congr {h h' : Nat → Int} : ∀ (es : List (AdcEv × Bool)) {W D : Nat}, (∀ k, W ≤ k → h k = h' k) →
    scheduleEvents h W D es = scheduleEvents h' W D es := by
  intro es
  induction es with
  | nil => intro W D _; rfl
  | cons e es ih =>
    intro W D hh
    obtain ⟨e, r⟩ := e
    cases e with
    | write => simp only [scheduleEvents]; rw [hh W (Nat.le_refl _), ih fun k hk => hh k (by omega)]
    | poll n =>
      simp only [scheduleEvents]
      rw [ih hh, ih (W := W + n) fun k hk => hh k (by omega)]
      rw [show nextSamples h W n = nextSamples h' W n from List.map_congr_left fun i _ => hh _ (by omega)]

/-- The state behind the DC blocker after any samples. -/
theorem hist_tail {S : Nat} (hS : 8 ≤ S) {z : Nat → Int} (hz : ∀ k, -80000000 ≤ z k ∧ z k ≤ 80000000) (e : Bool) (n : Nat) :
    ∃ t tr, (C1Tail.init e).run S (segment z 0 n) = .ok (t, tr) ∧ BackInv z n t.back ∧ t.back.uart.Ok S .even ∧ 0 ≤ t.idle ∧ t.idle ≤ 176 := by
  obtain ⟨u, l, f, o, -⟩ := (Uart.Ok.init (S := S) .even).feed hS false (fun i => detStream (past (levelOut z)) (0 + i)) n
  have hb : BackInv z 0 (C1Tail.init e).back := backInv_init z
  obtain ⟨t, tr, k1, k2, k3, k4, -⟩ := tail_of_uart hS hz (t := C1Tail.init e) hb (Uart.Ok.init _) false n (u' := u) f
  rw [Nat.zero_add] at k3
  exact ⟨t, tr, k1, k3, k2 ▸ k4, idle_run _ k1 (by show (0 : Int) ≤ 176 ∧ (176 : Int) ≤ 176; decide)⟩

theorem range_split (z : Nat → Int) {m n : Nat} (h : m ≤ n) : (List.range n).map z = (List.range m).map z ++ segment z m (n - m) := by
  have e : n = m + (n - m) := by omega
  have := segment_split z 0 m (n - m)
  rw [← e] at this
  simpa [segment] using this

/-- Core 1: history 1, history 2 (since a result of the UART), new samples. -/
theorem heal_core {S : Nat} (hS : 8 ≤ S) {rxErr : Bool} {is1 is2 is3 : List C1In} {c1 c2 c3 : Core1} {o1 o2 o3 : List C1Out}
    (r1 : (Core1.init rxErr).run S is1 = .ok (c1, o1)) (r2 : c1.run S is2 = .ok (c2, o2)) (r3 : c2.run S is3 = .ok (c3, o3))
    {v : Nat → Int} (hv : ∀ k, -9984 ≤ v k ∧ v k ≤ 9984)
    (hs : samplesOf is1 ++ samplesOf is2 ++ samplesOf is3 = (List.range ((samplesOf is1).length + (samplesOf is2).length + (samplesOf is3).length)).map v)
    (hfr : Aged S 0 c1.back.uart)
    {a : Int} (h1 : 49 ≤ a) (h2 : a ≤ 88) {L : Nat → Level} {b N M : Nat} (hbN : b + N = (samplesOf is1).length + (samplesOf is2).length + (samplesOf is3).length)
    (hm : MvFrom a L v b) {ps : List BusPacket} (hp : ∀ p ∈ ps, p.RawOk) (hc : RawCarries L b (byteFrames (ps.flatMap BusPacket.frames)))
    (hg : ∀ x ∈ ps.flatMap BusPacket.frames, x.1 ≤ M) (hgap : GapFrom 1920 (ps.flatMap BusPacket.frames))
    (hb : (samplesOf is1).length + (samplesOf is2).length ≤ b)
    (hage : (samplesOf is2).length + (b - ((samplesOf is1).length + (samplesOf is2).length)) + M + 1936 ≤ 2 * 2 ^ S) (hN0 : 1920 ≤ N)
    (hN : rawEnd 0 (byteFrames (ps.flatMap BusPacket.frames)) + 378 ≤ N)
    (hN' : N ≤ rawEnd 0 (byteFrames (ps.flatMap BusPacket.frames)) + M) (herr : ∀ i ∈ is3, i.adc ≠ .error) :
    ∃ Y, sent o3 ++ (if c3.word = .zero then [] else [c3.word]) = (if c2.word = .zero then [] else [c2.word]) ++ Y ++ ps.flatMap BusPacket.outWords ∧
      ((Y = [] ∧ c2.busy = false) ∨ ∃ Y', Y = Y' ++ [wFree]) := by
  obtain ⟨xs1, tr1, f1, t1, -⟩ := run_ac _ r1
  obtain ⟨xs2, tr2, f2, t2, -⟩ := run_ac _ r2
  obtain ⟨xs3, tr3, f3, t3, w3⟩ := run_ac _ r3
  generalize hK1 : (samplesOf is1).length = K1 at *
  generalize hK2 : (samplesOf is2).length = K2 at *
  generalize hK3 : (samplesOf is3).length = K3 at *
  have hz : ∀ k, -80000000 ≤ dcRef (decimated v) k ∧ dcRef (decimated v) k ≤ 80000000 := by
    intro k
    have := (C38_bounded (decimated v) 12978 (by decide) (fun n => fir_bound hv (2 * n)) k).2
    omega
  generalize hzz : dcRef (decimated v) = z at *
  have hs12 : samplesOf is1 ++ samplesOf is2 = (List.range (K1 + K2)).map v := by
    have := congrArg (List.take (K1 + K2)) hs
    rw [List.take_left' (by rw [List.length_append, hK1, hK2]), ← List.map_take, List.take_range, Nat.min_eq_left (by omega)] at this
    exact this
  have hs1 : samplesOf is1 = (List.range K1).map v := by
    have := congrArg (List.take K1) hs12
    rw [List.take_left' hK1, ← List.map_take, List.take_range, Nat.min_eq_left (by omega)] at this
    exact this
  -- the outputs of the front
  have front : ∀ {xs : List Int} {f : RxFront} {o : List Int} (n : Nat), xs = (List.range n).map v → RxFront.run .init xs = .ok (f, o) →
      o = (List.range ((n + 1) / 2)).map z := by
    intro xs f o n hx hr
    obtain ⟨f', e⟩ := front_run hv n
    rw [hx, e, hzz] at hr
    simp only [Res.ok.injEq, Prod.mk.injEq] at hr
    exact hr.2.symm
  have e1 := front K1 hs1 f1
  have f12 := front_append _ _ f1 f2
  have e12 := front (K1 + K2) hs12 f12
  have e123 := front (K1 + K2 + K3) hs (front_append _ _ f12 f3)
  have l1 : xs1.length = (K1 + 1) / 2 := by rw [e1]; simp
  have l2 : xs2.length = (K1 + K2 + 1) / 2 - (K1 + 1) / 2 := by
    have := congrArg List.length e12
    simp at this
    omega
  have e3 : xs3 = segment z ((K1 + K2 + 1) / 2) ((b + N + 1) / 2 - (K1 + K2 + 1) / 2) := by
    rw [hbN]
    rw [e12, range_split z (show (K1 + K2 + 1) / 2 ≤ (K1 + K2 + K3 + 1) / 2 by omega)] at e123
    exact List.append_cancel_left e123
  -- the state after the history
  have t12 : (C1Tail.init rxErr).run S (xs1 ++ xs2) = .ok (c2.tail, tr1 ++ tr2) := tail_run_append _ _ t1 t2
  obtain ⟨t, tr, k1, k2, k3, k4, k5⟩ := hist_tail hS hz rxErr ((K1 + K2 + 1) / 2)
  have hseg : segment z 0 ((K1 + K2 + 1) / 2) = xs1 ++ xs2 := by rw [e12]; simp [segment]
  rw [hseg, t12] at k1
  simp only [Res.ok.injEq, Prod.mk.injEq] at k1
  rw [← k1.1] at k2 k3 k4 k5
  obtain ⟨tt, trt, j1, j2, j3, -, -⟩ := hist_tail hS hz rxErr ((K1 + 1) / 2)
  have hseg1 : segment z 0 ((K1 + 1) / 2) = xs1 := by rw [e1]; simp [segment]
  have t1 : (C1Tail.init rxErr).run S xs1 = .ok (c1.tail, tr1) := t1
  rw [hseg1, t1] at j1
  simp only [Res.ok.injEq, Prod.mk.injEq] at j1
  rw [← j1.1] at j2 j3
  have hag : Aged S (0 + xs2.length) c2.tail.back.uart := Aged.tail hS xs2 t2 hfr j3 (by omega)
  subst hzz
  obtain ⟨t', tr', Y, q1, q2, q3⟩ := heal_run hS h1 h2 hv hm hp hc hg hgap (m1 := (K1 + K2 + 1) / 2) (by omega) k2 k3 hag ⟨k4, k5⟩ (by omega) hN0 hN hN'
  rw [← e3, t3] at q1
  simp only [Res.ok.injEq, Prod.mk.injEq] at q1
  rw [← q1.2] at q2
  have := w3 (fun w => if w = .zero then [] else [w]) (if_pos rfl) (Or.inr herr)
  have hflat : ∀ l : List Word, l.flatMap (fun w => if w = .zero then [] else [w]) = nonzero l := by
    intro l
    induction l with
    | nil => rfl
    | cons w l ih =>
      rw [List.flatMap_cons, ih]
      unfold nonzero
      by_cases hw : w = .zero
      · rw [if_pos hw, List.filter_cons_of_neg (by simpa using hw)]; rfl
      · rw [if_neg hw, List.filter_cons_of_pos (by simpa using hw)]; rfl
  rw [hflat, hflat, q2] at this
  have hzs : nonzero (sent o3) = sent o3 := by
    unfold nonzero
    rw [List.filter_eq_self]
    intro w hw
    simpa using sent_nonzero _ r3 w hw
  rw [hzs] at this
  exact ⟨Y, by rw [this, List.append_assoc], q3⟩

end P1P2
