import Verif.Model.Adc
import Verif.Proofs.RxChain
/-!
# The receive core never leaves defined behaviour
-/
namespace P1P2

/-- Bounds of the signal chain up to the DC blocker. -/
structure FrontOk (c : RxFront) : Prop where
  reg : ∃ w, c.fir.reg.Win 7 w ∧ ∀ i < 7, -9984 ≤ w i ∧ w i ≤ 9984
  coeff : c.fir.coeff.Win 7 firCoeff
  x : -(256 * 12978) ≤ c.dc.x ∧ c.dc.x ≤ 256 * 12978
  y : -(256 * 12978 + 128) ≤ c.dc.y - c.dc.x ∧ c.dc.y - c.dc.x ≤ 256 * 12978 + 128

theorem FrontOk.init : FrontOk RxFront.init :=
  ⟨⟨_, ShiftReg.Win.zero (by decide), fun i _ => by omega⟩, ShiftReg.Win.mk' (by decide) _, by decide, by decide⟩

theorem slide_bound {N : Nat} {w : Nat → Int} {x B : Int} (hw : ∀ i < N, -B ≤ w i ∧ w i ≤ B) (hx : -B ≤ x ∧ x ≤ B) :
    ∀ i < N, -B ≤ slide N w x i ∧ slide N w x i ≤ B := by
  intro i hi
  unfold slide
  split
  · exact hw _ (by omega)
  · exact hx

theorem FrontOk.step {c : RxFront} (h : FrontOk c) {v : Int} (hv : -9984 ≤ v ∧ v ≤ 9984) :
    ∃ c' o, c.step v = .ok (c', o) ∧ FrontOk c' ∧ ∀ a, o = some a → -25957 ≤ a ∧ a ≤ 25957 := by
  obtain ⟨w, hw, hb⟩ := h.reg
  obtain ⟨r, h1, h2⟩ := hw.update v
  have hs := slide_bound hb hv
  have hc := convolute_ok h2 h.coeff (fun i hi => by have := hs i hi; omega)
  generalize hw' : slide 7 w v = w' at *
  have b0 := hs 0 (by decide); have b1 := hs 1 (by decide); have b2 := hs 2 (by decide); have b3 := hs 3 (by decide)
  have b4 := hs 4 (by decide); have b5 := hs 5 (by decide); have b6 := hs 6 (by decide)
  generalize hacc : -2339 * (w' 6 + w' 0) + 1817 * (w' 5 + w' 1) + 9984 * (w' 4 + w' 2) + 14313 * w' 3 = acc at *
  have hfo : -12978 ≤ acc / 32768 ∧ acc / 32768 ≤ 12978 := by omega
  have hfir : c.fir.update v = .ok ({ c.fir with reg := r }, acc / 32768) := by
    simp only [Fir.update, h1, Res.ok_bind, hc]
  by_cases hcnt : c.rs.counter = 0
  · obtain ⟨d', e1, e2, e3, e4, e5⟩ := dc_step (d := c.dc) (M := 12978) (by decide) hfo h.x h.y
    refine ⟨⟨{ c.fir with reg := r }, (c.rs.update (acc / 32768)).1, d'⟩, some (d'.y / 256), ?_, ⟨⟨w', h2, hs⟩, h.coeff, ?_, ?_⟩, ?_⟩
    · simp only [RxFront.step, hfir, Res.ok_bind, Resample.update, hcnt, if_true, e1]
    · show -(256 * 12978) ≤ d'.x ∧ d'.x ≤ 256 * 12978
      omega
    · exact ⟨e4, e5⟩
    · intro a ha
      simp only [Option.some.injEq] at ha
      omega
  · refine ⟨⟨{ c.fir with reg := r }, (c.rs.update (acc / 32768)).1, c.dc⟩, none, ?_, ⟨⟨w', h2, hs⟩, h.coeff, h.x, h.y⟩,
      fun a ha => by cases ha⟩
    simp only [RxFront.step, hfir, Res.ok_bind, Resample.update, hcnt, if_false]

/-- Bounds of the chain behind it. -/
structure BackOk (S : Nat) (c : RxBack) : Prop where
  bit : ∃ w, c.bit.Win 16 w ∧ ∀ i < 16, -25957 ≤ w i ∧ w i ≤ 25957
  uart : c.uart.Ok S .even

theorem BackOk.init (S : Nat) : BackOk S RxBack.init :=
  ⟨⟨_, BitDetect.Win.zero (by decide) _ _ _, fun i _ => by omega⟩, Uart.Ok.init _⟩

theorem BackOk.detect {S : Nat} {c : RxBack} (h : BackOk S c) {a : Int} (ha : -25957 ≤ a ∧ a ≤ 25957) :
    ∃ c' p, c.detect a = .ok (c', p) ∧ BackOk S c' ∧ c'.uart = c.uart := by
  have hl : ∃ s v, c.level.update a = .ok (s, v) ∧ -25957 ≤ v ∧ v ≤ 25957 := by
    unfold LevelSt.update
    cases c.level.next a
    · dsimp only
      rw [i32_ok (by omega) (by omega)]
      exact ⟨_, _, rfl, by omega, by omega⟩
    · exact ⟨_, _, rfl, ha⟩
    · exact ⟨_, _, rfl, ha⟩
  obtain ⟨s, v, h1, h2⟩ := hl
  obtain ⟨w, hw, hb⟩ := h.bit
  obtain ⟨b', e1, e2, -⟩ := hw.update v (by decide) hb h2
  refine ⟨{ c with level := s, bit := b' }, P1P2.detect 16 c.bit.level (slide 16 w v), ?_, ⟨⟨slide 16 w v, e2, slide_bound hb h2⟩, h.uart⟩, rfl⟩
  simp only [RxBack.detect, h1, Res.ok_bind, e1]

theorem BackOk.decode {S : Nat} (hS : 8 ≤ S) {c : RxBack} (h : BackOk S c) (err : Bool) (p : Int) :
    ∃ u o, c.uart.step S err p = .ok (u, o) ∧ c.decode S err p = .ok ({ c with uart := u }, o) ∧ BackOk S { c with uart := u } := by
  obtain ⟨u, o, h1, h2⟩ := h.uart.step hS err p
  refine ⟨u, o, h1, ?_, ⟨h.bit, h2⟩⟩
  unfold Uart.step at h1
  simp only [RxBack.decode, h1, Res.ok_bind]

/-- Invariant of the receive core. -/
structure Core1.Ok (S : Nat) (c : Core1) : Prop where
  front : FrontOk c.front
  back : BackOk S c.back

theorem Core1.Ok.init (S : Nat) (e : Bool) : Core1.Ok S (Core1.init e) := ⟨FrontOk.init, BackOk.init S⟩

theorem busyStep_front (c : Core1) (r : Bool) : (c.busyStep r).front = c.front ∧ (c.busyStep r).back = c.back ∧
    (c.busyStep r).rxErr = c.rxErr := by
  unfold Core1.busyStep
  split
  · split <;> exact ⟨rfl, rfl, rfl⟩
  · split
    · split <;> exact ⟨rfl, rfl, rfl⟩
    · exact ⟨rfl, rfl, rfl⟩

/-- Add a UART result to the word. -/
def Word.addResult (w : Word) : Option (UInt8 × Bool) → Word
  | none => w
  | some (b, e) => { w with rxChar := b, rxError := e, rxValid := !e }

theorem Core1.Ok.ac {S : Nat} (hS : 8 ≤ S) {c : Core1} (h : c.Ok S) {a : Int} (ha : -25957 ≤ a ∧ a ≤ 25957) :
    ∃ c' o, c.ac S a = .ok c' ∧ c'.Ok S ∧ c.back.step S c.rxErr a = .ok (c'.back, o) ∧
      c'.busy = (c.busyStep c.back.uart.receiving).busy ∧ c'.idle = (c.busyStep c.back.uart.receiving).idle ∧
      c'.word = ((c.busyStep c.back.uart.receiving).word.addResult o) ∧ c'.front = c.front := by
  obtain ⟨d, p, d1, d2, d3⟩ := h.back.detect ha
  obtain ⟨u, o, u1, u2, u3⟩ := d2.decode hS c.rxErr p
  have hb := busyStep_front { c with back := d } d.uart.receiving
  have hbusy : ∀ r, (Core1.busyStep { c with back := d } r).busy = (c.busyStep r).busy ∧
      (Core1.busyStep { c with back := d } r).idle = (c.busyStep r).idle ∧
      (Core1.busyStep { c with back := d } r).word = (c.busyStep r).word := by
    intro r
    unfold Core1.busyStep
    dsimp only
    split
    · split <;> exact ⟨rfl, rfl, rfl⟩
    · split
      · split <;> exact ⟨rfl, rfl, rfl⟩
      · exact ⟨rfl, rfl, rfl⟩
  rw [d3] at hb
  obtain ⟨q1, q2, q3⟩ := hbusy c.back.uart.receiving
  have hst : c.back.step S c.rxErr a = .ok ({ d with uart := u }, o) := by
    simp only [RxBack.step, d1, Res.ok_bind, u2]
  unfold Core1.ac
  simp only [d1, Res.ok_bind, d3]
  rw [hb.2.1, hb.2.2]
  dsimp only
  rw [u2]
  simp only [Res.ok_bind]
  cases o with
  | none => exact ⟨_, none, rfl, ⟨by rw [show (_ : Core1).front = _ from hb.1]; exact h.front, u3⟩, hst, q1, q2, q3, hb.1⟩
  | some r =>
    obtain ⟨b, e⟩ := r
    refine ⟨_, some (b, e), rfl, ⟨by rw [show (_ : Core1).front = _ from hb.1]; exact h.front, u3⟩, hst, q1, q2, ?_, hb.1⟩
    show _ = ((c.busyStep c.back.uart.receiving).word.addResult (some (b, e)))
    rw [← q3]; rfl

/-- One sample. -/
theorem Core1.Ok.sample {S : Nat} (hS : 8 ≤ S) {c : Core1} (h : c.Ok S) {v : Int} (hv : -9984 ≤ v ∧ v ≤ 9984) :
    ∃ c', c.sample S v = .ok c' ∧ c'.Ok S := by
  obtain ⟨f, o, f1, f2, f3⟩ := h.front.step hv
  unfold Core1.sample
  simp only [f1, Res.ok_bind]
  cases o with
  | none => exact ⟨_, rfl, f2, h.back⟩
  | some a =>
    obtain ⟨c', o, q1, q2, -⟩ := Core1.Ok.ac hS (c := { c with front := f }) ⟨f2, h.back⟩ (f3 a rfl)
    exact ⟨c', q1, q2⟩

theorem Core1.Ok.send {S : Nat} {c : Core1} (h : c.Ok S) (r : Bool) : (c.send r).1.Ok S := by
  unfold Core1.send
  split
  · exact ⟨h.front, h.back⟩
  · exact h

/-- The ADC delivered a value it can deliver. -/
def AdcIn.InRange : AdcIn → Prop
  | .sample v => -9984 ≤ v ∧ v ≤ 9984
  | _ => True

theorem Core1.Ok.step {S : Nat} (hS : 8 ≤ S) {c : Core1} (h : c.Ok S) {i : C1In} (hi : i.adc.InRange) :
    ∃ c' o, c.step S i = .ok (c', o) ∧ c'.Ok S := by
  have hs := h.send i.ready
  unfold Core1.step
  cases ha : i.adc with
  | none => exact ⟨_, _, rfl, hs⟩
  | error => exact ⟨_, _, rfl, ⟨hs.front, hs.back⟩⟩
  | sample v =>
    rw [ha] at hi
    obtain ⟨c', q1, q2⟩ := hs.sample hS hi
    simp only [q1, Res.ok_bind]
    exact ⟨_, _, rfl, q2⟩

end P1P2
