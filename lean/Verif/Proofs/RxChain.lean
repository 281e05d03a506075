import Verif.Model.Core1
import Verif.Proofs.RxFrame
/-!
# The receive chain behaves as the composition of its blocks
-/
namespace P1P2

/-- State of level and bit detector after `n` samples. -/
structure BackInv (x : Nat → Int) (n : Nat) (c : RxBack) : Prop where
  lev : c.level = levelBefore x n
  det : DetInv (levelOut x) n c.bit

theorem backInv_init (x : Nat → Int) : BackInv x 0 RxBack.init := ⟨rfl, detInv_init _⟩

theorem levelOut_bound {x : Nat → Int} {B : Int} (hx : ∀ k, -B ≤ x k ∧ x k ≤ B) (k : Nat) :
    -B ≤ levelOut x k ∧ levelOut x k ≤ B := by
  have := hx k
  unfold levelOut
  split <;> omega

theorem backInv_detect {x : Nat → Int} (hx : ∀ k, -80000000 ≤ x k ∧ x k ≤ 80000000) {n : Nat} {c : RxBack}
    (h : BackInv x n c) : ∃ c', c.detect (x n) = .ok (c', detStream (past (levelOut x)) n) ∧ BackInv x (n + 1) c' ∧
      c'.uart = c.uart := by
  have hl : c.level.update (x n) = .ok (levelAt x n, levelOut x n) := by
    have hv := hx n
    rw [h.lev, LevelSt.update, ← levelAt_eq]
    unfold levelOut
    cases levelAt x n
    · simp only [if_true]
      rw [i32_ok (by omega) (by omega)]; rfl
    · rfl
    · rfl
  obtain ⟨b', h1, h2⟩ := detInv_step (B := 80000000) (by decide) (levelOut_bound hx) h.det
  refine ⟨{ c with level := levelAt x n, bit := b' }, ?_, ⟨rfl, h2⟩, rfl⟩
  simp only [RxBack.detect, hl, h1, Res.ok_bind]
  rfl

/-- The chain is the UART behind the detector. -/
theorem back_feed {S : Nat} {err : Bool} {x : Nat → Int} (hx : ∀ k, -80000000 ≤ x k ∧ x k ≤ 80000000) (n : Nat) :
    ∀ {u : Uart} {l}, feed (Uart.step S err) (Uart.init .even) (detStream (past (levelOut x))) n = .ok (u, l) →
      ∃ c, feed (RxBack.step S err) RxBack.init x n = .ok (c, l) ∧ c.uart = u ∧ BackInv x n c := by
  induction n with
  | zero =>
    intro u l h
    simp only [feed, Res.ok.injEq, Prod.mk.injEq] at h
    exact ⟨RxBack.init, by rw [← h.2]; rfl, h.1, backInv_init x⟩
  | succ n ih =>
    intro u l h
    rw [feed] at h
    rw [Res.bind_eq_ok] at h
    obtain ⟨⟨u1, l1⟩, h1, h2⟩ := h
    rw [Res.bind_eq_ok] at h2
    obtain ⟨⟨u2, o2⟩, h2, h3⟩ := h2
    simp only [Res.ok.injEq, Prod.mk.injEq] at h3
    obtain ⟨c, e1, e2, e3⟩ := ih h1
    obtain ⟨c', d1, d2, d3⟩ := backInv_detect hx e3
    refine ⟨{ c' with uart := u2 }, ?_, h3.1, ⟨d2.lev, d2.det⟩⟩
    refine (feed_snoc (o := o2) e1 ?_).trans (by rw [← h3.2])
    simp only [RxBack.step, d1, Res.ok_bind, RxBack.decode, d3, e2]
    unfold Uart.step at h2
    simp only at h2
    rw [h2]; rfl

end P1P2
