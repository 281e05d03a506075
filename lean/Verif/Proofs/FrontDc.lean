import Verif.Spec.Raw
import Verif.Proofs.ShapeRun
/-!
# The DC blocker on frames
-/
namespace P1P2

/-! ## The baseline of the DC blocker -/

/-- 256 times the difference of input and output. -/
def dcB (x : Nat → Int) (n : Nat) : Int := 256 * x n - dcState x (n + 1)

theorem dcB_zero (x : Nat → Int) : dcB x 0 = 0 := by
  simp [dcB, dcState, past]

theorem dcB_succ (x : Nat → Int) (n : Nat) :
    512 * x n + 254 * dcB x n - 255 ≤ 256 * dcB x (n + 1) ∧ 256 * dcB x (n + 1) ≤ 512 * x n + 254 * dcB x n + 255 := by
  have h : dcState x (n + 1 + 1) = 256 * (x (n + 1) - x n) + 254 * dcState x (n + 1) / 256 := by
    rw [dcState]
    have : past x (((n + 1 : Nat) : Int) - 1) = x n := by
      unfold past
      rw [if_neg (by omega), show (((n + 1 : Nat) : Int) - 1).toNat = n by omega]
    rw [this]
  unfold dcB
  rw [h]
  generalize dcState x (n + 1) = y
  omega

theorem dcRef_eq (x : Nat → Int) (n : Nat) : x n - (dcB x n + 255) / 256 ≤ dcRef x n ∧ dcRef x n ≤ x n - dcB x n / 256 := by
  unfold dcRef dcB
  generalize dcState x (n + 1) = y
  omega

/-- One step of an upper bound. -/
theorem base_step {A B B' x β κ β' : Int} (hA : 0 ≤ A) (hB : 1024 * B ≤ β * A + 17563648) (hx : 1024 * x ≤ κ * A + 67584)
    (hs : 256 * B' ≤ 512 * x + 254 * B + 255) (hβ : 254 * β + 512 * κ ≤ 256 * β') : 1024 * B' ≤ β' * A + 17563648 := by
  have h : (254 * β + 512 * κ) * A ≤ 256 * β' * A := Int.mul_le_mul_of_nonneg_right hβ hA
  rw [Int.add_mul, Int.mul_assoc, Int.mul_assoc, Int.mul_assoc] at h
  generalize β * A = p at *
  generalize κ * A = q at *
  generalize β' * A = r at *
  omega

/-- Rounded up decay of a bound. -/
def decay (β : Int) : Int := (254 * β + 255) / 256

/-! ## Symbols in front of the DC blocker -/

/-- Weighted sum of the nine latest levels. -/
def nine (u : Nat → Int) (k : Nat) : Int :=
  -2339 * u (k + 8) - 2861 * u (k + 7) + 11279 * u (k + 6) + 36098 * u (k + 5) + 48594 * u (k + 4) + 36098 * u (k + 3) +
    11279 * u (k + 2) - 2861 * u (k + 1) - 2339 * u k

/-- The response to a pulse of one symbol that starts at code `d` and ends before code `16 + e`. -/
def response (d e i : Nat) : Int :=
  nine (fun j => if 8 + d ≤ 2 * i + j ∧ 2 * i + j < 24 + e then 1 else 0) 0

/-- The pulses that occur: 14 to 16 codes, up to three codes late. -/
def OffsOk (d e : Nat) : Prop := e ≤ d ∧ d ≤ e + 2 ∧ d ≤ 3

instance (d e : Nat) : Decidable (OffsOk d e) := by unfold OffsOk; exact inferInstance

theorem forall_offs {P : Nat → Nat → Prop} (h : ∀ d, d < 4 → ∀ e, e < 4 → OffsOk d e → P d e) {d e : Nat} (ho : OffsOk d e) : P d e :=
  h d (by unfold OffsOk at ho; omega) e (by unfold OffsOk at ho; omega) ho

/-- Limits of sample `i` of a pulse (two samples earlier than in `Shape.Pulse`), in 1/1024 of the amplitude. -/
def pulseHi (d e i : Nat) : Int := -(-response d e i / 128)
def pulseLo (d e i : Nat) : Int := response d e i / 128

def PrePulse (A : Int) (d e i : Nat) (v : Int) : Prop :=
  pulseLo d e i * A - 67584 ≤ 1024 * v ∧ 1024 * v ≤ pulseHi d e i * A + 67584

/-- Sample `i` of a symbol. -/
def PreSymbol (A : Int) (l : Level) (d e i : Nat) (v : Int) : Prop :=
  match l with
  | .mid => -66 ≤ v ∧ v ≤ 66
  | .up => PrePulse A d e i v
  | .down => PrePulse A d e i (-v)

/-- `Shape.Carries` in front of the DC blocker. -/
def PreCarries (A : Int) (x : Nat → Int) : Nat → List (Nat × (Nat → Level)) → Prop
  | t, [] => ∀ k, t ≤ k → -66 ≤ x k ∧ x k ≤ 66
  | t, (g, σ) :: fs =>
    (∀ k, t ≤ k → k < t + g → -66 ≤ x k ∧ x k ≤ 66) ∧
    (∃ d e : Nat → Nat, (∀ i, OffsOk (d i) (e i)) ∧ ∀ j, j < 174 → PreSymbol A (σ (j / 16)) (d (j / 16)) (e (j / 16)) (j % 16) (x (t + g + j))) ∧
    PreCarries A x (t + g + 174) fs

/-- Bounds on the baseline. -/
def BaseIn (A lo hi B : Int) : Prop := -(lo * A + 17563648) ≤ 1024 * B ∧ 1024 * B ≤ hi * A + 17563648

theorem BaseIn.neg {A lo hi B : Int} (h : BaseIn A lo hi B) : BaseIn A hi lo (-B) := by
  unfold BaseIn at *
  generalize lo * A = p at *; generalize hi * A = q at *
  omega

theorem BaseIn.mono {A lo hi lo' hi' B : Int} (hA : 0 ≤ A) (h : BaseIn A lo hi B) (h1 : lo ≤ lo') (h2 : hi ≤ hi') :
    BaseIn A lo' hi' B := by
  have e1 := Int.mul_le_mul_of_nonneg_right h1 hA
  have e2 := Int.mul_le_mul_of_nonneg_right h2 hA
  unfold BaseIn at *
  omega

/-- Both bounds of one step. -/
theorem BaseIn.step {A lo hi B B' x κl κh lo' hi' : Int} (hA : 0 ≤ A) (h : BaseIn A lo hi B)
    (hx : κl * A - 67584 ≤ 1024 * x ∧ 1024 * x ≤ κh * A + 67584)
    (hs : 512 * x + 254 * B - 255 ≤ 256 * B' ∧ 256 * B' ≤ 512 * x + 254 * B + 255)
    (hl : 254 * lo - 512 * κl ≤ 256 * lo') (hh : 254 * hi + 512 * κh ≤ 256 * hi') : BaseIn A lo' hi' B' := by
  refine ⟨?_, base_step hA h.2 hx.2 hs.2 hh⟩
  have := base_step (B := -B) (B' := -B') (x := -x) (β := lo) (κ := -κl) (β' := lo') hA
    (by have := h.1; generalize lo * A = p at *; omega)
    (by rw [Int.neg_mul]; have := hx.1; generalize κl * A = p at *; omega) (by omega) (by omega)
  generalize lo' * A = p at *
  omega

theorem BaseIn.quiet {A lo hi B B' x : Int} (hA : 0 ≤ A) (h : BaseIn A lo hi B) (hx : -66 ≤ x ∧ x ≤ 66)
    (hs : 512 * x + 254 * B - 255 ≤ 256 * B' ∧ 256 * B' ≤ 512 * x + 254 * B + 255) :
    BaseIn A (decay lo) (decay hi) B' :=
  h.step (κl := 0) (κh := 0) hA (by omega) hs (by unfold decay; omega) (by unfold decay; omega)

/-- Ready for a positive pulse. -/
def ReadyUp (A B : Int) : Prop := BaseIn A 22528 6656 B
/-- Ready for a negative pulse. -/
def ReadyDown (A B : Int) : Prop := BaseIn A 6656 22528 B
/-- What always holds. -/
def BaseOk (A B : Int) : Prop := BaseIn A 23040 23040 B

theorem ReadyUp.ok {A B : Int} (hA : 0 ≤ A) (h : ReadyUp A B) : BaseOk A B := h.mono hA (by decide) (by decide)
theorem ReadyDown.ok {A B : Int} (hA : 0 ≤ A) (h : ReadyDown A B) : BaseOk A B := h.mono hA (by decide) (by decide)
theorem ReadyUp.neg {A B : Int} (h : ReadyUp A B) : ReadyDown A (-B) := BaseIn.neg h
theorem ReadyDown.neg {A B : Int} (h : ReadyDown A B) : ReadyUp A (-B) := BaseIn.neg h

theorem BaseIn.quiet_n {A : Int} (hA : 0 ≤ A) {x : Nat → Int} {lo hi : Int} (h1 : 254 ≤ lo) (h2 : 254 ≤ hi) {r : Nat} :
    ∀ n, (∀ k, r ≤ k → k < r + n → -66 ≤ x k ∧ x k ≤ 66) → BaseIn A lo hi (dcB x r) → BaseIn A lo hi (dcB x (r + n)) := by
  intro n
  induction n with
  | zero => intro _ h; exact h
  | succ n ih =>
    intro hx h
    have := ih (fun k h1 h2 => hx k h1 (by omega)) h
    exact (this.quiet hA (hx (r + n) (by omega) (by omega)) (dcB_succ x (r + n))).mono hA (by unfold decay; omega) (by unfold decay; omega)

/-- Bounds during a pulse. -/
def pulseBase (d e : Nat) : Nat → Int × Int
  | 0 => (22528, 6656)
  | i + 1 => (decay (pulseBase d e i).1 - 2 * pulseLo d e i, decay (pulseBase d e i).2 + 2 * pulseHi d e i)

theorem pulseBase_ok {d e : Nat} (ho : OffsOk d e) : ∀ i, i ≤ 16 → (pulseBase d e i).1 ≤ 23040 ∧ (pulseBase d e i).2 ≤ 23040 := by
  refine forall_offs (P := fun d e => ∀ i, i ≤ 16 → (pulseBase d e i).1 ≤ 23040 ∧ (pulseBase d e i).2 ≤ 23040) ?_ ho
  decide +kernel

theorem pulseBase_end {d e : Nat} (ho : OffsOk d e) : (pulseBase d e 16).1 ≤ 6656 ∧ (pulseBase d e 16).2 ≤ 22528 := by
  refine forall_offs (P := fun d e => (pulseBase d e 16).1 ≤ 6656 ∧ (pulseBase d e 16).2 ≤ 22528) ?_ ho
  decide +kernel

/-- A symbol with a positive pulse. -/
theorem base_pulse {A : Int} (hA : 0 ≤ A) {b : Nat → Int} {v : Nat → Int} {n d e : Nat} (hn : n ≤ 16)
    (hx : ∀ i, i < n → PrePulse A d e i (v i))
    (hs : ∀ i, i < n → 512 * v i + 254 * b i - 255 ≤ 256 * b (i + 1) ∧ 256 * b (i + 1) ≤ 512 * v i + 254 * b i + 255)
    (h : ReadyUp A (b 0)) : BaseIn A (pulseBase d e n).1 (pulseBase d e n).2 (b n) := by
  induction n with
  | zero => exact h
  | succ n ih =>
    have h1 := ih (by omega) (fun i hi => hx i (by omega)) (fun i hi => hs i (by omega))
    refine h1.step hA (hx n (by omega)) (hs n (by omega)) ?_ ?_
    · simp only [pulseBase, decay]; omega
    · simp only [pulseBase, decay]; omega

/-- The readiness that belongs to the polarity of the next pulse. -/
def ReadyFor (A : Int) (up : Bool) (B : Int) : Prop := if up then ReadyUp A B else ReadyDown A B

theorem ReadyFor.ok {A B : Int} (hA : 0 ≤ A) {up : Bool} (h : ReadyFor A up B) : BaseOk A B := by
  cases up
  · exact ReadyDown.ok hA h
  · exact ReadyUp.ok hA h

/-- One symbol of `n` samples: a quiet one keeps the readiness, a pulse turns it. -/
theorem base_symbol {A : Int} (hA : 0 ≤ A) {x : Nat → Int} {r n d e : Nat} (ho : OffsOk d e) (hn : n ≤ 16) {l : Level}
    (hx : ∀ i, i < n → PreSymbol A l d e i (x (r + i))) {up : Bool} (hl : l = .mid ∨ l = (if up then .up else .down))
    (h : ReadyFor A up (dcB x r)) :
    (∀ i, i ≤ n → BaseOk A (dcB x (r + i))) ∧ (l = .mid → ReadyFor A up (dcB x (r + n))) ∧
      (l ≠ .mid → n = 16 → ReadyFor A (!up) (dcB x (r + n))) := by
  have hq : l = .mid → ∀ i, i ≤ n → ReadyFor A up (dcB x (r + i)) := by
    intro hm i hi
    have hx' : ∀ k, r ≤ k → k < r + i → -66 ≤ x k ∧ x k ≤ 66 := by
      intro k h1 h2
      have := hx (k - r) (by omega)
      rw [hm, show r + (k - r) = k by omega] at this
      exact this
    cases up
    · exact BaseIn.quiet_n hA (by decide) (by decide) i hx' h
    · exact BaseIn.quiet_n hA (by decide) (by decide) i hx' h
  rcases hl with hm | hl
  · exact ⟨fun i hi => (hq hm i hi).ok hA, fun _ => hq hm n (Nat.le_refl _), fun hc => absurd hm hc⟩
  · cases up with
    | true =>
      simp only [if_true] at hl
      subst hl
      have key : ∀ i, i ≤ n → BaseIn A (pulseBase d e i).1 (pulseBase d e i).2 (dcB x (r + i)) := by
        intro i hi
        exact base_pulse (b := fun i => dcB x (r + i)) (v := fun i => x (r + i)) hA (by omega) (fun j hj => hx j (by omega))
          (fun j _ => dcB_succ x (r + j)) h
      refine ⟨fun i hi => (key i hi).mono hA (pulseBase_ok ho i (by omega)).1 (pulseBase_ok ho i (by omega)).2, fun hc => (by cases hc), fun _ h16 => ?_⟩
      subst h16
      exact (key 16 (Nat.le_refl _)).mono hA (pulseBase_end ho).1 (pulseBase_end ho).2
    | false =>
      simp only [Bool.false_eq_true, if_false] at hl
      subst hl
      have key : ∀ i, i ≤ n → BaseIn A (pulseBase d e i).1 (pulseBase d e i).2 (-dcB x (r + i)) := by
        intro i hi
        exact base_pulse (b := fun i => -dcB x (r + i)) (v := fun i => -x (r + i)) hA (by omega) (fun j hj => hx j (by omega))
          (fun j _ => by have := dcB_succ x (r + j); simp only [Nat.add_assoc] at *; omega) (ReadyDown.neg h)
      refine ⟨fun i hi => ?_, fun hc => (by cases hc), fun _ h16 => ?_⟩
      · have := ((key i hi).mono hA (pulseBase_ok ho i (by omega)).1 (pulseBase_ok ho i (by omega)).2).neg
        rwa [Int.neg_neg] at this
      · subst h16
        have := ((key 16 (Nat.le_refl _)).mono hA (pulseBase_end ho).1 (pulseBase_end ho).2).neg
        rw [Int.neg_neg] at this
        exact this

end P1P2
