import Verif.Spec.Line
/-!
# Specification of the receiver

What eleven (or ten) received symbols mean, independent of how they are detected.
-/
namespace P1P2

/-- The byte with the given bits, LSB first. -/
def byteOf (bit : Nat → Bool) : UInt8 :=
  UInt8.ofNat ((List.range 8).foldl (fun a k => a + (if bit k then 2 ^ k else 0)) 0)

/-- A pulse has the same polarity as the pulse before it (undisturbed symbols between them do not count). -/
def polRepeat : List Level → Bool
  | [] => false
  | l :: ls =>
    match l with
    | .mid => polRepeat ls
    | l => (match ls.find? (· ≠ .mid) with | some l' => l == l' | none => false) || polRepeat ls

/-- Meaning of eleven symbols: the data byte (a missing pulse is a one) and whether the frame is bad: odd number of ones
in data and parity, a pulse in the stop bit, or a polarity repeated. -/
def decodeSymbols (s : Nat → Level) : UInt8 × Bool :=
  (byteOf (fun k => s (k + 1) == .mid),
   decide (((List.range 9).filter (fun k => s (k + 1) == .mid)).length % 2 = 1) || s 10 != .mid ||
     polRepeat ((List.range 11).map s))

/-- A sample of a line level as it enters the level detector (in mV): pulses between `lo` and `hi`, an undisturbed line
within 599. -/
def Sample (lo hi : Int) (l : Level) (x : Int) : Prop :=
  match l with
  | .mid => -599 ≤ x ∧ x ≤ 599
  | .up => lo ≤ x ∧ x ≤ hi
  | .down => -hi ≤ x ∧ x ≤ -lo

/-- From sample `t` on, the line carries the given frames and nothing else: for each frame a gap of undisturbed samples
and eleven symbols of 16 samples, each a pulse (or not) in its first half; the last symbol may end two samples early. -/
def Carries (s : Nat → Level) : Nat → List (Nat × (Nat → Level)) → Prop
  | t, [] => ∀ k, t ≤ k → s k = .mid
  | t, (g, σ) :: fs =>
    (∀ k, t ≤ k → k < t + g → s k = .mid) ∧
    (∀ j, j < 174 → s (t + g + j) = if j % 16 < 8 then σ (j / 16) else .mid) ∧
    Carries s (t + g + 174) fs

/-- Position after the last frame. -/
def lineEnd : Nat → List (Nat × (Nat → Level)) → Nat
  | t, [] => t
  | t, (g, _) :: fs => lineEnd (t + g + 174) fs

/-- Conditions on the frames: every frame starts with a pulse, after a pulse in the stop bit there are two more
undisturbed samples, and no gap is longer than `maxGap`. -/
def FramesOk (maxGap : Nat) : List (Nat × (Nat → Level)) → Prop
  | [] => True
  | (g, σ) :: fs => g ≤ maxGap ∧ σ 0 ≠ .mid ∧
    (σ 10 ≠ .mid → match fs with | [] => True | (g', _) :: _ => 2 ≤ g') ∧ FramesOk maxGap fs

end P1P2
