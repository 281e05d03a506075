import Verif.Props.Watch
import Verif.Props.RateDemo
/-!
# A device that meets the hypotheses of C144
-/
namespace P1P2

/-- A clock that stands still does not run away. -/
theorem clocked_zero {xs : List BoardStep} (h : ∀ x ∈ xs, ∀ r, x.reading = some r → r = 0) : Clocked 0 xs := by
  constructor
  · intro a x b r e hr
    rw [h x (by rw [e]; simp) r hr]
    exact Nat.zero_le _
  · intro a x b y c r r' e _ hr
    rw [h y (by rw [e]; simp) r' hr]
    exact Nat.zero_le _

/-- The hypotheses of C144 are met by the run of `device_demo` (1500 conversions, in which the packet 40 F0 is on the bus). -/
example : ∃ (xs : List BoardStep) (b : Board) (os : List BoardOut),
    (Board.init (fun _ => 0) false (fun _ => 0) .zero 0 0).run 32 .arm (fun _ => 0) xs = .ok (some (b, os)) ∧ FastEnough xs ∧ Clocked 0 xs ∧
    (rxMsgs (os.flatMap BoardOut.reports)).map lineShown = [(0, [0x40, 0xF0])] := by
  obtain ⟨xs, b, os, d1, d2, d3, d4, d5, d6, -, -, d9⟩ := device_demo
  have hps : ∀ p ∈ [rawPacket], p.RawOk ∧ p.bytes.length ≤ 31 := by
    intro p hp; rw [List.mem_singleton] at hp; subst hp; exact ⟨⟨by decide, by decide, by decide⟩, by decide⟩
  have hc := clocked_zero d9
  exact ⟨xs, b, os, d1, d5, hc, (C144_device (S := 32) (by decide) false (by decide) (by decide) rawCodes_ok (M := 400) (by decide) [rawPacket] hps (by decide) rawLine_carries .arm (fun _ => 0) .zero 0 0
    (by decide) xs b os d1 d3 (by rw [d2]; decide) (by rw [d2]; decide) (by rw [d2]; decide) d4 d5 hc d6).2⟩

end P1P2
