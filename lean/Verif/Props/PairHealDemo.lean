import Verif.Props.PairHeal
import Verif.Props.RecoverDemo
/-!
# Two modems that meet the hypotheses of C147

The sender is that of C134: the packet 40 F0, and after a pause 00 10.  The receiving device begins with an overrun and a reset of its ADC while the first packet is on the bus.
-/
namespace P1P2
open Spec

/-- The ADC takes a bus at mid level for 127 steps below or above its middle, and a pulse is 60 steps high. -/
def pulsesOn (L : Nat → Level) (k : Nat) : Int := (if k % 2 = 0 then -127 else 127) + 60 * (L k).sign

theorem pulsesOn_ok (L : Nat → Level) : Samples 60 127 L (pulsesOn L) := by
  intro k
  unfold pulsesOn
  dsimp only
  split <;> omega

theorem pulsesOn_range (L : Nat → Level) : SampleRange (pulsesOn L) := by
  intro k
  unfold pulsesOn
  have : (L k).sign = -1 ∨ (L k).sign = 0 ∨ (L k).sign = 1 := by cases L k <;> simp [Level.sign]
  rcases this with h | h | h <;> rw [h] <;> split <;> omega

/-- The hypotheses of C147 are met by a receiver with an overrun in its history; its host is told of the packet after the pause. -/
example : ∃ (pins : List (Nat × Bool)) (L : Nat → Level) (b t : Board) (o : List BoardOut) (xs : List BoardStep) (os : List BoardOut) (K : List (Nat × List UInt8)),
    (∃ d errs, TxDev.init.run twiceSender = some (d, pins, errs)) ∧ Plays (dividerClock 48 0 0) (lineOf (pins.map Pio.view)) L ∧
    (Board.init (fun _ => 0) true (fun _ => 0) .zero 0 0).run 32 .arm (fun _ => 0) overrunHistory = .ok (some (b, o)) ∧
    b.run 32 .arm (fun _ => 0) xs = .ok (some (t, os)) ∧ converted xs = (List.range 3200).map (pulsesOn fun k => L (26000000 + k * 19625)) ∧ FastEnough xs ∧
    (rxMsgs (os.flatMap BoardOut.reports)).map lineShown = K ++ [(0, [0x00, 0x10])] := by
  have h := twiceSender_runs
  rw [Option.isSome_iff_exists] at h
  obtain ⟨⟨d, pins, errs⟩, hrun⟩ := h
  have hL : Plays (dividerClock 48 0 0) (lineOf (pins.map Pio.view)) (idealLine (dividerClock 48 0 0) (lineOf (pins.map Pio.view))) :=
    ⟨fun τ ht => idealLine_before modemClock _ ht, fun k τ h1 h2 => idealLine_at modemClock _ h1 h2⟩
  generalize idealLine (dividerClock 48 0 0) (lineOf (pins.map Pio.view)) = L at hL
  have h0 : SampleRange fun _ => 0 := fun _ => by show (-256 : Int) ≤ 0 ∧ (0 : Int) ≤ 255; decide
  have hh := pulsesOn_range fun k => L (26000000 + k * 19625)
  have hq := pulsesOn_ok fun k => L (26000000 + k * 19625)
  obtain ⟨b, t, o, xs, os, n4, hqu, hbz, htc, l3, hval, l4, hfast, hend, h4⟩ := overrun_device hh (n := 3200) (by decide)
  have hlen : (converted xs).length = 3200 := by rw [hval, List.length_map, List.length_range]
  have hcyc := twiceSender_cycles
  have hm : ∀ x ∈ sendsFrom 0 twiceSender, 1 ≤ x.1 ∧ 1 ≤ x.2.length ∧ x.2.length ≤ 31 ∧ finalStart x.1 x.2 + 173 ≤ cyclesOf twiceSender := by
    rw [twiceSender_sends, hcyc]; intro x hx
    rcases List.mem_cons.mp hx with rfl | hx
    · exact ⟨by decide, by decide, by decide, by decide⟩
    · rw [List.mem_singleton] at hx; subst hx
      exact ⟨by decide, by decide, by decide, by decide⟩
  have hap : CallsApart 19625 3000 (dividerClock 48 0 0) 0 (sendsFrom 0 twiceSender) := by rw [twiceSender_sends]; exact ⟨by decide, by decide, by decide, by decide, trivial⟩
  have cend : callsEnd 19625 (dividerClock 48 0 0) 0 (sendsFrom 0 twiceSender) = dividerClock 48 0 0 1876 + 348 * 19625 := by rw [twiceSender_sends]; rfl
  have cval : dividerClock 48 0 0 1876 + 348 * 19625 = 80110620 := by decide
  obtain ⟨-, r⟩ := C147_hears (S := 32) (by decide) h0 true .arm (fun _ => 0) .zero 0 0 [] overrunHistory (fun v hv => (by cases hv))
    (fun v hv => by rw [overrunHistory_values] at hv; rw [List.eq_of_mem_replicate hv]; decide) rfl (.inl rfl) n4 hqu (fun hb => by rw [hbz] at hb; cases hb)
    (P := 19625) (by decide) (M := 3000) modemClock _ d pins errs hrun twiceSender_clears hm hap hL (l1 := [(300, demoMsg)]) (l2 := []) twiceSender_sends
    (τ0 := 26000000) (by decide) (by decide) (by decide) (by decide) hh hq (by rw [overrunHistory_values, List.length_replicate]; decide) xs t os l3 (by rw [hlen]; exact hval)
    (by rw [cend, cval, hlen]; decide) (by rw [cend, cval, hlen]; decide) (by rw [hlen, htc]; decide) l4 hfast hend
  obtain ⟨K, hK⟩ := r h4
  exact ⟨pins, L, b, t, o, xs, os, K, ⟨d, errs, hrun⟩, hL, n4, l3, hval, hfast, hK⟩

end P1P2
