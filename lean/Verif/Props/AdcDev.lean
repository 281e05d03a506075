import Verif.Proofs.DevScene
/-!
# C124: from the FIFO of the ADC to the ring

Theorems about `Verif/Model/AdcDev.lean`: the ADC FIFO, both DMA channels, the state machine that converts the sign, `Stop`, `Start`, `Reset` and `Update` with
hardware events between their operations, and the loop of core 1.

Specification used: `signed` and `alternate` (Verif/Spec/AdcDev.lean: codes, negated and plain in turn), `served` (the same file: a conversion is
completed and later the first channel gets the bus), `Serves` (the same file: the first channel gets the bus, at least 37 cycles later the second one
does, and two more cycles pass).  `DevSystem.Prompt`: if a block ends in an iteration, then the first channel is done or is `served` while `Update` waits, and less than
a block of cycles passes before the count is read again.
-/
namespace P1P2
open Pio

/-- **C124, refinement.** For every history of conversions, bus grants and iterations, with any hardware events between the operations of `Update` and `Reset`: the
receive side does not run into undefined behaviour, and what it sends (and drops) is what the model behind the DMA (`RxSystem`) sends for some events whose values are exactly
the values stored in the ring, in this order, all between -256 and 255.  So every theorem about all runs of `RxSystem` with such samples holds with the hardware, too. -/
theorem C124_refines {S : Nat} (hS : 8 ≤ S) {ring : Nat → Int} (hr : SampleRange ring) (rxErr : Bool) {es : List PathEv}
    (hp : (DevSystem.init ring rxErr).Prompt S es) :
    ∃ s outs xs outs', DevSystem.run S (DevSystem.init ring rxErr) es = .ok (s, outs) ∧ (∀ x ∈ xs, RxEv.InRange x) ∧
      xs.flatMap RxEv.values = (DevSystem.init ring rxErr).stores S es ∧
      RxSystem.run S (RxSystem.init ring rxErr) xs = .ok (⟨s.dev.adc, s.core⟩, outs') ∧ sends outs' = sends outs := by
  obtain ⟨s, outs, xs, outs', h1, -, h3, h4, h5, h6⟩ := dev_run_refines hS es (DevInv.init hr rxErr) hp
  exact ⟨s, outs, xs, outs', h1, h3, h4, h5, h6⟩

/-- **C124, order.** Unless the ADC is reset, the ring gets the codes that got into the PIO, in this order, each once, the first one negated, the second one as it is, and
so on; at most nine are still on their way.  This includes the ends of blocks. -/
theorem C124_order {S : Nat} {ring : Nat → Int} {rxErr : Bool} {es : List PathEv} (hp : (DevSystem.init ring rxErr).Prompt S es)
    {s : DevSystem} {outs : List C1Out} (h : DevSystem.run S (DevSystem.init ring rxErr) es = .ok (s, outs)) (hn : ∀ o ∈ outs, o.reset = false) :
    ∃ rest, alternate false ((DevSystem.init ring rxErr).enters S es) = (DevSystem.init ring rxErr).stores S es ++ rest ∧ rest.length ≤ 9 := by
  have hd : DevOk (DevSystem.init ring rxErr).dev false [] :=
    ⟨rfl, .reset, by show adcBlock + 0 ≤ adcBlock + 1; omega, ⟨Nat.zero_le _, Nat.zero_le _⟩⟩
  obtain ⟨vs, h1, h2⟩ := order_run es hd hp h hn
  exact ⟨vs, h2, h1.nine⟩

/-- **C124, order after a reset.** After any history that ends with a reset (in an iteration, with any hardware events between its operations): the ring gets at most one
value that was left in the state machine, and then the codes that get into the PIO since, in order, each once, every other one negated; the first one may be negated or not. -/
theorem C124_order_reset {S : Nat} (hS : 8 ≤ S) {ring : Nat → Int} (hr : SampleRange ring) {rxErr : Bool} {es0 : List PathEv}
    (hp0 : (DevSystem.init ring rxErr).Prompt S es0) {s0 : DevSystem} {outs0 : List C1Out} (h0 : DevSystem.run S (DevSystem.init ring rxErr) es0 = .ok (s0, outs0))
    {ready : Bool} {u : UpdEnv} {rst : ResetEnv} (hu : s0.dev.Prompt u) {s1 : DevSystem} {o1 : C1Out} (h1 : s0.step S (.iterate ready u rst) = .ok (s1, some o1))
    (ho : o1.reset = true) {es : List PathEv} (hp : s1.Prompt S es) {s : DevSystem} {outs : List C1Out} (h : s1.run S es = .ok (s, outs))
    (hn : ∀ o ∈ outs, o.reset = false) :
    ∃ odd left rest, left ++ alternate odd (s1.enters S es) = s1.stores S es ++ rest ∧ left.length ≤ 1 ∧ (∀ v ∈ left, -256 ≤ v ∧ v ≤ 255) ∧ rest.length ≤ 9 := by
  obtain ⟨s', _, _, _, k1, ⟨-, ph, vs, k2⟩, -⟩ := dev_run_refines hS es0 (DevInv.init hr rxErr) hp0
  have k3 := h0.symm.trans k1
  simp only [Res.ok.injEq, Prod.mk.injEq] at k3
  obtain ⟨rfl, -⟩ := k3
  obtain ⟨ph', vs', q1, q2⟩ := (iterate_order k2 hu h1).2 ho
  obtain ⟨vs2, q3, q4⟩ := order_run es q1 hp h hn
  exact ⟨ph', vs', vs2, q4, q2, q1.pipe.2.1, q3.nine⟩

/-- **C124, the end of a block.** When the second channel has finished its block, the first one has at most one transfer left, and a single conversion that is completed
and gets the bus ends the wait in `Update`: the ADC is not reset because of it. -/
theorem C124_wait {S : Nat} (hS : 8 ≤ S) {ring : Nat → Int} (hr : SampleRange ring) {rxErr : Bool} {es : List PathEv}
    (hp : (DevSystem.init ring rxErr).Prompt S es) {s : DevSystem} {outs : List C1Out} (h : DevSystem.run S (DevSystem.init ring rxErr) es = .ok (s, outs))
    (h0 : s.dev.adc.tcHw = 0) : s.dev.tc1 ≤ 1 ∧ ∀ wait, served wait → (s.dev.hws wait).tc1 = 0 := by
  obtain ⟨s', _, _, _, k1, ⟨-, ph, vs, k2⟩, -⟩ := dev_run_refines hS es (DevInv.init hr rxErr) hp
  have k3 := h.symm.trans k1
  simp only [Res.ok.injEq, Prod.mk.injEq] at k3
  obtain ⟨rfl, -⟩ := k3
  have hc := k2.count
  rw [h0] at hc
  have hle : s.dev.tc1 ≤ 1 := by omega
  exact ⟨hle, fun wait hw => AdcDev.served_done hle hw⟩

/-- **C124, the wait is entered.** The comment at adc.cpp:211 ("This code should never be entered") is wrong: after a reset in the middle of a conversion the second
channel is one transfer ahead, and at the end of the block the first one has a transfer left. -/
theorem C124_wait_entered {S : Nat} (hS : 8 ≤ S) (ring : Nat → Int) (hr : SampleRange ring) (rxErr : Bool) :
    ∃ es s outs, (DevSystem.init ring rxErr).Prompt S es ∧ DevSystem.run S (DevSystem.init ring rxErr) es = .ok (s, outs) ∧ s.dev.adc.tcHw = 0 ∧ s.dev.tc1 = 1 := by
  have hb : adcBlock = 268435456 := rfl
  obtain ⟨s, outs, h1, h2, h3, h4, h5, -⟩ := reset_scene hS ring hr rxErr []
  have key : ∀ n, n = adcBlock - 1 → ∃ l : List (UInt8 × List (Bool × Bool)), l.length = n ∧ ∀ x ∈ l, Serves x.2 := fun n _ =>
    ⟨List.replicate n (0, prompt), List.length_replicate .., fun x hx => by rw [(List.mem_replicate.mp hx).2]; exact prompt_serves⟩
  obtain ⟨l, hl, hs⟩ := key _ rfl
  obtain ⟨-, -, k3, k4⟩ := h3.samples (c1 := 1) (c2 := 0) l hs (by omega) (by omega)
  obtain ⟨r1, r2⟩ := AdcDev.run_hw S (l.flatMap fun x => .convert x.1 :: cycles x.2) s
  exact ⟨_, _, _, prompt_append h1 h2 r2, dev_run_append h1 r1, k4, k3⟩

/-- **C124, timing.** Nothing on its way and the counts not at their end: if after each conversion the bus is granted as in `Serves` (40 cycles with a prompt bus; the
ADC takes about 400), then no code is lost: the ring gets all of them, every other one negated, and nothing is on its way at the end. -/
theorem C124_timing {d : AdcDev} {odd : Bool} (h : AtRest d odd) (l : List (UInt8 × List (Bool × Bool))) (hs : ∀ x ∈ l, Serves x.2) (h1 : l.length ≤ d.tc1)
    (h2 : l.length ≤ d.adc.tcHw) :
    d.stored (l.flatMap fun x => .convert x.1 :: cycles x.2) = alternate odd (l.map Prod.fst) ∧
      AtRest (d.hws (l.flatMap fun x => .convert x.1 :: cycles x.2)) (turn odd l.length) := by
  obtain ⟨k1, k2, -, -⟩ := h.samples (c1 := d.tc1 - l.length) (c2 := d.adc.tcHw - l.length) l hs (by omega) (by omega)
  exact ⟨k2, k1⟩

/-- The hypotheses of `C124_timing` are met one cycle after the start. -/
example (ring : Nat → Int) (rxErr : Bool) : AtRest ((DevSystem.init ring rxErr).dev.hw (.cycle true true)) false ∧ 1000 ≤ ((DevSystem.init ring rxErr).dev.hw (.cycle true true)).tc1 := by
  obtain ⟨h1, -, h3, -⟩ := AtRest.init ring rxErr true true
  have hb : adcBlock = 268435456 := rfl
  exact ⟨h1, by omega⟩

/-- Conversions completed so far; the ADC takes its two inputs in turn (adc.cpp:68). -/
def HwEv.conversions : List HwEv → Nat
  | [] => 0
  | .convert _ :: es => 1 + HwEv.conversions es
  | .cycle .. :: es => HwEv.conversions es

/-- The same for a run. -/
def PathEv.conversions : List PathEv → Nat
  | [] => 0
  | .hw e :: es => HwEv.conversions [e] + PathEv.conversions es
  | .iterate _ u r :: es => HwEv.conversions (u.wait ++ u.mid ++ u.late ++ r.drain ++ r.abort1 ++ r.abort2 ++ r.off ++ r.on ++ r.start) + PathEv.conversions es

theorem HwEv.conversions_append (a b : List HwEv) : HwEv.conversions (a ++ b) = HwEv.conversions a + HwEv.conversions b := by
  induction a with
  | nil => simp [HwEv.conversions]
  | cons e a ih => cases e <;> simp [HwEv.conversions, ih]; omega

theorem PathEv.conversions_append (a b : List PathEv) : PathEv.conversions (a ++ b) = PathEv.conversions a + PathEv.conversions b := by
  induction a with
  | nil => simp [PathEv.conversions]
  | cons e a ih => cases e <;> simp [PathEv.conversions, ih] <;> omega

theorem PathEv.conversions_hw (l : List HwEv) : PathEv.conversions (l.map PathEv.hw) = HwEv.conversions l := by
  induction l with
  | nil => rfl
  | cons e l ih => rw [List.map_cons, PathEv.conversions, ih]; cases e <;> simp [HwEv.conversions]

theorem HwEv.conversions_cycles (ms : List (Bool × Bool)) : HwEv.conversions (cycles ms) = 0 := by
  induction ms with
  | nil => rfl
  | cons m ms ih => exact ih

theorem HwEv.conversions_samples (n : Nat) : HwEv.conversions ((List.replicate n ((0 : UInt8), prompt)).flatMap fun x => .convert x.1 :: cycles x.2) = n := by
  induction n with
  | zero => rfl
  | succ n ih =>
    rw [List.replicate_succ, List.flatMap_cons, HwEv.conversions_append, ih]
    show 1 + HwEv.conversions (cycles prompt) + n = n + 1
    rw [HwEv.conversions_cycles]
    omega

/-- **C124, polarity.** A reset can swap the wires: at the start the conversions of the first input are negated, but there is a run (an overrun, and a reset that drains
one code from the FIFO) after which a conversion of the first input is stored as it is.  (C125: the host sees the same.) -/
theorem C124_polarity {S : Nat} (hS : 8 ≤ S) (ring : Nat → Int) (hr : SampleRange ring) (rxErr : Bool) :
    (∀ b ms, Serves ms → ((DevSystem.init ring rxErr).dev.hw (.cycle true true)).stored (.convert b :: cycles ms) = [-(b.toNat : Int)]) ∧
    ∃ es s outs, (DevSystem.init ring rxErr).Prompt S es ∧ DevSystem.run S (DevSystem.init ring rxErr) es = .ok (s, outs) ∧ PathEv.conversions es % 2 = 0 ∧
      ∀ b ms, Serves ms → s.dev.stored (.convert b :: cycles ms) = [(b.toNat : Int)] := by
  have hb : adcBlock = 268435456 := rfl
  obtain ⟨i1, -, i3, i4⟩ := AtRest.init ring rxErr true true
  obtain ⟨s, outs, h1, h2, h3, h4, h5, -⟩ := reset_scene hS ring hr rxErr [0]
  refine ⟨fun b ms hms => (i1.sample (c1 := adcBlock - 1) (c2 := adcBlock - 1) (by omega) (by omega) b hms).2.1, resetRun [0], s, outs, h2, h1, ?_,
    fun b ms hms => (h3.sample (c1 := adcBlock - 1) (c2 := adcBlock - 2) (by omega) (by omega) b hms).2.1⟩
  have hu : HwEv.conversions unread = 256 := by unfold unread; exact HwEv.conversions_samples 256
  unfold resetRun resetOf
  rw [PathEv.conversions_append, PathEv.conversions_append, PathEv.conversions_hw, PathEv.conversions_hw, HwEv.conversions_cycles]
  unfold overrunOf
  show (HwEv.conversions (unread ++ [.convert 0, .cycle true true]) + 1 + 0) % 2 = 0
  rw [HwEv.conversions_append, hu]
  rfl

end P1P2
