import Verif.Proofs.DevOrder
/-!
# How long a sample takes from the ADC FIFO to the ring
-/
namespace P1P2.Pio
open P1P2

theorem runTo_lt {p : Prog} {pc : Nat} : ∀ {n : Nat} {c c' : Core} {k : Nat}, runTo p pc n c = some (k, c') → k < n := by
  intro n
  induction n with
  | zero => intro c c' k h; simp [runTo] at h
  | succ n ih =>
    intro c c' k h
    simp only [runTo] at h
    split at h
    · simp only [Option.some.injEq, Prod.mk.injEq] at h
      omega
    · split at h
      · simp only [Option.map_eq_some_iff] at h
        obtain ⟨⟨k', c1⟩, h1, h2⟩ := h
        simp only [Prod.mk.injEq] at h2
        have := ih h1
        omega
      · simp at h

set_option maxRecDepth 8000 in
theorem neg_time : ∀ n < 256,
    (runTo twosComplement 15 36 ((conv 2 0 7 0 (narrow (UInt8.ofNat n)) 0 0).step twosComplement)).map
      (fun r => decide (r.2 = conv 15 0 r.2.x r.2.y r.2.osr (word false (UInt8.ofNat n)) r.2.osrCnt)) = some true := by
  decide +kernel

/-- In `k` cycles without input the program gets to its next pull (`none`) or to a push of the word. -/
def HeadsIn (k : Nat) (odd : Bool) (busy : Option (BitVec 32)) (c : Core) : Prop :=
  ∃ c' l, Core.steps twosComplement k c = some (c', l) ∧ TargetW odd busy c'

theorem neg_in (y : BitVec 32) (b : UInt8) : ∃ k, k ≤ 36 ∧ HeadsIn k false (some (word false b)) (conv 2 0 7 y (narrow b) 0 0) := by
  have hall : ∀ b, (runTo twosComplement 15 36 ((conv 2 0 7 0 (narrow b) 0 0).step twosComplement)).map
      (fun r => decide (r.2 = conv 15 0 r.2.x r.2.y r.2.osr (word false b) r.2.osrCnt)) = some true := forall_u8 neg_time
  have h := hall b
  simp only [Option.map_eq_some_iff] at h
  obtain ⟨⟨k, c'⟩, h1, h2⟩ := h
  simp only [decide_eq_true_eq] at h2
  obtain ⟨⟨l, hl⟩, _⟩ := runTo_steps h1
  have hk := runTo_lt h1
  have hs : (conv 2 0 7 y (narrow b) 0 0).step twosComplement = (conv 2 0 7 0 (narrow b) 0 0).step twosComplement := rfl
  have hf : (conv 2 0 7 y (narrow b) 0 0).free twosComplement = true := rfl
  rw [← hs] at hl
  exact ⟨k + 1, hk, c', _, by simp only [Core.steps, hf, if_true, hl]; rfl, c'.x, c'.y, c'.osr, c'.osrCnt, h2⟩

set_option maxRecDepth 8000 in
theorem plain_in (x y : BitVec 32) (b : UInt8) : ∃ k, k ≤ 36 ∧ HeadsIn k true (some (word true b)) (conv 17 7 x y (narrow b) 0 0) := by
  have hw : ∀ b, shiftIn (shiftIn 0 (lowBits (narrow b) 8) 8) 0 24 = word true b := forall_u8 (by decide +kernel)
  have h0 : Core.steps twosComplement 7 (conv 17 7 x y (narrow b) 0 0) =
      some (conv 17 0 x y (narrow b) 0 0, List.replicate 7 (0, false)) :=
    Core.wait_steps twosComplement 7 (conv 17 7 x y (narrow b) 0 0) rfl
  have h1 := Core.instr_steps twosComplement (i := ⟨.outY 8, none, 7⟩) (conv 17 0 x y (narrow b) 0 0) rfl rfl
    (by simp) (by simp) rfl
  have h2 := Core.instr_steps twosComplement (i := ⟨.inY 8, none, 7⟩)
    (conv 18 0 x (lowBits (narrow b) 8) ((narrow b).ushiftRight 8) 0 8) rfl rfl (by simp) (by simp) rfl
  have h3 := Core.instr_steps twosComplement (i := ⟨.inNull 24, none, 7⟩)
    (conv 19 0 x (lowBits (narrow b) 8) ((narrow b).ushiftRight 8) (shiftIn 0 (lowBits (narrow b) 8) 8) 8) rfl rfl
    (by simp) (by simp) rfl
  have h4 := Core.steps_add (Core.steps_add (Core.steps_add h0 h1) h2) h3
  exact ⟨_, by decide, _, _, h4, x, lowBits (narrow b) 8, (narrow b).ushiftRight 8, 8, by
    simp only []
    rw [← hw b]
    rfl⟩

theorem entry_in (x y osr : BitVec 32) (n : Nat) : HeadsIn 2 false none (conv 21 0 x y osr 0 n) := by
  have h1 := Core.instr_steps twosComplement (i := ⟨.jmp .always 0, none, 0⟩) (conv 21 0 x y osr 0 n) rfl rfl
    (by simp) (by simp) rfl
  have h2 := Core.instr_steps twosComplement (i := ⟨.setX 7, none, 0⟩) (conv 0 0 x y osr 0 n) rfl rfl
    (by simp) (by simp) rfl
  exact ⟨_, _, Core.steps_add h1 h2, 7, y, osr, n, rfl⟩

theorem HeadsIn.heads {k : Nat} {odd : Bool} {busy : Option (BitVec 32)} {c : Core} (h : HeadsIn k odd busy c) : Heads odd busy c := ⟨k, h⟩

/-- A cycle on the way. -/
theorem HeadsIn.cycle {k : Nat} {odd : Bool} {busy : Option (BitVec 32)} {s : State} (h : HeadsIn (k + 1) odd busy s.core) (e : Env) :
    HeadsIn k odd busy (Pio.cycle twosComplement s e).core ∧ (Pio.cycle twosComplement s e).tx = enqueue twosComplement s.tx e ∧
      (Pio.cycle twosComplement s e).rx = dequeue s.rx e := by
  obtain ⟨c', l, hst, htg⟩ := h
  simp only [Core.steps] at hst
  split at hst
  · rename_i hf
    rw [cycle_free hf]
    split at hst
    · rename_i c1 l1 he
      simp only [Option.some.injEq, Prod.mk.injEq] at hst
      obtain ⟨rfl, _⟩ := hst
      exact ⟨⟨c1, l1, he, htg⟩, rfl, rfl⟩
    · simp at hst
  · simp at hst

/-- At the pull without a byte. -/
theorem HeadsIn.stall {odd : Bool} {s : State} (h : HeadsIn 0 odd none s.core) (e : Env) (hq : enqueue twosComplement s.tx e = []) :
    HeadsIn 0 odd none (Pio.cycle twosComplement s e).core ∧ (Pio.cycle twosComplement s e).tx = [] ∧ (Pio.cycle twosComplement s e).rx = dequeue s.rx e := by
  obtain ⟨c', l, hst, htg⟩ := h
  simp only [Core.steps, Option.some.injEq, Prod.mk.injEq] at hst
  obtain ⟨rfl, _⟩ := hst
  obtain ⟨x, y, osr, n, ht⟩ := htg
  have hc : Pio.cycle twosComplement s e = { core := s.core, tx := [], rx := dequeue s.rx e } := by
    cases odd <;> simp only at ht
    · have hi : twosComplement.at 1 = ⟨.pull, none, 0⟩ := rfl
      simp only [Pio.cycle, ht, conv, hi, hq]
      rfl
    · have hi : twosComplement.at 16 = ⟨.pull, none, 7⟩ := rfl
      simp only [Pio.cycle, ht, conv, hi, hq]
      rfl
  rw [hc]
  exact ⟨⟨s.core, [], rfl, x, y, osr, n, ht⟩, rfl, rfl⟩

/-- At the pull with a byte. -/
theorem HeadsIn.pull {odd : Bool} {s : State} (h : HeadsIn 0 odd none s.core) (e : Env) {b : UInt8} (hq : enqueue twosComplement s.tx e = [narrow b]) :
    ∃ k, k ≤ 36 ∧ HeadsIn k odd (some (word odd b)) (Pio.cycle twosComplement s e).core ∧ (Pio.cycle twosComplement s e).tx = [] ∧
      (Pio.cycle twosComplement s e).rx = dequeue s.rx e := by
  obtain ⟨c', l, hst, htg⟩ := h
  simp only [Core.steps, Option.some.injEq, Prod.mk.injEq] at hst
  obtain ⟨rfl, _⟩ := hst
  obtain ⟨x, y, osr, n, ht⟩ := htg
  cases odd <;> simp only at ht
  · have hi : twosComplement.at 1 = ⟨.pull, none, 0⟩ := rfl
    have hc : Pio.cycle twosComplement s e = { core := conv 2 0 7 y (narrow b) 0 0, tx := [], rx := dequeue s.rx e } := by
      simp only [Pio.cycle, ht, conv, hi, hq]
      rfl
    rw [hc]
    obtain ⟨k, h1, h2⟩ := neg_in y b
    exact ⟨k, h1, h2, rfl, rfl⟩
  · have hi : twosComplement.at 16 = ⟨.pull, none, 7⟩ := rfl
    have hc : Pio.cycle twosComplement s e = { core := conv 17 7 x y (narrow b) 0 0, tx := [], rx := dequeue s.rx e } := by
      simp only [Pio.cycle, ht, conv, hi, hq]
      rfl
    rw [hc]
    obtain ⟨k, h1, h2⟩ := plain_in x y b
    exact ⟨k, h1, h2, rfl, rfl⟩

/-- At the push with an empty FIFO. -/
theorem HeadsIn.push {odd : Bool} {w : BitVec 32} {s : State} (h : HeadsIn 0 odd (some w) s.core) (e : Env) (hq : enqueue twosComplement s.tx e = []) (hr : s.rx = []) :
    ∃ j, j ≤ 2 ∧ HeadsIn j (!odd) none (Pio.cycle twosComplement s e).core ∧ (Pio.cycle twosComplement s e).tx = [] ∧ (Pio.cycle twosComplement s e).rx = [w] := by
  obtain ⟨c', l, hst, htg⟩ := h
  simp only [Core.steps, Option.some.injEq, Prod.mk.injEq] at hst
  obtain ⟨rfl, _⟩ := hst
  obtain ⟨x, y, osr, n, ht⟩ := htg
  have hd : dequeue s.rx e = [] := by unfold dequeue; rw [hr]; split <;> rfl
  have hD : twosComplement.rxDepth = 4 := rfl
  cases odd <;> simp only at ht
  · have hi : twosComplement.at 15 = ⟨.push, none, 0⟩ := rfl
    have hc : Pio.cycle twosComplement s e = { core := conv 16 0 x y osr 0 n, tx := [], rx := [w] } := by
      simp only [Pio.cycle, ht, conv, hi, hq, hD, hd]
      rfl
    rw [hc]
    exact ⟨0, by omega, ⟨_, _, rfl, x, y, osr, n, rfl⟩, rfl, rfl⟩
  · have hi : twosComplement.at 20 = ⟨.push, none, 0⟩ := rfl
    have hc : Pio.cycle twosComplement s e = { core := conv 21 0 x y osr 0 n, tx := [], rx := [w] } := by
      simp only [Pio.cycle, ht, conv, hi, hq, hD, hd]
      rfl
    rw [hc]
    exact ⟨2, by omega, entry_in x y osr n, rfl, rfl⟩

end P1P2.Pio

namespace P1P2
open Pio

/-- A sample on its way: in the FIFO of the ADC; in conversion, `k` cycles before it is pushed; in the FIFO of the PIO, which is `j` cycles before its next pull; in the ring. -/
inductive Way where
  | fifo
  | run (k : Nat)
  | out (j : Nat)
  | done (j : Nat)

/-- The device with one sample on its way and nothing else. -/
def OnWay (d : AdcDev) (odd : Bool) (b : UInt8) : Way → Prop
  | .fifo => d.on = true ∧ d.fifo = [b] ∧ d.pio.tx = [] ∧ d.pio.rx = [] ∧ HeadsIn 0 odd none d.pio.core
  | .run k => d.on = true ∧ d.fifo = [] ∧ d.pio.tx = [] ∧ d.pio.rx = [] ∧ HeadsIn k odd (some (word odd b)) d.pio.core
  | .out j => d.on = true ∧ d.fifo = [] ∧ d.pio.tx = [] ∧ d.pio.rx = [word odd b] ∧ HeadsIn j (!odd) none d.pio.core
  | .done j => d.on = true ∧ d.fifo = [] ∧ d.pio.tx = [] ∧ d.pio.rx = [] ∧ HeadsIn j (!odd) none d.pio.core

/-- The bus: is the sample further than that? -/
def Way.after : Way → Bool → Bool → Way → Prop
  | .fifo, m1, _, w => if m1 then ∃ k, k ≤ 36 ∧ w = .run k else w = .fifo
  | .run 0, _, _, w => ∃ j, j ≤ 2 ∧ w = .out j
  | .run (k + 1), _, _, w => w = .run k
  | .out j, _, m2, w => if m2 then w = .done (j - 1) else w = .out (j - 1)
  | .done j, _, _, w => w = .done (j - 1)

def Way.stores (odd : Bool) (b : UInt8) : Way → Bool → List Int
  | .out _, true => [signed odd b]
  | _, _ => []

def Way.left : Way → Bool → Nat → Nat
  | .fifo, true, n => n - 1
  | _, _, n => n

theorem OnWay.cycle {d : AdcDev} {odd : Bool} {b : UInt8} {w : Way} (h : OnWay d odd b w) (h1 : w = .fifo → d.tc1 ≠ 0)
    (h2 : (∃ j, w = .out j) → d.adc.tcHw ≠ 0) (m1 m2 : Bool) :
    ∃ w', w.after m1 m2 w' ∧ OnWay (d.hw (.cycle m1 m2)) odd b w' ∧ d.stores (.cycle m1 m2) = w.stores odd b m2 ∧ (d.hw (.cycle m1 m2)).tc1 = w.left m1 d.tc1 := by
  have hpio : d.on = true → (d.hw (.cycle m1 m2)).pio = Pio.cycle twosComplement d.pio (adcEnv (d.moved1 m1, (d.moved2 m2).isSome)) := by
    intro ho
    simp only [AdcDev.hw, ho, if_true]
    rfl
  have hfifo : d.fifo = [] → (d.hw (.cycle m1 m2)).fifo = [] ∧ d.moved1 m1 = none := by
    intro hf
    have : d.moved1 m1 = none := by unfold AdcDev.moved1; rw [hf]; split <;> rfl
    exact ⟨by simp only [AdcDev.hw, this, hf]; rfl, this⟩
  have htc : d.moved1 m1 = none → (d.hw (.cycle m1 m2)).tc1 = d.tc1 := by intro hm; simp only [AdcDev.hw, hm]; rfl
  have hrx : d.pio.rx = [] → d.moved2 m2 = none := by intro hr; unfold AdcDev.moved2; rw [hr]; split <;> rfl
  have hq0 : ∀ g, d.pio.tx = [] → enqueue twosComplement d.pio.tx (adcEnv (none, g)) = [] := by intro g ht; rw [ht]; rfl
  cases w with
  | fifo =>
    obtain ⟨a1, a2, a3, a4, a5⟩ := h
    have hm2 := hrx a4
    have hst : d.stores (.cycle m1 m2) = [] := by simp [AdcDev.stores, hm2]
    cases m1 with
    | false =>
      have hm1 : d.moved1 false = none := rfl
      rw [hm1, hm2] at hpio
      obtain ⟨k1, k2, k3⟩ := a5.stall _ (hq0 (Option.isSome (none : Option (BitVec 32))) a3)
      refine ⟨.fifo, rfl, ⟨?_, ?_, ?_, ?_, ?_⟩, hst, htc hm1⟩
      · rw [AdcDev.hw_on]; exact a1
      · simp only [AdcDev.hw, hm1, a2]; rfl
      · rw [hpio a1]; exact k2
      · rw [hpio a1, k3, a4]; rfl
      · rw [hpio a1]; exact k1
    | true =>
      have hm1 : d.moved1 true = some b := by
        unfold AdcDev.moved1
        rw [a2]
        simp [h1 rfl]
      rw [hm1, hm2] at hpio
      obtain ⟨k, k0, k1, k2, k3⟩ := a5.pull (adcEnv (some b, Option.isSome (none : Option (BitVec 32)))) (b := b) (by rw [a3]; rfl)
      refine ⟨.run k, ⟨k, k0, rfl⟩, ⟨?_, ?_, ?_, ?_, ?_⟩, hst, by simp only [AdcDev.hw, hm1]; rfl⟩
      · rw [AdcDev.hw_on]; exact a1
      · simp only [AdcDev.hw, hm1, a2]; rfl
      · rw [hpio a1]; exact k2
      · rw [hpio a1, k3, a4]; rfl
      · rw [hpio a1]; exact k1
  | run k =>
    obtain ⟨a1, a2, a3, a4, a5⟩ := h
    have hm2 := hrx a4
    have hst : d.stores (.cycle m1 m2) = [] := by simp [AdcDev.stores, hm2]
    obtain ⟨f1, hm1⟩ := hfifo a2
    rw [hm1, hm2] at hpio
    cases k with
    | zero =>
      obtain ⟨j, k0, k1, k2, k3⟩ := a5.push _ (hq0 (Option.isSome (none : Option (BitVec 32))) a3) a4
      refine ⟨.out j, ⟨j, k0, rfl⟩, ⟨?_, f1, ?_, ?_, ?_⟩, hst, htc hm1⟩
      · rw [AdcDev.hw_on]; exact a1
      · rw [hpio a1]; exact k2
      · rw [hpio a1]; exact k3
      · rw [hpio a1]; exact k1
    | succ k =>
      obtain ⟨k1, k2, k3⟩ := a5.cycle (adcEnv (none, Option.isSome (none : Option (BitVec 32))))
      refine ⟨.run k, rfl, ⟨?_, f1, ?_, ?_, ?_⟩, hst, htc hm1⟩
      · rw [AdcDev.hw_on]; exact a1
      · rw [hpio a1]; exact k2.trans (hq0 _ a3)
      · rw [hpio a1, k3, a4]; rfl
      · rw [hpio a1]; exact k1
  | out j =>
    obtain ⟨a1, a2, a3, a4, a5⟩ := h
    obtain ⟨f1, hm1⟩ := hfifo a2
    have hcyc : ∀ g, HeadsIn (j - 1) (!odd) none (Pio.cycle twosComplement d.pio (adcEnv (none, g))).core ∧
        (Pio.cycle twosComplement d.pio (adcEnv (none, g))).tx = [] ∧ (Pio.cycle twosComplement d.pio (adcEnv (none, g))).rx = dequeue d.pio.rx (adcEnv (none, g)) := by
      intro g
      cases j with
      | zero => exact a5.stall _ (hq0 g a3)
      | succ j =>
        obtain ⟨k1, k2, k3⟩ := a5.cycle (adcEnv (none, g))
        exact ⟨k1, k2.trans (hq0 g a3), k3⟩
    cases m2 with
    | false =>
      have hm2 : d.moved2 false = none := rfl
      rw [hm1, hm2] at hpio
      obtain ⟨k1, k2, k3⟩ := hcyc (Option.isSome (none : Option (BitVec 32)))
      refine ⟨.out (j - 1), rfl, ⟨?_, f1, ?_, ?_, ?_⟩, by simp [AdcDev.stores, hm2, Way.stores], htc hm1⟩
      · rw [AdcDev.hw_on]; exact a1
      · rw [hpio a1]; exact k2
      · rw [hpio a1, k3, a4]; rfl
      · rw [hpio a1]; exact k1
    | true =>
      have hm2 : d.moved2 true = some (word odd b) := by
        unfold AdcDev.moved2
        rw [a4]
        simp [h2 ⟨j, rfl⟩]
      rw [hm1, hm2] at hpio
      obtain ⟨k1, k2, k3⟩ := hcyc (Option.isSome (some (word odd b)))
      refine ⟨.done (j - 1), rfl, ⟨?_, f1, ?_, ?_, ?_⟩, ?_, htc hm1⟩
      · rw [AdcDev.hw_on]; exact a1
      · rw [hpio a1]; exact k2
      · rw [hpio a1, k3, a4]; rfl
      · rw [hpio a1]; exact k1
      · simp only [AdcDev.stores, hm2, Way.stores, Option.toList_some, List.map_cons, List.map_nil]
        rw [ringValue_eq, word_signed]
  | done j =>
    obtain ⟨a1, a2, a3, a4, a5⟩ := h
    have hm2 := hrx a4
    have hst : d.stores (.cycle m1 m2) = [] := by simp [AdcDev.stores, hm2]
    obtain ⟨f1, hm1⟩ := hfifo a2
    rw [hm1, hm2] at hpio
    have hcyc : HeadsIn (j - 1) (!odd) none (Pio.cycle twosComplement d.pio (adcEnv (none, Option.isSome (none : Option (BitVec 32))))).core ∧
        (Pio.cycle twosComplement d.pio (adcEnv (none, Option.isSome (none : Option (BitVec 32))))).tx = [] ∧
        (Pio.cycle twosComplement d.pio (adcEnv (none, Option.isSome (none : Option (BitVec 32))))).rx = dequeue d.pio.rx (adcEnv (none, Option.isSome (none : Option (BitVec 32)))) := by
      cases j with
      | zero => exact a5.stall _ (hq0 _ a3)
      | succ j =>
        obtain ⟨k1, k2, k3⟩ := a5.cycle (adcEnv (none, Option.isSome (none : Option (BitVec 32))))
        exact ⟨k1, k2.trans (hq0 _ a3), k3⟩
    obtain ⟨k1, k2, k3⟩ := hcyc
    refine ⟨.done (j - 1), rfl, ⟨?_, f1, ?_, ?_, ?_⟩, hst, htc hm1⟩
    · rw [AdcDev.hw_on]; exact a1
    · rw [hpio a1]; exact k2
    · rw [hpio a1, k3, a4]; rfl
    · rw [hpio a1]; exact k1

/-- How far the sample is. -/
def Way.rank : Way → Nat
  | .fifo => 0
  | .run _ => 1
  | .out _ => 2
  | .done _ => 3

/-- Cycles to the next step that does not need the bus. -/
def Way.wait : Way → Nat
  | .fifo => 0
  | .run k => k + 1
  | .out j => j
  | .done j => j

def Way.Ok (w : Way) : Prop := w.wait ≤ 37 ∧ (2 ≤ w.rank → w.wait ≤ 2)

theorem Way.after_ok {w w' : Way} {m1 m2 : Bool} (h : w.after m1 m2 w') (hk : w.Ok) : w'.Ok ∧ w.rank ≤ w'.rank ∧ (m1 = true → 1 ≤ w'.rank) ∧
    (1 ≤ w.rank → 2 ≤ w'.rank ∨ w'.wait + 1 ≤ w.wait) ∧ (2 ≤ w.rank → w'.wait ≤ w.wait - 1) ∧ (2 ≤ w.rank → m2 = true → w'.rank = 3) := by
  cases w with
  | fifo =>
    unfold Way.after at h
    cases m1 with
    | false => simp only [Bool.false_eq_true, if_false] at h; subst h; exact ⟨hk, Nat.le_refl _, (fun h => by cases h), (fun h => by cases h), (fun h => by cases h), (fun h => by cases h)⟩
    | true =>
      simp only [if_true] at h
      obtain ⟨k, hk', rfl⟩ := h
      exact ⟨⟨by simp only [Way.wait]; omega, (fun h => by simp [Way.rank] at h)⟩, by simp [Way.rank], fun _ => Nat.le_refl 1, (fun h => by simp [Way.rank] at h), (fun h => by simp [Way.rank] at h), (fun h => by simp [Way.rank] at h)⟩
  | run k =>
    cases k with
    | zero =>
      obtain ⟨j, hj, rfl⟩ := h
      exact ⟨⟨by simp only [Way.wait]; omega, fun _ => hj⟩, by simp [Way.rank], fun _ => by simp [Way.rank], fun _ => .inl (by simp [Way.rank]), (fun h => by simp [Way.rank] at h), (fun h => by simp [Way.rank] at h)⟩
    | succ k =>
      have h : w' = .run k := h
      subst h
      have := hk.1
      simp only [Way.wait] at this
      exact ⟨⟨by simp only [Way.wait]; omega, (fun h => by simp [Way.rank] at h)⟩, Nat.le_refl _, fun _ => Nat.le_refl 1, fun _ => .inr (by simp [Way.wait]), (fun h => by simp [Way.rank] at h), (fun h => by simp [Way.rank] at h)⟩
  | out j =>
    have hj : j ≤ 2 := hk.2 (by simp [Way.rank])
    unfold Way.after at h
    cases m2 with
    | false =>
      simp only [Bool.false_eq_true, if_false] at h
      subst h
      exact ⟨⟨by simp only [Way.wait]; omega, fun _ => by simp only [Way.wait]; omega⟩, Nat.le_refl _, fun _ => by simp [Way.rank], fun _ => .inl (by simp [Way.rank]), fun _ => Nat.le_refl _, (fun _ h => by cases h)⟩
    | true =>
      simp only [if_true] at h
      subst h
      exact ⟨⟨by simp only [Way.wait]; omega, fun _ => by simp only [Way.wait]; omega⟩, by simp [Way.rank], fun _ => by simp [Way.rank], fun _ => .inl (by simp [Way.rank]), fun _ => Nat.le_refl _, fun _ _ => rfl⟩
  | done j =>
    have hj : j ≤ 2 := hk.2 (by simp [Way.rank])
    have h : w' = .done (j - 1) := h
    subst h
    exact ⟨⟨by simp only [Way.wait]; omega, fun _ => by simp only [Way.wait]; omega⟩, Nat.le_refl _, fun _ => by simp [Way.rank], fun _ => .inl (by simp [Way.rank]), fun _ => Nat.le_refl _, fun _ _ => rfl⟩

/-- With the counts: `c1` and `c2` before the sample came. -/
structure OnWayC (d : AdcDev) (odd : Bool) (b : UInt8) (c1 c2 : Nat) (w : Way) : Prop where
  on : OnWay d odd b w
  ok : w.Ok
  one : d.tc1 = if w.rank = 0 then c1 + 1 else c1
  two : d.adc.tcHw = if w.rank = 3 then c2 else c2 + 1

theorem OnWayC.cycle {d : AdcDev} {odd : Bool} {b : UInt8} {c1 c2 : Nat} {w : Way} (h : OnWayC d odd b c1 c2 w) (m1 m2 : Bool) :
    ∃ w', w.after m1 m2 w' ∧ OnWayC (d.hw (.cycle m1 m2)) odd b c1 c2 w' ∧
      d.stores (.cycle m1 m2) = if w.rank < 3 ∧ w'.rank = 3 then [signed odd b] else [] := by
  obtain ⟨w', k1, k2, k3, k4⟩ := h.on.cycle (fun hw => by rw [h.one, hw, Way.rank, if_pos rfl]; omega)
    (fun ⟨j, hw⟩ => by rw [h.two, hw, Way.rank, if_neg (by omega)]; omega) m1 m2
  have hok := Way.after_ok k1 h.ok
  have h1 := h.one
  have h2 := h.two
  have hadc := d.hw_adc (.cycle m1 m2)
  have hst : d.stores (.cycle m1 m2) = if w.rank < 3 ∧ w'.rank = 3 then [signed odd b] else [] := by
    rw [k3]
    cases w with
    | fifo =>
      unfold Way.after at k1
      cases m1 with
      | false => simp only [Bool.false_eq_true, if_false] at k1; subst k1; simp [Way.stores, Way.rank]
      | true => simp only [if_true] at k1; obtain ⟨k, -, rfl⟩ := k1; simp [Way.stores, Way.rank]
    | run k =>
      cases k with
      | zero => obtain ⟨j, -, rfl⟩ := k1; simp [Way.stores, Way.rank]
      | succ k => have k1 : w' = .run k := k1; subst k1; simp [Way.stores, Way.rank]
    | out j =>
      unfold Way.after at k1
      cases m2 with
      | false => simp only [Bool.false_eq_true, if_false] at k1; subst k1; simp [Way.stores, Way.rank]
      | true => simp only [if_true] at k1; subst k1; simp [Way.stores, Way.rank]
    | done j => have k1 : w' = .done (j - 1) := k1; subst k1; simp [Way.stores, Way.rank]
  refine ⟨w', k1, ⟨k2, hok.1, ?_, ?_⟩, hst⟩
  · rw [k4]
    cases w with
    | fifo =>
      unfold Way.after at k1
      cases m1 with
      | false => simp only [Bool.false_eq_true, if_false] at k1; subst k1; simp only [Way.left]; exact h1
      | true => simp only [if_true] at k1; obtain ⟨k, -, rfl⟩ := k1; simp only [Way.left, h1, Way.rank]; simp
    | run k =>
      have hr : 1 ≤ w'.rank := hok.2.1
      rw [if_neg (by omega)]
      rw [h1]; rfl
    | out j =>
      have hr : 2 ≤ w'.rank := hok.2.1
      rw [if_neg (by omega)]
      rw [h1]; rfl
    | done j =>
      have hr : 3 ≤ w'.rank := hok.2.1
      rw [if_neg (by omega)]
      rw [h1]; rfl
  · rw [hadc, hst]
    have hle : w'.rank ≤ 3 := by cases w' <;> simp [Way.rank]
    have hle2 : w.rank ≤ w'.rank := hok.2.1
    by_cases h3 : w'.rank = 3
    · by_cases h4 : w.rank = 3
      · rw [if_neg (by omega), if_pos h3]
        rw [if_pos h4] at h2
        exact h2
      · rw [if_pos ⟨by omega, h3⟩, if_pos h3]
        rw [if_neg h4] at h2
        show (d.adc.write (signed odd b)).tcHw = c2
        unfold Adc.write
        rw [if_neg (by omega)]
        show d.adc.tcHw - 1 = c2
        omega
    · rw [if_neg (by omega), if_neg h3]
      rw [if_neg (by omega)] at h2
      exact h2

/-- Along a list of cycles. -/
def Way.along : Way → List (Bool × Bool) → Way → Prop
  | w, [], w' => w' = w
  | w, m :: ms, w' => ∃ w1, w.after m.1 m.2 w1 ∧ w1.along ms w'

theorem Way.along_append {ms ns : List (Bool × Bool)} : ∀ {w w' : Way}, w.along (ms ++ ns) w' ↔ ∃ w1, w.along ms w1 ∧ w1.along ns w' := by
  induction ms with
  | nil => intro w w'; exact ⟨fun h => ⟨w, rfl, h⟩, fun ⟨w1, h1, h2⟩ => by rw [show w1 = w from h1] at h2; exact h2⟩
  | cons m ms ih =>
    intro w w'
    constructor
    · rintro ⟨w1, h1, h2⟩
      obtain ⟨w2, h3, h4⟩ := ih.mp h2
      exact ⟨w2, ⟨w1, h1, h3⟩, h4⟩
    · rintro ⟨w2, ⟨w1, h1, h3⟩, h4⟩
      exact ⟨w1, h1, ih.mpr ⟨w2, h3, h4⟩⟩

theorem Way.along_ok : ∀ {ms : List (Bool × Bool)} {w w' : Way}, w.along ms w' → w.Ok → w'.Ok ∧ w.rank ≤ w'.rank ∧
    (1 ≤ w.rank → 2 ≤ w'.rank ∨ w'.wait + ms.length ≤ w.wait) ∧ (2 ≤ w.rank → w'.wait ≤ w.wait - ms.length) := by
  intro ms
  induction ms with
  | nil => intro w w' h hk; have h : w' = w := h; subst h; exact ⟨hk, Nat.le_refl _, fun _ => .inr (Nat.le_refl _), fun _ => Nat.le_refl _⟩
  | cons m ms ih =>
    rintro w w' ⟨w1, h1, h2⟩ hk
    obtain ⟨a1, a2, -, a4, a5, -⟩ := Way.after_ok h1 hk
    obtain ⟨b1, b2, b3, b4⟩ := ih h2 a1
    refine ⟨b1, by omega, fun h => ?_, fun h => ?_⟩
    · rcases a4 h with a4 | a4
      · exact .inl (by omega)
      · rcases b3 (by omega) with b3 | b3
        · exact .inl b3
        · exact .inr (by rw [List.length_cons]; omega)
    · have := a5 h
      have := b4 (by omega)
      rw [List.length_cons]
      omega

theorem OnWayC.cycles {odd : Bool} {b : UInt8} {c1 c2 : Nat} : ∀ {ms : List (Bool × Bool)} {d : AdcDev} {w : Way}, OnWayC d odd b c1 c2 w →
    ∃ w', w.along ms w' ∧ OnWayC (d.hws (cycles ms)) odd b c1 c2 w' ∧
      d.stored (P1P2.cycles ms) = if w.rank < 3 ∧ w'.rank = 3 then [signed odd b] else [] := by
  intro ms
  induction ms with
  | nil => intro d w h; exact ⟨w, rfl, h, by rw [if_neg (by omega)]; rfl⟩
  | cons m ms ih =>
    intro d w h
    obtain ⟨w1, h1, h2, h3⟩ := h.cycle m.1 m.2
    obtain ⟨w2, h4, h5, h6⟩ := ih h2
    refine ⟨w2, ⟨w1, h1, h4⟩, h5, ?_⟩
    show d.stores (.cycle m.1 m.2) ++ (d.hw (.cycle m.1 m.2)).stored (P1P2.cycles ms) = _
    rw [h3, h6]
    have a := (Way.after_ok h1 h.ok).2.1
    have b := (Way.along_ok h4 h2.ok).2.1
    have c : w2.rank ≤ 3 := by cases w2 <;> simp [Way.rank]
    by_cases x : w.rank < 3
    · by_cases y : w1.rank = 3
      · rw [if_pos ⟨x, y⟩, if_neg (by omega), if_pos ⟨x, by omega⟩]; rfl
      · rw [if_neg (by omega)]
        by_cases z : w2.rank = 3
        · rw [if_pos ⟨by omega, z⟩, if_pos ⟨x, z⟩]; rfl
        · rw [if_neg (by omega), if_neg (by omega)]; rfl
    · rw [if_neg (by omega), if_neg (by omega), if_neg (by omega)]; rfl

/-- Nothing on its way; the next code is negated (`odd = false`) or not. -/
def AtRest (d : AdcDev) (odd : Bool) : Prop := d.on = true ∧ d.fifo = [] ∧ d.pio.tx = [] ∧ d.pio.rx = [] ∧ HeadsIn 0 odd none d.pio.core

theorem Way.arrives {A B C : List (Bool × Bool)} {x y : Bool} {w w1 w2 w3 w4 w' : Way} (hok : w.Ok) (q1 : w.along A w1) (q3 : w1.after true x w2) (q5 : w2.along B w3)
    (q7 : w3.after y true w4) (q8 : w4.along C w') (hB : 37 ≤ B.length) (hC : 2 ≤ C.length) : w' = .done 0 := by
  have o1 := Way.along_ok q1 hok
  have o2 := Way.after_ok q3 o1.1
  have o3 := Way.along_ok q5 o2.1
  have o4 := Way.after_ok q7 o3.1
  have o5 := Way.along_ok q8 o4.1
  have r2 : 1 ≤ w2.rank := o2.2.2.1 rfl
  have r3 : 2 ≤ w3.rank := by
    rcases o3.2.2.1 r2 with h | h
    · exact h
    · have hw2 := o2.1.1
      have : w3.wait = 0 := by omega
      have hr := o3.2.1
      cases w3 with
      | fifo => exact absurd (Nat.le_trans r2 hr) (by simp [Way.rank])
      | run k => simp [Way.wait] at this
      | out j => simp [Way.rank]
      | done j => simp [Way.rank]
  have r4 : w4.rank = 3 := o4.2.2.2.2.2 r3 rfl
  have a := o5.2.2.2 (by omega)
  have c := o4.1.2 (by omega)
  have e := o5.2.1
  rw [r4] at e
  have z : w'.wait = 0 := by omega
  cases w' with
  | fifo => simp [Way.rank] at e
  | run k => simp [Way.rank] at e
  | out j => simp [Way.rank] at e
  | done j => rw [show j = 0 from z]

theorem AtRest.sample {d : AdcDev} {odd : Bool} (h : AtRest d odd) {c1 c2 : Nat} (h1 : d.tc1 = c1 + 1) (h2 : d.adc.tcHw = c2 + 1) (b : UInt8)
    {ms : List (Bool × Bool)} (hs : Serves ms) :
    AtRest (d.hws (.convert b :: cycles ms)) (!odd) ∧ d.stored (.convert b :: cycles ms) = [signed odd b] ∧ (d.hws (.convert b :: cycles ms)).tc1 = c1 ∧
      (d.hws (.convert b :: cycles ms)).adc.tcHw = c2 := by
  obtain ⟨a1, a2, a3, a4, a5⟩ := h
  have hc : d.hw (.convert b) = { d with fifo := [b] } := by simp [AdcDev.hw, a2]
  have hw : OnWayC (d.hw (.convert b)) odd b c1 c2 .fifo := by
    rw [hc]
    exact ⟨⟨a1, rfl, a3, a4, a5⟩, ⟨by simp [Way.wait], (fun h => by simp [Way.rank] at h)⟩, h1, h2⟩
  obtain ⟨w', k1, k2, k3⟩ := hw.cycles (ms := ms)
  obtain ⟨A, x, B, y, C, rfl, hB, hC⟩ := hs
  obtain ⟨w1, q1, q2⟩ := Way.along_append.mp k1
  obtain ⟨w2, q3, q4⟩ := q2
  obtain ⟨w3, q5, q6⟩ := Way.along_append.mp q4
  obtain ⟨w4, q7, q8⟩ := q6
  have r5 : w' = .done 0 := Way.arrives hw.ok q1 q3 q5 q7 q8 hB hC
  subst r5
  obtain ⟨b1, b2, b3, b4⟩ := k2
  refine ⟨b1, ?_, b3, b4⟩
  show d.stores (.convert b) ++ (d.hw (.convert b)).stored _ = _
  rw [k3]
  rfl

/-- Samples one after the other. -/
theorem AtRest.samples : ∀ (l : List (UInt8 × List (Bool × Bool))) {d : AdcDev} {odd : Bool} {c1 c2 : Nat}, AtRest d odd → (∀ x ∈ l, Serves x.2) → d.tc1 = c1 + l.length →
    d.adc.tcHw = c2 + l.length →
    AtRest (d.hws (l.flatMap fun x => .convert x.1 :: cycles x.2)) (turn odd l.length) ∧
      d.stored (l.flatMap fun x => .convert x.1 :: cycles x.2) = alternate odd (l.map Prod.fst) ∧
      (d.hws (l.flatMap fun x => .convert x.1 :: cycles x.2)).tc1 = c1 ∧ (d.hws (l.flatMap fun x => .convert x.1 :: cycles x.2)).adc.tcHw = c2 := by
  intro l
  induction l with
  | nil => intro d odd c1 c2 h _ h1 h2; exact ⟨h, rfl, h1, h2⟩
  | cons x l ih =>
    intro d odd c1 c2 h hs h1 h2
    rw [List.length_cons] at h1 h2
    obtain ⟨k1, k2, k3, k4⟩ := h.sample (c1 := c1 + l.length) (c2 := c2 + l.length) (by omega) (by omega) x.1 (hs x (by simp))
    obtain ⟨j1, j2, j3, j4⟩ := ih (c1 := c1) (c2 := c2) k1 (fun y hy => hs y (by simp [hy])) (by omega) (by omega)
    rw [List.flatMap_cons, AdcDev.hws_append]
    refine ⟨by rw [List.length_cons, ← turn_succ]; exact j1, ?_, j3, j4⟩
    have happ : ∀ (a b : List HwEv) (d : AdcDev), d.stored (a ++ b) = d.stored a ++ (d.hws a).stored b := by
      intro a
      induction a with
      | nil => intro b d; rfl
      | cons e a ih => intro b d; rw [List.cons_append, AdcDev.stored, AdcDev.stored, ih, List.append_assoc]; rfl
    rw [happ, k2, j2]
    rfl

theorem AtRest.init (ring : Nat → Int) (rxErr m1 m2 : Bool) : AtRest ((DevSystem.init ring rxErr).dev.hw (.cycle m1 m2)) false ∧
    (DevSystem.init ring rxErr).dev.stores (.cycle m1 m2) = [] ∧ ((DevSystem.init ring rxErr).dev.hw (.cycle m1 m2)).tc1 = adcBlock ∧
    ((DevSystem.init ring rxErr).dev.hw (.cycle m1 m2)).adc.tcHw = adcBlock := by
  have h1 : (DevSystem.init ring rxErr).dev.moved1 m1 = none := by unfold AdcDev.moved1; split <;> rfl
  have h2 : (DevSystem.init ring rxErr).dev.moved2 m2 = none := by unfold AdcDev.moved2; split <;> rfl
  simp only [AdcDev.hw, AdcDev.stores, h1, h2]
  exact ⟨⟨rfl, rfl, rfl, rfl, conv 1 0 7 0 0 0 32, [], rfl, 0, 0, 0, 32, rfl⟩, rfl, rfl, rfl⟩

end P1P2
