import Verif.Props.Pio
/-!
# Property C34: the sign conversion program of the ADC path
-/
namespace P1P2.Pio
open P1P2

/-- Specification: the `k`-th value delivered for the `k`-th sample (samples of channel 0 and 1 alternate). -/
def sampleValue (k : Nat) (b : UInt8) : Int := if k % 2 = 0 then -(b.toNat : Int) else (b.toNat : Int)

/-- A 16-bit read of a word, as `int16_t` (adc.cpp: the ring buffer has 16-bit entries). -/
def wordValue (w : BitVec 32) : Int := toI16 (w.toNat : Int)

/-- Words the reader takes out of the receive FIFO during a run. -/
def delivered (p : Prog) (s : State) : List Env → List (BitVec 32)
  | [] => []
  | e :: es => (if e.get then s.rx.head?.toList else []) ++ delivered p (cycle p s e) es

/-- The ADC's DMA writes a sample or not, the other DMA reads or not. -/
def adcEnv (i : Option UInt8 × Bool) : Env := { put := i.1.map narrow, get := i.2 }

/-- Number of cycles until the program is at `pc`, and the state there. -/
def runTo (p : Prog) (pc : Nat) : Nat → Core → Option (Nat × Core)
  | 0, _ => none
  | n + 1, c => if c.pc = pc ∧ c.wait = 0 then some (0, c)
    else if c.free p then (runTo p pc n (c.step p)).map fun r => (r.1 + 1, r.2) else none

theorem runTo_steps {p : Prog} {pc : Nat} : ∀ {n : Nat} {c c' : Core} {k : Nat}, runTo p pc n c = some (k, c') →
    (∃ l, Core.steps p k c = some (c', l)) ∧ c'.pc = pc ∧ c'.wait = 0 := by
  intro n
  induction n with
  | zero => intro c c' k h; simp [runTo] at h
  | succ n ih =>
    intro c c' k h
    simp only [runTo] at h
    split at h
    · rename_i hc
      simp only [Option.some.injEq, Prod.mk.injEq] at h
      obtain ⟨rfl, rfl⟩ := h
      exact ⟨⟨[], rfl⟩, hc⟩
    · split at h
      · rename_i hf
        simp only [Option.map_eq_some_iff] at h
        obtain ⟨⟨k', c1⟩, h1, h2⟩ := h
        simp only [Prod.mk.injEq] at h2
        obtain ⟨rfl, rfl⟩ := h2
        obtain ⟨⟨l, hl⟩, h3⟩ := ih h1
        exact ⟨⟨((c.step p).pins, (c.step p).irq) :: l, by simp only [Core.steps, hf, if_true, hl]⟩, h3⟩
      · simp at h

/-- Registers of the second program. -/
def conv (pc wait : Nat) (x y osr isr : BitVec 32) (n : Nat) : Core :=
  { pc := pc, wait := wait, x := x, y := y, osr := osr, isr := isr, osrCnt := n, irq := false, pins := 0 }

/-- The word pushed for a sample. -/
def word (odd : Bool) (b : UInt8) : BitVec 32 :=
  if odd then BitVec.ofNat 32 b.toNat else BitVec.ofNat 32 ((65536 - b.toNat) % 65536)

set_option maxRecDepth 8000 in
theorem word_value (k : Nat) (b : UInt8) : wordValue (word (k % 2 == 1) b) = sampleValue k b := by
  have : ∀ n < 256, wordValue (word true (UInt8.ofNat n)) = ((UInt8.ofNat n).toNat : Int) ∧
      wordValue (word false (UInt8.ofNat n)) = -((UInt8.ofNat n).toNat : Int) := by decide +kernel
  have hb : ∀ b, wordValue (word true b) = (b.toNat : Int) ∧ wordValue (word false b) = -(b.toNat : Int) :=
    forall_u8 this
  by_cases h : k % 2 = 1
  · simp [sampleValue, h, (hb b).1]
  · have : k % 2 = 0 := by omega
    simp [sampleValue, this, (hb b).2]

/-- Where the program waits next: at a pull (no sample in work) or at a push (with the converted sample). -/
def Target (odd : Bool) (busy : Option UInt8) (c : Core) : Prop :=
  ∃ x y osr n, match odd, busy with
    | false, none => c = conv 1 0 7 y osr 0 n
    | false, some b => c = conv 15 0 x y osr (word false b) n
    | true, none => c = conv 16 0 x y osr 0 n
    | true, some b => c = conv 20 0 x y osr (word true b) n

/-- The program gets to its next FIFO access without further input. -/
def Toward (odd : Bool) (busy : Option UInt8) (c : Core) : Prop :=
  ∃ k c' l, Core.steps twosComplement k c = some (c', l) ∧ Target odd busy c'

set_option maxRecDepth 8000 in
theorem neg_all : ∀ n < 256,
    (runTo twosComplement 15 64 ((conv 2 0 7 0 (narrow (UInt8.ofNat n)) 0 0).step twosComplement)).map
      (fun r => decide (r.2 = conv 15 0 r.2.x r.2.y r.2.osr (word false (UInt8.ofNat n)) r.2.osrCnt)) = some true := by
  decide +kernel

theorem toward_neg (y : BitVec 32) (b : UInt8) : Toward false (some b) (conv 2 0 7 y (narrow b) 0 0) := by
  have hall : ∀ b, (runTo twosComplement 15 64 ((conv 2 0 7 0 (narrow b) 0 0).step twosComplement)).map
      (fun r => decide (r.2 = conv 15 0 r.2.x r.2.y r.2.osr (word false b) r.2.osrCnt)) = some true := forall_u8 neg_all
  have h := hall b
  simp only [Option.map_eq_some_iff] at h
  obtain ⟨⟨k, c'⟩, h1, h2⟩ := h
  simp only [decide_eq_true_eq] at h2
  obtain ⟨⟨l, hl⟩, _⟩ := runTo_steps h1
  have hs : (conv 2 0 7 y (narrow b) 0 0).step twosComplement = (conv 2 0 7 0 (narrow b) 0 0).step twosComplement := rfl
  have hf : (conv 2 0 7 y (narrow b) 0 0).free twosComplement = true := rfl
  rw [← hs] at hl
  exact ⟨k + 1, c', _, by simp only [Core.steps, hf, if_true, hl]; rfl, c'.x, c'.y, c'.osr, c'.osrCnt, h2⟩

set_option maxRecDepth 8000 in
theorem toward_plain (x y : BitVec 32) (b : UInt8) : Toward true (some b) (conv 17 7 x y (narrow b) 0 0) := by
  have hw : ∀ b, shiftIn (shiftIn 0 (lowBits (narrow b) 8) 8) 0 24 = word true b := forall_u8 (by decide +kernel)
  have h0 : Core.steps twosComplement 7 (conv 17 7 x y (narrow b) 0 0) =
      some (conv 17 0 x y (narrow b) 0 0, List.replicate 7 (0, false)) :=
    Core.wait_steps twosComplement 7 (conv 17 7 x y (narrow b) 0 0) rfl
  have h1 := Core.instr_steps twosComplement (i := ⟨.outY 8, none, 7⟩) (conv 17 0 x y (narrow b) 0 0) rfl rfl
    (by simp) (by simp) rfl
  have h2 := Core.instr_steps twosComplement (i := ⟨.inY 8, none, 7⟩)
    (conv 18 0 x (lowBits (narrow b) 8) ((narrow b).ushiftRight 8) 0 8) rfl rfl (by simp) (by simp) rfl
  have h3 := Core.instr_steps twosComplement (i := ⟨.inNull 24, none, 7⟩)
    (conv 19 0 x (lowBits (narrow b) 8) ((narrow b).ushiftRight 8) (shiftIn 0 (lowBits (narrow b) 8) 8) 8) rfl rfl
    (by simp) (by simp) rfl
  have h4 := Core.steps_add (Core.steps_add (Core.steps_add h0 h1) h2) h3
  exact ⟨_, _, _, h4, x, lowBits (narrow b) 8, (narrow b).ushiftRight 8, 8, by
    simp only []
    rw [← hw b]
    rfl⟩

theorem toward_entry (x y osr : BitVec 32) (n : Nat) : Toward false none (conv 21 0 x y osr 0 n) := by
  have h1 := Core.instr_steps twosComplement (i := ⟨.jmp .always 0, none, 0⟩) (conv 21 0 x y osr 0 n) rfl rfl
    (by simp) (by simp) rfl
  have h2 := Core.instr_steps twosComplement (i := ⟨.setX 7, none, 0⟩) (conv 0 0 x y osr 0 n) rfl rfl
    (by simp) (by simp) rfl
  exact ⟨_, _, _, Core.steps_add h1 h2, 7, y, osr, n, rfl⟩

/-- Sample `b` in conversion, if any. -/
def flying (busy : Option UInt8) : List UInt8 := busy.toList

/-- Invariant of the conversion: `outs` are all words pushed so far, for the samples `dn`; one may be in work. -/
structure ConvInv (s : State) (outs : List (BitVec 32)) (bytes : List UInt8) : Prop where
  ex : ∃ (dn : List UInt8) (busy : Option UInt8) (q : List UInt8),
    bytes = dn ++ flying busy ++ q ∧ s.tx = q.map narrow ∧ outs.map wordValue = dn.mapIdx sampleValue ∧
    Toward (dn.length % 2 == 1) busy s.core

theorem ConvInv.init : ConvInv reset [] [] where
  ex := ⟨[], none, [], rfl, rfl, rfl, 1, _, _, rfl, 0, 0, 0, 32, rfl⟩

theorem ConvInv.step {s : State} {d : List (BitVec 32)} {bytes : List UInt8} (h : ConvInv s (d ++ s.rx) bytes)
    (i : Option UInt8 × Bool) (hp : (adcEnv i).put ≠ none → s.tx.length < twosComplement.txDepth) :
    ConvInv (cycle twosComplement s (adcEnv i))
      (d ++ (if (adcEnv i).get then s.rx.head?.toList else []) ++ (cycle twosComplement s (adcEnv i)).rx)
      (bytes ++ i.1.toList) := by
  obtain ⟨dn, busy, q, hb, htx, hout, k, c', l, hst, htg⟩ := h.ex
  have henq : enqueue twosComplement s.tx (adcEnv i) = (q ++ i.1.toList).map narrow := by
    obtain ⟨p, g⟩ := i
    cases p with
    | none => simp [enqueue, adcEnv, htx]
    | some b =>
      have := hp (by simp [adcEnv])
      simp [enqueue, adcEnv, this]
      exact htx
  have hdeq : (if (adcEnv i).get then s.rx.head?.toList else []) ++ dequeue s.rx (adcEnv i) = s.rx := by
    unfold dequeue
    by_cases hg : (adcEnv i).get
    · simp only [hg, if_true]
      cases s.rx <;> simp
    · simp [hg]
  generalize hpop : (if (adcEnv i).get then s.rx.head?.toList else []) = pop at hdeq ⊢
  cases k with
  | succ k =>
    simp only [Core.steps] at hst
    split at hst
    · rename_i hf
      rw [cycle_free hf]
      split at hst
      · rename_i c1 l1 he
        simp only [Option.some.injEq, Prod.mk.injEq] at hst
        obtain ⟨rfl, _⟩ := hst
        refine ⟨dn, busy, q ++ i.1.toList, by simp [hb], henq, ?_, k, c1, l1, he, htg⟩
        simp only [List.append_assoc, hdeq, hout]
      · simp at hst
    · simp at hst
  | zero =>
    simp only [Core.steps, Option.some.injEq, Prod.mk.injEq] at hst
    obtain ⟨rfl, _⟩ := hst
    obtain ⟨x, y, osr, n, ht⟩ := htg
    have hsp : ∀ (outs : List (BitVec 32)) (b : UInt8), outs.map wordValue = dn.mapIdx sampleValue →
        (outs ++ [word (dn.length % 2 == 1) b]).map wordValue = (dn ++ [b]).mapIdx sampleValue := by
      intro outs b ho
      rw [List.map_append, ho, List.mapIdx_concat]
      simp [word_value]
    have hpar : ((dn.length + 1) % 2 == 1) = !(dn.length % 2 == 1) := by
      by_cases hd : dn.length % 2 = 1
      · have : (dn.length + 1) % 2 = 0 := by omega
        simp [hd, this]
      · have h1 : dn.length % 2 = 0 := by omega
        have : (dn.length + 1) % 2 = 1 := by omega
        simp [h1, this]
    have hD : twosComplement.rxDepth = 4 := rfl
    generalize hodd : (dn.length % 2 == 1) = odd at ht hsp hpar
    cases odd <;> cases busy with
    | none =>
      simp only at ht
      first
      | (have hi : twosComplement.at 1 = ⟨.pull, none, 0⟩ := rfl
         have hc : cycle twosComplement s (adcEnv i) = match (q ++ i.1.toList).map narrow with
            | [] => { core := s.core, tx := [], rx := dequeue s.rx (adcEnv i) }
            | w :: r => { core := conv 2 0 7 y w 0 0, tx := r, rx := dequeue s.rx (adcEnv i) } := by
           simp only [cycle, ht, conv, hi, henq]
           rfl
         rw [hc]
         cases hq : q ++ i.1.toList with
         | nil =>
           refine ⟨dn, none, [], by rw [hb, List.append_assoc, hq], rfl, ?_, 0, s.core, [], rfl, x, y, osr, n, ?_⟩
           · simp only [List.map_nil, List.append_assoc, hdeq, hout]
           · rw [hodd]; exact ht
         | cons b r =>
           refine ⟨dn, some b, r, ?_, rfl, ?_, ?_⟩
           · rw [hb]; simp [flying, hq]
           · simp only [List.map_cons, List.append_assoc, hdeq, hout]
           · rw [hodd]; exact toward_neg y b)
      | (have hi : twosComplement.at 16 = ⟨.pull, none, 7⟩ := rfl
         have hc : cycle twosComplement s (adcEnv i) = match (q ++ i.1.toList).map narrow with
            | [] => { core := s.core, tx := [], rx := dequeue s.rx (adcEnv i) }
            | w :: r => { core := conv 17 7 x y w 0 0, tx := r, rx := dequeue s.rx (adcEnv i) } := by
           simp only [cycle, ht, conv, hi, henq]
           rfl
         rw [hc]
         cases hq : q ++ i.1.toList with
         | nil =>
           refine ⟨dn, none, [], by rw [hb, List.append_assoc, hq], rfl, ?_, 0, s.core, [], rfl, x, y, osr, n, ?_⟩
           · simp only [List.map_nil, List.append_assoc, hdeq, hout]
           · rw [hodd]; exact ht
         | cons b r =>
           refine ⟨dn, some b, r, ?_, rfl, ?_, ?_⟩
           · rw [hb]; simp [flying, hq]
           · simp only [List.map_cons, List.append_assoc, hdeq, hout]
           · rw [hodd]; exact toward_plain x y b)
    | some b =>
      simp only at ht
      first
      | (have hi : twosComplement.at 15 = ⟨.push, none, 0⟩ := rfl
         have hc : cycle twosComplement s (adcEnv i) = if (dequeue s.rx (adcEnv i)).length < 4 then
              { core := conv 16 0 x y osr 0 n, tx := (q ++ i.1.toList).map narrow, rx := dequeue s.rx (adcEnv i) ++ [word false b] }
            else { core := s.core, tx := (q ++ i.1.toList).map narrow, rx := dequeue s.rx (adcEnv i) } := by
           simp only [cycle, ht, conv, hi, henq, hD]
           rfl
         rw [hc]
         split
         · refine ⟨dn ++ [b], none, q ++ i.1.toList, ?_, rfl, ?_, ?_⟩
           · rw [hb]; simp [flying]
           · rw [← List.append_assoc, List.append_assoc (bs := pop), hdeq]
             exact hsp _ b hout
           · rw [List.length_append, List.length_singleton, hpar]
             exact ⟨0, _, [], rfl, x, y, osr, n, rfl⟩
         · refine ⟨dn, some b, q ++ i.1.toList, by rw [hb]; simp, rfl, ?_, 0, s.core, [], rfl, x, y, osr, n, ?_⟩
           · simp only [List.append_assoc, hdeq, hout]
           · rw [hodd]; exact ht)
      | (have hi : twosComplement.at 20 = ⟨.push, none, 0⟩ := rfl
         have hc : cycle twosComplement s (adcEnv i) = if (dequeue s.rx (adcEnv i)).length < 4 then
              { core := conv 21 0 x y osr 0 n, tx := (q ++ i.1.toList).map narrow, rx := dequeue s.rx (adcEnv i) ++ [word true b] }
            else { core := s.core, tx := (q ++ i.1.toList).map narrow, rx := dequeue s.rx (adcEnv i) } := by
           simp only [cycle, ht, conv, hi, henq, hD]
           rfl
         rw [hc]
         split
         · refine ⟨dn ++ [b], none, q ++ i.1.toList, ?_, rfl, ?_, ?_⟩
           · rw [hb]; simp [flying]
           · rw [← List.append_assoc, List.append_assoc (bs := pop), hdeq]
             exact hsp _ b hout
           · rw [List.length_append, List.length_singleton, hpar]
             exact toward_entry x y osr n
         · refine ⟨dn, some b, q ++ i.1.toList, by rw [hb]; simp, rfl, ?_, 0, s.core, [], rfl, x, y, osr, n, ?_⟩
           · simp only [List.append_assoc, hdeq, hout]
           · rw [hodd]; exact ht)

theorem ConvInv.run {s : State} {d : List (BitVec 32)} {bytes : List UInt8} (h : ConvInv s (d ++ s.rx) bytes)
    (ins : List (Option UInt8 × Bool)) (hp : paced twosComplement s (ins.map adcEnv)) :
    ConvInv (final twosComplement s (ins.map adcEnv))
      (d ++ delivered twosComplement s (ins.map adcEnv) ++ (final twosComplement s (ins.map adcEnv)).rx)
      (bytes ++ ins.filterMap Prod.fst) := by
  induction ins generalizing s d bytes with
  | nil => simpa [final, delivered] using h
  | cons i ins ih =>
    have := ih (h.step i hp.1) hp.2
    rw [show bytes ++ (i :: ins).filterMap Prod.fst = bytes ++ i.1.toList ++ ins.filterMap Prod.fst by
      cases hi : i.1 <;> simp [hi]]
    simp only [List.map_cons, delivered, final, List.foldl_cons]
    rw [← List.append_assoc]
    exact this

/-- **C34**: whatever samples arrive whenever, and whenever the results are read: the words delivered so far and
those waiting in the receive FIFO are, in order, the conversions of the first samples, alternately negated and plain;
of the remaining samples at most one is in conversion and the others wait in the transmit FIFO. -/
theorem C34_sign_conversion (ins : List (Option UInt8 × Bool)) (hp : paced twosComplement reset (ins.map adcEnv)) :
    ∃ dn fly q, ins.filterMap Prod.fst = dn ++ fly ++ q ∧ fly.length ≤ 1 ∧
      (final twosComplement reset (ins.map adcEnv)).tx = q.map narrow ∧
      (delivered twosComplement reset (ins.map adcEnv) ++ (final twosComplement reset (ins.map adcEnv)).rx).map wordValue =
        dn.mapIdx sampleValue := by
  have h0 : ConvInv reset ([] ++ reset.rx) [] := ConvInv.init
  obtain ⟨dn, busy, q, h1, h2, h3, _⟩ := (h0.run ins hp).ex
  simp only [List.nil_append] at h1 h3
  exact ⟨dn, flying busy, q, h1, by cases busy <;> simp [flying], h2, h3⟩

/-- Non-vacuity and a look at the result: three samples, read as they come. -/
example :
    let ins : List (Option UInt8 × Bool) := [(some 5, true), (some 7, true), (some 0, true)] ++ List.replicate 120 (none, true)
    (delivered twosComplement reset (ins.map adcEnv)).map wordValue = [-5, 7, 0] := by
  decide +kernel

example : paced twosComplement reset ([(some 5, true), (some 7, true), (some 0, false)].map adcEnv) :=
  ⟨fun _ => by decide, fun _ => by decide +kernel, fun _ => by decide +kernel, trivial⟩

end P1P2.Pio
