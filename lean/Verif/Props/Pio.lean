import Verif.Model.Pio
import Verif.Spec.TxRef
/-!
# Properties C31-C34: the PIO programs
-/
namespace P1P2.Pio
open P1P2

/-- Voltage on the bus for the two pins, p1p2_uart_tx.pio:11-14. -/
def levelOf (pins : Nat) : Level := if pins = 3 then .up else if pins = 0 then .down else .mid

/-! ## Running between FIFO accesses -/

/-- The next cycle does not touch the FIFOs. -/
def Core.free (p : Prog) (c : Core) : Bool :=
  c.wait > 0 || ((p.at c.pc).op ≠ .pull && (p.at c.pc).op ≠ .push)

/-- A cycle that does not touch the FIFOs. -/
def Core.step (p : Prog) (c : Core) : Core :=
  if c.wait > 0 then { c with wait := c.wait - 1 } else c.exec p.thr (p.at c.pc)

theorem cycle_free {p : Prog} {s : State} {e : Env} (h : s.core.free p = true) :
    cycle p s e = { core := s.core.step p, tx := enqueue p s.tx e, rx := dequeue s.rx e } := by
  unfold cycle Core.step
  by_cases hw : s.core.wait > 0
  · simp [hw]
  · simp only [Core.free, hw, decide_false, Bool.false_or, Bool.and_eq_true, decide_eq_true_eq, ne_eq] at h
    simp only [hw, if_false]
    split
    · rename_i h1; exact absurd h1 h.1
    · rename_i h1; exact absurd h1 h.2
    · rfl

/-- `n` cycles without FIFO access, with what the pins and the flag are in each; `none` if one is needed. -/
def Core.steps (p : Prog) : Nat → Core → Option (Core × List (Nat × Bool))
  | 0, c => some (c, [])
  | n + 1, c => if c.free p then
      match Core.steps p n (c.step p) with
      | some (c', l) => some (c', ((c.step p).pins, (c.step p).irq) :: l)
      | none => none
    else none

/-- What an observer of pins and flag sees. -/
def view (o : Nat × Bool) : Level × Bool := (levelOf o.1, o.2)

/-- State in front of `pull`, with `y` as the last frame left it. -/
def atPull (y osr : BitVec 32) (n : Nat) : Core :=
  { pc := 1, wait := 0, x := 0, y := y, osr := osr, isr := 0, osrCnt := n, irq := false, pins := 1 }

/-- State behind `pull`. -/
def pulled (y w : BitVec 32) : Core :=
  { pc := 2, wait := 0, x := 0, y := y, osr := w, isr := 0, osrCnt := 0, irq := false, pins := 1 }

/-! ## One frame -/

theorem Core.steps_add {p : Prog} {m n : Nat} {c c1 c2 : Core} {l1 l2 : List (Nat × Bool)}
    (h1 : Core.steps p m c = some (c1, l1)) (h2 : Core.steps p n c1 = some (c2, l2)) :
    Core.steps p (m + n) c = some (c2, l1 ++ l2) := by
  induction m generalizing c l1 with
  | zero =>
    simp only [Core.steps, Option.some.injEq, Prod.mk.injEq] at h1
    obtain ⟨rfl, rfl⟩ := h1
    simpa using h2
  | succ m ih =>
    rw [Nat.succ_add]
    simp only [Core.steps] at h1 ⊢
    split at h1
    · rename_i hf
      simp only [hf, if_true]
      split at h1
      · rename_i c' l' he
        simp only [Option.some.injEq, Prod.mk.injEq] at h1
        obtain ⟨rfl, rfl⟩ := h1
        rw [ih he]
        simp
      · simp at h1
    · simp at h1

theorem Core.wait_steps (p : Prog) (n : Nat) : ∀ c : Core, c.wait = n →
    Core.steps p n c = some ({ c with wait := 0 }, List.replicate n (c.pins, c.irq)) := by
  induction n with
  | zero => intro c h; simp [Core.steps, ← h]
  | succ n ih =>
    intro c h
    have hw : c.wait > 0 := by omega
    have hs : c.step p = { c with wait := n } := by simp [Core.step, hw, h]
    have hf : c.free p = true := by simp [Core.free, hw]
    have := ih { c with wait := n } rfl
    simp only at this
    simp [Core.steps, hf, hs, this, List.replicate_succ]

theorem Core.steps_cast {p : Prog} {n m : Nat} {c d d' : Core} {l l' : List (Nat × Bool)}
    (h : Core.steps p n c = some (d, l)) (hn : n = m) (hd : d = d') (hl : l = l') :
    Core.steps p m c = some (d', l') := by subst hn hd hl; exact h

/-- An instruction without FIFO access and its delay cycles. -/
theorem Core.instr_steps (p : Prog) {i : Instr} (c : Core) (hi : p.at c.pc = i) (hw : c.wait = 0)
    (h1 : i.op ≠ .pull) (h2 : i.op ≠ .push) (hd : (c.exec p.thr i).wait = i.delay) :
    Core.steps p (1 + i.delay) c =
      some ({ c.exec p.thr i with wait := 0 },
        List.replicate (1 + i.delay) ((c.exec p.thr i).pins, (c.exec p.thr i).irq)) := by
  have hs : c.step p = c.exec p.thr i := by simp [Core.step, hw, hi]
  have hf : c.free p = true := by simp [Core.free, hw, hi, h1, h2]
  have := Core.wait_steps p i.delay (c.exec p.thr i) hd
  rw [Nat.add_comm]
  simp [Core.steps, hf, hs, this, List.replicate_succ]

/-- State during a frame. -/
def frameAt (pc pins : Nat) (y o : BitVec 32) (k : Nat) : Core :=
  { pc := pc, wait := 0, x := 0, y := y, osr := o, isr := 0, osrCnt := k, irq := true, pins := pins }

/-- Outputs: `n` cycles of a level. -/
def out (n pins : Nat) : List (Nat × Bool) := List.replicate n (pins, true)

theorem nop_steps (pc side d pins : Nat) (y o : BitVec 32) (k : Nat)
    (hi : uartTx.at pc = ⟨.nop, some side, d⟩) :
    Core.steps uartTx (1 + d) (frameAt pc pins y o k) = some (frameAt (pc + 1) side y o k, out (1 + d) side) :=
  Core.instr_steps uartTx (frameAt pc pins y o k) hi rfl (by simp) (by simp) rfl

theorem jmp_steps (pc side d t pins : Nat) (y o : BitVec 32) (k : Nat)
    (hi : uartTx.at pc = ⟨.jmp .always t, some side, d⟩) :
    Core.steps uartTx (1 + d) (frameAt pc pins y o k) = some (frameAt t side y o k, out (1 + d) side) :=
  Core.instr_steps uartTx (frameAt pc pins y o k) hi rfl (by simp) (by simp) rfl

theorem osre_steps (pc t pins : Nat) (y o : BitVec 32) (k : Nat)
    (hi : uartTx.at pc = ⟨.jmp .notOsre t, some 1, 0⟩) :
    Core.steps uartTx 1 (frameAt pc pins y o k) =
      some (frameAt (if k < 8 then t else pc + 1) 1 y o k, out 1 1) := by
  have h8 : uartTx.thr = 8 := rfl
  simp only [Core.steps, Core.free, Core.step, frameAt, hi, Core.exec, h8, out]
  by_cases h : k < 8 <;> simp [h]

theorem lowBits_one (o : BitVec 32) : lowBits o 1 = 0#32 ↔ o.getLsbD 0 = false := by
  constructor
  · intro h
    have := congrArg (fun v => BitVec.getLsbD v 0) h
    simpa [lowBits] using this
  · intro h
    apply BitVec.eq_of_getLsbD_eq
    intro i hi
    have h1 : BitVec.ofNat 32 (2 ^ 1 - 1) = 1#32 := rfl
    rw [lowBits, h1, BitVec.getLsbD_and]
    cases i with
    | zero => rw [h]; rfl
    | succ i => simp [BitVec.getLsbD_one]

theorem one_bit (o y : BitVec 32) (k : Nat) (odd : Bool) (hk : k < 8) :
    Core.steps uartTx 16 (frameAt (if odd then 4 else 12) 1 y o k) =
      some (frameAt (if (if o.getLsbD 0 then odd else !odd) then (if k + 1 < 8 then 4 else 21)
        else (if k + 1 < 8 then 12 else 27)) 1 (lowBits o 1) (o.ushiftRight 1) (k + 1),
        out 2 1 ++ out 8 (if o.getLsbD 0 then 2 else if odd then 0 else 3) ++ out 6 1) := by
  have hm : min 32 (k + 1) = k + 1 := by omega
  have hb := lowBits_one o
  have hout : ∀ odd : Bool, Core.steps uartTx 1 (frameAt (if odd then 4 else 12) 1 y o k) =
      some (frameAt (if odd then 5 else 13) 1 (lowBits o 1) (o.ushiftRight 1) (k + 1), out 1 1) := by
    intro odd
    have h5 : uartTx.at (if odd then 4 else 12) = ⟨.outY 1, some 1, 0⟩ := by cases odd <;> rfl
    simp only [Core.steps, Core.free, Core.step, frameAt, h5, Core.exec, out, hm]
    cases odd <;> rfl
  have hbr : ∀ odd : Bool, Core.steps uartTx 1 (frameAt (if odd then 5 else 13) 1 (lowBits o 1) (o.ushiftRight 1) (k + 1)) =
      some (frameAt (if o.getLsbD 0 then (if odd then 6 else 14) else (if odd then 9 else 17)) 1 (lowBits o 1)
        (o.ushiftRight 1) (k + 1), out 1 1) := by
    intro odd
    have h5 : uartTx.at (if odd then 5 else 13) = ⟨.jmp .notY (if odd then 9 else 17), some 1, 0⟩ := by
      cases odd <;> rfl
    simp only [Core.steps, Core.free, Core.step, frameAt, h5, Core.exec, out]
    by_cases h : o.getLsbD 0
    · have : ¬ lowBits o 1 = 0#32 := by rw [hb]; simp [h]
      simp [this, h]
      cases odd <;> rfl
    · have : lowBits o 1 = 0#32 := by rw [hb]; simpa using h
      simp at h
      simp [this, h]
  have hmid : ∀ (odd one : Bool) (y' o' : BitVec 32) (k' : Nat),
      Core.steps uartTx 13 (frameAt (if one then (if odd then 6 else 14) else (if odd then 9 else 17)) 1 y' o' k') =
      some (frameAt (if (if one then odd else !odd) then 20 else 26) 1 y' o' k',
        out 8 (if one then 2 else if odd then 0 else 3) ++ out 5 1) := by
    intro odd one y' o' k'
    cases odd <;> cases one
    · exact Core.steps_cast (Core.steps_add (Core.steps_add (nop_steps 17 3 7 1 y' o' k' rfl) (nop_steps 18 1 3 _ y' o' k' rfl))
        (jmp_steps 19 1 0 20 _ y' o' k' rfl)) rfl rfl rfl
    · exact Core.steps_cast (Core.steps_add (Core.steps_add (nop_steps 14 2 7 1 y' o' k' rfl) (nop_steps 15 1 3 _ y' o' k' rfl))
        (jmp_steps 16 1 0 26 _ y' o' k' rfl)) rfl rfl rfl
    · exact Core.steps_cast (Core.steps_add (Core.steps_add (nop_steps 9 0 7 1 y' o' k' rfl) (nop_steps 10 1 3 _ y' o' k' rfl))
        (jmp_steps 11 1 0 26 _ y' o' k' rfl)) rfl rfl rfl
    · exact Core.steps_cast (Core.steps_add (Core.steps_add (nop_steps 6 2 7 1 y' o' k' rfl) (nop_steps 7 1 3 _ y' o' k' rfl))
        (jmp_steps 8 1 0 20 _ y' o' k' rfl)) rfl rfl rfl
  have hend : ∀ odd : Bool, Core.steps uartTx 1 (frameAt (if odd then 20 else 26) 1 (lowBits o 1) (o.ushiftRight 1) (k + 1)) =
      some (frameAt (if odd then (if k + 1 < 8 then 4 else 21) else (if k + 1 < 8 then 12 else 27)) 1 (lowBits o 1)
        (o.ushiftRight 1) (k + 1), out 1 1) := by
    intro odd
    cases odd
    · exact osre_steps 26 12 1 _ _ _ rfl
    · exact osre_steps 20 4 1 _ _ _ rfl
  have := Core.steps_add (Core.steps_add (Core.steps_add (hout odd) (hbr odd)) (hmid odd (o.getLsbD 0) _ _ _)) (hend _)
  refine Core.steps_cast this rfl rfl ?_
  simp [out, List.replicate]

/-- Polarity of the next pulse after some bits. -/
def endPol (pol : Bool) : List Bool → Bool
  | [] => pol
  | true :: bs => endPol pol bs
  | false :: bs => endPol (!pol) bs

theorem ami_append (pol : Bool) (a b : List Bool) : ami pol (a ++ b) = ami pol a ++ ami (endPol pol a) b := by
  induction a generalizing pol with
  | nil => rfl
  | cons x a ih => cases x <;> simp [ami, endPol, ih]

/-- A bit as the loop sends it: the end of the previous one first. -/
def shifted (l : Level) : List Level := [.mid, .mid] ++ List.replicate 8 l ++ List.replicate 6 .mid

theorem shifted_all (ls : List Level) :
    ls.flatMap shifted ++ [.mid, .mid] = [.mid, .mid] ++ ls.flatMap bitWave := by
  induction ls with
  | nil => rfl
  | cons l ls ih =>
    simp only [List.flatMap_cons, List.append_assoc, ih]
    simp [shifted, bitWave, List.replicate]

/-- What is seen of a level with the flag set. -/
theorem view_out (n pins : Nat) : (out n pins).map view = List.replicate n (levelOf pins, true) := by
  simp [out, view]

theorem data_bits (n : Nat) : ∀ (o y : BitVec 32) (k : Nat) (odd : Bool), k + (n + 1) = 8 →
    ∃ y' o' l, Core.steps uartTx (16 * (n + 1)) (frameAt (if odd then 4 else 12) 1 y o k) =
      some (frameAt (if endPol (!odd) ((List.range (n + 1)).map o.getLsbD) then 27 else 21) 1 y' o' 8, l) ∧
      l.map view = ((ami (!odd) ((List.range (n + 1)).map o.getLsbD)).flatMap shifted).map (fun x => (x, true)) := by
  induction n with
  | zero =>
    intro o y k odd hk
    have hk7 : k = 7 := by omega
    subst hk7
    have hb1 : (List.range (0 + 1)).map o.getLsbD = [o.getLsbD 0] := rfl
    rw [hb1]
    refine ⟨lowBits o 1, o.ushiftRight 1, _, Core.steps_cast (one_bit o y 7 odd (by omega)) rfl ?_ rfl, ?_⟩ <;>
    cases h0 : o.getLsbD 0 <;> cases odd <;>
      simp [endPol, ami, shifted, view, out, levelOf, List.replicate, h0]
  | succ n ih =>
    intro o y k odd hk
    have h1 := one_bit o y k odd (by omega)
    have hk8 : k + 1 < 8 := by omega
    simp only [hk8, if_true] at h1
    obtain ⟨y', o', l, h2, h3⟩ := ih (o.ushiftRight 1) (lowBits o 1) (k + 1)
      (if o.getLsbD 0 then odd else !odd) (by omega)
    have hbits : (List.range (n + 1 + 1)).map o.getLsbD =
        o.getLsbD 0 :: (List.range (n + 1)).map (o.ushiftRight 1).getLsbD := by
      rw [List.range_succ_eq_map]
      simp only [List.map_cons, List.map_map, List.cons.injEq, true_and]
      apply List.map_congr_left
      intro i _
      simp [Nat.add_comm]
    refine ⟨y', o', _, Core.steps_cast (Core.steps_add h1 h2) (by omega) ?_ rfl, ?_⟩
    · rw [hbits]
      cases h0 : o.getLsbD 0 <;> cases odd <;> simp [endPol]
    · rw [hbits, List.map_append, h3]
      cases h0 : o.getLsbD 0 <;> cases odd <;>
        simp [ami, shifted, view, out, levelOf, List.replicate]

theorem start_bit (y w : BitVec 32) :
    Core.steps uartTx 14 (pulled y w) = some (frameAt 4 1 y w 0, out 8 3 ++ out 6 1) := by
  have h1 : Core.steps uartTx (1 + 7) (pulled y w) = some (frameAt 3 3 y w 0, out (1 + 7) 3) :=
    Core.instr_steps uartTx (i := ⟨.irqSet, some 3, 7⟩) (pulled y w) rfl rfl (by simp) (by simp) rfl
  exact Core.steps_cast (Core.steps_add h1 (nop_steps 3 1 5 3 y w 0 rfl)) rfl rfl rfl

/-- Parity bit, stop bit and the first idle cycle. -/
theorem frame_end (y o : BitVec 32) (even : Bool) :
    Core.steps uartTx 32 (frameAt (if even then 27 else 21) 1 y o 8) =
      some (atPull y o 8, out 2 1 ++ out 8 (if even then 2 else 0) ++ out 8 1 ++ out 8 2 ++ out 5 1 ++ [(1, false)]) := by
  have hclr : Core.steps uartTx (1 + 0) (frameAt 0 1 y o 8) = some (atPull y o 8, [(1, false)]) :=
    Core.instr_steps uartTx (i := ⟨.irqClear, some 1, 0⟩) (frameAt 0 1 y o 8) rfl rfl (by simp) (by simp) rfl
  cases even
  · exact Core.steps_cast (Core.steps_add (Core.steps_add (Core.steps_add (Core.steps_add (Core.steps_add
      (nop_steps 21 1 1 1 y o 8 rfl) (nop_steps 22 0 7 1 y o 8 rfl)) (nop_steps 23 1 7 0 y o 8 rfl))
      (nop_steps 24 2 7 1 y o 8 rfl)) (jmp_steps 25 1 4 0 2 y o 8 rfl)) hclr) rfl rfl rfl
  · exact Core.steps_cast (Core.steps_add (Core.steps_add (Core.steps_add (Core.steps_add (Core.steps_add
      (nop_steps 27 1 1 1 y o 8 rfl) (nop_steps 28 2 7 1 y o 8 rfl)) (nop_steps 29 1 7 2 y o 8 rfl))
      (nop_steps 30 2 7 1 y o 8 rfl)) (jmp_steps 31 1 4 0 2 y o 8 rfl)) hclr) rfl rfl rfl

set_option maxRecDepth 8000 in
theorem parity_pol (b : UInt8) :
    endPol false ((List.range 8).map (bitOf b)) = (onesOf b % 2 == 1) := by
  revert b
  exact forall_u8 (by decide)

theorem frame_steps (y w : BitVec 32) (b : UInt8) (hw : ∀ k < 8, w.getLsbD k = bitOf b k) :
    ∃ y' o' l, Core.steps uartTx 174 (pulled y w) = some (atPull y' o' 8, l) ∧ l.map view = burst b := by
  have hbits : (List.range (7 + 1)).map w.getLsbD = (List.range 8).map (bitOf b) := by
    apply List.map_congr_left
    intro i hi
    exact hw i (by simpa using hi)
  obtain ⟨y', o', l, h2, h3⟩ := data_bits 7 w y 0 true rfl
  rw [hbits] at h2 h3
  refine ⟨y', o', _, Core.steps_cast (Core.steps_add (Core.steps_add (start_bit y w) h2)
    (frame_end y' o' (endPol false ((List.range 8).map (bitOf b))))) rfl rfl rfl, ?_⟩
  rw [List.map_append, List.map_append, h3]
  have hsym : frameSymbols b = .up :: (ami false ((List.range 8).map (bitOf b)) ++
      ami (onesOf b % 2 == 1) [onesOf b % 2 == 1, true]) := by
    simp only [frameSymbols, frameBits, List.append_assoc, List.singleton_append, ami, if_true]
    rw [ami_append]
    simp only [ami, endPol, Bool.not_true, if_true, parity_pol, List.cons_append]
  rw [parity_pol]
  have hlen : ((ami false ((List.range 8).map (bitOf b))).flatMap bitWave).length = 128 := by
    have : ∀ pol (l : List Bool), ((ami pol l).flatMap bitWave).length = 16 * l.length := by
      intro pol l
      induction l generalizing pol with
      | nil => rfl
      | cons x l ih => cases x <;> simp [ami, ih, bitWave] <;> omega
    rw [this]; simp
  unfold burst frameWave
  rw [hsym, List.flatMap_cons, List.flatMap_append]
  have hsh := shifted_all (ami false ((List.range 8).map (bitOf b)))
  generalize (ami false ((List.range 8).map (bitOf b))).flatMap bitWave = W at hlen hsh ⊢
  have htake : List.take frameCycles (bitWave .up ++ (W ++ (ami (onesOf b % 2 == 1) [onesOf b % 2 == 1, true]).flatMap bitWave))
      = bitWave .up ++ (W ++ ((ami (onesOf b % 2 == 1) [onesOf b % 2 == 1, true]).flatMap bitWave).take 29) := by
    rw [List.take_append, List.take_append, hlen]
    have h16 : (bitWave .up).length = 16 := rfl
    rw [h16, List.take_of_length_le (by simp [frameCycles, h16]), List.take_of_length_le (by rw [hlen]; decide)]
    rfl
  rw [htake]
  have hsplit : bitWave .up ++ (W ++ ((ami (onesOf b % 2 == 1) [onesOf b % 2 == 1, true]).flatMap bitWave).take 29)
      = List.replicate 8 .up ++ List.replicate 6 .mid ++ ([.mid, .mid] ++ W) ++
        ((ami (onesOf b % 2 == 1) [onesOf b % 2 == 1, true]).flatMap bitWave).take 29 := by
    simp [bitWave, List.replicate]
  rw [hsplit, ← hsh]
  cases (onesOf b % 2 == 1) <;>
    simp [ami, view, out, levelOf, List.replicate, bitWave]

/-! ## All runs -/

/-- Level of the line and busy flag in a state. -/
def State.view (s : State) : Level × Bool := Pio.view (s.core.pins, s.core.irq)

/-- The DMA writes a byte, or does not. -/
def putEnv (o : Option UInt8) : Env := { put := o.map narrow, get := false }

/-- State after a run. -/
def final (p : Prog) (s : State) (es : List Env) : State := es.foldl (cycle p) s

set_option maxRecDepth 8000 in
theorem narrow_bits (b : UInt8) : ∀ k < 8, (narrow b).getLsbD k = bitOf b k := by
  revert b
  exact forall_u8 (by decide)

/-- The program simulates the reference transmitter. -/
structure Sim (s : State) (r : TxRef) : Prop where
  tx : s.tx = r.fifo.map narrow
  core : ∃ y o k l, Core.steps uartTx r.rest.length s.core = some (atPull y o k, l) ∧ l.map Pio.view = r.rest

theorem Sim.init : Sim reset TxRef.init where
  tx := rfl
  core := ⟨0, 0, 32, [(1, false)], rfl, rfl⟩

theorem Sim.cycle {s : State} {r : TxRef} (h : Sim s r) (p : Option UInt8) :
    (Pio.cycle uartTx s (putEnv p)).view = (r.cycle p).1 ∧ Sim (Pio.cycle uartTx s (putEnv p)) (r.cycle p).2 := by
  have henq : enqueue uartTx s.tx (putEnv p) = (TxRef.arrive r.fifo p).map narrow := by
    have hd : uartTx.txDepth = 8 := rfl
    cases p with
    | none => simp [enqueue, putEnv, TxRef.arrive, h.tx]
    | some b =>
      simp only [enqueue, putEnv, TxRef.arrive, h.tx, Option.map_some, List.length_map, hd]
      split <;> simp
  obtain ⟨y, o, k, l, hc, hl⟩ := h.core
  cases hr : r.rest with
  | cons out rest =>
    rw [hr] at hc hl
    simp only [List.length_cons, Core.steps] at hc
    split at hc
    · rename_i hf
      rw [cycle_free hf]
      split at hc
      · rename_i c' l' he
        simp only [Option.some.injEq, Prod.mk.injEq] at hc
        obtain ⟨rfl, rfl⟩ := hc
        simp only [List.map_cons, List.cons.injEq] at hl
        simp only [TxRef.cycle, hr]
        exact ⟨hl.1, henq, y, o, k, l', he, hl.2⟩
      · simp at hc
    · simp at hc
  | nil =>
    rw [hr] at hc hl
    simp only [List.length_nil, Core.steps, Option.some.injEq, Prod.mk.injEq] at hc
    have hcore : s.core = atPull y o k := hc.1
    have hpull : uartTx.at 1 = ⟨.pull, some 1, 0⟩ := rfl
    have hw0 : ¬ (atPull y o k).wait > 0 := by simp [atPull]
    simp only [TxRef.cycle, hr, Pio.cycle, hcore, hw0, if_false]
    simp only [atPull, hpull, henq]
    cases ha : TxRef.arrive r.fifo p with
    | nil => exact ⟨rfl, rfl, y, o, k, [], rfl, rfl⟩
    | cons b q =>
      refine ⟨rfl, rfl, ?_⟩
      obtain ⟨y', o', l', h1, h2⟩ := frame_steps y (narrow b) b (narrow_bits b)
      have hlen : (burst b).length = 174 := by
        have := congrArg List.length h2
        have hn : ∀ n c c' l, Core.steps uartTx n c = some (c', l) → l.length = n := by
          intro n
          induction n with
          | zero =>
            intro c c' l h
            simp only [Core.steps, Option.some.injEq, Prod.mk.injEq] at h
            simp [← h.2]
          | succ n ih =>
            intro c c' l h
            simp only [Core.steps] at h
            split at h
            · split at h
              · rename_i he
                simp only [Option.some.injEq, Prod.mk.injEq] at h
                have := ih _ _ _ he
                simp [← h.2, this]
              · simp at h
            · simp at h
        rw [← this, List.length_map, hn _ _ _ _ h1]
      exact ⟨y', o', 8, l', by simp only [hlen]; exact h1, h2⟩

theorem Sim.run {s : State} {r : TxRef} (h : Sim s r) (ps : List (Option UInt8)) :
    (trace uartTx s (ps.map putEnv)).map State.view = r.outputs ps := by
  induction ps generalizing s r with
  | nil => rfl
  | cons p ps ih =>
    obtain ⟨h1, h2⟩ := h.cycle p
    simp [trace, TxRef.outputs, h1, ih h2]

/-- **C31**: cycle by cycle, line level and busy flag are those of the reference transmitter of
`Verif/Spec/TxRef.lean`, whatever bytes arrive whenever. -/
theorem C31_waveform (ps : List (Option UInt8)) :
    (trace uartTx reset (ps.map putEnv)).map State.view = TxRef.init.outputs ps :=
  Sim.init.run ps

/-- The DMA writes only when there is room (it is paced by the FIFO, uart_pio.cpp:27-28). -/
def paced (p : Prog) (s : State) : List Env → Prop
  | [] => True
  | e :: es => (e.put ≠ none → s.tx.length < p.txDepth) ∧ paced p (cycle p s e) es

theorem Sim.bursts {s : State} {r : TxRef} (h : Sim s r) (ps : List (Option UInt8)) :
    ∃ gs n q, r.outputs ps <+: r.rest ++ bursts gs ++ List.replicate n (.mid, false) ∧
      (paced uartTx s (ps.map putEnv) → r.fifo ++ ps.filterMap id = gs.map Prod.snd ++ q) ∧
      (final uartTx s (ps.map putEnv)).tx = q.map narrow := by
  induction ps generalizing s r with
  | nil => exact ⟨[], 0, r.fifo, by simp [TxRef.outputs], by simp, by simpa [final] using h.tx⟩
  | cons p ps ih =>
    obtain ⟨h1, h2⟩ := h.cycle p
    obtain ⟨gs, n, q, hp, hq, hf⟩ := ih h2
    have harr : paced uartTx s ((p :: ps).map putEnv) →
        TxRef.arrive r.fifo p ++ ps.filterMap id = r.fifo ++ (p :: ps).filterMap id := by
      intro hpc
      cases p with
      | none => simp [TxRef.arrive]
      | some b =>
        have := hpc.1 (by simp [putEnv])
        rw [h.tx, List.length_map] at this
        have h8 : r.fifo.length < 8 := this
        simp [TxRef.arrive, h8]
    cases hr : r.rest with
    | cons o rest =>
      refine ⟨gs, n, q, ?_, ?_, hf⟩
      · simp only [TxRef.outputs]
        simp only [TxRef.cycle, hr] at hp ⊢
        simpa using hp
      · intro hpc
        have := hq hpc.2
        rw [← harr hpc, ← this]
        simp [TxRef.cycle, hr]
    | nil =>
      cases ha : TxRef.arrive r.fifo p with
      | nil =>
        cases gs with
        | nil =>
          refine ⟨[], n + 1, q, ?_, ?_, hf⟩
          · simp only [TxRef.outputs]
            simp only [TxRef.cycle, hr, ha, P1P2.bursts] at hp ⊢
            simpa [List.replicate_succ] using hp
          · intro hpc
            have := hq hpc.2
            rw [← harr hpc, ← this]
            simp [TxRef.cycle, hr, ha]
        | cons gb gs =>
          refine ⟨(gb.1 + 1, gb.2) :: gs, n, q, ?_, ?_, hf⟩
          · simp only [TxRef.outputs]
            simp only [TxRef.cycle, hr, ha, P1P2.bursts] at hp ⊢
            simpa [List.replicate_succ (n := gb.1 + 1)] using hp
          · intro hpc
            have := hq hpc.2
            rw [← harr hpc]
            simpa [TxRef.cycle, hr, ha] using this
      | cons b f =>
        refine ⟨(0, b) :: gs, n, q, ?_, ?_, hf⟩
        · simp only [TxRef.outputs]
          simp only [TxRef.cycle, hr, ha, P1P2.bursts] at hp ⊢
          simpa using hp
        · intro hpc
          have := hq hpc.2
          rw [← harr hpc, ha]
          simp only [TxRef.cycle, hr, ha] at this
          simpa using this

/-- **C31**, the same as a decomposition: the line is idle for a while, then carries the frame of the first byte, is
idle again, and so on; the run may end anywhere in this sequence.  The bytes are those the DMA wrote, in order; the
ones not yet sent are in the FIFO. -/
theorem C31_frames (ps : List (Option UInt8)) (hp : paced uartTx reset (ps.map putEnv)) :
    ∃ gs n q, (trace uartTx reset (ps.map putEnv)).map State.view <+:
        [(.mid, false)] ++ bursts gs ++ List.replicate n (.mid, false) ∧
      ps.filterMap id = gs.map Prod.snd ++ q ∧ (final uartTx reset (ps.map putEnv)).tx = q.map narrow := by
  obtain ⟨gs, n, q, h1, h2, h3⟩ := Sim.init.bursts ps
  exact ⟨gs, n, q, by rw [C31_waveform]; exact h1, by simpa [TxRef.init] using h2 hp, h3⟩

/-- Non-vacuity: two bytes written at once. -/
example : paced uartTx reset ([some 0x40, some 0xf0, none].map putEnv) := by
  simp [paced, putEnv, cycle, enqueue, reset, uartTx, Prog.at, Core.exec]

/-! ## C32: no DC, even parity -/

/-- Charge of a line level. -/
def charge : Level → Int
  | .mid => 0
  | .up => 1
  | .down => -1

/-- Charge put on the line by a sequence of levels. -/
def totalCharge (l : List (Level × Bool)) : Int := (l.map fun o => charge o.1).sum

theorem totalCharge_append (a b : List (Level × Bool)) : totalCharge (a ++ b) = totalCharge a + totalCharge b := by
  simp [totalCharge]

/-- Charge of a sequence of pulses that starts with polarity `a` and leaves polarity `b` next. -/
def swing : Bool → Bool → Int
  | true, true => 0
  | false, false => 0
  | true, false => 8
  | false, true => -8

theorem charge_replicate (n : Nat) (l : Level) : ((List.replicate n l).map charge).sum = charge l * n := by
  induction n with
  | zero => simp
  | succ n ih => rw [List.replicate_succ, List.map_cons, List.sum_cons, ih, Int.natCast_succ, Int.mul_add]; omega

/-- Charge of a prefix of an AMI coded sequence: between 0 and 8 if the first pulse is positive, and back
to 0 at the end when the number of pulses is even. -/
theorem ami_charge (bs : List Bool) : ∀ pol,
    (∀ k, 0 ≤ (if pol then (1 : Int) else -1) * ((((ami pol bs).flatMap bitWave).take k).map charge).sum ∧
      (if pol then (1 : Int) else -1) * ((((ami pol bs).flatMap bitWave).take k).map charge).sum ≤ 8) ∧
    ((((ami pol bs).flatMap bitWave)).map charge).sum = swing pol (endPol pol bs) := by
  have hb : ∀ l k, (((bitWave l).take k).map charge).sum = charge l * (min k 8 : Nat) := by
    intro l k
    rw [bitWave, List.take_append, List.map_append, List.sum_append, List.take_replicate, List.take_replicate,
      charge_replicate, charge_replicate]
    simp [charge]
  have hb16 : ∀ l, ((bitWave l).map charge).sum = charge l * 8 := by
    intro l; cases l <;> rfl
  induction bs with
  | nil => intro pol; cases pol <;> simp [ami, endPol, swing]
  | cons b bs ih =>
    intro pol
    cases b with
    | true =>
      have := ih pol
      constructor
      · intro k
        simp only [ami, List.flatMap_cons, List.take_append, List.map_append, List.sum_append, hb]
        simpa [charge] using this.1 _
      · simp only [ami, List.flatMap_cons, List.map_append, List.sum_append, hb16, endPol]
        simpa [charge] using this.2
    | false =>
      have := ih (!pol)
      have hl : ∀ l, (bitWave l).length = 16 := by intro l; cases l <;> rfl
      constructor
      · intro k
        have h1 := this.1 (k - 16)
        simp only [ami, List.flatMap_cons, List.take_append, List.map_append, List.sum_append, hb, hl]
        generalize hx : (List.map charge (List.take (k - 16) (List.flatMap bitWave (ami (!pol) bs)))).sum = x at h1 ⊢
        by_cases hk : k ≤ 16
        · have h0 : k - 16 = 0 := by omega
          rw [h0] at hx
          simp at hx
          subst hx
          cases pol <;> simp [charge] <;> omega
        · have h8 : min k 8 = 8 := by omega
          rw [h8]
          cases pol <;> simp [charge] at h1 ⊢ <;> omega
      · simp only [ami, List.flatMap_cons, List.map_append, List.sum_append, hb16, endPol, this.2]
        generalize endPol (!pol) bs = e
        cases pol <;> cases e <;> simp [charge, swing]

theorem endPol_append (pol : Bool) (a b : List Bool) : endPol pol (a ++ b) = endPol (endPol pol a) b := by
  induction a generalizing pol with
  | nil => rfl
  | cons x a ih => cases x <;> simp [endPol, ih]

theorem frame_pol (b : UInt8) : endPol true (frameBits b) = true := by
  simp only [frameBits, List.append_assoc, List.singleton_append, endPol, endPol_append, Bool.not_true, parity_pol]
  cases (onesOf b % 2 == 1) <;> rfl

theorem burst_charge (b : UInt8) (k : Nat) :
    0 ≤ totalCharge ((burst b).take k) ∧ totalCharge ((burst b).take k) ≤ 8 := by
  have h1 : ∀ (l : List Level), totalCharge (l.map fun x => (x, true)) = (l.map charge).sum := by
    intro l; simp [totalCharge, Function.comp_def]
  have h2 := (ami_charge (frameBits b) true).1
  have h3 : ((burst b).take k) = (((frameWave b).take (min k frameCycles)).map fun x => (x, true)) ++
      ([(Level.mid, false)].take (k - ((frameWave b).take frameCycles).length)) := by
    simp [burst, List.take_append, ← List.map_take, List.take_take]
  have h4 : ∀ j, totalCharge ([(Level.mid, false)].take j) = 0 := by
    intro j; cases j <;> simp [totalCharge, charge]
  rw [h3, totalCharge_append, h1, h4]
  have := h2 (min k frameCycles)
  simp only [if_true, Int.one_mul] at this
  unfold frameWave frameSymbols
  omega

theorem burst_total (b : UInt8) : totalCharge (burst b) = 0 := by
  have h1 : ∀ (l : List Level), totalCharge (l.map fun x => (x, true)) = (l.map charge).sum := by
    intro l; simp [totalCharge, Function.comp_def]
  have h2 := (ami_charge (frameBits b) true).2
  rw [frame_pol] at h2
  simp only [swing] at h2
  rw [burst, totalCharge_append, h1]
  have h5 : (frameWave b).drop frameCycles = List.replicate 3 .mid := by
    revert b
    have : ∀ l : List Bool, l.length = 10 → ∀ pol,
        ((ami pol (l ++ [true])).flatMap bitWave).drop frameCycles = List.replicate 3 .mid := by
      intro l hl pol
      have hlen : ∀ pol (l : List Bool), ((ami pol l).flatMap bitWave).length = 16 * l.length := by
        intro pol l
        induction l generalizing pol with
        | nil => rfl
        | cons x l ih => cases x <;> simp [ami, ih, bitWave] <;> omega
      rw [ami_append, List.flatMap_append, List.drop_append, hlen, hl]
      rw [List.drop_eq_nil_of_le (by rw [hlen, hl]; decide)]
      rfl
    intro b _
    unfold frameWave frameSymbols frameBits
    exact this _ (by simp) true
  have h6 : ((frameWave b).map charge).sum = (((frameWave b).take frameCycles).map charge).sum := by
    conv => lhs; rw [← List.take_append_drop frameCycles (frameWave b)]
    rw [List.map_append, List.sum_append, h5]
    simp [charge]
  rw [← h6]
  unfold frameWave frameSymbols
  rw [h2]; rfl

theorem burst_flag {b : UInt8} {d r : List (Level × Bool)} {o : Level × Bool} (h : d ++ o :: r = burst b)
    (ho : o.2 = false) : r = [] := by
  rcases List.eq_nil_or_concat r with rfl | ⟨r', x, rfl⟩
  · rfl
  · exfalso
    unfold burst at h
    have h2 : (d ++ o :: r') ++ [x] = List.map (fun l => (l, true)) (List.take frameCycles (frameWave b)) ++ [(.mid, false)] := by
      rw [← h]; simp
    have h3 := (List.append_inj' h2 rfl).1
    have hm : o ∈ List.map (fun l => (l, true)) (List.take frameCycles (frameWave b)) := by rw [← h3]; simp
    simp only [List.mem_map] at hm
    obtain ⟨l, _, rfl⟩ := hm
    simp at ho

/-- What has been sent of the current burst accounts for all the charge on the line. -/
structure ChargeInv (outs : List (Level × Bool)) (r : TxRef) : Prop where
  part : ∃ sent whole, sent ++ r.rest = whole ∧ (whole = [(.mid, false)] ∨ ∃ b, whole = burst b) ∧
    totalCharge outs = totalCharge sent
  low : ∀ o, outs.getLast? = some o → o.2 = false → totalCharge outs = 0

theorem whole_total {w : List (Level × Bool)} (h : w = [(.mid, false)] ∨ ∃ b, w = burst b) : totalCharge w = 0 := by
  rcases h with rfl | ⟨b, rfl⟩
  · rfl
  · exact burst_total b

theorem ChargeInv.step {outs : List (Level × Bool)} {r : TxRef} (h : ChargeInv outs r) (p : Option UInt8) :
    ChargeInv (outs ++ [(r.cycle p).1]) (r.cycle p).2 := by
  obtain ⟨sent, whole, h1, h2, h3⟩ := h.part
  cases hr : r.rest with
  | cons o rest =>
    rw [hr] at h1
    have hc : totalCharge (outs ++ [o]) = totalCharge (sent ++ [o]) := by
      rw [totalCharge_append, totalCharge_append, h3]
    simp only [TxRef.cycle, hr]
    refine ⟨⟨sent ++ [o], whole, by simpa using h1, h2, hc⟩, ?_⟩
    intro x hx ho
    simp at hx
    subst hx
    have hrest : rest = [] := by
      rcases h2 with rfl | ⟨b, rfl⟩
      · have := congrArg List.length h1
        simp at this
        exact List.eq_nil_of_length_eq_zero (by omega)
      · exact burst_flag h1 ho
    subst hrest
    rw [hc, h1]
    exact whole_total h2
  | nil =>
    rw [hr, List.append_nil] at h1
    subst h1
    have h0 : totalCharge (outs ++ [(.mid, false)]) = 0 := by
      rw [totalCharge_append, h3, whole_total h2]; rfl
    simp only [TxRef.cycle, hr]
    cases ha : TxRef.arrive r.fifo p with
    | nil => exact ⟨⟨sent, sent, by simp, h2, by rw [h0, whole_total h2]⟩, fun _ _ _ => h0⟩
    | cons b q => exact ⟨⟨[], burst b, by simp, .inr ⟨b, rfl⟩, by rw [h0]; rfl⟩, fun _ _ _ => h0⟩

theorem ChargeInv.run {outs : List (Level × Bool)} {r : TxRef} (h : ChargeInv outs r) (ps : List (Option UInt8)) :
    ∃ r', ChargeInv (outs ++ r.outputs ps) r' := by
  induction ps generalizing outs r with
  | nil => exact ⟨r, by simpa [TxRef.outputs] using h⟩
  | cons p ps ih =>
    obtain ⟨r', h'⟩ := ih (h.step p)
    exact ⟨r', by simpa [TxRef.outputs] using h'⟩

/-- **C32**: whatever is sent, the line charge (positive minus negative cycles) stays between 0 and one pulse,
and is 0 whenever the busy flag is clear: every frame is free of DC. -/
theorem C32_dc_free (ps : List (Option UInt8)) :
    let seen := (trace uartTx reset (ps.map putEnv)).map State.view
    0 ≤ totalCharge seen ∧ totalCharge seen ≤ 8 ∧
    ∀ o, seen.getLast? = some o → o.2 = false → totalCharge seen = 0 := by
  intro seen
  have hs : seen = TxRef.init.outputs ps := C31_waveform ps
  have h0 : ChargeInv [] TxRef.init := ⟨⟨[], [(.mid, false)], rfl, .inl rfl, rfl⟩, by simp⟩
  obtain ⟨r, h⟩ := h0.run ps
  rw [List.nil_append, ← hs] at h
  obtain ⟨sent, whole, h1, h2, h3⟩ := h.part
  have hb : 0 ≤ totalCharge sent ∧ totalCharge sent ≤ 8 := by
    rcases h2 with rfl | ⟨b, rfl⟩
    · cases sent with
      | nil => decide
      | cons x t =>
        simp only [List.cons_append, List.cons.injEq, List.append_eq_nil_iff] at h1
        obtain ⟨rfl, rfl, _⟩ := h1
        decide
    · have := burst_charge b sent.length
      rwa [← h1, List.take_left] at this
  exact ⟨by rw [h3]; exact hb.1, by rw [h3]; exact hb.2, h.low⟩

/-- Pulses of a sequence of symbols. -/
def pulses (l : List Level) : List Level := l.filter (· ≠ .mid)

/-- **C32**: in the frame of every byte (`C31_waveform` says that it is what appears on the line) the pulses
alternate starting with a positive one, their number is even, and data and parity bit together contain an even number
of ones. -/
theorem C32_frame (b : UInt8) :
    (∃ n, pulses (frameSymbols b) = (List.replicate n [Level.up, Level.down]).flatten) ∧
    ((((frameBits b).drop 1).take 9).filter id).length % 2 = 0 := by
  constructor
  · have : ∀ bs : List Bool, (∃ n, endPol true bs = true → pulses (ami true bs) = (List.replicate n [Level.up, Level.down]).flatten) ∧
        (∃ n, endPol false bs = true → pulses (ami false bs) = .down :: (List.replicate n [Level.up, Level.down]).flatten) := by
      intro bs
      induction bs with
      | nil => exact ⟨⟨0, fun _ => rfl⟩, ⟨0, by simp [endPol]⟩⟩
      | cons x bs ih =>
        obtain ⟨⟨n, hn⟩, ⟨m, hm⟩⟩ := ih
        cases x with
        | true => exact ⟨⟨n, by simpa [ami, pulses, endPol] using hn⟩, ⟨m, by simpa [ami, pulses, endPol] using hm⟩⟩
        | false =>
          refine ⟨⟨m + 1, ?_⟩, ⟨n, ?_⟩⟩
          · intro he
            simp only [endPol, Bool.not_true] at he
            have := hm he
            simpa [ami, pulses, List.replicate_succ] using this
          · intro he
            simp only [endPol, Bool.not_false] at he
            have := hn he
            simpa [ami, pulses] using this
    obtain ⟨⟨n, hn⟩, _⟩ := this (frameBits b)
    exact ⟨n, hn (frame_pol b)⟩
  · have h1 : ((frameBits b).drop 1).take 9 = (List.range 8).map (bitOf b) ++ [onesOf b % 2 == 1] := by
      have hl : ((List.range 8).map (bitOf b)).length = 8 := by simp
      have : (frameBits b).drop 1 = (List.range 8).map (bitOf b) ++ [onesOf b % 2 == 1, true] := by simp [frameBits]
      rw [this, List.take_append, List.take_of_length_le (by omega), hl]
      rfl
    rw [h1, List.filter_append, List.length_append]
    have h2 : (((List.range 8).map (bitOf b)).filter id).length = onesOf b := by
      rw [List.filter_map, List.length_map, onesOf]; rfl
    rw [h2]
    by_cases h : onesOf b % 2 = 1
    · simp [h]; omega
    · have : onesOf b % 2 = 0 := by omega
      simp [this]

/-! ## C33: bit timing -/

theorem TxRef.outputs_rest (r : TxRef) (ps : List (Option UInt8)) (i : Nat) (hi : i < ps.length) :
    (i < r.rest.length → (r.outputs ps)[i]? = r.rest[i]?) ∧ (i = r.rest.length → (r.outputs ps)[i]? = some (.mid, false)) := by
  induction ps generalizing r i with
  | nil => simp at hi
  | cons p ps ih =>
    cases hr : r.rest with
    | nil =>
      refine ⟨by simp, ?_⟩
      intro h0; simp at h0; subst h0
      simp [TxRef.outputs, TxRef.cycle, hr]
    | cons o rest =>
      cases i with
      | zero => simp [TxRef.outputs, TxRef.cycle, hr]
      | succ i =>
        have := ih (r.cycle p).2 i (by simpa using hi)
        simp only [TxRef.cycle, hr] at this
        simpa [TxRef.outputs, TxRef.cycle, hr] using this

/-- The rest of a burst, or nothing. -/
def PartOfBurst (r : TxRef) : Prop :=
  ∃ sent whole, sent ++ r.rest = whole ∧ (whole = [(.mid, false)] ∨ ∃ b, whole = burst b)

theorem PartOfBurst.step {r : TxRef} (h : PartOfBurst r) (p : Option UInt8) : PartOfBurst (r.cycle p).2 := by
  obtain ⟨sent, whole, h1, h2⟩ := h
  cases hr : r.rest with
  | cons o rest => simp only [TxRef.cycle, hr]; exact ⟨sent ++ [o], whole, by simpa [hr] using h1, h2⟩
  | nil =>
    simp only [TxRef.cycle, hr]
    cases TxRef.arrive r.fifo p with
    | nil => exact ⟨sent, whole, by simpa [hr] using h1, h2⟩
    | cons b q => exact ⟨[], burst b, rfl, .inr ⟨b, rfl⟩⟩

/-- A frame that begins is sent to its end. -/
theorem TxRef.rise {r : TxRef} (h : PartOfBurst r) (ps : List (Option UInt8)) (t : Nat) (a c : Level)
    (h0 : (r.outputs ps)[t]? = some (a, false)) (h1 : (r.outputs ps)[t + 1]? = some (c, true)) :
    ∃ b, ∀ i < 175, t + 1 + i < ps.length → (r.outputs ps)[t + 1 + i]? = (burst b ++ [(.mid, false)])[i]? := by
  induction ps generalizing r t with
  | nil => simp [TxRef.outputs] at h0
  | cons p ps ih =>
    cases t with
    | succ t =>
      obtain ⟨b, hb⟩ := ih (h.step p) t (by simpa [TxRef.outputs] using h0) (by simpa [TxRef.outputs] using h1)
      refine ⟨b, fun i hi hl => ?_⟩
      have := hb i hi (by simp at hl; omega)
      rw [show t + 1 + 1 + i = (t + 1 + i) + 1 by omega]
      simpa [TxRef.outputs] using this
    | zero =>
      simp only [TxRef.outputs, List.getElem?_cons_zero, Option.some.injEq] at h0
      simp only [TxRef.outputs, Nat.zero_add, List.getElem?_cons_succ] at h1
      have hps : 0 < ps.length := by
        cases ps with
        | nil => simp [TxRef.outputs] at h1
        | cons => simp
      have hnil : (r.cycle p).2.rest ≠ [] := by
        intro hn
        have := (TxRef.outputs_rest (r.cycle p).2 ps 0 hps).2 (by rw [hn]; rfl)
        rw [h1] at this; simp at this
      cases hr : r.rest with
      | cons o rest =>
        exfalso
        simp only [TxRef.cycle, hr] at h0 hnil
        obtain ⟨sent, whole, hw1, hw2⟩ := h
        rw [hr] at hw1
        rcases hw2 with rfl | ⟨b, rfl⟩
        · have := congrArg List.length hw1
          simp at this
          exact hnil (List.eq_nil_of_length_eq_zero (by omega))
        · exact hnil (burst_flag hw1 (by rw [h0]))
      | nil =>
        simp only [TxRef.cycle, hr] at hnil
        cases ha : TxRef.arrive r.fifo p with
        | nil => simp [ha] at hnil
        | cons b q =>
          refine ⟨b, fun i hi hl => ?_⟩
          have hst : (r.cycle p).2.rest = burst b := by simp [TxRef.cycle, hr, ha]
          have hlen : (burst b).length = 174 := by
            have : (frameWave b).length = 176 := by
              have hlen : ∀ pol (l : List Bool), ((ami pol l).flatMap bitWave).length = 16 * l.length := by
                intro pol l
                induction l generalizing pol with
                | nil => rfl
                | cons x l ih => cases x <;> simp [ami, ih, bitWave] <;> omega
              unfold frameWave frameSymbols
              rw [hlen]; simp [frameBits]
            simp [burst, this, frameCycles]
          have := TxRef.outputs_rest (r.cycle p).2 ps i (by simp at hl; omega)
          rw [hst, hlen] at this
          rw [show 0 + 1 + i = i + 1 by omega]
          simp only [TxRef.outputs, List.getElem?_cons_succ]
          by_cases h174 : i < 174
          · rw [this.1 h174, List.getElem?_append_left (by omega)]
          · have : i = 174 := by omega
            subst this
            rw [(TxRef.outputs_rest (r.cycle p).2 ps 174 (by simp at hl; omega)).2 (by rw [hst, hlen]),
              List.getElem?_append_right (by omega), hlen]
            rfl

theorem burst_shape (b : UInt8) : burst b ++ [(.mid, false)] =
    (((frameSymbols b).take 10).flatMap bitWave).map (fun l => (l, true)) ++
      List.replicate 13 (.mid, true) ++ List.replicate 2 (.mid, false) := by
  have hami : ∀ (l : List Bool) pol, l.length = 10 → (ami pol (l ++ [true])).take 10 = ami pol l ∧
      (((ami pol (l ++ [true])).flatMap bitWave).take frameCycles) = (ami pol l).flatMap bitWave ++ List.replicate 13 .mid := by
    intro l pol hl
    have h1 : ∀ pol (l : List Bool), (ami pol l).length = l.length := by
      intro pol l
      induction l generalizing pol with
      | nil => rfl
      | cons x l ih => cases x <;> simp [ami, ih]
    have hlen : ∀ pol (l : List Bool), ((ami pol l).flatMap bitWave).length = 16 * l.length := by
      intro pol l
      induction l generalizing pol with
      | nil => rfl
      | cons x l ih => cases x <;> simp [ami, ih, bitWave] <;> omega
    rw [ami_append]
    constructor
    · rw [List.take_append_of_le_length (by rw [h1]; omega), List.take_of_length_le (by rw [h1]; omega)]
    · rw [List.flatMap_append, List.take_append, List.take_of_length_le (by rw [hlen, hl]; decide), hlen, hl]
      rfl
  have hf : frameBits b = ([false] ++ (List.range 8).map (bitOf b) ++ [onesOf b % 2 == 1]) ++ [true] := rfl
  have hl : ([false] ++ (List.range 8).map (bitOf b) ++ [onesOf b % 2 == 1]).length = 10 := by simp
  unfold burst frameWave frameSymbols
  rw [hf, (hami _ true hl).2, (hami _ true hl).1]
  simp [List.replicate]

/-- **C33, the part that holds**: whenever a frame begins, each of its first ten bits (start, data, parity) lasts exactly
16 cycles, 8 with the symbol and 8 in the middle; the stop bit lasts 13 cycles with the flag set and at least 2
more.  (The sequence is followed as far as the run goes.) -/
theorem C33_ten_bits_partial (ps : List (Option UInt8)) (t : Nat) (a c : Level)
    (h0 : ((trace uartTx reset (ps.map putEnv)).map State.view)[t]? = some (a, false))
    (h1 : ((trace uartTx reset (ps.map putEnv)).map State.view)[t + 1]? = some (c, true)) :
    ∃ b, ∀ i < 175, t + 1 + i < ps.length →
      ((trace uartTx reset (ps.map putEnv)).map State.view)[t + 1 + i]? =
        ((((frameSymbols b).take 10).flatMap bitWave).map (fun l => (l, true)) ++
          List.replicate 13 (.mid, true) ++ List.replicate 2 (.mid, false))[i]? := by
  rw [C31_waveform] at h0 h1 ⊢
  obtain ⟨b, hb⟩ := TxRef.rise ⟨[], _, rfl, .inl rfl⟩ ps t a c h0 h1
  exact ⟨b, fun i hi hl => by rw [hb i hi hl, burst_shape]⟩

/-- Two bytes written at once. -/
def backToBack : List (Option UInt8) := [some 0xff, some 0xff] ++ List.replicate 200 none

set_option maxRecDepth 8000 in
/-- **C33 is violated**: the frames of two bytes written at once begin 175 cycles apart, not 11 * 16 = 176: the stop bit
of the first one lasts 15 cycles. -/
theorem C33_refuted : paced uartTx reset (backToBack.map putEnv) ∧
    let seen := (trace uartTx reset (backToBack.map putEnv)).map State.view
    seen[1]? = some (.mid, false) ∧ seen[2]? = some (.up, true) ∧
    seen[176]? = some (.mid, false) ∧ seen[177]? = some (.up, true) := by
  constructor
  · have hn : ∀ (n : Nat) (s : State), paced uartTx s ((List.replicate n none).map putEnv) := by
      intro n
      induction n with
      | zero => intro s; trivial
      | succ n ih => intro s; exact ⟨by simp [putEnv], ih _⟩
    refine ⟨fun _ => by decide, fun _ => by decide, hn _ _⟩
  · intro seen
    have hs : seen = TxRef.init.outputs backToBack := C31_waveform _
    rw [hs]
    decide

end P1P2.Pio
