import Verif.Basic
/-!
# The RP2040 PIO state machine and the two programs of the modem

A cycle accurate interpreter of the PIO instructions the two programs use (RP2040 datasheet, chapter 3), and the
programs pico/src/p1p2_uart_tx.pio and pico/src/twos_complement.pio as data.

Hardware facts modelled: a side-set value is driven in the first cycle of its instruction, also while
the instruction stalls; the delay `[n]` follows when the instruction has completed; `pull block` / `push block` stall
on an empty / full FIFO; shift directions are "right" for both programs; `!osre` compares the number of bits
shifted out with the configured threshold.  Not modelled: autopull/autopush (off), the clock divider (a cycle is
one divided clock), the two cycle GPIO synchronisers.
-/
namespace P1P2.Pio

/-- Jump conditions used. -/
inductive Cond where
  | always | notY | xDec | yDec | notOsre
deriving DecidableEq, Repr

/-- Instructions used.  `nop` is `mov y, y`. -/
inductive Op where
  | nop
  | jmp (c : Cond) (target : Nat)
  | irqSet | irqClear
  | pull | push
  | outY (n : Nat)
  | inY (n : Nat) | inX (n : Nat) | inNull (n : Nat)
  | setX (n : Nat)
  | movOsrNotOsr
deriving DecidableEq, Repr

/-- An instruction with its optional side-set value and its delay. -/
structure Instr where
  op : Op
  side : Option Nat
  delay : Nat
deriving DecidableEq, Repr

/-- Registers of a state machine without its FIFOs. -/
structure Core where
  pc : Nat
  /-- remaining delay cycles of the completed instruction -/
  wait : Nat
  x : BitVec 32
  y : BitVec 32
  osr : BitVec 32
  isr : BitVec 32
  /-- bits shifted out of `osr` since the last pull -/
  osrCnt : Nat
  irq : Bool
  /-- level of the side-set pins -/
  pins : Nat
deriving DecidableEq, Repr

/-- `in src, n` with shift direction right -/
def shiftIn (isr v : BitVec 32) (n : Nat) : BitVec 32 := (isr >>> n) ||| (v <<< (32 - n))

/-- lowest `n` bits -/
def lowBits (v : BitVec 32) (n : Nat) : BitVec 32 := v &&& BitVec.ofNat 32 (2 ^ n - 1)

/-- Effect of a completed instruction other than pull and push; `thr` is the pull threshold. -/
def Core.exec (thr : Nat) (c : Core) (i : Instr) : Core :=
  let c := { c with pins := i.side.getD c.pins, wait := i.delay }
  let nxt := { c with pc := c.pc + 1 }
  match i.op with
  | .nop => nxt
  | .jmp .always t => { c with pc := t }
  | .jmp .notY t => if c.y = 0 then { c with pc := t } else nxt
  | .jmp .xDec t => if c.x ≠ 0 then { c with pc := t, x := c.x - 1 } else { nxt with x := c.x - 1 }
  | .jmp .yDec t => if c.y ≠ 0 then { c with pc := t, y := c.y - 1 } else { nxt with y := c.y - 1 }
  | .jmp .notOsre t => if c.osrCnt < thr then { c with pc := t } else nxt
  | .irqSet => { nxt with irq := true }
  | .irqClear => { nxt with irq := false }
  | .outY n => { nxt with y := lowBits c.osr n, osr := BitVec.ushiftRight c.osr n, osrCnt := min 32 (c.osrCnt + n) }
  | .inY n => { nxt with isr := shiftIn c.isr c.y n }
  | .inX n => { nxt with isr := shiftIn c.isr c.x n }
  | .inNull n => { nxt with isr := shiftIn c.isr 0 n }
  | .setX n => { nxt with x := BitVec.ofNat 32 n }
  | .movOsrNotOsr => { nxt with osr := ~~~ c.osr, osrCnt := 0 }
  | .pull | .push => c

/-- A state machine with its FIFOs. -/
structure State where
  core : Core
  tx : List (BitVec 32)
  rx : List (BitVec 32)
deriving DecidableEq, Repr

/-- A program with its configuration. -/
structure Prog where
  code : List Instr
  /-- pull threshold -/
  thr : Nat
  txDepth : Nat
  rxDepth : Nat

/-- The instruction at an address (the programs never leave their code). -/
def Prog.at (p : Prog) (pc : Nat) : Instr := p.code.getD pc ⟨.nop, none, 0⟩

/-- What the rest of the system does in a cycle: write a word into the transmit FIFO, read the receive FIFO. -/
structure Env where
  put : Option (BitVec 32)
  get : Bool
deriving DecidableEq, Repr

/-- A write to a full FIFO is lost (the DMA waits for room, so this does not happen with it). -/
def enqueue (p : Prog) (tx : List (BitVec 32)) (e : Env) : List (BitVec 32) :=
  match e.put with
  | some w => if tx.length < p.txDepth then tx ++ [w] else tx
  | none => tx

/-- Receive FIFO after the reader had its turn. -/
def dequeue (rx : List (BitVec 32)) (e : Env) : List (BitVec 32) := if e.get then rx.tail else rx

/-- One cycle: the environment acts, then the state machine. -/
def cycle (p : Prog) (s : State) (e : Env) : State :=
  let tx := enqueue p s.tx e
  let rx := dequeue s.rx e
  if s.core.wait > 0 then { core := { s.core with wait := s.core.wait - 1 }, tx := tx, rx := rx }
  else
    let i := p.at s.core.pc
    match i.op with
    | .pull =>
      match tx with
      | [] => { core := { s.core with pins := i.side.getD s.core.pins }, tx := [], rx := rx }
      | w :: q => { core := { s.core with pins := i.side.getD s.core.pins, wait := i.delay, pc := s.core.pc + 1,
                                          osr := w, osrCnt := 0 }, tx := q, rx := rx }
    | .push =>
      if rx.length < p.rxDepth then
        { core := { s.core with pins := i.side.getD s.core.pins, wait := i.delay, pc := s.core.pc + 1, isr := 0 },
          tx := tx, rx := rx ++ [s.core.isr] }
      else { core := { s.core with pins := i.side.getD s.core.pins }, tx := tx, rx := rx }
    | _ => { core := s.core.exec p.thr i, tx := tx, rx := rx }

/-- A run: the states after each cycle. -/
def trace (p : Prog) (s : State) : List Env → List State
  | [] => []
  | e :: es => cycle p s e :: trace p (cycle p s e) es

/-- State after reset (`pio_sm_init`). -/
def reset : State :=
  { core := { pc := 0, wait := 0, x := 0, y := 0, osr := 0, isr := 0, osrCnt := 32, irq := false, pins := 0 },
    tx := [], rx := [] }

/-- p1p2_uart_tx.pio:25-75, one line per instruction. Labels: next_byte 0, loop_odd 4, send_0_odd 9, loop_even 12,
send_0_even 17, loop_end_odd 20, loop_end_even 26.  Levels: LEVEL_ONE 2, LEVEL_IDLE 1, LEVEL_ZERO_UP 3,
LEVEL_ZERO_DOWN 0 (lines 11-14).  p1p2_uart_tx.pio:115,122: shift right, threshold 8, joined 8 entry FIFO. -/
def uartTx : Prog where
  code := [
    /- 0  -/ ⟨.irqClear, some 1, 0⟩,
    /- 1  -/ ⟨.pull, some 1, 0⟩,
    /- 2  -/ ⟨.irqSet, some 3, 7⟩,
    /- 3  -/ ⟨.nop, some 1, 5⟩,
    /- 4  -/ ⟨.outY 1, some 1, 0⟩,
    /- 5  -/ ⟨.jmp .notY 9, some 1, 0⟩,
    /- 6  -/ ⟨.nop, some 2, 7⟩,
    /- 7  -/ ⟨.nop, some 1, 3⟩,
    /- 8  -/ ⟨.jmp .always 20, some 1, 0⟩,
    /- 9  -/ ⟨.nop, some 0, 7⟩,
    /- 10 -/ ⟨.nop, some 1, 3⟩,
    /- 11 -/ ⟨.jmp .always 26, some 1, 0⟩,
    /- 12 -/ ⟨.outY 1, some 1, 0⟩,
    /- 13 -/ ⟨.jmp .notY 17, some 1, 0⟩,
    /- 14 -/ ⟨.nop, some 2, 7⟩,
    /- 15 -/ ⟨.nop, some 1, 3⟩,
    /- 16 -/ ⟨.jmp .always 26, some 1, 0⟩,
    /- 17 -/ ⟨.nop, some 3, 7⟩,
    /- 18 -/ ⟨.nop, some 1, 3⟩,
    /- 19 -/ ⟨.jmp .always 20, some 1, 0⟩,
    /- 20 -/ ⟨.jmp .notOsre 4, some 1, 0⟩,
    /- 21 -/ ⟨.nop, some 1, 1⟩,
    /- 22 -/ ⟨.nop, some 0, 7⟩,
    /- 23 -/ ⟨.nop, some 1, 7⟩,
    /- 24 -/ ⟨.nop, some 2, 7⟩,
    /- 25 -/ ⟨.jmp .always 0, some 1, 4⟩,
    /- 26 -/ ⟨.jmp .notOsre 12, some 1, 0⟩,
    /- 27 -/ ⟨.nop, some 1, 1⟩,
    /- 28 -/ ⟨.nop, some 2, 7⟩,
    /- 29 -/ ⟨.nop, some 1, 7⟩,
    /- 30 -/ ⟨.nop, some 2, 7⟩,
    /- 31 -/ ⟨.jmp .always 0, some 1, 4⟩]
  thr := 8
  txDepth := 8
  rxDepth := 4

/-- twos_complement.pio:22-73.  Labels: entry 0, next_0 2, not_done_yet 8, next_invert 10, done 13.
twos_complement.pio:80-81: both shifts right, no autopush/autopull. -/
def twosComplement : Prog where
  code := [
    /- 0  -/ ⟨.setX 7, none, 0⟩,
    /- 1  -/ ⟨.pull, none, 0⟩,
    /- 2  -/ ⟨.outY 1, none, 0⟩,
    /- 3  -/ ⟨.inY 1, none, 0⟩,
    /- 4  -/ ⟨.jmp .xDec 8, none, 0⟩,
    /- 5  -/ ⟨.jmp .yDec 13, none, 0⟩,
    /- 6  -/ ⟨.setX 0, none, 0⟩,
    /- 7  -/ ⟨.jmp .always 13, none, 0⟩,
    /- 8  -/ ⟨.jmp .notY 2, none, 0⟩,
    /- 9  -/ ⟨.movOsrNotOsr, none, 0⟩,
    /- 10 -/ ⟨.outY 1, none, 0⟩,
    /- 11 -/ ⟨.inY 1, none, 0⟩,
    /- 12 -/ ⟨.jmp .xDec 10, none, 0⟩,
    /- 13 -/ ⟨.inX 8, none, 0⟩,
    /- 14 -/ ⟨.inNull 16, none, 0⟩,
    /- 15 -/ ⟨.push, none, 0⟩,
    /- 16 -/ ⟨.pull, none, 7⟩,
    /- 17 -/ ⟨.outY 8, none, 7⟩,
    /- 18 -/ ⟨.inY 8, none, 7⟩,
    /- 19 -/ ⟨.inNull 24, none, 7⟩,
    /- 20 -/ ⟨.push, none, 0⟩,
    /- 21 -/ ⟨.jmp .always 0, none, 0⟩]
  thr := 16
  txDepth := 4
  rxDepth := 4

/-- An 8-bit DMA write to a FIFO register replicates the byte (RP2040 datasheet 2.1.4 narrow IO register writes). -/
def narrow (b : UInt8) : BitVec 32 := BitVec.ofNat 32 (b.toNat * 0x01010101)

end P1P2.Pio
