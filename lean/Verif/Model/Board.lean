import Verif.Model.Adc
import Verif.Model.Core0
/-!
# The whole device: ADC, both cores and the FIFO between them

`RxSystem` (ADC and the loop of core 1) and `TwoCores` (the FIFO and the loop of core 0), joined: what core 1 sends is what arrives in the FIFO, and whether the FIFO
has room is what core 1 sees.
-/
namespace P1P2

/-- The device. -/
structure Board where
  rx : RxSystem
  main : TwoCores

/-- main.cpp:204-217 (core 0 starts core 1), 122-136 -/
def Board.init (ring : Nat → Int) (rxErr : Bool) (g : Nat → UInt8) (w0 : Word) (t0 t1 : Nat) : Board :=
  { rx := RxSystem.init ring rxErr, main := TwoCores.init g w0 t0 t1 false }

/-- Steps: a conversion is transferred to the ring; an iteration of core 1 (with the conversions transferred while it reads the ring); the parts of an iteration of
core 0. -/
inductive BoardStep where
  | convert (v : Int)
  | receive (late : List Int)
  | first (e : Env1)
  | clear
  | second (e : Env2)

/-- What a step shows: reports for the host, whether a word was dropped, and how many conversions the loop of core 1 is behind after the step. -/
structure BoardOut where
  reports : List Report
  dropped : Bool
  behind : Nat

/-- adc.cpp:196-222: `Update` finds no new sample (also when it restarts the DMA after a complete block) -/
def Adc.idle (a : Adc) : Bool := decide (a.tcHw = 0 ∨ a.tc = a.tcHw)

/-- The conversions that wait in the ring. -/
def Adc.behind (a : Adc) : Nat := a.tc - a.tcHw

/-- A step of core 0 or a push; `m` is the state after a step of `TwoCores` -/
def Board.after (rx : RxSystem) (m : Option (TwoCores × TwoOut)) : Res (Option (Board × BoardOut)) :=
  match m with
  | none => .ok none
  | some (m, o) => .ok (some ({ rx := rx, main := m }, { reports := o.reports, dropped := o.dropped, behind := rx.adc.behind }))

/-- One step (main.cpp:137-202 for core 1, 219-341 for core 0).  An iteration of core 1 that finds no new sample does not read the ring, so nothing can arrive while it does. -/
def Board.step (S : Nat) (pf : Platform) (g : Nat → UInt8) (b : Board) : BoardStep → Res (Option (Board × BoardOut))
  | .convert v => do
    let r ← b.rx.step S (.transfer v)
    Board.after r.1 (some (b.main, { reports := [], dropped := false }))
  | .receive late =>
    if b.rx.adc.idle ∧ late ≠ [] then .ok none
    else do
      let r ← b.rx.step S (.iterate (decide (b.main.fifo.length < 8)) late)
      match r.2.bind C1Out.word with
      | none => Board.after r.1 (some (b.main, { reports := [], dropped := false }))
      | some w => do
        let m ← b.main.step pf g (.push w)
        Board.after r.1 m
  | .first e => do
    let m ← b.main.step pf g (.first e)
    Board.after b.rx m
  | .clear => do
    let m ← b.main.step pf g .clear
    Board.after b.rx m
  | .second e => do
    let m ← b.main.step pf g (.second e)
    Board.after b.rx m

/-- A run; `none` if a step was not possible. -/
def Board.run (S : Nat) (pf : Platform) (g : Nat → UInt8) (b : Board) : List BoardStep → Res (Option (Board × List BoardOut))
  | [] => .ok (some (b, []))
  | x :: xs => do
    match ← b.step S pf g x with
    | none => .ok none
    | some (b', o) => do
      match ← Board.run S pf g b' xs with
      | none => .ok none
      | some (t, os) => .ok (some (t, o :: os))

end P1P2
