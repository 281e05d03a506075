import Verif.Spec.Heard
import Verif.Spec.MainLoop
import Verif.Props.Overrun
/-!
# Specification: a modem alone on the bus

The two cores, the transmit driver, its DMA and PIO, and the receiver, which hears what the pins of the same modem put on the bus. All run side by side;
what connects them are clocks: the time unit is arbitrary, and everything is measured from code 0 of the receiver.
-/
namespace P1P2

/-- Clocks and bounds, and the receiver. -/
structure Bench where
  /-- length of a microsecond of the timer -/
  U : Nat
  /-- time between two ADC codes -/
  P : Nat
  /-- PIO cycle `k` of the transmitter begins at time `c k` -/
  c : Nat → Nat
  /-- microseconds from a code until the main loop has taken the word that came with it, and from the start of a transmission to the check of its timeout -/
  D : Nat
  /-- microseconds from reading the clock for a new deadline to the first PIO cycle after the call of the driver -/
  lag : Nat
  /-- the longest silence, in codes -/
  M : Nat
  /-- width of the counters of the receiver, its initial error flag, and the ADC codes -/
  S : Nat
  rxErr : Bool
  q : Nat → UInt8

/-- The words the receiving core has produced from the first `N` codes, for some schedule of DMA, interrupts and core in which the core keeps up. -/
def Bench.Receives (x : Bench) (N : Nat) (w : List Word) : Prop :=
  ∃ (es : List (AdcEv × Bool)) (s : RxSystem) (outs : _), keepsUp 254 0 0 (es.map Prod.fst) ∧ deliveries 0 0 (es.map Prod.fst) = N ∧
    RxSystem.run x.S (RxSystem.init (fun _ => 0) x.rxErr) (scheduleEvents (fun k => Pio.sampleValue k (x.q k)) 0 0 es) = .ok (s, outs) ∧
    w = sent outs ++ (if s.core.word = .zero then [] else [s.core.word])

/-- One iteration of the main loop: what it is told, what it does, and what happens in the transmitter meanwhile: until its first call of the driver, and from then on. -/
structure Round where
  env : Env1 × Env2
  out : Out2
  before : List DevEv
  after : List DevEv

/-- The calls of the client. -/
def callsOf (ev : List DevEv) : List HwCmd := ev.filterMap fun e => match e with | .call c => some c | _ => none

/-- All that happens in the transmitter; `ev` are the events before the first iteration. -/
def devEvents (ev : List DevEv) (rs : List Round) : List DevEv := ev ++ rs.flatMap fun r => r.before ++ r.after

/-- How an iteration is connected with the rest: `ev` are the events in the transmitter before it, `ws` the words taken before it. -/
structure RoundOk (x : Bench) (ev : List DevEv) (ws : List Word) (r : Round) : Prop where
  /-- clock readings in the order of the program -/
  order : r.env.2.tWake ≤ r.env.2.tErr ∧ r.env.2.tErr ≤ r.env.2.tPow ∧ r.env.2.tPow ≤ r.env.2.tNew
  pace : r.env.2.tErr ≤ r.env.2.tWake + x.D
  /-- the calls of the driver are those of the iteration -/
  quiet : callsOf r.before = []
  calls : callsOf r.after = r.out.cmds
  /-- the first call comes after the clock is read; the next PIO cycle after a call begins soon -/
  late : x.U * r.env.2.tPow ≤ x.c (cyclesOf (ev ++ r.before))
  soon : ∀ a cmd b, r.after = a ++ .call cmd :: b → x.c (cyclesOf (ev ++ r.before ++ a)) ≤ x.U * (r.env.2.tNew + x.lag)
  /-- the words come from the receiver: a word that is taken has come before, and one that came the time `D` ago has been taken before -/
  words : ∃ lo hi wlo whi, lo ≤ hi ∧ x.Receives lo wlo ∧ x.Receives hi whi ∧ wlo <+: ws ∧ ws ++ wordsOf [r.env] <+: whi ∧
    hi * x.P ≤ x.U * r.env.2.tErr ∧ x.U * r.env.2.tErr ≤ lo * x.P + x.U * x.D
  /-- `Error()` and `Transmitting()` come from the driver -/
  hwErr : r.env.2.hwErr = true → ∀ d pins rs, TxDev.init.run (ev ++ r.before) = some (d, pins, rs) → true ∈ rs
  transmitting : r.env.2.transmitting = true → ∃ a b d pins rs, r.before = a ++ b ∧ TxDev.init.run (ev ++ a) = some (d, pins, rs) ∧ d.transmitting = true
  /-- no silence is too long -/
  silence : x.U * (r.env.2.tNew + x.lag) + 4 * x.P ≤ callsEnd x.P x.c 0 (sendsFrom 0 ev) + x.M * x.P

/-- A modem alone on the bus; `ev` are the events in the transmitter before the first iteration. -/
structure AloneOnBus (x : Bench) (ev : List DevEv) (rs : List Round) : Prop where
  units : 0 < x.P ∧ x.P ≤ 4 * x.U ∧ x.D + x.lag ≤ 1800
  clock : SenderClock x.P x.c ∧ x.c 1 ≤ 32000 * x.U
  limits : 8 ≤ x.S ∧ x.M + 70 ≤ 2 * 2 ^ x.S ∧ 378 ≤ x.M
  /-- the constructor of the transmitter has made its calls -/
  start : callsOf ev = TxSM.initCmds
  /-- the codes are those of the line that shows what the pins show -/
  hears : ∃ d pins errs, TxDev.init.run (devEvents ev rs) = some (d, pins, errs) ∧ ∃ L, PlaysDuring x.c (pins.map Pio.view) L ∧
    ∃ a v, 49 ≤ a ∧ a ≤ 88 ∧ a ≤ v ∧ v + a ≤ 255 ∧ ∀ K, K * x.P < x.c (cyclesOf (devEvents ev rs)) + x.P → CodesUntil K a v (fun k => L (k * x.P)) x.q
  rounds : ∀ pre r post, rs = pre ++ r :: post → RoundOk x (devEvents ev pre) (wordsOf (pre.map Round.env)) r

/-- Messages with silence for the time `G` after the beginning of the last frame of the one before (`t`). -/
def CallsGap (G : Nat) (c : Nat → Nat) : Nat → List (Nat × Message) → Prop
  | _, [] => True
  | t, (n, m) :: ms => t + G ≤ c (n + 1) ∧ CallsGap G c (c (finalStart n m)) ms

/-- The calls of a complete transmission. -/
def txCalls (m : Message) : List HwCmd := [.shutdown false, .send m, .clearFifo, .shutdown true]

end P1P2
