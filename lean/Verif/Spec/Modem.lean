import Verif.Spec.TxRef
import Verif.Spec.Eye
/-!
# Specification: from the bytes written by the DMA to the levels on the bus, in time
-/
namespace P1P2

/-- The bytes written, each with the number of its cycle; `ps` gives what is written in the cycles from `n` on. -/
def writesFrom : Nat → List (Option UInt8) → List (Nat × UInt8)
  | _, [] => []
  | n, none :: ps => writesFrom (n + 1) ps
  | n, some b :: ps => (n, b) :: writesFrom (n + 1) ps

/-- The cycles in which the frames start: in the cycle after the byte is written, but not before cycle `e`, and 175 cycles after the frame before. -/
def startsFrom : Nat → List (Nat × UInt8) → List (Nat × UInt8)
  | _, [] => []
  | e, (w, b) :: ws => (max (w + 1) e, b) :: startsFrom (max (w + 1) e + 175) ws

/-- Level and busy flag in cycle `k` if frames start in the given cycles: a frame takes 173 cycles. -/
def wireAt : List (Nat × UInt8) → Nat → Level × Bool
  | [], _ => (.mid, false)
  | (s, b) :: ss, k => if k < s then (.mid, false) else if k < s + 173 then ((frameWave b).getD (k - s) .mid, true) else wireAt ss k

/-- Cycle `k` of the sender begins at time `c k`: on the bus there is what its pins show in each cycle, and nothing before the first one. -/
def Plays (c : Nat → Nat) (w : Nat → Level) (L : Nat → Level) : Prop :=
  (∀ τ, τ < c 0 → L τ = .mid) ∧ ∀ k τ, c k ≤ τ → τ < c (k + 1) → L τ = w k

/-- The clock of the sender compared to that of the receiver, which takes a code every `P`: up to the length of a frame, `k` cycles take the time of `1.989 k` to `1.992 k` codes, plus or minus some jitter. -/
structure SenderClock (P : Nat) (c : Nat → Nat) : Prop where
  mono : ∀ k, c k < c (k + 1)
  low : ∀ s k, k ≤ 175 → 1000 * c s + 1989 * k * P ≤ 1000 * c (s + k) + 70 * P
  high : ∀ s k, k ≤ 175 → 1000 * c (s + k) ≤ 1000 * c s + 1992 * k * P + 50 * P

/-- The clock of the state machine of the device, p1p2_uart_tx.pio:125-126: the system clock has period `u`, the divider is 125 MHz / (16 * 9600) = 813.80, in units of 1/256
208333 / 256; a cycle begins when the accumulated fraction passes the next integer.  The start is at time `t0`, with some fraction `f`. -/
def dividerClock (u t0 f : Nat) (k : Nat) : Nat := t0 + u * ((208333 * k + f) / 256)

/-- A packet as the DMA hands it over: cycle of the first byte, the byte, and cycle and value of the others. -/
structure Handed where
  at_ : Nat
  first : UInt8
  rest : List (Nat × UInt8)

def Handed.writes (p : Handed) : List (Nat × UInt8) := (p.at_, p.first) :: p.rest

def Handed.bytes (p : Handed) : List UInt8 := p.first :: p.rest.map Prod.snd

/-- Cycle in which the last frame of the packet starts if they follow each other immediately. -/
def Handed.last (p : Handed) : Nat := p.at_ + 1 + 175 * p.rest.length

/-- Every further byte is written before the frame of the one before, which starts in cycle `s`, is over. -/
def InTime : Nat → List (Nat × UInt8) → Prop
  | _, [] => True
  | s, (w, _) :: ws => w < s + 175 ∧ InTime (s + 175) ws

/-- Packets with silence for the time of 352 to `M` codes in front of each; `t` is the end of the packet before. -/
def Apart (P M : Nat) (c : Nat → Nat) : Nat → List Handed → Prop
  | _, [] => True
  | t, p :: ps => t + 352 * P ≤ c (p.at_ + 1) ∧ c (p.at_ + 1) ≤ t + M * P ∧ Apart P M c (c p.last + 348 * P) ps

/-- The end of the last packet. -/
def sendEnd (P : Nat) (c : Nat → Nat) : Nat → List Handed → Nat
  | t, [] => t
  | _, p :: ps => sendEnd P c (c p.last + 348 * P) ps

end P1P2
