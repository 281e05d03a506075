import Verif.Spec.Modem
import Verif.Model.TxDev
/-!
# Specification: what the pins show when a client uses the transmit driver
-/
namespace P1P2

/-- Reference sender: the rest of the current frame and an unbounded queue of bytes. -/
structure LineRef where
  rest : List (Level × Bool)
  queue : List UInt8

/-- After reset there is one idle cycle. -/
def LineRef.init : LineRef := { rest := [(.mid, false)], queue := [] }

/-- One cycle: what the line shows, and the new state. When nothing is being sent, the next byte is taken, to be sent from the next cycle on. -/
def LineRef.cycle (r : LineRef) : (Level × Bool) × LineRef :=
  match r.rest with
  | o :: rest => (o, { r with rest := rest })
  | [] => ((.mid, false), match r.queue with
    | [] => r
    | b :: q => { rest := burst b, queue := q })

/-- Line and flag in each cycle.  A message is accepted if it is not too long and the DMA has moved all bytes of the one before
(`left` are missing). `ClearFifo` drops what waits, but not the frame that is being sent. -/
def LineRef.shows : LineRef → Nat → List DevEv → List (Level × Bool)
  | _, _, [] => []
  | r, left, .call (.send m) :: es =>
    if left = 0 ∧ m.length ≤ 32 then LineRef.shows { r with queue := r.queue ++ m.bytes } m.length es else LineRef.shows r left es
  | r, _, .call .clearFifo :: es => LineRef.shows { r with queue := [] } 0 es
  | r, left, .call (.shutdown _) :: es => LineRef.shows r left es
  | r, left, .error :: es => LineRef.shows r left es
  | r, left, .dma :: es => LineRef.shows r (left - 1) es
  | r, left, .cycle :: es => r.cycle.1 :: LineRef.shows r.cycle.2 left es

/-- State of the reference sender after the events. -/
def LineRef.after : LineRef → Nat → List DevEv → LineRef
  | r, _, [] => r
  | r, left, .call (.send m) :: es =>
    if left = 0 ∧ m.length ≤ 32 then LineRef.after { r with queue := r.queue ++ m.bytes } m.length es else LineRef.after r left es
  | r, _, .call .clearFifo :: es => LineRef.after { r with queue := [] } 0 es
  | r, left, .call (.shutdown _) :: es => LineRef.after r left es
  | r, left, .error :: es => LineRef.after r left es
  | r, left, .dma :: es => LineRef.after r (left - 1) es
  | r, left, .cycle :: es => LineRef.after r.cycle.2 left es

/-- Results of `Error()`: whether a message was refused since the last call. -/
def errorAnswers : (left : Nat) → (err : Bool) → List DevEv → List Bool
  | _, _, [] => []
  | left, err, .call (.send m) :: es => if left = 0 ∧ m.length ≤ 32 then errorAnswers m.length err es else errorAnswers left true es
  | _, err, .call .clearFifo :: es => errorAnswers 0 err es
  | left, err, .call (.shutdown _) :: es => errorAnswers left err es
  | left, err, .error :: es => err :: errorAnswers left false es
  | left, err, .dma :: es => errorAnswers (left - 1) err es
  | left, err, .cycle :: es => errorAnswers left err es

/-- The bytes of the accepted messages, each with the number of cycles before the call; `n` cycles have passed. -/
def acceptedFrom : (n left : Nat) → List DevEv → List (Nat × UInt8)
  | _, _, [] => []
  | n, left, .call (.send m) :: es =>
    if left = 0 ∧ m.length ≤ 32 then m.bytes.map (fun b => (n, b)) ++ acceptedFrom n m.length es else acceptedFrom n left es
  | n, _, .call .clearFifo :: es => acceptedFrom n 0 es
  | n, left, .call (.shutdown _) :: es => acceptedFrom n left es
  | n, left, .error :: es => acceptedFrom n left es
  | n, left, .dma :: es => acceptedFrom n (left - 1) es
  | n, left, .cycle :: es => acceptedFrom (n + 1) left es

/-- All messages handed to `Send`, with the number of cycles before the call. -/
def sendsFrom : (n : Nat) → List DevEv → List (Nat × Message)
  | _, [] => []
  | n, .call (.send m) :: es => (n, m) :: sendsFrom n es
  | n, .cycle :: es => sendsFrom (n + 1) es
  | n, _ :: es => sendsFrom n es

/-- `ClearFifo` is called only when the frame of the last accepted byte has begun; `e` is the end of that frame (and of the pause after it). -/
def ClearsLate : (e n left : Nat) → List DevEv → Prop
  | _, _, _, [] => True
  | e, n, left, .call (.send m) :: es => if left = 0 ∧ m.length ≤ 32 then ClearsLate (max e n + 175 * m.length) n m.length es else ClearsLate e n left es
  | e, n, _, .call .clearFifo :: es => e ≤ n + 174 ∧ ClearsLate e n 0 es
  | e, n, left, .call (.shutdown _) :: es => ClearsLate e n left es
  | e, n, left, .error :: es => ClearsLate e n left es
  | e, n, left, .dma :: es => ClearsLate e n (left - 1) es
  | e, n, left, .cycle :: es => ClearsLate e (n + 1) left es

/-- Number of PIO cycles. -/
def cyclesOf : List DevEv → Nat
  | [] => 0
  | .cycle :: es => cyclesOf es + 1
  | _ :: es => cyclesOf es

/-- Cycle in which the last frame of a message begins if it is handed over before cycle `n` while nothing is being sent. -/
def finalStart (n : Nat) (m : Message) : Nat := n + 1 + 175 * (m.length - 1)

/-- Messages with silence for the time of 352 to `M` codes in front of each; `t` is the end of the one before. -/
def CallsApart (P M : Nat) (c : Nat → Nat) : Nat → List (Nat × Message) → Prop
  | _, [] => True
  | t, (n, m) :: ms => t + 352 * P ≤ c (n + 1) ∧ c (n + 1) ≤ t + M * P ∧ CallsApart P M c (c (finalStart n m) + 348 * P) ms

/-- The end of the last message. -/
def callsEnd (P : Nat) (c : Nat → Nat) : Nat → List (Nat × Message) → Nat
  | t, [] => t
  | _, (n, m) :: ms => callsEnd P c (c (finalStart n m) + 348 * P) ms

end P1P2
