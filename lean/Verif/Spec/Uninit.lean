import Verif.Model.Core0
import Verif.Spec.Core0
/-!
# Vocabulary for C86: what can be seen of an iteration, and uninitialised memory that differs from iteration to iteration
-/
namespace P1P2

/-- What can be seen of a message: status, time, the bytes of its payload (not the rest of the array). -/
def Message.seen (m : Message) : Nat × Nat × List UInt8 := (m.status, m.time, m.bytes)

/-- What can be seen of a line for the host: whether it is about a failed transmission, and the message. -/
def Report.seen : Report → Bool × Nat × Nat × List UInt8
  | .rx m => (false, m.seen)
  | .tx m => (true, m.seen)

/-- What can be seen of a call on the transmit hardware. -/
inductive SeenCmd where
  | shutdown (b : Bool)
  | send (bytes : List UInt8)
  | clearFifo
deriving DecidableEq, Repr

def HwCmd.seen : HwCmd → SeenCmd
  | .shutdown b => .shutdown b
  | .send m => .send m.bytes
  | .clearFifo => .clearFifo

/-- What can be seen of an iteration: the lines for the host, the packet whose transmission starts, the calls on the transmit hardware. -/
def Out2.seen (o : Out2) : List (Bool × Nat × Nat × List UInt8) × Option (Nat × Nat × List UInt8) × List SeenCmd :=
  (o.reports.map Report.seen, o.started.map Message.seen, o.cmds.map HwCmd.seen)

/-- A history of the main loop; in iteration `k` (counted from `k`) uninitialised memory has the content `gs k`. -/
def Core0.runWith (pf : Platform) (gs : Nat → Nat → UInt8) (k : Nat) (c : Core0) : List (Env1 × Env2) → Res (Core0 × List Out2)
  | [] => .ok (c, [])
  | e :: es => do
    let r ← c.iter pf (gs k) e
    let r' ← Core0.runWith pf gs (k + 1) r.1 es
    .ok (r'.1, r.2 :: r'.2)

/-- A request of type 0x30 or 0x31 that is too short: its answer has to repeat 17 or 15 bytes. -/
def ShortRequest (b : List UInt8) : Prop :=
  4 ≤ b.length ∧ b[0]? = some 0x00 ∧ (b[2]? = some 0x30 ∧ b.length < 17 ∨ b[2]? = some 0x31 ∧ b.length < 15)

/-- A packet of one or two bytes that could be the beginning of an answer. -/
def StubAnswer (b : List UInt8) : Prop := b.length < 3 ∧ b[0]? = some 0x40

instance (b : List UInt8) : Decidable (ShortRequest b) := by unfold ShortRequest; infer_instance
instance (b : List UInt8) : Decidable (StubAnswer b) := by unfold StubAnswer; infer_instance

end P1P2
