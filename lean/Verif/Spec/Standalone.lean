import Verif.Model.Standalone
/-!
# Vocabulary for C62-C69: the external controller

Type 0x30: sense, type 0x31: status.  `genCRC` is the checksum specified by C60, C61, C82, C83.
-/
namespace P1P2

/-- The last byte of the packet is the checksum of the others. -/
def ChecksumOk (m : Message) : Prop := genCRC m.data (m.length - 1) = .ok (m.data (m.length - 1))

/-- A request to the controller with address `addr`. -/
structure ValidRequest (addr : Nat) (m : Message) : Prop where
  long : 3 < m.length
  cmd : m.data 0 = 0x00
  addr : (m.data 1).toNat = addr
  type : m.data 2 = 0x30 ∨ m.data 2 = 0x31
  crc : ChecksumOk m

/-- The answer of another controller with address `addr` to a type 0x30 request. -/
structure ForeignAnswer (addr : Nat) (m : Message) : Prop where
  long : 3 < m.length
  cmd : m.data 0 = 0x40
  addr : (m.data 1).toNat = addr
  type : m.data 2 = 0x30
  crc : ChecksumOk m

/-- `out` is a well-formed answer of the controller `addr` to the request `m`. -/
structure AnswerTo (addr : Nat) (m out : Message) : Prop where
  length : out.length = if m.data 2 = 0x30 then 18 else 16
  cmd : out.data 0 = 0x40
  addr : (out.data 1).toNat = addr
  type : out.data 2 = m.data 2
  lan : m.data 2 = 0x31 → out.data 7 = 0xB4 ∧ out.data 8 = 0x10
  echo : ∀ i, 3 ≤ i → i < out.length - 1 → ¬ (m.data 2 = 0x31 ∧ (i = 7 ∨ i = 8)) → out.data i = m.data i
  crc : ChecksumOk out

/-- A call is usable if the message it passes fits its array. -/
def CtrlCall.Fits : CtrlCall → Prop
  | .receive m => m.length ≤ 32
  | _ => True

/-- The states of a controller that was created at time `t0`. -/
def Reaches (calls : List CtrlCall) (c : Ctrl) : Prop :=
  ∃ garbage t0, (∀ x ∈ calls, x.Fits) ∧ (Ctrl.init garbage t0).run calls = .ok c

/-- The phases of the controller: phase and the time it began. -/
structure Phase where
  st : CtrlSt
  since : Nat
deriving DecidableEq

/-- Duration of a phase in microseconds. -/
def duration : CtrlSt → Nat
  | .idle => 100000
  | .busScan => 2000000
  | .operating => 600000000

/-- silent, scanning, operating, silent, ... -/
def nextPhase : CtrlSt → CtrlSt
  | .idle => .busScan
  | .busScan => .operating
  | .operating => .idle

/-- A check that reads the clock as `t1` ends the phase if its duration has elapsed; the new phase begins at `t2`.  A
collision starts the silent phase.  Nothing else has an effect. -/
def Phase.step (p : Phase) : CtrlCall → Phase
  | .check t1 t2 => if p.since + duration p.st ≤ t1 then ⟨nextPhase p.st, t2⟩ else p
  | .busCollision now => ⟨.idle, now⟩
  | _ => p

end P1P2
