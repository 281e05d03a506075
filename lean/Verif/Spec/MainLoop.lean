import Verif.Spec.Core0
import Verif.Spec.Tx
import Verif.Spec.Standalone
/-!
# Vocabulary for C58, C59, C84-C90: the main loop as a whole
-/
namespace P1P2

/-- The main loop after a history of iterations from the start of the device (any content of uninitialised memory, any clock readings): the
state and what each iteration did. -/
def LoopRun (pf : Platform) (g : Nat → UInt8) (es : List (Env1 × Env2)) (c : Core0) (os : List Out2) : Prop :=
  ∃ w0 t0 t1, (Core0.init g w0 t0 t1).run pf g es = .ok (c, os)

/-- The messages given to the transmitter by an execution of the transmitter. -/
def requests (es : List TxObs) : List Message :=
  es.filterMap fun e => match e.call with | .wake m _ => some m | _ => none

/-- The bytes received without error according to the words of the receiving core. -/
def goodBytes (ws : List Word) : List UInt8 := ws.filterMap fun w => if w.rxValid && !w.rxError then some w.rxChar else none

/-- Does the main loop know the bus as busy, given the words it was told, and what it believed before? -/
def busKnownBusy (b : Bool) (ws : List Word) : Bool :=
  ws.foldl (fun b w => if w.lineFree then false else if w.lineBusy then true else b) b

/-- The lines that the host sends in a history: what the line reader (`C12`, `C13`) finds in the characters. -/
def hostLines (es : List (Env1 × Env2)) : List (List UInt8) :=
  match Host.polls (LineRecv.mk0 0) (es.map fun e => e.1.chunk) with
  | .ok r => r.2
  | .ub => []

/-- A controller reached without handing over its answer. -/
def CtrlCall.keeps : CtrlCall → Bool
  | .txAnswer _ => false
  | _ => true

end P1P2
