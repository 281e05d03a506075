import Verif.Spec.Core0
import Verif.Spec.Standalone
/-!
# Vocabulary for C89, C91 - C93: what each line about the bus means

Stated by means of the words taken from the receiving core since the last line about the bus (`ws`).
-/
namespace P1P2

/-- The bytes that the words carry (an error of the ADC comes without a byte). -/
def heardBytes (ws : List Word) : List UInt8 :=
  (ws.filter fun w => !w.dadcError && (w.rxValid || w.rxError)).map Word.rxChar

/-- The status of a packet that consists of these words: 0 if there was no error, else that of the last one: 2 for the ADC, 3 for a wrong byte. -/
def heardStatus (ws : List Word) : Nat :=
  match (ws.filter fun w => w.dadcError || w.rxError).getLast? with
  | none => 0
  | some w => if w.dadcError then 2 else 3

/-- The line says what the words say, with this status. -/
def LineIs (m : Message) (status : Nat) (ws : List Word) : Prop := m.status = status ∧ m.bytes = heardBytes ws

/-- A word tells that the bus is free, and there is something to tell: a packet has ended. -/
def PacketEnds (ws : List Word) (w : Word) : Prop := w.lineFree = true ∧ (heardBytes ws ≠ [] ∨ heardStatus ws ≠ 0)

/-- What an iteration `e` tells about the bus (`ms`), if `ws` are the words since the last line; `ws'` are the words since the last line
afterwards.  In this order: possibly that the bus is busy for too long (status 4; see C57 for when); that the receiving core could not hand over words (status 2) if and
only if this was signalled; if a word is taken: the packet, if it ends with this word; otherwise, if there are 32 bytes now, these bytes with
status 2. -/
def IterTells (ws : List Word) (e : Env1 × Env2) (ms : List Message) (ws' : List Word) : Prop :=
  ∃ busy lost heard ws1 ws2, ms = busy ++ lost ++ heard ∧
    ((busy = [] ∧ ws1 = ws) ∨ (∃ m, busy = [m] ∧ LineIs m 4 ws ∧ ws1 = [])) ∧
    ((e.1.fifoErr = false ∧ lost = [] ∧ ws2 = ws1) ∨ (e.1.fifoErr = true ∧ ∃ m, lost = [m] ∧ LineIs m 2 ws1 ∧ ws2 = [])) ∧
    ((e.2.word = none ∧ heard = [] ∧ ws' = ws2) ∨
     ∃ w, e.2.word = some w ∧
      ((PacketEnds (ws2 ++ [w]) w ∧ ∃ m, heard = [m] ∧ LineIs m (heardStatus (ws2 ++ [w])) (ws2 ++ [w]) ∧ ws' = []) ∨
       (¬ PacketEnds (ws2 ++ [w]) w ∧ (heardBytes (ws2 ++ [w])).length = 32 ∧ ∃ m, heard = [m] ∧ LineIs m 2 (ws2 ++ [w]) ∧ ws' = []) ∨
       (¬ PacketEnds (ws2 ++ [w]) w ∧ (heardBytes (ws2 ++ [w])).length < 32 ∧ heard = [] ∧ ws' = ws2 ++ [w])))

/-- A whole history, from `ws` to `ws'`. -/
def HistoryTells : List Word → List (Env1 × Env2) → List Out2 → List Word → Prop
  | ws, [], [], ws' => ws' = ws
  | ws, e :: es, o :: os, ws' => ∃ ws1, IterTells ws e (rxMsgs o.reports) ws1 ∧ HistoryTells ws1 es os ws'
  | _, _, _, _ => False

/-- Number of lines with status 2 that an iteration gives because words were not handed over. -/
def lostTold (es : List (Env1 × Env2)) : Nat := es.countP fun e => e.1.fifoErr

/-! ## C89: what is transmitted -/

/-- `a` is an answer of the controller (with one of its two addresses) to the request `r`. -/
def Answers (r a : Message) : Prop := ∃ addr, (addr = 0xF0 ∨ addr = 0xF1) ∧ ValidRequest addr r ∧ AnswerTo addr r a

/-- Every message transmitted, in order, with its origin: `none` is the host, `some r` is the request `r` received from the bus. -/
abbrev Origins := List (Message × Option Message)

/-- The messages of the host. -/
def Origins.host (os : Origins) : List Message := os.filterMap fun p => match p.2 with | none => some p.1 | some _ => none

/-- The requests that were answered. -/
def Origins.requests (os : Origins) : List Message := os.filterMap Prod.snd

end P1P2
