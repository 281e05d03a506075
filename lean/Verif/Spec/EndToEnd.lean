import Verif.Spec.Alone
import Verif.Props.Message
import Verif.Props.Host
/-!
# Vocabulary for C132: from the keyboard of one host to the screen of another
-/
namespace P1P2
open Spec

/-- A line that a user may type for the packet `bs` (pico/doc/uart.md): the bytes in hexadecimal, with or without the prefixes
`time:status:`, with or without a comment at the end. -/
inductive Writes : List UInt8 → List UInt8 → Prop
  | plain {bs t tl : List UInt8} : Spelling bs t → Tail tl → Writes (t ++ tl) bs
  | prefixed {p q bs t tl : List UInt8} : TimePrefix p → StatusPrefix q → Spelling bs t → Tail tl →
      Writes (p ++ 58 :: (q ++ 58 :: (t ++ tl))) bs

/-- The lines, in order, spell the packets, in order. -/
inductive WritesAll : List (List UInt8) → List (List UInt8) → Prop
  | nil : WritesAll [] []
  | cons {l bs : List UInt8} {ls bss : List (List UInt8)} : Writes l bs → 1 ≤ bs.length → bs.length ≤ 31 → WritesAll ls bss →
      WritesAll (l :: ls) (bs :: bss)

/-- The text consists of one line per packet: some time, status 0, the bytes of the packet. -/
def Reads (text : List UInt8) (bss : List (List UInt8)) : Prop :=
  ∃ ts : List Nat, ts.length = bss.length ∧ text = (List.zipWith (fun t bs => Spec.line t 0 bs ++ [13, 10]) ts bss).flatten

/-- A packet that the standalone controller answers. -/
def IsRequest (bs : List UInt8) : Prop := ∃ (m : Message) (addr : Nat), m.bytes = bs ∧ (addr = 0xF0 ∨ addr = 0xF1) ∧ ValidRequest addr m

/-- Fewer than eight packets of the host wait at any time of the history. -/
def FewWait (pf : Platform) (g : Nat → UInt8) (es : List (Env1 × Env2)) : Prop :=
  ∀ pre post cp op, es = pre ++ post → LoopRun pf g pre cp op → cp.host.msgs.length < 8

/-- What is given to the output of the host interface: each line is queued when the lines before it have left. -/
def printing (sends : List SendEv) : List TxEv := sends.flatMap fun e => [.drain 128, .send e]

end P1P2
