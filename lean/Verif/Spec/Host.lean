import Verif.Spec.Message
/-!
# Specification of the host interface
-/
namespace P1P2.Spec

/-- CR and LF. -/
def Term (c : UInt8) : Prop := c = 10 ∨ c = 13

/-- What arrives between two polls, in the well-behaved case: text, then possibly terminators. -/
structure Chunk where
  body : List UInt8
  terms : List UInt8

/-- The bytes of a chunk. -/
def Chunk.bytes (c : Chunk) : List UInt8 := c.body ++ c.terms

/-- The lines contained in a sequence of chunks, given the text `pending` already received. -/
def linesOf : List UInt8 → List Chunk → List (List UInt8)
  | _, [] => []
  | pending, c :: cs =>
    if c.terms = [] then linesOf (pending ++ c.body) cs
    else if pending ++ c.body = [] then linesOf [] cs
    else (pending ++ c.body) :: linesOf [] cs

/-- The text pending at each poll fits the buffer together with one terminator. -/
def Fits : List UInt8 → List Chunk → Prop
  | _, [] => True
  | pending, c :: cs =>
    (pending ++ c.body).length ≤ 127 ∧
      if c.terms = [] then Fits (pending ++ c.body) cs else Fits [] cs

/-- The bytes of a line that were queued: all of it with CR LF, or, when space ran out, a prefix of
`line CR` (possibly all of it), or the line with LF only. -/
def Piece (text p : List UInt8) : Prop :=
  p = text ++ [13, 10] ∨ p <+: text ++ [13] ∨ p = text ++ [10]

end P1P2.Spec
