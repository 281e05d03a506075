/-!
# Specification of the host text protocol (pico/doc/uart.md)

Independent of the model: only Lean's own decimal/hexadecimal conversion is used.
-/
namespace P1P2.Spec

/-- ASCII encoding of a text. -/
def ascii (s : List Char) : List UInt8 := s.map (fun c => UInt8.ofNat c.toNat)

/-- Hexadecimal, lower case, at least two digits. -/
def hex2 (n : Nat) : List Char :=
  let d := Nat.toDigits 16 n
  if d.length < 2 then '0' :: d else d

/-- The line for a packet: `time:status:data`. -/
def line (time status : Nat) (bytes : List UInt8) : List UInt8 :=
  ascii (Nat.toDigits 10 time ++ [':'] ++ hex2 status ++ [':'] ++ bytes.flatMap (fun b => hex2 b.toNat))

/-- `HexDigit v c`: the character `c` denotes the nibble `v`, in either case. -/
def HexDigit (v : Nat) (c : UInt8) : Prop :=
  (v < 10 ∧ c.toNat = 48 + v) ∨ (10 ≤ v ∧ v < 16 ∧ (c.toNat = 87 + v ∨ c.toNat = 55 + v))

/-- `Spelling bs t`: the text `t` spells the bytes `bs` in hexadecimal, high nibble first, in any mix
of cases and with any number of spaces before, between and after the digits. -/
inductive Spelling : List UInt8 → List UInt8 → Prop
  | nil : Spelling [] []
  | space {bs t} : Spelling bs t → Spelling bs (32 :: t)
  | byte {bs t : List UInt8} {hi lo : Nat} {ch cl : UInt8} (k : Nat) :
      HexDigit hi ch → HexDigit lo cl → Spelling bs t →
      Spelling (UInt8.ofNat (16 * hi + lo) :: bs) (ch :: (List.replicate k 32 ++ cl :: t))

/-- What may follow the data: nothing, or a comment introduced by ';' or '#' (without ':'). -/
inductive Tail : List UInt8 → Prop
  | nil : Tail []
  | comment {c : UInt8} {t} : (c = 59 ∨ c = 35) → (∀ x ∈ t, x ≠ 58 ∧ x ≠ 0) → Tail (c :: t)

/-- Value of a string of digit values in base `b`. -/
def digitsValue (b : Nat) (ds : List Nat) : Nat := ds.foldl (fun a d => a * b + d) 0

/-- `DecDigit v c`: character `c` denotes the decimal digit `v`. -/
def DecDigit (v : Nat) (c : UInt8) : Prop := v < 10 ∧ c.toNat = 48 + v

/-- `Digits P ds cs`: the text `cs` consists of the digits `ds`, character by character (`P` is
`DecDigit` or `HexDigit`). -/
inductive Digits (P : Nat → UInt8 → Prop) : List Nat → List UInt8 → Prop
  | nil : Digits P [] []
  | cons {v c ds cs} : P v c → Digits P ds cs → Digits P (v :: ds) (c :: cs)

/-- The fields of a line: the texts between the colons. -/
def fields : List UInt8 → List (List UInt8)
  | [] => [[]]
  | c :: cs =>
    if c = 58 then [] :: fields cs
    else match fields cs with
      | [] => [[c]]
      | f :: fs => (c :: f) :: fs

/-- The data field of a line: the third field, or the whole line when there are no prefixes. -/
def dataField (line : List UInt8) : List UInt8 :=
  match fields line with
  | _ :: _ :: d :: _ => d
  | d :: _ => d
  | [] => []

/-- The time prefix of a line (empty if there is none). -/
def timeField (line : List UInt8) : List UInt8 :=
  match fields line with
  | t :: _ :: _ => t
  | _ => []

/-- The characters of a data field that are neither spaces nor part of a comment. -/
def payload (d : List UInt8) : List UInt8 := (d.takeWhile (fun c => c ≠ 35 && c ≠ 59)).filter (· ≠ 32)

/-- Calls on a packet buffer. -/
inductive BufOp where
  | append (b : UInt8)
  | clear
  | overflow
deriving DecidableEq, Repr

/-- A packet buffer is a list of at most 32 bytes. -/
def bufStep (l : List UInt8) : BufOp → List UInt8
  | .append b => if l.length < 32 then l ++ [b] else l
  | .clear => []
  | .overflow => l

/-- Answers to the overflow queries. -/
def bufOut (l : List UInt8) : List BufOp → List Bool
  | [] => []
  | .overflow :: ops => (decide (l.length = 32)) :: bufOut (bufStep l .overflow) ops
  | op :: ops => bufOut (bufStep l op) ops

end P1P2.Spec
