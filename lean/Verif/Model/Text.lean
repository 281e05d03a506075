import Verif.Basic
/-!
# C library text conversions used by the firmware

These are not part of /repo; they are the assumed semantics of `snprintf("%llu")`,
`snprintf("%02x")`, `atoll`, `strtol(.,.,16)` and of NUL-terminated strings (ISO C 7.21.6, 7.22.1),
as used in pico/src/message.cpp:26,29,74,77.
-/
namespace P1P2

/-- Digits of `n` in base `b`, most significant first, no leading zeros (`b ≥ 2`). -/
def digits (b : Nat) (n : Nat) : List Nat :=
  if _h : b ≤ 1 ∨ n < b then [n] else digits b (n / b) ++ [n % b]
termination_by n
decreasing_by
  have : 0 < n := by omega
  exact Nat.div_lt_self this (by omega)

/-- ASCII code of a digit value below 16, lower case. -/
def digitChar (d : Nat) : UInt8 := if d < 10 then UInt8.ofNat (48 + d) else UInt8.ofNat (87 + d)

/-- `"%llu"` -/
def fmtDec (n : Nat) : List UInt8 := (digits 10 n).map digitChar

/-- `"%02x"` -/
def fmtHex2 (n : Nat) : List UInt8 :=
  let ds := digits 16 n
  (List.replicate (2 - ds.length) 0 ++ ds).map digitChar

/-- Value of a decimal digit character. -/
def decVal (c : UInt8) : Option Nat :=
  if 48 ≤ c.toNat ∧ c.toNat ≤ 57 then some (c.toNat - 48) else none

/-- Value of a hexadecimal digit character, either case. -/
def hexVal (c : UInt8) : Option Nat :=
  if 97 ≤ c.toNat ∧ c.toNat ≤ 102 then some (c.toNat - 97 + 10)
  else if 65 ≤ c.toNat ∧ c.toNat ≤ 70 then some (c.toNat - 65 + 10)
  else if 48 ≤ c.toNat ∧ c.toNat ≤ 57 then some (c.toNat - 48)
  else none

/-- `isspace` in the C locale. -/
def isSpace (c : UInt8) : Bool := c.toNat = 32 || (9 ≤ c.toNat && c.toNat ≤ 13)

/-- Accumulate leading digits. -/
def accDigits (b : Nat) (val : UInt8 → Option Nat) : Nat → List UInt8 → Nat
  | acc, [] => acc
  | acc, c :: cs => match val c with
    | some d => accDigits b val (acc * b + d) cs
    | none => acc

/-- White space and optional sign, common to `atoll` and `strtol`: (negative?, rest). -/
def skipSign (s : List UInt8) : Bool × List UInt8 :=
  match s.dropWhile isSpace with
  | c :: cs => if c = chr '-' then (true, cs) else if c = chr '+' then (false, cs) else (false, c :: cs)
  | [] => (false, [])

/-- `atoll`: undefined behaviour when the value does not fit `long long` (ISO C 7.22.1p1). -/
def atoll (s : List UInt8) : Res Int :=
  let (neg, r) := skipSign s
  let n : Int := accDigits 10 decVal 0 r
  let v := if neg then -n else n
  if -9223372036854775808 ≤ v ∧ v ≤ 9223372036854775807 then .ok v else .ub

/-- Optional `0x` prefix accepted by `strtol` with base 16. -/
def skip0x : List UInt8 → List UInt8
  | z :: x :: h :: t =>
    if z = chr '0' ∧ (x = chr 'x' ∨ x = chr 'X') ∧ (hexVal h).isSome then h :: t else z :: x :: h :: t
  | r => r

/-- `strtol(s, NULL, 16)`: optional `0x`, saturating at the bounds of `long`. -/
def strtol16 (pf : Platform) (s : List UInt8) : Int :=
  let (neg, r) := skipSign s
  let n : Int := accDigits 16 hexVal 0 (skip0x r)
  let v := if neg then -n else n
  let lim : Int := 2 ^ (pf.longBits - 1)
  if v < -lim then -lim else if v > lim - 1 then lim - 1 else v

/-- C string starting at index `i` of an array of `n` elements; reading past the end is undefined. -/
def readCStr (a : Nat → UInt8) : (rem : Nat) → (i : Nat) → Res (List UInt8)
  | 0, _ => .ub
  | rem + 1, i => if a i = 0 then .ok [] else do
      let t ← readCStr a rem (i + 1)
      .ok (a i :: t)

/-- Store a list of characters into a buffer starting at `off`. -/
def writeList (buf : Nat → UInt8) (off : Nat) : List UInt8 → (Nat → UInt8)
  | [] => buf
  | c :: cs => writeList (upd buf off c) (off + 1) cs

/-- `snprintf(&buf[off], cap - off, ...)` producing text `s`, buffer of `cap` bytes.
`off > cap` would make the size argument wrap around (size_t), i.e. an unbounded write. -/
def snprintfAt (cap : Nat) (buf : Nat → UInt8) (off : Nat) (s : List UInt8) : Res (Nat → UInt8) :=
  if off > cap then .ub
  else if off = cap then .ok buf
  else .ok (writeList buf off (s.take (cap - off - 1) ++ [0]))

end P1P2
