import Verif.Spec.Message
/-!
# How a C program reads a number from a text (ISO C 7.22.1.2, 7.22.1.4), as a relation

Independent of the model.  The text is cut into white space, an optional sign, for hexadecimal numbers an
optional `0x`, the longest run of digits, and a rest that is ignored.
-/
namespace P1P2.Spec

/-- Space, tab, line feed, vertical tab, form feed, carriage return. -/
def Blank (c : UInt8) : Prop := c ∈ [32, 9, 10, 11, 12, 13]

/-- An optional sign; `true` is minus. -/
inductive Sign : Bool → List UInt8 → Prop
  | none : Sign false []
  | plus : Sign false [43]
  | minus : Sign true [45]

/-- The text `t` does not start with a character that satisfies `P`. -/
def NotStart (P : UInt8 → Prop) (t : List UInt8) : Prop := ∀ c r, t = c :: r → ¬ P c

/-- What follows white space and the sign: not a further blank or sign, unless a sign has been read. -/
def Begins (sg body : List UInt8) : Prop := sg = [] → NotStart (fun c => Blank c ∨ c = 43 ∨ c = 45) body

/-- `DecNumber neg ds s`: the text `s` denotes the decimal number with sign `neg` and the digits `ds`. -/
inductive DecNumber (neg : Bool) (ds : List Nat) : List UInt8 → Prop
  | mk {ws sg num rest} : (∀ c ∈ ws, Blank c) → Sign neg sg → Begins sg (num ++ rest) →
      Digits DecDigit ds num → NotStart (fun c => ∃ v, DecDigit v c) rest →
      DecNumber neg ds (ws ++ (sg ++ (num ++ rest)))

/-- `0x` or `0X` in front of a hexadecimal digit. -/
def Ox (t : List UInt8) : Prop :=
  ∃ x h r v, t = 48 :: x :: h :: r ∧ (x = 120 ∨ x = 88) ∧ HexDigit v h

/-- `HexNumber neg ds s`: the text `s` denotes the hexadecimal number with sign `neg` and the digits `ds`. -/
inductive HexNumber (neg : Bool) (ds : List Nat) : List UInt8 → Prop
  | plain {ws sg num rest} : (∀ c ∈ ws, Blank c) → Sign neg sg → Begins sg (num ++ rest) →
      ¬ Ox (num ++ rest) → Digits HexDigit ds num → NotStart (fun c => ∃ v, HexDigit v c) rest →
      HexNumber neg ds (ws ++ (sg ++ (num ++ rest)))
  | ox {ws sg num rest x} : (∀ c ∈ ws, Blank c) → Sign neg sg → (x = 120 ∨ x = 88) → num ≠ [] →
      Digits HexDigit ds num → NotStart (fun c => ∃ v, HexDigit v c) rest →
      HexNumber neg ds (ws ++ (sg ++ (48 :: x :: (num ++ rest))))

/-- The value of a number with sign `neg` and absolute value `n`. -/
def signed (neg : Bool) (n : Nat) : Int := if neg then -(n : Int) else n

/-- A value forced into the range of a two's complement integer of `b` bits. -/
def clamp (b : Nat) (v : Int) : Int := max (-(2 ^ (b - 1))) (min v (2 ^ (b - 1) - 1))

end P1P2.Spec
