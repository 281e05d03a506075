/-!
# Common vocabulary of the model

`Res α` is the outcome of a C++ fragment: a value, or undefined behaviour (out-of-range array
access, signed overflow, unrepresentable `atoll` result).  Platform-dependent aspects of C++ are
collected in `Platform`.
-/
namespace P1P2

/-- Outcome of a C++ fragment: a value or undefined behaviour. -/
inductive Res (α : Type) where
  | ok (a : α)
  | ub
deriving DecidableEq, Repr

namespace Res

@[inline] def bind {α β : Type} (x : Res α) (f : α → Res β) : Res β :=
  match x with
  | ok a => f a
  | ub => ub

instance : Monad Res where
  pure := ok
  bind := bind

@[simp] theorem pure_eq {α : Type} (a : α) : (pure a : Res α) = ok a := rfl
@[simp] theorem ok_bind {α β : Type} (a : α) (f : α → Res β) : (ok a >>= f) = f a := rfl
@[simp] theorem ub_bind {α β : Type} (f : α → Res β) : ((ub : Res α) >>= f) = ub := rfl
@[simp] theorem map_ok {α β : Type} (a : α) (f : α → β) : (f <$> (ok a)) = ok (f a) := rfl
@[simp] theorem map_ub {α β : Type} (f : α → β) : (f <$> (ub : Res α)) = ub := rfl

theorem bind_eq_ok {α β : Type} {x : Res α} {f : α → Res β} {b : β} :
    (x >>= f) = ok b ↔ ∃ a, x = ok a ∧ f a = ok b := by
  cases x <;> simp

theorem bind_eq_ub {α β : Type} {x : Res α} {f : α → Res β} :
    (x >>= f) = ub ↔ x = ub ∨ ∃ a, x = ok a ∧ f a = ub := by
  cases x <;> simp

instance : LawfulMonad Res := LawfulMonad.mk' Res
  (id_map := by intro α x; cases x <;> rfl)
  (pure_bind := by intros; rfl)
  (bind_assoc := by intro α β γ x f g; cases x <;> rfl)

end Res

/-- Properties of the C++ implementation that the code depends on.  -/
structure Platform where
  /-- plain `char` is signed -/
  charSigned : Bool
  /-- width of `long` in bits -/
  longBits : Nat
  /-- width of `size_t` in bits -/
  sizeBits : Nat
deriving DecidableEq, Repr

/-- RP2040, arm-none-eabi-gcc (pico/CMakeLists.txt:29-39 pass no `-fsigned-char`). -/
def Platform.arm : Platform := { charSigned := false, longBits := 32, sizeBits := 32 }

/-- x86-64 Linux host on which pico/tests are run. -/
def Platform.host : Platform := { charSigned := true, longBits := 64, sizeBits := 64 }

/-- Functional update of a C array. -/
def upd {α : Type} (f : Nat → α) (i : Nat) (v : α) : Nat → α := fun j => if j = i then v else f j

@[simp] theorem upd_same {α : Type} (f : Nat → α) (i : Nat) (v : α) : upd f i v i = v := by simp [upd]
theorem upd_other {α : Type} (f : Nat → α) {i j : Nat} (v : α) (h : j ≠ i) : upd f i v j = f j := by
  simp [upd, h]

/-- Array read `a[i]` of an array of `n` elements. -/
def rd {α : Type} (n : Nat) (a : Nat → α) (i : Nat) : Res α := if i < n then .ok (a i) else .ub

/-- Array write `a[i] = v` into an array of `n` elements. -/
def wr {α : Type} (n : Nat) (a : Nat → α) (i : Nat) (v : α) : Res (Nat → α) :=
  if i < n then .ok (upd a i v) else .ub

@[simp] theorem rd_of_lt {α : Type} {n i : Nat} (a : Nat → α) (h : i < n) : rd n a i = .ok (a i) := by
  simp [rd, h]
@[simp] theorem wr_of_lt {α : Type} {n i : Nat} (a : Nat → α) (v : α) (h : i < n) :
    wr n a i v = .ok (upd a i v) := by simp [wr, h]
theorem rd_of_ge {α : Type} {n i : Nat} (a : Nat → α) (h : n ≤ i) : rd n a i = .ub := by
  simp [rd, Nat.not_lt.mpr h]
theorem wr_of_ge {α : Type} {n i : Nat} (a : Nat → α) (v : α) (h : n ≤ i) : wr n a i v = .ub := by
  simp [wr, Nat.not_lt.mpr h]

/-- Result of a signed 32-bit computation: undefined behaviour on overflow. -/
def i32 (x : Int) : Res Int := if -2147483648 ≤ x ∧ x ≤ 2147483647 then .ok x else .ub

theorem i32_ok {x : Int} (h1 : -2147483648 ≤ x) (h2 : x ≤ 2147483647) : i32 x = .ok x := by
  simp [i32, h1, h2]

/-- Conversion to `int16_t` (two's complement wrap-around). -/
def toI16 (x : Int) : Int := (x + 32768) % 65536 - 32768

/-- Conversion to `uint32_t`. -/
def toU32 (x : Int) : Nat := (x % 4294967296).toNat

theorem toI16_of_range {x : Int} (h1 : -32768 ≤ x) (h2 : x ≤ 32767) : toI16 x = x := by
  unfold toI16; omega

/-- A property of all bytes can be checked on all 256 values. -/
theorem forall_u8 {P : UInt8 → Prop} (h : ∀ n < 256, P (UInt8.ofNat n)) (c : UInt8) : P c := by
  have := h c.toNat c.toNat_lt
  simpa using this

/-- ASCII code of a character literal. -/
def chr (c : Char) : UInt8 := UInt8.ofNat c.toNat

end P1P2
