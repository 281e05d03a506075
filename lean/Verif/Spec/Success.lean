import Verif.Spec.MainLoop
/-!
# Vocabulary for C114: an undisturbed transmission

The course of a transmission as seen from outside, iteration by iteration of the main loop: first the bus is busy or the hardware still transmits; then the
amplifier gets its 32 ms; then the packet is handed to the hardware; the bus becomes busy, the bytes are heard, and the bus becomes free.
-/
namespace P1P2

/-- The receiving core did not say in this iteration that the bus became busy. -/
def NoBusy (e : Env1 × Env2) : Prop := ∀ w, e.2.word = some w → w.lineBusy = false

/-- No byte was received in this iteration, neither with nor without error. -/
def NoByte (e : Env1 × Env2) : Prop := ∀ w, e.2.word = some w → w.rxValid = false ∧ w.rxError = false

/-- The iterations hear exactly the bytes `bs`, in this order, without error and without the bus becoming free; then, in the iteration `fin`, it becomes free.
The transmit hardware has no error, and each iteration takes place less than 4 ms after the last byte was heard (`t`). -/
def Echoed (fin : Env1 × Env2) : Nat → List UInt8 → List (Env1 × Env2) → Prop
  | t, bs, [] => bs = [] ∧ fin.2.hwErr = false ∧ fin.2.tErr < t + 4000 ∧ ∃ w, fin.2.word = some w ∧ w.lineFree = true
  | t, bs, e :: es => e.2.hwErr = false ∧ e.2.tErr < t + 4000 ∧
    match e.2.word with
    | none => Echoed fin t bs es
    | some w => w.rxError = false ∧ w.lineFree = false ∧
      if w.rxValid then ∃ r, bs = w.rxChar :: r ∧ Echoed fin e.2.tNew r es else Echoed fin t bs es

/-- An undisturbed transmission of the packet with these bytes, requested at time `t`, where `busy` says whether the bus was known as busy before. -/
structure Undisturbed (busy : Bool) (bytes : List UInt8) (t : Nat) (wait : List (Env1 × Env2)) (on : Env1 × Env2) (power : List (Env1 × Env2))
    (snd : Env1 × Env2) (listen : List (Env1 × Env2)) (first : Env1 × Env2) (echo : List (Env1 × Env2)) (fin : Env1 × Env2) : Prop where
  /-- While the bus is busy or the hardware transmits, at most 34 ms. -/
  waits : ∀ a e a', wait = a ++ e :: a' → e.2.hwErr = false ∧ e.2.tErr < t + 34000 ∧ (busKnownBusy busy (wordsOf (a ++ [e])) = true ∨ e.2.transmitting = true)
  /-- Then the bus is free and the hardware does not transmit. -/
  freeOn : on.2.hwErr = false ∧ on.2.tErr < t + 34000 ∧ busKnownBusy busy (wordsOf (wait ++ [on])) = false ∧ on.2.transmitting = false
  /-- The bus stays free for 32 ms. -/
  powers : ∀ e ∈ power, e.2.hwErr = false ∧ NoBusy e ∧ e.2.tPow < on.2.tNew + 32000
  /-- The first iteration after the 32 ms. -/
  sends : snd.2.hwErr = false ∧ NoBusy snd ∧ on.2.tNew + 32000 ≤ snd.2.tPow
  /-- Nothing is heard yet, at most 2 ms. -/
  listens : ∀ e ∈ listen, e.2.hwErr = false ∧ NoBusy e ∧ NoByte e ∧ e.2.tErr < snd.2.tNew + 2000
  /-- The bus becomes busy within 2 ms. -/
  starts : first.2.hwErr = false ∧ first.2.tErr < snd.2.tNew + 2000 ∧ ∃ w, first.2.word = some w ∧ w.lineBusy = true ∧ w.rxError = false
  /-- The bytes are heard. -/
  echoes : ∃ r, bytes = goodBytes (wordsOf [first]) ++ r ∧ Echoed fin first.2.tNew r echo

end P1P2
