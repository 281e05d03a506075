import Verif.Model.Core0
/-!
# Vocabulary for C53-C59: what the main loop tells the host

A *result* is a byte received from the bus together with the information whether it was received with an error.
-/
namespace P1P2

/-- The result a word from the receiving core carries, if any. -/
def resultOf (w : Word) : List (UInt8 × Bool) := if w.rxValid || w.rxError then [(w.rxChar, w.rxError)] else []

/-- The messages with bytes from the bus among the reports. -/
def rxMsgs (rs : List Report) : List Message := rs.filterMap fun | .rx m => some m | .tx _ => none

/-- The messages about failed transmissions among the reports. -/
def txMsgs (rs : List Report) : List Message := rs.filterMap fun | .tx m => some m | .rx _ => none

/-- `m` carries exactly the given results; if one of them has an error the status is not 0. -/
def Shows (m : Message) (seg : List (UInt8 × Bool)) : Prop :=
  m.bytes = seg.map Prod.fst ∧ ((∃ p ∈ seg, p.2 = true) → m.status ≠ 0)

/-- The results given by the receiving core that were not dropped, in order. -/
def accepted : List TwoStep → List TwoOut → List (UInt8 × Bool)
  | .push w :: xs, o :: os => (if o.dropped then [] else resultOf w) ++ accepted xs os
  | _ :: xs, _ :: os => accepted xs os
  | _, _ => []

/-- The results given by the receiving core that were lost. -/
def lost : List TwoStep → List TwoOut → List (UInt8 × Bool)
  | .push w :: xs, o :: os => (if o.dropped then resultOf w else []) ++ lost xs os
  | _ :: xs, _ :: os => lost xs os
  | _, _ => []

/-- All reports of a run, in order. -/
def reportsOf (os : List TwoOut) : List Report := os.flatMap TwoOut.reports

/-- A word as the receiving core builds them (proved of every word it sends by C52): a character is valid or wrong, not both; the
line does not become busy and free at once; an error of the ADC comes alone. -/
def WordOk (w : Word) : Prop :=
  ¬ (w.rxValid = true ∧ w.rxError = true) ∧ ¬ (w.lineBusy = true ∧ w.lineFree = true) ∧
  (w.dadcError = true → w = { Word.zero with dadcError := true })

/-- The receiving core hands over only such words. -/
def WordsOk (xs : List TwoStep) : Prop := ∀ w, TwoStep.push w ∈ xs → WordOk w

end P1P2

namespace P1P2

/-! ## Packets and the watchdog (C56, C57) -/

/-- The words taken from the receiving core in a history of iterations. -/
def wordsOf (es : List (Env1 × Env2)) : List Word := es.filterMap fun e => e.2.word

/-- All messages about the bus given to the host in a history. -/
def busLines (os : List Out2) : List Message := os.flatMap fun o => rxMsgs o.reports

/-- The inter-core FIFO did not overflow, and all readings of the clock are within 500 ms: from `T` on, in milliseconds, without wrap-around. -/
structure Within (T : Nat) (es : List (Env1 × Env2)) : Prop where
  flag : ∀ e ∈ es, e.1.fifoErr = false
  dog : ∀ e ∈ es, T ≤ Host.msNow e.1.tDog1 ∧ Host.msNow e.1.tDog1 ≤ T + 500
  busy : ∀ e ∈ es, T ≤ Host.msNow e.2.tBusy
  wrap : T + 1000 < 4294967296
  late : ∀ e ∈ es, Host.msNow e.2.tBusy ≤ T + 500

/-- The iteration told the host that the bus is busy for too long. -/
def tellsBusy (o : Out2) : Bool := (rxMsgs o.reports).any fun m => m.status == 4

/-- The time (in milliseconds) from which the 500 ms count, if the bus is busy: when it became busy, or the last time the host was told. -/
def busyNext (since : Option Nat) (e : Env1 × Env2) (told : Bool) : Option Nat :=
  let s := if told then some (e.1.tDog2 / 1000) else since
  match e.2.word with
  | none => s
  | some w => if w.lineFree then none else if w.lineBusy then some (s.getD (e.2.tBusy / 1000)) else s

/-- In each iteration the host is told exactly when the bus is busy and more than 500 ms have passed. -/
def WatchdogOk : Option Nat → List (Env1 × Env2) → List Out2 → Prop
  | _, [], [] => True
  | since, e :: es, o :: os => (tellsBusy o = true ↔ ∃ t, since = some t ∧ t + 500 < e.1.tDog1 / 1000) ∧
      WatchdogOk (busyNext since e (tellsBusy o)) es os
  | _, _, _ => False

end P1P2
