import Verif.Model.HostRace
import Verif.Spec.Host
/-!
# Vocabulary for C130: host lines with interrupts
-/
namespace P1P2.Spec
open Host

/-- A line of the host: text of at least one character without CR, LF and NUL, ended by CR, LF or CR LF, in all at most 128
characters. -/
structure HostLine where
  text : List UInt8
  term : List UInt8
  plain : ∀ c ∈ text, ¬ Term c ∧ c ≠ 0
  some_ : text ≠ []
  ends : term = [10] ∨ term = [13] ∨ term = [13, 10]
  fits : text.length + term.length ≤ 128

/-- The characters the host sends. -/
def HostLine.chars (l : HostLine) : List UInt8 := l.text ++ l.term

/-- The characters that arrive in a run. -/
def typed : List RxEv → List UInt8
  | [] => []
  | .arrive c :: es => c :: typed es
  | _ :: es => typed es

/-- The main program holds a character it has read and not yet stored. -/
def Holding (s : RxRace) : Prop := ∃ c, s.pc = .full c ∨ s.pc = .push c

/-- No interrupt strikes while the main program holds a character. -/
def NoneHeld (s : RxRace) : List RxEv → Prop
  | [] => True
  | e :: es => (e = .irq → ¬ Holding s) ∧ ∀ t, s.next e = .ok (some t) → NoneHeld t es

/-- Everything that was received has been dealt with. -/
def AllTaken (s : RxRace) : Prop := s.uart = [] ∧ s.rx.off = 0 ∧ s.pc = .out

/-- The host sends its lines one at a time: the characters of each arrive, at any times, while the main program and the handler
run; the next line is begun when everything has been dealt with.  No interrupt strikes while the main program holds a
character. -/
def OneAtATime (s : RxRace) : List (HostLine × List RxEv) → RxRace → Prop
  | [], t => t = s
  | (l, es) :: rest, t => typed es = l.chars ∧ NoneHeld s es ∧
      ∃ u, s.run es = .ok (some u) ∧ AllTaken u ∧ OneAtATime u rest t

end P1P2.Spec
