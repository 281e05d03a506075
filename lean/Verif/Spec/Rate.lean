import Verif.Model.Board
/-!
# Vocabulary for C140, C141, C142: how fast words arrive and how fast the main loop takes them

Conversions come at a fixed rate (307200 in a second), so counting them is counting time: 230 conversions are 0.75 ms, 906 conversions are 2.9 ms.
-/
namespace P1P2

/-- The samples core 1 is given in these iterations. -/
def samplesIn (is : List C1In) : Nat := is.countP fun i => match i.adc with | .sample _ => true | _ => false

/-- The overruns of the ADC in these iterations. -/
def overrunsIn (is : List C1In) : Nat := is.countP fun i => match i.adc with | .error => true | _ => false

/-- The conversions during a step. -/
def BoardStep.values : BoardStep → List Int
  | .convert v => [v]
  | .receive late => late
  | _ => []

/-- The conversions, in order. -/
def converted (xs : List BoardStep) : List Int := xs.flatMap BoardStep.values

/-- A step in which the main loop looks into the FIFO. -/
def BoardStep.looks : BoardStep → Bool
  | .second _ => true
  | _ => false

/-- How often the main loop looks into the FIFO (and takes a word, if there is one). -/
def looksIn (xs : List BoardStep) : Nat := xs.countP BoardStep.looks

/-- The words the main loop has taken from the FIFO. -/
def taken (xs : List BoardStep) : List Word := xs.filterMap fun | .second e => e.word | _ => none

/-- The main loop is fast enough: in every stretch of the history it looks into the FIFO once for 230 conversions, apart from 906 conversions. -/
def FastEnough (xs : List BoardStep) : Prop :=
  ∀ before stretch after, xs = before ++ stretch ++ after → (converted stretch).length ≤ 230 * looksIn stretch + 906

end P1P2
