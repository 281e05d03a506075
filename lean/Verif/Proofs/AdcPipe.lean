import Verif.Spec.AdcDev
import Verif.Proofs.ConvAbs
import Verif.Proofs.HealHist
/-!
# The PIO between the two DMA channels as a queue of values
-/
namespace P1P2
open Pio

theorem turn_succ (odd : Bool) (n : Nat) : turn (!odd) n = turn odd (n + 1) := by
  unfold turn
  by_cases h : n % 2 = 0
  · rw [if_pos h, if_neg (by omega)]
  · rw [if_neg h, if_pos (by omega), Bool.not_not]

theorem turn_not (odd : Bool) (n : Nat) : (!turn odd n) = turn odd (n + 1) := by
  unfold turn
  by_cases h : n % 2 = 0
  · rw [if_pos h, if_neg (by omega)]
  · rw [if_neg h, if_pos (by omega), Bool.not_not]

theorem alternate_append (odd : Bool) (l m : List UInt8) : alternate odd (l ++ m) = alternate odd l ++ alternate (turn odd l.length) m := by
  induction l generalizing odd with
  | nil => simp [alternate, turn]
  | cons b l ih => simp only [List.cons_append, alternate, ih, List.length_cons, turn_succ]

theorem alternate_length (odd : Bool) (l : List UInt8) : (alternate odd l).length = l.length := by
  induction l generalizing odd with
  | nil => rfl
  | cons b l ih => simp [alternate, ih]

/-- The value of a sample. -/
def ValOk (v : Int) : Prop := -256 ≤ v ∧ v ≤ 255

theorem signed_ok (odd : Bool) (b : UInt8) : ValOk (signed odd b) := by
  have := b.toNat_lt
  unfold ValOk signed
  cases odd <;> simp <;> omega

theorem alternate_ok (odd : Bool) (l : List UInt8) : ∀ v ∈ alternate odd l, ValOk v := by
  induction l generalizing odd with
  | nil => intro v hv; cases hv
  | cons b l ih =>
    intro v hv
    rcases List.mem_cons.mp hv with rfl | hv
    · exact signed_ok odd b
    · exact ih _ v hv

theorem word_signed (odd : Bool) (b : UInt8) : wordValue (Pio.word odd b) = signed odd b := by
  cases odd with
  | false => exact word_value 0 b
  | true => exact word_value 1 b

/-- The state machine with its FIFOs: the values `vs` will leave it, and then codes that come in, the first of them negated or plain (`ph`). -/
def Pipe (s : Pio.State) (ph : Bool) (vs : List Int) : Prop :=
  Legal s.core ∧ (∀ v ∈ vs, ValOk v) ∧ ∃ odd busy q, Heads odd busy s.core ∧ s.tx = q.map narrow ∧
    vs = s.rx.map wordValue ++ (busy.toList.map wordValue ++ alternate (odd ^^ busy.isSome) q) ∧ ph = turn (odd ^^ busy.isSome) q.length

theorem Pipe.reset : Pipe Pio.reset false [] :=
  ⟨.reset, fun v hv => (by cases hv), false, none, [], ⟨1, _, _, rfl, 0, 0, 0, 32, rfl⟩, rfl, rfl, rfl⟩

/-- The state machine is restarted with empty FIFOs: at most one value is left in it. -/
theorem Pipe.restart {c : Pio.Core} (h : Legal c) : ∃ ph vs, Pipe { core := smRestart c, tx := [], rx := [] } ph vs ∧ vs.length ≤ 1 := by
  obtain ⟨odd, busy, h1, h2⟩ := h.heads
  refine ⟨odd ^^ busy.isSome, busy.toList.map wordValue, ⟨h.smRestart, ?_, odd, busy, [], h1, rfl, by simp [alternate], by simp [turn]⟩, by cases busy <;> simp⟩
  intro v hv
  obtain ⟨w, hw, rfl⟩ := List.mem_map.mp hv
  exact h2 w (by simpa using hw)

/-- One cycle: the byte that comes in (if there is room), the word that is taken out. -/
theorem Pipe.cycle {s : Pio.State} {ph : Bool} {vs : List Int} (h : Pipe s ph vs) (put : Option UInt8) (get : Bool) :
    ∃ inn : Option UInt8, inn = (if s.tx.length < 4 then put else none) ∧
      Pipe (Pio.cycle twosComplement s (adcEnv (put, get))) (ph ^^ inn.isSome)
        ((if get && decide (s.rx ≠ []) then vs.tail else vs) ++ inn.toList.map (signed ph)) ∧
      (get = true → ∀ w, s.rx.head? = some w → vs.head? = some (wordValue w)) := by
  obtain ⟨hl, hv, odd, busy, q, hh, htx, hvs, hph⟩ := h
  refine ⟨_, rfl, ?_, ?_⟩
  · generalize hinn : (if s.tx.length < 4 then put else none) = inn
    have hq : enqueue twosComplement s.tx (adcEnv (put, get)) = (q ++ inn.toList).map narrow := by
      subst hinn
      have : twosComplement.txDepth = 4 := rfl
      unfold enqueue adcEnv
      rw [this]
      cases put with
      | none => simp [htx]
      | some b =>
        by_cases hr : s.tx.length < 4
        · simp only [Option.map_some, if_pos hr]; rw [htx]; simp
        · simp only [Option.map_some, if_neg hr]; rw [htx]; simp
    -- the values after the word was taken out, with the byte that came in
    have hdeq : (if get && decide (s.rx ≠ []) then vs.tail else vs) = (dequeue s.rx (adcEnv (put, get))).map wordValue ++
        (busy.toList.map wordValue ++ alternate (odd ^^ busy.isSome) q) := by
      rw [hvs]
      unfold dequeue adcEnv
      cases get with
      | false => simp
      | true =>
        cases hrx : s.rx with
        | nil => simp
        | cons w r => simp
    have hval : (if get && decide (s.rx ≠ []) then vs.tail else vs) ++ inn.toList.map (signed ph) = (dequeue s.rx (adcEnv (put, get))).map wordValue ++
        (busy.toList.map wordValue ++ alternate (odd ^^ busy.isSome) (q ++ inn.toList)) := by
      rw [hdeq, List.append_assoc, List.append_assoc, alternate_append, ← hph]
      congr 3
      cases inn <;> rfl
    have hphase : (ph ^^ inn.isSome) = turn (odd ^^ busy.isSome) (q ++ inn.toList).length := by
      rw [hph]
      cases inn with
      | none => simp
      | some b => simp [turn_not]
    have hok : ∀ v ∈ (if get && decide (s.rx ≠ []) then vs.tail else vs) ++ inn.toList.map (signed ph), ValOk v := by
      intro v hv'
      rcases List.mem_append.mp hv' with hv' | hv'
      · split at hv'
        · exact hv v (List.mem_of_mem_tail hv')
        · exact hv v hv'
      · obtain ⟨b, -, rfl⟩ := List.mem_map.mp hv'
        exact signed_ok _ _
    refine ⟨hl.cycle _, hok, ?_⟩
    rw [hval, hphase]
    rcases hh.cycle htx _ hq with ⟨c1, c2, c3⟩ | ⟨b, r, c0, c1, c2, c3, c4⟩ | ⟨w, c0, c1, c2, c3⟩
    · exact ⟨odd, busy, _, c1, c2, by rw [c3], rfl⟩
    · subst c0
      refine ⟨odd, some (Pio.word odd b), r, c2, c3, ?_, ?_⟩
      · rw [c4, c1]
        simp [alternate, word_signed]
      · rw [c1]
        simp [← turn_succ]
    · subst c0
      refine ⟨!odd, none, _, c1, c2, ?_, ?_⟩
      · rw [c3]
        simp
      · simp
  · intro _ w hw
    rw [hvs]
    cases hrx : s.rx with
    | nil => rw [hrx] at hw; cases hw
    | cons x r =>
      rw [hrx] at hw
      simp only [List.head?_cons, Option.some.injEq] at hw
      subst hw
      rfl

end P1P2
