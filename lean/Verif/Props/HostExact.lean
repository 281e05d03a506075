import Verif.Props.Host
import Verif.Spec.Handed
/-!
# C13, exactly: which lines are handed over, for any characters in any portions
-/
namespace P1P2
open Spec

theorem takeWhile_cases {α : Type} (p : α → Bool) : ∀ l : List α, l.takeWhile p = l ∨ ∃ x r, l = l.takeWhile p ++ x :: r ∧ p x = false := by
  intro l
  induction l with
  | nil => exact .inl rfl
  | cons a l ih =>
    by_cases h : p a = true
    · rw [List.takeWhile_cons_of_pos h]
      rcases ih with ih | ⟨x, r, h1, h2⟩
      · exact .inl (by rw [ih])
      · exact .inr ⟨x, r, by rw [List.cons_append, ← h1], h2⟩
    · rw [List.takeWhile_cons_of_neg h]
      exact .inr ⟨a, l, rfl, by simpa using h⟩

theorem takeWhile_all {α : Type} (p : α → Bool) : ∀ l : List α, ∀ x ∈ l.takeWhile p, p x = true := by
  intro l
  induction l with
  | nil => intro x hx; cases hx
  | cons a l ih =>
    intro x hx
    by_cases h : p a = true
    · rw [List.takeWhile_cons_of_pos h] at hx
      rcases List.mem_cons.mp hx with rfl | hx
      · exact h
      · exact ih x hx
    · rw [List.takeWhile_cons_of_neg h] at hx; cases hx

namespace Host

theorem scanLoop_any (a : List UInt8) (t : UInt8) (b : List UInt8) (ht : Term t)
    (ha : ∀ c ∈ a, ¬ Term c) (rx : LineRecv UInt8) (h : LineRecv.Rep 128 rx (a ++ t :: b))
    (n i : Nat) (hi : i ≤ a.length) (hn : a.length - i < n) :
    ∃ rx', scanLoop n i rx = .ok (rx', if a = [] then [] else [a.takeWhile fun x => !(x == 0)]) ∧ LineRecv.Rep 128 rx' [] := by
  have hcap := h.cap
  simp only [List.length_append, List.length_cons] at hcap
  induction n generalizing i with
  | zero => omega
  | succ n ih =>
    simp only [scanLoop]
    rw [if_pos (by rw [h.len]; simp; omega)]
    rw [rd_of_lt _ (show i < rxCap by simp [rxCap]; omega), Res.ok_bind]
    rw [h.at_ i (by simp; omega)]
    by_cases hia : i = a.length
    · subst hia
      have h1 : (a ++ t :: b)[a.length]'(by simp) = t := by simp
      rw [h1, (isTerm_iff t).mpr ht]
      simp only [if_true]
      by_cases hae : a = []
      · subst hae
        simp only [List.length_nil, if_true]
        refine ⟨rx.clear, scanLoop_off0 _ _ _ rfl, ⟨rfl, by simp, by simp⟩⟩
      · have hne : a.length ≠ 0 := by simpa using hae
        simp only [hne, if_false, hae]
        rw [wr_of_lt _ _ (show a.length < rxCap by simp [rxCap]; omega), Res.ok_bind]
        have hd : ∀ j (hj : j < a.length), upd rx.data a.length 0 j = a[j] := by
          intro j hj
          rw [upd_other _ _ (by omega), h.at_ j (by simp; omega)]
          rw [List.getElem_append_left hj]
        obtain ⟨s, hs⟩ : ∃ s, s = a.takeWhile fun x => !(x == 0) := ⟨_, rfl⟩
        rw [← hs]
        have h0 : ∀ c ∈ s, c ≠ 0 := by
          intro c hc
          rw [hs] at hc
          have := takeWhile_all _ a c hc
          simpa using this
        have hh : Holds (upd rx.data a.length 0) s ∧ s.length ≤ a.length := by
          rcases takeWhile_cases (fun x => !(x == 0)) a with e | ⟨x, r, e, hx⟩
          · rw [← hs] at e
            rw [e]
            exact ⟨⟨hd, by simp⟩, Nat.le_refl _⟩
          · rw [← hs] at e
            have hx : x = 0 := by simpa using hx
            have hl := congrArg List.length e
            rw [List.length_append, List.length_cons] at hl
            refine ⟨⟨fun j hj => ?_, ?_⟩, by omega⟩
            · rw [hd j (by omega), List.getElem_of_eq e, List.getElem_append_left hj]
            · rw [hd s.length (by omega), List.getElem_of_eq e]
              simp [hx]
        rw [readCStr_holds hh.1 h0 (show s.length < rxCap by simp [rxCap]; omega)]
        rw [Res.ok_bind, scanLoop_off0 _ _ _ rfl]
        exact ⟨_, rfl, ⟨rfl, by simp, by simp⟩⟩
    · have hlt : i < a.length := by omega
      have h1 : (a ++ t :: b)[i]'(by simp; omega) = a[i] := List.getElem_append_left hlt
      rw [h1]
      have : isTerm a[i] = false := by
        have := ha a[i] (List.getElem_mem hlt)
        rw [← isTerm_iff] at this
        simpa using this
      rw [this]
      exact ih (i + 1) (by omega) (by omega)

end Host

theorem not_term {x : UInt8} (h : (!(x == 10 || x == 13)) = true) : ¬ Term x := by
  intro ht
  rcases ht with rfl | rfl <;> cases h

theorem is_term {x : UInt8} (h : (!(x == 10 || x == 13)) = false) : Term x := by
  by_cases h1 : x = 10
  · exact .inl h1
  · refine .inr ?_
    simpa [h1] using h

/-- **C13, exactly.** For any characters, NUL included, arriving in any portions between the polls: exactly the lines of `handed` are handed over, each once and in order, and nothing undefined happens.
What is missing for C13 can be read off: everything behind the first terminator of a poll is discarded, everything behind 128 characters is not stored, and 128 characters without a terminator stay. -/
theorem C13_exact (chunks : List (List UInt8)) : ∃ rx', Host.polls rx0 chunks = .ok (rx', handed [] chunks) := by
  have key : ∀ (chunks : List (List UInt8)) (rx : LineRecv UInt8) (p : List UInt8), LineRecv.Rep 128 rx p →
      ∃ rx', Host.polls rx chunks = .ok (rx', handed p chunks) := by
    intro chunks
    induction chunks with
    | nil => intro rx p _; exact ⟨rx, rfl⟩
    | cons c cs ih =>
      intro rx p h
      obtain ⟨rx', h1, h2⟩ := Host.checkRx_rep c rx p h
      obtain ⟨b, hb⟩ : ∃ b, b = (p ++ c).take 128 := ⟨_, rfl⟩
      obtain ⟨a, ha⟩ : ∃ a, a = b.takeWhile fun x => !(x == 10 || x == 13) := ⟨_, rfl⟩
      rw [← hb] at h2
      have hall : ∀ x ∈ a, ¬ Term x := fun x hx => not_term (takeWhile_all _ b x (by rw [← ha]; exact hx))
      have hH : handed p (c :: cs) = if a = b then handed b cs else if a = [] then handed [] cs else (a.takeWhile fun x => !(x == 0)) :: handed [] cs := by
        rw [ha, hb]; rfl
      have hp : Host.poll rx c = Host.scanLoop Host.rxCap 0 rx' := by
        unfold Host.poll
        rw [h1, Res.ok_bind, Host.checkRxLine_eq]
      rw [hH, Host.polls, hp]
      rcases takeWhile_cases (fun x : UInt8 => !(x == 10 || x == 13)) b with e | ⟨t, r, e, ht⟩
      · rw [← ha] at e
        rw [if_pos e, Host.scanLoop_none _ _ _ _ h2 (by rw [← e]; exact hall), Res.ok_bind]
        obtain ⟨rx2, h3⟩ := ih rx' b h2
        dsimp only
        rw [h3]
        exact ⟨rx2, rfl⟩
      · rw [← ha] at e
        have hne : a ≠ b := by
          intro h
          have := congrArg List.length e
          rw [h, List.length_append, List.length_cons] at this
          omega
        have hc := h2.cap
        have hl := congrArg List.length e
        rw [List.length_append, List.length_cons] at hl
        rw [e] at h2
        obtain ⟨rx2, h3, h4⟩ := Host.scanLoop_any a t r (is_term ht) hall rx' h2 Host.rxCap 0 (by omega) (by simp [Host.rxCap]; omega)
        obtain ⟨rx3, h5⟩ := ih rx2 [] h4
        rw [if_neg hne, h3, Res.ok_bind]
        dsimp only
        rw [h5]
        refine ⟨rx3, ?_⟩
        by_cases h0 : a = []
        · rw [if_pos h0, if_pos h0]; rfl
        · rw [if_neg h0, if_neg h0]; rfl
  exact key chunks rx0 [] rep_rx0

/-- "40f0" CR | LF "1111" CR (lost) | "22" | "33" NUL "44" LF "55" LF (the second is lost). -/
example : handed [] [[52, 48, 102, 48, 13], [10, 49, 49, 49, 49, 13], [50, 50], [51, 51, 0, 52, 52, 10, 53, 53, 10]] = [[52, 48, 102, 48], [50, 50, 51, 51]] := by decide

/-- 128 characters without a terminator, then a line. -/
example : handed [] [List.replicate 128 49, [10, 50, 50, 10]] = [] ∧ handed [] [List.replicate 127 49, [10, 50, 50, 10]] = [List.replicate 127 49] := by decide +kernel

end P1P2
