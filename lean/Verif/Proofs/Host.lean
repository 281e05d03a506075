import Verif.Model.Host
import Verif.Spec.Host
import Verif.Props.Fifo
import Verif.Props.Message
/-! Lemmas about the host interface. -/
namespace P1P2
open Spec
namespace Host

/-! ### Receiving -/

theorem isTerm_iff (c : UInt8) : isTerm c = true ↔ Term c := by
  simp [isTerm, Term]
  constructor
  · rintro (h | h)
    · left; rw [h]; decide
    · right; rw [h]; decide
  · rintro (h | h)
    · left; rw [h]; decide
    · right; rw [h]; decide

theorem checkRx_rep (cs : List UInt8) (rx : LineRecv UInt8) (l : List UInt8) (h : LineRecv.Rep 128 rx l) :
    ∃ rx', checkRx rx cs = .ok rx' ∧ LineRecv.Rep 128 rx' ((l ++ cs).take 128) := by
  induction cs generalizing rx l with
  | nil =>
    refine ⟨rx, rfl, ?_⟩
    rw [List.append_nil, List.take_of_length_le h.cap]; exact h
  | cons c cs ih =>
    simp only [checkRx, rxCap, LineRecv.isFull]
    by_cases hf : rx.off = 128
    · simp only [hf, decide_true, if_true]
      obtain ⟨rx', h1, h2⟩ := ih rx l h
      refine ⟨rx', h1, ?_⟩
      have hl : l.length = 128 := by rw [← h.len]; exact hf
      rw [List.take_append_of_le_length (by omega)] at h2 ⊢
      exact h2
    · simp only [hf, decide_false]
      obtain ⟨f', e1, e2⟩ := h.push c
      have hl : l.length < 128 := by have := h.cap; have := h.len; omega
      rw [if_pos hl] at e2
      rw [e1]
      obtain ⟨rx', h1, h2⟩ := ih f' _ e2
      refine ⟨rx', ?_, ?_⟩
      · exact h1
      · simpa using h2

theorem scanLoop_none (n i : Nat) (rx : LineRecv UInt8) (l : List UInt8) (h : LineRecv.Rep 128 rx l)
    (ht : ∀ c ∈ l, ¬ Term c) : scanLoop n i rx = .ok (rx, []) := by
  induction n generalizing i with
  | zero => rfl
  | succ n ih =>
    simp only [scanLoop]
    split
    · rename_i hi
      rw [h.len] at hi
      have hc := h.cap
      rw [rd_of_lt _ (show i < rxCap by simp [rxCap]; omega), Res.ok_bind, h.at_ i hi]
      have : isTerm l[i] = false := by
        have := ht l[i] (List.getElem_mem hi)
        rw [← isTerm_iff] at this
        simpa using this
      rw [this]
      exact ih (i + 1)
    · rfl

theorem scanLoop_off0 (n i : Nat) (rx : LineRecv UInt8) (h : rx.off = 0) : scanLoop n i rx = .ok (rx, []) := by
  cases n with
  | zero => rfl
  | succ n => simp [scanLoop, h]

theorem scanLoop_line (a : List UInt8) (t : UInt8) (b : List UInt8) (ht : Term t)
    (ha : ∀ c ∈ a, ¬ Term c ∧ c ≠ 0) (rx : LineRecv UInt8) (h : LineRecv.Rep 128 rx (a ++ t :: b))
    (n i : Nat) (hi : i ≤ a.length) (hn : a.length - i < n) :
    ∃ rx', scanLoop n i rx = .ok (rx', if a = [] then [] else [a]) ∧ LineRecv.Rep 128 rx' [] := by
  have hcap := h.cap
  simp only [List.length_append, List.length_cons] at hcap
  induction n generalizing i with
  | zero => omega
  | succ n ih =>
    simp only [scanLoop]
    rw [if_pos (by rw [h.len]; simp; omega)]
    rw [rd_of_lt _ (show i < rxCap by simp [rxCap]; omega), Res.ok_bind]
    rw [h.at_ i (by simp; omega)]
    by_cases hia : i = a.length
    · subst hia
      have h1 : (a ++ t :: b)[a.length]'(by simp) = t := by simp
      rw [h1, (isTerm_iff t).mpr ht]
      simp only [if_true]
      by_cases hae : a = []
      · subst hae
        simp only [List.length_nil, if_true]
        refine ⟨rx.clear, scanLoop_off0 _ _ _ rfl, ⟨rfl, by simp, by simp⟩⟩
      · have hne : a.length ≠ 0 := by simpa using hae
        simp only [hne, if_false, hae]
        rw [wr_of_lt _ _ (show a.length < rxCap by simp [rxCap]; omega), Res.ok_bind]
        have hh : Holds (upd rx.data a.length 0) a := by
          constructor
          · intro j hj
            rw [upd_other _ _ (by omega), h.at_ j (by simp; omega)]
            rw [List.getElem_append_left hj]
          · simp
        rw [readCStr_holds hh (fun c hc => (ha c hc).2) (show a.length < rxCap by simp [rxCap]; omega)]
        rw [Res.ok_bind, scanLoop_off0 _ _ _ rfl]
        exact ⟨_, rfl, ⟨rfl, by simp, by simp⟩⟩
    · have hlt : i < a.length := by omega
      have h1 : (a ++ t :: b)[i]'(by simp; omega) = a[i] := List.getElem_append_left hlt
      rw [h1]
      have : isTerm a[i] = false := by
        have := (ha a[i] (List.getElem_mem hlt)).1
        rw [← isTerm_iff] at this
        simpa using this
      rw [this]
      exact ih (i + 1) (by omega) (by omega)

theorem checkRxLine_eq (rx : LineRecv UInt8) : checkRxLine rx = scanLoop rxCap 0 rx := by
  unfold checkRxLine
  split
  · rename_i h
    rw [scanLoop_off0]
    simpa [LineRecv.isEmpty] using h
  · rfl

theorem poll_none {rx : LineRecv UInt8} {l chunk : List UInt8} (h : LineRecv.Rep 128 rx l)
    (ht : ∀ c ∈ (l ++ chunk).take 128, ¬ Term c) :
    ∃ rx', poll rx chunk = .ok (rx', []) ∧ LineRecv.Rep 128 rx' ((l ++ chunk).take 128) := by
  obtain ⟨rx', h1, h2⟩ := checkRx_rep chunk rx l h
  refine ⟨rx', ?_, h2⟩
  unfold poll
  rw [h1, Res.ok_bind, checkRxLine_eq]
  exact scanLoop_none _ _ _ _ h2 ht

theorem poll_line {rx : LineRecv UInt8} {l chunk a b : List UInt8} {t : UInt8} (h : LineRecv.Rep 128 rx l)
    (he : l ++ chunk = a ++ t :: b) (hal : a.length ≤ 127) (ht : Term t) (ha : ∀ c ∈ a, ¬ Term c ∧ c ≠ 0) :
    ∃ rx', poll rx chunk = .ok (rx', if a = [] then [] else [a]) ∧ LineRecv.Rep 128 rx' [] := by
  obtain ⟨rx', h1, h2⟩ := checkRx_rep chunk rx l h
  unfold poll
  rw [h1, Res.ok_bind, checkRxLine_eq]
  rw [he, List.take_append, List.take_of_length_le (by omega)] at h2
  have : (t :: b).take (128 - a.length) = t :: b.take (127 - a.length) := by
    rw [show 128 - a.length = (127 - a.length) + 1 by omega, List.take_succ_cons]
  rw [this] at h2
  exact scanLoop_line a t _ ht ha rx' h2 _ 0 (by omega) (by simp [rxCap]; omega)

/-! ### The line handler -/

theorem charAt_of_lt {s : List UInt8} {k : Nat} (h : k < s.length) : charAt s k = .ok s[k] := by
  unfold charAt
  rw [if_pos (by omega)]
  congr 1
  simp [h]

theorem charAt_end (s : List UInt8) : charAt s s.length = .ok 0 := by
  unfold charAt
  rw [if_pos (by omega)]
  simp

theorem startsWith_iff (s : List UInt8) (hs : ∀ c ∈ s, c ≠ 0) (pat : List UInt8) (hp : ∀ c ∈ pat, c ≠ 0)
    (k : Nat) (hk : k ≤ s.length) :
    ∃ b, startsWith s pat k = .ok b ∧ (b = true ↔ pat <+: s.drop k) := by
  induction pat generalizing k with
  | nil => exact ⟨true, rfl, by simp⟩
  | cons p ps ih =>
    simp only [startsWith]
    by_cases h : k = s.length
    · subst h
      rw [charAt_end, Res.ok_bind]
      have : ¬ (0 : UInt8) = p := fun h => hp p (by simp) h.symm
      rw [if_neg this]
      exact ⟨false, rfl, by simp⟩
    · have hlt : k < s.length := by omega
      rw [charAt_of_lt hlt, Res.ok_bind, List.drop_eq_getElem_cons hlt]
      split
      · rename_i he
        obtain ⟨b, h1, h2⟩ := ih (fun c hc => hp c (by simp [hc])) (k + 1) (by omega)
        refine ⟨b, h1, ?_⟩
        rw [h2, he]
        simp
      · rename_i he
        refine ⟨false, rfl, ?_⟩
        constructor
        · intro h; simp at h
        · intro h
          rw [List.cons_prefix_cons] at h
          exact absurd h.1.symm he

/-! ### Sending -/

theorem drain_ok (k : Nat) (tx : Fifo UInt8) (wire q : List UInt8) (h : Fifo.Rep 128 tx q) :
    ∃ tx', drain k tx wire = .ok (tx', wire ++ q.take k) ∧ Fifo.Rep 128 tx' (q.drop k) := by
  induction k generalizing tx wire q with
  | zero => exact ⟨tx, by simp [drain], by simpa using h⟩
  | succ k ih =>
    simp only [drain, Fifo.isEmpty]
    cases q with
    | nil =>
      have : tx.length = 0 := by simpa using h.len
      simp only [this, decide_true, if_true]
      exact ⟨tx, by simp, by simpa using h⟩
    | cons c q =>
      have : tx.length ≠ 0 := by rw [h.len]; simp
      simp only [this, decide_false]
      obtain ⟨f', e1, e2⟩ := h.pop_cons
      rw [txCap, e1]
      obtain ⟨tx', h1, h2⟩ := ih f' (wire ++ [c]) q e2
      refine ⟨tx', ?_, by simpa using h2⟩
      simp only [Bool.false_eq_true, if_false, Res.ok_bind, h1]
      simp

theorem attempt_ok (t : Tx) (q : List UInt8) (k : Nat) (c : UInt8) (h : Fifo.Rep 128 t.tx q) :
    ∃ t' b q', attempt t k c = .ok (t', b) ∧ Fifo.Rep 128 t'.tx q' ∧
      q'.length ≤ q.length + 1 ∧
      (b = true → t'.wire ++ q' = t.wire ++ q ++ [c] ∧ t'.error = t.error) ∧
      (b = false → t'.wire ++ q' = t.wire ++ q ∧ t'.error = true ∧ 128 ≤ q.length) := by
  obtain ⟨tx', h1, h2⟩ := drain_ok k t.tx t.wire q h
  unfold attempt
  rw [h1, Res.ok_bind]
  simp only [Fifo.isFull, txCap]
  by_cases hf : tx'.length = 128
  · simp only [hf, decide_true, if_true]
    refine ⟨_, _, _, rfl, h2, by simp; omega, by simp, ?_⟩
    intro _
    refine ⟨by simp, rfl, ?_⟩
    have := h2.len
    rw [hf, List.length_drop] at this
    omega
  · simp only [hf, decide_false, Bool.false_eq_true, if_false]
    have hl : (q.drop k).length < 128 := by have := h2.len; have := h2.cap; omega
    obtain ⟨f', e1, e2⟩ := h2.push_ok c hl
    rw [e1]
    refine ⟨_, _, _, rfl, e2, ?_, ?_, by simp⟩
    · simp only [List.length_append, List.length_drop, List.length_singleton]; omega
    · intro _
      refine ⟨?_, rfl⟩
      show t.wire ++ q.take k ++ (q.drop k ++ [c]) = _
      rw [List.append_assoc, ← List.append_assoc (q.take k), List.take_append_drop, ← List.append_assoc]

theorem sendLoop_ok (sched : Nat → Nat) (line : List UInt8) (i : Nat) (t : Tx) (q : List UInt8)
    (h : Fifo.Rep 128 t.tx q) :
    ∃ t' b q' p, sendLoop sched line i t = .ok (t', b) ∧ Fifo.Rep 128 t'.tx q' ∧
      t'.wire ++ q' = t.wire ++ q ++ p ∧ q'.length ≤ q.length + line.length ∧
      (b = true → p = line ∧ t'.error = t.error) ∧
      (b = false → p <+: line ∧ p ≠ line ∧ t'.error = true ∧ 128 < q.length + line.length) := by
  induction line generalizing i t q with
  | nil => exact ⟨t, true, q, [], rfl, h, by simp, by simp, by simp, by simp⟩
  | cons c cs ih =>
    simp only [sendLoop]
    obtain ⟨t1, b, q1, e1, e2, e5, e3, e4⟩ := attempt_ok t q (sched i) c h
    rw [e1, Res.ok_bind]
    cases b with
    | false =>
      obtain ⟨g1, g2, g3⟩ := e4 rfl
      simp only [Bool.false_eq_true, if_false]
      refine ⟨t1, false, q1, [], rfl, e2, by simpa using g1, by simp; omega, by simp, ?_⟩
      intro _
      exact ⟨by simp, by simp, g2, by simp; omega⟩
    | true =>
      obtain ⟨g1, g2⟩ := e3 rfl
      simp only [if_true]
      obtain ⟨t', b', q', p, f1, f2, f3, f6, f4, f5⟩ := ih (i + 1) t1 q1 e2
      refine ⟨t', b', q', c :: p, f1, f2, ?_, by simp; omega, ?_, ?_⟩
      · rw [f3, g1]; simp
      · intro hb
        obtain ⟨k1, k2⟩ := f4 hb
        exact ⟨by rw [k1], by rw [k2, g2]⟩
      · intro hb
        obtain ⟨k1, k2, k3, k4⟩ := f5 hb
        refine ⟨?_, ?_, k3, ?_⟩
        · rw [List.cons_prefix_cons]; exact ⟨rfl, k1⟩
        · simpa using k2
        · simp only [List.length_cons]; omega

theorem chr_cr : chr '\r' = 13 := by decide
theorem chr_lf : chr '\n' = 10 := by decide

theorem send_ok (t : Tx) (q line : List UInt8) (sched : Nat → Nat) (kfin : Nat) (h : Fifo.Rep 128 t.tx q) :
    ∃ t' q' p, send t line sched kfin = .ok t' ∧ Fifo.Rep 128 t'.tx q' ∧
      t'.wire ++ q' = t.wire ++ q ++ p ∧ Piece line p ∧
      t'.error = (if p = line ++ [13, 10] then t.error else true) ∧
      (q.length + line.length + 2 ≤ 128 → p = line ++ [13, 10]) := by
  obtain ⟨t1, b1, q1, p1, e1, e2, e3, e6, e4, e5⟩ := sendLoop_ok sched line 0 t q h
  unfold send
  rw [e1, Res.ok_bind]
  cases b1 with
  | false =>
    obtain ⟨g1, g2, g3, g4⟩ := e5 rfl
    refine ⟨t1, q1, p1, rfl, e2, e3, ?_, ?_, ?_⟩
    · right; left
      exact g1.trans (List.prefix_append _ _)
    · rw [if_neg]
      · exact g3
      · rintro rfl
        have := g1.length_le
        simp only [List.length_append, List.length_cons, List.length_nil] at this
        omega
    · intro hl; omega
  | true =>
    obtain ⟨g1, g2⟩ := e4 rfl
    subst g1
    simp only [if_true]
    obtain ⟨t2, b2, q2, f1, f2, f5, f3, f4⟩ := attempt_ok t1 q1 (sched p1.length) (chr '\r') e2
    rw [f1, Res.ok_bind]
    obtain ⟨t3, b3, q3, k1, k2, k5, k3, k4⟩ := attempt_ok t2 q2 (sched (p1.length + 1)) (chr '\n') f2
    rw [k1, Res.ok_bind]
    obtain ⟨tx4, d1, d2⟩ := drain_ok kfin t3.tx t3.wire q3 k2
    rw [d1, Res.ok_bind]
    rw [chr_cr] at f3
    rw [chr_lf] at k3
    have hw : ∀ z, t3.wire ++ q3 = z → (t3.wire ++ q3.take kfin) ++ q3.drop kfin = z := by
      intro z hz
      rw [List.append_assoc, List.take_append_drop, hz]
    have hr2 := e2.cap
    have hr3 := f2.cap
    cases b2 with
    | true =>
      obtain ⟨a1, a2⟩ := f3 rfl
      cases b3 with
      | true =>
        obtain ⟨c1, c2⟩ := k3 rfl
        refine ⟨_, _, p1 ++ [13, 10], rfl, d2, ?_, Or.inl rfl, ?_, fun _ => rfl⟩
        · apply hw; rw [c1, a1, e3]; simp
        · rw [if_pos rfl]
          show t3.error = _
          rw [c2, a2, g2]
      | false =>
        obtain ⟨c1, c2, c3⟩ := k4 rfl
        refine ⟨_, _, p1 ++ [13], rfl, d2, ?_, Or.inr (Or.inl (List.prefix_refl _)), ?_, ?_⟩
        · apply hw; rw [c1, a1, e3]; simp
        · rw [if_neg (by simp)]; exact c2
        · intro hl; omega
    | false =>
      obtain ⟨a1, a2, a3⟩ := f4 rfl
      cases b3 with
      | true =>
        obtain ⟨c1, c2⟩ := k3 rfl
        refine ⟨_, _, p1 ++ [10], rfl, d2, ?_, Or.inr (Or.inr rfl), ?_, ?_⟩
        · apply hw; rw [c1, a1, e3]; simp
        · rw [if_neg (by simp)]
          show t3.error = _
          rw [c2]; exact a2
        · intro hl; omega
      | false =>
        obtain ⟨c1, c2, c3⟩ := k4 rfl
        refine ⟨_, _, p1, rfl, d2, ?_, Or.inr (Or.inl (List.prefix_append _ _)), ?_, ?_⟩
        · apply hw; rw [c1, a1, e3]
        · rw [if_neg (by simp)]; exact c2
        · intro hl; omega

end Host
end P1P2
