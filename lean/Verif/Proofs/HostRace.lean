import Verif.Spec.HostRace
import Verif.Proofs.Host
/-! Lemmas about the reception of host lines with interrupts (C130). -/
namespace P1P2
open Spec
namespace Host

/-- What holds while the characters `p` of a line have arrived; `L0` are the lines given before. -/
inductive RaceInv (l : HostLine) (L0 : List (List UInt8)) (p : List UInt8) (s : RxRace) : Prop
  | reading (buf held : List UInt8) (hp : p = buf ++ held ++ s.uart) (hr : LineRecv.Rep 128 s.rx buf) (hl : s.lines = L0)
      (hpc : (held = [] ∧ (s.pc = .out ∨ s.pc = .get ∨ s.pc = .empty)) ∨ ∃ c, held = [c] ∧ (s.pc = .full c ∨ s.pc = .push c))
  | scanning (buf : List UInt8) (i : Nat) (hp : p = buf ++ s.uart) (hr : LineRecv.Rep 128 s.rx buf) (hl : s.lines = L0)
      (hi : i ≤ buf.length) (hn : ∀ c ∈ buf.take i, ¬ Term c) (hpc : s.pc = .len i ∨ (s.pc = .look i ∧ i < buf.length))
  | found (t : UInt8) (r q : List UInt8) (hp : p = q ++ s.uart) (hq : l.text.length < q.length)
      (hr : LineRecv.Rep 128 s.rx (l.text ++ t :: r)) (hl : s.lines = L0)
      (hpc : s.pc = .zero l.text.length ∨ (s.pc = .hand l.text.length ∧ t = 0))
  | handed (b q : List UInt8) (i : Nat) (hp : p = q ++ s.uart) (hq : l.text.length < q.length) (hr : LineRecv.Rep 128 s.rx b)
      (hl : s.lines = L0 ++ [l.text]) (hpc : s.pc = .clear i)
  | after (q buf held : List UInt8) (hp : p = q ++ buf ++ held ++ s.uart) (hq : l.text.length < q.length)
      (hr : LineRecv.Rep 128 s.rx buf) (hl : s.lines = L0 ++ [l.text])
      (hpc : (held = [] ∧ (s.pc = .out ∨ s.pc = .get ∨ s.pc = .empty ∨ (∃ i, s.pc = .len i) ∨ (s.pc = .look 0 ∧ buf ≠ []))) ∨
        ∃ c, held = [c] ∧ (s.pc = .full c ∨ s.pc = .push c))

theorem chars_len (l : HostLine) : l.chars.length ≤ 128 ∧ l.chars.length ≤ l.text.length + 2 := by
  have := l.fits
  unfold HostLine.chars
  rw [List.length_append]
  refine ⟨this, ?_⟩
  rcases l.ends with h | h | h <;> rw [h] <;> simp

/-- the first terminator of a line -/
theorem first_term {l : HostLine} {buf : List UInt8} {i : Nat} (hb : buf <+: l.chars) (hi : i < buf.length)
    (hn : ∀ c ∈ buf.take i, ¬ Term c) (ht : Term buf[i]) : i = l.text.length := by
  obtain ⟨z, hz⟩ := hb
  have hlen : buf.length ≤ l.chars.length := by rw [← hz]; simp
  have hget : ∀ j (h : j < buf.length), buf[j] = l.chars[j]'(by omega) := by
    intro j h
    simp only [← hz]
    rw [List.getElem_append_left h]
  rcases Nat.lt_trichotomy i l.text.length with h | h | h
  · exfalso
    rw [hget i hi] at ht
    have e : l.chars[i]'(by omega) = l.text[i] := by
      simp only [HostLine.chars]; rw [List.getElem_append_left h]
    rw [e] at ht
    exact (l.plain _ (List.getElem_mem h)).1 ht
  · exact h
  · exfalso
    have hj : l.text.length < buf.length := by omega
    have e : Term buf[l.text.length] := by
      rw [hget _ hj]
      simp only [HostLine.chars]
      rw [List.getElem_append_right (Nat.le_refl _)]
      simp only [Nat.sub_self]
      rcases l.ends with h | h | h <;> simp [h, Term]
    refine hn buf[l.text.length] ?_ e
    rw [List.mem_take_iff_getElem]
    exact ⟨l.text.length, by omega, rfl⟩

/-- behind the first terminator there can be a line feed only -/
theorem after_term {l : HostLine} {q r : List UInt8} (hb : q ++ r <+: l.chars) (hq : l.text.length < q.length) :
    r.length ≤ 1 ∧ ∀ c ∈ r, c = 10 := by
  have hl := chars_len l
  have hlen := hb.length_le
  rw [List.length_append] at hlen
  refine ⟨by omega, ?_⟩
  intro c hc
  obtain ⟨j, hj, rfl⟩ := List.mem_iff_getElem.mp hc
  obtain ⟨z, hz⟩ := hb
  have hj0 : j = 0 := by omega
  subst hj0
  have hq1 : q.length = l.text.length + 1 := by omega
  have hlt : l.text.length + 1 < l.chars.length := by omega
  have e : r[0] = l.chars[l.text.length + 1] := by
    simp only [← hz]
    rw [List.getElem_append_left (by simp; omega), List.getElem_append_right (by omega)]
    simp [hq1]
  rw [e]
  simp only [HostLine.chars] at hlt ⊢
  rw [List.getElem_append_right (by omega)]
  rw [List.length_append] at hlt
  rcases l.ends with h | h | h <;> simp only [h] at hlt ⊢ <;> simp at hlt ⊢

theorem push_rep {rx : LineRecv UInt8} {b : List UInt8} {c : UInt8} {r : LineRecv UInt8 × Bool} (h : LineRecv.Rep 128 rx b)
    (hb : b.length < 128) (hp : LineRecv.push rxCap rx c = .ok r) : LineRecv.Rep 128 r.1 (b ++ [c]) := by
  obtain ⟨f', e1, e2⟩ := h.push c
  rw [if_pos hb] at e2
  rw [show rxCap = 128 from rfl, e1] at hp
  cases hp
  exact e2

theorem irq_rep {rx : LineRecv UInt8} {b u : List UInt8} {r : LineRecv UInt8} (h : LineRecv.Rep 128 rx b)
    (hp : checkRx rx u = .ok r) : LineRecv.Rep 128 r ((b ++ u).take 128) := by
  obtain ⟨f', e1, e2⟩ := checkRx_rep u rx b h
  rw [e1] at hp
  cases hp
  exact e2

theorem arrive_inv {l : HostLine} {L0 : List (List UInt8)} {p : List UInt8} {s : RxRace} (c : UInt8) (h : RaceInv l L0 p s) :
    RaceInv l L0 (p ++ [c]) { s with uart := s.uart ++ [c] } := by
  rcases h with ⟨buf, held, hp, hr, hl, hpc⟩ | ⟨buf, i, hp, hr, hl, hi, hn, hpc⟩ | ⟨t, r, q, hp, hq, hr, hl, hpc⟩ |
    ⟨b, q, i, hp, hq, hr, hl, hpc⟩ | ⟨q, buf, held, hp, hq, hr, hl, hpc⟩
  · exact .reading buf held (by rw [hp]; simp) hr hl hpc
  · exact .scanning buf i (by rw [hp]; simp) hr hl hi hn hpc
  · exact .found t r q (by rw [hp]; simp) hq hr hl hpc
  · exact .handed b q i (by rw [hp]; simp) hq hr hl hpc
  · exact .after q buf held (by rw [hp]; simp) hq hr hl hpc

theorem irq_inv {l : HostLine} {L0 : List (List UInt8)} {p : List UInt8} {s : RxRace} {r : LineRecv UInt8} (hc : p <+: l.chars)
    (h : RaceInv l L0 p s) (hh : ¬ Holding s) (hr' : checkRx s.rx s.uart = .ok r) :
    RaceInv l L0 p { s with uart := [], rx := r } := by
  have hlen := hc.length_le
  have hcl := (chars_len l).1
  rcases h with ⟨buf, held, hp, hr, hl, hpc⟩ | ⟨buf, i, hp, hr, hl, hi, hn, hpc⟩ | ⟨t, r0, q, hp, hq, hr, hl, hpc⟩ |
    ⟨b, q, i, hp, hq, hr, hl, hpc⟩ | ⟨q, buf, held, hp, hq, hr, hl, hpc⟩
  · rcases hpc with ⟨h0, hpc⟩ | ⟨c, _, hpc⟩
    · subst h0
      have hr2 := irq_rep hr hr'
      rw [List.append_nil] at hp
      rw [← hp, List.take_of_length_le (by omega)] at hr2
      exact .reading p [] (by simp) hr2 hl (.inl ⟨rfl, hpc⟩)
    · exact absurd ⟨c, hpc⟩ hh
  · have hr2 := irq_rep hr hr'
    rw [← hp, List.take_of_length_le (by omega)] at hr2
    have hpl : buf.length ≤ p.length := by rw [hp]; simp
    refine .scanning p i (by simp) hr2 hl (by omega) ?_ ?_
    · rw [hp, List.take_append_of_le_length hi]; exact hn
    · rcases hpc with h | ⟨h, h2⟩
      · exact .inl h
      · exact .inr ⟨h, by omega⟩
  · have hr2 := irq_rep hr hr'
    have ht := l.fits
    have ht1 : 1 ≤ l.term.length := by rcases l.ends with h | h | h <;> rw [h] <;> simp
    rw [List.append_assoc, List.take_append, List.take_of_length_le (by omega), List.cons_append,
      show 128 - l.text.length = (127 - l.text.length) + 1 by omega, List.take_succ_cons] at hr2
    exact .found t _ p (by simp) (by rw [hp]; simp; omega) hr2 hl hpc
  · exact .handed _ p i (by simp) (by rw [hp]; simp; omega) (irq_rep hr hr') hl hpc
  · rcases hpc with ⟨h0, hpc⟩ | ⟨c, _, hpc⟩
    · subst h0
      have hr2 := irq_rep hr hr'
      have hp2 : p = q ++ (buf ++ s.uart) := by rw [hp]; simp
      have hpl : p.length = q.length + (buf ++ s.uart).length := by rw [hp2]; simp
      rw [List.take_of_length_le (by omega)] at hr2
      refine .after q (buf ++ s.uart) [] (by rw [hp2]; simp) hq hr2 hl (.inl ⟨rfl, ?_⟩)
      rcases hpc with h | h | h | h | ⟨h, h2⟩
      · exact .inl h
      · exact .inr (.inl h)
      · exact .inr (.inr (.inl h))
      · exact .inr (.inr (.inr (.inl h)))
      · exact .inr (.inr (.inr (.inr ⟨h, by simp [h2]⟩)))
    · exact absurd ⟨c, hpc⟩ hh

theorem rep_clear {rx : LineRecv UInt8} {b : List UInt8} (_ : LineRecv.Rep 128 rx b) : LineRecv.Rep 128 rx.clear [] :=
  ⟨rfl, by simp, by simp⟩

theorem main_inv {l : HostLine} {L0 : List (List UInt8)} {p : List UInt8} {s t : RxRace} (hc : p <+: l.chars)
    (h : RaceInv l L0 p s) (hm : s.main = .ok (some t)) : RaceInv l L0 p t := by
  have hlen := hc.length_le
  have hcl := (chars_len l).1
  rcases h with ⟨buf, held, hp, hr, hl, hpc⟩ | ⟨buf, i, hp, hr, hl, hi, hn, hpc⟩ | ⟨t0, r, q, hp, hq, hr, hl, hpc⟩ |
    ⟨b, q, i, hp, hq, hr, hl, hpc⟩ | ⟨q, buf, held, hp, hq, hr, hl, hpc⟩
  · rcases hpc with ⟨h0, hpc | hpc | hpc⟩ | ⟨c, h0, hpc | hpc⟩ <;> subst h0
    · simp [RxRace.main, hpc] at hm
    · cases hu : s.uart with
      | nil =>
        simp only [RxRace.main, hpc, hu, Res.ok.injEq, Option.some.injEq] at hm
        subst hm
        exact .reading buf [] (by rw [hp, hu]) hr hl (.inl ⟨rfl, .inr (.inr rfl)⟩)
      | cons c u =>
        simp only [RxRace.main, hpc, hu, Res.ok.injEq, Option.some.injEq] at hm
        subst hm
        exact .reading buf [c] (by rw [hp, hu]; simp) hr hl (.inr ⟨c, rfl, .inl rfl⟩)
    · simp only [RxRace.main, hpc, Res.ok.injEq, Option.some.injEq] at hm
      subst hm
      by_cases he : s.rx.isEmpty
      · rw [if_pos he]
        exact .reading buf [] hp hr hl (.inl ⟨rfl, .inl rfl⟩)
      · rw [if_neg he]
        exact .scanning buf 0 (by rw [hp]; simp) hr hl (by omega) (by simp) (.inl rfl)
    · simp only [RxRace.main, hpc, Res.ok.injEq, Option.some.injEq] at hm
      subst hm
      have hb : buf.length < 128 := by rw [hp] at hlen; simp at hlen; omega
      have hf : s.rx.isFull rxCap = false := by
        simp only [LineRecv.isFull, rxCap, hr.len, decide_eq_false_iff_not]; omega
      rw [hf]
      exact .reading buf [c] hp hr hl (.inr ⟨c, rfl, .inr rfl⟩)
    · simp only [RxRace.main, hpc] at hm
      rw [Res.bind_eq_ok] at hm
      obtain ⟨r, hr1, hm⟩ := hm
      simp only [Res.ok.injEq, Option.some.injEq] at hm
      subst hm
      have hb : buf.length < 128 := by rw [hp] at hlen; simp at hlen; omega
      exact .reading (buf ++ [c]) [] (by rw [hp]; simp) (push_rep hr hb hr1) hl (.inl ⟨rfl, .inr (.inl rfl)⟩)
  · rcases hpc with hpc | ⟨hpc, hi2⟩
    · simp only [RxRace.main, hpc, Res.ok.injEq, Option.some.injEq] at hm
      subst hm
      by_cases hlt : i < s.rx.off
      · rw [if_pos hlt]
        exact .scanning buf i hp hr hl hi hn (.inr ⟨rfl, by rw [← hr.len]; exact hlt⟩)
      · rw [if_neg hlt]
        exact .reading buf [] (by rw [hp]; simp) hr hl (.inl ⟨rfl, .inl rfl⟩)
    · have hcap := hr.cap
      simp only [RxRace.main, hpc] at hm
      rw [rd_of_lt _ (show i < rxCap by simp only [rxCap]; omega), Res.ok_bind, hr.at_ i hi2] at hm
      simp only [Res.ok.injEq, Option.some.injEq] at hm
      subst hm
      by_cases ht : Term buf[i]
      · have hbp : buf <+: l.chars := List.IsPrefix.trans ⟨s.uart, hp.symm⟩ hc
        have hit := first_term hbp hi2 hn ht
        have hne : i ≠ 0 := by
          have := l.some_
          intro h0
          rw [h0] at hit
          exact this (List.eq_nil_of_length_eq_zero hit.symm)
        rw [if_pos ((isTerm_iff _).mpr ht), if_neg hne]
        have hsplit : buf = l.text ++ buf[i] :: buf.drop (i + 1) := by
          have e1 : buf.take i = l.text := by
            obtain ⟨z, hz⟩ := hbp
            have : (buf ++ z).take i = l.chars.take i := by rw [hz]
            rw [List.take_append_of_le_length (by omega), HostLine.chars, hit, List.take_left] at this
            rw [hit]; exact this
          have e2 : buf.drop i = buf[i] :: buf.drop (i + 1) := List.drop_eq_getElem_cons hi2
          rw [← e2, ← e1, List.take_append_drop]
        refine .found buf[i] (buf.drop (i + 1)) buf hp (by omega) (by rw [← hsplit]; exact hr) hl (.inl ?_)
        rw [hit]
      · have hf : isTerm buf[i] = false := by
          rw [← isTerm_iff] at ht; simpa using ht
        rw [hf]
        refine .scanning buf (i + 1) hp hr hl (by omega) ?_ (.inl rfl)
        intro c hcm
        rw [List.take_succ_eq_append_getElem hi2] at hcm
        rcases List.mem_append.mp hcm with h | h
        · exact hn c h
        · rw [List.mem_singleton.mp h]; exact ht
  · have hcap := hr.cap
    simp only [List.length_append, List.length_cons] at hcap
    rcases hpc with hpc | ⟨hpc, h0⟩
    · simp only [RxRace.main, hpc] at hm
      rw [wr_of_lt _ _ (show l.text.length < rxCap by simp only [rxCap]; omega), Res.ok_bind] at hm
      simp only [Res.ok.injEq, Option.some.injEq] at hm
      subst hm
      refine .found 0 r q hp hq ⟨?_, ?_, ?_⟩ hl (.inr ⟨rfl, rfl⟩)
      · rw [show (l.text ++ (0 : UInt8) :: r).length = (l.text ++ t0 :: r).length by simp]; exact hr.len
      · rw [show (l.text ++ (0 : UInt8) :: r).length = (l.text ++ t0 :: r).length by simp]; exact hr.cap
      · intro j hj
        by_cases e : j = l.text.length
        · subst e; simp
        · show upd s.rx.data l.text.length 0 j = _
          rw [upd_other _ _ e, hr.at_ j (by simpa using hj)]
          by_cases h1 : j < l.text.length
          · rw [List.getElem_append_left h1, List.getElem_append_left h1]
          · rw [List.getElem_append_right (by omega), List.getElem_append_right (by omega)]
            obtain ⟨k, hk⟩ : ∃ k, j - l.text.length = k + 1 := ⟨j - l.text.length - 1, by omega⟩
            simp only [hk, List.getElem_cons_succ]
    · subst h0
      have hh : Holds s.rx.data l.text := by
        constructor
        · intro j hj
          rw [hr.at_ j (by simp; omega), List.getElem_append_left hj]
        · rw [hr.at_ l.text.length (by simp)]; simp
      simp only [RxRace.main, hpc] at hm
      rw [readCStr_holds hh (fun c hc => (l.plain c hc).2) (show l.text.length < rxCap by simp only [rxCap]; omega),
        Res.ok_bind] at hm
      simp only [Res.ok.injEq, Option.some.injEq] at hm
      subst hm
      exact .handed _ q l.text.length hp hq hr (by rw [hl]) rfl
  · simp only [RxRace.main, hpc, Res.ok.injEq, Option.some.injEq] at hm
    subst hm
    exact .after q [] [] (by rw [hp]; simp) hq (rep_clear hr) hl (.inl ⟨rfl, .inr (.inr (.inr (.inl ⟨_, rfl⟩)))⟩)
  · have hr10 := after_term (l := l) (q := q) (r := buf ++ held ++ s.uart)
      (by rw [← List.append_assoc, ← List.append_assoc, ← hp]; exact hc) hq
    have hpl : p.length = q.length + buf.length + held.length + s.uart.length := by rw [hp]; simp; omega
    rcases hpc with ⟨h0, hpc | hpc | hpc | ⟨i, hpc⟩ | ⟨hpc, hb0⟩⟩ | ⟨c, h0, hpc | hpc⟩ <;> subst h0
    · simp [RxRace.main, hpc] at hm
    · cases hu : s.uart with
      | nil =>
        simp only [RxRace.main, hpc, hu, Res.ok.injEq, Option.some.injEq] at hm
        subst hm
        exact .after q buf [] (by rw [hp, hu]) hq hr hl (.inl ⟨rfl, .inr (.inr (.inl rfl))⟩)
      | cons c u =>
        simp only [RxRace.main, hpc, hu, Res.ok.injEq, Option.some.injEq] at hm
        subst hm
        exact .after q buf [c] (by rw [hp, hu]; simp) hq hr hl (.inr ⟨c, rfl, .inl rfl⟩)
    · simp only [RxRace.main, hpc, Res.ok.injEq, Option.some.injEq] at hm
      subst hm
      by_cases he : s.rx.isEmpty
      · rw [if_pos he]
        exact .after q buf [] hp hq hr hl (.inl ⟨rfl, .inl rfl⟩)
      · rw [if_neg he]
        exact .after q buf [] hp hq hr hl (.inl ⟨rfl, .inr (.inr (.inr (.inl ⟨0, rfl⟩)))⟩)
    · simp only [RxRace.main, hpc, Res.ok.injEq, Option.some.injEq] at hm
      subst hm
      by_cases hlt : i < s.rx.off
      · rw [if_pos hlt]
        rw [hr.len] at hlt
        have hle := hr10.1
        simp only [List.length_append] at hle
        have hi0 : i = 0 := by omega
        subst hi0
        refine .after q buf [] hp hq hr hl (.inl ⟨rfl, .inr (.inr (.inr (.inr ⟨rfl, ?_⟩)))⟩)
        intro h; rw [h] at hlt; simp at hlt
      · rw [if_neg hlt]
        exact .after q buf [] hp hq hr hl (.inl ⟨rfl, .inl rfl⟩)
    · have hlt : 0 < buf.length := List.length_pos_iff.mpr hb0
      simp only [RxRace.main, hpc] at hm
      rw [rd_of_lt _ (show 0 < rxCap by simp only [rxCap]; omega), Res.ok_bind, hr.at_ 0 hlt] at hm
      have h10 : buf[0] = 10 := hr10.2 _ (by simp)
      rw [h10, if_pos ((isTerm_iff 10).mpr (.inl rfl)), if_pos trivial] at hm
      simp only [Res.ok.injEq, Option.some.injEq] at hm
      subst hm
      exact .handed buf (q ++ buf) 0 (by rw [hp]; simp) (by simp; omega) hr hl rfl
    · simp only [RxRace.main, hpc, Res.ok.injEq, Option.some.injEq] at hm
      subst hm
      have hb : buf.length < 128 := by simp at hpl; omega
      have hf : s.rx.isFull rxCap = false := by
        simp only [LineRecv.isFull, rxCap, hr.len, decide_eq_false_iff_not]; omega
      rw [hf]
      exact .after q buf [c] hp hq hr hl (.inr ⟨c, rfl, .inr rfl⟩)
    · simp only [RxRace.main, hpc] at hm
      rw [Res.bind_eq_ok] at hm
      obtain ⟨r, hr1, hm⟩ := hm
      simp only [Res.ok.injEq, Option.some.injEq] at hm
      subst hm
      have hb : buf.length < 128 := by simp at hpl; omega
      exact .after q (buf ++ [c]) [] (by rw [hp]; simp) hq (push_rep hr hb hr1) hl (.inl ⟨rfl, .inr (.inl rfl)⟩)

end Host
end P1P2
