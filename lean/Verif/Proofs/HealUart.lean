import Verif.Proofs.HealFront
/-!
# UART and busy detection, after any history
-/
namespace P1P2

/-! ## The counter of the UART -/

/-- At most `n` samples since the counter of the UART was last known to be at rest. -/
structure Aged (S n : Nat) (u : Uart) : Prop where
  idle : u.state = .waitIdle → u.counter = 0
  start : u.state = .waitStart → u.counter = 0 ∨ 2 ^ S ≤ u.counter + n
  stop : u.state = .stop → u.counter = 0
  data : u.state = .data → u.counter ≤ 168

theorem Aged.rest {S : Nat} {u : Uart} (hs : u.state = .waitIdle) (hc : u.counter = 0) (n : Nat) : Aged S n u := by
  refine ⟨fun _ => hc, fun h => ?_, fun h => ?_, fun h => ?_⟩ <;> rw [hs] at h <;> cases h

theorem Aged.mono {S n m : Nat} {u : Uart} (h : Aged S n u) (hm : n ≤ m) : Aged S m u :=
  ⟨h.idle, fun hs => by have := h.start hs; omega, h.stop, h.data⟩

theorem parity_len : Parity.even.len = 168 := rfl

theorem Aged.step {S n : Nat} {err : Bool} {u u' : Uart} {v : Int} {o : Option (UInt8 × Bool)} (hS : 8 ≤ S) (h : Aged S n u) (hok : u.Ok S .even)
    (hn : n + 1 < 2 ^ S) (hu : u.step S err v = .ok (u', o)) : Aged S (n + 1) u' := by
  obtain ⟨⟨w, hw⟩, hp, hc, hd⟩ := hok
  cases hs : u.state with
  | waitIdle =>
    rw [step_waitIdle hs] at hu
    simp only [Res.ok.injEq, Prod.mk.injEq] at hu
    have h0 := h.idle hs
    by_cases hz : toI16 v = 0
    · rw [if_pos hz] at hu
      rw [← hu.1]
      exact ⟨fun _ => h0, fun _ => Or.inl h0, fun _ => h0, fun _ => by show u.counter ≤ 168; omega⟩
    · rw [if_neg hz] at hu
      rw [← hu.1]
      exact .rest hs h0 _
  | waitStart =>
    by_cases hz : toI16 v = 0
    · obtain ⟨u2, e1, e2, e3, e4, e5⟩ := step_wait (S := S) (err := err) hs hw hz
      rw [hu] at e1
      simp only [Res.ok.injEq, Prod.mk.injEq] at e1
      rw [← e1.1] at e4 e5
      have hcnt : 2 ^ S ≤ u'.counter + (n + 1) := by
        rw [e4]
        rcases h.start hs with h0 | h0
        · rw [h0, dec_zero]; omega
        · rw [dec_pos (by omega) hc]; omega
      rw [← e4, if_neg (by omega)] at e5
      refine ⟨fun hh => ?_, fun _ => Or.inr hcnt, fun hh => ?_, fun hh => ?_⟩ <;> rw [e5] at hh <;> cases hh
    · obtain ⟨u2, e1, e2, e3, e4, e5⟩ := step_start (S := S) (err := err) hS hs hw hz
      rw [hu] at e1
      simp only [Res.ok.injEq, Prod.mk.injEq] at e1
      rw [← e1.1] at e4 e5
      rw [hp, parity_len] at e4
      refine ⟨fun hh => ?_, fun hh => ?_, fun hh => ?_, fun hh => by omega⟩ <;> rw [e5] at hh <;> cases hh
  | data =>
    obtain ⟨u2, e1, e2, e3, e4, e5⟩ := step_data (S := S) (err := err) hs hw (hd hs) hc v
    rw [hu] at e1
    simp only [Res.ok.injEq, Prod.mk.injEq] at e1
    rw [← e1.1] at e4 e5
    have h168 := h.data hs
    by_cases h1 : u.counter = 1
    · rw [if_pos h1] at e5
      refine ⟨fun hh => ?_, fun hh => ?_, fun hh => by omega, fun hh => ?_⟩ <;> rw [e5] at hh <;> cases hh
    · rw [if_neg h1] at e5
      refine ⟨fun hh => ?_, fun hh => ?_, fun hh => ?_, fun hh => by omega⟩ <;> rw [e5] at hh <;> cases hh
  | stop =>
    rw [step_stop hs hw] at hu
    simp only [Res.ok.injEq, Prod.mk.injEq] at hu
    rw [← hu.1]
    exact Aged.rest (u := { u with state := .waitIdle }) rfl (h.stop hs) _

theorem Aged.feed {S n : Nat} {u : Uart} (hS : 8 ≤ S) (h : Aged S n u) (hok : u.Ok S .even) (x : Nat → Int) : ∀ (m : Nat) {u' : Uart}
    {l : List (Option (UInt8 × Bool))}, n + m < 2 ^ S → P1P2.feed (Uart.step S false) u x m = .ok (u', l) → Aged S (n + m) u' ∧ u'.Ok S .even := by
  intro m
  induction m with
  | zero =>
    intro u' l _ hf
    simp only [P1P2.feed, Res.ok.injEq, Prod.mk.injEq] at hf
    rw [← hf.1]
    exact ⟨h, hok⟩
  | succ m ih =>
    intro u' l hm hf
    rw [P1P2.feed, Res.bind_eq_ok] at hf
    obtain ⟨⟨u1, l1⟩, h1, hf⟩ := hf
    rw [Res.bind_eq_ok] at hf
    obtain ⟨⟨u2, o2⟩, h2, h3⟩ := hf
    simp only [Res.ok.injEq, Prod.mk.injEq] at h3
    obtain ⟨rfl, rfl⟩ := h3
    obtain ⟨i1, i2⟩ := ih (by omega) h1
    obtain ⟨u3, o3, k1, k2⟩ := i2.step hS false (x m)
    rw [h2] at k1
    simp only [Res.ok.injEq, Prod.mk.injEq] at k1
    exact ⟨i1.step hS i2 (by omega) h2, k1.1 ▸ k2⟩

/-- Samples without a pulse until the UART waits for a start. -/
def Uart.due (u : Uart) : Nat :=
  match u.state with
  | .waitStart => 0
  | .waitIdle => 1
  | .stop => 2
  | .data => 2 + u.counter

theorem Aged.due_step {S n : Nat} {err : Bool} {u u' : Uart} {v : Int} {o : Option (UInt8 × Bool)} (h : Aged S n u) (hok : u.Ok S .even)
    (hn : n + 1 < 2 ^ S) (hv : toI16 v = 0) (hu : u.step S err v = .ok (u', o)) : u'.due ≤ u.due - 1 := by
  obtain ⟨⟨w, hw⟩, hp, hc, hd⟩ := hok
  cases hs : u.state with
  | waitIdle =>
    rw [step_waitIdle hs, if_pos hv] at hu
    simp only [Res.ok.injEq, Prod.mk.injEq] at hu
    rw [← hu.1]
    exact Nat.zero_le _
  | waitStart =>
    obtain ⟨u2, e1, e2, e3, e4, e5⟩ := step_wait (S := S) (err := err) hs hw hv
    rw [hu] at e1
    simp only [Res.ok.injEq, Prod.mk.injEq] at e1
    rw [← e1.1] at e4 e5
    have hcnt : 2 ^ S ≤ u'.counter + (n + 1) := by
      rw [e4]
      rcases h.start hs with h0 | h0
      · rw [h0, dec_zero]; omega
      · rw [dec_pos (by omega) hc]; omega
    rw [← e4, if_neg (by omega)] at e5
    unfold Uart.due
    rw [e5]
    exact Nat.zero_le _
  | data =>
    obtain ⟨u2, e1, e2, e3, e4, e5⟩ := step_data (S := S) (err := err) hs hw (hd hs) hc v
    rw [hu] at e1
    simp only [Res.ok.injEq, Prod.mk.injEq] at e1
    rw [← e1.1] at e4 e5
    have h0 := hd hs
    unfold Uart.due
    rw [hs, e5]
    by_cases h1 : u.counter = 1
    · rw [if_pos h1]; dsimp only; omega
    · rw [if_neg h1]; dsimp only; omega
  | stop =>
    rw [step_stop hs hw] at hu
    simp only [Res.ok.injEq, Prod.mk.injEq] at hu
    rw [← hu.1]
    unfold Uart.due
    rw [hs]
    exact Nat.le_refl _

/-- 170 samples without a pulse are enough. -/
theorem Aged.rests {S n : Nat} {u : Uart} (hS : 8 ≤ S) (h : Aged S n u) (hok : u.Ok S .even) {x : Nat → Int} {m : Nat} {u' : Uart}
    {l : List (Option (UInt8 × Bool))} (hn : n + m < 2 ^ S) (hf : P1P2.feed (Uart.step S false) u x m = .ok (u', l)) (hm : 170 ≤ m)
    (hx : ∀ i, i < m → toI16 (x i) = 0) : u'.state = .waitStart ∧ Ready S (n + m) u' := by
  have key : ∀ (m : Nat) {u' : Uart} {l : List (Option (UInt8 × Bool))}, n + m < 2 ^ S → (∀ i, i < m → toI16 (x i) = 0) →
      P1P2.feed (Uart.step S false) u x m = .ok (u', l) → u'.due ≤ u.due - m := by
    intro m
    induction m with
    | zero =>
      intro u' l _ _ hf
      simp only [P1P2.feed, Res.ok.injEq, Prod.mk.injEq] at hf
      rw [← hf.1]; exact Nat.le_refl _
    | succ m ih =>
      intro u' l hm hx hf
      rw [P1P2.feed, Res.bind_eq_ok] at hf
      obtain ⟨⟨u1, l1⟩, h1, hf⟩ := hf
      rw [Res.bind_eq_ok] at hf
      obtain ⟨⟨u2, o2⟩, h2, h3⟩ := hf
      simp only [Res.ok.injEq, Prod.mk.injEq] at h3
      obtain ⟨rfl, rfl⟩ := h3
      obtain ⟨i1, i2⟩ := h.feed hS hok x m (by omega) h1
      have := ih (by omega) (fun i hi => hx i (by omega)) h1
      have := i1.due_step i2 (by omega) (hx m (by omega)) h2
      omega
  have hd := key m hn hx hf
  obtain ⟨a1, a2⟩ := h.feed hS hok x m hn hf
  have hdue : u.due ≤ 170 := by
    unfold Uart.due
    cases hs : u.state with
    | data => have := h.data hs; dsimp only; omega
    | _ => dsimp only; omega
  have hst : u'.state = .waitStart := by
    have hd : u'.due = 0 := by omega
    unfold Uart.due at hd
    cases hs : u'.state with
    | waitStart => rfl
    | data => rw [hs] at hd; dsimp only at hd; omega
    | waitIdle => rw [hs] at hd; dsimp only at hd; omega
    | stop => rw [hs] at hd; dsimp only at hd; omega
  exact ⟨hst, a2.win, a2.par, Or.inr ⟨hst, a1.start hst⟩, a2.cnt⟩

/-! ## The busy detection -/

/-- The idle counter stays in range. -/
theorem idle_run {S : Nat} : ∀ (xs : List Int) {t t' : C1Tail} {tr : List AcOut}, t.run S xs = .ok (t', tr) → 0 ≤ t.idle ∧ t.idle ≤ 176 →
    0 ≤ t'.idle ∧ t'.idle ≤ 176 := by
  intro xs
  induction xs with
  | nil =>
    intro t t' tr h hi
    simp only [C1Tail.run, Res.ok.injEq, Prod.mk.injEq] at h
    rw [← h.1]; exact hi
  | cons a as ih =>
    intro t t' tr h hi
    rw [C1Tail.run, Res.bind_eq_ok] at h
    obtain ⟨⟨t1, o1⟩, h1, h⟩ := h
    rw [Res.bind_eq_ok] at h
    obtain ⟨⟨t2, l⟩, h2, h⟩ := h
    simp only [Res.ok.injEq, Prod.mk.injEq] at h
    obtain ⟨rfl, rfl⟩ := h
    obtain ⟨b, r, -, -, -, g2, g3, g4, g5, g6⟩ := tail_step h1
    refine ih h2 ?_
    rw [g6]
    split <;> split <;> omega

/-- Without a receiving flag the line is free when the counter is used up. -/
theorem busy_done {S : Nat} : ∀ (xs : List Int) {t t' : C1Tail} {tr : List AcOut}, t.run S xs = .ok (t', tr) → 0 ≤ t.idle →
    (∀ f ∈ tr.map AcOut.receiving, f = false) → (t.busy = true → t.idle < xs.length) → t'.busy = false := by
  intro xs
  induction xs with
  | nil =>
    intro t t' tr h hi _ hb
    simp only [C1Tail.run, Res.ok.injEq, Prod.mk.injEq] at h
    rw [← h.1]
    cases hbb : t.busy with
    | false => rfl
    | true => have := hb hbb; simp only [List.length_nil] at this; omega
  | cons a as ih =>
    intro t t' tr h hi hr hb
    rw [C1Tail.run, Res.bind_eq_ok] at h
    obtain ⟨⟨t1, o1⟩, h1, h⟩ := h
    rw [Res.bind_eq_ok] at h
    obtain ⟨⟨t2, l⟩, h2, h⟩ := h
    simp only [Res.ok.injEq, Prod.mk.injEq] at h
    obtain ⟨rfl, rfl⟩ := h
    obtain ⟨b, r, -, -, -, g2, g3, g4, g5, g6⟩ := tail_step h1
    have ho : o1.receiving = false := hr _ (by rw [List.map_cons]; exact List.mem_cons_self ..)
    have hr' : ∀ f ∈ l.map AcOut.receiving, f = false := fun f hf => hr f (by rw [List.map_cons]; exact List.mem_cons_of_mem _ hf)
    rw [ho] at g4 g5 g6
    simp only [Bool.false_eq_true, if_false] at g6
    refine ih h2 (by rw [g6]; split <;> omega) hr' ?_
    intro hb1
    cases hbb : t.busy with
    | false =>
      rw [hbb] at g2 g5
      rcases b with _ | _ | _
      · rw [g2] at hb1; cases hb1
      · rw [g2] at hb1; cases hb1
      · simp at g4
    | true =>
      have := hb hbb
      rw [List.length_cons] at this
      by_cases hp : t.idle > 0
      · rw [g6, hbb]; simp only [hp, and_self, if_true]; omega
      · have hb0 : b = some false := g5.mpr ⟨hbb, rfl, hp⟩
        rw [hb0] at g2
        rw [g2] at hb1; cases hb1

/-- What a run says that ends with the line free: nothing at all, or line-free is the last word. -/
theorem free_last {S : Nat} : ∀ (xs : List Int) {t t' : C1Tail} {tr : List AcOut}, t.run S xs = .ok (t', tr) → t'.busy = false →
    (nonzero (tr.map AcOut.word) = [] ∧ t.busy = false) ∨ ∃ Y, nonzero (tr.map AcOut.word) = Y ++ [wFree] := by
  intro xs
  induction xs with
  | nil =>
    intro t t' tr h hb
    simp only [C1Tail.run, Res.ok.injEq, Prod.mk.injEq] at h
    obtain ⟨rfl, rfl⟩ := h
    exact Or.inl ⟨rfl, hb⟩
  | cons a as ih =>
    intro t t' tr h hb
    rw [C1Tail.run, Res.bind_eq_ok] at h
    obtain ⟨⟨t1, o1⟩, h1, h⟩ := h
    rw [Res.bind_eq_ok] at h
    obtain ⟨⟨t2, l⟩, h2, h⟩ := h
    simp only [Res.ok.injEq, Prod.mk.injEq] at h
    obtain ⟨rfl, rfl⟩ := h
    have hn : nonzero ((o1 :: l).map AcOut.word) = nonzero [o1.word] ++ nonzero (l.map AcOut.word) := by
      rw [← nonzero_append]; rfl
    rw [hn]
    rcases ih h2 hb with ⟨k1, k2⟩ | ⟨Y, k1⟩
    · have hrr := result_receiving h1
      obtain ⟨b, r, -, -, -, g2, g3, g4, g5, g6⟩ := tail_step h1
      have hnr : o1.receiving = false → r = none := by
        intro ho
        cases r with
        | none => rfl
        | some r =>
          have := hrr (by rw [g3, addResult_result]; simp)
          rw [ho] at this; cases this
      rw [k1, List.append_nil]
      rcases b with _ | _ | _
      · have g2 : t1.busy = t.busy := g2
        have hbb : t.busy = false := g2 ▸ k2
        have ho : o1.receiving = false := by
          cases ho : o1.receiving with
          | false => rfl
          | true => have := g4.mpr ⟨hbb, ho⟩; cases this
        rw [hnr ho] at g3
        exact Or.inl ⟨by rw [g3]; rfl, hbb⟩
      · have ho := (g5.mp rfl).2.1
        rw [hnr ho] at g3
        exact Or.inr ⟨[], by rw [g3]; rfl⟩
      · rw [g2] at k2; cases k2
    · exact Or.inr ⟨nonzero [o1.word] ++ Y, by rw [k1, List.append_assoc]⟩

end P1P2
