import Verif.Props.RateLines
import Verif.Props.Times
import Verif.Spec.Watch
/-!
# The watchdog of the bus: when words come and when they are taken
-/
namespace P1P2

/-! ## Words with times -/

theorem comeBy_cons (x : Nat × Word) (ts : List (Nat × Word)) (N : Nat) : comeBy (x :: ts) N = if x.1 < N then x.2 :: comeBy ts N else comeBy ts N := by
  unfold comeBy
  by_cases h : x.1 < N
  · rw [if_pos h, List.filter_cons_of_pos (by simpa using h)]; rfl
  · rw [if_neg h, List.filter_cons_of_neg (by simpa using h)]

theorem comeBy_mono {M N : Nat} (h : M ≤ N) : ∀ ts : List (Nat × Word), (comeBy ts M).length ≤ (comeBy ts N).length := by
  intro ts
  induction ts with
  | nil => exact Nat.le_refl _
  | cons x ts ih =>
    rw [comeBy_cons, comeBy_cons]
    by_cases h1 : x.1 < M
    · rw [if_pos h1, if_pos (by omega)]; simpa using ih
    · rw [if_neg h1]
      split
      · exact Nat.le_succ_of_le ih
      · exact ih

theorem comeBy_early {N : Nat} : ∀ {ts : List (Nat × Word)}, (∀ x ∈ ts, N ≤ x.1) → comeBy ts N = [] := by
  intro ts h
  unfold comeBy
  rw [List.filter_eq_nil_iff.mpr]
  · rfl
  · intro x hx
    have := h x hx
    simp; omega

/-- The words that have come are the first ones. -/
theorem comeBy_get {N : Nat} : ∀ {ts : List (Nat × Word)}, (ts.Pairwise fun x y => x.1 < y.1) →
    ∀ i k w, ts[i]? = some (k, w) → ((i < (comeBy ts N).length ↔ k < N) ∧ (k < N → (comeBy ts N)[i]? = some w)) := by
  intro ts
  induction ts with
  | nil => intro _ i k w h; simp at h
  | cons x ts ih =>
    intro hs i k w h
    obtain ⟨h1, h2⟩ := List.pairwise_cons.mp hs
    rw [comeBy_cons]
    by_cases hx : x.1 < N
    · rw [if_pos hx]
      cases i with
      | zero =>
        simp only [List.getElem?_cons_zero, Option.some.injEq] at h
        subst h
        exact ⟨⟨fun _ => hx, fun _ => by simp⟩, fun _ => rfl⟩
      | succ i =>
        rw [List.getElem?_cons_succ] at h
        obtain ⟨e1, e2⟩ := ih h2 i k w h
        refine ⟨?_, fun hk => by rw [List.getElem?_cons_succ]; exact e2 hk⟩
        rw [List.length_cons, ← e1]
        omega
    · rw [if_neg hx, comeBy_early (fun y hy => by have := h1 y hy; omega)]
      have hk : ¬ k < N := by
        cases i with
        | zero =>
          simp only [List.getElem?_cons_zero, Option.some.injEq] at h
          subst h
          exact hx
        | succ i =>
          rw [List.getElem?_cons_succ] at h
          have := h1 _ (List.mem_of_getElem? h)
          dsimp only at this
          omega
      exact ⟨⟨fun h => by simp at h, fun h => absurd h hk⟩, fun h => absurd h hk⟩

theorem comeBy_length_le (ts : List (Nat × Word)) (N : Nat) : (comeBy ts N).length ≤ ts.length := by
  unfold comeBy
  rw [List.length_map]
  exact List.length_filter_le ..

theorem bytesRaw_words : ∀ (l : List (Nat × Bool × UInt8)) (t : Nat) (ts : List (Nat × Word)), BytesRaw t l ts → ∀ x ∈ ts, x.2.lineBusy = false := by
  intro l
  induction l with
  | nil => intro t ts h x hx; rw [show ts = [] from h] at hx; cases hx
  | cons f l ih =>
    intro t ts h x hx
    obtain ⟨k, ts', rfl, -, -, h⟩ := h
    rcases List.mem_cons.mp hx with rfl | hx
    · rfl
    · exact ih _ _ h x hx

theorem codesEnd_bound : ∀ (l : List (Nat × Bool × UInt8)) (t : Nat), codesEnd t l + 10 * l.length = t + 348 * l.length + (l.map fun b => b.1 + 10).sum := by
  intro l
  induction l with
  | nil => intro t; simp [codesEnd]
  | cons f l ih =>
    intro t
    have := ih (t + f.1 + 348)
    show codesEnd (t + f.1 + 348) l + _ = _
    simp only [List.length_cons, List.map_cons, List.sum_cons]
    omega

/-- Words of packets of at most 31 bytes: line-free comes at first, and within 11482 codes after line-busy. -/
theorem next_free : ∀ (ps : List BusPacket) (t : Nat) (ts : List (Nat × Word)), (∀ p ∈ ps, p.RawOk ∧ p.bytes.length ≤ 31) → PacketsRaw t ps ts →
    (∃ f, ts[0]? = some (f, wFree) ∧ f ≤ t + 376) ∧
    ∀ (i k : Nat) (w : Word), ts[i]? = some (k, w) → w.lineBusy = true → ∃ (j k' : Nat), i < j ∧ ts[j]? = some (k', wFree) ∧ k' ≤ k + 11482 := by
  intro ps
  induction ps with
  | nil =>
    intro t ts _ h
    obtain ⟨f, rfl, -, h2⟩ := h
    refine ⟨⟨f, rfl, h2⟩, fun i k w hi hw => ?_⟩
    cases i with
    | zero =>
      simp only [List.getElem?_cons_zero, Option.some.injEq, Prod.mk.injEq] at hi
      rw [← hi.2] at hw; cases hw
    | succ i => simp at hi
  | cons p ps ih =>
    intro t ts hp h
    obtain ⟨f, b, ts1, ts2, rfl, -, h2, h3, -, h5, h6⟩ := h
    obtain ⟨⟨f', hf1, hf2⟩, ih2⟩ := ih _ _ (fun p hp' => hp p (List.mem_cons_of_mem _ hp')) h6
    refine ⟨⟨f, rfl, h2⟩, fun i k w hi hw => ?_⟩
    match i with
    | 0 =>
      simp only [List.getElem?_cons_zero, Option.some.injEq, Prod.mk.injEq] at hi
      rw [← hi.2] at hw; cases hw
    | 1 =>
      simp only [List.getElem?_cons_succ, List.getElem?_cons_zero, Option.some.injEq, Prod.mk.injEq] at hi
      refine ⟨2 + ts1.length, f', by omega, ?_, ?_⟩
      · rw [Nat.add_comm 2, List.getElem?_cons_succ, List.getElem?_cons_succ, List.getElem?_append_right (Nat.le_refl _), Nat.sub_self]
        exact hf1
      · obtain ⟨q1, q2⟩ := hp p (List.mem_cons_self ..)
        have := q1.rest
        have e := codesEnd_bound p.rest (t + p.gap + 348)
        have e0 : codesEnd t p.frames = codesEnd (t + p.gap + 348) p.rest := rfl
        have q2 : (p.rest.map fun b => b.2.2).length + 1 ≤ 31 := q2
        rw [List.length_map] at q2
        omega
    | i + 2 =>
      rw [List.getElem?_cons_succ, List.getElem?_cons_succ] at hi
      by_cases hl : i < ts1.length
      · rw [List.getElem?_append_left hl] at hi
        have := bytesRaw_words _ _ _ h5 _ (List.mem_of_getElem? hi)
        rw [this] at hw; cases hw
      · rw [List.getElem?_append_right (by omega)] at hi
        obtain ⟨j, k', j1, j2, j3⟩ := ih2 _ _ _ hi hw
        refine ⟨j + ts1.length + 2, k', by omega, ?_, j3⟩
        rw [List.getElem?_cons_succ, List.getElem?_cons_succ, List.getElem?_append_right (by omega), Nat.add_sub_cancel]
        exact j2

/-! ## The FIFO -/

theorem fifo_words {pf : Platform} {g : Nat → UInt8} : ∀ (ys : List TwoStep) {s t : TwoCores} {os : List TwoOut}, s.run pf g ys = .ok (some (t, os)) → drops os = 0 →
    s.fifo ++ pushes ys = takes ys ++ t.fifo := by
  intro ys
  induction ys with
  | nil =>
    intro s t os h _
    simp only [TwoCores.run, Res.ok.injEq, Option.some.injEq, Prod.mk.injEq] at h
    rw [h.1]
    show t.fifo ++ [] = [] ++ t.fifo
    simp
  | cons y ys ih =>
    intro s t os h hd
    obtain ⟨s', o, os', h1, h2, rfl⟩ := TwoCores.run_cons h
    have hd' : drops os' = 0 ∧ o.dropped = false := by
      unfold drops at hd ⊢
      rw [List.countP_cons] at hd
      refine ⟨by omega, ?_⟩
      cases ho : o.dropped with
      | false => rfl
      | true => rw [ho] at hd; simp at hd
    have i := ih h2 hd'.1
    rcases TwoCores.step_ok h1 with ⟨w, rfl, -, rfl, -⟩ | ⟨w, rfl, -, -, rfl⟩ | ⟨e, c, rs, rfl, -, -, -, rfl, -⟩ | ⟨rfl, -, rfl, -⟩ | ⟨e, r, rfl, -, hw, -, rfl, -⟩
    · show s.fifo ++ (w :: pushes ys) = takes ys ++ t.fifo
      rw [← i]; simp
    · cases hd'.2
    · exact i
    · exact i
    · dsimp only at i
      have ht : takes (.second e :: ys) = e.word.toList ++ takes ys := by
        unfold takes
        rw [List.filterMap_cons]
        dsimp only
        cases e.word <;> rfl
      rw [ht, List.append_assoc, ← i, hw]
      cases s.fifo with
      | nil => rfl
      | cons w l => rfl

end P1P2
