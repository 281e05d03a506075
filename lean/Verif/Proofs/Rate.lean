import Verif.Props.Core1
/-!
# How fast the receive core can produce words

A potential: every sample behind the resampler pays 3, every word costs 346.
-/
namespace P1P2

/-- Samples until the counter of the receiver (which also runs while it waits) is 0. -/
def Uart.left (S : Nat) (u : Uart) : Nat := if u.counter = 0 then 2 ^ S else u.counter

/-- What the states reached have in common. -/
structure RateInv (S : Nat) (t : C1Tail) : Prop where
  par : t.back.uart.parity = .even
  idle : 0 ≤ t.idle ∧ t.idle ≤ 176
  small : t.back.uart.counter < 2 ^ S
  st : match t.busy, t.back.uart.state with
    | true, .waitStart => 336 + t.idle ≤ (t.back.uart.left S : Int)
    | true, .waitIdle => t.back.uart.counter = 0
    | true, .data => 1 ≤ t.back.uart.counter ∧ t.back.uart.counter ≤ 167
    | true, .stop => t.back.uart.counter = 0
    | false, .waitStart => True
    | false, .waitIdle => False
    | false, .data => t.back.uart.counter = 167
    | false, .stop => t.back.uart.counter = 0

/-- The potential. -/
def C1Tail.credit (S : Nat) (t : C1Tail) : Int :=
  match t.busy, t.back.uart.state with
  | true, .waitStart => 686 - 3 * t.idle
  | true, .waitIdle => 683 - 3 * t.idle
  | true, .data => max 0 (1026 - 3 * t.back.uart.counter - 3 * t.idle)
  | true, .stop => 1026 - 3 * t.idle
  | false, .waitStart => max 343 (498 - 3 * t.back.uart.left S)
  | false, .waitIdle => 0
  | false, .data => 343
  | false, .stop => 498

theorem RateInv.init (S : Nat) (e : Bool) : RateInv S (Core1.init e).tail :=
  ⟨rfl, ⟨by show (0 : Int) ≤ 176; decide, by show (176 : Int) ≤ 176; decide⟩, Nat.pos_of_ne_zero (by simp), rfl⟩

theorem RateInv.bounds {S : Nat} {t : C1Tail} (h : RateInv S t) : 0 ≤ t.credit S ∧ t.credit S ≤ 1026 := by
  have h1 := h.idle
  unfold C1Tail.credit
  split <;> omega

theorem dec_mod {P c : Nat} (hP : 0 < P) (hc : c ≤ P) : (c + (P - 1)) % P = if c = 0 then P - 1 else c - 1 := by
  split
  · rename_i h; rw [h, Nat.zero_add]; exact Nat.mod_eq_of_lt (by omega)
  · rename_i h
    rw [show c + (P - 1) = (c - 1) + P by omega, Nat.add_mod_right]
    exact Nat.mod_eq_of_lt (by omega)

theorem Uart.shift_rate {S : Nat} {u u' : Uart} {v : Int} (hc : u.counter < 2 ^ S) (h : u.shift S v = .ok u') : u'.parity = u.parity ∧ u'.counter < 2 ^ S ∧
    u'.counter = u.left S - 1 ∧ u'.state = if u.left S = 1 then .stop else u.state := by
  have hP : 0 < 2 ^ S := Nat.pos_of_ne_zero (by simp)
  rw [Uart.shift, Res.bind_eq_ok] at h
  obtain ⟨g, -, h⟩ := h
  simp only [Res.ok.injEq] at h
  subst h
  dsimp only
  rw [dec_mod hP (Nat.le_of_lt hc)]
  unfold Uart.left
  generalize 2 ^ S = P at *
  refine ⟨rfl, ?_, ?_, ?_⟩
  · split <;> omega
  · split <;> rfl
  · by_cases h0 : u.counter = 0
    · simp only [if_pos h0]
      by_cases h1 : P = 1
      · rw [if_pos h1, if_pos (by omega)]
      · rw [if_neg h1, if_neg (by omega)]
    · simp only [if_neg h0]
      by_cases h1 : u.counter = 1
      · rw [if_pos h1, if_pos (by omega)]
      · rw [if_neg h1, if_neg (by omega)]

/-- What an update does to the state and the counter. -/
theorem Uart.update_rate {S : Nat} (hS : 9 ≤ S) {u u' : Uart} {p : Int} {x : UInt8} {e : Bool} {r : Option (UInt8 × Bool)} (hp : u.parity = .even) (hc : u.counter < 2 ^ S)
    (h : u.update S p x e = .ok (u', r)) : u'.parity = .even ∧ u'.counter < 2 ^ S ∧ (r.isSome ↔ u.state = .stop) ∧
    match u.state with
    | .waitIdle => u'.counter = u.counter ∧ (u'.state = .waitIdle ∨ u'.state = .waitStart)
    | .waitStart => (u'.state = .data ∧ u'.counter = 167) ∨ (u'.counter = u.left S - 1 ∧ u'.state = if u.left S = 1 then .stop else .waitStart)
    | .data => u'.counter = u.left S - 1 ∧ u'.state = if u.left S = 1 then .stop else .data
    | .stop => u'.counter = u.counter ∧ u'.state = .waitIdle := by
  have hP : 512 ≤ 2 ^ S := Nat.pow_le_pow_right (n := 2) (by decide) hS
  unfold Uart.update at h
  cases hs : u.state with
  | waitIdle =>
    simp only [hs, Res.ok.injEq, Prod.mk.injEq] at h
    obtain ⟨rfl, rfl⟩ := h
    split
    · exact ⟨hp, hc, by simp, rfl, .inr rfl⟩
    · exact ⟨hp, hc, by simp, rfl, .inl hs⟩
  | stop =>
    simp only [hs] at h
    rw [Res.bind_eq_ok] at h
    obtain ⟨q, -, h⟩ := h
    simp only [Res.ok.injEq, Prod.mk.injEq] at h
    obtain ⟨rfl, rfl⟩ := h
    exact ⟨hp, hc, by simp, rfl, rfl⟩
  | data =>
    simp only [hs] at h
    rw [Res.bind_eq_ok] at h
    obtain ⟨q, h1, h⟩ := h
    simp only [Res.ok.injEq, Prod.mk.injEq] at h
    obtain ⟨rfl, rfl⟩ := h
    obtain ⟨a1, a2, a3, a4⟩ := Uart.shift_rate hc h1
    rw [hs] at a4
    exact ⟨a1.trans hp, a2, by simp, a3, a4⟩
  | waitStart =>
    simp only [hs] at h
    rw [Res.bind_eq_ok] at h
    obtain ⟨q, h1, h⟩ := h
    simp only [Res.ok.injEq, Prod.mk.injEq] at h
    obtain ⟨rfl, rfl⟩ := h
    split at h1
    · obtain ⟨a1, a2, a3, a4⟩ := Uart.shift_rate (by show u.parity.frame - 8 < 2 ^ S; rw [hp]; show 168 < 2 ^ S; omega) h1
      rw [hp] at a3 a4
      exact ⟨a1.trans hp, a2, by simp, .inl ⟨a4, a3⟩⟩
    · obtain ⟨a1, a2, a3, a4⟩ := Uart.shift_rate hc h1
      rw [hs] at a4
      exact ⟨a1.trans hp, a2, by simp, .inr ⟨a3, a4⟩⟩

/-- Pending words. -/
def Word.weight (w : Word) : Int := if w = .zero then 0 else 346

/-- One sample behind the resampler. -/
theorem tail_credit {S : Nat} (hS : 9 ≤ S) {t t' : C1Tail} {a : Int} {o : AcOut} (h : t.step S a = .ok (t', o)) (hi : RateInv S t) :
    RateInv S t' ∧ t'.credit S + o.word.weight ≤ t.credit S + 3 := by
  have hP : 512 ≤ 2 ^ S := Nat.pow_le_pow_right (n := 2) (by decide) hS
  obtain ⟨b, r, g1, g2, -, g4, g5, g6, g7, g8⟩ := tail_step h
  rw [RxBack.step, Res.bind_eq_ok] at g1
  obtain ⟨⟨d, p⟩, h1, g1⟩ := g1
  rw [RxBack.decode, Res.bind_eq_ok] at g1
  obtain ⟨⟨u, r'⟩, h2, g1⟩ := g1
  simp only [Res.ok.injEq, Prod.mk.injEq] at g1
  obtain ⟨g1, rfl⟩ := g1
  have hu : t'.back.uart = u := by rw [← g1]
  dsimp only at h2
  rw [detect_uart h1] at h2
  obtain ⟨a1, a2, a3, a4⟩ := Uart.update_rate hS hi.par hi.small h2
  have hwt : o.word.weight ≤ 346 := by unfold Word.weight; split <;> decide
  have hwz : b = none → r' = none → o.word.weight = 0 := by
    intro e1 e2
    rw [g5, e1, e2]; rfl
  have hr : t.back.uart.state ≠ .stop → r' = none := by
    intro h
    cases r' with
    | none => rfl
    | some _ => exact absurd (a3.mp rfl) h
  have hrec : o.receiving = true ↔ t.back.uart.state ≠ .waitStart := by rw [g2]; simp [Uart.receiving]
  obtain ⟨i1, i2⟩ := hi.idle
  have hst := hi.st
  rw [show t.back.uart.left S = if t.back.uart.counter = 0 then 2 ^ S else t.back.uart.counter from rfl] at hst a4
  have goal : ∀ (bu : Bool) (st : UState) (k : Nat) (i : Int), t'.busy = bu → u.state = st → u.counter = k → t'.idle = i → 0 ≤ i → i ≤ 176 →
      (match bu, st with
        | true, .waitStart => 336 + i ≤ ((if k = 0 then 2 ^ S else k : Nat) : Int)
        | true, .waitIdle => k = 0
        | true, .data => 1 ≤ k ∧ k ≤ 167
        | true, .stop => k = 0
        | false, .waitStart => True
        | false, .waitIdle => False
        | false, .data => k = 167
        | false, .stop => k = 0) →
      (match bu, st with
        | true, .waitStart => 686 - 3 * i
        | true, .waitIdle => 683 - 3 * i
        | true, .data => max 0 (1026 - 3 * k - 3 * i)
        | true, .stop => 1026 - 3 * i
        | false, .waitStart => max 343 (498 - 3 * ((if k = 0 then 2 ^ S else k : Nat) : Int))
        | false, .waitIdle => 0
        | false, .data => 343
        | false, .stop => 498) + o.word.weight ≤ t.credit S + 3 →
      RateInv S t' ∧ t'.credit S + o.word.weight ≤ t.credit S + 3 := by
    intro bu st k i e1 e2 e3 e4 e5 e6 e7 e8
    subst e1 e2 e3 e4
    rw [← hu] at e7 e8
    exact ⟨⟨hu ▸ a1, ⟨e5, e6⟩, hu ▸ a2, e7⟩, e8⟩
  have hb : b = (if o.receiving then (if t.busy then none else some true) else if t.busy then (if t.idle > 0 then none else some false) else none) := by
    have := @Bool.eq_false_iff
    cases ho : o.receiving <;> cases ht : t.busy <;> rw [ho, ht] at g6 g7 <;> simp only [Bool.false_eq_true, if_false, if_true] <;> simp at g6 g7
    · rcases b with _ | _ | _ <;> simp at g6 g7 ⊢
    · split
      · rcases b with _ | _ | _ <;> simp at g6 g7 ⊢; omega
      · exact g7.mpr (by omega)
    · exact g6
    · rcases b with _ | _ | _ <;> simp at g6 g7 ⊢
  clear g6 g7 h2 h1 g5 g1 h
  have hor : o.receiving = decide (t.back.uart.state ≠ .waitStart) := by
    rw [Bool.eq_iff_iff, hrec, decide_eq_true_iff]
  rw [hor] at hb g8
  clear hor hrec a3
  have hc : t.credit S = match t.busy, t.back.uart.state with
      | true, .waitStart => 686 - 3 * t.idle
      | true, .waitIdle => 683 - 3 * t.idle
      | true, .data => max 0 (1026 - 3 * t.back.uart.counter - 3 * t.idle)
      | true, .stop => 1026 - 3 * t.idle
      | false, .waitStart => max 343 (498 - 3 * ((if t.back.uart.counter = 0 then 2 ^ S else t.back.uart.counter : Nat) : Int))
      | false, .waitIdle => 0
      | false, .data => 343
      | false, .stop => 498 := rfl
  rw [hc] at goal ⊢
  have hsm := hi.small
  generalize 2 ^ S = P at *
  generalize t.back.uart.counter = k at *
  generalize t.idle = i at *
  generalize hL : (if k = 0 then P else k) = L at *
  have hL1 : 1 ≤ L ∧ (k = 0 → L = P) ∧ (k ≠ 0 → L = k) := by
    refine ⟨?_, ?_, ?_⟩
    · rw [← hL]; split <;> omega
    · intro h; rw [← hL, if_pos h]
    · intro h; rw [← hL, if_neg h]
  obtain ⟨hL1, hL2, hL3⟩ := hL1
  clear hL
  cases hbu : t.busy <;> cases hs : t.back.uart.state <;> rw [hbu] at g8 hb g4 <;> rw [hs] at g8 hb a4 hr <;> rw [hbu, hs] at hst <;> simp only [hbu, hs] at goal ⊢ <;>
    simp at g8 hb hst a4 hr
  · -- not busy, waiting
    subst hb
    have hw0 := hwz rfl hr
    rcases a4 with ⟨e1, e2⟩ | ⟨e1, e2⟩
    · refine goal false _ _ _ g4 e1 e2 g8 i1 i2 rfl ?_
      rw [hw0]
      dsimp only; omega
    · by_cases h1 : L = 1
      · rw [if_pos h1] at e2
        refine goal false _ _ _ g4 e2 e1 g8 i1 i2 (by dsimp only; omega) ?_
        rw [hw0]; dsimp only; omega
      · rw [if_neg h1] at e2
        refine goal false _ _ _ g4 e2 e1 g8 i1 i2 trivial ?_
        rw [hw0]; dsimp only; split <;> omega
  · -- not busy, a byte begins
    subst hb hst
    rw [hL3 (by decide), if_neg (by decide)] at a4
    refine goal true _ _ _ g4 a4.2 a4.1 g8 (by decide) (by decide) (by dsimp only; omega) ?_
    dsimp only; omega
  · -- not busy, the counter has run out
    subst hb hst
    refine goal true _ _ _ g4 a4.2 a4.1 g8 (by decide) (by decide) rfl ?_
    dsimp only; omega
  · -- busy, waiting for silence
    subst hb
    have hw0 := hwz rfl hr
    rcases a4.2 with e | e
    · refine goal true _ _ _ g4 e a4.1 g8 i1 i2 hst ?_
      rw [hw0]; dsimp only; omega
    · refine goal true _ _ _ g4 e a4.1 g8 i1 i2 ?_ ?_
      · dsimp only; rw [if_pos hst]; omega
      · rw [hw0]; dsimp only; omega
  · -- busy, waiting for a byte
    have hL4 : L ≠ 1 := by omega
    rw [if_neg hL4] at a4
    by_cases hi0 : 0 < i
    · rw [if_pos hi0] at g8 hb
      subst hb
      have hw0 := hwz rfl hr
      rcases a4 with ⟨e1, e2⟩ | ⟨e1, e2⟩
      · refine goal true _ _ _ g4 e1 e2 g8 (by omega) (by omega) (by dsimp only; omega) ?_
        rw [hw0]; dsimp only; omega
      · refine goal true _ _ _ g4 e2 e1 g8 (by omega) (by omega) ?_ ?_
        · dsimp only; rw [if_neg (by omega)]; omega
        · rw [hw0]; dsimp only; omega
    · rw [if_neg hi0] at g8 hb
      subst hb
      rcases a4 with ⟨e1, e2⟩ | ⟨e1, e2⟩
      · refine goal false _ _ _ g4 e1 e2 g8 (by omega) (by omega) rfl ?_
        dsimp only; omega
      · refine goal false _ _ _ g4 e2 e1 g8 (by omega) (by omega) trivial ?_
        dsimp only; rw [if_neg (by omega)]; omega
  · -- busy, in a byte
    subst hb
    have hw0 := hwz rfl hr
    have := hL3 (by omega)
    by_cases h1 : L = 1
    · rw [if_pos h1] at a4
      refine goal true _ _ _ g4 a4.2 a4.1 g8 i1 i2 (by dsimp only; omega) ?_
      rw [hw0]; dsimp only; omega
    · rw [if_neg h1] at a4
      refine goal true _ _ _ g4 a4.2 a4.1 g8 i1 i2 (by dsimp only; omega) ?_
      rw [hw0]; dsimp only; omega
  · -- busy, at the end of a byte
    subst hb
    refine goal true _ _ _ g4 a4.2 a4.1 g8 i1 i2 hst ?_
    dsimp only; omega

/-- The potential of the receive core: two conversions make a sample behind the resampler. -/
def Core1.credit (S : Nat) (c : Core1) : Int := 2 * c.tail.credit S + (if c.front.rs.counter = 0 then 3 else 0)

/-- What the states of the receive core have in common. -/
structure Core1.Rated (S : Nat) (c : Core1) : Prop where
  tail : RateInv S c.tail
  n : c.front.rs.n = 1
  counter : c.front.rs.counter = 0 ∨ c.front.rs.counter = 1

theorem Core1.Rated.init (S : Nat) (e : Bool) : (Core1.init e).Rated S := ⟨RateInv.init S e, rfl, .inl rfl⟩

theorem Core1.Rated.bounds {S : Nat} {c : Core1} (h : c.Rated S) : 0 ≤ c.credit S ∧ c.credit S ≤ 2055 := by
  have := h.tail.bounds
  unfold Core1.credit
  split <;> omega

/-- What one iteration pays: 3 for a sample, 693 for an overrun. -/
def AdcIn.pays : AdcIn → Int
  | .none => 0
  | .sample _ => 3
  | .error => 693

theorem front_rs {f f' : RxFront} {v : Int} {o : Option Int} (h : f.step v = .ok (f', o)) : f'.rs = (f.rs.update (0 : Int)).1 ∧ (o = none ↔ f.rs.counter ≠ 0) := by
  rw [RxFront.step, Res.bind_eq_ok] at h
  obtain ⟨r, -, h⟩ := h
  by_cases hc : f.rs.counter = 0
  · simp only [Resample.update, hc, if_true] at h
    rw [Res.bind_eq_ok] at h
    obtain ⟨d, -, h⟩ := h
    simp only [Res.ok.injEq, Prod.mk.injEq] at h
    rw [← h.1, ← h.2]
    exact ⟨by simp only [Resample.update, hc], by simp [hc]⟩
  · simp only [Resample.update, hc, if_false, Res.ok.injEq, Prod.mk.injEq] at h
    rw [← h.1, ← h.2]
    exact ⟨rfl, by simp [hc]⟩

theorem rated_step {S : Nat} (hS : 9 ≤ S) {c c' : Core1} {i : C1In} {o : C1Out} (h : c.step S i = .ok (c', o)) (hr : c.Rated S) :
    c'.Rated S ∧ c'.credit S + 2 * c'.word.weight ≤ c.credit S + i.adc.pays ∧ o.word = if c.word = .zero then none else some c.word := by
  obtain ⟨hr1, hr2, hr3⟩ := hr
  have hs := (send_eq c i.ready).1
  have ho : (c.send i.ready).2.1 = if c.word = .zero then none else some c.word := by
    unfold Core1.send
    by_cases hw : c.word = .zero
    · rw [if_neg (by rw [Classical.not_not]; exact (C52_zero _).mpr hw), if_pos hw]
    · rw [if_pos (fun h => hw ((C52_zero _).mp h)), if_neg hw]
  unfold Core1.step at h
  simp only [hs] at h
  cases ha : i.adc with
  | none =>
    rw [ha] at h
    simp only [Res.ok.injEq, Prod.mk.injEq] at h
    obtain ⟨rfl, rfl⟩ := h
    refine ⟨⟨hr1, hr2, hr3⟩, ?_, ho⟩
    show c.credit S + 2 * Word.zero.weight ≤ c.credit S + 0
    rw [show Word.zero.weight = 0 from rfl]; omega
  | error =>
    rw [ha] at h
    simp only [Res.ok.injEq, Prod.mk.injEq] at h
    obtain ⟨rfl, rfl⟩ := h
    refine ⟨⟨hr1, hr2, hr3⟩, ?_, ho⟩
    show c.credit S + 2 * ({ Word.zero with dadcError := true } : Word).weight ≤ c.credit S + 693
    rw [show ({ Word.zero with dadcError := true } : Word).weight = 346 from rfl]; omega
  | sample v =>
    rw [ha] at h
    simp only at h
    rw [Res.bind_eq_ok] at h
    obtain ⟨c3, h1, h4⟩ := h
    simp only [Res.ok.injEq, Prod.mk.injEq] at h4
    obtain ⟨rfl, rfl⟩ := h4
    rw [Core1.sample, Res.bind_eq_ok] at h1
    obtain ⟨⟨f', oa⟩, h5, h1⟩ := h1
    dsimp only at h5
    obtain ⟨e1, e2⟩ := front_rs h5
    have hn : f'.rs.n = 1 := by rw [e1]; exact hr2
    have hct : f'.rs.counter = if c.front.rs.counter = 0 then 1 else 0 := by
      rw [e1]
      simp only [Resample.update, hr2]
      rcases hr3 with h | h <;> rw [h] <;> rfl
    cases oa with
    | none =>
      simp only [Res.ok.injEq] at h1
      subst h1
      have hc1 : c.front.rs.counter = 1 := by have := e2.mp rfl; omega
      rw [hc1, if_neg (by decide)] at hct
      refine ⟨⟨hr1, hn, .inl hct⟩, ?_, ho⟩
      show 2 * c.tail.credit S + (if f'.rs.counter = 0 then 3 else 0) + 2 * Word.zero.weight ≤ 2 * c.tail.credit S + (if c.front.rs.counter = 0 then 3 else 0) + 3
      rw [hct, hc1, show Word.zero.weight = 0 from rfl]
      simp
    | some a =>
      obtain ⟨q1, q2⟩ := ac_tail (t := c.tail) (f := f') h1
      obtain ⟨k1, k2⟩ := tail_credit hS q1 hr1
      have hc0 : c.front.rs.counter = 0 := by
        rcases hr3 with h | h
        · exact h
        · exact absurd (e2.mpr (by omega)) (by simp)
      rw [if_pos hc0] at hct
      refine ⟨⟨k1, by rw [q2]; exact hn, by rw [q2]; exact .inr hct⟩, ?_, ho⟩
      show 2 * c3.tail.credit S + (if c3.front.rs.counter = 0 then 3 else 0) + 2 * c3.word.weight ≤ 2 * c.tail.credit S + (if c.front.rs.counter = 0 then 3 else 0) + 3
      rw [q2, hct, if_pos hc0, if_neg (by decide)]
      dsimp only at k2
      omega

end P1P2
