import Verif.Spec.Decode
import Verif.Proofs.RxDecode
import Verif.Props.Uart
/-!
# Property C116: what the receiver makes of any samples, in every parity mode
-/
namespace P1P2

theorem levelOfValue_sgn (v : Int) : Sgn (levelOfValue v) v := by
  unfold levelOfValue
  by_cases h1 : v > 0
  · rw [if_pos h1]; exact h1
  · rw [if_neg h1]
    by_cases h2 : v < 0
    · rw [if_pos h2]; exact h2
    · rw [if_neg h2]; show v = 0; omega

/-- Agreement of the two loops, except for the count of ones. -/
def ExtSame (e e' : Ext) : Prop := e.out = e'.out ∧ e.err = e'.err ∧ e.last = e'.last ∧ e.prob = e'.prob

theorem polarity_same {e e' : Ext} (h : ExtSame e e') (t : Int) : ExtSame (e.polarity t) (e'.polarity t) := by
  obtain ⟨h1, h2, h3, h4⟩ := h
  refine ⟨?_, ?_, ?_, ?_⟩
  · rw [polarity_out, polarity_out, h1]
  · rw [polarity_err, polarity_err, h2, h3]
  · rw [polarity_last, polarity_last, h3]
  · rw [polarity_prob, polarity_prob, h4]

theorem step_same {e e' : Ext} (h : ExtSame e e') {b : Nat} (h1 : 1 ≤ b) (h8 : b ≤ 8) (t : Int) : ExtSame (e.stepPlain b t) (e'.stepParity b t) := by
  unfold Ext.stepPlain Ext.stepParity
  have hc : 1 ≤ b ∧ b ≤ 8 := ⟨h1, h8⟩
  simp only [if_pos hc]
  apply polarity_same
  by_cases ht : t = 0
  · rw [if_pos ht, if_pos ht]
    exact ⟨by rw [h.1], h.2.1, h.2.2.1, h.2.2.2⟩
  · rw [if_neg ht, if_neg ht]; exact h

theorem parity_bit_same {e e' : Ext} (h : ExtSame e e') : ExtSame e (e'.stepParity 9 0) := by
  obtain ⟨h1, h2, h3, h4⟩ := h
  refine ⟨?_, ?_, ?_, ?_⟩
  · rw [stepParity_out, if_neg (by omega)]; exact h1
  · rw [stepParity_err, h2]; simp
  · rw [stepParity_last, if_pos rfl]; exact h3
  · rw [stepParity_prob, h4]; rfl

theorem stop_bit_same {e e' : Ext} (h : ExtSame e e') (t : Int) : ExtSame (e.stepPlain 9 t) (e'.stepParity 10 t) := by
  unfold Ext.stepPlain Ext.stepParity
  simp only [Nat.reduceLeDiff, and_false, if_false, if_true, Nat.reduceEqDiff]
  apply polarity_same
  by_cases ht : t = 0
  · rw [if_neg (by simp [ht]), if_neg (by simp [ht])]; exact h
  · rw [if_pos ht, if_pos ht]; exact ⟨h.1, rfl, h.2.2.1, h.2.2.2⟩

theorem fold_same (s s' : Nat → Int) : ∀ (n b : Nat) (e e' : Ext), 1 ≤ b → b + n ≤ 9 → (∀ i, b ≤ i → i < b + n → s i = s' i) → ExtSame e e' →
    ExtSame (extFold Ext.stepPlain s e b n) (extFold Ext.stepParity s' e' b n) := by
  intro n
  induction n with
  | zero => intro b e e' _ _ _ h; exact h
  | succ n ih =>
    intro b e e' h1 h2 hs h
    rw [extFold, extFold]
    refine ih (b + 1) _ _ (by omega) (by omega) (fun i a c => hs i (by omega) (by omega)) ?_
    rw [hs b (by omega) (by omega)]
    exact step_same h h1 (by omega) _

theorem extFold_add (step : Ext → Nat → Int → Ext) (s : Nat → Int) : ∀ (n m b : Nat) (e : Ext),
    extFold step s e b (n + m) = extFold step s (extFold step s e b n) (b + n) m := by
  intro n
  induction n with
  | zero => intro m b e; rw [Nat.zero_add]; rfl
  | succ n ih =>
    intro m b e
    rw [show n + 1 + m = (n + m) + 1 from by omega, extFold, ih, extFold]
    congr 1; omega

/-- The values of a frame without parity, with a parity bit inserted. -/
def withParity (s : Nat → Int) (k : Nat) : Int := if k ≤ 8 then s k else if k = 9 then 0 else s 9

theorem plain_as_parity (s : Nat → Int) (e : Ext) : ExtSame (extFold Ext.stepPlain s e 1 9) (extFold Ext.stepParity (withParity s) e 1 10) := by
  rw [show (9 : Nat) = 8 + 1 from rfl, show (10 : Nat) = 8 + 2 from rfl, extFold_add, extFold_add]
  have h := fold_same s (withParity s) 8 1 e e (by omega) (by omega) (fun i h1 h2 => by rw [withParity, if_pos (by omega)]) ⟨rfl, rfl, rfl, rfl⟩
  exact stop_bit_same (parity_bit_same h) (s 9)

theorem polRepeat_parity (s : Nat → Level) (h0 : s 0 ≠ .mid) :
    polRepeat ((List.range 11).map fun k => if k ≤ 8 then s k else if k = 9 then .mid else s 9) = polRepeat ((List.range 10).map s) := by
  have e1 : ((List.range 11).map fun k => if k ≤ 8 then s k else if k = 9 then .mid else s 9) =
      [s 0, s 1, s 2, s 3, s 4, s 5, s 6, s 7, s 8, .mid, s 9] := rfl
  have e2 : (List.range 10).map s = [s 0, s 1, s 2, s 3, s 4, s 5, s 6, s 7, s 8, s 9] := rfl
  have key : ∀ (l : List Level) (last r : Level), polFold last (l ++ [.mid, r]) = polFold last (l ++ [r]) := by
    intro l
    induction l with
    | nil => intro last r; rfl
    | cons a l ih =>
      intro last r
      cases a
      · exact ih last r
      · show ((Level.up == last) || polFold .up (l ++ [.mid, r])) = ((Level.up == last) || polFold .up (l ++ [r])); rw [ih]
      · show ((Level.down == last) || polFold .down (l ++ [.mid, r])) = ((Level.down == last) || polFold .down (l ++ [r])); rw [ih]
  rw [e1, e2, polRepeat_cons h0, polRepeat_cons h0]
  exact key [s 1, s 2, s 3, s 4, s 5, s 6, s 7, s 8] (s 0) (s 9)

/-- What a phase with a start bit gives. -/
theorem valRef_all (par : Parity) (s : Nat → Int) (h0 : s 0 ≠ 0) :
    valRef par s = ((decodeFrame par fun k => levelOfValue (s k)).1, (decodeFrame par fun k => levelOfValue (s k)).2,
      ((List.range par.symbols).map fun k => (s k).natAbs).sum) := by
  have hl0 : levelOfValue (s 0) ≠ .mid := fun hc => h0 ((levelOfValue_sgn _).zero.mpr hc)
  have hsg : ∀ (s : Nat → Int) (b : Nat), Sgn (levelOfValue (s b)) (s b) := fun s b => levelOfValue_sgn _
  have hbit : ∀ v : Int, decide (v = 0) = (levelOfValue v == .mid) := by
    intro v
    have := (levelOfValue_sgn v).zero
    rw [Bool.eq_iff_iff]
    simp [this]
  cases par with
  | even =>
    have h1 := valRef_sgn (s := s) (σ := fun k => levelOfValue (s k)) (fun b _ => hsg s b) hl0
    have h2 := valRef_prob h0
    have h3 : decodeFrame .even (fun k => levelOfValue (s k)) = decodeSymbols fun k => levelOfValue (s k) := rfl
    rw [h3, ← h1]
    exact Prod.ext rfl (Prod.ext rfl h2)
  | odd =>
    unfold valRef decodeFrame parityWrong
    rw [if_neg h0]
    dsimp only
    rw [extFold_out, extFold_par, outFold_byteOf, parFold_count, extFold_prob,
      extFold_err s (fun k => levelOfValue (s k)) 10 1 _ (levelOfValue (s 0)) (fun i _ _ => hsg s i) (hsg s 0) hl0]
    simp only [hbit]
    refine Prod.ext rfl (Prod.ext ?_ ?_)
    · dsimp only
      have e3 : (List.range Parity.odd.symbols).map (fun k => levelOfValue (s k)) =
          levelOfValue (s 0) :: (List.range 10).map (fun i => levelOfValue (s (1 + i))) := rfl
      rw [e3, polRepeat_cons hl0]
      show _ = (_ || levelOfValue (s 10) != .mid || _)
      cases hm : levelOfValue (s 10) <;> simp [Bool.or_comm]
    · dsimp only
      have : (List.range Parity.odd.symbols).map (fun b => (s b).natAbs) =
          (s 0).natAbs :: (List.range 10).map (fun i => (s (1 + i)).natAbs) := rfl
      rw [this, List.sum_cons]
  | none =>
    unfold valRef decodeFrame parityWrong
    rw [if_neg h0]
    dsimp only
    obtain ⟨p1, p2, p3, p4⟩ := plain_as_parity s { out := 0, par := 0, err := false, last := s 0, prob := (s 0).natAbs }
    rw [p1, p2, p4]
    have hw0 : withParity s 0 = s 0 := rfl
    rw [extFold_out, outFold_byteOf, extFold_prob,
      extFold_err (withParity s) (fun k => levelOfValue (withParity s k)) 10 1 _ (levelOfValue (s 0)) (fun i _ _ => hsg (withParity s) i) (hsg s 0) hl0]
    simp only [hbit]
    refine Prod.ext ?_ (Prod.ext ?_ ?_)
    · rfl
    · dsimp only
      have e4 : (List.range 11).map (fun k => levelOfValue (withParity s k)) =
          levelOfValue (s 0) :: (List.range 10).map (fun i => levelOfValue (withParity s (1 + i))) := rfl
      have e5 : (List.range 11).map (fun k => levelOfValue (withParity s k)) =
          (List.range 11).map fun k => if k ≤ 8 then levelOfValue (s k) else if k = 9 then .mid else levelOfValue (s 9) := rfl
      have e6 := polRepeat_parity (fun k => levelOfValue (s k)) hl0
      rw [← e5, e4, polRepeat_cons hl0] at e6
      rw [e6]
      show (_ || decide (1 ≤ 10 ∧ 10 < 1 + 10 ∧ levelOfValue (s 9) ≠ .mid) || _) = (false || levelOfValue (s 9) != .mid || _)
      have hb : ∀ (a : Level) (q : Bool), (false || decide (1 ≤ 10 ∧ 10 < 1 + 10 ∧ a ≠ .mid) || q) = (false || a != .mid || q) := by
        intro a q
        cases a <;> cases q <;> rfl
      exact hb _ _
    · dsimp only
      have a1 : (List.range 10).map (fun i => (withParity s (1 + i)).natAbs) = [(s 1).natAbs, (s 2).natAbs, (s 3).natAbs, (s 4).natAbs, (s 5).natAbs,
        (s 6).natAbs, (s 7).natAbs, (s 8).natAbs, 0, (s 9).natAbs] := rfl
      have a2 : (List.range Parity.none.symbols).map (fun k => (s k).natAbs) = [(s 0).natAbs, (s 1).natAbs, (s 2).natAbs, (s 3).natAbs, (s 4).natAbs, (s 5).natAbs,
        (s 6).natAbs, (s 7).natAbs, (s 8).natAbs, (s 9).natAbs] := rfl
      rw [a1, a2]
      simp only [List.sum_cons, List.sum_nil]
      omega

theorem valRef_weight (par : Parity) (v : Nat → Int) (ph : Nat) : (valRef par fun b => v (ph + 16 * b)).2.2 = phaseWeight par v ph := by
  unfold phaseWeight
  by_cases h0 : v ph = 0
  · rw [if_pos h0]
    unfold valRef
    rw [if_pos (by simpa using h0)]
  · rw [if_neg h0, valRef_all par _ (by simpa using h0)]

/-- The search takes the first of the best phases. -/
theorem bestFold_first {f : Nat → UInt8 × Bool × Nat} : ∀ {n ph best : Nat} {out : UInt8} {err : Bool},
    let r := bestFold f best out err ph n
    r = (best, out, err) ∨ ∃ i, ph ≤ i ∧ i < ph + n ∧ r = ((f i).2.2, (f i).1, (f i).2.1) ∧ best < (f i).2.2 ∧ ∀ k, ph ≤ k → k < i → (f k).2.2 < (f i).2.2 := by
  intro n
  induction n with
  | zero => intro ph best out err; exact .inl rfl
  | succ n ih =>
    intro ph best out err
    simp only [bestFold]
    by_cases hc : (f ph).2.2 > best
    · rw [if_pos hc]
      rcases ih (ph := ph + 1) (best := (f ph).2.2) (out := (f ph).1) (err := (f ph).2.1) with h | ⟨i, a, b, c, d, e⟩
      · exact .inr ⟨ph, by omega, by omega, h, hc, fun k h1 h2 => by omega⟩
      · refine .inr ⟨i, by omega, by omega, c, by omega, fun k h1 h2 => ?_⟩
        by_cases hk : k = ph
        · subst hk; exact d
        · exact e k (by omega) h2
    · rw [if_neg hc]
      rcases ih (ph := ph + 1) (best := best) (out := out) (err := err) with h | ⟨i, a, b, c, d, e⟩
      · exact .inl h
      · refine .inr ⟨i, by omega, by omega, c, d, fun k h1 h2 => ?_⟩
        by_cases hk : k = ph
        · subst hk; omega
        · exact e k (by omega) h2

/-- **C116.** For every parity mode and every stream of values: if the receiver is not receiving after `T` samples and sample `T` is not zero, then
the result it gives `resultDelay` samples later (168 with parity, 152 without) is what the symbols mean that are found at one of the eight phases, namely the first
of those that fit best. -/
theorem C116_decodes {S : Nat} (hS : 8 ≤ S) (par : Parity) (err : Bool) (x : Nat → Int) (T : Nat) (u : Uart) (l : List (Option (UInt8 × Bool)))
    (h : feed (Uart.step S err) (Uart.init par) x T = .ok (u, l)) (hr : u.receiving = false) (hv : toI16 (x T) ≠ 0) :
    ∃ u' ph, ph < 8 ∧
      (∀ i < 8, phaseWeight par (fun k => toI16 (x (T + k))) i ≤ phaseWeight par (fun k => toI16 (x (T + k))) ph) ∧
      (∀ i < ph, phaseWeight par (fun k => toI16 (x (T + k))) i < phaseWeight par (fun k => toI16 (x (T + k))) ph) ∧
      feed (Uart.step S err) (Uart.init par) x (T + (resultDelay par + 1)) =
        .ok (u', l ++ (List.replicate (resultDelay par) none ++ [some (decodeFrame par fun k => levelOfValue (toI16 (x (T + (ph + 16 * k)))))])) := by
  obtain ⟨u0, l0, h0, hok, -⟩ := (Uart.Ok.init (S := S) par).feed hS err x T
  rw [h] at h0
  simp only [Res.ok.injEq, Prod.mk.injEq] at h0
  obtain ⟨rfl, rfl⟩ := h0
  obtain ⟨w, hw⟩ := hok.win
  have hs : u.state = .waitStart := by
    cases hst : u.state <;> simp [Uart.receiving, hst] at hr
    rfl
  obtain ⟨u', w', h1, -, -, -, -⟩ := capture_frame (err := err) hS hs hw (x := fun i => x (T + i)) hv
  rw [hok.par, ← resultDelay_eq] at h1
  -- the search
  let f : Nat → UInt8 × Bool × Nat := fun ph => valRef par (fun b => toI16 (x (T + (ph + 16 * b))))
  have hfw : ∀ ph, (f ph).2.2 = phaseWeight par (fun k => toI16 (x (T + k))) ph := fun ph => valRef_weight par (fun k => toI16 (x (T + k))) ph
  have hpos : 0 < (f 0).2.2 := by
    rw [hfw, phaseWeight, if_neg (by simpa using hv)]
    have hle : ∀ n, 0 < n → (toI16 (x (T + (0 + 16 * 0)))).natAbs ≤ ((List.range n).map fun k => (toI16 (x (T + (0 + 16 * k)))).natAbs).sum := by
      intro n hn
      obtain ⟨n, rfl⟩ : ∃ m, n = m + 1 := ⟨n - 1, by omega⟩
      rw [List.range_succ_eq_map, List.map_cons, List.sum_cons]
      omega
    have := hle par.symbols (by cases par <;> decide)
    have h5 : 0 < (toI16 (x (T + (0 + 16 * 0)))).natAbs := by
      simp only [Nat.mul_zero, Nat.add_zero]
      omega
    omega
  obtain ⟨m1, -, -⟩ := bestFold_max (f := f) (n := 8) (ph := 0) (best := 0) (out := 0) (err := true)
  rcases bestFold_first (f := f) (n := 8) (ph := 0) (best := 0) (out := 0) (err := true) with hf | ⟨j, _, j2, j3, j4, j5⟩
  · have := m1 0 (by omega) (by omega)
    rw [hf] at this
    have h7 : (f 0).2.2 ≤ 0 := this
    omega
  · have hbest : bestRef par (fun i => toI16 (x (T + i))) = ((f j).1, (f j).2.1) := by
      unfold bestRef
      dsimp only
      rw [j3]
    have hstart : toI16 (x (T + (j + 16 * 0))) ≠ 0 := by
      intro hz
      rw [hfw, phaseWeight, if_pos (by simpa using hz)] at j4
      omega
    refine ⟨u', j, by omega, ?_, ?_, ?_⟩
    · intro i hi
      have := m1 i (by omega) (by omega)
      rw [j3] at this
      rw [← hfw, ← hfw]; exact this
    · intro i hi
      have := j5 i (by omega) hi
      rw [← hfw, ← hfw]; exact this
    · rw [hbest] at h1
      rw [show decodeFrame par (fun k => levelOfValue (toI16 (x (T + (j + 16 * k))))) = ((f j).1, (f j).2.1) by
        show _ = ((valRef par fun b => toI16 (x (T + (j + 16 * b)))).1, (valRef par fun b => toI16 (x (T + (j + 16 * b)))).2.1)
        rw [valRef_all par _ hstart]]
      exact feed_add h h1

/-- The hypotheses of C116 are met in every parity mode, with pulses in places 0 and 16 (a start bit and a zero). -/
example (par : Parity) : ∃ u l, feed (Uart.step 32 false) (Uart.init par) (fun k => if k = 1 then 5 else if k = 17 then -5 else 0) 1 = .ok (u, l) ∧
    u.receiving = false ∧ toI16 ((fun k => if k = 1 then 5 else if k = 17 then -5 else 0 : Nat → Int) 1) ≠ 0 := by
  have e := step_waitIdle (S := 32) (err := false) (u := Uart.init par) rfl 0
  rw [if_pos (by decide)] at e
  exact ⟨{ Uart.init par with state := .waitStart }, _, feed_snoc rfl e, rfl, by decide⟩

/-- The meaning of the symbols of a frame with the byte 0xFE: without parity the stop bit is symbol 9; with even parity seven ones need a one in symbol 9. -/
example : decodeFrame .none (fun k => if k = 0 then .up else if k = 1 then .down else .mid) = (0xFE, false) := by decide
example : decodeFrame .even (fun k => if k = 0 then .up else if k = 1 then .down else .mid) = (0xFE, false) := by decide
example : decodeFrame .odd (fun k => if k = 0 then .up else if k = 1 then .down else .mid) = (0xFE, true) := by decide
example : decodeFrame .odd (fun k => if k = 0 then .up else if k = 1 then .down else if k = 9 then .up else .mid) = (0xFE, false) := by decide

end P1P2
