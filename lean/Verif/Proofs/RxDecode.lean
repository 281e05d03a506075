import Verif.Spec.Rx
import Verif.Proofs.Uart
/-!
# From symbol values to bytes
-/
namespace P1P2

/-- The value of the detector for a symbol. -/
def Sgn : Level → Int → Prop
  | .mid, v => v = 0
  | .up, v => v > 0
  | .down, v => v < 0

theorem Sgn.zero {l : Level} {v : Int} (h : Sgn l v) : v = 0 ↔ l = .mid := by
  cases l <;> simp only [Sgn] at h <;> simp <;> omega

/-! ## Components of the extraction -/

theorem polarity_out (e : Ext) (t : Int) : (e.polarity t).out = e.out := by
  unfold Ext.polarity; dsimp only; split <;> rfl
theorem polarity_par (e : Ext) (t : Int) : (e.polarity t).par = e.par := by
  unfold Ext.polarity; dsimp only; split <;> rfl
theorem polarity_prob (e : Ext) (t : Int) : (e.polarity t).prob = e.prob + t.natAbs := by
  unfold Ext.polarity; dsimp only; split <;> rfl
theorem polarity_last (e : Ext) (t : Int) : (e.polarity t).last = if t = 0 then e.last else t := by
  unfold Ext.polarity; dsimp only
  by_cases h : t = 0
  · rw [if_neg (by simp [h]), if_pos h]
  · rw [if_pos h, if_neg h]
theorem polarity_err (e : Ext) (t : Int) :
    (e.polarity t).err = (e.err || decide ((e.last > 0 ∧ t > 0) ∨ (e.last < 0 ∧ t < 0))) := by
  unfold Ext.polarity; dsimp only
  by_cases h : t = 0
  · rw [if_neg (by simp [h])]
    subst h
    have : ¬ ((e.last > 0 ∧ (0 : Int) > 0) ∨ (e.last < 0 ∧ (0 : Int) < 0)) := by omega
    simp [this]
  · rw [if_pos h]

theorem stepParity_out (e : Ext) (b : Nat) (t : Int) : (e.stepParity b t).out =
    if 1 ≤ b ∧ b ≤ 8 ∧ t = 0 then e.out ||| ((1 : UInt8) <<< UInt8.ofNat (b - 1)) else e.out := by
  unfold Ext.stepParity
  rw [polarity_out]
  by_cases h : 1 ≤ b ∧ b ≤ 8
  · rw [if_pos h]
    by_cases ht : t = 0
    · rw [if_pos ht, if_pos ⟨h.1, h.2, ht⟩]
    · rw [if_neg ht, if_neg (fun q => ht q.2.2)]
  · have hn : ¬ (1 ≤ b ∧ b ≤ 8 ∧ t = 0) := fun q => h ⟨q.1, q.2.1⟩
    rw [if_neg h, if_neg hn]
    split
    · split <;> rfl
    · split
      · split <;> rfl
      · rfl

theorem stepParity_par (e : Ext) (b : Nat) (t : Int) : (e.stepParity b t).par =
    if 1 ≤ b ∧ b ≤ 9 ∧ t = 0 then e.par + 1 else e.par := by
  unfold Ext.stepParity
  rw [polarity_par]
  by_cases h : 1 ≤ b ∧ b ≤ 8
  · rw [if_pos h]
    by_cases ht : t = 0
    · rw [if_pos ht, if_pos ⟨h.1, by omega, ht⟩]
    · rw [if_neg ht, if_neg (fun q => ht q.2.2)]
  · rw [if_neg h]
    by_cases h9 : b = 9
    · rw [if_pos h9]
      by_cases ht : t = 0
      · rw [if_pos ht, if_pos ⟨by omega, by omega, ht⟩]
      · rw [if_neg ht, if_neg (fun q => ht q.2.2)]
    · have hn : ¬ (1 ≤ b ∧ b ≤ 9 ∧ t = 0) := by omega
      rw [if_neg h9, if_neg hn]
      split
      · split <;> rfl
      · rfl

theorem stepParity_prob (e : Ext) (b : Nat) (t : Int) : (e.stepParity b t).prob = e.prob + t.natAbs := by
  unfold Ext.stepParity
  rw [polarity_prob]
  congr 1
  repeat' (first | rfl | split)

theorem stepParity_last (e : Ext) (b : Nat) (t : Int) : (e.stepParity b t).last = if t = 0 then e.last else t := by
  unfold Ext.stepParity
  rw [polarity_last]
  congr 1
  repeat' (first | rfl | split)

theorem stepParity_err (e : Ext) (b : Nat) (t : Int) : (e.stepParity b t).err =
    (e.err || decide (b = 10 ∧ t ≠ 0) || decide ((e.last > 0 ∧ t > 0) ∨ (e.last < 0 ∧ t < 0))) := by
  unfold Ext.stepParity
  rw [polarity_err]
  by_cases h10 : b = 10
  · subst h10
    by_cases ht : t = 0
    · subst ht; simp
    · simp [ht]
  · have hl : ∀ e' : Ext, e' = (if 1 ≤ b ∧ b ≤ 8 then
      if t = 0 then { e with out := e.out ||| ((1 : UInt8) <<< UInt8.ofNat (b - 1)), par := e.par + 1 } else e
        else if b = 9 then
          if t = 0 then { e with par := e.par + 1 } else e
        else if b = 10 then
          if t ≠ 0 then { e with err := true } else e
        else e) → e'.err = e.err ∧ e'.last = e.last := by
      intro e' he
      rw [if_neg h10] at he
      subst he
      repeat' (first | exact ⟨rfl, rfl⟩ | split)
    obtain ⟨h1, h2⟩ := hl _ rfl
    rw [h1, h2]
    simp [h10]

/-! ## The whole loop -/

theorem extFold_prob (s : Nat → Int) : ∀ (n b : Nat) (e : Ext),
    (extFold Ext.stepParity s e b n).prob = e.prob + ((List.range n).map (fun i => (s (b + i)).natAbs)).sum := by
  intro n
  induction n with
  | zero => intro b e; simp [extFold]
  | succ n ih =>
    intro b e
    rw [extFold, ih, stepParity_prob, List.range_succ_eq_map, List.map_cons, List.sum_cons, List.map_map, Nat.add_assoc]
    congr 2
    rw [show ((fun i => (s (b + i)).natAbs) ∘ Nat.succ) = fun i => (s (b + 1 + i)).natAbs by
      funext i; simp only [Function.comp]; congr 2; omega]

/-- Polarity check along a list of symbols. -/
def polFold (last : Level) : List Level → Bool
  | [] => false
  | .mid :: ls => polFold last ls
  | l :: ls => (l == last) || polFold l ls

theorem polFold_eq (last : Level) (ls : List Level) : polFold last ls =
    ((match ls.find? (· ≠ .mid) with | some l' => last == l' | none => false) || polRepeat ls) := by
  induction ls generalizing last with
  | nil => rfl
  | cons l ls ih =>
    cases l with
    | mid => simp only [polFold, ih, polRepeat]; simp
    | up =>
      rw [show polFold last (Level.up :: ls) = ((Level.up == last) || polFold .up ls) from rfl, ih]
      cases last <;> rfl
    | down =>
      rw [show polFold last (Level.down :: ls) = ((Level.down == last) || polFold .down ls) from rfl, ih]
      cases last <;> rfl

theorem polRepeat_cons {l : Level} (h : l ≠ .mid) (ls : List Level) : polRepeat (l :: ls) = polFold l ls := by
  rw [polFold_eq]
  cases l
  · exact absurd rfl h
  · rfl
  · rfl

theorem extFold_err (s : Nat → Int) (σ : Nat → Level) : ∀ (n b : Nat) (e : Ext) (last : Level),
    (∀ i, b ≤ i → i < b + n → Sgn (σ i) (s i)) → Sgn last e.last → last ≠ .mid →
    (extFold Ext.stepParity s e b n).err = (e.err || decide (b ≤ 10 ∧ 10 < b + n ∧ σ 10 ≠ .mid) ||
      polFold last ((List.range n).map (fun i => σ (b + i)))) := by
  intro n
  induction n with
  | zero => intro b e last _ _ _; simp [extFold, polFold]; omega
  | succ n ih =>
    intro b e last h hl hm
    have hb := h b (Nat.le_refl _) (by omega)
    have hz := hb.zero
    have ht : ((List.range (n + 1)).map (fun i => σ (b + i))) = σ b :: (List.range n).map (fun i => σ (b + 1 + i)) := by
      rw [List.range_succ_eq_map, List.map_cons, List.map_map]
      congr 1
      apply List.map_congr_left
      intro i _
      simp only [Function.comp]
      congr 1; omega
    rw [extFold, ht]
    have hstop : decide (b ≤ 10 ∧ 10 < b + (n + 1) ∧ σ 10 ≠ .mid) =
        (decide (b = 10 ∧ s b ≠ 0) || decide (b + 1 ≤ 10 ∧ 10 < b + 1 + n ∧ σ 10 ≠ .mid)) := by
      rw [Bool.eq_iff_iff]
      simp only [Bool.or_eq_true, decide_eq_true_eq]
      by_cases h10 : b = 10
      · subst h10; rw [ne_eq (s 10), hz]; constructor
        · intro q; exact Or.inl ⟨rfl, q.2.2⟩
        · rintro (q | q)
          · exact ⟨by omega, by omega, q.2⟩
          · omega
      · constructor
        · intro q; exact Or.inr ⟨by omega, by omega, q.2.2⟩
        · rintro (q | q)
          · exact absurd q.1 h10
          · exact ⟨by omega, by omega, q.2.2⟩
    have h' : ∀ i, b + 1 ≤ i → i < b + 1 + n → Sgn (σ i) (s i) := fun i h1 h2 => h i (by omega) (by omega)
    cases hσ : σ b with
    | mid =>
      have hs0 : s b = 0 := hz.mpr hσ
      rw [ih (b + 1) _ last h' (by rw [stepParity_last, if_pos hs0]; exact hl) hm, stepParity_err, hstop, hs0]
      rw [show polFold last (Level.mid :: (List.range n).map (fun i => σ (b + 1 + i))) =
        polFold last ((List.range n).map (fun i => σ (b + 1 + i))) from rfl]
      simp
    | up =>
      have hs1 : s b > 0 := by rw [hσ] at hb; exact hb
      have hs0 : s b ≠ 0 := by omega
      rw [ih (b + 1) _ .up h' (by rw [stepParity_last, if_neg hs0]; exact hs1) (by decide), stepParity_err, hstop]
      rw [show polFold last (Level.up :: (List.range n).map (fun i => σ (b + 1 + i))) =
        ((Level.up == last) || polFold .up ((List.range n).map (fun i => σ (b + 1 + i)))) from rfl]
      have hp : decide ((e.last > 0 ∧ s b > 0) ∨ (e.last < 0 ∧ s b < 0)) = (Level.up == last) := by
        cases last
        · exact absurd rfl hm
        · have : e.last > 0 := hl
          simp [this, hs1]
        · have : e.last < 0 := hl
          rw [decide_eq_false (by omega)]; rfl
      rw [hp]
      simp only [Bool.or_assoc]
      congr 1
      cases (Level.up == last) <;> simp [Bool.or_comm, Bool.or_left_comm]
    | down =>
      have hs1 : s b < 0 := by rw [hσ] at hb; exact hb
      have hs0 : s b ≠ 0 := by omega
      rw [ih (b + 1) _ .down h' (by rw [stepParity_last, if_neg hs0]; exact hs1) (by decide), stepParity_err, hstop]
      rw [show polFold last (Level.down :: (List.range n).map (fun i => σ (b + 1 + i))) =
        ((Level.down == last) || polFold .down ((List.range n).map (fun i => σ (b + 1 + i)))) from rfl]
      have hp : decide ((e.last > 0 ∧ s b > 0) ∨ (e.last < 0 ∧ s b < 0)) = (Level.down == last) := by
        cases last
        · exact absurd rfl hm
        · have : e.last > 0 := hl
          rw [decide_eq_false (by omega)]; rfl
        · have : e.last < 0 := hl
          simp [this, hs1]
      rw [hp]
      simp only [Bool.or_assoc]
      congr 1
      cases (Level.down == last) <;> simp [Bool.or_comm, Bool.or_left_comm]

/-- The data accumulated, as a function of the bits. -/
def outFold (bit : Nat → Bool) (out : UInt8) (b : Nat) : Nat → UInt8
  | 0 => out
  | n + 1 => outFold bit (if 1 ≤ b ∧ b ≤ 8 ∧ bit b = true then out ||| ((1 : UInt8) <<< UInt8.ofNat (b - 1)) else out)
      (b + 1) n

theorem extFold_out (s : Nat → Int) : ∀ (n b : Nat) (e : Ext),
    (extFold Ext.stepParity s e b n).out = outFold (fun i => decide (s i = 0)) e.out b n := by
  intro n
  induction n with
  | zero => intro b e; rfl
  | succ n ih =>
    intro b e
    rw [extFold, ih, stepParity_out, outFold]
    simp only [decide_eq_true_eq]

/-- The ones counted, as a function of the bits. -/
def parFold (bit : Nat → Bool) (par : Nat) (b : Nat) : Nat → Nat
  | 0 => par
  | n + 1 => parFold bit (if 1 ≤ b ∧ b ≤ 9 ∧ bit b = true then par + 1 else par) (b + 1) n

theorem extFold_par (s : Nat → Int) : ∀ (n b : Nat) (e : Ext),
    (extFold Ext.stepParity s e b n).par = parFold (fun i => decide (s i = 0)) e.par b n := by
  intro n
  induction n with
  | zero => intro b e; rfl
  | succ n ih =>
    intro b e
    rw [extFold, ih, stepParity_par, parFold]
    simp only [decide_eq_true_eq]

theorem outFold_byteOf (bit : Nat → Bool) : outFold bit 0 1 10 = byteOf (fun k => bit (k + 1)) := by
  have key : ∀ b1 b2 b3 b4 b5 b6 b7 b8 : Bool,
      (let o : UInt8 := 0
       let o := if b1 = true then o ||| ((1 : UInt8) <<< (0 : UInt8)) else o
       let o := if b2 = true then o ||| ((1 : UInt8) <<< (1 : UInt8)) else o
       let o := if b3 = true then o ||| ((1 : UInt8) <<< (2 : UInt8)) else o
       let o := if b4 = true then o ||| ((1 : UInt8) <<< (3 : UInt8)) else o
       let o := if b5 = true then o ||| ((1 : UInt8) <<< (4 : UInt8)) else o
       let o := if b6 = true then o ||| ((1 : UInt8) <<< (5 : UInt8)) else o
       let o := if b7 = true then o ||| ((1 : UInt8) <<< (6 : UInt8)) else o
       if b8 = true then o ||| ((1 : UInt8) <<< (7 : UInt8)) else o) =
      UInt8.ofNat (0 + (if b1 then 1 else 0) + (if b2 then 2 else 0) + (if b3 then 4 else 0) + (if b4 then 8 else 0) +
        (if b5 then 16 else 0) + (if b6 then 32 else 0) + (if b7 then 64 else 0) + (if b8 then 128 else 0)) := by
    decide +kernel
  have h := key (bit 1) (bit 2) (bit 3) (bit 4) (bit 5) (bit 6) (bit 7) (bit 8)
  refine Eq.trans ?_ (h.trans rfl)
  simp only [outFold, Nat.reduceAdd, Nat.reduceLeDiff, true_and, Nat.le_refl, false_and, if_false, Nat.reduceSub,
    Nat.sub_self, and_false]
  rfl

theorem parFold_count (bit : Nat → Bool) :
    parFold bit 0 1 10 = ((List.range 9).filter (fun k => bit (k + 1))).length := by
  have key : ∀ b1 b2 b3 b4 b5 b6 b7 b8 b9 : Bool,
      (let o : Nat := 0
       let o := if b1 = true then o + 1 else o
       let o := if b2 = true then o + 1 else o
       let o := if b3 = true then o + 1 else o
       let o := if b4 = true then o + 1 else o
       let o := if b5 = true then o + 1 else o
       let o := if b6 = true then o + 1 else o
       let o := if b7 = true then o + 1 else o
       let o := if b8 = true then o + 1 else o
       if b9 = true then o + 1 else o) =
      ([b1, b2, b3, b4, b5, b6, b7, b8, b9].filter (fun b => b)).length := by
    decide +kernel
  have h := key (bit 1) (bit 2) (bit 3) (bit 4) (bit 5) (bit 6) (bit 7) (bit 8) (bit 9)
  refine Eq.trans ?_ (h.trans ?_)
  · simp only [parFold, Nat.reduceAdd, Nat.reduceLeDiff, true_and, Nat.le_refl, false_and, if_false, and_false]
  have e2 : ([bit 1, bit 2, bit 3, bit 4, bit 5, bit 6, bit 7, bit 8, bit 9] : List Bool) =
      (List.range 9).map (fun k => bit (k + 1)) := rfl
  rw [e2, List.filter_map, List.length_map]
  rfl

/-- Eleven detector values with the signs of the symbols decode to what the symbols mean. -/
theorem valRef_sgn {s : Nat → Int} {σ : Nat → Level} (h : ∀ b < 11, Sgn (σ b) (s b)) (h0 : σ 0 ≠ .mid) :
    ((valRef .even s).1, (valRef .even s).2.1) = decodeSymbols σ := by
  have hs0 : s 0 ≠ 0 := fun hc => h0 ((h 0 (by decide)).zero.mp hc)
  have hbit : ∀ k < 11, decide (s k = 0) = (σ k == .mid) := by
    intro k hk
    have := (h k hk).zero
    rw [Bool.eq_iff_iff]
    simp [this]
  unfold valRef decodeSymbols
  rw [if_neg hs0]
  dsimp only
  rw [extFold_out, extFold_par, outFold_byteOf, parFold_count,
    extFold_err s σ 10 1 _ (σ 0) (fun i h1 h2 => h i (by omega)) (h 0 (by decide)) h0]
  have e1 : byteOf (fun k => decide (s (k + 1) = 0)) = byteOf (fun k => σ (k + 1) == .mid) := by
    unfold byteOf
    simp only [List.range, List.range.loop, List.foldl, hbit 1 (by decide), hbit 2 (by decide), hbit 3 (by decide),
      hbit 4 (by decide), hbit 5 (by decide), hbit 6 (by decide), hbit 7 (by decide), hbit 8 (by decide), Nat.zero_add,
      Nat.reduceAdd]
  have e2 : (List.range 9).filter (fun k => decide (s (k + 1) = 0)) =
      (List.range 9).filter (fun k => σ (k + 1) == .mid) := by
    apply List.filter_congr
    intro k hk
    exact hbit (k + 1) (by have := List.mem_range.mp hk; omega)
  rw [e1, e2]
  congr 1
  have e3 : (List.range 11).map σ = σ 0 :: (List.range 10).map (fun i => σ (1 + i)) := rfl
  rw [e3, polRepeat_cons h0]
  cases hm : σ 10 <;> simp [Bool.or_comm, Bool.or_assoc, Bool.or_left_comm]

/-- The probability of a phase whose start value is not zero. -/
theorem valRef_prob {s : Nat → Int} (h0 : s 0 ≠ 0) :
    (valRef .even s).2.2 = ((List.range 11).map (fun b => (s b).natAbs)).sum := by
  unfold valRef
  rw [if_neg h0]
  dsimp only
  rw [extFold_prob]
  have : (List.range 11).map (fun b => (s b).natAbs) =
      (s 0).natAbs :: (List.range 10).map (fun i => (s (1 + i)).natAbs) := rfl
  rw [this, List.sum_cons]

theorem valRef_prob_le {s : Nat → Int} :
    (valRef .even s).2.2 ≤ ((List.range 11).map (fun b => (s b).natAbs)).sum := by
  by_cases h0 : s 0 = 0
  · unfold valRef
    rw [if_pos h0]
    exact Nat.zero_le _
  · rw [valRef_prob h0]; exact Nat.le_refl _

theorem sum_lt {f g : Nat → Nat} (h : ∀ b < 11, f b ≤ g b) (h0 : f 0 < g 0) :
    ((List.range 11).map f).sum < ((List.range 11).map g).sum := by
  have := h 1 (by decide); have := h 2 (by decide); have := h 3 (by decide); have := h 4 (by decide)
  have := h 5 (by decide); have := h 6 (by decide); have := h 7 (by decide); have := h 8 (by decide)
  have := h 9 (by decide); have := h 10 (by decide)
  simp only [List.range, List.range.loop, List.map, List.sum_cons, List.sum_nil]
  omega

end P1P2
