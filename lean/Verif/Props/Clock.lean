import Verif.Spec.Clock
import Verif.Props.Shape
/-!
# C107: bytes from a sender with its own clock
-/
namespace P1P2

theorem Shape.Loud.tol {s : Shape} (h : s.Loud) : s.Tol := by
  obtain ⟨h1, h2, h3, h4, h5, h6, h7, h8, h9⟩ := h
  refine ⟨h1, h2, h3, ?_, ?_, h5, h6, ?_, ?_, ?_, ?_, ?_⟩ <;> omega

theorem div_mod_of {a T i : Nat} (h1 : i * T ≤ a) (h2 : a < i * T + T) : a / T = i ∧ a % T = a - i * T := by
  have hT : 0 < T := by omega
  have e : a / T = i := by
    apply Nat.div_eq_of_lt_le h1
    rw [Nat.succ_mul]; exact h2
  refine ⟨e, ?_⟩
  have := Nat.div_add_mod a T
  rw [e, Nat.mul_comm] at this
  omega

/-- Inside symbol `i`. -/
theorem bus_in {T W s τ i : Nat} {σ : Nat → Level} {fs} (hi : i < 11) (h1 : s + i * T ≤ τ) (h2 : τ < s + i * T + T) :
    busLevel T W ((s, σ) :: fs) τ = if τ < s + i * T + W then σ i else .mid := by
  have hb : i * T + T ≤ 11 * T := by
    have := Nat.mul_le_mul_right T (show i + 1 ≤ 11 by omega)
    rw [Nat.succ_mul] at this; exact this
  obtain ⟨e1, e2⟩ := div_mod_of (a := τ - s) (T := T) (i := i) (by omega) (by omega)
  rw [busLevel, if_pos ⟨by omega, by omega⟩, e1, e2]
  by_cases h : τ < s + i * T + W
  · rw [if_pos h, if_pos (by omega)]
  · rw [if_neg h, if_neg (by omega)]

/-- Before all frames. -/
theorem bus_before {T W : Nat} : ∀ {fs : List (Nat × (Nat → Level))} {τ : Nat}, (∀ f ∈ fs, τ < f.1) → busLevel T W fs τ = .mid := by
  intro fs
  induction fs with
  | nil => intro τ _; rfl
  | cons f fs ih =>
    intro τ h
    obtain ⟨s, σ⟩ := f
    have h0 := h (s, σ) (by simp)
    dsimp only at h0
    rw [busLevel, if_neg (by omega)]
    exact ih fun f hf => h f (by simp [hf])

/-- The value of a sample fits the symbol if the line is undisturbed there (not in the middle of a pulse) … -/
theorem symbol_of_quiet {sh : Shape} (hl : sh.Loud) {l : Level} {r : Nat} {v : Int} (h : sh.Quiet v) (hm : 1 ≤ r ∧ r ≤ 7 → l = .mid) :
    sh.Symbol l 0 0 r v := by
  have hq := hl.quiet0; have hm1 := hl.min; have hle := hl.le; have hedge := hl.edge; have hq' := hl.quiet
  cases l with
  | mid => exact h
  | up =>
    have hr' : ¬ (1 ≤ r ∧ r ≤ 7) := fun c => by cases hm c
    simp only [Shape.Symbol, Shape.Pulse, Shape.Quiet] at h ⊢
    split
    · omega
    · split
      · omega
      · exact h
  | down =>
    have hr' : ¬ (1 ≤ r ∧ r ≤ 7) := fun c => by cases hm c
    simp only [Shape.Symbol, Shape.Pulse, Shape.Quiet] at h ⊢
    split
    · omega
    · split
      · omega
      · omega

/-- … or if it is in a pulse, up to sample 8. -/
theorem symbol_of_sample {sh : Shape} (hl : sh.Loud) {l : Level} {r : Nat} {v : Int} (h : sh.Sample l v) (hr : r ≤ 8) : sh.Symbol l 0 0 r v := by
  have hq := hl.quiet0; have hm1 := hl.min; have hle := hl.le; have hedge := hl.edge; have hq' := hl.quiet
  cases l with
  | mid => exact h
  | up =>
    simp only [Shape.Symbol, Shape.Pulse, Shape.Sample] at h ⊢
    split
    · omega
    · rw [if_pos (by omega)]; exact h
  | down =>
    simp only [Shape.Symbol, Shape.Pulse, Shape.Sample] at h ⊢
    split
    · omega
    · rw [if_pos (by omega)]; exact h

/-- The same with the two deviations split into too short and too long. -/
structure Drift (P T W dm dp wm wp : Nat) : Prop where
  pos : 0 < P
  bit : T + dm = 16 * P + dp
  width : W + wm = 8 * P + wp
  small : 9 * dm + 9 * dp + wm + wp ≤ P

theorem ClockOk.split {P T W : Nat} (h : ClockOk P T W) : ∃ dm dp wm wp, Drift P T W dm dp wm wp := by
  obtain ⟨h1, h2⟩ := h
  exact ⟨16 * P - T, T - 16 * P, 8 * P - W, W - 8 * P, h1, by omega, by omega, by omega⟩

/-- Samples of a frame that starts at time `s`, from the first sample `b` at its base. -/
theorem sampled_symbol {P T W dm dp wm wp : Nat} (hc : Drift P T W dm dp wm wp) {sh : Shape} (hl : sh.Loud) {s b : Nat} {σ : Nat → Level} {fs}
    (h10 : σ 10 = .mid) (hn : ∀ f ∈ fs, s + 11 * T ≤ f.1) {x : Nat → Int} (hb1 : s ≤ b * P + (9 * dm + wm))
    (hb2 : b * P + (9 * dm + wm) < s + P) {j : Nat} (hj : j < 174) (hx : sh.Sample (busLevel T W ((s, σ) :: fs) ((b + j) * P)) (x (b + j))) :
    sh.Symbol (σ (j / 16)) 0 0 (j % 16) (x (b + j)) := by
  obtain ⟨hP, hT, hW, hd⟩ := hc
  obtain ⟨i, r, hi, hr, hr13, rfl⟩ : ∃ i r, i < 11 ∧ r < 16 ∧ (i = 10 → r ≤ 13) ∧ j = 16 * i + r :=
    ⟨j / 16, j % 16, by omega, by omega, by omega, by omega⟩
  rw [show (16 * i + r) / 16 = i by omega, show (16 * i + r) % 16 = r by omega]
  rw [show b + (16 * i + r) = b + 16 * i + r by omega] at hx ⊢
  clear hj
  generalize hv : x (b + 16 * i + r) = v at hx ⊢
  have ht : (b + 16 * i + r) * P = b * P + i * (16 * P) + r * P := by
    rw [Nat.add_mul, Nat.add_mul, Nat.mul_comm 16 i, Nat.mul_assoc]
  rw [ht] at hx
  clear ht hv
  generalize b * P = B at hb1 hb2 hx
  have hbefore : ∀ τ, τ < s → busLevel T W ((s, σ) :: fs) τ = .mid := by
    intro τ h
    refine bus_before fun f hf => ?_
    rcases List.mem_cons.mp hf with rfl | hf
    · exact h
    · have := hn f hf; omega
  have hit : i * T + i * dm = i * (16 * P) + i * dp := by
    rw [← Nat.mul_add, ← Nat.mul_add, hT]
  have hi3 : i * dm ≤ 10 * dm := Nat.mul_le_mul_right _ (by omega)
  have hi4 : i * dp ≤ 10 * dp := Nat.mul_le_mul_right _ (by omega)
  have hi1 : i ≤ 9 → i * dm ≤ 9 * dm := fun h => Nat.mul_le_mul_right _ h
  have hi2 : i ≤ 9 → i * dp ≤ 9 * dp := fun h => Nat.mul_le_mul_right _ h
  have hi5 : i ≤ 8 → i * dm + dm ≤ 9 * dm := fun h => by
    have := Nat.mul_le_mul_right dm (show i + 1 ≤ 9 by omega)
    rwa [Nat.succ_mul] at this
  have hpred : i ≠ 0 → (i - 1) * T + T = i * T := fun h => by
    rw [← Nat.succ_mul, Nat.succ_eq_add_one, show i - 1 + 1 = i by omega]
  have hmul : ∀ {a c : Nat}, a ≤ c → a * P ≤ c * P := fun h => Nat.mul_le_mul_right P h
  have hsucc : (i + 1) * T = i * T + T := Nat.succ_mul _ _
  have hi0 : i = 0 → i * T = 0 := fun h => by rw [h]; omega
  have hR0 : r = 0 → r * P = 0 := fun h => by rw [h, Nat.zero_mul]
  have hR1 : 1 ≤ r → P ≤ r * P := fun h => by have := hmul h; rwa [Nat.one_mul] at this
  have hR7 : r ≤ 7 → r * P ≤ 7 * P := fun h => hmul h
  have hR8 : r = 8 → r * P = 8 * P := fun h => by rw [h]
  have hR9 : 9 ≤ r → 9 * P ≤ r * P := fun h => hmul h
  have hR13 : r ≤ 13 → r * P ≤ 13 * P := fun h => hmul h
  have hR15 : r * P ≤ 15 * P := hmul (by omega)
  generalize r * P = R at *
  generalize hIT : i * T = iT at *
  generalize i * dm = im at *
  generalize i * dp = ip at *
  generalize i * (16 * P) = iP at *
  generalize hτ : B + iP + R = τ at hx
  have here : s + iT ≤ τ → τ < s + iT + T → busLevel T W ((s, σ) :: fs) τ = if τ < s + iT + W then σ i else .mid := by
    intro h1 h2
    rw [← hIT] at h1 h2 ⊢
    exact bus_in hi h1 h2
  have prev : i ≠ 0 → s + iT ≤ τ + T → τ < s + iT → s + iT + W ≤ τ + T → busLevel T W ((s, σ) :: fs) τ = .mid := by
    intro h0 h1 h2 h3
    have := hpred h0
    rw [bus_in (i := i - 1) (by omega) (by omega) (by omega), if_neg (by omega)]
  have first : i = 0 → τ < s + iT → busLevel T W ((s, σ) :: fs) τ = .mid := by
    intro h h1
    exact hbefore _ (by have := hi0 h; omega)
  have next : i = 9 → s + iT + T ≤ τ → τ < s + iT + T + T → busLevel T W ((s, σ) :: fs) τ = .mid := by
    intro h h1 h2
    rw [bus_in (i := i + 1) (by omega) (by omega) (by omega), h, h10]
    split <;> rfl
  clear hpred hbefore hi0 hsucc hIT hn hmul
  have early : r = 0 → τ < s + iT → sh.Quiet v := by
    intro h0 h1
    have := hR0 h0
    clear hR0 hR1 hR7 hR8 hR9 hR13 hi1 hi2 hi5 hr13
    by_cases hz : i = 0
    · rw [first hz h1] at hx; exact hx
    · rw [prev hz (by omega) h1 (by omega)] at hx; exact hx
  by_cases h0 : i = 10
  · -- the stop bit
    have hr13 := hR13 (hr13 h0)
    clear hR0 hR7 hR8 hR9 hR13 hi1 hi2 hi5
    refine symbol_of_quiet hl ?_ (fun _ => by rw [h0]; exact h10)
    by_cases c : s + iT ≤ τ
    · rw [here c (by omega), h0, h10] at hx
      split at hx <;> exact hx
    · by_cases hr0 : r = 0
      · exact early hr0 (by omega)
      · have := hR1 (by omega)
        rw [prev (by omega) (by omega) (by omega) (by omega)] at hx; exact hx
  have hi1 := hi1 (by omega); have hi2 := hi2 (by omega)
  by_cases r0 : r = 0
  · have := hR0 r0
    clear hR0 hR1 hR7 hR8 hR9 hR13 hi5 hr13
    by_cases c : s + iT ≤ τ
    · rw [here c (by omega), if_pos (by omega)] at hx
      exact symbol_of_sample hl hx (by omega)
    · exact symbol_of_quiet hl (early r0 (by omega)) (fun h => by omega)
  by_cases r7 : r ≤ 7
  · have h1 := hR1 (by omega); have h7 := hR7 r7
    clear hR0 hR1 hR7 hR8 hR9 hR13 hi5 hr13 hi3 hi4
    rw [here (by omega) (by omega), if_pos (by omega)] at hx
    exact symbol_of_sample hl hx (by omega)
  by_cases r8 : r = 8
  · have h8 := hR8 r8
    clear hR0 hR1 hR7 hR8 hR9 hR13 hi5 hr13 hi3 hi4
    rw [here (by omega) (by omega)] at hx
    split at hx
    · exact symbol_of_sample hl hx (by omega)
    · exact symbol_of_quiet hl hx (fun h => by omega)
  · have h9 := hR9 (by omega)
    clear hR0 hR1 hR7 hR8 hR9 hR13 hr13 hi3 hi4
    by_cases c : τ < s + iT + T
    · rw [here (by omega) c, if_neg (by omega)] at hx
      exact symbol_of_quiet hl hx (fun h => by omega)
    · by_cases h9' : i = 9
      · rw [next h9' (by omega) (by omega)] at hx
        exact symbol_of_quiet hl hx (fun h => by omega)
      · have := hi5 (by omega)
        omega

theorem Spaced.all {T D : Nat} : ∀ {bs : List (Nat × Bool × UInt8)} {t : Nat}, Spaced T D t bs → ∀ b ∈ bs, t ≤ b.1 := by
  intro bs
  induction bs with
  | nil => intro t _ b hb; cases hb
  | cons a bs ih =>
    intro t h b hb
    obtain ⟨s, p, u⟩ := a
    obtain ⟨h1, -, -, h4⟩ := h
    rcases List.mem_cons.mp hb with rfl | hb
    · exact h1
    · exact Nat.le_trans h1 (ih h4 b hb)

theorem Spaced.rest {T D s : Nat} {bs : List (Nat × Bool × UInt8)} (h3 : ∀ b ∈ bs.head?, s + 11 * T ≤ b.1) (h4 : Spaced T D s bs) :
    ∀ b ∈ bs, s + 11 * T ≤ b.1 := by
  intro b hb
  cases bs with
  | nil => cases hb
  | cons a bs =>
    have ha := h3 a rfl
    obtain ⟨s', p, u⟩ := a
    rcases List.mem_cons.mp hb with rfl | hb
    · exact ha
    · exact Nat.le_trans ha (Spaced.all h4.2.2.2 b hb)

theorem clock_carries {P T W dm dp wm wp : Nat} (hc : Drift P T W dm dp wm wp) {sh : Shape} (hl : sh.Loud) {x : Nat → Int} {M : Nat} :
    ∀ (bs : List (Nat × Bool × UInt8)) (s0 t : Nat), Spaced T (M * P) s0 bs → s0 ≤ t * P + (9 * dm + wm) → t * P + (9 * dm + wm) ≤ s0 + 175 * P →
      (∀ b ∈ bs.head?, t * P + (9 * dm + wm) < b.1 + P ∧ P ≤ b.1) →
      (∀ k, t ≤ k → sh.Sample (busLevel T W (byteFrames bs) (k * P)) (x k)) →
      ∃ bs' : List (Nat × Bool × UInt8), bs'.map Prod.snd = bs.map Prod.snd ∧ sh.Carries x t (byteFrames bs') ∧ (∀ b ∈ bs', b.1 ≤ M) ∧
        lastStart s0 bs ≤ lineEnd t (byteFrames bs') * P + (9 * dm + wm) ∧
        lineEnd t (byteFrames bs') * P + (9 * dm + wm) ≤ lastStart s0 bs + 175 * P := by
  obtain ⟨hP, hT, hW, hd⟩ := id hc
  intro bs
  induction bs with
  | nil =>
    intro s0 t _ h1 h2 _ hx
    exact ⟨[], rfl, fun k hk => hx k hk, (fun b hb => by cases hb), h1, h2⟩
  | cons a bs ih =>
    intro s0 t hs h1 h2 h3 hx
    obtain ⟨s, p, u⟩ := a
    obtain ⟨s1, s2, s3, s4⟩ := hs
    obtain ⟨h3, h3'⟩ := h3 _ rfl
    have hrest := Spaced.rest s3 s4
    dsimp only at h3 h3'
    -- the base of the frame
    obtain ⟨b, hb1, hb2⟩ : ∃ b, s ≤ b * P + (9 * dm + wm) ∧ b * P + (9 * dm + wm) < s + P := by
      refine ⟨(s - (9 * dm + wm) + (P - 1)) / P, ?_⟩
      have e1 := Nat.div_add_mod (s - (9 * dm + wm) + (P - 1)) P
      have e2 := Nat.mod_lt (s - (9 * dm + wm) + (P - 1)) hP
      rw [Nat.mul_comm] at e1
      generalize (s - (9 * dm + wm) + (P - 1)) / P * P = Q at *
      generalize (s - (9 * dm + wm) + (P - 1)) % P = Q' at *
      omega
    have hbt : t ≤ b := by
      by_cases h : t ≤ b
      · exact h
      · have := Nat.mul_le_mul_right P (show b + 1 ≤ t by omega)
        rw [Nat.succ_mul] at this
        omega
    have hgap : b - t ≤ M := by
      by_cases h : b ≤ t + M
      · omega
      · have := Nat.mul_le_mul_right P (show t + M + 1 ≤ b by omega)
        rw [Nat.succ_mul, Nat.add_mul] at this
        omega
    have hf : byteFrames ((s, p, u) :: bs) = (s, symbolsOf p u) :: byteFrames bs := rfl
    rw [hf] at hx
    have hn : ∀ f ∈ byteFrames bs, s + 11 * T ≤ f.1 := by
      intro f hf
      rw [byteFrames, List.mem_map] at hf
      obtain ⟨b, hb, rfl⟩ := hf
      exact hrest b hb
    have e174 : (b + 174) * P = b * P + 174 * P := Nat.add_mul _ _ _
    obtain ⟨bs', g1, g2, g3, g4, g5⟩ := ih s (b + 174) s4 (by omega) (by omega)
      (fun b' hb' => by
        have := s3 b' hb'
        omega)
      (fun k hk => by
        have hk' := Nat.mul_le_mul_right P hk
        have := hx k (by omega)
        generalize k * P = τ at this hk'
        by_cases c : s + 11 * T ≤ τ
        · rw [busLevel, if_neg (by omega)] at this
          exact this
        · rw [bus_in (i := 10) (by omega) (by omega) (by omega), symbolsOf_stop] at this
          rw [bus_before fun f hf => by have := hn f hf; omega]
          split at this <;> exact this)
    refine ⟨(b - t, p, u) :: bs', by simp [g1], ?_, ?_, ?_, ?_⟩
    · show (∀ k, t ≤ k → k < t + (b - t) → _) ∧ (∃ o o', EdgesOk o o' ∧ ∀ j, j < 174 → sh.Symbol (symbolsOf p u (j / 16)) (o (j / 16)) (o' (j / 16)) (j % 16) (x (t + (b - t) + j))) ∧
        sh.Carries x (t + (b - t) + 174) (byteFrames bs')
      rw [show t + (b - t) = b by omega]
      refine ⟨fun k hk1 hk2 => ?_, ⟨fun _ => 0, fun _ => 0, fun _ => ⟨Nat.le_refl _, Nat.zero_le _⟩, fun j hj => ?_⟩, g2⟩
      · have := hx k hk1
        have hk := Nat.mul_le_mul_right P (show k + 1 ≤ b by omega)
        rw [Nat.succ_mul] at hk
        rw [bus_before fun f hf => by
          rcases List.mem_cons.mp hf with rfl | hf
          · dsimp only; omega
          · have := hn f hf; omega] at this
        exact this
      · exact sampled_symbol hc hl (symbolsOf_stop _ _) hn hb1 hb2 hj (hx _ (by omega))
    · intro b' hb'
      rcases List.mem_cons.mp hb' with rfl | hb'
      · exact hgap
      · exact g3 b' hb'
    · show lastStart s bs ≤ lineEnd (t + (b - t) + 174) (byteFrames bs') * P + _
      rw [show t + (b - t) = b by omega]; exact g4
    · show lineEnd (t + (b - t) + 174) (byteFrames bs') * P + _ ≤ lastStart s bs + 175 * P
      rw [show t + (b - t) = b by omega]; exact g5

/-- **C107.** For every sequence of bytes, sent at any times and with any start polarities by a sender whose clock differs from that of
the receiver: if a bit takes `T` units of time, a pulse `W`, and a sample is taken every `P`, with `9 |T - 16 P| + |W - 8 P| ≤ P`
(some 0.66 % between ideal clocks), every sample is within the tolerance for the level of the bus at its time, and no frame starts
more than `M` samples after the previous one, the receiver delivers exactly the bytes, in order, without error. -/
theorem C107_bytes {S : Nat} (hS : 8 ≤ S) (err : Bool) {sh : Shape} (hl : sh.Loud) {P T W : Nat} (hc : ClockOk P T W) {x : Nat → Int} {M : Nat}
    (hM : M + 32 ≤ 2 ^ S) (bs : List (Nat × Bool × UInt8)) (h0 : ∀ b ∈ bs.head?, P ≤ b.1) (hs : Spaced T (M * P) 0 bs)
    (hx : ∀ k, sh.Sample (busLevel T W (byteFrames bs) (k * P)) (x k)) {n : Nat} (hn : lastStart 0 bs + 184 * P ≤ n * P)
    (hn' : n * P ≤ lastStart 0 bs + M * P) :
    ∃ c l, feed (RxBack.step S err) RxBack.init x n = .ok (c, l) ∧ l.filterMap id = bs.map (fun b => (b.2.2, false)) := by
  obtain ⟨dm, dp, wm, wp, hd⟩ := hc.split
  have hP := hd.pos; have hsm := hd.small
  obtain ⟨bs', g1, g2, g3, g4, g5⟩ := clock_carries hd hl (M := M) bs 0 0 hs (by omega) (by omega) (fun b hb => by have := h0 b hb; omega)
    (fun k _ => hx k)
  obtain ⟨c, l, r1, r2⟩ := C102_bytes hS err hl.tol hM bs' g3 g2 (n := n)
    (by
      by_cases h : lineEnd 0 (byteFrames bs') + 9 ≤ n
      · exact h
      · have := Nat.mul_le_mul_right P (show n + 1 ≤ lineEnd 0 (byteFrames bs') + 9 by omega)
        rw [Nat.succ_mul, Nat.add_mul] at this
        omega)
    (by
      by_cases h : n ≤ lineEnd 0 (byteFrames bs') + 9 + M
      · exact h
      · have := Nat.mul_le_mul_right P (show lineEnd 0 (byteFrames bs') + 9 + M + 1 ≤ n by omega)
        rw [Nat.succ_mul, Nat.add_mul, Nat.add_mul] at this
        omega)
  refine ⟨c, l, r1, r2.trans ?_⟩
  have e : ∀ l : List (Nat × Bool × UInt8), l.map (fun b => (b.2.2, false)) = (l.map Prod.snd).map fun q => (q.2, false) := by
    intro l; rw [List.map_map]; rfl
  rw [e, e, g1]

/-- The clocks of the device: a bit takes 5000 cycles of the ADC clock; the divider asked for is `48000000 / (9600 * 32) = 156` (adc.cpp:67),
and the detector gets every second code.  Both readings of the divider (a conversion every 156 or every 157 cycles) are in the tolerance. -/
example : ClockOk (2 * (48000000 / (9600 * 32))) 5000 2500 ∧ ClockOk (2 * (48000000 / (9600 * 32) + 1)) 5000 2500 :=
  ⟨⟨by decide, by decide⟩, ⟨by decide, by decide⟩⟩

def loudShape : Shape := { lo := 3000, hi := 3600, edge := 3600, quiet := 150 }

/-- Two bytes, sent at odd times. -/
def clockBytes : List (Nat × Bool × UInt8) := [(10001, true, 0x5A), (70007, false, 0xFF)]

/-- The samples of the bus at 3300 mV. -/
def clockLine (k : Nat) : Int := 3300 * (match busLevel 5000 2500 (byteFrames clockBytes) (k * 314) with | .mid => 0 | .up => 1 | .down => -1)

/-- The hypotheses of C107 hold for it. -/
example : loudShape.Loud ∧ 1000 + 32 ≤ 2 ^ 16 ∧ (∀ b ∈ clockBytes.head?, 314 ≤ b.1) ∧ Spaced 5000 (1000 * 314) 0 clockBytes ∧
    (∀ k, loudShape.Sample (busLevel 5000 2500 (byteFrames clockBytes) (k * 314)) (clockLine k)) ∧
    lastStart 0 clockBytes + 184 * 314 ≤ 410 * 314 ∧ 410 * 314 ≤ lastStart 0 clockBytes + 1000 * 314 := by
  refine ⟨⟨?_, ?_, ?_, rfl, ?_, ?_, ?_, ?_, ?_⟩, by decide, ?_, ⟨by decide, by decide, ?_, by decide, by decide, ?_, trivial⟩, fun k => ?_, by decide, by decide⟩
  all_goals try (show (_ : Int) ≤ _; decide)
  all_goals try (show (_ : Int) < _; decide)
  · intro b hb; cases hb; decide
  · intro b hb; cases hb; decide
  · intro b hb; cases hb
  · unfold clockLine
    cases busLevel 5000 2500 (byteFrames clockBytes) (k * 314) <;> exact ⟨by decide, by decide⟩

end P1P2
