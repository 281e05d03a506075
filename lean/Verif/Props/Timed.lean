import Verif.Spec.Timed
import Verif.Props.Clock
import Verif.Props.Packets
/-!
# C108: a sender with its own clock, up to the lines for the host

`packetLevel`, `RawClockOk`, `BusPacket.TimeOk`: `Verif/Spec/Timed.lean`.
-/
namespace P1P2

/-- Rounded up quotient. -/
def ceilDiv (x P : Nat) : Nat := (x + (P - 1)) / P

theorem ceilDiv_le {x P : Nat} (hP : 0 < P) (k : Nat) : ceilDiv x P ≤ k ↔ x ≤ k * P := by
  unfold ceilDiv
  rw [← Nat.lt_succ_iff, Nat.div_lt_iff_lt_mul hP, Nat.succ_mul]
  omega

theorem lt_ceilDiv {x P : Nat} (hP : 0 < P) (k : Nat) : k < ceilDiv x P ↔ k * P < x := by
  have := ceilDiv_le (x := x) hP k
  omega

theorem ceilDiv_mul {x P : Nat} (hP : 0 < P) : x ≤ ceilDiv x P * P ∧ ceilDiv x P * P < x + P := by
  refine ⟨(ceilDiv_le hP _).mp (Nat.le_refl _), ?_⟩
  by_cases h : ceilDiv x P = 0
  · rw [h]; omega
  · have := (lt_ceilDiv (x := x) hP (ceilDiv x P - 1)).mp (by omega)
    have e := Nat.succ_mul (ceilDiv x P - 1) P
    rw [Nat.succ_eq_add_one, show ceilDiv x P - 1 + 1 = ceilDiv x P by omega] at e
    omega

/-- The deviations split into too short and too long. -/
structure RawDrift (P T W dm dp wm : Nat) : Prop where
  pos : 0 < P
  bit : T + dm = 32 * P + dp
  width : W + wm = 16 * P
  small : 9 * dm + 9 * dp + wm ≤ 2 * P

theorem RawClockOk.split {P T W : Nat} (h : RawClockOk P T W) : ∃ dm dp wm, RawDrift P T W dm dp wm := by
  obtain ⟨h1, h3, h4⟩ := h
  exact ⟨32 * P - T, T - 32 * P, 16 * P - W, h1, by omega, by omega, by omega⟩

/-- The code that counts as the start of a frame that starts at time `s`. -/
def frameBase (P m s : Nat) : Nat := ceilDiv (s - m) P

/-- The delays of the pulse of symbol `i`. -/
def startDelay (P T s b i : Nat) : Nat := if i < 10 then ceilDiv (s + i * T) P - (b + 32 * i) else 0
def endDelay (P T W s b i : Nat) : Nat := if i < 10 then ceilDiv (s + i * T + W) P - (b + 32 * i + 16) else 0

section
variable {P T W dm dp wm s b : Nat}

theorem delay_bounds (hc : RawDrift P T W dm dp wm) (hb1 : s ≤ b * P + (9 * dm + wm)) (hb2 : b * P + (9 * dm + wm) < s + P) {i : Nat} (hi : i < 10) :
    (b + 32 * i + 15) * P < s + i * T + W ∧ s + i * T ≤ (b + 32 * i + 2) * P := by
  obtain ⟨hP, hT, hW, hd⟩ := hc
  have e1 : (b + 32 * i + 15) * P = b * P + i * (32 * P) + 15 * P := by
    rw [Nat.add_mul, Nat.add_mul, Nat.mul_comm 32 i, Nat.mul_assoc]
  have e2 : (b + 32 * i + 2) * P = b * P + i * (32 * P) + 2 * P := by
    rw [Nat.add_mul, Nat.add_mul, Nat.mul_comm 32 i, Nat.mul_assoc]
  have hit : i * T + i * dm = i * (32 * P) + i * dp := by
    rw [← Nat.mul_add, ← Nat.mul_add, hT]
  have hi3 : i * dm ≤ 9 * dm := Nat.mul_le_mul_right _ (by omega)
  have hi4 : i * dp ≤ 9 * dp := Nat.mul_le_mul_right _ (by omega)
  rw [e1, e2]
  omega

theorem delays_ok (hc : RawDrift P T W dm dp wm) (hb1 : s ≤ b * P + (9 * dm + wm)) (hb2 : b * P + (9 * dm + wm) < s + P) :
    DelaysOk (startDelay P T s b) (endDelay P T W s b) := by
  intro i
  unfold startDelay endDelay
  by_cases hi : i < 10
  · rw [if_pos hi, if_pos hi]
    obtain ⟨h1, h2⟩ := delay_bounds hc hb1 hb2 hi
    obtain ⟨hP, hT, hW, hd⟩ := hc
    have h1 := (lt_ceilDiv hP _).mpr h1
    have h2 := (ceilDiv_le hP _).mpr h2
    have h3 : ceilDiv (s + i * T + W) P ≤ ceilDiv (s + i * T) P + 16 := by
      rw [ceilDiv_le hP, Nat.add_mul]
      have := (ceilDiv_mul (x := s + i * T) hP).1
      omega
    omega
  · rw [if_neg hi, if_neg hi]; omega

/-- The codes of a frame. -/
theorem coded_symbol (hc : RawDrift P T W dm dp wm) (hb1 : s ≤ b * P + (9 * dm + wm)) (hb2 : b * P + (9 * dm + wm) < s + P)
    {σ : Nat → Level} {fs} (h10 : σ 10 = .mid) (hn : ∀ f ∈ fs, s + 11 * T ≤ f.1) {j : Nat} (hj : j < 348) :
    busLevel T W ((s, σ) :: fs) ((b + j) * P) =
      if startDelay P T s b (j / 32) ≤ j % 32 ∧ j % 32 < 16 + endDelay P T W s b (j / 32) then σ (j / 32) else .mid := by
  obtain ⟨i, r, hi, hr, hr27, rfl⟩ : ∃ i r, i < 11 ∧ r < 32 ∧ (i = 10 → r ≤ 27) ∧ j = 32 * i + r :=
    ⟨j / 32, j % 32, by omega, by omega, by omega, by omega⟩
  rw [show (32 * i + r) / 32 = i by omega, show (32 * i + r) % 32 = r by omega, show b + (32 * i + r) = b + 32 * i + r by omega]
  clear hj
  have hcond : i < 10 → ((startDelay P T s b i ≤ r ∧ r < 16 + endDelay P T W s b i) ↔
      (s + i * T ≤ (b + 32 * i + r) * P ∧ (b + 32 * i + r) * P < s + i * T + W)) := by
    intro hi
    obtain ⟨h1, -⟩ := delay_bounds hc hb1 hb2 hi
    rw [← ceilDiv_le hc.pos, ← lt_ceilDiv hc.pos]
    have h1 := (lt_ceilDiv hc.pos _).mpr h1
    unfold startDelay endDelay
    rw [if_pos hi, if_pos hi]
    omega
  obtain ⟨hP, hT, hW, hd⟩ := hc
  have hbefore : ∀ τ, τ < s → busLevel T W ((s, σ) :: fs) τ = .mid := by
    intro τ h
    refine bus_before fun f hf => ?_
    rcases List.mem_cons.mp hf with rfl | hf
    · exact h
    · have := hn f hf; omega
  have ht : (b + 32 * i + r) * P = b * P + i * (32 * P) + r * P := by
    rw [Nat.add_mul, Nat.add_mul, Nat.mul_comm 32 i, Nat.mul_assoc]
  have hit : i * T + i * dm = i * (32 * P) + i * dp := by
    rw [← Nat.mul_add, ← Nat.mul_add, hT]
  have hi3 : i * dm ≤ 10 * dm := Nat.mul_le_mul_right _ (by omega)
  have hi4 : i * dp ≤ 10 * dp := Nat.mul_le_mul_right _ (by omega)
  have hi5 : i ≤ 8 → i * dm + dm ≤ 9 * dm := fun h => by
    have := Nat.mul_le_mul_right dm (show i + 1 ≤ 9 by omega)
    rwa [Nat.succ_mul] at this
  have hpred : i ≠ 0 → (i - 1) * T + T = i * T := fun h => by
    rw [← Nat.succ_mul, Nat.succ_eq_add_one, show i - 1 + 1 = i by omega]
  have hsucc : (i + 1) * T = i * T + T := Nat.succ_mul _ _
  have hi0 : i = 0 → i * T = 0 := fun h => by rw [h]; omega
  have hR27 : r ≤ 27 → r * P ≤ 27 * P := fun h => Nat.mul_le_mul_right P h
  have hR31 : r * P ≤ 31 * P := Nat.mul_le_mul_right P (by omega)
  generalize hτ : (b + 32 * i + r) * P = τ at *
  generalize r * P = R at *
  generalize b * P = B at *
  generalize i * dm = im at *
  generalize i * dp = ip at *
  generalize i * (32 * P) = iP at *
  clear hτ
  have early : τ < s + i * T → busLevel T W ((s, σ) :: fs) τ = .mid := by
    intro h
    by_cases h0 : i = 0
    · exact hbefore _ (by have := hi0 h0; omega)
    · have := hpred h0
      rw [bus_in (i := i - 1) (by omega) (by omega) (by omega), if_neg (by omega)]
  by_cases h9 : i = 10
  · have hm : (if startDelay P T s b i ≤ r ∧ r < 16 + endDelay P T W s b i then σ i else .mid) = .mid := by
      rw [h9, h10]; split <;> rfl
    rw [hm]
    have := hR27 (hr27 h9)
    by_cases c : τ < s + i * T
    · exact early c
    · rw [bus_in (i := i) hi (by omega) (by omega), h9, h10]
      split <;> rfl
  · rw [show (if startDelay P T s b i ≤ r ∧ r < 16 + endDelay P T W s b i then σ i else .mid) =
      if s + i * T ≤ τ ∧ τ < s + i * T + W then σ i else .mid from by
        by_cases c : s + i * T ≤ τ ∧ τ < s + i * T + W
        · rw [if_pos c, if_pos ((hcond (by omega)).mpr c)]
        · rw [if_neg c, if_neg fun h => c ((hcond (by omega)).mp h)]]
    by_cases c : τ < s + i * T
    · rw [early c, if_neg (by omega)]
    · by_cases c2 : τ < s + i * T + T
      · rw [bus_in (i := i) hi (by omega) c2]
        by_cases c3 : τ < s + i * T + W
        · rw [if_pos c3, if_pos ⟨by omega, c3⟩]
        · rw [if_neg c3, if_neg (by omega)]
      · rw [if_neg (by omega)]
        by_cases h9' : i = 9
        · rw [bus_in (i := i + 1) (by omega) (by omega) (by omega), h9', h10]
          split <;> rfl
        · have := hi5 (by omega)
          omega

end

/-! ## Frames -/

/-- Gaps in codes: the line at code `R` and time `t`. -/
def recode {α : Type} (base : Nat → Nat) (T : Nat) : Nat → Nat → List (Nat × α) → List (Nat × α)
  | _, _, [] => []
  | R, t, (g, a) :: l => (base (t + g) - R, a) :: recode base T (base (t + g) + 348) (t + g + 11 * T) l

/-- The code after the last frame. -/
def recodeEnd {α : Type} (base : Nat → Nat) (T : Nat) : Nat → Nat → List (Nat × α) → Nat
  | R, _, [] => R
  | _, t, (g, _) :: l => recodeEnd base T (base (t + g) + 348) (t + g + 11 * T) l

theorem recode_append {α : Type} {base : Nat → Nat} {T : Nat} : ∀ (l m : List (Nat × α)) (R t : Nat),
    recode base T R t (l ++ m) = recode base T R t l ++ recode base T (recodeEnd base T R t l) (timesEnd T t l) m := by
  intro l
  induction l with
  | nil => intro m R t; rfl
  | cons a l ih => intro m R t; obtain ⟨g, a⟩ := a; simp only [List.cons_append, recode, recodeEnd, timesEnd, ih]

theorem recode_bytes {base : Nat → Nat} {T : Nat} : ∀ (l : List (Nat × Bool × UInt8)) (R t : Nat),
    (recode base T R t l).map Prod.snd = l.map Prod.snd := by
  intro l
  induction l with
  | nil => intro R t; rfl
  | cons a l ih => intro R t; obtain ⟨g, a⟩ := a; simp only [recode, List.map_cons, ih]

/-- Code and time belong together. -/
structure CodeTime (P m D R t : Nat) : Prop where
  le : R * P ≤ t - m
  ge : t ≤ R * P + D

/-- What is used of the base of a frame. -/
structure BaseAt (P m s b : Nat) : Prop where
  lo : s ≤ b * P + m
  hi : b * P + m < s + P

theorem frameBase_at {P m s : Nat} (hP : 0 < P) (h : m ≤ s) : BaseAt P m s (frameBase P m s) := by
  obtain ⟨h1, h2⟩ := ceilDiv_mul (x := s - m) hP
  unfold frameBase
  exact ⟨by omega, by omega⟩

section
variable {P T W dm dp wm : Nat}

theorem CodeTime.base {m D R t s : Nat} (hP : 0 < P) (h : CodeTime P m D R t) (hs : t ≤ s) (hm : m ≤ s) : R ≤ frameBase P m s := by
  have h1 := h.le
  have h2 := (frameBase_at hP hm).lo
  refine Nat.le_of_mul_le_mul_right (c := P) ?_ hP
  omega

theorem CodeTime.next (hc : RawDrift P T W dm dp wm) {m D s : Nat} (hm : m = 9 * dm + wm) (hD : D = m + 4 * P + 11 * dp) (hs : m ≤ s) :
    CodeTime P m D (frameBase P m s + 348) (s + 11 * T) := by
  obtain ⟨hP, hT, hW, hd⟩ := hc
  obtain ⟨h1, h2⟩ := frameBase_at hP hs
  constructor
  · rw [Nat.add_mul]; omega
  · rw [Nat.add_mul]; omega

theorem timed_carries (hc : RawDrift P T W dm dp wm) {m D : Nat} (hm : m = 9 * dm + wm) (hD : D = m + 4 * P + 11 * dp) {L : Nat → Level} :
    ∀ (bs : List (Nat × Bool × UInt8)) (R t : Nat), CodeTime P m D R t → (∀ b ∈ bs.head?, m ≤ t + b.1) →
      (∀ k, R ≤ k → L k = busLevel T W (byteFrames (frameTimes T t bs)) (k * P)) →
      RawCarries L R (byteFrames (recode (frameBase P m) T R t bs)) := by
  have hP := hc.pos
  intro bs
  induction bs with
  | nil => intro R t _ _ hL k hk; exact hL k hk
  | cons a bs ih =>
    intro R t hct hs hL
    obtain ⟨g, p, u⟩ := a
    have hs : m ≤ t + g := hs _ rfl
    have hRb := hct.base hP (Nat.le_add_right t g) hs
    obtain ⟨b1, b2⟩ := frameBase_at hP hs
    have hnext := CodeTime.next hc hm hD hs
    have hf : byteFrames (frameTimes T t ((g, p, u) :: bs)) = (t + g, symbolsOf p u) :: byteFrames (frameTimes T (t + g + 11 * T) bs) := rfl
    rw [hf] at hL
    have hall : ∀ (l : List (Nat × Bool × UInt8)) (t : Nat), ∀ f ∈ byteFrames (frameTimes T t l), t ≤ f.1 := by
      intro l
      induction l with
      | nil => intro t f hf; cases hf
      | cons a l ih =>
        intro t f hf
        obtain ⟨g, a⟩ := a
        rcases List.mem_cons.mp hf with rfl | hf
        · exact Nat.le_add_right _ _
        · have := ih _ f hf; omega
    have hn := hall bs (t + g + 11 * T)
    have := ih (frameBase P m (t + g) + 348) (t + g + 11 * T) hnext (fun b _ => by omega) (fun k hk => by
      rw [hL k (by omega)]
      have hk' := Nat.mul_le_mul_right P hk
      rw [Nat.add_mul] at hk'
      obtain ⟨-, hT, hW, hd⟩ := hc
      generalize k * P = τ at *
      by_cases c : t + g + 11 * T ≤ τ
      · rw [busLevel, if_neg (by omega)]
      · rw [bus_in (i := 10) (by omega) (by omega) (by omega), symbolsOf_stop,
          bus_before fun f hf => by have := hn f hf; omega]
        split <;> rfl)
    show (∀ k, R ≤ k → k < R + (frameBase P m (t + g) - R) → _) ∧
      (∃ δ ε, DelaysOk δ ε ∧ ∀ j, j < 348 → L (R + (frameBase P m (t + g) - R) + j) = _) ∧
      RawCarries L (R + (frameBase P m (t + g) - R) + 348) (byteFrames (recode (frameBase P m) T (frameBase P m (t + g) + 348) (t + g + 11 * T) bs))
    rw [show R + (frameBase P m (t + g) - R) = frameBase P m (t + g) by omega]
    subst hm
    refine ⟨fun k hk1 hk2 => ?_, ⟨_, _, delays_ok hc b1 b2, fun j hj => ?_⟩, this⟩
    · rw [hL k hk1]
      have hk := Nat.mul_le_mul_right P (show k + 1 ≤ _ from hk2)
      rw [Nat.succ_mul] at hk
      exact bus_before fun f hf => by
        rcases List.mem_cons.mp hf with rfl | hf
        · dsimp only; omega
        · have := hn f hf; omega
    · rw [hL _ (by omega)]
      exact coded_symbol hc b1 b2 (symbolsOf_stop _ _) hn hj

/-- Code and time after the last frame. -/
theorem recode_end (hc : RawDrift P T W dm dp wm) {m D : Nat} (hm : m = 9 * dm + wm) (hD : D = m + 4 * P + 11 * dp) :
    ∀ (bs : List (Nat × Bool × UInt8)) (R t : Nat), CodeTime P m D R t → (∀ b ∈ bs.head?, m ≤ t + b.1) →
      CodeTime P m D (recodeEnd (frameBase P m) T R t bs) (timesEnd T t bs) ∧
        rawEnd R (byteFrames (recode (frameBase P m) T R t bs)) = recodeEnd (frameBase P m) T R t bs := by
  intro bs
  induction bs with
  | nil => intro R t h _; exact ⟨h, rfl⟩
  | cons a bs ih =>
    intro R t h hs
    obtain ⟨g, p, u⟩ := a
    have hs : m ≤ t + g := hs _ rfl
    have hRb := h.base hc.pos (Nat.le_add_right t g) hs
    obtain ⟨i1, i2⟩ := ih _ _ (CodeTime.next hc hm hD hs) (fun b _ => by omega)
    refine ⟨i1, ?_⟩
    show rawEnd (R + (frameBase P m (t + g) - R) + 348) _ = _
    rw [show R + (frameBase P m (t + g) - R) = frameBase P m (t + g) by omega]
    exact i2

/-- Every gap gets longer by less than eight codes. -/
theorem recode_le (hc : RawDrift P T W dm dp wm) {m D M : Nat} (hm : m = 9 * dm + wm) (hD : D = m + 4 * P + 11 * dp) :
    ∀ (bs : List (Nat × Bool × UInt8)) (R t : Nat), CodeTime P m D R t → (∀ b ∈ bs.head?, m ≤ t + b.1) → (∀ b ∈ bs, b.1 ≤ M * P) →
      ∀ b ∈ recode (frameBase P m) T R t bs, b.1 ≤ M + 9 := by
  intro bs
  induction bs with
  | nil => intro R t _ _ _ b hb; cases hb
  | cons a bs ih =>
    intro R t h hs hM b hb
    have h0 := hM a (List.mem_cons_self ..)
    obtain ⟨g, p, u⟩ := a
    have hs : m ≤ t + g := hs _ rfl
    rcases List.mem_cons.mp hb with rfl | hb
    · have hRb := h.base hc.pos (Nat.le_add_right t g) hs
      obtain ⟨b1, b2⟩ := frameBase_at hc.pos hs
      have h1 := h.ge
      have h2 := hc.small
      have h3 := hc.pos
      dsimp only at h0 ⊢
      by_cases c : frameBase P m (t + g) - R ≤ M + 9
      · exact c
      · have := Nat.mul_le_mul_right P (show R + (M + 9) ≤ frameBase P m (t + g) by omega)
        rw [Nat.add_mul, Nat.add_mul] at this
        omega
    · exact ih _ _ (CodeTime.next hc hm hD hs) (fun b _ => by omega) (fun b hb => hM b (List.mem_cons_of_mem _ hb)) b hb

theorem sum_shift {α : Type} (f : α → Nat) (c : Nat) : ∀ l : List α, (l.map fun a => f a + c).sum = (l.map f).sum + c * l.length := by
  intro l
  induction l with
  | nil => rfl
  | cons a l ih => simp only [List.map_cons, List.sum_cons, List.length_cons, Nat.mul_succ, ih]; omega

/-- The gaps of a packet add up. -/
theorem recode_sum (hc : RawDrift P T W dm dp wm) {m D : Nat} (hm : m = 9 * dm + wm) (hD : D = m + 4 * P + 11 * dp) :
    ∀ (l : List (Nat × Bool × UInt8)) (s : Nat), m ≤ s →
      ((recode (frameBase P m) T (frameBase P m s + 348) (s + 11 * T) l).map fun b => b.1 + 348).sum + frameBase P m s =
        frameBase P m (s + (l.map fun b => b.1 + 11 * T).sum) ∧
      (recode (frameBase P m) T (frameBase P m s + 348) (s + 11 * T) l).length = l.length := by
  intro l
  induction l with
  | nil => intro s _; exact ⟨by simp [recode], rfl⟩
  | cons a l ih =>
    intro s hs
    obtain ⟨g, a⟩ := a
    obtain ⟨i1, i2⟩ := ih (s + 11 * T + g) (by omega)
    have hb := (CodeTime.next hc hm hD hs).base hc.pos (Nat.le_add_right (s + 11 * T) g) (by omega)
    simp only [recode, List.map_cons, List.sum_cons, List.length_cons]
    refine ⟨?_, by omega⟩
    rw [show s + (g + 11 * T + (l.map fun b => b.1 + 11 * T).sum) = s + 11 * T + g + (l.map fun b => b.1 + 11 * T).sum by omega, ← i1]
    omega

/-- The packets with gaps in codes. -/
def recodePackets (base : Nat → Nat) (T : Nat) : Nat → Nat → List BusPacket → List BusPacket
  | _, _, [] => []
  | R, t, p :: ps =>
    { p with gap := base (t + p.gap) - R, rest := recode base T (base (t + p.gap) + 348) (t + p.gap + 11 * T) p.rest } ::
      recodePackets base T (recodeEnd base T R t p.frames) (timesEnd T t p.frames) ps

theorem recodePackets_frames {base : Nat → Nat} : ∀ (ps : List BusPacket) (R t : Nat),
    (recodePackets base T R t ps).flatMap BusPacket.frames = recode base T R t (ps.flatMap BusPacket.frames) := by
  intro ps
  induction ps with
  | nil => intro R t; rfl
  | cons p ps ih =>
    intro R t
    rw [recodePackets, List.flatMap_cons, List.flatMap_cons, recode_append, ih]
    rfl

theorem recodePackets_bytes {base : Nat → Nat} : ∀ (ps : List BusPacket) (R t : Nat),
    (recodePackets base T R t ps).map BusPacket.bytes = ps.map BusPacket.bytes := by
  intro ps
  induction ps with
  | nil => intro R t; rfl
  | cons p ps ih =>
    intro R t
    rw [recodePackets, List.map_cons, List.map_cons, ih]
    congr 1
    have h := congrArg (List.map Prod.snd) (recode_bytes (base := base) (T := T) p.rest (base (t + p.gap) + 348) (t + p.gap + 11 * T))
    simp only [List.map_map] at h
    exact congrArg (List.cons p.first) h

theorem recodePackets_ok (hc : RawDrift P T W dm dp wm) {m D : Nat} (hm : m = 9 * dm + wm) (hD : D = m + 4 * P + 11 * dp) :
    ∀ (ps : List BusPacket) (R t : Nat), CodeTime P m D R t → (R = 0 ∧ t = 0 ∨ R * P + m ≤ t) → (∀ p ∈ ps, p.TimeOk P T) →
      ∀ p ∈ recodePackets (frameBase P m) T R t ps, p.RawOk := by
  intro ps
  have hP := hc.pos
  have hsm := hc.small
  have hbit := hc.bit
  induction ps with
  | nil => intro R t _ _ _ p hp; cases hp
  | cons k ps ih =>
    intro R t h hRt hok p hp
    obtain ⟨g1, g2, g3⟩ := hok k (List.mem_cons_self ..)
    have hs : m ≤ t + k.gap := by omega
    obtain ⟨b1, b2⟩ := frameBase_at hP hs
    rcases List.mem_cons.mp hp with rfl | hp
    · refine ⟨?_, ?_, ?_⟩
      · show 350 ≤ frameBase P m (t + k.gap) - R
        by_cases c : R + 350 ≤ frameBase P m (t + k.gap)
        · omega
        · have := Nat.mul_le_mul_right P (show frameBase P m (t + k.gap) + 1 ≤ R + 350 by omega)
          rw [Nat.add_mul, Nat.add_mul] at this
          rcases hRt with ⟨h1, h2⟩ | hRt
          · subst h1 h2
            rw [Nat.zero_mul] at this
            omega
          · omega
      · show ((recode (frameBase P m) T (frameBase P m (t + k.gap) + 348) (t + k.gap + 11 * T) k.rest).map fun b => b.1 + 10).sum ≤ 345
        obtain ⟨s1, s2⟩ := recode_sum hc hm hD k.rest (t + k.gap) hs
        generalize recode (frameBase P m) T (frameBase P m (t + k.gap) + 348) (t + k.gap + 11 * T) k.rest = l at *
        have e1 := sum_shift (fun b : Nat × Bool × UInt8 => b.1) 348 l
        have e2 := sum_shift (fun b : Nat × Bool × UInt8 => b.1) 10 l
        have e3 := sum_shift (fun b : Nat × Bool × UInt8 => b.1) (11 * T) k.rest
        have e4 := sum_shift (fun b : Nat × Bool × UInt8 => b.1) (11 * T - 338 * P) k.rest
        have hsplit : 11 * T = 11 * T - 338 * P + 338 * P := by omega
        have e5 : (11 * T) * k.rest.length = (11 * T - 338 * P) * k.rest.length + 338 * (k.rest.length * P) := by
          rw [show 338 * (k.rest.length * P) = 338 * P * k.rest.length by rw [Nat.mul_comm k.rest.length, Nat.mul_assoc], ← Nat.add_mul, ← hsplit]
        obtain ⟨c1, c2⟩ := frameBase_at (s := t + k.gap + (k.rest.map fun b => b.1 + 11 * T).sum) hP (Nat.le_trans hs (Nat.le_add_right _ _))
        rw [← s1] at c2
        have h348 : ∀ x : Nat, (x + 348 * l.length + frameBase P m (t + k.gap)) * P = x * P + 348 * (k.rest.length * P) + frameBase P m (t + k.gap) * P := by
          intro x; rw [Nat.add_mul, Nat.add_mul, s2, Nat.mul_assoc]
        rw [e1, h348] at c2
        rw [e4] at g2
        rw [e3, e5] at c2
        rw [e2, s2]
        generalize (k.rest.map fun b => b.1).sum = X at *
        generalize (l.map fun b => b.1).sum = Y at *
        generalize (11 * T - 338 * P) * k.rest.length = Z at *
        by_cases c : Y + 10 * k.rest.length ≤ 345
        · exact c
        · have := Nat.mul_le_mul_right P (show 345 ≤ Y + 10 * k.rest.length by omega)
          rw [Nat.add_mul, Nat.mul_assoc] at this
          omega
      · intro b hb
        have hmem : b.2 ∈ (recode (frameBase P m) T (frameBase P m (t + k.gap) + 348) (t + k.gap + 11 * T) k.rest).map Prod.snd := List.mem_map.mpr ⟨b, hb, rfl⟩
        rw [recode_bytes, List.mem_map] at hmem
        obtain ⟨b', hb', e⟩ := hmem
        rw [← e]
        exact g3 b' hb'
    · have hend := (recode_end hc hm hD k.frames R t h (fun b hb => by
        have hb : (k.gap, k.pol, k.first) = b := Option.some.inj hb
        rw [← hb]; exact hs)).1
      refine ih _ _ hend (Or.inr ?_) (fun p hp => hok p (List.mem_cons_of_mem _ hp)) p hp
      have := hend.le
      have htl : ∀ (l : List (Nat × Bool × UInt8)) (t : Nat), t ≤ timesEnd T t l := by
        intro l
        induction l with
        | nil => intro t; exact Nat.le_refl _
        | cons a l ih => intro t; obtain ⟨g, a⟩ := a; have := ih (t + g + 11 * T); show t ≤ timesEnd T (t + g + 11 * T) l; omega
      have h2 : m ≤ timesEnd T t k.frames := by
        have := htl k.rest (t + k.gap + 11 * T)
        show m ≤ timesEnd T (t + k.gap + 11 * T) k.rest
        omega
      omega

end

/-! ## The theorems -/

/-- The level of the bus at each time, if it carries the given packets from time 0 on (gaps in units of time). -/
def packetLevel (T W : Nat) (ps : List BusPacket) : Nat → Level :=
  busLevel T W (byteFrames (frameTimes T 0 (ps.flatMap BusPacket.frames)))

/-- The packets as the ADC sees them. -/
theorem timed_packets {P T W : Nat} (hc : RawClockOk P T W) {M : Nat} (ps : List BusPacket) (hp : ∀ p ∈ ps, p.TimeOk P T)
    (hg : ∀ b ∈ ps.flatMap BusPacket.frames, b.1 ≤ M * P) :
    ∃ ps' : List BusPacket, ps'.map BusPacket.bytes = ps.map BusPacket.bytes ∧ (∀ p ∈ ps', p.RawOk) ∧
      (∀ b ∈ ps'.flatMap BusPacket.frames, b.1 ≤ M + 9) ∧
      RawCarries (fun k => packetLevel T W ps (k * P)) 0 (byteFrames (ps'.flatMap BusPacket.frames)) ∧
      rawEnd 0 (byteFrames (ps'.flatMap BusPacket.frames)) * P ≤ timesEnd T 0 (ps.flatMap BusPacket.frames) ∧
      timesEnd T 0 (ps.flatMap BusPacket.frames) ≤ rawEnd 0 (byteFrames (ps'.flatMap BusPacket.frames)) * P + 9 * P := by
  obtain ⟨dm, dp, wm, hd⟩ := hc.split
  have hP := hd.pos; have hsm := hd.small
  have h0 : CodeTime P (9 * dm + wm) (9 * dm + wm + 4 * P + 11 * dp) 0 0 := ⟨by omega, by omega⟩
  have hhead : ∀ b ∈ (ps.flatMap BusPacket.frames).head?, 9 * dm + wm ≤ 0 + b.1 := by
    intro b hb
    cases ps with
    | nil => cases hb
    | cons p ps =>
      have := (hp p (List.mem_cons_self ..)).gap
      have hb : (p.gap, p.pol, p.first) = b := Option.some.inj hb
      rw [← hb]
      dsimp only
      omega
  obtain ⟨e1, e2⟩ := recode_end hd rfl rfl (ps.flatMap BusPacket.frames) 0 0 h0 hhead
  refine ⟨recodePackets (frameBase P (9 * dm + wm)) T 0 0 ps, recodePackets_bytes ps 0 0,
    recodePackets_ok hd rfl rfl ps 0 0 h0 (Or.inl ⟨rfl, rfl⟩) hp, ?_, ?_, ?_, ?_⟩
  · rw [recodePackets_frames]
    exact recode_le hd rfl rfl _ 0 0 h0 hhead hg
  · rw [recodePackets_frames]
    exact timed_carries hd rfl rfl _ 0 0 h0 hhead fun k _ => rfl
  · rw [recodePackets_frames, e2]
    have := e1.le
    omega
  · rw [recodePackets_frames, e2]
    have := e1.ge
    omega

/-- **C108.** The sender has a clock of its own: a bit takes `T` units of time, a pulse `W`, the ADC takes a code every `P`, with
`9 |T - 32 P| + (16 P - W) ≤ 2 P` (0.69 % between ideal clocks), and packets start at any times.  If the bus carries the packets `ps` and nothing
else, every code is that of the level at its time up to an error of one, with an amplitude between 49 and 88 codes, then, for every schedule of DMA transfers
and iterations of the loop that keeps up, some 378 codes after the last packet the words for the other core are those of the packets,
in order and without anything else. -/
theorem C108_words {S : Nat} (hS : 8 ≤ S) (rxErr : Bool) {a c : Int} (h1 : 49 ≤ a) (h2 : a ≤ 88) {P T W : Nat} (hc : RawClockOk P T W) {M : Nat}
    (hM : M + 79 ≤ 2 * 2 ^ S) (ps : List BusPacket) (hp : ∀ p ∈ ps, p.TimeOk P T) (hg : ∀ b ∈ ps.flatMap BusPacket.frames, b.1 ≤ M * P)
    {q : Nat → UInt8} (hq : Codes a c (fun k => packetLevel T W ps (k * P)) q)
    (es : List (AdcEv × Bool)) (hk : keepsUp 254 0 0 (es.map Prod.fst))
    (hN : timesEnd T 0 (ps.flatMap BusPacket.frames) + 378 * P ≤ deliveries 0 0 (es.map Prod.fst) * P)
    (hN' : deliveries 0 0 (es.map Prod.fst) * P ≤ timesEnd T 0 (ps.flatMap BusPacket.frames) + M * P) :
    ∃ s outs, RxSystem.run S (RxSystem.init (fun _ => 0) rxErr) (scheduleEvents (fun k => Pio.sampleValue k (q k)) 0 0 es) = .ok (s, outs) ∧
      sent outs ++ (if s.core.word = .zero then [] else [s.core.word]) =
        (ps.flatMap fun p => wFree :: wBusy :: p.bytes.map wByte) ++ [wFree] := by
  obtain ⟨ps', p1, p2, p3, p4, p5, p6⟩ := timed_packets hc ps hp hg
  have hP := hc.pos
  obtain ⟨s, outs, r1, r2⟩ := C103_words hS rxErr h1 h2 hq (M := M + 9) (by omega) ps' p2 p3 p4 es hk
    (by
      refine Nat.le_of_mul_le_mul_right (c := P) ?_ hP
      rw [Nat.add_mul]
      omega)
    (by
      refine Nat.le_of_mul_le_mul_right (c := P) ?_ hP
      rw [Nat.add_mul, Nat.add_mul]
      omega)
  refine ⟨s, outs, r1, r2.trans ?_⟩
  have e : ∀ l : List BusPacket, l.flatMap (fun p => wFree :: wBusy :: p.bytes.map wByte) =
      (l.map BusPacket.bytes).flatMap fun b => wFree :: wBusy :: b.map wByte := by
    intro l; rw [List.flatMap_map]
  rw [e, e, p1]

/-- **C108, lines.** With packets of at most 31 bytes and the two cores interleaved in any way such that no word is dropped, all are taken, and the watchdog does not
report, the host is given exactly one line for each packet, in order, with status 0 and the bytes of the packet. -/
theorem C108_lines {S : Nat} (hS : 8 ≤ S) (rxErr : Bool) {a c : Int} (h1 : 49 ≤ a) (h2 : a ≤ 88) {P T W : Nat} (hc : RawClockOk P T W) {M : Nat}
    (hM : M + 79 ≤ 2 * 2 ^ S) (ps : List BusPacket) (hp : ∀ p ∈ ps, p.TimeOk P T ∧ p.bytes.length ≤ 31) (hg : ∀ b ∈ ps.flatMap BusPacket.frames, b.1 ≤ M * P)
    {q : Nat → UInt8} (hq : Codes a c (fun k => packetLevel T W ps (k * P)) q)
    (es : List (AdcEv × Bool)) (hk : keepsUp 254 0 0 (es.map Prod.fst))
    (hN : timesEnd T 0 (ps.flatMap BusPacket.frames) + 378 * P ≤ deliveries 0 0 (es.map Prod.fst) * P)
    (hN' : deliveries 0 0 (es.map Prod.fst) * P ≤ timesEnd T 0 (ps.flatMap BusPacket.frames) + M * P)
    (s : RxSystem) (outs : List C1Out)
    (hr : RxSystem.run S (RxSystem.init (fun _ => 0) rxErr) (scheduleEvents (fun k => Pio.sampleValue k (q k)) 0 0 es) = .ok (s, outs))
    (hs : s.core.word = .zero)
    (pf : Platform) (g : Nat → UInt8) (w0 : Word) (t0 t1 : Nat) (t : TwoCores) (xs : List TwoStep) (os : List TwoOut)
    (hx : pushes xs = sent outs) (h : (TwoCores.init g w0 t0 t1 false).run pf g xs = .ok (some (t, os))) (hd : drops os = 0) (ht : t.pc = .top)
    (hf : t.fifo = []) (h4 : ∀ m ∈ rxMsgs (reportsOf os), m.status ≠ 4) :
    (rxMsgs (reportsOf os)).map lineShown = ps.map fun p => (0, p.bytes) := by
  obtain ⟨s', outs', e1, e2⟩ := C108_words hS rxErr h1 h2 hc hM ps (fun p hp' => (hp p hp').1) hg hq es hk hN hN'
  rw [hr] at e1
  simp only [Res.ok.injEq, Prod.mk.injEq] at e1
  obtain ⟨rfl, rfl⟩ := e1
  rw [if_pos hs, List.append_nil] at e2
  have e3 : pushes xs = packetWords (ps.map BusPacket.bytes) := by
    rw [hx, e2]
    unfold packetWords
    rw [List.flatMap_map]
  have := C104_interleaved pf g w0 t0 t1 t xs os h hd ht hf _ e3 ?_ h4
  · rw [this, List.map_map]; rfl
  · intro p hp'
    obtain ⟨b, hb, rfl⟩ := List.mem_map.mp hp'
    refine ⟨?_, (hp b hb).2⟩
    simp [BusPacket.bytes]

/-! ## A case that meets the hypotheses: the clocks of the device, the packet 40 F0 -/

/-- A bit takes 5000 cycles of the ADC clock (48 MHz), a pulse half of it; the divider 156 (adc.cpp:67) means a conversion every 157 cycles. -/
example : RawClockOk (48000000 / (9600 * 32) + 1) 5000 2500 := ⟨by decide, by decide, by decide⟩

/-- Sent at an odd time. -/
def timedPacket : BusPacket := { gap := 60001, pol := true, first := 0x40, rest := [(100, true, 0xF0)] }

def timedCodes : Nat → UInt8 := codesOf fun k => packetLevel 5000 2500 [timedPacket] (k * 157)

example : ∃ s outs, RxSystem.run 32 (RxSystem.init (fun _ => 0) false) (scheduleEvents (fun k => Pio.sampleValue k (timedCodes k)) 0 0 (atOnceIdle 1500)) = .ok (s, outs) ∧
    s.core.word = .zero ∧ pushes handOver = sent outs ∧ handedOver handOver = some (0, true, 0, [(0, [0x40, 0xF0])]) := by
  obtain ⟨k1, k2⟩ := atOnceIdle_ok 1500 0 (by decide)
  obtain ⟨s, outs, e1, e2⟩ := C108_words (S := 32) (by decide) false (by decide) (by decide) (P := 157) (T := 5000) (W := 2500)
    ⟨by decide, by decide, by decide⟩ (M := 500) (by decide) [timedPacket]
    (by intro p hp; rw [List.mem_singleton] at hp; subst hp; exact ⟨by decide, by decide, by decide⟩) (by decide) (codesOf_ok _)
    (atOnceIdle 1500) k1 (by rw [k2]; decide) (by rw [k2]; decide)
  have e1 : RxSystem.run 32 (RxSystem.init (fun _ => 0) false) (scheduleEvents (fun k => Pio.sampleValue k (timedCodes k)) 0 0 (atOnceIdle 1500)) = .ok (s, outs) := e1
  have hr : SampleRange fun k => Pio.sampleValue k (timedCodes k) := fun k => C41_conversion k (timedCodes k)
  have h0 : SampleRange fun _ => 0 := fun _ => by show (-256 : Int) ≤ 0 ∧ (0 : Int) ≤ 255; decide
  obtain ⟨ad, e3⟩ := C101_samples (S := 32) (fun _ => 0) _ h0 hr false (atOnceIdle 1500) k1
  obtain ⟨is, e4⟩ := atOnceIdle_last 4992 (adcHist (fun _ => 0) fun k => Pio.sampleValue k (timedCodes k)) 1500 0
  rw [e1, e4] at e3
  have hz : s.core.word = .zero := by
    cases hcr : (Core1.init false).run 32 (is ++ [{ ready := true, adc := .none }]) with
    | ub => rw [hcr] at e3; cases e3
    | ok r =>
      rw [hcr] at e3
      simp only [Res.bind, Res.ok.injEq, Prod.mk.injEq] at e3
      rw [e3.1]
      exact Core1.idle_last is hcr
  refine ⟨s, outs, e1, hz, ?_, handOver_seen⟩
  rw [if_pos hz, List.append_nil] at e2
  rw [e2]; rfl

end P1P2
