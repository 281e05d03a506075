import Verif.Model.Dsp
/-!
# Lemmas about the signal chain
-/
namespace P1P2

/-- The register holds the window `w 0` (oldest) to `w (N-1)` (newest). -/
structure RegHolds {α : Type} (N : Nat) (d : Nat → α) (o : Nat) (w : Nat → α) : Prop where
  lt : o < N
  lo : ∀ i < N, d ((o + i) % N) = w i
  hi : ∀ i < N, d ((o + i) % N + N) = w i

theorem RegHolds.at {α : Type} {N : Nat} {d : Nat → α} {off : Nat} {w : Nat → α} (h : RegHolds N d off w) {i : Nat}
    (hi : i < N) : d (off + i) = w i := by
  have := h.lt
  by_cases hc : off + i < N
  · have := h.lo i hi
    rwa [Nat.mod_eq_of_lt hc] at this
  · have h2 := h.hi i hi
    have hm : (off + i) % N = off + i - N := by
      rw [Nat.mod_eq_sub_mod (by omega), Nat.mod_eq_of_lt (by omega)]
    rwa [hm, show off + i - N + N = off + i by omega] at h2

/-- The window after a new value. -/
def slide {α : Type} (N : Nat) (w : Nat → α) (x : α) : Nat → α := fun i => if i + 1 < N then w (i + 1) else x

theorem RegHolds.push {α : Type} {N : Nat} {d : Nat → α} {off : Nat} {w : Nat → α} (h : RegHolds N d off w) (x : α) :
    RegHolds N (upd (upd d off x) (off + N) x) (if off + 1 = N then 0 else off + 1) (slide N w x) := by
  have ho := h.lt
  have hN : 0 < N := by omega
  have hoff : (if off + 1 = N then 0 else off + 1) = (off + 1) % N := by
    split
    · rename_i he; rw [he, Nat.mod_self]
    · rw [Nat.mod_eq_of_lt (by omega)]
  have hmod : ∀ i, ((off + 1) % N + i) % N = (off + (i + 1)) % N := by
    intro i
    rw [Nat.mod_add_mod]; congr 1; omega
  have hlast : ∀ i < N, ¬ (i + 1 < N) → (off + (i + 1)) % N = off := by
    intro i hi hc
    have : i + 1 = N := by omega
    rw [this, Nat.add_mod_right, Nat.mod_eq_of_lt ho]
  have hne : ∀ i < N, i + 1 < N → (off + (i + 1)) % N ≠ off := by
    intro i hi hc heq
    by_cases hlt : off + (i + 1) < N
    · rw [Nat.mod_eq_of_lt hlt] at heq; omega
    · rw [Nat.mod_eq_sub_mod (by omega), Nat.mod_eq_of_lt (by omega)] at heq; omega
  have hlt : ∀ i, (off + (i + 1)) % N < N := fun i => Nat.mod_lt _ hN
  refine ⟨by rw [hoff]; exact Nat.mod_lt _ hN, ?_, ?_⟩
  · intro i hi
    rw [hoff, hmod, upd_other _ _ (by have := hlt i; omega)]
    unfold slide
    split
    · rename_i hc
      rw [upd_other _ _ (hne i hi hc), h.lo (i + 1) hc]
    · rename_i hc
      rw [hlast i hi hc, upd_same]
  · intro i hi
    rw [hoff, hmod]
    unfold slide
    split
    · rename_i hc
      rw [upd_other _ _ (by have := hne i hi hc; omega), upd_other _ _ (by have := hlt i; omega), h.hi (i + 1) hc]
    · rename_i hc
      rw [hlast i hi hc, upd_same]

theorem RegHolds.congr {α : Type} {N : Nat} {d : Nat → α} {off : Nat} {w w' : Nat → α} (h : RegHolds N d off w)
    (hw : ∀ i < N, w i = w' i) : RegHolds N d off w' :=
  ⟨h.lt, fun i hi => by rw [h.lo i hi, hw i hi], fun i hi => by rw [h.hi i hi, hw i hi]⟩

/-- A shift register that holds a window. -/
def ShiftReg.Win {α : Type} (N : Nat) (s : ShiftReg α) (w : Nat → α) : Prop := RegHolds N s.data s.off w

theorem ShiftReg.Win.mk' {α : Type} {N : Nat} (hN : 0 < N) (init : Nat → α) : Win N (ShiftReg.mk' N init) init := by
  refine ⟨hN, ?_, ?_⟩
  · intro i hi
    simp [ShiftReg.mk', Nat.mod_eq_of_lt hi, hi]
  · intro i hi
    simp [ShiftReg.mk', Nat.mod_eq_of_lt hi]
    omega

theorem ShiftReg.Win.zero {N : Nat} (hN : 0 < N) : Win N ShiftReg.zero (fun _ => 0) :=
  ⟨hN, fun _ _ => rfl, fun _ _ => rfl⟩

theorem ShiftReg.Win.get {α : Type} {N : Nat} {s : ShiftReg α} {w : Nat → α} (h : Win N s w) {i : Nat} (hi : i < N) :
    s.get N i = .ok (w i) := by
  have := h.lt
  rw [ShiftReg.get, if_pos hi, rd_of_lt _ (by omega), Nat.add_comm, RegHolds.at h hi]

theorem ShiftReg.Win.ptr {α : Type} {N : Nat} {s : ShiftReg α} {w : Nat → α} (h : Win N s w) {i : Nat} (hi : i < N) :
    s.ptr N i = .ok (w i) := by
  have := h.lt
  rw [ShiftReg.ptr, rd_of_lt _ (by omega), RegHolds.at h hi]

theorem ShiftReg.Win.update {α : Type} {N : Nat} {s : ShiftReg α} {w : Nat → α} (h : Win N s w) (x : α) :
    ∃ s', s.update N x = .ok s' ∧ Win N s' (slide N w x) := by
  have := h.lt
  refine ⟨⟨upd (upd s.data s.off x) (s.off + N) x, if s.off + 1 = N then 0 else s.off + 1⟩, ?_, RegHolds.push h x⟩
  simp only [ShiftReg.update]
  rw [wr_of_lt _ _ (by omega)]
  simp only [Res.ok_bind]
  rw [wr_of_lt _ _ (by omega)]
  rfl

theorem ShiftReg.Win.push {α : Type} {N : Nat} {s : ShiftReg α} {w : Nat → α} (h : Win N s w) (x : α) :
    ∃ s', s.push N x = .ok (s', w 0) ∧ Win N s' (slide N w x) := by
  have ho := h.lt
  refine ⟨⟨upd (upd s.data s.off x) (s.off + N) x, if s.off + 1 = N then 0 else s.off + 1⟩, ?_, RegHolds.push h x⟩
  simp only [ShiftReg.push]
  rw [rd_of_lt _ (by omega)]
  simp only [Res.ok_bind, ho, if_true]
  rw [wr_of_lt _ _ (by omega)]
  simp only [Res.ok_bind]
  rw [wr_of_lt _ _ (by omega)]
  have := RegHolds.at h (i := 0) (by omega)
  simp only [Nat.add_zero] at this
  simp only [Res.ok_bind, this]

/-! ## Sums -/

/-- Mathematical sum of `n` values from index `from'`. -/
def isum (f : Nat → Int) (from' : Nat) : Nat → Int
  | 0 => 0
  | n + 1 => f from' + isum f (from' + 1) n

theorem sumLoop_ok {g : Nat → Res Int} {f : Nat → Int} {B : Int} (hB : 0 ≤ B) : ∀ {n from' : Nat} {acc : Int},
    (∀ i, from' ≤ i → i < from' + n → g i = .ok (f i) ∧ -B ≤ f i ∧ f i ≤ B) →
    -2147483648 ≤ acc - n * B → acc + n * B ≤ 2147483647 →
    sumLoop g acc from' n = .ok (acc + isum f from' n) := by
  intro n
  induction n with
  | zero => intro from' acc _ _ _; simp [sumLoop, isum]
  | succ n ih =>
    intro from' acc h h1 h2
    obtain ⟨hg, hl, hu⟩ := h from' (Nat.le_refl _) (by omega)
    rw [Int.natCast_succ, Int.add_mul] at h1 h2
    have hnB : 0 ≤ (n : Int) * B := Int.mul_nonneg (by omega) hB
    simp only [sumLoop, hg, Res.ok_bind]
    rw [i32_ok (by omega) (by omega)]
    simp only [Res.ok_bind]
    rw [ih (fun i hi1 hi2 => h i (by omega) (by omega)) (by omega) (by omega), isum]
    congr 1; omega

theorem isum_bound {f : Nat → Int} {B : Int} : ∀ {n from' : Nat},
    (∀ i, from' ≤ i → i < from' + n → -B ≤ f i ∧ f i ≤ B) → -(n * B) ≤ isum f from' n ∧ isum f from' n ≤ n * B := by
  intro n
  induction n with
  | zero => intro _ _; simp [isum]
  | succ n ih =>
    intro from' h
    have h0 := h from' (Nat.le_refl _) (by omega)
    have := ih (from' := from' + 1) (fun i h1 h2 => h i (by omega) (by omega))
    rw [isum, Int.natCast_succ, Int.add_mul]
    omega

theorem isum_congr {f g : Nat → Int} : ∀ {n from' : Nat},
    (∀ i, from' ≤ i → i < from' + n → f i = g i) → isum f from' n = isum g from' n := by
  intro n
  induction n with
  | zero => intro _ _; rfl
  | succ n ih =>
    intro from' h
    rw [isum, isum, h from' (Nat.le_refl _) (by omega), ih (fun i h1 h2 => h i (by omega) (by omega))]

/-! ## Pulse detector -/

/-- absolute value as the code computes it -/
def iabs (x : Int) : Int := if x < 0 then -x else x

/-- The pulse correlation of a window of `N` samples. -/
def corr (N : Nat) (w : Nat → Int) : Int := isum w 1 (N / 2 - 1)

/-- The energy outside the pulse. -/
def outside (N : Nat) (w : Nat → Int) : Int :=
  iabs (w 0) + isum (fun i => iabs (w i)) (N / 2 + 2) (N - (N / 2 + 2))

/-- Output of the detector for a window. -/
def detect (N : Nat) (level : Int) (w : Nat → Int) : Int :=
  if corr N w - outside N w ≥ level then corr N w - outside N w
  else if -corr N w - outside N w ≥ level then corr N w + outside N w
  else 0

/-- The detector holds a window. -/
structure BitDetect.Win (N : Nat) (b : BitDetect) (w : Nat → Int) : Prop where
  data : RegHolds N b.data b.off w
  abs : RegHolds N b.dataAbs b.off (fun i => iabs (w i))

theorem BitDetect.Win.zero {N : Nat} (hN : 0 < N) (h l r : Nat) : Win N (BitDetect.init N h l r) (fun _ => 0) :=
  ⟨⟨hN, fun _ _ => rfl, fun _ _ => rfl⟩, ⟨hN, fun _ _ => rfl, fun _ _ => rfl⟩⟩

theorem BitDetect.main_level : BitDetect.main.level = 4921 := by decide

theorem iabs_nonneg (x : Int) : 0 ≤ iabs x := by unfold iabs; omega

theorem iabs_le {x B : Int} (h1 : -B ≤ x) (h2 : x ≤ B) : iabs x ≤ B := by unfold iabs; omega

theorem BitDetect.Win.update {b : BitDetect} {w : Nat → Int} (h : Win 16 b w) (x : Int)
    {B : Int} (hB : B ≤ 130000000) (hw : ∀ i < 16, -B ≤ w i ∧ w i ≤ B) (hx : -B ≤ x ∧ x ≤ B) :
    ∃ b', b.update 16 x = .ok (b', detect 16 b.level (slide 16 w x)) ∧ Win 16 b' (slide 16 w x) ∧
      b'.level = b.level := by
  have ho := h.data.lt
  have hB0 : 0 ≤ B := by omega
  have hs : ∀ i < 16, -B ≤ slide 16 w x i ∧ slide 16 w x i ≤ B := by
    intro i hi
    unfold slide
    split
    · exact hw _ (by omega)
    · exact hx
  have hd := h.data.push x
  have he := h.abs.push (iabs x)
  have hea : RegHolds 16 (upd (upd b.dataAbs b.off (iabs x)) (b.off + 16) (iabs x))
      (if b.off + 1 = 16 then 0 else b.off + 1) (fun i => iabs (slide 16 w x i)) :=
    he.congr (fun i _ => by simp only [slide]; split <;> rfl)
  refine ⟨{ b with data := upd (upd b.data b.off x) (b.off + 16) x,
                   dataAbs := upd (upd b.dataAbs b.off (iabs x)) (b.off + 16) (iabs x),
                   off := if b.off + 1 = 16 then 0 else b.off + 1 }, ?_, ⟨hd, hea⟩, rfl⟩
  generalize hoff : (if b.off + 1 = 16 then 0 else b.off + 1) = off' at hd hea
  generalize hD : upd (upd b.data b.off x) (b.off + 16) x = D at hd
  generalize hE : upd (upd b.dataAbs b.off (iabs x)) (b.off + 16) (iabs x) = E at hea
  generalize hW : slide 16 w x = W at hs hd hea
  have hsh : b.shiftIn 16 x = .ok { b with data := D, dataAbs := E, off := off' } := by
    have hax : i32 (if x < 0 then -x else x) = .ok (iabs x) := by
      unfold iabs; apply i32_ok <;> split <;> omega
    simp only [BitDetect.shiftIn, hax, Res.ok_bind, ho, if_true]
    rw [wr_of_lt _ _ (by omega)]; simp only [Res.ok_bind]
    rw [wr_of_lt _ _ (by omega)]; simp only [Res.ok_bind]
    rw [wr_of_lt _ _ (by omega)]; simp only [Res.ok_bind]
    rw [wr_of_lt _ _ (by omega)]; simp only [Res.ok_bind]
    rw [hoff, hD, hE]
  have ho' := hd.lt
  have hrd : ∀ i < 16, rd (2 * 16) D (off' + i) = .ok (W i) := fun i hi => by
    rw [rd_of_lt _ (by omega), hd.at hi]
  have hra : ∀ i < 16, rd (2 * 16) E (off' + i) = .ok (iabs (W i)) := fun i hi => by
    rw [rd_of_lt _ (by omega), hea.at hi]
  have habs : ∀ i < 16, 0 ≤ iabs (W i) ∧ iabs (W i) ≤ B := fun i hi =>
    ⟨iabs_nonneg _, iabs_le (hs i hi).1 (hs i hi).2⟩
  have h7 : (16 : Nat) / 2 - 1 = 7 := rfl
  have h10 : (16 : Nat) / 2 + 2 = 10 := rfl
  have h6 : (16 : Nat) - 10 = 6 := rfl
  have hhigh : sumLoop (fun i => rd (2 * 16) D (off' + i)) 0 1 7 = .ok (corr 16 W) := by
    rw [sumLoop_ok (f := W) hB0 (fun i h1 h2 => ⟨hrd i (by omega), hs i (by omega)⟩)]
    · rw [Int.zero_add]; rfl
    · show _ ≤ 0 - (7 : Int) * B; omega
    · show 0 + (7 : Int) * B ≤ _; omega
  have hcb := isum_bound (f := W) (B := B) (n := 7) (from' := 1) (fun i h1 h2 => hs i (by omega))
  have hob := isum_bound (f := fun i => iabs (W i)) (B := B) (n := 6) (from' := 10)
    (fun i h1 h2 => ⟨by have := (habs i (by omega)).1; show -B ≤ iabs (W i); omega, (habs i (by omega)).2⟩)
  have h0 := habs 0 (by omega)
  have hout : sumLoop (fun i => rd (2 * 16) E (off' + i)) (iabs (W 0)) 10 6 = .ok (outside 16 W) := by
    rw [sumLoop_ok (f := fun i => iabs (W i)) hB0 (fun i h1 h2 => ⟨hra i (by omega), by
      have := (habs i (by omega)).1; show -B ≤ iabs (W i); omega, (habs i (by omega)).2⟩)]
    · rfl
    · show _ ≤ _ - (6 : Int) * B; omega
    · show _ + (6 : Int) * B ≤ _; omega
  have hc' : -(7 * B) ≤ corr 16 W ∧ corr 16 W ≤ 7 * B := hcb
  have ho2 : outside 16 W = iabs (W 0) + isum (fun i => iabs (W i)) 10 6 := rfl
  have hob' : -(6 * B) ≤ isum (fun i => iabs (W i)) 10 6 ∧ isum (fun i => iabs (W i)) 10 6 ≤ 6 * B := hob
  simp only [BitDetect.update, hsh, Res.ok_bind, h7, h10, h6]
  rw [hra 0 (by omega)]
  simp only [Res.ok_bind, hhigh, hout]
  rw [i32_ok (by omega) (by omega)]
  simp only [Res.ok_bind]
  rw [i32_ok (by omega) (by omega)]
  simp only [Res.ok_bind]
  rw [i32_ok (by omega) (by omega)]
  simp only [Res.ok_bind]
  unfold detect
  split
  · rfl
  · split
    · rw [i32_ok (by omega) (by omega)]
      simp only [Res.ok_bind]
      congr 2; omega
    · rfl

end P1P2
