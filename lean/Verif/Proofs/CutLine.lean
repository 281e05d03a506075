import Verif.Spec.Cut
import Verif.Proofs.HealSystem
/-!
# A line with a missing sample
-/
namespace P1P2

/-- Position before the loss of sample `j`. -/
def del (j i : Nat) : Nat := if i < j then i else i + 1

theorem del_lt {j i : Nat} (h : i < j) : del j i = i := by unfold del; rw [if_pos h]
theorem del_ge {j i : Nat} (h : j ≤ i) : del j i = i + 1 := by unfold del; rw [if_neg (by omega)]

/-- The millivolts, when the levels around the loss are the same. -/
theorem mv_del_flat {a : Int} {L : Nat → Level} {v : Nat → Int} {b J : Nat} (h : MvFrom a L v b) (hL : NoEdge L J) :
    MvFrom a (fun k => L (del J k)) (fun k => v (del J k)) b := by
  intro i hi
  dsimp only
  by_cases h1 : i + 2 < J
  · rw [del_lt h1, del_lt (show i + 1 < J by omega), del_lt (show i < J by omega)]
    exact h i hi
  · have e2 : L (del J (i + 1)) = L (i + 2) := by
      by_cases h2 : i + 1 < J
      · rw [del_lt h2, hL (i + 1) (by omega) (by omega), show i + 2 = J by omega]
      · rw [del_ge (by omega)]
    have e3 : L (del J i) = L (i + 1) := by
      by_cases h2 : i < J
      · rw [del_lt h2, hL i (by omega) (by omega), hL (i + 1) (by omega) (by omega)]
      · rw [del_ge (by omega)]
    rw [del_ge (show J ≤ i + 2 by omega), e2, e3]
    exact h (i + 1) (by omega)

/-! ## Frames -/

/-- The gap before, or in front of, the frame with code `J` is one code shorter. -/
def shave {α : Type} : Nat → Nat → List (Nat × α) → List (Nat × α)
  | _, _, [] => []
  | t, J, (g, a) :: l => if J < t + g + 348 then (g - 1, a) :: l else (g, a) :: shave (t + g + 348) J l

/-- Behind the loss everything is one code earlier. -/
theorem tight_shift {L L' : Nat → Level} : ∀ {fs : List (Nat × (Nat → Level))} {t : Nat}, TightCarries L (t + 1) fs →
    (∀ k, t ≤ k → L' k = L (k + 1)) → RawCarries L' t fs := by
  intro fs
  induction fs with
  | nil => intro t h h1 k hk; rw [h1 k hk]; exact h _ (by omega)
  | cons f fs ih =>
    obtain ⟨g, σ⟩ := f
    intro t ⟨_, c1, ⟨δ, ε, ho, c2⟩, c3⟩ h1
    refine ⟨fun k k1 k2 => by rw [h1 k k1]; exact c1 _ (by omega) (by omega), ⟨δ, ε, fun i => ?_, fun j hj => ?_⟩, ?_⟩
    · have := ho i
      omega
    · rw [h1 _ (by omega), show t + g + j + 1 = t + 1 + g + j by omega]; exact c2 j hj
    · refine ih (t := t + g + 348) ?_ (fun k hk => h1 k (by omega))
      rw [show t + g + 348 + 1 = t + 1 + g + 348 by omega]; exact c3

/-- Levels of a frame with a missing code (`j'` from the end of the first code of the gap). -/
theorem frame_del {L : Nat → Level} {t g J' : Nat} {σ : Nat → Level} {δ ε : Nat → Nat} (hg : 1 ≤ g) (c1 : ∀ k, t ≤ k → k < t + g → L k = .mid)
    (ho : ∀ i, ε i ≤ δ i ∧ δ i ≤ 1)
    (c2 : ∀ j, j < 348 → L (t + g + j) = if δ (j / 32) ≤ j % 32 ∧ j % 32 < 16 + ε (j / 32) then σ (j / 32) else .mid)
    (hJ1 : t ≤ J') (hJ2 : J' < t + g + 348) {j : Nat} (hj : j < 348) :
    L (del J' (t + (g - 1) + j)) = if δ (j / 32) + (if t + g + 32 * (j / 32) + δ (j / 32) ≤ J' then 1 else 0) ≤ j % 32 ∧
      j % 32 < 16 + (ε (j / 32) + (if t + g + 32 * (j / 32) + 16 + ε (j / 32) ≤ J' then 1 else 0)) then σ (j / 32) else .mid := by
  have hoj := ho (j / 32)
  by_cases hk : t + (g - 1) + j < J'
  · rw [del_lt hk]
    by_cases h0 : j = 0
    · subst h0
      rw [c1 _ (by omega) (by omega), if_neg]
      split <;> omega
    · have h := c2 (j - 1) (by omega)
      rw [show t + g + (j - 1) = t + (g - 1) + j by omega] at h
      rw [h]
      by_cases hr : j % 32 = 0
      · rw [if_neg (by have := ho ((j - 1) / 32); omega), if_neg (by split <;> omega)]
      · rw [show (j - 1) / 32 = j / 32 by omega]
        by_cases hc : δ (j / 32) ≤ (j - 1) % 32 ∧ (j - 1) % 32 < 16 + ε (j / 32)
        · rw [if_pos hc, if_pos]
          split <;> split <;> omega
        · rw [if_neg hc, if_neg]
          split <;> split <;> omega
  · rw [del_ge (by omega), show t + (g - 1) + j + 1 = t + g + j by omega, c2 j hj]
    by_cases hc : δ (j / 32) ≤ j % 32 ∧ j % 32 < 16 + ε (j / 32)
    · rw [if_pos hc, if_pos]
      split <;> split <;> omega
    · rw [if_neg hc, if_neg]
      split <;> split <;> omega

/-- The line with a missing sample. -/
theorem cut_line {L : Nat → Level} {J : Nat} : ∀ {fs : List (Nat × (Nat → Level))} {t : Nat}, TightCarries L t fs → t ≤ J →
    RawCarries (fun k => L (del J k)) t (shave t J fs) := by
  intro fs
  induction fs with
  | nil =>
    intro t hc htJ k hk
    refine hc _ ?_
    unfold del; split <;> omega
  | cons f fs ih =>
    obtain ⟨g, σ⟩ := f
    intro t ⟨hg, c1, ⟨δ, ε, ho, c2⟩, c3⟩ htJ
    unfold shave
    by_cases hJ : J < t + g + 348
    · rw [if_pos hJ]
      refine ⟨fun k k1 k2 => ?_, ⟨fun i => δ i + (if t + g + 32 * i + δ i ≤ J then 1 else 0), fun i => ε i + (if t + g + 32 * i + 16 + ε i ≤ J then 1 else 0), fun i => ?_,
        fun j hj => frame_del hg c1 ho c2 htJ hJ hj⟩, ?_⟩
      · dsimp only
        by_cases hk : k < J
        · rw [del_lt hk]; exact c1 k k1 (by omega)
        · rw [del_ge (by omega)]; exact c1 _ (by omega) (by omega)
      · have := ho i
        dsimp only
        refine ⟨?_, ?_⟩
        · split <;> split <;> omega
        · split <;> omega
      · refine tight_shift (L := L) (t := t + (g - 1) + 348) ?_ (fun k hk => ?_)
        · rw [show t + (g - 1) + 348 + 1 = t + g + 348 by omega]; exact c3
        · rw [del_ge (by omega)]
    · rw [if_neg hJ]
      refine ⟨fun k h1 h2 => ?_, ⟨δ, ε, fun i => ?_, fun j hj => ?_⟩, ih c3 (by omega)⟩
      · dsimp only
        rw [del_lt (by omega)]; exact c1 k h1 h2
      · have := ho i
        omega
      · dsimp only
        rw [del_lt (by omega)]; exact c2 j hj

/-- Shifted. -/
theorem TightCarries.shift {L : Nat → Level} (b : Nat) : ∀ {fs : List (Nat × (Nat → Level))} {t : Nat}, TightCarries L t fs →
    TightCarries (fun k => L (k - b)) (t + b) fs := by
  intro fs
  induction fs with
  | nil => intro t h k hk; exact h (k - b) (by omega)
  | cons f fs ih =>
    obtain ⟨g, σ⟩ := f
    intro t ⟨hg, c1, ⟨δ, ε, ho, c2⟩, c3⟩
    refine ⟨hg, fun k k1 k2 => c1 _ (by omega) (by omega), ⟨δ, ε, ho, fun j hj => ?_⟩, ?_⟩
    · dsimp only
      rw [show t + b + g + j - b = t + g + j by omega]; exact c2 j hj
    · have := ih c3
      rw [show t + b + g + 348 = t + g + 348 + b by omega]; exact this

theorem TightCarries.raw {L : Nat → Level} : ∀ {fs : List (Nat × (Nat → Level))} {t : Nat}, TightCarries L t fs → RawCarries L t fs := by
  intro fs
  induction fs with
  | nil => intro t h; exact h
  | cons f fs ih =>
    obtain ⟨g, σ⟩ := f
    intro t ⟨_, c1, ⟨δ, ε, ho, c2⟩, c3⟩
    exact ⟨c1, ⟨δ, ε, fun i => by have := ho i; omega, c2⟩, ih c3⟩

/-! ## Packets -/

theorem shave_frames : ∀ (bs : List (Nat × Bool × UInt8)) (t J : Nat), shave t J (byteFrames bs) = byteFrames (shave t J bs) := by
  intro bs
  induction bs with
  | nil => intro t J; rfl
  | cons b bs ih =>
    obtain ⟨g, x⟩ := b
    intro t J
    simp only [byteFrames, List.map_cons, shave]
    split
    · rfl
    · have := ih (t + g + 348) J
      unfold byteFrames at this
      rw [this]; rfl

/-- Behind the codes of the frames. -/
def bytesEnd : Nat → List (Nat × Bool × UInt8) → Nat
  | t, [] => t
  | t, (g, _) :: bs => bytesEnd (t + g + 348) bs

theorem bytesEnd_raw : ∀ (bs : List (Nat × Bool × UInt8)) (t : Nat), rawEnd t (byteFrames bs) = bytesEnd t bs := by
  intro bs
  induction bs with
  | nil => intro t; rfl
  | cons b bs ih => intro t; exact ih _

theorem bytesEnd_ge : ∀ (bs : List (Nat × Bool × UInt8)) (t : Nat), t ≤ bytesEnd t bs := by
  intro bs
  induction bs with
  | nil => intro t; exact Nat.le_refl _
  | cons b bs ih => intro t; have := ih (t + b.1 + 348); show t ≤ bytesEnd (t + b.1 + 348) bs; omega

theorem bytesEnd_succ : ∀ (bs : List (Nat × Bool × UInt8)) (t : Nat), bytesEnd (t + 1) bs = bytesEnd t bs + 1 := by
  intro bs
  induction bs with
  | nil => intro t; rfl
  | cons b bs ih =>
    intro t
    show bytesEnd (t + 1 + b.1 + 348) bs = bytesEnd (t + b.1 + 348) bs + 1
    rw [← ih]; congr 1; omega

theorem shave_append : ∀ (bs cs : List (Nat × Bool × UInt8)) (t J : Nat), t ≤ J → shave t J (bs ++ cs) =
    if J < bytesEnd t bs then shave t J bs ++ cs else bs ++ shave (bytesEnd t bs) J cs := by
  intro bs
  induction bs with
  | nil =>
    intro cs t J h
    show shave t J cs = if J < t then [] ++ cs else [] ++ shave t J cs
    rw [if_neg (by omega)]; rfl
  | cons b bs ih =>
    obtain ⟨g, x⟩ := b
    intro cs t J h
    have hge := bytesEnd_ge bs (t + g + 348)
    rw [List.cons_append, shave, shave]
    show _ = if J < bytesEnd (t + g + 348) bs then _ else _ :: bs ++ shave (bytesEnd (t + g + 348) bs) J cs
    by_cases h1 : J < t + g + 348
    · rw [if_pos h1, if_pos (by omega), if_pos h1]; rfl
    · rw [if_neg h1, ih _ _ _ (by omega), if_neg h1]
      split <;> rfl

theorem shave_mem {t J : Nat} : ∀ {bs : List (Nat × Bool × UInt8)} {t : Nat} {b : Nat × Bool × UInt8}, b ∈ shave t J bs → ∃ b', b' ∈ bs ∧ b.1 ≤ b'.1 ∧ b.2 = b'.2 := by
  intro bs
  induction bs with
  | nil => intro t b h; cases h
  | cons x bs ih =>
    obtain ⟨g, x⟩ := x
    intro t b h
    rw [shave] at h
    split at h
    · rcases List.mem_cons.mp h with rfl | h
      · exact ⟨_, List.mem_cons_self .., Nat.sub_le .., rfl⟩
      · exact ⟨b, List.mem_cons_of_mem _ h, Nat.le_refl _, rfl⟩
    · rcases List.mem_cons.mp h with rfl | h
      · exact ⟨_, List.mem_cons_self .., Nat.le_refl _, rfl⟩
      · obtain ⟨b', h1, h2⟩ := ih h
        exact ⟨b', List.mem_cons_of_mem _ h1, h2⟩

theorem shave_snd {J : Nat} : ∀ (bs : List (Nat × Bool × UInt8)) (t : Nat), (shave t J bs).map (fun b => b.2.2) = bs.map fun b => b.2.2 := by
  intro bs
  induction bs with
  | nil => intro t; rfl
  | cons x bs ih =>
    obtain ⟨g, x⟩ := x
    intro t
    rw [shave]
    split
    · rfl
    · rw [List.map_cons, ih]; rfl

theorem shave_sum {J : Nat} : ∀ (bs : List (Nat × Bool × UInt8)) (t : Nat), ((shave t J bs).map fun b => b.1 + 10).sum ≤ (bs.map fun b => b.1 + 10).sum := by
  intro bs
  induction bs with
  | nil => intro t; exact Nat.le_refl _
  | cons x bs ih =>
    obtain ⟨g, x⟩ := x
    intro t
    rw [shave]
    split
    · simp only [List.map_cons, List.sum_cons]; omega
    · have := ih (t + g + 348)
      simp only [List.map_cons, List.sum_cons]; omega

theorem shave_end {J : Nat} : ∀ {bs : List (Nat × Bool × UInt8)} {t : Nat}, (∀ b ∈ bs, 1 ≤ b.1) → t ≤ J →
    bytesEnd t (shave t J bs) + (if J < bytesEnd t bs then 1 else 0) = bytesEnd t bs := by
  intro bs
  induction bs with
  | nil => intro t _ h; show t + (if J < t then 1 else 0) = t; rw [if_neg (by omega)]; rfl
  | cons x bs ih =>
    obtain ⟨g, x⟩ := x
    intro t h1 h
    have hg : 1 ≤ g := h1 _ (List.mem_cons_self ..)
    have hge := bytesEnd_ge bs (t + g + 348)
    rw [shave]
    by_cases h2 : J < t + g + 348
    · rw [if_pos h2]
      show bytesEnd (t + (g - 1) + 348) bs + (if J < bytesEnd (t + g + 348) bs then 1 else 0) = bytesEnd (t + g + 348) bs
      rw [if_pos (by omega), ← bytesEnd_succ]
      congr 1; omega
    · rw [if_neg h2]
      exact ih (fun b hb => h1 b (List.mem_cons_of_mem _ hb)) (by omega)

theorem TightCarries.gaps {L : Nat → Level} : ∀ {bs : List (Nat × Bool × UInt8)} {t : Nat}, TightCarries L t (byteFrames bs) → ∀ b ∈ bs, 1 ≤ b.1 := by
  intro bs
  induction bs with
  | nil => intro t _ b hb; cases hb
  | cons x bs ih =>
    intro t ⟨h1, _, _, h2⟩ b hb
    rcases List.mem_cons.mp hb with rfl | hb
    · exact h1
    · exact ih h2 b hb

/-- The packets when code `J` is missing. -/
def shavePackets (J : Nat) : Nat → List BusPacket → List BusPacket
  | _, [] => []
  | t, p :: ps => if J < bytesEnd t p.frames then
      (if J < t + p.gap + 348 then { p with gap := p.gap - 1 } else { p with rest := shave (t + p.gap + 348) J p.rest }) :: ps
    else p :: shavePackets J (bytesEnd t p.frames) ps

theorem shavePackets_frames {J : Nat} : ∀ (ps : List BusPacket) (t : Nat), t ≤ J →
    (shavePackets J t ps).flatMap BusPacket.frames = shave t J (ps.flatMap BusPacket.frames) := by
  intro ps
  induction ps with
  | nil => intro t _; rfl
  | cons p ps ih =>
    intro t h
    rw [shavePackets, List.flatMap_cons, shave_append _ _ _ _ h]
    by_cases h1 : J < bytesEnd t p.frames
    · rw [if_pos h1, if_pos h1, List.flatMap_cons]
      congr 1
      show _ = shave t J ((p.gap, p.pol, p.first) :: p.rest)
      rw [shave]
      split <;> rfl
    · rw [if_neg h1, if_neg h1, List.flatMap_cons, ih _ (by omega)]

theorem shavePackets_bytes {J : Nat} : ∀ (ps : List BusPacket) (t : Nat), (shavePackets J t ps).map BusPacket.bytes = ps.map BusPacket.bytes := by
  intro ps
  induction ps with
  | nil => intro t; rfl
  | cons p ps ih =>
    intro t
    rw [shavePackets]
    split
    · rw [List.map_cons, List.map_cons]
      congr 1
      split
      · rfl
      · show p.first :: _ = p.first :: _
        rw [shave_snd]
    · rw [List.map_cons, List.map_cons, ih]

theorem shavePackets_ok {J : Nat} : ∀ {ps : List BusPacket} {t : Nat}, (∀ p ∈ ps, p.RawOk ∧ 351 ≤ p.gap) → ∀ p ∈ shavePackets J t ps, p.RawOk := by
  intro ps
  induction ps with
  | nil => intro t _ p hp; cases hp
  | cons x ps ih =>
    intro t h p hp
    have hx := h x (List.mem_cons_self ..)
    have ht : ∀ p ∈ ps, p.RawOk ∧ 351 ≤ p.gap := fun p hp => h p (List.mem_cons_of_mem _ hp)
    rw [shavePackets] at hp
    split at hp
    · rcases List.mem_cons.mp hp with rfl | hp
      · split
        · exact ⟨by show 350 ≤ x.gap - 1; omega, hx.1.rest, hx.1.pol⟩
        · refine ⟨hx.1.gap, Nat.le_trans (shave_sum _ _) hx.1.rest, fun b hb => ?_⟩
          obtain ⟨b', h1, -, h2⟩ := shave_mem (t := 0) hb
          rw [h2]
          exact hx.1.pol b' h1
      · exact (ht p hp).1
    · rcases List.mem_cons.mp hp with rfl | hp
      · exact hx.1
      · exact ih ht p hp

theorem shave_gap {n J t : Nat} {bs : List (Nat × Bool × UInt8)} (h : GapFrom (n + 1) bs) : GapFrom n (shave t J bs) := by
  cases bs with
  | nil => exact (fun f hf => by cases hf)
  | cons b bs =>
    obtain ⟨g, x⟩ := b
    have hg : n + 1 ≤ g := h _ rfl
    intro f hf
    rw [shave] at hf
    split at hf
    · obtain rfl : (g - 1, x) = f := by simpa using hf
      show n ≤ g - 1
      omega
    · obtain rfl : (g, x) = f := by simpa using hf
      show n ≤ g
      omega

end P1P2
