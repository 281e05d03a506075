import Verif.Proofs.Blocks
/-!
# Packets on a line from which silence is cut out
-/
namespace P1P2

/-- The same frames, with gaps that may be shorter, but not much too short. -/
def Shorter : List (Nat × Bool × UInt8) → List (Nat × Bool × UInt8) → Prop
  | [], [] => True
  | f :: fs, f' :: fs' => f'.2 = f.2 ∧ f'.1 ≤ f.1 ∧ (f'.1 = f.1 ∨ 350 ≤ f'.1) ∧ Shorter fs fs'
  | _, _ => False

theorem Shorter.refl : ∀ fs : List (Nat × Bool × UInt8), Shorter fs fs
  | [] => trivial
  | _ :: fs => ⟨rfl, Nat.le_refl _, Or.inl rfl, Shorter.refl fs⟩

theorem raw_sub {L : Nat → Level} (b : Nat) : ∀ {fs : List (Nat × (Nat → Level))} {t : Nat}, RawCarries L (b + t) fs → RawCarries (fun k => L (b + k)) t fs := by
  intro fs
  induction fs with
  | nil => intro t h k hk; exact h _ (by omega)
  | cons f fs ih =>
    obtain ⟨g, σ⟩ := f
    intro t ⟨c1, ⟨δ, ε, ho, c2⟩, c3⟩
    refine ⟨fun k k1 k2 => c1 _ (by omega) (by omega), ⟨δ, ε, ho, fun j hj => ?_⟩, ?_⟩
    · have := c2 j hj
      rw [← this]
      dsimp only
      congr 1
      omega
    · refine ih (t := t + g + 348) ?_
      rw [show b + (t + g + 348) = b + t + g + 348 by omega]; exact c3

/-- The codes from `d` on are those of another line. -/
theorem splice {L N : Nat → Level} {d B X : Nat} (hdB : d < B) (hs : ∀ j, d ≤ j + 700 → j < B + 2 → L j = .mid)
    (hN : ∀ gs, RawCarries (fun k => L (B + k)) 0 (byteFrames gs) → ∃ gs', RawCarries N 0 (byteFrames gs') ∧ Shorter gs gs' ∧ bytesEnd 0 gs' ≤ bytesEnd 0 gs ∧
      bytesEnd 0 gs ≤ bytesEnd 0 gs' + X) :
    ∀ (fs : List (Nat × Bool × UInt8)) {t : Nat}, RawCarries L t (byteFrames fs) → t + 350 ≤ d →
      ∃ fs', RawCarries (fun k => if k < d then L k else N (k - d)) t (byteFrames fs') ∧ Shorter fs fs' ∧ bytesEnd t fs' ≤ bytesEnd t fs ∧
        bytesEnd t fs ≤ bytesEnd t fs' + X + (B - d) := by
  intro fs
  induction fs with
  | nil =>
    intro t hc ht
    obtain ⟨gs', n1, n2, -, -⟩ := hN [] (fun k _ => hc _ (by omega))
    cases gs' with
    | cons g gs => exact n2.elim
    | nil =>
      refine ⟨[], fun k hk => ?_, trivial, Nat.le_refl _, by omega⟩
      dsimp only
      split
      · exact hc k hk
      · exact n1 _ (Nat.zero_le _)
  | cons f fs ih =>
    obtain ⟨g, p, b⟩ := f
    intro t ⟨c1, ⟨δ, ε, ho, c2⟩, c3⟩ ht
    by_cases hB : B ≤ t + g
    · have hgs : RawCarries (fun k => L (B + k)) 0 (byteFrames ((t + g - B, p, b) :: fs)) := by
        refine ⟨fun k _ k2 => ?_, ⟨δ, ε, ho, fun j hj => ?_⟩, ?_⟩
        · by_cases hk : k < 2
          · exact hs _ (by omega) (by omega)
          · exact c1 _ (by omega) (by omega)
        · have := c2 j hj
          rw [← this]
          dsimp only
          congr 1
          omega
        · refine raw_sub B ?_
          rw [show B + (0 + (t + g - B) + 348) = t + g + 348 by omega]; exact c3
      obtain ⟨gs', n1, n2, n3, n4⟩ := hN _ hgs
      cases gs' with
      | nil => exact n2.elim
      | cons f' gs' =>
        obtain ⟨g', x'⟩ := f'
        obtain ⟨e1, e2, e3, e4⟩ := n2
        dsimp only at e1 e2 e3
        subst e1
        obtain ⟨m1, ⟨δ', ε', mo, m2⟩, m3⟩ := n1
        refine ⟨(g' + (d - t), p, b) :: gs', ⟨fun k k1 k2 => ?_, ⟨δ', ε', mo, fun j hj => ?_⟩, ?_⟩, ⟨rfl, by dsimp only; omega, Or.inr (by dsimp only; omega), e4⟩, ?_, ?_⟩
        · dsimp only
          split
          · exact c1 k k1 (by omega)
          · exact m1 _ (Nat.zero_le _) (by omega)
        · have := m2 j hj
          rw [← this]
          dsimp only
          rw [if_neg (by omega)]
          congr 1
          omega
        · have := RawCarries.shift d m3
          rw [show t + (g' + (d - t)) + 348 = 0 + g' + 348 + d by omega]
          exact RawCarries.congr (fun k hk => if_neg (by omega)) this
        · have n3 : bytesEnd (0 + g' + 348) gs' ≤ bytesEnd (0 + (t + g - B) + 348) fs := n3
          show bytesEnd (t + (g' + (d - t)) + 348) gs' ≤ bytesEnd (t + g + 348) fs
          rw [show t + (g' + (d - t)) + 348 = 0 + g' + 348 + d by omega, show t + g + 348 = 0 + (t + g - B) + 348 + B by omega, bytesEnd_add d gs' (0 + g' + 348), bytesEnd_add B fs (0 + (t + g - B) + 348)]
          omega
        · have n4 : bytesEnd (0 + (t + g - B) + 348) fs ≤ bytesEnd (0 + g' + 348) gs' + X := n4
          show bytesEnd (t + g + 348) fs ≤ bytesEnd (t + (g' + (d - t)) + 348) gs' + X + (B - d)
          rw [show t + (g' + (d - t)) + 348 = 0 + g' + 348 + d by omega, show t + g + 348 = 0 + (t + g - B) + 348 + B by omega, bytesEnd_add d gs' (0 + g' + 348), bytesEnd_add B fs (0 + (t + g - B) + 348)]
          omega
    · have hst : L (t + g + 2) ≠ .mid := by
        have h0 := c2 2 (by decide)
        have h1 := ho (2 / 32)
        rw [if_pos (by omega)] at h0
        rw [h0, show 2 / 32 = 0 from rfl]
        show symbolsOf p b 0 ≠ .mid
        rw [symbolsOf_start]
        cases p <;> decide
      have hlt : t + g + 348 + 350 ≤ d := by
        by_cases h1 : d ≤ t + g + 2 + 700
        · exact absurd (hs _ h1 (by omega)) hst
        · omega
      obtain ⟨fs', i1, i2, i3, i4⟩ := ih (t := t + g + 348) c3 hlt
      refine ⟨(g, p, b) :: fs', ⟨fun k k1 k2 => ?_, ⟨δ, ε, ho, fun j hj => ?_⟩, i1⟩, ⟨rfl, Nat.le_refl _, Or.inl rfl, i2⟩, i3, i4⟩
      · dsimp only
        rw [if_pos (by omega)]
        exact c1 k k1 k2
      · dsimp only
        rw [if_pos (by omega)]
        exact c2 j hj

/-- The line that is heard. -/
theorem heard_line : ∀ {ds : List Nat} {L : Nat → Level}, (∀ d ∈ ds, adcBlock ≤ d + 255 ∧ d < adcBlock) → RestLoss L ds → ∀ fs, RawCarries L 0 (byteFrames fs) →
    ∃ fs', RawCarries (fun k => L (heardAt ds k)) 0 (byteFrames fs') ∧ Shorter fs fs' ∧ bytesEnd 0 fs' ≤ bytesEnd 0 fs ∧
      bytesEnd 0 fs ≤ bytesEnd 0 fs' + 255 * ds.length := by
  intro ds
  induction ds with
  | nil => intro L _ _ fs h; exact ⟨fs, h, Shorter.refl fs, Nat.le_refl _, Nat.le_add_right _ _⟩
  | cons d ds ih =>
    intro L hd ⟨h1, h2⟩ fs h
    have hB : 1000 ≤ adcBlock := by decide
    have hdd := hd d (List.mem_cons_self ..)
    obtain ⟨fs', k1, k2, k3, k4⟩ := splice (N := fun k => L (adcBlock + heardAt ds k)) hdd.2 h1
      (ih (L := fun k => L (adcBlock + k)) (fun d h => hd d (List.mem_cons_of_mem _ h)) h2) fs h (by omega)
    refine ⟨fs', RawCarries.congr (fun k _ => ?_) k1, k2, k3, ?_⟩
    · split
      · next hk => rw [heardAt_lt hk]
      · next hk => rw [heardAt_ge (by omega)]
    · rw [List.length_cons]
      omega

theorem RestLoss.flat : ∀ {ds : List Nat} {L : Nat → Level}, (∀ d ∈ ds, d < adcBlock) → RestLoss L ds → FlatLoss L ds := by
  intro ds
  induction ds with
  | nil => intro _ _ _; trivial
  | cons d ds ih =>
    intro L hd ⟨h1, h2⟩
    have := hd d (List.mem_cons_self ..)
    exact ⟨fun j j1 j2 => by rw [h1 j (by omega) (by omega), h1 d (by omega) (by omega)], ih (fun d h => hd d (List.mem_cons_of_mem _ h)) h2⟩

theorem Shorter.le {M : Nat} : ∀ {fs fs' : List (Nat × Bool × UInt8)}, Shorter fs fs' → (∀ b ∈ fs, b.1 ≤ M) → ∀ b ∈ fs', b.1 ≤ M
  | [], [], _, _, b, hb => by cases hb
  | [], _ :: _, h, _, _, _ => h.elim
  | _ :: _, [], h, _, _, _ => h.elim
  | f :: fs, f' :: fs', ⟨_, h2, _, h4⟩, h, b, hb => by
    rcases List.mem_cons.mp hb with rfl | hb
    · exact Nat.le_trans h2 (h f (List.mem_cons_self ..))
    · exact Shorter.le h4 (fun b hb => h b (List.mem_cons_of_mem _ hb)) b hb

/-- The frames of a packet, and those behind them. -/
theorem Shorter.split : ∀ (bs : List (Nat × Bool × UInt8)) {cs fs' : List (Nat × Bool × UInt8)}, Shorter (bs ++ cs) fs' →
    ∃ bs' cs', fs' = bs' ++ cs' ∧ Shorter bs bs' ∧ Shorter cs cs'
  | [], _, fs', h => ⟨[], fs', rfl, trivial, h⟩
  | _ :: _, _, [], h => h.elim
  | _ :: bs, _, f' :: fs', ⟨h1, h2, h3, h4⟩ => by
    obtain ⟨bs', cs', e, k1, k2⟩ := Shorter.split bs h4
    exact ⟨f' :: bs', cs', by rw [e]; rfl, ⟨h1, h2, h3, k1⟩, k2⟩

theorem Shorter.rest {p : Bool} : ∀ {bs bs' : List (Nat × Bool × UInt8)}, Shorter bs bs' → (bs'.map fun b => b.1 + 10).sum ≤ (bs.map fun b => b.1 + 10).sum ∧
    (bs'.map fun b => b.2.2) = (bs.map fun b => b.2.2) ∧ ((∀ b ∈ bs, b.2.1 = p) → ∀ b ∈ bs', b.2.1 = p)
  | [], [], _ => ⟨Nat.le_refl _, rfl, fun _ b hb => by cases hb⟩
  | [], _ :: _, h => h.elim
  | _ :: _, [], h => h.elim
  | f :: fs, f' :: fs', ⟨h1, h2, _, h4⟩ => by
    obtain ⟨k1, k2, k3⟩ := Shorter.rest (p := p) h4
    refine ⟨by simp only [List.map_cons, List.sum_cons]; omega, by rw [List.map_cons, List.map_cons, k2, h1], fun h b hb => ?_⟩
    rcases List.mem_cons.mp hb with rfl | hb
    · rw [h1]; exact h f (List.mem_cons_self ..)
    · exact k3 (fun b hb => h b (List.mem_cons_of_mem _ hb)) b hb

/-- They are those of packets with the same bytes. -/
theorem Shorter.packets : ∀ {ps : List BusPacket} {fs' : List (Nat × Bool × UInt8)}, (∀ p ∈ ps, p.RawOk) → Shorter (ps.flatMap BusPacket.frames) fs' →
    ∃ qs : List BusPacket, qs.flatMap BusPacket.frames = fs' ∧ (∀ p ∈ qs, p.RawOk) ∧ qs.map BusPacket.bytes = ps.map BusPacket.bytes
  | [], [], _, _ => ⟨[], rfl, (fun p hp => by cases hp), rfl⟩
  | [], _ :: _, _, h => h.elim
  | p :: ps, fs', hp, h => by
    rw [List.flatMap_cons] at h
    obtain ⟨bs', cs', rfl, k1, k2⟩ := Shorter.split _ h
    obtain ⟨qs, q1, q2, q3⟩ := Shorter.packets (fun p h => hp p (List.mem_cons_of_mem _ h)) k2
    have h0 := hp p (List.mem_cons_self ..)
    cases bs' with
    | nil => exact k1.elim
    | cons f' bs' =>
      obtain ⟨g', x'⟩ := f'
      obtain ⟨e1, e2, e3, e4⟩ := k1
      dsimp only at e1 e2 e3
      subst e1
      obtain ⟨r1, r2, r3⟩ := Shorter.rest (p := p.pol) e4
      refine ⟨{ gap := g', pol := p.pol, first := p.first, rest := bs' } :: qs, by rw [List.flatMap_cons, q1]; rfl, fun q hq => ?_, ?_⟩
      · rcases List.mem_cons.mp hq with rfl | hq
        · exact ⟨by have := h0.gap; dsimp only; omega, Nat.le_trans r1 h0.rest, r3 h0.pol⟩
        · exact q2 q hq
      · rw [List.map_cons, List.map_cons, q3]
        congr 1
        show p.first :: (bs'.map fun b => b.2.2) = p.first :: _
        rw [r2]

end P1P2
