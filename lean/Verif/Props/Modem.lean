import Verif.Spec.Modem
import Verif.Props.Eye
import Verif.Props.Pio
/-!
# C112, C113: the frames in time, from one modem to another
-/
namespace P1P2
open Pio

/-! ## C112: when the frames start -/

theorem burst_getD (b : UInt8) (j : Nat) : (burst b).getD j (.mid, false) = if j < 173 then ((frameWave b).getD j .mid, true) else (.mid, false) := by
  unfold burst
  have hl : (((frameWave b).take frameCycles).map (fun l => (l, true))).length = 173 := by
    simp [frameWave_length, frameCycles]
  by_cases h : j < 173
  · rw [getD_append_left' (by omega), if_pos h]
    simp only [List.getD_eq_getElem?_getD, List.getElem?_map, List.getElem?_take, frameCycles, if_pos h]
    cases he : (frameWave b)[j]? with
    | none =>
      rw [List.getElem?_eq_none_iff, frameWave_length] at he
      omega
    | some v => rfl
  · rw [getD_append_right' (by omega), hl, if_neg h]
    cases h : j - 173 with
    | zero => rfl
    | succ n => rfl

theorem writesFrom_ge : ∀ (ps : List (Option UInt8)) (n : Nat), ∀ x ∈ writesFrom n ps, n ≤ x.1 := by
  intro ps
  induction ps with
  | nil => intro n x hx; cases hx
  | cons p ps ih =>
    intro n x hx
    cases p with
    | none => have := ih (n + 1) x hx; omega
    | some b =>
      rcases List.mem_cons.mp hx with rfl | hx
      · exact Nat.le_refl _
      · have := ih (n + 1) x hx; omega

theorem startsFrom_ge : ∀ (ws : List (Nat × UInt8)) (e : Nat), ∀ x ∈ startsFrom e ws, e ≤ x.1 := by
  intro ws
  induction ws with
  | nil => intro e x hx; cases hx
  | cons a ws ih =>
    intro e x hx
    obtain ⟨w, b⟩ := a
    rcases List.mem_cons.mp hx with rfl | hx
    · exact Nat.le_max_right ..
    · have := ih _ x hx
      have := Nat.le_max_right (w + 1) e
      omega

theorem wireAt_before : ∀ (ss : List (Nat × UInt8)) (k : Nat), (∀ x ∈ ss, k < x.1) → wireAt ss k = (.mid, false) := by
  intro ss
  cases ss with
  | nil => intro k _; rfl
  | cons a ss => intro k h; obtain ⟨s, b⟩ := a; exact if_pos (h (s, b) (List.mem_cons_self ..))

/-- Nothing to write before cycle `n + 1`: the earliest cycle does not matter. -/
theorem startsFrom_later {ws : List (Nat × UInt8)} {n : Nat} (h : ∀ x ∈ ws, n ≤ x.1) : startsFrom n ws = startsFrom (n + 1) ws := by
  cases ws with
  | nil => rfl
  | cons a ws =>
    obtain ⟨w, b⟩ := a
    have := h (w, b) (List.mem_cons_self ..)
    have e1 : max (w + 1) n = w + 1 := Nat.max_eq_left (by omega)
    have e2 : max (w + 1) (n + 1) = w + 1 := Nat.max_eq_left (by omega)
    show (max (w + 1) n, b) :: startsFrom (max (w + 1) n + 175) ws = (max (w + 1) (n + 1), b) :: startsFrom (max (w + 1) (n + 1) + 175) ws
    rw [e1, e2]

theorem tx_times : ∀ (ps : List (Option UInt8)) (n : Nat) (s : State) (r : TxRef) (q : List (Nat × UInt8)), Sim s r → paced uartTx s (ps.map putEnv) →
    r.fifo = q.map Prod.snd → (∀ x ∈ q, x.1 < n) → ∀ i, i < ps.length →
    (r.outputs ps)[i]? = some (if i < r.rest.length then r.rest.getD i (.mid, false) else
      wireAt (startsFrom (n + r.rest.length + 1) (q ++ writesFrom n ps)) (n + i)) := by
  intro ps
  induction ps with
  | nil => intro n s r q _ _ _ _ i hi; cases hi
  | cons p ps ih =>
    intro n s r q hs hp hq hw i hi
    obtain ⟨-, h2⟩ := hs.cycle p
    -- the queue after this cycle
    have hq' : ∃ q', TxRef.arrive r.fifo p = q'.map Prod.snd ∧ (∀ x ∈ q', x.1 < n + 1) ∧ q ++ writesFrom n (p :: ps) = q' ++ writesFrom (n + 1) ps := by
      cases p with
      | none => exact ⟨q, hq, fun x hx => by have := hw x hx; omega, rfl⟩
      | some b =>
        have h8 := hp.1 (by simp [putEnv])
        rw [hs.tx, List.length_map] at h8
        have h8 : r.fifo.length < 8 := h8
        refine ⟨q ++ [(n, b)], ?_, ?_, ?_⟩
        · show (if r.fifo.length < 8 then r.fifo ++ [b] else r.fifo) = _
          rw [if_pos h8, hq, List.map_append]; rfl
        · intro x hx
          rcases List.mem_append.mp hx with hx | hx
          · have := hw x hx; omega
          · rw [List.mem_singleton] at hx; subst hx; exact Nat.lt_succ_self _
        · rw [List.append_assoc]; rfl
    obtain ⟨q', e1, e2, e3⟩ := hq'
    rw [e3]
    cases hr : r.rest with
    | cons o rest =>
      have hc : r.cycle p = (o, { rest := rest, fifo := TxRef.arrive r.fifo p }) := by simp only [TxRef.cycle, hr]
      rw [hc] at h2
      cases i with
      | zero =>
        simp only [TxRef.outputs, hc, List.getElem?_cons_zero, List.length_cons, Nat.zero_lt_succ, if_true]
        rfl
      | succ i =>
        have := ih (n + 1) _ _ q' h2 hp.2 e1 e2 i (by simpa using hi)
        simp only [TxRef.outputs, hc, List.getElem?_cons_succ, List.length_cons]
        rw [this]
        dsimp only
        rw [show n + (rest.length + 1) + 1 = n + 1 + rest.length + 1 by omega, show n + (i + 1) = n + 1 + i by omega]
        by_cases hi' : i < rest.length
        · rw [if_pos hi', if_pos (by omega)]; rfl
        · rw [if_neg hi', if_neg (by omega)]
    | nil =>
      dsimp only [List.length_nil]
      rw [if_neg (by omega)]
      have hge : ∀ x ∈ startsFrom (n + 0 + 1) (q' ++ writesFrom (n + 1) ps), n < x.1 := by
        intro x hx; have := startsFrom_ge _ _ x hx; omega
      cases i with
      | zero =>
        rw [Nat.add_zero n, wireAt_before _ _ (fun x hx => hge x hx)]
        simp only [TxRef.outputs, TxRef.cycle, hr, List.getElem?_cons_zero]
      | succ i =>
        cases ha : TxRef.arrive r.fifo p with
        | nil =>
          have hc : r.cycle p = ((.mid, false), { rest := [], fifo := [] }) := by simp only [TxRef.cycle, hr, ha]
          rw [hc] at h2
          have hq0 : q' = [] := by
            rw [ha] at e1
            exact List.map_eq_nil_iff.mp e1.symm
          subst hq0
          have := ih (n + 1) _ _ [] h2 hp.2 rfl (by intro x hx; cases hx) i (by simpa using hi)
          simp only [TxRef.outputs, hc, List.getElem?_cons_succ]
          rw [this]
          dsimp only [List.length_nil]
          rw [if_neg (by omega), List.nil_append, show n + 1 + 0 + 1 = (n + 0 + 1) + 1 by omega, ← startsFrom_later (writesFrom_ge ps (n + 0 + 1)),
            show n + (i + 1) = n + 1 + i by omega]
        | cons b fifo =>
          have hc : r.cycle p = ((.mid, false), { rest := burst b, fifo := fifo }) := by simp only [TxRef.cycle, hr, ha]
          rw [hc] at h2
          cases q' with
          | nil => rw [ha] at e1; cases e1
          | cons a q' =>
            obtain ⟨w, b'⟩ := a
            rw [ha, List.map_cons] at e1
            obtain ⟨rfl, rfl⟩ := List.cons.inj e1
            have hwn := e2 (w, b) (List.mem_cons_self ..)
            have := ih (n + 1) _ _ q' h2 hp.2 rfl (fun x hx => e2 x (List.mem_cons_of_mem _ hx)) i (by simpa using hi)
            simp only [TxRef.outputs, hc, List.getElem?_cons_succ]
            rw [this]
            dsimp only
            rw [burst_length]
            have hm : max (w + 1) (n + 0 + 1) = n + 1 := by
              have : w < n + 1 := hwn
              rw [Nat.max_eq_right] <;> omega
            have e4 : startsFrom (n + 0 + 1) ((w, b) :: q' ++ writesFrom (n + 1) ps) = (n + 1, b) :: startsFrom (n + 1 + 175) (q' ++ writesFrom (n + 1) ps) := by
              show (max (w + 1) (n + 0 + 1), b) :: startsFrom (max (w + 1) (n + 0 + 1) + 175) (q' ++ writesFrom (n + 1) ps) = _
              rw [hm]
            rw [e4, show n + (i + 1) = n + 1 + i by omega, show n + 1 + 174 + 1 = n + 1 + 175 by omega]
            generalize hS : startsFrom (n + 1 + 175) (q' ++ writesFrom (n + 1) ps) = SS
            have e5 : wireAt ((n + 1, b) :: SS) (n + 1 + i) = if i < 173 then ((frameWave b).getD i .mid, true) else wireAt SS (n + 1 + i) := by
              rw [wireAt, if_neg (by omega), show n + 1 + i - (n + 1) = i by omega]
              by_cases h : i < 173
              · rw [if_pos h, if_pos (by omega)]
              · rw [if_neg h, if_neg (by omega)]
            rw [e5, burst_getD]
            by_cases h173 : i < 173
            · rw [if_pos h173, if_pos h173, if_pos (by omega)]
            · rw [if_neg h173, if_neg h173]
              by_cases h174 : i < 174
              · rw [if_pos h174, wireAt_before]
                intro x hx
                rw [← hS] at hx
                have := startsFrom_ge _ _ x hx
                omega
              · rw [if_neg h174]

/-- **C112.** Whenever the DMA writes bytes (as long as there is room), the frame of each byte starts in the cycle after it is written, but in cycle 2 at the earliest, and 175 cycles after the frame before at the earliest.
It takes 173 cycles; in all other cycles the line is idle. -/
theorem C112_starts (ps : List (Option UInt8)) (hp : paced uartTx reset (ps.map putEnv)) (k : Nat) (hk : k < ps.length) :
    ((trace uartTx reset (ps.map putEnv)).map State.view)[k]? = some (wireAt (startsFrom 2 (writesFrom 0 ps)) k) := by
  rw [C31_waveform, tx_times ps 0 reset TxRef.init [] Sim.init hp rfl (by intro x hx; cases hx) k hk]
  show some (if k < 1 then _ else wireAt (startsFrom 2 (writesFrom 0 ps)) (0 + k)) = _
  by_cases h : k < 1
  · rw [if_pos h, wireAt_before]
    · have : k = 0 := by omega
      subst this; rfl
    · intro x hx
      have := startsFrom_ge _ _ x hx
      omega
  · rw [if_neg h, Nat.zero_add]

/-- The starts of frames that follow one that starts in cycle `s` immediately. -/
def follow : Nat → List (Nat × UInt8) → List (Nat × UInt8)
  | _, [] => []
  | s, (_, b) :: ws => (s + 175, b) :: follow (s + 175) ws

/-- In time: the bytes of a packet, written while the frame before is sent, follow each other immediately. -/
theorem startsFrom_inTime : ∀ (ws : List (Nat × UInt8)) (s : Nat), InTime s ws → ∀ rest,
    startsFrom (s + 175) (ws ++ rest) = follow s ws ++ startsFrom (s + 175 * ws.length + 175) rest := by
  intro ws
  induction ws with
  | nil => intro s _ rest; rfl
  | cons a ws ih =>
    intro s h rest
    obtain ⟨w, b⟩ := a
    have hm : max (w + 1) (s + 175) = s + 175 := Nat.max_eq_right (by have := h.1; omega)
    show (max (w + 1) (s + 175), b) :: startsFrom (max (w + 1) (s + 175) + 175) (ws ++ rest) = _
    rw [hm, ih _ h.2, List.length_cons, show s + 175 + 175 * ws.length + 175 = s + 175 * (ws.length + 1) + 175 by omega]
    rfl

/-- The cycles in which the frames of a packet start. -/
def Handed.starts (p : Handed) : List (Nat × UInt8) := (p.at_ + 1, p.first) :: follow (p.at_ + 1) p.rest

theorem startsFrom_packet {p : Handed} (h : InTime (p.at_ + 1) p.rest) {e : Nat} (he : e ≤ p.at_ + 1) (rest : List (Nat × UInt8)) :
    startsFrom e (p.writes ++ rest) = p.starts ++ startsFrom (p.last + 175) rest := by
  show (max (p.at_ + 1) e, p.first) :: startsFrom (max (p.at_ + 1) e + 175) (p.rest ++ rest) = _
  rw [Nat.max_eq_left he, startsFrom_inTime _ _ h]
  rfl

theorem follow_le : ∀ (ws : List (Nat × UInt8)) (s : Nat), ∀ x ∈ follow s ws, x.1 ≤ s + 175 * ws.length := by
  intro ws
  induction ws with
  | nil => intro s x hx; cases hx
  | cons a ws ih =>
    intro s x hx
    obtain ⟨w, b⟩ := a
    rw [List.length_cons]
    rcases List.mem_cons.mp hx with rfl | hx
    · show s + 175 ≤ _; omega
    · have := ih _ x hx; omega

/-! ## C113: the levels in time -/

section
variable {P : Nat} {c : Nat → Nat}

theorem SenderClock.le (hc : SenderClock P c) {a b : Nat} (h : a ≤ b) : c a ≤ c b := by
  induction b with
  | zero => rw [Nat.le_zero.mp h]; exact Nat.le_refl _
  | succ b ih =>
    rcases Nat.lt_or_eq_of_le h with h | rfl
    · have := ih (by omega); have := hc.mono b; omega
    · exact Nat.le_refl _

theorem SenderClock.lt_iff (hc : SenderClock P c) {a b : Nat} : a < b ↔ c a < c b := by
  constructor
  · intro h; have := hc.mono a; have := hc.le (show a + 1 ≤ b by omega); omega
  · intro h
    rcases Nat.lt_or_ge a b with h' | h'
    · exact h'
    · have := hc.le h'; omega

/-- The cycle of a time. -/
theorem SenderClock.cycle (hc : SenderClock P c) {τ : Nat} (h : c 0 ≤ τ) : ∃ k, c k ≤ τ ∧ τ < c (k + 1) := by
  have hex : ∀ n, τ < c n → ∃ k, c k ≤ τ ∧ τ < c (k + 1) := by
    intro n
    induction n with
    | zero => intro h'; omega
    | succ n ih =>
      intro h'
      by_cases hn : τ < c n
      · exact ih hn
      · exact ⟨n, by omega, h'⟩
  have hk : ∀ n, n ≤ c n := by
    intro n
    induction n with
    | zero => exact Nat.zero_le _
    | succ n ih => have := hc.mono n; omega
  exact hex (τ + 1) (by have := hk (τ + 1); omega)

/-- The level of a frame that starts in cycle `s`. -/
theorem wireAt_frame {s : Nat} {b : UInt8} {ss : List (Nat × UInt8)} (hs : ∀ x ∈ ss, s + 175 ≤ x.1) {k : Nat} (hk : k < s + 175) :
    (wireAt ((s, b) :: ss) k).1 = if s ≤ k ∧ (k - s) % 16 < 8 then symbolsOf true b ((k - s) / 16) else .mid := by
  rw [wireAt]
  by_cases h1 : k < s
  · rw [if_pos h1, if_neg (by omega)]
  · rw [if_neg h1]
    by_cases h2 : k < s + 173
    · rw [if_pos h2]
      have := getD_bitWave (frameSymbols b) (k - s)
      show (frameWave b).getD (k - s) .mid = _
      rw [frameWave, this]
      by_cases h3 : (k - s) % 16 < 8
      · rw [if_pos h3, if_pos ⟨by omega, h3⟩]; rfl
      · rw [if_neg h3, if_neg (fun h => h3 h.2)]
    · rw [if_neg h2, if_neg (by omega), wireAt_before]
      intro x hx
      have := hs x hx
      omega

/-- The gaps between the frames. -/
def eyeGaps (P : Nat) (c : Nat → Nat) : Nat → List (Nat × UInt8) → List (Nat × Bool × UInt8)
  | _, [] => []
  | t, (s, b) :: ss => (c s - t, true, b) :: eyeGaps P c (c s + 348 * P) ss

theorem eye_starts (hc : SenderClock P c) {L : Nat → Level} : ∀ (ws : List (Nat × UInt8)) (e t : Nat), (∀ x ∈ (startsFrom e ws).head?, t ≤ c x.1) →
    (∀ τ, t ≤ τ + 2 * P → τ < c 0 → L τ = .mid) →
    (∀ k τ, t ≤ τ + 2 * P → c k ≤ τ → τ < c (k + 1) → L τ = (wireAt (startsFrom e ws) k).1) →
    EyeCarries P L t (byteFrames (eyeGaps P c t (startsFrom e ws))) := by
  intro ws
  induction ws with
  | nil =>
    intro e t _ h0 hw τ hτ
    by_cases h : τ < c 0
    · exact h0 τ hτ h
    · obtain ⟨k, k1, k2⟩ := hc.cycle (Nat.not_lt.mp h)
      exact hw k τ hτ k1 k2
  | cons a ws ih =>
    intro e t ht h0 hw
    obtain ⟨w, b⟩ := a
    have hss := startsFrom_ge ws (max (w + 1) e + 175)
    rw [startsFrom] at ht hw ⊢
    generalize max (w + 1) e = s at *
    have ht : t ≤ c s := ht _ rfl
    -- the level in terms of the cycle
    have lev : ∀ τ, t ≤ τ + 2 * P → τ < c (s + 175) → (τ < c s ∧ L τ = .mid) ∨
        ∃ k, c (s + k) ≤ τ ∧ τ < c (s + k + 1) ∧ k < 175 ∧ L τ = if k % 16 < 8 then symbolsOf true b (k / 16) else .mid := by
      intro τ h1 h2
      by_cases h : τ < c s
      · refine .inl ⟨h, ?_⟩
        by_cases h' : τ < c 0
        · exact h0 τ h1 h'
        · obtain ⟨k, k1, k2⟩ := hc.cycle (Nat.not_lt.mp h')
          have : k < s := hc.lt_iff.mpr (by omega)
          rw [hw k τ h1 k1 k2, wireAt_frame hss (by omega), if_neg (by omega)]
      · have h' : ¬ τ < c 0 := by have := hc.le (Nat.zero_le s); omega
        obtain ⟨k, k1, k2⟩ := hc.cycle (Nat.not_lt.mp h')
        have hk1 : s < k + 1 := hc.lt_iff.mpr (by omega)
        have hk2 : k < s + 175 := hc.lt_iff.mpr (by omega)
        refine .inr ⟨k - s, ?_, ?_, by omega, ?_⟩
        · rw [show s + (k - s) = k by omega]; exact k1
        · rw [show s + (k - s) + 1 = k + 1 by omega]; exact k2
        · rw [hw k τ h1 k1 k2, wireAt_frame hss hk2]
          by_cases h3 : (k - s) % 16 < 8
          · rw [if_pos h3, if_pos ⟨by omega, h3⟩]
          · rw [if_neg h3, if_neg (fun h => h3 h.2)]
    have h175 := hc.low s 175 (by omega)
    refine ⟨fun τ h1 h2 => ?_, ?_, ?_⟩
    · rw [show t + (c s - t) = c s by omega] at h2
      rcases lev τ h1 (by omega) with h | ⟨k, k1, k2, -, -⟩
      · exact h.2
      · have := hc.le (Nat.le_add_right s k); omega
    · show EyeFrame P (t + (c s - t)) (symbolsOf true b) L
      rw [show t + (c s - t) = c s by omega]
      refine ⟨fun i hi => .inr ⟨c (s + 16 * i), c (s + 16 * i + 8), ?_, ?_, ?_, fun τ h1 h2 => ?_⟩, fun τ h1 h2 => ?_⟩
      · have h := hc.high s (16 * i) (by omega)
        rw [show 1992 * (16 * i) * P = 31872 * (i * P) by rw [← Nat.mul_assoc, ← Nat.mul_assoc]] at h
        rw [Nat.mul_assoc 32]
        by_cases h0 : i = 0
        · subst h0; rw [Nat.mul_zero, Nat.add_zero]; omega
        · have := Nat.mul_le_mul_right P (show 1 ≤ i by omega); omega
      · have h := hc.low s (16 * i + 8) (by omega)
        have hQ := Nat.mul_le_mul_right P (show i ≤ 9 by omega)
        rw [show 1989 * (16 * i + 8) * P = 31824 * (i * P) + 15912 * P by rw [Nat.mul_add, Nat.add_mul, ← Nat.mul_assoc, ← Nat.mul_assoc], ← Nat.add_assoc, ← Nat.add_assoc] at h
        rw [Nat.add_mul, Nat.mul_assoc 32]
        omega
      · have := hc.high (s + 16 * i) 8 (by omega); omega
      · have hQ := Nat.mul_le_mul_right P (show i ≤ 9 by omega)
        rw [Nat.add_mul, Nat.mul_assoc 32] at h2
        rw [Nat.mul_assoc 32] at h1
        have h5 := hc.low s (16 * i + 16) (by omega)
        rw [show 1989 * (16 * i + 16) * P = 31824 * (i * P) + 31824 * P by rw [Nat.mul_add, Nat.add_mul, ← Nat.mul_assoc, ← Nat.mul_assoc]] at h5
        have h5' : τ < c (s + (16 * i + 16)) := by omega
        have h175' := hc.le (show s + (16 * i + 16) ≤ s + 175 by omega)
        rcases lev τ (by omega) (by omega) with ⟨h3, h4⟩ | ⟨k, k1, k2, k3, k4⟩
        · have := hc.le (show s ≤ s + 16 * i by omega)
          rw [h4, if_neg (by omega)]
        · have hk : k < 16 * i + 16 := by
            have : s + k < s + (16 * i + 16) := hc.lt_iff.mpr (by omega)
            omega
          have hk2 : 16 * i ≤ k + 8 := by
            by_cases h0 : i = 0
            · omega
            · have h6 := hc.high s (16 * i - 8) (by omega)
              rw [show 1992 * (16 * i - 8) * P = 31872 * (i * P) - 15936 * P by rw [Nat.mul_sub, Nat.sub_mul, ← Nat.mul_assoc, ← Nat.mul_assoc]] at h6
              have := Nat.mul_le_mul_right P (show 1 ≤ i by omega)
              have : s + (16 * i - 8) < s + k + 1 := hc.lt_iff.mpr (by omega)
              omega
          have e1 : c (s + 16 * i) ≤ τ ↔ 16 * i ≤ k := by
            constructor
            · intro h; have : s + 16 * i < s + k + 1 := hc.lt_iff.mpr (by omega); omega
            · intro h; have := hc.le (show s + 16 * i ≤ s + k by omega); omega
          have e2 : τ < c (s + 16 * i + 8) ↔ k < 16 * i + 8 := by
            constructor
            · intro h; have : s + k < s + 16 * i + 8 := hc.lt_iff.mpr (by omega); omega
            · intro h; have := hc.le (show s + k + 1 ≤ s + 16 * i + 8 by omega); omega
          rw [k4]
          by_cases h3 : 16 * i ≤ k ∧ k < 16 * i + 8
          · rw [if_pos (show c (s + 16 * i) ≤ τ ∧ τ < c (s + 16 * i + 8) from ⟨e1.mpr h3.1, e2.mpr h3.2⟩), if_pos (by omega), show k / 16 = i by omega]
          · rw [if_neg (show ¬ (c (s + 16 * i) ≤ τ ∧ τ < c (s + 16 * i + 8)) from fun h => h3 ⟨e1.mp h.1, e2.mp h.2⟩), if_neg (by omega)]
      · have h6 := hc.high s 152 (by omega)
        rcases lev τ (by omega) (by omega) with ⟨-, h4⟩ | ⟨k, k1, k2, k3, k4⟩
        · exact h4
        · have : s + 152 < s + k + 1 := hc.lt_iff.mpr (by omega)
          rw [k4]
          by_cases h7 : k % 16 < 8
          · rw [if_pos h7, show k / 16 = 10 by omega, symbolsOf_stop]
          · rw [if_neg h7]
    · have h173 := hc.high s 173 (by omega)
      have := ih (s + 175) (c s + 348 * P) ?_ (fun τ h1 h2 => h0 τ (by omega) h2) ?_
      · rw [← show t + (c s - t) + 348 * P = c s + 348 * P by omega] at this
        show EyeCarries P L (t + (c s - t) + 348 * P) (byteFrames (eyeGaps P c (c s + 348 * P) (startsFrom (s + 175) ws)))
        rw [← show t + (c s - t) + 348 * P = c s + 348 * P by omega]
        exact this
      · intro x hx
        have hm : x ∈ startsFrom (s + 175) ws := List.mem_of_mem_head? hx
        have := hc.le (hss x hm)
        omega
      · intro k τ h1 h2 h3
        rw [hw k τ (by omega) h2 h3]
        have : s + 173 < k + 1 := hc.lt_iff.mpr (by omega)
        rw [wireAt, if_neg (by omega), if_neg (by omega)]

theorem eyeGaps_follow (hc : SenderClock P c) : ∀ (ws : List (Nat × UInt8)) (s : Nat) (rest : List (Nat × UInt8)),
    eyeGaps P c (c s + 348 * P) (follow s ws ++ rest) = eyeGaps P c (c s + 348 * P) (follow s ws) ++ eyeGaps P c (c (s + 175 * ws.length) + 348 * P) rest ∧
    (∀ b ∈ eyeGaps P c (c s + 348 * P) (follow s ws), b.2.1 = true ∧ 1000 * b.1 ≤ 650 * P) ∧
    (eyeGaps P c (c s + 348 * P) (follow s ws)).map (fun b => b.2.2) = ws.map Prod.snd ∧
    eyeEnd P (c s + 348 * P) (eyeGaps P c (c s + 348 * P) (follow s ws)) = c (s + 175 * ws.length) + 348 * P := by
  intro ws
  induction ws with
  | nil => intro s rest; exact ⟨rfl, (fun b hb => by cases hb), rfl, rfl⟩
  | cons a ws ih =>
    intro s rest
    obtain ⟨w, b⟩ := a
    obtain ⟨h1, h2, h3, h4⟩ := ih (s + 175) rest
    have lo := hc.low s 175 (by omega)
    have hi := hc.high s 175 (by omega)
    rw [show s + 175 + 175 * ws.length = s + 175 * ((w, b) :: ws).length by rw [List.length_cons]; omega] at h1 h4
    refine ⟨?_, ?_, ?_, ?_⟩
    · show (c (s + 175) - (c s + 348 * P), true, b) :: eyeGaps P c (c (s + 175) + 348 * P) (follow (s + 175) ws ++ rest) = _
      rw [h1]; rfl
    · intro x hx
      rcases List.mem_cons.mp hx with rfl | hx
      · refine ⟨rfl, ?_⟩
        show 1000 * (c (s + 175) - (c s + 348 * P)) ≤ 650 * P
        omega
      · exact h2 x hx
    · show b :: (eyeGaps P c (c (s + 175) + 348 * P) (follow (s + 175) ws)).map (fun b => b.2.2) = b :: ws.map Prod.snd
      rw [h3]
    · show eyeEnd P (c s + 348 * P + (c (s + 175) - (c s + 348 * P)) + 348 * P) (eyeGaps P c (c (s + 175) + 348 * P) (follow (s + 175) ws)) = _
      rw [show c s + 348 * P + (c (s + 175) - (c s + 348 * P)) = c (s + 175) by omega]
      exact h4

/-- The packets on the bus. -/
def busPackets (P : Nat) (c : Nat → Nat) : Nat → List Handed → List BusPacket
  | _, [] => []
  | t, p :: ps =>
    { gap := c (p.at_ + 1) - t, pol := true, first := p.first, rest := eyeGaps P c (c (p.at_ + 1) + 348 * P) (follow (p.at_ + 1) p.rest) } ::
      busPackets P c (c p.last + 348 * P) ps

theorem eyeEnd_append : ∀ (l m : List (Nat × Bool × UInt8)) (t : Nat), eyeEnd P t (l ++ m) = eyeEnd P (eyeEnd P t l) m := by
  intro l
  induction l with
  | nil => intro m t; rfl
  | cons a l ih => intro m t; obtain ⟨g, a⟩ := a; exact ih m _

theorem busPackets_ok (hP : 0 < P) (hc : SenderClock P c) {M : Nat} : ∀ (pk : List Handed) (e t : Nat), (∀ p ∈ pk, InTime (p.at_ + 1) p.rest ∧ p.rest.length ≤ 32) →
    (∀ p ∈ pk.head?, e ≤ p.at_ + 1) → Apart P M c t pk →
    startsFrom e (pk.flatMap Handed.writes) = pk.flatMap Handed.starts ∧
    (busPackets P c t pk).flatMap BusPacket.frames = eyeGaps P c t (pk.flatMap Handed.starts) ∧
    (∀ p ∈ busPackets P c t pk, p.EyeOk P) ∧ (∀ b ∈ (busPackets P c t pk).flatMap BusPacket.frames, b.1 ≤ M * P) ∧
    (busPackets P c t pk).map BusPacket.bytes = pk.map Handed.bytes ∧
    eyeEnd P t ((busPackets P c t pk).flatMap BusPacket.frames) = sendEnd P c t pk := by
  intro pk
  induction pk with
  | nil =>
    intro e t _ _ _
    exact ⟨rfl, rfl, (fun p hp => by cases hp), (fun b hb => by cases hb), rfl, rfl⟩
  | cons p pk ih =>
    intro e t h1 h2 h3
    obtain ⟨a1, a2, a3⟩ := h3
    have hp := h1 p (List.mem_cons_self ..)
    obtain ⟨i1, i2, i3, i4, i5, i6⟩ := ih (p.last + 175) (c p.last + 348 * P) (fun q hq => h1 q (List.mem_cons_of_mem _ hq)) (by
      intro q hq
      cases pk with
      | nil => cases hq
      | cons q' pk =>
        have hq : q' = q := Option.some.inj hq
        subst hq
        have h := a3.1
        have hi := hc.high p.last 175 (by omega)
        have : p.last + 175 < q'.at_ + 1 := hc.lt_iff.mpr (by omega)
        omega) a3
    obtain ⟨f1, f2, f3, f4⟩ := eyeGaps_follow hc p.rest (p.at_ + 1) (pk.flatMap Handed.starts)
    have hlast : p.at_ + 1 + 175 * p.rest.length = p.last := rfl
    rw [hlast] at f1 f4
    have hlen : (eyeGaps P c (c (p.at_ + 1) + 348 * P) (follow (p.at_ + 1) p.rest)).length = p.rest.length := by
      have := congrArg List.length f3
      simpa only [List.length_map] using this
    refine ⟨?_, ?_, ?_, ?_, ?_, ?_⟩
    · rw [List.flatMap_cons, List.flatMap_cons, startsFrom_packet hp.1 (h2 p rfl), i1]
    · show (c (p.at_ + 1) - t, true, p.first) :: (eyeGaps P c (c (p.at_ + 1) + 348 * P) (follow (p.at_ + 1) p.rest) ++ (busPackets P c (c p.last + 348 * P) pk).flatMap BusPacket.frames) = _
      rw [i2, ← f1]
      rfl
    · intro q hq
      rcases List.mem_cons.mp hq with rfl | hq
      · refine ⟨?_, ?_, fun b hb => (f2 b hb).1⟩
        · show 352 * P ≤ c (p.at_ + 1) - t
          omega
        · show ((eyeGaps P c (c (p.at_ + 1) + 348 * P) (follow (p.at_ + 1) p.rest)).map fun b => b.1 + 10 * P).sum ≤ 345 * P
          have hsum : ∀ l : List (Nat × Bool × UInt8), (∀ b ∈ l, b.2.1 = true ∧ 1000 * b.1 ≤ 650 * P) →
              1000 * (l.map fun b => b.1 + 10 * P).sum ≤ 10650 * (l.length * P) := by
            intro l
            induction l with
            | nil => intro _; exact Nat.zero_le _
            | cons b l ih =>
              intro h
              have h1 := (h b (List.mem_cons_self ..)).2
              have h2 := ih fun b hb => h b (List.mem_cons_of_mem _ hb)
              rw [List.map_cons, List.sum_cons, List.length_cons, Nat.add_mul]
              omega
          have := hsum _ f2
          rw [hlen] at this
          have := Nat.mul_le_mul_right P hp.2
          omega
      · exact i3 q hq
    · have hM : 1000 * 1 * P ≤ 1000 * (M * P) := by omega
      intro b hb
      rw [show (busPackets P c t (p :: pk)).flatMap BusPacket.frames = (c (p.at_ + 1) - t, true, p.first) ::
        (eyeGaps P c (c (p.at_ + 1) + 348 * P) (follow (p.at_ + 1) p.rest) ++ (busPackets P c (c p.last + 348 * P) pk).flatMap BusPacket.frames) from rfl] at hb
      rcases List.mem_cons.mp hb with rfl | hb
      · show c (p.at_ + 1) - t ≤ M * P
        omega
      · rcases List.mem_append.mp hb with hb | hb
        · have := (f2 b hb).2
          omega
        · exact i4 b hb
    · show (p.first :: (eyeGaps P c (c (p.at_ + 1) + 348 * P) (follow (p.at_ + 1) p.rest)).map fun b => b.2.2) :: (busPackets P c (c p.last + 348 * P) pk).map BusPacket.bytes = _
      rw [f3, i5]
      rfl
    · show eyeEnd P (t + (c (p.at_ + 1) - t) + 348 * P) (eyeGaps P c (c (p.at_ + 1) + 348 * P) (follow (p.at_ + 1) p.rest) ++ (busPackets P c (c p.last + 348 * P) pk).flatMap BusPacket.frames) = _
      rw [show t + (c (p.at_ + 1) - t) = c (p.at_ + 1) by omega, eyeEnd_append, f4, i6]
      rfl

end

theorem wireAt_after : ∀ (ss : List (Nat × UInt8)) (k : Nat), (∀ x ∈ ss, x.1 + 173 ≤ k) → wireAt ss k = (.mid, false) := by
  intro ss
  induction ss with
  | nil => intro k _; rfl
  | cons a ss ih =>
    intro k h
    obtain ⟨s, b⟩ := a
    have := h (s, b) (List.mem_cons_self ..)
    have : s + 173 ≤ k := this
    rw [wireAt, if_neg (by omega), if_neg (by omega)]
    exact ih k fun x hx => h x (List.mem_cons_of_mem _ hx)

/-- The levels of a run that is long enough to send all packets, whose frames start in the right cycles. -/
theorem wire_eye {P : Nat} (hP : 0 < P) {c : Nat → Nat} (hc : SenderClock P c) {M : Nat} (vs : List (Level × Bool)) (pk : List Handed)
    (hv : ∀ k, k < vs.length → vs[k]? = some (wireAt (startsFrom 2 (pk.flatMap Handed.writes)) k))
    (ht : ∀ p ∈ pk, 1 ≤ p.at_ ∧ InTime (p.at_ + 1) p.rest ∧ p.rest.length ≤ 32 ∧ p.last + 173 ≤ vs.length) (ha : Apart P M c 0 pk)
    {L : Nat → Level} (hL : Plays c (lineOf vs) L) :
    EyeCarries P L 0 (byteFrames ((busPackets P c 0 pk).flatMap BusPacket.frames)) := by
  obtain ⟨b1, b2, -⟩ := busPackets_ok hP hc (M := M) pk 2 0 (fun p hp => ⟨(ht p hp).2.1, (ht p hp).2.2.1⟩) (fun p hp => by
    have := (ht p (List.mem_of_mem_head? hp)).1; omega) ha
  rw [b2, ← b1]
  refine eye_starts hc _ 2 0 (fun x _ => Nat.zero_le _) (fun τ _ h => hL.1 τ h) fun k τ _ h1 h2 => ?_
  rw [hL.2 k τ h1 h2, lineOf]
  by_cases hk : k < vs.length
  · rw [List.getD_eq_getElem?_getD, hv k hk]; rfl
  · rw [wireAt_after]
    · rw [List.getD_eq_getElem?_getD, List.getElem?_eq_none]
      · rfl
      · omega
    · intro x hx
      rw [b1] at hx
      obtain ⟨p, hp', hx⟩ := List.mem_flatMap.mp hx
      have := (ht p hp').2.2.2
      have hle : x.1 ≤ p.last := by
        rcases List.mem_cons.mp hx with rfl | hx
        · exact Nat.le_add_right _ _
        · exact follow_le _ _ x hx
      omega

theorem trace_length (p : Prog) : ∀ (es : List Env) (s : State), (trace p s es).length = es.length := by
  intro es
  induction es with
  | nil => intro s; rfl
  | cons e es ih => intro s; rw [trace, List.length_cons, ih, List.length_cons]

theorem modem_eye {P : Nat} (hP : 0 < P) {c : Nat → Nat} (hc : SenderClock P c) {M : Nat} (ps : List (Option UInt8)) (hp : paced uartTx reset (ps.map putEnv)) (pk : List Handed)
    (hw : writesFrom 0 ps = pk.flatMap Handed.writes) (ht : ∀ p ∈ pk, 1 ≤ p.at_ ∧ InTime (p.at_ + 1) p.rest ∧ p.rest.length ≤ 32 ∧ p.last + 173 ≤ ps.length) (ha : Apart P M c 0 pk)
    {L : Nat → Level} (hL : Plays c (lineOf ((trace uartTx reset (ps.map putEnv)).map State.view)) L) :
    EyeCarries P L 0 (byteFrames ((busPackets P c 0 pk).flatMap BusPacket.frames)) := by
  have hlen : ((trace uartTx reset (ps.map putEnv)).map State.view).length = ps.length := by
    rw [List.length_map, trace_length, List.length_map]
  refine wire_eye hP hc _ pk (fun k hk => ?_) (by rw [hlen]; exact ht) ha hL
  rw [C112_starts ps hp k (by omega), hw]

/-- The words at the receiver. -/
theorem wire_words {S : Nat} (hS : 8 ≤ S) (rxErr : Bool) {a v : Int} (h1 : 49 ≤ a) (h2 : a ≤ 88) {P : Nat} (hP : 0 < P) {M : Nat} (hM : M + 70 ≤ 2 * 2 ^ S)
    {c : Nat → Nat} (hc : SenderClock P c) (vs : List (Level × Bool)) (pk : List Handed)
    (hv : ∀ k, k < vs.length → vs[k]? = some (wireAt (startsFrom 2 (pk.flatMap Handed.writes)) k))
    (ht : ∀ p ∈ pk, 1 ≤ p.at_ ∧ InTime (p.at_ + 1) p.rest ∧ p.rest.length ≤ 32 ∧ p.last + 173 ≤ vs.length) (ha : Apart P M c 0 pk)
    {L : Nat → Level} (hL : Plays c (lineOf vs) L) {q : Nat → UInt8} (hq : Codes a v (fun k => L (k * P)) q)
    (es : List (AdcEv × Bool)) (hk : keepsUp 254 0 0 (es.map Prod.fst))
    (hN : sendEnd P c 0 pk + 378 * P ≤ deliveries 0 0 (es.map Prod.fst) * P) (hN' : deliveries 0 0 (es.map Prod.fst) * P + 2 * P ≤ sendEnd P c 0 pk + M * P) :
    ∃ s outs, RxSystem.run S (RxSystem.init (fun _ => 0) rxErr) (scheduleEvents (fun k => Pio.sampleValue k (q k)) 0 0 es) = .ok (s, outs) ∧
      sent outs ++ (if s.core.word = .zero then [] else [s.core.word]) = (pk.flatMap fun p => wFree :: wBusy :: p.bytes.map wByte) ++ [wFree] := by
  obtain ⟨-, -, b3, b4, b5, b6⟩ := busPackets_ok hP hc (M := M) pk 2 0 (fun p hp => ⟨(ht p hp).2.1, (ht p hp).2.2.1⟩) (fun p hp => by
    have := (ht p (List.mem_of_mem_head? hp)).1; omega) ha
  rw [← b6] at hN hN'
  obtain ⟨s, outs, r1, r2⟩ := C111_words hS rxErr h1 h2 hP hM _ b3 b4 (wire_eye hP hc vs pk hv ht ha hL) hq es hk hN hN'
  refine ⟨s, outs, r1, r2.trans ?_⟩
  have e : ∀ l : List BusPacket, l.flatMap (fun p => wFree :: wBusy :: p.bytes.map wByte) =
      (l.map BusPacket.bytes).flatMap fun b => wFree :: wBusy :: b.map wByte := by
    intro l; rw [List.flatMap_map]
  rw [e, b5, List.flatMap_map]

/-- **C113.** From one modem to another.  The DMA of the sender writes the bytes of the packets `pk`, each byte before the frame of the one before is over, and with enough time (that of 352 codes) between packets; the clock of the sender,
of which `k` cycles take the time of about `1.99 k` codes of the receiver, may jitter.  The bus carries what the pins of the sender show, and the codes of the receiver are those of the bus up to an error of one.
Then for every schedule of DMA transfers and iterations of the receiving core that keeps up, some 378 codes after the last packet the words for the other core of the receiver are those of the packets, in order and without anything else. -/
theorem C113_words {S : Nat} (hS : 8 ≤ S) (rxErr : Bool) {a v : Int} (h1 : 49 ≤ a) (h2 : a ≤ 88) {P : Nat} (hP : 0 < P) {M : Nat} (hM : M + 70 ≤ 2 * 2 ^ S)
    {c : Nat → Nat} (hc : SenderClock P c) (ps : List (Option UInt8)) (hp : paced uartTx reset (ps.map putEnv)) (pk : List Handed) (hw : writesFrom 0 ps = pk.flatMap Handed.writes)
    (ht : ∀ p ∈ pk, 1 ≤ p.at_ ∧ InTime (p.at_ + 1) p.rest ∧ p.rest.length ≤ 32 ∧ p.last + 173 ≤ ps.length) (ha : Apart P M c 0 pk)
    {L : Nat → Level} (hL : Plays c (lineOf ((trace uartTx reset (ps.map putEnv)).map State.view)) L) {q : Nat → UInt8} (hq : Codes a v (fun k => L (k * P)) q)
    (es : List (AdcEv × Bool)) (hk : keepsUp 254 0 0 (es.map Prod.fst))
    (hN : sendEnd P c 0 pk + 378 * P ≤ deliveries 0 0 (es.map Prod.fst) * P) (hN' : deliveries 0 0 (es.map Prod.fst) * P + 2 * P ≤ sendEnd P c 0 pk + M * P) :
    ∃ s outs, RxSystem.run S (RxSystem.init (fun _ => 0) rxErr) (scheduleEvents (fun k => Pio.sampleValue k (q k)) 0 0 es) = .ok (s, outs) ∧
      sent outs ++ (if s.core.word = .zero then [] else [s.core.word]) = (pk.flatMap fun p => wFree :: wBusy :: p.bytes.map wByte) ++ [wFree] := by
  have hlen : ((trace uartTx reset (ps.map putEnv)).map State.view).length = ps.length := by
    rw [List.length_map, trace_length, List.length_map]
  refine wire_words hS rxErr h1 h2 hP hM hc _ pk (fun k hk => ?_) (by rw [hlen]; exact ht) ha hL hq es hk hN hN'
  rw [C112_starts ps hp k (by omega), hw]

/-- The lines told by the receiver, from its words. -/
theorem lines_of_words (pk : List Handed) (hl : ∀ p ∈ pk, p.rest.length ≤ 30) {outs : List C1Out}
    (e2 : sent outs = (pk.flatMap fun p => wFree :: wBusy :: p.bytes.map wByte) ++ [wFree])
    (pf : Platform) (g : Nat → UInt8) (w0 : Word) (t0 t1 : Nat) (t : TwoCores) (xs : List TwoStep) (os : List TwoOut)
    (hx : pushes xs = sent outs) (h : (TwoCores.init g w0 t0 t1 false).run pf g xs = .ok (some (t, os))) (hd : drops os = 0) (htop : t.pc = .top)
    (hf : t.fifo = []) (h4 : ∀ m ∈ rxMsgs (reportsOf os), m.status ≠ 4) :
    (rxMsgs (reportsOf os)).map lineShown = pk.map fun p => (0, p.bytes) := by
  have e3 : pushes xs = packetWords (pk.map Handed.bytes) := by
    rw [hx, e2]
    unfold packetWords
    rw [List.flatMap_map]
  have := C104_interleaved pf g w0 t0 t1 t xs os h hd htop hf _ e3 ?_ h4
  · rw [this, List.map_map]; rfl
  · intro p hp'
    obtain ⟨b, hb, rfl⟩ := List.mem_map.mp hp'
    have := hl b hb
    refine ⟨?_, ?_⟩
    · simp [Handed.bytes]
    · show (b.first :: b.rest.map Prod.snd).length ≤ 31
      rw [List.length_cons, List.length_map]; omega

/-- **C113, lines.** With packets of at most 31 bytes and the two cores of the receiver interleaved in any way such that no word is dropped, all are taken, and the watchdog does not
report, its host is given exactly one line for each packet, in order, with status 0 and the bytes of the packet. -/
theorem C113_lines {S : Nat} (hS : 8 ≤ S) (rxErr : Bool) {a v : Int} (h1 : 49 ≤ a) (h2 : a ≤ 88) {P : Nat} (hP : 0 < P) {M : Nat} (hM : M + 70 ≤ 2 * 2 ^ S)
    {c : Nat → Nat} (hc : SenderClock P c) (ps : List (Option UInt8)) (hp : paced uartTx reset (ps.map putEnv)) (pk : List Handed) (hw : writesFrom 0 ps = pk.flatMap Handed.writes)
    (ht : ∀ p ∈ pk, 1 ≤ p.at_ ∧ InTime (p.at_ + 1) p.rest ∧ p.rest.length ≤ 30 ∧ p.last + 173 ≤ ps.length) (ha : Apart P M c 0 pk)
    {L : Nat → Level} (hL : Plays c (lineOf ((trace uartTx reset (ps.map putEnv)).map State.view)) L) {q : Nat → UInt8} (hq : Codes a v (fun k => L (k * P)) q)
    (es : List (AdcEv × Bool)) (hk : keepsUp 254 0 0 (es.map Prod.fst))
    (hN : sendEnd P c 0 pk + 378 * P ≤ deliveries 0 0 (es.map Prod.fst) * P) (hN' : deliveries 0 0 (es.map Prod.fst) * P + 2 * P ≤ sendEnd P c 0 pk + M * P)
    (s : RxSystem) (outs : List C1Out)
    (hr : RxSystem.run S (RxSystem.init (fun _ => 0) rxErr) (scheduleEvents (fun k => Pio.sampleValue k (q k)) 0 0 es) = .ok (s, outs))
    (hs : s.core.word = .zero)
    (pf : Platform) (g : Nat → UInt8) (w0 : Word) (t0 t1 : Nat) (t : TwoCores) (xs : List TwoStep) (os : List TwoOut)
    (hx : pushes xs = sent outs) (h : (TwoCores.init g w0 t0 t1 false).run pf g xs = .ok (some (t, os))) (hd : drops os = 0) (htop : t.pc = .top)
    (hf : t.fifo = []) (h4 : ∀ m ∈ rxMsgs (reportsOf os), m.status ≠ 4) :
    (rxMsgs (reportsOf os)).map lineShown = pk.map fun p => (0, p.bytes) := by
  have ht' : ∀ p ∈ pk, 1 ≤ p.at_ ∧ InTime (p.at_ + 1) p.rest ∧ p.rest.length ≤ 32 ∧ p.last + 173 ≤ ps.length := fun p hp => by
    obtain ⟨g1, g2, g3, g4⟩ := ht p hp
    exact ⟨g1, g2, by omega, g4⟩
  obtain ⟨s', outs', e1, e2⟩ := C113_words hS rxErr h1 h2 hP hM hc ps hp pk hw ht' ha hL hq es hk hN hN'
  rw [hr] at e1
  simp only [Res.ok.injEq, Prod.mk.injEq] at e1
  obtain ⟨rfl, rfl⟩ := e1
  rw [if_pos hs, List.append_nil] at e2
  exact lines_of_words pk (fun p hp => (ht p hp).2.2.1) e2 pf g w0 t0 t1 t xs os hx h hd htop hf h4

/-- **C113, clock.** The clock of the sender of the device (fractional divider 208333 / 256 of the 125 MHz system clock) and the ADC of the receiver (a conversion takes 157 cycles of 48 MHz, adc.cpp:67) fit if
the two crystals differ by at most 500 ppm, whatever the phase. -/
theorem C113_clock {u P : Nat} (hu : 0 < u) (h1 : 9995 * (157 * 125 * u) ≤ 10000 * (48 * P)) (h2 : 10000 * (48 * P) ≤ 10005 * (157 * 125 * u)) (t0 f : Nat) :
    SenderClock P (dividerClock u t0 f) := by
  have hdiff : ∀ s k, ∃ d, dividerClock u t0 f (s + k) = dividerClock u t0 f s + u * d ∧ 208333 * k < 256 * d + 256 ∧ 256 * d < 208333 * k + 256 := by
    intro s k
    refine ⟨(208333 * (s + k) + f) / 256 - (208333 * s + f) / 256, ?_, by omega, by omega⟩
    unfold dividerClock
    rw [Nat.mul_sub, Nat.add_assoc]
    have := Nat.mul_le_mul_left u (show (208333 * s + f) / 256 ≤ (208333 * (s + k) + f) / 256 by omega)
    omega
  refine ⟨fun k => ?_, fun s k hk => ?_, fun s k hk => ?_⟩
  · obtain ⟨d, e, h, -⟩ := hdiff k 1
    have : 0 < u * d := Nat.mul_pos hu (by omega)
    omega
  · obtain ⟨d, e, h, -⟩ := hdiff s k
    have e1 := Nat.mul_le_mul_left u (Nat.le_of_lt h)
    have e2 := Nat.mul_le_mul_left k h2
    rw [Nat.mul_add, ← Nat.mul_assoc, ← Nat.mul_assoc, Nat.mul_comm u 208333, Nat.mul_comm u 256, Nat.mul_assoc, Nat.mul_assoc] at e1
    rw [show k * (10000 * (48 * P)) = 480000 * (k * P) by rw [← Nat.mul_assoc, Nat.mul_comm k, Nat.mul_assoc, ← Nat.mul_assoc k, Nat.mul_comm k 48, Nat.mul_assoc, ← Nat.mul_assoc],
      show k * (10005 * (157 * 125 * u)) = 196348125 * (u * k) by rw [← Nat.mul_assoc 10005, ← Nat.mul_assoc, Nat.mul_comm k, Nat.mul_assoc, Nat.mul_comm k]] at e2
    rw [e, Nat.mul_assoc 1989]
    omega
  · obtain ⟨d, e, -, h⟩ := hdiff s k
    have e1 := Nat.mul_le_mul_left u (Nat.le_of_lt h)
    have e2 := Nat.mul_le_mul_left k h1
    rw [Nat.mul_add, ← Nat.mul_assoc, ← Nat.mul_assoc, Nat.mul_comm u 208333, Nat.mul_comm u 256, Nat.mul_assoc, Nat.mul_assoc] at e1
    rw [show k * (10000 * (48 * P)) = 480000 * (k * P) by rw [← Nat.mul_assoc, Nat.mul_comm k, Nat.mul_assoc, ← Nat.mul_assoc k, Nat.mul_comm k 48, Nat.mul_assoc, ← Nat.mul_assoc],
      show k * (9995 * (157 * 125 * u)) = 196151875 * (u * k) by rw [← Nat.mul_assoc 9995, ← Nat.mul_assoc, Nat.mul_comm k, Nat.mul_assoc, Nat.mul_comm k]] at e2
    rw [e, Nat.mul_assoc 1992]
    omega

/-! ## A case that meets the hypotheses: the packet 40 F0 from one device to another -/

/-- Up to eight bytes always fit. -/
theorem paced_few : ∀ (ps : List (Option UInt8)) (s : State), s.tx.length + (ps.filterMap id).length ≤ 8 → paced uartTx s (ps.map putEnv) := by
  intro ps
  induction ps with
  | nil => intro s _; trivial
  | cons p ps ih =>
    intro s h
    have hlen : ∀ e : Env, (Pio.cycle uartTx s e).tx.length ≤ (enqueue uartTx s.tx e).length := by
      intro e
      simp only [Pio.cycle]
      generalize enqueue uartTx s.tx e = tx
      split
      · exact Nat.le_refl _
      · split
        · split
          · exact Nat.le_refl _
          · exact Nat.le_succ _
        · split <;> exact Nat.le_refl _
        · exact Nat.le_refl _
    have h8 : uartTx.txDepth = 8 := rfl
    refine ⟨?_, ih _ ?_⟩
    · intro hp
      cases p with
      | none => exact absurd rfl hp
      | some b =>
        have : (List.filterMap id (some b :: ps)).length = (ps.filterMap id).length + 1 := rfl
        rw [h8]; omega
    · have := hlen (putEnv p)
      cases p with
      | none => exact Nat.le_trans (Nat.add_le_add_right this _) h
      | some b =>
        have h1 : (List.filterMap id (some b :: ps)).length = (ps.filterMap id).length + 1 := rfl
        have h2 : (enqueue uartTx s.tx (putEnv (some b))).length = s.tx.length + 1 := by
          simp only [enqueue, putEnv, Option.map_some]
          rw [if_pos (by rw [h8]; omega), List.length_append]; rfl
        omega

/-- The two bytes are written in the cycles 300 and 301. -/
def modemWrites : List (Option UInt8) := List.replicate 300 none ++ [some 0x40, some 0xF0] ++ List.replicate 400 none

def modemPacket : Handed := { at_ := 300, first := 0x40, rest := [(301, 0xF0)] }

/-- Levels in time, in units of a sixth of a nanosecond: a cycle of the system clock takes 48, a conversion 19625. -/
def modemLine (τ : Nat) : Level := lineOf ((trace uartTx reset (modemWrites.map putEnv)).map State.view) ((256 * (τ / 48 + 1) - 1) / 208333)

theorem modemLine_plays : Plays (dividerClock 48 0 0) (lineOf ((trace uartTx reset (modemWrites.map putEnv)).map State.view)) modemLine := by
  refine ⟨fun τ h => ?_, fun k τ h1 h2 => ?_⟩
  · have : dividerClock 48 0 0 0 = 0 := rfl
    omega
  · unfold dividerClock at h1 h2
    show lineOf _ ((256 * (τ / 48 + 1) - 1) / 208333) = _
    congr 1
    omega

def modemCodes : Nat → UInt8 := codesOf fun k => modemLine (k * 19625)

theorem modemClock : SenderClock 19625 (dividerClock 48 0 0) := C113_clock (by decide) (by decide) (by decide) 0 0

theorem modemPaced : paced uartTx reset (modemWrites.map putEnv) := paced_few _ _ (by decide +kernel)

theorem modemPacket_ok : ∀ p ∈ [modemPacket], 1 ≤ p.at_ ∧ InTime (p.at_ + 1) p.rest ∧ p.rest.length ≤ 30 ∧ p.last + 173 ≤ modemWrites.length := by
  intro p hp
  rw [List.mem_singleton] at hp
  subst hp
  exact ⟨by decide, ⟨by decide, trivial⟩, by decide, by decide +kernel⟩

/-- The eye of C111 is that of a real transmission. -/
example : EyeCarries 19625 modemLine 0 (byteFrames ((busPackets 19625 (dividerClock 48 0 0) 0 [modemPacket]).flatMap BusPacket.frames)) :=
  modem_eye (by decide) modemClock (M := 1000) modemWrites modemPaced [modemPacket] (by decide +kernel)
    (fun p hp => by obtain ⟨a, b, c, d⟩ := modemPacket_ok p hp; exact ⟨a, b, by omega, d⟩) ⟨by decide, by decide, trivial⟩ modemLine_plays

example : ∃ s outs, RxSystem.run 32 (RxSystem.init (fun _ => 0) false) (scheduleEvents (fun k => Pio.sampleValue k (modemCodes k)) 0 0 (atOnceIdle 1700)) = .ok (s, outs) ∧
    s.core.word = .zero ∧ pushes handOver = sent outs ∧ handedOver handOver = some (0, true, 0, [(0, [0x40, 0xF0])]) := by
  obtain ⟨k1, k2⟩ := atOnceIdle_ok 1700 0 (by decide)
  obtain ⟨s, outs, e1, e2⟩ := C113_words (S := 32) (by decide) false (by decide) (by decide) (P := 19625) (by decide) (M := 1000) (by decide) modemClock
    modemWrites modemPaced [modemPacket] (by decide +kernel) (fun p hp => by obtain ⟨a, b, c, d⟩ := modemPacket_ok p hp; exact ⟨a, b, by omega, d⟩) ⟨by decide, by decide, trivial⟩
    modemLine_plays (codesOf_ok _) (atOnceIdle 1700) k1 (by rw [k2]; decide) (by rw [k2]; decide)
  have e1 : RxSystem.run 32 (RxSystem.init (fun _ => 0) false) (scheduleEvents (fun k => Pio.sampleValue k (modemCodes k)) 0 0 (atOnceIdle 1700)) = .ok (s, outs) := e1
  have hr : SampleRange fun k => Pio.sampleValue k (modemCodes k) := fun k => C41_conversion k (modemCodes k)
  have h0 : SampleRange fun _ => 0 := fun _ => by show (-256 : Int) ≤ 0 ∧ (0 : Int) ≤ 255; decide
  obtain ⟨ad, e3⟩ := C101_samples (S := 32) (fun _ => 0) _ h0 hr false (atOnceIdle 1700) k1
  obtain ⟨is, e4⟩ := atOnceIdle_last 4992 (adcHist (fun _ => 0) fun k => Pio.sampleValue k (modemCodes k)) 1700 0
  rw [e1, e4] at e3
  have hz : s.core.word = .zero := by
    cases hcr : (Core1.init false).run 32 (is ++ [{ ready := true, adc := .none }]) with
    | ub => rw [hcr] at e3; cases e3
    | ok r =>
      rw [hcr] at e3
      simp only [Res.bind, Res.ok.injEq, Prod.mk.injEq] at e3
      rw [e3.1]
      exact Core1.idle_last is hcr
  refine ⟨s, outs, e1, hz, ?_, handOver_seen⟩
  rw [if_pos hz, List.append_nil] at e2
  rw [e2]; rfl

/-- C112 on an example: the frames start in the cycles 301 and 476. -/
example : startsFrom 2 (writesFrom 0 modemWrites) = [(301, 0x40), (476, 0xF0)] := by decide +kernel

end P1P2
