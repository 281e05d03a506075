import Verif.Proofs.RxChain
import Verif.Props.Pio
/-!
# The waveform of the transmitter as input of the receiver
-/
namespace P1P2

theorem getD_append_left' {α : Type} {l l' : List α} {d : α} {n : Nat} (h : n < l.length) :
    (l ++ l').getD n d = l.getD n d := by
  simp only [List.getD_eq_getElem?_getD, List.getElem?_append_left h]

theorem getD_append_right' {α : Type} {l l' : List α} {d : α} {n : Nat} (h : l.length ≤ n) :
    (l ++ l').getD n d = l'.getD (n - l.length) d := by
  simp only [List.getD_eq_getElem?_getD, List.getElem?_append_right h]

theorem getD_replicate' {α : Type} {a d : α} {n i : Nat} (h : i < n) : (List.replicate n a).getD i d = a := by
  simp only [List.getD_eq_getElem?_getD, List.getElem?_replicate, if_pos h, Option.getD_some]

/-- The symbols of the frame of a byte; `p` is the polarity of the start pulse. -/
def symbolsOf (p : Bool) (b : UInt8) : Nat → Level := fun k => (ami p (frameBits b)).getD k .mid

set_option maxRecDepth 8000 in
theorem decode_symbolsOf (p : Bool) (b : UInt8) : decodeSymbols (symbolsOf p b) = (b, false) := by
  revert b
  apply forall_u8
  cases p
  · decide +kernel
  · decide +kernel

theorem symbolsOf_start (p : Bool) (b : UInt8) : symbolsOf p b 0 = if p then .up else .down := rfl

set_option maxRecDepth 8000 in
theorem symbolsOf_stop (p : Bool) (b : UInt8) : symbolsOf p b 10 = .mid := by
  revert b
  apply forall_u8
  cases p
  · decide +kernel
  · decide +kernel

theorem getD_bitWave (l : List Level) : ∀ j, (l.flatMap bitWave).getD j .mid = if j % 16 < 8 then l.getD (j / 16) .mid else .mid := by
  induction l with
  | nil => intro j; simp
  | cons a l ih =>
    intro j
    have hlen : (bitWave a).length = 16 := by simp [bitWave]
    rw [List.flatMap_cons]
    by_cases hj : j < 16
    · rw [getD_append_left' (by omega)]
      have : j / 16 = 0 := by omega
      rw [this, show j % 16 = j by omega]
      unfold bitWave
      by_cases h8 : j < 8
      · rw [if_pos h8, getD_append_left' (by simpa using h8), getD_replicate' h8]; rfl
      · rw [if_neg h8, getD_append_right' (by simp; omega)]
        rw [getD_replicate' (by simp; omega)]
    · rw [getD_append_right' (by omega), hlen, ih]
      rw [show (j - 16) % 16 = j % 16 by omega]
      congr 1
      rw [show j / 16 = (j - 16) / 16 + 1 by omega]
      rfl

theorem frameWave_length (b : UInt8) : (frameWave b).length = 176 := by
  have h : ∀ l : List Level, (l.flatMap bitWave).length = 16 * l.length := by
    intro l
    induction l with
    | nil => rfl
    | cons a l ih => rw [List.flatMap_cons, List.length_append, ih, List.length_cons]; simp [bitWave]; omega
  have h2 : ∀ (l : List Bool) (p : Bool), (ami p l).length = l.length := by
    intro l
    induction l with
    | nil => intro p; rfl
    | cons a l ih => intro p; cases a <;> simp [ami, ih]
  rw [frameWave, h, frameSymbols, h2]
  simp [frameBits]

theorem burst_length (b : UInt8) : (burst b).length = 174 := by
  simp [burst, frameWave_length, frameCycles]

/-- Line level at cycle `k` of a recorded waveform, undisturbed afterwards. -/
def lineOf (w : List (Level × Bool)) (k : Nat) : Level := (w.getD k (.mid, false)).1

theorem burst_level (b : UInt8) (j : Nat) (hj : j < 174) :
    ((burst b).getD j (.mid, false)).1 = if j % 16 < 8 then symbolsOf true b (j / 16) else .mid := by
  unfold burst
  have hl : (((frameWave b).take frameCycles).map (fun l => (l, true))).length = 173 := by
    simp [frameWave_length, frameCycles]
  by_cases h : j < 173
  · rw [getD_append_left' (by omega)]
    have hg := getD_bitWave (frameSymbols b) j
    have : (frameWave b).getD j .mid = if j % 16 < 8 then symbolsOf true b (j / 16) else .mid := hg
    rw [← this]
    simp only [List.getD_eq_getElem?_getD, List.getElem?_map, List.getElem?_take, frameCycles, if_pos h]
    cases he : (frameWave b)[j]? with
    | none =>
      rw [List.getElem?_eq_none_iff, frameWave_length] at he
      omega
    | some v => rfl
  · have : j = 173 := by omega
    subst this
    rw [getD_append_right' (by omega), hl, if_neg (by omega)]
    rfl

/-- The frames of a burst sequence: gaps are one longer than the numbers in `gs`. -/
def framesOf (gs : List (Nat × UInt8)) : List (Nat × (Nat → Level)) := gs.map fun gb => (gb.1 + 1, symbolsOf true gb.2)

theorem carries_bursts (n : Nat) (gs : List (Nat × UInt8)) : ∀ pre : List (Level × Bool),
    Carries (lineOf (pre ++ (bursts gs ++ List.replicate n (.mid, false)))) pre.length (framesOf gs) := by
  induction gs with
  | nil =>
    intro pre k hk
    simp only [lineOf, bursts, List.flatMap_nil, List.nil_append]
    rw [getD_append_right' hk]
    simp only [List.getD_eq_getElem?_getD, List.getElem?_replicate]
    split <;> rfl
  | cons gb gs ih =>
    intro pre
    obtain ⟨g, b⟩ := gb
    have e : pre ++ (bursts ((g, b) :: gs) ++ List.replicate n (.mid, false)) =
        (pre ++ List.replicate (g + 1) (.mid, false) ++ burst b) ++ (bursts gs ++ List.replicate n (.mid, false)) := by
      simp [bursts]
    rw [e]
    refine ⟨?_, ?_, ?_⟩
    · intro k h1 h2
      simp only [lineOf]
      rw [getD_append_left' (by simp [burst_length]; omega), getD_append_left' (by simp; omega),
        getD_append_right' h1]
      simp only [List.getD_eq_getElem?_getD, List.getElem?_replicate]
      split <;> rfl
    · intro j hj
      simp only [lineOf]
      rw [getD_append_left' (by simp [burst_length]; omega), getD_append_right' (by simp)]
      rw [← burst_level b j hj]
      congr 2
      simp
    · have := ih (pre ++ List.replicate (g + 1) (.mid, false) ++ burst b)
      rw [show (pre ++ List.replicate (g + 1) (Level.mid, false) ++ burst b).length = pre.length + (g + 1) + 174 by
        simp [burst_length]; omega] at this
      exact this

/-- One more undisturbed sample in front. -/
def padFirst : List (Nat × (Nat → Level)) → List (Nat × (Nat → Level))
  | [] => []
  | (g, σ) :: fs => (g + 1, σ) :: fs

theorem carries_pad {s : Nat → Level} {t : Nat} {fs : List (Nat × (Nat → Level))} (h : Carries s (t + 1) fs)
    (h0 : s t = .mid) : Carries s t (padFirst fs) := by
  cases fs with
  | nil =>
    intro k hk
    rcases Nat.eq_or_lt_of_le hk with rfl | hlt
    · exact h0
    · exact h k hlt
  | cons f fs =>
    obtain ⟨g, σ⟩ := f
    obtain ⟨h1, h2, h3⟩ := h
    rw [show t + 1 + g = t + (g + 1) by omega] at h1 h2 h3
    refine ⟨fun k hk1 hk2 => ?_, h2, h3⟩
    rcases Nat.eq_or_lt_of_le hk1 with rfl | hlt
    · exact h0
    · exact h1 k hlt hk2

/-! ## A run of the transmitter that ends with an idle line -/

theorem drain (m : Nat) : ∀ r : TxRef, r.rest.length + 175 * r.fifo.length ≤ m →
    r.outputs (List.replicate m none) = r.rest ++ (bursts (r.fifo.map fun b => (0, b)) ++
      List.replicate (m - (r.rest.length + 175 * r.fifo.length)) (.mid, false)) := by
  induction m with
  | zero =>
    intro ⟨rest, fifo⟩ h
    simp only [Nat.le_zero, Nat.add_eq_zero_iff, Nat.mul_eq_zero, List.length_eq_zero_iff] at h
    obtain ⟨h1, h2⟩ := h
    rcases h2 with h2 | h2
    · omega
    · subst h1; subst h2; rfl
  | succ m ih =>
    intro ⟨rest, fifo⟩ h
    rw [List.replicate_succ, TxRef.outputs]
    cases rest with
    | cons o rest =>
      simp only [List.length_cons] at h
      have := ih { rest := rest, fifo := fifo } (by dsimp only; omega)
      simp only [TxRef.cycle, TxRef.arrive, this, List.length_cons, List.cons_append]
      congr 4
      omega
    | nil =>
      cases fifo with
      | nil =>
        have := ih { rest := [], fifo := [] } (by simp)
        simp only [TxRef.cycle, TxRef.arrive, this, bursts]
        simp [List.replicate_succ]
      | cons b q =>
        simp only [List.length_nil, List.length_cons] at h
        have := ih { rest := burst b, fifo := q } (by simp only [burst_length]; omega)
        simp only [TxRef.cycle, TxRef.arrive, this, burst_length]
        simp only [bursts, List.map_cons, List.flatMap_cons, List.length_nil, List.length_cons, List.nil_append]
        simp only [Nat.zero_add, List.replicate_one, List.cons_append, List.append_assoc, List.nil_append]
        rw [show m - (174 + 175 * q.length) = m + 1 - 175 * (q.length + 1) by omega]

theorem run_and_drain {s : Pio.State} {r : TxRef} (h : Pio.Sim s r) (hr : r.rest.length ≤ 174) (hf : r.fifo.length ≤ 8)
    {m : Nat} (hm : 1582 ≤ m) (ps : List (Option UInt8)) :
    ∃ gs n, r.outputs (ps ++ List.replicate m none) = r.rest ++ (bursts gs ++ List.replicate n (.mid, false)) ∧
      (Pio.paced Pio.uartTx s (ps.map Pio.putEnv) → r.fifo ++ ps.filterMap id = gs.map Prod.snd) ∧ 8 ≤ n := by
  induction ps generalizing s r with
  | nil =>
    refine ⟨r.fifo.map fun b => (0, b), m - (r.rest.length + 175 * r.fifo.length), drain m r (by omega), ?_, by omega⟩
    intro _
    rw [List.map_map]
    simp only [List.filterMap_nil, List.append_nil]
    exact (List.map_id _).symm
  | cons p ps ih =>
    obtain ⟨h1, h2⟩ := h.cycle p
    have hlen : (TxRef.arrive r.fifo p).length ≤ 8 := by
      cases p with
      | none => exact hf
      | some b =>
        simp only [TxRef.arrive]
        split
        · simp; omega
        · exact hf
    have harr : Pio.paced Pio.uartTx s ((p :: ps).map Pio.putEnv) →
        TxRef.arrive r.fifo p ++ ps.filterMap id = r.fifo ++ (p :: ps).filterMap id := by
      intro hpc
      cases p with
      | none => simp [TxRef.arrive]
      | some b =>
        have := hpc.1 (by simp [Pio.putEnv])
        rw [h.tx, List.length_map] at this
        have h8 : r.fifo.length < 8 := this
        simp [TxRef.arrive, h8]
    cases hrr : r.rest with
    | cons o rest =>
      have e : (r.cycle p) = (o, { rest := rest, fifo := TxRef.arrive r.fifo p }) := by simp [TxRef.cycle, hrr]
      rw [e] at h2
      obtain ⟨gs, n, g1, g2, g3⟩ := ih h2 (by rw [hrr] at hr; simp at hr; dsimp only; omega) hlen
      refine ⟨gs, n, ?_, fun hpc => ?_, g3⟩
      · rw [List.cons_append, TxRef.outputs, e]
        simp only [g1, List.cons_append]
      · rw [← harr hpc, ← g2 hpc.2]
    | nil =>
      cases ha : TxRef.arrive r.fifo p with
      | nil =>
        have e : (r.cycle p) = ((.mid, false), { rest := [], fifo := [] }) := by simp [TxRef.cycle, hrr, ha]
        rw [e] at h2
        obtain ⟨gs, n, g1, g2, g3⟩ := ih h2 (by simp) (by simp)
        cases gs with
        | nil =>
          refine ⟨[], n + 1, ?_, fun hpc => ?_, by omega⟩
          · rw [List.cons_append, TxRef.outputs, e]
            simp only [g1, bursts]
            simp [List.replicate_succ]
          · rw [← harr hpc, ← g2 hpc.2, ha]
        | cons gb gs =>
          refine ⟨(gb.1 + 1, gb.2) :: gs, n, ?_, fun hpc => ?_, g3⟩
          · rw [List.cons_append, TxRef.outputs, e]
            simp only [g1, bursts]
            simp [List.replicate_succ (n := gb.1 + 1)]
          · have := g2 hpc.2
            rw [← harr hpc, ha]
            simpa using this
      | cons b f =>
        have e : (r.cycle p) = ((.mid, false), { rest := burst b, fifo := f }) := by simp [TxRef.cycle, hrr, ha]
        rw [e] at h2
        obtain ⟨gs, n, g1, g2, g3⟩ := ih h2 (by simp [burst_length]) (by
          rw [ha] at hlen; simp at hlen; dsimp only; omega)
        refine ⟨(0, b) :: gs, n, ?_, fun hpc => ?_, g3⟩
        · rw [List.cons_append, TxRef.outputs, e]
          simp only [g1, bursts]
          simp
        · have := g2 hpc.2
          rw [← harr hpc, ha]
          simpa using this

theorem framesOk_of {G : Nat} (gs : List (Nat × UInt8)) (hg : ∀ gb ∈ gs, gb.1 + 1 ≤ G) : FramesOk G (framesOf gs) := by
  induction gs with
  | nil => trivial
  | cons gb gs ih =>
    obtain ⟨g, b⟩ := gb
    refine ⟨hg _ (List.mem_cons_self ..), by rw [symbolsOf_start]; simp, fun hc => absurd (symbolsOf_stop true b) hc,
      ih (fun x hx => hg x (List.mem_cons_of_mem _ hx))⟩

theorem framesOk_pad {G : Nat} {fs : List (Nat × (Nat → Level))} (h : FramesOk G fs) : FramesOk (G + 1) (padFirst fs) := by
  have mono : ∀ fs : List (Nat × (Nat → Level)), FramesOk G fs → FramesOk (G + 1) fs := by
    intro fs
    induction fs with
    | nil => intro _; trivial
    | cons f fs ih => exact fun ⟨h1, h2, h3, h4⟩ => ⟨Nat.le_succ_of_le h1, h2, h3, ih h4⟩
  cases fs with
  | nil => trivial
  | cons f fs => exact ⟨Nat.succ_le_succ h.1, h.2.1, h.2.2.1, mono _ h.2.2.2⟩

theorem lineEnd_framesOf (gs : List (Nat × UInt8)) : ∀ t, lineEnd t (framesOf gs) = t + (bursts gs).length := by
  induction gs with
  | nil => intro t; rfl
  | cons gb gs ih =>
    intro t
    show lineEnd (t + (gb.1 + 1) + 174) (framesOf gs) = _
    rw [ih]
    simp only [bursts, List.flatMap_cons, List.length_append, List.length_replicate, burst_length]
    omega

theorem lineEnd_pad (t : Nat) (fs : List (Nat × (Nat → Level))) :
    lineEnd t (padFirst fs) = lineEnd (t + 1) fs ∨ fs = [] := by
  cases fs with
  | nil => exact Or.inr rfl
  | cons f fs =>
    obtain ⟨g, σ⟩ := f
    left
    show lineEnd (t + (g + 1) + 174) fs = lineEnd (t + 1 + g + 174) fs
    rw [show t + (g + 1) = t + 1 + g by omega]

theorem bursts_gap {gs : List (Nat × UInt8)} : ∀ gb ∈ gs, gb.1 + 1 ≤ (bursts gs).length := by
  intro gb hgb
  induction gs with
  | nil => simp at hgb
  | cons a gs ih =>
    simp only [bursts, List.flatMap_cons, List.length_append, List.length_replicate]
    rcases List.mem_cons.mp hgb with rfl | h
    · omega
    · have := ih h
      simp only [bursts] at this
      omega

end P1P2
