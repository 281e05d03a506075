import Verif.Proofs.ShapeFrame
import Verif.Proofs.RxChain
import Verif.Props.Rx
/-!
# The receiver on a line of pulses with edges
-/
namespace P1P2

/-! ## Level detector -/

/-- State of the level detector that belongs to a level. -/
def levelState : Level → LevelSt
  | .mid => .none
  | .up => .pos
  | .down => .neg

theorem level_quiet {s : Shape} (h : s.Tol) {st : LevelSt} {v : Int} (hv : s.Quiet v) :
    st.next v = .none ∧ s.out.Quiet (v * 26 / 256) := by
  have := h.quiet
  simp only [Shape.Quiet, Shape.out] at *
  refine ⟨?_, by omega⟩
  cases st <;> simp only [LevelSt.next]
  · rw [if_neg (by omega), if_neg (by omega)]
  · rw [if_pos (by omega)]
  · rw [if_pos (by omega)]

/-- One sample of a symbol. -/
theorem level_symbol {s : Shape} (h : s.Tol) {l : Level} {o o' j : Nat} {v : Int} {st : LevelSt} (ho : o' ≤ o ∧ o ≤ 1)
    (hv : s.Symbol l o o' j v) (hst : st = .none ∨ (st = levelState l ∧ j ≤ 10)) :
    s.out.Symbol l o o' j (if st.next v = .none then v * 26 / 256 else v) ∧
      (st.next v = .none ∨ (st.next v = levelState l ∧ j ≤ 9)) := by
  have h1 := h.quiet; have h2 := h.min; have h3 := h.edge0; have h4 := h.quiet0
  cases l with
  | mid =>
    obtain ⟨e1, e2⟩ := level_quiet (st := st) h hv
    rw [if_pos e1]
    exact ⟨e2, Or.inl e1⟩
  | up =>
    simp only [Shape.Symbol, Shape.Pulse, levelState] at hv hst ⊢
    by_cases c1 : j = o ∨ j = 8 + o'
    · rw [if_pos c1] at hv ⊢
      rcases hst with rfl | ⟨rfl, -⟩ <;> simp only [Shape.out]
      · by_cases c : v ≥ 1400
        · rw [show LevelSt.next .none v = .pos from if_pos c]; refine ⟨?_, by right; exact ⟨rfl, by omega⟩⟩
          rw [if_neg (by simp)]; omega
        · rw [show LevelSt.next .none v = .none from (if_neg c).trans (if_neg (by omega))]; refine ⟨?_, Or.inl rfl⟩
          rw [if_pos rfl]; omega
      · by_cases c : v < 600
        · rw [show LevelSt.next .pos v = .none from if_pos c]; refine ⟨?_, Or.inl rfl⟩
          rw [if_pos rfl]; omega
        · rw [show LevelSt.next .pos v = .pos from if_neg c]; refine ⟨?_, by right; exact ⟨rfl, by omega⟩⟩
          rw [if_neg (by simp)]; omega
    · rw [if_neg c1] at hv ⊢
      by_cases c2 : o < j ∧ j < 8 + o'
      · rw [if_pos c2] at hv ⊢
        have : st.next v = .pos := by
          rcases hst with rfl | ⟨rfl, -⟩ <;> simp only [LevelSt.next]
          · rw [if_pos (by omega)]
          · rw [if_neg (by omega)]
        rw [this]
        exact ⟨by rw [if_neg (by simp)]; exact hv, Or.inr ⟨rfl, by omega⟩⟩
      · rw [if_neg c2] at hv ⊢
        obtain ⟨e1, e2⟩ := level_quiet (st := st) h hv
        rw [if_pos e1]
        exact ⟨e2, Or.inl e1⟩
  | down =>
    simp only [Shape.Symbol, Shape.Pulse, levelState] at hv hst ⊢
    by_cases c1 : j = o ∨ j = 8 + o'
    · rw [if_pos c1] at hv ⊢
      rcases hst with rfl | ⟨rfl, -⟩ <;> simp only [Shape.out]
      · by_cases c : v ≤ -1400
        · rw [show LevelSt.next .none v = .neg from (if_neg (by omega)).trans (if_pos c)]; refine ⟨?_, by right; exact ⟨rfl, by omega⟩⟩
          rw [if_neg (by simp)]; omega
        · rw [show LevelSt.next .none v = .none from (if_neg (by omega)).trans (if_neg (by omega))]; refine ⟨?_, Or.inl rfl⟩
          rw [if_pos rfl]; omega
      · by_cases c : v > -600
        · rw [show LevelSt.next .neg v = .none from if_pos c]; refine ⟨?_, Or.inl rfl⟩
          rw [if_pos rfl]; omega
        · rw [show LevelSt.next .neg v = .neg from if_neg c]; refine ⟨?_, by right; exact ⟨rfl, by omega⟩⟩
          rw [if_neg (by simp)]; omega
    · rw [if_neg c1] at hv ⊢
      by_cases c2 : o < j ∧ j < 8 + o'
      · rw [if_pos c2] at hv ⊢
        have : st.next v = .neg := by
          rcases hst with rfl | ⟨rfl, -⟩ <;> simp only [LevelSt.next]
          · rw [if_neg (by omega), if_pos (by omega)]
          · rw [if_neg (by omega)]
        rw [this]
        exact ⟨by rw [if_neg (by simp)]; exact hv, Or.inr ⟨rfl, by omega⟩⟩
      · rw [if_neg c2] at hv ⊢
        obtain ⟨e1, e2⟩ := level_quiet (st := st) h (Shape.quiet_neg hv)
        rw [if_pos e1]
        refine ⟨?_, Or.inl e1⟩
        simp only [Shape.Quiet] at *
        omega

theorem level_gap {s : Shape} (h : s.Tol) {x : Nat → Int} {k : Nat} (hx : s.Quiet (x k)) :
    levelAt x k = .none ∧ s.out.Quiet (levelOut x k) := by
  obtain ⟨e1, e2⟩ := level_quiet (st := levelBefore x k) h hx
  rw [← levelAt_eq] at e1
  exact ⟨e1, by unfold levelOut; rw [if_pos e1]; exact e2⟩

/-- Behind the level detector the line carries the same frames, with less noise. -/
theorem level_carries {s : Shape} (h : s.Tol) {x : Nat → Int} : ∀ {fs : List (Nat × (Nat → Level))} {t : Nat},
    s.Carries x t fs → levelBefore x t = .none → s.out.Carries (levelOut x) t fs := by
  intro fs
  induction fs with
  | nil => intro t hc _ k hk; exact (level_gap h (hc k hk)).2
  | cons f fs ih =>
    obtain ⟨g, σ⟩ := f
    intro t ⟨h1, ⟨o, o', ho, h2⟩, h3⟩ hn
    have hg : levelBefore x (t + g) = .none := by
      cases g with
      | zero => exact hn
      | succ g => exact (level_gap h (h1 (t + g) (by omega) (by omega))).1
    have hin : ∀ j, j < 174 → (levelBefore x (t + g + j) = .none ∨ (levelBefore x (t + g + j) = levelState (σ (j / 16)) ∧ j % 16 ≤ 10)) ∧
        s.out.Symbol (σ (j / 16)) (o (j / 16)) (o' (j / 16)) (j % 16) (levelOut x (t + g + j)) ∧
        (levelAt x (t + g + j) = .none ∨ (levelAt x (t + g + j) = levelState (σ (j / 16)) ∧ j % 16 ≤ 9)) := by
      intro j
      induction j with
      | zero =>
        intro hj
        have := level_symbol (st := levelBefore x (t + g)) h (ho 0) (h2 0 hj) (Or.inl hg)
        rw [Nat.add_zero, ← levelAt_eq] at this
        exact ⟨Or.inl hg, this⟩
      | succ j ihj =>
        intro hj
        obtain ⟨-, -, a3⟩ := ihj (by omega)
        have hb : levelBefore x (t + g + (j + 1)) = .none ∨
            (levelBefore x (t + g + (j + 1)) = levelState (σ ((j + 1) / 16)) ∧ (j + 1) % 16 ≤ 10) := by
          show levelAt x (t + g + j) = _ ∨ (levelAt x (t + g + j) = _ ∧ _)
          rcases a3 with a3 | ⟨a3, a4⟩
          · exact Or.inl a3
          · right
            rw [show (j + 1) / 16 = j / 16 by omega]
            exact ⟨a3, by omega⟩
        have := level_symbol h (ho _) (h2 (j + 1) hj) hb
        rw [← levelAt_eq] at this
        exact ⟨hb, this⟩
    refine ⟨fun k a b => (level_gap h (h1 k a b)).2, ⟨o, o', ho, fun j hj => (hin j hj).2.1⟩, ih h3 ?_⟩
    show levelAt x (t + g + 173) = .none
    rcases (hin 173 (by decide)).2.2 with a | ⟨-, a⟩
    · exact a
    · omega

/-- Bounds. -/
theorem Shape.Symbol.bound {s : Shape} (h1 : s.quiet ≤ s.hi) (h2 : s.edge ≤ s.hi) (h3 : 0 ≤ s.lo) (h4 : s.lo ≤ s.hi) {l : Level} {o o' j : Nat} {v : Int}
    (h : s.Symbol l o o' j v) : -s.hi ≤ v ∧ v ≤ s.hi := by
  cases l <;> simp only [Shape.Symbol, Shape.Pulse, Shape.Quiet] at h
  · omega
  · split at h
    · omega
    · split at h <;> omega
  · split at h
    · omega
    · split at h <;> omega

theorem Shape.Carries.bound {s : Shape} (h1 : s.quiet ≤ s.hi) (h2 : s.edge ≤ s.hi) (h3 : 0 ≤ s.lo) (h4 : s.lo ≤ s.hi) {x : Nat → Int} :
    ∀ {fs : List (Nat × (Nat → Level))} {t : Nat}, s.Carries x t fs → ∀ k, t ≤ k → -s.hi ≤ x k ∧ x k ≤ s.hi := by
  intro fs
  induction fs with
  | nil => intro t h k hk; have := h k hk; simp only [Shape.Quiet] at this; omega
  | cons f fs ih =>
    obtain ⟨g, σ⟩ := f
    intro t ⟨c1, ⟨o, o', _, c2⟩, c3⟩ k hk
    by_cases hg : k < t + g
    · have := c1 k hk hg; simp only [Shape.Quiet] at this; omega
    · by_cases hj : k < t + g + 174
      · have := (c2 (k - (t + g)) (by omega)).bound h1 h2 h3 h4
        rwa [show t + g + (k - (t + g)) = k by omega] at this
      · exact ih c3 k (by omega)

/-! ## Frames -/

/-- How long the receiver waits for the start of each frame: the line at `t`, the receiver at `r`. -/
def Waits : Nat → Nat → List (Nat × (Nat → Level)) → List Nat → Prop
  | _, _, [], ws => ws = []
  | t, r, (g, _) :: fs, ws => ∃ w ws', ws = w :: ws' ∧ t + g + 11 ≤ r + w ∧ r + w ≤ t + g + 14 ∧
      Waits (t + g + 174) (r + w + 169) fs ws'

/-- What the UART delivers. -/
def frameOuts : List Nat → List (Nat × (Nat → Level)) → List (Option (UInt8 × Bool))
  | w :: ws, f :: fs => List.replicate w none ++ (List.replicate 168 none ++ [some (decodeSymbols f.2)]) ++ frameOuts ws fs
  | _, _ => []

/-- Its receiving flag. -/
def frameFlags : List Nat → List Bool
  | [] => []
  | w :: ws => (true :: List.replicate w false ++ List.replicate 168 true) ++ frameFlags ws

/-- Samples consumed. -/
def frameSpan : List Nat → Nat
  | [] => 0
  | w :: ws => w + 169 + frameSpan ws

theorem flagsOf_add {S : Nat} {u u' : Uart} {x : Nat → Int} {n : Nat} {l : List (Option (UInt8 × Bool))}
    (h : feed (Uart.step S false) u x n = .ok (u', l)) (m : Nat)
    (hm : ∀ i, i < m → ∃ q, feed (Uart.step S false) u' (fun i => x (n + i)) i = .ok q) :
    flagsOf S u x (n + m) = flagsOf S u x n ++ flagsOf S u' (fun i => x (n + i)) m := by
  unfold flagsOf
  rw [List.range_add, List.map_append, List.map_map]
  congr 1
  apply List.map_congr_left
  intro i hi
  obtain ⟨q, hq⟩ := hm i (List.mem_range.mp hi)
  simp only [Function.comp]
  rw [hq, feed_add h hq]

theorem feed_prefix {σ α β : Type} {step : σ → α → Res (σ × β)} {s : σ} {x : Nat → α} : ∀ {n : Nat} {q : σ × List β},
    feed step s x n = .ok q → ∀ i, i ≤ n → ∃ q, feed step s x i = .ok q := by
  intro n
  induction n with
  | zero => intro q h i hi; rw [Nat.le_zero.mp hi]; exact ⟨q, h⟩
  | succ n ih =>
    intro q h i hi
    by_cases hin : i = n + 1
    · rw [hin]; exact ⟨q, h⟩
    · rw [feed, Res.bind_eq_ok] at h
      obtain ⟨r, h1, -⟩ := h
      exact ih h1 i (by omega)

theorem shapeFrame_of {s : Shape} {z : Nat → Int} {t : Nat} {σ : Nat → Level} {o o' : Nat → Nat} (ho : EdgesOk o o')
    (hs : ∀ j, j < 174 → s.Symbol (σ (j / 16)) (o (j / 16)) (o' (j / 16)) (j % 16) (z (t + j))) (hpre : ∀ j : Int, (t : Int) - 4 ≤ j → j < t → s.Quiet (past z j))
    (h0 : σ 0 ≠ .mid) (h10 : σ 10 = .mid) : ShapeFrame s (past z) (t : Nat) σ o o' := by
  refine ⟨hpre, ho, fun n hn => ?_, h0, h10⟩
  have := hs n hn
  unfold past
  rw [if_neg (by omega), show ((t : Int) + (n : Int)).toNat = t + n by omega]
  exact this

/-- Any number of frames. -/
theorem frames_exact {S : Nat} (hS : 8 ≤ S) {s : Shape} (d : s.Det) {z : Nat → Int}
    (hI : ∀ k : Nat, toI16 (detStream (past z) k) = detStream (past z) k) {G : Nat} (hG : G + 32 ≤ 2 ^ S) :
    ∀ (fs : List (Nat × (Nat → Level))) (t r : Nat) (u : Uart), s.Carries z t fs → StopOk G fs → AtIdle u → r ≤ t + 9 → t ≤ r →
      (∀ j : Int, (r : Int) - 14 ≤ j → j < t → s.Quiet (past z j)) →
      ∃ u' ws, Waits t r fs ws ∧ feed (Uart.step S false) u (fun i => detStream (past z) (r + i)) (frameSpan ws) =
          .ok (u', frameOuts ws fs) ∧ AtIdle u' ∧
        flagsOf S u (fun i => detStream (past z) (r + i)) (frameSpan ws) = frameFlags ws ∧
        r + frameSpan ws ≤ lineEnd t fs + 9 ∧
        (∀ k, lineEnd t fs ≤ k → s.Quiet (z k)) ∧
        (∀ j : Int, ((r + frameSpan ws : Nat) : Int) - 14 ≤ j → j < lineEnd t fs → s.Quiet (past z j)) := by
  intro fs
  induction fs with
  | nil =>
    intro t r u hc _ hu hr _ hq
    exact ⟨u, [], rfl, rfl, hu, rfl, hr, hc, hq⟩
  | cons f fs ih =>
    obtain ⟨g, σ⟩ := f
    intro t r u ⟨hc1, ⟨o, o', ho, hc2⟩, hc3⟩ hst hu hr htr hq
    obtain ⟨hg, h0, h10⟩ := hst (g, σ) (List.mem_cons_self ..)
    dsimp only at hg h0 h10
    have hq' : ∀ j : Int, (r : Int) - 14 ≤ j → j < ((t + g : Nat) : Int) → s.Quiet (past z j) := by
      intro j h1 h2
      by_cases hj : j < t
      · exact hq j h1 hj
      · have := hc1 j.toNat (by omega) (by omega)
        unfold past
        rw [if_neg (by omega)]
        exact this
    have hF : ShapeFrame s (past z) ((t + g : Nat) : Int) σ o o' := shapeFrame_of ho hc2 (fun j h1 h2 => hq' j (by omega) h2) h0 h10
    obtain ⟨u1, p, p1, p2, e1, i1, f1⟩ := frame_exact hS d hF hI hu (by omega) hq' (by omega)
    have hend : ∀ j : Int, ((t + g + p + 169 : Nat) : Int) - 14 ≤ j → j < ((t + g + 174 : Nat) : Int) → s.Quiet (past z j) := by
      intro j h1 h2
      have := hc2 (j.toNat - (t + g)) (by omega)
      rw [show (j.toNat - (t + g)) / 16 = 10 by omega, h10, show t + g + (j.toNat - (t + g)) = j.toNat by omega] at this
      unfold past
      rw [if_neg (by omega)]
      exact this
    obtain ⟨u2, ws, k1, k2, k3, k4, k5, k6, k7⟩ := ih (t + g + 174) (t + g + p + 169) u1 hc3
      (fun f hf => hst f (List.mem_cons_of_mem _ hf)) i1 (by omega) (by omega) hend
    have hsum : r + (t + g + p - r + 169) = t + g + p + 169 := by omega
    have hx : (fun i => (fun i => detStream (past z) (r + i)) (t + g + p - r + 169 + i)) =
        fun i => detStream (past z) (t + g + p + 169 + i) := by
      funext i
      exact detStream_congr (by omega)
    have hspan : r + frameSpan ((t + g + p - r) :: ws) = t + g + p + 169 + frameSpan ws := by
      show r + (t + g + p - r + 169 + frameSpan ws) = _
      omega
    refine ⟨u2, (t + g + p - r) :: ws, ⟨_, ws, rfl, by omega, by omega, ?_⟩, ?_, k3, ?_, ?_, k6, ?_⟩
    · rw [show r + (t + g + p - r) + 169 = t + g + p + 169 by omega]
      exact k1
    · exact feed_add e1 (by rw [hx]; exact k2)
    · show flagsOf S u _ (t + g + p - r + 169 + frameSpan ws) = _
      rw [flagsOf_add e1 _ (fun i hi => by rw [hx]; exact feed_prefix k2 i (by omega)), hx, k4, f1]
      rfl
    · rw [hspan]; exact k5
    · rw [hspan]; exact k7

theorem frameOuts_results : ∀ {fs : List (Nat × (Nat → Level))} {t r : Nat} {ws : List Nat}, Waits t r fs ws →
    (frameOuts ws fs).filterMap id = fs.map (fun f => decodeSymbols f.2) := by
  intro fs
  induction fs with
  | nil => intro t r ws h; rw [show ws = [] from h]; rfl
  | cons f fs ih =>
    intro t r ws h
    obtain ⟨w, ws', rfl, -, -, h4⟩ := h
    rw [frameOuts, List.filterMap_append, List.filterMap_append, List.filterMap_append, filterMap_none, filterMap_none, ih h4]
    rfl

/-- Receiving flags of `k` undisturbed samples after a frame. -/
def quietFlags : Nat → List Bool
  | 0 => []
  | k + 1 => true :: List.replicate k false

theorem quiet_run {S : Nat} {s : Shape} (d : s.Det) {z : Nat → Int} {r k : Nat} {u : Uart} (hu : AtIdle u)
    (hq : ∀ j : Int, (r : Int) - 14 ≤ j → s.Quiet (past z j)) (hk : k < 2 ^ S) :
    ∃ u', feed (Uart.step S false) u (fun i => detStream (past z) (r + i)) k = .ok (u', List.replicate k none) ∧
      flagsOf S u (fun i => detStream (past z) (r + i)) k = quietFlags k := by
  have hz : ∀ i : Nat, toI16 (detStream (past z) (r + i)) = 0 := by
    intro i
    have : detStream (past z) (r + i) = 0 := quiet7_zero d (fun j h1 _ => hq j (by omega))
    rw [this]; rfl
  obtain ⟨u', e, -, -⟩ := hu.ready.run (S := S) (err := false) (fun i => detStream (past z) (r + i)) k (fun i _ => hz i) (by omega)
  refine ⟨u', e, ?_⟩
  cases k with
  | zero => rfl
  | succ k =>
    unfold flagsOf quietFlags
    rw [List.range_succ_eq_map, List.map_cons, List.map_map]
    refine congr (congrArg _ ?_) ?_
    · show decide (u.state ≠ .waitStart) = true
      rw [hu.st]; rfl
    · refine List.eq_replicate_iff.mpr ⟨by simp, ?_⟩
      intro b hb
      rw [List.mem_map] at hb
      obtain ⟨i, hi, rfl⟩ := hb
      have hi := List.mem_range.mp hi
      obtain ⟨u1, g1, -, g3⟩ := hu.ready.run (S := S) (err := false) (fun i => detStream (past z) (r + i)) (i + 1)
        (fun i _ => hz i) (by omega)
      simp only [Function.comp, Nat.succ_eq_add_one]
      rw [g1]
      show decide (u1.state ≠ .waitStart) = false
      rw [g3 (by omega)]; rfl

/-- The UART behind the detectors on a line that carries the frames `fs` and nothing else. -/
theorem shape_run {S : Nat} (hS : 8 ≤ S) {s : Shape} (ht : s.Tol) {x : Nat → Int} {G : Nat} (hG : G + 32 ≤ 2 ^ S)
    {fs : List (Nat × (Nat → Level))} (hc : s.Carries x 0 fs) (hf : StopOk G fs) {n : Nat} (hn : lineEnd 0 fs + 9 ≤ n)
    (hn' : n ≤ lineEnd 0 fs + 9 + G) :
    ∃ u ws k, Waits 0 0 fs ws ∧ n = frameSpan ws + k ∧
      feed (Uart.step S false) (Uart.init .even) (detStream (past (levelOut x))) n =
        .ok (u, frameOuts ws fs ++ List.replicate k none) ∧
      flagsOf S (Uart.init .even) (detStream (past (levelOut x))) n = frameFlags ws ++ quietFlags k := by
  have d := ht.det
  have hl := level_carries ht hc rfl
  have h1 := ht.quiet; have h2 := ht.edge; have h3 := ht.min; have h4 := ht.le; have h5 := ht.max; have h6 := ht.quiet0
  have hb : ∀ j, -s.hi ≤ past (levelOut x) j ∧ past (levelOut x) j ≤ s.hi := by
    intro j
    unfold past
    split
    · omega
    · exact hl.bound (s := s.out) (by have := d.quiet; show s.out.quiet ≤ s.hi; omega) h2 (by show 0 ≤ s.lo; omega) h4 j.toNat (Nat.zero_le _)
  have hI : ∀ k : Nat, toI16 (detStream (past (levelOut x)) k) = detStream (past (levelOut x)) k := by
    intro k
    have := pulseRef_bound (y := past (levelOut x)) (B := s.hi) hb k
    apply toI16_of_range
    · show -32768 ≤ pulseRef _ _; omega
    · show pulseRef _ _ ≤ 32767; omega
  have hneg : ∀ j : Int, j < 0 → s.out.Quiet (past (levelOut x) j) := by
    intro j hj
    have := d.quiet0
    unfold past Shape.Quiet
    rw [if_pos hj]
    omega
  obtain ⟨u, ws, k1, k2, k3, k4, k5, k6, k7⟩ := frames_exact hS d hI hG fs 0 0 (Uart.init .even) hl hf AtIdle.init (by omega)
    (Nat.le_refl _) (fun j _ h => hneg j (by omega))
  have hspan : ∀ (fs : List (Nat × (Nat → Level))) (t r : Nat) (ws : List Nat), Waits t r fs ws → t ≤ r → lineEnd t fs ≤ r + frameSpan ws := by
    intro fs
    induction fs with
    | nil => intro t r ws h hr; rw [show ws = [] from h]; exact hr
    | cons f fs ih =>
      obtain ⟨g, σ⟩ := f
      intro t r ws h hr
      obtain ⟨w, ws', rfl, h2, h3, h4⟩ := h
      have := ih _ _ _ h4 (by omega)
      show lineEnd (t + g + 174) fs ≤ r + (w + 169 + frameSpan ws')
      omega
  have hs := hspan _ _ _ _ k1 (Nat.le_refl _)
  obtain ⟨k, rfl⟩ : ∃ k, n = frameSpan ws + k := ⟨n - frameSpan ws, by omega⟩
  obtain ⟨u', q1, q2⟩ := quiet_run (S := S) (s := s.out) d (z := levelOut x) (r := frameSpan ws) (k := k) k3 (fun j h => by
    by_cases hj : j < lineEnd 0 fs
    · exact k7 j (by omega) hj
    · have := k6 j.toNat (by omega)
      unfold past
      rw [if_neg (by omega)]
      exact this) (by omega)
  have e0 : (fun i => detStream (past (levelOut x)) (0 + i)) = detStream (past (levelOut x)) := by
    funext i; exact detStream_congr (by omega)
  rw [e0] at k2 k4
  refine ⟨u', ws, k, k1, rfl, feed_add k2 q1, ?_⟩
  rw [flagsOf_add k2 _ (fun i hi => feed_prefix q1 i (by omega)), k4, q2]

end P1P2
