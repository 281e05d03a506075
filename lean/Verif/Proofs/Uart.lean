import Verif.Model.Uart
import Verif.Proofs.Dsp
import Verif.Props.Dsp
/-!
# Lemmas about the receiver
-/
namespace P1P2

/-- The extraction loop on known values. -/
def extFold (step : Ext → Nat → Int → Ext) (f : Nat → Int) (e : Ext) (b : Nat) : Nat → Ext
  | 0 => e
  | n + 1 => extFold step f (step e b (f b)) (b + 1) n

theorem extLoop_ok {step : Ext → Nat → Int → Ext} {read : Nat → Res Int} {f : Nat → Int} : ∀ {n b : Nat} {e : Ext},
    (∀ i, b ≤ i → i < b + n → read i = .ok (f i)) → extLoop step read e b n = .ok (extFold step f e b n) := by
  intro n
  induction n with
  | zero => intro b e _; rfl
  | succ n ih =>
    intro b e h
    simp only [extLoop, extFold]
    rw [h b (Nat.le_refl _) (by omega)]
    simp only [Res.ok_bind]
    exact ih (fun i h1 h2 => h i (by omega) (by omega))

theorem extFold_congr {step : Ext → Nat → Int → Ext} {f g : Nat → Int} : ∀ {n b : Nat} {e : Ext},
    (∀ i, b ≤ i → i < b + n → f i = g i) → extFold step f e b n = extFold step g e b n := by
  intro n
  induction n with
  | zero => intro b e _; rfl
  | succ n ih =>
    intro b e h
    simp only [extFold]
    rw [h b (Nat.le_refl _) (by omega)]
    exact ih (fun i h1 h2 => h i (by omega) (by omega))

/-- Result of one phase whose start symbol has value `s 0` and whose bit `b` has value `s b`: data, error,
probability. -/
def valRef (par : Parity) (s : Nat → Int) : UInt8 × Bool × Nat :=
  if s 0 = 0 then (0, true, 0)
  else
    let e0 : Ext := { out := 0, par := 0, err := false, last := s 0, prob := (s 0).natAbs }
    match par with
    | .none =>
      let e := extFold Ext.stepPlain s e0 1 9
      (e.out, e.err, e.prob)
    | .even =>
      let e := extFold Ext.stepParity s e0 1 10
      (e.out, e.err || decide (e.par % 2 = 1), e.prob)
    | .odd =>
      let e := extFold Ext.stepParity s e0 1 10
      (e.out, e.err || decide (e.par % 2 = 0), e.prob)

/-- Offset of the start symbol in the register. -/
def Parity.base : Parity → Nat
  | .none => 16
  | _ => 0

/-- Number of bits. -/
def Parity.bits : Parity → Nat
  | .none => 10
  | _ => 11

/-- Number of samples of a frame that are collected. -/
def Parity.len (p : Parity) : Nat := 16 * p.bits - 8

theorem tryPhase_ok {u : Uart} {w : Nat → Int} (h : u.reg.Win 168 w) {ph : Nat} (hp : ph < 8) :
    ∃ q, u.tryPhase ph = .ok q ∧ q.2.2 = (valRef u.parity (fun b => w (u.parity.base + ph + 16 * b))).2.2 ∧
      (0 < q.2.2 → q = valRef u.parity (fun b => w (u.parity.base + ph + 16 * b))) := by
  have hl : uartLen = 168 := rfl
  cases hpar : u.parity with
  | none =>
    simp only [Uart.tryPhase, hpar, Uart.extractData]
    rw [hl, h.get (by omega)]
    simp only [Res.ok_bind]
    have h0 : ph + 1 * 16 = Parity.none.base + ph + 16 * 0 := by simp only [Parity.base]; omega
    rw [h0]
    by_cases hs : w (Parity.none.base + ph + 16 * 0) = 0
    · rw [if_pos hs]
      exact ⟨_, rfl, by simp only [valRef]; rw [if_pos hs], fun hc => absurd hc (Nat.lt_irrefl _)⟩
    · rw [if_neg hs]
      rw [extLoop_ok (f := fun b => w (Parity.none.base + ph + 16 * b)) (by
        intro i h1 h2
        rw [h.get (by omega)]
        simp only [Parity.base]
        congr 2; omega)]
      simp only [Res.ok_bind]
      refine ⟨_, rfl, ?_, fun _ => ?_⟩
      · simp only [valRef]; rw [if_neg hs]
      · simp only [valRef]; rw [if_neg hs]
  | even =>
    simp only [Uart.tryPhase, hpar, Uart.extractDataAndParity]
    rw [hl, h.get (by omega)]
    simp only [Res.ok_bind]
    have h0 : ph + 0 * 16 = Parity.even.base + ph + 16 * 0 := by simp only [Parity.base]; omega
    rw [h0]
    by_cases hs : w (Parity.even.base + ph + 16 * 0) = 0
    · rw [if_pos hs]
      exact ⟨_, rfl, by simp only [valRef]; rw [if_pos hs], fun hc => absurd hc (Nat.lt_irrefl _)⟩
    · rw [if_neg hs]
      rw [extLoop_ok (f := fun b => w (Parity.even.base + ph + 16 * b)) (by
        intro i h1 h2
        rw [h.get (by omega)]
        simp only [Parity.base]
        congr 2; omega)]
      simp only [Res.ok_bind]
      refine ⟨_, rfl, ?_, fun _ => ?_⟩
      · simp only [valRef]; rw [if_neg hs]
      · simp only [valRef]; rw [if_neg hs]
  | odd =>
    simp only [Uart.tryPhase, hpar, Uart.extractDataAndParity]
    rw [hl, h.get (by omega)]
    simp only [Res.ok_bind]
    have h0 : ph + 0 * 16 = Parity.odd.base + ph + 16 * 0 := by simp only [Parity.base]; omega
    rw [h0]
    by_cases hs : w (Parity.odd.base + ph + 16 * 0) = 0
    · rw [if_pos hs]
      exact ⟨_, rfl, by simp only [valRef]; rw [if_pos hs], fun hc => absurd hc (Nat.lt_irrefl _)⟩
    · rw [if_neg hs]
      rw [extLoop_ok (f := fun b => w (Parity.odd.base + ph + 16 * b)) (by
        intro i h1 h2
        rw [h.get (by omega)]
        simp only [Parity.base]
        congr 2; omega)]
      simp only [Res.ok_bind]
      refine ⟨_, rfl, ?_, fun _ => ?_⟩
      · simp only [valRef]; rw [if_neg hs]
      · simp only [valRef]; rw [if_neg hs]

/-- The search over `n` phases on known results. -/
def bestFold (f : Nat → UInt8 × Bool × Nat) (best : Nat) (out : UInt8) (err : Bool) (ph : Nat) :
    Nat → Nat × UInt8 × Bool
  | 0 => (best, out, err)
  | n + 1 =>
    if (f ph).2.2 > best then bestFold f (f ph).2.2 (f ph).1 (f ph).2.1 (ph + 1) n
    else bestFold f best out err (ph + 1) n

theorem phases_ok {u : Uart} {f : Nat → UInt8 × Bool × Nat} : ∀ {n ph best : Nat} {out : UInt8} {err : Bool},
    (∀ i, ph ≤ i → i < ph + n → ∃ q, u.tryPhase i = .ok q ∧ q.2.2 = (f i).2.2 ∧ (0 < q.2.2 → q = f i)) →
    u.phases best out err ph n = .ok (bestFold f best out err ph n) := by
  intro n
  induction n with
  | zero => intros; rfl
  | succ n ih =>
    intro ph best out err h
    obtain ⟨q, h1, h2, h3⟩ := h ph (Nat.le_refl _) (by omega)
    simp only [Uart.phases, bestFold, h1, Res.ok_bind]
    have ih' := fun b o e => ih (ph := ph + 1) (best := b) (out := o) (err := e)
      (fun i h1 h2 => h i (by omega) (by omega))
    by_cases hc : q.2.2 > best
    · rw [if_pos hc, if_pos (by rw [← h2]; exact hc), ih', h3 (by omega)]
    · rw [if_neg hc, if_neg (by rw [← h2]; exact hc), ih']

/-- The receiver's result for the samples `w 0 ..` since the start. -/
def bestRef (par : Parity) (w : Nat → Int) : UInt8 × Bool :=
  let r := bestFold (fun ph => valRef par (fun b => w (ph + 16 * b))) 0 0 true 0 8
  (r.2.1, r.2.2)

/-- Once a phase has been taken, or with a suitable start, the flag does not depend on the caller's variable. -/
theorem bestFold_err {f : Nat → UInt8 × Bool × Nat} : ∀ {n ph best : Nat} {out : UInt8} {err : Bool},
    let r := bestFold f best out err ph n
    let r' := bestFold f best out true ph n
    r.1 = r'.1 ∧ r.2.1 = r'.2.1 ∧ (best < r.1 → r.2.2 = r'.2.2) ∧ (best = r.1 → r.2.2 = err ∧ r'.2.2 = true) ∧
      best ≤ r.1 := by
  intro n
  induction n with
  | zero => intro ph best out err; simp [bestFold]
  | succ n ih =>
    intro ph best out err
    simp only [bestFold]
    by_cases hc : (f ph).2.2 > best
    · rw [if_pos hc, if_pos hc]
      have := ih (ph := ph + 1) (best := (f ph).2.2) (out := (f ph).1) (err := (f ph).2.1)
      dsimp only at this
      refine ⟨rfl, rfl, fun _ => rfl, ?_, by omega⟩
      intro he; omega
    · rw [if_neg hc, if_neg hc]
      exact ih

theorem findBestPhase_ok {u : Uart} {w : Nat → Int} (h : u.reg.Win 168 w) (err : Bool) :
    u.findBestPhase 0 err = .ok (bestRef u.parity (fun i => w (u.parity.base + i))) := by
  unfold Uart.findBestPhase
  rw [phases_ok (f := fun ph => valRef u.parity (fun b => w (u.parity.base + ph + 16 * b))) (by
    intro i _ hi
    exact tryPhase_ok h (by omega))]
  simp only [Res.ok_bind, bestRef]
  have := bestFold_err (f := fun ph => valRef u.parity (fun b => w (u.parity.base + ph + 16 * b)))
    (n := 8) (ph := 0) (best := 0) (out := 0) (err := err)
  dsimp only at this
  have e : (fun ph => valRef u.parity (fun b => w (u.parity.base + (ph + 16 * b)))) =
      fun ph => valRef u.parity (fun b => w (u.parity.base + ph + 16 * b)) := by
    funext ph; simp only [Nat.add_assoc]
  rw [e]
  obtain ⟨h1, h2, h3, h4, h5⟩ := this
  congr 1
  rw [h2]
  by_cases hz : (bestFold (fun ph => valRef u.parity (fun b => w (u.parity.base + ph + 16 * b))) 0 0 err 0 8).1 = 0
  · rw [if_pos hz, (h4 hz.symm).2]
  · rw [if_neg hz, h3 (by omega)]

/-- If phase `i` has a positive probability, the result is that of a phase with maximal probability. -/
theorem bestFold_max {f : Nat → UInt8 × Bool × Nat} : ∀ {n ph best : Nat} {out : UInt8} {err : Bool},
    let r := bestFold f best out err ph n
    (∀ i, ph ≤ i → i < ph + n → (f i).2.2 ≤ r.1) ∧
      ((r = (best, out, err)) ∨ ∃ i, ph ≤ i ∧ i < ph + n ∧ r = ((f i).2.2, (f i).1, (f i).2.1)) ∧ best ≤ r.1 := by
  intro n
  induction n with
  | zero => intro ph best out err; exact ⟨fun i h1 h2 => by omega, Or.inl rfl, Nat.le_refl _⟩
  | succ n ih =>
    intro ph best out err
    simp only [bestFold]
    by_cases hc : (f ph).2.2 > best
    · rw [if_pos hc]
      obtain ⟨h1, h2, h3⟩ := ih (ph := ph + 1) (best := (f ph).2.2) (out := (f ph).1) (err := (f ph).2.1)
      refine ⟨?_, Or.inr ?_, by omega⟩
      · intro i hi1 hi2
        by_cases he : i = ph
        · subst he; exact h3
        · exact h1 i (by omega) (by omega)
      · rcases h2 with h2 | ⟨i, a, b, c⟩
        · exact ⟨ph, by omega, by omega, h2⟩
        · exact ⟨i, by omega, by omega, c⟩
    · rw [if_neg hc]
      obtain ⟨h1, h2, h3⟩ := ih (ph := ph + 1) (best := best) (out := out) (err := err)
      refine ⟨?_, ?_, h3⟩
      · intro i hi1 hi2
        by_cases he : i = ph
        · subst he; omega
        · exact h1 i (by omega) (by omega)
      · rcases h2 with h2 | ⟨i, a, b, c⟩
        · exact Or.inl h2
        · exact Or.inr ⟨i, by omega, by omega, c⟩

theorem bestRef_max {par : Parity} {w : Nat → Int} {i : Nat} (hi : i < 8)
    (hp : 0 < (valRef par (fun b => w (i + 16 * b))).2.2) :
    ∃ j < 8, bestRef par w = ((valRef par (fun b => w (j + 16 * b))).1, (valRef par (fun b => w (j + 16 * b))).2.1) ∧
      ∀ k < 8, (valRef par (fun b => w (k + 16 * b))).2.2 ≤ (valRef par (fun b => w (j + 16 * b))).2.2 := by
  obtain ⟨h1, h2, h3⟩ := bestFold_max (f := fun ph => valRef par (fun b => w (ph + 16 * b)))
    (n := 8) (ph := 0) (best := 0) (out := 0) (err := true)
  rcases h2 with h2 | ⟨j, a, b, c⟩
  · have := h1 i (by omega) (by omega)
    rw [h2] at this
    have h4 : (valRef par (fun b => w (i + 16 * b))).2.2 ≤ 0 := this
    omega
  · refine ⟨j, by omega, ?_, ?_⟩
    · unfold bestRef
      dsimp only
      rw [c]
    · intro k hk
      have := h1 k (by omega) (by omega)
      rw [c] at this
      exact this

theorem valRef_congr {par : Parity} {s s' : Nat → Int} (h : ∀ b < par.bits, s b = s' b) :
    valRef par s = valRef par s' := by
  unfold valRef
  cases par <;> simp only [Parity.bits] at h <;> rw [h 0 (by decide)] <;> split
  · rfl
  · dsimp only
    rw [extFold_congr (step := Ext.stepPlain) (b := 1) (n := 9) (f := s) (g := s') (fun i h1 h2 => h i (by omega))]
  · rfl
  · dsimp only
    rw [extFold_congr (step := Ext.stepParity) (b := 1) (n := 10) (f := s) (g := s') (fun i h1 h2 => h i (by omega))]
  · rfl
  · dsimp only
    rw [extFold_congr (step := Ext.stepParity) (b := 1) (n := 10) (f := s) (g := s') (fun i h1 h2 => h i (by omega))]

theorem bestFold_congr {f g : Nat → UInt8 × Bool × Nat} : ∀ {n ph best : Nat} {out : UInt8} {err : Bool},
    (∀ i, ph ≤ i → i < ph + n → f i = g i) → bestFold f best out err ph n = bestFold g best out err ph n := by
  intro n
  induction n with
  | zero => intros; rfl
  | succ n ih =>
    intro ph best out err h
    have h0 := h ph (Nat.le_refl _) (by omega)
    simp only [bestFold, h0]
    split <;> exact ih (fun i h1 h2 => h i (by omega) (by omega))

theorem bestRef_congr {par : Parity} {w w' : Nat → Int} (h : ∀ i < par.len, w i = w' i) :
    bestRef par w = bestRef par w' := by
  unfold bestRef
  rw [bestFold_congr (g := fun ph => valRef par (fun b => w' (ph + 16 * b)))]
  intro i _ hi
  apply valRef_congr
  intro b hb
  apply h
  unfold Parity.len
  cases par <;> simp only [Parity.bits] at * <;> omega

/-! ## Steps -/

/-- One call of `Update` as made by the receive core: `rx_data` is cleared before, `rx_error` is whatever it was. -/
def Uart.step (S : Nat) (err : Bool) (u : Uart) (v : Int) : Res (Uart × Option (UInt8 × Bool)) := u.update S v 0 err

theorem shift_ok {S : Nat} {u : Uart} {w : Nat → Int} (h : u.reg.Win 168 w) (v : Int) :
    ∃ r : ShiftReg Int, r.Win 168 (slide 168 w v) ∧
      u.shift S v = .ok { u with
        reg := r
        counter := (u.counter + (2 ^ S - 1)) % 2 ^ S
        state := if (u.counter + (2 ^ S - 1)) % 2 ^ S = 0 then .stop else u.state } := by
  obtain ⟨r, h1, h2⟩ := h.push v
  refine ⟨r, h2, ?_⟩
  have hl : uartLen = 168 := rfl
  simp only [Uart.shift, hl, h1, Res.ok_bind]

theorem dec_pos {S c : Nat} (h0 : 0 < c) (h : c < 2 ^ S) : (c + (2 ^ S - 1)) % 2 ^ S = c - 1 := by
  have : c + (2 ^ S - 1) = (c - 1) + 2 ^ S := by omega
  rw [this, Nat.add_mod_right, Nat.mod_eq_of_lt (by omega)]

theorem dec_zero {S : Nat} : (0 + (2 ^ S - 1)) % 2 ^ S = 2 ^ S - 1 := by
  have : 0 < 2 ^ S := Nat.two_pow_pos S
  rw [Nat.zero_add, Nat.mod_eq_of_lt (by omega)]

theorem step_waitIdle {S : Nat} {err : Bool} {u : Uart} (hs : u.state = .waitIdle) (v : Int) :
    u.step S err v = .ok (if toI16 v = 0 then { u with state := .waitStart } else u, none) := by
  simp only [Uart.step, Uart.update, hs]

theorem step_stop {S : Nat} {err : Bool} {u : Uart} {w : Nat → Int} (hs : u.state = .stop) (h : u.reg.Win 168 w) (v : Int) :
    u.step S err v = .ok ({ u with state := .waitIdle }, some (bestRef u.parity (fun i => w (u.parity.base + i)))) := by
  simp only [Uart.step, Uart.update, hs, findBestPhase_ok h, Res.ok_bind]

theorem step_data {S : Nat} {err : Bool} {u : Uart} {w : Nat → Int} (hs : u.state = .data) (h : u.reg.Win 168 w)
    (h0 : 0 < u.counter) (hc : u.counter < 2 ^ S) (v : Int) :
    ∃ u', u.step S err v = .ok (u', none) ∧ u'.reg.Win 168 (slide 168 w (toI16 v)) ∧ u'.parity = u.parity ∧
      u'.counter = u.counter - 1 ∧ u'.state = if u.counter = 1 then .stop else .data := by
  obtain ⟨r, h1, h2⟩ := shift_ok (S := S) h (toI16 v)
  refine ⟨{ u with reg := r, counter := u.counter - 1, state := if u.counter = 1 then .stop else .data }, ?_, h1, rfl, rfl, rfl⟩
  simp only [Uart.step, Uart.update, hs, h2, Res.ok_bind, dec_pos h0 hc]
  congr 4
  exact propext (by omega)

theorem step_start {S : Nat} {err : Bool} {u : Uart} {w : Nat → Int} (hS : 8 ≤ S) (hs : u.state = .waitStart)
    (h : u.reg.Win 168 w) {v : Int} (hv : toI16 v ≠ 0) :
    ∃ u', u.step S err v = .ok (u', none) ∧ u'.reg.Win 168 (slide 168 w (toI16 v)) ∧ u'.parity = u.parity ∧
      u'.counter = u.parity.len - 1 ∧ u'.state = .data := by
  have h2S : 2 ^ 8 ≤ 2 ^ S := Nat.pow_le_pow_right (by decide) hS
  have hlen : u.parity.frame - 8 = u.parity.len := by
    cases u.parity <;> rfl
  have hl : 0 < u.parity.len ∧ u.parity.len - 1 ≠ 0 ∧ u.parity.len < 2 ^ S := by
    have : u.parity.len ≤ 168 ∧ 152 ≤ u.parity.len := by cases u.parity <;> decide
    omega
  obtain ⟨r, h1, h2⟩ := shift_ok (S := S) (u := { u with state := .data, counter := u.parity.len }) h (toI16 v)
  refine ⟨{ u with reg := r, counter := u.parity.len - 1, state := .data }, ?_, h1, rfl, rfl, rfl⟩
  simp only [Uart.step, Uart.update, hs]
  rw [if_pos hv, hlen, h2]
  simp only [Res.ok_bind]
  rw [dec_pos hl.1 hl.2.2, if_neg hl.2.1]

theorem step_wait {S : Nat} {err : Bool} {u : Uart} {w : Nat → Int} (hs : u.state = .waitStart)
    (h : u.reg.Win 168 w) {v : Int} (hv : toI16 v = 0) :
    ∃ u', u.step S err v = .ok (u', none) ∧ u'.reg.Win 168 (slide 168 w 0) ∧ u'.parity = u.parity ∧
      u'.counter = (u.counter + (2 ^ S - 1)) % 2 ^ S ∧
      u'.state = if (u.counter + (2 ^ S - 1)) % 2 ^ S = 0 then .stop else .waitStart := by
  obtain ⟨r, h1, h2⟩ := shift_ok (S := S) h 0
  refine ⟨{ u with
    reg := r
    counter := (u.counter + (2 ^ S - 1)) % 2 ^ S
    state := if (u.counter + (2 ^ S - 1)) % 2 ^ S = 0 then .stop else .waitStart }, ?_, h1, rfl, rfl, rfl⟩
  simp only [Uart.step, Uart.update, hs, hv, ne_eq, not_true, if_false, h2, Res.ok_bind]

/-! ## Capturing a frame -/

theorem feed_snoc {σ α β : Type} {step : σ → α → Res (σ × β)} {s s1 s2 : σ} {x : Nat → α} {n : Nat} {l : List β} {o : β}
    (h : feed step s x n = .ok (s1, l)) (h' : step s1 (x n) = .ok (s2, o)) :
    feed step s x (n + 1) = .ok (s2, l ++ [o]) := by
  simp only [feed, h, Res.ok_bind, h']

theorem feed_add {σ α β : Type} {step : σ → α → Res (σ × β)} {s s1 : σ} {x : Nat → α} {n : Nat} {l : List β}
    (h : feed step s x n = .ok (s1, l)) : ∀ {m : Nat} {s2 : σ} {l2 : List β},
    feed step s1 (fun i => x (n + i)) m = .ok (s2, l2) → feed step s x (n + m) = .ok (s2, l ++ l2) := by
  intro m
  induction m with
  | zero =>
    intro s2 l2 h2
    simp only [feed, Res.ok.injEq, Prod.mk.injEq] at h2
    rw [Nat.add_zero, h, ← h2.1, ← h2.2, List.append_nil]
  | succ m ih =>
    intro s2 l2 h2
    simp only [feed] at h2
    obtain ⟨⟨a, b⟩, h3, h4⟩ := Res.bind_eq_ok.mp h2
    obtain ⟨⟨c, d⟩, h5, h6⟩ := Res.bind_eq_ok.mp h4
    simp only [Res.ok.injEq, Prod.mk.injEq] at h6
    have := feed_snoc (ih h3) h5
    rw [← Nat.add_assoc, this, ← h6.1, ← h6.2, List.append_assoc]

theorem capture {S : Nat} {err : Bool} {u : Uart} {w : Nat → Int} (hS : 8 ≤ S) (hs : u.state = .waitStart)
    (h : u.reg.Win 168 w) {x : Nat → Int} (hv : toI16 (x 0) ≠ 0) (j : Nat) (hj : j < u.parity.len) :
    ∃ u' w', feed (Uart.step S err) u x (j + 1) = .ok (u', List.replicate (j + 1) none) ∧ u'.reg.Win 168 w' ∧
      u'.parity = u.parity ∧ u'.counter = u.parity.len - (j + 1) ∧
      u'.state = (if j + 1 = u.parity.len then .stop else .data) ∧ ∀ i < j + 1, w' (168 - (j + 1) + i) = toI16 (x i) := by
  have hlb : 152 ≤ u.parity.len ∧ u.parity.len ≤ 168 := by cases u.parity <;> decide
  have h2S : 2 ^ 8 ≤ 2 ^ S := Nat.pow_le_pow_right (by decide) hS
  induction j with
  | zero =>
    obtain ⟨u', h1, h2, h3, h4, h5⟩ := step_start (err := err) hS hs h hv
    refine ⟨u', _, feed_snoc rfl h1, h2, h3, h4, ?_, ?_⟩
    · rw [if_neg (by omega), h5]
    · intro i hi
      have : i = 0 := by omega
      subst this
      rfl
  | succ j ih =>
    obtain ⟨u1, w1, h1, h2, h3, h4, h5, h6⟩ := ih (by omega)
    rw [if_neg (by omega)] at h5
    obtain ⟨u', g1, g2, g3, g4, g5⟩ := step_data (S := S) (err := err) h5 h2 (by omega) (by omega) (x (j + 1))
    refine ⟨u', _, ?_, g2, by rw [g3, h3], by omega, ?_, ?_⟩
    · rw [feed_snoc h1 g1, ← List.replicate_succ']
    · rw [g5, h4]
      by_cases hc : j + 1 + 1 = u.parity.len
      · rw [if_pos hc, if_pos (by omega)]
      · rw [if_neg hc, if_neg (by omega)]
    · intro i hi
      unfold slide
      by_cases hc : i < j + 1
      · rw [if_pos (by omega), ← h6 i hc]
        congr 1; omega
      · have : i = j + 1 := by omega
        subst this
        rw [if_neg (by omega)]

/-- A whole frame: nothing for `len` samples, then the result. -/
theorem capture_frame {S : Nat} {err : Bool} {u : Uart} {w : Nat → Int} (hS : 8 ≤ S) (hs : u.state = .waitStart)
    (h : u.reg.Win 168 w) {x : Nat → Int} (hv : toI16 (x 0) ≠ 0) :
    ∃ u' w', feed (Uart.step S err) u x (u.parity.len + 1) =
        .ok (u', List.replicate u.parity.len none ++ [some (bestRef u.parity (fun i => toI16 (x i)))]) ∧
      u'.reg.Win 168 w' ∧ u'.parity = u.parity ∧ u'.counter = 0 ∧ u'.state = .waitIdle := by
  have hlb : 152 ≤ u.parity.len ∧ u.parity.len ≤ 168 := by cases u.parity <;> decide
  obtain ⟨u1, w1, h1, h2, h3, h4, h5, h6⟩ := capture (err := err) hS hs h hv (u.parity.len - 1) (by omega)
  have hl : u.parity.len - 1 + 1 = u.parity.len := by omega
  rw [hl] at h1 h4 h5 h6
  rw [if_pos rfl] at h5
  have hstop := step_stop (S := S) (err := err) h5 h2 (x u.parity.len)
  refine ⟨{ u1 with state := .waitIdle }, w1, ?_, h2, h3, by show u1.counter = 0; omega, rfl⟩
  rw [feed_snoc h1 hstop]
  congr 4
  rw [h3]
  congr 1
  apply bestRef_congr
  intro i hi
  rw [← h6 i hi]
  congr 1
  have : u.parity.base = 168 - u.parity.len := by cases u.parity <;> rfl
  omega

/-- Everything is in range in every history. -/
structure Uart.Ok (S : Nat) (par : Parity) (u : Uart) : Prop where
  win : ∃ w, u.reg.Win 168 w
  par : u.parity = par
  cnt : u.counter < 2 ^ S
  data : u.state = .data → 0 < u.counter

theorem Uart.Ok.init {S : Nat} (par : Parity) : Uart.Ok S par (Uart.init par) :=
  ⟨⟨_, ShiftReg.Win.zero (by decide)⟩, rfl, Nat.two_pow_pos S, fun h => by cases h⟩

theorem Uart.Ok.step {S : Nat} {par : Parity} {u : Uart} (hS : 8 ≤ S) (err : Bool) (h : u.Ok S par) (v : Int) :
    ∃ u' o, u.step S err v = .ok (u', o) ∧ u'.Ok S par := by
  have h2S : 2 ^ 8 ≤ 2 ^ S := Nat.pow_le_pow_right (by decide) hS
  have hlb : 152 ≤ u.parity.len ∧ u.parity.len ≤ 168 := by cases u.parity <;> decide
  obtain ⟨⟨w, hw⟩, hp, hc, hd⟩ := h
  cases hs : u.state with
  | waitIdle =>
    refine ⟨_, _, step_waitIdle hs v, ?_⟩
    by_cases hz : toI16 v = 0
    · rw [if_pos hz]; exact ⟨⟨w, hw⟩, hp, hc, fun h => by cases h⟩
    · rw [if_neg hz]; exact ⟨⟨w, hw⟩, hp, hc, hd⟩
  | waitStart =>
    by_cases hz : toI16 v = 0
    · obtain ⟨u', h1, h2, h3, h4, h5⟩ := step_wait (S := S) (err := err) hs hw hz
      refine ⟨u', _, h1, ⟨_, h2⟩, by rw [h3, hp], by rw [h4]; exact Nat.mod_lt _ (by omega), fun hh => ?_⟩
      rw [h5] at hh
      split at hh <;> cases hh
    · obtain ⟨u', h1, h2, h3, h4, h5⟩ := step_start (S := S) (err := err) hS hs hw hz
      exact ⟨u', _, h1, ⟨_, h2⟩, by rw [h3, hp], by omega, fun _ => by omega⟩
  | data =>
    obtain ⟨u', h1, h2, h3, h4, h5⟩ := step_data (S := S) (err := err) hs hw (hd hs) hc v
    refine ⟨u', _, h1, ⟨_, h2⟩, by rw [h3, hp], by omega, fun hh => ?_⟩
    rw [h5] at hh
    split at hh
    · cases hh
    · have := hd hs; omega
  | stop =>
    exact ⟨_, _, step_stop hs hw v, ⟨w, hw⟩, hp, hc, fun h => by cases h⟩

theorem Uart.Ok.feed {S : Nat} {par : Parity} {u : Uart} (hS : 8 ≤ S) (err : Bool) (h : u.Ok S par) (x : Nat → Int)
    (n : Nat) : ∃ u' l, P1P2.feed (Uart.step S err) u x n = .ok (u', l) ∧ u'.Ok S par ∧ l.length = n := by
  induction n with
  | zero => exact ⟨u, [], rfl, h, rfl⟩
  | succ n ih =>
    obtain ⟨u1, l, h1, h2, h3⟩ := ih
    obtain ⟨u2, o, h4, h5⟩ := h2.step hS err (x n)
    exact ⟨u2, l ++ [o], feed_snoc h1 h4, h5, by simp [h3]⟩

end P1P2
