import Verif.Proofs.Uart
/-!
# C45, C46: when the receiver delivers results

`Uart.step S err` is one call of the receiver on a detector value, `S` the width of `size_t`, `err` the (possibly
uninitialised) previous value of the caller's error variable.
-/
namespace P1P2

/-! ## C46 -/

/-- **C46, safety.** For every parity mode and every stream the receiver never reads outside its register. -/
theorem C46_safe {S : Nat} (hS : 8 ≤ S) (par : Parity) (err : Bool) (x : Nat → Int) (n : Nat) :
    ∃ u l, feed (Uart.step S err) (Uart.init par) x n = .ok (u, l) ∧ l.length = n := by
  obtain ⟨u, l, h, -, hl⟩ := (Uart.Ok.init (S := S) par).feed hS err x n
  exact ⟨u, l, h, hl⟩

/-- Number of samples from the start to the result: 168 with parity, 152 without. -/
def resultDelay (par : Parity) : Nat := if par = .none then 152 else 168

theorem resultDelay_eq (par : Parity) : resultDelay par = par.len := by cases par <;> rfl

/-- **C46.** There is a function `F` of the `resultDelay` samples from the start on such that for every stream: if the
receiver is not receiving after `T` samples and sample `T` is not zero, it gives no result for samples `T` to
`T + resultDelay - 1` and the result `F` at sample `T + resultDelay`, after which it is still receiving. -/
theorem C46_fixed_delay {S : Nat} (hS : 8 ≤ S) (par : Parity) (err : Bool) :
    ∃ F : (Nat → Int) → UInt8 × Bool,
      (∀ w w' : Nat → Int, (∀ i < resultDelay par, w i = w' i) → F w = F w') ∧
      ∀ (x : Nat → Int) (T : Nat) (u : Uart) (l : List (Option (UInt8 × Bool))),
        feed (Uart.step S err) (Uart.init par) x T = .ok (u, l) → u.receiving = false → toI16 (x T) ≠ 0 →
        ∃ u', feed (Uart.step S err) (Uart.init par) x (T + (resultDelay par + 1)) =
            .ok (u', l ++ (List.replicate (resultDelay par) none ++ [some (F (fun i => toI16 (x (T + i))))])) ∧
          u'.receiving = true := by
  refine ⟨bestRef par, fun w w' h => bestRef_congr (by rw [← resultDelay_eq]; exact h), ?_⟩
  intro x T u l h hr hv
  obtain ⟨u0, l0, h0, hok, -⟩ := (Uart.Ok.init (S := S) par).feed hS err x T
  rw [h] at h0
  simp only [Res.ok.injEq, Prod.mk.injEq] at h0
  obtain ⟨rfl, rfl⟩ := h0
  obtain ⟨w, hw⟩ := hok.win
  have hs : u.state = .waitStart := by
    cases hst : u.state <;> simp [Uart.receiving, hst] at hr
    rfl
  obtain ⟨u', w', h1, -, h3, h4, h5⟩ := capture_frame (err := err) hS hs hw (x := fun i => x (T + i)) hv
  rw [hok.par] at h1
  refine ⟨u', ?_, by simp [Uart.receiving, h5]⟩
  rw [resultDelay_eq]
  exact feed_add h h1

/-- The values as seen by the receiver. -/
def startsAt (S : Nat) (par : Parity) (err : Bool) (x : Nat → Int) (T : Nat) : Prop :=
  ∃ u l, feed (Uart.step S err) (Uart.init par) x T = .ok (u, l) ∧ u.receiving = false ∧ toI16 (x T) ≠ 0

/-- What holds after `n < 2^S` samples. -/
structure StartInv (S : Nat) (par : Parity) (err : Bool) (x : Nat → Int) (n : Nat) (u : Uart) : Prop where
  ok : u.Ok S par
  wait : u.state = .waitStart ∨ u.state = .waitIdle → u.counter = 0 ∨ 2 ^ S ≤ u.counter + n
  data : u.state = .data → ∃ T, startsAt S par err x T ∧ T + (par.len - u.counter) = n
  stop : u.state = .stop → ∃ T, startsAt S par err x T ∧ T + par.len = n ∧ u.counter = 0

theorem startInv {S : Nat} (hS : 8 ≤ S) (par : Parity) (err : Bool) (x : Nat → Int) (n : Nat) (hn : n < 2 ^ S) :
    ∃ u l, feed (Uart.step S err) (Uart.init par) x n = .ok (u, l) ∧ StartInv S par err x n u ∧ l.length = n ∧
      ∀ (k : Nat) (r : UInt8 × Bool), l[k]? = some (some r) → ∃ T, startsAt S par err x T ∧ T + par.len = k := by
  have hlb : 152 ≤ par.len ∧ par.len ≤ 168 := by cases par <;> decide
  have h2S : 2 ^ 8 ≤ 2 ^ S := Nat.pow_le_pow_right (by decide) hS
  induction n with
  | zero =>
    exact ⟨_, [], rfl, ⟨Uart.Ok.init par, fun _ => Or.inl rfl, fun h => (by cases h), fun h => (by cases h)⟩, rfl,
      fun k r h => by simp at h⟩
  | succ n ih =>
    obtain ⟨u, l, h1, hI, hl, hr⟩ := ih (by omega)
    obtain ⟨w, hw⟩ := hI.ok.win
    obtain ⟨u1, o1, hst, hok1⟩ := hI.ok.step hS err (x n)
    have hnone : ∀ k r, (l ++ [(none : Option (UInt8 × Bool))])[k]? = some (some r) →
        ∃ T, startsAt S par err x T ∧ T + par.len = k := by
      intro k r hk
      rw [List.getElem?_append] at hk
      split at hk
      · exact hr k r hk
      · cases hj : k - l.length <;> rw [hj] at hk <;> simp at hk
    cases hs : u.state with
    | waitIdle =>
      have e := step_waitIdle (S := S) (err := err) hs (x n)
      have hcnt := hI.wait (Or.inr hs)
      refine ⟨_, _, feed_snoc h1 e, ?_, by simp [hl], hnone⟩
      by_cases hz : toI16 (x n) = 0
      · rw [if_pos hz]
        refine ⟨⟨⟨w, hw⟩, hI.ok.par, hI.ok.cnt, fun h => (by cases h)⟩, fun _ => ?_, fun h => (by cases h), fun h => (by cases h)⟩
        show u.counter = 0 ∨ 2 ^ S ≤ u.counter + (n + 1)
        omega
      · rw [if_neg hz]
        refine ⟨hI.ok, fun _ => ?_, fun h => (by rw [hs] at h; cases h), fun h => (by rw [hs] at h; cases h)⟩
        omega
    | waitStart =>
      have hcnt := hI.wait (Or.inl hs)
      by_cases hz : toI16 (x n) = 0
      · obtain ⟨u', e, e2, e3, e4, e5⟩ := step_wait (S := S) (err := err) hs hw hz
        rw [e] at hst
        simp only [Res.ok.injEq, Prod.mk.injEq] at hst
        have hcnt' : 2 ^ S ≤ u'.counter + (n + 1) := by
          rw [e4]
          rcases hcnt with hc | hc
          · rw [hc, dec_zero]; omega
          · have hpos : 0 < u.counter := by omega
            rw [dec_pos hpos hI.ok.cnt]; omega
        have hne : ¬ (u.counter + (2 ^ S - 1)) % 2 ^ S = 0 := by
          rw [← e4]; omega
        rw [if_neg hne] at e5
        refine ⟨u', _, feed_snoc h1 e, ⟨hst.1 ▸ hok1, fun _ => Or.inr hcnt', fun h => (by rw [e5] at h; cases h),
          fun h => (by rw [e5] at h; cases h)⟩, by simp [hl], hnone⟩
      · obtain ⟨u', e, e2, e3, e4, e5⟩ := step_start (S := S) (err := err) hS hs hw hz
        rw [e] at hst
        simp only [Res.ok.injEq, Prod.mk.injEq] at hst
        refine ⟨u', _, feed_snoc h1 e, ⟨hst.1 ▸ hok1, fun h => ?_, fun _ => ?_, fun h => (by rw [e5] at h; cases h)⟩,
          by simp [hl], hnone⟩
        · rw [e5] at h; rcases h with h | h <;> cases h
        · refine ⟨n, ⟨u, l, h1, by simp [Uart.receiving, hs], hz⟩, ?_⟩
          rw [e4, hI.ok.par]; omega
    | data =>
      obtain ⟨T, hT, hTn⟩ := hI.data hs
      have hpos := hI.ok.data hs
      have hcl : u.counter ≤ par.len := by
        refine Nat.le_of_not_lt (fun hc => ?_)
        have : par.len - u.counter = 0 := by omega
        obtain ⟨u2, l2, q1, q2, -⟩ := hT
        have hTn' : T = n := by omega
        subst hTn'
        rw [h1] at q1
        simp only [Res.ok.injEq, Prod.mk.injEq] at q1
        rw [← q1.1] at q2
        simp [Uart.receiving, hs] at q2
      obtain ⟨u', e, e2, e3, e4, e5⟩ := step_data (S := S) (err := err) hs hw hpos hI.ok.cnt (x n)
      rw [e] at hst
      simp only [Res.ok.injEq, Prod.mk.injEq] at hst
      refine ⟨u', _, feed_snoc h1 e, ⟨hst.1 ▸ hok1, fun h => ?_, fun _ => ⟨T, hT, by omega⟩, fun h => ?_⟩,
        by simp [hl], hnone⟩
      · rw [e5] at h
        split at h <;> rcases h with h | h <;> cases h
      · rw [e5] at h
        split at h
        · exact ⟨T, hT, by omega, by omega⟩
        · cases h
    | stop =>
      obtain ⟨T, hT, hTn, hc0⟩ := hI.stop hs
      have e := step_stop (S := S) (err := err) hs hw (x n)
      refine ⟨_, _, feed_snoc h1 e, ⟨⟨⟨w, hw⟩, hI.ok.par, hI.ok.cnt, fun h => (by cases h)⟩, fun _ => Or.inl hc0,
        fun h => (by cases h), fun h => (by cases h)⟩, by simp [hl], ?_⟩
      intro k r hk
      rw [List.getElem?_append] at hk
      split at hk
      · exact hr k r hk
      · rename_i hlt
        by_cases hkl : k = l.length
        · exact ⟨T, hT, by omega⟩
        · have : 1 ≤ k - l.length := by omega
          rw [List.getElem?_eq_none (by simpa using this)] at hk
          cases hk

/-- **C46, converse.** During the first `2^S` samples (7.7 hours with a 32-bit `size_t`) every result at sample `k`
has its own start at sample `k - resultDelay`: the receiver was not receiving and the sample was not zero. -/
theorem C46_one_result_per_start {S : Nat} (hS : 8 ≤ S) (par : Parity) (err : Bool) (x : Nat → Int) (n : Nat)
    (hn : n < 2 ^ S) :
    ∃ u l, feed (Uart.step S err) (Uart.init par) x n = .ok (u, l) ∧
      ∀ (k : Nat) (r : UInt8 × Bool), l[k]? = some (some r) →
        ∃ T, startsAt S par err x T ∧ T + resultDelay par = k := by
  obtain ⟨u, l, h1, -, -, h2⟩ := startInv hS par err x n hn
  exact ⟨u, l, h1, by rw [resultDelay_eq]; exact h2⟩

/-! ## C45 -/

theorem silent_run {S : Nat} (par : Parity) (err : Bool) (x : Nat → Int) (hx : ∀ k, toI16 (x k) = 0) (n : Nat)
    (hn : n < 2 ^ S) :
    ∃ u, feed (Uart.step S err) (Uart.init par) x (n + 1) = .ok (u, List.replicate (n + 1) none) ∧
      u.state = .waitStart ∧ u.reg.Win 168 (fun _ => 0) ∧ u.parity = par ∧ u.counter = (2 ^ S - n) % 2 ^ S := by
  induction n with
  | zero =>
    have e := step_waitIdle (S := S) (err := err) (u := Uart.init par) rfl (x 0)
    rw [if_pos (hx 0)] at e
    exact ⟨{ Uart.init par with state := .waitStart }, feed_snoc rfl e, rfl, ShiftReg.Win.zero (by decide), rfl, by
      show 0 = _
      simp⟩
  | succ n ih =>
    obtain ⟨u, h1, h2, h3, h4, h5⟩ := ih (by omega)
    obtain ⟨u', e, e2, e3, e4, e5⟩ := step_wait (S := S) (err := err) h2 h3 (hx (n + 1))
    have hc : (u.counter + (2 ^ S - 1)) % 2 ^ S = 2 ^ S - (n + 1) := by
      rw [h5]
      cases n with
      | zero => simp only [Nat.sub_zero, Nat.mod_self]; rw [dec_zero]
      | succ n =>
        have e1 : (2 ^ S - (n + 1)) % 2 ^ S = 2 ^ S - (n + 1) := Nat.mod_eq_of_lt (by omega)
        rw [e1, dec_pos (by omega) (by omega)]
        omega
    refine ⟨u', ?_, ?_, ?_, by rw [e3, h4], ?_⟩
    · rw [feed_snoc h1 e, ← List.replicate_succ']
    · rw [e5, if_neg (by omega)]
    · refine e2.congr (fun i _ => ?_)
      unfold slide
      split <;> rfl
    · rw [e4, hc, Nat.mod_eq_of_lt (by omega)]

/-- **C45, partial.** On a silent line (all detector values zero) there is no result for `2^S` samples after the
first one (7.7 hours with a 32-bit `size_t`).  Missing: longer silence, see `C45_refuted`. -/
theorem C45_partial {S : Nat} (par : Parity) (err : Bool) (x : Nat → Int) (hx : ∀ k, toI16 (x k) = 0) (n : Nat)
    (hn : n ≤ 2 ^ S) :
    ∃ u, feed (Uart.step S err) (Uart.init par) x (n + 1) = .ok (u, List.replicate (n + 1) none) := by
  by_cases hc : n < 2 ^ S
  · obtain ⟨u, h, -⟩ := silent_run par err x hx n hc
    exact ⟨u, h⟩
  · have h2 : 0 < 2 ^ S := Nat.two_pow_pos S
    obtain ⟨m, rfl⟩ : ∃ m, n = m + 1 := ⟨n - 1, by omega⟩
    obtain ⟨u, h1, h2, h3, -, -⟩ := silent_run (S := S) par err x hx m (by omega)
    obtain ⟨u', e, -⟩ := step_wait (S := S) (err := err) h2 h3 (hx (m + 1))
    exact ⟨u', by rw [feed_snoc h1 e, ← List.replicate_succ']⟩

/-- **C45 is false for longer silence.** The sample counter also counts down while waiting: after `2^S` silent samples
it reaches zero and the receiver reports an erroneous byte although nothing was on the line. -/
theorem C45_refuted {S : Nat} (hS : 1 ≤ S) (par : Parity) (err : Bool) (x : Nat → Int) (hx : ∀ k, toI16 (x k) = 0) :
    ∃ u, feed (Uart.step S err) (Uart.init par) x (2 ^ S + 2) =
      .ok (u, List.replicate (2 ^ S + 1) none ++ [some (0, true)]) := by
  have h2 : 2 ^ 1 ≤ 2 ^ S := Nat.pow_le_pow_right (by decide) hS
  obtain ⟨u, h1, h2', h3, h4, h5⟩ := silent_run (S := S) par err x hx (2 ^ S - 1) (by omega)
  have hl : 2 ^ S - 1 + 1 = 2 ^ S := by omega
  rw [hl] at h1
  obtain ⟨u', e, e2, e3, e4, e5⟩ := step_wait (S := S) (err := err) h2' h3 (hx (2 ^ S))
  have hc : u.counter = 1 := by rw [h5, show 2 ^ S - (2 ^ S - 1) = 1 by omega, Nat.mod_eq_of_lt (by omega)]
  rw [hc, dec_pos (by decide) (by omega), if_pos rfl] at e5
  have hst := step_stop (S := S) (err := err) e5 e2 (x (2 ^ S + 1))
  refine ⟨{ u' with state := .waitIdle }, ?_⟩
  · have q := feed_snoc (feed_snoc h1 e) hst
    rw [show 2 ^ S + 2 = 2 ^ S + 1 + 1 from rfl, q, ← List.replicate_succ']
    congr 4
    rw [e3, h4]
    congr 1
    rw [bestRef_congr (w' := fun _ => 0) (fun i _ => by unfold slide; split <;> rfl)]
    cases par <;> decide

/-- The 32-bit instance. -/
theorem C45_refuted_rp2040 (err : Bool) :
    ∃ u, feed (Uart.step 32 err) (Uart.init .even) (fun _ => 0) 4294967298 =
      .ok (u, List.replicate 4294967297 none ++ [some (0, true)]) :=
  C45_refuted (S := 32) (by decide) .even err (fun _ => 0) (fun _ => by decide)

/-! ## C115 -/

theorem print_go {u : Uart} {w : Nat → Int} (h : u.reg.Win 168 w) : ∀ (n b : Nat), b + n ≤ 168 →
    Uart.printShiftreg.go u b n = .ok ((List.range' b n).map w) := by
  intro n
  induction n with
  | zero => intro b _; rfl
  | succ n ih =>
    intro b hb
    rw [Uart.printShiftreg.go, show uartLen = 168 from rfl, h.get (by omega), Res.ok_bind, ih (b + 1) (by omega)]
    rfl

theorem print_go_ub {u : Uart} : ∀ (n b : Nat), b ≤ 168 → 168 < b + n → Uart.printShiftreg.go u b n = .ub := by
  intro n
  induction n with
  | zero => intro b h1 h2; omega
  | succ n ih =>
    intro b h1 h2
    rw [Uart.printShiftreg.go]
    by_cases hb : b < 168
    · rw [ih (b + 1) (by omega) (by omega)]
      cases u.reg.get uartLen b <;> rfl
    · rw [ShiftReg.get, if_neg (by rw [show uartLen = 168 from rfl]; exact hb)]
      rfl

/-- **C115, what holds.** Without parity the debugging output reads nothing outside the register, at any time, and prints 160 values; if the receiver
is not receiving after `T` samples and a frame starts with sample `T`, then, when its last sample has been taken, the last 144 values printed are the
first 144 samples of the frame. -/
theorem C115_partial {S : Nat} (hS : 8 ≤ S) (err : Bool) (x : Nat → Int) (n : Nat) :
    (∃ u l vs, feed (Uart.step S err) (Uart.init .none) x n = .ok (u, l) ∧ u.printShiftreg = .ok vs ∧ vs.length = 160) ∧
    ∀ (u : Uart) (l : List (Option (UInt8 × Bool))), feed (Uart.step S err) (Uart.init .none) x n = .ok (u, l) → u.receiving = false → toI16 (x n) ≠ 0 →
      ∃ u' l' vs, feed (Uart.step S err) (Uart.init .none) x (n + 152) = .ok (u', l') ∧ u'.printShiftreg = .ok vs ∧
        vs.drop 16 = (List.range 144).map (fun i => toI16 (x (n + i))) := by
  constructor
  · obtain ⟨u, l, h, hok, -⟩ := (Uart.Ok.init (S := S) .none).feed hS err x n
    obtain ⟨w, hw⟩ := hok.win
    refine ⟨u, l, (List.range' 0 160).map w, h, ?_, ?_⟩
    · rw [Uart.printShiftreg, hok.par]
      exact print_go hw 160 0 (by omega)
    · simp
  · intro u l h hr hv
    obtain ⟨u0, l0, h0, hok, -⟩ := (Uart.Ok.init (S := S) .none).feed hS err x n
    rw [h] at h0
    simp only [Res.ok.injEq, Prod.mk.injEq] at h0
    obtain ⟨rfl, rfl⟩ := h0
    obtain ⟨w, hw⟩ := hok.win
    have hs : u.state = .waitStart := by
      cases hst : u.state <;> simp [Uart.receiving, hst] at hr
      rfl
    obtain ⟨u', w', h1, h2, h3, -, -, h6⟩ := capture (err := err) hS hs hw (x := fun i => x (n + i)) hv 151 (by rw [hok.par]; decide)
    refine ⟨u', _, (List.range' 0 160).map w', feed_add h h1, ?_, ?_⟩
    · rw [Uart.printShiftreg, h3, hok.par]
      exact print_go h2 160 0 (by omega)
    · rw [← List.map_drop, List.drop_range']
      apply List.ext_getElem
      · simp
      · intro i hi hi'
        simp at hi
        simp [← h6 i (by omega)]

/-- **C115, refuted.** With parity, which is what the modem uses, the debugging output always reads past the end of the register (an assertion fails). -/
theorem C115_refuted {S : Nat} (hS : 8 ≤ S) (par : Parity) (hp : par ≠ .none) (err : Bool) (x : Nat → Int) (n : Nat) :
    ∃ u l, feed (Uart.step S err) (Uart.init par) x n = .ok (u, l) ∧ u.printShiftreg = .ub := by
  obtain ⟨u, l, h, hok, -⟩ := (Uart.Ok.init (S := S) par).feed hS err x n
  refine ⟨u, l, h, ?_⟩
  rw [Uart.printShiftreg, hok.par]
  cases par with
  | none => exact absurd rfl hp
  | even => exact print_go_ub 176 0 (by omega) (by omega)
  | odd => exact print_go_ub 176 0 (by omega) (by omega)

/-- The hypotheses of the second part of C115 are met. -/
example : ∃ u l, feed (Uart.step 32 false) (Uart.init .none) (fun k => if k < 1 then 0 else 5) 1 = .ok (u, l) ∧ u.receiving = false ∧
    toI16 ((fun k => if k < 1 then 0 else 5 : Nat → Int) 1) ≠ 0 := by
  have e := step_waitIdle (S := 32) (err := false) (u := Uart.init .none) rfl 0
  rw [if_pos (by decide)] at e
  exact ⟨{ Uart.init .none with state := .waitStart }, _, feed_snoc rfl e, rfl, by decide⟩

end P1P2
