import Verif.Props.Core1
/-!
# C51: line-free

A run of the part of core 1 behind the DC blocker (`C1Tail.run`); every run of core 1 contains one (`run_ac`).
-/
namespace P1P2

/-- The start of `core1_entry`. -/
def C1Tail.init (rxErr : Bool) : C1Tail := (Core1.init rxErr).tail

/-- `pre` is a history that explains the state of the busy detection. -/
def IdleInv (pre : List AcOut) (t : C1Tail) : Prop :=
  0 ≤ t.idle ∧ t.idle ≤ 176 ∧ (t.busy = true → ∃ p1 p2, pre = p1 ++ p2 ∧ (p1 = [] ∨ ∃ q o, p1 = q ++ [o] ∧ o.word.lineBusy = true) ∧
    (∀ o ∈ p2, o.word.lineFree = false) ∧ t.idle = 176 - waitingCount (p2.map AcOut.receiving))

theorem IdleInv.init (e : Bool) : IdleInv [] (C1Tail.init e) :=
  ⟨by cases e <;> decide, by cases e <;> decide, fun _ => ⟨[], [], rfl, Or.inl rfl, fun o ho => (by cases ho), rfl⟩⟩

theorem waitingCount_snoc (l : List Bool) (r : Bool) : waitingCount (l ++ [r]) = waitingCount l + (if r then 0 else 1) := by
  cases r <;> simp [waitingCount]

theorem addResult_lineFree (b : Option Bool) (r : Option (UInt8 × Bool)) :
    (Word.addResult { Word.zero with lineBusy := b == some true, lineFree := b == some false } r).lineFree = (b == some false) ∧
    (Word.addResult { Word.zero with lineBusy := b == some true, lineFree := b == some false } r).lineBusy = (b == some true) := by
  cases r with
  | none => exact ⟨rfl, rfl⟩
  | some r => exact ⟨rfl, rfl⟩

theorem IdleInv.step {S : Nat} {pre : List AcOut} {t t' : C1Tail} {a : Int} {o : AcOut} (h : IdleInv pre t)
    (hs : t.step S a = .ok (t', o)) : IdleInv (pre ++ [o]) t' ∧
      (o.word.lineFree = true → o.receiving = false ∧ t.busy = true ∧ t.idle = 0) := by
  obtain ⟨h0, h1, h2⟩ := h
  obtain ⟨b, r, -, -, -, g2, g3, g4, g5, g6⟩ := tail_step hs
  have hl := addResult_lineFree b r
  rw [← g3] at hl
  have hcnt : ∀ l : List AcOut, waitingCount ((l ++ [o]).map AcOut.receiving) =
      waitingCount (l.map AcOut.receiving) + (if o.receiving then 0 else 1) := by
    intro l; rw [List.map_append]; exact waitingCount_snoc _ _
  refine ⟨⟨?_, ?_, ?_⟩, ?_⟩
  · rw [g6]; split <;> split <;> omega
  · rw [g6]; split <;> split <;> omega
  · intro hb
    rcases b with _ | _ | _
    · rw [g2] at hb
      dsimp only at hb
      obtain ⟨p1, p2, e1, e2, e3, e4⟩ := h2 hb
      refine ⟨p1, p2 ++ [o], by rw [e1, List.append_assoc], e2, ?_, ?_⟩
      · intro x hx
        rcases List.mem_append.mp hx with hx | hx
        · exact e3 x hx
        · rw [List.mem_singleton.mp hx, hl.1]; rfl
      · rw [hcnt, g6, hb]
        cases hr : o.receiving
        · have : ¬ (t.busy = true ∧ o.receiving = false ∧ ¬ t.idle > 0) := fun hc => by simpa using g5.mpr hc
          have hpos : t.idle > 0 := by
            rcases Int.lt_or_le 0 t.idle with h | h
            · exact h
            · exact absurd ⟨hb, hr, by omega⟩ this
          simp [hpos]; omega
        · simp; omega
    · rw [g2] at hb; cases hb
    · refine ⟨pre ++ [o], [], by simp, Or.inr ⟨pre, o, rfl, by rw [hl.2]; rfl⟩, fun x hx => (by cases hx), ?_⟩
      rw [g6, (g4.mp rfl).1, (g4.mp rfl).2]; rfl
  · intro hf
    rw [hl.1] at hf
    have hb : b = some false := by simpa using hf
    have := g5.mp hb
    exact ⟨this.2.1, this.1, by omega⟩

theorem tail_split {S : Nat} : ∀ (xs : List Int) {pre : List AcOut} {t t' : C1Tail} {tr : List AcOut}, IdleInv pre t →
    t.run S xs = .ok (t', tr) → ∀ p o q, tr = p ++ o :: q → o.word.lineFree = true →
    o.receiving = false ∧ ∃ p1 p2, pre ++ p = p1 ++ p2 ∧ (p1 = [] ∨ ∃ q o, p1 = q ++ [o] ∧ o.word.lineBusy = true) ∧
      (∀ o ∈ p2, o.word.lineFree = false) ∧ waitingCount (p2.map AcOut.receiving) = 176 := by
  intro xs
  induction xs with
  | nil =>
    intro pre t t' tr _ h p o q e
    simp only [C1Tail.run, Res.ok.injEq, Prod.mk.injEq] at h
    rw [e] at h
    exact absurd h.2.symm (by simp)
  | cons a as ih =>
    intro pre t t' tr hi h p o q e hf
    rw [C1Tail.run, Res.bind_eq_ok] at h
    obtain ⟨⟨t1, o1⟩, h1, h⟩ := h
    rw [Res.bind_eq_ok] at h
    obtain ⟨⟨t2, l⟩, h2, h⟩ := h
    simp only [Res.ok.injEq, Prod.mk.injEq] at h
    obtain ⟨h3, h4⟩ := hi.step h1
    rw [e] at h
    cases p with
    | nil =>
      simp only [List.nil_append, List.cons.injEq] at h
      rw [h.2.1] at h4
      obtain ⟨k1, k2, k3⟩ := h4 hf
      obtain ⟨p1, p2, e1, e2, e3, e4⟩ := hi.2.2 k2
      exact ⟨k1, p1, p2, by simpa using e1, e2, e3, by omega⟩
    | cons p0 ps =>
      simp only [List.cons_append, List.cons.injEq] at h
      obtain ⟨k1, p1, p2, e1, e2⟩ := ih h3 h2 ps o q h.2.2 hf
      exact ⟨k1, p1, p2, by rw [← e1, h.2.1]; simp, e2⟩

/-- **C51, partial.** In every run of core 1: when line-free is signalled, the receiver is waiting for a start, and since
line-busy was signalled (or since the start) it has been waiting for a start in exactly 176 samples (11 bit times).
Missing: that these samples are consecutive; that is false, see `C51_refuted`. -/
theorem C51_partial {S : Nat} (rxErr : Bool) (is : List C1In) {c : Core1} {outs : List C1Out}
    (h : (Core1.init rxErr).run S is = .ok (c, outs)) :
    ∃ xs tr, RxFront.run .init (samplesOf is) = .ok (c.front, xs) ∧ (C1Tail.init rxErr).run S xs = .ok (c.tail, tr) ∧
      (sent outs ++ [c.word]).flatMap Word.lineEvents = (tr.map AcOut.word).flatMap Word.lineEvents ∧
      ∀ p o q, tr = p ++ o :: q → o.word.lineFree = true → o.receiving = false ∧
        ∃ p1 p2, p = p1 ++ p2 ∧ (p1 = [] ∨ ∃ q o, p1 = q ++ [o] ∧ o.word.lineBusy = true) ∧
          waitingCount (p2.map AcOut.receiving) = 176 := by
  obtain ⟨xs, tr, h1, h2, h3⟩ := run_ac is h
  refine ⟨xs, tr, h1, h2, ?_, ?_⟩
  · have := h3 Word.lineEvents rfl (Or.inl rfl)
    rw [List.flatMap_append]
    have e : List.flatMap Word.lineEvents [c.word] = c.word.lineEvents := by simp
    rw [e, this]; rfl
  · intro p o q e hf
    obtain ⟨k1, p1, p2, e1, e2, -, e3⟩ := tail_split xs (IdleInv.init rxErr) h2 p o q e hf
    exact ⟨k1, p1, p2, by simpa using e1, e2, e3⟩

/-- Without line-free the busy detection stays busy and uses up its counter. -/
theorem busy_count {S : Nat} : ∀ (xs : List Int) {t t' : C1Tail} {tr : List AcOut}, t.run S xs = .ok (t', tr) → t.busy = true →
    0 ≤ t.idle → (∀ o ∈ tr, o.word.lineFree = false) → t'.busy = true ∧ 0 ≤ t'.idle ∧
      t'.idle = t.idle - waitingCount (tr.map AcOut.receiving) := by
  intro xs
  induction xs with
  | nil =>
    intro t t' tr h hb h0 _
    simp only [C1Tail.run, Res.ok.injEq, Prod.mk.injEq] at h
    rw [← h.1, ← h.2]
    exact ⟨hb, h0, by simp [waitingCount]⟩
  | cons a as ih =>
    intro t t' tr h hb h0 hf
    rw [C1Tail.run, Res.bind_eq_ok] at h
    obtain ⟨⟨t1, o1⟩, h1, h⟩ := h
    rw [Res.bind_eq_ok] at h
    obtain ⟨⟨t2, l⟩, h2, h⟩ := h
    simp only [Res.ok.injEq, Prod.mk.injEq] at h
    obtain ⟨rfl, rfl⟩ := h
    obtain ⟨b, r, -, -, -, g2, g3, g4, g5, g6⟩ := tail_step h1
    have hl := addResult_lineFree b r
    rw [← g3, hf o1 (List.mem_cons_self ..)] at hl
    have hb1 : t1.busy = true := by
      rw [g2]
      rcases b with _ | _ | _
      · exact hb
      · simp at hl
      · rfl
    have h3 : t1.idle = t.idle - (if o1.receiving then 0 else 1) ∧ 0 ≤ t1.idle := by
      rw [g6, hb]
      cases hr : o1.receiving
      · have hpos : t.idle > 0 := by
          rcases Int.lt_or_le 0 t.idle with h | h
          · exact h
          · have := g5.mpr ⟨hb, hr, by omega⟩
            rw [this] at hl; simp at hl
        simp [hpos]; omega
      · simp; omega
    obtain ⟨k1, k2, k3⟩ := ih h2 hb1 h3.2 (fun o ho => hf o (List.mem_cons_of_mem _ ho))
    refine ⟨k1, k2, ?_⟩
    have hc : waitingCount ((o1 :: l).map AcOut.receiving) = (if o1.receiving then 0 else 1) + waitingCount (l.map AcOut.receiving) := by
      rw [List.map_cons]
      cases o1.receiving <;> simp [waitingCount]; omega
    rw [hc]
    dsimp only at k3
    rw [k3, h3.1]
    split <;> omega

theorem IdleInv.run {S : Nat} : ∀ (xs : List Int) {pre : List AcOut} {t t' : C1Tail} {tr : List AcOut}, IdleInv pre t →
    t.run S xs = .ok (t', tr) → IdleInv (pre ++ tr) t' := by
  intro xs
  induction xs with
  | nil =>
    intro pre t t' tr hi h
    simp only [C1Tail.run, Res.ok.injEq, Prod.mk.injEq] at h
    rw [← h.1, ← h.2, List.append_nil]
    exact hi
  | cons a as ih =>
    intro pre t t' tr hi h
    rw [C1Tail.run, Res.bind_eq_ok] at h
    obtain ⟨⟨t1, o1⟩, h1, h⟩ := h
    rw [Res.bind_eq_ok] at h
    obtain ⟨⟨t2, l⟩, h2, h⟩ := h
    simp only [Res.ok.injEq, Prod.mk.injEq] at h
    obtain ⟨rfl, rfl⟩ := h
    have := ih (hi.step h1).1 h2
    rwa [List.append_assoc] at this

/-- **C51, the other direction.** After any history, if the line is busy, 177 samples in which the receiver is waiting for
a start are enough: line-free is signalled among them. -/
theorem C51_silence_is_free {S : Nat} (e : Bool) (xs ys : List Int) {t t' : C1Tail} {tr tr' : List AcOut}
    (h0 : (C1Tail.init e).run S xs = .ok (t, tr)) (h : t.run S ys = .ok (t', tr')) (hb : t.busy = true)
    (hw : 177 ≤ waitingCount (tr'.map AcOut.receiving)) : ∃ o ∈ tr', o.word.lineFree = true := by
  have hi := (IdleInv.init e).run xs h0
  by_cases hf : ∀ o ∈ tr', o.word.lineFree = false
  · obtain ⟨-, h1, h2⟩ := busy_count ys h hb hi.1 hf
    have := hi.2.1
    omega
  · simpa using hf

/-! ## Line-free within a packet -/

theorem step_err {S : Nat} {u : Uart} (h : u.Ok S .even) (e e' : Bool) (v : Int) : u.step S e v = u.step S e' v := by
  obtain ⟨w, hw⟩ := h.win
  by_cases hs : u.state = .stop
  · rw [step_stop hs hw, step_stop hs hw]
  · unfold Uart.step Uart.update
    cases hst : u.state
    · rfl
    · rfl
    · rfl
    · exact absurd hst hs

/-- The receiving flag after `i` samples. -/
def uFlag (S : Nat) (e : Bool) (u : Uart) (x : Nat → Int) (i : Nat) : Bool :=
  match feed (Uart.step S e) u x i with
  | .ok r => r.1.receiving
  | .ub => false

/-- Samples `r`, ..., `r + n - 1`. -/
def segment (x : Nat → Int) (r n : Nat) : List Int := (List.range n).map fun i => x (r + i)

theorem segment_append (x : Nat → Int) {r n r' m k : Nat} (h : r' = r + n) (hk : k = n + m) :
    segment x r n ++ segment x r' m = segment x r k := by
  subst h hk
  unfold segment
  rw [List.range_add, List.map_append, List.map_map]
  congr 1
  apply List.map_congr_left
  intro i _
  show x _ = x _
  rw [Nat.add_assoc]

theorem tail_run_snoc {S : Nat} : ∀ (xs : List Int) {t t1 t2 : C1Tail} {tr : List AcOut} {a : Int} {o : AcOut},
    t.run S xs = .ok (t1, tr) → t1.step S a = .ok (t2, o) → t.run S (xs ++ [a]) = .ok (t2, tr ++ [o]) := by
  intro xs
  induction xs with
  | nil =>
    intro t t1 t2 tr a o h h2
    simp only [C1Tail.run, Res.ok.injEq, Prod.mk.injEq] at h
    obtain ⟨rfl, rfl⟩ := h
    simp only [List.nil_append, C1Tail.run, h2, Res.ok_bind]
  | cons x xs ih =>
    intro t t1 t2 tr a o h h2
    rw [C1Tail.run, Res.bind_eq_ok] at h
    obtain ⟨⟨t3, o3⟩, h3, h⟩ := h
    rw [Res.bind_eq_ok] at h
    obtain ⟨⟨t4, l⟩, h4, h⟩ := h
    simp only [Res.ok.injEq, Prod.mk.injEq] at h
    obtain ⟨rfl, rfl⟩ := h
    simp only [List.cons_append, C1Tail.run, h3, Res.ok_bind, ih h4 h2]

theorem tail_run_append {S : Nat} : ∀ (xs ys : List Int) {t t1 t2 : C1Tail} {tr tr' : List AcOut},
    t.run S xs = .ok (t1, tr) → t1.run S ys = .ok (t2, tr') → t.run S (xs ++ ys) = .ok (t2, tr ++ tr') := by
  intro xs
  induction xs with
  | nil =>
    intro ys t t1 t2 tr tr' h h2
    simp only [C1Tail.run, Res.ok.injEq, Prod.mk.injEq] at h
    obtain ⟨rfl, rfl⟩ := h
    simpa using h2
  | cons x xs ih =>
    intro ys t t1 t2 tr tr' h h2
    rw [C1Tail.run, Res.bind_eq_ok] at h
    obtain ⟨⟨t3, o3⟩, h3, h⟩ := h
    rw [Res.bind_eq_ok] at h
    obtain ⟨⟨t4, l⟩, h4, h⟩ := h
    simp only [Res.ok.injEq, Prod.mk.injEq] at h
    obtain ⟨rfl, rfl⟩ := h
    simp only [List.cons_append, C1Tail.run, h3, Res.ok_bind, ih ys h4 h2]

/-- The run that belongs to a run of the UART behind the detectors. -/
theorem tail_of_uart {S : Nat} (hS : 8 ≤ S) {x : Nat → Int} (hx : ∀ k, -80000000 ≤ x k ∧ x k ≤ 80000000) {r : Nat} {t : C1Tail}
    (hb : BackInv x r t.back) (hok : t.back.uart.Ok S .even) (e : Bool) (n : Nat) : ∀ {u' : Uart} {l : List (Option (UInt8 × Bool))},
    feed (Uart.step S e) t.back.uart (fun i => detStream (past (levelOut x)) (r + i)) n = .ok (u', l) →
    ∃ t' tr, t.run S (segment x r n) = .ok (t', tr) ∧ t'.back.uart = u' ∧ BackInv x (r + n) t'.back ∧ u'.Ok S .even ∧
      tr.map AcOut.receiving = (List.range n).map (uFlag S e t.back.uart (fun i => detStream (past (levelOut x)) (r + i))) ∧
      (tr.map AcOut.word).flatMap Word.result = l.filterMap id ∧ tr.map (fun o => o.word.result.head?) = l := by
  induction n with
  | zero =>
    intro u' l h
    simp only [feed, Res.ok.injEq, Prod.mk.injEq] at h
    obtain ⟨rfl, rfl⟩ := h
    exact ⟨t, [], rfl, rfl, hb, hok, rfl, rfl, rfl⟩
  | succ n ih =>
    intro u' l h
    rw [feed] at h
    rw [Res.bind_eq_ok] at h
    obtain ⟨⟨u1, l1⟩, h1, h2⟩ := h
    rw [Res.bind_eq_ok] at h2
    obtain ⟨⟨u2, o2⟩, h2, h3⟩ := h2
    simp only [Res.ok.injEq, Prod.mk.injEq] at h3
    obtain ⟨rfl, rfl⟩ := h3
    obtain ⟨t1, tr, e1, e2, e3, e4, e5, e6, e7⟩ := ih h1
    obtain ⟨b', d1, d2, d3⟩ := backInv_detect hx e3
    have hst : t1.back.step S t1.rxErr (x (r + n)) = .ok ({ b' with uart := u2 }, o2) := by
      dsimp only at h2
      rw [step_err e4 e t1.rxErr] at h2
      simp only [RxBack.step, d1, Res.ok_bind, RxBack.decode, d3, e2]
      unfold Uart.step at h2
      rw [h2]; rfl
    have hac : ∃ c, (t1.core .init).ac S (x (r + n)) = .ok c := ⟨_, ac_iff.mpr ⟨_, _, hst, rfl⟩⟩
    obtain ⟨c, hc⟩ := hac
    obtain ⟨s1, -⟩ := ac_tail hc
    obtain ⟨bb, rr, g1, -, -, -, g3, -⟩ := tail_step s1
    rw [hst] at g1
    simp only [Res.ok.injEq, Prod.mk.injEq] at g1
    obtain ⟨g1, rfl⟩ := g1
    refine ⟨c.tail, tr ++ [⟨t1.back.uart.receiving, c.word⟩], ?_, ?_, ?_, ?_, ?_, ?_, ?_⟩
    · rw [segment, List.range_succ, List.map_append]
      exact tail_run_snoc _ e1 s1
    · rw [← g1]
    · rw [← g1]; exact ⟨d2.lev, d2.det⟩
    · obtain ⟨u3, o3, k1, k2⟩ := e4.step hS e (detStream (past (levelOut x)) (r + n))
      rw [h2] at k1
      simp only [Res.ok.injEq, Prod.mk.injEq] at k1
      rw [k1.1]; exact k2
    · rw [List.map_append, e5, List.range_succ, List.map_append]
      congr 1
      simp only [List.map_cons, List.map_nil, uFlag, h1, e2]
    · rw [List.map_append, List.flatMap_append, e6, List.filterMap_append]
      congr 1
      simp only [List.map_cons, List.map_nil, List.flatMap_cons, List.flatMap_nil, List.append_nil]
      dsimp only at g3
      rw [g3, addResult_result]
      cases o2 <;> rfl
    · rw [List.map_append, e7]
      congr 1
      simp only [List.map_cons, List.map_nil]
      dsimp only at g3
      rw [g3, addResult_result]
      cases o2 <;> rfl

theorem waitingCount_range {f : Nat → Bool} {m : Nat} (h : ∀ i, 1 ≤ i → i ≤ m → f i = false) : ∀ n, m < n →
    m ≤ waitingCount ((List.range n).map f) := by
  have key : ∀ n, min n (m + 1) - 1 ≤ waitingCount ((List.range n).map f) := by
    intro n
    induction n with
    | zero => simp
    | succ n ih =>
      rw [List.range_succ, List.map_append, List.map_cons, List.map_nil, waitingCount_snoc]
      by_cases hn : 1 ≤ n ∧ n ≤ m
      · rw [h n hn.1 hn.2]; simp only [Bool.false_eq_true, if_false]; omega
      · split <;> omega
  intro n hn
  have := key n
  omega

theorem waitingCount_append (a b : List Bool) : waitingCount (a ++ b) = waitingCount a + waitingCount b := by
  simp [waitingCount]

/-- A frame: its result, and how long the receiver waits for the start. -/
theorem frame_tail {S : Nat} (hS : 8 ≤ S) {lo hi : Int} {x : Nat → Int} (hx : ∀ k, -80000000 ≤ x k ∧ x k ≤ 80000000)
    {q r c : Nat} {σ : Nat → Level} {t : C1Tail} (h : FrameAt lo hi (past (levelOut x)) q σ) (a : Amp lo hi)
    (hI : ∀ k : Nat, toI16 (detStream (past (levelOut x)) k) = detStream (past (levelOut x)) k)
    (hu : Ready S c t.back.uart) (hb : BackInv x r t.back) (hok : t.back.uart.Ok S .even) (hr : r ≤ q + 10)
    (hq : ∀ j : Int, (r : Int) - 14 ≤ j → j < q → Band lo hi .mid (past (levelOut x) j)) (hc : c + (q + 14 - r) < 2 ^ S) :
    ∃ t' tr, t.run S (segment x r (q + 182 - r)) = .ok (t', tr) ∧ Ready S 2 t'.back.uart ∧ BackInv x (q + 182) t'.back ∧
      t'.back.uart.Ok S .even ∧ (tr.map AcOut.word).flatMap Word.result = [decodeSymbols σ] ∧
      q + 10 - r ≤ waitingCount (tr.map AcOut.receiving) := by
  obtain ⟨u', l, e1, e2, e3⟩ := frame_run (err := false) hS h a hI hu hr hq hc
  obtain ⟨t', tr, f1, f2, f3, f4, f5, f6, -⟩ := tail_of_uart hS hx hb hok false _ e1
  refine ⟨t', tr, f1, by rw [f2]; exact e3, by rw [show q + 182 = r + (q + 182 - r) by omega]; exact f3, by rw [f2]; exact f4,
    by rw [f6, e2], ?_⟩
  rw [f5]
  apply waitingCount_range _ _ (by omega)
  intro i h1 h2
  obtain ⟨u1, g1, -, g3⟩ := hu.run (err := false) (fun i => detStream (past (levelOut x)) (r + i)) i (fun k hk => by
    rw [hI]
    exact h.start_zero a (by omega) (fun j hj1 hj2 => hq j (by omega) hj2)) (by omega)
  unfold uFlag
  rw [g1]
  simp [Uart.receiving, g3 (by omega)]

/-- Gaps plus two samples per frame. -/
def idleSum : List (Nat × (Nat → Level)) → Nat
  | [] => 0
  | f :: fs => f.1 + 2 + idleSum fs

/-- The frames after the first. -/
theorem frames_tail {S : Nat} (hS : 8 ≤ S) {lo hi : Int} {x : Nat → Int} (hx : ∀ k, -80000000 ≤ x k ∧ x k ≤ 80000000)
    {s : Nat → Level} (hy : ∀ j, Band lo hi (pastLevel s j) (past (levelOut x) j)) (a : Amp lo hi)
    (hI : ∀ k : Nat, toI16 (detStream (past (levelOut x)) k) = detStream (past (levelOut x)) k) {G : Nat} (hG : G + 32 ≤ 2 ^ S) :
    ∀ (fs : List (Nat × (Nat → Level))) (t : Nat) (T : C1Tail), Carries s t fs → FramesOk G fs →
      (∀ j : Int, (t : Int) - 6 ≤ j → j < t → pastLevel s j = .mid) → Ready S 2 T.back.uart → BackInv x (t + 8) T.back →
      T.back.uart.Ok S .even →
      ∃ T' tr, T.run S (segment x (t + 8) (lineEnd t fs - t)) = .ok (T', tr) ∧
        (tr.map AcOut.word).flatMap Word.result = fs.map (fun f => decodeSymbols f.2) ∧
        idleSum fs ≤ waitingCount (tr.map AcOut.receiving) := by
  have hend : ∀ (fs : List (Nat × (Nat → Level))) (t : Nat), t ≤ lineEnd t fs := by
    intro fs
    induction fs with
    | nil => intro t; exact Nat.le_refl _
    | cons f fs ih => intro t; exact Nat.le_trans (by omega) (ih (t + f.1 + 174))
  intro fs
  induction fs with
  | nil =>
    intro t T _ _ _ _ _ _
    refine ⟨T, [], ?_, rfl, Nat.le_refl _⟩
    rw [lineEnd, Nat.sub_self]; rfl
  | cons f fs ih =>
    obtain ⟨g, σ⟩ := f
    intro t T ⟨hc1, hc2, hc3⟩ ⟨hf1, hf2, hf3, hf4⟩ hq hu hb hok
    have hmid : ∀ j : Int, ((t + 8 : Nat) : Int) - 14 ≤ j → j < ((t + g : Nat) : Int) → pastLevel s j = .mid := by
      intro j hj1 hj2
      by_cases hj : j < t
      · exact hq j (by omega) hj
      · rw [pastLevel_nat s j j.toNat (by omega)]
        exact hc1 _ (by omega) (by omega)
    have hF : FrameAt lo hi (past (levelOut x)) ((t + g : Nat) : Int) σ := by
      refine frameAt_of hy hc2 hf2 (fun j hj1 hj2 => ?_) ?_
      · by_cases hj : ((t + 8 : Nat) : Int) - 14 ≤ j
        · exact hmid j hj hj2
        · omega
      · intro hl k hk1 hk2
        have h3 := hf3 hl
        cases fs with
        | nil => exact hc3 k (by omega)
        | cons f' fs' =>
          obtain ⟨g', σ'⟩ := f'
          exact hc3.1 k (by omega) (by dsimp only at h3; omega)
    obtain ⟨T1, tr1, e1, e2, e3, e4, e5, e6⟩ := frame_tail (r := t + 8) (q := t + g) hS hx hF a hI hu hb hok (by omega)
      (fun j hj1 hj2 => by have := hy j; rwa [hmid j hj1 hj2] at this) (by omega)
    obtain ⟨T2, tr2, k1, k2, k3⟩ := ih (t + g + 174) T1 hc3 hf4
      (by
        intro j hj1 hj2
        rw [pastLevel_nat s j (t + g + (j - (t + g)).toNat) (by omega), hc2 _ (by omega), if_neg (by omega)])
      e2 (by rw [show t + g + 174 + 8 = t + g + 182 by omega]; exact e3) e4
    have hen := hend fs (t + g + 174)
    refine ⟨T2, tr1 ++ tr2, ?_, ?_, ?_⟩
    · have := tail_run_append _ _ e1 k1
      have hseg : segment x (t + 8) (t + g + 182 - (t + 8)) ++ segment x (t + g + 174 + 8) (lineEnd (t + g + 174) fs - (t + g + 174)) =
          segment x (t + 8) (lineEnd t ((g, σ) :: fs) - t) :=
        segment_append x (by omega) (by simp only [lineEnd]; omega)
      rw [hseg] at this
      exact this
    · rw [List.map_append, List.flatMap_append, e5, k2]; rfl
    · rw [List.map_append, waitingCount_append]
      simp only [idleSum]
      omega

theorem result_receiving {S : Nat} {t t' : C1Tail} {a : Int} {o : AcOut} (h : t.step S a = .ok (t', o)) (hr : o.word.result ≠ []) :
    o.receiving = true := by
  obtain ⟨b, r, g1, g2, -, -, g3, -⟩ := tail_step h
  rw [g3, addResult_result] at hr
  rw [g2]
  cases r with
  | none => exact absurd rfl hr
  | some r =>
    rw [RxBack.step, Res.bind_eq_ok] at g1
    obtain ⟨⟨d, p⟩, d1, g1⟩ := g1
    rw [RxBack.decode, Res.bind_eq_ok] at g1
    obtain ⟨⟨u, o'⟩, u1, g1⟩ := g1
    simp only [Res.ok.injEq, Prod.mk.injEq] at g1
    rw [detect_uart d1] at u1
    simp only [Uart.receiving, decide_eq_true_eq, ne_eq]
    intro hs
    rw [Uart.update, hs] at u1
    simp only at u1
    rw [Res.bind_eq_ok] at u1
    obtain ⟨u2, -, u1⟩ := u1
    simp only [Res.ok.injEq, Prod.mk.injEq] at u1
    rw [g1.2] at u1
    exact absurd u1.2 (by simp)

theorem tail_run_split {S : Nat} : ∀ (xs : List Int) {t t' : C1Tail} {p q : List AcOut} {o : AcOut},
    t.run S xs = .ok (t', p ++ o :: q) → ∃ xs1 a xs2 t1 t2, xs = xs1 ++ a :: xs2 ∧ t.run S xs1 = .ok (t1, p) ∧
      t1.step S a = .ok (t2, o) ∧ t2.run S xs2 = .ok (t', q) := by
  intro xs
  induction xs with
  | nil =>
    intro t t' p q o h
    simp only [C1Tail.run, Res.ok.injEq, Prod.mk.injEq] at h
    exact absurd h.2.symm (by simp)
  | cons x xs ih =>
    intro t t' p q o h
    rw [C1Tail.run, Res.bind_eq_ok] at h
    obtain ⟨⟨t3, o3⟩, h3, h⟩ := h
    rw [Res.bind_eq_ok] at h
    obtain ⟨⟨t4, l⟩, h4, h⟩ := h
    simp only [Res.ok.injEq, Prod.mk.injEq] at h
    obtain ⟨rfl, h⟩ := h
    cases p with
    | nil =>
      simp only [List.nil_append, List.cons.injEq] at h
      exact ⟨[], x, xs, t, t3, rfl, rfl, by rw [h3, h.1], by rw [h4, h.2]⟩
    | cons p0 ps =>
      simp only [List.cons_append, List.cons.injEq] at h
      dsimp only at h4
      rw [h.2] at h4
      obtain ⟨xs1, a, xs2, t1, t2, k1, k2, k3, k4⟩ := ih h4
      refine ⟨x :: xs1, a, xs2, t1, t2, by rw [k1]; rfl, ?_, k3, k4⟩
      simp only [C1Tail.run, h3, Res.ok_bind, k2, h.1]

/-- Line-free within a packet: if the gaps between the bytes sum up, line-free is signalled after the first byte although
the packet goes on. -/
theorem free_in_packet {S : Nat} (hS : 8 ≤ S) (rxErr : Bool) {lo hi : Int} (ht : Tolerance lo hi) {s : Nat → Level} {x : Nat → Int}
    (hx : ∀ k, Sample lo hi (s k) (x k)) {G : Nat} (hG : G + 32 ≤ 2 ^ S) {g : Nat} {σ : Nat → Level}
    {fs : List (Nat × (Nat → Level))} (hc : Carries s 0 ((g, σ) :: fs)) (hf : FramesOk G ((g, σ) :: fs))
    (hsum : 177 ≤ idleSum fs) :
    ∃ T tr p o q, (C1Tail.init rxErr).run S (segment x 0 (lineEnd 0 ((g, σ) :: fs) + 8)) = .ok (T, tr) ∧
      (tr.map AcOut.word).flatMap Word.result = ((g, σ) :: fs).map (fun f => decodeSymbols f.2) ∧
      tr = p ++ o :: q ∧ o.word.result = [decodeSymbols σ] ∧ ∃ o' ∈ q, o'.word.lineFree = true := by
  have a := ht.amp
  have h1 := ht.min; have h2 := ht.le; have h3 := ht.max
  have hb := fun j => level_band ht.min hx (fun k hk => carries_adjacent hc k (Nat.zero_le _) hk) j
  have hI : ∀ k : Nat, toI16 (detStream (past (levelOut x)) k) = detStream (past (levelOut x)) k := by
    intro k
    have := pulseRef_bound (y := past (levelOut x)) (B := hi) (fun j => band_bound (hb j) ht.min ht.le) k
    apply toI16_of_range
    · show -32768 ≤ pulseRef _ _; omega
    · show pulseRef _ _ ≤ 32767; omega
  have hxr : ∀ k, -80000000 ≤ x k ∧ x k ≤ 80000000 := fun k => by
    have := hx k
    cases hs : s k <;> rw [hs] at this <;> simp only [Sample] at this <;> omega
  obtain ⟨hc1, hc2, hc3⟩ := hc
  obtain ⟨hf1, hf2, hf3, hf4⟩ := hf
  have hmid : ∀ j : Int, j < ((0 + g : Nat) : Int) → pastLevel s j = .mid := by
    intro j hj2
    by_cases hj : j < 0
    · unfold pastLevel; rw [if_pos hj]
    · rw [pastLevel_nat s j j.toNat (by omega)]
      exact hc1 _ (by omega) (by omega)
  have hF : FrameAt lo hi (past (levelOut x)) ((0 + g : Nat) : Int) σ := by
    refine frameAt_of hb hc2 hf2 (fun j hj1 hj2 => hmid j hj2) ?_
    intro hl k hk1 hk2
    have h3 := hf3 hl
    cases fs with
    | nil => exact hc3 k (by omega)
    | cons f' fs' =>
      obtain ⟨g', σ'⟩ := f'
      exact hc3.1 k (by omega) (by dsimp only at h3; omega)
  obtain ⟨T1, tr1, e1, e2, e3, e4, e5, -⟩ := frame_tail (r := 0) (q := 0 + g) (c := 2) (t := C1Tail.init rxErr) hS hxr hF a hI
    ⟨⟨_, ShiftReg.Win.zero (by decide)⟩, rfl, Or.inl ⟨rfl, rfl⟩, Nat.two_pow_pos S⟩ (backInv_init x) (Uart.Ok.init _) (by omega)
    (fun j hj1 hj2 => by have := hb j; rwa [hmid j hj2] at this) (by omega)
  obtain ⟨T2, tr2, k1, k2, k3⟩ := frames_tail hS hxr hb a hI hG fs (0 + g + 174) T1 hc3 hf4
    (by
      intro j hj1 hj2
      rw [pastLevel_nat s j (0 + g + (j - (0 + g : Nat)).toNat) (by omega), hc2 _ (by omega), if_neg (by omega)])
    e2 (by rw [show 0 + g + 174 + 8 = 0 + g + 182 by omega]; exact e3) e4
  have hall := tail_run_append _ _ e1 k1
  have hend : ∀ (fs : List (Nat × (Nat → Level))) (t : Nat), t ≤ lineEnd t fs := by
    intro fs
    induction fs with
    | nil => intro t; exact Nat.le_refl _
    | cons f fs ih => intro t; exact Nat.le_trans (by omega) (ih (t + f.1 + 174))
  have hen := hend fs (0 + g + 174)
  have hseg : segment x 0 (0 + g + 182 - 0) ++ segment x (0 + g + 174 + 8) (lineEnd (0 + g + 174) fs - (0 + g + 174)) =
      segment x 0 (lineEnd 0 ((g, σ) :: fs) + 8) :=
    segment_append x (by omega) (by simp only [lineEnd]; omega)
  rw [hseg] at hall
  -- the sample with the first result
  have hex : ∃ p o q, tr1 = p ++ o :: q ∧ o.word.result = [decodeSymbols σ] := by
    clear hall e1
    have key : ∀ (l : List AcOut) (v : UInt8 × Bool), (l.map AcOut.word).flatMap Word.result = [v] →
        ∃ p o q, l = p ++ o :: q ∧ o.word.result = [v] := by
      intro l v
      induction l with
      | nil => intro h; cases h
      | cons o l ih =>
        intro h
        rw [List.map_cons, List.flatMap_cons] at h
        by_cases hr : o.word.result = []
        · rw [hr, List.nil_append] at h
          obtain ⟨p, o', q, e, f⟩ := ih h
          exact ⟨o :: p, o', q, by rw [e]; rfl, f⟩
        · refine ⟨[], o, l, rfl, ?_⟩
          unfold Word.result at h hr ⊢
          split at hr
          · next hv =>
            rw [if_pos hv] at h ⊢
            simp only [List.singleton_append, List.cons.injEq] at h
            rw [h.1]
          · exact absurd rfl hr
    exact key _ _ e5
  obtain ⟨p, o, q, hp, ho⟩ := hex
  subst hp
  refine ⟨T2, p ++ o :: q ++ tr2, p, o, q ++ tr2, hall, ?_, by simp, ho, ?_⟩
  · rw [List.map_append, List.flatMap_append, e5, k2]; rfl
  obtain ⟨xs1, ax, xs2, t1, t2, -, m2, m3, m4⟩ := tail_run_split _ e1
  have hrec := result_receiving m3 (by rw [ho]; simp)
  have hb2 : t2.busy = true := by
    obtain ⟨b, r, -, -, -, g2, -, g4, g5, -⟩ := tail_step m3
    rw [g2]
    rcases b with _ | _ | _
    · dsimp only
      cases hbz : t1.busy
      · have := g4.mpr ⟨hbz, hrec⟩; cases this
      · rfl
    · have := (g5.mp rfl).2.1; rw [hrec] at this; cases this
    · rfl
  have hinit := tail_run_snoc _ m2 m3
  have hlast := tail_run_append _ _ m4 k1
  exact C51_silence_is_free rxErr _ _ hinit hlast hb2 (by rw [List.map_append, waitingCount_append]; omega)

/-- The line while a packet of 20 bytes 0x00 is sent, one every 11.5 bit times, after 300 samples of silence. -/
def packetLine (k : Nat) : Level :=
  if 300 ≤ k ∧ k < 3980 ∧ (k - 300) % 184 < 174 ∧ (k - 300) % 184 % 16 < 8 then symbolsOf true 0 ((k - 300) % 184 / 16) else .mid

theorem packetLine_carries : Carries packetLine 0 ((300, symbolsOf true 0) :: List.replicate 19 (10, symbolsOf true 0)) := by
  have frame : ∀ i j : Nat, i < 20 → j < 174 → packetLine (300 + 184 * i + j) =
      if j % 16 < 8 then symbolsOf true 0 (j / 16) else .mid := by
    intro i j hi hj
    unfold packetLine
    have e : (300 + 184 * i + j - 300) % 184 = j := by omega
    rw [e]
    by_cases h : j % 16 < 8
    · rw [if_pos ⟨by omega, by omega, hj, h⟩, if_pos h]
    · rw [if_neg (fun hc => h hc.2.2.2), if_neg h]
  have rest : ∀ m i : Nat, i + m = 19 → Carries packetLine (474 + 184 * i) (List.replicate m (10, symbolsOf true 0)) := by
    intro m
    induction m with
    | zero =>
      intro i hi k hk
      exact if_neg (by omega)
    | succ m ih =>
      intro i hi
      refine ⟨fun k h1 h2 => if_neg (by omega), fun j hj => ?_, ?_⟩
      · rw [show 474 + 184 * i + 10 + j = 300 + 184 * (i + 1) + j by omega]
        exact frame (i + 1) j (by omega) hj
      · have := ih (i + 1) (by omega)
        rw [show 474 + 184 * (i + 1) = 474 + 184 * i + 10 + 174 by omega] at this
        exact this
  refine ⟨fun k h1 h2 => if_neg (by omega), fun j hj => ?_, rest 19 0 rfl⟩
  exact frame 0 j (by decide) hj

theorem packetLine_busy (k : Nat) (h1 : 300 ≤ k) (h2 : k + 42 ≤ 3978) : ∃ j, k ≤ j ∧ j < k + 42 ∧ packetLine j ≠ .mid := by
  have hs : ∀ b < 10, symbolsOf true 0 b ≠ .mid := by decide
  have pulse : ∀ j, 300 ≤ j → j < 3980 → (j - 300) % 184 < 160 → (j - 300) % 184 % 16 < 8 → packetLine j ≠ .mid := by
    intro j a b c d
    unfold packetLine
    rw [if_pos ⟨a, b, by omega, d⟩]
    exact hs _ (by omega)
  obtain ⟨d, m, hk, hm⟩ : ∃ d m, k = 300 + 184 * d + m ∧ m < 184 := ⟨(k - 300) / 184, (k - 300) % 184, by omega, by omega⟩
  subst hk
  have at' : ∀ e n : Nat, n < 184 → (300 + 184 * e + n - 300) % 184 = n := fun e n hn => by omega
  by_cases h1 : m < 152
  · by_cases h8 : m % 16 < 8
    · exact ⟨300 + 184 * d + m, Nat.le_refl _, by omega,
        pulse _ (by omega) (by omega) (by rw [at' d m hm]; omega) (by rw [at' d m hm]; exact h8)⟩
    · have hn : m + (16 - m % 16) < 160 ∧ (m + (16 - m % 16)) % 16 = 0 := by omega
      exact ⟨300 + 184 * d + (m + (16 - m % 16)), by omega, by omega,
        pulse _ (by omega) (by omega) (by rw [at' d _ (by omega)]; exact hn.1) (by rw [at' d _ (by omega), hn.2]; decide)⟩
  · exact ⟨300 + 184 * (d + 1) + 0, by omega, by omega,
      pulse _ (by omega) (by omega) (by rw [at' (d + 1) 0 (by omega)]; decide) (by rw [at' (d + 1) 0 (by omega)]; decide)⟩

/-- **C51 is false.** On a line that carries a packet of 20 bytes with never more than 41 samples (2.6 bit times) without
a pulse, line-free is signalled after the first byte and before the end of the packet: the counter adds up the waiting
times between the bytes, it is not restarted when a byte arrives. -/
theorem C51_refuted {S : Nat} (hS : 16 ≤ S) (rxErr : Bool) {lo hi : Int} (ht : Tolerance lo hi) {x : Nat → Int}
    (hx : ∀ k, Sample lo hi (packetLine k) (x k)) :
    (∀ k, 300 ≤ k → k + 42 ≤ 3978 → ∃ j, k ≤ j ∧ j < k + 42 ∧ packetLine j ≠ .mid) ∧
    ∃ T tr p o q, (C1Tail.init rxErr).run S (segment x 0 3978) = .ok (T, tr) ∧
      (tr.map AcOut.word).flatMap Word.result = List.replicate 20 (0, false) ∧
      tr = p ++ o :: q ∧ o.word.result = [(0, false)] ∧ ∃ o' ∈ q, o'.word.lineFree = true := by
  refine ⟨packetLine_busy, ?_⟩
  have h2S : 2 ^ 16 ≤ 2 ^ S := Nat.pow_le_pow_right (by decide) hS
  have hfr : ∀ m, FramesOk 300 (List.replicate m (10, symbolsOf true 0)) := by
    intro m
    induction m with
    | zero => trivial
    | succ m ih => exact ⟨by decide, by decide, fun h => absurd (symbolsOf_stop _ _) h, ih⟩
  have hG : 300 + 32 ≤ 2 ^ S := by omega
  have hf0 : FramesOk 300 ((300, symbolsOf true 0) :: List.replicate 19 (10, symbolsOf true 0)) :=
    ⟨Nat.le_refl _, by decide, fun h => absurd (symbolsOf_stop _ _) h, hfr 19⟩
  obtain ⟨T, tr, p, o, q, k1, k2, k3, k4, k5⟩ := free_in_packet (S := S) (G := 300) (s := packetLine) (x := x) (g := 300)
    (σ := symbolsOf true 0) (fs := List.replicate 19 (10, symbolsOf true 0)) (by omega) rxErr ht hx hG packetLine_carries hf0 (by simp [idleSum, List.replicate])
  have e : lineEnd 0 ((300, symbolsOf true 0) :: List.replicate 19 (10, symbolsOf true 0)) + 8 = 3978 := by
    simp [lineEnd, List.replicate]
  rw [e] at k1
  rw [decode_symbolsOf] at k4
  refine ⟨T, tr, p, o, q, k1, ?_, k3, k4, k5⟩
  rw [k2, List.map_cons, List.map_replicate]
  simp only [decode_symbolsOf]
  rfl

/-- Such a signal exists. -/
example : ∃ T tr, (C1Tail.init false).run 32 (segment (fun k => sampleOf (packetLine k)) 0 3978) = .ok (T, tr) := by
  obtain ⟨-, T, tr, _, _, _, h, -⟩ := C51_refuted (S := 32) (by decide) false tol_example (x := fun k => sampleOf (packetLine k))
    (fun k => sampleOf_ok _)
  exact ⟨T, tr, h⟩

end P1P2
