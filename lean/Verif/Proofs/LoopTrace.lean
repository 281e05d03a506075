import Verif.Props.MainLoop3
/-!
# The calls the main loop makes on the transmitter
-/
namespace P1P2

/-- The input of the transmitter's update in an iteration that ended in `c'`; `w` is the word it shows. -/
def loopIn (c' : Core0) (e : Env2) (w : Word) : UpdIn :=
  { busy := c'.lineBusy, rxError := w.rxError, rxValid := w.rxValid, rxChar := w.rxChar, hwErr := e.hwErr, transmitting := e.transmitting,
    tErr := e.tErr, tPow := e.tPow, tNew := e.tNew }

/-- What reading the error flag and clearing the receive message leave alone. -/
def SameTx (s s' : TxSM) : Prop := s'.st = s.st ∧ s'.txMsg = s.txMsg ∧ s'.dl = s.dl ∧ s'.txOffset = s.txOffset ∧ s'.err = false

/-- The calls before a transmission can be started. -/
structure Preface (pf : Platform) (s : TxSM) (p : List TxObs) : Prop where
  run : TxRun pf s p
  quiet : ∀ x ∈ p, x.cmds = [] ∧ (x.call = .error ∨ x.call = .clearRx) ∧ SameTx s x.after
  last : SameTx s (txEnd s p)
  keep : (txEnd s p).rxMsg = s.rxMsg ∨ (s.err = true ∧ (txEnd s p).rxMsg = s.rxMsg.clear)

theorem reportFailure_fail (c : Core0) (now : Nat) : ∃ m, (c.reportFailure now).1.sm = { c.sm with rxMsg := m } ∧ (m = c.sm.rxMsg ∨ (c.fail = true ∧ m = c.sm.rxMsg.clear)) ∧
    (c.reportFailure now).1.word = c.word ∧ (c.reportFailure now).1.lineBusy = c.lineBusy := by
  obtain ⟨m, k, h1, h2, _, h3⟩ := reportFailure_eq c now
  refine ⟨m, by rw [h1], ?_, by rw [h1], by rw [h1]⟩
  cases hf : c.fail with
  | false => exact .inl (h3 hf).1
  | true =>
    rcases h2 with h2 | h2
    · exact .inl h2
    · exact .inr ⟨rfl, h2⟩

/-- The calls of one iteration. -/
theorem iter_trace {pf : Platform} {g : Nat → UInt8} {c c' : Core0} {e : Env1 × Env2} {o : Out2} (hg : c.Good) (h : c.iter pf g e = .ok (c', o)) :
    ∃ p, Preface pf c.sm p ∧
      ((o.updated = false ∧ c.sm.st = .idle ∧ o.cmds = [] ∧ o.started = none ∧ e.2.word = none ∧ c'.sm = txEnd c.sm p ∧ c'.word = c.word) ∨
       (o.updated = true ∧ c'.word = .zero ∧
        ((o.started = none ∧ (txEnd c.sm p).update pf (loopIn c' e.2 (e.2.word.getD c.word)) = .ok (c'.sm, o.cmds)) ∨
         ∃ m, o.started = some m ∧ Sendable m ∧ c.sm.st = .idle ∧
          ((txEnd c.sm p).wake m e.2.tWake).1.update pf (loopIn c' e.2 (e.2.word.getD c.word)) = .ok (c'.sm, o.cmds)))) := by
  have hsend := (hg.iter h).2
  obtain ⟨c1, rs, b, h1, h2, hr⟩ := Core0.iter_ok h
  obtain ⟨hg1, hsm, hfl, _, _, hwd⟩ := hg.part1 h1
  simp only [Prod.mk.injEq] at hr
  obtain ⟨rfl, rfl⟩ := hr
  dsimp only at hsend ⊢
  have hin := hg1.reportFailure e.2.tColl
  obtain ⟨m, r1, r2, r3, r4⟩ := reportFailure_fail c1 e.2.tColl
  -- the preface
  have hp : ∃ p, Preface pf c.sm p ∧ txEnd c.sm p = (c1.reportFailure e.2.tColl).1.sm := by
    have a1 : SameTx c.sm c.sm.error.1 := ⟨rfl, rfl, rfl, rfl, rfl⟩
    have a2 : SameTx c.sm { c.sm.error.1 with rxMsg := c.sm.error.1.rxMsg.clear } := ⟨rfl, rfl, rfl, rfl, rfl⟩
    rcases r2 with rfl | ⟨hf, rfl⟩
    · refine ⟨[⟨.error, [], c.sm.error.1⟩], ⟨⟨rfl, trivial⟩, ?_, a1, .inl rfl⟩, ?_⟩
      · intro x hx
        rw [List.mem_singleton.mp hx]
        exact ⟨rfl, .inl rfl, a1⟩
      · rw [r1, hsm]; rfl
    · refine ⟨[⟨.error, [], c.sm.error.1⟩, ⟨.clearRx, [], { c.sm.error.1 with rxMsg := c.sm.error.1.rxMsg.clear }⟩], ⟨⟨rfl, rfl, trivial⟩, ?_, a2, .inr ⟨by rw [← hfl]; exact hf, rfl⟩⟩, ?_⟩
      · intro x hx
        simp only [List.mem_cons, List.not_mem_nil, or_false] at hx
        rcases hx with rfl | rfl
        · exact ⟨rfl, .inl rfl, a1⟩
        · exact ⟨rfl, .inr rfl, a2⟩
      · rw [r1, hsm]; rfl
  obtain ⟨p, hp, hpe⟩ := hp
  have hcst : (c1.reportFailure e.2.tColl).1.sm.st = c.sm.st := by rw [r1, hsm]; rfl
  refine ⟨p, hp, ?_⟩
  rw [hpe]
  -- what follows
  have fin : ∀ (a : Core0) (rs : List Report) (w : Word), a.GoodIn → a.sm = (c1.reportFailure e.2.tColl).1.sm → a.word = w →
      a.finish pf g e.2 rs = .ok b → b.2.updated = true ∧ b.1.word = .zero ∧
      ((b.2.started = none ∧ (c1.reportFailure e.2.tColl).1.sm.update pf (loopIn b.1 e.2 w) = .ok (b.1.sm, b.2.cmds)) ∨
       ∃ m, b.2.started = some m ∧ Sendable m ∧ c.sm.st = .idle ∧
        ((c1.reportFailure e.2.tColl).1.sm.wake m e.2.tWake).1.update pf (loopIn b.1 e.2 w) = .ok (b.1.sm, b.2.cmds)) := by
    intro a rs w ha hsm' hw hf
    obtain ⟨s, s1, s2, s3, s4, s5, s6, u, u1, u2, u3, u4⟩ := GoodIn.finish_update (c' := b.1) (o := b.2) ha hf
    obtain ⟨_, _, _, _, f3⟩ := Core0.finish_ok hf
    have hu : b.2.updated = true := by rw [f3]
    have hin' : s.1.updIn e.2 = loopIn b.1 e.2 w := by
      have hlb : b.1.lineBusy = s.1.lineBusy := by rw [u4]
      unfold Core0.updIn loopIn
      rw [hlb, s3, hw]
    rw [hin'] at u1
    refine ⟨hu, by rw [u4], ?_⟩
    rw [u2]
    rcases s5 with ⟨s5, s7⟩ | ⟨hi, m, s7, s5⟩
    · left
      exact ⟨by rw [u3, s7], by rw [← hsm', ← s5]; exact u1⟩
    · right
      refine ⟨m, by rw [u3, s7], hsend m (by rw [u3, s7]), by rw [← hcst, ← hsm']; exact hi, ?_⟩
      rw [← hsm', ← s5]; exact u1
  rcases Core0.part2_ok h2 with ⟨w, t, hw, h3, h4⟩ | ⟨hw, h4⟩ | ⟨hw, b1, b2, b3, b4, b5⟩
  · right
    obtain ⟨t1, _, t3, _⟩ := takeWord_rest h3 hin.rx
    rw [hw]
    exact fin _ _ w (hin.takeWord h3) t1 t3 h4
  · right
    rw [hw]
    exact fin _ _ c.word hin rfl (by rw [r3, hwd]) h4
  · left
    refine ⟨by rw [b5], ?_, by rw [b5], by rw [b5], hw, by rw [b5], by rw [b5, r3, hwd]⟩
    rw [← hcst]
    simpa [TxSM.isIdle] using b4

/-- The line state that the transmitter is told. -/
theorem iter_lineBusy {pf : Platform} {g : Nat → UInt8} {c c' : Core0} {e : Env1 × Env2} {o : Out2} (h : c.iter pf g e = .ok (c', o))
    (hw : ∀ w, e.2.word = some w → WordOk w) : c'.lineBusy = busKnownBusy c.lineBusy (wordsOf [e]) := by
  have h1 := iter_rxSide h
  unfold RxSide.step at h1
  have hd : ∀ (s : RxSide) (a b : Nat), (s.dog a b).1.busy = s.busy := by
    intro s a b; unfold RxSide.dog; split <;> rfl
  have hf : ∀ (s : RxSide) (b : Bool), (s.flag b).1.busy = s.busy := by
    intro s b; unfold RxSide.flag; split <;> rfl
  dsimp only at h1
  cases hww : e.2.word with
  | none =>
    rw [hww] at h1
    simp only [Res.ok.injEq, Prod.mk.injEq] at h1
    have : c'.lineBusy = c.lineBusy := by
      show c'.rxSide.busy = _
      rw [← h1.1, hf, hd]; rfl
    rw [this]
    simp [wordsOf, hww, busKnownBusy]
  | some w =>
    rw [hww] at h1
    dsimp only at h1
    rw [Res.bind_eq_ok] at h1
    obtain ⟨t, h2, h1⟩ := h1
    simp only [Res.ok.injEq, Prod.mk.injEq] at h1
    rw [RxSide.take, Res.bind_eq_ok] at h2
    obtain ⟨m, _, h2⟩ := h2
    simp only [Res.ok.injEq] at h2
    have hb : c'.lineBusy = t.1.busy := congrArg RxSide.busy h1.1.symm
    have hok := (hw w hww).2.1
    rw [hb, ← h2]
    have hl : ∀ s : RxSide, (RxSide.line s w e.2.tBusy).busy = if w.lineFree then false else if w.lineBusy then true else s.busy := by
      intro s
      unfold RxSide.line
      cases hfr : w.lineFree <;> cases hbu : w.lineBusy <;> cases hs : s.busy <;> simp_all
    rw [hl]
    simp only [hf, hd]
    simp [wordsOf, hww, busKnownBusy]
    rfl

theorem wordsOf_append (a b : List (Env1 × Env2)) : wordsOf (a ++ b) = wordsOf a ++ wordsOf b := List.filterMap_append

theorem busKnownBusy_append (b : Bool) (x y : List Word) : busKnownBusy b (x ++ y) = busKnownBusy (busKnownBusy b x) y := by
  simp [busKnownBusy, List.foldl_append]

/-- Induction along a history of the main loop. -/
theorem LoopRun.fwd {pf : Platform} {g : Nat → UInt8} {P : List (Env1 × Env2) → Core0 → List Out2 → Prop}
    (h0 : ∀ w0 t0 t1, P [] (Core0.init g w0 t0 t1) [])
    (hs : ∀ es c os e c' o, LoopRun pf g es c os → P es c os → c.iter pf g e = .ok (c', o) → P (es ++ [e]) c' (os ++ [o]))
    {es : List (Env1 × Env2)} {c : Core0} {os : List Out2} (h : LoopRun pf g es c os) : P es c os := by
  obtain ⟨w0, t0, t1, h⟩ := h
  suffices key : ∀ (es pre : List (Env1 × Env2)) (c c' : Core0) (os os' : List Out2), LoopRun pf g pre c os → P pre c os → c.run pf g es = .ok (c', os') →
      P (pre ++ es) c' (os ++ os') by
    have := key es [] _ c [] os ⟨w0, t0, t1, rfl⟩ (h0 w0 t0 t1) h
    exact this
  intro es
  induction es with
  | nil => intro pre c c' os os' _ hp h; cases h; simpa using hp
  | cons e es ih =>
    intro pre c c' os os' hr hp h
    obtain ⟨c1, o, os2, h1, h2, rfl⟩ := Core0.run_cons h
    have := ih (pre ++ [e]) c1 c' (os ++ [o]) os2 (hr.snoc h1) (hs _ _ _ _ _ _ hr hp h1) h2
    simpa using this

end P1P2
