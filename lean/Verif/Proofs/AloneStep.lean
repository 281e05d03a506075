import Verif.Proofs.AloneInv
/-!
# A modem alone on the bus: the iterations
-/
namespace P1P2

/-- The messages handed over so far. -/
def msgsOf (ev : List DevEv) : List Message := (sendsFrom 0 ev).map Prod.snd

/-- When the word before byte `j` came, at least. -/
def heardFrom (x : Bench) (n j : Nat) : Nat := if j = 0 then x.c (n + 1) + 25 * x.P else x.c (n + 1 + 175 * (j - 1)) + 359 * x.P

/-- Where the modem is between two iterations: main loop, events in the transmitter, words taken, messages started, calls made. -/
inductive Stage (x : Bench) (c : Core0) (ev : List DevEv) (ws : List Word) (started : List Message) (cmds : List HwCmd) : Prop where
  | idle (h1 : c.sm.st = .idle) (h2 : c.sm.err = false) (h3 : Settled x ev) (h4 : ws = wordsFor (msgsOf ev) ∨ (sendsFrom 0 ev = [] ∧ ws = []))
      (h5 : started = msgsOf ev) (h6 : cmds = (msgsOf ev).flatMap txCalls)
  | wait (m : Message) (dl : Nat) (h1 : Trk m c .waitLineFree dl 0) (h2 : 34000 ≤ dl) (h3 : Settled x ev) (h4 : sendsFrom 0 ev = [] ∧ ws = [])
      (h5 : started = [m]) (h6 : cmds = []) (h7 : Sendable m)
  | power (m : Message) (dl : Nat) (h1 : Trk m c .waitPowerOn dl 0) (h2 : callsEnd x.P x.c 0 (sendsFrom 0 ev) + 2 * x.P + 32000 * x.U ≤ x.U * dl) (h3 : Settled x ev)
      (h4 : ws = wordsFor (msgsOf ev)) (h5 : started = msgsOf ev ++ [m]) (h6 : cmds = (msgsOf ev).flatMap txCalls ++ [.shutdown false]) (h7 : Sendable m)
  | listen (l : List (Nat × Message)) (n : Nat) (m : Message) (dl : Nat) (h1 : Trk m c .startedWaitForBusy dl 0) (h2 : x.c n + 2000 * x.U ≤ x.U * dl + x.U * x.lag)
      (h3 : (lateEnd 1 0 0 ev).1 = finalStart n m + 174) (h4 : ws = wordsFor (l.map Prod.snd)) (h5 : started = msgsOf ev)
      (h6 : cmds = (l.map Prod.snd).flatMap txCalls ++ [.shutdown false, .send m]) (h7 : sendsFrom 0 ev = l ++ [(n, m)])
  | run (l : List (Nat × Message)) (n : Nat) (m : Message) (dl j : Nat) (h1 : Trk m c .runningCheckData dl j) (h2 : heardFrom x n j + 4000 * x.U ≤ x.U * dl)
      (h3 : (lateEnd 1 0 0 ev).1 = finalStart n m + 174) (h4 : ws = wordsFor (l.map Prod.snd) ++ wBusy :: (m.bytes.take j).map wByte) (h5 : started = msgsOf ev)
      (h6 : cmds = (l.map Prod.snd).flatMap txCalls ++ [.shutdown false, .send m]) (h7 : sendsFrom 0 ev = l ++ [(n, m)]) (h8 : j < m.length)
  | tail (l : List (Nat × Message)) (n : Nat) (m : Message) (dl : Nat) (h1 : Trk m c .runningWaitForIdle dl m.length) (h2 : x.c (finalStart n m) + 359 * x.P + 4000 * x.U ≤ x.U * dl)
      (h3 : Settled x ev) (h4 : ws = wordsFor (l.map Prod.snd) ++ wBusy :: m.bytes.map wByte) (h5 : started = msgsOf ev)
      (h6 : cmds = (l.map Prod.snd).flatMap txCalls ++ [.shutdown false, .send m, .clearFifo]) (h7 : sendsFrom 0 ev = l ++ [(n, m)])

/-- What the round shows. -/
structure RoundFacts (x : Bench) (ev : List DevEv) (ws : List Word) (r : Round) (ts : List (Nat × Word)) (lo hi : Nat) : Prop where
  heard : MessagesHeard x.P x.c 0 (sendsFrom 0 ev) ts
  sorted : ts.Pairwise fun a b => a.1 < b.1
  low : comeBy ts lo <+: ws
  high : ws ++ wordsOf [r.env] <+: comeBy ts hi
  hiTime : hi * x.P ≤ x.U * r.env.2.tErr
  loTime : x.U * r.env.2.tErr ≤ lo * x.P + x.U * x.D
  noErr : r.env.2.hwErr = false
  ok : ∀ w, r.env.2.word = some w → WordOk w

theorem round_facts {x : Bench} {ev0 : List DevEv} {pre post : List Round} {r : Round} (ha : AloneOnBus x ev0 (pre ++ r :: post)) (hi : EvInv x (devEvents ev0 pre)) :
    RoundOk x (devEvents ev0 pre) (wordsOf (pre.map Round.env)) r ∧ ∃ ts lo hi, RoundFacts x (devEvents ev0 pre) (wordsOf (pre.map Round.env)) r ts lo hi := by
  have hr := ha.rounds pre r post rfl
  refine ⟨hr, ?_⟩
  have hi' := hi.quiet hr.quiet
  obtain ⟨e1, ts, b1, b2, b3⟩ := heard_now ha (ev := devEvents ev0 pre ++ r.before) (rest := r.after ++ post.flatMap fun r => r.before ++ r.after)
    (by unfold devEvents; simp) hi'
  rw [sends_quiet hr.quiet] at b1 b3
  obtain ⟨lo, hh, wlo, whi, c1, c2, c3, c4, c5, c6, c7⟩ := hr.words
  have hlate := hr.late
  have hsil := hr.silence
  have hord := hr.order
  have m1 := Nat.mul_le_mul_left x.U hord.2.1
  have m2 := Nat.mul_le_mul_left x.U (show r.env.2.tPow ≤ r.env.2.tNew + x.lag by omega)
  have m3 := Nat.mul_le_mul_right x.P c1
  have d1 := b3 lo wlo c2 (by omega) (by omega)
  have d2 := b3 hh whi c3 (by omega) (by omega)
  rw [d1] at c4
  rw [d2] at c5
  obtain ⟨d, pins, errs, hrun, -⟩ := ha.hears
  rw [show devEvents ev0 (pre ++ r :: post) = (devEvents ev0 pre ++ r.before) ++ (r.after ++ post.flatMap fun r => r.before ++ r.after) by unfold devEvents; simp] at hrun
  obtain ⟨d1, o1, r1, o2, r2, hr1, -⟩ := TxDev.run_append hrun
  refine ⟨ts, lo, hh, b1, b2, c4, c5, c6, c7, ?_, ?_⟩
  · rw [Bool.eq_false_iff]
    intro he
    have := e1 d1 o1 r1 hr1 true (hr.hwErr he d1 o1 r1 hr1)
    cases this
  · intro w hw
    have hm : w ∈ comeBy ts hh := c5.subset (by simp [wordsOf, hw])
    have hm : w ∈ ts.map Prod.snd := by
      unfold comeBy at hm
      obtain ⟨y, hy, rfl⟩ := List.mem_map.mp hm
      exact List.mem_map_of_mem (List.mem_filter.mp hy).1
    rw [(heard_words _ _ _ b1).1] at hm
    exact words_ok _ w hm

theorem word_cases {e : Env1 × Env2} {v : List Word} (h : wordsOf [e] = v) : (v = [] → e.2.word = none) ∧ ∀ w, v = [w] → e.2.word = some w := by
  subst h
  unfold wordsOf
  cases hw : e.2.word with
  | none => simp [hw]
  | some w => simp [hw]

theorem word_length (e : Env1 × Env2) : (wordsOf [e]).length ≤ 1 := by
  unfold wordsOf
  cases hw : e.2.word <;> simp [hw]

/-- All words were taken: none comes, and the last one came in time. -/
theorem facts_calm {x : Bench} {ev : List DevEv} {ws : List Word} {r : Round} {ts : List (Nat × Word)} {lo hi : Nat} (h : RoundFacts x ev ws r ts lo hi) (hw : ws = wordsFor (msgsOf ev)) :
    r.env.2.word = none ∧ callsEnd x.P x.c 0 (sendsFrom 0 ev) + 2 * x.P ≤ x.U * r.env.2.tErr := by
  obtain ⟨w1, ts0, f, w2, w3, w4⟩ := heard_words _ _ _ h.heard
  have hh := h.high
  rw [hw, msgsOf, ← w1] at hh
  obtain ⟨n1, n2⟩ := no_word hh
  refine ⟨(word_cases rfl).1 n1, ?_⟩
  have h1 := n2 (f, wFree) (by rw [w2]; simp)
  have h1 : f < hi := h1
  have h2 := Nat.mul_le_mul_right x.P (Nat.le_of_lt h1)
  have := h.hiTime
  omega

/-- The next word: the time is not yet past, and only this word can come, in time. -/
theorem facts_next {x : Bench} {ev : List DevEv} {ws : List Word} {r : Round} {ts a b : List (Nat × Word)} {lo hi k : Nat} {w : Word} (h : RoundFacts x ev ws r ts lo hi)
    (ht : ts = a ++ (k, w) :: b) (hw : ws = a.map Prod.snd) :
    x.U * r.env.2.tErr ≤ k * x.P + x.U * x.D ∧ (r.env.2.word = none ∨ (r.env.2.word = some w ∧ k * x.P ≤ x.U * r.env.2.tErr)) := by
  have hs := h.sorted
  have h1 := h.low
  have h2 := h.high
  rw [ht] at hs h1 h2
  rw [hw] at h1 h2
  obtain ⟨n1, n2⟩ := next_word hs h1 h2 (word_length _)
  have m1 := Nat.mul_le_mul_right x.P n1
  have := h.loTime
  refine ⟨by omega, ?_⟩
  rcases n2 with n2 | ⟨n2, n3⟩
  · exact .inl ((word_cases rfl).1 n2)
  · have m2 := Nat.mul_le_mul_right x.P (Nat.le_of_lt n3)
    have := h.hiTime
    exact .inr ⟨(word_cases rfl).2 _ n2, by omega⟩

end P1P2
