import Verif.Spec.Lines
import Verif.Props.LoopTx
/-!
# Properties C91 - C93: every line about the bus is explained
-/
namespace P1P2

/-! ## C91 -/

theorem heardBytes_append (a b : List Word) : heardBytes (a ++ b) = heardBytes a ++ heardBytes b := by
  simp [heardBytes]

theorem heardStatus_snoc (a : List Word) (w : Word) :
    heardStatus (a ++ [w]) = if w.dadcError then 2 else if w.rxError then 3 else heardStatus a := by
  unfold heardStatus
  rw [List.filter_append]
  cases hd : w.dadcError <;> cases he : w.rxError <;> simp [hd, he]

/-- The message being collected is what the words since the last line say. -/
structure Collected (m : Message) (ws : List Word) : Prop where
  is : LineIs m (heardStatus ws) ws
  room : m.length < 32

theorem Collected.nil (m : Message) : Collected m.clear [] := ⟨⟨rfl, rfl⟩, by show 0 < 32; omega⟩

theorem Message.bytes_status (m : Message) (k : Nat) : ({ m with status := k } : Message).bytes = m.bytes := rfl

theorem RxSide.collect_tells {m : Message} {ws : List Word} {w : Word} {m' : Message} (hc : Collected m ws) (h : RxSide.collect m w = .ok m') :
    LineIs m' (heardStatus (ws ++ [w])) (ws ++ [w]) ∧ m'.length ≤ 32 := by
  obtain ⟨⟨h1, h2⟩, h3⟩ := hc
  unfold RxSide.collect at h
  unfold LineIs
  rw [heardStatus_snoc, heardBytes_append]
  split at h
  · rename_i hd
    cases h
    refine ⟨⟨by rw [if_pos hd]; rfl, ?_⟩, Nat.le_of_lt h3⟩
    rw [Message.bytes_status, h2]
    simp [heardBytes, hd]
  · rename_i hd
    rw [if_neg hd]
    split at h
    · rename_i he
      rw [if_pos he]
      obtain ⟨a1, a2, a3, _⟩ := Message.append_snoc (m := { m with status := Message.errParity }) h3 h
      have a4 := append_status h
      refine ⟨⟨a4, ?_⟩, ?_⟩
      · rw [a1, Message.bytes_status, h2]
        simp [heardBytes, hd, he]
      · rw [← Message.bytes_length, a1]
        simp [Message.bytes_status, Message.bytes_length]
        omega
    · rename_i he
      rw [if_neg he]
      split at h
      · rename_i hv
        obtain ⟨a1, a2, a3, _⟩ := Message.append_snoc h3 h
        have a4 := append_status h
        refine ⟨⟨by rw [a4, h1], ?_⟩, ?_⟩
        · rw [a1, h2]
          simp [heardBytes, hd, he, hv]
        · rw [← Message.bytes_length, a1]
          simp [Message.bytes_length]
          omega
      · rename_i hv
        cases h
        refine ⟨⟨h1, ?_⟩, Nat.le_of_lt h3⟩
        rw [h2]
        simp [heardBytes, hv, he]

theorem RxSide.step_tells {s s' : RxSide} {e : Env1 × Env2} {ms : List Message} {ws : List Word} (hc : Collected s.msg ws)
    (h : s.step e = .ok (s', ms)) : ∃ ws', IterTells ws e ms ws' ∧ Collected s'.msg ws' := by
  -- the watchdog
  have hd : ∃ ws1, (((s.dog e.1.tDog1 e.1.tDog2).2 = [] ∧ ws1 = ws) ∨ (∃ m, (s.dog e.1.tDog1 e.1.tDog2).2 = [m] ∧ LineIs m 4 ws ∧ ws1 = [])) ∧
      Collected (s.dog e.1.tDog1 e.1.tDog2).1.msg ws1 := by
    unfold RxSide.dog
    split
    · exact ⟨[], .inr ⟨_, rfl, ⟨rfl, by rw [Message.bytes_status]; exact hc.is.2⟩, rfl⟩, Collected.nil _⟩
    · exact ⟨ws, .inl ⟨rfl, rfl⟩, hc⟩
  obtain ⟨ws1, hd1, hd2⟩ := hd
  -- the flag
  have hf : ∃ ws2, ((e.1.fifoErr = false ∧ ((s.dog e.1.tDog1 e.1.tDog2).1.flag e.1.fifoErr).2 = [] ∧ ws2 = ws1) ∨
      (e.1.fifoErr = true ∧ ∃ m, ((s.dog e.1.tDog1 e.1.tDog2).1.flag e.1.fifoErr).2 = [m] ∧ LineIs m 2 ws1 ∧ ws2 = [])) ∧
      Collected ((s.dog e.1.tDog1 e.1.tDog2).1.flag e.1.fifoErr).1.msg ws2 := by
    unfold RxSide.flag
    cases he : e.1.fifoErr
    · exact ⟨ws1, .inl ⟨rfl, rfl, rfl⟩, hd2⟩
    · exact ⟨[], .inr ⟨rfl, _, rfl, ⟨rfl, by rw [Message.bytes_status]; exact hd2.is.2⟩, rfl⟩, Collected.nil _⟩
  obtain ⟨ws2, hf1, hf2⟩ := hf
  unfold RxSide.step at h
  dsimp only at h
  cases hw : e.2.word with
  | none =>
    rw [hw] at h
    simp only [Res.ok.injEq, Prod.mk.injEq] at h
    obtain ⟨rfl, rfl⟩ := h
    exact ⟨ws2, ⟨_, _, [], ws1, ws2, by simp, hd1, hf1, .inl ⟨hw, rfl, rfl⟩⟩, hf2⟩
  | some w =>
    rw [hw] at h
    dsimp only at h
    rw [Res.bind_eq_ok] at h
    obtain ⟨t, h1, h⟩ := h
    simp only [Res.ok.injEq, Prod.mk.injEq] at h
    obtain ⟨rfl, rfl⟩ := h
    rw [RxSide.take, Res.bind_eq_ok] at h1
    obtain ⟨m, h2, h1⟩ := h1
    simp only [Res.ok.injEq] at h1
    obtain ⟨hm, hl⟩ := RxSide.collect_tells hf2 h2
    have hmsg : ∀ (s : RxSide) (w : Word) (us : Nat), (s.line w us).msg = s.msg := by
      intro s w us
      unfold RxSide.line
      split
      · rfl
      · split <;> rfl
    subst h1
    dsimp only
    rw [hmsg]
    dsimp only
    have hlen : m.length = (heardBytes (ws2 ++ [w])).length := by rw [← hm.2, Message.bytes_length]
    have hpe : (w.lineFree && (decide (m.length > 0) || m.status != 0)) = true ↔ PacketEnds (ws2 ++ [w]) w := by
      unfold PacketEnds
      rw [hlen, hm.1]
      simp [List.length_pos_iff]
    by_cases hp : PacketEnds (ws2 ++ [w]) w
    · have he : RxSide.ends m w = (m.clear, [m]) := by unfold RxSide.ends; rw [if_pos (hpe.mpr hp)]
      have hfu : RxSide.full m.clear = (m.clear, []) := by
        unfold RxSide.full
        rw [if_neg (by show ¬ (0 = 32); omega)]
      rw [he]
      dsimp only
      rw [hfu]
      exact ⟨[], ⟨_, _, _, ws1, ws2, rfl, hd1, hf1, .inr ⟨w, hw, .inl ⟨hp, m, by simp, hm, rfl⟩⟩⟩, Collected.nil _⟩
    · have he : RxSide.ends m w = (m, []) := by unfold RxSide.ends; rw [if_neg (fun h => hp (hpe.mp h))]
      rw [he]
      dsimp only
      by_cases h32 : m.length = 32
      · have hfu : RxSide.full m = (m.clear, [{ m with status := Message.errOverflow }]) := by unfold RxSide.full; rw [if_pos h32]
        rw [hfu]
        refine ⟨[], ⟨_, _, _, ws1, ws2, rfl, hd1, hf1, .inr ⟨w, hw, .inr (.inl ⟨hp, by rw [← hlen]; exact h32, _, rfl, ⟨rfl, ?_⟩, rfl⟩)⟩⟩, Collected.nil _⟩
        rw [Message.bytes_status]; exact hm.2
      · have hfu : RxSide.full m = (m, []) := by unfold RxSide.full; rw [if_neg h32]
        rw [hfu]
        exact ⟨ws2 ++ [w], ⟨_, _, _, ws1, ws2, rfl, hd1, hf1, .inr ⟨w, hw, .inr (.inr ⟨hp, by omega, rfl, rfl⟩)⟩⟩, ⟨hm, by show m.length < 32; omega⟩⟩

theorem run_tells {pf : Platform} {g : Nat → UInt8} {c c' : Core0} {es : List (Env1 × Env2)} {os : List Out2} {ws : List Word}
    (hc : Collected c.rxMsg ws) (h : c.run pf g es = .ok (c', os)) : ∃ ws', HistoryTells ws es os ws' ∧ Collected c'.rxMsg ws' := by
  induction es generalizing c os ws with
  | nil => cases h; exact ⟨ws, rfl, hc⟩
  | cons e es ih =>
    obtain ⟨c1, o, os', h1, h2, rfl⟩ := Core0.run_cons h
    obtain ⟨ws1, t1, t2⟩ := RxSide.step_tells (s := c.rxSide) (s' := c1.rxSide) (ms := rxMsgs o.reports) hc (iter_rxSide h1)
    obtain ⟨ws', t3, t4⟩ := ih t2 h2
    exact ⟨ws', ⟨ws1, t1, t3⟩, t4⟩

/-- **C91.** In every history, from the start, every line about the bus is explained by the words taken from the receiving core since the line
before (`HistoryTells`), and what is being collected is what the words since the last line say. -/
theorem C91_lines_explained (pf : Platform) (g : Nat → UInt8) (es : List (Env1 × Env2)) (c : Core0) (os : List Out2) (h : LoopRun pf g es c os) :
    ∃ ws, HistoryTells [] es os ws ∧ c.rxMsg.bytes = heardBytes ws ∧ c.rxMsg.status = heardStatus ws := by
  obtain ⟨w0, t0, t1, h⟩ := h
  obtain ⟨ws, h1, h2⟩ := run_tells (ws := []) ⟨⟨rfl, rfl⟩, by show 0 < 32; omega⟩ h
  exact ⟨ws, h1, h2.is.2, h2.is.1⟩


/-- The words are divided into segments, one for each line about the bus; what comes after the last one is being collected. -/
theorem HistoryTells.segments : ∀ {es : List (Env1 × Env2)} {os : List Out2} {ws ws' : List Word}, HistoryTells ws es os ws' →
    ∃ segs : List (Message × List Word), busLines os = segs.map Prod.fst ∧ segs.flatMap Prod.snd ++ ws' = ws ++ wordsOf es ∧
      ∀ p ∈ segs, p.1.bytes = heardBytes p.2 ∧ (p.1.status = 2 ∨ p.1.status = 4 ∨
        (p.1.status = heardStatus p.2 ∧ ∃ ws w, p.2 = ws ++ [w] ∧ w.lineFree = true)) := by
  intro es
  induction es with
  | nil =>
    intro os ws ws' h
    cases os with
    | nil => exact ⟨[], rfl, by simp [wordsOf]; exact h, by simp⟩
    | cons o os => exact absurd h (by simp [HistoryTells])
  | cons e es ih =>
    intro os ws ws' h
    cases os with
    | nil => exact absurd h (by simp [HistoryTells])
    | cons o os =>
      obtain ⟨ws3, ⟨busy, lost, heard, ws1, ws2, h1, h2, h3, h4⟩, h5⟩ := h
      obtain ⟨segs, g1, g2, g3⟩ := ih h5
      have hb : ∃ s1 : List (Message × List Word), busy = s1.map Prod.fst ∧ s1.flatMap Prod.snd ++ ws1 = ws ∧
          ∀ p ∈ s1, p.1.bytes = heardBytes p.2 ∧ p.1.status = 4 := by
        rcases h2 with ⟨rfl, rfl⟩ | ⟨m, rfl, hm, rfl⟩
        · exact ⟨[], rfl, rfl, by simp⟩
        · refine ⟨[(m, ws)], rfl, by simp, ?_⟩
          intro p hp
          rw [List.mem_singleton.mp hp]
          exact ⟨hm.2, hm.1⟩
      have hl : ∃ s2 : List (Message × List Word), lost = s2.map Prod.fst ∧ s2.flatMap Prod.snd ++ ws2 = ws1 ∧
          ∀ p ∈ s2, p.1.bytes = heardBytes p.2 ∧ p.1.status = 2 := by
        rcases h3 with ⟨_, rfl, rfl⟩ | ⟨_, m, rfl, hm, rfl⟩
        · exact ⟨[], rfl, rfl, by simp⟩
        · refine ⟨[(m, ws1)], rfl, by simp, ?_⟩
          intro p hp
          rw [List.mem_singleton.mp hp]
          exact ⟨hm.2, hm.1⟩
      have hh : ∃ s3 : List (Message × List Word), heard = s3.map Prod.fst ∧ s3.flatMap Prod.snd ++ ws3 = ws2 ++ e.2.word.toList ∧
          ∀ p ∈ s3, p.1.bytes = heardBytes p.2 ∧ (p.1.status = 2 ∨ (p.1.status = heardStatus p.2 ∧ ∃ ws w, p.2 = ws ++ [w] ∧ w.lineFree = true)) := by
        rcases h4 with ⟨hw, rfl, rfl⟩ | ⟨w, hw, ⟨hp, m, rfl, hm, rfl⟩ | ⟨_, _, m, rfl, hm, rfl⟩ | ⟨_, _, rfl, rfl⟩⟩
        · exact ⟨[], rfl, by simp [hw], by simp⟩
        · refine ⟨[(m, ws2 ++ [w])], rfl, by simp [hw], ?_⟩
          intro p hp'
          rw [List.mem_singleton.mp hp']
          exact ⟨hm.2, .inr ⟨hm.1, ws2, w, rfl, hp.1⟩⟩
        · refine ⟨[(m, ws2 ++ [w])], rfl, by simp [hw], ?_⟩
          intro p hp'
          rw [List.mem_singleton.mp hp']
          exact ⟨hm.2, .inl hm.1⟩
        · exact ⟨[], rfl, by simp [hw], by simp⟩
      obtain ⟨s1, b1, b2, b3⟩ := hb
      obtain ⟨s2, l1, l2, l3⟩ := hl
      obtain ⟨s3, k1, k2, k3⟩ := hh
      refine ⟨s1 ++ s2 ++ s3 ++ segs, ?_, ?_, ?_⟩
      · have : busLines (o :: os) = rxMsgs o.reports ++ busLines os := rfl
        rw [this, h1, g1, b1, l1, k1]
        simp
      · have hw : wordsOf (e :: es) = e.2.word.toList ++ wordsOf es := by
          cases hw : e.2.word <;> simp [wordsOf, hw]
        rw [hw]
        simp only [List.flatMap_append]
        rw [← List.append_assoc ws, ← b2, ← l2]
        simp only [List.append_assoc]
        rw [← List.append_assoc ws2, ← k2, g2]
        simp
      · intro p hp
        simp only [List.mem_append] at hp
        rcases hp with ((hp | hp) | hp) | hp
        · exact ⟨(b3 p hp).1, .inr (.inl (b3 p hp).2)⟩
        · exact ⟨(l3 p hp).1, .inl (l3 p hp).2⟩
        · obtain ⟨a1, a2 | a2⟩ := k3 p hp
          · exact ⟨a1, .inl a2⟩
          · exact ⟨a1, .inr (.inr a2)⟩
        · exact g3 p hp

set_option maxRecDepth 8000 in
/-- A history with lines of several kinds: a packet, a packet with a wrong byte, an error of the ADC, and words that were not handed over. -/
example : busSeen [calmIter 0 (some wFree), calmIter 1 (some wBusy), calmIter 2 (some (wByte 1)), calmIter 3 (some (wByte 2)), calmIter 4 (some wFree),
      calmIter 5 (some { Word.zero with rxChar := 7, rxError := true }), calmIter 6 (some wFree), calmIter 7 (some { Word.zero with dadcError := true }),
      calmIter 8 (some (wByte 3)), calmIter 9 (some wFree), calmIter 10 (some (wByte 4)),
      ({ env1 11 [] with fifoErr := true }, env2 11 (some (wByte 5))), calmIter 12 (some wFree)] =
    some [(0, [1, 2]), (3, [7]), (2, [3]), (2, [4]), (0, [5])] := by decide +kernel

/-! ## C94: errors of the ADC -/

theorem heardStatus_ne {ws : List Word} {w : Word} (h : w ∈ ws) (he : w.dadcError = true ∨ w.rxError = true) : heardStatus ws ≠ 0 := by
  unfold heardStatus
  cases hl : (ws.filter fun w => w.dadcError || w.rxError).getLast? with
  | none =>
    rw [List.getLast?_eq_none_iff, List.filter_eq_nil_iff] at hl
    have := hl w h
    rcases he with he | he <;> simp [he] at this
  | some x =>
    dsimp only
    split <;> simp

/-- **C94.** In every history the words taken from the receiving core are divided into segments, one for each line about the bus and one for what
is being collected; the line of a segment in which the ADC was overrun (or a wrong byte was received) has a status that is not 0, and so has
what is being collected. -/
theorem C94_adc_error_shown (pf : Platform) (g : Nat → UInt8) (es : List (Env1 × Env2)) (c : Core0) (os : List Out2) (h : LoopRun pf g es c os) :
    ∃ (segs : List (Message × List Word)) (ws : List Word), busLines os = segs.map Prod.fst ∧ segs.flatMap Prod.snd ++ ws = wordsOf es ∧
      (∀ p ∈ segs, ∀ w ∈ p.2, w.dadcError = true ∨ w.rxError = true → p.1.status ≠ 0) ∧
      (∀ w ∈ ws, w.dadcError = true ∨ w.rxError = true → c.rxMsg.status ≠ 0) := by
  obtain ⟨ws, h1, _, h3⟩ := C91_lines_explained pf g es c os h
  obtain ⟨segs, g1, g2, g3⟩ := h1.segments
  refine ⟨segs, ws, g1, by simpa using g2, ?_, ?_⟩
  · intro p hp w hw he
    obtain ⟨_, h | h | ⟨h, _⟩⟩ := g3 p hp
    · rw [h]; simp
    · rw [h]; simp
    · rw [h]; exact heardStatus_ne hw he
  · intro w hw he
    rw [h3]; exact heardStatus_ne hw he

/-! ## C92: overflow lines mean loss -/

/-- How often the main loop, looking at the flag, saw that words were not handed over (it tells the host then, `C91`). -/
def lostLooks (xs : List TwoStep) : Nat := xs.countP fun | .first e => e.fifoErr | _ => false

/-- How often the receiving core could not hand over a word. -/
def drops (os : List TwoOut) : Nat := os.countP TwoOut.dropped

theorem lost_bound {pf : Platform} {g : Nat → UInt8} {s t : TwoCores} {xs : List TwoStep} {os : List TwoOut}
    (h : s.run pf g xs = .ok (some (t, os))) :
    lostLooks xs ≤ drops os + (if s.fifoErr = true ∧ ¬ (s.pc = .clear ∧ s.c0.clr = true) then 1 else 0) := by
  induction xs generalizing s os with
  | nil => simp [lostLooks]
  | cons x xs ih =>
    obtain ⟨s', o, os', h1, h2, rfl⟩ := TwoCores.run_cons h
    have hi := ih h2
    have d1 : drops (o :: os') = drops os' + (if o.dropped then 1 else 0) := by simp [drops, List.countP_cons]
    rw [d1]
    rcases TwoCores.step_ok h1 with ⟨w, rfl, hw, rfl, rfl⟩ | ⟨w, rfl, hw, rfl, rfl⟩ | ⟨e, c, rs, rfl, hp, he, h1', rfl, rfl⟩ | ⟨rfl, hc, rfl, rfl⟩ |
      ⟨e, r, rfl, hp, hw, h1', rfl, rfl⟩
    · have l1 : lostLooks (TwoStep.push w :: xs) = lostLooks xs := by simp [lostLooks, List.countP_cons]
      rw [l1]; simpa using hi
    · have l1 : lostLooks (TwoStep.push w :: xs) = lostLooks xs := by simp [lostLooks, List.countP_cons]
      rw [l1]
      simp only [ite_true]
      dsimp only at hi
      split at hi <;> split <;> omega
    · have l1 : lostLooks (TwoStep.first e :: xs) = lostLooks xs + (if e.fifoErr then 1 else 0) := by simp [lostLooks, List.countP_cons]
      rw [l1]
      dsimp only at hi
      have hclr := (part1_clr h1').1
      rw [hclr, he] at hi
      rw [he]
      cases hf : s.fifoErr
      · rw [hf] at hi; simpa using hi
      · rw [hf] at hi
        simp only [true_and, not_true_eq_false, and_false, ite_false] at hi
        simp [hp]
        omega
    · have l1 : lostLooks (TwoStep.clear :: xs) = lostLooks xs := by simp [lostLooks, List.countP_cons]
      rw [l1]
      dsimp only at hi
      cases hc' : s.c0.clr
      · rw [hc'] at hi; simpa [hc] using hi
      · rw [hc'] at hi
        simp at hi
        simp
        omega
    · have l1 : lostLooks (TwoStep.second e :: xs) = lostLooks xs := by simp [lostLooks, List.countP_cons]
      rw [l1]
      dsimp only at hi
      simp [hp]
      simp at hi
      exact hi

/-- **C92.** For every interleaving of the two cores, the main loop sees the overflow flag set at most once per word that could not be handed over
(plus once for words lost before the main loop started). -/
theorem C92_overflow_means_loss (pf : Platform) (g g0 : Nat → UInt8) (w0 : Word) (t0 t1 : Nat) (fe : Bool) (t : TwoCores) (xs : List TwoStep) (os : List TwoOut)
    (h : (TwoCores.init g0 w0 t0 t1 fe).run pf g xs = .ok (some (t, os))) : lostLooks xs ≤ drops os + (if fe then 1 else 0) := by
  have := lost_bound h
  cases fe <;> simpa [TwoCores.init] using this

/-- The bound is met: in `dropRun` two words are dropped and the flag is seen set once; no more than that. -/
example : lostLooks dropRun = 1 ∧ dropsAndReports dropRun = some ([8, 10], [(9, 2, []), (37, 0, [1, 2, 3, 4, 5, 6, 7, 8])]) :=
  ⟨by decide +kernel, C53_refuted.2⟩

/-- **C92, the lines.** In an iteration that sees the flag not set, every line about the bus with the overflow status comes from the words: 32 bytes
without an end of the packet, or a packet that ends and whose last error is one of the ADC. -/
theorem C92_no_other_overflow (pf : Platform) (g : Nat → UInt8) (es : List (Env1 × Env2)) (c c' : Core0) (os : List Out2) (e : Env1 × Env2) (o : Out2)
    (hr : LoopRun pf g es c os) (h : c.iter pf g e = .ok (c', o)) (hf : e.1.fifoErr = false) :
    ∃ ws, c.rxMsg.bytes = heardBytes ws ∧ ∀ m ∈ rxMsgs o.reports, m.status = 2 →
      m.bytes.length = 32 ∨ ∃ w, e.2.word = some w ∧ w.lineFree = true ∧ ∃ x ∈ ws ++ [w], x.dadcError = true := by
  obtain ⟨ws, h1, h2, h3⟩ := C91_lines_explained pf g es c os hr
  have hc : Collected c.rxMsg ws := ⟨⟨h3, h2⟩, hr.good.rx⟩
  obtain ⟨ws', t1, t2⟩ := RxSide.step_tells (s := c.rxSide) (s' := c'.rxSide) (ms := rxMsgs o.reports) hc (iter_rxSide h)
  refine ⟨ws, h2, ?_⟩
  obtain ⟨busy, lost, heard, ws1, ws2, k1, k2, k3, k4⟩ := t1
  intro m hm hs
  rw [k1] at hm
  have hlost : lost = [] ∧ ws2 = ws1 := by
    rcases k3 with ⟨_, k3, k5⟩ | ⟨k3, _⟩
    · exact ⟨k3, k5⟩
    · rw [hf] at k3; cases k3
  obtain ⟨rfl, rfl⟩ := hlost
  simp only [List.append_nil, List.mem_append] at hm
  rcases hm with hm | hm
  · rcases k2 with ⟨rfl, _⟩ | ⟨m', rfl, hl, _⟩
    · cases hm
    · rw [List.mem_singleton.mp hm, hl.1] at hs
      cases hs
  · have hsub : ∀ x ∈ ws2, x ∈ ws := by
      rcases k2 with ⟨_, rfl⟩ | ⟨_, _, _, rfl⟩
      · exact fun x hx => hx
      · simp
    rcases k4 with ⟨_, rfl, _⟩ | ⟨w, hw, ⟨hp, m', rfl, hl, _⟩ | ⟨_, h32, m', rfl, hl, _⟩ | ⟨_, _, rfl, _⟩⟩
    · cases hm
    · right
      rw [List.mem_singleton.mp hm, hl.1] at hs
      refine ⟨w, hw, hp.1, ?_⟩
      unfold heardStatus at hs
      split at hs
      · cases hs
      · rename_i x hx
        have hx := List.mem_filter.mp (List.mem_of_getLast? hx)
        refine ⟨x, ?_, ?_⟩
        · rcases List.mem_append.mp hx.1 with h | h
          · exact List.mem_append_left _ (hsub x h)
          · exact List.mem_append_right _ h
        · split at hs
          · assumption
          · cases hs
    · left
      rw [List.mem_singleton.mp hm, hl.2]; exact h32
    · cases hm

/-! ## C93: long packets -/

namespace RxSide

/-- Collecting without end of packet, any number of bytes. -/
theorem run_long {T : Nat} : ∀ (es : List (Env1 × Env2)) {s s' : RxSide} {os : List (List Message)}, Calm T s → Within T es →
    s.run es = .ok (s', os) → (∀ w ∈ wordsOf es, CleanWord w ∧ w.lineFree = false) → s.msg.length < 32 → s.msg.status = 0 →
    Calm T s' ∧ (∀ m ∈ os.flatten, m.status = 2 ∧ m.length = 32) ∧ s'.msg.status = 0 ∧ s'.msg.length < 32 ∧
      os.flatten.flatMap Message.bytes ++ s'.msg.bytes = s.msg.bytes ++ ((wordsOf es).flatMap resultOf).map Prod.fst := by
  intro es
  induction es with
  | nil =>
    intro s s' os hc _ h _ hl hs
    simp only [run, Res.ok.injEq, Prod.mk.injEq] at h
    obtain ⟨rfl, rfl⟩ := h
    exact ⟨hc, by simp, hs, hl, by simp [wordsOf]⟩
  | cons e es ih =>
    intro s s' os hc hW h hw hl hs
    obtain ⟨r, os', h1, h2, rfl⟩ := run_cons' h
    rcases step_word hc hW h1 with ⟨hn, rfl⟩ | ⟨w, m, hsome, h3, h4, h5, h6⟩
    · have e0 : wordsOf (e :: es) = wordsOf es := by simp [wordsOf, hn]
      rw [e0] at hw ⊢
      have := ih hc hW.tail h2 hw hl hs
      simpa using this
    · have e0 : wordsOf (e :: es) = w :: wordsOf es := by simp [wordsOf, hsome]
      rw [e0] at hw ⊢
      obtain ⟨g1, g2, g3⟩ := collect_clean (hw w (by simp)).1 hl h3
      rw [ends_none m w (hw w (by simp)).2] at h4 h5
      dsimp only at h4 h5
      have hr1 : (resultOf w).length ≤ 1 := by unfold resultOf; split <;> simp
      by_cases h32 : m.length = 32
      · have hfu : full m = (m.clear, [{ m with status := Message.errOverflow }]) := by unfold full; rw [if_pos h32]
        rw [hfu] at h4 h5
        dsimp only at h4 h5
        obtain ⟨k1, k2, k3, k4, k5⟩ := ih h6 hW.tail h2 (fun x hx => hw x (by simp [hx])) (by rw [h4]; show 0 < 32; omega) (by rw [h4]; rfl)
        refine ⟨k1, ?_, k3, k4, ?_⟩
        · intro x hx
          rw [List.flatten_cons, h5] at hx
          rcases List.mem_append.mp hx with hx | hx
          · rw [List.nil_append, List.mem_singleton] at hx
            rw [hx]; exact ⟨rfl, h32⟩
          · exact k2 x hx
        · rw [List.flatten_cons, h5, List.flatMap_append, List.append_assoc, k5, h4, Message.clear_bytes]
          simp [Message.bytes_status, g1]
      · rw [full_not m (by omega)] at h4 h5
        dsimp only at h4 h5
        obtain ⟨k1, k2, k3, k4, k5⟩ := ih h6 hW.tail h2 (fun x hx => hw x (by simp [hx])) (by rw [h4]; show m.length < 32; omega) (by rw [h4, g2]; exact hs)
        refine ⟨k1, ?_, k3, k4, ?_⟩
        · intro x hx
          rw [List.flatten_cons, h5] at hx
          exact k2 x (by simpa using hx)
        · rw [List.flatten_cons, h5]
          simp only [List.append_nil, List.nil_append]
          rw [k5, h4, g1]
          simp

end RxSide

/-- **C93.** Start without collected bytes; then come words without errors that carry the bytes `bs`, any number of them, in any number of iterations;
the word after them says that the line is free.  If the inter-core FIFO does not overflow and all this takes at most 500 ms, the host is
given the bytes, in order and completely, in lines of exactly 32 bytes with the overflow status, followed by one line with the remaining 1 to 31 bytes, if any, with
status 0. -/
theorem C93_long_packets (pf : Platform) (g : Nat → UInt8) (c c' : Core0) (es : List (Env1 × Env2)) (os : List Out2) (T : Nat)
    (ws : List Word) (w : Word)
    (h : c.run pf g es = .ok (c', os)) (h0 : c.rxMsg.length = 0 ∧ c.rxMsg.status = 0)
    (hT : Within T es) (hb : c.lineBusy = true → T ≤ c.busySince ∧ c.busySince ≤ T + 500)
    (hw : wordsOf es = ws ++ [w]) (hclean : ∀ x ∈ ws, x.rxError = false ∧ x.dadcError = false ∧ x.lineFree = false)
    (hfree : w = wFree) :
    ∃ full rest, busLines os = full ++ rest ∧ (∀ m ∈ full, m.status = 2 ∧ m.length = 32) ∧
      (rest = [] ∨ ∃ m, rest = [m] ∧ m.status = 0 ∧ 1 ≤ m.length ∧ m.length ≤ 31) ∧
      (busLines os).flatMap Message.bytes = (ws.flatMap resultOf).map Prod.fst ∧ c'.rxMsg.length = 0 ∧ c'.rxMsg.status = 0 := by
  subst hfree
  have hr := run_rxSide h
  obtain ⟨a, b, rfl, ha, hb'⟩ := List.filterMap_eq_append_iff.mp hw
  obtain ⟨s1, o1, o2, r1, r2, ho⟩ := RxSide.run_append' hr
  have hc : RxSide.Calm T c.rxSide := ⟨fun h => (hb h).1, fun h => (hb h).2⟩
  obtain ⟨wa, wb⟩ := Within.append hT
  have ha : wordsOf a = ws := ha
  have hb' : wordsOf b = [wFree] := hb'
  obtain ⟨k1, k2, k3, k4, k5⟩ := RxSide.run_long a hc wa r1
    (by rw [ha]; intro x hx; exact ⟨⟨(hclean x hx).1, (hclean x hx).2.1⟩, (hclean x hx).2.2⟩) (by show c.rxMsg.length < 32; omega) h0.2
  obtain ⟨m, m1, m2, m3, _⟩ := RxSide.run_one k1 wb r2 hb'
  have hbl : busLines os = o1.flatten ++ o2.flatten := by
    rw [← List.flatten_append, ← ho]
    unfold busLines
    rw [List.flatMap_def]
  have hm : m = s1.msg := by
    unfold RxSide.collect at m1
    have : (Res.ok s1.msg : Res Message) = .ok m := m1
    cases this; rfl
  subst hm
  have hb0 : c.rxSide.msg.bytes = [] := by
    show c.rxMsg.bytes = []
    unfold Message.bytes
    rw [h0.1]; rfl
  rw [hb0, List.nil_append, ha] at k5
  have hcl : c'.rxMsg = c'.rxSide.msg := rfl
  rw [hcl, m2]
  by_cases hz : s1.msg.length = 0
  · have he : RxSide.ends s1.msg wFree = (s1.msg, []) := by
      unfold RxSide.ends
      rw [hz, k3]; rfl
    rw [he] at m3 ⊢
    dsimp only at m3 ⊢
    rw [RxSide.full_not _ k4] at m3 ⊢
    refine ⟨o1.flatten, [], by rw [hbl, m3]; rfl, k2, .inl rfl, ?_, hz, k3⟩
    rw [hbl, m3, ← k5]
    have : s1.msg.bytes = [] := by unfold Message.bytes; rw [hz]; rfl
    simp [this]
  · have he : RxSide.ends s1.msg wFree = (s1.msg.clear, [s1.msg]) := by
      unfold RxSide.ends
      have : decide (s1.msg.length > 0) = true := by simp; omega
      rw [this]; rfl
    rw [he] at m3 ⊢
    dsimp only at m3 ⊢
    rw [RxSide.full_not _ (by show 0 < 32; omega)] at m3 ⊢
    refine ⟨o1.flatten, [s1.msg], by rw [hbl, m3]; rfl, k2, .inr ⟨_, rfl, k3, by omega, by omega⟩, ?_, rfl, rfl⟩
    rw [hbl, m3, ← k5]
    simp

set_option maxRecDepth 8000 in
/-- A packet of 70 bytes: 32 and 32 bytes with the overflow status, then 6 bytes. -/
example : busSeen (calmIter 0 (some wFree) :: (List.range 70).map (fun i => calmIter (1000 + i) (some (wByte (UInt8.ofNat i)))) ++ [calmIter 2000 (some wFree)]) =
    some [(2, (List.range 32).map UInt8.ofNat), (2, ((List.range 32).map fun i => UInt8.ofNat (32 + i))), (0, [64, 65, 66, 67, 68, 69])] := by decide +kernel

end P1P2
