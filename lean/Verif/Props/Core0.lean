import Verif.Proofs.Core0
import Verif.Props.Core1
/-!
# Properties C53 - C55: what the main loop tells the host about the bus
-/
namespace P1P2

/-! ## C54, C55 -/

/-- Start of both cores (any content of uninitialised memory, any clock readings). -/
def Started (s : TwoCores) : Prop := ∃ g w0 t0 t1 fe, s = TwoCores.init g w0 t0 t1 fe

theorem Message.clear_bytes (m : Message) : m.clear.bytes = [] := rfl

theorem flatMap_carries (segs : List (Message × List (UInt8 × Bool))) (h : ∀ p ∈ segs, Shows p.1 p.2) :
    (segs.map Prod.fst).flatMap Message.bytes = (segs.flatMap Prod.snd).map Prod.fst := by
  induction segs with
  | nil => rfl
  | cons p ps ih =>
    rw [List.map_cons, List.flatMap_cons, List.flatMap_cons, List.map_append, ih (fun q hq => h q (by simp [hq])), (h p (by simp)).1]

/-- **C55.** For every interleaving of the two cores, every message about the bus that is reported, and the one being collected, carries a
segment of the received bytes, in order; if one of its bytes was received with an error its status is not 0. -/
theorem C55_errors_shown (pf : Platform) (g : Nat → UInt8) (s t : TwoCores) (xs : List TwoStep) (os : List TwoOut)
    (hs : Started s) (h : s.run pf g xs = .ok (some (t, os))) (hx : WordsOk xs) :
    ∃ (segs : List (Message × List (UInt8 × Bool))) (last : List (UInt8 × Bool)), rxMsgs (reportsOf os) = segs.map Prod.fst ∧ (∀ p ∈ segs, Shows p.1 p.2) ∧
      Shows t.c0.rxMsg last ∧ segs.flatMap Prod.snd ++ last ++ t.fifo.flatMap resultOf = accepted xs os := by
  obtain ⟨g0, w0, t0, t1, fe, rfl⟩ := hs
  obtain ⟨_, inp, hc, hi⟩ := TwoCores.run_collect h (by show 0 < 32; omega) (by intro w hw; cases hw) hx
  obtain ⟨segs, last, h1, h2, h3, h4⟩ := hc [] ⟨rfl, by simp⟩
  refine ⟨segs, last, h1, h2, h3, ?_⟩
  rw [h4, List.nil_append, hi]
  rfl

/-- **C54, messages about the bus.** For every interleaving of the two cores, the data of the messages about the bus given to the host, the bytes
being collected and the bytes in the inter-core FIFO together are exactly the received bytes that were accepted by the FIFO, in order. -/
theorem C54_received_partial (pf : Platform) (g : Nat → UInt8) (s t : TwoCores) (xs : List TwoStep) (os : List TwoOut)
    (hs : Started s) (h : s.run pf g xs = .ok (some (t, os))) (hx : WordsOk xs) :
    (rxMsgs (reportsOf os)).flatMap Message.bytes ++ t.c0.rxMsg.bytes ++ (t.fifo.flatMap resultOf).map Prod.fst =
      (accepted xs os).map Prod.fst := by
  obtain ⟨segs, last, h1, h2, h3, h4⟩ := C55_errors_shown pf g s t xs os hs h hx
  rw [h1, flatMap_carries segs h2, h3.1, ← h4, List.map_append, List.map_append]

/-- Every word the receiving core sends is as required by C54, C55. -/
theorem Word.Wf.wordOk {w : Word} (h : w.Wf) : WordOk w := ⟨h.char, h.line, h.adc⟩

/-! ### A failed transmission is reported with bytes that were reported as received before -/

/-- Clock readings all equal to `t`. -/
def env1 (t : Nat) (chunk : List UInt8) : Env1 :=
  { chunk := chunk, tHost := t, tCtrl1 := t, tCtrl2 := t, hwErr := false, fifoErrLed := false, tDog1 := t, tDog2 := t, fifoErr := false }

/-- Clock readings all equal to `t`, hardware working. -/
def env2 (t : Nat) (w : Option Word) : Env2 :=
  { word := w, tColl := t, tBusy := t, tWake := t, hwErr := false, transmitting := false, tErr := t, tPow := t, tNew := t }

/-- A byte received without error. -/
def wByte (b : UInt8) : Word := { Word.zero with rxChar := b, rxValid := true }

theorem wByte_ok (b : UInt8) : WordOk (wByte b) := ⟨fun h => (by cases h.2), fun h => (by cases h.1), fun h => (by cases h)⟩

def wFree : Word := { Word.zero with lineFree := true }
def wBusy : Word := { Word.zero with lineBusy := true }

/-- The host sends the packet 40 F0; the first byte is echoed, the second is not. -/
def echoRun : List TwoStep :=
  let it (t : Nat) (chunk : List UInt8) (w : Option Word) : List TwoStep :=
    w.toList.map .push ++ [.first (env1 t chunk), .clear, .second (env2 t w)]
  it 0 [] (some wFree) ++ it 1000 ([52, 48, 70, 48, 10]) none ++ it 2000 [] none ++ it 3000 [] none ++ it 100000 [] none ++ it 101000 [] none ++
  it 101000 [] (some wBusy) ++ it 102000 [] (some (wByte 0x40)) ++ it 103000 [] (some (wByte 0xE0)) ++ it 104000 [] (some wFree)

/-- What was received and what was reported in a run from the start. -/
def seen (xs : List TwoStep) : Option (List UInt8 × List (List UInt8) × List (List UInt8)) :=
  match (TwoCores.init (fun _ => 0) .zero 0 0 false).run .arm (fun _ => 0) xs with
  | .ok (some (_, os)) => some ((accepted xs os).map Prod.fst, (rxMsgs (reportsOf os)).map Message.bytes, (txMsgs (reportsOf os)).map Message.bytes)
  | _ => none

/-- **C54 fails** when a transmission fails: 40 E0 was received, but besides 40 E0 the host is given 40 F0. -/
theorem C54_refuted : WordsOk echoRun ∧ seen echoRun = some ([0x40, 0xE0], [[0x40, 0xE0]], [[0x40, 0xF0]]) := by
  constructor
  · intro w hw
    have : w = wFree ∨ w = wBusy ∨ w = wByte 0x40 ∨ w = wByte 0xE0 := by
      simp [echoRun] at hw
      grind
    rcases this with rfl | rfl | rfl | rfl <;> (unfold WordOk; decide)
  · decide +kernel

/-! ## C53 -/

/-- One of the reports is about the bus and has the overflow status. -/
def TellsOverflow (rs : List Report) : Prop := ∃ m, Report.rx m ∈ rs ∧ m.status = Message.errOverflow

theorem part1_clr {pf : Platform} {g : Nat → UInt8} {c c' : Core0} {e : Env1} {rs : List Report}
    (h : c.part1 pf g e = .ok (c', rs)) : c'.clr = e.fifoErr ∧ (e.fifoErr = true → TellsOverflow rs) := by
  obtain ⟨k, _, rfl, rfl⟩ := Core0.part1_ok h
  unfold Core0.fifoCheck
  cases he : e.fifoErr with
  | false => exact ⟨rfl, fun h => by cases h⟩
  | true =>
    refine ⟨rfl, fun _ => ⟨_, List.mem_append_right _ (List.mem_singleton.mpr rfl), rfl⟩⟩

/-- The step is the first part of an iteration, which looks at the flag. -/
def TwoStep.isFirst : TwoStep → Bool
  | .first _ => true
  | _ => false

/-- The step is made by the main loop. -/
def TwoStep.isMain : TwoStep → Bool
  | .push _ => false
  | _ => true

theorem flag_kept {pf : Platform} {g : Nat → UInt8} {s t : TwoCores} {xs : List TwoStep} {os : List TwoOut}
    (h : s.run pf g xs = .ok (some (t, os))) (hx : ∀ x ∈ xs, x.isFirst = false) (hf : s.fifoErr = true)
    (hp : s.pc = .clear → s.c0.clr = false) : t.fifoErr = true := by
  induction xs generalizing s os with
  | nil => obtain ⟨rfl, rfl⟩ := TwoCores.run_nil h; exact hf
  | cons x xs ih =>
    obtain ⟨s', o, os', h1, h2, rfl⟩ := TwoCores.run_cons h
    have hx' : ∀ x ∈ xs, x.isFirst = false := fun x hm => hx x (by simp [hm])
    rcases TwoCores.step_ok h1 with ⟨w, rfl, hw, rfl, rfl⟩ | ⟨w, rfl, hw, rfl, rfl⟩ | ⟨e, c, rs, rfl, _, _, h1, rfl, rfl⟩ | ⟨rfl, hc, rfl, rfl⟩ |
      ⟨e, r, rfl, _, hw, h1, rfl, rfl⟩
    · exact ih h2 hx' hf hp
    · exact ih h2 hx' rfl hp
    · have := hx (.first e) (by simp)
      simp [TwoStep.isFirst] at this
    · refine ih h2 hx' ?_ (fun hh => by cases hh)
      show (if s.c0.clr then false else s.fifoErr) = true
      rw [hp hc, hf]; rfl
    · exact ih h2 hx' hf (fun hh => by cases hh)

/-- If the flag is about to be cleared, the last step of the main loop was the first part of an iteration and told the host about an overflow. -/
theorem clr_told {pf : Platform} {g : Nat → UInt8} {s t : TwoCores} (hs : s.pc ≠ .clear) {xs : List TwoStep} {os : List TwoOut}
    (h : s.run pf g xs = .ok (some (t, os))) (hc : t.pc = .clear) (hr : t.c0.clr = true) :
    ∃ a e b oa o ob, xs = a ++ TwoStep.first e :: b ∧ os = oa ++ o :: ob ∧ oa.length = a.length ∧ ob.length = b.length ∧
      (∀ x ∈ b, x.isMain = false) ∧ TellsOverflow o.reports := by
  suffices key : ∀ (xs : List TwoStep) (s : TwoCores) (os : List TwoOut), s.run pf g xs = .ok (some (t, os)) → os.length = xs.length ∧
      ((s.pc = .clear ∧ s.c0.clr = true ∧ ∀ x ∈ xs, x.isMain = false) ∨
      ∃ a e b oa o ob, xs = a ++ TwoStep.first e :: b ∧ os = oa ++ o :: ob ∧ oa.length = a.length ∧ ob.length = b.length ∧
      (∀ x ∈ b, x.isMain = false) ∧ TellsOverflow o.reports) by
    rcases (key xs s os h).2 with hh | hh
    · exact absurd hh.1 hs
    · exact hh
  intro xs
  induction xs with
  | nil =>
    intro s os h
    obtain ⟨rfl, rfl⟩ := TwoCores.run_nil h
    exact ⟨rfl, .inl ⟨hc, hr, by simp⟩⟩
  | cons x xs ih =>
    intro s os h
    obtain ⟨s', o, os', h1, h2, rfl⟩ := TwoCores.run_cons h
    obtain ⟨hlen, ih⟩ := ih s' os' h2
    refine ⟨by simp [hlen], ?_⟩
    rcases ih with ⟨hc', hr', hm⟩ | ⟨a, e, b, oa, o1, ob, rfl, rfl, e1, e2, e3, e4⟩
    · rcases TwoCores.step_ok h1 with ⟨w, rfl, hw, rfl, rfl⟩ | ⟨w, rfl, hw, rfl, rfl⟩ | ⟨e, c, rs, rfl, _, _, h5, rfl, rfl⟩ | ⟨rfl, hc, rfl, rfl⟩ |
        ⟨e, r, rfl, _, hw, h1, rfl, rfl⟩
      · exact .inl ⟨hc', hr', by simpa [TwoStep.isMain] using hm⟩
      · exact .inl ⟨hc', hr', by simpa [TwoStep.isMain] using hm⟩
      · obtain ⟨h3, h4⟩ := part1_clr h5
        refine .inr ⟨[], e, xs, [], _, os', rfl, rfl, rfl, hlen, hm, h4 ?_⟩
        rw [← h3]; exact hr'
      · cases hc'
      · cases hc'
    · exact .inr ⟨x :: a, e, b, o :: oa, o1, ob, rfl, rfl, by simp [e1], e2, e3, e4⟩

/-- **C53, what holds.** A word was dropped (`pre`, then the drop); then, up to the next look of the main loop at the flag (`mid`, then `first`), for every interleaving:
that look makes the main loop tell the host about an overflow, or else the step of the main loop that immediately precedes the drop had told the host about an (earlier) overflow. -/
theorem C53_told_partial (pf : Platform) (g : Nat → UInt8) (s0 s s' s'' t : TwoCores) (pre mid : List TwoStep) (w : Word) (e : Env1)
    (os os' : List TwoOut) (o o' : TwoOut) (h0 : Started s0) (h1 : s0.run pf g pre = .ok (some (s, os)))
    (h2 : s.step pf g (.push w) = .ok (some (s', o))) (hd : o.dropped = true)
    (h3 : s'.run pf g mid = .ok (some (s'', os'))) (hm : ∀ x ∈ mid, x.isFirst = false)
    (h4 : s''.step pf g (.first e) = .ok (some (t, o'))) :
    TellsOverflow o'.reports ∨
    ∃ a e b oa o ob, pre = a ++ TwoStep.first e :: b ∧ os = oa ++ o :: ob ∧ oa.length = a.length ∧ ob.length = b.length ∧
      (∀ x ∈ b, x.isMain = false) ∧ TellsOverflow o.reports := by
  by_cases hc : s.pc = .clear ∧ s.c0.clr = true
  · obtain ⟨g0, w0, t0, t1, fe, rfl⟩ := h0
    exact .inr (clr_told (by simp [TwoCores.init]) h1 hc.1 hc.2)
  · left
    have hs' : s' = { s with fifoErr := true } := by
      rcases TwoCores.step_ok h2 with ⟨w, hw, _, rfl, rfl⟩ | ⟨w, hw, _, rfl, rfl⟩ | ⟨e, c, rs, hw, _⟩ | ⟨hw, _⟩ | ⟨e, r, hw, _⟩
      · cases hd
      · rfl
      · cases hw
      · cases hw
      · cases hw
    have hf : s''.fifoErr = true := by
      apply flag_kept h3 hm
      · rw [hs']
      · rw [hs']
        intro hp
        cases hb : s.c0.clr with
        | false => rfl
        | true => exact absurd ⟨hp, hb⟩ hc
    rcases TwoCores.step_ok h4 with ⟨w, hw, _⟩ | ⟨w, hw, _⟩ | ⟨e, c, rs, hw, _, h5, h6, rfl, rfl⟩ | ⟨hw, _⟩ | ⟨e, r, hw, _⟩
    · cases hw
    · cases hw
    · exact (part1_clr h6).2 (by rw [h5]; exact hf)
    · cases hw
    · cases hw

/-- Bytes 1 to 8 fill the FIFO, 9 is dropped, the main loop sees the flag, 10 is dropped, the main loop clears the flag and collects
bytes 1 to 8 and the end of the packet. -/
def dropRun : List TwoStep :=
  let it (w : Option Word) : List TwoStep := [.first (env1 0 []), .clear, .second (env2 0 w)]
  [1, 2, 3, 4, 5, 6, 7, 8, 9].map (fun b => TwoStep.push (wByte b)) ++ [.first { env1 0 [] with fifoErr := true }, .push (wByte 10), .clear,
    .second (env2 0 (some (wByte 1)))] ++
  [2, 3, 4, 5, 6, 7, 8].flatMap (fun b => it (some (wByte b))) ++ [.push wFree] ++ it (some wFree) ++ it none

/-- The steps of a run that dropped a word, and the reports, with the number of the step. -/
def dropsAndReports (xs : List TwoStep) : Option (List Nat × List (Nat × Nat × List UInt8)) :=
  match (TwoCores.init (fun _ => 0) .zero 0 0 false).run .arm (fun _ => 0) xs with
  | .ok (some (_, os)) => some ((os.zipIdx).filterMap fun p => if p.1.dropped then some p.2 else none,
      (os.zipIdx).flatMap fun p => p.1.reports.map fun r => (p.2, r.msg.status, r.msg.bytes))
  | _ => none

/-- **C53 fails**: bytes 9 and 10 are dropped in steps 8 and 10; the overflow is told in step 9 only, then the packet 1 .. 8 is reported as intact. -/
theorem C53_refuted : WordsOk dropRun ∧
    dropsAndReports dropRun = some ([8, 10], [(9, 2, []), (37, 0, [1, 2, 3, 4, 5, 6, 7, 8])]) := by
  constructor
  · intro w hw
    have : w = wFree ∨ w ∈ [1, 2, 3, 4, 5, 6, 7, 8, 9, 10].map wByte := by
      simp [dropRun] at hw
      simp
      grind
    rcases this with rfl | this
    · unfold WordOk; decide
    · obtain ⟨b, -, rfl⟩ := List.mem_map.mp this
      exact wByte_ok b
  · decide +kernel

/-- **C53 fails, for every continuation**: if a word is dropped between the look at the flag and its clearing, then in every continuation without another
drop the flag is not seen set again: no look at it tells of an overflow. -/
theorem C53_refuted_for_ever (pf : Platform) (g : Nat → UInt8) (s s' t : TwoCores) (w : Word) (xs : List TwoStep) (o : TwoOut) (os : List TwoOut)
    (hp : s.pc = .clear) (hc : s.c0.clr = true) (h1 : s.step pf g (.push w) = .ok (some (s', o))) (hd : o.dropped = true)
    (h2 : s'.run pf g (xs) = .ok (some (t, os))) (hn : ∀ o ∈ os, o.dropped = false) :
    ∀ e, TwoStep.first e ∈ xs → e.fifoErr = false := by
  have hs' : s'.pc = .clear ∧ s'.c0.clr = true := by
    rcases TwoCores.step_ok h1 with ⟨w, hw, _, rfl, rfl⟩ | ⟨w, hw, _, rfl, rfl⟩ | ⟨e, c, rs, hw, _⟩ | ⟨hw, _⟩ | ⟨e, r, hw, _⟩
    · exact ⟨hp, hc⟩
    · exact ⟨hp, hc⟩
    · cases hw
    · cases hw
    · cases hw
  suffices key : ∀ (xs : List TwoStep) (s : TwoCores) (os : List TwoOut), s.run pf g xs = .ok (some (t, os)) → (∀ o ∈ os, o.dropped = false) →
      ((s.pc = .clear ∧ s.c0.clr = true) ∨ s.fifoErr = false) → ∀ e, TwoStep.first e ∈ xs → e.fifoErr = false from
    key xs s' os h2 hn (.inl hs')
  clear h1 h2 hs' hn xs os
  intro xs
  induction xs with
  | nil => intro s os _ _ _ e he; cases he
  | cons x xs ih =>
    intro s os h hn hs e he
    obtain ⟨s', o, os', h1, h2, rfl⟩ := TwoCores.run_cons h
    have ih := ih s' os' h2 (fun o ho => hn o (by simp [ho]))
    have ho := hn o (by simp)
    rcases TwoCores.step_ok h1 with ⟨w, rfl, hw, rfl, rfl⟩ | ⟨w, rfl, hw, rfl, rfl⟩ | ⟨e', c, rs, rfl, h3, h4, h1, rfl, rfl⟩ | ⟨rfl, hc, rfl, rfl⟩ |
      ⟨e', r, rfl, h3, hw, h1, rfl, rfl⟩
    · exact ih hs e (by simpa using he)
    · cases ho
    · have hf : s.fifoErr = false := by
        rcases hs with ⟨hs, _⟩ | hs
        · rw [h3] at hs; cases hs
        · exact hs
      rw [hf] at h4
      rcases List.mem_cons.mp he with he | he
      · cases he; exact h4
      · exact ih (.inr hf) e he
    · refine ih (.inr ?_) e (by simpa using he)
      show (if s.c0.clr then false else s.fifoErr) = false
      rcases hs with ⟨_, hs⟩ | hs
      · rw [hs]; rfl
      · rw [hs]; simp
    · refine ih (.inr ?_) e (by simpa using he)
      rcases hs with ⟨hs, _⟩ | hs
      · rw [h3] at hs; cases hs
      · exact hs

end P1P2
