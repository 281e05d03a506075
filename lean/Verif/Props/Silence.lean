import Verif.Props.HealLines
/-!
# C129: an overrun of the ADC while the bus is silent
-/
namespace P1P2

/-- The words collected have an error of the ADC and carry these bytes. -/
structure Spoilt (ws : List Word) (P : List UInt8) : Prop where
  bytes : heardBytes ws = P
  status : heardStatus ws = 2

theorem Spoilt.reset {ws : List Word} {P : List UInt8} (h : Hears ws P) : Spoilt (ws ++ [wReset]) P :=
  ⟨by rw [heardBytes_append, h.bytes]; exact List.append_nil _, by rw [heardStatus_snoc]; rfl⟩

theorem Spoilt.snoc {ws : List Word} {P : List UInt8} (h : Spoilt ws P) (b : UInt8) : Spoilt (ws ++ [wByte b]) (P ++ [b]) :=
  ⟨by rw [heardBytes_append, h.bytes]; rfl, by rw [heardStatus_snoc]; exact h.status⟩

theorem Spoilt.free {ws : List Word} {P : List UInt8} (h : Spoilt ws P) : Spoilt (ws ++ [wFree]) P :=
  ⟨by rw [heardBytes_append, h.bytes]; exact List.append_nil _, by rw [heardStatus_snoc]; exact h.status⟩

theorem Spoilt.busy {ws : List Word} {P : List UInt8} (h : Spoilt ws P) : Spoilt (ws ++ [wBusy]) P :=
  ⟨by rw [heardBytes_append, h.bytes]; exact List.append_nil _, by rw [heardStatus_snoc]; exact h.status⟩

theorem told_reset {ws rest : List Word} {P : List UInt8} (h : Hears ws P) (hP : P.length < 32) : told ws (wReset :: rest) = told (ws ++ [wReset]) rest := by
  rw [told, if_neg, if_neg]
  · rw [(Spoilt.reset h).bytes]; omega
  · rintro ⟨h1, _⟩; cases h1

theorem told_spoilt_busy {ws rest : List Word} {P : List UInt8} (h : Spoilt ws P) (hP : P.length < 32) : told ws (wBusy :: rest) = told (ws ++ [wBusy]) rest := by
  rw [told, if_neg, if_neg]
  · rw [h.busy.bytes]; omega
  · rintro ⟨h1, _⟩; cases h1

theorem told_spoilt_bytes : ∀ (bs : List UInt8) {ws rest : List Word} {P : List UInt8}, Spoilt ws P → P.length + bs.length < 32 →
    ∃ ws', Spoilt ws' (P ++ bs) ∧ told ws (bs.map wByte ++ rest) = told ws' rest := by
  intro bs
  induction bs with
  | nil => intro ws rest P h _; exact ⟨ws, by simpa using h, rfl⟩
  | cons b bs ih =>
    intro ws rest P h hl
    simp only [List.length_cons] at hl
    obtain ⟨ws', h1, h2⟩ := ih (rest := rest) (h.snoc b) (by simp; omega)
    refine ⟨ws', by simpa using h1, ?_⟩
    rw [← h2]
    show told ws (wByte b :: (bs.map wByte ++ rest)) = _
    rw [told, if_neg, if_neg]
    · rw [(h.snoc b).bytes, List.length_append]; simp; omega
    · rintro ⟨h0, _⟩; cases h0

/-- What is told of a packet after a reset in silence, and of those after it. -/
theorem told_after_reset {ws : List Word} (h : Hears ws []) {p : List UInt8} (hp : p.length ≤ 31) {ps : List (List UInt8)} (hps : ∀ q ∈ ps, 1 ≤ q.length ∧ q.length ≤ 31) :
    told ws (wReset :: (p :: ps).flatMap fun p => wBusy :: (p.map wByte ++ [wFree])) = (2, p) :: ps.map fun p => (0, p) := by
  rw [told_reset h (by simp), List.flatMap_cons, List.cons_append, told_spoilt_busy (.reset h) (by simp), List.append_assoc (p.map wByte)]
  obtain ⟨ws', h1, h2⟩ := told_spoilt_bytes p (rest := [wFree] ++ ps.flatMap fun p => wBusy :: (p.map wByte ++ [wFree])) (Spoilt.reset h).busy (by simp; omega)
  rw [List.nil_append] at h1
  rw [h2, List.singleton_append, told, if_pos ⟨rfl, Or.inr (by rw [h1.free.status]; decide)⟩, h1.free.bytes, h1.free.status, told_outWords ps .nil hps]

/-- What the host is told: after any history whose last word told that the bus is free, the word that tells of a reset of the ADC is taken, then the words of the packets `p` and `ps`, without errors;
none is lost and the watchdog does not report. -/
theorem silence_lines (pf : Platform) (g : Nat → UInt8) {es0 es : List (Env1 × Env2)} {c c' : Core0} {os0 os : List Out2} (h0 : LoopRun pf g es0 c os0)
    (h : c.run pf g es = .ok (c', os)) {p : List UInt8} {ps : List (List UInt8)}
    (hw : wordsOf es = wReset :: (p :: ps).flatMap fun p => wBusy :: (p.map wByte ++ [wFree])) (hlast : wordsOf es0 = [] ∨ ∃ Z, wordsOf es0 = Z ++ [wFree])
    (hp : p.length ≤ 31) (hps : ∀ q ∈ ps, 1 ≤ q.length ∧ q.length ≤ 31)
    (hf : ∀ e ∈ es, e.1.fifoErr = false) (hd : ∀ m ∈ busLines os, m.status ≠ 4) :
    (busLines os).map lineShown = (2, p) :: ps.map fun p => (0, p) := by
  obtain ⟨ws, h1, h2, h3⟩ := C91_lines_explained pf g es0 c os0 h0
  obtain ⟨ws', h4, -⟩ := run_tells (ws := ws) ⟨⟨h3, h2⟩, h0.good.rx⟩ h
  rw [h4.told hf hd, hw]
  exact told_after_reset (h1.idle (hlast.imp_left fun q => ⟨q, .nil⟩)) hp hps

/-- **C129 fails**: the ADC is reset while the bus is silent; the next packet, whatever it is and however long after, is received without error, but the line given to the host has status 2. -/
theorem C129_refuted (pf : Platform) (g : Nat → UInt8) {es0 es : List (Env1 × Env2)} {c c' : Core0} {os0 os : List Out2} (h0 : LoopRun pf g es0 c os0)
    (h : c.run pf g es = .ok (c', os)) {p : List UInt8} (hw : wordsOf es = wReset :: wBusy :: (p.map wByte ++ [wFree])) (hlast : wordsOf es0 = [] ∨ ∃ Z, wordsOf es0 = Z ++ [wFree])
    (hp : p.length ≤ 31) (hf : ∀ e ∈ es, e.1.fifoErr = false) (hd : ∀ m ∈ busLines os, m.status ≠ 4) :
    (busLines os).map lineShown = [(2, p)] :=
  silence_lines pf g h0 h (ps := []) (by rw [hw]; simp) hlast hp (fun q hq => (by cases hq)) hf hd

/-- **C129, the part that holds**: the packets after that one are told with status 0, and the bytes of all of them are right. -/
theorem C129_later_partial (pf : Platform) (g : Nat → UInt8) {es0 es : List (Env1 × Env2)} {c c' : Core0} {os0 os : List Out2} (h0 : LoopRun pf g es0 c os0)
    (h : c.run pf g es = .ok (c', os)) {p : List UInt8} {ps : List (List UInt8)}
    (hw : wordsOf es = wReset :: (p :: ps).flatMap fun p => wBusy :: (p.map wByte ++ [wFree])) (hlast : wordsOf es0 = [] ∨ ∃ Z, wordsOf es0 = Z ++ [wFree])
    (hp : ∀ q ∈ p :: ps, 1 ≤ q.length ∧ q.length ≤ 31) (hf : ∀ e ∈ es, e.1.fifoErr = false) (hd : ∀ m ∈ busLines os, m.status ≠ 4) :
    ∃ s, (busLines os).map lineShown = (s, p) :: ps.map fun p => (0, p) :=
  ⟨2, silence_lines pf g h0 h hw hlast (hp p (by simp)).2 (fun q hq => hp q (by simp [hq])) hf hd⟩

set_option maxRecDepth 8000 in
/-- A case: the bus becomes free, the ADC is reset, two packets follow. -/
example : busSeen [calmIter 0 (some wFree), calmIter 1 (some wReset), calmIter 2 (some wBusy), calmIter 3 (some (wByte 0x40)), calmIter 4 none, calmIter 5 (some (wByte 0xF0)),
      calmIter 6 (some wFree), calmIter 7 (some wBusy), calmIter 8 (some (wByte 7)), calmIter 9 (some wFree)] = some [(2, [0x40, 0xF0]), (0, [7])] := by decide +kernel

end P1P2
