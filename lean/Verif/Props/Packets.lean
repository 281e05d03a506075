import Verif.Spec.Packets
import Verif.Props.Lines
import Verif.Props.Raw
/-!
# Properties C104, C105: one line for each packet
-/
namespace P1P2

/-! ## What words without losses tell -/

open Classical in
/-- The lines for a sequence of words, if nothing is lost and the watchdog is silent; `ws` are the words since the last line. -/
noncomputable def told : List Word → List Word → List (Nat × List UInt8)
  | _, [] => []
  | ws, w :: rest =>
    if PacketEnds (ws ++ [w]) w then (heardStatus (ws ++ [w]), heardBytes (ws ++ [w])) :: told [] rest
    else if (heardBytes (ws ++ [w])).length = 32 then (2, heardBytes (ws ++ [w])) :: told [] rest
    else told (ws ++ [w]) rest

theorem HistoryTells.told : ∀ {es : List (Env1 × Env2)} {os : List Out2} {ws ws' : List Word}, HistoryTells ws es os ws' →
    (∀ e ∈ es, e.1.fifoErr = false) → (∀ m ∈ busLines os, m.status ≠ 4) → (busLines os).map lineShown = P1P2.told ws (wordsOf es) := by
  intro es
  induction es with
  | nil =>
    intro os ws ws' h _ _
    cases os with
    | nil => rfl
    | cons o os => exact absurd h (by simp [HistoryTells])
  | cons e es ih =>
    intro os ws ws' h hf hs
    cases os with
    | nil => exact absurd h (by simp [HistoryTells])
    | cons o os =>
      obtain ⟨ws3, ⟨busy, lost, heard, ws1, ws2, h1, h2, h3, h4⟩, h5⟩ := h
      have hbl : busLines (o :: os) = rxMsgs o.reports ++ busLines os := rfl
      rw [hbl] at hs ⊢
      have hi := ih h5 (fun x hx => hf x (by simp [hx])) (fun m hm => hs m (by simp [hm]))
      have hl : lost = [] ∧ ws2 = ws1 := by
        rcases h3 with ⟨_, a, b⟩ | ⟨a, _⟩
        · exact ⟨a, b⟩
        · rw [hf e (by simp)] at a; cases a
      obtain ⟨rfl, rfl⟩ := hl
      have hb : busy = [] ∧ ws2 = ws := by
        rcases h2 with h2 | ⟨m, rfl, hm, _⟩
        · exact h2
        · exact absurd hm.1 (hs m (by rw [h1]; simp))
      obtain ⟨rfl, rfl⟩ := hb
      rw [List.map_append, hi, h1]
      rcases h4 with ⟨hw, rfl, rfl⟩ | ⟨w, hw, h4⟩
      · have hw : wordsOf (e :: es) = wordsOf es := by simp [wordsOf, hw]
        rw [hw]; rfl
      · have hw : wordsOf (e :: es) = w :: wordsOf es := by simp [wordsOf, hw]
        rw [hw, P1P2.told]
        rcases h4 with ⟨hp, m, rfl, hm, rfl⟩ | ⟨hp, h32, m, rfl, hm, rfl⟩ | ⟨hp, h32, rfl, rfl⟩
        · have e1 : lineShown m = (heardStatus (ws2 ++ [w]), heardBytes (ws2 ++ [w])) := by unfold lineShown; rw [hm.1, hm.2]
          rw [if_pos hp, ← e1]; rfl
        · have e1 : lineShown m = (2, heardBytes (ws2 ++ [w])) := by unfold lineShown; rw [hm.1, hm.2]
          rw [if_neg hp, if_pos h32, ← e1]; rfl
        · rw [if_neg hp, if_neg (by omega)]; rfl

/-- The words collected have no error and carry these bytes. -/
structure Hears (ws : List Word) (P : List UInt8) : Prop where
  bytes : heardBytes ws = P
  status : heardStatus ws = 0

theorem Hears.nil : Hears [] [] := ⟨rfl, rfl⟩

theorem Hears.snoc {ws : List Word} {P : List UInt8} (h : Hears ws P) (b : UInt8) : Hears (ws ++ [wByte b]) (P ++ [b]) :=
  ⟨by rw [heardBytes_append, h.bytes]; rfl, by rw [heardStatus_snoc]; exact h.status⟩

theorem Hears.free {ws : List Word} {P : List UInt8} (h : Hears ws P) : Hears (ws ++ [wFree]) P :=
  ⟨by rw [heardBytes_append, h.bytes]; exact List.append_nil _, by rw [heardStatus_snoc]; exact h.status⟩

theorem Hears.busy {ws : List Word} {P : List UInt8} (h : Hears ws P) : Hears (ws ++ [wBusy]) P :=
  ⟨by rw [heardBytes_append, h.bytes]; exact List.append_nil _, by rw [heardStatus_snoc]; exact h.status⟩

theorem told_free_none {ws rest : List Word} (h : Hears ws []) : told ws (wFree :: rest) = told (ws ++ [wFree]) rest := by
  have h' := h.free
  rw [told, if_neg, if_neg]
  · rw [h'.bytes]; simp
  · rintro ⟨_, h1 | h1⟩
    · exact h1 h'.bytes
    · exact h1 h'.status

theorem told_free_some {ws rest : List Word} {P : List UInt8} (h : Hears ws P) (hP : P ≠ []) :
    told ws (wFree :: rest) = (0, P) :: told [] rest := by
  have h' := h.free
  rw [told, if_pos ⟨rfl, .inl (by rw [h'.bytes]; exact hP)⟩, h'.bytes, h'.status]

theorem told_busy {ws rest : List Word} {P : List UInt8} (h : Hears ws P) (hP : P.length < 32) :
    told ws (wBusy :: rest) = told (ws ++ [wBusy]) rest := by
  have h' := h.busy
  rw [told, if_neg, if_neg]
  · rw [h'.bytes]; omega
  · rintro ⟨h1, _⟩; cases h1

theorem told_byte {ws rest : List Word} {P : List UInt8} (h : Hears ws P) (b : UInt8) (hP : P.length < 31) :
    told ws (wByte b :: rest) = told (ws ++ [wByte b]) rest := by
  have h' := h.snoc b
  rw [told, if_neg, if_neg]
  · rw [h'.bytes, List.length_append]; simp; omega
  · rintro ⟨h1, _⟩; cases h1

theorem told_bytes : ∀ (bs : List UInt8) {ws rest : List Word} {P : List UInt8}, Hears ws P → P.length + bs.length < 32 →
    ∃ ws', Hears ws' (P ++ bs) ∧ told ws (bs.map wByte ++ rest) = told ws' rest := by
  intro bs
  induction bs with
  | nil => intro ws rest P h _; exact ⟨ws, by simpa using h, rfl⟩
  | cons b bs ih =>
    intro ws rest P h hl
    simp only [List.length_cons] at hl
    obtain ⟨ws', h1, h2⟩ := ih (rest := rest) (h.snoc b) (by simp; omega)
    refine ⟨ws', by simpa using h1, ?_⟩
    rw [← h2]
    exact told_byte h b (by omega)

theorem told_packets : ∀ (ps : List (List UInt8)) {ws : List Word} {P : List UInt8}, Hears ws P → P.length < 32 → (∀ p ∈ ps, p ≠ [] ∧ p.length < 32) →
    told ws (packetWords ps) = (if P = [] then [] else [(0, P)]) ++ ps.map fun p => (0, p) := by
  intro ps
  induction ps with
  | nil =>
    intro ws P h _ _
    show told ws (wFree :: []) = _
    by_cases hP : P = []
    · subst hP; rw [told_free_none h]; rfl
    · rw [told_free_some h hP, if_neg hP]; rfl
  | cons p ps ih =>
    intro ws P h hl hp
    have e0 : packetWords (p :: ps) = wFree :: wBusy :: (p.map wByte ++ packetWords ps) := by simp [packetWords]
    obtain ⟨hp0, hpl⟩ := hp p (by simp)
    have hrest : ∀ ws0 : List Word, Hears ws0 [] → told ws0 (wBusy :: (p.map wByte ++ packetWords ps)) = (p :: ps).map fun p => (0, p) := by
      intro ws0 h0
      rw [told_busy h0 (by simp)]
      obtain ⟨ws', h1, h2⟩ := told_bytes p (rest := packetWords ps) h0.busy (by simpa using hpl)
      rw [h2, ih h1 (by simpa using hpl) (fun q hq => hp q (by simp [hq])), List.nil_append, if_neg hp0]
      rfl
    rw [e0]
    by_cases hP : P = []
    · subst hP; rw [told_free_none h, hrest _ h.free]; rfl
    · rw [told_free_some h hP, hrest _ .nil, if_neg hP]; rfl

/-! ## C104 -/

/-- **C104.** In every history from the start in which no words were lost and the watchdog did not report: if the words taken from the receiving core
are those of packets of 1 to 31 bytes, the host is given exactly one line for each packet, in order, with status 0 and the bytes of the packet. -/
theorem C104_line_per_packet (pf : Platform) (g : Nat → UInt8) (es : List (Env1 × Env2)) (c : Core0) (os : List Out2) (h : LoopRun pf g es c os)
    (ps : List (List UInt8)) (hw : wordsOf es = packetWords ps) (hp : ∀ p ∈ ps, 1 ≤ p.length ∧ p.length ≤ 31)
    (hf : ∀ e ∈ es, e.1.fifoErr = false) (hd : ∀ m ∈ busLines os, m.status ≠ 4) :
    (busLines os).map lineShown = ps.map fun p => (0, p) := by
  obtain ⟨ws, h1, _, _⟩ := C91_lines_explained pf g es c os h
  rw [h1.told hf hd, hw, told_packets ps .nil (by simp)]
  · rfl
  · intro p hp'
    obtain ⟨h1, h2⟩ := hp p hp'
    exact ⟨by intro h; subst h; simp at h1, by omega⟩

set_option maxRecDepth 8000 in
/-- Two packets, with iterations without words in between; the bus is busy for less than the time of the watchdog. -/
example : wordsOf [calmIter 0 (some wFree), calmIter 1 (some wBusy), calmIter 2 (some (wByte 0x40)), calmIter 3 none, calmIter 4 (some (wByte 0xF0)),
      calmIter 5 (some wFree), calmIter 6 (some wBusy), calmIter 7 (some (wByte 7)), calmIter 8 none, calmIter 9 (some wFree)] = packetWords [[0x40, 0xF0], [7]] ∧
    busSeen [calmIter 0 (some wFree), calmIter 1 (some wBusy), calmIter 2 (some (wByte 0x40)), calmIter 3 none, calmIter 4 (some (wByte 0xF0)),
      calmIter 5 (some wFree), calmIter 6 (some wBusy), calmIter 7 (some (wByte 7)), calmIter 8 none, calmIter 9 (some wFree)] =
      some [(0, [0x40, 0xF0]), (0, [7])] := ⟨rfl, by decide +kernel⟩

/-! ## Both cores -/

/-- If nothing is lost, the interleaving of the two cores is a history of the main loop that is given the words in order. -/
theorem TwoCores.history {pf : Platform} {g : Nat → UInt8} : ∀ (xs : List TwoStep) {s t : TwoCores} {os : List TwoOut},
    s.run pf g xs = .ok (some (t, os)) → s.fifoErr = false → drops os = 0 → t.pc = .top →
    (s.pc = .top → ∃ es os', s.c0.run pf g es = .ok (t.c0, os') ∧ (∀ e ∈ es, e.1.fifoErr = false) ∧
      reportsOf os = os'.flatMap Out2.reports ∧ wordsOf es ++ t.fifo = s.fifo ++ pushes xs) ∧
    (s.pc ≠ .top → ∀ (c : Core0) (e : Env1) (rs : List Report), c.part1 pf g e = .ok (s.c0, rs) → e.fifoErr = false →
      ∃ es os', c.run pf g es = .ok (t.c0, os') ∧ (∀ e ∈ es, e.1.fifoErr = false) ∧
      rs ++ reportsOf os = os'.flatMap Out2.reports ∧ wordsOf es ++ t.fifo = s.fifo ++ pushes xs) := by
  intro xs
  induction xs with
  | nil =>
    intro s t os h _ _ ht
    obtain ⟨rfl, rfl⟩ := TwoCores.run_nil h
    exact ⟨fun _ => ⟨[], [], rfl, by simp, rfl, by simp [wordsOf, pushes]⟩, fun h => absurd ht h⟩
  | cons x xs ih =>
    intro s t os h hfe hd ht
    obtain ⟨s', o, os', h1, h2, rfl⟩ := TwoCores.run_cons h
    have d1 : drops (o :: os') = drops os' + (if o.dropped then 1 else 0) := by simp [drops, List.countP_cons]
    have hd' : drops os' = 0 := by omega
    have r1 : reportsOf (o :: os') = o.reports ++ reportsOf os' := rfl
    rw [r1]
    rcases TwoCores.step_ok h1 with ⟨w, rfl, hw, rfl, rfl⟩ | ⟨w, rfl, hw, rfl, rfl⟩ | ⟨e, c, rs, rfl, hp, he, h1', rfl, rfl⟩ | ⟨rfl, hc, rfl, rfl⟩ |
      ⟨e, r, rfl, hp, hw, h1', rfl, rfl⟩
    · obtain ⟨i1, i2⟩ := ih h2 hfe hd' ht
      have hpu : pushes (TwoStep.push w :: xs) = w :: pushes xs := rfl
      rw [hpu]
      refine ⟨fun hp => ?_, fun hp c e rs hc he => ?_⟩
      · obtain ⟨es, os2, a1, a2, a3, a4⟩ := i1 hp
        exact ⟨es, os2, a1, a2, a3, by rw [a4]; simp⟩
      · obtain ⟨es, os2, a1, a2, a3, a4⟩ := i2 hp c e rs hc he
        exact ⟨es, os2, a1, a2, a3, by rw [a4]; simp⟩
    · rw [if_pos rfl] at d1; omega
    · obtain ⟨_, i2⟩ := ih h2 hfe hd' ht
      refine ⟨fun _ => ?_, fun hn => absurd hp hn⟩
      obtain ⟨es, os2, a1, a2, a3, a4⟩ := i2 (fun h => (by cases h)) s.c0 e rs h1' (he.trans hfe)
      exact ⟨es, os2, a1, a2, a3, a4⟩
    · obtain ⟨_, i2⟩ := ih h2 (by dsimp only; rw [hfe]; split <;> rfl) hd' ht
      refine ⟨fun hn => (by rw [hc] at hn; cases hn), fun _ c e rs hc' he => ?_⟩
      obtain ⟨es, os2, a1, a2, a3, a4⟩ := i2 (fun h => (by cases h)) c e rs hc' he
      exact ⟨es, os2, a1, a2, a3, a4⟩
    · obtain ⟨i1, _⟩ := ih h2 hfe hd' ht
      refine ⟨fun hn => (by rw [hp] at hn; cases hn), fun _ c e1 rs hc' he => ?_⟩
      obtain ⟨es, os2, a1, a2, a3, a4⟩ := i1 rfl
      refine ⟨(e1, e) :: es, { r.2 with reports := rs ++ r.2.reports } :: os2, ?_, ?_, ?_, ?_⟩
      · have hi : c.iter pf g (e1, e) = .ok (r.1, { r.2 with reports := rs ++ r.2.reports }) := by
          unfold Core0.iter
          rw [hc', Res.ok_bind, h1', Res.ok_bind]
        rw [Core0.run, hi, Res.ok_bind]
        dsimp only at a1 ⊢
        rw [a1, Res.ok_bind]
      · intro x hx
        rcases List.mem_cons.mp hx with rfl | hx
        · exact he
        · exact a2 x hx
      · rw [a3]; simp
      · have hwo : wordsOf ((e1, e) :: es) = e.word.toList ++ wordsOf es := by cases hw : e.word <;> simp [wordsOf, hw]
        have hpu : pushes (TwoStep.second e :: xs) = pushes xs := rfl
        rw [hwo, hpu, List.append_assoc, a4, hw]
        cases s.fifo <;> simp

theorem busLines_reports : ∀ os : List Out2, rxMsgs (os.flatMap Out2.reports) = busLines os := by
  intro os
  induction os with
  | nil => rfl
  | cons o os ih => rw [List.flatMap_cons, rxMsgs_append, ih]; rfl

/-- **C104, both cores.** For every interleaving of the two cores from the start in which no word is dropped: if the words the receiving core hands over are those of
packets of 1 to 31 bytes, once the main loop has taken all of them, the host was given exactly one line for each packet, in order, with status 0 and the bytes of the
packet (unless the watchdog reports). -/
theorem C104_interleaved (pf : Platform) (g : Nat → UInt8) (w0 : Word) (t0 t1 : Nat) (t : TwoCores) (xs : List TwoStep) (os : List TwoOut)
    (h : (TwoCores.init g w0 t0 t1 false).run pf g xs = .ok (some (t, os))) (hd : drops os = 0) (ht : t.pc = .top) (hq : t.fifo = [])
    (ps : List (List UInt8)) (hw : pushes xs = packetWords ps) (hp : ∀ p ∈ ps, 1 ≤ p.length ∧ p.length ≤ 31)
    (h4 : ∀ m ∈ rxMsgs (reportsOf os), m.status ≠ 4) :
    (rxMsgs (reportsOf os)).map lineShown = ps.map fun p => (0, p) := by
  obtain ⟨es, os', a1, a2, a3, a4⟩ := (TwoCores.history xs h rfl hd ht).1 rfl
  rw [hq, List.append_nil] at a4
  rw [a3, busLines_reports] at h4 ⊢
  exact C104_line_per_packet pf g es t.c0 os' ⟨w0, t0, t1, a1⟩ ps (a4.trans hw) hp a2 h4

/-! ## C105 -/

/-- **C105.** From the codes of the ADC to the lines for the host: the bus carries the packets `ps` of at most 31 bytes as in `C103`; the loop of the receiving core keeps up and has
handed over all its words; the two cores are interleaved in any way such that no word is dropped and the main loop takes all of them; the watchdog does not report.
Then the host is given exactly one line for each packet, in order, with status 0 and the bytes of the packet. -/
theorem C105_codes_to_lines {S : Nat} (hS : 8 ≤ S) (rxErr : Bool) {a c : Int} (h1 : 49 ≤ a) (h2 : a ≤ 88) {L : Nat → Level} {q : Nat → UInt8}
    (hq : Codes a c L q) {M : Nat} (hM : M + 70 ≤ 2 * 2 ^ S) (ps : List BusPacket) (hp : ∀ p ∈ ps, p.RawOk ∧ p.bytes.length ≤ 31)
    (hg : ∀ b ∈ ps.flatMap BusPacket.frames, b.1 ≤ M) (hc : RawCarries L 0 (byteFrames (ps.flatMap BusPacket.frames)))
    (es : List (AdcEv × Bool)) (hk : keepsUp 254 0 0 (es.map Prod.fst))
    (hN : rawEnd 0 (byteFrames (ps.flatMap BusPacket.frames)) + 378 ≤ deliveries 0 0 (es.map Prod.fst))
    (hN' : deliveries 0 0 (es.map Prod.fst) ≤ rawEnd 0 (byteFrames (ps.flatMap BusPacket.frames)) + M)
    (s : RxSystem) (outs : List C1Out)
    (hr : RxSystem.run S (RxSystem.init (fun _ => 0) rxErr) (scheduleEvents (fun k => Pio.sampleValue k (q k)) 0 0 es) = .ok (s, outs))
    (hs : s.core.word = .zero)
    (pf : Platform) (g : Nat → UInt8) (w0 : Word) (t0 t1 : Nat) (t : TwoCores) (xs : List TwoStep) (os : List TwoOut)
    (hx : pushes xs = sent outs) (h : (TwoCores.init g w0 t0 t1 false).run pf g xs = .ok (some (t, os))) (hd : drops os = 0) (ht : t.pc = .top)
    (hf : t.fifo = []) (h4 : ∀ m ∈ rxMsgs (reportsOf os), m.status ≠ 4) :
    (rxMsgs (reportsOf os)).map lineShown = ps.map fun p => (0, p.bytes) := by
  obtain ⟨s', outs', e1, e2⟩ := C103_words hS rxErr h1 h2 hq hM ps (fun p hp' => (hp p hp').1) hg hc es hk hN hN'
  rw [hr] at e1
  simp only [Res.ok.injEq, Prod.mk.injEq] at e1
  obtain ⟨rfl, rfl⟩ := e1
  rw [if_pos hs, List.append_nil] at e2
  have e3 : pushes xs = packetWords (ps.map BusPacket.bytes) := by
    rw [hx, e2]
    unfold packetWords
    rw [List.flatMap_map]
  have := C104_interleaved pf g w0 t0 t1 t xs os h hd ht hf _ e3 ?_ h4
  · rw [this, List.map_map]; rfl
  · intro p hp'
    obtain ⟨b, hb, rfl⟩ := List.mem_map.mp hp'
    refine ⟨?_, (hp b hb).2⟩
    simp [BusPacket.bytes]

/-! ## A case that meets the hypotheses: the packet 40 F0, with the words handed over in an interleaving of the two cores -/

theorem Core1.idle_last {S : Nat} {r : Bool} : ∀ (is : List C1In) {c c' : Core1} {outs : List C1Out},
    c.run S (is ++ [{ ready := r, adc := .none }]) = .ok (c', outs) → c'.word = .zero := by
  intro is
  induction is with
  | nil =>
    intro c c' outs h
    have h : (Res.ok ((c.send r).1, [({ word := (c.send r).2.1, dropped := (c.send r).2.2, reset := false } : C1Out)])) = .ok (c', outs) := h
    simp only [Res.ok.injEq, Prod.mk.injEq] at h
    rw [← h.1]
    unfold Core1.send
    split
    · rfl
    · rename_i hw
      exact (C52_zero _).mp (by simpa using hw)
  | cons i is ih =>
    intro c c' outs h
    rw [List.cons_append, Core1.run, Res.bind_eq_ok] at h
    obtain ⟨x, h1, h⟩ := h
    rw [Res.bind_eq_ok] at h
    obtain ⟨y, h2, h⟩ := h
    simp only [Res.ok.injEq, Prod.mk.injEq] at h
    rw [← h.1]
    exact ih (outs := y.2) h2

/-- Every sample is processed at once; then there is one more iteration. -/
def atOnceIdle (n : Nat) : List (AdcEv × Bool) := atOnce n ++ [(.poll 0, true)]

theorem atOnceIdle_ok : ∀ (n k : Nat), k + n < adcBlock →
    keepsUp 254 k k ((atOnceIdle n).map Prod.fst) ∧ deliveries k k ((atOnceIdle n).map Prod.fst) = n := by
  intro n
  induction n with
  | zero =>
    intro k h
    show keepsUp 254 k k [.poll 0] ∧ deliveries k k [.poll 0] = 0
    simp only [keepsUp, deliveries, if_pos]
    exact ⟨⟨by omega, by omega⟩, trivial⟩
  | succ n ih =>
    intro k h
    obtain ⟨i1, i2⟩ := ih (k + 1) (by omega)
    have e : (atOnceIdle (n + 1)).map Prod.fst = .write :: .poll 0 :: (atOnceIdle n).map Prod.fst := rfl
    rw [e]
    constructor
    · simp only [keepsUp, if_neg (show ¬ k + 1 = k by omega)]
      exact ⟨by omega, by omega, by omega, i1⟩
    · simp only [deliveries, if_neg (show ¬ k + 1 = k by omega), Nat.add_zero]
      rw [i2]; omega

theorem atOnceIdle_last (g : Int) (y : Int → Int) : ∀ (n k : Nat), ∃ is, idealInputs g y k k (atOnceIdle n) = is ++ [{ ready := true, adc := .none }] := by
  intro n
  induction n with
  | zero =>
    intro k
    refine ⟨[], ?_⟩
    show idealInputs g y k k [(.poll 0, true)] = _
    simp [idealInputs]
  | succ n ih =>
    intro k
    obtain ⟨is, h⟩ := ih (k + 1)
    have e : atOnceIdle (n + 1) = (.write, true) :: (.poll 0, true) :: atOnceIdle n := rfl
    rw [e]
    simp only [idealInputs, if_neg (show ¬ k + 1 = k by omega), Nat.add_zero]
    rw [h]
    exact ⟨_ :: is, rfl⟩

/-- The words are handed over between and within the iterations of the main loop. -/
def handOver : List TwoStep :=
  [.push wFree, .first (env1 0 []), .push wBusy, .clear, .second (env2 0 (some wFree)), .first (env1 1 []), .clear, .second (env2 1 (some wBusy)),
    .push (wByte 0x40), .first (env1 2 []), .clear, .second (env2 2 (some (wByte 0x40))), .first (env1 3 []), .clear, .push (wByte 0xF0), .push wFree,
    .second (env2 3 (some (wByte 0xF0))), .first (env1 4 []), .clear, .second (env2 4 (some wFree))]

/-- After a run from the start: dropped words, place in the loop, words in the FIFO, lines. -/
def handedOver (xs : List TwoStep) : Option (Nat × Bool × Nat × List (Nat × List UInt8)) :=
  match (TwoCores.init (fun _ => 0) .zero 0 0 false).run .arm (fun _ => 0) xs with
  | .ok (some (t, os)) => some (drops os, decide (t.pc = .top), t.fifo.length, (rxMsgs (reportsOf os)).map lineShown)
  | _ => none

set_option synthInstance.maxSize 512 in
set_option maxRecDepth 8000 in
theorem handOver_seen : handedOver handOver = some (0, true, 0, [(0, [0x40, 0xF0])]) := by decide +kernel

example : ∃ s outs, RxSystem.run 32 (RxSystem.init (fun _ => 0) false) (scheduleEvents (fun k => Pio.sampleValue k (rawCodes k)) 0 0 (atOnceIdle 1500)) = .ok (s, outs) ∧
    s.core.word = .zero ∧ pushes handOver = sent outs ∧ handedOver handOver = some (0, true, 0, [(0, [0x40, 0xF0])]) := by
  obtain ⟨k1, k2⟩ := atOnceIdle_ok 1500 0 (by decide)
  obtain ⟨s, outs, e1, e2⟩ := C103_words (S := 32) (by decide) false (by decide) (by decide) rawCodes_ok (M := 400) (by decide) [rawPacket]
    (by intro p hp; rw [List.mem_singleton] at hp; subst hp; exact ⟨by decide, by decide, by decide⟩) (by decide) rawLine_carries
    (atOnceIdle 1500) k1 (by rw [k2]; decide) (by rw [k2]; decide)
  have hr : SampleRange fun k => Pio.sampleValue k (rawCodes k) := fun k => C41_conversion k (rawCodes k)
  have h0 : SampleRange fun _ => 0 := fun _ => by show (-256 : Int) ≤ 0 ∧ (0 : Int) ≤ 255; decide
  obtain ⟨ad, e3⟩ := C101_samples (S := 32) (fun _ => 0) _ h0 hr false (atOnceIdle 1500) k1
  obtain ⟨is, e4⟩ := atOnceIdle_last 4992 (adcHist (fun _ => 0) fun k => Pio.sampleValue k (rawCodes k)) 1500 0
  rw [e1, e4] at e3
  have hz : s.core.word = .zero := by
    cases hcr : (Core1.init false).run 32 (is ++ [{ ready := true, adc := .none }]) with
    | ub => rw [hcr] at e3; cases e3
    | ok r =>
      rw [hcr] at e3
      simp only [Res.bind, Res.ok.injEq, Prod.mk.injEq] at e3
      rw [e3.1]
      exact Core1.idle_last is hcr
  refine ⟨s, outs, e1, hz, ?_, handOver_seen⟩
  rw [if_pos hz, List.append_nil] at e2
  rw [e2]; rfl

end P1P2
