import Verif.Props.Heal
import Verif.Props.Packets
/-!
# C122: the lines for the host after any history
-/
namespace P1P2

/-- With the last word the line was free (or there was no word yet): nothing is being collected. -/
theorem HistoryTells.idle : ∀ {es : List (Env1 × Env2)} {os : List Out2} {ws ws' : List Word}, HistoryTells ws es os ws' →
    (wordsOf es = [] ∧ Hears ws [] ∨ ∃ Z, wordsOf es = Z ++ [wFree]) → Hears ws' [] := by
  intro es
  induction es with
  | nil =>
    intro os ws ws' h hw
    cases os with
    | nil =>
      have h : ws' = ws := h
      rcases hw with ⟨-, hw⟩ | ⟨Z, hw⟩
      · rw [h]; exact hw
      · have : ([] : List Word) = Z ++ [wFree] := hw
        simp at this
    | cons o os => exact absurd h (by simp [HistoryTells])
  | cons e es ih =>
    intro os ws ws' h hw
    cases os with
    | nil => exact absurd h (by simp [HistoryTells])
    | cons o os =>
      obtain ⟨ws3, ⟨busy, lost, heard, ws1, ws2, h1, h2, h3, h4⟩, h5⟩ := h
      refine ih h5 ?_
      rcases h4 with ⟨hn, -, rfl⟩ | ⟨w, hs, h4⟩
      · have e0 : wordsOf (e :: es) = wordsOf es := by simp [wordsOf, hn]
        rw [e0] at hw
        refine hw.imp_left fun ⟨q1, q2⟩ => ⟨q1, ?_⟩
        have k1 : Hears ws1 [] := by
          rcases h2 with ⟨-, rfl⟩ | ⟨m, -, -, rfl⟩
          · exact q2
          · exact .nil
        rcases h3 with ⟨-, -, rfl⟩ | ⟨-, m, -, -, rfl⟩
        · exact k1
        · exact .nil
      · have e0 : wordsOf (e :: es) = w :: wordsOf es := by simp [wordsOf, hs]
        rw [e0] at hw
        rcases hw with ⟨hw, -⟩ | ⟨Z, hw⟩
        · cases hw
        · cases Z with
          | cons z Z =>
            simp only [List.cons_append, List.cons.injEq] at hw
            exact Or.inr ⟨Z, hw.2⟩
          | nil =>
            simp only [List.nil_append, List.cons.injEq] at hw
            obtain ⟨rfl, hw⟩ := hw
            refine Or.inl ⟨hw, ?_⟩
            rcases h4 with ⟨-, m, -, -, rfl⟩ | ⟨-, -, m, -, -, rfl⟩ | ⟨hp, -, -, rfl⟩
            · exact .nil
            · exact .nil
            · unfold PacketEnds at hp
              refine ⟨Classical.byContradiction fun hb => hp ⟨rfl, Or.inl hb⟩, Classical.byContradiction fun hb => hp ⟨rfl, Or.inr hb⟩⟩

/-- Once a word tells that the line is free, nothing is being collected. -/
theorem told_after_free : ∀ (X ws : List Word), ∃ K ws', Hears ws' [] ∧ ∀ rest, told ws (X ++ wFree :: rest) = K ++ told ws' rest := by
  intro X
  induction X with
  | nil =>
    intro ws
    by_cases hp : PacketEnds (ws ++ [wFree]) wFree
    · exact ⟨[(heardStatus (ws ++ [wFree]), heardBytes (ws ++ [wFree]))], [], .nil, fun rest => by rw [List.nil_append, told, if_pos hp]; rfl⟩
    · by_cases h32 : (heardBytes (ws ++ [wFree])).length = 32
      · exact ⟨[(2, heardBytes (ws ++ [wFree]))], [], .nil, fun rest => by rw [List.nil_append, told, if_neg hp, if_pos h32]; rfl⟩
      · refine ⟨[], ws ++ [wFree], ?_, fun rest => by rw [List.nil_append, told, if_neg hp, if_neg h32]; rfl⟩
        unfold PacketEnds at hp
        exact ⟨Classical.byContradiction fun hb => hp ⟨rfl, Or.inl hb⟩, Classical.byContradiction fun hb => hp ⟨rfl, Or.inr hb⟩⟩
  | cons w X ih =>
    intro ws
    by_cases hp : PacketEnds (ws ++ [w]) w
    · obtain ⟨K, ws', k1, k2⟩ := ih []
      exact ⟨_ :: K, ws', k1, fun rest => by rw [List.cons_append, told, if_pos hp, k2]; rfl⟩
    · by_cases h32 : (heardBytes (ws ++ [w])).length = 32
      · obtain ⟨K, ws', k1, k2⟩ := ih []
        exact ⟨_ :: K, ws', k1, fun rest => by rw [List.cons_append, told, if_neg hp, if_pos h32, k2]; rfl⟩
      · obtain ⟨K, ws', k1, k2⟩ := ih (ws ++ [w])
        exact ⟨K, ws', k1, fun rest => by rw [List.cons_append, told, if_neg hp, if_neg h32, k2]⟩

theorem told_outWords : ∀ (ps : List (List UInt8)) {ws : List Word}, Hears ws [] → (∀ p ∈ ps, 1 ≤ p.length ∧ p.length ≤ 31) →
    told ws (ps.flatMap fun p => wBusy :: (p.map wByte ++ [wFree])) = ps.map fun p => (0, p) := by
  intro ps
  induction ps with
  | nil => intro ws _ _; rfl
  | cons p ps ih =>
    intro ws h hp
    obtain ⟨hp0, hp1⟩ := hp p (List.mem_cons_self ..)
    rw [List.flatMap_cons, List.cons_append, told_busy h (by simp), List.append_assoc]
    obtain ⟨ws', h1, h2⟩ := told_bytes p (rest := [wFree] ++ ps.flatMap fun p => wBusy :: (p.map wByte ++ [wFree])) h.busy (by simp; omega)
    have hne : [] ++ p ≠ [] := by intro h0; simp at h0; subst h0; simp at hp0
    rw [h2, List.singleton_append, told_free_some h1 hne, ih .nil fun q hq => hp q (List.mem_cons_of_mem _ hq)]
    rfl

/-- **C122, main loop.** After any history of the main loop (words lost, watchdog, bytes collected): if the words taken from then on are `X` and then those of the
packets `ps` (of 1 to 31 bytes: line busy, the bytes, line free), where `X` ends with a word that tells that the line is free, or is empty and the last word of
the history told that; and if from then on no words are lost and the watchdog does not report: then the host is given, after what `X` leads to, exactly one line
for each packet, in order, with status 0 and the bytes of the packet. -/
theorem C122_main_loop (pf : Platform) (g : Nat → UInt8) {es0 es : List (Env1 × Env2)} {c c' : Core0} {os0 os : List Out2} (h0 : LoopRun pf g es0 c os0)
    (h : c.run pf g es = .ok (c', os)) {X : List Word} {ps : List (List UInt8)} (hw : wordsOf es = X ++ ps.flatMap fun p => wBusy :: (p.map wByte ++ [wFree]))
    (hX : (X = [] ∧ (wordsOf es0 = [] ∨ ∃ Z, wordsOf es0 = Z ++ [wFree])) ∨ ∃ X', X = X' ++ [wFree]) (hp : ∀ p ∈ ps, 1 ≤ p.length ∧ p.length ≤ 31)
    (hf : ∀ e ∈ es, e.1.fifoErr = false) (hd : ∀ m ∈ busLines os, m.status ≠ 4) :
    ∃ K, (busLines os).map lineShown = K ++ (ps.map fun p => (0, p)) ∧ (X = [] → K = []) := by
  obtain ⟨ws, h1, h2, h3⟩ := C91_lines_explained pf g es0 c os0 h0
  obtain ⟨ws', h4, -⟩ := run_tells (ws := ws) ⟨⟨h3, h2⟩, h0.good.rx⟩ h
  rw [h4.told hf hd, hw]
  rcases hX with ⟨rfl, hX⟩ | ⟨X', rfl⟩
  · refine ⟨[], ?_, fun _ => rfl⟩
    have hh : Hears ws [] := h1.idle (hX.imp_left fun q => ⟨q, .nil⟩)
    rw [List.nil_append, told_outWords ps hh hp]; rfl
  · obtain ⟨K, ws'', k1, k2⟩ := told_after_free X' ws
    refine ⟨K, ?_, fun hn => absurd hn (by simp)⟩
    rw [List.append_assoc, List.singleton_append, k2, told_outWords ps k1 hp]

/-- **C122, both cores.** The same for every interleaving of the two cores from then on: `s` is the state of both cores, between two iterations of the main loop;
words that wait in the FIFO count. -/
theorem C122_interleaved (pf : Platform) (g : Nat → UInt8) {es0 : List (Env1 × Env2)} {os0 : List Out2} {s t : TwoCores} {xs : List TwoStep} {os : List TwoOut}
    (h0 : LoopRun pf g es0 s.c0 os0) (hs : s.pc = .top) (hs' : s.fifoErr = false) (h : s.run pf g xs = .ok (some (t, os))) (hdr : drops os = 0)
    (ht : t.pc = .top) (hq : t.fifo = []) {X : List Word} {ps : List (List UInt8)}
    (hw : s.fifo ++ pushes xs = X ++ ps.flatMap fun p => wBusy :: (p.map wByte ++ [wFree]))
    (hX : (X = [] ∧ (wordsOf es0 = [] ∨ ∃ Z, wordsOf es0 = Z ++ [wFree])) ∨ ∃ X', X = X' ++ [wFree]) (hp : ∀ p ∈ ps, 1 ≤ p.length ∧ p.length ≤ 31)
    (hd : ∀ m ∈ rxMsgs (reportsOf os), m.status ≠ 4) :
    ∃ K, (rxMsgs (reportsOf os)).map lineShown = K ++ (ps.map fun p => (0, p)) ∧ (X = [] → K = []) := by
  obtain ⟨es, os', a1, a2, a3, a4⟩ := (TwoCores.history xs h hs' hdr ht).1 hs
  rw [hq, List.append_nil] at a4
  rw [a3, busLines_reports] at hd ⊢
  exact C122_main_loop pf g h0 a1 (a4.trans hw) hX hp a2 hd

/-- **C122, from the samples to the host.** Both cores after any history (`p1`, `p2`: the receive side as in `C122_words`; `es0`: the main loop).  The line is silent for
1920 codes and then carries the packets `ps` of at most 31 bytes; the loop of the receiving core keeps up, and hands over its words (with the one still waiting, if any); the two cores are interleaved in
any way such that no word is dropped and the main loop takes all of them; the watchdog does not report.  If the receiving core takes the line for free at the start,
the last word of the history told so (not that the ADC was reset).  Then the host is given exactly one line for each packet, in order, with status 0 and the bytes of the
packet, after lines (`K`) about the history. -/
theorem C122_lines {S : Nat} (hS : 8 ≤ S) {ring : Nat → Int} (hr : SampleRange ring) {rxErr : Bool} {p1 p2 : List RxEv}
    (hp1 : ∀ e ∈ p1, e.InRange) (hp2 : ∀ e ∈ p2, e.InRange) {s1 s : RxSystem} {o1 o2 : List C1Out}
    (r1 : RxSystem.run S (RxSystem.init ring rxErr) p1 = .ok (s1, o1)) (hres : p1 = [] ∨ s1.core.word.result ≠ [])
    (r2 : s1.run S p2 = .ok (s, o2))
    {a c : Int} (h1 : 49 ≤ a) (h2 : a ≤ 88) {L : Nat → Level} {h : Nat → Int} (hh : SampleRange h) (hq : Samples a c L h)
    {M : Nat} (hM : arrivals p2 + M + 2200 ≤ 2 * 2 ^ S) {ps : List BusPacket} (hp : ∀ p ∈ ps, p.RawOk ∧ p.bytes.length ≤ 31)
    (hg : ∀ b ∈ ps.flatMap BusPacket.frames, b.1 ≤ M) (hc : RawCarries L 0 (byteFrames (ps.flatMap BusPacket.frames)))
    (hgap : ∀ p, ps.head? = some p → 1920 ≤ p.gap) {W D : Nat} (hW : W = adcBlock - s.adc.tcHw) (hD : D = adcBlock - s.adc.tc)
    {es : List (AdcEv × Bool)} (hk : keepsUp 254 W D (es.map Prod.fst)) {N : Nat} (hWN : W + N = D + deliveries W D (es.map Prod.fst))
    (hN0 : 1920 ≤ N) (hN : rawEnd 0 (byteFrames (ps.flatMap BusPacket.frames)) + 378 ≤ N)
    (hN' : N ≤ rawEnd 0 (byteFrames (ps.flatMap BusPacket.frames)) + M)
    {s' : RxSystem} {outs : List C1Out} (hrun : s.run S (scheduleEvents (fun k => h (k - W)) W D es) = .ok (s', outs))
    (pf : Platform) (g : Nat → UInt8) {es0 : List (Env1 × Env2)} {os0 : List Out2} {tc t : TwoCores} {xs : List TwoStep} {os : List TwoOut}
    (l0 : LoopRun pf g es0 tc.c0 os0) (hpc : tc.pc = .top) (hfe : tc.fifoErr = false)
    (hlast : s.core.busy = false → wordsOf es0 ++ tc.fifo ++ (if s.core.word = .zero then [] else [s.core.word]) = [] ∨
      ∃ Z, wordsOf es0 ++ tc.fifo ++ (if s.core.word = .zero then [] else [s.core.word]) = Z ++ [wFree])
    (ht : tc.run pf g xs = .ok (some (t, os))) (hx : pushes xs = sent outs ++ (if s'.core.word = .zero then [] else [s'.core.word])) (hdr : drops os = 0) (htop : t.pc = .top) (hf : t.fifo = [])
    (h4 : ∀ m ∈ rxMsgs (reportsOf os), m.status ≠ 4) :
    ∃ K, (rxMsgs (reportsOf os)).map lineShown = K ++ ps.map fun p => (0, p.bytes) := by
  obtain ⟨s2, outs2, Y, e1, e2, e3⟩ := C122_words hS hr hp1 hp2 r1 hres r2 h1 h2 hh hq hM (fun p hp' => (hp p hp').1) hg hc hgap hW hD hk hWN hN0 hN hN'
  rw [hrun] at e1
  simp only [Res.ok.injEq, Prod.mk.injEq] at e1
  obtain ⟨rfl, rfl⟩ := e1
  rw [← hx] at e2
  generalize hpend : (if s.core.word = .zero then [] else [s.core.word]) = pend at *
  have hw : tc.fifo ++ pushes xs = (tc.fifo ++ pend ++ Y) ++ (ps.map BusPacket.bytes).flatMap fun p => wBusy :: (p.map wByte ++ [wFree]) := by
    rw [e2, List.flatMap_map]; simp [List.append_assoc]
  have hX : (tc.fifo ++ pend ++ Y = [] ∧ (wordsOf es0 = [] ∨ ∃ Z, wordsOf es0 = Z ++ [wFree])) ∨ ∃ X', tc.fifo ++ pend ++ Y = X' ++ [wFree] := by
    rcases e3 with ⟨rfl, hb⟩ | ⟨Y', rfl⟩
    · rw [List.append_nil]
      have hl := hlast hb
      rw [List.append_assoc] at hl
      rcases List.eq_nil_or_concat (tc.fifo ++ pend) with hn | ⟨X', w, hn⟩
      · rw [hn, List.append_nil] at hl
        exact Or.inl ⟨hn, hl⟩
      · rw [hn, List.concat_eq_append] at hl ⊢
        rw [← List.append_assoc] at hl
        rcases hl with hl | ⟨Z, hl⟩
        · simp at hl
        · have := List.append_inj' hl rfl
          rw [this.2]
          exact Or.inr ⟨X', rfl⟩
    · exact Or.inr ⟨tc.fifo ++ pend ++ Y', by simp [List.append_assoc]⟩
  have hlen : ∀ p ∈ ps.map BusPacket.bytes, 1 ≤ p.length ∧ p.length ≤ 31 := by
    intro p hp'
    obtain ⟨b, hb, rfl⟩ := List.mem_map.mp hp'
    refine ⟨?_, (hp b hb).2⟩
    simp [BusPacket.bytes]
  obtain ⟨K, k1, -⟩ := C122_interleaved pf g l0 hpc hfe ht hdr htop hf hw hX hlen h4
  exact ⟨K, by rw [k1, List.map_map]; rfl⟩

/-- The word that tells of a reset of the ADC. -/
def wReset : Word := { Word.zero with dadcError := true }

end P1P2
