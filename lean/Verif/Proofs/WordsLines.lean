import Verif.Props.HealLines
/-!
# From the words of the receiving core to the lines for the host, after any history
-/
namespace P1P2

/-- The receiving core handed over the words `sentWords`: a word that was waiting (`pend`), the rest of a history (`Y`) and those of the packets. -/
theorem healed_lines {pf : Platform} {g : Nat → UInt8} {ps : List BusPacket} (hp : ∀ p ∈ ps, p.bytes.length ≤ 31) {sentWords pend Y : List Word} {busy : Bool}
    (e2 : sentWords = pend ++ Y ++ (ps.flatMap fun p => wBusy :: (p.bytes.map wByte ++ [wFree])))
    (e3 : (Y = [] ∧ busy = false) ∨ ∃ Y', Y = Y' ++ [wFree])
    {es0 : List (Env1 × Env2)} {os0 : List Out2} {tc t : TwoCores} {xs : List TwoStep} {os : List TwoOut}
    (l0 : LoopRun pf g es0 tc.c0 os0) (hpc : tc.pc = .top) (hfe : tc.fifoErr = false)
    (hlast : busy = false → wordsOf es0 ++ tc.fifo ++ pend = [] ∨ ∃ Z, wordsOf es0 ++ tc.fifo ++ pend = Z ++ [wFree])
    (ht : tc.run pf g xs = .ok (some (t, os))) (hx : pushes xs = sentWords) (hdr : drops os = 0) (htop : t.pc = .top) (hf : t.fifo = [])
    (h4 : ∀ m ∈ rxMsgs (reportsOf os), m.status ≠ 4) :
    ∃ K, (rxMsgs (reportsOf os)).map lineShown = K ++ ps.map fun p => (0, p.bytes) := by
  have hw : tc.fifo ++ pushes xs = (tc.fifo ++ pend ++ Y) ++ (ps.map BusPacket.bytes).flatMap fun p => wBusy :: (p.map wByte ++ [wFree]) := by
    rw [hx, e2, List.flatMap_map]; simp [List.append_assoc]
  have hX : (tc.fifo ++ pend ++ Y = [] ∧ (wordsOf es0 = [] ∨ ∃ Z, wordsOf es0 = Z ++ [wFree])) ∨ ∃ X', tc.fifo ++ pend ++ Y = X' ++ [wFree] := by
    rcases e3 with ⟨rfl, hb⟩ | ⟨Y', rfl⟩
    · rw [List.append_nil]
      have hl := hlast hb
      rw [List.append_assoc] at hl
      rcases List.eq_nil_or_concat (tc.fifo ++ pend) with hn | ⟨X', w, hn⟩
      · rw [hn, List.append_nil] at hl
        exact Or.inl ⟨hn, hl⟩
      · rw [hn, List.concat_eq_append] at hl ⊢
        rw [← List.append_assoc] at hl
        rcases hl with hl | ⟨Z, hl⟩
        · simp at hl
        · have := List.append_inj' hl rfl
          rw [this.2]
          exact Or.inr ⟨X', rfl⟩
    · exact Or.inr ⟨tc.fifo ++ pend ++ Y', by simp [List.append_assoc]⟩
  have hlen : ∀ p ∈ ps.map BusPacket.bytes, 1 ≤ p.length ∧ p.length ≤ 31 := by
    intro p hp'
    obtain ⟨b, hb, rfl⟩ := List.mem_map.mp hp'
    refine ⟨?_, hp b hb⟩
    simp [BusPacket.bytes]
  obtain ⟨K, k1, -⟩ := C122_interleaved pf g l0 hpc hfe ht hdr htop hf hw hX hlen h4
  exact ⟨K, by rw [k1, List.map_map]; rfl⟩

end P1P2
