import Verif.Props.Blocks
import Verif.Props.LongRunDemo
/-!
# C151: examples
-/
namespace P1P2

/-! ## A case that meets the hypotheses: a packet in each of any number of blocks -/

theorem atOnceIdle_block {B : Nat} (hB : B = adcBlock) (h1 : 1 ≤ B) : BlockOk (atOnceIdle (B - 1)) := by
  obtain ⟨k1, k2⟩ := atOnceIdle_ok (B - 1) 0 (by omega)
  refine ⟨k1, ?_, ?_⟩
  · rw [atOnceIdle_written, hB]; omega
  · rw [k2, hB]; omega

/-- The packet of `rawLine` at the start of each of `n + 1` blocks. -/
def blockLine (B : Nat) : Nat → Nat → Level
  | 0, k => rawLine k
  | n + 1, k => if k < B then rawLine k else blockLine B n (k - B)

theorem rawLine_late {k : Nat} (h : 1116 ≤ k) : rawLine k = .mid := by
  unfold rawLine; rw [if_neg (by omega), if_neg (by omega)]

theorem blockLine_early {B k : Nat} (hB : 5000 ≤ B) (n : Nat) (h : k < 5000) : blockLine B n k = rawLine k := by
  cases n with
  | zero => rfl
  | succ n => exact if_pos (by omega)

/-- What it carries. -/
def blockPackets (G n : Nat) : List BusPacket := rawPacket :: List.replicate n { gap := G, pol := true, first := 0x40, rest := [(20, true, 0xF0)] }

theorem blockLine_carries {B G : Nat} (hG : B = G + 716) (hB : 5000 ≤ B) : ∀ n, RawCarries (blockLine B n) 0 (byteFrames ((blockPackets G n).flatMap BusPacket.frames)) := by
  intro n
  induction n with
  | zero => exact rawLine_carries
  | succ n ih =>
    obtain ⟨a1, ⟨δ, ε, ao, a2⟩, b1, ⟨δ', ε', bo, b2⟩, -⟩ := rawLine_carries
    obtain ⟨c1, ⟨δ2, ε2, co, c2⟩, c3⟩ := RawCarries.shift B ih
    have c1 : ∀ k, 0 + B ≤ k → k < 0 + B + 400 → blockLine B n (k - B) = .mid := c1
    have hge : ∀ k, B ≤ k → blockLine B (n + 1) k = blockLine B n (k - B) := fun k hk => if_neg (by omega)
    have hlt : ∀ k, k < B → blockLine B (n + 1) k = rawLine k := fun k hk => if_pos hk
    refine ⟨fun k k1 k2 => ?_, ⟨δ, ε, ao, fun j hj => ?_⟩, fun k k1 k2 => ?_, ⟨δ', ε', bo, fun j hj => ?_⟩, fun k k1 k2 => ?_, ⟨δ2, ε2, co, fun j hj => ?_⟩, ?_⟩
    · have k2 : k < 0 + 400 := k2
      rw [hlt k (by omega)]; exact a1 k k1 k2
    · rw [← a2 j hj]
      exact hlt (0 + 400 + j) (by omega)
    · have k1 : 0 + 400 + 348 ≤ k := k1
      have k2 : k < 0 + 400 + 348 + 20 := k2
      rw [hlt k (by omega)]; exact b1 k k1 k2
    · rw [← b2 j hj]
      exact hlt (0 + 400 + 348 + 20 + j) (by omega)
    · have k1 : 0 + 400 + 348 + 20 + 348 ≤ k := k1
      have k2 : k < 0 + 400 + 348 + 20 + 348 + G := k2
      have kk : k < B + 400 := by clear c1; omega
      by_cases hk : k < B
      · have hk' : 1116 ≤ k := k1
        exact (hlt k hk).trans (rawLine_late hk')
      · have e1 : 0 + B ≤ k := by rw [Nat.zero_add]; exact Nat.le_of_not_lt hk
        have e2 : k < 0 + B + 400 := by rw [Nat.zero_add]; exact kk
        rw [hge k (Nat.le_of_not_lt hk)]; exact c1 k e1 e2
    · have := c2 j hj
      refine Eq.trans ?_ this
      show blockLine B (n + 1) (0 + 400 + 348 + 20 + 348 + G + j) = blockLine B n (0 + B + 400 + j - B)
      rw [hge _ (by omega)]
      congr 1
      omega
    · show RawCarries _ (0 + 400 + 348 + 20 + 348 + G + 348) _
      rw [show 0 + 400 + 348 + 20 + 348 + G + 348 = 0 + B + 400 + 348 by omega]
      exact RawCarries.congr (fun k hk => hge k (by omega)) c3

theorem blockLine_rest {B : Nat} (hB : B = adcBlock) (h5 : 5000 ≤ B) : ∀ n, RestLoss (blockLine B n) (List.replicate n (B - 1)) := by
  intro n
  induction n with
  | zero => trivial
  | succ n ih =>
    rw [List.replicate_succ]
    refine ⟨fun j j1 j2 => ?_, ?_⟩
    · rw [← hB] at j2
      by_cases hj : j < B
      · rw [show blockLine B (n + 1) j = rawLine j from if_pos hj]; exact rawLine_late (by omega)
      · rw [show blockLine B (n + 1) j = blockLine B n (j - B) from if_neg hj, blockLine_early h5 n (by omega)]
        unfold rawLine; rw [if_neg (by omega), if_neg (by omega)]
    · have : (fun k => blockLine B (n + 1) (adcBlock + k)) = blockLine B n := by
        funext k
        rw [← hB, show blockLine B (n + 1) (B + k) = blockLine B n (B + k - B) from if_neg (by omega), Nat.add_sub_cancel_left]
      rw [this]; exact ih

theorem blockPackets_end {B G : Nat} (hG : B = G + 716) : ∀ n, rawEnd 0 (byteFrames ((blockPackets G n).flatMap BusPacket.frames)) = n * B + 1116 := by
  have key : ∀ n t, rawEnd t (byteFrames ((List.replicate n { gap := G, pol := true, first := 0x40, rest := [(20, true, 0xF0)] }).flatMap BusPacket.frames)) = n * B + t := by
    intro n
    induction n with
    | zero => intro t; show t = 0 * B + t; omega
    | succ n ih =>
      intro t
      rw [List.replicate_succ, List.flatMap_cons]
      show rawEnd (t + G + 348 + 20 + 348) _ = _
      refine (ih _).trans ?_
      rw [Nat.succ_mul]; omega
  intro n
  exact key n _

/-- After `n` blocks with a packet in each, and the packet in the next one: `n + 1` times free, busy, 40, F0, and then free. -/
example (n : Nat) (hn : n ≤ 30000000) : ∃ s outs, RxSystem.run 32 (RxSystem.init (fun _ => 0) false)
      (blockEvents (fun k => Pio.sampleValue k (codesOf (blockLine adcBlock n) k)) (List.replicate n (atOnceIdle (adcBlock - 1), true)) (atOnce (1500 + n))) = .ok (s, outs) ∧
    sent outs ++ (if s.core.word = .zero then [] else [s.core.word]) = (List.replicate (n + 1) [wFree, wBusy, wByte 0x40, wByte 0xF0]).flatten ++ [wFree] := by
  obtain ⟨B, hB⟩ : ∃ B, B = adcBlock := ⟨_, rfl⟩
  have hB0 : B = 268435456 := hB
  rw [← hB]
  obtain ⟨G, hG⟩ : ∃ G, B = G + 716 := ⟨B - 716, by omega⟩
  obtain ⟨k1, k2⟩ := atOnce_ok (1500 + n) 0 (by omega)
  have hbs : ∀ b ∈ List.replicate n (atOnceIdle (B - 1), true), BlockOk b.1 := by
    intro b hb
    rw [List.eq_of_mem_replicate hb]
    exact atOnceIdle_block hB (by omega)
  have hpr : processed (List.replicate n (atOnceIdle (B - 1), true)) = List.replicate n (B - 1) := by
    unfold processed
    rw [List.map_replicate, (atOnceIdle_ok (B - 1) 0 (by omega)).2]
  have hsum : (List.replicate n (B - 1)).sum + n = n * B := by
    rw [List.sum_replicate_nat, Nat.mul_sub, Nat.mul_one]
    have : n * 1 ≤ n * B := Nat.mul_le_mul_left n (by omega)
    omega
  have hend := blockPackets_end hG n
  have hlen : (List.replicate n (atOnceIdle (B - 1), true)).length = n := List.length_replicate ..
  have hmem : ∀ p ∈ blockPackets G n, p = rawPacket ∨ p = { gap := G, pol := true, first := 0x40, rest := [(20, true, 0xF0)] } := by
    intro p hp
    rcases List.mem_cons.mp hp with rfl | hp
    · exact Or.inl rfl
    · exact Or.inr (List.eq_of_mem_replicate hp)
  obtain ⟨s, outs, r1, r2⟩ := C151_rested (S := 32) (by decide) false (by decide) (by decide) (codesOf_ok (blockLine B n)) (M := 8500000000) (by decide)
    (List.replicate n (atOnceIdle (B - 1), true)) hbs (atOnce (1500 + n)) k1 (by rw [hpr]; exact blockLine_rest hB (by omega) n) (blockPackets G n)
    (fun p hp => by
      rcases hmem p hp with rfl | rfl
      · exact ⟨by decide, by decide, by decide⟩
      · exact ⟨by show 350 ≤ G; omega, by show (20 + 10 + 0 : Nat) ≤ 345; decide, fun b hb => by rw [List.mem_singleton] at hb; rw [hb]⟩)
    (fun b hb => by
      obtain ⟨p, hp, hb⟩ := List.mem_flatMap.mp hb
      rcases hmem p hp with rfl | rfl
      · have : ∀ b ∈ rawPacket.frames, b.1 ≤ 8500000000 := by decide
        exact this b hb
      · rcases List.mem_cons.mp hb with rfl | hb
        · show G ≤ 8500000000; omega
        · rw [List.mem_singleton] at hb; rw [hb]; show 20 ≤ 8500000000; decide)
    (blockLine_carries hG (by omega) n) (by rw [hend, hpr, k2]; omega) (by rw [hend, hpr, k2, hlen]; omega)
  refine ⟨s, outs, r1, r2.trans ?_⟩
  congr 1
  have key : ∀ m, ((List.replicate m { gap := G, pol := true, first := 0x40, rest := [(20, true, 0xF0)] : BusPacket }).flatMap
      fun p => wFree :: wBusy :: p.bytes.map wByte) = (List.replicate m [wFree, wBusy, wByte 0x40, wByte 0xF0]).flatten := by
    intro m
    induction m with
    | zero => rfl
    | succ m ih => rw [List.replicate_succ, List.replicate_succ, List.flatMap_cons, List.flatten_cons, ih]; rfl
  rw [List.replicate_succ, List.flatten_cons]
  unfold blockPackets
  rw [List.flatMap_cons, key]
  rfl

end P1P2
