import Verif.Proofs.HealHist
/-!
# The receive side after any history
-/
namespace P1P2

/-! ## Packets with a shorter first gap -/

def cutPackets (n : Nat) : List BusPacket → List BusPacket
  | [] => []
  | p :: ps => { p with gap := p.gap - n } :: ps

theorem cutPackets_frames (n : Nat) (ps : List BusPacket) : (cutPackets n ps).flatMap BusPacket.frames = cut n (ps.flatMap BusPacket.frames) := by
  cases ps with
  | nil => rfl
  | cons p ps => rfl

theorem cutPackets_words (n : Nat) (ps : List BusPacket) : (cutPackets n ps).flatMap BusPacket.outWords = ps.flatMap BusPacket.outWords := by
  cases ps with
  | nil => rfl
  | cons p ps => rfl

theorem outWords_words {p q : BusPacket} (h : p.words = q.words) : p.outWords = q.outWords := by
  have : p.bytes.map wByte = q.bytes.map wByte := by simpa [BusPacket.words] using h
  unfold BusPacket.outWords
  rw [this]

theorem halvePackets_outWords : ∀ (ps : List BusPacket) (R : Nat), (halvePackets R ps).flatMap BusPacket.outWords = ps.flatMap BusPacket.outWords := by
  intro ps
  induction ps with
  | nil => intro R; rfl
  | cons p ps ih => intro R; rw [halvePackets, List.flatMap_cons, List.flatMap_cons, ih, outWords_words (halvePacket_words R p)]

theorem cut_le {α : Type} {M n : Nat} {bs : List (Nat × α)} (h : ∀ b ∈ bs, b.1 ≤ M) : ∀ b ∈ cut n bs, b.1 ≤ M := by
  cases bs with
  | nil => exact h
  | cons b bs =>
    obtain ⟨g, x⟩ := b
    intro b hb
    have : g ≤ M := h _ (List.mem_cons_self ..)
    rcases List.mem_cons.mp hb with rfl | hb
    · show g - n ≤ M; omega
    · exact h b (List.mem_cons_of_mem _ hb)

theorem GapFrom.halve {α : Type} {n R : Nat} {fs : List (Nat × α)} (h : GapFrom (2 * n + 1) fs) : GapFrom n (halve R fs) := by
  cases fs with
  | nil => intro f hf; cases hf
  | cons f fs =>
    obtain ⟨g, a⟩ := f
    intro f hf
    have : 2 * n + 1 ≤ g := h _ rfl
    obtain rfl : _ = f := by simpa [P1P2.halve] using hf
    show n ≤ (R + g) / 2 - R / 2
    omega

theorem lineEnd_cut {n τ : Nat} {fs : List (Nat × (Nat → Level))} (h : GapFrom n fs) (hne : fs ≠ []) : lineEnd (τ + n) (cut n fs) = lineEnd τ fs := by
  cases fs with
  | nil => exact absurd rfl hne
  | cons f fs =>
    obtain ⟨g, σ⟩ := f
    have hn : n ≤ g := h _ rfl
    show lineEnd (τ + n + (g - n) + 174) fs = lineEnd (τ + g + 174) fs
    rw [show τ + n + (g - n) + 174 = τ + g + 174 by omega]

theorem rawEnd_cut {n t : Nat} {fs : List (Nat × (Nat → Level))} (h : GapFrom n fs) (hne : fs ≠ []) : rawEnd (t + n) (cut n fs) = rawEnd t fs := by
  cases fs with
  | nil => exact absurd rfl hne
  | cons f fs =>
    obtain ⟨g, σ⟩ := f
    have hn : n ≤ g := h _ rfl
    show rawEnd (t + n + (g - n) + 348) fs = rawEnd (t + g + 348) fs
    rw [show t + n + (g - n) + 348 = t + g + 348 by omega]

theorem rawEnd_add (d : Nat) : ∀ (bs : List (Nat × (Nat → Level))) (t : Nat), rawEnd (t + d) bs = rawEnd t bs + d := by
  intro bs
  induction bs with
  | nil => intro t; rfl
  | cons b bs ih =>
    intro t
    obtain ⟨g, σ⟩ := b
    show rawEnd (t + d + g + 348) bs = rawEnd (t + g + 348) bs + d
    rw [← ih]; congr 1; omega

/-- From the millivolts to the words. -/
theorem heal_run {S : Nat} (hS : 8 ≤ S) {a : Int} (h1 : 49 ≤ a) (h2 : a ≤ 88) {L : Nat → Level} {v : Nat → Int} (hv : ∀ k, -9984 ≤ v k ∧ v k ≤ 9984)
    {b m1 age N M : Nat} (hm : MvFrom a L v b) {ps : List BusPacket} (hp : ∀ p ∈ ps, p.RawOk) (hc : RawCarries L b (byteFrames (ps.flatMap BusPacket.frames)))
    (hg : ∀ x ∈ ps.flatMap BusPacket.frames, x.1 ≤ M) (hgap : GapFrom 1920 (ps.flatMap BusPacket.frames)) (hm1 : m1 ≤ (b + 1) / 2)
    {t : C1Tail} (hb : BackInv (dcRef (decimated v)) m1 t.back) (hok : t.back.uart.Ok S .even) (ha : Aged S age t.back.uart) (hi : 0 ≤ t.idle ∧ t.idle ≤ 176)
    (hage : 2 * age + (b - 2 * m1) + M + 1934 ≤ 2 * 2 ^ S) (hN0 : 1920 ≤ N) (hN : rawEnd 0 (byteFrames (ps.flatMap BusPacket.frames)) + 378 ≤ N)
    (hN' : N ≤ rawEnd 0 (byteFrames (ps.flatMap BusPacket.frames)) + M) :
    ∃ t' tr Y, t.run S (segment (dcRef (decimated v)) m1 ((b + N + 1) / 2 - m1)) = .ok (t', tr) ∧
      nonzero (tr.map AcOut.word) = Y ++ ps.flatMap BusPacket.outWords ∧ ((Y = [] ∧ t.busy = false) ∨ ∃ Y', Y = Y' ++ [wFree]) := by
  have hM : 1920 ≤ M ∨ ps = [] := by
    cases ps with
    | nil => exact Or.inr rfl
    | cons p ps =>
      have g1 := hgap (p.gap, p.pol, p.first) (by rw [List.flatMap_cons]; rfl)
      have g2 := hg (p.gap, p.pol, p.first) (by rw [List.flatMap_cons]; exact List.mem_append_left _ (List.mem_cons_self ..))
      exact Or.inl (Nat.le_trans g1 g2)
  have hM : 1920 ≤ M := by
    rcases hM with h | rfl
    · exact h
    · have hN' : N ≤ 0 + M := hN'
      omega
  have hpol : PolOk true (cut 740 (halve (b + 9) (cut 9 (ps.flatMap BusPacket.frames)))) := by
    cases ps with
    | nil => trivial
    | cons p ps =>
      have hp0 := hp p (List.mem_cons_self ..)
      have g1 : 1920 ≤ p.gap := hgap (p.gap, p.pol, p.first) (by rw [List.flatMap_cons]; rfl)
      rw [List.flatMap_cons]
      exact ⟨Or.inr (by omega), polOk_rest _ _ _ hp0.pol fun R' => polOk_packets _ _ _ fun p hp' => hp p (List.mem_cons_of_mem _ hp')⟩
  have hcar := heal_shape h1 h2 hv hm hc hgap hpol
  -- the packets as the UART sees them
  have hQ : cut 561 (halve (b + 9) (cut 9 (ps.flatMap BusPacket.frames))) =
      (cutPackets 561 (halvePackets (b + 9) (cutPackets 9 ps))).flatMap BusPacket.frames := by
    rw [cutPackets_frames, halvePackets_frames, cutPackets_frames]
  have hw : (cutPackets 561 (halvePackets (b + 9) (cutPackets 9 ps))).flatMap BusPacket.outWords = ps.flatMap BusPacket.outWords := by
    rw [cutPackets_words, halvePackets_outWords, cutPackets_words]
  have g955 : GapFrom 955 (halve (b + 9) (cut 9 (ps.flatMap BusPacket.frames))) := GapFrom.halve (n := 955) (hgap.cut (m := 9))
  have gQ : GapFrom 380 (cut 561 (halve (b + 9) (cut 9 (ps.flatMap BusPacket.frames)))) := (g955.cut (m := 561)).le (by decide)
  have lQ : ∀ x ∈ cut 561 (halve (b + 9) (cut 9 (ps.flatMap BusPacket.frames))), x.1 ≤ (M + 1) / 2 := cut_le (halve_le _ _ (cut_le hg))
  have okQ : ∀ p ∈ cutPackets 561 (halvePackets (b + 9) (cutPackets 9 ps)), p.Ok := by
    cases ps with
    | nil => intro p hp; cases hp
    | cons p ps =>
      have hp0 := hp p (List.mem_cons_self ..)
      have g1 : 1920 ≤ p.gap := hgap (p.gap, p.pol, p.first) (by rw [List.flatMap_cons]; rfl)
      have hraw : ∀ x ∈ cutPackets 9 (p :: ps), x.RawOk := by
        intro x hx
        rcases List.mem_cons.mp hx with rfl | hx
        · exact ⟨by show 350 ≤ p.gap - 9; omega, hp0.rest, hp0.pol⟩
        · exact hp x (List.mem_cons_of_mem _ hx)
      have hh := halvePackets_ok _ (b + 9) hraw
      intro x hx
      rcases List.mem_cons.mp hx with rfl | hx
      · refine ⟨?_, (hh _ (List.mem_cons_self ..)).rest⟩
        show 175 ≤ (b + 9 + (p.gap - 9)) / 2 - (b + 9) / 2 - 561
        omega
      · exact hh x (List.mem_cons_of_mem _ hx)
  have hbd : ∀ k, -80000000 ≤ dcRef (decimated v) k ∧ dcRef (decimated v) k ≤ 80000000 := by
    intro k
    have := (C38_bounded (decimated v) 12978 (by decide) (fun n => fir_bound hv (2 * n)) k).2
    omega
  -- the end of the line
  have hend : ps = [] ∨ lineEnd ((b + 9) / 2 + 563) (byteFrames (cut 561 (halve (b + 9) (cut 9 (ps.flatMap BusPacket.frames))))) =
      (rawEnd 0 (byteFrames (ps.flatMap BusPacket.frames)) + b) / 2 + 2 := by
    cases hps : ps with
    | nil => exact Or.inl rfl
    | cons p qs =>
      rw [← hps]
      refine Or.inr ?_
      have hne : byteFrames (ps.flatMap BusPacket.frames) ≠ [] := by
        rw [hps, raw_frames]; exact fun h => by cases h
      have hgf := hgap.frames
      have gf := g955.frames
      rw [← halve_byteFrames, ← cut_byteFrames] at gf
      rw [← cut_byteFrames, ← halve_byteFrames, ← cut_byteFrames]
      have hne2 : halve (b + 9) (cut 9 (byteFrames (ps.flatMap BusPacket.frames))) ≠ [] := by
        revert hne
        generalize byteFrames (ps.flatMap BusPacket.frames) = fs
        intro hne
        cases fs with
        | nil => exact absurd rfl hne
        | cons f fs => exact fun h => by cases h
      rw [show (b + 9) / 2 + 563 = (b + 9) / 2 + 2 + 561 by omega, lineEnd_cut (gf.le (by decide)) hne2, lineEnd_add, lineEnd_halve _ _ _ rfl,
        rawEnd_cut (hgf.le (by decide)) hne, ← rawEnd_add]
      rw [Nat.zero_add]
  have hbase : ps = [] → lineEnd ((b + 9) / 2 + 563) (byteFrames (cut 561 (halve (b + 9) (cut 9 (ps.flatMap BusPacket.frames))))) = (b + 9) / 2 + 563 ∧
      rawEnd 0 (byteFrames (ps.flatMap BusPacket.frames)) = 0 := by
    intro h; subst h; exact ⟨rfl, rfl⟩
  rw [hQ] at hcar gQ lQ hend hbase
  rw [← hw]
  have hnil : ps = [] → cutPackets 561 (halvePackets (b + 9) (cutPackets 9 ps)) = [] := by intro h; subst h; rfl
  generalize cutPackets 561 (halvePackets (b + 9) (cutPackets 9 ps)) = Q at *
  refine heal_tail hS hbd (frontShape_tol h1 h2) (τ := (b + 9) / 2 + 563) (age := age) (G := (M + 1) / 2) hb hok ha hi (by omega) (by omega) (by omega) okQ lQ gQ hcar
    (by omega) ?_ ?_
  · rcases hend with h | h
    · exact Or.inl (hnil h)
    · exact Or.inr (by omega)
  · rcases hend with h | h
    · have := hbase h
      omega
    · omega

end P1P2
