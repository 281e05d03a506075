import Verif.Proofs.ShapeWords
import Verif.Proofs.FrontRun
import Verif.Props.Overrun
/-!
# From ADC codes to the words of core 1
-/
namespace P1P2

/-! ## Packets after the decimation -/

/-- Position after the listed frames. -/
def codesEnd {α : Type} : Nat → List (Nat × α) → Nat
  | R, [] => R
  | R, (g, _) :: l => codesEnd (R + g + 348) l

theorem halve_append {α : Type} : ∀ (l m : List (Nat × α)) (R : Nat), halve R (l ++ m) = halve R l ++ halve (codesEnd R l) m := by
  intro l
  induction l with
  | nil => intro m R; rfl
  | cons a l ih => intro m R; obtain ⟨g, a⟩ := a; simp only [List.cons_append, halve, codesEnd, ih]

theorem codesEnd_append {α : Type} : ∀ (l m : List (Nat × α)) (R : Nat), codesEnd R (l ++ m) = codesEnd (codesEnd R l) m := by
  intro l
  induction l with
  | nil => intro m R; rfl
  | cons a l ih => intro m R; obtain ⟨g, a⟩ := a; simp only [List.cons_append, codesEnd, ih]

theorem halve_byteFrames : ∀ (bs : List (Nat × Bool × UInt8)) (R : Nat), halve R (byteFrames bs) = byteFrames (halve R bs) := by
  intro bs
  induction bs with
  | nil => intro R; rfl
  | cons b bs ih =>
    intro R
    obtain ⟨g, b⟩ := b
    show (_, _) :: halve _ (byteFrames bs) = (_, _) :: byteFrames (halve _ bs)
    rw [ih]

theorem rawEnd_byteFrames : ∀ (bs : List (Nat × Bool × UInt8)) (R : Nat), rawEnd R (byteFrames bs) = codesEnd R bs := by
  intro bs
  induction bs with
  | nil => intro R; rfl
  | cons b bs ih => intro R; obtain ⟨g, b⟩ := b; exact ih _

theorem halve_bytes : ∀ (bs : List (Nat × Bool × UInt8)) (R : Nat), (halve R bs).map (fun b => b.2) = bs.map fun b => b.2 := by
  intro bs
  induction bs with
  | nil => intro R; rfl
  | cons b bs ih => intro R; obtain ⟨g, b⟩ := b; simp only [halve, List.map_cons, ih]

theorem lineEnd_halve : ∀ (bs : List (Nat × (Nat → Level))) (R t : Nat), t = R / 2 → lineEnd t (halve R bs) = rawEnd R bs / 2 := by
  intro bs
  induction bs with
  | nil => intro R t h; exact h
  | cons b bs ih =>
    intro R t h
    obtain ⟨g, σ⟩ := b
    exact ih _ _ (by omega)

theorem lineEnd_add (d : Nat) : ∀ (bs : List (Nat × (Nat → Level))) (t : Nat), lineEnd (t + d) bs = lineEnd t bs + d := by
  intro bs
  induction bs with
  | nil => intro t; rfl
  | cons b bs ih =>
    intro t
    obtain ⟨g, σ⟩ := b
    show lineEnd (t + d + g + 174) bs = lineEnd (t + g + 174) bs + d
    rw [← ih]; congr 1; omega

theorem halve_le {α : Type} {M : Nat} : ∀ (bs : List (Nat × α)) (R : Nat), (∀ b ∈ bs, b.1 ≤ M) → ∀ b ∈ halve R bs, b.1 ≤ (M + 1) / 2 := by
  intro bs
  induction bs with
  | nil => intro R _ b hb; cases hb
  | cons a bs ih =>
    intro R h b hb
    obtain ⟨g, a⟩ := a
    have h0 := h (g, a) (List.mem_cons_self ..)
    dsimp only at h0
    rcases List.mem_cons.mp hb with rfl | hb
    · dsimp only; omega
    · exact ih _ (fun b hb => h b (List.mem_cons_of_mem _ hb)) b hb

theorem halve_sum : ∀ (bs : List (Nat × Bool × UInt8)) (R : Nat),
    2 * ((halve R bs).map fun b => b.1 + 5).sum ≤ (bs.map fun b => b.1 + 10).sum + R % 2 := by
  intro bs
  induction bs with
  | nil => intro R; exact Nat.zero_le _
  | cons b bs ih =>
    intro R
    obtain ⟨g, b⟩ := b
    have := ih (R + g + 348)
    simp only [halve, List.map_cons, List.sum_cons]
    omega

/-- A packet after the decimation, `R` codes before. -/
def halvePacket (R : Nat) (p : BusPacket) : BusPacket :=
  { p with gap := (R + p.gap) / 2 - R / 2, rest := halve (R + p.gap + 348) p.rest }

def halvePackets : Nat → List BusPacket → List BusPacket
  | _, [] => []
  | R, p :: ps => halvePacket R p :: halvePackets (codesEnd R p.frames) ps

theorem halvePacket_frames (R : Nat) (p : BusPacket) : (halvePacket R p).frames = halve R p.frames := rfl

theorem halvePackets_frames : ∀ (ps : List BusPacket) (R : Nat),
    (halvePackets R ps).flatMap BusPacket.frames = halve R (ps.flatMap BusPacket.frames) := by
  intro ps
  induction ps with
  | nil => intro R; rfl
  | cons p ps ih =>
    intro R
    rw [halvePackets, List.flatMap_cons, List.flatMap_cons, halve_append, ih, halvePacket_frames]

theorem halvePacket_words (R : Nat) (p : BusPacket) : (halvePacket R p).words = p.words := by
  have h := congrArg (List.map Prod.snd) (halve_bytes p.rest (R + p.gap + 348))
  simp only [List.map_map] at h
  unfold BusPacket.words BusPacket.bytes
  show wFree :: wBusy :: List.map wByte (p.first :: List.map _ (halve (R + p.gap + 348) p.rest)) = _
  rw [show List.map (fun b : Nat × Bool × UInt8 => b.2.2) (halve (R + p.gap + 348) p.rest) = List.map (fun b => b.2.2) p.rest from h]

theorem halvePackets_words : ∀ (ps : List BusPacket) (R : Nat), (halvePackets R ps).flatMap BusPacket.words = ps.flatMap BusPacket.words := by
  intro ps
  induction ps with
  | nil => intro R; rfl
  | cons p ps ih => intro R; rw [halvePackets, List.flatMap_cons, List.flatMap_cons, ih, halvePacket_words]

theorem halvePacket_rest {R : Nat} {p : BusPacket} (h : p.RawOk) : ((halvePacket R p).rest.map fun b => b.1 + 5).sum ≤ 173 := by
  have := halve_sum p.rest (R + p.gap + 348)
  have := h.rest
  show ((halve (R + p.gap + 348) p.rest).map fun b => b.1 + 5).sum ≤ 173
  omega

theorem halvePackets_ok : ∀ (ps : List BusPacket) (R : Nat), (∀ p ∈ ps, p.RawOk) → ∀ p ∈ halvePackets R ps, p.Ok := by
  intro ps
  induction ps with
  | nil => intro R _ p hp; cases hp
  | cons p ps ih =>
    intro R h q hq
    have h0 := h p (List.mem_cons_self ..)
    have := h0.gap
    rcases List.mem_cons.mp hq with rfl | hq
    · exact ⟨by show 175 ≤ (R + p.gap) / 2 - R / 2; omega, halvePacket_rest h0⟩
    · exact ih _ (fun p hp => h p (List.mem_cons_of_mem _ hp)) q hq

theorem polOk_rest {p : Bool} : ∀ (rest more : List (Nat × Bool × UInt8)) (R : Nat), (∀ b ∈ rest, b.2.1 = p) →
    (∀ R', PolOk p (halve R' more)) → PolOk p (halve R (rest ++ more)) := by
  intro rest
  induction rest with
  | nil => intro more R _ h; exact h R
  | cons b rest ih =>
    intro more R h hm
    obtain ⟨g, q, b⟩ := b
    have h0 : q = p := h _ (List.mem_cons_self ..)
    subst h0
    exact ⟨Or.inl rfl, ih more _ (fun b hb => h b (List.mem_cons_of_mem _ hb)) hm⟩

theorem polOk_packets : ∀ (ps : List BusPacket) (p : Bool) (R : Nat), (∀ p ∈ ps, p.RawOk) → PolOk p (halve R (ps.flatMap BusPacket.frames)) := by
  intro ps
  induction ps with
  | nil => intro p R _; trivial
  | cons k ps ih =>
    intro p R h
    have h0 := h k (List.mem_cons_self ..)
    have := h0.gap
    rw [List.flatMap_cons]
    exact ⟨Or.inr (by omega), polOk_rest _ _ _ h0.pol fun R' => ih _ _ fun p hp => h p (List.mem_cons_of_mem _ hp)⟩

/-! ## The first packet -/

theorem Carries_congr {s : Shape} {x y : Nat → Int} : ∀ (fs : List (Nat × (Nat → Level))) {t : Nat}, (∀ k, t ≤ k → x k = y k) →
    s.Carries x t fs → s.Carries y t fs := by
  intro fs
  induction fs with
  | nil => intro t h hc k hk; rw [← h k hk]; exact hc k hk
  | cons f fs ih =>
    obtain ⟨g, σ⟩ := f
    intro t h ⟨c1, ⟨o, o', ho, c2⟩, c3⟩
    refine ⟨fun k h1 h2 => ?_, ⟨o, o', ho, fun j hj => ?_⟩, ih (fun k hk => h k (by omega)) c3⟩
    · rw [← h k h1]; exact c1 k h1 h2
    · rw [← h _ (by omega)]; exact c2 j hj

/-- Packets as the chain behind the DC blocker sees them. -/
def uartPackets : List BusPacket → List BusPacket
  | [] => []
  | p :: ps => { p with gap := p.gap / 2 + 2, rest := halve (p.gap + 348) p.rest } :: halvePackets (codesEnd 0 p.frames) ps

theorem codesEnd_first (p : BusPacket) : codesEnd 0 p.frames = codesEnd (p.gap + 348) p.rest := by
  show codesEnd (0 + p.gap + 348) p.rest = _
  rw [Nat.zero_add]

theorem uartPackets_words (ps : List BusPacket) : (uartPackets ps).flatMap BusPacket.words = ps.flatMap BusPacket.words := by
  cases ps with
  | nil => rfl
  | cons p ps =>
    have h := halvePacket_words 0 p
    rw [uartPackets, List.flatMap_cons, List.flatMap_cons, halvePackets_words, ← h]
    unfold halvePacket
    simp only [Nat.zero_add]
    rfl

theorem uartPackets_ok {ps : List BusPacket} (h : ∀ p ∈ ps, p.RawOk) : ∀ p ∈ uartPackets ps, p.Ok := by
  cases ps with
  | nil => intro p hp; cases hp
  | cons p ps =>
    intro q hq
    have h0 := h p (List.mem_cons_self ..)
    have := h0.gap
    rcases List.mem_cons.mp hq with rfl | hq
    · have := halvePacket_rest (R := 0) h0
      unfold halvePacket at this
      simp only [Nat.zero_add] at this
      exact ⟨by show 175 ≤ p.gap / 2 + 2; omega, this⟩
    · exact halvePackets_ok ps _ (fun p hp => h p (List.mem_cons_of_mem _ hp)) q hq

theorem uartPackets_le {ps : List BusPacket} {M : Nat} (h : ∀ b ∈ ps.flatMap BusPacket.frames, b.1 ≤ M) :
    ∀ b ∈ (uartPackets ps).flatMap BusPacket.frames, b.1 ≤ (M + 1) / 2 + 2 := by
  cases ps with
  | nil => intro p hp; cases hp
  | cons p ps =>
    intro b hb
    have h0 := h (p.gap, p.pol, p.first) (by rw [List.flatMap_cons]; exact List.mem_append_left _ (List.mem_cons_self ..))
    dsimp only at h0
    rw [uartPackets, List.flatMap_cons, halvePackets_frames] at hb
    rcases List.mem_append.mp hb with hb | hb
    · rcases List.mem_cons.mp hb with rfl | hb
      · dsimp only; omega
      · have := halve_le p.rest (p.gap + 348) (M := M) (fun b hb => h b (by
          rw [List.flatMap_cons]; exact List.mem_append_left _ (List.mem_cons_of_mem _ hb))) b hb
        omega
    · have := halve_le _ _ (M := M) (fun b hb => h b (by rw [List.flatMap_cons]; exact List.mem_append_right _ hb)) b hb
      omega

/-- The signal behind the DC blocker. -/
def rawZ (q : Nat → UInt8) : Nat → Int := dcRef (rawX q)

theorem uart_frames (p : BusPacket) (ps : List BusPacket) :
    byteFrames ((uartPackets (p :: ps)).flatMap BusPacket.frames) =
      (p.gap / 2 + 2, symbolsOf p.pol p.first) :: halve (p.gap + 348) (byteFrames (p.rest ++ ps.flatMap BusPacket.frames)) := by
  rw [uartPackets, List.flatMap_cons, halvePackets_frames, halve_byteFrames, halve_append, codesEnd_first]
  rfl

theorem raw_frames (p : BusPacket) (ps : List BusPacket) :
    byteFrames ((p :: ps).flatMap BusPacket.frames) = (p.gap, symbolsOf p.pol p.first) :: byteFrames (p.rest ++ ps.flatMap BusPacket.frames) := by
  rw [List.flatMap_cons]; rfl

/-- The signal behind the DC blocker carries the packets. -/
theorem raw_shape {a c : Int} (h1 : 49 ≤ a) (h2 : a ≤ 88) {L : Nat → Level} {q : Nat → UInt8} (h : Codes a c L q) {ps : List BusPacket}
    (hp : ∀ p ∈ ps, p.RawOk) (hc : RawCarries L 0 (byteFrames (ps.flatMap BusPacket.frames))) :
    (frontShape (39 * a)).Carries (silenced (rawZ q)) 0 (byteFrames ((uartPackets ps).flatMap BusPacket.frames)) ∧
      ∀ k, detStream (past (levelOut (rawZ q))) k = detStream (past (levelOut (silenced (rawZ q)))) k := by
  have hA : 0 ≤ 39 * a := by omega
  have htol := frontShape_tol h1 h2
  have hsil : ∀ k, 6 ≤ k → rawZ q k = silenced (rawZ q) k := fun k hk => by unfold silenced; rw [if_neg (by omega)]
  have hL : ∀ k, k < 9 → L k = .mid := by
    intro k hk
    cases ps with
    | nil => exact hc k (Nat.zero_le _)
    | cons p ps =>
      rw [raw_frames] at hc
      have := (hp p (List.mem_cons_self ..)).gap
      exact hc.1 k (Nat.zero_le _) (by omega)
  -- the carried frames from code 9 on
  have hc9 : ∃ fs, RawCarries L 9 (byteFrames fs) ∧ PolOk true (halve 9 fs) ∧
      byteFrames (halve 9 fs) = (match ps with
        | [] => []
        | p :: ps => (p.gap / 2 - 4, symbolsOf p.pol p.first) :: halve (p.gap + 348) (byteFrames (p.rest ++ ps.flatMap BusPacket.frames))) := by
    cases ps with
    | nil => exact ⟨[], fun k hk => hc k (Nat.zero_le _), trivial, rfl⟩
    | cons p ps =>
      have hp0 := hp p (List.mem_cons_self ..)
      have hg := hp0.gap
      rw [raw_frames] at hc
      obtain ⟨c1, ⟨δ, ε, ho, c2⟩, c3⟩ := hc
      refine ⟨(p.gap - 9, p.pol, p.first) :: (p.rest ++ ps.flatMap BusPacket.frames), ⟨fun k k1 k2 => c1 k (Nat.zero_le _) (by omega), ⟨δ, ε, ho, fun j hj => ?_⟩, ?_⟩,
        ⟨Or.inr (by omega), polOk_rest _ _ _ hp0.pol fun R' => polOk_packets _ _ _ fun p hp' => hp p (List.mem_cons_of_mem _ hp')⟩, ?_⟩
      · have := c2 j hj
        rw [show 9 + (p.gap - 9) + j = 0 + p.gap + j by omega]
        exact this
      · rw [show 9 + (p.gap - 9) + 348 = 0 + p.gap + 348 by omega]
        exact c3
      · rw [← halve_byteFrames]
        show ((9 + (p.gap - 9)) / 2 - 9 / 2, _) :: halve (9 + (p.gap - 9) + 348) _ = _
        rw [show 9 + (p.gap - 9) = p.gap by omega]
        rfl
  obtain ⟨fs, f1, f2, f3⟩ := hc9
  have hpre := raw_carries h (by omega) _ f1 (Nat.le_refl _) (fun k _ hk => hL k hk)
  rw [halve_byteFrames] at hpre
  have hx0 : ∀ k, 4 ≤ k → k < 9 → -66 ≤ rawX q k ∧ rawX q k ≤ 66 := by
    intro k k1 k2
    have hpre' := hpre
    rw [f3] at hpre'
    cases ps with
    | nil => exact hpre' k k1
    | cons p ps =>
      have := (hp p (List.mem_cons_self ..)).gap
      exact hpre'.1 k k1 (by omega)
  obtain ⟨x0, x1, x2, x3⟩ := boot_x h hL
  obtain ⟨b4, bz⟩ := boot_dc x0 x1 x2 x3 (hx0 4 (by decide) (by decide)) (hx0 5 (by decide) (by decide))
  have hbase : ∀ k, 4 ≤ k → BaseOk (39 * a) (dcB (rawX q) k) := by
    refine base_frames hA _ f2 hpre ?_
    show ReadyUp _ _
    unfold ReadyUp BaseIn
    show -(22528 * (39 * a) + 17563648) ≤ 1024 * dcB (rawX q) 4 ∧ 1024 * dcB (rawX q) 4 ≤ 6656 * (39 * a) + 17563648
    omega
  have hcar := front_carries hA _ hpre hbase
  have hcar6 : (frontShape (39 * a)).Carries (rawZ q) 6 (byteFrames (halve 9 fs)) := hcar
  have hq6 : ∀ k, 6 ≤ k → k < 21 → (frontShape (39 * a)).Quiet (rawZ q k) := by
    intro k k1 k2
    rw [f3] at hcar6
    cases ps with
    | nil => exact hcar6 k k1
    | cons p ps =>
      have := (hp p (List.mem_cons_self ..)).gap
      exact hcar6.1 k k1 (by omega)
  refine ⟨?_, boot_det htol bz hq6⟩
  have hcs := Carries_congr _ hsil hcar6
  rw [f3] at hcs
  have hzero : ∀ k, k < 6 → (frontShape (39 * a)).Quiet (silenced (rawZ q) k) := by
    intro k hk
    have := htol.quiet0
    unfold silenced
    rw [if_pos hk]
    unfold Shape.Quiet
    omega
  cases ps with
  | nil =>
    intro k _
    by_cases hk : k < 6
    · exact hzero k hk
    · exact hcs k (by omega)
  | cons p ps =>
    have hg := (hp p (List.mem_cons_self ..)).gap
    rw [uart_frames]
    obtain ⟨c1, ⟨o, o', ho, c2⟩, c3⟩ := hcs
    refine ⟨fun k _ k2 => ?_, ⟨o, o', ho, fun j hj => ?_⟩, ?_⟩
    · by_cases hk : k < 6
      · exact hzero k hk
      · exact c1 k (by omega) (by omega)
    · have := c2 j hj
      rw [show 6 + (p.gap / 2 - 4) + j = 0 + (p.gap / 2 + 2) + j by omega] at this
      exact this
    · rw [show 6 + (p.gap / 2 - 4) + 174 = 0 + (p.gap / 2 + 2) + 174 by omega] at c3
      exact c3

theorem uart_end (ps : List BusPacket) : rawEnd 0 (byteFrames (ps.flatMap BusPacket.frames)) / 2 ≤ lineEnd 0 (byteFrames ((uartPackets ps).flatMap BusPacket.frames)) ∧
    lineEnd 0 (byteFrames ((uartPackets ps).flatMap BusPacket.frames)) ≤ rawEnd 0 (byteFrames (ps.flatMap BusPacket.frames)) / 2 + 2 := by
  cases ps with
  | nil => exact ⟨Nat.le_refl _, Nat.zero_le _⟩
  | cons p ps =>
    rw [uart_frames, raw_frames]
    show rawEnd (0 + p.gap + 348) _ / 2 ≤ lineEnd (0 + (p.gap / 2 + 2) + 174) _ ∧ lineEnd (0 + (p.gap / 2 + 2) + 174) _ ≤ rawEnd (0 + p.gap + 348) _ / 2 + 2
    rw [show 0 + (p.gap / 2 + 2) + 174 = (p.gap + 348) / 2 + 2 by omega, lineEnd_add, lineEnd_halve _ _ _ rfl, Nat.zero_add]
    omega

theorem rawX_eq (q : Nat → UInt8) : rawX q = decimated (rawMv q) := rfl

theorem rawMv_bound (q : Nat → UInt8) (k : Nat) : -9984 ≤ rawMv q k ∧ rawMv q k ≤ 9984 := by
  have hr : ∀ j : Int, -256 ≤ rawHist q j ∧ rawHist q j ≤ 255 := by
    intro j
    refine adcHist_range (fun _ => by omega) (fun k => ?_) j
    have := (q k).toNat_lt
    unfold Pio.sampleValue
    split <;> omega
  have h0 := hr k; have h1 := hr ((k : Int) - 1); have h2 := hr ((k : Int) - 2)
  have ht := tdiv2 (rawHist q k + rawHist q ((k : Int) - 2))
  unfold rawMv adcRef
  generalize (rawHist q k + rawHist q ((k : Int) - 2)).tdiv 2 = d at *
  omega

theorem rawZ_bound (q : Nat → UInt8) (k : Nat) : -80000000 ≤ rawZ q k ∧ rawZ q k ≤ 80000000 := by
  have := (C38_bounded (rawX q) 12978 (by decide) (fun n => fir_bound (rawMv_bound q) (2 * n)) k).2
  unfold rawZ
  omega

/-- Core 1 behind the DC blocker on the packets. -/
theorem raw_tail {S : Nat} (hS : 8 ≤ S) (e : Bool) {a c : Int} (h1 : 49 ≤ a) (h2 : a ≤ 88) {L : Nat → Level} {q : Nat → UInt8} (h : Codes a c L q)
    {M : Nat} (hM : M + 70 ≤ 2 * 2 ^ S) {ps : List BusPacket} (hp : ∀ p ∈ ps, p.RawOk) (hg : ∀ b ∈ ps.flatMap BusPacket.frames, b.1 ≤ M)
    (hc : RawCarries L 0 (byteFrames (ps.flatMap BusPacket.frames))) {N : Nat}
    (hN : rawEnd 0 (byteFrames (ps.flatMap BusPacket.frames)) + 378 ≤ N) (hN' : N ≤ rawEnd 0 (byteFrames (ps.flatMap BusPacket.frames)) + M) :
    ∃ t tr, (C1Tail.init e).run S ((List.range ((N + 1) / 2)).map (rawZ q)) = .ok (t, tr) ∧
      nonzero (tr.map AcOut.word) = ps.flatMap BusPacket.words ++ [wFree] := by
  obtain ⟨s1, s2⟩ := raw_shape h1 h2 h hp hc
  obtain ⟨u1, u2⟩ := uart_end ps
  obtain ⟨t, tr, k1, k2⟩ := tail_packets (n := (N + 1) / 2) hS e (frontShape_tol h1 h2) (x := rawZ q) (G := (M + 1) / 2 + 2) (by omega)
    (uartPackets_ok hp) (uartPackets_le hg) (rawZ_bound q) s2 s1 (by omega) (by omega)
  refine ⟨t, tr, ?_, ?_⟩
  · have : segment (rawZ q) 0 ((N + 1) / 2) = (List.range ((N + 1) / 2)).map (rawZ q) := by
      unfold segment
      exact List.map_congr_left fun i _ => by rw [Nat.zero_add]
    rw [← this]; exact k1
  · rw [k2, uartPackets_words]

end P1P2
