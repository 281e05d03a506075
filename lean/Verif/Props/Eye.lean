import Verif.Spec.Eye
import Verif.Props.Timed
/-!
# C111: pulses within a mask, up to the lines for the host
-/
namespace P1P2

section
variable {P : Nat}

theorem ceilDiv_add (hP : 0 < P) (x k : Nat) : ceilDiv (x + k * P) P = ceilDiv x P + k := by
  unfold ceilDiv
  rw [show x + k * P + (P - 1) = x + (P - 1) + k * P by omega, Nat.add_mul_div_right _ _ hP]

theorem ceilDiv_mono (hP : 0 < P) {x y : Nat} (h : x ≤ y) : ceilDiv x P ≤ ceilDiv y P := by
  rw [ceilDiv_le hP]
  have := (ceilDiv_mul (x := y) hP).1
  omega

/-- The number of the first code at or after `2 P` before time `t`. -/
def eyeBase (P t : Nat) : Nat := ceilDiv t P - 2

theorem eyeBase_le (hP : 0 < P) {t k : Nat} : eyeBase P t ≤ k ↔ t ≤ k * P + 2 * P := by
  unfold eyeBase
  have := ceilDiv_le (x := t) hP (k + 2)
  rw [Nat.add_mul] at this
  omega

theorem eyeBase_next (hP : 0 < P) {t : Nat} (h : 2 * P ≤ t) (k : Nat) : eyeBase P (t + k * P) = eyeBase P t + k := by
  have h2 : 2 ≤ ceilDiv t P := by
    have := lt_ceilDiv (x := t) hP 1
    rw [Nat.one_mul] at this
    omega
  unfold eyeBase
  rw [ceilDiv_add hP]
  omega

theorem eyeBase_at (hP : 0 < P) {t : Nat} (h : 2 * P ≤ t) : t ≤ eyeBase P t * P + 2 * P ∧ eyeBase P t * P + 2 * P < t + P := by
  refine ⟨(eyeBase_le hP).mp (Nat.le_refl _), ?_⟩
  have h2 : 2 ≤ ceilDiv t P := by
    have := lt_ceilDiv (x := t) hP 1
    rw [Nat.one_mul] at this
    omega
  have := (ceilDiv_mul (x := t) hP).2
  unfold eyeBase
  rw [Nat.sub_mul]
  have : 2 * P ≤ ceilDiv t P * P := Nat.mul_le_mul_right _ h2
  omega

/-- The codes of a symbol. -/
theorem eye_symbol (hP : 0 < P) {X : Nat} (hX : 2 * P ≤ X) {L : Nat → Level} {i : Nat} {l : Level} (h : EyeSymbol P X L i l) :
    ∃ d e, e ≤ d ∧ d ≤ 2 ∧ ∀ r, r < 32 → L ((eyeBase P X + (32 * i + r)) * P) = if d ≤ r ∧ r < 16 + e then l else .mid := by
  obtain ⟨b1, b2⟩ := eyeBase_at hP hX
  have cell : ∀ r, r < 32 → X + 32 * i * P ≤ (eyeBase P X + (32 * i + r)) * P + 2 * P ∧ (eyeBase P X + (32 * i + r)) * P + 2 * P < X + (32 * i + 32) * P := by
    intro r hr
    have hR : r * P ≤ 31 * P := Nat.mul_le_mul_right P (by omega)
    rw [Nat.add_mul, Nat.add_mul, Nat.add_mul]
    omega
  rcases h with ⟨rfl, h⟩ | ⟨u, v, h1, h2, h4, h⟩
  · refine ⟨0, 0, by omega, by omega, fun r hr => ?_⟩
    rw [h _ (cell r hr).1 (cell r hr).2, ite_self]
  · generalize hB : eyeBase P X = B at *
    have k1 : ceilDiv u P ≤ B + 32 * i + 2 := by
      rw [ceilDiv_le hP, Nat.add_mul, Nat.add_mul]; omega
    have k2 : B + 32 * i + 15 < ceilDiv v P := by
      rw [lt_ceilDiv hP, Nat.add_mul, Nat.add_mul]
      rw [Nat.add_mul] at h2
      omega
    have k3 : ceilDiv v P ≤ ceilDiv u P + 16 := by
      rw [← ceilDiv_add hP]; exact ceilDiv_mono hP h4
    refine ⟨ceilDiv u P - (B + 32 * i), ceilDiv v P - (B + 32 * i + 16), by omega, by omega, fun r hr => ?_⟩
    rw [h _ (cell r hr).1 (cell r hr).2]
    have e : (u ≤ (B + (32 * i + r)) * P ∧ (B + (32 * i + r)) * P < v) ↔ (ceilDiv u P - (B + 32 * i) ≤ r ∧ r < 16 + (ceilDiv v P - (B + 32 * i + 16))) := by
      rw [← ceilDiv_le hP, ← lt_ceilDiv hP]
      omega
    by_cases c : u ≤ (B + (32 * i + r)) * P ∧ (B + (32 * i + r)) * P < v
    · rw [if_pos c, if_pos (e.mp c)]
    · rw [if_neg c, if_neg fun h => c (e.mpr h)]

/-- Gaps in codes. -/
def eyeCodes {α : Type} (P : Nat) : Nat → List (Nat × α) → List (Nat × α)
  | _, [] => []
  | t, (g, a) :: l => (eyeBase P (t + g) - eyeBase P t, a) :: eyeCodes P (t + g + 348 * P) l

theorem eyeBase_mono (hP : 0 < P) {x y : Nat} (h : x ≤ y) : eyeBase P x ≤ eyeBase P y := by
  have := ceilDiv_mono hP h
  unfold eyeBase; omega

theorem eye_carries (hP : 0 < P) {L : Nat → Level} : ∀ (bs : List (Nat × Bool × UInt8)) (t : Nat), (∀ b ∈ bs.head?, 2 * P ≤ t + b.1) →
    EyeCarries P L t (byteFrames bs) → RawCarries (fun k => L (k * P)) (eyeBase P t) (byteFrames (eyeCodes P t bs)) := by
  intro bs
  induction bs with
  | nil =>
    intro t _ h k hk
    exact h _ ((eyeBase_le hP).mp hk)
  | cons a bs ih =>
    intro t hs h
    obtain ⟨g, p, u⟩ := a
    have hs : 2 * P ≤ t + g := hs _ rfl
    obtain ⟨h1, ⟨h2, h2'⟩, h3⟩ := h
    have hm := eyeBase_mono hP (Nat.le_add_right t g)
    have hnext := ih (t + g + 348 * P) (fun b _ => by omega) h3
    rw [eyeBase_next hP hs] at hnext
    show (∀ k, eyeBase P t ≤ k → k < eyeBase P t + (eyeBase P (t + g) - eyeBase P t) → L (k * P) = .mid) ∧
      (∃ δ ε, DelaysOk δ ε ∧ ∀ j, j < 348 → L ((eyeBase P t + (eyeBase P (t + g) - eyeBase P t) + j) * P) = _) ∧
      RawCarries (fun k => L (k * P)) (eyeBase P t + (eyeBase P (t + g) - eyeBase P t) + 348) (byteFrames (eyeCodes P (t + g + 348 * P) bs))
    rw [show eyeBase P t + (eyeBase P (t + g) - eyeBase P t) = eyeBase P (t + g) by omega]
    refine ⟨fun k hk1 hk2 => ?_, ?_, hnext⟩
    · refine h1 _ ((eyeBase_le hP).mp hk1) ?_
      have := mt (eyeBase_le hP (t := t + g) (k := k)).mpr (by omega)
      omega
    · have hex : ∀ i, ∃ d e, (e ≤ d ∧ d ≤ 2) ∧ (i < 10 → ∀ r, r < 32 →
          L ((eyeBase P (t + g) + (32 * i + r)) * P) = if d ≤ r ∧ r < 16 + e then symbolsOf p u i else .mid) := by
        intro i
        by_cases hi : i < 10
        · obtain ⟨d, e, k1, k2, k4⟩ := eye_symbol hP hs (h2 i hi)
          exact ⟨d, e, ⟨k1, k2⟩, fun _ => k4⟩
        · exact ⟨0, 0, by omega, fun h => absurd h hi⟩
      refine ⟨fun i => (hex i).choose, fun i => (hex i).choose_spec.choose, fun i => (hex i).choose_spec.choose_spec.1, fun j hj => ?_⟩
      have hsp := (hex (j / 32)).choose_spec.choose_spec.2
      by_cases hi : j / 32 < 10
      · have := hsp hi (j % 32) (Nat.mod_lt _ (by omega))
        rw [show 32 * (j / 32) + j % 32 = j by omega] at this
        exact this
      · have h10 : j / 32 = 10 := by omega
        have : symbolsOf p u (j / 32) = .mid := by rw [h10]; exact symbolsOf_stop p u
        rw [this, ite_self]
        obtain ⟨b1, b2⟩ := eyeBase_at hP hs
        have hj1 : 320 * P ≤ j * P := Nat.mul_le_mul_right P (by omega)
        have hj2 : j * P ≤ 347 * P := Nat.mul_le_mul_right P (by omega)
        refine h2' _ ?_ ?_ <;> rw [Nat.add_mul] <;> omega

theorem eye_rawEnd (hP : 0 < P) : ∀ (bs : List (Nat × Bool × UInt8)) (t : Nat), (∀ b ∈ bs.head?, 2 * P ≤ t + b.1) →
    rawEnd (eyeBase P t) (byteFrames (eyeCodes P t bs)) = eyeBase P (eyeEnd P t bs) := by
  intro bs
  induction bs with
  | nil => intro t _; rfl
  | cons a bs ih =>
    intro t hs
    obtain ⟨g, p, u⟩ := a
    have hs : 2 * P ≤ t + g := hs _ rfl
    have hm := eyeBase_mono hP (Nat.le_add_right t g)
    have := ih (t + g + 348 * P) (fun b _ => by omega)
    rw [eyeBase_next hP hs] at this
    show rawEnd (eyeBase P t + (eyeBase P (t + g) - eyeBase P t) + 348) _ = eyeBase P (eyeEnd P (t + g + 348 * P) bs)
    rw [show eyeBase P t + (eyeBase P (t + g) - eyeBase P t) = eyeBase P (t + g) by omega]
    exact this

theorem eyeBase_gap (hP : 0 < P) {t g M : Nat} (h : g ≤ M * P) : eyeBase P (t + g) - eyeBase P t ≤ M := by
  have h1 := ceilDiv_mono hP (show t + g ≤ t + M * P by omega)
  rw [ceilDiv_add hP] at h1
  unfold eyeBase
  omega

theorem eyeCodes_le (hP : 0 < P) {M : Nat} : ∀ (bs : List (Nat × Bool × UInt8)) (t : Nat), (∀ b ∈ bs, b.1 ≤ M * P) → ∀ b ∈ eyeCodes P t bs, b.1 ≤ M := by
  intro bs
  induction bs with
  | nil => intro t _ b hb; cases hb
  | cons a bs ih =>
    intro t h b hb
    obtain ⟨g, a⟩ := a
    rcases List.mem_cons.mp hb with rfl | hb
    · exact eyeBase_gap hP (h (g, a) (List.mem_cons_self ..))
    · exact ih _ (fun b hb => h b (List.mem_cons_of_mem _ hb)) b hb

theorem eyeCodes_bytes : ∀ (l : List (Nat × Bool × UInt8)) (t : Nat), (eyeCodes P t l).map Prod.snd = l.map Prod.snd := by
  intro l
  induction l with
  | nil => intro t; rfl
  | cons a l ih => intro t; obtain ⟨g, a⟩ := a; simp only [eyeCodes, List.map_cons, ih]

theorem eyeCodes_append : ∀ (l m : List (Nat × Bool × UInt8)) (t : Nat), eyeCodes P t (l ++ m) = eyeCodes P t l ++ eyeCodes P (eyeEnd P t l) m := by
  intro l
  induction l with
  | nil => intro m t; rfl
  | cons a l ih => intro m t; obtain ⟨g, a⟩ := a; simp only [List.cons_append, eyeCodes, eyeEnd, ih]

/-- The gaps within a packet add up. -/
theorem eyeCodes_sum (hP : 0 < P) : ∀ (l : List (Nat × Bool × UInt8)) (t : Nat), 2 * P ≤ t →
    ((eyeCodes P t l).map fun b => b.1).sum = eyeBase P (t + (l.map fun b => b.1).sum) - eyeBase P t ∧ (eyeCodes P t l).length = l.length := by
  intro l
  induction l with
  | nil => intro t _; simp [eyeCodes]
  | cons a l ih =>
    intro t ht
    obtain ⟨g, a⟩ := a
    obtain ⟨i1, i2⟩ := ih (t + g + 348 * P) (by omega)
    have hm := eyeBase_mono hP (Nat.le_add_right t g)
    have hm2 := eyeBase_mono hP (show t + g ≤ t + g + (l.map fun b => b.1).sum by omega)
    refine ⟨?_, by simp only [eyeCodes, List.length_cons, i2]⟩
    simp only [eyeCodes, List.map_cons, List.sum_cons, i1]
    rw [show t + g + 348 * P + (l.map fun b => b.1).sum = t + g + (l.map fun b => b.1).sum + 348 * P by omega, eyeBase_next hP (by omega), eyeBase_next hP (by omega),
      ← Nat.add_assoc t g]
    omega

/-- The packets in codes. -/
def eyePackets (P : Nat) : Nat → List BusPacket → List BusPacket
  | _, [] => []
  | t, p :: ps =>
    { gap := eyeBase P (t + p.gap) - eyeBase P t, pol := p.pol, first := p.first, rest := eyeCodes P (t + p.gap + 348 * P) p.rest } ::
      eyePackets P (eyeEnd P t p.frames) ps

theorem eyePackets_frames : ∀ (ps : List BusPacket) (t : Nat), (eyePackets P t ps).flatMap BusPacket.frames = eyeCodes P t (ps.flatMap BusPacket.frames) := by
  intro ps
  induction ps with
  | nil => intro t; rfl
  | cons p ps ih =>
    intro t
    rw [eyePackets, List.flatMap_cons, List.flatMap_cons, eyeCodes_append, ih]
    rfl

theorem eyePackets_bytes : ∀ (ps : List BusPacket) (t : Nat), (eyePackets P t ps).map BusPacket.bytes = ps.map BusPacket.bytes := by
  intro ps
  induction ps with
  | nil => intro t; rfl
  | cons p ps ih =>
    intro t
    rw [eyePackets, List.map_cons, List.map_cons, ih]
    congr 1
    have h := congrArg (List.map Prod.snd) (eyeCodes_bytes (P := P) p.rest (t + p.gap + 348 * P))
    simp only [List.map_map] at h
    exact congrArg (List.cons p.first) h

theorem eyePackets_ok (hP : 0 < P) : ∀ (ps : List BusPacket) (t : Nat), (t = 0 ∨ 2 * P ≤ t) → (∀ p ∈ ps, p.EyeOk P) → ∀ p ∈ eyePackets P t ps, p.RawOk := by
  intro ps
  induction ps with
  | nil => intro t _ _ p hp; cases hp
  | cons k ps ih =>
    intro t ht hok p hp
    obtain ⟨g1, g2, g3⟩ := hok k (List.mem_cons_self ..)
    rcases List.mem_cons.mp hp with rfl | hp
    · refine ⟨?_, ?_, ?_⟩
      · show 350 ≤ eyeBase P (t + k.gap) - eyeBase P t
        have := ceilDiv_mono hP (show t + 352 * P ≤ t + k.gap by omega)
        rw [ceilDiv_add hP] at this
        have h2 : t = 0 → ceilDiv t P ≤ 2 := by intro h; rw [h, ceilDiv_le hP]; omega
        unfold eyeBase
        rcases ht with ht | ht
        · have := h2 ht; omega
        · omega
      · show ((eyeCodes P (t + k.gap + 348 * P) k.rest).map fun b => b.1 + 10).sum ≤ 345
        obtain ⟨s1, s2⟩ := eyeCodes_sum hP k.rest (t + k.gap + 348 * P) (by omega)
        rw [sum_shift (fun b : Nat × Bool × UInt8 => b.1), s1, s2]
        rw [sum_shift (fun b : Nat × Bool × UInt8 => b.1), Nat.mul_right_comm] at g2
        generalize k.rest.length = n at *
        have hn : 10 * n ≤ 345 := Nat.le_of_mul_le_mul_right (c := P) (by omega) hP
        have := eyeBase_gap hP (t := t + k.gap + 348 * P) (g := (k.rest.map fun b => b.1).sum) (M := 345 - 10 * n) (by
          rw [Nat.sub_mul]; omega)
        omega
      · intro b hb
        have hmem : b.2 ∈ (eyeCodes P (t + k.gap + 348 * P) k.rest).map Prod.snd := List.mem_map.mpr ⟨b, hb, rfl⟩
        rw [eyeCodes_bytes, List.mem_map] at hmem
        obtain ⟨b', hb', e⟩ := hmem
        rw [← e]
        exact g3 b' hb'
    · have htl : ∀ (l : List (Nat × Bool × UInt8)) (t : Nat), t ≤ eyeEnd P t l := by
        intro l
        induction l with
        | nil => intro t; exact Nat.le_refl _
        | cons a l ih => intro t; obtain ⟨g, a⟩ := a; have := ih (t + g + 348 * P); show t ≤ eyeEnd P (t + g + 348 * P) l; omega
      refine ih _ (.inr ?_) (fun p hp => hok p (List.mem_cons_of_mem _ hp)) p hp
      have := htl k.rest (t + k.gap + 348 * P)
      show 2 * P ≤ eyeEnd P (t + k.gap + 348 * P) k.rest
      omega

end

/-- **C111.** Times are counted in any unit, the ADC takes a code every `P`.  If, from the start on, the bus carries the packets `ps` and nothing else, such that every pulse covers its window and has the
right width (`EyeFrame`: the edges may jitter, and the clock of the sender may differ), every code is that of the level at its time up to an error of one, with an amplitude between 49 and 88
codes, then, for every schedule of DMA transfers and iterations of the loop that keeps up, some 378 codes after the last packet the words for the other core are those of
the packets, in order and without anything else. -/
theorem C111_words {S : Nat} (hS : 8 ≤ S) (rxErr : Bool) {a c : Int} (h1 : 49 ≤ a) (h2 : a ≤ 88) {P : Nat} (hP : 0 < P) {M : Nat}
    (hM : M + 70 ≤ 2 * 2 ^ S) (ps : List BusPacket) (hp : ∀ p ∈ ps, p.EyeOk P) (hg : ∀ b ∈ ps.flatMap BusPacket.frames, b.1 ≤ M * P)
    {L : Nat → Level} (hL : EyeCarries P L 0 (byteFrames (ps.flatMap BusPacket.frames))) {q : Nat → UInt8} (hq : Codes a c (fun k => L (k * P)) q)
    (es : List (AdcEv × Bool)) (hk : keepsUp 254 0 0 (es.map Prod.fst))
    (hN : eyeEnd P 0 (ps.flatMap BusPacket.frames) + 378 * P ≤ deliveries 0 0 (es.map Prod.fst) * P)
    (hN' : deliveries 0 0 (es.map Prod.fst) * P + 2 * P ≤ eyeEnd P 0 (ps.flatMap BusPacket.frames) + M * P) :
    ∃ s outs, RxSystem.run S (RxSystem.init (fun _ => 0) rxErr) (scheduleEvents (fun k => Pio.sampleValue k (q k)) 0 0 es) = .ok (s, outs) ∧
      sent outs ++ (if s.core.word = .zero then [] else [s.core.word]) =
        (ps.flatMap fun p => wFree :: wBusy :: p.bytes.map wByte) ++ [wFree] := by
  have hhead : ∀ b ∈ (ps.flatMap BusPacket.frames).head?, 2 * P ≤ 0 + b.1 := by
    intro b hb
    cases ps with
    | nil => cases hb
    | cons p ps =>
      have := (hp p (List.mem_cons_self ..)).gap
      have hb : (p.gap, p.pol, p.first) = b := Option.some.inj hb
      rw [← hb]
      dsimp only
      omega
  have h0 : eyeBase P 0 = 0 := by
    have : ceilDiv 0 P ≤ 0 := (ceilDiv_le hP 0).mpr (by omega)
    unfold eyeBase; omega
  have hc := eye_carries hP _ 0 hhead hL
  have he := eye_rawEnd hP _ 0 hhead
  rw [h0, ← eyePackets_frames] at hc
  rw [h0, ← eyePackets_frames] at he
  generalize eyeEnd P 0 (ps.flatMap BusPacket.frames) = T at *
  obtain ⟨s, outs, r1, r2⟩ := C103_words hS rxErr h1 h2 hq hM (eyePackets P 0 ps) (eyePackets_ok hP ps 0 (.inl rfl) hp)
    (by rw [eyePackets_frames]; exact eyeCodes_le hP _ 0 hg) hc es hk
    (by
      rw [he]
      have : eyeBase P T ≤ deliveries 0 0 (es.map Prod.fst) - 378 := by
        rw [eyeBase_le hP, Nat.sub_mul]; omega
      have : 378 ≤ deliveries 0 0 (es.map Prod.fst) := Nat.le_of_mul_le_mul_right (c := P) (by omega) hP
      omega)
    (by
      rw [he]
      have := ceilDiv_mul (x := T) hP
      refine Nat.le_of_mul_le_mul_right (c := P) ?_ hP
      unfold eyeBase
      rw [Nat.add_mul, Nat.sub_mul]
      omega)
  refine ⟨s, outs, r1, r2.trans ?_⟩
  have e : ∀ l : List BusPacket, l.flatMap (fun p => wFree :: wBusy :: p.bytes.map wByte) =
      (l.map BusPacket.bytes).flatMap fun b => wFree :: wBusy :: b.map wByte := by
    intro l; rw [List.flatMap_map]
  rw [e, e, eyePackets_bytes]

/-- **C111, lines.** With packets of at most 31 bytes and the two cores interleaved in any way such that no word is dropped, all are taken, and the watchdog does not
report, the host is given exactly one line for each packet, in order, with status 0 and the bytes of the packet. -/
theorem C111_lines {S : Nat} (hS : 8 ≤ S) (rxErr : Bool) {a c : Int} (h1 : 49 ≤ a) (h2 : a ≤ 88) {P : Nat} (hP : 0 < P) {M : Nat}
    (hM : M + 70 ≤ 2 * 2 ^ S) (ps : List BusPacket) (hp : ∀ p ∈ ps, p.EyeOk P ∧ p.bytes.length ≤ 31) (hg : ∀ b ∈ ps.flatMap BusPacket.frames, b.1 ≤ M * P)
    {L : Nat → Level} (hL : EyeCarries P L 0 (byteFrames (ps.flatMap BusPacket.frames))) {q : Nat → UInt8} (hq : Codes a c (fun k => L (k * P)) q)
    (es : List (AdcEv × Bool)) (hk : keepsUp 254 0 0 (es.map Prod.fst))
    (hN : eyeEnd P 0 (ps.flatMap BusPacket.frames) + 378 * P ≤ deliveries 0 0 (es.map Prod.fst) * P)
    (hN' : deliveries 0 0 (es.map Prod.fst) * P + 2 * P ≤ eyeEnd P 0 (ps.flatMap BusPacket.frames) + M * P)
    (s : RxSystem) (outs : List C1Out)
    (hr : RxSystem.run S (RxSystem.init (fun _ => 0) rxErr) (scheduleEvents (fun k => Pio.sampleValue k (q k)) 0 0 es) = .ok (s, outs))
    (hs : s.core.word = .zero)
    (pf : Platform) (g : Nat → UInt8) (w0 : Word) (t0 t1 : Nat) (t : TwoCores) (xs : List TwoStep) (os : List TwoOut)
    (hx : pushes xs = sent outs) (h : (TwoCores.init g w0 t0 t1 false).run pf g xs = .ok (some (t, os))) (hd : drops os = 0) (ht : t.pc = .top)
    (hf : t.fifo = []) (h4 : ∀ m ∈ rxMsgs (reportsOf os), m.status ≠ 4) :
    (rxMsgs (reportsOf os)).map lineShown = ps.map fun p => (0, p.bytes) := by
  obtain ⟨s', outs', e1, e2⟩ := C111_words hS rxErr h1 h2 hP hM ps (fun p hp' => (hp p hp').1) hg hL hq es hk hN hN'
  rw [hr] at e1
  simp only [Res.ok.injEq, Prod.mk.injEq] at e1
  obtain ⟨rfl, rfl⟩ := e1
  rw [if_pos hs, List.append_nil] at e2
  have e3 : pushes xs = packetWords (ps.map BusPacket.bytes) := by
    rw [hx, e2]
    unfold packetWords
    rw [List.flatMap_map]
  have := C104_interleaved pf g w0 t0 t1 t xs os h hd ht hf _ e3 ?_ h4
  · rw [this, List.map_map]; rfl
  · intro p hp'
    obtain ⟨b, hb, rfl⟩ := List.mem_map.mp hp'
    refine ⟨?_, (hp b hb).2⟩
    simp [BusPacket.bytes]

end P1P2
