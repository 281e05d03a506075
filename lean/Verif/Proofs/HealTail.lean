import Verif.Proofs.HealUart
/-!
# Core 1 behind the DC blocker, after any history
-/
namespace P1P2

theorem segment_split (x : Nat → Int) (r n m : Nat) : segment x r (n + m) = segment x r n ++ segment x (r + n) m :=
  (segment_append x rfl rfl).symm

/-- Silence: the UART waits for a start and the line is free. -/
theorem heal_quiet {S : Nat} (hS : 8 ≤ S) {z : Nat → Int} (hx : ∀ k, -80000000 ≤ z k ∧ z k ≤ 80000000) {s : Shape} (d : s.Det) {m1 τ age : Nat}
    {t : C1Tail} (hb : BackInv z m1 t.back) (hok : t.back.uart.Ok S .even) (ha : Aged S age t.back.uart) (hi : 0 ≤ t.idle ∧ t.idle ≤ 176)
    (h1 : m1 ≤ τ) (hq : ∀ k, τ ≤ k → k < τ + 364 → s.Quiet (levelOut z k)) (hn : age + (τ + 364 - m1) < 2 ^ S) :
    ∃ t' tr, t.run S (segment z m1 (τ + 364 - m1)) = .ok (t', tr) ∧ BackInv z (τ + 364) t'.back ∧ t'.back.uart.Ok S .even ∧
      t'.back.uart.state = .waitStart ∧ Ready S (age + (τ + 364 - m1)) t'.back.uart ∧ t'.busy = false := by
  have hz : ∀ k, τ + 14 ≤ k → k < τ + 364 → toI16 (detStream (past (levelOut z)) k) = 0 := by
    intro k k1 k2
    have : detStream (past (levelOut z)) k = 0 := by
      refine quiet7_zero d fun j j1 j2 => ?_
      unfold past
      rw [if_neg (by omega)]
      exact hq _ (by omega) (by omega)
    rw [this]; rfl
  -- the first samples are arbitrary
  obtain ⟨u1, l1, f1, o1, -⟩ := hok.feed hS false (fun i => detStream (past (levelOut z)) (m1 + i)) (τ + 14 - m1)
  obtain ⟨a1, -⟩ := ha.feed hS hok _ _ (by omega) f1
  obtain ⟨t1, tr1, r1, e1, b1, -, -, -, -⟩ := tail_of_uart hS hx hb hok false _ f1
  rw [show m1 + (τ + 14 - m1) = τ + 14 by omega] at b1
  subst e1
  -- then the UART comes to rest
  obtain ⟨u2, l2, f2, o2, -⟩ := o1.feed hS false (fun i => detStream (past (levelOut z)) (τ + 14 + i)) 170
  obtain ⟨w2, y2⟩ := a1.rests hS o1 (by omega) f2 (Nat.le_refl _) (fun i hi => hz _ (by omega) (by omega))
  obtain ⟨t2, tr2, r2, e2, b2, -, -, -, -⟩ := tail_of_uart hS hx b1 o1 false _ f2
  subst e2
  -- then the line becomes free
  have hz3 : ∀ i, i < 180 → toI16 ((fun i => detStream (past (levelOut z)) (τ + 184 + i)) i) = 0 := fun i hi => hz _ (by omega) (by omega)
  obtain ⟨u3, f3, y3, w3⟩ := y2.run (err := false) (fun i => detStream (past (levelOut z)) (τ + 184 + i)) 180 hz3 (by omega)
  obtain ⟨t3, tr3, r3, e3, b3, o3, q3, -, -⟩ := tail_of_uart hS hx b2 o2 false _ f3
  subst e3
  have hi2 := idle_run _ r2 (idle_run _ r1 hi)
  have hfree : t3.busy = false := by
    refine busy_done _ r3 hi2.1 ?_ ?_
    · intro f hf
      rw [q3, List.mem_map] at hf
      obtain ⟨i, hi, rfl⟩ := hf
      have hi := List.mem_range.mp hi
      unfold uFlag
      obtain ⟨u4, f4, -, w4⟩ := y2.run (err := false) (fun i => detStream (past (levelOut z)) (τ + 184 + i)) i (fun i' hi' => hz3 i' (by omega)) (by omega)
      rw [f4]
      show decide (u4.state ≠ .waitStart) = false
      by_cases h0 : 0 < i
      · rw [w4 h0]; rfl
      · have : i = 0 := by omega
        subst this
        simp only [feed, Res.ok.injEq, Prod.mk.injEq] at f4
        rw [← f4.1, w2]; rfl
    · intro _
      rw [segment, List.length_map, List.length_range]
      omega
  refine ⟨t3, tr1 ++ (tr2 ++ tr3), ?_, b3, o3, w3 (by decide), ?_, hfree⟩
  · rw [show τ + 364 - m1 = (τ + 14 - m1) + (170 + 180) by omega, segment_split, segment_split, show m1 + (τ + 14 - m1) = τ + 14 by omega]
    exact tail_run_append _ _ r1 (tail_run_append _ _ r2 r3)
  · rw [show age + (τ + 364 - m1) = age + (τ + 14 - m1) + 170 + 180 by omega]
    exact y3

/-! ## Words -/

/-- The words of a packet, with the line-free behind it. -/
def BusPacket.outWords (p : BusPacket) : List Word := wBusy :: (p.bytes.map wByte ++ [wFree])

theorem outWords_shift : ∀ ps : List BusPacket, ps.flatMap BusPacket.words ++ [wFree] = wFree :: ps.flatMap BusPacket.outWords := by
  intro ps
  induction ps with
  | nil => rfl
  | cons p ps ih =>
    rw [List.flatMap_cons, List.flatMap_cons, List.append_assoc, ih, BusPacket.words, BusPacket.outWords]
    simp only [List.cons_append, List.append_assoc, List.nil_append]

theorem words_first (w : Nat) (i : Int) (r : UInt8 × Bool) (l : List (Bool × Option (UInt8 × Bool))) :
    nonzero (busyWords false i ((List.replicate (w + 1) (false, none) ++ (List.replicate 167 (true, none) ++ [(true, some r)])) ++ l)) =
      wBusy :: wResult r :: nonzero (busyWords true ((176 : Nat) : Int) l) := by
  have hlast : ∀ (i : Int), nonzero (busyWords true i ([(true, some r)] ++ l)) = wResult r :: nonzero (busyWords true i l) := by
    intro i
    show nonzero (wResult r :: _) = _
    unfold nonzero
    rw [List.filter_cons_of_pos (by simpa using wResult_ne r)]
    rfl
  rw [List.append_assoc, words_free, List.append_assoc, List.replicate_succ, List.cons_append]
  have h1 : ∀ m, nonzero (busyWords false i ((true, none) :: m)) = wBusy :: nonzero (busyWords true 176 m) := fun m => rfl
  rw [h1, words_busy, hlast]
  rfl

theorem zip_first (w : Nat) (r : UInt8 × Bool) :
    List.zip (false :: List.replicate w false ++ List.replicate 168 true)
      (List.replicate w none ++ (List.replicate 168 none ++ [some r])) =
      List.replicate (w + 1) (false, none) ++ (List.replicate 167 (true, none) ++ [(true, some r)]) := by
  have e1 : List.replicate w (none : Option (UInt8 × Bool)) ++ (List.replicate 168 none ++ [some r]) =
      none :: (List.replicate w none ++ (List.replicate 167 none ++ [some r])) := by
    have : List.replicate 168 (none : Option (UInt8 × Bool)) = none :: List.replicate 167 none := rfl
    rw [this, List.cons_append, rep_cons]
  have e2 : List.replicate 168 true = List.replicate 167 true ++ [true] := List.replicate_succ'
  rw [e1, e2, List.cons_append, List.zip_cons_cons, List.zip_append (by simp), zip_rep, List.zip_append (by rw [List.length_replicate, List.length_replicate]), zip_rep,
    List.replicate_succ]
  rfl

/-- The line after the silence. -/
def resumed (τ : Nat) (y : Nat → Int) (k : Nat) : Int := if k < τ then 0 else y k

theorem resumed_det {τ : Nat} {y : Nat → Int} {k : Nat} (hk : τ + 15 ≤ k) : detStream (past (resumed τ y)) k = detStream (past y) k := by
  unfold detStream
  have hp : ∀ j : Int, (k : Int) - 15 ≤ j → past (resumed τ y) j = past y j := by
    intro j hj
    unfold past resumed
    rw [if_neg (by omega), if_neg (by omega), if_neg (by omega)]
  have e1 : pulseSum (past (resumed τ y)) k = pulseSum (past y) k := by
    unfold pulseSum
    rw [hp _ (by omega), hp _ (by omega), hp _ (by omega), hp _ (by omega), hp _ (by omega), hp _ (by omega), hp _ (by omega)]
  have e2 : outsideSum (past (resumed τ y)) k = outsideSum (past y) k := by
    unfold outsideSum
    rw [hp _ (by omega), hp _ (by omega), hp _ (by omega), hp _ (by omega), hp _ (by omega), hp _ (by omega), hp _ (by omega)]
  unfold pulseRef
  rw [e1, e2]

/-- The packets after the silence. -/
theorem heal_packets {S : Nat} (hS : 8 ≤ S) {z : Nat → Int} (hx : ∀ k, -80000000 ≤ z k ∧ z k ≤ 80000000) {s : Shape} (ht : s.Tol) {τ r n c G : Nat}
    {t : C1Tail} (hb : BackInv z r t.back) (hok : t.back.uart.Ok S .even) (hw : t.back.uart.state = .waitStart) (hy : Ready S c t.back.uart)
    (hfree : t.busy = false) (hr : r = τ + 364) (hG : G + 32 ≤ 2 ^ S) {ps : List BusPacket} (hp : ∀ p ∈ ps, p.Ok)
    (hg : ∀ b ∈ ps.flatMap BusPacket.frames, b.1 ≤ G) (hgap : GapFrom 380 (ps.flatMap BusPacket.frames))
    (hc : s.out.Carries (levelOut z) τ (byteFrames (ps.flatMap BusPacket.frames))) (hc' : c + G < 2 ^ S)
    (hn : ps = [] ∨ lineEnd τ (byteFrames (ps.flatMap BusPacket.frames)) + 187 ≤ r + n)
    (hn' : r + n ≤ lineEnd τ (byteFrames (ps.flatMap BusPacket.frames)) + 9 + G) :
    ∃ t' tr, t.run S (segment z r n) = .ok (t', tr) ∧ nonzero (tr.map AcOut.word) = ps.flatMap BusPacket.outWords := by
  have d := ht.det
  have hst := stopOk_bytes hg
  have h1 := ht.quiet; have h2 := ht.edge; have h3 := ht.min; have h4 := ht.le; have h5 := ht.max; have h6 := ht.quiet0
  have hcr : s.out.Carries (resumed τ (levelOut z)) τ (byteFrames (ps.flatMap BusPacket.frames)) :=
    Carries_congr _ (fun k hk => by unfold resumed; rw [if_neg (by omega)]) hc
  have hbd : ∀ j, -s.hi ≤ past (resumed τ (levelOut z)) j ∧ past (resumed τ (levelOut z)) j ≤ s.hi := by
    intro j
    unfold past
    split
    · omega
    · by_cases hj : j.toNat < τ
      · unfold resumed; rw [if_pos hj]; omega
      · exact hcr.bound (s := s.out) (by have := d.quiet; show s.out.quiet ≤ s.hi; omega) h2 (by show 0 ≤ s.lo; omega) h4 j.toNat (by omega)
  have hI : ∀ k : Nat, toI16 (detStream (past (resumed τ (levelOut z))) k) = detStream (past (resumed τ (levelOut z))) k := by
    intro k
    have := pulseRef_bound (y := past (resumed τ (levelOut z))) (B := s.hi) hbd k
    apply toI16_of_range
    · show -32768 ≤ pulseRef _ _; omega
    · show pulseRef _ _ ≤ 32767; omega
  have hstream : ∀ i, detStream (past (levelOut z)) (r + i) = detStream (past (resumed τ (levelOut z))) (r + i) := fun i => (resumed_det (by omega)).symm
  have hfun : (fun i => detStream (past (levelOut z)) (r + i)) = fun i => detStream (past (resumed τ (levelOut z))) (r + i) := funext hstream
  have hq0 : ∀ j : Int, (r : Int) - 14 ≤ j → j < ((τ + 380 : Nat) : Int) → s.out.Quiet (past (resumed τ (levelOut z)) j) := by
    intro j j1 j2
    have := hcr.quiet hgap.frames (k := j.toNat) (by omega) (by omega)
    unfold past
    rw [if_neg (by omega)]
    exact this
  have hflag0 : t.back.uart.receiving = false := by
    show decide (t.back.uart.state ≠ .waitStart) = false
    rw [hw]; rfl
  -- what the words are, once the UART is known
  suffices hmain : ∃ u l fl, feed (Uart.step S false) t.back.uart (fun i => detStream (past (resumed τ (levelOut z))) (r + i)) n = .ok (u, l) ∧
      flagsOf S t.back.uart (fun i => detStream (past (resumed τ (levelOut z))) (r + i)) n = fl ∧
      nonzero (busyWords false t.idle (fl.zip l)) = ps.flatMap BusPacket.outWords by
    obtain ⟨u, l, fl, m1, m2, m3⟩ := hmain
    obtain ⟨t', tr, k1, -, -, -, k5, -, k7⟩ := tail_of_uart hS hx hb hok false n (by rw [hfun]; exact m1)
    refine ⟨t', tr, k1, ?_⟩
    have hz : (tr.map fun o => (o.receiving, o.word.result.head?)) =
        (tr.map AcOut.receiving).zip (tr.map fun o => o.word.result.head?) := by
      rw [List.zip_map', ]
    have hfl : tr.map AcOut.receiving = fl := by
      rw [k5, hfun, ← m2]; rfl
    rw [tail_words _ k1, hz, k7, hfl, hfree]
    exact m3
  cases ps with
  | nil =>
    have hz : ∀ i, i < n → toI16 ((fun i => detStream (past (resumed τ (levelOut z))) (r + i)) i) = 0 := by
      intro i _
      have : detStream (past (resumed τ (levelOut z))) (r + i) = 0 := by
        refine quiet7_zero d fun j j1 j2 => ?_
        have := hcr j.toNat (by omega)
        unfold past
        rw [if_neg (by omega)]
        exact this
      show toI16 (detStream _ _) = 0
      rw [this]; rfl
    have hn2 : r + n ≤ τ + 9 + G := hn'
    obtain ⟨u', f1, -, -⟩ := hy.run (err := false) _ n hz (by omega)
    refine ⟨u', _, List.replicate n false, f1, ?_, ?_⟩
    · unfold flagsOf
      refine List.eq_replicate_iff.mpr ⟨by simp, ?_⟩
      intro b hb
      rw [List.mem_map] at hb
      obtain ⟨i, hi, rfl⟩ := hb
      have hi := List.mem_range.mp hi
      obtain ⟨u4, f4, -, w4⟩ := hy.run (err := false) _ i (fun i' hi' => hz i' (by omega)) (by omega)
      rw [f4]
      show decide (u4.state ≠ .waitStart) = false
      by_cases h0 : 0 < i
      · rw [w4 h0]; rfl
      · have : i = 0 := by omega
        subst this
        simp only [feed, Res.ok.injEq, Prod.mk.injEq] at f4
        rw [← f4.1, hw]; rfl
    · rw [zip_rep]
      have := words_free t.idle n []
      rw [List.append_nil] at this
      rw [this]; rfl
  | cons p ps =>
    have hp0 := hp p (List.mem_cons_self ..)
    have hrest := hp0.rest
    have hframes : byteFrames ((p :: ps).flatMap BusPacket.frames) = (p.gap, symbolsOf p.pol p.first) :: byteFrames (p.rest ++ ps.flatMap BusPacket.frames) := raw_frames p ps
    have hgp : 380 ≤ p.gap := hgap (p.gap, p.pol, p.first) (by rw [List.flatMap_cons]; rfl)
    rw [hframes] at hcr hst hn' hn
    have hn : lineEnd (τ + p.gap + 174) (byteFrames (p.rest ++ ps.flatMap BusPacket.frames)) + 187 ≤ r + n := by
      rcases hn with h | h
      · cases h
      · exact h
    have hn' : r + n ≤ lineEnd (τ + p.gap + 174) (byteFrames (p.rest ++ ps.flatMap BusPacket.frames)) + 9 + G := hn'
    obtain ⟨c1, ⟨o, o', ho, c2⟩, c3⟩ := hcr
    obtain ⟨hg1, s0, s10⟩ := hst (p.gap, symbolsOf p.pol p.first) (List.mem_cons_self ..)
    dsimp only at hg1 s0 s10
    have hqq : ∀ j : Int, (r : Int) - 14 ≤ j → j < ((τ + p.gap : Nat) : Int) → s.out.Quiet (past (resumed τ (levelOut z)) j) := by
      intro j j1 j2
      have := c1 j.toNat (by omega) (by omega)
      unfold past
      rw [if_neg (by omega)]
      exact this
    have hF : ShapeFrame s.out (past (resumed τ (levelOut z))) ((τ + p.gap : Nat) : Int) (symbolsOf p.pol p.first) o o' :=
      shapeFrame_of ho c2 (fun j j1 j2 => hqq j (by omega) j2) s0 s10
    obtain ⟨u1, w, w1, w2, e1, i1, f1⟩ := frame_ready hS d hF hI hy (by omega) hqq (by omega)
    rw [decode_symbolsOf, hflag0] at *
    have hend : ∀ j : Int, ((τ + p.gap + w + 169 : Nat) : Int) - 14 ≤ j → j < ((τ + p.gap + 174 : Nat) : Int) → s.out.Quiet (past (resumed τ (levelOut z)) j) := by
      intro j j1 j2
      have := c2 (j.toNat - (τ + p.gap)) (by omega)
      rw [show (j.toNat - (τ + p.gap)) / 16 = 10 by omega, s10, show τ + p.gap + (j.toNat - (τ + p.gap)) = j.toNat by omega] at this
      unfold past
      rw [if_neg (by omega)]
      exact this
    obtain ⟨u2, ws, k1, k2, k3, k4, k5, k6, k7⟩ := frames_exact hS d hI hG _ (τ + p.gap + 174) (τ + p.gap + w + 169) u1 c3
      (fun f hf => hst f (List.mem_cons_of_mem _ hf)) i1 (by omega) (by omega) hend
    obtain ⟨k, hk⟩ : ∃ k, n = (τ + p.gap + w - r + 169) + (frameSpan ws + k) := ⟨r + n - (τ + p.gap + w + 169 + frameSpan ws), by omega⟩
    have hspan : ∀ (fs : List (Nat × (Nat → Level))) (t r : Nat) (ws : List Nat), Waits t r fs ws → t ≤ r → lineEnd t fs ≤ r + frameSpan ws := by
      intro fs
      induction fs with
      | nil => intro t r ws h hr; rw [show ws = [] from h]; exact hr
      | cons f fs ih =>
        obtain ⟨g, σ⟩ := f
        intro t r ws h hr
        obtain ⟨w, ws', rfl, h2, h3, h4⟩ := h
        have := ih _ _ _ h4 (by omega)
        show lineEnd (t + g + 174) fs ≤ r + (w + 169 + frameSpan ws')
        omega
    have hs := hspan _ _ _ _ k1 (by omega)
    obtain ⟨u3, q1, q2⟩ := quiet_run (S := S) (s := s.out) d (z := resumed τ (levelOut z)) (r := τ + p.gap + w + 169 + frameSpan ws) (k := k) k3 (fun j h => by
      by_cases hj : j < lineEnd (τ + p.gap + 174) (byteFrames (p.rest ++ ps.flatMap BusPacket.frames))
      · exact k7 j (by omega) hj
      · have := k6 j.toNat (by omega)
        unfold past
        rw [if_neg (by omega)]
        exact this) (by omega)
    have hx1 : (fun i => (fun i => detStream (past (resumed τ (levelOut z))) (r + i)) (τ + p.gap + w - r + 169 + i)) =
        fun i => detStream (past (resumed τ (levelOut z))) (τ + p.gap + w + 169 + i) := by
      funext i
      exact detStream_congr (by omega)
    have hx2 : (fun i => (fun i => detStream (past (resumed τ (levelOut z))) (τ + p.gap + w + 169 + i)) (frameSpan ws + i)) =
        fun i => detStream (past (resumed τ (levelOut z))) (τ + p.gap + w + 169 + frameSpan ws + i) := by
      funext i
      exact detStream_congr (by omega)
    have e2 := feed_add k2 (by rw [hx2]; exact q1)
    have e3 := feed_add e1 (by rw [hx1]; exact e2)
    have fl2 := flagsOf_add k2 k (fun i hi => by rw [hx2]; exact feed_prefix q1 i (by omega))
    rw [hx2, k4, q2] at fl2
    have fl3 := flagsOf_add e1 (frameSpan ws + k) (fun i hi => by rw [hx1]; exact feed_prefix e2 i (by omega))
    rw [hx1, fl2, f1] at fl3
    rw [hk]
    refine ⟨_, _, _, e3, fl3, ?_⟩
    rw [List.zip_append (by simp only [List.length_append, List.length_cons, List.length_replicate, List.length_nil]), zip_first, words_first,
      words_frames _ _ _ k1, decode_frames]
    obtain ⟨ws2, i2, t2, r2, a1, a2, a3, a4, a5⟩ := rest_words (ps.flatMap BusPacket.frames) k p.rest (i := 176) k1 (by omega) (by omega)
      (by omega) (by omega)
    have := packet_words k (by omega) ps (fun p hp' => hp p (List.mem_cons_of_mem _ hp')) a1 (by omega) a3 a4
    rw [a5, this, outWords_shift, List.flatMap_cons, BusPacket.outWords, BusPacket.bytes, List.map_cons, List.map_map]
    simp only [List.cons_append, List.append_assoc, List.nil_append]
    rfl

/-- Any history, silence, packets. -/
theorem heal_tail {S : Nat} (hS : 8 ≤ S) {z : Nat → Int} (hx : ∀ k, -80000000 ≤ z k ∧ z k ≤ 80000000) {s : Shape} (ht : s.Tol) {m1 τ age n G : Nat}
    {t : C1Tail} (hb : BackInv z m1 t.back) (hok : t.back.uart.Ok S .even) (ha : Aged S age t.back.uart) (hi : 0 ≤ t.idle ∧ t.idle ≤ 176)
    (h1 : m1 ≤ τ) (hG : 380 ≤ G) (hage : age + (τ + 364 - m1) + G + 32 ≤ 2 ^ S) {ps : List BusPacket} (hp : ∀ p ∈ ps, p.Ok)
    (hg : ∀ b ∈ ps.flatMap BusPacket.frames, b.1 ≤ G) (hgap : GapFrom 380 (ps.flatMap BusPacket.frames))
    (hc : s.out.Carries (levelOut z) τ (byteFrames (ps.flatMap BusPacket.frames)))
    (hn0 : τ + 364 ≤ m1 + n) (hn : ps = [] ∨ lineEnd τ (byteFrames (ps.flatMap BusPacket.frames)) + 187 ≤ m1 + n)
    (hn' : m1 + n ≤ lineEnd τ (byteFrames (ps.flatMap BusPacket.frames)) + 9 + G) :
    ∃ t' tr Y, t.run S (segment z m1 n) = .ok (t', tr) ∧ nonzero (tr.map AcOut.word) = Y ++ ps.flatMap BusPacket.outWords ∧
      ((Y = [] ∧ t.busy = false) ∨ ∃ Y', Y = Y' ++ [wFree]) := by
  obtain ⟨t1, tr1, e1, b1, o1, w1, y1, f1⟩ := heal_quiet hS hx ht.det hb hok ha hi h1
    (fun k k1 k2 => hc.quiet (hgap.frames.le (m := 364) (by decide)) k1 k2) (by omega)
  obtain ⟨t2, tr2, e2, n2⟩ := heal_packets hS hx ht (τ := τ) (n := m1 + n - (τ + 364)) (G := G) b1 o1 w1 y1 f1 rfl (by omega) hp hg hgap hc (by omega)
    (by rcases hn with h | h
        · exact Or.inl h
        · exact Or.inr (by omega)) (by omega)
  refine ⟨t2, tr1 ++ tr2, nonzero (tr1.map AcOut.word), ?_, ?_, ?_⟩
  · rw [show n = (τ + 364 - m1) + (m1 + n - (τ + 364)) by omega, segment_split, show m1 + (τ + 364 - m1) = τ + 364 by omega]
    exact tail_run_append _ _ e1 e2
  · rw [List.map_append, nonzero_append, n2]
  · rcases free_last _ e1 f1 with ⟨k1, k2⟩ | k
    · exact Or.inl ⟨k1, k2⟩
    · exact Or.inr k

end P1P2
