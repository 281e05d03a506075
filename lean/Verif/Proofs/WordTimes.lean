import Verif.Proofs.RawWords
/-!
# The positions of the words in the output of core 1
-/
namespace P1P2

/-- Words that are sent, with their positions. -/
def stamped : Nat → List Word → List (Nat × Word)
  | _, [] => []
  | p, w :: ws => if w = .zero then stamped (p + 1) ws else (p, w) :: stamped (p + 1) ws

theorem stamped_words : ∀ (ws : List Word) (p : Nat), (stamped p ws).map Prod.snd = nonzero ws := by
  intro ws
  induction ws with
  | nil => intro p; rfl
  | cons w ws ih =>
    intro p
    unfold nonzero
    by_cases h : w = .zero
    · rw [stamped, if_pos h, List.filter_cons_of_neg (by simpa using h), ih]; rfl
    · rw [stamped, if_neg h, List.filter_cons_of_pos (by simpa using h), List.map_cons, ih]; rfl

theorem stamped_ge : ∀ (ws : List Word) (p : Nat), ∀ x ∈ stamped p ws, p ≤ x.1 := by
  intro ws
  induction ws with
  | nil => intro p x hx; cases hx
  | cons w ws ih =>
    intro p x hx
    rw [stamped] at hx
    split at hx
    · have := ih _ x hx; omega
    · rcases List.mem_cons.mp hx with rfl | hx
      · exact Nat.le_refl _
      · have := ih _ x hx; omega

theorem stamped_take : ∀ (ws : List Word) (p n : Nat), (stamped p ws).filter (fun x => decide (x.1 < p + n)) = stamped p (ws.take n) := by
  intro ws
  induction ws with
  | nil => intro p n; cases n <;> rfl
  | cons w ws ih =>
    intro p n
    cases n with
    | zero =>
      rw [List.take_zero, List.filter_eq_nil_iff.mpr]
      · rfl
      · intro x hx
        have := stamped_ge _ _ x hx
        simp; omega
    | succ n =>
      have := ih (p + 1) n
      rw [show p + 1 + n = p + (n + 1) by omega] at this
      rw [List.take_succ_cons, stamped, stamped]
      by_cases h : w = .zero
      · rw [if_pos h, if_pos h, this]
      · rw [if_neg h, if_neg h, List.filter_cons_of_pos (by simp), this]

theorem stamped_sorted : ∀ (ws : List Word) (p : Nat), (stamped p ws).Pairwise fun a b => a.1 < b.1 := by
  intro ws
  induction ws with
  | nil => intro p; exact List.Pairwise.nil
  | cons w ws ih =>
    intro p
    rw [stamped]
    split
    · exact ih _
    · exact List.Pairwise.cons (fun x hx => stamped_ge _ _ x hx) (ih _)

theorem stamped_busy (i : Int) : ∀ (n p : Nat) (l : List (Bool × Option (UInt8 × Bool))),
    stamped p (busyWords true i (List.replicate n (true, none) ++ l)) = stamped (p + n) (busyWords true i l) := by
  intro n
  induction n with
  | zero => intro p l; rfl
  | succ n ih =>
    intro p l
    rw [List.replicate_succ, List.cons_append]
    show stamped (p + 1) _ = _
    rw [ih, show p + 1 + n = p + (n + 1) by omega]

theorem stamped_free (i : Int) : ∀ (n p : Nat) (l : List (Bool × Option (UInt8 × Bool))),
    stamped p (busyWords false i (List.replicate n (false, none) ++ l)) = stamped (p + n) (busyWords false i l) := by
  intro n
  induction n with
  | zero => intro p l; rfl
  | succ n ih =>
    intro p l
    rw [List.replicate_succ, List.cons_append]
    show stamped (p + 1) _ = _
    rw [ih, show p + 1 + n = p + (n + 1) by omega]

theorem stamped_wait : ∀ (n i p : Nat) (l : List (Bool × Option (UInt8 × Bool))),
    stamped p (busyWords true i (List.replicate n (false, none) ++ l)) =
      if n ≤ i then stamped (p + n) (busyWords true ((i - n : Nat) : Int) l) else (p + i, wFree) :: stamped (p + n) (busyWords false 0 l) := by
  intro n
  induction n with
  | zero => intro i p l; rw [if_pos (Nat.zero_le _)]; rfl
  | succ n ih =>
    intro i p l
    rw [List.replicate_succ, List.cons_append]
    simp only [busyWords]
    cases i with
    | zero =>
      rw [if_neg (by omega), if_neg (by omega)]
      show (p, wFree) :: stamped (p + 1) _ = _
      rw [show ((0 : Nat) : Int) = 0 from rfl, stamped_free, show p + 1 + n = p + (n + 1) by omega]; rfl
    | succ i =>
      rw [if_pos (by omega), show ((i + 1 : Nat) : Int) - 1 = (i : Nat) by omega]
      have : stamped p (Word.addResult .zero none :: busyWords true (i : Nat) (List.replicate n (false, none) ++ l)) =
          stamped (p + 1) (busyWords true (i : Nat) (List.replicate n (false, none) ++ l)) := rfl
      rw [this, ih i (p + 1) l]
      by_cases h : n ≤ i
      · rw [if_pos h, if_pos (by omega), show i + 1 - (n + 1) = i - n by omega, show p + 1 + n = p + (n + 1) by omega]
      · rw [if_neg h, if_neg (by omega), show p + 1 + n = p + (n + 1) by omega, show p + 1 + i = p + (i + 1) by omega]

theorem stamped_frame (w i p : Nat) (r : UInt8 × Bool) (l : List (Bool × Option (UInt8 × Bool))) :
    stamped p (busyWords true i (((true, none) :: List.replicate w (false, none) ++ (List.replicate 167 (true, none) ++ [(true, some r)])) ++ l)) =
      if w ≤ i then (p + w + 168, wResult r) :: stamped (p + w + 169) (busyWords true ((i - w : Nat) : Int) l)
      else (p + 1 + i, wFree) :: (p + w + 1, wBusy) :: (p + w + 168, wResult r) :: stamped (p + w + 169) (busyWords true ((176 : Nat) : Int) l) := by
  have hlast : ∀ (i : Int) (p : Nat), stamped p (busyWords true i ([(true, some r)] ++ l)) = (p, wResult r) :: stamped (p + 1) (busyWords true i l) := by
    intro i p
    show stamped p (wResult r :: _) = _
    rw [stamped, if_neg (wResult_ne r)]
    rfl
  rw [List.cons_append, List.cons_append]
  have h0 : ∀ m, stamped p (busyWords true (i : Int) ((true, none) :: m)) = stamped (p + 1) (busyWords true (i : Int) m) := fun m => rfl
  rw [h0, List.append_assoc, stamped_wait]
  by_cases h : w ≤ i
  · rw [if_pos h, if_pos h, List.append_assoc, stamped_busy, hlast, show p + 1 + w + 167 = p + w + 168 by omega]
  · rw [if_neg h, if_neg h, List.append_assoc, List.replicate_succ, List.cons_append]
    have h1 : ∀ q m, stamped q (busyWords false 0 ((true, none) :: m)) = (q, wBusy) :: stamped (q + 1) (busyWords true 176 m) := fun q m => rfl
    rw [h1, stamped_busy, hlast, show p + 1 + w = p + w + 1 by omega, show p + w + 1 + 1 + 166 = p + w + 168 by omega]
    rfl

/-- The words for frames with the given waiting times, and `k` samples of silence, with positions. -/
def wordTimes : Nat → Nat → List Nat → List (UInt8 × Bool) → Nat → List (Nat × Word)
  | p, i, w :: ws, r :: rs, k =>
    if w ≤ i then (p + w + 168, wResult r) :: wordTimes (p + w + 169) (i - w) ws rs k
    else (p + 1 + i, wFree) :: (p + w + 1, wBusy) :: (p + w + 168, wResult r) :: wordTimes (p + w + 169) 176 ws rs k
  | p, i, _, _, k => if k ≤ i + 1 then [] else [(p + 1 + i, wFree)]

theorem stamped_quiet (k i p : Nat) : stamped p (busyWords true i ((quietFlags k).zip (List.replicate k none))) =
    if k ≤ i + 1 then [] else [(p + 1 + i, wFree)] := by
  cases k with
  | zero => rfl
  | succ k =>
    rw [quietFlags, List.replicate_succ, List.zip_cons_cons, zip_rep]
    have h0 : ∀ m, stamped p (busyWords true (i : Int) ((true, none) :: m)) = stamped (p + 1) (busyWords true (i : Int) m) := fun m => rfl
    have := stamped_wait k i (p + 1) []
    rw [List.append_nil] at this
    rw [h0, this]
    by_cases h : k ≤ i
    · rw [if_pos h, if_pos (by omega)]; rfl
    · rw [if_neg h, if_neg (by omega)]; rfl

theorem stamped_frames : ∀ (fs : List (Nat × (Nat → Level))) {t r : Nat} {ws : List Nat} (i k p : Nat), Waits t r fs ws →
    stamped p (busyWords true i ((frameFlags ws ++ quietFlags k).zip (frameOuts ws fs ++ List.replicate k none))) =
      wordTimes p i ws (fs.map fun f => decodeSymbols f.2) k := by
  intro fs
  induction fs with
  | nil =>
    intro t r ws i k p h
    rw [show ws = [] from h]
    show stamped p (busyWords true i ((quietFlags k).zip (List.replicate k none))) = _
    rw [stamped_quiet]; rfl
  | cons f fs ih =>
    intro t r ws i k p h
    obtain ⟨w, ws', rfl, -, -, h4⟩ := h
    rw [frameFlags, frameOuts, List.append_assoc, List.append_assoc _ (frameOuts ws' fs), List.zip_append (by
      simp only [List.length_append, List.length_cons, List.length_replicate, List.length_nil]), zip_frame, stamped_frame, ih _ _ _ h4, ih _ _ _ h4]
    rfl

/-! ## Packets, positions in samples -/

/-- As `BytesTimed`, in samples. -/
def BytesPos : Nat → List (Nat × Bool × UInt8) → List (Nat × Word) → Prop
  | _, [], ts => ts = []
  | t, (g, _, b) :: bs, ts => ∃ k ts', ts = (k, wByte b) :: ts' ∧ t + g + 179 ≤ k ∧ k ≤ t + g + 182 ∧ BytesPos (t + g + 174) bs ts'

/-- Position after the listed frames, in samples. -/
def samplesEnd {α : Type} : Nat → List (Nat × α) → Nat
  | t, [] => t
  | t, (g, _) :: l => samplesEnd (t + g + 174) l

/-- As `PacketsTimed`, in samples. -/
def PacketsPos : Nat → List BusPacket → List (Nat × Word) → Prop
  | t, [], ts => ∃ f, ts = [(f, wFree)] ∧ t + 1 ≤ f ∧ f ≤ t + 186
  | t, p :: ps, ts => ∃ f b ts1 ts2, ts = (f, wFree) :: (b, wBusy) :: (ts1 ++ ts2) ∧ t + 1 ≤ f ∧ f ≤ t + 186 ∧
      t + p.gap + 12 ≤ b ∧ b ≤ t + p.gap + 15 ∧ BytesPos t p.frames ts1 ∧ PacketsPos (samplesEnd t p.frames) ps ts2

theorem rest_pos (more : List (Nat × Bool × UInt8)) (k : Nat) : ∀ (rest : List (Nat × Bool × UInt8)) {t r : Nat} {ws : List Nat} {i : Nat},
    Waits t r (byteFrames (rest ++ more)) ws → t + 6 ≤ r → r ≤ t + 9 → i ≤ 176 → (rest.map fun b => b.1 + 5).sum + (t + 9 - r) ≤ i →
    ∃ ws' i' r' ts, Waits (samplesEnd t rest) r' (byteFrames more) ws' ∧ samplesEnd t rest + 6 ≤ r' ∧ r' ≤ samplesEnd t rest + 9 ∧ i' ≤ 176 ∧
      BytesPos t rest ts ∧
      wordTimes r i ws ((rest ++ more).map fun b => (b.2.2, false)) k =
        ts ++ wordTimes r' i' ws' (more.map fun b => (b.2.2, false)) k := by
  intro rest
  induction rest with
  | nil => intro t r ws i h h1 h2 h3 _; exact ⟨ws, i, r, [], h, h1, h2, h3, rfl, rfl⟩
  | cons b rest ih =>
    intro t r ws i h h1 h2 h3 h4
    obtain ⟨w, ws', rfl, w1, w2, w3⟩ := h
    obtain ⟨g, q, b⟩ := b
    rw [List.map_cons, List.sum_cons] at h4
    obtain ⟨ws2, i2, r2, ts, a1, a2, a3, a4, a5, a6⟩ := ih (i := i - w) w3 (by omega) (by omega) (by omega) (by omega)
    refine ⟨ws2, i2, r2, (r + w + 168, wByte b) :: ts, a1, a2, a3, a4, ⟨_, ts, rfl, by omega, by omega, a5⟩, ?_⟩
    rw [List.cons_append, List.map_cons, wordTimes, if_pos (by omega), a6]
    rfl

theorem packet_pos (k : Nat) (hk : 178 ≤ k) : ∀ (ps : List BusPacket) {t r : Nat} {ws : List Nat} {i : Nat}, (∀ p ∈ ps, p.Ok) →
    Waits t r (byteFrames (ps.flatMap BusPacket.frames)) ws → t ≤ r → r ≤ t + 9 → i ≤ 176 →
    PacketsPos t ps (wordTimes r i ws ((ps.flatMap BusPacket.frames).map fun b => (b.2.2, false)) k) := by
  intro ps
  induction ps with
  | nil =>
    intro t r ws i _ h _ _ hi
    rw [show ws = [] from h]
    show ∃ f, (if k ≤ i + 1 then [] else [(r + 1 + i, wFree)]) = _ ∧ _
    rw [if_neg (by omega)]
    exact ⟨_, rfl, by omega, by omega⟩
  | cons p ps ih =>
    intro t r ws i hok h h1 h2 h3
    have hp := hok p (List.mem_cons_self ..)
    have g1 := hp.gap
    have g2 := hp.rest
    obtain ⟨w, ws', rfl, w1, w2, w3⟩ := h
    dsimp only at w1 w2 w3
    obtain ⟨ws2, i2, r2, ts, a1, a2, a3, a4, a5, a6⟩ := rest_pos (ps.flatMap BusPacket.frames) k p.rest (i := 176) w3 (by omega) (by omega)
      (by omega) (by omega)
    have := ih (fun p hp => hok p (List.mem_cons_of_mem _ hp)) a1 (by omega) a3 a4
    refine ⟨r + 1 + i, r + w + 1, (r + w + 168, wByte p.first) :: ts, _, ?_, by omega, by omega, by omega, by omega, ⟨_, ts, rfl, by omega, by omega, a5⟩, this⟩
    rw [List.flatMap_cons, List.map_append, BusPacket.frames, List.map_cons, List.cons_append, wordTimes, if_neg (by omega),
      ← List.map_append, a6]
    rfl

/-- As `tail_packets`, with positions. -/
theorem tail_pos {S : Nat} (hS : 8 ≤ S) (e : Bool) {s : Shape} (ht : s.Tol) {x x' : Nat → Int} {G : Nat} (hG : G + 32 ≤ 2 ^ S)
    {ps : List BusPacket} (hp : ∀ p ∈ ps, p.Ok) (hg : ∀ b ∈ ps.flatMap BusPacket.frames, b.1 ≤ G)
    (hx : ∀ k, -80000000 ≤ x k ∧ x k ≤ 80000000)
    (hd : ∀ k, detStream (past (levelOut x)) k = detStream (past (levelOut x')) k)
    (hc : s.Carries x' 0 (byteFrames (ps.flatMap BusPacket.frames))) {n : Nat}
    (hn : lineEnd 0 (byteFrames (ps.flatMap BusPacket.frames)) + 187 ≤ n)
    (hn' : n ≤ lineEnd 0 (byteFrames (ps.flatMap BusPacket.frames)) + 9 + G) :
    ∃ t tr, (C1Tail.init e).run S (segment x 0 n) = .ok (t, tr) ∧ PacketsPos 0 ps (stamped 0 (tr.map AcOut.word)) := by
  obtain ⟨u, ws, k, h1, h2, h3, h4⟩ := shape_run hS ht hG hc (stopOk_bytes hg) (n := n) (by omega) hn'
  have e0 : (fun i => detStream (past (levelOut x)) (0 + i)) = detStream (past (levelOut x')) := by
    funext i; rw [← hd]; exact detStream_congr (by omega)
  have hb : BackInv x 0 (C1Tail.init e).back := backInv_init x
  obtain ⟨t, tr, k1, k2, k3, k4, k5, k6, k7⟩ := tail_of_uart hS hx (t := C1Tail.init e) hb (Uart.Ok.init _) false n (u' := u)
    (l := _) (by rw [e0]; exact h3)
  refine ⟨t, tr, k1, ?_⟩
  have hz : (tr.map fun o => (o.receiving, o.word.result.head?)) =
      (tr.map AcOut.receiving).zip (tr.map fun o => o.word.result.head?) := by
    rw [List.zip_map', ]
  have hfl : tr.map AcOut.receiving = flagsOf S (Uart.init .even) (detStream (past (levelOut x'))) n := by
    rw [k5, e0]; rfl
  rw [tail_words _ k1, hz, k7, hfl, h4]
  show PacketsPos 0 ps (stamped 0 (busyWords true ((176 : Nat) : Int) _))
  rw [stamped_frames _ _ _ _ h1, decode_frames]
  have := waits_end _ h1 (by omega)
  exact packet_pos k (by omega) ps hp h1 (Nat.le_refl _) (by omega) (by omega)

end P1P2
