import Verif.Proofs.ShapeRun
import Verif.Props.LineFree
import Verif.Props.Core0
/-!
# The words core 1 sends for frames
-/
namespace P1P2

/-- The words of the busy detection, for the receiving flags and the results of the UART. -/
def busyWords : Bool → Int → List (Bool × Option (UInt8 × Bool)) → List Word
  | _, _, [] => []
  | b, i, (f, r) :: l =>
    match b, f with
    | false, true => Word.addResult wBusy r :: busyWords true 176 l
    | true, false =>
      if i > 0 then Word.addResult .zero r :: busyWords true (i - 1) l
      else Word.addResult wFree r :: busyWords false i l
    | b, _ => Word.addResult .zero r :: busyWords b i l

theorem head_toList {α : Type} (r : Option α) : r.toList.head? = r := by cases r <;> rfl

theorem tail_words {S : Nat} : ∀ (xs : List Int) {t t' : C1Tail} {tr : List AcOut}, t.run S xs = .ok (t', tr) →
    tr.map AcOut.word = busyWords t.busy t.idle (tr.map fun o => (o.receiving, o.word.result.head?)) := by
  intro xs
  induction xs with
  | nil =>
    intro t t' tr h
    simp only [C1Tail.run, Res.ok.injEq, Prod.mk.injEq] at h
    rw [← h.2]; rfl
  | cons a as ih =>
    intro t t' tr h
    rw [C1Tail.run, Res.bind_eq_ok] at h
    obtain ⟨⟨t1, o⟩, h1, h⟩ := h
    rw [Res.bind_eq_ok] at h
    obtain ⟨⟨t2, l⟩, h2, h⟩ := h
    simp only [Res.ok.injEq, Prod.mk.injEq] at h
    obtain ⟨rfl, rfl⟩ := h
    obtain ⟨b, r, -, -, -, g2, g3, g4, g5, g6⟩ := tail_step h1
    have hi := ih h2
    have hr : o.word.result.head? = r := by rw [g3, addResult_result, head_toList]
    rw [List.map_cons, List.map_cons, hr, hi]
    dsimp only
    cases ht : t.busy <;> cases ho : o.receiving <;> rw [ht] at g2 g4 g5 g6 <;> rw [ho] at g4 g5 g6
    · have hb : b = none := by
        rcases b with _ | _ | _
        · rfl
        · simp at g5
        · simp at g4
      subst hb
      simp only [busyWords]
      rw [g2, g6, g3]; rfl
    · have hb : b = some true := g4.mpr ⟨rfl, rfl⟩
      subst hb
      simp only [busyWords]
      rw [g2, g6, g3]; rfl
    · simp only [busyWords]
      by_cases hp : t.idle > 0
      · have hb : b = none := by
          rcases b with _ | _ | _
          · rfl
          · simp at g5; omega
          · simp at g4
        subst hb
        rw [if_pos hp, g2, g6, g3]
        simp [hp]; rfl
      · have hb : b = some false := g5.mpr ⟨rfl, rfl, hp⟩
        subst hb
        rw [if_neg hp, g2, g6, g3]
        simp [hp]; rfl
    · have hb : b = none := by
        rcases b with _ | _ | _
        · rfl
        · simp at g5
        · simp at g4
      subst hb
      simp only [busyWords]
      rw [g2, g6, g3]; rfl

/-! ## Words of frames -/

/-- Words that are sent at all. -/
def nonzero (ws : List Word) : List Word := ws.filter (fun w => decide (w ≠ .zero))

theorem nonzero_append (a b : List Word) : nonzero (a ++ b) = nonzero a ++ nonzero b := List.filter_append ..

/-- `n` times the receiver is busy and nothing else happens. -/
theorem words_busy (i : Int) : ∀ (n : Nat) (l : List (Bool × Option (UInt8 × Bool))),
    nonzero (busyWords true i (List.replicate n (true, none) ++ l)) = nonzero (busyWords true i l) := by
  intro n
  induction n with
  | zero => intro l; rfl
  | succ n ih =>
    intro l
    rw [List.replicate_succ, List.cons_append]
    show nonzero (Word.addResult .zero none :: _) = _
    rw [← ih l]; rfl

theorem words_free (i : Int) : ∀ (n : Nat) (l : List (Bool × Option (UInt8 × Bool))),
    nonzero (busyWords false i (List.replicate n (false, none) ++ l)) = nonzero (busyWords false i l) := by
  intro n
  induction n with
  | zero => intro l; rfl
  | succ n ih =>
    intro l
    rw [List.replicate_succ, List.cons_append]
    show nonzero (Word.addResult .zero none :: _) = _
    rw [← ih l]; rfl

/-- Waiting: the counter goes down, and line-free is sent when it is used up. -/
theorem words_wait : ∀ (n i : Nat) (l : List (Bool × Option (UInt8 × Bool))),
    nonzero (busyWords true i (List.replicate n (false, none) ++ l)) =
      if n ≤ i then nonzero (busyWords true ((i - n : Nat) : Int) l) else wFree :: nonzero (busyWords false 0 l) := by
  intro n
  induction n with
  | zero => intro i l; rw [if_pos (Nat.zero_le _)]; rfl
  | succ n ih =>
    intro i l
    rw [List.replicate_succ, List.cons_append]
    simp only [busyWords]
    cases i with
    | zero =>
      rw [if_neg (by omega), if_neg (by omega)]
      show wFree :: nonzero _ = _
      rw [show ((0 : Nat) : Int) = 0 from rfl, words_free]
    | succ i =>
      rw [if_pos (by omega), show ((i + 1 : Nat) : Int) - 1 = (i : Nat) by omega]
      show nonzero (Word.addResult .zero none :: _) = _
      have : nonzero (Word.addResult .zero none :: busyWords true (i : Nat) (List.replicate n (false, none) ++ l)) =
          nonzero (busyWords true (i : Nat) (List.replicate n (false, none) ++ l)) := rfl
      rw [this, ih i l]
      by_cases h : n ≤ i
      · rw [if_pos h, if_pos (by omega), show i + 1 - (n + 1) = i - n by omega]
      · rw [if_neg h, if_neg (by omega)]

/-- Word of a result. -/
def wResult (r : UInt8 × Bool) : Word := Word.addResult .zero (some r)

theorem wResult_byte (b : UInt8) : wResult (b, false) = wByte b := rfl

theorem wResult_ne (r : UInt8 × Bool) : wResult r ≠ .zero := by
  obtain ⟨b, e⟩ := r
  intro h
  have h1 := congrArg Word.rxValid h
  have h2 := congrArg Word.rxError h
  cases e <;> simp [wResult, Word.addResult, Word.zero] at h1 h2

/-- One frame. -/
theorem words_frame (w i : Nat) (r : UInt8 × Bool) (l : List (Bool × Option (UInt8 × Bool))) :
    nonzero (busyWords true i (((true, none) :: List.replicate w (false, none) ++ (List.replicate 167 (true, none) ++ [(true, some r)])) ++ l)) =
      if w ≤ i then wResult r :: nonzero (busyWords true ((i - w : Nat) : Int) l)
      else wFree :: wBusy :: wResult r :: nonzero (busyWords true ((176 : Nat) : Int) l) := by
  have hlast : ∀ (i : Int), nonzero (busyWords true i ([(true, some r)] ++ l)) = wResult r :: nonzero (busyWords true i l) := by
    intro i
    show nonzero (wResult r :: _) = _
    unfold nonzero
    rw [List.filter_cons_of_pos (by simpa using wResult_ne r)]
    rfl
  rw [List.cons_append, List.cons_append]
  have h0 : ∀ m, nonzero (busyWords true (i : Int) ((true, none) :: m)) = nonzero (busyWords true (i : Int) m) := fun m => rfl
  rw [h0, List.append_assoc, words_wait]
  by_cases h : w ≤ i
  · rw [if_pos h, if_pos h, List.append_assoc, words_busy, hlast]
  · rw [if_neg h, if_neg h, List.append_assoc, List.replicate_succ, List.cons_append]
    have h1 : ∀ m, nonzero (busyWords false 0 ((true, none) :: m)) = wBusy :: nonzero (busyWords true 176 m) := fun m => rfl
    rw [h1, words_busy, hlast]
    rfl

theorem zip_rep {α β : Type} (a : α) (b : β) : ∀ n, List.zip (List.replicate n a) (List.replicate n b) = List.replicate n (a, b) := by
  intro n
  induction n with
  | zero => rfl
  | succ n ih => rw [List.replicate_succ, List.replicate_succ, List.replicate_succ, List.zip_cons_cons, ih]

theorem rep_cons {α : Type} (a : α) (l : List α) : ∀ n, List.replicate n a ++ a :: l = a :: (List.replicate n a ++ l) := by
  intro n
  induction n with
  | zero => rfl
  | succ n ih => rw [List.replicate_succ, List.cons_append, ih, List.cons_append]

theorem zip_frame (w : Nat) (r : UInt8 × Bool) :
    List.zip (true :: List.replicate w false ++ List.replicate 168 true)
      (List.replicate w none ++ (List.replicate 168 none ++ [some r])) =
      (true, none) :: List.replicate w (false, none) ++ (List.replicate 167 (true, none) ++ [(true, some r)]) := by
  have e1 : List.replicate w (none : Option (UInt8 × Bool)) ++ (List.replicate 168 none ++ [some r]) =
      none :: (List.replicate w none ++ (List.replicate 167 none ++ [some r])) := by
    have : List.replicate 168 (none : Option (UInt8 × Bool)) = none :: List.replicate 167 none := rfl
    rw [this, List.cons_append, rep_cons]
  have e2 : List.replicate 168 true = List.replicate 167 true ++ [true] := List.replicate_succ'
  rw [e1, e2, List.cons_append, List.zip_cons_cons, List.zip_append (by simp), zip_rep, List.zip_append (by rw [List.length_replicate, List.length_replicate]), zip_rep]
  rfl

/-- The words for frames with the given waiting times, and `k` samples of silence. -/
def frameWords : Nat → List Nat → List (UInt8 × Bool) → Nat → List Word
  | i, w :: ws, r :: rs, k =>
    if w ≤ i then wResult r :: frameWords (i - w) ws rs k else wFree :: wBusy :: wResult r :: frameWords 176 ws rs k
  | i, _, _, k => if k ≤ i + 1 then [] else [wFree]

theorem words_quiet (k i : Nat) : nonzero (busyWords true i ((quietFlags k).zip (List.replicate k none))) =
    if k ≤ i + 1 then [] else [wFree] := by
  cases k with
  | zero => rfl
  | succ k =>
    rw [quietFlags, List.replicate_succ, List.zip_cons_cons, zip_rep]
    have h0 : ∀ m, nonzero (busyWords true (i : Int) ((true, none) :: m)) = nonzero (busyWords true (i : Int) m) := fun m => rfl
    have := words_wait k i []
    rw [List.append_nil] at this
    rw [h0, this]
    by_cases h : k ≤ i
    · rw [if_pos h, if_pos (by omega)]; rfl
    · rw [if_neg h, if_neg (by omega)]; rfl

theorem words_frames : ∀ (fs : List (Nat × (Nat → Level))) {t r : Nat} {ws : List Nat} (i k : Nat), Waits t r fs ws →
    nonzero (busyWords true i ((frameFlags ws ++ quietFlags k).zip (frameOuts ws fs ++ List.replicate k none))) =
      frameWords i ws (fs.map fun f => decodeSymbols f.2) k := by
  intro fs
  induction fs with
  | nil =>
    intro t r ws i k h
    rw [show ws = [] from h]
    show nonzero (busyWords true i ((quietFlags k).zip (List.replicate k none))) = _
    rw [words_quiet]; rfl
  | cons f fs ih =>
    intro t r ws i k h
    obtain ⟨w, ws', rfl, -, -, h4⟩ := h
    rw [frameFlags, frameOuts, List.append_assoc, List.append_assoc _ (frameOuts ws' fs), List.zip_append (by
      simp only [List.length_append, List.length_cons, List.length_replicate, List.length_nil]), zip_frame, words_frame, ih _ _ h4, ih _ _ h4]
    rfl

/-- The words of a packet. -/
def BusPacket.words (p : BusPacket) : List Word := wFree :: wBusy :: p.bytes.map wByte

theorem decode_frames (bs : List (Nat × Bool × UInt8)) :
    (byteFrames bs).map (fun f => decodeSymbols f.2) = bs.map fun b => (b.2.2, false) := by
  rw [byteFrames, List.map_map]
  exact List.map_congr_left fun b _ => decode_symbolsOf b.2.1 b.2.2

theorem rest_words (more : List (Nat × Bool × UInt8)) (k : Nat) : ∀ (rest : List (Nat × Bool × UInt8)) {t r : Nat} {ws : List Nat} {i : Nat},
    Waits t r (byteFrames (rest ++ more)) ws → t + 6 ≤ r → r ≤ t + 9 → i ≤ 176 → (rest.map fun b => b.1 + 5).sum + (t + 9 - r) ≤ i →
    ∃ ws' i' t' r', Waits t' r' (byteFrames more) ws' ∧ t' + 6 ≤ r' ∧ r' ≤ t' + 9 ∧ i' ≤ 176 ∧
      frameWords i ws ((rest ++ more).map fun b => (b.2.2, false)) k =
        (rest.map fun b => wByte b.2.2) ++ frameWords i' ws' (more.map fun b => (b.2.2, false)) k := by
  intro rest
  induction rest with
  | nil => intro t r ws i h h1 h2 h3 _; exact ⟨ws, i, t, r, h, h1, h2, h3, rfl⟩
  | cons b rest ih =>
    intro t r ws i h h1 h2 h3 h4
    obtain ⟨w, ws', rfl, w1, w2, w3⟩ := h
    rw [List.map_cons, List.sum_cons] at h4
    obtain ⟨ws2, i2, t2, r2, a1, a2, a3, a4, a5⟩ := ih (i := i - w) w3 (by omega) (by omega) (by omega) (by omega)
    refine ⟨ws2, i2, t2, r2, a1, a2, a3, a4, ?_⟩
    rw [List.cons_append, List.map_cons, frameWords, if_pos (by omega), a5]
    rfl

theorem packet_words (k : Nat) (hk : 178 ≤ k) : ∀ (ps : List BusPacket) {t r : Nat} {ws : List Nat} {i : Nat}, (∀ p ∈ ps, p.Ok) →
    Waits t r (byteFrames (ps.flatMap BusPacket.frames)) ws → t ≤ r → r ≤ t + 9 → i ≤ 176 →
    frameWords i ws ((ps.flatMap BusPacket.frames).map fun b => (b.2.2, false)) k = ps.flatMap BusPacket.words ++ [wFree] := by
  intro ps
  induction ps with
  | nil =>
    intro t r ws i _ h _ _ hi
    rw [show ws = [] from h]
    show (if k ≤ i + 1 then [] else [wFree]) = _
    rw [if_neg (by omega)]; rfl
  | cons p ps ih =>
    intro t r ws i hok h h1 h2 h3
    have hp := hok p (List.mem_cons_self ..)
    have g1 := hp.gap
    have g2 := hp.rest
    obtain ⟨w, ws', rfl, w1, w2, w3⟩ := h
    dsimp only at w1 w2 w3
    obtain ⟨ws2, i2, t2, r2, a1, a2, a3, a4, a5⟩ := rest_words (ps.flatMap BusPacket.frames) k p.rest (i := 176) w3 (by omega) (by omega)
      (by omega) (by omega)
    have := ih (fun p hp => hok p (List.mem_cons_of_mem _ hp)) a1 (by omega) a3 a4
    rw [List.flatMap_cons, List.map_append, BusPacket.frames, List.map_cons, List.cons_append, frameWords, if_neg (by omega),
      ← List.map_append, a5, this, List.flatMap_cons, BusPacket.words, BusPacket.bytes, List.map_cons, List.map_map]
    simp only [List.cons_append, List.append_assoc]
    rfl

theorem waits_end : ∀ (fs : List (Nat × (Nat → Level))) {t r : Nat} {ws : List Nat}, Waits t r fs ws → r ≤ t + 9 →
    r + frameSpan ws ≤ lineEnd t fs + 9 := by
  intro fs
  induction fs with
  | nil => intro t r ws h hr; rw [show ws = [] from h]; exact hr
  | cons f fs ih =>
    obtain ⟨g, σ⟩ := f
    intro t r ws h hr
    obtain ⟨w, ws', rfl, w1, w2, w3⟩ := h
    have := ih w3 (by omega)
    show r + (w + 169 + frameSpan ws') ≤ lineEnd (t + g + 174) fs + 9
    omega

theorem stopOk_bytes {G : Nat} {bs : List (Nat × Bool × UInt8)} (h : ∀ b ∈ bs, b.1 ≤ G) : StopOk G (byteFrames bs) := by
  intro f hf
  rw [byteFrames, List.mem_map] at hf
  obtain ⟨b, hb, rfl⟩ := hf
  exact ⟨h b hb, by show symbolsOf b.2.1 b.2.2 0 ≠ _; rw [symbolsOf_start]; split <;> decide, symbolsOf_stop _ _⟩

/-- The part of core 1 behind the DC blocker, on a line that carries the packets `ps` and nothing else, up to
what the pulse detector does not notice. -/
theorem tail_packets {S : Nat} (hS : 8 ≤ S) (e : Bool) {s : Shape} (ht : s.Tol) {x x' : Nat → Int} {G : Nat} (hG : G + 32 ≤ 2 ^ S)
    {ps : List BusPacket} (hp : ∀ p ∈ ps, p.Ok) (hg : ∀ b ∈ ps.flatMap BusPacket.frames, b.1 ≤ G)
    (hx : ∀ k, -80000000 ≤ x k ∧ x k ≤ 80000000)
    (hd : ∀ k, detStream (past (levelOut x)) k = detStream (past (levelOut x')) k)
    (hc : s.Carries x' 0 (byteFrames (ps.flatMap BusPacket.frames))) {n : Nat}
    (hn : lineEnd 0 (byteFrames (ps.flatMap BusPacket.frames)) + 187 ≤ n)
    (hn' : n ≤ lineEnd 0 (byteFrames (ps.flatMap BusPacket.frames)) + 9 + G) :
    ∃ t tr, (C1Tail.init e).run S (segment x 0 n) = .ok (t, tr) ∧
      nonzero (tr.map AcOut.word) = ps.flatMap BusPacket.words ++ [wFree] := by
  obtain ⟨u, ws, k, h1, h2, h3, h4⟩ := shape_run hS ht hG hc (stopOk_bytes hg) (n := n) (by omega) hn'
  have e0 : (fun i => detStream (past (levelOut x)) (0 + i)) = detStream (past (levelOut x')) := by
    funext i; rw [← hd]; exact detStream_congr (by omega)
  have hb : BackInv x 0 (C1Tail.init e).back := backInv_init x
  obtain ⟨t, tr, k1, k2, k3, k4, k5, k6, k7⟩ := tail_of_uart hS hx (t := C1Tail.init e) hb (Uart.Ok.init _) false n (u' := u)
    (l := _) (by rw [e0]; exact h3)
  refine ⟨t, tr, k1, ?_⟩
  have hz : (tr.map fun o => (o.receiving, o.word.result.head?)) =
      (tr.map AcOut.receiving).zip (tr.map fun o => o.word.result.head?) := by
    rw [List.zip_map', ]
  have hfl : tr.map AcOut.receiving = flagsOf S (Uart.init .even) (detStream (past (levelOut x'))) n := by
    rw [k5, e0]; rfl
  rw [tail_words _ k1, hz, k7, hfl, h4]
  show nonzero (busyWords true ((176 : Nat) : Int) _) = _
  rw [words_frames _ _ _ h1, decode_frames]
  have := waits_end _ h1 (by omega)
  exact packet_words k (by omega) ps hp h1 (Nat.le_refl _) (by omega) (by omega)

end P1P2
