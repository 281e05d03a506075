import Verif.Proofs.WordTimes
import Verif.Spec.Times
import Verif.Props.Eye
/-!
# When the words come, from codes to times
-/
namespace P1P2

/-- Positions in samples as positions in codes. -/
def scaled (ts : List (Nat × Word)) : List (Nat × Word) := ts.map fun x => (2 * x.1, x.2)

/-- As `BytesTimed`, in codes. -/
def BytesRaw : Nat → List (Nat × Bool × UInt8) → List (Nat × Word) → Prop
  | _, [], ts => ts = []
  | t, (g, _, b) :: bs, ts => ∃ k ts', ts = (k, wByte b) :: ts' ∧ t + g + 361 ≤ k ∧ k ≤ t + g + 368 ∧ BytesRaw (t + g + 348) bs ts'

/-- As `PacketsTimed`, in codes. -/
def PacketsRaw : Nat → List BusPacket → List (Nat × Word) → Prop
  | t, [], ts => ∃ f, ts = [(f, wFree)] ∧ (if t = 0 then 2 else t + 5) ≤ f ∧ f ≤ t + 376
  | t, p :: ps, ts => ∃ f b ts1 ts2, ts = (f, wFree) :: (b, wBusy) :: (ts1 ++ ts2) ∧ (if t = 0 then 2 else t + 5) ≤ f ∧ f ≤ t + 376 ∧
      t + p.gap + 27 ≤ b ∧ b ≤ t + p.gap + 34 ∧ BytesRaw t p.frames ts1 ∧ PacketsRaw (codesEnd t p.frames) ps ts2

theorem samplesEnd_halve {α : Type} : ∀ (l : List (Nat × α)) (R : Nat), samplesEnd (R / 2 + 2) (halve R l) = codesEnd R l / 2 + 2 := by
  intro l
  induction l with
  | nil => intro R; rfl
  | cons a l ih =>
    intro R
    obtain ⟨g, a⟩ := a
    show samplesEnd (R / 2 + 2 + ((R + g) / 2 - R / 2) + 174) (halve (R + g + 348) l) = codesEnd (R + g + 348) l / 2 + 2
    rw [← ih, show R / 2 + 2 + ((R + g) / 2 - R / 2) + 174 = (R + g + 348) / 2 + 2 by omega]

theorem bytes_raw : ∀ (bs : List (Nat × Bool × UInt8)) (R : Nat) (ts : List (Nat × Word)), BytesPos (R / 2 + 2) (halve R bs) ts → BytesRaw R bs (scaled ts) := by
  intro bs
  induction bs with
  | nil => intro R ts h; rw [show ts = [] from h]; rfl
  | cons a bs ih =>
    intro R ts h
    obtain ⟨g, p, u⟩ := a
    obtain ⟨k, ts', rfl, h1, h2, h3⟩ := h
    refine ⟨2 * k, scaled ts', rfl, by omega, by omega, ih _ _ ?_⟩
    rw [show (R + g + 348) / 2 + 2 = R / 2 + 2 + ((R + g) / 2 - R / 2) + 174 by omega]
    exact h3

theorem scaled_append (l m : List (Nat × Word)) : scaled (l ++ m) = scaled l ++ scaled m := List.map_append

theorem packets_raw : ∀ (ps : List BusPacket) (R : Nat) (ts : List (Nat × Word)), 0 < R → PacketsPos (R / 2 + 2) (halvePackets R ps) ts → PacketsRaw R ps (scaled ts) := by
  intro ps
  induction ps with
  | nil =>
    intro R ts hR h
    obtain ⟨f, rfl, h1, h2⟩ := h
    exact ⟨2 * f, rfl, by rw [if_neg (by omega)]; omega, by omega⟩
  | cons p ps ih =>
    intro R ts hR h
    obtain ⟨f, b, ts1, ts2, rfl, h1, h2, h3, h4, h5, h6⟩ := h
    have h3 : R / 2 + 2 + ((R + p.gap) / 2 - R / 2) + 12 ≤ b := h3
    have h4 : b ≤ R / 2 + 2 + ((R + p.gap) / 2 - R / 2) + 15 := h4
    rw [halvePacket_frames] at h5 h6
    rw [samplesEnd_halve] at h6
    refine ⟨2 * f, 2 * b, scaled ts1, scaled ts2, by rw [← scaled_append]; rfl, by rw [if_neg (by omega)]; omega, by omega, by omega, by omega, bytes_raw _ _ _ h5, ih _ _ ?_ h6⟩
    show 0 < codesEnd (R + p.gap + 348) p.rest
    have : ∀ (l : List (Nat × Bool × UInt8)) (t : Nat), t ≤ codesEnd t l := by
      intro l
      induction l with
      | nil => intro t; exact Nat.le_refl _
      | cons a l ih => intro t; obtain ⟨g, a⟩ := a; have := ih (t + g + 348); show t ≤ codesEnd (t + g + 348) l; omega
    have := this p.rest (R + p.gap + 348)
    omega

theorem uart_raw (ps : List BusPacket) (ts : List (Nat × Word)) (h : PacketsPos 0 (uartPackets ps) ts) : PacketsRaw 0 ps (scaled ts) := by
  cases ps with
  | nil =>
    obtain ⟨f, rfl, h1, h2⟩ := h
    exact ⟨2 * f, rfl, by rw [if_pos rfl]; omega, by omega⟩
  | cons p ps =>
    obtain ⟨f, b, ts1, ts2, rfl, h1, h2, h3, h4, h5, h6⟩ := h
    have h3 : 0 + (p.gap / 2 + 2) + 12 ≤ b := h3
    have h4 : b ≤ 0 + (p.gap / 2 + 2) + 15 := h4
    obtain ⟨k, ts', rfl, k1, k2, k3⟩ := h5
    have k1 : 0 + (p.gap / 2 + 2) + 179 ≤ k := k1
    have k2 : k ≤ 0 + (p.gap / 2 + 2) + 182 := k2
    have he : (p.gap + 348) / 2 + 2 = 0 + (p.gap / 2 + 2) + 174 := by omega
    have h6 : PacketsPos (samplesEnd (0 + (p.gap / 2 + 2) + 174) (halve (p.gap + 348) p.rest)) (halvePackets (codesEnd 0 p.frames) ps) ts2 := h6
    rw [← he, samplesEnd_halve, ← codesEnd_first] at h6
    refine ⟨2 * f, 2 * b, scaled ((k, wByte p.first) :: ts'), scaled ts2, by rw [← scaled_append]; rfl, by rw [if_pos rfl]; omega, by omega, by omega, by omega,
      ⟨2 * k, scaled ts', rfl, by omega, by omega, ?_⟩, packets_raw _ _ _ ?_ h6⟩
    · have := bytes_raw p.rest (p.gap + 348) ts' (by rw [he]; exact k3)
      rw [Nat.zero_add]
      exact this
    · rw [codesEnd_first]
      have : ∀ (l : List (Nat × Bool × UInt8)) (t : Nat), t ≤ codesEnd t l := by
        intro l
        induction l with
        | nil => intro t; exact Nat.le_refl _
        | cons a l ih => intro t; obtain ⟨g, a⟩ := a; have := ih (t + g + 348); show t ≤ codesEnd (t + g + 348) l; omega
      have := this p.rest (p.gap + 348)
      omega

/-- A part of a run. -/
theorem C1Tail.run_take {S : Nat} : ∀ (xs : List Int) (n : Nat) {t t' : C1Tail} {tr : List AcOut}, t.run S xs = .ok (t', tr) →
    ∃ t1, t.run S (xs.take n) = .ok (t1, tr.take n) := by
  intro xs
  induction xs with
  | nil =>
    intro n t t' tr h
    simp only [C1Tail.run, Res.ok.injEq, Prod.mk.injEq] at h
    rw [← h.2, List.take_nil, List.take_nil]
    exact ⟨t, rfl⟩
  | cons x xs ih =>
    intro n t t' tr h
    rw [C1Tail.run, Res.bind_eq_ok] at h
    obtain ⟨⟨t1, o⟩, h1, h⟩ := h
    rw [Res.bind_eq_ok] at h
    obtain ⟨⟨t2, l⟩, h2, h⟩ := h
    simp only [Res.ok.injEq, Prod.mk.injEq] at h
    obtain ⟨rfl, rfl⟩ := h
    cases n with
    | zero => exact ⟨t, rfl⟩
    | succ n =>
      obtain ⟨t3, h3⟩ := ih n h2
      refine ⟨t3, ?_⟩
      rw [List.take_succ_cons, List.take_succ_cons, C1Tail.run, h1]
      show (do let q ← C1Tail.run S t1 (xs.take n); _) = _
      rw [h3]
      rfl

theorem comeBy_stamped (ws : List Word) (N : Nat) : comeBy (scaled (stamped 0 ws)) N = nonzero (ws.take ((N + 1) / 2)) := by
  have := stamped_take ws 0 ((N + 1) / 2)
  rw [← stamped_words _ 0, ← this]
  unfold comeBy scaled
  rw [List.filter_map, List.map_map]
  congr 1
  refine List.filter_congr fun x _ => ?_
  simp only [Function.comp]
  exact decide_eq_decide.mpr (by omega)

/-- Core 1 behind the DC blocker: when the words of the packets come. -/
theorem raw_times {S : Nat} (hS : 8 ≤ S) (e : Bool) {a c : Int} (h1 : 49 ≤ a) (h2 : a ≤ 88) {L : Nat → Level} {q : Nat → UInt8} (h : Codes a c L q)
    {M : Nat} (hM : M + 70 ≤ 2 * 2 ^ S) (hM' : 378 ≤ M) {ps : List BusPacket} (hp : ∀ p ∈ ps, p.RawOk) (hg : ∀ b ∈ ps.flatMap BusPacket.frames, b.1 ≤ M)
    (hc : RawCarries L 0 (byteFrames (ps.flatMap BusPacket.frames))) :
    ∃ ts, PacketsRaw 0 ps ts ∧ (ts.Pairwise fun a b => a.1 < b.1) ∧ ∀ N, N ≤ rawEnd 0 (byteFrames (ps.flatMap BusPacket.frames)) + M →
      ∃ t tr, (C1Tail.init e).run S ((List.range ((N + 1) / 2)).map (rawZ q)) = .ok (t, tr) ∧ nonzero (tr.map AcOut.word) = comeBy ts N := by
  obtain ⟨s1, s2⟩ := raw_shape h1 h2 h hp hc
  obtain ⟨u1, u2⟩ := uart_end ps
  generalize hE : rawEnd 0 (byteFrames (ps.flatMap BusPacket.frames)) = E at *
  obtain ⟨t, tr, k1, k2⟩ := tail_pos (n := (E + M + 1) / 2) hS e (frontShape_tol h1 h2) (x := rawZ q) (G := (M + 1) / 2 + 2) (by omega)
    (uartPackets_ok hp) (uartPackets_le hg) (rawZ_bound q) s2 s1 (by omega) (by omega)
  have hseg : ∀ n, segment (rawZ q) 0 n = (List.range n).map (rawZ q) := by
    intro n
    unfold segment
    exact List.map_congr_left fun i _ => by rw [Nat.zero_add]
  rw [hseg] at k1
  refine ⟨_, uart_raw _ _ k2, ?_, fun N hN => ?_⟩
  · exact List.pairwise_map.mpr ((stamped_sorted _ 0).imp fun {a b} h => by dsimp only; omega)
  obtain ⟨t1, r1⟩ := C1Tail.run_take _ ((N + 1) / 2) k1
  rw [← List.map_take, List.take_range, Nat.min_eq_left (by omega)] at r1
  refine ⟨t1, _, r1, ?_⟩
  rw [comeBy_stamped, List.map_take]

/-! ## Codes up to some point -/

theorem rawHist_congr {q q' : Nat → UInt8} {K : Nat} (h : ∀ k, k < K → q k = q' k) (j : Int) (hj : j < K) : rawHist q j = rawHist q' j := by
  unfold rawHist adcHist
  split
  · rfl
  · dsimp only
    rw [h _ (by omega)]

theorem rawMv_congr {q q' : Nat → UInt8} {K : Nat} (h : ∀ k, k < K → q k = q' k) (i : Nat) (hi : i < K) : rawMv q i = rawMv q' i := by
  unfold rawMv adcRef
  rw [rawHist_congr h _ (by omega), rawHist_congr h ((i : Int) - 1) (by omega), rawHist_congr h ((i : Int) - 2) (by omega)]

theorem past_congr {x x' : Nat → Int} {K : Nat} (h : ∀ k, k < K → x k = x' k) (j : Int) (hj : j < K) : past x j = past x' j := by
  unfold past
  split
  · rfl
  · exact h _ (by omega)

theorem rawX_congr {q q' : Nat → UInt8} {K : Nat} (h : ∀ k, k < K → q k = q' k) (n : Nat) (hn : 2 * n < K) : rawX q n = rawX q' n := by
  have hp : ∀ j : Int, j < K → past (rawMv q) j = past (rawMv q') j := past_congr (rawMv_congr h)
  unfold rawX firRef
  rw [hp _ (by omega), hp _ (by omega), hp _ (by omega), hp _ (by omega), hp _ (by omega), hp _ (by omega), hp _ (by omega)]

theorem dcState_congr {x x' : Nat → Int} {K : Nat} (h : ∀ k, k < K → x k = x' k) : ∀ n, n ≤ K → dcState x n = dcState x' n := by
  intro n
  induction n with
  | zero => intro _; rfl
  | succ n ih =>
    intro hn
    have hp : ∀ j : Int, j < K → past x j = past x' j := past_congr h
    rw [dcState, dcState, ih (by omega), hp _ (by omega), h n (by omega)]

theorem rawZ_congr {q q' : Nat → UInt8} {K : Nat} (h : ∀ k, k < K → q k = q' k) (n : Nat) (hn : 2 * n < K) : rawZ q n = rawZ q' n := by
  unfold rawZ dcRef
  rw [dcState_congr (K := n + 1) (fun k hk => rawX_congr h k (by omega)) _ (Nat.le_refl _)]

/-- The codes up to `K`, then those of the line without error. -/
def codesThen (K : Nat) (a c : Int) (L : Nat → Level) (q : Nat → UInt8) (k : Nat) : UInt8 :=
  if k < K then q k else UInt8.ofNat (if k % 2 = 0 then c - a * (L k).sign else c + a * (L k).sign).toNat

theorem codesThen_ok {K : Nat} {a c : Int} (h0 : 0 ≤ a) (h1 : a ≤ c) (h2 : c + a ≤ 255) {L : Nat → Level} {q : Nat → UInt8} (h : CodesUntil K a c L q) :
    Codes a c L (codesThen K a c L q) := by
  intro k
  by_cases hk : k < K
  · have := h k hk
    unfold codesThen
    rw [if_pos hk]
    exact this
  · have hr : ∃ n : Nat, n < 256 ∧ (if k % 2 = 0 then c - a * (L k).sign else c + a * (L k).sign) = (n : Nat) := by
      have hs : a * (L k).sign = 0 ∨ a * (L k).sign = a ∨ a * (L k).sign = -a := by
        cases L k
        · left; exact Int.mul_zero a
        · right; left; exact Int.mul_one a
        · right; right; show a * -1 = -a; omega
      generalize a * (L k).sign = z at *
      refine ⟨(if k % 2 = 0 then c - z else c + z).toNat, ?_, ?_⟩ <;> split <;> omega
    obtain ⟨n, n1, n2⟩ := hr
    have h3 : ((codesThen K a c L q k).toNat : Int) = n := by
      unfold codesThen
      rw [if_neg hk, n2]
      simp only [Int.toNat_natCast, UInt8.toNat_ofNat']
      omega
    dsimp only
    rw [h3, n2]
    omega

/-! ## From codes to times -/

section
variable {P : Nat}

theorem eye_bytes (hP : 0 < P) : ∀ (bs : List (Nat × Bool × UInt8)) (t : Nat) (ts : List (Nat × Word)), (∀ b ∈ bs.head?, 2 * P ≤ t + b.1) →
    BytesRaw (eyeBase P t) (eyeCodes P t bs) ts → BytesTimed P t bs ts := by
  intro bs
  induction bs with
  | nil => intro t ts _ h; exact h
  | cons a bs ih =>
    intro t ts hs h
    obtain ⟨g, p, u⟩ := a
    have hs : 2 * P ≤ t + g := hs _ rfl
    have hm := eyeBase_mono hP (Nat.le_add_right t g)
    obtain ⟨b1, b2⟩ := eyeBase_at hP hs
    obtain ⟨k, ts', rfl, h1, h2, h3⟩ := h
    rw [show eyeBase P t + (eyeBase P (t + g) - eyeBase P t) = eyeBase P (t + g) by omega] at h1 h2
    have h3 : BytesRaw (eyeBase P t + (eyeBase P (t + g) - eyeBase P t) + 348) (eyeCodes P (t + g + 348 * P) bs) ts' := h3
    rw [show eyeBase P t + (eyeBase P (t + g) - eyeBase P t) = eyeBase P (t + g) by omega, ← eyeBase_next hP hs] at h3
    have m1 := Nat.mul_le_mul_right P h1
    have m2 := Nat.mul_le_mul_right P h2
    rw [Nat.add_mul] at m1 m2
    exact ⟨k, ts', rfl, by omega, by omega, ih _ _ (fun b _ => by omega) h3⟩

theorem codesEnd_eye (hP : 0 < P) (bs : List (Nat × Bool × UInt8)) (t : Nat) (h : ∀ b ∈ bs.head?, 2 * P ≤ t + b.1) :
    codesEnd (eyeBase P t) (eyeCodes P t bs) = eyeBase P (eyeEnd P t bs) := by
  rw [← rawEnd_byteFrames]; exact eye_rawEnd hP bs t h

theorem eye_packets (hP : 0 < P) : ∀ (ps : List BusPacket) (t : Nat) (ts : List (Nat × Word)), (t = 0 ∨ 3 * P ≤ t) → (∀ p ∈ ps, p.EyeOk P) →
    PacketsRaw (eyeBase P t) (eyePackets P t ps) ts → PacketsTimed P t ps ts := by
  intro ps
  have hfree : ∀ t f, (t = 0 ∨ 3 * P ≤ t) → (if eyeBase P t = 0 then 2 else eyeBase P t + 5) ≤ f → f ≤ eyeBase P t + 376 →
      t + 2 * P ≤ f * P ∧ f * P ≤ t + 376 * P := by
    intro t f ht h1 h2
    have m2 := Nat.mul_le_mul_right P h2
    rw [Nat.add_mul] at m2
    rcases ht with rfl | ht
    · have h0 : eyeBase P 0 = 0 := by
        have : ceilDiv 0 P ≤ 0 := (ceilDiv_le hP 0).mpr (by omega)
        unfold eyeBase; omega
      rw [h0] at h1 m2
      rw [if_pos rfl] at h1
      have m1 := Nat.mul_le_mul_right P h1
      omega
    · obtain ⟨b1, b2⟩ := eyeBase_at hP (show 2 * P ≤ t by omega)
      have hne : eyeBase P t ≠ 0 := by
        intro h
        rw [h] at b1
        omega
      rw [if_neg hne] at h1
      have m1 := Nat.mul_le_mul_right P h1
      rw [Nat.add_mul] at m1
      omega
  induction ps with
  | nil =>
    intro t ts ht _ h
    obtain ⟨f, rfl, h1, h2⟩ := h
    obtain ⟨a1, a2⟩ := hfree t f ht h1 h2
    exact ⟨f, rfl, a1, a2⟩
  | cons p ps ih =>
    intro t ts ht hok h
    have hg := (hok p (List.mem_cons_self ..)).gap
    obtain ⟨f, b, ts1, ts2, rfl, h1, h2, h3, h4, h5, h6⟩ := h
    obtain ⟨a1, a2⟩ := hfree t f ht h1 h2
    have hs : 2 * P ≤ t + p.gap := by omega
    have hhead : ∀ b ∈ p.frames.head?, 2 * P ≤ t + b.1 := by
      intro b hb
      have hb : (p.gap, p.pol, p.first) = b := Option.some.inj hb
      rw [← hb]; exact hs
    obtain ⟨b1, b2⟩ := eyeBase_at hP hs
    have hm := eyeBase_mono hP (Nat.le_add_right t p.gap)
    have h3 : eyeBase P t + (eyeBase P (t + p.gap) - eyeBase P t) + 27 ≤ b := h3
    have h4 : b ≤ eyeBase P t + (eyeBase P (t + p.gap) - eyeBase P t) + 34 := h4
    rw [show eyeBase P t + (eyeBase P (t + p.gap) - eyeBase P t) = eyeBase P (t + p.gap) by omega] at h3 h4
    have m3 := Nat.mul_le_mul_right P h3
    have m4 := Nat.mul_le_mul_right P h4
    rw [Nat.add_mul] at m3 m4
    have h5 : BytesRaw (eyeBase P t) (eyeCodes P t p.frames) ts1 := h5
    have h6 : PacketsRaw (codesEnd (eyeBase P t) (eyeCodes P t p.frames)) (eyePackets P (eyeEnd P t p.frames) ps) ts2 := h6
    rw [codesEnd_eye hP _ _ hhead] at h6
    refine ⟨f, b, ts1, ts2, rfl, a1, a2, by omega, by omega, eye_bytes hP _ _ _ hhead h5, ih _ _ (.inr ?_) (fun p hp => hok p (List.mem_cons_of_mem _ hp)) h6⟩
    have htl : ∀ (l : List (Nat × Bool × UInt8)) (t : Nat), t ≤ eyeEnd P t l := by
      intro l
      induction l with
      | nil => intro t; exact Nat.le_refl _
      | cons a l ih => intro t; obtain ⟨g, a⟩ := a; have := ih (t + g + 348 * P); show t ≤ eyeEnd P (t + g + 348 * P) l; omega
    have := htl p.rest (t + p.gap + 348 * P)
    show 3 * P ≤ eyeEnd P (t + p.gap + 348 * P) p.rest
    omega

end

end P1P2
