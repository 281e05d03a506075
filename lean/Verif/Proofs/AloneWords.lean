import Verif.Proofs.AloneEv
/-!
# Words of the modem's own messages, in order
-/
namespace P1P2

/-- All words of messages: the bus is free; then it becomes busy, the bytes come, and it becomes free, for each message. -/
def wordsFor (ms : List Message) : List Word := wFree :: ms.flatMap fun m => wBusy :: (m.bytes.map wByte ++ [wFree])

theorem frames_words {P : Nat} {c : Nat → Nat} : ∀ (bs : List UInt8) (s : Nat) (ts : List (Nat × Word)), FramesHeard P c s bs ts → ts.map Prod.snd = bs.map wByte := by
  intro bs
  induction bs with
  | nil => intro s ts h; rw [show ts = [] from h]; rfl
  | cons b bs ih =>
    intro s ts ⟨k, ts', h1, _, _, h2⟩
    rw [h1, List.map_cons, List.map_cons, ih _ _ h2]

theorem frames_split {P : Nat} {c : Nat → Nat} : ∀ (x y : List UInt8) (s : Nat) (ts : List (Nat × Word)), FramesHeard P c s (x ++ y) ts →
    ∃ tx ty, ts = tx ++ ty ∧ tx.map Prod.snd = x.map wByte ∧ FramesHeard P c (s + 175 * x.length) y ty := by
  intro x
  induction x with
  | nil => intro y s ts h; exact ⟨[], ts, rfl, rfl, h⟩
  | cons b x ih =>
    intro y s ts ⟨k, ts', h1, _, _, h2⟩
    obtain ⟨tx, ty, h3, h4, h5⟩ := ih _ _ _ h2
    refine ⟨(k, wByte b) :: tx, ty, by rw [h1, h3]; rfl, by rw [List.map_cons, h4]; rfl, ?_⟩
    rw [List.length_cons, show s + 175 * (x.length + 1) = s + 175 + 175 * x.length by omega]
    exact h5

theorem heard_words {P : Nat} {c : Nat → Nat} : ∀ (l : List (Nat × Message)) (t : Nat) (ts : List (Nat × Word)), MessagesHeard P c t l ts →
    ts.map Prod.snd = wordsFor (l.map Prod.snd) ∧ ∃ ts0 f, ts = ts0 ++ [(f, wFree)] ∧ callsEnd P c t l + 2 * P ≤ f * P ∧ f * P ≤ callsEnd P c t l + 376 * P := by
  intro l
  induction l with
  | nil =>
    intro t ts ⟨f, h1, h2, h3⟩
    exact ⟨by rw [h1]; rfl, [], f, h1, h2, h3⟩
  | cons x l ih =>
    obtain ⟨n, m⟩ := x
    intro t ts ⟨f, b, ts1, ts2, h1, h2, h3, h4, h5, h6, h7⟩
    obtain ⟨i1, ts0, f', i2, i3, i4⟩ := ih _ _ h7
    refine ⟨?_, (f, wFree) :: (b, wBusy) :: (ts1 ++ ts0), f', ?_, i3, i4⟩
    · rw [h1, List.map_cons, List.map_cons, List.map_append, frames_words _ _ _ h6, i1]
      simp [wordsFor]
    · rw [h1, i2]; simp

theorem heard_last {P : Nat} {c : Nat → Nat} : ∀ (l : List (Nat × Message)) (t n : Nat) (m : Message) (ts : List (Nat × Word)), MessagesHeard P c t (l ++ [(n, m)]) ts →
    ∃ ts0 b ts1 f, ts = ts0 ++ (b, wBusy) :: (ts1 ++ [(f, wFree)]) ∧ ts0.map Prod.snd = wordsFor (l.map Prod.snd) ∧ c (n + 1) + 25 * P ≤ b * P ∧ b * P ≤ c (n + 1) + 33 * P ∧
      FramesHeard P c (n + 1) m.bytes ts1 ∧ c (finalStart n m) + 350 * P ≤ f * P ∧ f * P ≤ c (finalStart n m) + 724 * P := by
  intro l
  induction l with
  | nil =>
    intro t n m ts ⟨f, b, ts1, ts2, h1, h2, h3, h4, h5, h6, f', h7, h8, h9⟩
    exact ⟨[(f, wFree)], b, ts1, f', by rw [h1, h7]; rfl, rfl, h4, h5, h6, by omega, by omega⟩
  | cons x l ih =>
    obtain ⟨n', m'⟩ := x
    intro t n m ts ⟨f, b, ts1, ts2, h1, h2, h3, h4, h5, h6, h7⟩
    obtain ⟨ts0, b', ts1', f', i1, i2, i3⟩ := ih _ _ _ _ h7
    refine ⟨(f, wFree) :: (b, wBusy) :: (ts1 ++ ts0), b', ts1', f', ?_, ?_, i3⟩
    · rw [h1, i1]; simp
    · rw [List.map_cons, List.map_cons, List.map_append, frames_words _ _ _ h6, i2]
      simp [wordsFor]

/-! ## What was taken -/

theorem comeBy_length (ts : List (Nat × Word)) (N : Nat) : (comeBy ts N).length ≤ ts.length := by
  unfold comeBy
  rw [List.length_map]
  exact List.length_filter_le ..

theorem comeBy_all {ts : List (Nat × Word)} {N : Nat} (h : ∀ x ∈ ts, x.1 < N) : comeBy ts N = ts.map Prod.snd := by
  unfold comeBy
  rw [List.filter_eq_self.mpr fun x hx => by simpa using h x hx]

theorem comeBy_none {ts : List (Nat × Word)} {N : Nat} (h : ∀ x ∈ ts, N ≤ x.1) : comeBy ts N = [] := by
  unfold comeBy
  rw [List.filter_eq_nil_iff.mpr fun x hx => by have := h x hx; simp; omega]
  rfl

theorem comeBy_append (a b : List (Nat × Word)) (N : Nat) : comeBy (a ++ b) N = comeBy a N ++ comeBy b N := by
  unfold comeBy
  rw [List.filter_append, List.map_append]

/-- The next word. -/
theorem next_word {a b : List (Nat × Word)} {k : Nat} {w : Word} (hs : (a ++ (k, w) :: b).Pairwise fun x y => x.1 < y.1) {lo hi : Nat} {v : List Word}
    (h1 : comeBy (a ++ (k, w) :: b) lo <+: a.map Prod.snd) (h2 : a.map Prod.snd ++ v <+: comeBy (a ++ (k, w) :: b) hi) (hv : v.length ≤ 1) :
    lo ≤ k ∧ (v = [] ∨ (v = [w] ∧ k < hi)) := by
  rw [List.pairwise_append] at hs
  obtain ⟨-, s2, s3⟩ := hs
  rw [List.pairwise_cons] at s2
  have ha : ∀ x ∈ a, x.1 < k := fun x hx => s3 x hx (k, w) (List.mem_cons_self ..)
  constructor
  · apply Nat.not_lt.mp
    intro hk
    rw [comeBy_append, comeBy_all (ts := a) (fun x hx => Nat.lt_trans (ha x hx) hk)] at h1
    have := h1.length_le
    rw [List.length_append, show ((k, w) :: b) = [(k, w)] ++ b from rfl, comeBy_append,
      comeBy_all (ts := [(k, w)]) (by intro x hx; rw [List.mem_singleton.mp hx]; exact hk), List.length_append] at this
    simp at this
    omega
  · cases v with
    | nil => exact .inl rfl
    | cons x v =>
      have : v = [] := by
        rw [← List.length_eq_zero_iff]
        rw [List.length_cons] at hv
        omega
      subst this
      right
      by_cases hk : k < hi
      · refine ⟨?_, hk⟩
        rw [comeBy_append, comeBy_all (ts := a) (fun x hx => Nat.lt_trans (ha x hx) hk), List.prefix_append_right_inj,
          show ((k, w) :: b) = [(k, w)] ++ b from rfl, comeBy_append, comeBy_all (ts := [(k, w)]) (by intro x hx; rw [List.mem_singleton.mp hx]; exact hk)] at h2
        have h2 : [x] <+: w :: comeBy b hi := h2
        rw [List.cons_prefix_cons] at h2
        rw [h2.1]
      · exfalso
        have hn : comeBy ((k, w) :: b) hi = [] := comeBy_none (by
          intro y hy
          rcases List.mem_cons.mp hy with rfl | hy
          · exact Nat.not_lt.mp hk
          · have := s2.1 y hy
            have : k < y.1 := this
            omega)
        rw [comeBy_append, hn, List.append_nil] at h2
        have := h2.length_le
        have := comeBy_length a hi
        simp at *
        omega

/-- All words have been taken. -/
theorem no_word {ts : List (Nat × Word)} {hi : Nat} {v : List Word} (h2 : ts.map Prod.snd ++ v <+: comeBy ts hi) : v = [] ∧ ∀ x ∈ ts, x.1 < hi := by
  have hl := h2.length_le
  have hc := comeBy_length ts hi
  rw [List.length_append, List.length_map] at hl
  refine ⟨by rw [← List.length_eq_zero_iff]; omega, ?_⟩
  have : (ts.filter fun x => decide (x.1 < hi)).length = ts.length := by
    have : (comeBy ts hi).length = (ts.filter fun x => decide (x.1 < hi)).length := by unfold comeBy; rw [List.length_map]
    omega
  rw [List.length_filter_eq_length_iff] at this
  intro x hx
  simpa using this x hx

/-! ## The line -/

theorem busy_bytes (b : Bool) (bs : List UInt8) : busKnownBusy b (bs.map wByte) = b := by
  induction bs with
  | nil => rfl
  | cons x bs ih => exact ih

theorem busy_words (ms : List Message) : busKnownBusy true (wordsFor ms) = false := by
  have : ∀ (ms : List Message), busKnownBusy false (ms.flatMap fun m => wBusy :: (m.bytes.map wByte ++ [wFree])) = false := by
    intro ms
    induction ms with
    | nil => rfl
    | cons m ms ih =>
      rw [List.flatMap_cons, busKnownBusy_append, show (wBusy :: (m.bytes.map wByte ++ [wFree])) = [wBusy] ++ (m.bytes.map wByte ++ [wFree]) from rfl,
        busKnownBusy_append, busKnownBusy_append, busy_bytes]
      exact ih
  exact this ms

theorem words_ok (ms : List Message) : ∀ w ∈ wordsFor ms, WordOk w := by
  intro w hw
  unfold wordsFor at hw
  have hf : WordOk wFree := ⟨fun h => (by cases h.1), fun h => (by cases h.1), fun h => (by cases h)⟩
  have hb : WordOk wBusy := ⟨fun h => (by cases h.1), fun h => (by cases h.2), fun h => (by cases h)⟩
  rcases List.mem_cons.mp hw with rfl | hw
  · exact hf
  · rw [List.mem_flatMap] at hw
    obtain ⟨m, _, hw⟩ := hw
    rcases List.mem_cons.mp hw with rfl | hw
    · exact hb
    · rcases List.mem_append.mp hw with hw | hw
      · obtain ⟨b, _, rfl⟩ := List.mem_map.mp hw
        exact wByte_ok b
      · rw [List.mem_singleton.mp hw]; exact hf

end P1P2
