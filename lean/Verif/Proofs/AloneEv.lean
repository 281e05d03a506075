import Verif.Spec.Alone
import Verif.Props.Heard
/-!
# Events in the transmitter: appending, and events without calls
-/
namespace P1P2

theorem cyclesOf_append (a b : List DevEv) : cyclesOf (a ++ b) = cyclesOf a + cyclesOf b := by
  induction a with
  | nil => rw [List.nil_append, cyclesOf, Nat.zero_add]
  | cons e a ih => cases e <;> simp only [List.cons_append, cyclesOf, ih] <;> omega

theorem sendsFrom_append : ∀ (a b : List DevEv) (n : Nat), sendsFrom n (a ++ b) = sendsFrom n a ++ sendsFrom (n + cyclesOf a) b := by
  intro a
  induction a with
  | nil => intro b n; rfl
  | cons e a ih =>
    intro b n
    cases e with
    | call c => cases c <;> simp only [List.cons_append, sendsFrom, cyclesOf, ih]
    | error => simp only [List.cons_append, sendsFrom, cyclesOf, ih]
    | dma => simp only [List.cons_append, sendsFrom, cyclesOf, ih]
    | cycle => simp only [List.cons_append, sendsFrom, cyclesOf, ih, Nat.add_assoc, Nat.add_comm 1]

theorem callsOf_append (a b : List DevEv) : callsOf (a ++ b) = callsOf a ++ callsOf b := by
  unfold callsOf
  rw [List.filterMap_append]

theorem TxDev.run_append {a b : List DevEv} : ∀ {d d' : TxDev} {o : List (Nat × Bool)} {r : List Bool}, d.run (a ++ b) = some (d', o, r) →
    ∃ d1 o1 r1 o2 r2, d.run a = some (d1, o1, r1) ∧ d1.run b = some (d', o2, r2) ∧ o = o1 ++ o2 ∧ r = r1 ++ r2 := by
  induction a with
  | nil => intro d d' o r h; exact ⟨d, [], [], o, r, rfl, h, rfl, rfl⟩
  | cons e a ih =>
    intro d d' o r h
    rw [List.cons_append, TxDev.run, Option.bind_eq_some_iff] at h
    obtain ⟨⟨d0, o0, r0⟩, e0, h⟩ := h
    rw [Option.map_eq_some_iff] at h
    obtain ⟨⟨d9, o9, r9⟩, e9, h⟩ := h
    simp only [Prod.mk.injEq] at h
    obtain ⟨rfl, rfl, rfl⟩ := h
    obtain ⟨d1, o1, r1, o2, r2, h1, h2, rfl, rfl⟩ := ih e9
    refine ⟨d1, o0 ++ o1, r0 ++ r1, o2, r2, ?_, h2, by rw [List.append_assoc], by rw [List.append_assoc]⟩
    rw [TxDev.run, e0, Option.bind_some, h1, Option.map_some]

theorem run_cycles {es : List DevEv} : ∀ {d d' : TxDev} {o : List (Nat × Bool)} {r : List Bool}, d.run es = some (d', o, r) → o.length = cyclesOf es := by
  induction es with
  | nil =>
    intro d d' o r h
    simp only [TxDev.run, Option.some.injEq, Prod.mk.injEq] at h
    rw [← h.2.1]; rfl
  | cons e a ih =>
    intro d d' o r h
    rw [TxDev.run, Option.bind_eq_some_iff] at h
    obtain ⟨⟨d0, o0, r0⟩, e0, h⟩ := h
    rw [Option.map_eq_some_iff] at h
    obtain ⟨⟨d9, o9, r9⟩, e9, h⟩ := h
    simp only [Prod.mk.injEq] at h
    obtain ⟨rfl, rfl, rfl⟩ := h
    rw [List.length_append, ih e9]
    cases e with
    | call c => simp only [TxDev.step, Option.some.injEq, Prod.mk.injEq] at e0; rw [← e0.2.1]; simp [cyclesOf]
    | error => simp only [TxDev.step, Option.some.injEq, Prod.mk.injEq] at e0; rw [← e0.2.1]; simp [cyclesOf]
    | dma =>
      simp only [TxDev.step, Option.map_eq_some_iff, Prod.mk.injEq] at e0
      obtain ⟨_, _, _, e0, _⟩ := e0
      rw [← e0]; simp [cyclesOf]
    | cycle =>
      simp only [TxDev.step, Option.map_eq_some_iff, Prod.mk.injEq] at e0
      obtain ⟨_, _, _, e0, _⟩ := e0
      rw [← e0]; simp [cyclesOf]; omega

/-- The end of the last accepted frame and what the DMA still has to move, as `ClearsLate` counts them. -/
def lateEnd : (e n left : Nat) → List DevEv → Nat × Nat
  | e, _, left, [] => (e, left)
  | e, n, left, .call (.send m) :: es => if left = 0 ∧ m.length ≤ 32 then lateEnd (max e n + 175 * m.length) n m.length es else lateEnd e n left es
  | e, n, _, .call .clearFifo :: es => lateEnd e n 0 es
  | e, n, left, .call (.shutdown _) :: es => lateEnd e n left es
  | e, n, left, .error :: es => lateEnd e n left es
  | e, n, left, .dma :: es => lateEnd e n (left - 1) es
  | e, n, left, .cycle :: es => lateEnd e (n + 1) left es

theorem clearsLate_append : ∀ (a b : List DevEv) (e n left : Nat), ClearsLate e n left (a ++ b) ↔
    ClearsLate e n left a ∧ ClearsLate (lateEnd e n left a).1 (n + cyclesOf a) (lateEnd e n left a).2 b := by
  intro a
  induction a with
  | nil => intro b e n left; simp [ClearsLate, lateEnd, cyclesOf]
  | cons x a ih =>
    intro b e n left
    cases x with
    | call c =>
      cases c with
      | shutdown s => simp only [List.cons_append, ClearsLate, lateEnd, cyclesOf]; exact ih b e n left
      | clearFifo => simp only [List.cons_append, ClearsLate, lateEnd, cyclesOf]; rw [ih b e n 0, and_assoc]
      | send m =>
        simp only [List.cons_append, ClearsLate, lateEnd, cyclesOf]
        by_cases h : left = 0 ∧ m.length ≤ 32
        · simp only [if_pos h]; exact ih ..
        · simp only [if_neg h]; exact ih ..
    | error => simp only [List.cons_append, ClearsLate, lateEnd, cyclesOf]; exact ih b e n left
    | dma => simp only [List.cons_append, ClearsLate, lateEnd, cyclesOf]; exact ih b e n _
    | cycle =>
      simp only [List.cons_append, ClearsLate, lateEnd, cyclesOf]
      rw [ih b e (n + 1) left, show n + 1 + cyclesOf a = n + (cyclesOf a + 1) by omega]

theorem lateEnd_append : ∀ (a b : List DevEv) (e n left : Nat), lateEnd e n left (a ++ b) =
    lateEnd (lateEnd e n left a).1 (n + cyclesOf a) (lateEnd e n left a).2 b := by
  intro a
  induction a with
  | nil => intro b e n left; simp [lateEnd, cyclesOf]
  | cons x a ih =>
    intro b e n left
    cases x with
    | call c =>
      cases c with
      | shutdown s => simp only [List.cons_append, lateEnd, cyclesOf]; exact ih b e n left
      | clearFifo => simp only [List.cons_append, lateEnd, cyclesOf]; exact ih b e n 0
      | send m =>
        simp only [List.cons_append, lateEnd, cyclesOf]
        by_cases h : left = 0 ∧ m.length ≤ 32
        · simp only [if_pos h]; exact ih ..
        · simp only [if_neg h]; exact ih ..
    | error => simp only [List.cons_append, lateEnd, cyclesOf]; exact ih b e n left
    | dma => simp only [List.cons_append, lateEnd, cyclesOf]; exact ih b e n _
    | cycle =>
      simp only [List.cons_append, lateEnd, cyclesOf]
      rw [ih b e (n + 1) left, show n + 1 + cyclesOf a = n + (cyclesOf a + 1) by omega]

theorem after_append : ∀ (a b : List DevEv) (r : LineRef) (e n left : Nat), r.after left (a ++ b) = (r.after left a).after (lateEnd e n left a).2 b := by
  intro a
  induction a with
  | nil => intro b r e n left; rfl
  | cons x a ih =>
    intro b r e n left
    cases x with
    | call c =>
      cases c with
      | shutdown s => simp only [List.cons_append, LineRef.after, lateEnd]; exact ih ..
      | clearFifo => simp only [List.cons_append, LineRef.after, lateEnd]; exact ih ..
      | send m =>
        simp only [List.cons_append, LineRef.after, lateEnd]
        by_cases h : left = 0 ∧ m.length ≤ 32
        · simp only [if_pos h]; exact ih ..
        · simp only [if_neg h]; exact ih ..
    | error => simp only [List.cons_append, LineRef.after, lateEnd]; exact ih ..
    | dma => simp only [List.cons_append, LineRef.after, lateEnd]; exact ih ..
    | cycle => simp only [List.cons_append, LineRef.after, lateEnd]; exact ih ..

/-! ## Events without calls -/

theorem quiet_tail {e : DevEv} {es : List DevEv} (h : callsOf (e :: es) = []) : callsOf es = [] ∧ ∀ c, e ≠ .call c := by
  unfold callsOf at h ⊢
  cases e with
  | call c => simp at h
  | error => exact ⟨h, fun c => by simp⟩
  | dma => exact ⟨h, fun c => by simp⟩
  | cycle => exact ⟨h, fun c => by simp⟩

theorem quiet_sends : ∀ {es : List DevEv} (n : Nat), callsOf es = [] → sendsFrom n es = [] := by
  intro es
  induction es with
  | nil => intro n _; rfl
  | cons e es ih =>
    intro n h
    obtain ⟨h, hn⟩ := quiet_tail h
    cases e with
    | call c => exact absurd rfl (hn c)
    | error => exact ih n h
    | dma => exact ih n h
    | cycle => exact ih (n + 1) h

theorem quiet_late : ∀ {es : List DevEv} (e n left : Nat), callsOf es = [] →
    ClearsLate e n left es ∧ (lateEnd e n left es).1 = e ∧ (left = 0 → (lateEnd e n left es).2 = 0) := by
  intro es
  induction es with
  | nil => intro e n left _; exact ⟨trivial, rfl, id⟩
  | cons x es ih =>
    intro e n left h
    obtain ⟨h, hn⟩ := quiet_tail h
    cases x with
    | call c => exact absurd rfl (hn c)
    | error => exact ih e n left h
    | dma =>
      obtain ⟨a1, a2, a3⟩ := ih e n (left - 1) h
      exact ⟨a1, a2, fun h => a3 (by omega)⟩
    | cycle => exact ih e (n + 1) left h

theorem quiet_after : ∀ {es : List DevEv} (r : LineRef) (left : Nat), callsOf es = [] → r.queue = [] → (r.after left es).queue = [] := by
  intro es
  induction es with
  | nil => intro r left _ h; exact h
  | cons x es ih =>
    intro r left h hq
    obtain ⟨h, hn⟩ := quiet_tail h
    cases x with
    | call c => exact absurd rfl (hn c)
    | error => exact ih r left h hq
    | dma => exact ih r _ h hq
    | cycle =>
      refine ih _ left h ?_
      unfold LineRef.cycle
      cases hr : r.rest with
      | cons o rest => exact hq
      | nil => dsimp only; rw [hq]; exact hq

/-- Events with a single call. -/
theorem calls_one {es : List DevEv} {cmd : HwCmd} (h : callsOf es = [cmd]) : ∃ a b, es = a ++ .call cmd :: b ∧ callsOf a = [] ∧ callsOf b = [] := by
  induction es with
  | nil => cases h
  | cons e es ih =>
    unfold callsOf at h
    cases e with
    | call c =>
      rw [List.filterMap_cons] at h
      simp only [List.cons.injEq] at h
      obtain ⟨rfl, h⟩ := h
      exact ⟨[], es, rfl, rfl, h⟩
    | error => obtain ⟨a, b, rfl, h1, h2⟩ := ih h; exact ⟨.error :: a, b, rfl, h1, h2⟩
    | dma => obtain ⟨a, b, rfl, h1, h2⟩ := ih h; exact ⟨.dma :: a, b, rfl, h1, h2⟩
    | cycle => obtain ⟨a, b, rfl, h1, h2⟩ := ih h; exact ⟨.cycle :: a, b, rfl, h1, h2⟩

theorem calls_two {es : List DevEv} {c1 : HwCmd} {cs : List HwCmd} (h : callsOf es = c1 :: cs) : ∃ a b, es = a ++ .call c1 :: b ∧ callsOf a = [] ∧ callsOf b = cs := by
  induction es with
  | nil => cases h
  | cons e es ih =>
    unfold callsOf at h
    cases e with
    | call c =>
      rw [List.filterMap_cons] at h
      simp only [List.cons.injEq] at h
      obtain ⟨rfl, h⟩ := h
      exact ⟨[], es, rfl, rfl, h⟩
    | error => obtain ⟨a, b, rfl, h1, h2⟩ := ih h; exact ⟨.error :: a, b, rfl, h1, h2⟩
    | dma => obtain ⟨a, b, rfl, h1, h2⟩ := ih h; exact ⟨.dma :: a, b, rfl, h1, h2⟩
    | cycle => obtain ⟨a, b, rfl, h1, h2⟩ := ih h; exact ⟨.cycle :: a, b, rfl, h1, h2⟩

/-! ## Messages -/

theorem callsEnd_append {P : Nat} {c : Nat → Nat} : ∀ (l : List (Nat × Message)) (t n : Nat) (m : Message),
    callsEnd P c t (l ++ [(n, m)]) = c (finalStart n m) + 348 * P := by
  intro l
  induction l with
  | nil => intro t n m; rfl
  | cons x l ih => intro t n m; exact ih _ n m

theorem callsApart_append {P M : Nat} {c : Nat → Nat} : ∀ (l : List (Nat × Message)) (t n : Nat) (m : Message), CallsApart P M c t l →
    callsEnd P c t l + 352 * P ≤ c (n + 1) → c (n + 1) ≤ callsEnd P c t l + M * P → CallsApart P M c t (l ++ [(n, m)]) := by
  intro l
  induction l with
  | nil => intro t n m _ h1 h2; exact ⟨h1, h2, trivial⟩
  | cons x l ih => intro t n m ⟨a1, a2, a3⟩ h1 h2; exact ⟨a1, a2, ih _ n m a3 h1 h2⟩

theorem callsGap_append {P G : Nat} {c : Nat → Nat} : ∀ (l : List (Nat × Message)) (t t' n : Nat) (m : Message), t ≤ t' → CallsGap G c t l →
    callsEnd P c t' l + G ≤ c (n + 1) → CallsGap G c t (l ++ [(n, m)]) := by
  intro l
  induction l with
  | nil => intro t t' n m h _ h1; have h1 : t' + G ≤ c (n + 1) := h1; exact ⟨by omega, trivial⟩
  | cons x l ih => intro t t' n m h ⟨a1, a2⟩ h1; exact ⟨a1, ih _ _ n m (Nat.le_add_right ..) a2 h1⟩

end P1P2
