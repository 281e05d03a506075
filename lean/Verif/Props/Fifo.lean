import Verif.Proofs.Fifo
/-!
# C09-C12: interrupt-safe FIFO and host line buffer
-/
namespace P1P2
open Spec
variable {α : Type}

/-- A sequence of uninterrupted calls and their results. -/
def Fifo.runCalls (N : Nat) : Fifo α → List (QOp α) → Res (Fifo α × List (QRes α))
  | f, [] => .ok (f, [])
  | f, op :: ops => do
    let r ← Fifo.call N f op
    let rs ← Fifo.runCalls N r.1 ops
    .ok (rs.1, r.2 :: rs.2)

theorem Fifo.Rep.runCalls {N : Nat} {f : Fifo α} {l : List α} (h : Fifo.Rep N f l) (ops : List (QOp α)) :
    ∃ f', Fifo.runCalls N f ops = .ok (f', (queueRun N l ops).2) ∧ Fifo.Rep N f' (queueRun N l ops).1 := by
  induction ops generalizing f l with
  | nil => exact ⟨f, rfl, h⟩
  | cons op ops ih =>
    obtain ⟨f1, h1, h2⟩ := h.call op
    obtain ⟨f2, h3, h4⟩ := ih h2
    refine ⟨f2, ?_, h4⟩
    simp only [Fifo.runCalls, h1, Res.ok_bind, h3]
    rfl

/-! ## C09 -/

/-- Starting empty or from `N` initial elements, every sequence of calls returns what a queue of
capacity `N` returns, and no access leaves the array (`.ok`). -/
theorem C09_bounded_queue (N : Nat) (hN : 0 < N) (z : α) (ops : List (QOp α)) :
    (∃ f', Fifo.runCalls N (Fifo.mk0 z) ops = .ok (f', (queueRun N [] ops).2)) ∧
    (∀ init : Nat → α, ∃ f f', Fifo.mkInit N z init = .ok f ∧
      Fifo.runCalls N f ops = .ok (f', (queueRun N ((List.range N).map init) ops).2)) := by
  constructor
  · obtain ⟨f', h, _⟩ := (Fifo.rep_mk0 hN z).runCalls ops
    exact ⟨f', h⟩
  · intro init
    obtain ⟨f, h1, h2⟩ := Fifo.rep_mkInit hN z init
    obtain ⟨f', h, _⟩ := h2.runCalls ops
    exact ⟨f, f', h1, h⟩

/-- The specification on a concrete run, capacity 2: the third push is refused, the oldest element
leaves first. -/
example : (queueRun 2 ([] : List Nat) [.push 5, .push 6, .push 7, .full, .pop, .length, .pop, .pop]).2 =
    [.bool true, .bool true, .bool false, .bool true, .popped (some 5), .num 1, .popped (some 6),
      .popped none] := by decide

/-! ## C10 -/

/-- **C10 is violated**: after one pop the positional read returns an element that has already left
the queue, for every capacity of at least 2. -/
theorem C10_refuted (N : Nat) (hN : 2 ≤ N) (z a b : α) :
    ∃ f r, Fifo.runCalls N (Fifo.mk0 z) [.push a, .push b, .pop] = .ok (f, r) ∧
      (queueRun N [] [.push a, .push b, .pop]).1 = [b] ∧ Fifo.at_ N f 0 = .ok a := by
  have h2 : (0 : Nat) < N := by omega
  have h4 : (1 : Nat) < N := by omega
  have h3 : ¬ (0 + 1 = N) := by omega
  have e1 : Fifo.push N (Fifo.mk0 z) a =
      .ok ({ data := upd (fun _ => z) 0 a, offRead := 0, offWrite := 1, length := 1 }, true) := by
    simp [Fifo.push, Fifo.mk0, h2]; omega
  have e2 : Fifo.push N { data := upd (fun _ => z) 0 a, offRead := 0, offWrite := 1, length := 1 } b =
      .ok ({ data := upd (upd (fun _ => z) 0 a) 1 b, offRead := 0,
             offWrite := (if 1 + 1 = N then 0 else 1 + 1), length := 2 }, true) := by
    simp [Fifo.push, h4]
  have e3 : Fifo.pop N
      { data := upd (upd (fun _ => z) 0 a) 1 b, offRead := 0, offWrite := (if 1 + 1 = N then 0 else 1 + 1), length := 2 } =
      .ok ({ data := upd (upd (fun _ => z) 0 a) 1 b, offRead := (if 0 + 1 = N then 0 else 0 + 1),
             offWrite := (if 1 + 1 = N then 0 else 1 + 1), length := 1 }, some a) := by
    simp [Fifo.pop, h2, upd]
  have hrun : Fifo.runCalls N (Fifo.mk0 z) [.push a, .push b, .pop] = .ok
      ({ data := upd (upd (fun _ => z) 0 a) 1 b, offRead := (if 0 + 1 = N then 0 else 0 + 1),
         offWrite := (if 1 + 1 = N then 0 else 1 + 1), length := 1 },
       [.bool true, .bool true, .popped (some a)]) := by
    simp only [Fifo.runCalls, Fifo.call, e1, Res.ok_bind, e2, e3]
  refine ⟨_, _, hrun, ?_, ?_⟩
  · simp [queueRun, queue, h2, h4]
  · simp [Fifo.at_, h2, upd]

/-- **C10, the part that holds**: as long as nothing was popped since construction (or the last clear),
`At(i)` is the i-th oldest element. -/
theorem C10_no_pop_partial (N : Nat) (hN : 0 < N) (z : α) (ops : List (QOp α)) (hops : QOp.pop ∉ ops) :
    ∃ f r, Fifo.runCalls N (Fifo.mk0 z) ops = .ok (f, r) ∧
      ∀ i (h : i < (queueRun N [] ops).1.length), Fifo.at_ N f i = .ok (queueRun N [] ops).1[i] := by
  have key : ∀ (ops : List (QOp α)) (f : Fifo α) (l : List α), Fifo.Rep N f l → f.offRead = 0 →
      QOp.pop ∉ ops → ∃ f', Fifo.runCalls N f ops = .ok (f', (queueRun N l ops).2) ∧
        Fifo.Rep N f' (queueRun N l ops).1 ∧ f'.offRead = 0 := by
    intro ops
    induction ops with
    | nil => intro f l h h0 _; exact ⟨f, rfl, h, h0⟩
    | cons op ops ih =>
      intro f l h h0 hop
      obtain ⟨f1, h1, h2⟩ := h.call op
      have h01 : f1.offRead = 0 := by
        cases op with
        | push v =>
          simp only [Fifo.call, Fifo.push] at h1
          split at h1
          · rw [wr_of_lt _ _ (by have := h.rd; rw [h.wr]; exact Nat.mod_lt _ hN)] at h1
            simp only [Res.ok_bind, Res.ok.injEq, Prod.mk.injEq] at h1
            rw [← h1.1]; exact h0
          · simp only [Res.ok_bind, Res.ok.injEq, Prod.mk.injEq] at h1
            rw [← h1.1]; exact h0
        | pop => simp at hop
        | length => simp [Fifo.call] at h1; rw [← h1.1]; exact h0
        | empty => simp [Fifo.call] at h1; rw [← h1.1]; exact h0
        | full => simp [Fifo.call] at h1; rw [← h1.1]; exact h0
        | clear => simp [Fifo.call] at h1; rw [← h1.1]; rfl
      obtain ⟨f2, h3, h4, h5⟩ := ih f1 _ h2 h01 (by simp at hop; exact hop.2)
      refine ⟨f2, ?_, h4, h5⟩
      simp only [Fifo.runCalls, h1, Res.ok_bind, h3]
      rfl
  obtain ⟨f', h1, h2, h3⟩ := key ops _ _ (Fifo.rep_mk0 hN z) rfl hops
  refine ⟨f', _, h1, ?_⟩
  intro i hi
  have hc := h2.cap
  have := h2.at_ i hi
  rw [h3, Nat.zero_add, Nat.mod_eq_of_lt (by omega)] at this
  rw [Fifo.at_, rd_of_lt _ (by omega), this]

/-- How many elements were taken since construction or the last clear, after one more call on a queue that holds `k` elements. -/
def takenNext (n k : Nat) : QOp α → Nat
  | .clear => 0
  | .pop => n + min k 1
  | _ => n

/-- How many elements were taken since construction or the last clear: from `n`, if the queue holds `l`, by the calls `ops`. -/
def takenSince (N : Nat) : Nat → List α → List (QOp α) → Nat
  | n, _, [] => n
  | n, l, op :: ops => takenSince N (takenNext n l.length op) (queue N l op).1 ops

/-- **C10, exactly**: for every history: after `n` elements were taken since construction or the last clear, the `i`-th oldest element is `At((n + i) mod N)`.  So `At(i)` is right
whenever `n` is a multiple of the capacity, and the property fails for `n = 1` (`C10_refuted`). -/
theorem C10_exact (N : Nat) (hN : 0 < N) (z : α) (ops : List (QOp α)) :
    ∃ f r, Fifo.runCalls N (Fifo.mk0 z) ops = .ok (f, r) ∧
      ∀ i (h : i < (queueRun N [] ops).1.length), Fifo.at_ N f ((takenSince N 0 [] ops + i) % N) = .ok (queueRun N [] ops).1[i] := by
  have key : ∀ (ops : List (QOp α)) (f : Fifo α) (l : List α) (n : Nat), Fifo.Rep N f l → f.offRead = n % N →
      ∃ f', Fifo.runCalls N f ops = .ok (f', (queueRun N l ops).2) ∧
        Fifo.Rep N f' (queueRun N l ops).1 ∧ f'.offRead = takenSince N n l ops % N := by
    intro ops
    induction ops with
    | nil => intro f l n h h0; exact ⟨f, rfl, h, h0⟩
    | cons op ops ih =>
      intro f l n h h0
      obtain ⟨f1, h1, h2⟩ := h.call op
      have h01 : f1.offRead = takenNext n l.length op % N := by
        cases op with
        | push v =>
          simp only [Fifo.call, Fifo.push] at h1
          split at h1
          · rw [wr_of_lt _ _ (by have := h.rd; rw [h.wr]; exact Nat.mod_lt _ hN)] at h1
            simp only [Res.ok_bind, Res.ok.injEq, Prod.mk.injEq] at h1
            rw [← h1.1]; exact h0
          · simp only [Res.ok_bind, Res.ok.injEq, Prod.mk.injEq] at h1
            rw [← h1.1]; exact h0
        | pop =>
          cases l with
          | nil =>
            rw [Fifo.call, h.pop_nil] at h1
            simp only [Res.ok_bind, Res.ok.injEq, Prod.mk.injEq] at h1
            rw [← h1.1]; exact h0
          | cons v l =>
            have hl := h.len
            rw [List.length_cons] at hl
            rw [Fifo.call, Fifo.pop, if_pos (by omega), rd_of_lt _ h.rd] at h1
            simp only [Res.ok_bind, Res.ok.injEq, Prod.mk.injEq] at h1
            rw [← h1.1]
            show (if f.offRead + 1 = N then 0 else f.offRead + 1) = _
            rw [Fifo.succ_mod h.rd, h0, takenNext, List.length_cons, show n + min (l.length + 1) 1 = n + 1 by omega]
            exact Nat.mod_add_mod ..
        | length => simp [Fifo.call] at h1; rw [← h1.1]; exact h0
        | empty => simp [Fifo.call] at h1; rw [← h1.1]; exact h0
        | full => simp [Fifo.call] at h1; rw [← h1.1]; exact h0
        | clear => simp [Fifo.call] at h1; rw [← h1.1, takenNext, Nat.zero_mod]; rfl
      obtain ⟨f2, h3, h4, h5⟩ := ih f1 _ _ h2 h01
      refine ⟨f2, ?_, h4, h5⟩
      simp only [Fifo.runCalls, h1, Res.ok_bind, h3]
      rfl
  obtain ⟨f', h1, h2, h3⟩ := key ops _ _ 0 (Fifo.rep_mk0 hN z) (Nat.zero_mod N).symm
  refine ⟨f', _, h1, fun i hi => ?_⟩
  have := h2.at_ i hi
  rw [h3, Nat.mod_add_mod] at this
  rw [Fifo.at_, rd_of_lt _ (Nat.mod_lt _ hN), this]

/-- Three elements taken and one left: At(1) of a FIFO for two. -/
example : takenSince 2 0 ([] : List Nat) [.push 5, .push 6, .pop, .pop, .push 7, .push 8, .pop, .pop, .pop] = 4 ∧
    takenSince 2 0 ([] : List Nat) [.push 5, .push 6, .pop, .push 7, .pop, .push 8, .pop] = 3 ∧
    (queueRun 2 ([] : List Nat) [.push 5, .push 6, .pop, .push 7, .pop, .push 8, .pop]).1 = [8] := by decide

/-! ## C11 -/

/-- For every interleaving of the main program's instructions with interrupt handler runs: the calls,
taken in order of completion, return exactly what a queue returns, and when no call is in progress
every further sequence of calls behaves as on the resulting queue content. -/
theorem C11_atomic (N : Nat) (hN : 0 < N) (z : α) (events : List (Event (QOp α)))
    (c : Core (Fifo α) α (QOp α) (QRes α))
    (h : Core.run (fifoObj α N) (Core.init (Fifo.mk0 z)) events = some c) :
    (queueRun N [] (c.log.map (·.2.1))).2 = c.log.map (·.2.2) ∧
    (c.cur = none → ∀ ops, ∃ f', Fifo.runCalls N c.shared ops =
      .ok (f', (queueRun N (queueRun N [] (c.log.map (·.2.1))).1 ops).2)) := by
  have hrep : ∀ (log : List (Bool × QOp α × QRes α)) (l : List α), Legal (queue N) l log →
      (queueRun N l (log.map (·.2.1))).2 = log.map (·.2.2) := by
    intro log
    induction log with
    | nil => intro l _; rfl
    | cons x log ih =>
      obtain ⟨w, op, r⟩ := x
      intro l hl
      obtain ⟨h1, h2⟩ := hl
      simp only [List.map_cons, queueRun, ih _ h2, h1]
  have hrep2 : ∀ (log : List (Bool × QOp α × QRes α)) (l : List α),
      (queueRun N l (log.map (·.2.1))).1 = replay (queue N) l log := by
    intro log
    induction log with
    | nil => intro l; rfl
    | cons x log ih =>
      obtain ⟨w, op, r⟩ := x
      intro l
      simp only [List.map_cons, queueRun, replay, ih]
  have hseq : SeqOk (fifoObj α N) (queue N) (Fifo.Rep N) := by
    intro s a op s' g' hR hr
    exact Fifo.acts_call hR op s' g' hr
  have hinv : Inv (fifoObj α N) (queue N) (Fifo.Rep N) [] c :=
    Inv.run hseq events (c := Core.init (Fifo.mk0 z)) ⟨trivial, Fifo.rep_mk0 hN z⟩ h
  refine ⟨hrep _ _ hinv.legal, ?_⟩
  intro hcur ops
  have hc := hinv.call
  simp only [InCall, hcur] at hc
  rw [hrep2]
  obtain ⟨f', h1, _⟩ := hc.runCalls ops
  exact ⟨f', h1⟩

/-- Non-vacuity: the handler pushes 7 while the main program is in the middle of a push (before it has
disabled interrupts); the interrupt cannot be taken inside the critical section. -/
example : ∃ c, Core.run (fifoObj Nat 4) (Core.init (Fifo.mk0 0))
    ([.call (.push 5), .irq [.push 7]] ++ List.replicate 9 .step ++ [.irq [.pop]]) = some c ∧
    c.log = [(false, .push 7, .bool true), (true, .push 5, .bool true), (false, .pop, .popped (some 7))] ∧
    c.cur = none ∧
    Core.run (fifoObj Nat 4) (Core.init (Fifo.mk0 0)) [.call (.push 5), .step, .step, .irq [.pop]] = none := by
  refine ⟨_, rfl, rfl, rfl, rfl⟩

/-! ## C12 -/

/-- A call on the line buffer (`At` beyond the array is not made). -/
def LineRecv.call (N : Nat) (f : LineRecv α) : LOp α → Res (LineRecv α × LRes α)
  | .push v => do let r ← LineRecv.push N f v; .ok (r.1, .bool r.2)
  | .length => .ok (f, .num f.off)
  | .empty => .ok (f, .bool f.isEmpty)
  | .full => .ok (f, .bool (f.isFull N))
  | .clear => .ok (f.clear, .unit)
  | .at_ i => do let v ← LineRecv.at_ N f i; .ok (f, .elem v)

def LineRecv.runCalls (N : Nat) : LineRecv α → List (LOp α) → Res (LineRecv α × List (LRes α))
  | f, [] => .ok (f, [])
  | f, op :: ops => do
    let r ← LineRecv.call N f op
    let rs ← LineRecv.runCalls N r.1 ops
    .ok (rs.1, r.2 :: rs.2)

/-- The line buffer holds `l`. -/
structure LineRecv.Rep (N : Nat) (f : LineRecv α) (l : List α) : Prop where
  len : f.off = l.length
  cap : l.length ≤ N
  at_ : ∀ j (h : j < l.length), f.data j = l[j]

theorem LineRecv.Rep.push {N : Nat} {f : LineRecv α} {l : List α} (h : LineRecv.Rep N f l) (v : α) :
    ∃ f', LineRecv.push N f v = .ok (f', decide (l.length < N)) ∧
      LineRecv.Rep N f' (if l.length < N then l ++ [v] else l) := by
  by_cases hl : l.length < N
  · refine ⟨{ f with data := upd f.data f.off v, off := f.off + 1 }, ?_, ?_⟩
    · simp only [LineRecv.push]
      rw [if_pos (by rw [h.len]; exact hl), wr_of_lt _ _ (by rw [h.len]; exact hl), Res.ok_bind]
      simp [hl]
    · rw [if_pos hl]
      refine ⟨by simp [h.len], by simp; omega, ?_⟩
      intro j hj
      show upd f.data f.off v j = _
      by_cases hj2 : j < l.length
      · rw [upd_other _ _ (by rw [h.len]; omega), List.getElem_append_left hj2, h.at_ j hj2]
      · have : j = l.length := by simp at hj; omega
        subst this
        simp [h.len]
  · refine ⟨f, ?_, by rw [if_neg hl]; exact h⟩
    simp only [LineRecv.push]
    rw [if_neg (by rw [h.len]; exact hl)]
    simp [hl]

/-- Every sequence of calls (reads within the array) behaves as an append-only buffer of `N`
characters; no access leaves the array; the characters visible through `Data()` are the content. -/
theorem C12_line_buffer (N : Nat) (z : α) (ops : List (LOp α)) (hops : ∀ i, LOp.at_ i ∈ ops → i < N) :
    ∃ f rs, LineRecv.runCalls N (LineRecv.mk0 z) ops = .ok (f, rs) ∧ bufferOuts N [] ops rs ∧
      (ops.foldl (buffer N) []).length ≤ N ∧
      ∀ i (h : i < (ops.foldl (buffer N) []).length), f.data i = (ops.foldl (buffer N) [])[i] := by
  have key : ∀ (ops : List (LOp α)) (f : LineRecv α) (l : List α), LineRecv.Rep N f l →
      (∀ i, LOp.at_ i ∈ ops → i < N) →
      ∃ f' rs, LineRecv.runCalls N f ops = .ok (f', rs) ∧ bufferOuts N l ops rs ∧
        LineRecv.Rep N f' (ops.foldl (buffer N) l) := by
    intro ops
    induction ops with
    | nil => intro f l h _; exact ⟨f, [], rfl, trivial, h⟩
    | cons op ops ih =>
      intro f l h hop
      have h1 : ∃ f' r, LineRecv.call N f op = .ok (f', r) ∧ bufferOut N l op r ∧
          LineRecv.Rep N f' (buffer N l op) := by
        cases op with
        | push v =>
          obtain ⟨f', e1, e2⟩ := h.push v
          exact ⟨f', _, by simp only [LineRecv.call, e1]; rfl, rfl, e2⟩
        | length => exact ⟨f, _, rfl, by simp [bufferOut, h.len], h⟩
        | empty =>
          refine ⟨f, _, rfl, ?_, h⟩
          simp only [bufferOut, LineRecv.isEmpty, h.len]
          cases l <;> rfl
        | full =>
          refine ⟨f, _, rfl, ?_, h⟩
          simp only [bufferOut, LineRecv.isFull, h.len]
          rfl
        | clear => exact ⟨f.clear, _, rfl, rfl, ⟨rfl, by simp [buffer], by simp [buffer]⟩⟩
        | at_ i =>
          have hi : i < N := hop i (by simp)
          refine ⟨f, .elem (f.data i), ?_, ?_, h⟩
          · simp only [LineRecv.call, LineRecv.at_, rd_of_lt _ hi]; rfl
          · intro hl; rw [h.at_ i hl]
      obtain ⟨f', r, e1, e2, e3⟩ := h1
      obtain ⟨f'', rs, g1, g2, g3⟩ := ih f' _ e3 (fun i hi => hop i (by simp [hi]))
      exact ⟨f'', r :: rs, by simp only [LineRecv.runCalls, e1, Res.ok_bind, g1], ⟨e2, g2⟩, g3⟩
  obtain ⟨f, rs, h1, h2, h3⟩ := key ops (LineRecv.mk0 z) [] ⟨rfl, by simp, by simp⟩ hops
  exact ⟨f, rs, h1, h2, h3.cap, h3.at_⟩

/-- Concrete run: capacity 2, the third character is refused and the content kept. -/
example : ([.push 1, .push 2, .push 3, .at_ 1] : List (LOp Nat)).foldl (buffer 2) [] = [1, 2] := by decide

/-- The line buffer as a shared object (push, length/empty/full, clear). -/
def lineObj (N : Nat) : Obj (LineRecv α) α (QOp α) (QRes α) where
  acts
    | .push v => LineRecv.pushActs N v
    | .clear => LineRecv.clearActs
    | _ => LineRecv.lengthActs
  result
    | .push _, g => .bool g.taken
    | .pop, _ => .unit
    | .length, g => .num g.r
    | .empty, g => .bool (g.r = 0)
    | .full, g => .bool (g.r = N)
    | .clear, _ => .unit

/-- Its sequential specification (`pop` does not exist on a line buffer and is a no-op here). -/
def lineSpec (N : Nat) (l : List α) : QOp α → List α × QRes α
  | .pop => (l, .unit)
  | op => queue N l op

/-- **C11/C12, line buffer under interrupts**: in every interleaving the completed calls return what
the bounded append buffer returns, in order of completion. -/
theorem C12_atomic (N : Nat) (z : α) (events : List (Event (QOp α)))
    (c : Core (LineRecv α) α (QOp α) (QRes α))
    (h : Core.run (lineObj N) (Core.init (LineRecv.mk0 z)) events = some c) :
    Legal (lineSpec N) [] c.log := by
  have hseq : SeqOk (lineObj N) (lineSpec N) (LineRecv.Rep (α := α) N) := by
    intro s l op s' g' hR hr
    cases op with
    | push v =>
      obtain ⟨f', e1, e2⟩ := hR.push v
      simp only [lineObj, runActs, LineRecv.pushActs, List.foldl_cons, List.foldl_nil, Fifo.onTaken,
        Regs.init] at hr
      by_cases hl : s.off < N
      · have hl' : l.length < N := by rw [← hR.len]; exact hl
        simp only [hl, decide_true, if_true, Prod.mk.injEq] at hr
        simp only [LineRecv.push, hl, if_true, wr_of_lt _ _ hl, Res.ok_bind, Res.ok.injEq, Prod.mk.injEq] at e1
        obtain ⟨rfl, rfl⟩ := hr
        obtain ⟨rfl, _⟩ := e1
        rw [if_pos hl'] at e2
        simp only [lineSpec, queue, hl', if_true]
        exact ⟨e2, rfl⟩
      · have hl' : ¬ l.length < N := by rw [← hR.len]; exact hl
        simp only [hl, decide_false, Bool.false_eq_true, if_false, Prod.mk.injEq] at hr
        obtain ⟨rfl, rfl⟩ := hr
        simp only [lineSpec, queue, hl', if_false]
        exact ⟨hR, rfl⟩
    | pop =>
      simp only [lineObj, runActs, LineRecv.lengthActs, List.foldl_cons, List.foldl_nil, Prod.mk.injEq] at hr
      obtain ⟨rfl, rfl⟩ := hr
      exact ⟨hR, rfl⟩
    | length =>
      simp only [lineObj, runActs, LineRecv.lengthActs, List.foldl_cons, List.foldl_nil, Prod.mk.injEq] at hr
      obtain ⟨rfl, rfl⟩ := hr
      exact ⟨hR, by simp [lineObj, lineSpec, queue, hR.len]⟩
    | empty =>
      simp only [lineObj, runActs, LineRecv.lengthActs, List.foldl_cons, List.foldl_nil, Prod.mk.injEq] at hr
      obtain ⟨rfl, rfl⟩ := hr
      refine ⟨hR, ?_⟩
      simp only [lineObj, lineSpec, queue, hR.len]
      cases l <;> rfl
    | full =>
      simp only [lineObj, runActs, LineRecv.lengthActs, List.foldl_cons, List.foldl_nil, Prod.mk.injEq] at hr
      obtain ⟨rfl, rfl⟩ := hr
      refine ⟨hR, ?_⟩
      simp only [lineObj, lineSpec, queue, hR.len]
      rfl
    | clear =>
      simp only [lineObj, runActs, LineRecv.clearActs, List.foldl_cons, List.foldl_nil, Prod.mk.injEq] at hr
      obtain ⟨rfl, rfl⟩ := hr
      exact ⟨⟨rfl, by simp [lineSpec, queue], by simp [lineSpec, queue]⟩, rfl⟩
  exact (Inv.run hseq events (a0 := []) (c := Core.init (LineRecv.mk0 z))
    ⟨trivial, (⟨rfl, by simp, by simp⟩ : LineRecv.Rep N (LineRecv.mk0 z) [])⟩ h).legal

end P1P2
