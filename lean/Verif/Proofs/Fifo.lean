import Verif.Model.Irq
import Verif.Spec.Fifo
/-! Refinement of the FIFO and of the line buffer. -/
namespace P1P2
open Spec
variable {α : Type}

namespace Fifo

/-- The FIFO object holds the list `l` (oldest first). -/
structure Rep (N : Nat) (f : Fifo α) (l : List α) : Prop where
  len : f.length = l.length
  cap : l.length ≤ N
  rd : f.offRead < N
  wr : f.offWrite = (f.offRead + l.length) % N
  at_ : ∀ j (h : j < l.length), f.data ((f.offRead + j) % N) = l[j]

theorem succ_mod {N i : Nat} (h : i < N) : (if i + 1 = N then 0 else i + 1) = (i + 1) % N := by
  split
  · rename_i h1; rw [h1, Nat.mod_self]
  · rw [Nat.mod_eq_of_lt (by omega)]

theorem Rep.push_full {N : Nat} {f : Fifo α} {l : List α} (h : Rep N f l) (v : α) (hf : l.length = N) :
    push N f v = .ok (f, false) := by
  simp [push, h.len, hf]

theorem Rep.push_ok {N : Nat} {f : Fifo α} {l : List α} (h : Rep N f l) (v : α) (hf : l.length < N) :
    ∃ f', push N f v = .ok (f', true) ∧ Rep N f' (l ++ [v]) := by
  have hw : f.offWrite < N := by rw [h.wr]; exact Nat.mod_lt _ (by omega)
  refine ⟨{ f with data := upd f.data f.offWrite v, length := f.length + 1, offWrite := if f.offWrite + 1 = N then 0 else f.offWrite + 1 }, ?_, ?_⟩
  · unfold push
    rw [if_pos (by rw [h.len]; exact hf), wr_of_lt _ _ hw, Res.ok_bind]
  · refine ⟨by simp [h.len], by simp; omega, h.rd, ?_, ?_⟩
    · show (if f.offWrite + 1 = N then 0 else f.offWrite + 1) = _
      rw [succ_mod hw, h.wr, List.length_append, List.length_singleton]
      show _ = (f.offRead + (l.length + 1)) % N
      rw [← Nat.add_assoc, Nat.mod_add_mod]
    · intro j hj
      show upd f.data f.offWrite v ((f.offRead + j) % N) = _
      have hr := h.rd
      by_cases hj2 : j < l.length
      · rw [upd_other, List.getElem_append_left hj2, h.at_ j hj2]
        rw [h.wr]
        intro he
        by_cases h1 : f.offRead + j < N
        · rw [Nat.mod_eq_of_lt h1] at he
          by_cases h2 : f.offRead + l.length < N
          · rw [Nat.mod_eq_of_lt h2] at he; omega
          · rw [Nat.mod_eq_sub_mod (by omega), Nat.mod_eq_of_lt (by omega)] at he; omega
        · rw [Nat.mod_eq_sub_mod (by omega), Nat.mod_eq_of_lt (by omega)] at he
          rw [Nat.mod_eq_sub_mod (by omega), Nat.mod_eq_of_lt (by omega)] at he; omega
      · have : j = l.length := by simp at hj; omega
        subst this
        rw [← h.wr]; simp

theorem Rep.pop_nil {N : Nat} {f : Fifo α} (h : Rep N f []) : pop N f = .ok (f, none) := by
  simp [pop, h.len]

theorem Rep.pop_cons {N : Nat} {f : Fifo α} {v : α} {l : List α} (h : Rep N f (v :: l)) :
    ∃ f', pop N f = .ok (f', some v) ∧ Rep N f' l := by
  have hr := h.rd
  have hlen := h.len
  have hcap := h.cap
  simp only [List.length_cons] at hlen hcap
  have h0 := h.at_ 0 (by simp)
  rw [Nat.add_zero, Nat.mod_eq_of_lt hr] at h0
  refine ⟨{ f with offRead := if f.offRead + 1 = N then 0 else f.offRead + 1, length := f.length - 1 }, ?_, ?_⟩
  · unfold pop
    rw [if_pos (by omega), rd_of_lt _ hr, Res.ok_bind, h0]
    rfl
  · refine ⟨by simp [hlen], by omega, ?_, ?_, ?_⟩
    · show (if f.offRead + 1 = N then 0 else f.offRead + 1) < N
      rw [succ_mod hr]; exact Nat.mod_lt _ (by omega)
    · show f.offWrite = ((if f.offRead + 1 = N then 0 else f.offRead + 1) + l.length) % N
      rw [succ_mod hr, h.wr, Nat.mod_add_mod]
      simp only [List.length_cons]
      congr 1; omega
    · intro j hj
      show f.data (((if f.offRead + 1 = N then 0 else f.offRead + 1) + j) % N) = _
      rw [succ_mod hr, Nat.mod_add_mod]
      have := h.at_ (j + 1) (by simp; omega)
      rw [show f.offRead + 1 + j = f.offRead + (j + 1) by omega, this]
      simp

theorem Rep.clear {N : Nat} {f : Fifo α} {l : List α} (h : Rep N f l) : Rep N f.clear [] :=
  ⟨rfl, by simp, by have := h.rd; show 0 < N; omega, by simp [Fifo.clear], by simp⟩

theorem rep_mk0 {N : Nat} (hN : 0 < N) (z : α) : Rep N (mk0 z) [] :=
  ⟨rfl, by simp, hN, by simp [mk0], by simp⟩

theorem initLoop_ok (N : Nat) (init : Nat → α) (n i : Nat) (d : Nat → α) (h : i + n = N) :
    ∃ d', initLoop N init n i d = .ok d' ∧ (∀ j < i, d' j = d j) ∧ ∀ j, i ≤ j → j < N → d' j = init j := by
  induction n generalizing i d with
  | zero => exact ⟨d, rfl, fun _ _ => rfl, fun j h1 h2 => absurd h2 (by omega)⟩
  | succ n ih =>
    simp only [initLoop]
    rw [rd_of_lt _ (by omega), Res.ok_bind, wr_of_lt _ _ (by omega), Res.ok_bind]
    obtain ⟨d', h1, h2, h3⟩ := ih (i + 1) (upd d i (init i)) (by omega)
    refine ⟨d', h1, ?_, ?_⟩
    · intro j hj; rw [h2 j (by omega), upd_other _ _ (by omega)]
    · intro j hj hj2
      by_cases hji : j = i
      · subst hji; rw [h2 j (by omega), upd_same]
      · exact h3 j (by omega) hj2

theorem rep_mkInit {N : Nat} (hN : 0 < N) (z : α) (init : Nat → α) :
    ∃ f, mkInit N z init = .ok f ∧ Rep N f ((List.range N).map init) := by
  obtain ⟨d', h1, _, h3⟩ := initLoop_ok N init N 0 (fun _ => z) (by omega)
  refine ⟨{ data := d', offRead := 0, offWrite := 0, length := N }, by rw [mkInit, h1]; rfl, ?_⟩
  refine ⟨by simp, by simp, hN, by simp, ?_⟩
  intro j hj
  have hj' : j < N := by simpa using hj
  show d' ((0 + j) % N) = _
  rw [Nat.zero_add, Nat.mod_eq_of_lt hj', h3 j (by omega) hj']
  simp

/-- One uninterrupted call. -/
def call (N : Nat) (f : Fifo α) : QOp α → Res (Fifo α × QRes α)
  | .push v => do let r ← push N f v; .ok (r.1, .bool r.2)
  | .pop => do let r ← pop N f; .ok (r.1, .popped r.2)
  | .length => .ok (f, .num f.length)
  | .empty => .ok (f, .bool f.isEmpty)
  | .full => .ok (f, .bool (f.isFull N))
  | .clear => .ok (f.clear, .unit)

theorem Rep.call {N : Nat} {f : Fifo α} {l : List α} (h : Rep N f l) (op : QOp α) :
    ∃ f', Fifo.call N f op = .ok (f', (queue N l op).2) ∧ Rep N f' (queue N l op).1 := by
  cases op with
  | push v =>
    simp only [Fifo.call, queue]
    by_cases hl : l.length < N
    · obtain ⟨f', h1, h2⟩ := h.push_ok v hl
      refine ⟨f', ?_, ?_⟩
      · rw [h1, if_pos hl]; rfl
      · rw [if_pos hl]; exact h2
    · rw [h.push_full v (by have := h.cap; omega), if_neg hl]
      exact ⟨f, rfl, h⟩
  | pop =>
    simp only [Fifo.call, queue]
    cases l with
    | nil => rw [h.pop_nil]; exact ⟨f, rfl, h⟩
    | cons v l =>
      obtain ⟨f', h1, h2⟩ := h.pop_cons
      exact ⟨f', by rw [h1]; rfl, h2⟩
  | length => exact ⟨f, by simp [Fifo.call, queue, h.len], h⟩
  | empty =>
    refine ⟨f, ?_, h⟩
    simp only [Fifo.call, queue, isEmpty, h.len]
    cases l <;> rfl
  | full =>
    refine ⟨f, ?_, h⟩
    simp only [Fifo.call, queue, isFull, h.len]
    rfl
  | clear => exact ⟨f.clear, rfl, h.clear⟩

/-! ### Action lists -/

theorem acts_call {N : Nat} {f : Fifo α} {l : List α} (h : Rep N f l) (op : QOp α) (f' : Fifo α) (g' : Regs α)
    (hr : runActs (acts N op) (f, Regs.init) = (f', g')) :
    Rep N f' (queue N l op).1 ∧ result N op g' = (queue N l op).2 := by
  obtain ⟨f'', h1, h2⟩ := h.call op
  have key : f' = f'' ∧ result N op g' = (queue N l op).2 := by
    cases op with
    | push v =>
      simp only [acts, runActs, pushActs, List.foldl_cons, List.foldl_nil, onTaken, Regs.init] at hr
      by_cases hl : f.length < N
      · have hw : f.offWrite < N := by
          have := h.rd
          rw [h.wr]; exact Nat.mod_lt _ (by omega)
        simp only [hl, decide_true, if_true] at hr
        simp only [Fifo.call, push, hl, if_true, wr_of_lt _ _ hw, Res.ok_bind] at h1
        simp only [Res.ok.injEq, Prod.mk.injEq] at h1 hr
        obtain ⟨rfl, rfl⟩ := hr
        obtain ⟨rfl, h1⟩ := h1
        refine ⟨?_, h1⟩
        by_cases hN : f.offWrite + 1 = N <;> simp [hN]
      · simp only [hl, decide_false, Bool.false_eq_true, if_false] at hr
        simp only [Fifo.call, push, hl, if_false, Res.ok_bind] at h1
        simp only [Res.ok.injEq, Prod.mk.injEq] at h1 hr
        obtain ⟨rfl, rfl⟩ := hr
        obtain ⟨rfl, h1⟩ := h1
        exact ⟨rfl, h1⟩
    | pop =>
      simp only [acts, runActs, popActs, List.foldl_cons, List.foldl_nil, onTaken, Regs.init] at hr
      by_cases hl : f.length > 0
      · simp only [hl, decide_true, if_true] at hr
        simp only [Fifo.call, pop, hl, if_true, rd_of_lt _ h.rd, Res.ok_bind] at h1
        simp only [Res.ok.injEq, Prod.mk.injEq] at h1 hr
        obtain ⟨rfl, rfl⟩ := hr
        obtain ⟨rfl, h1⟩ := h1
        refine ⟨?_, h1⟩
        by_cases hN : f.offRead + 1 = N <;> simp [hN]
      · simp only [hl, decide_false, Bool.false_eq_true, if_false] at hr
        simp only [Fifo.call, pop, hl, if_false, Res.ok_bind] at h1
        simp only [Res.ok.injEq, Prod.mk.injEq] at h1 hr
        obtain ⟨rfl, rfl⟩ := hr
        obtain ⟨rfl, h1⟩ := h1
        exact ⟨rfl, h1⟩
    | length =>
      simp only [acts, runActs, lengthActs, List.foldl_cons, List.foldl_nil, Regs.init, Fifo.call,
        Res.ok.injEq, Prod.mk.injEq] at hr h1
      obtain ⟨rfl, rfl⟩ := hr
      obtain ⟨rfl, h1⟩ := h1
      exact ⟨rfl, h1⟩
    | empty =>
      simp only [acts, runActs, lengthActs, List.foldl_cons, List.foldl_nil, Regs.init, Fifo.call,
        Res.ok.injEq, Prod.mk.injEq] at hr h1
      obtain ⟨rfl, rfl⟩ := hr
      obtain ⟨rfl, h1⟩ := h1
      exact ⟨rfl, h1⟩
    | full =>
      simp only [acts, runActs, lengthActs, List.foldl_cons, List.foldl_nil, Regs.init, Fifo.call,
        Res.ok.injEq, Prod.mk.injEq] at hr h1
      obtain ⟨rfl, rfl⟩ := hr
      obtain ⟨rfl, h1⟩ := h1
      exact ⟨rfl, h1⟩
    | clear =>
      simp only [acts, runActs, clearActs, List.foldl_cons, List.foldl_nil, Regs.init, Fifo.call,
        Res.ok.injEq, Prod.mk.injEq] at hr h1
      obtain ⟨rfl, rfl⟩ := hr
      obtain ⟨rfl, h1⟩ := h1
      exact ⟨rfl, rfl⟩
  exact ⟨key.1 ▸ h2, key.2⟩

end Fifo

/-! ### Linearisability of objects with critical sections -/

section Lin
variable {σ ω ρ A : Type}

/-- Replay of a log on a sequential specification. -/
def replay (spec : A → ω → A × ρ) : A → List (Bool × ω × ρ) → A
  | a, [] => a
  | a, (_, op, _) :: l => replay spec (spec a op).1 l

/-- All logged results are those of the sequential specification. -/
def Legal (spec : A → ω → A × ρ) : A → List (Bool × ω × ρ) → Prop
  | _, [] => True
  | a, (_, op, r) :: l => r = (spec a op).2 ∧ Legal spec (spec a op).1 l

theorem replay_append (spec : A → ω → A × ρ) (a : A) (l l' : List (Bool × ω × ρ)) :
    replay spec a (l ++ l') = replay spec (replay spec a l) l' := by
  induction l generalizing a with
  | nil => rfl
  | cons x l ih => obtain ⟨_, op, _⟩ := x; simp [replay, ih]

theorem legal_append (spec : A → ω → A × ρ) (a : A) (l l' : List (Bool × ω × ρ)) :
    Legal spec a (l ++ l') ↔ Legal spec a l ∧ Legal spec (replay spec a l) l' := by
  induction l generalizing a with
  | nil => simp [Legal, replay]
  | cons x l ih => obtain ⟨_, op, _⟩ := x; simp [Legal, replay, ih, and_assoc]

/-- Sequential correctness of the critical sections. -/
def SeqOk (o : Obj σ α ω ρ) (spec : A → ω → A × ρ) (R : σ → A → Prop) : Prop :=
  ∀ s a op s' g', R s a → runActs (o.acts op) (s, Regs.init) = (s', g') →
    R s' (spec a op).1 ∧ o.result op g' = (spec a op).2

/-- State of the running call. -/
def InCall (o : Obj σ α ω ρ) (spec : A → ω → A × ρ) (R : σ → A → Prop) (a : A) (c : Core σ α ω ρ) : Prop :=
  match c.cur with
  | none => R c.shared a
  | some (op, is) =>
    (is = o.code op ∧ c.regs = Regs.init ∧ R c.shared a) ∨
    (∃ rest, is = rest.map Instr.act ++ [Instr.restore] ∧ c.mask = true ∧
      R (runActs rest (c.shared, c.regs)).1 (spec a op).1 ∧
      o.result op (runActs rest (c.shared, c.regs)).2 = (spec a op).2)

structure Inv (o : Obj σ α ω ρ) (spec : A → ω → A × ρ) (R : σ → A → Prop) (a0 : A) (c : Core σ α ω ρ) : Prop where
  legal : Legal spec a0 c.log
  call : InCall o spec R (replay spec a0 c.log) c

theorem irqRun_ok {o : Obj σ α ω ρ} {spec : A → ω → A × ρ} {R : σ → A → Prop} (ho : SeqOk o spec R)
    (ops : List ω) (s : σ) (a : A) (h : R s a) :
    Legal spec a (irqRun o s ops).2 ∧ R (irqRun o s ops).1 (replay spec a (irqRun o s ops).2) := by
  induction ops generalizing s a with
  | nil => exact ⟨trivial, h⟩
  | cons op ops ih =>
    obtain ⟨h1, h2⟩ := ho s a op _ _ h rfl
    obtain ⟨h3, h4⟩ := ih _ _ h1
    exact ⟨⟨h2, h3⟩, h4⟩

theorem Inv.next {o : Obj σ α ω ρ} {spec : A → ω → A × ρ} {R : σ → A → Prop} {a0 : A} (ho : SeqOk o spec R)
    {c c' : Core σ α ω ρ} (h : Inv o spec R a0 c) {e : Event ω} (hn : c.next o e = some c') :
    Inv o spec R a0 c' := by
  obtain ⟨hl, hc⟩ := h
  cases e with
  | call op =>
    cases hcur : c.cur with
    | some x => simp [Core.next, hcur] at hn
    | none =>
      simp only [Core.next, hcur, Option.some.injEq] at hn
      subst hn
      refine ⟨hl, ?_⟩
      simp only [InCall, hcur] at hc
      exact Or.inl ⟨rfl, rfl, hc⟩
  | setMask b =>
    cases hcur : c.cur with
    | some x => simp [Core.next, hcur] at hn
    | none =>
      simp only [Core.next, hcur, Option.some.injEq] at hn
      subst hn
      refine ⟨hl, ?_⟩
      simp only [InCall, hcur] at hc
      show InCall o spec R _ _
      simp only [InCall, hcur]
      exact hc
  | step =>
    cases hcur : c.cur with
    | none => simp [Core.next, hcur] at hn
    | some x =>
      obtain ⟨op, is⟩ := x
      simp only [InCall, hcur] at hc
      rcases hc with ⟨h1, h2, h3⟩ | ⟨rest, h1, h2, h3, h4⟩
      · -- first instruction: save
        subst h1
        have hlen : ∃ i is, (o.acts op).map Instr.act ++ [(Instr.restore : Instr σ α)] = i :: is := by
          cases (o.acts op).map Instr.act with
          | nil => exact ⟨_, _, rfl⟩
          | cons a as => exact ⟨_, _, rfl⟩
        obtain ⟨i, is, hi⟩ := hlen
        have hcode : o.code op = Instr.save :: i :: is := by
          simp only [Obj.code, List.cons_append, List.nil_append, hi]
        simp only [Core.next, hcur, hcode, Option.some.injEq, Core.exec] at hn
        subst hn
        refine ⟨hl, ?_⟩
        refine Or.inr ⟨o.acts op, by rw [hi], rfl, ?_⟩
        simp only [h2]
        exact ho _ _ op _ _ h3 rfl
      · cases rest with
        | nil =>
          simp only [List.map_nil, List.nil_append] at h1
          subst h1
          simp only [Core.next, hcur, Core.exec, Option.some.injEq] at hn
          subst hn
          simp only [runActs, List.foldl_nil] at h3 h4
          refine ⟨?_, ?_⟩
          · rw [legal_append]
            exact ⟨hl, h4, trivial⟩
          · show InCall o spec R (replay spec a0 (c.log ++ _)) _
            rw [replay_append]
            simp only [InCall, replay]
            exact h3
        | cons f rest =>
          have hlen : ∃ i is, rest.map Instr.act ++ [(Instr.restore : Instr σ α)] = i :: is := by
            cases rest.map Instr.act with
            | nil => exact ⟨_, _, rfl⟩
            | cons a as => exact ⟨_, _, rfl⟩
          obtain ⟨i, is', hi⟩ := hlen
          simp only [List.map_cons, List.cons_append, hi] at h1
          subst h1
          simp only [Core.next, hcur, Core.exec, Option.some.injEq] at hn
          subst hn
          refine ⟨hl, Or.inr ⟨rest, by rw [hi], h2, ?_⟩⟩
          simp only [runActs, List.foldl_cons] at h3 h4
          exact ⟨h3, h4⟩
  | irq ops =>
    simp only [Core.next] at hn
    split at hn
    · simp at hn
    · rename_i hmask
      simp only [Option.some.injEq] at hn
      subst hn
      have hR : R c.shared (replay spec a0 c.log) := by
        simp only [InCall] at hc
        split at hc
        · exact hc
        · rcases hc with ⟨_, _, h3⟩ | ⟨rest, _, h2, _⟩
          · exact h3
          · exact absurd h2 hmask
      obtain ⟨g1, g2⟩ := irqRun_ok ho ops c.shared _ hR
      refine ⟨?_, ?_⟩
      · rw [legal_append]; exact ⟨hl, g1⟩
      · show InCall o spec R (replay spec a0 (c.log ++ _)) _
        rw [replay_append]
        simp only [InCall] at hc ⊢
        split
        · exact g2
        · rename_i op is hcur
          simp only [hcur] at hc
          rcases hc with ⟨h1, h2, _⟩ | ⟨rest, _, h2, _⟩
          · exact Or.inl ⟨h1, h2, g2⟩
          · exact absurd h2 hmask

theorem Inv.run {o : Obj σ α ω ρ} {spec : A → ω → A × ρ} {R : σ → A → Prop} {a0 : A} (ho : SeqOk o spec R)
    (es : List (Event ω)) {c c' : Core σ α ω ρ} (h : Inv o spec R a0 c) (hn : c.run o es = some c') :
    Inv o spec R a0 c' := by
  induction es generalizing c with
  | nil => simp [Core.run] at hn; exact hn ▸ h
  | cons e es ih =>
    simp only [Core.run] at hn
    split at hn
    · simp at hn
    · rename_i c1 he
      exact ih (h.next ho he) hn

end Lin
end P1P2
