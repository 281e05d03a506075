import Verif.Props.Fifo
import Verif.Props.Message
/-!
# C95: the queues leave the interrupt mask as it was; C96: messages made from a buffer
-/
namespace P1P2
open Spec

/-! ## C95 -/

/-- What the mask is set to outside the calls after an event. -/
def maskStep {ω : Type} (b : Bool) : Event ω → Bool
  | .setMask x => x
  | _ => b

/-- What the program set the interrupt mask to last, outside the calls (interrupts are enabled at first). -/
def maskSet {ω : Type} (es : List (Event ω)) : Bool :=
  es.foldl maskStep false

variable {σ α ω ρ : Type}

/-- Between calls the mask is `b`; in a call it is still `b` or it is saved. -/
def MaskInv (o : Obj σ α ω ρ) (b : Bool) (c : Core σ α ω ρ) : Prop :=
  match c.cur with
  | none => c.mask = b
  | some (op, is) => (is = o.code op ∧ c.mask = b) ∨
      ∃ rest : List (Act σ α), is = rest.map .act ++ [.restore] ∧ c.saved = b ∧ c.mask = true

theorem acts_restore_cons (rest : List (Act σ α)) : ∃ i is, rest.map Instr.act ++ [(Instr.restore : Instr σ α)] = i :: is := by
  cases rest with
  | nil => exact ⟨_, _, rfl⟩
  | cons a as => exact ⟨_, _, rfl⟩

theorem MaskInv.next {o : Obj σ α ω ρ} {b : Bool} {c c' : Core σ α ω ρ} (h : MaskInv o b c) {e : Event ω} (hn : c.next o e = some c') :
    MaskInv o (maskStep b e) c' := by
  cases e with
  | call op =>
    cases hcur : c.cur with
    | some x => simp [Core.next, hcur] at hn
    | none =>
      simp only [Core.next, hcur, Option.some.injEq] at hn
      subst hn
      simp only [MaskInv, hcur] at h
      exact Or.inl ⟨rfl, h⟩
  | setMask x =>
    cases hcur : c.cur with
    | some x => simp [Core.next, hcur] at hn
    | none =>
      simp only [Core.next, hcur, Option.some.injEq] at hn
      subst hn
      simp only [MaskInv, hcur, maskStep]
  | step =>
    cases hcur : c.cur with
    | none => simp [Core.next, hcur] at hn
    | some x =>
      obtain ⟨op, is⟩ := x
      simp only [MaskInv, hcur] at h
      rcases h with ⟨h1, h2⟩ | ⟨rest, h1, h2, h3⟩
      · subst h1
        obtain ⟨i, is, hi⟩ := acts_restore_cons (o.acts op)
        have hcode : o.code op = Instr.save :: i :: is := by
          simp only [Obj.code, List.cons_append, List.nil_append, hi]
        simp only [Core.next, hcur, hcode, Option.some.injEq, Core.exec] at hn
        subst hn
        exact Or.inr ⟨o.acts op, hi.symm, h2, rfl⟩
      · cases rest with
        | nil =>
          simp only [List.map_nil, List.nil_append] at h1
          subst h1
          simp only [Core.next, hcur, Core.exec, Option.some.injEq] at hn
          subst hn
          exact h2
        | cons f rest =>
          obtain ⟨i, is', hi⟩ := acts_restore_cons rest
          simp only [List.map_cons, List.cons_append, hi] at h1
          subst h1
          simp only [Core.next, hcur, Core.exec, Option.some.injEq] at hn
          subst hn
          exact Or.inr ⟨rest, hi.symm, h2, h3⟩
  | irq ops =>
    simp only [Core.next] at hn
    split at hn
    · cases hn
    · simp only [Option.some.injEq] at hn
      subst hn
      exact h

theorem MaskInv.run {o : Obj σ α ω ρ} (es : List (Event ω)) {b : Bool} {c c' : Core σ α ω ρ} (h : MaskInv o b c) (hn : c.run o es = some c') :
    MaskInv o (es.foldl maskStep b) c' := by
  induction es generalizing b c with
  | nil => simp only [Core.run, Option.some.injEq] at hn; subst hn; exact h
  | cons e es ih =>
    simp only [Core.run] at hn
    split at hn
    · cases hn
    · rename_i c1 h1
      exact ih (h.next h1) hn

/-- **C95.** For every interleaving of calls of a queue or line buffer (any object whose calls are made of a saved, masked and restored critical section, so
`fifoObj` and `lineObj`) with interrupts: whenever no call is in progress, the interrupt mask is what the program set last outside the calls, so interrupts disabled by the
caller stay disabled, and others are enabled again.  While a call is in progress, no interrupt is taken except before its first or after its last instruction. -/
theorem C95_mask_kept (o : Obj σ α ω ρ) (s : σ) (es : List (Event ω)) (c : Core σ α ω ρ) (h : Core.run o (Core.init s) es = some c) :
    (c.cur = none → c.mask = maskSet es) ∧
    (∀ op is, c.cur = some (op, is) → is ≠ o.code op → ∀ ops, c.next o (.irq ops) = none) := by
  have hi : MaskInv o (maskSet es) c := MaskInv.run es (b := false) (c := Core.init s) rfl h
  unfold MaskInv at hi
  constructor
  · intro hc
    rw [hc] at hi
    exact hi
  · intro op is hc hne ops
    rw [hc] at hi
    rcases hi with ⟨h1, _⟩ | ⟨_, _, _, h3⟩
    · exact absurd h1 hne
    · simp only [Core.next, h3, if_true]

/-- A call with interrupts disabled by the caller, and one with interrupts enabled. -/
example : (match Core.run (fifoObj Nat 2) (Core.init (Fifo.mk0 0)) (.setMask true :: .call (.push 7) :: List.replicate 9 .step) with
    | some c => c.cur.isNone && c.mask | none => false) = true ∧
    (match Core.run (fifoObj Nat 2) (Core.init (Fifo.mk0 0)) (.call (.push 7) :: List.replicate 9 .step) with
    | some c => c.cur.isNone && !c.mask | none => false) = true := by decide +kernel

/-! ## C96 -/

/-- **C96.** Making a message from a buffer that holds at least `length` bytes takes the first `length` bytes, but not more than 32, with the given time stamp and
status; nothing is read behind the buffer and nothing is written behind the 32 bytes of the message.  If the buffer is shorter than that, memory behind it is read. -/
theorem C96_from_buffer (g : Nat → UInt8) (time status length : Nat) (src : List UInt8) :
    (min length 32 ≤ src.length → ∃ m, Message.mk4 g time status src length = .ok m ∧ m.Is time status (src.take (min length 32))) ∧
    (src.length < min length 32 → Message.mk4 g time status src length = .ub) := by
  have hm : (if length < maxPacket then length else maxPacket) = min length 32 := by
    unfold maxPacket
    split <;> omega
  simp only [Message.mk4, hm, Message.memcpyData]
  constructor
  · intro h
    rw [if_pos ⟨h, by unfold maxPacket; omega⟩]
    refine ⟨_, rfl, rfl, rfl, by simp; omega, ?_⟩
    intro i hi
    simp only [List.length_take] at hi
    show (if i < min length 32 then src.getD i 0 else g i) = _
    rw [if_pos (by omega), List.getElem_take, List.getD_eq_getElem?_getD, List.getElem?_eq_getElem (by omega)]
    rfl
  · intro h
    rw [if_neg (by omega)]
    rfl

example (g : Nat → UInt8) : ∃ m, Message.mk4 g 5 0 (List.replicate 40 1) 35 = .ok m ∧ m.Is 5 0 (List.replicate 32 1) :=
  (C96_from_buffer g 5 0 35 (List.replicate 40 1)).1 (by decide)

end P1P2
