import Verif.Model.AdcDev
import Verif.Props.TwosComplement
/-!
# The sign conversion from any state: pull, convert, push, and what is left after a restart of the state machine
-/
namespace P1P2.Pio
open P1P2

theorem ringValue_eq (w : BitVec 32) : ringValue w = wordValue w := rfl

/-- Where the program waits next: at a pull, or at a push of the given word. -/
def TargetW (odd : Bool) (busy : Option (BitVec 32)) (c : Core) : Prop :=
  ∃ x y osr n, match odd, busy with
    | false, none => c = conv 1 0 7 y osr 0 n
    | false, some w => c = conv 15 0 x y osr w n
    | true, none => c = conv 16 0 x y osr 0 n
    | true, some w => c = conv 20 0 x y osr w n

/-- The program gets there without further input. -/
def Heads (odd : Bool) (busy : Option (BitVec 32)) (c : Core) : Prop :=
  ∃ k c' l, Core.steps twosComplement k c = some (c', l) ∧ TargetW odd busy c'

theorem Toward.heads {odd : Bool} {busy : Option UInt8} {c : Core} (h : Toward odd busy c) : Heads odd (busy.map (word odd)) c := by
  obtain ⟨k, c', l, h1, x, y, osr, n, h2⟩ := h
  refine ⟨k, c', l, h1, x, y, osr, n, ?_⟩
  cases odd <;> cases busy <;> exact h2

theorem Heads.back {odd : Bool} {busy : Option (BitVec 32)} {c : Core} (hf : c.free twosComplement = true)
    (h : Heads odd busy (c.step twosComplement)) : Heads odd busy c := by
  obtain ⟨k, c', l, h1, h2⟩ := h
  exact ⟨k + 1, c', _, by simp only [Core.steps, hf, if_true, h1]; rfl, h2⟩

/-- A cycle: nothing visible, a byte is taken, or a word is delivered. -/
theorem Heads.cycle {s : State} {odd : Bool} {busy : Option (BitVec 32)} {q : List UInt8} (h : Heads odd busy s.core) (htx : s.tx = q.map narrow) (e : Env)
    {q' : List UInt8} (hq : enqueue twosComplement s.tx e = q'.map narrow) :
    (Heads odd busy (Pio.cycle twosComplement s e).core ∧ (Pio.cycle twosComplement s e).tx = q'.map narrow ∧ (Pio.cycle twosComplement s e).rx = dequeue s.rx e) ∨
    (∃ b r, busy = none ∧ q' = b :: r ∧ Heads odd (some (word odd b)) (Pio.cycle twosComplement s e).core ∧
      (Pio.cycle twosComplement s e).tx = r.map narrow ∧ (Pio.cycle twosComplement s e).rx = dequeue s.rx e) ∨
    (∃ w, busy = some w ∧ Heads (!odd) none (Pio.cycle twosComplement s e).core ∧ (Pio.cycle twosComplement s e).tx = q'.map narrow ∧
      (Pio.cycle twosComplement s e).rx = dequeue s.rx e ++ [w]) := by
  obtain ⟨k, c', l, hst, htg⟩ := h
  cases k with
  | succ k =>
    left
    simp only [Core.steps] at hst
    split at hst
    · rename_i hf
      rw [cycle_free hf]
      split at hst
      · rename_i c1 l1 he
        simp only [Option.some.injEq, Prod.mk.injEq] at hst
        obtain ⟨rfl, _⟩ := hst
        exact ⟨⟨k, c1, l1, he, htg⟩, hq, rfl⟩
      · simp at hst
    · simp at hst
  | zero =>
    simp only [Core.steps, Option.some.injEq, Prod.mk.injEq] at hst
    obtain ⟨rfl, _⟩ := hst
    obtain ⟨x, y, osr, n, ht⟩ := htg
    have hD : twosComplement.rxDepth = 4 := rfl
    cases odd <;> cases busy with
    | none =>
      simp only at ht
      first
      | (have hi : twosComplement.at 1 = ⟨.pull, none, 0⟩ := rfl
         have hc : Pio.cycle twosComplement s e = match q'.map narrow with
            | [] => { core := s.core, tx := [], rx := dequeue s.rx e }
            | w :: r => { core := conv 2 0 7 y w 0 0, tx := r, rx := dequeue s.rx e } := by
           simp only [Pio.cycle, ht, conv, hi, hq]
           rfl
         rw [hc]
         cases q' with
         | nil => exact Or.inl ⟨⟨0, s.core, [], rfl, x, y, osr, n, ht⟩, rfl, rfl⟩
         | cons b r => exact Or.inr (Or.inl ⟨b, r, rfl, rfl, (toward_neg y b).heads, rfl, rfl⟩))
      | (have hi : twosComplement.at 16 = ⟨.pull, none, 7⟩ := rfl
         have hc : Pio.cycle twosComplement s e = match q'.map narrow with
            | [] => { core := s.core, tx := [], rx := dequeue s.rx e }
            | w :: r => { core := conv 17 7 x y w 0 0, tx := r, rx := dequeue s.rx e } := by
           simp only [Pio.cycle, ht, conv, hi, hq]
           rfl
         rw [hc]
         cases q' with
         | nil => exact Or.inl ⟨⟨0, s.core, [], rfl, x, y, osr, n, ht⟩, rfl, rfl⟩
         | cons b r => exact Or.inr (Or.inl ⟨b, r, rfl, rfl, (toward_plain x y b).heads, rfl, rfl⟩))
    | some w =>
      simp only at ht
      first
      | (have hi : twosComplement.at 15 = ⟨.push, none, 0⟩ := rfl
         have hc : Pio.cycle twosComplement s e = if (dequeue s.rx e).length < 4 then
              { core := conv 16 0 x y osr 0 n, tx := q'.map narrow, rx := dequeue s.rx e ++ [w] }
            else { core := s.core, tx := q'.map narrow, rx := dequeue s.rx e } := by
           simp only [Pio.cycle, ht, conv, hi, hq, hD]
           rfl
         rw [hc]
         split
         · exact Or.inr (Or.inr ⟨w, rfl, ⟨0, _, [], rfl, x, y, osr, n, rfl⟩, rfl, rfl⟩)
         · exact Or.inl ⟨⟨0, s.core, [], rfl, x, y, osr, n, ht⟩, rfl, rfl⟩)
      | (have hi : twosComplement.at 20 = ⟨.push, none, 0⟩ := rfl
         have hc : Pio.cycle twosComplement s e = if (dequeue s.rx e).length < 4 then
              { core := conv 21 0 x y osr 0 n, tx := q'.map narrow, rx := dequeue s.rx e ++ [w] }
            else { core := s.core, tx := q'.map narrow, rx := dequeue s.rx e } := by
           simp only [Pio.cycle, ht, conv, hi, hq, hD]
           rfl
         rw [hc]
         split
         · exact Or.inr (Or.inr ⟨w, rfl, (toward_entry x y osr n).heads, rfl, rfl⟩)
         · exact Or.inl ⟨⟨0, s.core, [], rfl, x, y, osr, n, ht⟩, rfl, rfl⟩)

/-! ## The registers at any time -/

/-- What is known of `x` at each instruction. -/
def xOk (pc : Nat) (x : BitVec 32) : Prop :=
  match pc with
  | 1 => x = 7
  | 2 | 3 | 4 | 10 | 11 | 12 => x.toNat ≤ 7
  | 5 | 6 => x = -1
  | 7 => x = 0
  | 8 | 9 => x.toNat ≤ 6
  | 13 => x = -1 ∨ x = 0
  | _ => True

/-- The program does not leave its code. -/
structure Legal (c : Core) : Prop where
  irq : c.irq = false
  pins : c.pins = 0
  pc : c.pc ≤ 21
  x : xOk c.pc c.x

theorem dec_le {x : BitVec 32} {n : Nat} (h : x.toNat ≤ n + 1) (h0 : x ≠ 0) : (x - 1).toNat ≤ n := by bv_omega

theorem Legal.exec {c : Core} (h : Legal c) : Legal (c.exec twosComplement.thr (twosComplement.at c.pc)) ∨
    (twosComplement.at c.pc).op = .pull ∨ (twosComplement.at c.pc).op = .push := by
  obtain ⟨pc, wait, x, y, osr, isr, cnt, irq, pins⟩ := c
  obtain ⟨h1, h2, h3, h4⟩ := h
  simp only at h1 h2 h3 h4
  subst h1 h2
  have hpc : pc = 0 ∨ pc = 1 ∨ pc = 2 ∨ pc = 3 ∨ pc = 4 ∨ pc = 5 ∨ pc = 6 ∨ pc = 7 ∨ pc = 8 ∨ pc = 9 ∨ pc = 10 ∨ pc = 11 ∨ pc = 12 ∨ pc = 13 ∨
    pc = 14 ∨ pc = 15 ∨ pc = 16 ∨ pc = 17 ∨ pc = 18 ∨ pc = 19 ∨ pc = 20 ∨ pc = 21 := by omega
  rcases hpc with rfl | rfl | rfl | rfl | rfl | rfl | rfl | rfl | rfl | rfl | rfl | rfl | rfl | rfl | rfl | rfl | rfl | rfl | rfl | rfl | rfl | rfl
  · exact .inl ⟨rfl, rfl, by show 1 ≤ 21; decide, rfl⟩
  · exact .inr (.inl rfl)
  · exact .inl ⟨rfl, rfl, by show 3 ≤ 21; decide, h4⟩
  · exact .inl ⟨rfl, rfl, by show 4 ≤ 21; decide, h4⟩
  · left
    show Legal (if x ≠ 0 then _ else _)
    split
    · rename_i hx; exact ⟨rfl, rfl, by show 8 ≤ 21; decide, dec_le h4 hx⟩
    · rename_i hx
      have hx : x = 0 := Decidable.not_not.mp hx
      subst hx
      exact ⟨rfl, rfl, by show 5 ≤ 21; decide, by show (0 : BitVec 32) - 1 = -1; decide⟩
  · left
    show Legal (if y ≠ 0 then _ else _)
    split
    · exact ⟨rfl, rfl, by show 13 ≤ 21; decide, .inl h4⟩
    · exact ⟨rfl, rfl, by show 6 ≤ 21; decide, h4⟩
  · exact .inl ⟨rfl, rfl, by show 7 ≤ 21; decide, rfl⟩
  · exact .inl ⟨rfl, rfl, by show 13 ≤ 21; decide, .inr h4⟩
  · left
    have h5 : x.toNat ≤ 6 := h4
    show Legal (if y = 0 then _ else _)
    split
    · exact ⟨rfl, rfl, by show 2 ≤ 21; decide, by show x.toNat ≤ 7; omega⟩
    · exact ⟨rfl, rfl, by show 9 ≤ 21; decide, h4⟩
  · have h5 : x.toNat ≤ 6 := h4
    exact .inl ⟨rfl, rfl, by show 10 ≤ 21; decide, by show x.toNat ≤ 7; omega⟩
  · exact .inl ⟨rfl, rfl, by show 11 ≤ 21; decide, h4⟩
  · exact .inl ⟨rfl, rfl, by show 12 ≤ 21; decide, h4⟩
  · left
    show Legal (if x ≠ 0 then _ else _)
    split
    · rename_i hx
      have h5 := dec_le (n := 6) h4 hx
      exact ⟨rfl, rfl, by show 10 ≤ 21; decide, by show (x - 1).toNat ≤ 7; omega⟩
    · rename_i hx
      have hx : x = 0 := Decidable.not_not.mp hx
      subst hx
      exact ⟨rfl, rfl, by show 13 ≤ 21; decide, .inl (by show (0 : BitVec 32) - 1 = -1; decide)⟩
  · exact .inl ⟨rfl, rfl, by show 14 ≤ 21; decide, trivial⟩
  · exact .inl ⟨rfl, rfl, by show 15 ≤ 21; decide, trivial⟩
  · exact .inr (.inr rfl)
  · exact .inr (.inl rfl)
  · exact .inl ⟨rfl, rfl, by show 18 ≤ 21; decide, trivial⟩
  · exact .inl ⟨rfl, rfl, by show 19 ≤ 21; decide, trivial⟩
  · exact .inl ⟨rfl, rfl, by show 20 ≤ 21; decide, trivial⟩
  · exact .inr (.inr rfl)
  · exact .inl ⟨rfl, rfl, by show 0 ≤ 21; decide, trivial⟩

theorem twos_pull {pc : Nat} (h : pc ≤ 21) (hp : (twosComplement.at pc).op = .pull) : (pc = 1 ∨ pc = 16) ∧ (twosComplement.at pc).side = none := by
  have : ∀ n, n < 22 → (twosComplement.at n).op = .pull → (n = 1 ∨ n = 16) ∧ (twosComplement.at n).side = none := by decide
  exact this pc (by omega) hp

theorem twos_push {pc : Nat} (h : pc ≤ 21) (hp : (twosComplement.at pc).op = .push) : (pc = 15 ∨ pc = 20) ∧ (twosComplement.at pc).side = none := by
  have : ∀ n, n < 22 → (twosComplement.at n).op = .push → (n = 15 ∨ n = 20) ∧ (twosComplement.at n).side = none := by decide
  exact this pc (by omega) hp

theorem Legal.cycle {s : State} (h : Legal s.core) (e : Env) : Legal (Pio.cycle twosComplement s e).core := by
  unfold Pio.cycle
  dsimp only
  split
  · exact ⟨h.irq, h.pins, h.pc, h.x⟩
  · split
    · rename_i hop
      obtain ⟨h1, h2⟩ := twos_pull h.pc hop
      rw [h2]
      split
      · exact ⟨h.irq, h.pins, h.pc, h.x⟩
      · have hx := h.x
        refine ⟨h.irq, h.pins, by show s.core.pc + 1 ≤ 21; omega, ?_⟩
        show xOk (s.core.pc + 1) s.core.x
        rcases h1 with h1 | h1 <;> rw [h1] at hx ⊢
        · have hx : s.core.x = 7 := hx
          show s.core.x.toNat ≤ 7
          rw [hx]; decide
        · trivial
    · rename_i hop
      obtain ⟨h1, h2⟩ := twos_push h.pc hop
      rw [h2]
      split
      · refine ⟨h.irq, h.pins, by show s.core.pc + 1 ≤ 21; omega, ?_⟩
        show xOk (s.core.pc + 1) s.core.x
        rcases h1 with h1 | h1 <;> rw [h1] <;> trivial
      · exact ⟨h.irq, h.pins, h.pc, h.x⟩
    · rename_i h1 h2
      rcases h.exec with h3 | h3 | h3
      · exact h3
      · exact absurd h3 h1
      · exact absurd h3 h2

theorem Legal.reset : Legal reset.core := ⟨rfl, rfl, by decide, trivial⟩

theorem Legal.smRestart {c : Core} (h : Legal c) : Legal (smRestart c) := ⟨h.irq, h.pins, h.pc, h.x⟩

/-! ## After a restart of the state machine -/

/-- The value of a word is that of a sample, or it is -256. -/
def WordOk (w : BitVec 32) : Prop := -256 ≤ wordValue w ∧ wordValue w ≤ 255

theorem wordOk_low {w : BitVec 32} (h : w.toNat < 256) : WordOk w := by
  unfold WordOk wordValue toI16
  omega

theorem wordOk_zero : WordOk 0 := wordOk_low (by decide)

/-- The word when the high byte is shifted in with an unknown low byte. -/
theorem wordOk_high (isr x : BitVec 32) (hx : x = -1 ∨ x = 0) : WordOk (shiftIn (shiftIn isr x 8) 0 16) := by
  have hlt : (isr >>> 24).toNat < 256 := by
    rw [BitVec.toNat_ushiftRight, Nat.shiftRight_eq_div_pow]
    have := isr.isLt
    omega
  rcases hx with rfl | rfl
  · have : shiftIn (shiftIn isr (-1) 8) 0 16 = (isr >>> 24) ||| 0xFF00#32 := by
      unfold shiftIn
      apply BitVec.eq_of_getLsbD_eq
      intro i hi
      have h1 : ∀ i < 32, (((-1 : BitVec 32) <<< 24) >>> 16).getLsbD i = (0xFF00#32).getLsbD i := by decide
      have h2 := h1 i hi
      simp only [BitVec.getLsbD_or, BitVec.getLsbD_ushiftRight, BitVec.getLsbD_shiftLeft] at h2 ⊢
      rw [← h2]
      rw [show 8 + (16 + i) = 24 + i by omega]
      simp
    rw [this]
    have hn : ((isr >>> 24) ||| 0xFF00#32).toNat = 65280 + (isr >>> 24).toNat := by
      rw [BitVec.toNat_or]
      have := Nat.two_pow_add_eq_or_of_lt (i := 8) (b := (isr >>> 24).toNat) hlt 255
      rw [show (0xFF00#32).toNat = 2 ^ 8 * 255 by decide, Nat.or_comm, ← this]
    unfold WordOk wordValue toI16
    rw [hn]
    omega
  · have : shiftIn (shiftIn isr 0 8) 0 16 = isr >>> 24 := by
      unfold shiftIn
      apply BitVec.eq_of_getLsbD_eq
      intro i hi
      simp only [BitVec.getLsbD_or, BitVec.getLsbD_ushiftRight, BitVec.getLsbD_shiftLeft]
      rw [show 8 + (16 + i) = 24 + i by omega]
      simp
    rw [this]
    exact wordOk_low hlt

theorem wordOk_byte (y : BitVec 32) : WordOk (shiftIn (shiftIn 0 y 8) 0 24) := by
  have : shiftIn (shiftIn 0 y 8) 0 24 = (y <<< 24) >>> 24 := by
    unfold shiftIn
    simp
  rw [this]
  apply wordOk_low
  rw [BitVec.toNat_ushiftRight, Nat.shiftRight_eq_div_pow]
  have := (y <<< 24).isLt
  omega

/-- On the way to the push of some word of a negated sample. -/
def Goes (c : Core) : Prop := ∃ w, WordOk w ∧ Heads false (some w) c

theorem Goes.back {c : Core} (hf : c.free twosComplement = true) (h : Goes (c.step twosComplement)) : Goes c := by
  obtain ⟨w, h1, h2⟩ := h
  exact ⟨w, h1, h2.back hf⟩

theorem goes15 (x y osr isr : BitVec 32) (n : Nat) (h : WordOk isr) : Goes (conv 15 0 x y osr isr n) :=
  ⟨isr, h, 0, _, [], rfl, x, y, osr, n, rfl⟩

theorem goes13 (x y osr isr : BitVec 32) (n : Nat) (h : x = -1 ∨ x = 0) : Goes (conv 13 0 x y osr isr n) :=
  .back rfl (.back rfl (goes15 x y osr _ n (wordOk_high isr x h)))

theorem goes12 : ∀ (m : Nat) (x y osr isr : BitVec 32) (n : Nat), x.toNat = m → Goes (conv 12 0 x y osr isr n) := by
  intro m
  induction m with
  | zero =>
    intro x y osr isr n hx
    have hx : x = 0 := by bv_omega
    subst hx
    exact .back rfl (goes13 (0 - 1) y osr isr n (.inl (by decide)))
  | succ m ih =>
    intro x y osr isr n hx
    have h0 : x ≠ 0 := by bv_omega
    have hs : (conv 12 0 x y osr isr n).step twosComplement = conv 10 0 (x - 1) y osr isr n := by
      show (if x ≠ 0 then _ else _) = _
      rw [if_pos h0]; rfl
    refine .back rfl ?_
    rw [hs]
    exact .back rfl (.back rfl (ih (x - 1) _ _ _ _ (by bv_omega)))

theorem goes4 : ∀ (m : Nat) (x y osr isr : BitVec 32) (n : Nat), x.toNat = m → Goes (conv 4 0 x y osr isr n) := by
  intro m
  induction m with
  | zero =>
    intro x y osr isr n hx
    have hx : x = 0 := by bv_omega
    subst hx
    refine .back rfl ?_
    show Goes (conv 5 0 (0 - 1) y osr isr n)
    refine .back rfl ?_
    show Goes (if y ≠ 0 then _ else _)
    split
    · exact goes13 (0 - 1) _ osr isr n (.inl (by decide))
    · exact .back rfl (.back rfl (goes13 _ _ osr isr n (.inr rfl)))
  | succ m ih =>
    intro x y osr isr n hx
    have h0 : x ≠ 0 := by bv_omega
    have hs : (conv 4 0 x y osr isr n).step twosComplement = conv 8 0 (x - 1) y osr isr n := by
      show (if x ≠ 0 then _ else _) = _
      rw [if_pos h0]; rfl
    refine .back rfl ?_
    rw [hs]
    refine .back rfl ?_
    show Goes (if y = 0 then _ else _)
    split
    · exact .back rfl (.back rfl (ih (x - 1) _ _ _ _ (by bv_omega)))
    · exact .back rfl (.back rfl (.back rfl (goes12 _ _ _ _ _ _ rfl)))

/-- On the way to the push of some word of a plain sample. -/
def GoesPlain (c : Core) : Prop := ∃ w, WordOk w ∧ Heads true (some w) c

theorem GoesPlain.back {c : Core} (hf : c.free twosComplement = true) (h : GoesPlain (c.step twosComplement)) : GoesPlain c := by
  obtain ⟨w, h1, h2⟩ := h
  exact ⟨w, h1, h2.back hf⟩

theorem goes20 (x y osr isr : BitVec 32) (n : Nat) (h : WordOk isr) : GoesPlain (conv 20 0 x y osr isr n) :=
  ⟨isr, h, 0, _, [], rfl, x, y, osr, n, rfl⟩

theorem goesWait (w : Nat) : ∀ (pc : Nat) (x y osr isr : BitVec 32) (n : Nat), GoesPlain (conv pc 0 x y osr isr n) → GoesPlain (conv pc w x y osr isr n) := by
  induction w with
  | zero => intro _ _ _ _ _ _ h; exact h
  | succ w ih =>
    intro pc x y osr isr n h
    exact .back (by simp [Core.free, conv]) (ih pc x y osr isr n h)

theorem goes19 (x y osr isr : BitVec 32) (n : Nat) (h : WordOk (shiftIn isr 0 24)) : GoesPlain (conv 19 0 x y osr isr n) :=
  .back rfl (goesWait 7 20 x y osr _ n (goes20 x y osr _ n h))

theorem goes18 (x y osr : BitVec 32) (n : Nat) : GoesPlain (conv 18 0 x y osr 0 n) :=
  .back rfl (goesWait 7 19 x y osr _ n (goes19 x y osr _ n (wordOk_byte y)))

theorem goes17 (x y osr : BitVec 32) (n : Nat) : GoesPlain (conv 17 0 x y osr 0 n) :=
  .back rfl (goesWait 7 18 x _ _ _ _ (goes18 x _ _ _))

/-- A restarted state machine waits for a sample or delivers one word first, whose value is at most damaged. -/
theorem Legal.heads {c : Core} (h : Legal c) : ∃ odd busy, Heads odd busy (P1P2.smRestart c) ∧ ∀ w ∈ busy, WordOk w := by
  obtain ⟨pc, wait, x, y, osr, isr, cnt, irq, pins⟩ := c
  obtain ⟨h1, h2, h3, h4⟩ := h
  simp only at h1 h2 h3 h4
  subst h1 h2
  show ∃ odd busy, Heads odd busy (conv pc 0 x y osr 0 32) ∧ _
  have neg : Goes (conv pc 0 x y osr 0 32) → ∃ odd busy, Heads odd busy (conv pc 0 x y osr 0 32) ∧ ∀ w ∈ busy, WordOk w := by
    intro ⟨w, h1, h2⟩
    exact ⟨false, some w, h2, fun w' hw => by cases hw; exact h1⟩
  have plain : GoesPlain (conv pc 0 x y osr 0 32) → ∃ odd busy, Heads odd busy (conv pc 0 x y osr 0 32) ∧ ∀ w ∈ busy, WordOk w := by
    intro ⟨w, h1, h2⟩
    exact ⟨true, some w, h2, fun w' hw => by cases hw; exact h1⟩
  have hpc : pc = 0 ∨ pc = 1 ∨ pc = 2 ∨ pc = 3 ∨ pc = 4 ∨ pc = 5 ∨ pc = 6 ∨ pc = 7 ∨ pc = 8 ∨ pc = 9 ∨ pc = 10 ∨ pc = 11 ∨ pc = 12 ∨ pc = 13 ∨
    pc = 14 ∨ pc = 15 ∨ pc = 16 ∨ pc = 17 ∨ pc = 18 ∨ pc = 19 ∨ pc = 20 ∨ pc = 21 := by omega
  rcases hpc with rfl | rfl | rfl | rfl | rfl | rfl | rfl | rfl | rfl | rfl | rfl | rfl | rfl | rfl | rfl | rfl | rfl | rfl | rfl | rfl | rfl | rfl
  · exact ⟨false, none, ⟨1, _, _, rfl, 0, y, osr, 32, rfl⟩, fun w hw => by cases hw⟩
  · have h4 : x = 7 := h4
    subst h4
    exact ⟨false, none, ⟨0, _, [], rfl, 0, y, osr, 32, rfl⟩, fun w hw => by cases hw⟩
  · exact neg (.back rfl (.back rfl (goes4 _ _ _ _ _ _ rfl)))
  · exact neg (.back rfl (goes4 _ _ _ _ _ _ rfl))
  · exact neg (goes4 _ _ _ _ _ _ rfl)
  · have h4 : x = -1 := h4
    subst h4
    apply neg
    refine .back rfl ?_
    show Goes (if y ≠ 0 then _ else _)
    split
    · exact goes13 _ _ osr _ _ (.inl rfl)
    · exact .back rfl (.back rfl (goes13 _ _ osr _ _ (.inr rfl)))
  · exact neg (.back rfl (.back rfl (goes13 _ _ osr _ _ (.inr rfl))))
  · exact neg (.back rfl (goes13 _ _ osr _ _ (.inr h4)))
  · apply neg
    refine .back rfl ?_
    show Goes (if y = 0 then _ else _)
    split
    · exact .back rfl (.back rfl (goes4 _ _ _ _ _ _ rfl))
    · exact .back rfl (.back rfl (.back rfl (goes12 _ _ _ _ _ _ rfl)))
  · exact neg (.back rfl (.back rfl (.back rfl (goes12 _ _ _ _ _ _ rfl))))
  · exact neg (.back rfl (.back rfl (goes12 _ _ _ _ _ _ rfl)))
  · exact neg (.back rfl (goes12 _ _ _ _ _ _ rfl))
  · exact neg (goes12 _ _ _ _ _ _ rfl)
  · exact neg (goes13 _ _ _ _ _ h4)
  · exact neg (.back rfl (goes15 x y osr (shiftIn 0 0 16) 32 (by rw [show shiftIn 0 0 16 = (0 : BitVec 32) by decide]; exact wordOk_zero)))
  · exact neg (goes15 x y osr _ _ wordOk_zero)
  · exact ⟨true, none, ⟨0, _, [], rfl, x, y, osr, 32, rfl⟩, fun w hw => by cases hw⟩
  · exact plain (goes17 _ _ _ _)
  · exact plain (goes18 _ _ _ _)
  · exact plain (goes19 x y osr 0 32 (by show WordOk (shiftIn 0 0 24); rw [show shiftIn 0 0 24 = (0 : BitVec 32) by decide]; exact wordOk_zero))
  · exact plain (goes20 _ _ _ _ _ wordOk_zero)
  · exact ⟨false, none, (toward_entry x y osr 32).heads, fun w hw => by cases hw⟩

end P1P2.Pio
