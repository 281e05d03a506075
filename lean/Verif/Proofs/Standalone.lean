import Verif.Spec.Standalone
import Verif.Proofs.Crc
/-!
# The external controller: effect of the calls
-/
namespace P1P2

theorem copyLoop_eq (src : Nat → UInt8) : ∀ (n : Nat) (dst : Nat → UInt8) (i : Nat), i + n ≤ 32 →
    copyLoop src dst i n = .ok (fun j => if i ≤ j ∧ j < i + n then src j else dst j) := by
  intro n
  induction n with
  | zero => intro dst i _; rw [copyLoop]; congr 1; funext j; rw [if_neg (by omega)]
  | succ n ih =>
    intro dst i h
    rw [copyLoop, rd_of_lt _ (by show i < 32; omega), Res.ok_bind, wr_of_lt _ _ (by show i < 32; omega), Res.ok_bind, ih _ _ (by omega)]
    congr 1
    funext j
    by_cases h1 : j = i
    · subst h1
      rw [if_neg (by omega), upd_same, if_pos (by omega)]
    · rw [upd_other _ _ h1]
      by_cases h2 : i + 1 ≤ j ∧ j < i + 1 + n
      · rw [if_pos h2, if_pos (by omega)]
      · rw [if_neg h2, if_neg (by omega)]

theorem crcMatches_eq {m : Message} (h : m.length ≤ 32) (h0 : 0 < m.length) : ∃ b, crcMatches m = .ok b ∧ (b = true ↔ ChecksumOk m) := by
  unfold crcMatches ChecksumOk
  have e : genCRC m.data (m.length - 1) = .ok (crcFeed 0 (bitsFrom m.data 0 (m.length - 1))) := genCRC_eq _ (by omega)
  rw [e, Res.ok_bind, rd_of_lt _ (by show _ < 32; omega), Res.ok_bind]
  exact ⟨_, rfl, by rw [beq_iff_eq, Res.ok.injEq]⟩

theorem genCRC_congr {d d' : Nat → UInt8} {n : Nat} (h : ∀ i < n, d i = d' i) : genCRC d n = genCRC d' n := by
  by_cases hn : n ≤ 32
  · rw [genCRC_eq d hn, genCRC_eq d' hn]
    congr 2
    unfold bitsFrom List.flatMap
    congr 1
    apply List.map_congr_left
    intro i hi
    rw [List.mem_range'_1] at hi
    rw [h i (by omega)]
  · rw [genCRC_ub d hn, genCRC_ub d' hn]

/-- Adding the checksum. -/
theorem finish_eq (c : Ctrl) (n : Nat) (hn : c.answer.length = n + 1) (h : n < 32) :
    ∃ d, c.finish = .ok { c with answer := { c.answer with data := d }, ready := true } ∧
      (∀ i, i ≠ n → d i = c.answer.data i) ∧ genCRC d n = .ok (d n) := by
  unfold Ctrl.finish
  have e : genCRC c.answer.data n = .ok (crcFeed 0 (bitsFrom c.answer.data 0 n)) := genCRC_eq _ (by omega)
  rw [hn, Nat.add_sub_cancel, e, Res.ok_bind, wr_of_lt _ _ (by show _ < 32; omega), Res.ok_bind]
  refine ⟨_, rfl, fun i hi => upd_other _ _ hi, ?_⟩
  rw [upd_same, ← e]
  exact genCRC_congr fun i hi => upd_other _ _ (by omega)

/-- The parts of the answer that are always in place. -/
structure Ctrl.Ok (c : Ctrl) : Prop where
  cmd : c.answer.data 0 = 0x40
  addr : (c.answer.data 1).toNat = c.address
  range : c.address = 0xF0 ∨ c.address = 0xF1
  len : c.answer.length ≤ 18
  ready : c.ready = true → c.state = .operating

theorem Ctrl.Ok.init (g : Nat → UInt8) (t : Nat) : (Ctrl.init g t).Ok :=
  ⟨rfl, rfl, Or.inl rfl, by show (0 : Nat) ≤ 18; decide, fun h => by cases h⟩

theorem generateAnswer_eq {c : Ctrl} (h : c.Ok) {m : Message} (ht : m.data 2 = 0x30 ∨ m.data 2 = 0x31) :
    ∃ a, c.generateAnswer m = .ok { c with answer := a, ready := true } ∧ AnswerTo c.address m a := by
  unfold Ctrl.generateAnswer
  by_cases h30 : m.data 2 = 0x30
  · rw [if_pos h30, copyLoop_eq _ _ _ _ (by decide), Res.ok_bind]
    obtain ⟨d, e, h1, h2⟩ := finish_eq ({ c with answer := { c.answer with data := (fun j => if 3 ≤ j ∧ j < 3 + 14 then m.data j else upd c.answer.data 2 48 j), length := 18 } })
      17 rfl (by decide)
    refine ⟨_, e, ⟨?_, ?_, ?_, ?_, ?_, ?_, h2⟩⟩
    · rw [if_pos h30]
    · exact (h1 0 (by decide)).trans h.cmd
    · exact (congrArg UInt8.toNat (h1 1 (by decide))).trans h.addr
    · exact (h1 2 (by decide)).trans h30.symm
    · intro h31; rw [h30] at h31; cases h31
    · intro i i1 i2 _
      have i2 : i < 17 := i2
      refine (h1 i ?_).trans ?_
      · show i ≠ 17; omega
      · show (if 3 ≤ i ∧ i < 3 + 14 then _ else _) = _
        rw [if_pos (by omega)]
  · have h31 : m.data 2 = 0x31 := ht.resolve_left h30
    rw [if_neg h30, if_pos h31, copyLoop_eq _ _ _ _ (by decide), Res.ok_bind]
    obtain ⟨d, e, h1, h2⟩ := finish_eq ({ c with answer := { c.answer with data := upd (upd (fun j => if 3 ≤ j ∧ j < 3 + 12 then m.data j else upd c.answer.data 2 49 j) 7 0xB4) 8 0x10, length := 16 } })
      15 rfl (by decide)
    refine ⟨_, e, ⟨?_, ?_, ?_, ?_, ?_, ?_, h2⟩⟩
    · rw [if_neg h30]
    · exact (h1 0 (by decide)).trans h.cmd
    · exact (congrArg UInt8.toNat (h1 1 (by decide))).trans h.addr
    · exact (h1 2 (by decide)).trans h31.symm
    · intro _
      exact ⟨(h1 7 (by decide)).trans rfl, (h1 8 (by decide)).trans rfl⟩
    · intro i i1 i2 i3
      have i2 : i < 15 := i2
      have i4 : i ≠ 7 ∧ i ≠ 8 := ⟨fun h => i3 ⟨h31, Or.inl h⟩, fun h => i3 ⟨h31, Or.inr h⟩⟩
      refine (h1 i ?_).trans ?_
      · show i ≠ 15; omega
      · show upd (upd (fun j => if 3 ≤ j ∧ j < 3 + 12 then m.data j else upd c.answer.data 2 49 j) 7 0xB4) 8 0x10 i = _
        rw [upd_other _ _ i4.2, upd_other _ _ i4.1]
        rw [if_pos (by omega)]

/-- What a received packet does. -/
theorem receive_eq {c : Ctrl} (h : c.Ok) {m : Message} (hm : m.length ≤ 32) :
    (m.length ≤ 3 ∧ c.receive m = .ok c) ∨
    (3 < m.length ∧ c.state = .idle ∧ c.receive m = .ok c) ∨
    (3 < m.length ∧ c.state = .busScan ∧ ¬ ForeignAnswer c.address m ∧ c.receive m = .ok c) ∨
    (3 < m.length ∧ c.state = .busScan ∧ ForeignAnswer c.address m ∧
      ∃ d, c.receive m = .ok { c with address := 0x1E1 - c.address, answer := { c.answer with data := d } } ∧
        d 0 = c.answer.data 0 ∧ (d 1).toNat = 0x1E1 - c.address) ∨
    (3 < m.length ∧ c.state = .operating ∧ ¬ ValidRequest c.address m ∧ c.receive m = .ok { c with ready := false }) ∨
    (c.state = .operating ∧ ValidRequest c.address m ∧
      ∃ a, c.receive m = .ok { c with answer := a, ready := true } ∧ AnswerTo c.address m a) := by
  by_cases hl : m.length ≤ 3
  · exact Or.inl ⟨hl, by unfold Ctrl.receive; rw [if_pos hl]⟩
  have hl' : 3 < m.length := by omega
  obtain ⟨b, hb, hbc⟩ := crcMatches_eq hm (by omega)
  right
  rcases (show c.state = .idle ∨ c.state = .busScan ∨ c.state = .operating by cases c.state <;> simp) with hs | hs | hs
  · left
    exact ⟨hl', hs, by unfold Ctrl.receive; rw [if_neg hl, hs]⟩
  · right
    have e : c.receive m = c.scanPacket m := by unfold Ctrl.receive; rw [if_neg hl, hs]
    by_cases hc : m.data 0 = 0x40 ∧ (m.data 1).toNat = c.address ∧ m.data 2 = 0x30
    · cases b
      · left
        refine ⟨hl', hs, fun hf => ?_, ?_⟩
        · have := hbc.mpr hf.crc; cases this
        · rw [e, Ctrl.scanPacket, if_pos hc, hb]; rfl
      · right; left
        refine ⟨hl', hs, ⟨hl', hc.1, hc.2.1, hc.2.2, hbc.mp rfl⟩, ?_⟩
        have ea : (if c.address + 1 > 0xF1 then 0xF0 else c.address + 1) = 0x1E1 - c.address := by
          rcases h.range with h | h <;> rw [h] <;> rfl
        rw [e, Ctrl.scanPacket, if_pos hc, hb, Res.ok_bind]
        simp only [if_true]
        rw [ea, genCRC_eq _ (by decide), Res.ok_bind]
        refine ⟨_, rfl, ?_, ?_⟩
        · rw [upd_other _ _ (by decide), upd_other _ _ (by decide)]
        · rw [upd_other _ _ (by decide), upd_same]
          rcases h.range with h | h <;> rw [h] <;> rfl
    · left
      refine ⟨hl', hs, fun hf => hc ⟨hf.cmd, hf.addr, hf.type⟩, ?_⟩
      rw [e, Ctrl.scanPacket, if_neg hc]
  · right; right; right
    have e : c.receive m = if c.needToHandle m then (do
      let ok ← crcMatches m
      if ok then c.generateAnswer m else .ok { c with ready := false }) else .ok { c with ready := false } := by
      unfold Ctrl.receive; rw [if_neg hl, hs]
    have hn : c.needToHandle m = true ↔ m.data 0 = 0x00 ∧ (m.data 1).toNat = c.address ∧ (m.data 2 = 0x30 ∨ m.data 2 = 0x31) := by
      unfold Ctrl.needToHandle
      by_cases h0 : m.data 0 = 0x00
      · by_cases h1 : (m.data 1).toNat = c.address
        · rw [if_neg (not_not_intro h0), if_neg (not_not_intro h1)]
          by_cases h2 : m.data 2 = 0x30
          · rw [if_pos h2]; exact ⟨fun _ => ⟨h0, h1, Or.inl h2⟩, fun _ => rfl⟩
          · rw [if_neg h2]
            by_cases h3 : m.data 2 = 0x31
            · rw [if_pos h3]; exact ⟨fun _ => ⟨h0, h1, Or.inr h3⟩, fun _ => rfl⟩
            · rw [if_neg h3]
              exact ⟨fun h => (by cases h), fun h => (h.2.2.elim (absurd · h2) (absurd · h3))⟩
        · rw [if_neg (not_not_intro h0), if_pos h1]
          exact ⟨fun h => (by cases h), fun h => absurd h.2.1 h1⟩
      · rw [if_pos h0]
        exact ⟨fun h => (by cases h), fun h => absurd h.1 h0⟩
    by_cases hc : c.needToHandle m = true
    · obtain ⟨h0, h1, h2⟩ := hn.mp hc
      rw [if_pos hc, hb] at e
      cases b
      · left
        refine ⟨hl', hs, fun hf => ?_, e⟩
        have := hbc.mpr hf.crc; cases this
      · right
        refine ⟨hs, ⟨hl', h0, h1, h2, hbc.mp rfl⟩, ?_⟩
        obtain ⟨a, g1, g2⟩ := generateAnswer_eq h h2
        exact ⟨a, e.trans g1, g2⟩
    · left
      rw [if_neg hc] at e
      exact ⟨hl', hs, fun hf => hc (hn.mpr ⟨hf.cmd, hf.addr, hf.type⟩), e⟩

theorem txAnswer_eq {c : Ctrl} (h : c.answer.length ≤ 32) (out : Message) :
    c.txAnswer out = .ok ({ c with ready := false },
      { out with length := c.answer.length, data := fun j => if j < c.answer.length then c.answer.data j else out.data j }) := by
  unfold Ctrl.txAnswer
  rw [copyLoop_eq _ _ _ _ (by omega), Res.ok_bind]
  simp

theorem AnswerTo.le18 {a : Nat} {m o : Message} (h : AnswerTo a m o) : o.length ≤ 18 := by
  rw [h.length]; split <;> omega

/-- Every call on a good controller is defined and keeps it good. -/
theorem Ctrl.Ok.call {c : Ctrl} (h : c.Ok) {x : CtrlCall} (hx : x.Fits) : ∃ c', c.call x = .ok c' ∧ c'.Ok := by
  cases x with
  | check t1 t2 =>
    refine ⟨_, rfl, ?_⟩
    unfold Ctrl.check
    obtain ⟨a1, a2, a3, a4, a5⟩ := h
    cases hs : c.state <;> dsimp only <;> split <;> refine ⟨a1, a2, a3, a4, ?_⟩ <;> intro hr
    · exact absurd (a5 hr) (by rw [hs]; decide)
    · exact a5 hr
    · rfl
    · exact a5 hr
    · cases hr
    · exact a5 hr
  | receive m =>
    have hm : m.length ≤ 32 := hx
    show ∃ c', c.receive m = .ok c' ∧ c'.Ok
    rcases receive_eq h hm with g | g | g | g | g | g
    · exact ⟨c, g.2, h⟩
    · exact ⟨c, g.2.2, h⟩
    · exact ⟨c, g.2.2.2, h⟩
    · obtain ⟨-, hs, -, d, e, d0, d1⟩ := g
      refine ⟨_, e, ⟨d0.trans h.cmd, d1, ?_, h.len, ?_⟩⟩
      · rcases h.range with h | h
        · exact Or.inr (by show 0x1E1 - c.address = _; rw [h])
        · exact Or.inl (by show 0x1E1 - c.address = _; rw [h])
      · intro hr; exact absurd (h.ready hr) (by rw [hs]; decide)
    · exact ⟨_, g.2.2.2, ⟨h.cmd, h.addr, h.range, h.len, fun hr => by cases hr⟩⟩
    · obtain ⟨hs, -, a, e, ha⟩ := g
      exact ⟨_, e, ⟨ha.cmd, ha.addr, h.range, ha.le18, fun _ => hs⟩⟩
  | txAnswer out =>
    refine ⟨{ c with ready := false }, ?_, ⟨h.cmd, h.addr, h.range, h.len, fun hr => by cases hr⟩⟩
    show (c.txAnswer out >>= fun r => Res.ok r.1) = _
    have := h.len
    rw [txAnswer_eq (by omega)]; rfl
  | busCollision now => exact ⟨_, rfl, ⟨h.cmd, h.addr, h.range, h.len, fun hr => by cases hr⟩⟩

theorem Ctrl.run_snoc (c : Ctrl) (xs : List CtrlCall) (x : CtrlCall) : c.run (xs ++ [x]) = (c.run xs >>= fun c => c.call x) := by
  induction xs generalizing c with
  | nil =>
    show (c.call x >>= fun c => .ok c) = c.call x
    cases c.call x <;> rfl
  | cons y ys ih =>
    show (c.call y >>= fun c => c.run (ys ++ [x])) = ((c.call y >>= fun c => c.run ys) >>= fun c => c.call x)
    cases c.call y with
    | ub => rfl
    | ok c1 => exact ih c1

theorem Ctrl.Ok.run {c : Ctrl} (h : c.Ok) : ∀ (xs : List CtrlCall), (∀ x ∈ xs, x.Fits) → ∃ c', c.run xs = .ok c' ∧ c'.Ok := by
  intro xs
  induction xs generalizing c with
  | nil => intro _; exact ⟨c, rfl, h⟩
  | cons x xs ih =>
    intro hx
    obtain ⟨c1, e1, h1⟩ := h.call (hx x (List.mem_cons_self ..))
    obtain ⟨c2, e2, h2⟩ := ih h1 fun y hy => hx y (List.mem_cons_of_mem _ hy)
    exact ⟨c2, by rw [Ctrl.run, e1]; exact e2, h2⟩

theorem Reaches.ok {calls : List CtrlCall} {c : Ctrl} (h : Reaches calls c) : c.Ok := by
  obtain ⟨g, t0, hf, e⟩ := h
  obtain ⟨c', e', h'⟩ := (Ctrl.Ok.init g t0).run calls hf
  rw [e] at e'
  cases e'
  exact h'

theorem Reaches.fits {calls : List CtrlCall} {c : Ctrl} (h : Reaches calls c) : ∀ x ∈ calls, x.Fits := by
  obtain ⟨_, _, hf, _⟩ := h; exact hf

theorem Reaches.snoc {calls : List CtrlCall} {x : CtrlCall} {c : Ctrl} (h : Reaches (calls ++ [x]) c) :
    ∃ c0, Reaches calls c0 ∧ x.Fits ∧ c0.call x = .ok c := by
  obtain ⟨g, t0, hf, e⟩ := h
  rw [Ctrl.run_snoc, Res.bind_eq_ok] at e
  obtain ⟨c0, e0, e1⟩ := e
  exact ⟨c0, ⟨g, t0, fun y hy => hf y (List.mem_append_left _ hy), e0⟩, hf x (by simp), e1⟩

end P1P2
