import Verif.Spec.Core0
import Verif.Proofs.Message
import Verif.Proofs.Standalone
/-!
# Lemmas about the main loop
-/
namespace P1P2

theorem Message.append_snoc {m m' : Message} {b : UInt8} (hl : m.length < 32) (h : m.append b = .ok m') :
    m'.bytes = m.bytes ++ [b] ∧ m'.length = m.length + 1 ∧ m'.status = m.status ∧ m'.time = m.time := by
  rw [Message.append_lt m b hl] at h
  simp only [Res.ok.injEq] at h
  subst h
  refine ⟨?_, rfl, rfl, rfl⟩
  simp only [Message.bytes, List.range_succ, List.map_append, List.map_cons, List.map_nil, upd_same]
  congr 1
  apply List.map_congr_left
  intro i hi
  rw [upd_other _ _ (by have := List.mem_range.mp hi; omega)]

/-- From collecting in `m` to collecting in `m'`: the results `inp` came in and the reports `rs` were made. -/
def Collect (m : Message) (inp : List (UInt8 × Bool)) (rs : List Report) (m' : Message) : Prop :=
  ∀ last, Shows m last → ∃ (segs : List (Message × List (UInt8 × Bool))) (last' : List (UInt8 × Bool)), rxMsgs rs = segs.map Prod.fst ∧ (∀ p ∈ segs, Shows p.1 p.2) ∧
    Shows m' last' ∧ segs.flatMap Prod.snd ++ last' = last ++ inp

theorem rxMsgs_append (a b : List Report) : rxMsgs (a ++ b) = rxMsgs a ++ rxMsgs b := List.filterMap_append

namespace Collect

theorem refl (m : Message) : Collect m [] [] m := fun last h => ⟨[], last, rfl, by simp, h, by simp⟩

theorem trans {m m1 m2 : Message} {i1 i2 : List (UInt8 × Bool)} {r1 r2 : List Report} (h1 : Collect m i1 r1 m1)
    (h2 : Collect m1 i2 r2 m2) : Collect m (i1 ++ i2) (r1 ++ r2) m2 := by
  intro last h
  obtain ⟨s1, l1, a1, b1, c1, d1⟩ := h1 last h
  obtain ⟨s2, l2, a2, b2, c2, d2⟩ := h2 l1 c1
  refine ⟨s1 ++ s2, l2, by rw [rxMsgs_append, a1, a2, List.map_append], ?_, c2, ?_⟩
  · intro p hp
    rcases List.mem_append.mp hp with hp | hp
    · exact b1 p hp
    · exact b2 p hp
  · rw [List.flatMap_append, List.append_assoc, d2, ← List.append_assoc, d1, List.append_assoc]

theorem shows_clear (m : Message) : Shows m.clear [] := ⟨rfl, by simp⟩

/-- The message is reported with another status and cleared. -/
theorem flush (m : Message) (k : Nat) (hk : k ≠ 0) : Collect m [] [.rx { m with status := k }] m.clear := by
  intro last h
  refine ⟨[({ m with status := k }, last)], [], rfl, ?_, shows_clear m, by simp⟩
  intro p hp
  simp only [List.mem_singleton] at hp
  subst hp
  exact ⟨h.1, fun _ => hk⟩

/-- The message is reported and cleared. -/
theorem report (m : Message) : Collect m [] [.rx m] m.clear := by
  intro last h
  refine ⟨[(m, last)], [], rfl, ?_, shows_clear m, by simp⟩
  intro p hp
  simp only [List.mem_singleton] at hp
  subst hp
  exact h

theorem status (m : Message) (k : Nat) (hk : k ≠ 0) : Collect m [] [] { m with status := k } :=
  fun last h => ⟨[], last, rfl, by simp, ⟨h.1, fun _ => hk⟩, by simp⟩

theorem byte {m m' : Message} {b : UInt8} {e : Bool} (hl : m.length < 32) (h : m.append b = .ok m') (he : e = true → m.status ≠ 0) :
    Collect m [(b, e)] [] m' := by
  intro last hc
  obtain ⟨h1, _, h3, _⟩ := Message.append_snoc hl h
  refine ⟨[], last ++ [(b, e)], rfl, by simp, ⟨by rw [h1, hc.1]; simp, ?_⟩, by simp⟩
  rintro ⟨p, hp, hp2⟩
  rw [h3]
  rcases List.mem_append.mp hp with hp | hp
  · exact hc.2 ⟨p, hp, hp2⟩
  · simp only [List.mem_singleton] at hp
    exact he (by rw [hp] at hp2; exact hp2)

theorem skipTx (m : Message) (rs : List Report) (h : rxMsgs rs = []) : Collect m [] rs m :=
  fun last hc => ⟨[], last, h, by simp, hc, by simp⟩

end Collect

/-! ## The parts of an iteration -/

/-- The rest of the first part after `check`, for reference. -/
def Core0.afterCheck (c : Core0) (h : Host) (e : Env1) : Core0 :=
  { c with host := h, ctrl := c.ctrl.check e.tCtrl1 e.tCtrl2, sm := c.sm.error.1, fail := c.sm.error.2 }

theorem Core0.part1_ok {pf : Platform} {g : Nat → UInt8} {c c' : Core0} {e : Env1} {rs : List Report}
    (h : c.part1 pf g e = .ok (c', rs)) : ∃ k, Host.check pf g c.host e.tHost e.chunk = .ok k ∧
      c' = (((c.afterCheck k e).watchdog e.tDog1 e.tDog2).1.fifoCheck e.fifoErr).1 ∧
      rs = ((c.afterCheck k e).watchdog e.tDog1 e.tDog2).2 ++ (((c.afterCheck k e).watchdog e.tDog1 e.tDog2).1.fifoCheck e.fifoErr).2 := by
  rw [Core0.part1, Res.bind_eq_ok] at h
  obtain ⟨k, h1, h⟩ := h
  simp only [Res.ok.injEq, Prod.mk.injEq] at h
  exact ⟨k, h1, h.1.symm, h.2.symm⟩

theorem Core0.watchdog_collect (c : Core0) (u1 u2 : Nat) : Collect c.rxMsg [] (c.watchdog u1 u2).2 (c.watchdog u1 u2).1.rxMsg := by
  unfold Core0.watchdog
  split
  · exact .flush _ _ (by decide)
  · exact .refl _

theorem Core0.fifoCheck_collect (c : Core0) (b : Bool) : Collect c.rxMsg [] (c.fifoCheck b).2 (c.fifoCheck b).1.rxMsg := by
  unfold Core0.fifoCheck
  split
  · exact .flush _ _ (by decide)
  · exact .refl _

theorem Core0.watchdog_len (c : Core0) (u1 u2 : Nat) (h : c.rxMsg.length < 32) : (c.watchdog u1 u2).1.rxMsg.length < 32 := by
  unfold Core0.watchdog
  split
  · show 0 < 32; omega
  · exact h

theorem Core0.fifoCheck_len (c : Core0) (b : Bool) (h : c.rxMsg.length < 32) : (c.fifoCheck b).1.rxMsg.length < 32 := by
  unfold Core0.fifoCheck
  split
  · show 0 < 32; omega
  · exact h

theorem Core0.part1_collect {pf : Platform} {g : Nat → UInt8} {c c' : Core0} {e : Env1} {rs : List Report}
    (h : c.part1 pf g e = .ok (c', rs)) (hl : c.rxMsg.length < 32) : Collect c.rxMsg [] rs c'.rxMsg ∧ c'.rxMsg.length < 32 := by
  obtain ⟨k, _, rfl, rfl⟩ := Core0.part1_ok h
  exact ⟨(Core0.watchdog_collect (c.afterCheck k e) _ _).trans (Core0.fifoCheck_collect _ _),
    Core0.fifoCheck_len _ _ (Core0.watchdog_len _ _ _ hl)⟩

theorem Core0.reportFailure_rxMsg (c : Core0) (now : Nat) : (c.reportFailure now).1.rxMsg = c.rxMsg := by
  unfold Core0.reportFailure
  split
  · dsimp only
    split <;> split <;> rfl
  · rfl

theorem Core0.reportFailure_rx (c : Core0) (now : Nat) : rxMsgs (c.reportFailure now).2 = [] := by
  unfold Core0.reportFailure
  split
  · dsimp only
    split <;> split <;> rfl
  · rfl

theorem Core0.collectByte_ok {c c' : Core0} {w : Word} (h : c.collectByte w = .ok c') (hl : c.rxMsg.length < 32) :
    c' = { c with rxMsg := c'.rxMsg } ∧ c'.rxMsg.length ≤ c.rxMsg.length + 1 ∧
    (WordOk w → Collect c.rxMsg (resultOf w) [] c'.rxMsg) := by
  unfold Core0.collectByte at h
  split at h
  · rename_i hd
    simp only [Res.ok.injEq] at h
    subst h
    refine ⟨rfl, by show c.rxMsg.length ≤ _; omega, fun hw => ?_⟩
    have : resultOf w = [] := by rw [hw.2.2 hd]; rfl
    rw [this]
    exact .status _ _ (by decide)
  · split at h
    · rename_i he
      rw [Res.bind_eq_ok] at h
      obtain ⟨m, h1, h⟩ := h
      simp only [Res.ok.injEq] at h
      subst h
      have h2 := Message.append_snoc (m := { c.rxMsg with status := Message.errParity }) hl h1
      refine ⟨rfl, by show m.length ≤ _; rw [h2.2.1]; exact Nat.le_refl _, fun hw => ?_⟩
      have : resultOf w = [] ++ [(w.rxChar, true)] := by unfold resultOf; rw [he]; simp
      rw [this]
      exact (Collect.status c.rxMsg Message.errParity (by decide)).trans (Collect.byte (m := { c.rxMsg with status := Message.errParity }) hl h1 (fun _ => (by decide : Message.errParity ≠ 0)))
    · split at h
      · rename_i he hv
        rw [Res.bind_eq_ok] at h
        obtain ⟨m, h1, h⟩ := h
        simp only [Res.ok.injEq] at h
        subst h
        have h2 := Message.append_snoc hl h1
        refine ⟨rfl, by show m.length ≤ _; rw [h2.2.1]; exact Nat.le_refl _, fun hw => ?_⟩
        have : resultOf w = [(w.rxChar, false)] := by unfold resultOf; simp only [Bool.not_eq_true] at he; rw [hv, he]; simp
        rw [this]
        exact .byte hl h1 (fun hf => by cases hf)
      · rename_i he hv
        simp only [Res.ok.injEq] at h
        subst h
        refine ⟨rfl, by omega, fun hw => ?_⟩
        have : resultOf w = [] := by unfold resultOf; simp only [Bool.not_eq_true] at he hv; rw [hv, he]; simp
        rw [this]
        exact .refl _

theorem Core0.packetEnd_ok {c : Core0} {w : Word} {r : Core0 × List Report} (h : c.packetEnd w = .ok r) :
    (r = (c, []) ∧ ¬ (w.lineFree = true ∧ (0 < c.rxMsg.length ∨ c.rxMsg.status ≠ 0))) ∨
    ((w.lineFree = true ∧ (0 < c.rxMsg.length ∨ c.rxMsg.status ≠ 0)) ∧
      ∃ k, c.ctrl.receive c.rxMsg = .ok k ∧ r = ({ c with ctrl := k, rxMsg := c.rxMsg.clear }, [.rx c.rxMsg])) := by
  have e : (w.lineFree && (decide (c.rxMsg.length > 0) || c.rxMsg.status != 0)) = true ↔
      (w.lineFree = true ∧ (0 < c.rxMsg.length ∨ c.rxMsg.status ≠ 0)) := by simp
  unfold Core0.packetEnd at h
  split at h
  · rename_i hc
    rw [Res.bind_eq_ok] at h
    obtain ⟨k, h1, h⟩ := h
    simp only [Res.ok.injEq] at h
    exact .inr ⟨e.mp hc, k, h1, h.symm⟩
  · rename_i hc
    simp only [Res.ok.injEq] at h
    exact .inl ⟨h.symm, fun hh => hc (e.mpr hh)⟩

theorem Core0.overflowCheck_eq (c : Core0) :
    (c.rxMsg.length = 32 ∧ c.overflowCheck = ({ c with rxMsg := c.rxMsg.clear }, [.rx { c.rxMsg with status := Message.errOverflow }])) ∨
    (c.rxMsg.length ≠ 32 ∧ c.overflowCheck = (c, [])) := by
  unfold Core0.overflowCheck Message.overflow
  by_cases h : c.rxMsg.length = 32
  · left
    refine ⟨h, ?_⟩
    rw [if_pos]
    exact decide_eq_true (by simpa [maxPacket] using h)
  · right
    refine ⟨h, ?_⟩
    rw [if_neg]
    intro hd
    exact h (by simpa [maxPacket] using of_decide_eq_true hd)

theorem Core0.lineState_rxMsg (c : Core0) (w : Word) (u : Nat) : (c.lineState w u).rxMsg = c.rxMsg := by
  unfold Core0.lineState
  split
  · rfl
  · split <;> rfl

/-- The states a word leads through. -/
theorem Core0.takeWord_ok {c : Core0} {w : Word} {u : Nat} {r : Core0 × List Report} (h : c.takeWord w u = .ok r) :
    ∃ c1 p, ({ c with word := w } : Core0).collectByte w = .ok c1 ∧ c1.packetEnd w = .ok p ∧
      r = (p.1.overflowCheck.1.lineState w u, p.2 ++ p.1.overflowCheck.2) := by
  rw [Core0.takeWord, Res.bind_eq_ok] at h
  obtain ⟨c1, h1, h⟩ := h
  rw [Res.bind_eq_ok] at h
  obtain ⟨p, h2, h⟩ := h
  simp only [Res.ok.injEq] at h
  exact ⟨c1, p, h1, h2, h.symm⟩

theorem Core0.takeWord_collect {c : Core0} {w : Word} {u : Nat} {r : Core0 × List Report} (h : c.takeWord w u = .ok r)
    (hl : c.rxMsg.length < 32) : r.1.rxMsg.length < 32 ∧ (WordOk w → Collect c.rxMsg (resultOf w) r.2 r.1.rxMsg) := by
  obtain ⟨c1, p, h1, h2, rfl⟩ := Core0.takeWord_ok h
  obtain ⟨_, h4, h5⟩ := Core0.collectByte_ok h1 hl
  have h6 : p.1.rxMsg.length ≤ 32 ∧ Collect c1.rxMsg [] p.2 p.1.rxMsg := by
    rcases Core0.packetEnd_ok h2 with ⟨rfl, _⟩ | ⟨_, k, _, rfl⟩
    · exact ⟨Nat.le_trans h4 (by show c.rxMsg.length + 1 ≤ 32; omega), .refl _⟩
    · exact ⟨by show (0 : Nat) ≤ 32; omega, .report _⟩
  have h7 : p.1.overflowCheck.1.rxMsg.length < 32 ∧ Collect p.1.rxMsg [] p.1.overflowCheck.2 p.1.overflowCheck.1.rxMsg := by
    rcases Core0.overflowCheck_eq p.1 with ⟨_, he⟩ | ⟨hn, he⟩ <;> rw [he]
    · exact ⟨by show (0 : Nat) < 32; omega, .flush _ _ (by decide)⟩
    · exact ⟨by have := h6.1; show p.1.rxMsg.length < 32; omega, .refl _⟩
  dsimp only
  rw [Core0.lineState_rxMsg]
  refine ⟨h7.1, fun hw => ?_⟩
  have := ((h5 hw).trans h6.2).trans h7.2
  simpa using this

theorem Core0.startTx_rxMsg {g : Nat → UInt8} {c : Core0} {now : Nat} {r : Core0 × Option Message × List HwCmd}
    (h : c.startTx g now = .ok r) : r.1.rxMsg = c.rxMsg := by
  unfold Core0.startTx at h
  split at h
  · split at h
    · rw [Res.bind_eq_ok] at h
      obtain ⟨a, _, h⟩ := h
      simp only [Res.ok.injEq] at h
      subst h; rfl
    · split at h
      · rw [Res.bind_eq_ok] at h
        obtain ⟨a, _, h⟩ := h
        simp only [Res.ok.injEq] at h
        subst h; rfl
      · simp only [Res.ok.injEq] at h
        subst h; rfl
  · simp only [Res.ok.injEq] at h
    subst h; rfl

theorem Core0.updateTx_ok {pf : Platform} {c : Core0} {e : Env2} {r : Core0 × List HwCmd} (h : c.updateTx pf e = .ok r) :
    ∃ s, c.sm.update pf
      { busy := c.lineBusy, rxError := c.word.rxError, rxValid := c.word.rxValid, rxChar := c.word.rxChar, hwErr := e.hwErr,
        transmitting := e.transmitting, tErr := e.tErr, tPow := e.tPow, tNew := e.tNew } = .ok (s, r.2) ∧
      r.1 = { c with sm := s, word := .zero } := by
  rw [Core0.updateTx, Res.bind_eq_ok] at h
  obtain ⟨a, h1, h⟩ := h
  simp only [Res.ok.injEq] at h
  subst h
  exact ⟨a.1, h1, rfl⟩

theorem Core0.finish_ok {pf : Platform} {g : Nat → UInt8} {c : Core0} {e : Env2} {rs : List Report} {r : Core0 × Out2}
    (h : c.finish pf g e rs = .ok r) : ∃ s u, c.startTx g e.tWake = .ok s ∧ s.1.updateTx pf e = .ok u ∧
      r = (u.1, { reports := rs, started := s.2.1, cmds := s.2.2 ++ u.2, updated := true }) := by
  rw [Core0.finish, Res.bind_eq_ok] at h
  obtain ⟨s, h1, h⟩ := h
  rw [Res.bind_eq_ok] at h
  obtain ⟨u, h2, h⟩ := h
  simp only [Res.ok.injEq] at h
  exact ⟨s, u, h1, h2, h.symm⟩

theorem Core0.finish_rxMsg {pf : Platform} {g : Nat → UInt8} {c : Core0} {e : Env2} {rs : List Report} {r : Core0 × Out2}
    (h : c.finish pf g e rs = .ok r) : r.1.rxMsg = c.rxMsg ∧ r.2.reports = rs := by
  obtain ⟨s, u, h1, h2, rfl⟩ := Core0.finish_ok h
  obtain ⟨_, _, h3⟩ := Core0.updateTx_ok h2
  refine ⟨?_, rfl⟩
  show u.1.rxMsg = _
  rw [h3]
  exact Core0.startTx_rxMsg h1

/-- The second part of an iteration: the failure report, the word if any, then the transmitter unless nothing is to be done. -/
theorem Core0.part2_ok {pf : Platform} {g : Nat → UInt8} {c : Core0} {e : Env2} {r : Core0 × Out2} (h : c.part2 pf g e = .ok r) :
    (∃ w t, e.word = some w ∧ (c.reportFailure e.tColl).1.takeWord w e.tBusy = .ok t ∧
      t.1.finish pf g e ((c.reportFailure e.tColl).2 ++ t.2) = .ok r) ∨
    (e.word = none ∧ (c.reportFailure e.tColl).1.finish pf g e (c.reportFailure e.tColl).2 = .ok r) ∨
    (e.word = none ∧ (c.reportFailure e.tColl).1.lineBusy = false ∧ (c.reportFailure e.tColl).1.ctrl.hasTxData = false ∧
      (c.reportFailure e.tColl).1.host.hasData = false ∧ (c.reportFailure e.tColl).1.sm.isIdle = true ∧
      r = ((c.reportFailure e.tColl).1, { reports := (c.reportFailure e.tColl).2, started := none, cmds := [], updated := false })) := by
  unfold Core0.part2 at h
  split at h
  · rename_i w hw
    rw [Res.bind_eq_ok] at h
    obtain ⟨t, h1, h2⟩ := h
    exact .inl ⟨w, t, hw, h1, h2⟩
  · rename_i hw
    dsimp only at h
    split at h
    · rename_i hc
      simp only [Res.ok.injEq] at h
      simp only [Bool.and_eq_true, Bool.not_eq_true'] at hc
      exact .inr (.inr ⟨hw, hc.1.1.1, hc.1.1.2, hc.1.2, hc.2, h.symm⟩)
    · exact .inr (.inl ⟨hw, h⟩)

theorem Core0.part2_collect {pf : Platform} {g : Nat → UInt8} {c : Core0} {e : Env2} {r : Core0 × Out2} (h : c.part2 pf g e = .ok r)
    (hl : c.rxMsg.length < 32) : r.1.rxMsg.length < 32 ∧
      ((∀ w, e.word = some w → WordOk w) → Collect c.rxMsg (e.word.toList.flatMap resultOf) r.2.reports r.1.rxMsg) := by
  have h0 : Collect c.rxMsg [] (c.reportFailure e.tColl).2 (c.reportFailure e.tColl).1.rxMsg := by
    rw [Core0.reportFailure_rxMsg]
    exact .skipTx _ _ (Core0.reportFailure_rx _ _)
  have hl0 : (c.reportFailure e.tColl).1.rxMsg.length < 32 := by rw [Core0.reportFailure_rxMsg]; exact hl
  rcases Core0.part2_ok h with ⟨w, t, hw, h1, h2⟩ | ⟨hw, h2⟩ | ⟨hw, _, _, _, _, rfl⟩
  · obtain ⟨h3, h4⟩ := Core0.takeWord_collect h1 hl0
    obtain ⟨h5, h6⟩ := Core0.finish_rxMsg h2
    rw [h5, h6, hw]
    refine ⟨h3, fun hwo => ?_⟩
    have := h0.trans (h4 (hwo w rfl))
    simpa using this
  · obtain ⟨h5, h6⟩ := Core0.finish_rxMsg h2
    rw [h5, h6, hw]
    exact ⟨hl0, fun _ => h0⟩
  · rw [hw]
    exact ⟨hl0, fun _ => h0⟩

/-! ## Runs of both cores -/

theorem TwoCores.run_cons {pf : Platform} {g : Nat → UInt8} {s t : TwoCores} {x : TwoStep} {xs : List TwoStep} {os : List TwoOut}
    (h : s.run pf g (x :: xs) = .ok (some (t, os))) : ∃ s' o os', s.step pf g x = .ok (some (s', o)) ∧
      s'.run pf g xs = .ok (some (t, os')) ∧ os = o :: os' := by
  rw [TwoCores.run, Res.bind_eq_ok] at h
  obtain ⟨a, h1, h⟩ := h
  cases a with
  | none => simp at h
  | some a =>
    obtain ⟨s', o⟩ := a
    dsimp only at h
    rw [Res.bind_eq_ok] at h
    obtain ⟨b, h2, h⟩ := h
    cases b with
    | none => simp at h
    | some b =>
      obtain ⟨t', os'⟩ := b
      simp only [Res.ok.injEq, Option.some.injEq, Prod.mk.injEq] at h
      obtain ⟨rfl, rfl⟩ := h
      exact ⟨s', o, os', h1, h2, rfl⟩

theorem TwoCores.run_nil {pf : Platform} {g : Nat → UInt8} {s t : TwoCores} {os : List TwoOut}
    (h : s.run pf g [] = .ok (some (t, os))) : t = s ∧ os = [] := by
  simp only [TwoCores.run, Res.ok.injEq, Option.some.injEq, Prod.mk.injEq] at h
  exact ⟨h.1.symm, h.2.symm⟩

theorem TwoCores.run_append {pf : Platform} {g : Nat → UInt8} {s t : TwoCores} {xs ys : List TwoStep} {os : List TwoOut}
    (h : s.run pf g (xs ++ ys) = .ok (some (t, os))) : ∃ s' o1 o2, s.run pf g xs = .ok (some (s', o1)) ∧
      s'.run pf g ys = .ok (some (t, o2)) ∧ os = o1 ++ o2 := by
  induction xs generalizing s os with
  | nil => exact ⟨s, [], os, rfl, h, rfl⟩
  | cons x xs ih =>
    obtain ⟨s', o, os', h1, h2, rfl⟩ := TwoCores.run_cons h
    obtain ⟨s2, o1, o2, h3, h4, rfl⟩ := ih h2
    refine ⟨s2, o :: o1, o2, ?_, h4, rfl⟩
    rw [TwoCores.run, h1, Res.ok_bind]
    dsimp only
    rw [h3]; rfl

/-- What a step does. -/
theorem TwoCores.step_ok {pf : Platform} {g : Nat → UInt8} {s s' : TwoCores} {x : TwoStep} {o : TwoOut}
    (h : s.step pf g x = .ok (some (s', o))) :
    (∃ w, x = .push w ∧ s.fifo.length < 8 ∧ s' = { s with fifo := s.fifo ++ [w] } ∧ o = { reports := [], dropped := false }) ∨
    (∃ w, x = .push w ∧ 8 ≤ s.fifo.length ∧ s' = { s with fifoErr := true } ∧ o = { reports := [], dropped := true }) ∨
    (∃ e c rs, x = .first e ∧ s.pc = .top ∧ e.fifoErr = s.fifoErr ∧ s.c0.part1 pf g e = .ok (c, rs) ∧
      s' = { s with c0 := c, pc := .clear } ∧ o = { reports := rs, dropped := false }) ∨
    (x = .clear ∧ s.pc = .clear ∧ s' = { s with fifoErr := if s.c0.clr then false else s.fifoErr, pc := .rest } ∧
      o = { reports := [], dropped := false }) ∨
    (∃ e r, x = .second e ∧ s.pc = .rest ∧ e.word = s.fifo.head? ∧ s.c0.part2 pf g e = .ok r ∧
      s' = { s with c0 := r.1, fifo := s.fifo.tail, pc := .top } ∧ o = { reports := r.2.reports, dropped := false }) := by
  cases x with
  | push w =>
    rw [TwoCores.step] at h
    split at h
    · rename_i hl
      simp only [Res.ok.injEq, Option.some.injEq, Prod.mk.injEq] at h
      exact .inl ⟨w, rfl, hl, h.1.symm, h.2.symm⟩
    · rename_i hl
      simp only [Res.ok.injEq, Option.some.injEq, Prod.mk.injEq] at h
      exact .inr (.inl ⟨w, rfl, by omega, h.1.symm, h.2.symm⟩)
  | first e =>
    rw [TwoCores.step] at h
    split at h
    · rename_i hc
      rw [Res.bind_eq_ok] at h
      obtain ⟨⟨c, rs⟩, h1, h⟩ := h
      simp only [Res.ok.injEq, Option.some.injEq, Prod.mk.injEq] at h
      exact .inr (.inr (.inl ⟨e, c, rs, rfl, hc.1, hc.2, h1, h.1.symm, h.2.symm⟩))
    · simp at h
  | clear =>
    rw [TwoCores.step] at h
    split at h
    · rename_i hc
      simp only [Res.ok.injEq, Option.some.injEq, Prod.mk.injEq] at h
      exact .inr (.inr (.inr (.inl ⟨rfl, hc, h.1.symm, h.2.symm⟩)))
    · simp at h
  | second e =>
    rw [TwoCores.step] at h
    split at h
    · rename_i hc
      rw [Res.bind_eq_ok] at h
      obtain ⟨r, h1, h⟩ := h
      simp only [Res.ok.injEq, Option.some.injEq, Prod.mk.injEq] at h
      exact .inr (.inr (.inr (.inr ⟨e, r, rfl, hc.1, hc.2, h1, h.1.symm, h.2.symm⟩)))
    · simp at h

theorem TwoCores.step_collect {pf : Platform} {g : Nat → UInt8} {s s' : TwoCores} {x : TwoStep} {o : TwoOut}
    (h : s.step pf g x = .ok (some (s', o))) (hl : s.c0.rxMsg.length < 32) (hf : ∀ w ∈ s.fifo, WordOk w)
    (hx : ∀ w, x = .push w → WordOk w) :
    s'.c0.rxMsg.length < 32 ∧ (∀ w ∈ s'.fifo, WordOk w) ∧ ∃ inp, Collect s.c0.rxMsg inp o.reports s'.c0.rxMsg ∧
      inp ++ s'.fifo.flatMap resultOf = s.fifo.flatMap resultOf ++ accepted [x] [o] := by
  rcases TwoCores.step_ok h with ⟨w, rfl, hw, rfl, rfl⟩ | ⟨w, rfl, hw, rfl, rfl⟩ | ⟨e, c, rs, rfl, _, _, h1, rfl, rfl⟩ | ⟨rfl, _, rfl, rfl⟩ |
    ⟨e, r, rfl, _, hw, h1, rfl, rfl⟩
  · refine ⟨hl, ?_, [], .refl _, by simp [accepted]⟩
    intro w' hw'
    rcases List.mem_append.mp hw' with hw' | hw'
    · exact hf w' hw'
    · rw [List.mem_singleton.mp hw']
      exact hx w rfl
  · exact ⟨hl, hf, [], .refl _, by simp [accepted]⟩
  · obtain ⟨h2, h3⟩ := Core0.part1_collect h1 hl
    exact ⟨h3, hf, [], h2, by simp [accepted]⟩
  · exact ⟨hl, hf, [], .refl _, by simp [accepted]⟩
  · obtain ⟨h2, h3⟩ := Core0.part2_collect h1 hl
    refine ⟨h2, fun w hw => hf w (List.mem_of_mem_tail hw), _, h3 ?_, ?_⟩
    · intro w hw'
      rw [hw] at hw'
      exact hf w (List.mem_of_mem_head? hw')
    · rw [hw]
      cases s.fifo <;> simp [accepted]

theorem accepted_cons (x : TwoStep) (xs : List TwoStep) (o : TwoOut) (os : List TwoOut) :
    accepted (x :: xs) (o :: os) = accepted [x] [o] ++ accepted xs os := by
  cases x <;> simp [accepted]

theorem TwoCores.run_collect {pf : Platform} {g : Nat → UInt8} {s t : TwoCores} {xs : List TwoStep} {os : List TwoOut}
    (h : s.run pf g xs = .ok (some (t, os))) (hl : s.c0.rxMsg.length < 32) (hf : ∀ w ∈ s.fifo, WordOk w)
    (hx : WordsOk xs) : t.c0.rxMsg.length < 32 ∧ ∃ inp, Collect s.c0.rxMsg inp (reportsOf os) t.c0.rxMsg ∧
      inp ++ t.fifo.flatMap resultOf = s.fifo.flatMap resultOf ++ accepted xs os := by
  induction xs generalizing s os with
  | nil =>
    obtain ⟨rfl, rfl⟩ := TwoCores.run_nil h
    exact ⟨hl, [], .refl _, by simp [accepted]⟩
  | cons x xs ih =>
    obtain ⟨s', o, os', h1, h2, rfl⟩ := TwoCores.run_cons h
    obtain ⟨h3, h4, i1, h5, h6⟩ := TwoCores.step_collect h1 hl hf (fun w hw => hx w (by simp [hw]))
    obtain ⟨h7, i2, h8, h9⟩ := ih h2 h3 h4 (fun w hw => hx w (by simp [hw]))
    refine ⟨h7, i1 ++ i2, ?_, ?_⟩
    · have : reportsOf (o :: os') = o.reports ++ reportsOf os' := by simp [reportsOf]
      rw [this]
      exact h5.trans h8
    · rw [accepted_cons, List.append_assoc, h9, ← List.append_assoc, h6, List.append_assoc]

end P1P2
