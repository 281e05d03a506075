import Verif.Props.TxFail
/-!
# C123: `Done()`

`echoes`, `txEnd`, `txCmds`, `TxRun`: `Verif/Spec/Tx.lean`.
-/
namespace P1P2

/-- The execution `past` ends with the transmission of `m`, loaded by the call `w`: no message was loaded since. -/
def Loaded (s0 : TxSM) (past : List TxObs) (m : Message) (b : List TxObs) : Prop :=
  ∃ a w t, past = a ++ w :: b ∧ w.call = .wake m t ∧ (txEnd s0 a).st = .idle ∧
    ∀ b1 x b2, b = b1 ++ x :: b2 → ∀ m' t', x.call = .wake m' t' → (txEnd w.after b1).st ≠ .idle

theorem txEnd_snoc (s0 : TxSM) : ∀ (a : List TxObs) (e : TxObs), txEnd s0 (a ++ [e]) = e.after := by
  intro a
  induction a generalizing s0 with
  | nil => intro e; rfl
  | cons x a ih => intro e; exact ih _ e

/-- What the state says about the transmission. -/
def DoneInv (s0 : TxSM) (past : List TxObs) (s : TxSM) : Prop :=
  (s.txMsg.length = 0 ∧ s.txOffset = 4294967295 ∧ s.st = .idle) ∨
  ∃ b, Loaded s0 past s.txMsg b ∧ txEnd s0 past = s ∧ s.txOffset ≤ (echoes b).length ∧
    (s.txOffset ≠ 0 ∨ s.st = .startedWaitForBusy ∨ s.st = .runningCheckData → HwCmd.send s.txMsg ∈ txCmds b)

theorem loaded_snoc {s0 s : TxSM} {past b : List TxObs} {m : Message} {e : TxObs} (h : Loaded s0 past m b) (hs : txEnd s0 past = s)
    (he : ∀ m' t', e.call = .wake m' t' → s.st ≠ .idle) : Loaded s0 (past ++ [e]) m (b ++ [e]) := by
  obtain ⟨a, w, t, rfl, h1, h2, h3⟩ := h
  refine ⟨a, w, t, by simp, h1, h2, ?_⟩
  intro b1 x b2 hb m' t' hx
  have htx : ∀ (l : List TxObs) (q : TxSM), txEnd q (a ++ w :: l) = txEnd w.after l := by
    intro l
    clear h1 h2 h3 hs he
    induction a with
    | nil => intro q; rfl
    | cons y a ih => intro q; exact ih _
  rw [htx] at hs
  rcases List.eq_nil_or_concat b2 with rfl | ⟨b3, y, rfl⟩
  · have := List.append_inj' hb rfl
    simp only [List.cons.injEq, and_true] at this
    obtain ⟨rfl, rfl⟩ := this
    rw [hs]; exact he m' t' hx
  · rw [List.concat_eq_append, ← List.cons_append, ← List.append_assoc] at hb
    have := List.append_inj' hb rfl
    exact h3 b1 x b3 this.1 m' t' hx

theorem DoneInv.step {pf : Platform} {s0 s : TxSM} {past : List TxObs} {e : TxObs} (h : DoneInv s0 past s) (hs : txEnd s0 past = s)
    (hc : s.call pf e.call = .ok (e.after, e.cmds)) : DoneInv s0 (past ++ [e]) e.after := by
  have hend := txEnd_snoc s0 past e
  have hcm : ∀ l, txCmds (l ++ [e]) = txCmds l ++ e.cmds := by intro l; simp [txCmds]
  have hec : ∀ l, (echoes l).length ≤ (echoes (l ++ [e])).length := by intro l; simp [echoes]
  obtain ⟨call, cmds, after⟩ := e
  -- a call that keeps message and offset
  have keep : after.txMsg = s.txMsg → after.txOffset = s.txOffset → (s.st = .idle → after.st = .idle) →
      (∀ m' t', call = .wake m' t' → s.st ≠ .idle) →
      (after.st = .startedWaitForBusy ∨ after.st = .runningCheckData → s.txOffset ≠ 0 ∨ s.st = .startedWaitForBusy ∨ s.st = .runningCheckData ∨ HwCmd.send s.txMsg ∈ cmds) →
      DoneInv s0 (past ++ [⟨call, cmds, after⟩]) after := by
    intro k1 k2 k3 k4 k5
    rcases h with ⟨g1, g2, g3⟩ | ⟨b, g1, g2, g3, g4⟩
    · exact Or.inl ⟨by rw [k1]; exact g1, by rw [k2]; exact g2, k3 g3⟩
    · refine Or.inr ⟨b ++ [⟨call, cmds, after⟩], ?_, hend, ?_, ?_⟩
      · rw [k1]; exact loaded_snoc g1 hs k4
      · rw [k2]; exact Nat.le_trans g3 (hec b)
      · intro hh
        rw [k1, hcm]
        rw [k2] at hh
        have : (s.txOffset ≠ 0 ∨ s.st = .startedWaitForBusy ∨ s.st = .runningCheckData) ∨ HwCmd.send s.txMsg ∈ cmds := by
          rcases hh with hh | hh
          · exact Or.inl (Or.inl hh)
          · rcases k5 hh with q | q | q | q
            · exact Or.inl (Or.inl q)
            · exact Or.inl (Or.inr (Or.inl q))
            · exact Or.inl (Or.inr (Or.inr q))
            · exact Or.inr q
        rcases this with q | q
        · exact List.mem_append_left _ (g4 q)
        · exact List.mem_append_right _ q
  -- a byte
  have byte : after.txMsg = s.txMsg → after.txOffset = s.txOffset + 1 → s.st = .startedWaitForBusy ∨ s.st = .runningCheckData →
      (∃ i, call = .update i ∧ i.rxValid = true ∧ i.rxError = false) → DoneInv s0 (past ++ [⟨call, cmds, after⟩]) after := by
    intro k1 k2 k3 ⟨i, k4, k5, k6⟩
    rcases h with ⟨g1, g2, g3⟩ | ⟨b, g1, g2, g3, g4⟩
    · rw [g3] at k3
      rcases k3 with k3 | k3 <;> cases k3
    · refine Or.inr ⟨b ++ [⟨call, cmds, after⟩], ?_, hend, ?_, fun _ => ?_⟩
      · rw [k1]; exact loaded_snoc g1 hs fun m' t' hh => by rw [k4] at hh; cases hh
      · rw [k2]; simp [echoes, k4, k5, k6] at g3 ⊢; exact g3
      · rw [k1, hcm]; exact List.mem_append_left _ (g4 (Or.inr k3))
  cases TxSM.callCase hc with
  | upd i hcall hu =>
    have hcall : call = .update i := hcall
    have nw : ∀ m' t', call = .wake m' t' → s.st ≠ .idle := fun m' t' hh => by rw [hcall] at hh; cases hh
    cases hu with
    | early _ hs' _ =>
      have hs' : after = _ := hs'
      exact keep (by rw [hs']) (by rw [hs']) (fun _ => by rw [hs']) nw (fun hh => by rw [hs'] at hh; rcases hh with hh | hh <;> cases hh)
    | hw _ _ _ hs' _ =>
      have hs' : after = _ := hs'
      exact keep (by rw [hs']) (by rw [hs']) (fun _ => by rw [hs']) nw (fun hh => by rw [hs'] at hh; rcases hh with hh | hh <;> cases hh)
    | stay _ _ _ _ _ _ _ hs' _ =>
      have hs' : after = _ := hs'
      exact keep (by rw [hs']) (by rw [hs']) (fun hh => by rw [hs']; exact hh) nw (fun hh => by rw [hs'] at hh; exact Or.inr (by rcases hh with hh | hh; exact Or.inl hh; exact Or.inr (Or.inl hh)))
    | power _ _ hst _ _ _ hs' _ =>
      have hs' : after = _ := hs'
      exact keep (by rw [hs']) (by rw [hs']) (fun hh => by rw [hst] at hh; cases hh) nw (fun hh => by rw [hs'] at hh; rcases hh with hh | hh <;> cases hh)
    | start _ _ hst _ hs' hc' =>
      have hs' : after = _ := hs'
      have hc' : cmds = _ := hc'
      exact keep (by rw [hs']) (by rw [hs']) (fun hh => by rw [hst] at hh; cases hh) nw (fun _ => Or.inr (Or.inr (Or.inr (by rw [hc']; exact List.mem_singleton.mpr rfl))))
    | busy _ _ hst _ _ _ hs' _ =>
      have hs' : after = _ := hs'
      exact keep (by rw [hs']) (by rw [hs']) (fun hh => by rw [hst] at hh; cases hh) nw (fun _ => Or.inr (Or.inl hst))
    | rxErr _ _ hst _ hs' _ =>
      have hs' : after = _ := hs'
      exact keep (by rw [hs']) (by rw [hs']) (fun hh => by rw [hh] at hst; rcases hst with q | q <;> cases q) nw (fun hh => by rw [hs'] at hh; rcases hh with hh | hh <;> cases hh)
    | good _ _ hst hr hv _ _ _ _ hs' _ =>
      have hs' : after = _ := hs'
      exact byte (by rw [hs']) (by rw [hs']) hst ⟨i, hcall, hv, hr⟩
    | bad _ _ hst hr hv _ _ _ _ hs' _ =>
      have hs' : after = _ := hs'
      exact byte (by rw [hs']) (by rw [hs']) hst ⟨i, hcall, hv, hr⟩
    | finish _ _ hst _ hs' _ =>
      have hs' : after = _ := hs'
      exact keep (by rw [hs']) (by rw [hs']) (fun _ => by rw [hs']) nw (fun hh => by rw [hs'] at hh; rcases hh with hh | hh <;> cases hh)
  | accept m t hcall hst hs' _ =>
    have hs' : after = _ := hs'
    refine Or.inr ⟨[], ⟨past, _, t, rfl, ?_, by rw [hs]; exact hst, ?_⟩, hend, ?_, ?_⟩
    · rw [hs']; exact hcall
    · intro b1 x b2 hb; cases b1 <;> cases hb
    · rw [hs']; exact Nat.zero_le _
    · intro hh
      rw [hs'] at hh
      rcases hh with hh | hh | hh
      · exact absurd rfl hh
      · cases hh
      · cases hh
  | refuse m t hcall hst hs' _ =>
    have hs' : after = _ := hs'
    exact keep (by rw [hs']) (by rw [hs']) (fun hh => absurd hh hst) (fun _ _ _ => hst) (fun hh => by rw [hs'] at hh; exact Or.inr (by rcases hh with hh | hh; exact Or.inl hh; exact Or.inr (Or.inl hh)))
  | error hcall hs' _ =>
    have hs' : after = _ := hs'
    have hcall : call = _ := hcall
    exact keep (by rw [hs']) (by rw [hs']) (fun hh => by rw [hs']; exact hh) (fun m' t' hh => by rw [hcall] at hh; cases hh)
      (fun hh => by rw [hs'] at hh; exact Or.inr (by rcases hh with hh | hh; exact Or.inl hh; exact Or.inr (Or.inl hh)))
  | clearRx hcall hs' _ =>
    have hs' : after = _ := hs'
    have hcall : call = _ := hcall
    exact keep (by rw [hs']) (by rw [hs']) (fun hh => by rw [hs']; exact hh) (fun m' t' hh => by rw [hcall] at hh; cases hh)
      (fun hh => by rw [hs'] at hh; exact Or.inr (by rcases hh with hh | hh; exact Or.inl hh; exact Or.inr (Or.inl hh)))

theorem DoneInv.run {pf : Platform} {s0 : TxSM} : ∀ (es past : List TxObs) (s : TxSM), DoneInv s0 past s → txEnd s0 past = s → TxRun pf s es →
    DoneInv s0 (past ++ es) (txEnd s es) := by
  intro es
  induction es with
  | nil => intro past s h _ _; simpa [txEnd] using h
  | cons e es ih =>
    intro past s h hs hr
    have := ih (past ++ [e]) e.after (h.step hs hr.1) (txEnd_snoc _ _ _) hr.2
    simpa [txEnd] using this

/-- **C123.** `Done()` is never true early: at every point of every history of calls, if `Done()` is true then a message
was loaded into the idle transmitter (the last one that was accepted), and since then at least as many bytes have been
received without error as the message has; and unless the message is empty, it was handed to the hardware.  In particular
`Done()` is false until the first message.  (`C24_verified_echo`: after a transmission without error it is true.) -/
theorem C123_done (pf : Platform) (g : Nat → UInt8) (es : List TxObs) (hr : TxRun pf (TxSM.init g) es) (hd : (txEnd (TxSM.init g) es).done = true) :
    ∃ a w b m t, es = a ++ w :: b ∧ w.call = .wake m t ∧ (txEnd (TxSM.init g) a).isIdle = true ∧
      (∀ b1 x b2, b = b1 ++ x :: b2 → ∀ m' t', x.call = .wake m' t' → (txEnd w.after b1).isIdle = false) ∧
      m.length ≤ (echoes b).length ∧ (m.length ≠ 0 → HwCmd.send m ∈ txCmds b) := by
  have h := DoneInv.run es [] (TxSM.init g) (Or.inl ⟨rfl, rfl, rfl⟩) rfl hr
  have hd : (txEnd (TxSM.init g) es).txOffset = (txEnd (TxSM.init g) es).txMsg.length := by simpa [TxSM.done] using hd
  rcases h with ⟨h1, h2, -⟩ | ⟨b, ⟨a, w, t, h1, h2, h3, h4⟩, h5, h6, h7⟩
  · omega
  · refine ⟨a, w, b, _, t, by simpa using h1, h2, decide_eq_true h3, ?_, by omega, fun hne => h7 (Or.inl (by omega))⟩
    intro b1 x b2 hb m' t' hx
    have := h4 b1 x b2 hb m' t' hx
    exact decide_eq_false this

/-- `Done()` call by call: not before the first message, true from the second byte on; and a refused message does not
change it. -/
example : (TxSM.init fun _ => 0).done = false ∧ TxRun .arm (TxSM.init fun _ => 0) demoRun ∧
    demoRun.map (fun e => e.after.done) = [false, false, false, false, false, false, true, true] :=
  ⟨by decide, TxRun.annotate _ _ _, by decide⟩

end P1P2
