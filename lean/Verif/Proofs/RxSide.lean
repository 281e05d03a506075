import Verif.Proofs.Core0
/-!
# The receive side of the main loop does not depend on the rest
-/
namespace P1P2

/-- The variables of the receive side: main.cpp:206, 207, 209. -/
structure RxSide where
  msg : Message
  busy : Bool
  since : Nat

/-- The receive side of a state of the main loop. -/
def Core0.rxSide (c : Core0) : RxSide := ⟨c.rxMsg, c.lineBusy, c.busySince⟩

namespace RxSide

def bites (s : RxSide) (us : Nat) : Bool := s.busy && decide ((s.since + 500) % 4294967296 < Host.msNow us)

def dog (s : RxSide) (us1 us2 : Nat) : RxSide × List Message :=
  if s.bites us1 then ({ s with since := Host.msNow us2, msg := s.msg.clear }, [{ s.msg with status := Message.errNoFraming }]) else (s, [])

def flag (s : RxSide) (err : Bool) : RxSide × List Message :=
  if err then ({ s with msg := s.msg.clear }, [{ s.msg with status := Message.errOverflow }]) else (s, [])

def collect (m : Message) (w : Word) : Res Message :=
  if w.dadcError then .ok { m with status := Message.errOverflow }
  else if w.rxError then ({ m with status := Message.errParity } : Message).append w.rxChar
  else if w.rxValid then m.append w.rxChar
  else .ok m

def ends (m : Message) (w : Word) : Message × List Message :=
  if w.lineFree && (decide (m.length > 0) || m.status != 0) then (m.clear, [m]) else (m, [])

def full (m : Message) : Message × List Message :=
  if m.length = 32 then (m.clear, [{ m with status := Message.errOverflow }]) else (m, [])

def line (s : RxSide) (w : Word) (us : Nat) : RxSide :=
  if w.lineFree && s.busy then { s with busy := false }
  else if w.lineBusy && !s.busy then { s with busy := true, since := Host.msNow us }
  else s

def take (s : RxSide) (w : Word) (us : Nat) : Res (RxSide × List Message) := do
  let m ← collect s.msg w
  .ok (line { s with msg := (full (ends m w).1).1 } w us, (ends m w).2 ++ (full (ends m w).1).2)

def step (s : RxSide) (e : Env1 × Env2) : Res (RxSide × List Message) := do
  let d := s.dog e.1.tDog1 e.1.tDog2
  let f := d.1.flag e.1.fifoErr
  match e.2.word with
  | none => .ok (f.1, d.2 ++ f.2)
  | some w => do
    let t ← f.1.take w e.2.tBusy
    .ok (t.1, d.2 ++ f.2 ++ t.2)

def run (s : RxSide) : List (Env1 × Env2) → Res (RxSide × List (List Message))
  | [] => .ok (s, [])
  | e :: es => do
    let r ← s.step e
    let r' ← run r.1 es
    .ok (r'.1, r.2 :: r'.2)

end RxSide

theorem watchdog_rxSide (c : Core0) (u1 u2 : Nat) :
    ((c.watchdog u1 u2).1.rxSide, rxMsgs (c.watchdog u1 u2).2) = c.rxSide.dog u1 u2 := by
  unfold Core0.watchdog RxSide.dog
  have : c.dogBites u1 = c.rxSide.bites u1 := rfl
  rw [this]
  split <;> rfl

theorem fifoCheck_rxSide (c : Core0) (b : Bool) : ((c.fifoCheck b).1.rxSide, rxMsgs (c.fifoCheck b).2) = c.rxSide.flag b := by
  unfold Core0.fifoCheck RxSide.flag
  split <;> rfl

theorem part1_rxSide {pf : Platform} {g : Nat → UInt8} {c c' : Core0} {e : Env1} {rs : List Report}
    (h : c.part1 pf g e = .ok (c', rs)) : c'.rxSide = ((c.rxSide.dog e.tDog1 e.tDog2).1.flag e.fifoErr).1 ∧
      rxMsgs rs = (c.rxSide.dog e.tDog1 e.tDog2).2 ++ ((c.rxSide.dog e.tDog1 e.tDog2).1.flag e.fifoErr).2 := by
  obtain ⟨k, _, rfl, rfl⟩ := Core0.part1_ok h
  have e0 : (c.afterCheck k e).rxSide = c.rxSide := rfl
  have h1 := watchdog_rxSide (c.afterCheck k e) e.tDog1 e.tDog2
  rw [e0] at h1
  rw [← h1]
  dsimp only
  rw [← fifoCheck_rxSide, rxMsgs_append]
  exact ⟨rfl, rfl⟩

theorem reportFailure_rxSide (c : Core0) (now : Nat) : (c.reportFailure now).1.rxSide = c.rxSide := by
  unfold Core0.reportFailure
  split
  · dsimp only
    split <;> split <;> rfl
  · rfl

theorem collectByte_rxSide {c c' : Core0} {w : Word} (h : c.collectByte w = .ok c') :
    RxSide.collect c.rxMsg w = .ok c'.rxMsg ∧ c' = { c with rxMsg := c'.rxMsg } := by
  unfold Core0.collectByte at h
  unfold RxSide.collect
  split at h
  · rename_i h1
    rw [if_pos h1]
    simp only [Res.ok.injEq] at h
    subst h
    exact ⟨rfl, rfl⟩
  · rename_i h1
    rw [if_neg h1]
    split at h
    · rename_i h2
      rw [if_pos h2]
      rw [Res.bind_eq_ok] at h
      obtain ⟨m, h3, h⟩ := h
      simp only [Res.ok.injEq] at h
      subst h
      exact ⟨h3, rfl⟩
    · rename_i h2
      rw [if_neg h2]
      split at h
      · rename_i h4
        rw [if_pos h4]
        rw [Res.bind_eq_ok] at h
        obtain ⟨m, h3, h⟩ := h
        simp only [Res.ok.injEq] at h
        subst h
        exact ⟨h3, rfl⟩
      · rename_i h4
        rw [if_neg h4]
        simp only [Res.ok.injEq] at h
        subst h
        exact ⟨rfl, rfl⟩

theorem packetEnd_rxSide {c : Core0} {w : Word} {r : Core0 × List Report} (h : c.packetEnd w = .ok r) :
    r.1.rxSide = { c.rxSide with msg := (RxSide.ends c.rxMsg w).1 } ∧ rxMsgs r.2 = (RxSide.ends c.rxMsg w).2 := by
  unfold Core0.packetEnd at h
  unfold RxSide.ends
  split at h
  · rename_i hc
    rw [if_pos hc]
    rw [Res.bind_eq_ok] at h
    obtain ⟨k, h1, h⟩ := h
    simp only [Res.ok.injEq] at h
    subst h
    exact ⟨rfl, rfl⟩
  · rename_i hc
    rw [if_neg hc]
    simp only [Res.ok.injEq] at h
    subst h
    exact ⟨rfl, rfl⟩

theorem overflowCheck_rxSide (c : Core0) : c.overflowCheck.1.rxSide = { c.rxSide with msg := (RxSide.full c.rxMsg).1 } ∧
    rxMsgs c.overflowCheck.2 = (RxSide.full c.rxMsg).2 := by
  rcases Core0.overflowCheck_eq c with ⟨h, h1⟩ | ⟨h, h1⟩ <;> rw [h1] <;> unfold RxSide.full
  · rw [if_pos h]; exact ⟨rfl, rfl⟩
  · rw [if_neg h]; exact ⟨rfl, rfl⟩

theorem lineState_rxSide (c : Core0) (w : Word) (u : Nat) : (c.lineState w u).rxSide = c.rxSide.line w u := by
  unfold Core0.lineState RxSide.line
  have : c.rxSide.busy = c.lineBusy := rfl
  rw [this]
  split
  · rfl
  · split <;> rfl

theorem takeWord_rxSide {c : Core0} {w : Word} {u : Nat} {r : Core0 × List Report} (h : c.takeWord w u = .ok r) :
    c.rxSide.take w u = .ok (r.1.rxSide, rxMsgs r.2) := by
  obtain ⟨c1, p, h1, h2, rfl⟩ := Core0.takeWord_ok h
  obtain ⟨h3, h4⟩ := collectByte_rxSide h1
  obtain ⟨h5, h6⟩ := packetEnd_rxSide h2
  obtain ⟨h7, h8⟩ := overflowCheck_rxSide p.1
  have e0 : RxSide.collect c.rxSide.msg w = .ok c1.rxMsg := h3
  rw [RxSide.take, e0, Res.ok_bind]
  dsimp only
  have e1 : p.1.rxMsg = (RxSide.ends c1.rxMsg w).1 := congrArg RxSide.msg h5
  rw [lineState_rxSide, h7, rxMsgs_append, h6, h8, e1, h5]
  have e2 : c1.rxSide = { c.rxSide with msg := c1.rxMsg } := by rw [h4]; rfl
  rw [e2]

theorem startTx_rxSide {g : Nat → UInt8} {c : Core0} {now : Nat} {r : Core0 × Option Message × List HwCmd}
    (h : c.startTx g now = .ok r) : r.1.rxSide = c.rxSide := by
  unfold Core0.startTx at h
  split at h
  · split at h
    · rw [Res.bind_eq_ok] at h
      obtain ⟨a, _, h⟩ := h
      simp only [Res.ok.injEq] at h
      subst h; rfl
    · split at h
      · rw [Res.bind_eq_ok] at h
        obtain ⟨a, _, h⟩ := h
        simp only [Res.ok.injEq] at h
        subst h; rfl
      · simp only [Res.ok.injEq] at h
        subst h; rfl
  · simp only [Res.ok.injEq] at h
    subst h; rfl

theorem finish_rxSide {pf : Platform} {g : Nat → UInt8} {c : Core0} {e : Env2} {rs : List Report} {r : Core0 × Out2}
    (h : c.finish pf g e rs = .ok r) : r.1.rxSide = c.rxSide ∧ r.2.reports = rs := by
  obtain ⟨s, u, h1, h2, rfl⟩ := Core0.finish_ok h
  obtain ⟨_, _, h3⟩ := Core0.updateTx_ok h2
  refine ⟨?_, rfl⟩
  show u.1.rxSide = _
  rw [h3]
  exact startTx_rxSide h1

theorem part2_rxSide {pf : Platform} {g : Nat → UInt8} {c : Core0} {e : Env2} {r : Core0 × Out2} (h : c.part2 pf g e = .ok r) :
    (e.word = none ∧ r.1.rxSide = c.rxSide ∧ rxMsgs r.2.reports = []) ∨
    (∃ w, e.word = some w ∧ c.rxSide.take w e.tBusy = .ok (r.1.rxSide, rxMsgs r.2.reports)) := by
  rcases Core0.part2_ok h with ⟨w, t, hw, h1, h2⟩ | ⟨hw, h2⟩ | ⟨hw, _, _, _, _, rfl⟩
  · right
    obtain ⟨h3, h4⟩ := finish_rxSide h2
    refine ⟨w, hw, ?_⟩
    rw [h3, h4, rxMsgs_append, Core0.reportFailure_rx, List.nil_append, ← takeWord_rxSide h1, reportFailure_rxSide]
  · left
    obtain ⟨h3, h4⟩ := finish_rxSide h2
    exact ⟨hw, by rw [h3, reportFailure_rxSide], by rw [h4, Core0.reportFailure_rx]⟩
  · left
    exact ⟨hw, reportFailure_rxSide _ _, Core0.reportFailure_rx _ _⟩

theorem Core0.iter_ok {pf : Platform} {g : Nat → UInt8} {c : Core0} {e : Env1 × Env2} {r : Core0 × Out2} (h : c.iter pf g e = .ok r) :
    ∃ c1 rs b, c.part1 pf g e.1 = .ok (c1, rs) ∧ c1.part2 pf g e.2 = .ok b ∧ r = (b.1, { b.2 with reports := rs ++ b.2.reports }) := by
  rw [Core0.iter, Res.bind_eq_ok] at h
  obtain ⟨⟨c1, rs⟩, h1, h⟩ := h
  rw [Res.bind_eq_ok] at h
  obtain ⟨b, h2, h⟩ := h
  simp only [Res.ok.injEq] at h
  exact ⟨c1, rs, b, h1, h2, h.symm⟩

theorem iter_rxSide {pf : Platform} {g : Nat → UInt8} {c : Core0} {e : Env1 × Env2} {r : Core0 × Out2} (h : c.iter pf g e = .ok r) :
    c.rxSide.step e = .ok (r.1.rxSide, rxMsgs r.2.reports) := by
  obtain ⟨c1, rs, b, h1, h2, rfl⟩ := Core0.iter_ok h
  obtain ⟨h3, h4⟩ := part1_rxSide h1
  dsimp only
  rw [rxMsgs_append, h4]
  unfold RxSide.step
  dsimp only
  rcases part2_rxSide h2 with ⟨hw, h5, h6⟩ | ⟨w, hw, h5⟩
  · rw [hw, h5, h6, List.append_nil]
    dsimp only
    rw [h3]
  · rw [hw]
    dsimp only
    rw [← h3, h5, Res.ok_bind]

theorem Core0.run_cons {pf : Platform} {g : Nat → UInt8} {c c' : Core0} {e : Env1 × Env2} {es : List (Env1 × Env2)} {os : List Out2}
    (h : c.run pf g (e :: es) = .ok (c', os)) : ∃ c1 o os', c.iter pf g e = .ok (c1, o) ∧ c1.run pf g es = .ok (c', os') ∧ os = o :: os' := by
  rw [Core0.run, Res.bind_eq_ok] at h
  obtain ⟨⟨c1, o⟩, h1, h⟩ := h
  rw [Res.bind_eq_ok] at h
  obtain ⟨⟨c2, os'⟩, h2, h⟩ := h
  simp only [Res.ok.injEq, Prod.mk.injEq] at h
  obtain ⟨rfl, rfl⟩ := h
  exact ⟨c1, o, os', h1, h2, rfl⟩

theorem run_rxSide {pf : Platform} {g : Nat → UInt8} {c c' : Core0} {es : List (Env1 × Env2)} {os : List Out2}
    (h : c.run pf g es = .ok (c', os)) : c.rxSide.run es = .ok (c'.rxSide, os.map fun o => rxMsgs o.reports) := by
  induction es generalizing c os with
  | nil =>
    simp only [Core0.run, Res.ok.injEq, Prod.mk.injEq] at h
    obtain ⟨rfl, rfl⟩ := h
    rfl
  | cons e es ih =>
    obtain ⟨c1, o, os', h1, h2, rfl⟩ := Core0.run_cons h
    rw [RxSide.run, iter_rxSide h1, Res.ok_bind, ih h2]
    rfl

end P1P2
