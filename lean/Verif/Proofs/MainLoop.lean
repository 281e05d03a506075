import Verif.Proofs.RxSide
import Verif.Props.TxFail
import Verif.Props.Host
import Verif.Props.Standalone
/-!
# The main loop: invariant, and the calls it makes on the transmitter, the controller and the host object
-/
namespace P1P2

/-! ## The host object -/

theorem readCStr_ne_zero {a : Nat → UInt8} : ∀ (n i : Nat) {s : List UInt8}, readCStr a n i = .ok s → (∀ c ∈ s, c ≠ 0) ∧ s.length < n := by
  intro n
  induction n with
  | zero => intro i s h; cases h
  | succ n ih =>
    intro i s h
    rw [readCStr] at h
    split at h
    · simp only [Res.ok.injEq] at h
      subst h
      exact ⟨fun c hc => (by cases hc), by simp⟩
    · rename_i hne
      rw [Res.bind_eq_ok] at h
      obtain ⟨t, h1, h⟩ := h
      simp only [Res.ok.injEq] at h
      subst h
      obtain ⟨h2, h3⟩ := ih _ h1
      refine ⟨?_, by simp; omega⟩
      intro c hc
      rcases List.mem_cons.mp hc with hc | hc
      · rw [hc]; exact hne
      · exact h2 c hc

theorem readCStr_ok_of {a : Nat → UInt8} : ∀ (n i k : Nat), i ≤ k → k < i + n → a k = 0 → ∃ s, readCStr a n i = .ok s := by
  intro n
  induction n with
  | zero => intro i k h1 h2; omega
  | succ n ih =>
    intro i k h1 h2 h3
    rw [readCStr]
    split
    · exact ⟨_, rfl⟩
    · rename_i hne
      have : i ≠ k := fun h => hne (h ▸ h3)
      obtain ⟨s, hs⟩ := ih (i + 1) k (by omega) (by omega) h3
      exact ⟨_, by rw [hs]; rfl⟩

/-- A line as handed to the line handler: a C string of at most 127 characters. -/
def LineOk (s : List UInt8) : Prop := (∀ c ∈ s, c ≠ 0) ∧ s.length ≤ 127

theorem scanLoop_ok : ∀ (n i : Nat) (rx : LineRecv UInt8) (l : List UInt8), LineRecv.Rep 128 rx l →
    ∃ rx' ls l', Host.scanLoop n i rx = .ok (rx', ls) ∧ LineRecv.Rep 128 rx' l' ∧ (∀ s ∈ ls, LineOk s) ∧ ls.length ≤ 1 := by
  intro n
  induction n with
  | zero => intro i rx l h; exact ⟨rx, [], l, rfl, h, by simp, by simp⟩
  | succ n ih =>
    intro i rx l h
    rw [Host.scanLoop]
    split
    · rename_i hi
      have hc := h.cap
      have hl := h.len
      rw [rd_of_lt _ (show i < Host.rxCap by simp [Host.rxCap]; omega), Res.ok_bind]
      split
      · split
        · rw [Host.scanLoop_off0 _ _ _ rfl]
          exact ⟨_, _, [], rfl, ⟨rfl, by simp, by simp⟩, by simp, by simp⟩
        · rw [wr_of_lt _ _ (show i < Host.rxCap by simp [Host.rxCap]; omega), Res.ok_bind]
          obtain ⟨s, hs⟩ := readCStr_ok_of (a := upd rx.data i 0) Host.rxCap 0 i (by omega) (by simp [Host.rxCap]; omega) (by simp)
          rw [hs, Res.ok_bind, Host.scanLoop_off0 _ _ _ rfl, Res.ok_bind]
          refine ⟨_, _, [], rfl, ⟨rfl, by simp, by simp⟩, ?_, by simp⟩
          intro s' hs'
          simp only [List.mem_singleton] at hs'
          subst hs'
          obtain ⟨h1, h2⟩ := readCStr_ne_zero _ _ hs
          exact ⟨h1, by simp [Host.rxCap] at h2; omega⟩
      · exact ih _ _ _ h
    · exact ⟨rx, [], l, rfl, h, by simp, by simp⟩

theorem poll_ok (rx : LineRecv UInt8) (l chunk : List UInt8) (h : LineRecv.Rep 128 rx l) :
    ∃ rx' ls l', Host.poll rx chunk = .ok (rx', ls) ∧ LineRecv.Rep 128 rx' l' ∧ (∀ s ∈ ls, LineOk s) ∧ ls.length ≤ 1 := by
  obtain ⟨rx1, h1, h2⟩ := Host.checkRx_rep chunk rx l h
  unfold Host.poll
  rw [h1, Res.ok_bind, Host.checkRxLine_eq]
  exact scanLoop_ok _ _ _ _ h2

theorem parse_len {pf : Platform} {g : Nat → UInt8} {s : List UInt8} {m : Message} (h0 : ∀ c ∈ s, c ≠ 0) (h : Message.parse pf g s = .ok m) :
    m.length ≤ 32 := by
  obtain ⟨st, hs⟩ := parse_by_fields pf g s h0
  rw [hs] at h
  unfold Message.parseFields at h
  rw [Res.bind_eq_ok] at h
  obtain ⟨n, _, h⟩ := h
  rw [Res.bind_eq_ok] at h
  obtain ⟨r, h2, h⟩ := h
  simp only [Res.ok.injEq] at h
  rw [Message.dataLoop_eq] at h2
  by_cases hl : (Message.nibbles pf (Spec.dataField s)).length ≤ 64
  · obtain ⟨d', e1, _, _⟩ := Message.store_ok (Message.nibbles pf (Spec.dataField s)) g 0 (by omega)
    rw [e1] at h2
    simp only [Res.ok.injEq] at h2
    subst h2 h
    show 0 + _ ≤ 32
    rw [Message.pack_length]; omega
  · rw [Message.store_ub _ _ _ (by omega) (by omega)] at h2; cases h2

theorem packetOf_sendable {pf : Platform} {g : Nat → UInt8} {s : List UInt8} {m : Message} (h0 : ∀ c ∈ s, c ≠ 0) (h : packetOf pf g s = some m) :
    Sendable m := by
  unfold packetOf at h
  split at h
  · cases h
  · split at h
    · rename_i m' hp
      split at h
      · simp only [Option.some.injEq] at h
        subst h
        exact ⟨by omega, parse_len h0 hp⟩
      · cases h
    · cases h

/-- The host object is in order and all waiting packets can be sent. -/
def HostGood (h : Host) (q : List Message) : Prop := (∃ l, LineRecv.Rep 128 h.rx l) ∧ Fifo.Rep 8 h.msgs q ∧ ∀ m ∈ q, Sendable m

theorem onLine_rx {pf : Platform} {g : Nat → UInt8} {h h' : Host} {us : Nat} {s : List UInt8} {b : Bool}
    (e : Host.onLine pf g h us s = .ok (h', b)) : h'.rx = h.rx := by
  unfold Host.onLine at e
  rw [Res.bind_eq_ok] at e
  obtain ⟨b1, _, e⟩ := e
  split at e
  · cases e; rfl
  · rw [Res.bind_eq_ok] at e
    obtain ⟨c0, _, e⟩ := e
    split at e
    · cases e; rfl
    · rw [Res.bind_eq_ok] at e
      obtain ⟨m, _, e⟩ := e
      dsimp only at e
      have hx : (if m.time > 0 then Host.setTime h m.time us else h).rx = h.rx := by split <;> rfl
      split at e
      · rw [Res.bind_eq_ok] at e
        obtain ⟨r, _, e⟩ := e
        simp only [Res.ok.injEq, Prod.mk.injEq] at e
        rw [← e.1]; exact hx
      · simp only [Res.ok.injEq, Prod.mk.injEq] at e
        rw [← e.1]; exact hx

theorem onLines_rx {pf : Platform} {g : Nat → UInt8} {us : Nat} : ∀ {ls : List (List UInt8)} {h h' : Host},
    Host.onLines pf g h us ls = .ok h' → h'.rx = h.rx := by
  intro ls
  induction ls with
  | nil => intro h h' e; cases e; rfl
  | cons s ls ih =>
    intro h h' e
    rw [Host.onLines, Res.bind_eq_ok] at e
    obtain ⟨r, e1, e⟩ := e
    rw [ih e, onLine_rx e1]

theorem check_rx {pf : Platform} {g : Nat → UInt8} {h h' : Host} {us : Nat} {chunk : List UInt8}
    (e : Host.check pf g h us chunk = .ok h') : ∃ ls, Host.poll h.rx chunk = .ok (h'.rx, ls) ∧
      Host.onLines pf g { h with rx := h'.rx } us ls = .ok h' := by
  rw [Host.check, Res.bind_eq_ok] at e
  obtain ⟨⟨rx, ls⟩, e1, e⟩ := e
  have : h'.rx = rx := onLines_rx e
  exact ⟨ls, by rw [this]; exact e1, by rw [this]; exact e⟩

theorem onLine_good {pf : Platform} {g : Nat → UInt8} {h h' : Host} {us : Nat} {s : List UInt8} {b : Bool} {q : List Message}
    (hg : HostGood h q) (h0 : ∀ c ∈ s, c ≠ 0) (e : Host.onLine pf g h us s = .ok (h', b)) :
    h'.rx = h.rx ∧ ∃ q', HostGood h' q' ∧ (q' = q ∧ (packetOf pf g s = none ∨ q.length = 8) ∨ ∃ m, packetOf pf g s = some m ∧ q' = q ++ [m]) := by
  have hrx : h'.rx = h.rx := onLine_rx e
  refine ⟨hrx, ?_⟩
  obtain ⟨_, _, h1⟩ := onLine_msgs pf g h h' us s b h0 e
  obtain ⟨g1, g2, g3⟩ := hg
  cases hp : packetOf pf g s with
  | none =>
    rw [hp] at h1
    exact ⟨q, ⟨by rw [hrx]; exact g1, by rw [h1]; exact g2, g3⟩, .inl ⟨rfl, .inl rfl⟩⟩
  | some m =>
    rw [hp] at h1
    obtain ⟨b', h1⟩ := h1
    by_cases hf : q.length = 8
    · rw [g2.push_full m hf] at h1
      simp only [Res.ok.injEq, Prod.mk.injEq] at h1
      exact ⟨q, ⟨by rw [hrx]; exact g1, by rw [← h1.1]; exact g2, g3⟩, .inl ⟨rfl, .inr hf⟩⟩
    · obtain ⟨f', e1, e2⟩ := g2.push_ok m (by have := g2.cap; omega)
      rw [e1] at h1
      simp only [Res.ok.injEq, Prod.mk.injEq] at h1
      refine ⟨q ++ [m], ⟨by rw [hrx]; exact g1, by rw [← h1.1]; exact e2, ?_⟩, .inr ⟨m, rfl, rfl⟩⟩
      intro x hx
      rcases List.mem_append.mp hx with hx | hx
      · exact g3 x hx
      · rw [List.mem_singleton.mp hx]; exact packetOf_sendable h0 hp

theorem check_good {pf : Platform} {g : Nat → UInt8} {h h' : Host} {us : Nat} {chunk : List UInt8} {q : List Message}
    (hg : HostGood h q) (e : Host.check pf g h us chunk = .ok h') :
    ∃ ls q', Host.poll h.rx chunk = .ok (h'.rx, ls) ∧ HostGood h' q' ∧
      (q' = q ∧ (ls.filterMap (packetOf pf g) = [] ∨ q.length = 8) ∨ q' = q ++ ls.filterMap (packetOf pf g)) := by
  obtain ⟨⟨l, g1⟩, g2, g3⟩ := hg
  obtain ⟨rx', ls, l', h1, h2, h3, h4⟩ := poll_ok h.rx l chunk g1
  rw [Host.check, h1, Res.ok_bind] at e
  have hg' : HostGood { h with rx := rx' } q := ⟨⟨l', h2⟩, g2, g3⟩
  have hrx : h'.rx = rx' := onLines_rx e
  refine ⟨ls, ?_⟩
  rw [hrx]
  cases ls with
  | nil =>
    simp only [Host.onLines, Res.ok.injEq] at e
    subst e
    exact ⟨q, h1, hg', .inl ⟨rfl, .inl rfl⟩⟩
  | cons s ls =>
    have : ls = [] := by cases ls with | nil => rfl | cons _ _ => simp at h4
    subst this
    simp only [Host.onLines] at e
    rw [Res.bind_eq_ok] at e
    obtain ⟨r, e1, e⟩ := e
    simp only [Res.ok.injEq] at e
    subst e
    obtain ⟨_, q', k1, k2⟩ := onLine_good hg' (h3 s (by simp)).1 e1
    refine ⟨q', h1, k1, ?_⟩
    rcases k2 with ⟨k2, k3⟩ | ⟨m, k2, k3⟩
    · left
      refine ⟨k2, ?_⟩
      rcases k3 with k3 | k3
      · left; simp [k3]
      · exact .inr k3
    · right; rw [k3]; simp [k2]

/-- Checking for input is undefined only if a line is found whose parsing is undefined. -/
theorem check_ub {pf : Platform} {g : Nat → UInt8} {h : Host} {us : Nat} {chunk : List UInt8} {q : List Message}
    (hg : HostGood h q) (e : Host.check pf g h us chunk = .ub) :
    ∃ rx' s, Host.poll h.rx chunk = .ok (rx', [s]) ∧ LineOk s ∧ Message.parse pf g s = .ub := by
  obtain ⟨⟨l, g1⟩, g2, g3⟩ := hg
  obtain ⟨rx', ls, l', h1, h2, h3, h4⟩ := poll_ok h.rx l chunk g1
  rw [Host.check, h1, Res.ok_bind] at e
  cases ls with
  | nil => simp only [Host.onLines] at e; cases e
  | cons s ls =>
    have : ls = [] := by cases ls with | nil => rfl | cons _ _ => simp at h4
    subst this
    refine ⟨rx', s, h1, h3 s (by simp), ?_⟩
    have h0 := (h3 s (by simp)).1
    simp only [Host.onLines] at e
    rw [Res.bind_eq_ub] at e
    rcases e with e | ⟨a, _, e⟩
    · unfold Host.onLine at e
      obtain ⟨b, hb, _⟩ := Host.startsWith_iff s h0 Host.bldCmd (by decide) 0 (by omega)
      rw [hb, Res.ok_bind] at e
      split at e
      · cases e
      · rw [Res.bind_eq_ub] at e
        rcases e with e | ⟨c0, _, e⟩
        · unfold Host.charAt at e
          rw [if_pos (by omega)] at e
          cases e
        · split at e
          · cases e
          · rw [Res.bind_eq_ub] at e
            rcases e with e | ⟨m, hm, e⟩
            · exact e
            · dsimp only at e
              split at e
              · rw [Res.bind_eq_ub] at e
                have hx : (if m.time > 0 then Host.setTime { h with rx := rx' } m.time us else { h with rx := rx' }).msgs = h.msgs := by split <;> rfl
                rcases e with e | ⟨_, _, e⟩
                · rw [hx] at e
                  by_cases hf : q.length = 8
                  · rw [show Host.msgCap = 8 from rfl, g2.push_full m hf] at e; cases e
                  · obtain ⟨f', e1, e2⟩ := g2.push_ok m (by have := g2.cap; omega)
                    rw [show Host.msgCap = 8 from rfl, e1] at e; cases e
                · cases e
              · cases e
    · cases e

/-! ## Invariant of the main loop -/

/-- Invariant at the top of the loop. -/
structure Core0.Good (c : Core0) : Prop where
  rx : c.rxMsg.length < 32
  off : OffInv c.sm
  ctrl : ∃ calls, Reaches calls c.ctrl
  host : ∃ q, HostGood c.host q
  word : c.word = .zero ∨ c.sm.st = .idle
  txSt : c.sm.st ≠ .idle → c.sm.st ≠ .runningWaitForIdle → c.sm.rxMsg.status = 0
  txErr : c.sm.err = true → c.sm.rxMsg.status ≠ 0

theorem Core0.Good.init (g : Nat → UInt8) (w0 : Word) (t0 t1 : Nat) : (Core0.init g w0 t0 t1).Good where
  rx := by show 0 < 32; omega
  off := fun h => absurd rfl h
  ctrl := ⟨[], g, t0, by simp, rfl⟩
  host := ⟨[], ⟨[], rep_rx0⟩, Fifo.rep_mk0 (by omega) _, by simp⟩
  word := .inr rfl
  txSt := fun h => absurd rfl h
  txErr := fun h => by cases h

/-- What a history of controller calls leads to. -/
theorem Reaches.more {calls : List CtrlCall} {c c' : Ctrl} {x : CtrlCall} (h : Reaches calls c) (hx : x.Fits) (e : c.call x = .ok c') :
    Reaches (calls ++ [x]) c' := by
  obtain ⟨g, t0, h1, h2⟩ := h
  refine ⟨g, t0, ?_, ?_⟩
  · intro y hy
    rcases List.mem_append.mp hy with hy | hy
    · exact h1 y hy
    · rw [List.mem_singleton.mp hy]; exact hx
  · rw [Ctrl.run_snoc, h2, Res.ok_bind, e]

/-- Invariant before the second part. -/
structure Core0.GoodMid (c : Core0) : Prop extends c.Good where
  noErr : c.sm.err = false
  failSt : c.fail = true → c.sm.rxMsg.status ≠ 0

theorem Core0.Good.part1 {pf : Platform} {g : Nat → UInt8} {c c' : Core0} {e : Env1} {rs : List Report} (hg : c.Good)
    (h : c.part1 pf g e = .ok (c', rs)) : c'.GoodMid ∧ c'.sm = c.sm.error.1 ∧ c'.fail = c.sm.err ∧ c'.ctrl = c.ctrl.check e.tCtrl1 e.tCtrl2 ∧
      Host.check pf g c.host e.tHost e.chunk = .ok c'.host ∧ c'.word = c.word := by
  have hrx := (Core0.part1_collect h hg.rx).2
  obtain ⟨k, h1, h2, _⟩ := Core0.part1_ok h
  have key : c'.sm = c.sm.error.1 ∧ c'.fail = c.sm.err ∧ c'.ctrl = c.ctrl.check e.tCtrl1 e.tCtrl2 ∧ c'.host = k ∧ c'.word = c.word := by
    rw [h2]
    unfold Core0.fifoCheck Core0.watchdog
    split <;> split <;> exact ⟨rfl, rfl, rfl, rfl, rfl⟩
  obtain ⟨k1, k2, k3, k4, k5⟩ := key
  obtain ⟨q, hq⟩ := hg.host
  obtain ⟨_, q', _, hq', _⟩ := check_good hq h1
  obtain ⟨calls, hc⟩ := hg.ctrl
  refine ⟨{ rx := hrx, off := ?_, ctrl := ?_, host := ⟨q', by rw [k4]; exact hq'⟩, word := ?_, txSt := ?_, txErr := ?_, noErr := ?_, failSt := ?_ },
    k1, k2, k3, by rw [k4]; exact h1, k5⟩
  · rw [k1]; exact hg.off
  · refine ⟨calls ++ [.check e.tCtrl1 e.tCtrl2], ?_⟩
    rw [k3]
    exact hc.more (x := .check e.tCtrl1 e.tCtrl2) trivial rfl
  · rw [k5, k1]; exact hg.word
  · rw [k1]; exact hg.txSt
  · rw [k1]; intro hh; cases hh
  · rw [k1]; rfl
  · rw [k1, k2]; exact hg.txErr

/-- The failure report changes only the message of the transmitter and the controller. -/
theorem reportFailure_eq (c : Core0) (now : Nat) : ∃ m k, (c.reportFailure now).1 = { c with sm := { c.sm with rxMsg := m }, ctrl := k } ∧
    (m = c.sm.rxMsg ∨ m = c.sm.rxMsg.clear) ∧ (k = c.ctrl ∨ k = c.ctrl.busCollision now) ∧ (c.fail = false → m = c.sm.rxMsg ∧ k = c.ctrl) := by
  unfold Core0.reportFailure
  by_cases hf : c.fail = true
  case neg =>
    rw [if_neg hf]
    exact ⟨c.sm.rxMsg, c.ctrl, rfl, .inl rfl, .inl rfl, fun _ => ⟨rfl, rfl⟩⟩
  case pos =>
    rw [if_pos hf]
    split <;> dsimp only <;> split
    · exact ⟨c.sm.rxMsg.clear, _, rfl, .inr rfl, .inr rfl, fun h => (by rw [hf] at h; cases h)⟩
    · exact ⟨c.sm.rxMsg.clear, _, rfl, .inr rfl, .inl rfl, fun h => (by rw [hf] at h; cases h)⟩
    · exact ⟨c.sm.rxMsg, _, rfl, .inl rfl, .inr rfl, fun h => (by rw [hf] at h; cases h)⟩
    · exact ⟨c.sm.rxMsg, _, rfl, .inl rfl, .inl rfl, fun h => (by rw [hf] at h; cases h)⟩

/-- Invariant inside the second part. -/
structure Core0.GoodIn (c : Core0) : Prop where
  rx : c.rxMsg.length < 32
  off : OffInv c.sm
  ctrl : ∃ calls, Reaches calls c.ctrl
  host : ∃ q, HostGood c.host q
  txSt : c.sm.st ≠ .idle → c.sm.st ≠ .runningWaitForIdle → c.sm.rxMsg.status = 0
  noErr : c.sm.err = false

theorem Core0.GoodMid.reportFailure {c : Core0} (hg : c.GoodMid) (now : Nat) : (c.reportFailure now).1.GoodIn := by
  obtain ⟨m, k, h1, h2, h3, _⟩ := reportFailure_eq c now
  rw [h1]
  obtain ⟨calls, hc⟩ := hg.ctrl
  refine ⟨hg.rx, hg.off, ?_, hg.host, ?_, hg.noErr⟩
  · rcases h3 with rfl | rfl
    · exact ⟨calls, hc⟩
    · exact ⟨calls ++ [.busCollision now], hc.more (x := .busCollision now) trivial rfl⟩
  · intro a b
    rcases h2 with rfl | rfl
    · exact hg.txSt a b
    · rfl

theorem Core0.GoodIn.takeWord_ok {c : Core0} (hg : c.GoodIn) (w : Word) (u : Nat) : ∃ t, c.takeWord w u = .ok t := by
  have h1 : ∃ c1, ({ c with word := w } : Core0).collectByte w = .ok c1 := by
    unfold Core0.collectByte
    have happ : ∀ (m : Message) (b : UInt8), m.length < 32 → ∃ m', m.append b = .ok m' := fun m b h => ⟨_, Message.append_lt m b h⟩
    split
    · exact ⟨_, rfl⟩
    · split
      · obtain ⟨m', e⟩ := happ { c.rxMsg with status := Message.errParity } w.rxChar hg.rx
        exact ⟨_, by dsimp only at e ⊢; rw [e]; rfl⟩
      · split
        · obtain ⟨m', e⟩ := happ c.rxMsg w.rxChar hg.rx
          exact ⟨_, by dsimp only at e ⊢; rw [e]; rfl⟩
        · exact ⟨_, rfl⟩
  obtain ⟨c1, h1⟩ := h1
  obtain ⟨h2, h3, _⟩ := Core0.collectByte_ok h1 hg.rx
  have hc1 : c1.ctrl = c.ctrl := by rw [h2]
  obtain ⟨calls, hc⟩ := hg.ctrl
  have hrx := hg.rx
  have h4 : ∃ p, c1.packetEnd w = .ok p := by
    unfold Core0.packetEnd
    split
    · obtain ⟨k, hk, _⟩ := hc.ok.call (x := .receive c1.rxMsg) (by show c1.rxMsg.length ≤ 32; have : c1.rxMsg.length ≤ c.rxMsg.length + 1 := h3; omega)
      have hk' : c1.ctrl.receive c1.rxMsg = .ok k := by rw [hc1]; exact hk
      exact ⟨_, by rw [hk']; rfl⟩
    · exact ⟨_, rfl⟩
  obtain ⟨p, h4⟩ := h4
  exact ⟨_, by rw [Core0.takeWord, h1, Res.ok_bind, h4]; rfl⟩

/-- What a word changes besides the receive side. -/
theorem takeWord_rest {c : Core0} {w : Word} {u : Nat} {t : Core0 × List Report} (h : c.takeWord w u = .ok t) (hl : c.rxMsg.length < 32) :
    t.1.sm = c.sm ∧ t.1.host = c.host ∧ t.1.word = w ∧ t.1.fail = c.fail ∧
    (t.1.ctrl = c.ctrl ∨ ∃ m, m.length ≤ 32 ∧ c.ctrl.receive m = .ok t.1.ctrl ∧ Report.rx m ∈ t.2 ∧ w.lineFree = true) := by
  obtain ⟨c1, p, h1, h2, rfl⟩ := Core0.takeWord_ok h
  obtain ⟨h3, h4, _⟩ := Core0.collectByte_ok h1 hl
  have hp : p.1.sm = c1.sm ∧ p.1.host = c1.host ∧ p.1.word = c1.word ∧ p.1.fail = c1.fail ∧
      (p.1.ctrl = c1.ctrl ∨ ∃ m, m.length ≤ 32 ∧ c1.ctrl.receive m = .ok p.1.ctrl ∧ Report.rx m ∈ p.2 ∧ w.lineFree = true) := by
    rcases Core0.packetEnd_ok h2 with ⟨rfl, _⟩ | ⟨hf, k, hk, rfl⟩
    · exact ⟨rfl, rfl, rfl, rfl, .inl rfl⟩
    · have h5 : c1.rxMsg.length ≤ c.rxMsg.length + 1 := h4
      exact ⟨rfl, rfl, rfl, rfl, .inr ⟨c1.rxMsg, by omega, hk, by simp, hf.1⟩⟩
  have hc1 : c1.sm = c.sm ∧ c1.host = c.host ∧ c1.word = w ∧ c1.fail = c.fail ∧ c1.ctrl = c.ctrl := by rw [h3]; exact ⟨rfl, rfl, rfl, rfl, rfl⟩
  have ho : ∀ x : Core0, (x.overflowCheck.1.lineState w u).sm = x.sm ∧ (x.overflowCheck.1.lineState w u).host = x.host ∧
      (x.overflowCheck.1.lineState w u).word = x.word ∧ (x.overflowCheck.1.lineState w u).fail = x.fail ∧
      (x.overflowCheck.1.lineState w u).ctrl = x.ctrl := by
    intro x
    unfold Core0.overflowCheck Core0.lineState
    split <;> dsimp only <;> split <;> (try split) <;> exact ⟨rfl, rfl, rfl, rfl, rfl⟩
  obtain ⟨a1, a2, a3, a4, a5⟩ := ho p.1
  dsimp only
  rw [a1, a2, a3, a4, a5, hp.1, hp.2.1, hp.2.2.1, hp.2.2.2.1, hc1.1, hc1.2.1, hc1.2.2.1, hc1.2.2.2.1]
  refine ⟨rfl, rfl, rfl, rfl, ?_⟩
  rw [← hc1.2.2.2.2]
  rcases hp.2.2.2.2 with hk | ⟨m, e1, e2, e3, e4⟩
  · exact .inl hk
  · exact .inr ⟨m, e1, e2, List.mem_append_left _ e3, e4⟩

theorem Core0.GoodIn.takeWord {c : Core0} (hg : c.GoodIn) {w : Word} {u : Nat} {t : Core0 × List Report} (h : c.takeWord w u = .ok t) :
    t.1.GoodIn := by
  obtain ⟨h1, h2, h3, h4, h5⟩ := takeWord_rest h hg.rx
  obtain ⟨calls, hc⟩ := hg.ctrl
  refine ⟨(Core0.takeWord_collect h hg.rx).1, by rw [h1]; exact hg.off, ?_, by rw [h2]; exact hg.host, by rw [h1]; exact hg.txSt, by rw [h1]; exact hg.noErr⟩
  rcases h5 with h5 | ⟨m, m1, m2, _⟩
  · exact ⟨calls, by rw [h5]; exact hc⟩
  · exact ⟨calls ++ [.receive m], hc.more (x := .receive m) m1 m2⟩

/-- Starting a transmission. -/
theorem Core0.GoodIn.startTx_ok {c : Core0} (hg : c.GoodIn) (g : Nat → UInt8) (now : Nat) : ∃ s, c.startTx g now = .ok s := by
  unfold Core0.startTx
  obtain ⟨q, ⟨_, hq, _⟩⟩ := hg.host
  obtain ⟨calls, hc⟩ := hg.ctrl
  split
  · split
    · have hp : ∃ p, c.host.popMsg g = .ok p := by
        unfold Host.popMsg
        split
        · exact ⟨_, rfl⟩
        · cases q with
          | nil => exact ⟨_, by rw [show Host.msgCap = 8 from rfl, hq.pop_nil]; rfl⟩
          | cons m q => obtain ⟨f', e1, _⟩ := hq.pop_cons; exact ⟨_, by rw [show Host.msgCap = 8 from rfl, e1]; rfl⟩
      obtain ⟨p, hp⟩ := hp
      exact ⟨_, by rw [hp]; rfl⟩
    · split
      · have := hc.ok.len
        exact ⟨_, by rw [txAnswer_eq (by omega)]; rfl⟩
      · exact ⟨_, rfl⟩
  · exact ⟨_, rfl⟩

/-- The cases of starting a transmission. -/
theorem Core0.GoodIn.startTx {c : Core0} (hg : c.GoodIn) {g : Nat → UInt8} {now : Nat} {s : Core0 × Option Message × List HwCmd}
    (h : c.startTx g now = .ok s) :
    (s = (c, none, []) ∧ (c.sm.st ≠ .idle ∨ (HostGood c.host [] ∧ c.ctrl.hasTxData = false))) ∨
    (c.sm.st = .idle ∧ ∃ m q host, HostGood c.host (m :: q) ∧ HostGood host q ∧ s = ({ c with host := host, sm := (c.sm.wake m now).1 }, some m, [])) ∨
    (c.sm.st = .idle ∧ HostGood c.host [] ∧ c.ctrl.hasTxData = true ∧ ∃ k m, Sendable m ∧ c.ctrl.txAnswer (Message.empty g) = .ok (k, m) ∧
      s = ({ c with ctrl := k, sm := (c.sm.wake m now).1 }, some m, [])) := by
  obtain ⟨q, hq⟩ := hg.host
  obtain ⟨calls, hc⟩ := hg.ctrl
  unfold Core0.startTx at h
  have hdata : c.host.hasData = true ↔ q ≠ [] := by
    unfold Host.hasData Fifo.isEmpty
    rw [hq.2.1.len]
    cases q <;> simp
  split at h
  · rename_i hi
    have hidle : c.sm.st = .idle := by simpa [TxSM.isIdle] using hi
    split at h
    · rename_i hd
      right; left
      refine ⟨hidle, ?_⟩
      cases q with
      | nil => exact absurd rfl (hdata.mp hd)
      | cons m q =>
        obtain ⟨f', e1, e2⟩ := hq.2.1.pop_cons
        have hp : c.host.popMsg g = .ok ({ c.host with msgs := f' }, m) := by
          unfold Host.popMsg
          have : c.host.msgs.isEmpty = false := by unfold Host.hasData at hd; simpa using hd
          rw [this, show Host.msgCap = 8 from rfl, e1]; rfl
        rw [hp, Res.ok_bind] at h
        simp only [Res.ok.injEq] at h
        refine ⟨m, q, { c.host with msgs := f' }, hq, ⟨hq.1, e2, fun x hx => hq.2.2 x (by simp [hx])⟩, ?_⟩
        rw [← h, TxSM.wake_idle hidle]
    · rename_i hd
      have hqn : q = [] := by
        cases q with
        | nil => rfl
        | cons m q => exact absurd (hdata.mpr (by simp)) hd
      subst hqn
      split at h
      · rename_i hr
        right; right
        refine ⟨hidle, hq, hr, ?_⟩
        obtain ⟨m, c', o, _, _, e1, e2⟩ := C63 hc hr (Message.empty g)
        rw [e1, Res.ok_bind] at h
        simp only [Res.ok.injEq] at h
        refine ⟨c', o, ⟨?_, ?_⟩, e1, ?_⟩
        · rw [e2.length]; split <;> omega
        · rw [e2.length]; split <;> omega
        · rw [← h, TxSM.wake_idle hidle]
      · rename_i hr
        left
        simp only [Res.ok.injEq] at h
        exact ⟨h.symm, .inr ⟨hq, by simpa using hr⟩⟩
  · rename_i hi
    left
    simp only [Res.ok.injEq] at h
    exact ⟨h.symm, .inl (by simpa [TxSM.isIdle] using hi)⟩

theorem Core0.GoodIn.afterStart {c : Core0} (hg : c.GoodIn) {g : Nat → UInt8} {now : Nat} {s : Core0 × Option Message × List HwCmd}
    (h : c.startTx g now = .ok s) : s.1.GoodIn ∧ (∀ m, s.2.1 = some m → Sendable m) := by
  obtain ⟨calls, hc⟩ := hg.ctrl
  have hoff : ∀ m, Sendable m → c.sm.st = .idle → OffInv (c.sm.wake m now).1 := by
    intro m hm hi
    exact hg.off.step (pf := .arm) (c := .wake m now) (cmds := (c.sm.wake m now).2) (fun m' t e => by cases e; exact hm) rfl
  have hst : ∀ m, c.sm.st = .idle → (c.sm.wake m now).1.rxMsg.status = 0 ∧ (c.sm.wake m now).1.err = false := by
    intro m hi
    rw [TxSM.wake_idle hi]
    exact ⟨rfl, rfl⟩
  rcases hg.startTx h with ⟨rfl, _⟩ | ⟨hi, m, q, host, e1, e2, rfl⟩ | ⟨hi, e1, e2, k, m, e3, e4, rfl⟩
  · exact ⟨hg, fun m hm => by cases hm⟩
  · have hm : Sendable m := e1.2.2 m (by simp)
    refine ⟨⟨hg.rx, hoff m hm hi, hg.ctrl, ⟨q, e2⟩, fun _ _ => (hst m hi).1, (hst m hi).2⟩, ?_⟩
    intro m' hm'
    cases hm'
    exact hm
  · refine ⟨⟨hg.rx, hoff m e3 hi, ⟨calls ++ [.txAnswer (Message.empty g)], hc.more (x := .txAnswer (Message.empty g)) trivial ?_⟩, hg.host, fun _ _ => (hst m hi).1, (hst m hi).2⟩, ?_⟩
    · show (c.ctrl.txAnswer (Message.empty g) >>= fun r => .ok r.1) = _
      rw [e4]; rfl
    · intro m' hm'
      cases hm'
      exact e3

/-- The input of the transmitter in the iteration. -/
def Core0.updIn (c : Core0) (e : Env2) : UpdIn :=
  { busy := c.lineBusy, rxError := c.word.rxError, rxValid := c.word.rxValid, rxChar := c.word.rxChar, hwErr := e.hwErr,
    transmitting := e.transmitting, tErr := e.tErr, tPow := e.tPow, tNew := e.tNew }

theorem append_status {a a' : Message} {b : UInt8} (h : a.append b = .ok a') : a'.status = a.status := by
  unfold Message.append at h
  split at h
  · rw [Res.bind_eq_ok] at h
    obtain ⟨_, _, h⟩ := h
    simp only [Res.ok.injEq] at h
    subst h; rfl
  · simp only [Res.ok.injEq] at h
    subst h; rfl

/-- Status of the transmitter's message after an update. -/
theorem update_status {pf : Platform} {s s' : TxSM} {i : UpdIn} {cmds : List HwCmd} (h : s.update pf i = .ok (s', cmds))
    (h0 : s.st ≠ .idle → s.st ≠ .runningWaitForIdle → s.rxMsg.status = 0) (he : s.err = false) :
    (s'.st ≠ .idle → s'.st ≠ .runningWaitForIdle → s'.rxMsg.status = 0) ∧ (s'.err = true → s'.rxMsg.status ≠ 0) ∧
    (s'.err = true → s'.rxMsg.status = 3 → i.rxError = true ∧ (s.st = .startedWaitForBusy ∨ s.st = .runningCheckData)) := by
  cases TxSM.updCase h with
  | early _ hs hc =>
    subst hs
    refine ⟨fun a => absurd rfl a, fun _ => ?_, fun _ hh => ?_⟩
    · dsimp only; split <;> decide
    · dsimp only at hh; split at hh <;> exact absurd hh (by decide)
  | hw _ _ _ hs hc =>
    subst hs
    exact ⟨fun a => absurd rfl a, fun _ => (by dsimp only; decide), fun _ hh => (by dsimp only at hh; exact absurd hh (by decide))⟩
  | stay _ _ _ _ _ _ _ hs hc =>
    subst hs
    exact ⟨h0, fun a => absurd (he.symm.trans a) (by decide), fun a => absurd (he.symm.trans a) (by decide)⟩
  | power _ _ hst _ _ _ hs hc =>
    subst hs
    exact ⟨fun _ _ => h0 (by simp [hst]) (by simp [hst]), fun a => absurd (he.symm.trans a) (by decide), fun a => absurd (he.symm.trans a) (by decide)⟩
  | start _ _ hst _ hs hc =>
    subst hs
    exact ⟨fun _ _ => h0 (by simp [hst]) (by simp [hst]), fun a => absurd (he.symm.trans a) (by decide), fun a => absurd (he.symm.trans a) (by decide)⟩
  | busy _ _ hst _ _ _ hs hc =>
    subst hs
    exact ⟨fun _ _ => h0 (by simp [hst]) (by simp [hst]), fun a => absurd (he.symm.trans a) (by decide), fun a => absurd (he.symm.trans a) (by decide)⟩
  | rxErr _ _ hst hr hs hc =>
    subst hs
    exact ⟨fun _ b => absurd rfl b, fun _ => (by dsimp only; decide), fun _ _ => ⟨hr, hst⟩⟩
  | good _ _ hst _ _ _ _ rx hrx hs hc =>
    subst hs
    refine ⟨fun _ _ => ?_, fun a => absurd (he.symm.trans a) (by decide), fun a => absurd (he.symm.trans a) (by decide)⟩
    dsimp only
    rw [append_status hrx]
    exact h0 (by rcases hst with h | h <;> simp [h]) (by rcases hst with h | h <;> simp [h])
  | bad _ _ hst _ _ _ _ rx hrx hs hc =>
    subst hs
    have hz : rx.status = 0 := by
      rw [append_status hrx]
      exact h0 (by rcases hst with h | h <;> simp [h]) (by rcases hst with h | h <;> simp [h])
    refine ⟨fun _ b => absurd rfl b, fun _ => ?_, fun _ hh => ?_⟩
    · dsimp only; rw [if_pos hz]; simp
    · dsimp only at hh; rw [if_pos hz] at hh; simp at hh
  | finish _ _ _ _ hs hc =>
    subst hs
    exact ⟨fun a => absurd rfl a, fun a => absurd (he.symm.trans a) (by decide), fun a => absurd (he.symm.trans a) (by decide)⟩

theorem Core0.GoodIn.updateTx {c : Core0} (hg : c.GoodIn) (pf : Platform) (e : Env2) : ∃ u, c.updateTx pf e = .ok u ∧
    c.sm.update pf (c.updIn e) = .ok (u.1.sm, u.2) ∧ u.1 = { c with sm := u.1.sm, word := .zero } ∧ u.1.Good := by
  obtain ⟨⟨s, cmds⟩, h1⟩ := hg.off.call_ok (pf := pf) (.update (c.updIn e))
  have h1' : c.sm.update pf (c.updIn e) = .ok (s, cmds) := h1
  refine ⟨({ c with sm := s, word := .zero }, cmds), ?_, h1', rfl, ?_⟩
  · rw [Core0.updateTx]
    unfold Core0.updIn at h1'
    rw [h1']; rfl
  · obtain ⟨a1, a2, _⟩ := update_status h1' hg.txSt hg.noErr
    exact ⟨hg.rx, hg.off.step (fun m t e => by cases e) h1, hg.ctrl, hg.host, .inl rfl, a1, a2⟩

theorem Core0.GoodIn.finish {c : Core0} (hg : c.GoodIn) (pf : Platform) (g : Nat → UInt8) (e : Env2) (rs : List Report) :
    ∃ r, c.finish pf g e rs = .ok r ∧ r.1.Good ∧ ∀ m, r.2.started = some m → Sendable m := by
  obtain ⟨s, h1⟩ := hg.startTx_ok g e.tWake
  obtain ⟨h2, h3⟩ := hg.afterStart h1
  obtain ⟨u, h4, h5, h6, h7⟩ := h2.updateTx pf e
  exact ⟨_, by rw [Core0.finish, h1, Res.ok_bind, h4]; rfl, h7, h3⟩

theorem Core0.GoodMid.part2 {c : Core0} (hg : c.GoodMid) (pf : Platform) (g : Nat → UInt8) (e : Env2) :
    ∃ r, c.part2 pf g e = .ok r ∧ r.1.Good ∧ ∀ m, r.2.started = some m → Sendable m := by
  have h1 := hg.reportFailure e.tColl
  unfold Core0.part2
  cases hw : e.word with
  | some w =>
    obtain ⟨t, h2⟩ := h1.takeWord_ok w e.tBusy
    have h3 := h1.takeWord h2
    obtain ⟨r, h4, h5⟩ := h3.finish pf g e ((c.reportFailure e.tColl).2 ++ t.2)
    exact ⟨r, by dsimp only; rw [h2, Res.ok_bind, h4], h5⟩
  | none =>
    dsimp only
    split
    · rename_i hc
      refine ⟨_, rfl, ⟨h1.rx, h1.off, h1.ctrl, h1.host, ?_, h1.txSt, ?_⟩, fun m hm => by cases hm⟩
      · right
        simp only [Bool.and_eq_true] at hc
        simpa [TxSM.isIdle] using hc.2
      · intro hh; rw [h1.noErr] at hh; cases hh
    · obtain ⟨r, h4, h5⟩ := h1.finish pf g e (c.reportFailure e.tColl).2
      exact ⟨r, h4, h5⟩

end P1P2
