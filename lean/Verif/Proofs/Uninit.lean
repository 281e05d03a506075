import Verif.Spec.Uninit
import Verif.Props.MainLoop2
/-!
# Two runs with different contents of uninitialised memory
-/
namespace P1P2

/-- Both undefined, or both defined with related results. -/
def Res.Rel {α β : Type} (R : α → β → Prop) : Res α → Res β → Prop
  | .ok a, .ok b => R a b
  | .ub, .ub => True
  | _, _ => False

theorem Res.Rel.bind {α β γ δ : Type} {R : α → β → Prop} {S : γ → δ → Prop} {x : Res α} {y : Res β} {f : α → Res γ} {k : β → Res δ}
    (h : Res.Rel R x y) (hf : ∀ a b, R a b → Res.Rel S (f a) (k b)) : Res.Rel S (x >>= f) (y >>= k) := by
  cases x with
  | ok a => cases y with
    | ok b => exact hf a b h
    | ub => exact h.elim
  | ub => cases y with
    | ok b => exact h.elim
    | ub => trivial

theorem Res.Rel.refl {α : Type} {R : α → α → Prop} (h : ∀ a, R a a) (x : Res α) : Res.Rel R x x := by
  cases x with
  | ok a => exact h a
  | ub => trivial

theorem Res.Rel.ok {α β : Type} {R : α → β → Prop} {x : Res α} {y : Res β} (h : Res.Rel R x y) {a : α} (hx : x = .ok a) : ∃ b, y = .ok b ∧ R a b := by
  subst hx
  cases y with
  | ok b => exact ⟨b, rfl, h⟩
  | ub => exact h.elim

/-- Two messages that differ at most behind their payload. -/
structure SameMsg (m m' : Message) : Prop where
  status : m.status = m'.status
  time : m.time = m'.time
  length : m.length = m'.length
  data : ∀ i < m.length, m.data i = m'.data i

theorem SameMsg.bytes {m m' : Message} (h : SameMsg m m') : m.bytes = m'.bytes := by
  unfold Message.bytes
  rw [← h.length]
  apply List.map_congr_left
  intro i hi
  exact h.data i (by simpa using hi)

theorem SameMsg.seen {m m' : Message} (h : SameMsg m m') : m.seen = m'.seen := by
  unfold Message.seen; rw [h.status, h.time, h.bytes]

theorem SameMsg.refl (m : Message) : SameMsg m m := ⟨rfl, rfl, rfl, fun _ _ => rfl⟩

theorem SameMsg.empty (g g' : Nat → UInt8) : SameMsg (Message.empty g) (Message.empty g') := ⟨rfl, rfl, rfl, fun i hi => by cases hi⟩

theorem SameMsg.clear {m m' : Message} (h : SameMsg m m') : SameMsg m.clear m'.clear := ⟨rfl, h.time, rfl, fun i hi => by cases hi⟩

theorem SameMsg.withStatus {m m' : Message} (h : SameMsg m m') (k : Nat) : SameMsg { m with status := k } { m' with status := k } :=
  ⟨rfl, h.time, h.length, h.data⟩

theorem SameMsg.append {m m' : Message} (h : SameMsg m m') (b : UInt8) : Res.Rel SameMsg (m.append b) (m'.append b) := by
  unfold Message.append
  rw [← h.length]
  by_cases hl : m.length < maxPacket
  · rw [if_pos hl, if_pos hl, wr_of_lt _ _ hl, wr_of_lt _ _ hl]
    refine ⟨h.status, h.time, rfl, ?_⟩
    intro i hi
    show upd m.data m.length b i = upd m'.data m.length b i
    unfold upd
    by_cases e : i = m.length
    · rw [if_pos e, if_pos e]
    · rw [if_neg e, if_neg e]
      have hi : i < m.length + 1 := hi
      exact h.data i (by omega)
  · rw [if_neg hl, if_neg hl]; exact h

theorem dataLoop_same (pf : Platform) : ∀ (cs : List UInt8) (f : Bool) (d d' : Nat → UInt8) (len : Nat), (∀ i < len, d i = d' i) → (f = true → d len = d' len) →
    Res.Rel (fun p q => p.2 = q.2 ∧ ∀ i < p.2, p.1 i = q.1 i) (Message.dataLoop pf cs f d len) (Message.dataLoop pf cs f d' len) := by
  intro cs
  induction cs with
  | nil => intro f d d' len h _; exact ⟨rfl, h⟩
  | cons c cs ih =>
    intro f d d' len h hf
    rw [Message.dataLoop, Message.dataLoop]
    by_cases h1 : c = chr ' '
    · rw [if_pos h1, if_pos h1]; exact ih f d d' len h hf
    · rw [if_neg h1, if_neg h1]
      by_cases h2 : c = chr '#' ∨ c = chr ';'
      · rw [if_pos h2, if_pos h2]; exact ⟨rfl, h⟩
      · rw [if_neg h2, if_neg h2]
        cases h3 : Message.decodeChar pf c with
        | none => exact ih f d d' len h hf
        | some v =>
          dsimp only
          cases f with
          | false =>
            rw [if_pos rfl, if_pos rfl]
            by_cases hl : len < maxPacket
            · rw [wr_of_lt _ _ hl, wr_of_lt _ _ hl, Res.ok_bind, Res.ok_bind]
              refine ih true _ _ len ?_ ?_
              · intro i hi
                rw [upd_other _ _ (by omega), upd_other _ _ (by omega)]; exact h i hi
              · intro _; simp
            · unfold wr; rw [if_neg hl, if_neg hl]; trivial
          | true =>
            rw [if_neg (by simp), if_neg (by simp)]
            by_cases hl : len < maxPacket
            · rw [rd_of_lt _ hl, rd_of_lt _ hl, Res.ok_bind, Res.ok_bind, wr_of_lt _ _ hl, wr_of_lt _ _ hl, Res.ok_bind, Res.ok_bind, hf rfl]
              refine ih false _ _ _ ?_ (fun e => by cases e)
              intro i hi
              have hi' : i < len + 1 := Nat.lt_of_lt_of_le hi (Nat.mod_le _ _)
              unfold upd
              by_cases e : i = len
              · rw [if_pos e, if_pos e]
              · rw [if_neg e, if_neg e]; exact h i (by omega)
            · unfold rd; rw [if_neg hl, if_neg hl]; trivial

theorem parse_same (pf : Platform) (g g' : Nat → UInt8) (s : List UInt8) : Res.Rel SameMsg (Message.parse pf g s) (Message.parse pf g' s) := by
  unfold Message.parse
  dsimp only
  refine Res.Rel.bind (R := Eq) (Res.Rel.refl (fun _ => rfl) _) ?_
  rintro t _ rfl
  refine Res.Rel.bind (dataLoop_same pf _ false g g' 0 (fun i hi => by cases hi) (fun e => by cases e)) ?_
  intro p q h
  exact ⟨rfl, rfl, h.1, h.2⟩

/-! ## Queue and host -/

/-- Two queues of messages that differ at most behind the payloads. -/
structure SameQ (f f' : Fifo Message) : Prop where
  offRead : f.offRead = f'.offRead
  offWrite : f.offWrite = f'.offWrite
  length : f.length = f'.length
  data : ∀ i, SameMsg (f.data i) (f'.data i)

theorem SameQ.push {f f' : Fifo Message} (h : SameQ f f') {m m' : Message} (hm : SameMsg m m') (N : Nat) :
    Res.Rel (fun p q => SameQ p.1 q.1) (Fifo.push N f m) (Fifo.push N f' m') := by
  unfold Fifo.push
  rw [← h.length, ← h.offWrite]
  by_cases hl : f.length < N
  · rw [if_pos hl, if_pos hl]
    by_cases hw : f.offWrite < N
    · rw [wr_of_lt _ _ hw, wr_of_lt _ _ hw]
      refine ⟨h.offRead, rfl, rfl, ?_⟩
      intro i
      show SameMsg (upd f.data f.offWrite m i) (upd f'.data f.offWrite m' i)
      unfold upd
      by_cases e : i = f.offWrite
      · rw [if_pos e, if_pos e]; exact hm
      · rw [if_neg e, if_neg e]; exact h.data i
    · unfold wr; rw [if_neg hw, if_neg hw]; trivial
  · rw [if_neg hl, if_neg hl]; exact h

theorem SameQ.pop {f f' : Fifo Message} (h : SameQ f f') (N : Nat) {d d' : Message} (hd : SameMsg d d') :
    Res.Rel (fun p q => SameQ p.1 q.1 ∧ SameMsg (p.2.getD d) (q.2.getD d')) (Fifo.pop N f) (Fifo.pop N f') := by
  unfold Fifo.pop
  rw [← h.length, ← h.offRead]
  by_cases hl : f.length > 0
  · rw [if_pos hl, if_pos hl]
    by_cases hw : f.offRead < N
    · rw [rd_of_lt _ hw, rd_of_lt _ hw]
      exact ⟨⟨rfl, h.offWrite, rfl, h.data⟩, h.data _⟩
    · unfold rd; rw [if_neg hw, if_neg hw]; trivial
  · rw [if_neg hl, if_neg hl]; exact ⟨h, hd⟩

/-- Two host objects that differ at most behind the payloads of queued messages. -/
structure SameHost (h h' : Host) : Prop where
  time : h.time = h'.time
  rx : h.rx = h'.rx
  msgs : SameQ h.msgs h'.msgs

theorem SameHost.onLine {h h' : Host} (hh : SameHost h h') (pf : Platform) (g g' : Nat → UInt8) (us : Nat) (s : List UInt8) :
    Res.Rel (fun p q => SameHost p.1 q.1) (Host.onLine pf g h us s) (Host.onLine pf g' h' us s) := by
  unfold Host.onLine
  refine Res.Rel.bind (R := Eq) (Res.Rel.refl (fun _ => rfl) _) ?_
  rintro b _ rfl
  cases b with
  | true => exact hh
  | false =>
    rw [if_neg (by simp), if_neg (by simp)]
    refine Res.Rel.bind (R := Eq) (Res.Rel.refl (fun _ => rfl) _) ?_
    rintro c _ rfl
    by_cases h0 : c = 0 ∨ c = chr '#' ∨ c = chr ';'
    · rw [if_pos h0, if_pos h0]; exact hh
    · rw [if_neg h0, if_neg h0]
      refine Res.Rel.bind (parse_same pf g g' s) ?_
      intro m m' hm
      dsimp only
      have hset : SameHost (if m.time > 0 then Host.setTime h m.time us else h) (if m'.time > 0 then Host.setTime h' m'.time us else h') := by
        rw [← hm.time]
        by_cases ht : m.time > 0
        · rw [if_pos ht, if_pos ht]; exact ⟨rfl, hh.rx, hh.msgs⟩
        · rw [if_neg ht, if_neg ht]; exact hh
      rw [← hm.length]
      by_cases hl : m.length > 0
      · rw [if_pos hl, if_pos hl]
        refine Res.Rel.bind (hset.msgs.push hm Host.msgCap) ?_
        intro p q hpq
        exact ⟨hset.time, hset.rx, hpq⟩
      · rw [if_neg hl, if_neg hl]; exact hset

theorem SameHost.onLines (pf : Platform) (g g' : Nat → UInt8) (us : Nat) : ∀ (ls : List (List UInt8)) {h h' : Host}, SameHost h h' →
    Res.Rel SameHost (Host.onLines pf g h us ls) (Host.onLines pf g' h' us ls) := by
  intro ls
  induction ls with
  | nil => intro h h' hh; exact hh
  | cons l ls ih =>
    intro h h' hh
    rw [Host.onLines, Host.onLines]
    exact Res.Rel.bind (hh.onLine pf g g' us l) (fun p q hpq => ih hpq)

theorem SameHost.check {h h' : Host} (hh : SameHost h h') (pf : Platform) (g g' : Nat → UInt8) (us : Nat) (chunk : List UInt8) :
    Res.Rel SameHost (Host.check pf g h us chunk) (Host.check pf g' h' us chunk) := by
  unfold Host.check
  rw [← hh.rx]
  refine Res.Rel.bind (R := Eq) (Res.Rel.refl (fun _ => rfl) _) ?_
  rintro r _ rfl
  exact SameHost.onLines pf g g' us r.2 ⟨hh.time, rfl, hh.msgs⟩

theorem SameHost.popMsg {h h' : Host} (hh : SameHost h h') (g g' : Nat → UInt8) :
    Res.Rel (fun p q => SameHost p.1 q.1 ∧ SameMsg p.2 q.2) (Host.popMsg g h) (Host.popMsg g' h') := by
  unfold Host.popMsg Fifo.isEmpty
  rw [← hh.msgs.length]
  by_cases hl : decide (h.msgs.length = 0) = true
  · rw [if_pos hl, if_pos hl]; exact ⟨hh, SameMsg.empty g g'⟩
  · rw [if_neg hl, if_neg hl]
    refine Res.Rel.bind (hh.msgs.pop Host.msgCap (SameMsg.empty g g')) ?_
    intro p q hpq
    exact ⟨⟨hh.time, hh.rx, hpq.1⟩, hpq.2⟩

/-! ## Controller -/

theorem crcLoop_same {d d' : Nat → UInt8} : ∀ (n j : Nat) (crc : UInt32), (∀ i, j ≤ i → i < j + n → d i = d' i) → crcLoop d crc j n = crcLoop d' crc j n := by
  intro n
  induction n with
  | zero => intro j crc _; rfl
  | succ n ih =>
    intro j crc h
    rw [crcLoop, crcLoop]
    unfold rd
    rw [h j (by omega) (by omega)]
    by_cases hj : j < maxPacket
    · rw [if_pos hj]
      exact ih (j + 1) _ (fun i h1 h2 => h i (by omega) (by omega))
    · rw [if_neg hj]; rfl

theorem genCRC_same {d d' : Nat → UInt8} {n : Nat} (h : ∀ i < n, d i = d' i) : genCRC d n = genCRC d' n := by
  unfold genCRC
  rw [crcLoop_same n 0 0 (fun i _ h2 => h i (by omega))]

theorem crcMatches_same {m m' : Message} (h : SameMsg m m') (hl : 1 ≤ m.length) : crcMatches m = crcMatches m' := by
  unfold crcMatches
  rw [← h.length, genCRC_same (d := m.data) (d' := m'.data) (fun i hi => h.data i (by omega))]
  unfold rd
  rw [h.data (m.length - 1) (by omega)]

/-- Two controllers that differ at most in bytes of the answer that are not sent. -/
structure SameCtrl (c c' : Ctrl) : Prop where
  address : c.address = c'.address
  ready : c.ready = c'.ready
  state : c.state = c'.state
  dl : c.dl = c'.dl
  alength : c.answer.length = c'.answer.length
  data0 : c.answer.data 0 = c'.answer.data 0
  data1 : c.answer.data 1 = c'.answer.data 1
  op : c.ready = true → c.state = .operating
  data : c.ready = true → ∀ i < c.answer.length, c.answer.data i = c'.answer.data i

theorem SameCtrl.init (g g' : Nat → UInt8) (now : Nat) : SameCtrl (Ctrl.init g now) (Ctrl.init g' now) :=
  ⟨rfl, rfl, rfl, rfl, rfl, rfl, rfl, (fun h => by cases h), (fun h => by cases h)⟩

theorem SameCtrl.check {c c' : Ctrl} (h : SameCtrl c c') (t1 t2 : Nat) : SameCtrl (c.check t1 t2) (c'.check t1 t2) := by
  unfold Ctrl.check
  rw [← h.state, ← h.dl]
  cases hs : c.state with
  | idle =>
    dsimp only
    split
    · exact ⟨h.address, h.ready, rfl, rfl, h.alength, h.data0, h.data1, (fun e => by have := h.op e; rw [hs] at this; cases this), h.data⟩
    · exact h
  | busScan =>
    dsimp only
    split
    · exact ⟨h.address, h.ready, rfl, rfl, h.alength, h.data0, h.data1, (fun _ => rfl), h.data⟩
    · exact h
  | operating =>
    dsimp only
    split
    · exact ⟨h.address, rfl, rfl, rfl, h.alength, h.data0, h.data1, (fun e => by cases e), (fun e => by cases e)⟩
    · exact h

theorem SameCtrl.busCollision {c c' : Ctrl} (h : SameCtrl c c') (now : Nat) : SameCtrl (c.busCollision now) (c'.busCollision now) :=
  ⟨h.address, rfl, rfl, rfl, h.alength, h.data0, h.data1, (fun e => by cases e), (fun e => by cases e)⟩

theorem SameCtrl.notReady {c c' : Ctrl} (h : SameCtrl c c') : SameCtrl { c with ready := false } { c' with ready := false } :=
  ⟨h.address, rfl, h.state, h.dl, h.alength, h.data0, h.data1, (fun e => by cases e), (fun e => by cases e)⟩

theorem SameCtrl.isTxAnswer {c c' : Ctrl} (h : SameCtrl c c') {m m' : Message} (hm : SameMsg m m') (hl : 3 ≤ m.length ∨ (1 ≤ m.length ∧ m.data 0 ≠ 0x40)) :
    c.isTxAnswer m = c'.isTxAnswer m' := by
  unfold Ctrl.isTxAnswer
  rw [← h.address]
  rcases hl with hl | ⟨hl, h0⟩
  · rw [hm.data 0 (by omega), hm.data 1 (by omega), hm.data 2 (by omega)]
  · rw [if_pos h0, if_pos (by rw [← hm.data 0 (by omega)]; exact h0)]

theorem copyLoop_same {s s' : Nat → UInt8} : ∀ (n i : Nat) (d d' : Nat → UInt8), (∀ k, i ≤ k → k < i + n → s k = s' k) → (∀ k < i, d k = d' k) →
    Res.Rel (fun p q => ∀ k < i + n, p k = q k) (copyLoop s d i n) (copyLoop s' d' i n) := by
  intro n
  induction n with
  | zero => intro i d d' _ h; exact h
  | succ n ih =>
    intro i d d' hs h
    rw [copyLoop, copyLoop]
    unfold rd wr
    by_cases hi : i < maxPacket
    · simp only [if_pos hi, Res.ok_bind]
      rw [hs i (by omega) (by omega)]
      have := ih (i + 1) (upd d i (s' i)) (upd d' i (s' i)) (fun k h1 h2 => hs k (by omega) (by omega)) (by
        intro k hk
        unfold upd
        by_cases e : k = i
        · rw [if_pos e, if_pos e]
        · rw [if_neg e, if_neg e]; exact h k (by omega))
      rw [show i + 1 + n = i + (n + 1) from by omega] at this
      exact this
    · simp only [if_neg hi]; trivial

theorem finish_same {c c' : Ctrl} (h1 : c.address = c'.address) (h2 : c.state = c'.state) (h3 : c.dl = c'.dl) (hop : c.state = .operating)
    (hl : c.answer.length = c'.answer.length) (hl2 : 3 ≤ c.answer.length) (hd : ∀ i < c.answer.length - 1, c.answer.data i = c'.answer.data i) :
    Res.Rel SameCtrl c.finish c'.finish := by
  unfold Ctrl.finish
  rw [← hl, genCRC_same hd]
  refine Res.Rel.bind (R := Eq) (Res.Rel.refl (fun _ => rfl) _) ?_
  rintro crc _ rfl
  have key : ∀ i < c.answer.length, upd c.answer.data (c.answer.length - 1) crc i = upd c'.answer.data (c.answer.length - 1) crc i := by
    intro i hi
    unfold upd
    by_cases e : i = c.answer.length - 1
    · rw [if_pos e, if_pos e]
    · rw [if_neg e, if_neg e]; exact hd i (by omega)
  by_cases hw : c.answer.length - 1 < maxPacket
  · rw [wr_of_lt _ _ hw, wr_of_lt _ _ hw]
    exact ⟨h1, rfl, h2, h3, hl, key 0 (by omega), key 1 (by omega), fun _ => hop, fun _ => key⟩
  · unfold wr; rw [if_neg hw, if_neg hw]; trivial

theorem SameCtrl.generateAnswer {c c' : Ctrl} (h : SameCtrl c c') {m m' : Message} (hm : SameMsg m m') (h3 : 3 ≤ m.length) (hop : c.state = .operating)
    (hs0 : m.data 2 = 0x30 → 17 ≤ m.length) (hs1 : m.data 2 = 0x31 → 15 ≤ m.length) : Res.Rel SameCtrl (c.generateAnswer m) (c'.generateAnswer m') := by
  unfold Ctrl.generateAnswer
  rw [← hm.data 2 (by omega)]
  have hst : ∀ v : UInt8, ∀ k < 3, upd c.answer.data 2 v k = upd c'.answer.data 2 v k := by
    intro v k hk
    unfold upd
    by_cases e : k = 2
    · rw [if_pos e, if_pos e]
    · rw [if_neg e, if_neg e]
      rcases (by omega : k = 0 ∨ k = 1) with rfl | rfl
      · exact h.data0
      · exact h.data1
  by_cases e0 : m.data 2 = 0x30
  · rw [if_pos e0, if_pos e0]
    refine Res.Rel.bind (copyLoop_same 14 3 _ _ (fun k _ hk => hm.data k (by have := hs0 e0; omega)) (hst 0x30)) ?_
    intro d d' hd
    exact finish_same h.address h.state h.dl hop rfl (by show 3 ≤ 18; omega) (fun i hi => hd i (by have hi : i < 17 := hi; omega))
  · rw [if_neg e0, if_neg e0]
    by_cases e1 : m.data 2 = 0x31
    · rw [if_pos e1, if_pos e1]
      refine Res.Rel.bind (copyLoop_same 12 3 _ _ (fun k _ hk => hm.data k (by have := hs1 e1; omega)) (hst 0x31)) ?_
      intro d d' hd
      refine finish_same h.address h.state h.dl hop rfl (by show 3 ≤ 16; omega) (fun i hi => ?_)
      show upd (upd d 7 0xB4) 8 0x10 i = upd (upd d' 7 0xB4) 8 0x10 i
      unfold upd
      by_cases e8 : i = 8
      · rw [if_pos e8, if_pos e8]
      · rw [if_neg e8, if_neg e8]
        by_cases e7 : i = 7
        · rw [if_pos e7, if_pos e7]
        · rw [if_neg e7, if_neg e7]
          exact hd i (by have hi : i < 15 := hi; omega)
    · rw [if_neg e1, if_neg e1]; exact h.notReady

theorem genCRC_ok {d : Nat → UInt8} {n : Nat} (hn : n ≤ 32) : ∃ b, genCRC d n = .ok b := by
  have key : ∀ (n j : Nat) (crc : UInt32), j + n ≤ 32 → ∃ b, crcLoop d crc j n = .ok b := by
    intro n
    induction n with
    | zero => intro j crc _; exact ⟨crc, rfl⟩
    | succ n ih =>
      intro j crc h
      rw [crcLoop, rd_of_lt _ (by show j < 32; omega), Res.ok_bind]
      exact ih (j + 1) _ (by omega)
  obtain ⟨b, hb⟩ := key n 0 0 (by omega)
  exact ⟨_, by rw [genCRC, hb]; rfl⟩

theorem SameCtrl.scanPacket {c c' : Ctrl} (h : SameCtrl c c') {m m' : Message} (hm : SameMsg m m') (h3 : 3 ≤ m.length) (hs : c.state = .busScan) :
    Res.Rel SameCtrl (c.scanPacket m) (c'.scanPacket m') := by
  unfold Ctrl.scanPacket
  rw [← hm.data 0 (by omega), ← hm.data 1 (by omega), ← hm.data 2 (by omega), ← h.address]
  split
  · rw [crcMatches_same hm (by omega)]
    refine Res.Rel.bind (R := Eq) (Res.Rel.refl (fun _ => rfl) _) ?_
    rintro b _ rfl
    cases b with
    | false => exact h
    | true =>
      rw [if_pos rfl, if_pos rfl]
      dsimp only
      obtain ⟨x, hx⟩ := genCRC_ok (d := upd c.answer.data 1 (UInt8.ofNat (if c.address + 1 > 0xF1 then 0xF0 else c.address + 1))) (n := 17) (by omega)
      obtain ⟨y, hy⟩ := genCRC_ok (d := upd c'.answer.data 1 (UInt8.ofNat (if c.address + 1 > 0xF1 then 0xF0 else c.address + 1))) (n := 17) (by omega)
      rw [hx, hy]
      have hr : c.ready = true → False := fun e => by have := h.op e; rw [hs] at this; cases this
      refine ⟨rfl, h.ready, h.state, h.dl, h.alength, ?_, rfl, (fun e => (hr e).elim), (fun e => (hr e).elim)⟩
      exact h.data0
  · exact h

theorem SameCtrl.receive {c c' : Ctrl} (h : SameCtrl c c') {m m' : Message} (hm : SameMsg m m') (hs : ¬ ShortRequest m.bytes) :
    Res.Rel SameCtrl (c.receive m) (c'.receive m') := by
  unfold Ctrl.receive
  rw [← hm.length, ← h.state]
  by_cases hl : m.length ≤ 3
  · rw [if_pos hl, if_pos hl]; exact h
  · rw [if_neg hl, if_neg hl]
    cases hst : c.state with
    | idle => exact h
    | busScan => exact h.scanPacket hm (by omega) hst
    | operating =>
      dsimp only
      have hn : c.needToHandle m = c'.needToHandle m' := by
        unfold Ctrl.needToHandle
        rw [← hm.data 0 (by omega), ← hm.data 1 (by omega), ← hm.data 2 (by omega), ← h.address]
      rw [← hn]
      cases hnd : c.needToHandle m with
      | false => exact ⟨h.address, rfl, rfl, h.dl, h.alength, h.data0, h.data1, (fun e => by cases e), (fun e => by cases e)⟩
      | true =>
        rw [if_pos rfl, if_pos rfl, crcMatches_same hm (by omega)]
        refine Res.Rel.bind (R := Eq) (Res.Rel.refl (fun _ => rfl) _) ?_
        rintro b _ rfl
        cases b with
        | false => exact ⟨h.address, rfl, rfl, h.dl, h.alength, h.data0, h.data1, (fun e => by cases e), (fun e => by cases e)⟩
        | true =>
          rw [if_pos rfl, if_pos rfl]
          have h0 : m.data 0 = 0 := by
            unfold Ctrl.needToHandle at hnd
            by_cases e : m.data 0 = 0
            · exact e
            · rw [if_pos e] at hnd; cases hnd
          have hlen : m.bytes.length = m.length := by simp [Message.bytes]
          have hget : ∀ i < m.length, m.bytes[i]? = some (m.data i) := by
            intro i hi
            simp [Message.bytes, hi]
          refine h.generateAnswer hm (by omega) hst ?_ ?_
          · intro e
            have : ¬ m.length < 17 := fun hx => hs ⟨by omega, by rw [hget 0 (by omega), h0], .inl ⟨by rw [hget 2 (by omega), e], by omega⟩⟩
            omega
          · intro e
            have : ¬ m.length < 15 := fun hx => hs ⟨by omega, by rw [hget 0 (by omega), h0], .inr ⟨by rw [hget 2 (by omega), e], by omega⟩⟩
            omega

theorem SameCtrl.txAnswer {c c' : Ctrl} (h : SameCtrl c c') (hr : c.ready = true) {o o' : Message} (ho : o.status = o'.status ∧ o.time = o'.time) :
    Res.Rel (fun p q => SameCtrl p.1 q.1 ∧ SameMsg p.2 q.2) (c.txAnswer o) (c'.txAnswer o') := by
  unfold Ctrl.txAnswer
  rw [← h.alength]
  refine Res.Rel.bind (copyLoop_same c.answer.length 0 _ _ (fun k _ hk => h.data hr k (by omega)) (fun k hk => by cases hk)) ?_
  intro d d' hd
  exact ⟨h.notReady, ho.1, ho.2, rfl, fun i hi => hd i (by have hi : i < c.answer.length := hi; omega)⟩

/-! ## Transmitter -/

/-- Two transmitters that differ at most behind the payloads. -/
structure SameSM (s s' : TxSM) : Prop where
  tx : SameMsg s.txMsg s'.txMsg
  rx : SameMsg s.rxMsg s'.rxMsg
  st : s.st = s'.st
  dl : s.dl = s'.dl
  off : s.txOffset = s'.txOffset
  err : s.err = s'.err

/-- Calls on the hardware that look the same. -/
def SameCmds (a b : List HwCmd) : Prop := a.map HwCmd.seen = b.map HwCmd.seen

theorem SameCmds.append {a b a' b' : List HwCmd} (h : SameCmds a b) (h' : SameCmds a' b') : SameCmds (a ++ a') (b ++ b') := by
  unfold SameCmds at *
  rw [List.map_append, List.map_append, h, h']

theorem SameSM.change {s s' : TxSM} (h : SameSM s s') (n : TxSt) (now : Nat) : SameSM (s.change n now).1 (s'.change n now).1 ∧ SameCmds (s.change n now).2 (s'.change n now).2 := by
  refine ⟨⟨h.tx, h.rx, rfl, rfl, h.off, h.err⟩, ?_⟩
  unfold TxSM.change SameCmds
  cases n <;> simp only [TxSM.entryCmds, List.map_cons, List.map_nil, HwCmd.seen]
  rw [h.tx.bytes]

theorem SameSM.error {s s' : TxSM} (h : SameSM s s') : SameSM s.error.1 s'.error.1 ∧ s.error.2 = s'.error.2 :=
  ⟨⟨h.tx, h.rx, h.st, h.dl, h.off, rfl⟩, h.err⟩

theorem SameSM.wake {s s' : TxSM} (h : SameSM s s') {m m' : Message} (hm : SameMsg m m') (now : Nat) :
    SameSM (s.wake m now).1 (s'.wake m' now).1 ∧ SameCmds (s.wake m now).2 (s'.wake m' now).2 := by
  unfold TxSM.wake TxSM.isIdle
  rw [← h.st]
  by_cases e : decide (s.st = .idle) = true
  · rw [if_pos e, if_pos e]
    exact SameSM.change (s := { s with txMsg := m, txOffset := 0, err := false, rxMsg := s.rxMsg.clear })
      (s' := { s' with txMsg := m', txOffset := 0, err := false, rxMsg := s'.rxMsg.clear }) ⟨hm, h.rx.clear, h.st, h.dl, rfl, rfl⟩ _ _
  · rw [if_neg e, if_neg e]
    exact ⟨h, rfl⟩

theorem SameSM.setRx {s s' : TxSM} (h : SameSM s s') {m m' : Message} (hm : SameMsg m m') : SameSM { s with rxMsg := m } { s' with rxMsg := m' } :=
  ⟨h.tx, hm, h.st, h.dl, h.off, h.err⟩

/-- Related results of the cases of the state machine. -/
def SameStep (p q : TxSM × List HwCmd × Bool) : Prop := SameSM p.1 q.1 ∧ SameCmds p.2.1 q.2.1 ∧ p.2.2 = q.2.2

theorem SameSM.changeStep {s s' : TxSM} (h : SameSM s s') (n : TxSt) (now : Nat) (bc : Bool) :
    SameStep ((s.change n now).1, (s.change n now).2, bc) ((s'.change n now).1, (s'.change n now).2, bc) :=
  ⟨(h.change n now).1, (h.change n now).2, rfl⟩

theorem SameSM.checkData {s s' : TxSM} (h : SameSM s s') (pf : Platform) (i : UpdIn) (bc : Bool) (ho : s.txOffset < s.txMsg.length) :
    Res.Rel SameStep (s.checkData pf i bc) (s'.checkData pf i bc) := by
  unfold TxSM.checkData
  by_cases h1 : i.rxError = true
  · rw [if_pos h1, if_pos h1]
    exact ⟨h.setRx (h.rx.withStatus _), rfl, rfl⟩
  · rw [if_neg h1, if_neg h1]
    by_cases h2 : i.rxValid = true
    · rw [if_pos h2, if_pos h2, ← h.off]
      have hd := h.tx.data _ ho
      refine Res.Rel.bind (R := Eq) ?_ ?_
      · unfold rd
        rw [hd]
        exact Res.Rel.refl (fun _ => rfl) _
      · rintro b _ rfl
        refine Res.Rel.bind (h.rx.append b) ?_
        intro r r' hr
        dsimp only
        have hx : SameSM { s with rxMsg := r, txOffset := s.txOffset + 1 } { s' with rxMsg := r', txOffset := s.txOffset + 1 } :=
          ⟨h.tx, hr, h.st, h.dl, rfl, h.err⟩
        rw [← h.tx.length]
        by_cases e : s.txOffset + 1 = s.txMsg.length
        · rw [if_pos e, if_pos e]
          exact hx.changeStep _ _ _
        · rw [if_neg e, if_neg e]
          exact hx.changeStep _ _ _
    · rw [if_neg h2, if_neg h2]
      exact ⟨h, rfl, rfl⟩

theorem SameSM.sawStart {s s' : TxSM} (h : SameSM s s') (i : UpdIn) : SameStep (s.sawStart i) (s'.sawStart i) := by
  unfold TxSM.sawStart
  split
  · exact ⟨h.setRx (h.rx.withStatus _), rfl, rfl⟩
  · split
    · exact h.changeStep _ _ _
    · exact ⟨h, rfl, rfl⟩

theorem sawStart_keeps (s : TxSM) (i : UpdIn) : (s.sawStart i).1.txOffset = s.txOffset ∧ (s.sawStart i).1.txMsg = s.txMsg := by
  unfold TxSM.sawStart
  split
  · exact ⟨rfl, rfl⟩
  · split <;> exact ⟨rfl, rfl⟩

theorem SameSM.dispatch {s s' : TxSM} (h : SameSM s s') (pf : Platform) (i : UpdIn) (ho : s.st = .startedWaitForBusy ∨ s.st = .runningCheckData → s.txOffset < s.txMsg.length) :
    Res.Rel SameStep (s.dispatch pf i) (s'.dispatch pf i) := by
  unfold TxSM.dispatch
  rw [← h.st, ← h.off, ← h.dl]
  cases hs : s.st with
  | idle => exact ⟨h, rfl, rfl⟩
  | waitLineFree =>
    dsimp only
    split
    · exact h.changeStep _ _ _
    · exact ⟨h, rfl, rfl⟩
  | waitPowerOn =>
    dsimp only
    split
    · exact h.changeStep _ _ _
    · exact ⟨h, rfl, rfl⟩
  | startedWaitForBusy =>
    dsimp only
    have hw := h.sawStart i
    split
    · exact hw
    · rw [← hw.2.2]
      refine Res.Rel.bind (hw.1.checkData pf i _ ?_) ?_
      · rw [(sawStart_keeps s i).1, (sawStart_keeps s i).2]; exact ho (.inl hs)
      · intro p q hpq
        exact ⟨hpq.1, hw.2.1.append hpq.2.1, hpq.2.2⟩
  | runningCheckData => exact h.checkData pf i false (ho (.inr hs))
  | runningWaitForIdle =>
    dsimp only
    split
    · exact h.changeStep _ _ _
    · exact ⟨h, rfl, rfl⟩

theorem SameSM.update {s s' : TxSM} (h : SameSM s s') (pf : Platform) (i : UpdIn) (ho : s.st = .startedWaitForBusy ∨ s.st = .runningCheckData → s.txOffset < s.txMsg.length) :
    Res.Rel (fun p q => SameSM p.1 q.1 ∧ SameCmds p.2 q.2) (s.update pf i) (s'.update pf i) := by
  unfold TxSM.update
  have ht : s.timedOutError i = s'.timedOutError i := by unfold TxSM.timedOutError; rw [h.st, h.dl]
  have hi : s.isIdle = s'.isIdle := by unfold TxSM.isIdle; rw [h.st]
  rw [← ht, ← hi, ← h.st]
  by_cases h1 : (s.timedOutError i || s.st.lineStateIsError i.busy) = true
  · rw [if_pos h1, if_pos h1]
    have hc := (h.setRx (h.rx.withStatus (if i.busy then Message.errBusCollision else Message.errNoFraming))).change .idle i.tNew
    exact ⟨⟨hc.1.tx, hc.1.rx, hc.1.st, hc.1.dl, hc.1.off, rfl⟩, hc.2⟩
  · rw [if_neg h1, if_neg h1]
    by_cases h2 : (!s.isIdle && i.hwErr) = true
    · rw [if_pos h2, if_pos h2]
      have hc := (h.setRx (h.rx.withStatus Message.errInternal)).change .idle i.tNew
      exact ⟨⟨hc.1.tx, hc.1.rx, hc.1.st, hc.1.dl, hc.1.off, rfl⟩, hc.2⟩
    · rw [if_neg h2, if_neg h2]
      refine Res.Rel.bind (h.dispatch pf i ho) ?_
      rintro ⟨p1, p2, p3⟩ ⟨q1, q2, q3⟩ ⟨ha, hb, hcc⟩
      simp only at ha hb hcc
      subst hcc
      cases p3 with
      | false => exact ⟨ha, hb⟩
      | true =>
        rw [if_pos rfl, if_pos rfl]
        have hc := ha.change .runningWaitForIdle i.tNew
        refine ⟨⟨hc.1.tx, ?_, hc.1.st, hc.1.dl, hc.1.off, rfl⟩, hb.append hc.2⟩
        show SameMsg (if (p1.change .runningWaitForIdle i.tNew).1.rxMsg.status = 0 then _ else _) (if (q1.change .runningWaitForIdle i.tNew).1.rxMsg.status = 0 then _ else _)
        rw [← hc.1.rx.status]
        split
        · exact hc.1.rx.withStatus 21
        · exact hc.1.rx

/-- While the transmitter is idle or waits for the line, it does not look at what is received. -/
theorem update_ignores (pf : Platform) (s : TxSM) (hs : s.st = .idle ∨ s.st = .waitLineFree) (b a1 a2 a3 a4 : Bool) (c1 c2 : UInt8) (x1 x2 : Bool) (y1 y2 y3 : Nat) :
    s.update pf ⟨b, a1, a2, c1, x1, x2, y1, y2, y3⟩ = s.update pf ⟨b, a3, a4, c2, x1, x2, y1, y2, y3⟩ := by
  unfold TxSM.update TxSM.timedOutError TxSM.dispatch
  rcases hs with hs | hs <;> simp only [hs]

end P1P2
