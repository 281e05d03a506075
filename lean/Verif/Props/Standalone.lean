import Verif.Props.Crc
import Verif.Proofs.Standalone
/-!
# C62-C69: the external controller
-/
namespace P1P2

/-- A concrete history: 2.2 s after the start the controller operates. -/
def startUp : List CtrlCall := [.check 100000 100001, .check 2100001 2100002]

/-- A type 0x30 request of 18 bytes to address 0xF0. -/
def request30 : List UInt8 := [0x00, 0xF0, 0x30, 1, 2, 3, 4, 5, 6, 7, 8, 9, 10, 11, 12, 13, 14, 0xF3]

/-- A message with the given bytes. -/
def messageOf (status : Nat) (bs : List UInt8) : Message :=
  { status := status, time := 0, data := fun i => bs.getD i 0, length := bs.length }

/-- The pending flag at the end of a history. -/
def pendingAfter (calls : List CtrlCall) : Option Bool :=
  match (Ctrl.init (fun _ => 0) 0).run calls with
  | .ok c => some c.ready
  | .ub => none

theorem reaches_of_pending {calls : List CtrlCall} {b : Bool} (hf : ∀ x ∈ calls, x.Fits) (h : pendingAfter calls = some b) :
    ∃ c, Reaches calls c ∧ c.hasTxData = b := by
  obtain ⟨c, e, -⟩ := (Ctrl.Ok.init (fun _ => 0) 0).run calls hf
  unfold pendingAfter at h
  rw [e] at h
  exact ⟨c, ⟨_, _, hf, e⟩, Option.some.inj h⟩

/-- **C62.** For every history and every received packet: if no answer was pending, one is pending afterwards iff the
controller operates and the packet is a valid request to its address; a packet of more than 3 bytes has this effect even if
an answer was pending.  Nothing in the history is undefined behaviour. -/
theorem C62 {calls : List CtrlCall} {c : Ctrl} (h : Reaches calls c) {m : Message} (hm : m.length ≤ 32)
    (hp : c.hasTxData = false ∨ 3 < m.length) :
    ∃ c', c.receive m = .ok c' ∧ (c'.hasTxData = true ↔ c.state = .operating ∧ ValidRequest c.address m) := by
  have hok := h.ok
  have hnot : c.state ≠ .operating → c.ready = false := by
    intro hs
    cases hr : c.ready
    · rfl
    · exact absurd (hok.ready hr) hs
  rcases receive_eq hok hm with g | g | g | g | g | g
  · refine ⟨c, g.2, ?_⟩
    rcases hp with hp | hp
    · rw [hp]; exact ⟨fun h => (by cases h), fun h => absurd h.2.long (by omega)⟩
    · omega
  · refine ⟨c, g.2.2, fun hr => ?_, fun hv => absurd hv.1 (by rw [g.2.1]; decide)⟩
    rw [Ctrl.hasTxData, hnot (by rw [g.2.1]; decide)] at hr; cases hr
  · refine ⟨c, g.2.2.2, fun hr => ?_, fun hv => absurd hv.1 (by rw [g.2.1]; decide)⟩
    rw [Ctrl.hasTxData, hnot (by rw [g.2.1]; decide)] at hr; cases hr
  · obtain ⟨-, hs, -, d, e, -⟩ := g
    refine ⟨_, e, fun hr => ?_, fun hv => absurd hv.1 (by rw [hs]; decide)⟩
    have : c.ready = true := hr
    rw [hnot (by rw [hs]; decide)] at this; cases this
  · refine ⟨_, g.2.2.2, fun hr => (by cases hr), fun hv => absurd hv.2 g.2.2.1⟩
  · obtain ⟨hs, hv, a, e, -⟩ := g
    exact ⟨_, e, fun _ => ⟨hs, hv⟩, fun _ => rfl⟩

/-- The hypotheses of C62 are met, with both outcomes. -/
example : pendingAfter (startUp ++ [.receive (messageOf 0 request30)]) = some true ∧
    pendingAfter (startUp ++ [.receive (messageOf 0 (request30.set 5 9))]) = some false := by decide +kernel

/-- Calls that leave a pending answer alone: checks (within the operating phase) and packets of at most 3 bytes. -/
def CtrlCall.Keeps : CtrlCall → Prop
  | .check _ _ => True
  | .receive m => m.length ≤ 3
  | _ => False

theorem pending_history (calls : List CtrlCall) : ∀ {c : Ctrl}, Reaches calls c → c.hasTxData = true →
    ∃ pre m post c0, calls = pre ++ .receive m :: post ∧ Reaches pre c0 ∧ c0.state = .operating ∧ c.address = c0.address ∧
      ValidRequest c.address m ∧ AnswerTo c.address m c.answer ∧ ∀ x ∈ post, x.Keeps := by
  have key : ∀ (n : Nat) (calls : List CtrlCall), calls.length = n → ∀ {c : Ctrl}, Reaches calls c → c.hasTxData = true →
    ∃ pre m post c0, calls = pre ++ .receive m :: post ∧ Reaches pre c0 ∧ c0.state = .operating ∧ c.address = c0.address ∧
      ValidRequest c.address m ∧ AnswerTo c.address m c.answer ∧ ∀ x ∈ post, x.Keeps := by
    intro n
    induction n with
    | zero =>
      intro calls hl c h hr
      rw [List.length_eq_zero_iff] at hl
      subst hl
      obtain ⟨g, t0, -, e⟩ := h
      cases e
      cases hr
    | succ n ih =>
      intro calls hl c h hr
      obtain ⟨l, x, rfl⟩ : ∃ l x, calls = l ++ [x] := by
        have : calls ≠ [] := by intro h; rw [h] at hl; cases hl
        exact ⟨calls.dropLast, calls.getLast this, (List.dropLast_concat_getLast this).symm⟩
      have hl' : l.length = n := by simpa using hl
      obtain ⟨c0, h0, hx, e⟩ := h.snoc
      have hok := h0.ok
      have keep : c0.hasTxData = true → c.address = c0.address → c.answer = c0.answer → x.Keeps →
          ∃ pre m post c1, l ++ [x] = pre ++ .receive m :: post ∧ Reaches pre c1 ∧ c1.state = .operating ∧ c.address = c1.address ∧
            ValidRequest c.address m ∧ AnswerTo c.address m c.answer ∧ ∀ x ∈ post, x.Keeps := by
        intro hr0 ha hb hk
        obtain ⟨pre, m, post, c1, e1, e2, e3, e4, e5, e6, e7⟩ := ih l hl' h0 hr0
        refine ⟨pre, m, post ++ [x], c1, by rw [e1]; simp, e2, e3, ha.trans e4, by rw [ha]; exact e5, by rw [ha, hb]; exact e6, ?_⟩
        intro y hy
        rcases List.mem_append.mp hy with hy | hy
        · exact e7 y hy
        · rw [List.mem_singleton.mp hy]; exact hk
      cases x with
      | check t1 t2 =>
        have e : c0.check t1 t2 = c := by cases e; rfl
        have : c0.ready = true ∧ c.address = c0.address ∧ c.answer = c0.answer := by
          subst e
          have hr : (c0.check t1 t2).ready = true := hr
          revert hr
          unfold Ctrl.check
          cases c0.state <;> dsimp only <;> split <;> intro hr <;> first | exact ⟨hr, rfl, rfl⟩ | cases hr
        exact keep this.1 this.2.1 this.2.2 trivial
      | receive m =>
        have e : c0.receive m = .ok c := e
        rcases receive_eq hok hx with g | g | g | g | g | g
        · rw [g.2] at e; cases e
          exact keep hr rfl rfl g.1
        · rw [g.2.2] at e; cases e
          exact absurd (hok.ready hr) (by rw [g.2.1]; decide)
        · rw [g.2.2.2] at e; cases e
          exact absurd (hok.ready hr) (by rw [g.2.1]; decide)
        · obtain ⟨-, hs, -, d, e', -⟩ := g
          rw [e'] at e; cases e
          have hr : c0.ready = true := hr
          exact absurd (hok.ready hr) (by rw [hs]; decide)
        · rw [g.2.2.2] at e; cases e; cases hr
        · obtain ⟨hs, hv, a, e', ha⟩ := g
          rw [e'] at e; cases e
          exact ⟨l, m, [], c0, rfl, h0, hs, rfl, hv, ha, fun x hx => by cases hx⟩
      | txAnswer out =>
        have e : (c0.txAnswer out >>= fun r => Res.ok r.1) = .ok c := e
        have hlen := hok.len
        rw [txAnswer_eq (by omega), Res.ok_bind] at e
        cases e; cases hr
      | busCollision now => cases e; cases hr
  intro c h hr
  exact key _ calls rfl h hr

/-- **C63.** Whenever an answer is pending, taking it yields a well-formed answer to a valid request that was received. -/
theorem C63 {calls : List CtrlCall} {c : Ctrl} (h : Reaches calls c) (hr : c.hasTxData = true) (out : Message) :
    ∃ m c' o, .receive m ∈ calls ∧ ValidRequest c.address m ∧ c.txAnswer out = .ok (c', o) ∧ AnswerTo c.address m o := by
  obtain ⟨pre, m, post, c0, e1, -, -, -, e2, e3, -⟩ := pending_history calls h hr
  have hlen := h.ok.len
  refine ⟨m, _, _, by rw [e1]; simp, e2, txAnswer_eq (by omega) out, ?_⟩
  have hpos : 16 ≤ c.answer.length := by rw [e3.length]; split <;> omega
  have hd : ∀ i, i < c.answer.length → (if i < c.answer.length then c.answer.data i else out.data i) = c.answer.data i :=
    fun i hi => by rw [if_pos hi]
  refine ⟨e3.length, ?_, ?_, ?_, ?_, ?_, ?_⟩
  · exact (hd 0 (by omega)).trans e3.cmd
  · exact (congrArg UInt8.toNat (hd 1 (by omega))).trans e3.addr
  · exact (hd 2 (by omega)).trans e3.type
  · intro h31
    exact ⟨(hd 7 (by omega)).trans (e3.lan h31).1, (hd 8 (by omega)).trans (e3.lan h31).2⟩
  · intro i i1 i2 i3
    have i2 : i < c.answer.length - 1 := i2
    exact (hd i (by omega)).trans (e3.echo i i1 i2 i3)
  · show genCRC _ _ = _
    have := e3.crc
    unfold ChecksumOk at this
    dsimp only
    rw [hd _ (by omega), ← this]
    exact genCRC_congr fun i hi => hd i (by omega)

example : ∃ c, Reaches (startUp ++ [.receive (messageOf 0 request30)]) c ∧ c.hasTxData = true :=
  reaches_of_pending (by
    intro x hx
    simp only [startUp, List.cons_append, List.nil_append, List.mem_cons, List.not_mem_nil, or_false] at hx
    rcases hx with rfl | rfl | rfl
    · trivial
    · trivial
    · show (18 : Nat) ≤ 32; decide) (by decide +kernel)

/-! ## C64 -/

theorem bytes_get {m m' : Message} (h : m.bytes = m'.bytes) : m.length = m'.length ∧ ∀ i < m.length, m.data i = m'.data i := by
  have hl : m.length = m'.length := by
    have := congrArg List.length h
    simpa [Message.bytes] using this
  refine ⟨hl, fun i hi => ?_⟩
  have : m.bytes[i]? = m'.bytes[i]? := by rw [h]
  simpa [Message.bytes, List.getElem?_map, List.getElem?_range, hi, hl ▸ hi] using this

theorem ValidRequest.congr {m m' : Message} (h : m.bytes = m'.bytes) {a : Nat} (hv : ValidRequest a m) : ValidRequest a m' := by
  obtain ⟨hl, hd⟩ := bytes_get h
  have := hv.long
  refine ⟨by rw [← hl]; exact hv.long, ?_, ?_, ?_, ?_⟩
  · rw [← hd 0 (by omega)]; exact hv.cmd
  · rw [← hd 1 (by omega)]; exact hv.addr
  · rw [← hd 2 (by omega)]; exact hv.type
  · have k := hv.crc
    unfold ChecksumOk at k ⊢
    rw [← hl, ← hd _ (by omega), ← k]
    exact genCRC_congr fun i hi => (hd i (by omega)).symm

theorem AnswerTo.unique {a : Nat} {m m' o o' : Message} (h : AnswerTo a m o) (h' : AnswerTo a m' o')
    (hd : ∀ i < o.length - 1, m.data i = m'.data i) : o.bytes = o'.bytes := by
  have h16 : 16 ≤ o.length := by rw [h.length]; split <;> omega
  have h2 : m.data 2 = m'.data 2 := hd 2 (by omega)
  have hl : o.length = o'.length := by rw [h.length, h'.length, h2]
  have hb : ∀ i < o.length - 1, o.data i = o'.data i := by
    intro i hi
    by_cases i0 : i = 0
    · rw [i0, h.cmd, h'.cmd]
    by_cases i1 : i = 1
    · rw [i1]; exact UInt8.toNat_inj.mp (h.addr.trans h'.addr.symm)
    by_cases i2 : i = 2
    · rw [i2, h.type, h'.type, h2]
    by_cases i3 : m.data 2 = 0x31 ∧ (i = 7 ∨ i = 8)
    · have k := h.lan i3.1
      have k' := h'.lan (h2 ▸ i3.1)
      rcases i3.2 with rfl | rfl
      · rw [k.1, k'.1]
      · rw [k.2, k'.2]
    · rw [h.echo i (by omega) hi i3, h'.echo i (by omega) (by omega) (h2 ▸ i3), hd i hi]
  unfold Message.bytes
  rw [← hl]
  apply List.map_congr_left
  intro i hi
  have hi := List.mem_range.mp hi
  by_cases hlast : i < o.length - 1
  · exact hb i hlast
  · have e : i = o.length - 1 := by omega
    have k := h.crc
    have k' := h'.crc
    unfold ChecksumOk at k k'
    rw [← hl, ← genCRC_congr hb, k, Res.ok.injEq] at k'
    rw [e]; exact k'

/-- Receiving a packet and taking the answer. -/
def respond (c : Ctrl) (m out : Message) : Res (Bool × List UInt8) := do
  let c ← c.receive m
  let r ← c.txAnswer out
  .ok (c.hasTxData, if c.hasTxData then r.2.bytes else [])

/-- **C64**, partial: whether a packet is answered depends on its bytes only, and so does the answer if the packet has at least 17
bytes (type 0x30) or 15 bytes (type 0x31), whatever happened before. For shorter packets see `C64_refuted`. -/
theorem C64_partial {calls calls' : List CtrlCall} {c c' : Ctrl} (h : Reaches calls c) (h' : Reaches calls' c')
    (hs : c.state = .operating) (hs' : c'.state = .operating) (ha : c.address = c'.address) {m m' : Message} (hb : m.bytes = m'.bytes)
    (hm : m.length ≤ 32) (hl : 3 < m.length) (out out' : Message) :
    ∃ p r r', respond c m out = .ok (p, r) ∧ respond c' m' out' = .ok (p, r') ∧
      ((m.data 2 = 0x30 → 17 ≤ m.length) → (m.data 2 = 0x31 → 15 ≤ m.length) → r = r') := by
  have hok := h.ok
  have hok' := h'.ok
  obtain ⟨hlen, hd⟩ := bytes_get hb
  have hlen' := hok.len
  have hlen'' := hok'.len
  rcases receive_eq hok hm with g | g | g | g | g | g
  · omega
  · rw [g.2.1] at hs; cases hs
  · rw [g.2.1] at hs; cases hs
  · rw [g.2.1] at hs; cases hs
  · rcases receive_eq hok' (hlen ▸ hm) with k | k | k | k | k | k
    · omega
    · rw [k.2.1] at hs'; cases hs'
    · rw [k.2.1] at hs'; cases hs'
    · rw [k.2.1] at hs'; cases hs'
    · refine ⟨false, [], [], ?_, ?_, fun _ _ => rfl⟩
      · unfold respond
        rw [g.2.2.2, Res.ok_bind, txAnswer_eq (by show c.answer.length ≤ 32; omega)]; rfl
      · unfold respond
        rw [k.2.2.2, Res.ok_bind, txAnswer_eq (by show c'.answer.length ≤ 32; omega)]; rfl
    · exact absurd (ha ▸ k.2.1.congr hb.symm) g.2.2.1
  · obtain ⟨-, hv, a, e, hA⟩ := g
    rcases receive_eq hok' (hlen ▸ hm) with k | k | k | k | k | k
    · omega
    · rw [k.2.1] at hs'; cases hs'
    · rw [k.2.1] at hs'; cases hs'
    · rw [k.2.1] at hs'; cases hs'
    · exact absurd (ha ▸ hv.congr hb) k.2.2.1
    · obtain ⟨-, hv', a', e', hA'⟩ := k
      have ht := hA.le18
      have ht' := hA'.le18
      have hbytes : ∀ (n : Nat) (f g : Nat → UInt8) (s t : Nat), ({ status := s, time := t, length := n, data := fun j => if j < n then f j else g j } : Message).bytes =
          ({ status := 0, time := 0, length := n, data := f } : Message).bytes := by
        intro n f g s t
        unfold Message.bytes
        apply List.map_congr_left
        intro i hi
        have := List.mem_range.mp hi
        dsimp only at this ⊢
        rw [if_pos this]
      refine ⟨true, a.bytes, a'.bytes, ?_, ?_, fun q1 q2 => ?_⟩
      · unfold respond
        rw [e, Res.ok_bind, txAnswer_eq (by show a.length ≤ 32; omega)]
        show Res.ok (true, _) = _
        congr 2
        exact hbytes _ _ _ _ _
      · unfold respond
        rw [e', Res.ok_bind, txAnswer_eq (by show a'.length ≤ 32; omega)]
        show Res.ok (true, _) = _
        congr 2
        exact hbytes _ _ _ _ _
      · refine hA.unique (ha ▸ hA') fun i hi => hd i ?_
        rw [hA.length] at hi
        split at hi
        · rename_i h30; have := q1 h30; omega
        · rename_i h30; have := q2 (hv.type.resolve_left h30); omega

/-- Collecting a packet in the receive buffer `m`: `Clear`, then `Append` of each byte (main.cpp). -/
def collect (m : Message) : List UInt8 → Res Message
  | [] => .ok m
  | b :: bs => do
    let m ← m.append b
    collect m bs

/-- The answer to the packet `bs` if the receive buffer held the packet `prev` before. -/
def answerAfter (prev bs : List UInt8) : Res (Bool × List UInt8) := do
  let c ← (Ctrl.init (fun _ => 0) 0).run startUp
  let m ← collect (Message.empty fun _ => 0) prev
  let m ← collect m.clear bs
  respond c m (Message.empty fun _ => 0)

/-- **C64 is false of the code**: the answer to the packet `00 F0 30 50` contains bytes of the packet received before. -/
theorem C64_refuted : answerAfter [] [0x00, 0xF0, 0x30, 0x50] = .ok (true,
      [0x40, 0xF0, 0x30, 0x50, 0x00, 0x00, 0x00, 0x00, 0x00, 0x00, 0x00, 0x00, 0x00, 0x00, 0x00, 0x00, 0x00, 0x83]) ∧
    answerAfter (List.replicate 20 0xAA) [0x00, 0xF0, 0x30, 0x50] = .ok (true,
      [0x40, 0xF0, 0x30, 0x50, 0xAA, 0xAA, 0xAA, 0xAA, 0xAA, 0xAA, 0xAA, 0xAA, 0xAA, 0xAA, 0xAA, 0xAA, 0xAA, 0xEF]) := by
  decide +kernel

/-! ## C65 -/

/-- **C65**, partial: in every history, an answer is pending only while operating, and only if the last call that was neither a
check nor a packet of at most 3 bytes was the receipt of the valid request it answers; taking it and a collision clear it. -/
theorem C65_partial {calls : List CtrlCall} {c : Ctrl} (h : Reaches calls c) :
    (c.hasTxData = true → c.state = .operating ∧ ∃ pre m post, calls = pre ++ .receive m :: post ∧ ValidRequest c.address m ∧ ∀ x ∈ post, x.Keeps) ∧
    (∀ out c' o, c.txAnswer out = .ok (c', o) → c'.hasTxData = false) ∧ (∀ t, (c.busCollision t).hasTxData = false) := by
  refine ⟨fun hr => ?_, ?_, fun t => rfl⟩
  · obtain ⟨pre, m, post, c0, e1, -, -, -, e2, -, e3⟩ := pending_history calls h hr
    exact ⟨h.ok.ready hr, pre, m, post, e1, e2, e3⟩
  · intro out c' o e
    have := h.ok.len
    rw [txAnswer_eq (by omega)] at e
    cases e; rfl

/-- **C65 is false of the code**: a pending answer survives the receipt of a packet of at most 3 bytes. -/
theorem C65_refuted {calls : List CtrlCall} {c : Ctrl} (_h : Reaches calls c) (hr : c.hasTxData = true) {m : Message} (hl : m.length ≤ 3) :
    ∃ c', c.receive m = .ok c' ∧ c'.hasTxData = true := by
  refine ⟨c, ?_, hr⟩
  unfold Ctrl.receive; rw [if_pos hl]

example : pendingAfter (startUp ++ [.receive (messageOf 0 request30), .check 2200000 2200000, .receive (messageOf 0 [0x00, 0x00, 0x10])]) =
    some true := by decide +kernel

/-! ## C66 -/

/-- **C66 is false of the code**: no answer that the controller produces is recognised as its own, and every answer of the two
types from any other address is. -/
theorem C66_refuted {calls : List CtrlCall} {c : Ctrl} (h : Reaches calls c) :
    (c.hasTxData = true → ∀ out, ∃ c' o, c.txAnswer out = .ok (c', o) ∧ c'.isTxAnswer o = false) ∧
    ∀ m : Message, m.data 0 = 0x40 → (m.data 1).toNat ≠ c.address → (m.data 2 = 0x30 ∨ m.data 2 = 0x31) → c.isTxAnswer m = true := by
  refine ⟨fun hr out => ?_, fun m h0 h1 h2 => ?_⟩
  · obtain ⟨m, c', o, -, -, e, ha⟩ := C63 h hr out
    refine ⟨c', o, e, ?_⟩
    have hc : c'.address = c.address := by
      have := h.ok.len
      rw [txAnswer_eq (by omega)] at e
      cases e; rfl
    unfold Ctrl.isTxAnswer
    rw [if_neg (not_not_intro ha.cmd), if_pos (ha.addr.trans hc.symm)]
  · unfold Ctrl.isTxAnswer
    rw [if_neg (not_not_intro h0), if_neg h1]
    rcases h2 with h | h <;> rw [h] <;> rfl

/-- What remains of C66: only answers of the two types are taken for own ones. -/
theorem C66_partial (c : Ctrl) (m : Message) (h : c.isTxAnswer m = true) : m.data 0 = 0x40 ∧ (m.data 2 = 0x30 ∨ m.data 2 = 0x31) := by
  unfold Ctrl.isTxAnswer at h
  split at h
  · cases h
  · rename_i h0
    split at h
    · cases h
    · refine ⟨Decidable.not_not.mp h0, ?_⟩
      simpa using h

/-! ## C67 -/

/-- **C67.** In every history the controller is in the phase given by the specification `Phase.step`, and an answer is pending only in
the operating phase. -/
theorem C67 (g : Nat → UInt8) (t0 : Nat) (calls : List CtrlCall) (hf : ∀ x ∈ calls, x.Fits) :
    ∃ c, (Ctrl.init g t0).run calls = .ok c ∧ c.state = (calls.foldl Phase.step ⟨.idle, t0⟩).st ∧
      (c.hasTxData = true → c.state = .operating) := by
  have key : ∀ (calls : List CtrlCall) (c : Ctrl) (p : Phase), (∀ x ∈ calls, x.Fits) → c.Ok → c.state = p.st → c.dl = p.since + duration p.st →
      ∃ c', c.run calls = .ok c' ∧ c'.state = (calls.foldl Phase.step p).st ∧ (c'.hasTxData = true → c'.state = .operating) := by
    intro calls
    induction calls with
    | nil => intro c p _ h hs _; exact ⟨c, rfl, hs, h.ready⟩
    | cons x xs ih =>
      intro c p hf h hs hd
      obtain ⟨c1, e1, h1⟩ := h.call (hf x (List.mem_cons_self ..))
      have hx := hf x (List.mem_cons_self ..)
      have : c1.state = (p.step x).st ∧ c1.dl = (p.step x).since + duration (p.step x).st := by
        cases x with
        | check t1 t2 =>
          have e1 : c.check t1 t2 = c1 := by cases e1; rfl
          subst e1
          unfold Ctrl.check Phase.step
          rw [← hd, ← hs]
          cases hst : c.state <;> dsimp only <;> split
          · exact ⟨rfl, rfl⟩
          · exact ⟨hs, hd⟩
          · exact ⟨rfl, rfl⟩
          · exact ⟨hs, hd⟩
          · exact ⟨rfl, rfl⟩
          · exact ⟨hs, hd⟩
        | receive m =>
          have e1 : c.receive m = .ok c1 := e1
          show c1.state = p.st ∧ c1.dl = p.since + duration p.st
          rcases receive_eq h hx with k | k | k | k | k | k
          · rw [k.2] at e1; cases e1; exact ⟨hs, hd⟩
          · rw [k.2.2] at e1; cases e1; exact ⟨hs, hd⟩
          · rw [k.2.2.2] at e1; cases e1; exact ⟨hs, hd⟩
          · obtain ⟨-, -, -, d, e', -⟩ := k
            rw [e'] at e1; cases e1; exact ⟨hs, hd⟩
          · rw [k.2.2.2] at e1; cases e1; exact ⟨hs, hd⟩
          · obtain ⟨-, -, a, e', -⟩ := k
            rw [e'] at e1; cases e1; exact ⟨hs, hd⟩
        | txAnswer out =>
          have e1 : (c.txAnswer out >>= fun r => Res.ok r.1) = .ok c1 := e1
          have hlen := h.len
          rw [txAnswer_eq (by omega), Res.ok_bind] at e1
          cases e1; exact ⟨hs, hd⟩
        | busCollision now => cases e1; exact ⟨rfl, rfl⟩
      obtain ⟨c', e', k⟩ := ih c1 (p.step x) (fun y hy => hf y (List.mem_cons_of_mem _ hy)) h1 this.1 this.2
      exact ⟨c', by rw [Ctrl.run, e1]; exact e', k⟩
  exact key calls (Ctrl.init g t0) ⟨.idle, t0⟩ hf (Ctrl.Ok.init g t0) rfl rfl

/-- The clock readings of a call lie between `lo` and `hi`, in the order in which they are made. -/
def CtrlCall.Between (lo hi : Nat) : CtrlCall → Prop
  | .check t1 t2 => lo ≤ t1 ∧ t1 ≤ t2 ∧ t1 < hi
  | .busCollision now => lo ≤ now
  | _ => True

/-- **C67**, consequence: for 2.1 s after a collision no answer is pending, whatever is received. -/
theorem C67_quiet {calls : List CtrlCall} {c : Ctrl} (h : Reaches calls c) (now : Nat) (later : List CtrlCall)
    (hf : ∀ x ∈ later, x.Fits) (hb : ∀ x ∈ later, x.Between now (now + 2100000)) :
    ∃ c', (c.busCollision now).run later = .ok c' ∧ c'.hasTxData = false := by
  have key : ∀ (later : List CtrlCall) (c : Ctrl), c.Ok → (∀ x ∈ later, x.Fits) → (∀ x ∈ later, x.Between now (now + 2100000)) →
      (c.state = .idle ∧ now + 100000 ≤ c.dl ∨ c.state = .busScan ∧ now + 2100000 ≤ c.dl) →
      ∃ c', c.run later = .ok c' ∧ c'.hasTxData = false := by
    intro later
    induction later with
    | nil =>
      intro c hok _ _ hs
      refine ⟨c, rfl, ?_⟩
      cases hr : c.hasTxData
      · rfl
      · have := hok.ready hr
        rcases hs with hs | hs <;> rw [hs.1] at this <;> cases this
    | cons x xs ih =>
      intro c hok hf hb hs
      have hx := hf x (List.mem_cons_self ..)
      have hbx := hb x (List.mem_cons_self ..)
      obtain ⟨c1, e1, h1⟩ := hok.call hx
      have : c1.state = .idle ∧ now + 100000 ≤ c1.dl ∨ c1.state = .busScan ∧ now + 2100000 ≤ c1.dl := by
        cases x with
        | check t1 t2 =>
          have e1 : c.check t1 t2 = c1 := by cases e1; rfl
          subst e1
          obtain ⟨b1, b2, b3⟩ := hbx
          unfold Ctrl.check
          rcases hs with hs | hs
          · rw [hs.1]
            dsimp only
            split
            · right; exact ⟨rfl, by show now + 2100000 ≤ t2 + 2000 * 1000; omega⟩
            · left; exact hs
          · rw [hs.1]
            dsimp only
            rw [if_neg (by omega)]
            right; exact hs
        | receive m =>
          have e1 : c.receive m = .ok c1 := e1
          rcases receive_eq hok hx with k | k | k | k | k | k
          · rw [k.2] at e1; cases e1; exact hs
          · rw [k.2.2] at e1; cases e1; exact hs
          · rw [k.2.2.2] at e1; cases e1; exact hs
          · obtain ⟨-, -, -, d, e', -⟩ := k
            rw [e'] at e1; cases e1; exact hs
          · rw [k.2.2.2] at e1; cases e1; exact hs
          · obtain ⟨-, -, a, e', -⟩ := k
            rw [e'] at e1; cases e1; exact hs
        | txAnswer out =>
          have e1 : (c.txAnswer out >>= fun r => Res.ok r.1) = .ok c1 := e1
          have hlen := hok.len
          rw [txAnswer_eq (by omega), Res.ok_bind] at e1
          cases e1; exact hs
        | busCollision t =>
          cases e1
          have : now ≤ t := hbx
          left; exact ⟨rfl, by show now + 100000 ≤ t + 100 * 1000; omega⟩
      obtain ⟨c', e', k⟩ := ih c1 h1 (fun y hy => hf y (List.mem_cons_of_mem _ hy)) (fun y hy => hb y (List.mem_cons_of_mem _ hy)) this
      exact ⟨c', by rw [Ctrl.run, e1]; exact e', k⟩
  obtain ⟨c1, e1, h1⟩ := h.ok.call (x := .busCollision now) trivial
  cases e1
  exact key later _ h1 hf hb (Or.inl ⟨rfl, Nat.le_refl _⟩)

/-- All three phases occur. -/
example : (startUp.foldl Phase.step ⟨.idle, 0⟩).st = .operating ∧
    ((startUp ++ [CtrlCall.check 602100001 602100001]).foldl Phase.step ⟨.idle, 0⟩).st = .operating ∧
    ((startUp ++ [CtrlCall.check 602100002 602100003]).foldl Phase.step ⟨.idle, 0⟩) = ⟨.idle, 602100003⟩ := by decide +kernel

/-! ## C68 -/

/-- **C68.** In every history the address is 0xF0 or 0xF1, and a call changes it iff the controller is scanning and the call passes a
checksum-correct answer of type 0x30 from this address. -/
theorem C68 {calls : List CtrlCall} {c : Ctrl} (h : Reaches calls c) {x : CtrlCall} (hx : x.Fits) :
    (c.address = 0xF0 ∨ c.address = 0xF1) ∧ ∃ c', c.call x = .ok c' ∧
      (c'.address ≠ c.address ↔ c.state = .busScan ∧ ∃ m, x = .receive m ∧ ForeignAnswer c.address m) := by
  have hok := h.ok
  refine ⟨hok.range, ?_⟩
  obtain ⟨c1, e1, -⟩ := hok.call hx
  refine ⟨c1, e1, ?_⟩
  cases x with
  | check t1 t2 =>
    have e1 : c.check t1 t2 = c1 := by cases e1; rfl
    subst e1
    refine ⟨fun hc => absurd ?_ hc, fun ⟨_, m, hm, _⟩ => by cases hm⟩
    unfold Ctrl.check
    cases c.state <;> dsimp only <;> split <;> rfl
  | receive m =>
    have e1 : c.receive m = .ok c1 := e1
    have rw1 : (c1.address = c.address ∧ ¬ (c.state = .busScan ∧ ForeignAnswer c.address m)) ∨
        (c1.address = 0x1E1 - c.address ∧ (c.state = .busScan ∧ ForeignAnswer c.address m)) := by
      rcases receive_eq hok hx with k | k | k | k | k | k
      · rw [k.2] at e1; cases e1; exact Or.inl ⟨rfl, fun hc => absurd hc.2.long (by omega)⟩
      · rw [k.2.2] at e1; cases e1; exact Or.inl ⟨rfl, fun hc => by rw [k.2.1] at hc; cases hc.1⟩
      · rw [k.2.2.2] at e1; cases e1; exact Or.inl ⟨rfl, fun hc => k.2.2.1 hc.2⟩
      · obtain ⟨-, ks, kf, d, e', -⟩ := k
        rw [e'] at e1; cases e1; exact Or.inr ⟨rfl, ks, kf⟩
      · rw [k.2.2.2] at e1; cases e1; exact Or.inl ⟨rfl, fun hc => by rw [k.2.1] at hc; cases hc.1⟩
      · obtain ⟨ks, -, a, e', -⟩ := k
        rw [e'] at e1; cases e1; exact Or.inl ⟨rfl, fun hc => by rw [ks] at hc; cases hc.1⟩
    rcases rw1 with ⟨k1, k2⟩ | ⟨k1, k2⟩
    · refine ⟨fun hc => absurd k1 hc, fun ⟨hs, m', hm, hf⟩ => ?_⟩
      cases hm
      exact absurd ⟨hs, hf⟩ k2
    · refine ⟨fun _ => ⟨k2.1, m, rfl, k2.2⟩, fun _ => ?_⟩
      rw [k1]
      rcases hok.range with h | h <;> rw [h] <;> decide
  | txAnswer out =>
    have e1 : (c.txAnswer out >>= fun r => Res.ok r.1) = .ok c1 := e1
    have hlen := hok.len
    rw [txAnswer_eq (by omega), Res.ok_bind] at e1
    cases e1
    exact ⟨fun hc => absurd rfl hc, fun ⟨_, m, hm, _⟩ => by cases hm⟩
  | busCollision now =>
    cases e1
    exact ⟨fun hc => absurd rfl hc, fun ⟨_, m, hm, _⟩ => by cases hm⟩

/-- The address after a history. -/
def addressAfter (calls : List CtrlCall) : Option Nat :=
  match (Ctrl.init (fun _ => 0) 0).run calls with
  | .ok c => some c.address
  | .ub => none

/-- The address does change, and back. -/
example : addressAfter [.check 100000 100001, .receive (messageOf 0 [0x40, 0xF0, 0x30, 0x6D])] = some 0xF1 ∧
    addressAfter [.check 100000 100001, .receive (messageOf 0 [0x40, 0xF0, 0x30, 0x6D]), .receive (messageOf 0 [0x40, 0xF1, 0x30, 0x99])] =
      some 0xF0 := by decide +kernel

/-! ## C69 -/

/-- **C69 is false of the code**: the status of a packet is ignored; every valid request is answered while operating, even if it was received
with an error. -/
theorem C69_refuted {calls : List CtrlCall} {c : Ctrl} (h : Reaches calls c) (hs : c.state = .operating) {m : Message} (hm : m.length ≤ 32)
    (hv : ValidRequest c.address m) (status : Nat) :
    ∃ c', c.receive { m with status := status } = .ok c' ∧ c'.hasTxData = true := by
  obtain ⟨c', e, k⟩ := C62 h (m := { m with status := status }) hm (Or.inr hv.long)
  exact ⟨c', e, k.mpr ⟨hs, hv.long, hv.cmd, hv.addr, hv.type, hv.crc⟩⟩

example : pendingAfter (startUp ++ [.receive (messageOf 3 request30)]) = some true := by decide +kernel

/-- **C69, the part that holds**: if one byte of a valid request was received wrongly, whatever the status and whichever byte, the packet is
not answered (the checksum tells). -/
theorem C69_changed_partial {calls : List CtrlCall} {c : Ctrl} (h : Reaches calls c) {m : Message} (hm : m.length ≤ 32)
    (hv : ValidRequest c.address m) (status : Nat) (i : Nat) (hi : i < m.length) (v : UInt8) (hvi : v ≠ m.data i) :
    ∃ c', c.receive { m with status := status, data := upd m.data i v } = .ok c' ∧ c'.hasTxData = false := by
  obtain ⟨c', e, k⟩ := C62 h (m := { m with status := status, data := upd m.data i v }) hm (Or.inr hv.long)
  refine ⟨c', e, ?_⟩
  cases hh : c'.hasTxData
  · rfl
  · obtain ⟨_, hk⟩ := k.mp hh
    exfalso
    have h1 : genCRC (upd m.data i v) (m.length - 1) = .ok (upd m.data i v (m.length - 1)) := hk.crc
    have h2 : genCRC m.data (m.length - 1) = .ok (m.data (m.length - 1)) := hv.crc
    by_cases hl : i = m.length - 1
    · subst hl
      rw [genCRC_eq _ (by omega), bitsFrom_upd, upd_same, ← genCRC_eq _ (by omega), h2, Res.ok.injEq] at h1
      exact hvi h1.symm
    · rw [show upd m.data i v (m.length - 1) = m.data (m.length - 1) from if_neg (by omega), ← h2] at h1
      exact C61_byte m.data (by omega) (by omega) v hvi h1

/-- The request with its third byte received as 31 and with the status of a wrong byte: no answer. -/
example : pendingAfter (startUp ++ [.receive (messageOf 3 request30)]) = some true ∧
    pendingAfter (startUp ++ [.receive { messageOf 3 request30 with data := upd (messageOf 3 request30).data 2 0x31 }]) = some false := by decide +kernel

end P1P2
