import Verif.Spec.EndToEnd
import Verif.Props.Alone
import Verif.Props.Started
/-!
# C132: what one host types, the other host reads
-/
namespace P1P2
open Spec

theorem decDigit_plain {v : Nat} {c : UInt8} (h : DecDigit v c) : c ≠ 35 ∧ c ≠ 59 := by
  obtain ⟨h1, h2⟩ := h
  constructor <;> (intro h; subst h; simp at h2; omega)

theorem hexDigit_plain {v : Nat} {c : UInt8} (h : HexDigit v c) : c ≠ 35 ∧ c ≠ 59 := by
  rcases h with ⟨h1, h2⟩ | ⟨h1, h2, h3⟩
  · constructor <;> (intro h; subst h; simp at h2; omega)
  · constructor <;> (intro h; subst h; simp at h3; omega)

/-- A line for a packet is not taken for a comment, and the packet is found in it. -/
theorem packetOf_writes (pf : Platform) (g : Nat → UInt8) {l bs : List UInt8} (h : Writes l bs) (h1 : 1 ≤ bs.length) (h2 : bs.length ≤ 32) :
    ∃ m, packetOf pf g l = some m ∧ m.bytes = bs := by
  have key : (∃ c r, l = c :: r ∧ c ≠ 35 ∧ c ≠ 59) ∧ ∃ m ti st, Message.parse pf g l = .ok m ∧ m.Is ti st bs := by
    have hsp : ∀ {bs t : List UInt8} (tl : List UInt8), Spelling bs t → 1 ≤ bs.length → ∃ c r, t ++ tl = c :: r ∧ c ≠ 35 ∧ c ≠ 59 := by
      intro bs t tl h h1
      cases h with
      | nil => simp at h1
      | space _ => exact ⟨_, _, rfl, by decide, by decide⟩
      | byte k hc _ _ => exact ⟨_, _, rfl, hexDigit_plain hc⟩
    cases h with
    | plain hs ht =>
      obtain ⟨⟨m, e1, e2⟩, -⟩ := C04_notation pf g bs _ [] _ hs (.inl rfl) ht (by simp; omega)
      exact ⟨hsp _ hs h1, m, 0, 0, e1, e2⟩
    | @prefixed p q _ _ _ hp hq hs ht =>
      obtain ⟨-, h⟩ := C04_notation pf g bs _ [] _ hs (.inl rfl) ht (by simp; omega)
      refine ⟨?_, h p q hp hq⟩
      obtain ⟨ds, hd, -⟩ := hp
      cases hd with
      | nil => exact ⟨58, _, rfl, by decide, by decide⟩
      | cons hc _ => exact ⟨_, _, rfl, decDigit_plain hc⟩
  obtain ⟨⟨c, r, rfl, hc1, hc2⟩, m, ti, st, hm, his⟩ := key
  have hb := bytes_is m ti st bs his
  refine ⟨m, ?_, hb⟩
  have hlen : m.length > 0 := by
    have h1 : 1 ≤ m.bytes.length := by rw [hb]; exact h1
    simp [Message.bytes] at h1
    omega
  simp [packetOf, hc1, hc2, hm, hlen]

theorem packets_written (pf : Platform) (g : Nat → UInt8) {ls bss : List (List UInt8)} (h : WritesAll ls bss) :
    (ls.filterMap (packetOf pf g)).map Message.bytes = bss := by
  induction h with
  | nil => rfl
  | cons hw h1 h2 _ ih =>
    obtain ⟨m, e1, e2⟩ := packetOf_writes pf g hw h1 (by omega)
    simp [e1, e2, ih]

/-- The lines that the main loop finds in what the host types. -/
theorem typed_lines (chunks : List Chunk) (es : List (Env1 × Env2)) (hc : es.map (fun e => e.1.chunk) = chunks.map Chunk.bytes)
    (hb : ∀ c ∈ chunks, (∀ x ∈ c.body, ¬ Term x ∧ x ≠ 0) ∧ ∀ x ∈ c.terms, Term x) (hf : Fits [] chunks) :
    hostLines es = linesOf [] chunks := by
  obtain ⟨rx, h⟩ := C13_lines_partial chunks hb hf
  unfold hostLines
  rw [hc]
  have h : Host.polls (LineRecv.mk0 0) (chunks.map Chunk.bytes) = .ok (rx, linesOf [] chunks) := h
  rw [h]

/-- What the host of the receiver reads if each line is queued when the lines before it have left. -/
theorem printed_lines (h : Host) (wire q : List UInt8) (hq : Fifo.Rep 128 h.tx q) (ht : h.time + 2 ^ 32 ≤ 2 ^ 63) (he : h.error = false)
    (sends : List SendEv) (hm : ∀ e ∈ sends, e.m.status = 0 ∧ e.m.length ≤ 32) :
    ∃ h' text, runTx h wire (printing sends ++ [.drain 128]) = .ok (h', wire ++ q ++ text) ∧ Reads text (sends.map fun e => e.m.bytes) := by
  induction sends generalizing h wire q with
  | nil =>
    obtain ⟨tx', d1, d2⟩ := Host.drain_ok 128 h.tx wire q hq
    refine ⟨{ h with tx := tx' }, [], ?_, [], rfl, rfl⟩
    simp only [printing, List.flatMap_nil, List.nil_append, runTx, d1, Res.ok_bind]
    rw [List.take_of_length_le hq.cap]; simp
  | cons e sends ih =>
    obtain ⟨tx', d1, d2⟩ := Host.drain_ok 128 h.tx wire q hq
    rw [List.drop_eq_nil_of_le hq.cap] at d2
    rw [List.take_of_length_le hq.cap] at d1
    obtain ⟨s0, l0⟩ := hm e (List.mem_cons_self ..)
    obtain ⟨h1, wire1, q1, p, e1, e2, e3, e4, e5, e6, e7⟩ := updateAndSend_ok { h with tx := tx' } (wire ++ q) [] e d2
      ⟨l0, by rw [s0]; decide⟩ ht
    have hfit := C18_room ((h.time + msCount e.us) % 2 ^ 64).toNat 0 e.m.bytes (by simpa [Message.bytes] using l0) (by omega) (by decide)
    have htext : textOf h.time h.error e = Spec.line ((h.time + msCount e.us) % 2 ^ 64).toNat 0 e.m.bytes := by
      unfold textOf; rw [he, s0]; rfl
    have e7 := e7 (by show 0 + (textOf h.time h.error e).length + 2 ≤ 128; rw [htext]; omega)
    have e7 : p = textOf h.time h.error e ++ [13, 10] := e7
    have e6 : h1.error = decide (p ≠ textOf h.time h.error e ++ [13, 10]) := e6
    obtain ⟨h', text, f1, ts, f2, f3⟩ := ih h1 wire1 q1 e2 (by rw [e3]; exact ht) (by rw [e6, e7]; simp)
      (fun e he => hm e (List.mem_cons_of_mem _ he))
    refine ⟨h', p ++ text, ?_, ((h.time + msCount e.us) % 2 ^ 64).toNat :: ts, by simp [f2], ?_⟩
    · have hp : printing (e :: sends) ++ [.drain 128] = .drain 128 :: .send e :: (printing sends ++ [.drain 128]) := rfl
      rw [hp]
      simp only [runTx, d1, Res.ok_bind, e1, f1]
      rw [e4]; simp
    · rw [e7, htext, f3]; simp

theorem writesAll_len : ∀ {ls bss : List (List UInt8)}, WritesAll ls bss → ∀ b ∈ bss, b.length ≤ 31 := by
  intro ls bss h
  induction h with
  | nil => intro b hb; cases hb
  | cons _ _ k _ ih =>
    intro b hb
    rcases List.mem_cons.mp hb with rfl | hb
    · exact k
    · exact ih b hb

/-- What was started, where it comes from, and how long it is. -/
theorem typed_started (pf : Platform) (g : Nat → UInt8) (rs : List Round) (c : Core0)
    (hl : LoopRun pf g (rs.map Round.env) c (rs.map Round.out)) (hw : c.host.hasData = false) (h8 : FewWait pf g (rs.map Round.env))
    (chunks : List Chunk) (hch : (rs.map Round.env).map (fun e => e.1.chunk) = chunks.map Chunk.bytes)
    (hcb : ∀ c ∈ chunks, (∀ x ∈ c.body, ¬ Term x ∧ x ≠ 0) ∧ ∀ x ∈ c.terms, Term x) (hcf : Fits [] chunks)
    (bss : List (List UInt8)) (hbs : WritesAll (linesOf [] chunks) bss) :
    ∃ ps : Origins, ps.host.map Message.bytes = bss ∧ (∀ p ∈ ps, ∀ r, p.2 = some r → Answers r p.1) ∧
      ps.map Prod.fst = (rs.filterMap fun r => r.out.started) ∧ ps.requests.Sublist (busLines (rs.map Round.out)) ∧ (∀ p ∈ ps, p.1.length ≤ 31) ∧
      ∀ r ∈ rs, ∀ m, r.out.started = some m → m.length ≤ 31 := by
  obtain ⟨ps, w, o1, o2, o3, o4, -, o6⟩ := C89_what_is_sent pf g _ c _ hl
  have hw0 : c.host.msgs.length = 0 := by simpa [Host.hasData, Fifo.isEmpty] using hw
  have : w = [] := List.length_eq_zero_iff.mp (by omega)
  subst this
  have hhost : ps.host.map Message.bytes = bss := by
    rcases o6 with o6 | ⟨pre, post, cp, op, k1, k2, k3⟩
    · rw [List.append_nil, typed_lines chunks _ hch hcb hcf] at o6
      rw [o6]
      exact packets_written pf g hbs
    · have := h8 pre post cp op k1 k2
      omega
  have hst : ps.map Prod.fst = rs.filterMap fun r => r.out.started := by
    rw [o1, List.filterMap_map]; rfl
  have hsz : ∀ p ∈ ps, p.1.length ≤ 31 := by
    intro p hp
    cases hp2 : p.2 with
    | none =>
      have hmem : p.1 ∈ ps.host := List.mem_filterMap.mpr ⟨p, hp, by rw [hp2]⟩
      have := writesAll_len hbs p.1.bytes (by rw [← hhost]; exact List.mem_map_of_mem hmem)
      simpa [Message.bytes] using this
    | some r =>
      obtain ⟨_, _, _, an⟩ := o2 p hp r hp2
      rw [an.length]
      split <;> omega
  have hm : ∀ r ∈ rs, ∀ m, r.out.started = some m → m.length ≤ 31 := by
    intro r hr' m hm
    have : m ∈ ps.map Prod.fst := by rw [hst]; exact List.mem_filterMap.mpr ⟨r, hr', hm⟩
    obtain ⟨p, hp, rfl⟩ := List.mem_map.mp this
    exact hsz p hp
  exact ⟨ps, hhost, o2, hst, o3, hsz, hm⟩

/-- What the host reads of the lines about messages. -/
theorem lines_read (g : Nat → UInt8) (ps : Origins) (hsz : ∀ p ∈ ps, p.1.length ≤ 31) {R : List Report}
    (lines : (rxMsgs R).map lineShown = (ps.map Prod.fst).map fun m => (0, m.bytes))
    (off : Int) (hoff : off + 2 ^ 32 ≤ 2 ^ 63) (sends : List SendEv) (hsd : sends.map (fun e => Report.rx e.m) = R) :
    ∃ (h' : Host) (text : List UInt8), runTx { Host.init g with time := off } [] (printing sends ++ [.drain 128]) = .ok (h', text) ∧
      Reads text (ps.map fun p => p.1.bytes) := by
  have hrx : rxMsgs R = sends.map (·.m) := by
    rw [← hsd]
    unfold rxMsgs
    rw [List.filterMap_map]
    clear hsd
    induction sends with
    | nil => rfl
    | cons e l ih => simp [ih]
  rw [hrx, List.map_map, List.map_map] at lines
  have hms : ∀ e ∈ sends, e.m.status = 0 ∧ e.m.length ≤ 32 := by
    intro e he
    have : (lineShown ∘ (·.m)) e ∈ ps.map ((fun m : Message => (0, m.bytes)) ∘ Prod.fst) := by rw [← lines]; exact List.mem_map_of_mem he
    obtain ⟨p, hp, hpe⟩ := List.mem_map.mp this
    simp only [Function.comp, lineShown, Prod.mk.injEq] at hpe
    have hlen := congrArg List.length hpe.2
    simp [Message.bytes] at hlen
    have := hsz p hp
    exact ⟨hpe.1.symm, by omega⟩
  obtain ⟨h', text, p1, p2⟩ := printed_lines { Host.init g with time := off } [] [] (Fifo.rep_mk0 (by omega) _) hoff rfl sends hms
  refine ⟨h', text, by simpa using p1, ?_⟩
  have : (sends.map fun e => e.m.bytes) = ps.map fun p => p.1.bytes := by
    have := congrArg (List.map Prod.snd) lines
    rw [List.map_map, List.map_map] at this
    exact this
  rw [← this]
  exact p2

/-- Nothing but what was typed is started, if no packet is a request. -/
theorem typed_only (pf : Platform) (hpf : pf.charSigned = false) (g : Nat → UInt8) (x : Bench) (ev : List DevEv) (rs : List Round) (c : Core0)
    (hl : LoopRun pf g (rs.map Round.env) c (rs.map Round.out)) (ha : AloneOnBus x ev rs) (hid : c.sm.isIdle = true) {bss : List (List UInt8)} {ps : Origins}
    (k3 : ps.host.map Message.bytes = bss) (k4 : ∀ p ∈ ps, ∀ r, p.2 = some r → Answers r p.1) (k5 : ps.map Prod.fst = (rs.filterMap fun r => r.out.started))
    (k6 : ps.requests.Sublist (busLines (rs.map Round.out))) (hm : ∀ r ∈ rs, ∀ m, r.out.started = some m → m.length ≤ 31)
    (hno : ∀ bs ∈ bss, ¬ IsRequest bs) (hfe : ∀ r ∈ rs, r.env.1.fifoErr = false) (hd4 : ∀ m ∈ busLines (rs.map Round.out), m.status ≠ 4) :
    (ps.map fun p => p.1.bytes) = bss := by
  have own := C121_own_lines pf hpf g x ev rs c hl ha hid hm hfe hd4
  have none_ : ∀ p ∈ ps, p.2 = none := by
    intro p hp
    cases hp2 : p.2 with
    | none => rfl
    | some r =>
      exfalso
      obtain ⟨addr, had, hv, -⟩ := k4 p hp r hp2
      have hr1 : r ∈ busLines (rs.map Round.out) := k6.subset (List.mem_filterMap.mpr ⟨p, hp, hp2⟩)
      have hr2 : lineShown r ∈ (rs.filterMap fun r => r.out.started).map fun m => (0, m.bytes) := by rw [← own]; exact List.mem_map_of_mem hr1
      rw [← k5, List.map_map] at hr2
      obtain ⟨p', hp', he⟩ := List.mem_map.mp hr2
      simp only [Function.comp, lineShown, Prod.mk.injEq] at he
      have hb : p'.1.bytes = r.bytes := he.2
      cases hp2' : p'.2 with
      | none =>
        have hmem : p'.1 ∈ ps.host := List.mem_filterMap.mpr ⟨p', hp', by rw [hp2']⟩
        refine hno p'.1.bytes (by rw [← k3]; exact List.mem_map_of_mem hmem) ⟨r, addr, hb.symm, had, hv⟩
      | some r' =>
        obtain ⟨_, _, _, an⟩ := k4 p' hp' r' hp2'
        have hlong := hv.long
        have hcmd := hv.cmd
        have e0 := congrArg (fun l : List UInt8 => l[0]?) hb
        have hl' : 0 < p'.1.length := by rw [an.length]; split <;> omega
        have hl2 : 0 < r.length := by omega
        simp [Message.bytes, hl', hl2] at e0
        rw [an.cmd, hcmd] at e0
        exact absurd e0 (by decide)
  rw [← k3]
  unfold Origins.host
  clear own k3 k4 k5 k6
  induction ps with
  | nil => rfl
  | cons p ps ih => simp [none_ p (List.mem_cons_self ..), ih (fun q hq => none_ q (List.mem_cons_of_mem _ hq))]

/-- **C132.** `rs` is any history of modem A, alone on the bus with listeners, at the end of which nothing waits and the transmitter
is idle; its host types the lines `linesOf [] chunks`, the next one after the previous has been read, fewer than eight packets ever
wait, and each line denotes a packet of 1 to 31 bytes (`bss`).  Modem B hears the bus, hands over all words, and prints its lines
as fast as they come.  Then what the host of B reads is, one line per packet with status 0 and in order, exactly the packets typed
at A, and between them at most answers of the controller of A to valid requests. -/
theorem C132_typed_is_read (pf : Platform) (hpf : pf.charSigned = false) (g : Nat → UInt8) (x : Bench) (ev : List DevEv) (rs : List Round) (c : Core0)
    (hl : LoopRun pf g (rs.map Round.env) c (rs.map Round.out)) (ha : AloneOnBus x ev rs) (hid : c.sm.isIdle = true) (hw : c.host.hasData = false)
    (h8 : FewWait pf g (rs.map Round.env))
    (chunks : List Chunk) (hch : (rs.map Round.env).map (fun e => e.1.chunk) = chunks.map Chunk.bytes)
    (hcb : ∀ c ∈ chunks, (∀ x ∈ c.body, ¬ Term x ∧ x ≠ 0) ∧ ∀ x ∈ c.terms, Term x) (hcf : Fits [] chunks)
    (bss : List (List UInt8)) (hbs : WritesAll (linesOf [] chunks) bss)
    (d : TxDev) (pins : List (Nat × Bool)) (errs : List Bool) (hrun : TxDev.init.run (devEvents ev rs) = some (d, pins, errs))
    {S : Nat} (hS : 8 ≤ S) (rxErr : Bool) {a v : Int} (h1 : 49 ≤ a) (h2 : a ≤ 88) {P : Nat} (hP : 0 < P) (hU : P ≤ 4 * x.U) {M : Nat} (hM : M + 70 ≤ 2 * 2 ^ S)
    {c' : Nat → Nat} (hc : SenderClock P c') (τ0 τ1 : Nat) (hsh : ∀ k, c' k + τ0 = x.c k + τ1) (h0 : τ0 ≤ 30000 * x.U) (hMM : x.M * x.P + 348 * x.P + τ1 ≤ M * P)
    {L : Nat → Level} (hL : Plays c' (lineOf (pins.map Pio.view)) L) {q : Nat → UInt8} (hq : Codes a v (fun k => L (k * P)) q)
    (es : List (AdcEv × Bool)) (hk : keepsUp 254 0 0 (es.map Prod.fst))
    (hN : callsEnd P c' 0 (sendsFrom 0 (devEvents ev rs)) + 378 * P ≤ deliveries 0 0 (es.map Prod.fst) * P)
    (hN' : deliveries 0 0 (es.map Prod.fst) * P + 2 * P ≤ callsEnd P c' 0 (sendsFrom 0 (devEvents ev rs)) + M * P)
    (s : RxSystem) (outs : List C1Out)
    (hr : RxSystem.run S (RxSystem.init (fun _ => 0) rxErr) (scheduleEvents (fun k => Pio.sampleValue k (q k)) 0 0 es) = .ok (s, outs)) (hs : s.core.word = .zero)
    (pf' : Platform) (g' : Nat → UInt8) (w0 : Word) (t0 t1 : Nat) (t : TwoCores) (xs : List TwoStep) (os : List TwoOut)
    (hx : pushes xs = sent outs) (h : (TwoCores.init g' w0 t0 t1 false).run pf' g' xs = .ok (some (t, os))) (hd : drops os = 0) (htop : t.pc = .top)
    (hf : t.fifo = []) (h4 : ∀ m ∈ rxMsgs (reportsOf os), m.status ≠ 4)
    (off : Int) (hoff : off + 2 ^ 32 ≤ 2 ^ 63) (sends : List SendEv) (hsd : sends.map (fun e => Report.rx e.m) = reportsOf os) :
    ∃ (ps : Origins) (h' : Host) (text : List UInt8), runTx { Host.init g' with time := off } [] (printing sends ++ [.drain 128]) = .ok (h', text) ∧
      Reads text (ps.map fun p => p.1.bytes) ∧ ps.host.map Message.bytes = bss ∧ (∀ p ∈ ps, ∀ r, p.2 = some r → Answers r p.1) ∧
      ps.map Prod.fst = (rs.filterMap fun r => r.out.started) ∧ ps.requests.Sublist (busLines (rs.map Round.out)) := by
  obtain ⟨ps, hhost, o2, hst, o3, hsz, hm⟩ := typed_started pf g rs c hl hw h8 chunks hch hcb hcf bss hbs
  have lines := C121_other_lines pf hpf g x ev rs c hl ha hid hm d pins errs hrun hS rxErr h1 h2 hP hU hM hc τ0 τ1 hsh h0 hMM hL hq es hk hN hN' s outs hr hs
    pf' g' w0 t0 t1 t xs os hx h hd htop hf h4
  rw [← hst] at lines
  obtain ⟨h', text, p1, p2⟩ := lines_read g' ps hsz lines off hoff sends hsd
  exact ⟨ps, h', text, p1, p2, hhost, o2, hst, o3⟩

/-- **C132, exactly.** If moreover none of the packets is a request that the controller of A answers, and A had no trouble with its own reception, the
host of B reads exactly the packets typed at A. -/
theorem C132_exactly (pf : Platform) (hpf : pf.charSigned = false) (g : Nat → UInt8) (x : Bench) (ev : List DevEv) (rs : List Round) (c : Core0)
    (hl : LoopRun pf g (rs.map Round.env) c (rs.map Round.out)) (ha : AloneOnBus x ev rs) (hid : c.sm.isIdle = true) (hw : c.host.hasData = false)
    (h8 : FewWait pf g (rs.map Round.env))
    (chunks : List Chunk) (hch : (rs.map Round.env).map (fun e => e.1.chunk) = chunks.map Chunk.bytes)
    (hcb : ∀ c ∈ chunks, (∀ x ∈ c.body, ¬ Term x ∧ x ≠ 0) ∧ ∀ x ∈ c.terms, Term x) (hcf : Fits [] chunks)
    (bss : List (List UInt8)) (hbs : WritesAll (linesOf [] chunks) bss)
    (d : TxDev) (pins : List (Nat × Bool)) (errs : List Bool) (hrun : TxDev.init.run (devEvents ev rs) = some (d, pins, errs))
    {S : Nat} (hS : 8 ≤ S) (rxErr : Bool) {a v : Int} (h1 : 49 ≤ a) (h2 : a ≤ 88) {P : Nat} (hP : 0 < P) (hU : P ≤ 4 * x.U) {M : Nat} (hM : M + 70 ≤ 2 * 2 ^ S)
    {c' : Nat → Nat} (hc : SenderClock P c') (τ0 τ1 : Nat) (hsh : ∀ k, c' k + τ0 = x.c k + τ1) (h0 : τ0 ≤ 30000 * x.U) (hMM : x.M * x.P + 348 * x.P + τ1 ≤ M * P)
    {L : Nat → Level} (hL : Plays c' (lineOf (pins.map Pio.view)) L) {q : Nat → UInt8} (hq : Codes a v (fun k => L (k * P)) q)
    (es : List (AdcEv × Bool)) (hk : keepsUp 254 0 0 (es.map Prod.fst))
    (hN : callsEnd P c' 0 (sendsFrom 0 (devEvents ev rs)) + 378 * P ≤ deliveries 0 0 (es.map Prod.fst) * P)
    (hN' : deliveries 0 0 (es.map Prod.fst) * P + 2 * P ≤ callsEnd P c' 0 (sendsFrom 0 (devEvents ev rs)) + M * P)
    (s : RxSystem) (outs : List C1Out)
    (hr : RxSystem.run S (RxSystem.init (fun _ => 0) rxErr) (scheduleEvents (fun k => Pio.sampleValue k (q k)) 0 0 es) = .ok (s, outs)) (hs : s.core.word = .zero)
    (pf' : Platform) (g' : Nat → UInt8) (w0 : Word) (t0 t1 : Nat) (t : TwoCores) (xs : List TwoStep) (os : List TwoOut)
    (hx : pushes xs = sent outs) (h : (TwoCores.init g' w0 t0 t1 false).run pf' g' xs = .ok (some (t, os))) (hd : drops os = 0) (htop : t.pc = .top)
    (hf : t.fifo = []) (h4 : ∀ m ∈ rxMsgs (reportsOf os), m.status ≠ 4)
    (off : Int) (hoff : off + 2 ^ 32 ≤ 2 ^ 63) (sends : List SendEv) (hsd : sends.map (fun e => Report.rx e.m) = reportsOf os)
    (hno : ∀ bs ∈ bss, ¬ IsRequest bs) (hfe : ∀ r ∈ rs, r.env.1.fifoErr = false) (hd4 : ∀ m ∈ busLines (rs.map Round.out), m.status ≠ 4) :
    ∃ (h' : Host) (text : List UInt8), runTx { Host.init g' with time := off } [] (printing sends ++ [.drain 128]) = .ok (h', text) ∧ Reads text bss := by
  obtain ⟨ps, hhost, o2, hst, o3, hsz, hm⟩ := typed_started pf g rs c hl hw h8 chunks hch hcb hcf bss hbs
  have lines := C121_other_lines pf hpf g x ev rs c hl ha hid hm d pins errs hrun hS rxErr h1 h2 hP hU hM hc τ0 τ1 hsh h0 hMM hL hq es hk hN hN' s outs hr hs
    pf' g' w0 t0 t1 t xs os hx h hd htop hf h4
  rw [← hst] at lines
  obtain ⟨h', text, p1, p2⟩ := lines_read g' ps hsz lines off hoff sends hsd
  rw [typed_only pf hpf g x ev rs c hl ha hid hhost o2 hst o3 hm hno hfe hd4] at p2
  exact ⟨h', text, p1, p2⟩

end P1P2
