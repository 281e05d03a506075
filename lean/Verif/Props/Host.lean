import Verif.Proofs.Host
/-!
# C13-C21, C75: the host interface
-/
namespace P1P2
open Spec Host

/-! ## C13 -/

/-- The power-on state of the receive buffer. -/
def rx0 : LineRecv UInt8 := LineRecv.mk0 0

theorem rep_rx0 : LineRecv.Rep 128 rx0 [] := ⟨rfl, by simp, by simp⟩

/-- **C13, the part that holds**: as long as what arrives between two polls is text followed by at most
one run of terminators (i.e. the next line starts after the poll), every line of 1..127 characters is
handed over exactly once, unmodified, in order, and nothing else is handed over.  Missing for the full
C13: several lines, or a line start after a terminator, between two polls (`C13_refuted`). -/
theorem C13_lines_partial (chunks : List Chunk)
    (hb : ∀ c ∈ chunks, (∀ x ∈ c.body, ¬ Term x ∧ x ≠ 0) ∧ ∀ x ∈ c.terms, Term x)
    (hf : Fits [] chunks) :
    ∃ rx', Host.polls rx0 (chunks.map Chunk.bytes) = .ok (rx', linesOf [] chunks) := by
  have key : ∀ (chunks : List Chunk) (rx : LineRecv UInt8) (p : List UInt8), LineRecv.Rep 128 rx p →
      (∀ x ∈ p, ¬ Term x ∧ x ≠ 0) →
      (∀ c ∈ chunks, (∀ x ∈ c.body, ¬ Term x ∧ x ≠ 0) ∧ ∀ x ∈ c.terms, Term x) → Fits p chunks →
      ∃ rx', Host.polls rx (chunks.map Chunk.bytes) = .ok (rx', linesOf p chunks) := by
    intro chunks
    induction chunks with
    | nil => intro rx p _ _ _ _; exact ⟨rx, rfl⟩
    | cons c cs ih =>
      intro rx p hr hp hb hf
      obtain ⟨hf1, hf2⟩ := hf
      have hpb : ∀ x ∈ p ++ c.body, ¬ Term x ∧ x ≠ 0 := by
        intro x hx
        rcases List.mem_append.mp hx with h | h
        · exact hp x h
        · exact (hb c (by simp)).1 x h
      simp only [List.map_cons, Host.polls, linesOf]
      cases hterm : c.terms with
      | nil =>
        have hcb : c.bytes = c.body := by simp [Chunk.bytes, hterm]
        have htk : (p ++ c.bytes).take 128 = p ++ c.body := by
          rw [hcb, List.take_of_length_le (by omega)]
        obtain ⟨rx', h1, h2⟩ := Host.poll_none (chunk := c.bytes) hr (by
          rw [htk]; intro x hx; exact (hpb x hx).1)
        rw [htk] at h2
        simp only [hterm, if_true] at hf2
        obtain ⟨rx'', h3⟩ := ih rx' _ h2 hpb (fun c hc => hb c (by simp [hc])) hf2
        exact ⟨rx'', by rw [h1, Res.ok_bind, h3]; rfl⟩
      | cons t ts =>
        have hcb : p ++ c.bytes = (p ++ c.body) ++ t :: ts := by simp [Chunk.bytes, hterm]
        have ht : Term t := (hb c (by simp)).2 t (by simp [hterm])
        obtain ⟨rx', h1, h2⟩ := Host.poll_line hr hcb (by omega) ht hpb
        simp only [hterm, reduceCtorEq, if_false] at hf2 ⊢
        obtain ⟨rx'', h3⟩ := ih rx' _ h2 (by simp) (fun c hc => hb c (by simp [hc])) hf2
        refine ⟨rx'', ?_⟩
        rw [h1, Res.ok_bind, h3]
        by_cases he : p ++ c.body = []
        · simp [he]
        · simp [he]
  exact key chunks rx0 [] rep_rx0 (by simp) hb hf

/-- Non-vacuity: "40" | "f0\r\n" | "\n" | "11\r" gives the lines "40f0" and "11". -/
example : linesOf [] [⟨[52, 48], []⟩, ⟨[102, 48], [13, 10]⟩, ⟨[], [10]⟩, ⟨[49, 49], [13]⟩] =
    [[52, 48, 102, 48], [49, 49]] := by decide

/-- **C13 is violated**: of two lines that arrive between two polls only the first is ever handed over
- whatever the lines are and whatever arrives later, the result is the same as if the second had not been
sent. -/
theorem C13_refuted (a b : List UInt8) (ha : ∀ x ∈ a, ¬ Term x ∧ x ≠ 0) (hane : a ≠ []) (hal : a.length ≤ 127) :
    ∃ rx1 rx2, Host.poll rx0 (a ++ [10] ++ b ++ [10]) = .ok (rx1, [a]) ∧
      Host.poll rx0 (a ++ [10]) = .ok (rx2, [a]) ∧ LineRecv.Rep 128 rx1 [] ∧ LineRecv.Rep 128 rx2 [] := by
  obtain ⟨rx1, h1, h2⟩ := Host.poll_line (chunk := a ++ [10] ++ b ++ [10]) (a := a) (t := 10) (b := b ++ [10])
    rep_rx0 (by simp) hal (Or.inl rfl) ha
  obtain ⟨rx2, h3, h4⟩ := Host.poll_line (chunk := a ++ [10]) (a := a) (t := 10) (b := [])
    rep_rx0 (by simp) hal (Or.inl rfl) ha
  rw [if_neg hane] at h1 h3
  exact ⟨rx1, rx2, h1, h3, h2, h4⟩

/-- A late LF of a CR LF pair together with the next line: that line is dropped as well. -/
theorem C13_late_lf_refuted (b : List UInt8) :
    ∃ rx', Host.poll rx0 ([10] ++ b ++ [10]) = .ok (rx', []) ∧ LineRecv.Rep 128 rx' [] := by
  obtain ⟨rx1, h1, h2⟩ := Host.poll_line (chunk := [10] ++ b ++ [10]) (a := []) (t := 10) (b := b ++ [10])
    rep_rx0 (by simp) (by simp) (Or.inl rfl) (by simp)
  rw [if_pos rfl] at h1
  exact ⟨rx1, h1, h2⟩

/-! ## C14 -/

/-- **C14 is violated**: if the first 128 characters contain no terminator, no line is ever handed over
again, whatever is received and however it is split into polls. -/
theorem C14_refuted (first : List UInt8) (chunks : List (List UInt8)) (hl : 128 ≤ first.length)
    (ht : ∀ c ∈ first.take 128, ¬ Term c) :
    ∃ rx', Host.polls rx0 (first :: chunks) = .ok (rx', []) := by
  have key : ∀ (chunks : List (List UInt8)) (rx : LineRecv UInt8) (l : List UInt8), LineRecv.Rep 128 rx l →
      l.length = 128 → (∀ c ∈ l, ¬ Term c) → ∃ rx', Host.polls rx chunks = .ok (rx', []) := by
    intro chunks
    induction chunks with
    | nil => intro rx l _ _ _; exact ⟨rx, rfl⟩
    | cons c cs ih =>
      intro rx l hr hl ht
      have htk : (l ++ c).take 128 = l := by
        rw [List.take_append_of_le_length (by omega), List.take_of_length_le (by omega)]
      obtain ⟨rx1, h1, h2⟩ := Host.poll_none (chunk := c) hr (by rw [htk]; exact ht)
      rw [htk] at h2
      obtain ⟨rx2, h3⟩ := ih rx1 l h2 hl ht
      exact ⟨rx2, by simp only [Host.polls, h1, Res.ok_bind, h3]; rfl⟩
  obtain ⟨rx1, h1, h2⟩ := Host.poll_none (chunk := first) rep_rx0 (by simpa using ht)
  rw [List.nil_append] at h2
  obtain ⟨rx2, h3⟩ := key chunks rx1 _ h2 (by simp; omega) ht
  exact ⟨rx2, by simp only [Host.polls, h1, Res.ok_bind, h3]; rfl⟩

/-- e.g. 128 digits -/
example : 128 ≤ (List.replicate 128 (48 : UInt8)).length ∧
    ∀ c ∈ (List.replicate 128 (48 : UInt8)).take 128, ¬ Term c := by
  refine ⟨by simp, ?_⟩
  intro c hc
  simp [Term] at hc ⊢
  subst hc; decide

/-- **C14, the part that holds**: a line `a` and its terminator, then a line `b` and its terminator: the second line is handed over
if and only if the first one has less than 128 characters. -/
theorem C14_exact_partial (a b : List UInt8) (s t : UInt8) (ha : ∀ c ∈ a, ¬ Term c ∧ c ≠ 0) (hb : ∀ c ∈ b, ¬ Term c ∧ c ≠ 0)
    (hs : Term s) (ht : Term t) (hb0 : b ≠ []) (hbl : b.length ≤ 127) :
    (a.length < 128 → ∃ rx', Host.polls rx0 [a ++ [s], b ++ [t]] = .ok (rx', (if a = [] then [] else [a]) ++ [b]) ∧ LineRecv.Rep 128 rx' []) ∧
    (128 ≤ a.length → ∃ rx', Host.polls rx0 [a ++ [s], b ++ [t]] = .ok (rx', [])) := by
  refine ⟨fun hl => ?_, fun hl => ?_⟩
  · obtain ⟨rx1, h1, h2⟩ := Host.poll_line (chunk := a ++ [s]) (a := a) (t := s) (b := []) rep_rx0 (by simp) (by omega) hs ha
    obtain ⟨rx2, h3, h4⟩ := Host.poll_line (chunk := b ++ [t]) (a := b) (t := t) (b := []) h2 (by simp) hbl ht hb
    rw [if_neg hb0] at h3
    exact ⟨rx2, by simp only [Host.polls, h1, Res.ok_bind, h3, List.append_nil], h4⟩
  · refine C14_refuted (a ++ [s]) [b ++ [t]] (by simp; omega) ?_
    intro c hc
    rw [List.take_append_of_le_length hl] at hc
    exact (ha c (List.mem_of_mem_take hc)).1

set_option maxRecDepth 8000 in
example : ∃ rx', Host.polls rx0 [List.replicate 127 48 ++ [10], [52, 48, 10]] = .ok (rx', [List.replicate 127 48, [52, 48]]) := by
  obtain ⟨rx', h, _⟩ := (C14_exact_partial (List.replicate 127 48) [52, 48] 10 10
    (by intro c hc; rw [List.eq_of_mem_replicate hc]; unfold Term; decide) (by unfold Term; decide) (by unfold Term; decide) (by unfold Term; decide)
    (by simp) (by decide)).1 (by simp)
  exact ⟨rx', h⟩

/-! ## C15, C16 -/

/-- For every line: the handler reboots exactly when the line starts with `;!BLD!;`, and deciding this
reads nothing beyond the NUL (the outcome is defined). -/
theorem C15_bootloader (pf : Platform) (g : Nat → UInt8) (h : Host) (us : Nat) (line : List UInt8)
    (h0 : ∀ c ∈ line, c ≠ 0) :
    (ascii ";!BLD!;".toList <+: line → Host.onLine pf g h us line = .ok (h, true)) ∧
    (∀ h' r, Host.onLine pf g h us line = .ok (h', r) → (r = true ↔ ascii ";!BLD!;".toList <+: line)) ∧
    (∃ b, Host.startsWith line Host.bldCmd 0 = .ok b) := by
  have hcmd : Host.bldCmd = ascii ";!BLD!;".toList := by decide
  obtain ⟨b, h1, h2⟩ := Host.startsWith_iff line h0 Host.bldCmd (by decide) 0 (by omega)
  rw [List.drop_zero, hcmd] at h2
  refine ⟨?_, ?_, b, h1⟩
  · intro hp
    have hb := h2.mpr hp
    subst hb
    unfold Host.onLine
    rw [h1]; rfl
  · intro h' r hr
    unfold Host.onLine at hr
    rw [h1, Res.ok_bind] at hr
    cases b with
    | true =>
      simp at hr
      rw [← hr.2]; simpa using h2
    | false =>
      have hr' : r = false := by
        simp only [Bool.false_eq_true, if_false] at hr
        rw [Res.bind_eq_ok] at hr
        obtain ⟨c0, _, hr⟩ := hr
        split at hr
        · simp at hr; exact hr.2
        · rw [Res.bind_eq_ok] at hr
          obtain ⟨m, _, hr⟩ := hr
          split at hr
          · rw [Res.bind_eq_ok] at hr
            obtain ⟨x, _, hr⟩ := hr
            simp at hr; exact hr.2
          · simp at hr; exact hr.2
      subst hr'
      simpa using h2

/-- Lines that are empty or comments (and are not the boot command) change nothing. -/
theorem C16_comment_lines (pf : Platform) (g : Nat → UInt8) (h : Host) (us : Nat) (line : List UInt8)
    (h0 : ∀ c ∈ line, c ≠ 0)
    (hc : line = [] ∨ ∃ t, line = 35 :: t ∨ (line = 59 :: t ∧ ¬ ascii ";!BLD!;".toList <+: line)) :
    Host.onLine pf g h us line = .ok (h, false) := by
  have hcmd : Host.bldCmd = ascii ";!BLD!;".toList := by decide
  obtain ⟨b, h1, h2⟩ := Host.startsWith_iff line h0 Host.bldCmd (by decide) 0 (by omega)
  rw [List.drop_zero, hcmd] at h2
  have hb : b = false := by
    cases b with
    | false => rfl
    | true =>
      exfalso
      have hp := h2.mp rfl
      rcases hc with rfl | ⟨t, rfl | ⟨rfl, hn⟩⟩
      · revert hp; decide
      · rw [show ascii ";!BLD!;".toList = 59 :: ascii "!BLD!;".toList by decide, List.cons_prefix_cons] at hp
        exact absurd hp.1 (by decide)
      · exact hn hp
  subst hb
  unfold Host.onLine
  rw [h1, Res.ok_bind]
  simp only [Bool.false_eq_true, if_false]
  rcases hc with rfl | ⟨t, rfl | ⟨rfl, _⟩⟩
  · have : Host.charAt [] 0 = .ok 0 := by decide
    rw [this]; rfl
  · rw [Host.charAt_of_lt (by simp), Res.ok_bind]
    rw [if_pos (by right; left; simp; decide)]
  · rw [Host.charAt_of_lt (by simp), Res.ok_bind]
    rw [if_pos (by right; right; simp; decide)]

/-- `; text` is such a line. -/
example : ¬ ascii ";!BLD!;".toList <+: ascii "; hello".toList := by decide

/-! ## C17 -/

/-- Events on the queue of host packets. -/
inductive HostEv where
  | line (s : List UInt8) (us : Nat)
  | pop

/-- Run of such events: the popped messages (only taken when `HasData`). -/
def runHost (pf : Platform) (g : Nat → UInt8) : Host → List HostEv → Res (Host × List Message)
  | h, [] => .ok (h, [])
  | h, .line s us :: es => do
    let r ← Host.onLine pf g h us s
    runHost pf g r.1 es
  | h, .pop :: es =>
    if h.hasData then do
      let r ← Host.popMsg g h
      let r' ← runHost pf g r.1 es
      .ok (r'.1, r.2 :: r'.2)
    else runHost pf g h es

/-- The packet a line carries, if any. -/
def packetOf (pf : Platform) (g : Nat → UInt8) (s : List UInt8) : Option Message :=
  if s = [] ∨ s.head? = some 35 ∨ s.head? = some 59 then none
  else match Message.parse pf g s with
    | .ok m => if m.length > 0 then some m else none
    | .ub => none

/-- Packets waiting after the events, with unbounded memory, given those waiting before. -/
def waiting (pf : Platform) (g : Nat → UInt8) : List Message → List HostEv → List Message
  | w, [] => w
  | w, .line s _ :: es => waiting pf g (w ++ (packetOf pf g s).toList) es
  | w, .pop :: es => waiting pf g w.tail es

/-- Never more than 8 packets wait. -/
def AtMost8 (pf : Platform) (g : Nat → UInt8) : List Message → List HostEv → Prop
  | w, [] => w.length ≤ 8
  | w, .line s _ :: es => w.length ≤ 8 ∧ AtMost8 pf g (w ++ (packetOf pf g s).toList) es
  | w, .pop :: es => w.length ≤ 8 ∧ AtMost8 pf g w.tail es

theorem AtMost8.le {pf : Platform} {g : Nat → UInt8} {w : List Message} {es : List HostEv}
    (h : AtMost8 pf g w es) : w.length ≤ 8 := by
  cases es with
  | nil => exact h
  | cons e es => cases e <;> exact h.1

/-- All packets carried by the lines of a history, in order. -/
def packets (pf : Platform) (g : Nat → UInt8) : List HostEv → List Message
  | [] => []
  | .line s _ :: es => (packetOf pf g s).toList ++ packets pf g es
  | .pop :: es => packets pf g es

/-- Effect of one line on the queue, when it is processed without undefined behaviour. -/
theorem onLine_msgs (pf : Platform) (g : Nat → UInt8) (h h' : Host) (us : Nat) (s : List UInt8) (r : Bool)
    (h0 : ∀ c ∈ s, c ≠ 0) (e : Host.onLine pf g h us s = .ok (h', r)) :
    h'.error = h.error ∧ h'.tx = h.tx ∧
    match packetOf pf g s with
    | none => h'.msgs = h.msgs
    | some m => ∃ b, Fifo.push 8 h.msgs m = .ok (h'.msgs, b) := by
  obtain ⟨b, h1, h2⟩ := Host.startsWith_iff s h0 Host.bldCmd (by decide) 0 (by omega)
  rw [List.drop_zero] at h2
  unfold Host.onLine at e
  rw [h1, Res.ok_bind] at e
  cases s with
  | nil =>
    have hb : b = false := by
      cases b with
      | false => rfl
      | true => have := h2.mp rfl; revert this; decide
    subst hb
    have : Host.charAt [] 0 = .ok 0 := by decide
    simp [this] at e
    obtain ⟨rfl, rfl⟩ := e
    simp [packetOf]
  | cons c t =>
    by_cases hc : c = 35 ∨ c = 59
    · have hpk : packetOf pf g (c :: t) = none := by
        rw [packetOf, if_pos (by rcases hc with rfl | rfl <;> simp)]
      rw [hpk]
      cases b with
      | true => simp at e; obtain ⟨rfl, rfl⟩ := e; simp
      | false =>
        rw [Host.charAt_of_lt (by simp), Res.ok_bind] at e
        have hd : ((c :: t)[0]'(by simp) = 0 ∨ (c :: t)[0]'(by simp) = chr '#' ∨ (c :: t)[0]'(by simp) = chr ';') := by
          rcases hc with rfl | rfl
          · right; left; simp; decide
          · right; right; simp; decide
        simp only [Bool.false_eq_true, if_false] at e
        rw [if_pos hd] at e
        simp at e
        obtain ⟨rfl, rfl⟩ := e; simp
    · have hb : b = false := by
        cases b with
        | false => rfl
        | true =>
          exfalso
          have hp := h2.mp rfl
          rw [show Host.bldCmd = 59 :: Host.bldCmd.tail by decide, List.cons_prefix_cons] at hp
          exact hc (Or.inr hp.1.symm)
      subst hb
      have hd : ¬ ((c :: t)[0]'(by simp) = 0 ∨ (c :: t)[0]'(by simp) = chr '#' ∨ (c :: t)[0]'(by simp) = chr ';') := by
        rintro (hx | hx | hx)
        · exact h0 c (by simp) hx
        · exact hc (Or.inl (by simp at hx; rw [hx]; decide))
        · exact hc (Or.inr (by simp at hx; rw [hx]; decide))
      rw [Host.charAt_of_lt (by simp)] at e
      simp only [Bool.false_eq_true, if_false, Res.ok_bind] at e
      rw [if_neg hd] at e
      rw [Res.bind_eq_ok] at e
      obtain ⟨m, hm, e⟩ := e
      have hpk : packetOf pf g (c :: t) = if m.length > 0 then some m else none := by
        rw [packetOf, if_neg (by simpa using hc), hm]
      rw [hpk]
      by_cases hl : m.length > 0
      · simp only [hl, if_true] at e ⊢
        rw [Res.bind_eq_ok] at e
        obtain ⟨x, hx, e⟩ := e
        simp only [Res.ok.injEq, Prod.mk.injEq] at e
        obtain ⟨rfl, rfl⟩ := e
        refine ⟨by show (if m.time > 0 then _ else _ : Host).error = _; split <;> rfl,
          by show (if m.time > 0 then _ else _ : Host).tx = _; split <;> rfl, x.2, ?_⟩
        rw [show (if m.time > 0 then Host.setTime h m.time us else h).msgs = h.msgs by split <;> rfl] at hx
        exact hx
      · simp only [hl, if_false] at e ⊢
        simp only [Res.ok.injEq, Prod.mk.injEq] at e
        obtain ⟨rfl, rfl⟩ := e
        split <;> exact ⟨rfl, rfl, rfl⟩

/-- **C17, order**: in every history in which at most 8 packets wait, the packets handed out, followed by
those still waiting, are exactly the packets received, in order.  Missing for the full C17: a ninth
waiting packet (`C17_refuted`). -/
theorem C17_order_partial (pf : Platform) (g : Nat → UInt8) (es : List HostEv) (h' : Host) (out : List Message)
    (h0 : ∀ s us, HostEv.line s us ∈ es → ∀ c ∈ s, c ≠ 0)
    (h8 : AtMost8 pf g [] es) (hr : runHost pf g (Host.init g) es = .ok (h', out)) :
    out ++ waiting pf g [] es = packets pf g es ∧ Fifo.Rep 8 h'.msgs (waiting pf g [] es) := by
  have key : ∀ (es : List HostEv) (h : Host) (w : List Message) (h' : Host) (out : List Message),
      Fifo.Rep 8 h.msgs w → (∀ s us, HostEv.line s us ∈ es → ∀ c ∈ s, c ≠ 0) → AtMost8 pf g w es →
      runHost pf g h es = .ok (h', out) →
      out ++ waiting pf g w es = w ++ packets pf g es ∧ Fifo.Rep 8 h'.msgs (waiting pf g w es) := by
    intro es
    induction es with
    | nil =>
      intro h w h' out hw _ _ e
      simp only [runHost, Res.ok.injEq, Prod.mk.injEq] at e
      obtain ⟨rfl, rfl⟩ := e
      exact ⟨by simp [waiting, packets], hw⟩
    | cons ev es ih =>
      intro h w h' out hw h0 h8 e
      cases ev with
      | line s us =>
        simp only [runHost] at e
        rw [Res.bind_eq_ok] at e
        obtain ⟨x, hx, e⟩ := e
        have hm := (onLine_msgs pf g h x.1 us s x.2 (h0 s us (by simp)) hx).2.2
        have hw' : Fifo.Rep 8 x.1.msgs (w ++ (packetOf pf g s).toList) := by
          have h8' := h8.2.le
          cases hp : packetOf pf g s with
          | none => rw [hp] at hm; simp at hm ⊢; rw [hm]; exact hw
          | some m =>
            rw [hp] at hm h8'
            obtain ⟨b, hb⟩ := hm
            simp only [Option.toList_some, List.length_append, List.length_singleton] at h8'
            obtain ⟨f', e1, e2⟩ := hw.push_ok m (by omega)
            rw [e1] at hb
            simp only [Res.ok.injEq, Prod.mk.injEq] at hb
            rw [Option.toList_some, ← hb.1]; exact e2
        obtain ⟨g1, g2⟩ := ih x.1 _ h' out hw' (fun s us hs => h0 s us (by simp [hs])) h8.2 e
        exact ⟨by rw [waiting, g1, packets, List.append_assoc], g2⟩
      | pop =>
        simp only [runHost] at e
        cases w with
        | nil =>
          have hd : h.hasData = false := by simp [Host.hasData, Fifo.isEmpty, hw.len]
          rw [hd] at e
          simp only [Bool.false_eq_true, if_false] at e
          obtain ⟨g1, g2⟩ := ih h [] h' out hw (fun s us hs => h0 s us (by simp [hs])) h8.2 e
          exact ⟨by simpa [waiting, packets] using g1, g2⟩
        | cons m w =>
          have hd : h.hasData = true := by simp [Host.hasData, Fifo.isEmpty, hw.len]
          rw [hd] at e
          simp only [if_true] at e
          obtain ⟨f', e1, e2⟩ := hw.pop_cons
          have hne : h.msgs.isEmpty = false := by simpa [Host.hasData] using hd
          have hpop : Host.popMsg g h = .ok ({ h with msgs := f' }, m) := by
            simp only [Host.popMsg, hne, Host.msgCap, e1]; rfl
          rw [hpop, Res.ok_bind, Res.bind_eq_ok] at e
          obtain ⟨y, hy, e⟩ := e
          simp only [Res.ok.injEq, Prod.mk.injEq] at e
          obtain ⟨rfl, rfl⟩ := e
          obtain ⟨g1, g2⟩ := ih { h with msgs := f' } w y.1 y.2 e2 (fun s us hs => h0 s us (by simp [hs])) h8.2 hy
          exact ⟨by simp only [waiting, List.tail_cons, packets, List.cons_append, g1], g2⟩
  have := key es (Host.init g) [] h' out (Fifo.rep_mk0 (by omega) _) h0 h8 hr
  simpa using this

/-- **C17 is violated**: when 8 packets wait, a further packet changes nothing at all (no error flag, so
nothing is reported), except possibly the clock. -/
theorem C17_refuted (pf : Platform) (g : Nat → UInt8) (h h' : Host) (w : List Message) (us : Nat) (s : List UInt8)
    (r : Bool) (hw : Fifo.Rep 8 h.msgs w) (hfull : w.length = 8) (h0 : ∀ c ∈ s, c ≠ 0)
    (e : Host.onLine pf g h us s = .ok (h', r)) :
    h'.msgs = h.msgs ∧ h'.error = h.error ∧ h'.tx = h.tx := by
  obtain ⟨h1, h2, h3⟩ := onLine_msgs pf g h h' us s r h0 e
  refine ⟨?_, h1, h2⟩
  cases hp : packetOf pf g s with
  | none => rw [hp] at h3; exact h3
  | some m =>
    rw [hp] at h3
    obtain ⟨b, hb⟩ := h3
    rw [hw.push_full m hfull] at hb
    simp at hb
    exact hb.1.symm

/-- A line that carries a packet: "11" gives the one byte packet 0x11. -/
example : ∃ m, packetOf .arm (fun _ => 0) [49, 49] = some m ∧ m.length = 1 ∧ m.data 0 = 0x11 := by
  have hn : ∃ m, Message.parse .arm (fun _ => 0) [49, 49] = .ok m ∧ m.Is 0 0 [0x11] :=
    (C04_notation .arm (fun _ => 0) [0x11] [49, 49] [] []
      (Spelling.byte (hi := 1) (lo := 1) 0 (Or.inl ⟨by omega, by decide⟩) (Or.inl ⟨by omega, by decide⟩) .nil)
      (Or.inl rfl) .nil (by simp)).1
  obtain ⟨m, h1, _, _, h2, h3⟩ := hn
  have h2' : m.length = 1 := by simpa using h2
  refine ⟨m, ?_, h2', h3 0 (by simp)⟩
  rw [packetOf, if_neg (by decide), h1]
  simp [h2']

/-! ## C18, C20 -/

/-- **C18**: one `Send`: whatever is queued (`q`) and whatever the interrupt handler moves meanwhile
(`sched`), the byte stream "already at the UART, then queued" is extended by a piece of the line and
nothing else is disturbed; the whole line with CR LF is queued whenever there is room for it; the error
flag is set exactly when something is missing. -/
theorem C18_send (t : Host.Tx) (q line : List UInt8) (sched : Nat → Nat) (kfin : Nat)
    (h : Fifo.Rep 128 t.tx q) :
    ∃ t' q' p, Host.send t line sched kfin = .ok t' ∧ Fifo.Rep 128 t'.tx q' ∧
      t'.wire ++ q' = t.wire ++ q ++ p ∧ Piece line p ∧
      t'.error = (if p = line ++ [13, 10] then t.error else true) ∧
      (q.length + line.length + 2 ≤ 128 → p = line ++ [13, 10]) :=
  Host.send_ok t q line sched kfin h

/-- An empty queue has room for every message line. -/
theorem C18_room (t s : Nat) (bs : List UInt8) (hl : bs.length ≤ 32) (ht : t < 2 ^ 64) (hs : s < 2 ^ 32) :
    (Spec.line t s bs).length + 2 ≤ 128 := by
  have := (C02_printed_line ⟨s, t, fun i => bs.getD i 0, bs.length⟩ t s bs
    ⟨rfl, rfl, rfl, by intro i h; simp [h]⟩ hl ht hs (fun _ => 0)).2
  omega

/-- A message to be sent, and the moment. -/
structure SendEv where
  m : Message
  us : Nat
  buf : Nat → UInt8
  sched : Nat → Nat
  kfin : Nat

/-- Send events and drains by the interrupt handler. -/
inductive TxEv where
  | send (e : SendEv)
  | drain (k : Nat)

/-- Run of such events; `wire` are the bytes that reached the UART. -/
def runTx : Host → List UInt8 → List TxEv → Res (Host × List UInt8)
  | h, wire, [] => .ok (h, wire)
  | h, wire, .send e :: es => do
    let r ← Host.updateAndSend h wire e.m e.us e.buf e.sched e.kfin
    runTx r.1 r.2 es
  | h, wire, .drain k :: es => do
    let r ← Host.drain k h.tx wire
    runTx { h with tx := r.1 } r.2 es

/-- Milliseconds since boot as a 32-bit counter. -/
def msCount (us : Nat) : Nat := us / 1000 % 2 ^ 32

/-- The text printed for the event, with the clock offset `off`, when the previous line was (not) lost. -/
def textOf (off : Int) (lost : Bool) (e : SendEv) : List UInt8 :=
  Spec.line ((off + msCount e.us) % 2 ^ 64).toNat (if lost then e.m.status ||| 2 else e.m.status) e.m.bytes

/-- `Framed off lost evs pieces`: the pieces queued for the send events, in order; a line carries the
overflow bit exactly when the line before it was not queued completely. -/
def Framed (off : Int) : Bool → List TxEv → List (List UInt8) → Prop
  | _, [], ps => ps = []
  | lost, .drain _ :: es, ps => Framed off lost es ps
  | lost, .send e :: es, ps => ∃ p ps', ps = p :: ps' ∧ Piece (textOf off lost e) p ∧
      Framed off (decide (p ≠ textOf off lost e ++ [13, 10])) es ps'

theorem bytes_is (m : Message) (t s : Nat) (bs : List UInt8) (h : m.Is t s bs) : m.bytes = bs := by
  obtain ⟨_, _, h3, h4⟩ := h
  apply List.ext_getElem
  · simp [Message.bytes, h3]
  · intro i a b
    simp [Message.bytes, h4 i b]

theorem updateAndSend_ok (h : Host) (wire q : List UInt8) (e : SendEv) (hq : Fifo.Rep 128 h.tx q)
    (hm : e.m.length ≤ 32 ∧ e.m.status < 2 ^ 32) (ht : h.time + 2 ^ 32 ≤ 2 ^ 63) :
    ∃ h' wire' q' p, Host.updateAndSend h wire e.m e.us e.buf e.sched e.kfin = .ok (h', wire') ∧
      Fifo.Rep 128 h'.tx q' ∧ h'.time = h.time ∧
      wire' ++ q' = wire ++ q ++ p ∧ Piece (textOf h.time h.error e) p ∧
      h'.error = decide (p ≠ textOf h.time h.error e ++ [13, 10]) ∧
      (q.length + (textOf h.time h.error e).length + 2 ≤ 128 → p = textOf h.time h.error e ++ [13, 10]) := by
  have hms : Host.msNow e.us < 2 ^ 32 := Nat.mod_lt _ (by omega)
  have hg : Host.getTime h e.us = .ok ((h.time + msCount e.us) % 2 ^ 64).toNat := by
    unfold Host.getTime
    simp only []
    rw [if_pos (by omega)]
    rfl
  unfold Host.updateAndSend
  rw [hg, Res.ok_bind]
  simp only []
  generalize htt : ((h.time + msCount e.us) % 2 ^ 64).toNat = tt
  have htt' : tt < 2 ^ 64 := by omega
  have hor : e.m.status ||| 2 < 2 ^ 32 := Nat.or_lt_two_pow hm.2 (by omega)
  have hline : Message.lineOf (if h.error = true then
      { status := e.m.status ||| Message.errOverflow, time := tt, data := e.m.data, length := e.m.length }
      else { status := e.m.status, time := tt, data := e.m.data, length := e.m.length }) e.buf =
      .ok (textOf h.time h.error e) := by
    unfold textOf
    rw [htt]
    cases h.error
    · exact (C02_printed_line
        { status := e.m.status, time := tt, data := e.m.data, length := e.m.length } tt e.m.status e.m.bytes
        ⟨rfl, rfl, by simp [Message.bytes], by intro i hi; simp [Message.bytes]⟩ (by simpa [Message.bytes] using hm.1)
        htt' hm.2 e.buf).1
    · exact (C02_printed_line
        { status := e.m.status ||| 2, time := tt, data := e.m.data, length := e.m.length } tt (e.m.status ||| 2) e.m.bytes
        ⟨rfl, rfl, by simp [Message.bytes], by intro i hi; simp [Message.bytes]⟩ (by simpa [Message.bytes] using hm.1)
        htt' hor e.buf).1
  rw [hline, Res.ok_bind]
  have herr : (if h.error = true then false else h.error) = false := by cases h.error <;> rfl
  rw [herr]
  obtain ⟨t', q', p, e1, e2, e3, e4, e5, e6⟩ := Host.send_ok { tx := h.tx, wire := wire, error := false } q
    (textOf h.time h.error e) e.sched e.kfin hq
  rw [e1, Res.ok_bind]
  refine ⟨_, _, q', p, rfl, e2, rfl, e3, e4, ?_, e6⟩
  show t'.error = _
  rw [e5]
  by_cases hp : p = textOf h.time h.error e ++ [13, 10]
  · simp [hp]
  · simp [hp]

/-- **C18/C20 for every history** of sends (any messages, any interrupt timing) and drains: the bytes that
reach the host after everything is drained are exactly the queued pieces in order, each piece belongs to
its line, and a line carries the overflow bit if and only if the previous line was not queued completely;
otherwise its status is the one set by the caller. -/
theorem C20_lost_output (g : Nat → UInt8) (off : Int) (hoff : off + 2 ^ 32 ≤ 2 ^ 63) (es : List TxEv)
    (hm : ∀ e, TxEv.send e ∈ es → e.m.length ≤ 32 ∧ e.m.status < 2 ^ 32) :
    ∃ h' ps, runTx { Host.init g with time := off } [] (es ++ [.drain 128]) = .ok (h', ps.flatten) ∧
      Framed off false es ps := by
  have key : ∀ (es : List TxEv) (h : Host) (wire q : List UInt8), Fifo.Rep 128 h.tx q →
      h.time + 2 ^ 32 ≤ 2 ^ 63 →
      (∀ e, TxEv.send e ∈ es → e.m.length ≤ 32 ∧ e.m.status < 2 ^ 32) →
      ∃ h' ps, runTx h wire (es ++ [.drain 128]) = .ok (h', wire ++ q ++ ps.flatten) ∧
        Framed h.time h.error es ps := by
    intro es
    induction es with
    | nil =>
      intro h wire q hq ht _
      obtain ⟨tx', d1, d2⟩ := Host.drain_ok 128 h.tx wire q hq
      refine ⟨{ h with tx := tx' }, [], ?_, rfl⟩
      simp only [List.nil_append, runTx, d1, Res.ok_bind]
      rw [List.take_of_length_le hq.cap]; simp
    | cons ev es ih =>
      intro h wire q hq ht hm
      cases ev with
      | drain k =>
        obtain ⟨tx', d1, d2⟩ := Host.drain_ok k h.tx wire q hq
        obtain ⟨h', ps, e1, e2⟩ := ih { h with tx := tx' } (wire ++ q.take k) (q.drop k) d2 ht
          (fun e he => hm e (by simp [he]))
        refine ⟨h', ps, ?_, e2⟩
        simp only [List.cons_append, runTx, d1, Res.ok_bind]
        rw [e1, List.append_assoc wire, List.take_append_drop]
      | send e =>
        obtain ⟨h1, wire1, q1, p, e1, e2, e3, e4, e5, e6, _⟩ :=
          updateAndSend_ok h wire q e hq (hm e (by simp)) ht
        obtain ⟨h', ps, f1, f2⟩ := ih h1 wire1 q1 e2 (by rw [e3]; exact ht) (fun e he => hm e (by simp [he]))
        refine ⟨h', p :: ps, ?_, p, ps, rfl, e5, ?_⟩
        · simp only [List.cons_append, runTx, e1, Res.ok_bind]
          rw [f1, e4]; simp
        · rw [← e6, ← e3]; exact f2
  obtain ⟨h', ps, h1, h2⟩ := key es { Host.init g with time := off } [] [] (Fifo.rep_mk0 (by omega) _) hoff hm
  exact ⟨h', ps, by simpa using h1, h2⟩

/-- If the queue is empty and no loss is pending, the complete line with the unmodified status is queued. -/
theorem C20_no_loss (h : Host) (wire : List UInt8) (e : SendEv) (hq : Fifo.Rep 128 h.tx [])
    (hm : e.m.length ≤ 32 ∧ e.m.status < 2 ^ 32) (ht : h.time + 2 ^ 32 ≤ 2 ^ 63) (he : h.error = false) :
    ∃ h' wire' q', Host.updateAndSend h wire e.m e.us e.buf e.sched e.kfin = .ok (h', wire') ∧
      Fifo.Rep 128 h'.tx q' ∧ h'.error = false ∧
      wire' ++ q' = wire ++ Spec.line ((h.time + msCount e.us) % 2 ^ 64).toNat e.m.status e.m.bytes ++ [13, 10] := by
  obtain ⟨h1, wire1, q1, p, e1, e2, e3, e4, e5, e6, e7⟩ := updateAndSend_ok h wire [] e hq hm ht
  rw [he] at e5 e6 e7
  have hlen := C18_room ((h.time + msCount e.us) % 2 ^ 64).toNat e.m.status e.m.bytes
    (by simpa [Message.bytes] using hm.1) (by omega) hm.2
  have hp := e7 (by simpa [textOf] using hlen)
  refine ⟨h1, wire1, q1, e1, e2, by rw [e6]; simp [hp], ?_⟩
  rw [e4, hp]
  simp [textOf]

/-- Non-vacuity of the hypotheses: the constructed object, a two byte message with status 4. -/
example (g : Nat → UInt8) : Fifo.Rep 128 (Host.init g).tx [] ∧ (Host.init g).time + 2 ^ 32 ≤ 2 ^ 63 ∧
    ((⟨4, 0, fun _ => 7, 2⟩ : Message).length ≤ 32 ∧ (⟨4, 0, fun _ => 7, 2⟩ : Message).status < 2 ^ 32) :=
  ⟨Fifo.rep_mk0 (by omega) _, by simp [Host.init], by decide⟩

/-! ## C75 -/

/-- **C75 is violated**: a collision report (status 1) sent after a loss is printed with status 3
("parity error"), status 4 as 6 and status 5 as 7, which are not documented. -/
theorem C75_refuted (off : Int) (e : SendEv) (h1 : e.m.status = 1) :
    textOf off true e = Spec.line ((off + msCount e.us) % 2 ^ 64).toNat 3 e.m.bytes := by
  simp [textOf, h1]

/-- **C75, the part that holds**: without a preceding loss the status is the one set; with a loss, status
0, 2 and 3 become 2, 2 and 3.  Missing: statuses 1, 4, 5 after a loss. -/
theorem C75_status_partial (off : Int) (lost : Bool) (e : SendEv) (h : lost = false ∨ e.m.status = 0 ∨
    e.m.status = 2 ∨ e.m.status = 3) :
    ∃ s, textOf off lost e = Spec.line ((off + msCount e.us) % 2 ^ 64).toNat s e.m.bytes ∧
      (s = e.m.status ∨ s = 2) := by
  unfold textOf
  rcases h with h | h | h | h
  · exact ⟨e.m.status, by simp [h], Or.inl rfl⟩
  · cases lost
    · exact ⟨e.m.status, by simp, Or.inl rfl⟩
    · exact ⟨2, by simp [h], Or.inr rfl⟩
  · cases lost
    · exact ⟨e.m.status, by simp, Or.inl rfl⟩
    · exact ⟨2, by simp [h], Or.inr rfl⟩
  · cases lost
    · exact ⟨e.m.status, by simp, Or.inl rfl⟩
    · exact ⟨3, by simp [h], Or.inl h.symm⟩

/-! ## C19 -/

/-- **C19 is violated**: interrupt between `Pop` and `putchar_raw` in the unmasked `CheckTXFIFO`: for any
queue of at least two bytes the first two leave in the wrong order. -/
theorem C19_refuted (a b : UInt8) (q wire : List UInt8) :
    Host.TxRace.run ⟨a :: b :: q, wire, none, false⟩ [.pop, .irq 1, .put] =
      some ⟨q, wire ++ [b, a], none, false⟩ := by
  simp [Host.TxRace.run, Host.TxRace.next]

theorem tx_masked_order (s s' : Host.TxRace) (es : List Host.TxStep) (h0 : s.reg.isSome → s.mask = true)
    (hmask : ∀ pre e post, es = pre ++ e :: post → e = .pop →
      ∀ s1, Host.TxRace.run s pre = some s1 → s1.mask = true)
    (hr : Host.TxRace.run s es = some s') :
    s'.wire ++ s'.reg.toList ++ s'.queue = s.wire ++ s.reg.toList ++ s.queue := by
  induction es generalizing s with
  | nil => simp [Host.TxRace.run] at hr; rw [hr]
  | cons e es ih =>
    simp only [Host.TxRace.run] at hr
    split at hr
    · simp at hr
    · rename_i s1 hn
      have hrec : ∀ pre e' post, es = pre ++ e' :: post → e' = .pop →
          ∀ s2, Host.TxRace.run s1 pre = some s2 → s2.mask = true := by
        intro pre e' post he he' s2 hs2
        refine hmask (e :: pre) e' post (by rw [he]; rfl) he' s2 ?_
        simp only [Host.TxRace.run, hn, hs2]
      cases e with
      | pop =>
        have hm := hmask [] .pop es rfl rfl s rfl
        simp only [Host.TxRace.next] at hn
        split at hn
        · rename_i c q hreg hq
          simp only [Option.some.injEq] at hn
          subst hn
          rw [ih _ (by intro _; exact hm) hrec hr]
          simp [hreg, hq]
        · simp at hn
      | put =>
        simp only [Host.TxRace.next] at hn
        split at hn
        · rename_i c hreg
          simp only [Option.some.injEq] at hn
          subst hn
          rw [ih _ (by simp) hrec hr]
          simp [hreg]
        · simp at hn
      | irq k =>
        simp only [Host.TxRace.next] at hn
        split at hn
        · simp at hn
        · rename_i hm
          simp only [Option.some.injEq] at hn
          subst hn
          have hnone : s.reg = none := by
            cases hreg : s.reg with
            | none => rfl
            | some c => exact absurd (h0 (by simp [hreg])) hm
          rw [ih _ (by simp [hnone]) hrec hr]
          simp [hnone]
      | setMask b =>
        simp only [Host.TxRace.next] at hn
        split at hn
        · simp at hn
        · rename_i hreg
          simp only [Option.some.injEq] at hn
          subst hn
          rw [ih _ (by intro h; exact absurd h hreg) hrec hr]

/-- Whether interrupts are masked after the steps `es`, according to the last masking or unmasking in it. -/
def maskAfter (m : Bool) (es : List Host.TxStep) : Bool :=
  es.foldl (fun m e => match e with | .setMask b => b | _ => m) m

theorem tx_mask (es : List Host.TxStep) : ∀ {s s' : Host.TxRace}, Host.TxRace.run s es = some s' → s'.mask = maskAfter s.mask es := by
  induction es with
  | nil => intro s s' h; simp [Host.TxRace.run] at h; rw [h]; rfl
  | cons e es ih =>
    intro s s' h
    simp only [Host.TxRace.run] at h
    split at h
    · simp at h
    · rename_i s1 hn
      rw [ih h]
      have : s1.mask = maskAfter s.mask [e] := by
        cases e <;> simp only [Host.TxRace.next] at hn <;> split at hn <;>
          first
          | (simp only [Option.some.injEq] at hn; subst hn; rfl)
          | cases hn
      rw [this]; rfl

/-- **C19, the part that holds**: if the main program pops only after it has masked the interrupts and before it
unmasks them (as `Send` does), every schedule preserves the order.  Missing: the unmasked `CheckTXFIFO` in `Check()`. -/
theorem C19_masked_partial (s s' : Host.TxRace) (es : List Host.TxStep) (h0 : s.reg = none)
    (hmask : ∀ pre post, es = pre ++ .pop :: post → maskAfter s.mask pre = true)
    (hr : Host.TxRace.run s es = some s') :
    s'.wire ++ s'.reg.toList ++ s'.queue = s.wire ++ s.queue := by
  have := tx_masked_order s s' es (by rw [h0]; simp) (fun pre e post he hp s1 h1 => by
    subst hp
    rw [tx_mask pre h1]
    exact hmask pre post he) hr
  rw [this, h0]; simp

/-- Non-vacuity: a masked schedule with interrupts around it. -/
example : Host.TxRace.run ⟨[1, 2, 3, 4], [], none, false⟩
    [.irq 1, .setMask true, .pop, .put, .setMask false, .irq 2] = some ⟨[], [1, 2, 3, 4], none, false⟩ := by
  decide

/-! ## C21 -/

/-- **C21 up to the wrap**: set time `t` at `us0`, read at `us1`: as long as the 32-bit millisecond counter
does not wrap in between, the reported time is `t` plus the elapsed milliseconds.  Missing: the wrap
(`C21_refuted`). -/
theorem C21_clock_partial (h : Host) (t us0 us1 : Nat) (hle : us0 ≤ us1)
    (hwrap : us0 / 1000 / 2 ^ 32 = us1 / 1000 / 2 ^ 32) (ht : t + (us1 / 1000 - us0 / 1000) < 2 ^ 63) :
    Host.getTime (Host.setTime h t us0) us1 = .ok (t + (us1 / 1000 - us0 / 1000)) := by
  have h3 : us0 / 1000 ≤ us1 / 1000 := Nat.div_le_div_right hle
  unfold Host.getTime Host.setTime Host.msNow Host.toI64
  generalize us0 / 1000 = a at *
  generalize us1 / 1000 = b at *
  have e1 := Nat.div_add_mod a (2 ^ 32)
  have e2 := Nat.div_add_mod b (2 ^ 32)
  simp only []
  have hx : ((t : Int) - (a % 4294967296 : Nat) + 9223372036854775808) % 18446744073709551616
      - 9223372036854775808 = t - (a % 4294967296 : Nat) := by omega
  rw [hx, if_pos (by omega)]
  congr 1
  omega

/-- **C21 is violated**: across the wrap of the millisecond counter (after 49.7 days of uptime) the clock
jumps back by 2^32 ms, for every set time. -/
theorem C21_refuted (h : Host) (t us0 us1 : Nat) (hle : us0 ≤ us1)
    (hwrap : us0 / 1000 / 2 ^ 32 + 1 = us1 / 1000 / 2 ^ 32)
    (ht : 2 ^ 32 ≤ t) (ht2 : t < 2 ^ 62) :
    Host.getTime (Host.setTime h t us0) us1 = .ok (t + (us1 / 1000 - us0 / 1000) - 2 ^ 32) := by
  have h3 : us0 / 1000 ≤ us1 / 1000 := Nat.div_le_div_right hle
  unfold Host.getTime Host.setTime Host.msNow Host.toI64
  generalize us0 / 1000 = a at *
  generalize us1 / 1000 = b at *
  have e1 := Nat.div_add_mod a (2 ^ 32)
  have e2 := Nat.div_add_mod b (2 ^ 32)
  simp only []
  have hx : ((t : Int) - (a % 4294967296 : Nat) + 9223372036854775808) % 18446744073709551616
      - 9223372036854775808 = t - (a % 4294967296 : Nat) := by omega
  rw [hx, if_pos (by omega)]
  apply congrArg Res.ok
  simp only [Nat.reducePow] at *
  omega

/-- Concrete instances: one hour of elapsed time without wrap; one second around the wrap. -/
example : (5000000 / 1000 / 2 ^ 32 = 3605000000 / 1000 / 2 ^ 32) ∧
    (4294967295000 / 1000 / 2 ^ 32 + 1 = 4294968295000 / 1000 / 2 ^ 32) := by decide

end P1P2
