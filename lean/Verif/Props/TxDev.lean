import Verif.Spec.TxDev
import Verif.Props.Modem
/-!
# C117: the transmit driver, the DMA and the transmit program together
-/
namespace P1P2
open Pio

/-- What the DMA still has to move. -/
def TxDev.dmaBytes (d : TxDev) : List UInt8 := (List.range d.dmaCount).map fun k => d.buf (d.dmaPos + k)

/-- The device and the reference sender. -/
structure DevSim (d : TxDev) (r : LineRef) (f : List UInt8) : Prop where
  sim : Sim d.pio { rest := r.rest, fifo := f }
  queue : r.queue = f ++ d.dmaBytes

theorem DevSim.init : DevSim TxDev.init LineRef.init [] := ⟨Sim.init, rfl⟩

theorem DevSim.len {d : TxDev} {r : LineRef} {f : List UInt8} (h : DevSim d r f) : d.pio.tx.length = f.length := by
  rw [h.sim.tx, List.length_map]

theorem DevSim.call {d : TxDev} {r : LineRef} {f : List UInt8} (h : DevSim d r f) (m : Message) :
    if d.dmaCount = 0 ∧ m.length ≤ 32 then DevSim (d.send m) { r with queue := r.queue ++ m.bytes } f ∧ (d.send m).dmaCount = m.length ∧ (d.send m).error = d.error
    else DevSim (d.send m) r f ∧ (d.send m).dmaCount = d.dmaCount ∧ (d.send m).error = true := by
  unfold TxDev.send TxDev.dmaBusy
  by_cases hb : d.dmaCount = 0
  · by_cases hl : m.length ≤ 32
    · rw [if_pos ⟨hb, hl⟩, if_neg (by simp [hb]), if_neg (by omega)]
      refine ⟨⟨h.sim, ?_⟩, rfl, rfl⟩
      have e0 : d.dmaBytes = [] := by unfold TxDev.dmaBytes; rw [hb]; rfl
      show r.queue ++ m.bytes = f ++ (List.range m.length).map fun k => if 0 + k < m.length then m.data (0 + k) else d.buf (0 + k)
      rw [h.queue, e0, List.append_nil]
      congr 1
      unfold Message.bytes
      apply List.map_congr_left
      intro k hk
      rw [List.mem_range] at hk
      simp [hk]
    · rw [if_neg (fun h => hl h.2), if_neg (by simp [hb]), if_pos (by omega)]
      exact ⟨⟨h.sim, h.queue⟩, rfl, rfl⟩
  · rw [if_neg (fun h => hb h.1), if_pos (by simp [hb])]
    exact ⟨⟨h.sim, h.queue⟩, rfl, rfl⟩

theorem DevSim.clear {d : TxDev} {r : LineRef} {f : List UInt8} (h : DevSim d r f) : DevSim d.clearFifo { r with queue := [] } [] :=
  ⟨⟨rfl, h.sim.core⟩, rfl⟩

theorem DevSim.dma {d d' : TxDev} {r : LineRef} {f : List UInt8} (h : DevSim d r f) (hd : d.dmaStep = some d') :
    DevSim d' r (f ++ [d.buf d.dmaPos]) ∧ d'.dmaCount = d.dmaCount - 1 ∧ d'.error = d.error := by
  unfold TxDev.dmaStep at hd
  split at hd
  · rename_i hc
    simp only [Option.some.injEq] at hd
    subst hd
    refine ⟨⟨⟨?_, h.sim.core⟩, ?_⟩, rfl, rfl⟩
    · show d.pio.tx ++ [narrow (d.buf d.dmaPos)] = (f ++ [d.buf d.dmaPos]).map narrow
      rw [h.sim.tx, List.map_append]; rfl
    · rw [h.queue, List.append_assoc]
      congr 1
      unfold TxDev.dmaBytes
      dsimp only
      obtain ⟨n, hn⟩ : ∃ n, d.dmaCount = n + 1 := ⟨d.dmaCount - 1, by omega⟩
      rw [hn, Nat.add_sub_cancel, List.range_succ_eq_map, List.map_cons, List.map_map]
      show _ = d.buf (d.dmaPos + 0) :: _
      congr 1
      apply List.map_congr_left
      intro k _
      show d.buf (d.dmaPos + (k + 1)) = d.buf (d.dmaPos + 1 + k)
      congr 1
      omega
  · cases hd

theorem DevSim.pulling {d : TxDev} {r : LineRef} {f : List UInt8} (h : DevSim d r f) (hr : r.rest = []) : d.pulling := by
  obtain ⟨y, o, k, l, hc, -⟩ := h.sim.core
  rw [show (TxRef.mk r.rest f).rest = r.rest from rfl, hr] at hc
  simp only [List.length_nil, Core.steps, Option.some.injEq, Prod.mk.injEq] at hc
  unfold TxDev.pulling
  rw [hc.1]
  exact ⟨rfl, rfl⟩

theorem DevSim.cycle {d d' : TxDev} {r : LineRef} {f : List UInt8} (h : DevSim d r f) (hd : d.cycle = some d') :
    (∃ f', DevSim d' r.cycle.2 f') ∧ Pio.view (d'.pio.core.pins, d'.pio.core.irq) = r.cycle.1 ∧ d'.dmaCount = d.dmaCount ∧ d'.error = d.error := by
  unfold TxDev.cycle at hd
  split at hd
  · rename_i hc
    simp only [Option.some.injEq] at hd
    subst hd
    obtain ⟨h1, h2⟩ := h.sim.cycle none
    have h1 : Pio.view ((Pio.cycle uartTx d.pio { put := none, get := false }).core.pins, (Pio.cycle uartTx d.pio { put := none, get := false }).core.irq) = _ := h1
    have h2 : Sim (Pio.cycle uartTx d.pio { put := none, get := false }) _ := h2
    refine ⟨?_, ?_, rfl, rfl⟩
    · cases hr : r.rest with
      | cons o rest =>
        refine ⟨f, ?_, ?_⟩
        · rw [TxRef.cycle] at h2
          simp only [hr] at h2
          rw [LineRef.cycle, hr]
          exact h2
        · rw [LineRef.cycle, hr]; exact h.queue
      | nil =>
        have hcu := hc (h.pulling hr)
        cases f with
        | nil =>
          have h0 : d.dmaCount = 0 := by
            rcases hcu with h' | h'
            · exact h'
            · rw [h.len] at h'; exact absurd h' (by decide)
          have hq : r.queue = [] := by rw [h.queue]; unfold TxDev.dmaBytes; rw [h0]; rfl
          refine ⟨[], ?_, ?_⟩
          · simp only [TxRef.cycle, hr, TxRef.arrive] at h2
            simp only [LineRef.cycle, hr, hq]
            exact h2
          · simp only [LineRef.cycle, hr, hq]
            exact hq.symm.trans h.queue
        | cons b q =>
          have hq : r.queue = b :: (q ++ d.dmaBytes) := h.queue
          refine ⟨q, ?_, ?_⟩
          · simp only [TxRef.cycle, hr, TxRef.arrive] at h2
            simp only [LineRef.cycle, hr, hq]
            exact h2
          · simp only [LineRef.cycle, hr, hq]
            rfl
    · rw [h1]
      cases hr : r.rest with
      | cons o rest => simp only [TxRef.cycle, LineRef.cycle, hr]
      | nil => simp only [TxRef.cycle, LineRef.cycle, hr]
  · cases hd

theorem dev_run : ∀ (es : List DevEv) {d d' : TxDev} {r : LineRef} {f : List UInt8} {outs : List (Nat × Bool)} {rs : List Bool}, DevSim d r f →
    d.run es = some (d', outs, rs) → outs.map Pio.view = r.shows d.dmaCount es ∧ rs = errorAnswers d.dmaCount d.error es := by
  intro es
  induction es with
  | nil =>
    intro d d' r f outs rs _ hr
    simp only [TxDev.run, Option.some.injEq, Prod.mk.injEq] at hr
    obtain ⟨rfl, rfl, rfl⟩ := hr
    exact ⟨rfl, rfl⟩
  | cons e es ih =>
    intro d d' r f outs rs h hr
    rw [TxDev.run, Option.bind_eq_some_iff] at hr
    obtain ⟨⟨d1, o1, r1⟩, e1, hr⟩ := hr
    rw [Option.map_eq_some_iff] at hr
    obtain ⟨⟨d2, o2, r2⟩, e2, hr⟩ := hr
    simp only [Prod.mk.injEq] at hr
    obtain ⟨rfl, rfl, rfl⟩ := hr
    cases e with
    | call c =>
      simp only [TxDev.step, Option.some.injEq, Prod.mk.injEq] at e1
      obtain ⟨rfl, rfl, rfl⟩ := e1
      cases c with
      | shutdown b => exact ih (d := { d with pin := b }) (r := r) (f := f) ⟨h.sim, h.queue⟩ e2
      | clearFifo => exact ih (d := d.clearFifo) h.clear e2
      | send m =>
        have hc := h.call m
        rw [LineRef.shows, errorAnswers]
        by_cases ha : d.dmaCount = 0 ∧ m.length ≤ 32
        · rw [if_pos ha] at hc ⊢
          rw [if_pos ha]
          obtain ⟨c1, c2, c3⟩ := hc
          have := ih c1 e2
          rw [c2, c3] at this
          exact this
        · rw [if_neg ha] at hc ⊢
          rw [if_neg ha]
          obtain ⟨c1, c2, c3⟩ := hc
          have := ih c1 e2
          rw [c2, c3] at this
          exact this
    | error =>
      simp only [TxDev.step, Option.some.injEq, Prod.mk.injEq] at e1
      obtain ⟨rfl, rfl, rfl⟩ := e1
      obtain ⟨i1, i2⟩ := ih (d := { d with error := false }) (r := r) (f := f) ⟨h.sim, h.queue⟩ e2
      exact ⟨i1, congrArg (d.error :: ·) i2⟩
    | dma =>
      simp only [TxDev.step, Option.map_eq_some_iff, Prod.mk.injEq] at e1
      obtain ⟨d0, e1, rfl, rfl, rfl⟩ := e1
      obtain ⟨c1, c2, c3⟩ := h.dma e1
      have := ih c1 e2
      rw [c2, c3] at this
      exact this
    | cycle =>
      simp only [TxDev.step, Option.map_eq_some_iff, Prod.mk.injEq] at e1
      obtain ⟨d0, e1, rfl, rfl, rfl⟩ := e1
      obtain ⟨⟨f', c1⟩, c2, c3, c4⟩ := h.cycle e1
      obtain ⟨i1, i2⟩ := ih c1 e2
      rw [c3] at i1 i2
      rw [c4] at i2
      refine ⟨?_, i2⟩
      rw [LineRef.shows, ← i1]
      rw [← c2]
      rfl

/-- **C117.** Driver, DMA and transmit program together, for every client and every interleaving in which the DMA keeps up: the pins and the PIO flag are, cycle by cycle, those of the reference sender with
an unbounded queue, into which each accepted message is put at the moment of the call; a message is accepted iff it has at most 32 bytes and the DMA has moved all of the one before;
the next call of `Error()` after a refusal, and only that, returns true. -/
theorem C117_line (es : List DevEv) (d : TxDev) (outs : List (Nat × Bool)) (rs : List Bool) (hr : TxDev.init.run es = some (d, outs, rs)) :
    outs.map Pio.view = LineRef.init.shows 0 es ∧ rs = errorAnswers 0 false es :=
  dev_run es DevSim.init hr

theorem dev_after : ∀ (es : List DevEv) {d d' : TxDev} {r : LineRef} {f : List UInt8} {outs : List (Nat × Bool)} {rs : List Bool}, DevSim d r f →
    d.run es = some (d', outs, rs) → (∃ f', DevSim d' (r.after d.dmaCount es) f') ∧ d'.pio.core.irq = (outs.getLast?.map Prod.snd).getD d.pio.core.irq := by
  intro es
  induction es with
  | nil =>
    intro d d' r f outs rs h hr
    simp only [TxDev.run, Option.some.injEq, Prod.mk.injEq] at hr
    obtain ⟨rfl, rfl, rfl⟩ := hr
    exact ⟨⟨f, h⟩, rfl⟩
  | cons e es ih =>
    intro d d' r f outs rs h hr
    rw [TxDev.run, Option.bind_eq_some_iff] at hr
    obtain ⟨⟨d1, o1, r1⟩, e1, hr⟩ := hr
    rw [Option.map_eq_some_iff] at hr
    obtain ⟨⟨d2, o2, r2⟩, e2, hr⟩ := hr
    simp only [Prod.mk.injEq] at hr
    obtain ⟨rfl, rfl, rfl⟩ := hr
    cases e with
    | call c =>
      simp only [TxDev.step, Option.some.injEq, Prod.mk.injEq] at e1
      obtain ⟨rfl, rfl, rfl⟩ := e1
      cases c with
      | shutdown b => exact ih (d := { d with pin := b }) (r := r) (f := f) ⟨h.sim, h.queue⟩ e2
      | clearFifo => exact ih (d := d.clearFifo) h.clear e2
      | send m =>
        have hc := h.call m
        have hi : (d.send m).pio.core.irq = d.pio.core.irq := by
          unfold TxDev.send
          split
          · rfl
          · split <;> rfl
        rw [LineRef.after]
        by_cases ha : d.dmaCount = 0 ∧ m.length ≤ 32
        · rw [if_pos ha] at hc ⊢
          have := ih hc.1 e2
          rw [hc.2.1] at this
          exact ⟨this.1, hi ▸ this.2⟩
        · rw [if_neg ha] at hc ⊢
          have := ih hc.1 e2
          rw [hc.2.1] at this
          exact ⟨this.1, hi ▸ this.2⟩
    | error =>
      simp only [TxDev.step, Option.some.injEq, Prod.mk.injEq] at e1
      obtain ⟨rfl, rfl, rfl⟩ := e1
      exact ih (d := { d with error := false }) (r := r) (f := f) ⟨h.sim, h.queue⟩ e2
    | dma =>
      simp only [TxDev.step, Option.map_eq_some_iff, Prod.mk.injEq] at e1
      obtain ⟨d0, e1, rfl, rfl, rfl⟩ := e1
      obtain ⟨c1, c2, c3⟩ := h.dma e1
      have hi : d0.pio.core.irq = d.pio.core.irq := by
        unfold TxDev.dmaStep at e1
        split at e1
        · simp only [Option.some.injEq] at e1; rw [← e1]
        · cases e1
      have := ih c1 e2
      rw [c2, hi] at this
      exact this
    | cycle =>
      simp only [TxDev.step, Option.map_eq_some_iff, Prod.mk.injEq] at e1
      obtain ⟨d0, e1, rfl, rfl, rfl⟩ := e1
      obtain ⟨⟨f', c1⟩, c2, c3, c4⟩ := h.cycle e1
      have := ih c1 e2
      rw [c3] at this
      refine ⟨this.1, this.2.trans ?_⟩
      rw [List.singleton_append, List.getLast?_cons]
      cases o2.getLast? <;> rfl

/-- **C117, `Transmitting()`.** At any point it returns true iff the PIO flag was set in the last cycle, or there are bytes whose frames have not begun. -/
theorem C117_transmitting (es : List DevEv) (d : TxDev) (outs : List (Nat × Bool)) (rs : List Bool) (hr : TxDev.init.run es = some (d, outs, rs)) :
    d.transmitting = true ↔ (outs.getLast?.map Prod.snd = some true ∨ (LineRef.init.after 0 es).queue ≠ []) := by
  obtain ⟨⟨f, h⟩, h2⟩ := dev_after es DevSim.init hr
  have h : DevSim d (LineRef.init.after 0 es) f := h
  have hq : (LineRef.init.after 0 es).queue ≠ [] ↔ (d.pio.tx ≠ [] ∨ d.dmaCount ≠ 0) := by
    rw [h.queue, h.sim.tx]
    unfold TxDev.dmaBytes
    show f ++ _ ≠ [] ↔ (f.map Pio.narrow ≠ [] ∨ _)
    cases f with
    | nil => cases d.dmaCount <;> simp
    | cons b f => simp
  rw [hq]
  have hi : d.pio.core.irq = true ↔ outs.getLast?.map Prod.snd = some true := by
    rw [h2]
    cases outs.getLast? with
    | none => exact ⟨(fun h => by cases h), (fun h => by cases h)⟩
    | some x => simp
  rw [← hi]
  unfold TxDev.transmitting TxDev.dmaBusy
  cases d.pio.core.irq <;> cases d.pio.tx <;> simp

/-! ## When the frames start -/

/-- Cycles until everything is sent. -/
def LineRef.left (r : LineRef) : Nat := r.rest.length + 175 * r.queue.length

theorem LineRef.cycle_left (r : LineRef) : r.cycle.2.left = r.left - 1 := by
  unfold LineRef.cycle LineRef.left
  cases hr : r.rest with
  | cons o rest => dsimp only; rw [List.length_cons]; omega
  | nil =>
    cases hq : r.queue with
    | nil => simp [hr, hq]
    | cons b q =>
      dsimp only
      rw [burst_length, List.length_nil, List.length_cons]
      omega

theorem shows_times : ∀ (es : List DevEv) (n left : Nat) (r : LineRef) (q : List (Nat × UInt8)) (e : Nat), ClearsLate e n left es → (r.left = 0 ∨ n + r.left ≤ e) → r.queue = q.map Prod.snd → (∀ x ∈ q, x.1 ≤ n) →
    ∀ i, i < cyclesOf es → (r.shows left es)[i]? = some (if i < r.rest.length then r.rest.getD i (.mid, false) else
      wireAt (startsFrom (n + r.rest.length + 1) (q ++ acceptedFrom n left es)) (n + i)) := by
  intro es
  induction es with
  | nil => intro n left r q e _ _ _ _ i hi; cases hi
  | cons e es ih =>
    intro n left r q E hn hle hq hw i hi
    cases e with
    | call c =>
      cases c with
      | shutdown b => exact ih n left r q E hn hle hq hw i hi
      | clearFifo =>
        obtain ⟨hn, hn'⟩ := hn
        have hl : r.queue = [] := by
          have : r.left = r.rest.length + 175 * r.queue.length := rfl
          rw [← List.length_eq_zero_iff]
          omega
        have : ({ r with queue := [] } : LineRef) = r := by rw [← hl]
        rw [LineRef.shows, this]
        exact ih n 0 r q E hn' hle hq hw i hi
      | send m =>
        rw [LineRef.shows, acceptedFrom]
        rw [ClearsLate] at hn
        by_cases ha : left = 0 ∧ m.length ≤ 32
        · rw [if_pos ha, if_pos ha, ← List.append_assoc]
          rw [if_pos ha] at hn
          refine ih n m.length { r with queue := r.queue ++ m.bytes } (q ++ m.bytes.map fun b => (n, b)) _ hn ?_ ?_ ?_ i hi
          · refine .inr ?_
            have h1 : r.left = r.rest.length + 175 * r.queue.length := rfl
            show n + (r.rest.length + 175 * (r.queue ++ m.bytes).length) ≤ _
            rw [List.length_append, Message.bytes_length]
            rcases Nat.le_total E n with h | h
            · rw [Nat.max_eq_right h]; omega
            · rw [Nat.max_eq_left h]; omega
          · show r.queue ++ m.bytes = _
            rw [List.map_append, List.map_map, hq]
            congr 1
            exact (List.map_id _).symm
          · intro x hx
            rcases List.mem_append.mp hx with hx | hx
            · exact hw x hx
            · obtain ⟨b, -, rfl⟩ := List.mem_map.mp hx
              exact Nat.le_refl _
        · rw [if_neg ha, if_neg ha]
          rw [if_neg ha] at hn
          exact ih n left r q E hn hle hq hw i hi
    | error => exact ih n left r q E hn hle hq hw i hi
    | dma => exact ih n (left - 1) r q E hn hle hq hw i hi
    | cycle =>
      rw [LineRef.shows, acceptedFrom]
      have hi : i < cyclesOf es + 1 := hi
      have hn : ClearsLate E (n + 1) left es := hn
      have hle' : r.cycle.2.left = 0 ∨ n + 1 + r.cycle.2.left ≤ E := by
        have := r.cycle_left
        omega
      have hge : ∀ x ∈ acceptedFrom (n + 1) left es, n + 1 ≤ x.1 := by
        clear ih hn hle hle' hi
        have : ∀ (es : List DevEv) (n left : Nat), ∀ x ∈ acceptedFrom n left es, n ≤ x.1 := by
          intro es
          induction es with
          | nil => intro n left x hx; cases hx
          | cons e es ih =>
            intro n left x hx
            cases e with
            | call c =>
              cases c with
              | shutdown b => exact ih _ _ x hx
              | clearFifo => exact ih _ _ x hx
              | send m =>
                rw [acceptedFrom] at hx
                split at hx
                · rcases List.mem_append.mp hx with hx | hx
                  · obtain ⟨b, -, rfl⟩ := List.mem_map.mp hx
                    exact Nat.le_refl _
                  · exact ih _ _ x hx
                · exact ih _ _ x hx
            | error => exact ih _ _ x hx
            | dma => exact ih _ _ x hx
            | cycle => have := ih (n + 1) left x hx; omega
        exact this es (n + 1) left
      cases hr : r.rest with
      | cons o rest =>
        have hc : r.cycle = (o, { r with rest := rest }) := by simp only [LineRef.cycle, hr]
        rw [hc] at hle' ⊢
        cases i with
        | zero =>
          simp only [List.getElem?_cons_zero, List.length_cons, Nat.zero_lt_succ, if_true]
          rfl
        | succ i =>
          have := ih (n + 1) left { r with rest := rest } q E hn hle' hq (fun x hx => Nat.le_succ_of_le (hw x hx)) i (by omega)
          rw [List.getElem?_cons_succ, this]
          dsimp only
          rw [List.length_cons, show n + (rest.length + 1) + 1 = n + 1 + rest.length + 1 by omega, show n + (i + 1) = n + 1 + i by omega]
          by_cases hi' : i < rest.length
          · rw [if_pos hi', if_pos (by omega)]; rfl
          · rw [if_neg hi', if_neg (by omega)]
      | nil =>
        dsimp only [List.length_nil]
        rw [if_neg (by omega)]
        have hge' : ∀ x ∈ startsFrom (n + 0 + 1) (q ++ acceptedFrom (n + 1) left es), n < x.1 := by
          intro x hx; have := startsFrom_ge _ _ x hx; omega
        cases i with
        | zero =>
          rw [Nat.add_zero n, wireAt_before _ _ (fun x hx => hge' x hx)]
          simp only [LineRef.cycle, hr, List.getElem?_cons_zero]
        | succ i =>
          cases q with
          | nil =>
            have hc : r.cycle = ((.mid, false), r) := by
              have : r.queue = [] := hq
              simp only [LineRef.cycle, hr, this]
            rw [hc] at hle' ⊢
            have := ih (n + 1) left r [] E hn hle' hq (by intro x hx; cases hx) i (by omega)
            rw [List.getElem?_cons_succ, this, hr]
            dsimp only [List.length_nil]
            rw [if_neg (by omega), List.nil_append, show n + 1 + 0 + 1 = (n + 0 + 1) + 1 by omega, ← startsFrom_later (n := n + 0 + 1) (fun x hx => hge x hx),
              show n + (i + 1) = n + 1 + i by omega]
          | cons a q' =>
            obtain ⟨w, b⟩ := a
            have hq : r.queue = b :: q'.map Prod.snd := hq
            have hc : r.cycle = ((.mid, false), { rest := burst b, queue := q'.map Prod.snd }) := by simp only [LineRef.cycle, hr, hq]
            rw [hc] at hle' ⊢
            have hwn : w ≤ n := hw (w, b) (List.mem_cons_self ..)
            have := ih (n + 1) left { rest := burst b, queue := q'.map Prod.snd } q' E hn hle' rfl
              (fun x hx => Nat.le_succ_of_le (hw x (List.mem_cons_of_mem _ hx))) i (by omega)
            rw [List.getElem?_cons_succ, this]
            dsimp only
            rw [burst_length]
            have hm : max (w + 1) (n + 0 + 1) = n + 1 := by
              rw [Nat.max_eq_right] <;> omega
            generalize acceptedFrom (n + 1) left es = A at *
            have e4 : startsFrom (n + 0 + 1) ((w, b) :: q' ++ A) = (n + 1, b) :: startsFrom (n + 1 + 175) (q' ++ A) := by
              show (max (w + 1) (n + 0 + 1), b) :: startsFrom (max (w + 1) (n + 0 + 1) + 175) (q' ++ A) = _
              rw [hm]
            rw [e4, show n + (i + 1) = n + 1 + i by omega, show n + 1 + 174 + 1 = n + 1 + 175 by omega]
            generalize hS : startsFrom (n + 1 + 175) (q' ++ A) = SS
            have e5 : wireAt ((n + 1, b) :: SS) (n + 1 + i) = if i < 173 then ((frameWave b).getD i .mid, true) else wireAt SS (n + 1 + i) := by
              rw [wireAt, if_neg (by omega), show n + 1 + i - (n + 1) = i by omega]
              by_cases h : i < 173
              · rw [if_pos h, if_pos (by omega)]
              · rw [if_neg h, if_neg (by omega)]
            rw [e5, burst_getD]
            by_cases h173 : i < 173
            · rw [if_pos h173, if_pos h173, if_pos (by omega)]
            · rw [if_neg h173, if_neg h173]
              by_cases h174 : i < 174
              · rw [if_pos h174, wireAt_before]
                intro x hx
                rw [← hS] at hx
                have := startsFrom_ge _ _ x hx
                omega
              · rw [if_neg h174]

/-- **C117, times.** As long as `ClearFifo` is called only when the last frame has begun, the frame of each byte of an accepted message starts in the cycle after the call, but in cycle 2 at the earliest and 175 cycles after the frame before
at the earliest: the frames of a message follow each other immediately, however the DMA is scheduled (as long as it keeps up). -/
theorem C117_times (es : List DevEv) (hn : ClearsLate 1 0 0 es) (d : TxDev) (outs : List (Nat × Bool)) (rs : List Bool) (hr : TxDev.init.run es = some (d, outs, rs)) (k : Nat) (hk : k < cyclesOf es) :
    (outs.map Pio.view)[k]? = some (wireAt (startsFrom 2 (acceptedFrom 0 0 es)) k) := by
  rw [(C117_line es d outs rs hr).1, shows_times es 0 0 LineRef.init [] 1 hn (.inr (Nat.le_refl _)) rfl (by intro x hx; cases hx) k hk]
  show some (if k < 1 then _ else wireAt (startsFrom 2 (acceptedFrom 0 0 es)) (0 + k)) = _
  by_cases h : k < 1
  · rw [if_pos h, wireAt_before]
    · have : k = 0 := by omega
      subst this; rfl
    · intro x hx
      have := startsFrom_ge _ _ x hx
      omega
  · rw [if_neg h, Nat.zero_add]

/-! ## Cases that meet the hypotheses -/

/-- A message of two bytes; a second one while it is being copied is refused; `Error()` twice; `ClearFifo` during the first frame drops the second byte; a third message. -/
def clientRun : List DevEv :=
  [.cycle, .call (.send demoMsg), .dma, .call (.send demoMsg), .error, .error, .dma] ++ List.replicate 50 .cycle ++ [.call .clearFifo] ++ List.replicate 200 .cycle ++
    [.call (.send { demoMsg with length := 1 }), .dma] ++ List.replicate 180 .cycle

/-- Two frames, both of the byte 40; the refusal is reported once. -/
example : (TxDev.init.run clientRun).map (fun r => ((r.2.1.map Pio.view).map Prod.fst, r.2.2)) =
    some (List.replicate 2 Level.mid ++ (frameWave 0x40).take 175 ++ List.replicate 75 Level.mid ++ (frameWave 0x40).take 175 ++ List.replicate 4 Level.mid, [true, false]) := by
  decide +kernel

/-- Nine bytes and more: the DMA waits for the FIFO. -/
def longMsg : Message := { status := 0, time := 0, data := fun k => UInt8.ofNat (0xF0 - k), length := 10 }

/-- One message of ten bytes, eight of which fit into the FIFO; `ClearFifo` in the last frame. -/
def longRun : List DevEv :=
  [.cycle, .cycle, .cycle, .call (.send longMsg)] ++ List.replicate 8 .dma ++ [.cycle, .dma] ++ List.replicate 175 .cycle ++ [.dma] ++ List.replicate 1400 .cycle ++ [.call .clearFifo] ++
    List.replicate 200 .cycle

example : (TxDev.init.run longRun).isSome = true ∧ startsFrom 2 (acceptedFrom 0 0 longRun) =
    [(4, 0xF0), (179, 0xEF), (354, 0xEE), (529, 0xED), (704, 0xEC), (879, 0xEB), (1054, 0xEA), (1229, 0xE9), (1404, 0xE8), (1579, 0xE7)] := by
  constructor <;> decide +kernel

instance decClearsLate : ∀ (es : List DevEv) (e n left : Nat), Decidable (ClearsLate e n left es)
  | [], _, _, _ => .isTrue trivial
  | .call (.send m) :: es, e, n, left =>
    if h : left = 0 ∧ m.length ≤ 32 then @decidable_of_iff _ (ClearsLate (max e n + 175 * m.length) n m.length es) (by rw [ClearsLate, if_pos h]) (decClearsLate es _ _ _)
    else @decidable_of_iff _ (ClearsLate e n left es) (by rw [ClearsLate, if_neg h]) (decClearsLate es _ _ _)
  | .call .clearFifo :: es, e, n, _ => @instDecidableAnd _ _ _ (decClearsLate es e n 0)
  | .call (.shutdown _) :: es, e, n, left => decClearsLate es e n left
  | .error :: es, e, n, left => decClearsLate es e n left
  | .dma :: es, e, n, left => decClearsLate es e n (left - 1)
  | .cycle :: es, e, n, left => decClearsLate es e (n + 1) left

/-- The late `ClearFifo` of the second run is harmless, the early one of the first run is not. -/
example : ClearsLate 1 0 0 longRun ∧ ¬ ClearsLate 1 0 0 clientRun := by
  constructor <;> decide +kernel

/-- While a byte waits and while a frame is sent, `Transmitting()` says so. -/
example : (TxDev.init.run [.cycle, .call (.send demoMsg)]).map (fun r => r.1.transmitting) = some true ∧
    (TxDev.init.run (.cycle :: .call (.send { demoMsg with length := 1 }) :: .dma :: List.replicate 50 .cycle)).map (fun r => (r.1.transmitting, r.1.pio.tx, r.1.dmaCount)) = some (true, [], 0) ∧
    (TxDev.init.run (.cycle :: .call (.send { demoMsg with length := 1 }) :: .dma :: List.replicate 176 .cycle)).map (fun r => r.1.transmitting) = some false := by decide +kernel

end P1P2
