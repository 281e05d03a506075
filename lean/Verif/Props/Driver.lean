import Verif.Props.UartPio
/-!
# C100: the transmit driver on its own

`UARTPio::Send` may be called at any time (its own documentation promises an error when a message is still being
copied).  Here it is called by an arbitrary client, interleaved arbitrarily with the DMA and the PIO.
-/
namespace P1P2

/-- What can happen to the transmit driver: a client calls `Send` or `Error`, or the hardware takes a step. -/
inductive DrvEv where
  | send (m : Message)
  | error
  | dma
  | pull (t : Nat)
  | startBit
  | byteDone

/-- uart_pio.cpp:63-92 and the hardware; the second component is what `Error()` returned. -/
def drvStep (h : TxHw) : DrvEv → Option (TxHw × List Bool)
  | .send m => some (h.send m, [])
  | .error => some ({ h with error := false }, [h.error])
  | .dma => h.dmaStep.map fun h => (h, [])
  | .pull t => (h.pull t).map fun h => (h, [])
  | .startBit => h.startBit.map fun h => (h, [])
  | .byteDone => h.byteDone.map fun h => (h, [])

/-- A run and the values returned by the calls of `Error()`. -/
def drvRun (h : TxHw) : List DrvEv → Option (TxHw × List Bool)
  | [] => some (h, [])
  | e :: es => (drvStep h e).bind fun r => (drvRun r.1 es).map fun q => (q.1, r.2 ++ q.2)

/-- Specification, independent of the driver's buffer: of the bytes of the accepted message `left` are not yet copied.
Yields the bytes of all accepted messages and the answers of `Error()`. -/
def drvSpec : (left : Nat) → (err : Bool) → List DrvEv → List UInt8 × List Bool
  | _, _, [] => ([], [])
  | left, err, .send m :: es =>
    if left = 0 ∧ m.length ≤ 32 then
      let r := drvSpec m.length err es
      (m.bytes ++ r.1, r.2)
    else drvSpec left true es
  | left, err, .error :: es =>
    let r := drvSpec left false es
    (r.1, err :: r.2)
  | left, err, .dma :: es => drvSpec (left - 1) err es
  | left, err, .pull _ :: es => drvSpec left err es
  | left, err, .startBit :: es => drvSpec left err es
  | left, err, .byteDone :: es => drvSpec left err es

theorem dmaBytes_send (h : TxHw) (m : Message) :
    ({ h with buf := fun k => if k < m.length then m.data k else h.buf k, dmaPos := 0, dmaCount := m.length } :
      TxHw).dmaBytes = m.bytes := by
  unfold TxHw.dmaBytes Message.bytes
  apply List.map_congr_left
  intro k hk
  rw [List.mem_range] at hk
  simp [hk]

theorem drv_run (es : List DrvEv) : ∀ {h h' : TxHw} {rs : List Bool}, drvRun h es = some (h', rs) →
    h'.wire ++ h'.pending = h.wire ++ h.pending ++ (drvSpec h.dmaCount h.error es).1 ∧
      rs = (drvSpec h.dmaCount h.error es).2 := by
  induction es with
  | nil =>
    intro h h' rs hr
    simp only [drvRun, Option.some.injEq, Prod.mk.injEq] at hr
    obtain ⟨rfl, rfl⟩ := hr
    simp [drvSpec]
  | cons e es ih =>
    intro h h' rs hr
    rw [drvRun, Option.bind_eq_some_iff] at hr
    obtain ⟨⟨h1, r1⟩, e1, hr⟩ := hr
    rw [Option.map_eq_some_iff] at hr
    obtain ⟨⟨h2, r2⟩, e2, hr⟩ := hr
    simp only [Prod.mk.injEq] at hr
    obtain ⟨rfl, rfl⟩ := hr
    obtain ⟨i1, i2⟩ := ih e2
    cases e with
    | send m =>
      simp only [drvStep, Option.some.injEq, Prod.mk.injEq] at e1
      obtain ⟨rfl, rfl⟩ := e1
      by_cases hb : h.dmaCount = 0
      · by_cases hl : m.length ≤ 32
        · have hs : h.send m = { h with
              buf := fun k => if k < m.length then m.data k else h.buf k, dmaPos := 0, dmaCount := m.length } := by
            unfold TxHw.send TxHw.dmaBusy
            rw [if_neg (by simp [hb]), if_neg (by omega)]
          rw [hs] at i1 i2
          refine ⟨?_, ?_⟩
          · rw [i1]
            simp only [drvSpec, if_pos (And.intro hb hl)]
            have e0 : h.dmaBytes = [] := by unfold TxHw.dmaBytes; rw [hb]; rfl
            unfold TxHw.pending
            rw [dmaBytes_send, e0]
            simp
          · simpa [drvSpec, hb, hl] using i2
        · have hs : h.send m = { h with error := true } := by
            unfold TxHw.send TxHw.dmaBusy
            rw [if_neg (by simp [hb]), if_pos (by omega)]
          rw [hs] at i1 i2
          simp only [drvSpec, if_neg (show ¬(h.dmaCount = 0 ∧ m.length ≤ 32) by omega)]
          exact ⟨i1, by simpa using i2⟩
      · have hs : h.send m = { h with error := true } := by
          unfold TxHw.send TxHw.dmaBusy
          rw [if_pos (by simp [hb])]
        rw [hs] at i1 i2
        simp only [drvSpec, if_neg (show ¬(h.dmaCount = 0 ∧ m.length ≤ 32) by omega)]
        exact ⟨i1, by simpa using i2⟩
    | error =>
      simp only [drvStep, Option.some.injEq, Prod.mk.injEq] at e1
      obtain ⟨rfl, rfl⟩ := e1
      exact ⟨i1, by simpa [drvSpec] using i2⟩
    | dma =>
      simp only [drvStep, Option.map_eq_some_iff, Prod.mk.injEq] at e1
      obtain ⟨h0, e1, rfl, rfl⟩ := e1
      obtain ⟨p1, p2, -, -, -, p6, p7⟩ := TxHw.pending_dma e1
      have hc : h0.dmaCount = h.dmaCount - 1 := by
        unfold TxHw.dmaStep at e1
        split at e1
        · simp only [Option.some.injEq] at e1; rw [← e1]
        · simp at e1
      rw [p1, p2, hc, p6] at i1
      rw [hc, p6] at i2
      exact ⟨i1, by simpa [drvSpec] using i2⟩
    | pull t =>
      simp only [drvStep, Option.map_eq_some_iff, Prod.mk.injEq] at e1
      obtain ⟨h0, e1, rfl, rfl⟩ := e1
      unfold TxHw.pull at e1
      split at e1
      · rename_i b q hq
        split at e1
        · rename_i hc
          simp only [Option.some.injEq] at e1
          subst e1
          refine ⟨?_, by simpa [drvSpec] using i2⟩
          rw [i1]
          simp [TxHw.pending, TxHw.dmaBytes, hq, hc.1, drvSpec]
        · simp at e1
      · simp at e1
    | startBit =>
      simp only [drvStep, Option.map_eq_some_iff, Prod.mk.injEq] at e1
      obtain ⟨h0, e1, rfl, rfl⟩ := e1
      unfold TxHw.startBit at e1
      split at e1
      · rename_i b hq
        simp only [Option.some.injEq] at e1
        subst e1
        refine ⟨?_, by simpa [drvSpec] using i2⟩
        rw [i1]
        simp [TxHw.pending, TxHw.dmaBytes, hq, drvSpec]
      · simp at e1
    | byteDone =>
      simp only [drvStep, Option.map_eq_some_iff, Prod.mk.injEq] at e1
      obtain ⟨h0, e1, rfl, rfl⟩ := e1
      unfold TxHw.byteDone at e1
      split at e1
      · simp only [Option.some.injEq] at e1
        subst e1
        exact ⟨i1, by simpa [drvSpec] using i2⟩
      · simp at e1

/-- **C100**: whatever a client calls and whenever, in every interleaving with the hardware: the bytes put on the bus
are a prefix of the bytes of the accepted messages in order, and all of them once the hardware is idle; a message is
accepted iff it has at most 32 bytes and the one accepted before has been copied completely; a refused message leaves
no trace but the error that the next call of `Error()` reports, once. -/
theorem C100_driver (es : List DrvEv) (h : TxHw) (rs : List Bool) (hr : drvRun TxHw.init es = some (h, rs)) :
    h.wire <+: (drvSpec 0 false es).1 ∧
      (h.osr = none → h.fifo = [] → h.dmaCount = 0 → h.wire = (drvSpec 0 false es).1) ∧
      rs = (drvSpec 0 false es).2 := by
  obtain ⟨h1, h2⟩ := drv_run es hr
  have h0 : TxHw.init.wire ++ TxHw.init.pending = [] := rfl
  rw [h0, List.nil_append] at h1
  refine ⟨⟨_, h1⟩, ?_, h2⟩
  intro o f d
  refine Eq.trans ?_ h1
  simp [TxHw.pending, TxHw.dmaBytes, o, f, d]

/-- A second message while the first is being copied is refused and reported; a third one afterwards is sent. -/
example : (drvRun TxHw.init [.send demoMsg, .dma, .send demoMsg, .error, .error, .dma, .pull 1, .startBit, .byteDone,
    .send demoMsg, .dma, .dma, .pull 2, .startBit, .byteDone, .pull 3, .startBit, .byteDone, .pull 4, .startBit]).map
      (fun r => (r.1.wire, r.2)) = some ([0x40, 0xf0, 0x40, 0xf0], [true, false]) := by
  decide

end P1P2
