import Verif.Spec.TxFine
import Verif.Props.Modem
import Verif.Props.UartPio
/-!
# C119: no stale bytes, down to the pins

The transmitter object on the cycle accurate hardware refines the abstract model of `Verif/Model/UartPio.lean`.
-/
namespace P1P2
open Pio

/-- Driver, DMA and FIFO. -/
structure HwRel (d : TxDev) (h : TxHw) : Prop where
  error : d.error = h.error
  buf : d.buf = h.buf
  pos : d.dmaPos = h.dmaPos
  count : d.dmaCount = h.dmaCount
  pin : d.pin = h.pin
  tx : d.pio.tx = h.fifo.map narrow

/-- What a command of the state machine leaves alone. -/
structure HwKeep (h h' : TxHw) : Prop where
  osr : h'.osr = h.osr
  flag : h'.flag = h.flag
  pulledAt : h'.pulledAt = h.pulledAt
  wire : h'.wire = h.wire

theorem HwRel.apply {d : TxDev} {h : TxHw} (r : HwRel d h) (c : HwCmd) : HwRel (d.apply c) (h.apply c) ∧ HwKeep h (h.apply c) ∧ (d.apply c).pio.core = d.pio.core := by
  cases c with
  | shutdown b => exact ⟨⟨r.error, r.buf, r.pos, r.count, rfl, r.tx⟩, ⟨rfl, rfl, rfl, rfl⟩, rfl⟩
  | clearFifo => exact ⟨⟨r.error, r.buf, r.pos, rfl, r.pin, rfl⟩, ⟨rfl, rfl, rfl, rfl⟩, rfl⟩
  | send m =>
    show HwRel (d.send m) (h.send m) ∧ HwKeep h (h.send m) ∧ (d.send m).pio.core = d.pio.core
    unfold TxDev.send TxHw.send TxDev.dmaBusy TxHw.dmaBusy
    rw [r.count]
    by_cases hb : decide (h.dmaCount ≠ 0) = true
    · rw [if_pos hb, if_pos hb]
      exact ⟨⟨rfl, r.buf, r.pos, rfl, r.pin, r.tx⟩, ⟨rfl, rfl, rfl, rfl⟩, rfl⟩
    · rw [if_neg hb, if_neg hb]
      by_cases hl : m.length > 32
      · rw [if_pos hl, if_pos hl]
        exact ⟨⟨rfl, r.buf, r.pos, rfl, r.pin, r.tx⟩, ⟨rfl, rfl, rfl, rfl⟩, rfl⟩
      · rw [if_neg hl, if_neg hl]
        refine ⟨⟨r.error, ?_, rfl, rfl, r.pin, r.tx⟩, ⟨rfl, rfl, rfl, rfl⟩, rfl⟩
        show (fun k => if k < m.length then m.data k else d.buf k) = fun k => if k < m.length then m.data k else h.buf k
        rw [r.buf]

theorem HwRel.applyAll : ∀ (cs : List HwCmd) {d : TxDev} {h : TxHw}, HwRel d h →
    HwRel (cs.foldl TxDev.apply d) (cs.foldl TxHw.apply h) ∧ HwKeep h (cs.foldl TxHw.apply h) ∧ (cs.foldl TxDev.apply d).pio.core = d.pio.core := by
  intro cs
  induction cs with
  | nil => intro d h r; exact ⟨r, ⟨rfl, rfl, rfl, rfl⟩, rfl⟩
  | cons c cs ih =>
    intro d h r
    obtain ⟨a1, a2, a3⟩ := r.apply c
    obtain ⟨b1, b2, b3⟩ := ih a1
    exact ⟨b1, ⟨b2.osr.trans a2.osr, b2.flag.trans a2.flag, b2.pulledAt.trans a2.pulledAt, b2.wire.trans a2.wire⟩, b3.trans a3⟩

/-- Where the program is, in terms of the abstract steps. -/
inductive TxPhase : List (Level × Bool) → Option UInt8 → Bool → Prop
  | idle : TxPhase [] none false
  | boot : TxPhase [(.mid, false)] none false
  | pulled (b : UInt8) : TxPhase (burst b) (some b) false
  | sending (b : UInt8) (j : Nat) (h1 : 1 ≤ j) (h2 : j ≤ 173) : TxPhase ((burst b).drop j) none true

theorem TxPhase.len {rest : List (Level × Bool)} {o : Option UInt8} {fl : Bool} (h : TxPhase rest o fl) : rest.length ≤ 174 := by
  cases h with
  | idle => exact Nat.zero_le _
  | boot => exact Nat.le_add_left 1 173
  | pulled b => rw [burst_length]; exact Nat.le_refl _
  | sending b j h1 h2 => rw [List.length_drop, burst_length]; omega

/-- The refinement relation; `outs` is everything seen so far. -/
structure FInv (f : FSys) (s : Sys) (outs : List FOut) (rest : List (Level × Bool)) (ss : List (Nat × UInt8)) : Prop where
  sm : f.sm = s.sm
  now : s.now ≤ f.now
  stage : f.stage = s.stage
  rdFlag : f.rdFlag = s.rdFlag
  rdFifo : f.rdFifo = s.rdFifo
  rdDma : f.rdDma = s.rdDma
  hw : HwRel f.dev s.hw
  core : ∃ y o k l, Core.steps uartTx rest.length f.dev.pio.core = some (atPull y o k, l) ∧ l.map Pio.view = rest
  phase : TxPhase rest s.hw.osr s.hw.flag
  irq : f.dev.pio.core.irq = s.hw.flag
  time : s.hw.working → f.last ≤ s.hw.pulledAt + 150 * (175 - rest.length)
  bytes : ss.map Prod.snd = s.hw.wire ++ s.hw.osr.toList
  apart : FramesApart ss
  over : ∀ x ∈ ss, x.1 + 174 ≤ (pinsOf outs).length + rest.length
  wave : ∀ k, k < (pinsOf outs).length + rest.length → (pinsOf outs ++ rest)[k]? = some (wireAt ss k)
  cur : s.cur = (handedAt 0 (0, []) outs).2
  late : (handedAt 0 (0, []) outs).1 ≤ (pinsOf outs).length
  old : ∀ x ∈ ss.take s.mark, x.1 < (handedAt 0 (0, []) outs).1
  new : ∀ x ∈ ss.drop s.mark, (handedAt 0 (0, []) outs).1 ≤ x.1

theorem pinsOf_append : ∀ (a b : List FOut), pinsOf (a ++ b) = pinsOf a ++ pinsOf b := by
  intro a b
  induction a with
  | nil => rfl
  | cons o a ih =>
    cases o with
    | pins v => show _ :: pinsOf (a ++ b) = _ :: (pinsOf a ++ pinsOf b); rw [ih]
    | cmd c => exact ih

theorem handedAt_append : ∀ (a b : List FOut) (n : Nat) (cur : Nat × List UInt8), handedAt n cur (a ++ b) = handedAt (n + (pinsOf a).length) (handedAt n cur a) b := by
  intro a b
  induction a with
  | nil => intro n cur; rfl
  | cons o a ih =>
    intro n cur
    cases o with
    | pins v =>
      show handedAt (n + 1) cur (a ++ b) = handedAt (n + ((pinsOf a).length + 1)) (handedAt (n + 1) cur a) b
      rw [ih, show n + 1 + (pinsOf a).length = n + ((pinsOf a).length + 1) by omega]
    | cmd c =>
      cases c with
      | send m => exact ih n _
      | shutdown b => exact ih n _
      | clearFifo => exact ih n _

theorem FInv.init (g : Nat → UInt8) : FInv (FSys.init g) (Sys.init g) [] [(.mid, false)] [] := by
  have h0 : HwRel TxDev.init TxHw.init := ⟨rfl, rfl, rfl, rfl, rfl, rfl⟩
  obtain ⟨a1, a2, a3⟩ := h0.applyAll TxSM.initCmds
  refine ⟨rfl, Nat.le_refl _, rfl, rfl, rfl, rfl, a1, ?_, ?_, rfl, ?_, rfl, .nil, ?_, ?_, rfl, Nat.le_refl _, ?_, ?_⟩
  · exact Sim.init.core
  · exact .boot
  · intro h
    rcases h with h | h
    · exact absurd rfl h
    · cases h
  · intro x hx; cases hx
  · intro k hk
    have : k = 0 := by have : k < 0 + 1 := hk; omega
    subst this; rfl
  · intro x hx; simp at hx
  · intro x hx; simp at hx

theorem wireAt_append : ∀ (ss tt : List (Nat × UInt8)) (k : Nat), (∀ x ∈ tt, k < x.1) → wireAt (ss ++ tt) k = wireAt ss k := by
  intro ss tt k ht
  induction ss with
  | nil => rw [List.nil_append, wireAt_before _ _ ht]; rfl
  | cons a ss ih => obtain ⟨s, b⟩ := a; rw [List.cons_append, wireAt, wireAt, ih]

theorem wireAt_past : ∀ (ss tt : List (Nat × UInt8)) (k : Nat), (∀ x ∈ ss, x.1 + 173 ≤ k) → wireAt (ss ++ tt) k = wireAt tt k := by
  intro ss tt k hs
  induction ss with
  | nil => rfl
  | cons a ss ih =>
    obtain ⟨s, b⟩ := a
    have : s + 173 ≤ k := hs (s, b) (List.mem_cons_self ..)
    rw [List.cons_append, wireAt, if_neg (by omega), if_neg (by omega), ih fun x hx => hs x (List.mem_cons_of_mem _ hx)]

/-- One cycle of the program, seen from outside. -/
theorem cycle_sim {p : Pio.State} {rest : List (Level × Bool)} {fifo : List UInt8} (htx : p.tx = fifo.map narrow)
    (hc : ∃ y o k l, Core.steps uartTx rest.length p.core = some (atPull y o k, l) ∧ l.map Pio.view = rest) :
    Sim (Pio.cycle uartTx p { put := none, get := false }) (TxRef.cycle ⟨rest, fifo⟩ none).2 ∧
      Pio.view ((Pio.cycle uartTx p { put := none, get := false }).core.pins, (Pio.cycle uartTx p { put := none, get := false }).core.irq) = (TxRef.cycle ⟨rest, fifo⟩ none).1 := by
  obtain ⟨h1, h2⟩ := Sim.cycle (s := p) (r := ⟨rest, fifo⟩) ⟨htx, hc⟩ none
  exact ⟨h2, h1⟩

theorem FInv.free {f : FSys} {s : Sys} {outs : List FOut} {rest : List (Level × Bool)} {ss : List (Nat × UInt8)} (h : FInv f s outs rest ss) {t : Nat} (ht : f.timeOk t) : s.timeOk t := by
  refine ⟨Nat.le_trans h.now ht.1, fun hw => ?_⟩
  have := h.time hw
  have := ht.2
  omega

/-- A PIO cycle: the program moves on. -/
theorem FInv.cycle (pf : Platform) {f : FSys} {s : Sys} {outs : List FOut} {rest : List (Level × Bool)} {ss : List (Nat × UInt8)} (h : FInv f s outs rest ss) (hm : s.mark ≤ s.hw.wire.length) {t : Nat}
    (ht : f.timeOk t) {d : TxDev} (hd : f.dev.cycle = some d) :
    ∃ s' rest' ss', (s' = s ∨ ∃ e, (∀ m t, e ≠ SysEv.call (.wake m t)) ∧ s.next pf e = some s') ∧
      FInv { f with dev := d, now := t, last := t } s' (outs ++ [.pins (d.pio.core.pins, d.pio.core.irq)]) rest' ss' := by
  have ht' := h.free ht
  unfold TxDev.cycle at hd
  split at hd
  · rename_i hcu
    simp only [Option.some.injEq] at hd
    subst hd
    obtain ⟨h2, h1⟩ := cycle_sim h.hw.tx h.core
    -- generic part
    have hp : ∀ v, pinsOf (outs ++ [.pins v]) = pinsOf outs ++ [Pio.view v] := fun v => pinsOf_append _ _
    have hh : ∀ v, handedAt 0 (0, []) (outs ++ [.pins v]) = handedAt 0 (0, []) outs := fun v => handedAt_append _ _ _ _
    generalize Pio.cycle uartTx f.dev.pio { put := none, get := false } = p at *
    have hlast := ht.2
    cases hr : rest with
    | cons o rest' =>
      rw [hr] at h1 h2
      simp only [TxRef.cycle, TxRef.arrive] at h1 h2
      have hirq : p.core.irq = o.2 := congrArg Prod.snd h1
      have hlen : (pinsOf outs).length + 1 + rest'.length = (pinsOf outs).length + rest.length := by rw [hr, List.length_cons]; omega
      -- what the abstract model does
      have key : ∃ s', (s' = s ∨ ∃ e, (∀ m t, e ≠ SysEv.call (.wake m t)) ∧ s.next pf e = some s') ∧ s'.sm = s.sm ∧ s'.now ≤ t ∧ s'.stage = s.stage ∧ s'.rdFlag = s.rdFlag ∧ s'.rdFifo = s.rdFifo ∧
          s'.rdDma = s.rdDma ∧ s'.cur = s.cur ∧ s'.mark = s.mark ∧ s'.hw.error = s.hw.error ∧ s'.hw.buf = s.hw.buf ∧ s'.hw.dmaPos = s.hw.dmaPos ∧ s'.hw.dmaCount = s.hw.dmaCount ∧
          s'.hw.pin = s.hw.pin ∧ s'.hw.fifo = s.hw.fifo ∧ s'.hw.pulledAt = s.hw.pulledAt ∧ s'.hw.wire ++ s'.hw.osr.toList = s.hw.wire ++ s.hw.osr.toList ∧
          TxPhase rest' s'.hw.osr s'.hw.flag ∧ p.core.irq = s'.hw.flag ∧ (s'.hw.working → s.hw.working) := by
        have hph := h.phase
        generalize ho : s.hw.osr = osr at *
        generalize hfl : s.hw.flag = fl at *
        have hnow : s.now ≤ t := Nat.le_trans h.now ht.1
        cases hph with
        | idle => cases hr
        | boot =>
          obtain ⟨rfl, rfl⟩ := List.cons.inj hr
          refine ⟨s, .inl rfl, rfl, hnow, rfl, rfl, rfl, rfl, rfl, rfl, rfl, rfl, rfl, rfl, rfl, rfl, rfl, by rw [ho], ?_, ?_, id⟩
          · rw [ho, hfl]; exact .idle
          · rw [hirq, hfl]
        | pulled b =>
          refine ⟨{ s with hw := { s.hw with osr := none, flag := true, wire := s.hw.wire ++ [b] }, now := t }, .inr ⟨.startBit t, (fun _ _ h => by cases h), ?_⟩,
            rfl, Nat.le_refl _, rfl, rfl, rfl, rfl, rfl, rfl, rfl, rfl, rfl, rfl, rfl, rfl, rfl, ?_, ?_, ?_, ?_⟩
          · simp only [Sys.next, if_pos ht', TxHw.startBit, ho, Option.map_some]
          · show s.hw.wire ++ [b] ++ [] = s.hw.wire ++ [b]
            rw [List.append_nil]
          · have : rest' = (burst b).drop 1 := by rw [hr]; rfl
            rw [this]
            exact .sending b 1 (Nat.le_refl _) (by omega)
          · have := burst_getD b 0
            rw [hr] at this
            rw [hirq]
            show ((o :: rest').getD 0 (Level.mid, false)).2 = true
            rw [this]; rfl
          · intro _
            exact .inl (by rw [ho]; exact Option.some_ne_none _)
        | sending b j j1 j2 =>
          have hg := burst_getD b j
          have ho2 : (burst b).getD j (.mid, false) = o := by
            rw [List.getD_eq_getElem?_getD, ← Nat.add_zero j, ← List.getElem?_drop, hr]; rfl
          have hrest' : rest' = (burst b).drop (j + 1) := by rw [Nat.add_comm j 1, Nat.add_comm 1 j, ← List.tail_drop, hr]; rfl
          rw [ho2] at hg
          by_cases hj : j < 173
          · refine ⟨s, .inl rfl, rfl, hnow, rfl, rfl, rfl, rfl, rfl, rfl, rfl, rfl, rfl, rfl, rfl, rfl, rfl, by rw [ho], ?_, ?_, id⟩
            · rw [ho, hfl, hrest']; exact .sending b (j + 1) (by omega) (by omega)
            · rw [hirq, hfl, hg, if_pos hj]
          · refine ⟨{ s with hw := { s.hw with flag := false }, now := t }, .inr ⟨.byteDone t, (fun _ _ h => by cases h), ?_⟩,
              rfl, Nat.le_refl _, rfl, rfl, rfl, rfl, rfl, rfl, rfl, rfl, rfl, rfl, rfl, rfl, rfl, ?_, ?_, ?_, ?_⟩
            · simp only [Sys.next, if_pos ht', TxHw.byteDone, hfl, if_true, Option.map_some]
            · rw [ho]
            · have : rest' = [] := by
                rw [hrest', List.drop_eq_nil_iff, burst_length]; omega
              rw [this, ho]; exact .idle
            · rw [hirq, hg, if_neg hj]
            · intro _; exact .inr hfl
      obtain ⟨s', k0, k1, k2, k3, k4, k5, k6, k7, k8, k9, k10, k11, k12, k13, k14, k15, k16, k17, k18, k19⟩ := key
      refine ⟨s', rest', ss, k0, h.sm.trans k1.symm, k2, h.stage.trans k3.symm, h.rdFlag.trans k4.symm, h.rdFifo.trans k5.symm, h.rdDma.trans k6.symm, ?_, h2.core, k17, k18, ?_, ?_, h.apart, ?_, ?_, ?_, ?_, ?_, ?_⟩
      · exact ⟨h.hw.error.trans k9.symm, h.hw.buf.trans k10.symm, h.hw.pos.trans k11.symm, h.hw.count.trans k12.symm, h.hw.pin.trans k13.symm, by rw [k14]; exact h2.tx⟩
      · intro hw
        have := h.time (k19 hw)
        have hl := h.phase.len
        rw [hr, List.length_cons] at this hl
        rw [k15]
        show t ≤ _
        omega
      · rw [k16]; exact h.bytes
      · intro x hx
        have := h.over x hx
        rw [hp, List.length_append]
        show x.1 + 174 ≤ (pinsOf outs).length + 1 + rest'.length
        omega
      · intro k hk
        rw [hp, h1, List.append_assoc]
        have := h.wave k (by rw [hp, List.length_append] at hk; have hk : k < (pinsOf outs).length + 1 + rest'.length := hk; omega)
        rw [hr] at this
        exact this
      · rw [hh, k7]; exact h.cur
      · rw [hh, hp, List.length_append]; exact Nat.le_trans h.late (Nat.le_add_right _ _)
      · rw [hh, k8]; exact h.old
      · rw [hh, k8]; exact h.new
    | nil =>
      rw [hr] at h1 h2
      have hosr : s.hw.osr = none ∧ s.hw.flag = false := by
        have hph := h.phase
        generalize s.hw.osr = osr at *
        generalize s.hw.flag = fl at *
        cases hph with
        | idle => exact ⟨rfl, rfl⟩
        | boot => cases hr
        | pulled b => have := congrArg List.length hr; rw [burst_length] at this; cases this
        | sending b j j1 j2 =>
          have := congrArg List.length hr
          rw [List.length_drop, burst_length, List.length_nil] at this
          omega
      have hpull : f.dev.pulling := by
        obtain ⟨y, o, k, l, hc, -⟩ := h.core
        rw [hr] at hc
        simp only [List.length_nil, Core.steps, Option.some.injEq, Prod.mk.injEq] at hc
        unfold TxDev.pulling
        rw [hc.1]
        exact ⟨rfl, rfl⟩
      have hcu := hcu hpull
      have hcu' : s.hw.caughtUp := by
        rcases hcu with hcu | hcu
        · exact .inl (h.hw.count.symm.trans hcu)
        · rw [h.hw.tx, List.length_map] at hcu; exact .inr hcu
      have hover : ∀ x ∈ ss, x.1 + 174 ≤ (pinsOf outs).length := fun x hx => by have := h.over x hx; rw [hr] at this; exact this
      have hwave : ∀ k, k < (pinsOf outs).length → (pinsOf outs)[k]? = some (wireAt ss k) := fun k hk => by
        have := h.wave k (by omega)
        rw [hr, List.append_nil] at this
        exact this
      cases hff : s.hw.fifo with
      | nil =>
        rw [hff] at h1 h2
        simp only [TxRef.cycle, TxRef.arrive] at h1 h2
        have hirq : p.core.irq = false := congrArg Prod.snd h1
        refine ⟨s, [], ss, .inl rfl, h.sm, Nat.le_trans h.now ht.1, h.stage, h.rdFlag, h.rdFifo, h.rdDma, ?_, h2.core, ?_, hirq.trans hosr.2.symm, ?_, h.bytes, h.apart, ?_, ?_, ?_, ?_, ?_, ?_⟩
        · exact ⟨h.hw.error, h.hw.buf, h.hw.pos, h.hw.count, h.hw.pin, by rw [hff]; exact h2.tx⟩
        · rw [hosr.1, hosr.2]; exact .idle
        · intro hw
          unfold TxHw.working at hw
          rw [hosr.1, hosr.2] at hw
          rcases hw with hw | hw
          · exact absurd rfl hw
          · cases hw
        · intro x hx
          have := hover x hx
          rw [hp, List.length_append]
          exact Nat.le_trans this (Nat.le_add_right _ _)
        · intro k hk
          rw [hp, List.length_append] at hk
          have hk : k < (pinsOf outs).length + 1 + 0 := hk
          rw [hp, h1, List.append_nil]
          rcases Nat.lt_or_eq_of_le (Nat.le_of_lt_succ hk) with hk' | rfl
          · rw [List.getElem?_append_left hk']; exact hwave k hk'
          · rw [List.getElem?_append_right (Nat.le_refl _), Nat.sub_self, wireAt_after]
            · rfl
            · intro x hx; have := hover x hx; omega
        · rw [hh]; exact h.cur
        · rw [hh, hp, List.length_append]; exact Nat.le_trans h.late (Nat.le_add_right _ _)
        · rw [hh]; exact h.old
        · rw [hh]; exact h.new
      | cons b q =>
        rw [hff] at h1 h2
        simp only [TxRef.cycle, TxRef.arrive] at h1 h2
        have hirq : p.core.irq = false := congrArg Prod.snd h1
        have hb : ss.map Prod.snd = s.hw.wire := by rw [h.bytes, hosr.1]; exact List.append_nil _
        have hsl : ss.length = s.hw.wire.length := by rw [← hb, List.length_map]
        refine ⟨{ s with hw := { s.hw with fifo := q, osr := some b, pulledAt := t }, now := t }, burst b, ss ++ [((pinsOf outs).length + 1, b)], .inr ⟨.pull t, (fun _ _ h => by cases h), ?_⟩,
          h.sm, Nat.le_refl _, h.stage, h.rdFlag, h.rdFifo, h.rdDma, ?_, h2.core, ?_, hirq.trans hosr.2.symm, ?_, ?_, ?_, ?_, ?_, ?_, ?_, ?_, ?_⟩
        · simp only [Sys.next, if_pos ht', TxHw.pull, hff, if_pos (show s.hw.osr = none ∧ s.hw.flag = false ∧ s.hw.caughtUp from ⟨hosr.1, hosr.2, hcu'⟩), Option.map_some]
        · exact ⟨h.hw.error, h.hw.buf, h.hw.pos, h.hw.count, h.hw.pin, h2.tx⟩
        · show TxPhase (burst b) (some b) s.hw.flag
          rw [hosr.2]; exact .pulled b
        · intro _
          show t ≤ t + _
          exact Nat.le_add_right _ _
        · rw [List.map_append, hb]; rfl
        · refine List.pairwise_append.mpr ⟨h.apart, List.pairwise_singleton _ _, fun x hx y hy => ?_⟩
          rw [List.mem_singleton] at hy
          subst hy
          have := hover x hx
          show x.1 + 175 ≤ (pinsOf outs).length + 1
          omega
        · intro x hx
          rw [hp, List.length_append, burst_length]
          rcases List.mem_append.mp hx with hx | hx
          · have := hover x hx; omega
          · rw [List.mem_singleton] at hx
            subst hx
            exact Nat.le_refl _
        · intro k hk
          rw [hp, List.length_append, burst_length] at hk
          have hk : k < (pinsOf outs).length + 1 + 174 := hk
          rw [hp, h1]
          by_cases hk1 : k < (pinsOf outs).length + 1
          · rw [wireAt_append _ _ _ (by intro x hx; rw [List.mem_singleton] at hx; subst hx; exact hk1), List.append_assoc]
            rcases Nat.lt_or_eq_of_le (Nat.le_of_lt_succ hk1) with hk' | rfl
            · rw [List.getElem?_append_left hk']; exact hwave k hk'
            · rw [List.getElem?_append_right (Nat.le_refl _), Nat.sub_self, wireAt_after]
              · rfl
              · intro x hx; have := hover x hx; omega
          · rw [wireAt_past _ _ _ (by intro x hx; have := hover x hx; omega), List.getElem?_append_right (by rw [List.length_append]; show _ + 1 ≤ k; omega), List.length_append]
            have hb' := burst_getD b (k - ((pinsOf outs).length + 1))
            have hlt : k - ((pinsOf outs).length + 1) < (burst b).length := by rw [burst_length]; omega
            rw [List.getD_eq_getElem?_getD, List.getElem?_eq_getElem hlt, Option.getD_some] at hb'
            show (burst b)[k - ((pinsOf outs).length + 1)]? = _
            rw [List.getElem?_eq_getElem hlt, hb', wireAt, if_neg hk1]
            by_cases hk2 : k < (pinsOf outs).length + 1 + 173
            · rw [if_pos hk2, if_pos (by omega)]
            · rw [if_neg hk2, if_neg (by omega)]; rfl
        · rw [hh]; exact h.cur
        · rw [hh, hp, List.length_append]; exact Nat.le_trans h.late (Nat.le_add_right _ _)
        · rw [hh]
          intro x hx
          refine h.old x ?_
          rw [List.take_append_of_le_length (by show s.mark ≤ ss.length; omega)] at hx
          exact hx
        · rw [hh]
          intro x hx
          rw [List.drop_append_of_le_length (by show s.mark ≤ ss.length; omega)] at hx
          rcases List.mem_append.mp hx with hx | hx
          · exact h.new x hx
          · rw [List.mem_singleton] at hx
            subst hx
            exact Nat.le_trans h.late (Nat.le_succ _)
  · cases hd

/-- An update makes one call of `Send` and nothing else, or none. -/
theorem update_sends {pf : Platform} {s sm' : TxSM} {i : UpdIn} {cmds : List HwCmd} (hu : s.update pf i = .ok (sm', cmds)) :
    (∃ m, cmds = [.send m]) ∨ ∀ m, HwCmd.send m ∉ cmds := by
  cases TxSM.updCase hu with
  | start hf _ hst ht hs hc => exact .inl ⟨_, hc⟩
  | early _ hs hc => exact .inr (by simp [hc])
  | hw _ _ _ hs hc => exact .inr (by simp [hc])
  | stay hf _ _ _ _ _ _ hs hc => exact .inr (by simp [hc])
  | power _ he hst hb ht _ hs hc => exact .inr (by simp [hc])
  | busy _ _ hst _ _ _ hs hc => exact .inr (by simp [hc])
  | rxErr _ _ hst _ hs hc => exact .inr (by simp [hc])
  | good _ _ hst _ _ _ _ rx _ hs hc => exact .inr (by by_cases hl : s.txOffset + 1 = s.txMsg.length <;> simp [hc, hl])
  | bad _ _ hst _ _ _ _ rx _ hs hc => exact .inr (by by_cases hl : s.txOffset + 1 = s.txMsg.length <;> simp [hc, hl])
  | finish _ _ hst _ hs hc => exact .inr (by simp [hc])

theorem sentBy_none : ∀ {cs : List HwCmd}, (∀ m, HwCmd.send m ∉ cs) → Sys.sentBy cs = none := by
  intro cs
  induction cs with
  | nil => intro _; rfl
  | cons c cs ih =>
    intro h
    have h' : ∀ m, HwCmd.send m ∉ cs := fun m hm => h m (List.mem_cons_of_mem _ hm)
    cases c with
    | send m => exact absurd (List.mem_cons_self ..) (h m)
    | shutdown b => exact ih h'
    | clearFifo => exact ih h'

theorem pinsOf_cmds (cs : List HwCmd) : pinsOf (cs.map .cmd) = [] := by
  induction cs with
  | nil => rfl
  | cons c cs ih => exact ih

theorem handedAt_cmds : ∀ {cs : List HwCmd} (n : Nat) (cur : Nat × List UInt8), (∀ m, HwCmd.send m ∉ cs) → handedAt n cur (cs.map .cmd) = cur := by
  intro cs
  induction cs with
  | nil => intro n cur _; rfl
  | cons c cs ih =>
    intro n cur h
    have h' : ∀ m, HwCmd.send m ∉ cs := fun m hm => h m (List.mem_cons_of_mem _ hm)
    cases c with
    | send m => exact absurd (List.mem_cons_self ..) (h m)
    | shutdown b => exact ih n cur h'
    | clearFifo => exact ih n cur h'

/-- Only sendable messages are requested. -/
def SendableFine (es : List FEv) : Prop := ∀ m t, FEv.call (.wake m t) ∈ es → Sendable m

theorem FInv.step (pf : Platform) {f f' : FSys} {s : Sys} {outs o' : List FOut} {rest : List (Level × Bool)} {ss : List (Nat × UInt8)} (h : FInv f s outs rest ss) (hi : SysInv s) {e : FEv}
    (he : ∀ m t, e = .call (.wake m t) → Sendable m) (hn : f.next pf e = some (f', o')) :
    ∃ s' rest' ss', SysInv s' ∧ FInv f' s' (outs ++ o') rest' ss' := by
  cases e with
  | dma =>
    simp only [FSys.next, Option.map_eq_some_iff, Prod.mk.injEq] at hn
    obtain ⟨d, hd, rfl, rfl⟩ := hn
    unfold TxDev.dmaStep at hd
    split at hd
    · rename_i hc
      simp only [Option.some.injEq] at hd
      subst hd
      have hc' : 0 < s.hw.dmaCount ∧ s.hw.fifo.length < 8 := by
        rw [← h.hw.count]
        refine ⟨hc.1, ?_⟩
        have := hc.2
        rw [h.hw.tx, List.length_map] at this
        exact this
      have hs : s.next pf .dma = some { s with hw := { s.hw with fifo := s.hw.fifo ++ [s.hw.buf s.hw.dmaPos], dmaPos := s.hw.dmaPos + 1, dmaCount := s.hw.dmaCount - 1 } } := by
        simp only [Sys.next, TxHw.dmaStep, if_pos hc', Option.map_some]
      refine ⟨_, rest, ss, hi.step (fun m t h => by cases h) hs, ?_⟩
      rw [List.append_nil]
      refine ⟨h.sm, h.now, h.stage, h.rdFlag, h.rdFifo, h.rdDma, ?_, h.core, h.phase, h.irq, h.time, h.bytes, h.apart, h.over, h.wave, h.cur, h.late, h.old, h.new⟩
      refine ⟨h.hw.error, h.hw.buf, ?_, ?_, h.hw.pin, ?_⟩
      · show f.dev.dmaPos + 1 = s.hw.dmaPos + 1
        rw [h.hw.pos]
      · show f.dev.dmaCount - 1 = s.hw.dmaCount - 1
        rw [h.hw.count]
      · show f.dev.pio.tx ++ [narrow (f.dev.buf f.dev.dmaPos)] = (s.hw.fifo ++ [s.hw.buf s.hw.dmaPos]).map narrow
        rw [h.hw.tx, h.hw.buf, h.hw.pos, List.map_append]
        rfl
    · cases hd
  | cycle t =>
    simp only [FSys.next] at hn
    split at hn
    · rename_i ht
      simp only [Option.map_eq_some_iff, Prod.mk.injEq] at hn
      obtain ⟨d, hd, rfl, rfl⟩ := hn
      obtain ⟨s', rest', ss', k0, k1⟩ := h.cycle pf hi.mark ht hd
      refine ⟨s', rest', ss', ?_, k1⟩
      rcases k0 with rfl | ⟨e, e1, e2⟩
      · exact hi
      · exact hi.step (fun m t h => absurd h (e1 m t)) e2
    · cases hn
  | readFlag t =>
    simp only [FSys.next] at hn
    split at hn
    · rename_i hc
      simp only [Option.some.injEq, Prod.mk.injEq] at hn
      obtain ⟨rfl, rfl⟩ := hn
      have hs : s.next pf (.readFlag t) = some { s with now := t, stage := 1, rdFlag := s.hw.flag } := by
        simp only [Sys.next]
        rw [if_pos ⟨h.free hc.1, h.stage.symm.trans hc.2.1, by rw [← h.sm]; exact hc.2.2⟩]
      refine ⟨_, rest, ss, hi.step (fun m t h => by cases h) hs, ?_⟩
      rw [List.append_nil]
      exact ⟨h.sm, Nat.le_refl _, rfl, h.irq, h.rdFifo, h.rdDma, h.hw, h.core, h.phase, h.irq, h.time, h.bytes, h.apart, h.over, h.wave, h.cur, h.late, h.old, h.new⟩
    · cases hn
  | readFifo t =>
    simp only [FSys.next] at hn
    split at hn
    · rename_i hc
      simp only [Option.some.injEq, Prod.mk.injEq] at hn
      obtain ⟨rfl, rfl⟩ := hn
      have hcu : s.hw.caughtUp := by
        rcases hc.2.2 with hcu | hcu
        · exact .inl (h.hw.count.symm.trans hcu)
        · rw [h.hw.tx, List.length_map] at hcu; exact .inr hcu
      have hs : s.next pf (.readFifo t) = some { s with now := t, stage := 2, rdFifo := !s.hw.fifo.isEmpty } := by
        simp only [Sys.next]
        rw [if_pos ⟨h.free hc.1, h.stage.symm.trans hc.2.1, hcu⟩]
      refine ⟨_, rest, ss, hi.step (fun m t h => by cases h) hs, ?_⟩
      rw [List.append_nil]
      refine ⟨h.sm, Nat.le_refl _, rfl, h.rdFlag, ?_, h.rdDma, h.hw, h.core, h.phase, h.irq, h.time, h.bytes, h.apart, h.over, h.wave, h.cur, h.late, h.old, h.new⟩
      show (!f.dev.pio.tx.isEmpty) = !s.hw.fifo.isEmpty
      rw [h.hw.tx, List.isEmpty_map]
    · cases hn
  | readDma t =>
    simp only [FSys.next] at hn
    split at hn
    · rename_i hc
      simp only [Option.some.injEq, Prod.mk.injEq] at hn
      obtain ⟨rfl, rfl⟩ := hn
      have hs : s.next pf (.readDma t) = some { s with now := t, stage := 3, rdDma := s.hw.dmaBusy } := by
        simp only [Sys.next]
        rw [if_pos ⟨h.free hc.1, h.stage.symm.trans hc.2⟩]
      refine ⟨_, rest, ss, hi.step (fun m t h => by cases h) hs, ?_⟩
      rw [List.append_nil]
      refine ⟨h.sm, Nat.le_refl _, rfl, h.rdFlag, h.rdFifo, ?_, h.hw, h.core, h.phase, h.irq, h.time, h.bytes, h.apart, h.over, h.wave, h.cur, h.late, h.old, h.new⟩
      show f.dev.dmaBusy = s.hw.dmaBusy
      unfold TxDev.dmaBusy TxHw.dmaBusy
      rw [h.hw.count]
    · cases hn
  | update i =>
    simp only [FSys.next] at hn
    split at hn
    · rename_i hc
      obtain ⟨c1, c2, c3, c4, c5, c6⟩ := hc
      split at hn
      · rename_i r hu
        obtain ⟨sm', cmds⟩ := r
        simp only [Option.some.injEq, Prod.mk.injEq] at hn
        obtain ⟨rfl, rfl⟩ := hn
        rw [h.sm] at hu
        have hok : s.updateOk i := by
          refine ⟨?_, ?_, c3, c4, c5.trans h.hw.error, ?_⟩
          · have := h.free c1
            have hnow := h.now
            exact ⟨by omega, fun hw => by have := this.2 hw; omega⟩
          · have := h.now; omega
          · rw [← h.sm, ← h.stage, ← h.rdFlag, ← h.rdFifo, ← h.rdDma]; exact c6
        have hs : ∃ s', s.next pf (.update i) = some s' := by
          simp only [Sys.next, if_pos hok, hu]
          exact ⟨_, rfl⟩
        obtain ⟨s', hs⟩ := hs
        have hs0 := hs
        simp only [Sys.next, if_pos hok, hu, Option.some.injEq] at hs
        -- the hardware before the calls
        have hrel : HwRel (if f.sm.timedOutError i || f.sm.st.lineStateIsError i.busy || f.sm.isIdle then f.dev else { f.dev with error := false })
            (if s.sm.timedOutError i || s.sm.st.lineStateIsError i.busy || s.sm.isIdle then s.hw else { s.hw with error := false }) := by
          rw [h.sm]
          by_cases hb : (s.sm.timedOutError i || s.sm.st.lineStateIsError i.busy || s.sm.isIdle) = true
          · rw [if_pos hb, if_pos hb]; exact h.hw
          · rw [if_neg hb, if_neg hb]; exact ⟨rfl, h.hw.buf, h.hw.pos, h.hw.count, h.hw.pin, h.hw.tx⟩
        have hcore : (if f.sm.timedOutError i || f.sm.st.lineStateIsError i.busy || f.sm.isIdle then f.dev else { f.dev with error := false }).pio.core = f.dev.pio.core := by
          split <;> rfl
        have hkeep : HwKeep s.hw (if s.sm.timedOutError i || s.sm.st.lineStateIsError i.busy || s.sm.isIdle then s.hw else { s.hw with error := false }) := by
          split <;> exact ⟨rfl, rfl, rfl, rfl⟩
        obtain ⟨a1, a2, a3⟩ := hrel.applyAll cmds
        have a3 := a3.trans hcore
        have a2 : HwKeep s.hw (cmds.foldl TxHw.apply (if s.sm.timedOutError i || s.sm.st.lineStateIsError i.busy || s.sm.isIdle then s.hw else { s.hw with error := false })) :=
          ⟨a2.osr.trans hkeep.osr, a2.flag.trans hkeep.flag, a2.pulledAt.trans hkeep.pulledAt, a2.wire.trans hkeep.wire⟩
        generalize hD : (if f.sm.timedOutError i || f.sm.st.lineStateIsError i.busy || f.sm.isIdle then f.dev else { f.dev with error := false }) = D at *
        have hH : ∃ s1 : Sys, (if s.sm.timedOutError i || s.sm.st.lineStateIsError i.busy || s.sm.isIdle then s else { s with hw := { s.hw with error := false } }) = s1 ∧
            s1.hw = (if s.sm.timedOutError i || s.sm.st.lineStateIsError i.busy || s.sm.isIdle then s.hw else { s.hw with error := false }) ∧ s1.cur = s.cur ∧ s1.mark = s.mark ∧
            s1.rdFlag = s.rdFlag ∧ s1.rdFifo = s.rdFifo ∧ s1.rdDma = s.rdDma := by
          by_cases hb : (s.sm.timedOutError i || s.sm.st.lineStateIsError i.busy || s.sm.isIdle) = true
          · rw [if_pos hb, if_pos hb]; exact ⟨_, rfl, rfl, rfl, rfl, rfl, rfl, rfl⟩
          · rw [if_neg hb, if_neg hb]; exact ⟨_, rfl, rfl, rfl, rfl, rfl, rfl, rfl⟩
        obtain ⟨s1, e0, e1, e2, e3, e4, e5, e6⟩ := hH
        rw [e0] at hs
        rw [← e1] at a1 a2
        have hp : pinsOf (outs ++ cmds.map .cmd) = pinsOf outs := by rw [pinsOf_append, pinsOf_cmds, List.append_nil]
        have hwork : (cmds.foldl TxHw.apply s1.hw).working → s.hw.working := by
          unfold TxHw.working
          rw [a2.osr, a2.flag]
          exact id
        refine ⟨s', rest, ss, hi.step (fun m t h => by cases h) hs0, ?_⟩
        rcases update_sends hu with ⟨m, rfl⟩ | hno
        · obtain ⟨g1, g2, g3, g4⟩ := hi.handover hu hs0
          have hs : { s1.effect sm' [.send m] with now := i.tNew, stage := 0 } = s' := hs
          have hsm : s'.sm = sm' ∧ s'.now = i.tNew ∧ s'.stage = 0 ∧ s'.rdFlag = s.rdFlag ∧ s'.rdFifo = s.rdFifo ∧ s'.rdDma = s.rdDma ∧ s'.hw = [HwCmd.send m].foldl TxHw.apply s1.hw := by
            rw [← hs]
            simp only [Sys.effect, Sys.sentBy]
            exact ⟨trivial, trivial, trivial, e4, e5, e6, trivial⟩
          obtain ⟨m1, m2, m3, m4, m5, m6, m7⟩ := hsm
          have hh : handedAt 0 (0, []) (outs ++ [HwCmd.send m].map .cmd) = ((pinsOf outs).length, m.bytes) := by
            rw [handedAt_append, Nat.zero_add]; rfl
          have hosr : s.hw.osr = none := by
            unfold TxHw.pending at g3
            cases ho : s.hw.osr with
            | none => rfl
            | some b => rw [ho] at g3; cases g3
          have hrest : rest.length ≤ 1 := by
            have hph := h.phase
            generalize hx : s.hw.osr = osr at *
            generalize hy : s.hw.flag = fl at *
            cases hph with
            | idle => exact Nat.zero_le _
            | boot => exact Nat.le_refl _
            | pulled b => cases hosr
            | sending b j j1 j2 => cases g4
          have hsl : ss.length = s.hw.wire.length := by
            have := congrArg List.length h.bytes
            rw [List.length_map, hosr, List.length_append] at this
            exact this
          refine ⟨m1.symm, by rw [m2]; exact Nat.le_refl _, m3.symm, h.rdFlag.trans m4.symm, h.rdFifo.trans m5.symm, h.rdDma.trans m6.symm, by rw [m7]; exact a1, ?_, ?_, ?_, ?_, ?_, h.apart, ?_, ?_, ?_, ?_, ?_, ?_⟩
          · obtain ⟨y, o, k, l, hst, hl⟩ := h.core
            refine ⟨y, o, k, l, ?_, hl⟩
            show Core.steps uartTx rest.length ([HwCmd.send m].foldl TxDev.apply D).pio.core = _
            rw [a3]; exact hst
          · rw [m7, a2.osr, a2.flag]; exact h.phase
          · rw [m7, a2.flag]
            show ([HwCmd.send m].foldl TxDev.apply D).pio.core.irq = _
            rw [a3]; exact h.irq
          · rw [m7, a2.pulledAt]; intro hw; exact h.time (hwork hw)
          · rw [m7, a2.wire, a2.osr]; exact h.bytes
          · rw [hp]; exact h.over
          · rw [hp]; exact h.wave
          · rw [hh]; exact g1
          · rw [hh, hp]; exact Nat.le_refl _
          · rw [hh]
            intro x hx
            have := h.over x (List.mem_of_mem_take hx)
            show x.1 < (pinsOf outs).length
            omega
          · intro x hx
            rw [g2, ← hsl, List.drop_length] at hx
            cases hx
        · have hs : { s1.effect sm' cmds with now := i.tNew, stage := 0 } = s' := hs
          have hsm : s'.sm = sm' ∧ s'.now = i.tNew ∧ s'.stage = 0 ∧ s'.rdFlag = s.rdFlag ∧ s'.rdFifo = s.rdFifo ∧ s'.rdDma = s.rdDma ∧ s'.hw = cmds.foldl TxHw.apply s1.hw ∧ s'.cur = s.cur ∧ s'.mark = s.mark := by
            rw [← hs]
            simp only [Sys.effect, sentBy_none hno]
            exact ⟨trivial, trivial, trivial, e4, e5, e6, trivial, e2, e3⟩
          obtain ⟨m1, m2, m3, m4, m5, m6, m7, m8, m9⟩ := hsm
          have hh : handedAt 0 (0, []) (outs ++ cmds.map .cmd) = handedAt 0 (0, []) outs := by
            rw [handedAt_append, handedAt_cmds _ _ hno]
          refine ⟨m1.symm, by rw [m2]; exact Nat.le_refl _, m3.symm, h.rdFlag.trans m4.symm, h.rdFifo.trans m5.symm, h.rdDma.trans m6.symm, by rw [m7]; exact a1, ?_, ?_, ?_, ?_, ?_, h.apart, ?_, ?_, ?_, ?_, ?_, ?_⟩
          · obtain ⟨y, o, k, l, hst, hl⟩ := h.core
            refine ⟨y, o, k, l, ?_, hl⟩
            show Core.steps uartTx rest.length (cmds.foldl TxDev.apply D).pio.core = _
            rw [a3]; exact hst
          · rw [m7, a2.osr, a2.flag]; exact h.phase
          · rw [m7, a2.flag]
            show (cmds.foldl TxDev.apply D).pio.core.irq = _
            rw [a3]; exact h.irq
          · rw [m7, a2.pulledAt]; intro hw; exact h.time (hwork hw)
          · rw [m7, a2.wire, a2.osr]; exact h.bytes
          · rw [hp]; exact h.over
          · rw [hp]; exact h.wave
          · rw [hh, m8]; exact h.cur
          · rw [hh, hp]; exact h.late
          · rw [hh, m9]; exact h.old
          · rw [hh, m9]; exact h.new
      · cases hn
    · cases hn
  | call c =>
    simp only [FSys.next] at hn
    split at hn
    · rename_i h0
      have h0' : s.stage = 0 := h.stage.symm.trans h0
      cases c with
      | update i => cases hn
      | wake m t =>
        dsimp only at hn
        split at hn
        · rename_i ht
          simp only [Option.some.injEq, Prod.mk.injEq] at hn
          obtain ⟨rfl, rfl⟩ := hn
          have hs : s.next pf (.call (.wake m t)) = some { s with sm := (s.sm.wake m t).1, now := t } := by
            simp only [Sys.next, if_pos h0', if_pos (h.free ht)]
          refine ⟨_, rest, ss, hi.step (fun m' t' h => by cases h; exact he m t rfl) hs, ?_⟩
          rw [List.append_nil]
          refine ⟨?_, Nat.le_refl _, h.stage, h.rdFlag, h.rdFifo, h.rdDma, h.hw, h.core, h.phase, h.irq, h.time, h.bytes, h.apart, h.over, h.wave, h.cur, h.late, h.old, h.new⟩
          show (f.sm.wake m t).1 = (s.sm.wake m t).1
          rw [h.sm]
        · cases hn
      | error =>
        simp only [Option.some.injEq, Prod.mk.injEq] at hn
        obtain ⟨rfl, rfl⟩ := hn
        have hs : s.next pf (.call .error) = some { s with sm := s.sm.error.1 } := by
          simp only [Sys.next, if_pos h0']
        refine ⟨_, rest, ss, hi.step (fun m' t' h => by cases h) hs, ?_⟩
        rw [List.append_nil]
        refine ⟨?_, h.now, h.stage, h.rdFlag, h.rdFifo, h.rdDma, h.hw, h.core, h.phase, h.irq, h.time, h.bytes, h.apart, h.over, h.wave, h.cur, h.late, h.old, h.new⟩
        show f.sm.error.1 = s.sm.error.1
        rw [h.sm]
      | clearRx =>
        simp only [Option.some.injEq, Prod.mk.injEq] at hn
        obtain ⟨rfl, rfl⟩ := hn
        have hs : s.next pf (.call .clearRx) = some { s with sm := { s.sm with rxMsg := s.sm.rxMsg.clear } } := by
          simp only [Sys.next, if_pos h0']
        refine ⟨_, rest, ss, hi.step (fun m' t' h => by cases h) hs, ?_⟩
        rw [List.append_nil]
        refine ⟨?_, h.now, h.stage, h.rdFlag, h.rdFifo, h.rdDma, h.hw, h.core, h.phase, h.irq, h.time, h.bytes, h.apart, h.over, h.wave, h.cur, h.late, h.old, h.new⟩
        show ({ f.sm with rxMsg := f.sm.rxMsg.clear } : TxSM) = { s.sm with rxMsg := s.sm.rxMsg.clear }
        rw [h.sm]
    · cases hn
  | clearError =>
    simp only [FSys.next] at hn
    split at hn
    · rename_i h0
      simp only [Option.some.injEq, Prod.mk.injEq] at hn
      obtain ⟨rfl, rfl⟩ := hn
      have hs : s.next pf .clearError = some { s with hw := { s.hw with error := false } } := by
        simp only [Sys.next, if_pos (h.stage.symm.trans h0)]
      refine ⟨_, rest, ss, hi.step (fun m' t' h => by cases h) hs, ?_⟩
      rw [List.append_nil]
      exact ⟨h.sm, h.now, h.stage, h.rdFlag, h.rdFifo, h.rdDma, ⟨rfl, h.hw.buf, h.hw.pos, h.hw.count, h.hw.pin, h.hw.tx⟩, h.core, h.phase, h.irq, h.time, h.bytes, h.apart, h.over, h.wave,
        h.cur, h.late, h.old, h.new⟩
    · cases hn

theorem FInv.run (pf : Platform) : ∀ (es : List FEv) {f f' : FSys} {s : Sys} {outs o' : List FOut} {rest : List (Level × Bool)} {ss : List (Nat × UInt8)}, FInv f s outs rest ss → SysInv s →
    SendableFine es → f.run pf es = some (f', o') → ∃ s' rest' ss', SysInv s' ∧ FInv f' s' (outs ++ o') rest' ss' := by
  intro es
  induction es with
  | nil =>
    intro f f' s outs o' rest ss h hi _ hr
    simp only [FSys.run, Option.some.injEq, Prod.mk.injEq] at hr
    obtain ⟨rfl, rfl⟩ := hr
    rw [List.append_nil]
    exact ⟨s, rest, ss, hi, h⟩
  | cons e es ih =>
    intro f f' s outs o' rest ss h hi he hr
    rw [FSys.run, Option.bind_eq_some_iff] at hr
    obtain ⟨⟨f1, o1⟩, e1, hr⟩ := hr
    rw [Option.map_eq_some_iff] at hr
    obtain ⟨⟨f2, o2⟩, e2, hr⟩ := hr
    simp only [Prod.mk.injEq] at hr
    obtain ⟨rfl, rfl⟩ := hr
    obtain ⟨s1, rest1, ss1, i1, g1⟩ := h.step pf hi (fun m t h => he m t (h ▸ List.mem_cons_self ..)) e1
    rw [← List.append_assoc]
    exact ih g1 i1 (fun m t hm => he m t (List.mem_cons_of_mem _ hm)) e2

/-- **C119.** The transmitter object on the cycle accurate hardware, in every interleaving of software, DMA and PIO cycles, with aborted transmissions: there are frames `ss` such that the pins show in each cycle
exactly these frames and are idle otherwise, and the bytes of the frames that start after the last message was handed over are a prefix of that message. -/
theorem C119_no_stale_frames (pf : Platform) (g : Nat → UInt8) (es : List FEv) (hm : SendableFine es) (f : FSys) (outs : List FOut) (hr : (FSys.init g).run pf es = some (f, outs)) :
    ∃ ss, FramesApart ss ∧ (∀ k, k < (pinsOf outs).length → (pinsOf outs)[k]? = some (wireAt ss k)) ∧
      bytesSince (handedAt 0 (0, []) outs).1 ss <+: (handedAt 0 (0, []) outs).2 := by
  obtain ⟨s, rest, ss, hi, h⟩ := FInv.run pf es (FInv.init g) (SysInv.init g) hm hr
  rw [List.nil_append] at h
  refine ⟨ss, h.apart, fun k hk => ?_, ?_⟩
  · have := h.wave k (by omega)
    rw [List.getElem?_append_left hk] at this
    exact this
  · have e : ss.filter (fun x => decide ((handedAt 0 (0, []) outs).1 ≤ x.1)) = ss.drop s.mark := by
      conv => lhs; rw [← List.take_append_drop s.mark ss]
      rw [List.filter_append, List.filter_eq_nil_iff.mpr, List.nil_append, List.filter_eq_self]
      · intro x hx; exact decide_eq_true (h.new x hx)
      · intro x hx; have := h.old x hx; simp; omega
    unfold bytesSince
    rw [e, List.map_drop, h.bytes, ← h.cur, List.drop_append_of_le_length hi.mark]
    refine List.IsPrefix.trans ?_ hi.pre
    refine ⟨s.hw.fifo ++ s.hw.dmaBytes, ?_⟩
    unfold TxHw.pending
    simp [List.append_assoc]

/-- **C119, never refused.** The driver never reports an error if only messages of 1 to 32 bytes are requested. -/
theorem C119_never_refused (pf : Platform) (g : Nat → UInt8) (es : List FEv) (hm : SendableFine es) (f : FSys) (outs : List FOut) (hr : (FSys.init g).run pf es = some (f, outs)) :
    f.dev.error = false := by
  obtain ⟨s, rest, ss, hi, h⟩ := FInv.run pf es (FInv.init g) (SysInv.init g) hm hr
  exact h.hw.error.trans hi.err

/-! ## Cases that meet the hypotheses -/

/-- Cycles every 7 us. -/
def cyclesAt (a n : Nat) : List FEv := (List.range n).map fun k => .cycle (7 * (a + k))

/-- A message of three bytes. -/
def msg3 : Message := { status := 0, time := 0, data := fun k => if k = 0 then 0x40 else if k = 1 then 0xf0 else 0x00, length := 3 }

/-- A message of three bytes is handed over after the 32 ms of power on; the transmitter gives up after 2 ms (no echo); a second message is requested; the three registers are read around the moment when
the program takes the third byte from the FIFO, and all read idle; the amplifier is powered. -/
def staleFine : List FEv :=
  [.call (.wake msg3 0), .readFlag 1, .readFifo 2, .readDma 3, .update (upd0 6 false)] ++ cyclesAt 1 4573 ++ [.update (upd0 32012 false), .dma, .dma, .dma] ++ cyclesAt 4574 286 ++
    [.update (upd0 34014 false), .call (.wake demoMsg 34014)] ++ cyclesAt 4860 64 ++ [.readFlag 34462] ++ cyclesAt 4924 1 ++ [.readFifo 34469, .readDma 34470, .update (upd0 34471 false)] ++ cyclesAt 4925 8

set_option synthInstance.maxSize 1000 in
set_option synthInstance.maxHeartbeats 200000 in
set_option maxRecDepth 100000 in
theorem staleFine_seen : ((FSys.init fun _ => 0).run .arm staleFine).map (fun r => (r.1.sm.st, r.1.dev.pin, handedAt 0 (0, []) r.2, (pinsOf r.2).drop 4922)) =
    some (.waitPowerOn, false, (4573, [0x40, 0xf0, 0x00]), List.replicate 2 (.mid, false) ++ List.replicate 8 (.up, true)) := by decide +kernel

/-- **C77 is violated, down to the pins**: the registers read idle and the amplifier is powered (pin low), then the start bit of the third byte of the aborted message is on the pins.  (It is a byte of the message
handed over last: C119 holds; the new message has not been handed over yet.) -/
theorem C77_refuted_pins : ∃ f outs, (FSys.init fun _ => 0).run .arm staleFine = some (f, outs) ∧ f.sm.st = .waitPowerOn ∧ f.dev.pin = false ∧
    (pinsOf outs).drop 4922 = List.replicate 2 (.mid, false) ++ List.replicate 8 (.up, true) ∧ SendableFine staleFine := by
  have h := staleFine_seen
  rw [Option.map_eq_some_iff] at h
  obtain ⟨⟨f, outs⟩, h1, h2⟩ := h
  simp only [Prod.mk.injEq] at h2
  refine ⟨f, outs, h1, h2.1, h2.2.1, h2.2.2.2, fun m t hmem => ?_⟩
  have hc : ∀ a n, FEv.call (.wake m t) ∉ cyclesAt a n := by
    intro a n h
    obtain ⟨k, -, h⟩ := List.mem_map.mp h
    cases h
  unfold staleFine at hmem
  simp only [List.mem_append, hc, or_false, List.mem_cons, List.not_mem_nil, FEv.call.injEq, TxCall.wake.injEq, reduceCtorEq, false_or] at hmem
  rcases hmem with ⟨rfl, -⟩ | ⟨rfl, -⟩
  · exact ⟨by decide, by decide⟩
  · exact ⟨by decide, by decide⟩

end P1P2
