import Verif.Proofs.Core1
import Verif.Props.Adc
import Verif.Props.Rx
import Verif.Spec.Core1
/-!
# C41, C50-C52: the receive core
-/
namespace P1P2

/-! ## C41: no undefined behaviour -/

/-- A run of the receive side; the outputs of the iterations of core 1 are collected. -/
def RxSystem.run (S : Nat) (s : RxSystem) : List RxEv → Res (RxSystem × List C1Out)
  | [] => .ok (s, [])
  | e :: es => do
    let r ← s.step S e
    let q ← RxSystem.run S r.1 es
    .ok (q.1, r.2.toList ++ q.2)

/-- The samples that arrive with an event are differences of two 8 bit conversions. -/
def RxEv.InRange : RxEv → Prop
  | .transfer v => -256 ≤ v ∧ v ≤ 255
  | .iterate _ late => ∀ v ∈ late, -256 ≤ v ∧ v ≤ 255

/-- Ring contents and gain. -/
structure Adc.Ok (a : Adc) : Prop where
  data : SampleRange a.data
  gain : a.gain = 4992

theorem Adc.Ok.write {a : Adc} (h : a.Ok) {v : Int} (hv : -256 ≤ v ∧ v ≤ 255) : (a.write v).Ok := by
  unfold Adc.write
  split
  · exact h
  · refine ⟨fun k => ?_, h.gain⟩
    show -256 ≤ upd a.data a.wp v k ∧ upd a.data a.wp v k ≤ 255
    unfold upd
    split
    · exact hv
    · exact h.data k

theorem Adc.Ok.writes {vs : List Int} (hv : ∀ v ∈ vs, -256 ≤ v ∧ v ≤ 255) : ∀ {a : Adc}, a.Ok → (vs.foldl Adc.write a).Ok := by
  induction vs with
  | nil => intro a h; exact h
  | cons v vs ih => intro a h; exact ih (fun w hw => hv w (List.mem_cons_of_mem _ hw)) (h.write (hv v (List.mem_cons_self ..)))

theorem Adc.Ok.value {a : Adc} (h : a.Ok) : ∃ v, a.value = .ok v ∧ -9984 ≤ v ∧ v ≤ 9984 := by
  have h1 := h.data (a.off % 256); have h2 := h.data ((a.off + 254) % 256); have h3 := h.data ((a.off + 255) % 256)
  unfold Adc.value
  rw [rd_of_lt _ (Nat.mod_lt _ (by decide)), rd_of_lt _ (Nat.mod_lt _ (by decide)), rd_of_lt _ (Nat.mod_lt _ (by decide))]
  simp only [Res.ok_bind, h.gain]
  rw [value_ok h1 h2 h3 (by decide)]
  have hr := tdiv2_range (x := a.data (a.off % 256) + a.data ((a.off + 254) % 256)) (by omega)
  exact ⟨_, rfl, by omega, by omega⟩

theorem Adc.Ok.update {a : Adc} (h : a.Ok) {late : List Int} (hl : ∀ v ∈ late, -256 ≤ v ∧ v ≤ 255) :
    ∃ a' o, a.update late = .ok (a', o) ∧ a'.Ok ∧ ∀ v, o = some v → -9984 ≤ v ∧ v ≤ 9984 := by
  unfold Adc.update
  have h1 : (if a.tcHw = 0 then a.restart else a).Ok := by
    split
    · exact ⟨h.data, h.gain⟩
    · exact h
  generalize (if a.tcHw = 0 then a.restart else a) = b at *
  dsimp only
  split
  · exact ⟨b, none, rfl, h1, fun v hv => by cases hv⟩
  · have h2 : ∀ (e : Bool) (t : Nat), ({ ({ b with err := e } : Adc) with tc := t } : Adc).Ok := fun e t => ⟨h1.data, h1.gain⟩
    obtain ⟨v, hv, hb⟩ := ((h2 (b.err || decide (256 ≤ (b.tc + 4294967296 - b.tcHw) % 4294967296))
      ((b.tc + 4294967295) % 4294967296)).writes hl).value
    rw [hv]
    have h3 := (h2 (b.err || decide (256 ≤ (b.tc + 4294967296 - b.tcHw) % 4294967296))
      ((b.tc + 4294967295) % 4294967296)).writes hl
    exact ⟨_, some v, rfl, ⟨h3.data, h3.gain⟩, fun w hw => by cases hw; exact hb⟩

theorem rx_step_ok {S : Nat} (hS : 8 ≤ S) {s : RxSystem} (ha : s.adc.Ok) (hc : s.core.Ok S) {e : RxEv} (he : e.InRange) :
    ∃ s' o, s.step S e = .ok (s', o) ∧ s'.adc.Ok ∧ s'.core.Ok S := by
  cases e with
  | transfer v => exact ⟨_, _, rfl, ha.write he, hc⟩
  | iterate ready late =>
    obtain ⟨a', o, h1, h2, h3⟩ := ha.update he
    unfold RxSystem.step
    simp only [h1, Res.ok_bind]
    cases o with
    | none =>
      obtain ⟨c', q, g1, g2⟩ := hc.step hS (i := { ready := ready, adc := .none }) trivial
      simp only [g1, Res.ok_bind]
      exact ⟨_, _, rfl, h2, g2⟩
    | some v =>
      dsimp only
      split
      · obtain ⟨c', q, g1, g2⟩ := hc.step hS (i := { ready := ready, adc := .error }) trivial
        simp only [g1, Res.ok_bind]
        exact ⟨_, _, rfl, ⟨h2.data, h2.gain⟩, g2⟩
      · obtain ⟨c', q, g1, g2⟩ := hc.step hS (i := { ready := ready, adc := .sample v }) (h3 v rfl)
        simp only [g1, Res.ok_bind]
        exact ⟨_, _, rfl, ⟨h2.data, h2.gain⟩, g2⟩

/-- **C41.** Whatever the ring of the ADC and `rx_error` contain at the start, whatever samples the conversion delivers,
and however DMA transfers and iterations of the loop are interleaved (including arbitrary delays of the loop and
overruns): the receive side never overflows a signed integer and never reads or writes outside an array. -/
theorem C41_no_undefined {S : Nat} (hS : 8 ≤ S) (ring : Nat → Int) (hr : SampleRange ring) (rxErr : Bool) (es : List RxEv)
    (he : ∀ e ∈ es, e.InRange) : ∃ s outs, RxSystem.run S (RxSystem.init ring rxErr) es = .ok (s, outs) := by
  have key : ∀ (es : List RxEv) (s : RxSystem), (∀ e ∈ es, e.InRange) → s.adc.Ok → s.core.Ok S →
      ∃ s' outs, RxSystem.run S s es = .ok (s', outs) := by
    intro es
    induction es with
    | nil => intro s _ _ _; exact ⟨_, _, rfl⟩
    | cons e es ih =>
      intro s he ha hc
      obtain ⟨s1, o, h1, h2, h3⟩ := rx_step_ok hS ha hc (he e (List.mem_cons_self ..))
      obtain ⟨s2, outs, h4⟩ := ih s1 (fun x hx => he x (List.mem_cons_of_mem _ hx)) h2 h3
      exact ⟨s2, o.toList ++ outs, by simp only [RxSystem.run, h1, Res.ok_bind, h4]⟩
  exact key es _ he ⟨hr, rfl⟩ (Core1.Ok.init S rxErr)

/-- The samples that the conversion programs produce are in range (`Pio.sampleValue`, C39/C40). -/
theorem C41_conversion (k : Nat) (b : UInt8) : (RxEv.transfer (Pio.sampleValue k b)).InRange := by
  have := b.toNat_lt
  show -256 ≤ Pio.sampleValue k b ∧ Pio.sampleValue k b ≤ 255
  unfold Pio.sampleValue
  split <;> omega

/-! ## Runs of the loop of core 1 -/

/-- A run of the loop of core 1. -/
def Core1.run (S : Nat) (c : Core1) : List C1In → Res (Core1 × List C1Out)
  | [] => .ok (c, [])
  | i :: is => do
    let r ← c.step S i
    let q ← Core1.run S r.1 is
    .ok (q.1, r.2 :: q.2)

/-- The receive side contains a run of core 1 with the same outputs. -/
theorem rx_core {S : Nat} : ∀ (es : List RxEv) {s s' : RxSystem} {outs : List C1Out}, RxSystem.run S s es = .ok (s', outs) →
    ∃ is, Core1.run S s.core is = .ok (s'.core, outs) := by
  intro es
  induction es with
  | nil =>
    intro s s' outs h
    simp only [RxSystem.run, Res.ok.injEq, Prod.mk.injEq] at h
    exact ⟨[], by rw [← h.1, ← h.2]; rfl⟩
  | cons e es ih =>
    intro s s' outs h
    rw [RxSystem.run, Res.bind_eq_ok] at h
    obtain ⟨⟨s1, o⟩, h1, h⟩ := h
    rw [Res.bind_eq_ok] at h
    obtain ⟨⟨s2, l⟩, h2, h⟩ := h
    simp only [Res.ok.injEq, Prod.mk.injEq] at h
    obtain ⟨is, h3⟩ := ih h2
    rw [h.1] at h3
    have cons : ∀ i c o1, s.core.step S i = .ok (c, o1) → s1.core = c → o = some o1 →
        ∃ is, Core1.run S s.core is = .ok (s'.core, outs) := by
      intro i c o1 q1 q2 q3
      refine ⟨i :: is, ?_⟩
      rw [q2] at h3
      simp only [Core1.run, q1, Res.ok_bind, h3, Res.ok.injEq, Prod.mk.injEq, true_and]
      rw [← h.2, q3]; rfl
    cases e with
    | transfer v =>
      simp only [RxSystem.step, Res.ok.injEq, Prod.mk.injEq] at h1
      refine ⟨is, ?_⟩
      rw [← h1.1] at h3
      rw [← h.2, ← h1.2]
      exact h3
    | iterate ready late =>
      rw [RxSystem.step, Res.bind_eq_ok] at h1
      obtain ⟨⟨a, v⟩, -, h1⟩ := h1
      cases v with
      | none =>
        simp only at h1
        rw [Res.bind_eq_ok] at h1
        obtain ⟨⟨c, o1⟩, q, h1⟩ := h1
        simp only [Res.ok.injEq, Prod.mk.injEq] at h1
        exact cons _ c o1 q (by rw [← h1.1]) h1.2.symm
      | some v =>
        simp only at h1
        split at h1
        · rw [Res.bind_eq_ok] at h1
          obtain ⟨⟨c, o1⟩, q, h1⟩ := h1
          simp only [Res.ok.injEq, Prod.mk.injEq] at h1
          exact cons _ c o1 q (by rw [← h1.1]) h1.2.symm
        · rw [Res.bind_eq_ok] at h1
          obtain ⟨⟨c, o1⟩, q, h1⟩ := h1
          simp only [Res.ok.injEq, Prod.mk.injEq] at h1
          exact cons _ c o1 q (by rw [← h1.1]) h1.2.symm

/-! ## C52: the words -/

/-- **C52.** Unpacking a packed word gives back all fields. -/
theorem C52_roundtrip (w : Word) : Word.ofRaw w.raw = w ∧ w.raw < 2 ^ 32 := by
  obtain ⟨b, v, e, l, f, d⟩ := w
  have key : ∀ (b : UInt8) (v e l f d : Bool), Word.ofRaw (Word.raw ⟨b, v, e, l, f, d⟩) = ⟨b, v, e, l, f, d⟩ := by
    intro b
    revert b
    set_option maxRecDepth 8000 in
    refine forall_u8 ?_
    decide +kernel
  refine ⟨key b v e l f d, ?_⟩
  have := b.toNat_lt
  cases v <;> cases e <;> cases l <;> cases f <;> cases d <;> simp [Word.raw] <;> omega

/-- **C52.** The word 0, which is not sent, is the one without any event and character 0. -/
theorem C52_zero (w : Word) : w.raw = 0 ↔ w = .zero := by
  constructor
  · intro h
    rw [← (C52_roundtrip w).1, h]; decide
  · intro h; rw [h]; decide

/-! ## Core 1 behind the DC blocker -/

/-- The state behind the DC blocker. -/
structure C1Tail where
  back : RxBack
  rxErr : Bool
  busy : Bool
  idle : Int

def Core1.tail (c : Core1) : C1Tail := { back := c.back, rxErr := c.rxErr, busy := c.busy, idle := c.idle }

/-- The core with this state and nothing to send. -/
def C1Tail.core (t : C1Tail) (f : RxFront) : Core1 :=
  { word := .zero, front := f, back := t.back, rxErr := t.rxErr, busy := t.busy, idle := t.idle }

/-- What one sample leads to: the state of the receiver that the busy detection sees, and the word. -/
structure AcOut where
  receiving : Bool
  word : Word

/-- One sample from the level detector on (main.cpp:165-201 with `Core1Data` 0 at the start). -/
def C1Tail.step (S : Nat) (t : C1Tail) (a : Int) : Res (C1Tail × AcOut) := do
  let c ← (t.core .init).ac S a
  .ok (c.tail, { receiving := t.back.uart.receiving, word := c.word })

/-- A run. -/
def C1Tail.run (S : Nat) (t : C1Tail) : List Int → Res (C1Tail × List AcOut)
  | [] => .ok (t, [])
  | a :: as => do
    let r ← t.step S a
    let q ← C1Tail.run S r.1 as
    .ok (q.1, r.2 :: q.2)

theorem detect_uart {c c' : RxBack} {x p : Int} (h : c.detect x = .ok (c', p)) : c'.uart = c.uart := by
  rw [RxBack.detect, Res.bind_eq_ok] at h
  obtain ⟨l, -, h⟩ := h
  rw [Res.bind_eq_ok] at h
  obtain ⟨b, -, h⟩ := h
  simp only [Res.ok.injEq, Prod.mk.injEq] at h
  rw [← h.1]

theorem busyStep_back (c : Core1) (b : RxBack) (r : Bool) :
    Core1.busyStep { c with back := b } r = { c.busyStep r with back := b } := by
  unfold Core1.busyStep
  split
  · split <;> rfl
  · split
    · split <;> rfl
    · rfl

/-- What `ac` does, without assumptions on the state. -/
theorem ac_iff {S : Nat} {c c' : Core1} {a : Int} : c.ac S a = .ok c' ↔
    ∃ b o, c.back.step S c.rxErr a = .ok (b, o) ∧
      c' = { c.busyStep c.back.uart.receiving with
        back := b
        rxErr := (match o with | none => c.rxErr | some r => r.2)
        word := (c.busyStep c.back.uart.receiving).word.addResult o } := by
  have h3 := (busyStep_front c c.back.uart.receiving).2.2
  unfold Core1.ac RxBack.step
  cases hd : c.back.detect a with
  | ub => simp
  | ok d =>
    obtain ⟨d, p⟩ := d
    have hu := detect_uart hd
    simp only [Res.ok_bind, hu, busyStep_back, h3]
    cases hr : d.decode S c.rxErr p with
    | ub => simp
    | ok r =>
      obtain ⟨b, o⟩ := r
      simp only [Res.ok_bind]
      cases o with
      | none =>
        simp only [Res.ok.injEq, Prod.mk.injEq]
        constructor
        · intro h
          exact ⟨b, none, ⟨rfl, rfl⟩, by rw [← h, ← h3]; rfl⟩
        · rintro ⟨b', o', ⟨rfl, rfl⟩, rfl⟩
          rw [← h3]; rfl
      | some r =>
        obtain ⟨x, e⟩ := r
        simp only [Res.ok.injEq, Prod.mk.injEq]
        constructor
        · intro h
          exact ⟨b, some (x, e), ⟨rfl, rfl⟩, by rw [← h]; rfl⟩
        · rintro ⟨b', o', ⟨rfl, rfl⟩, rfl⟩
          rfl

theorem busyStep_front' (c : Core1) (f : RxFront) (r : Bool) :
    Core1.busyStep { c with front := f } r = { c.busyStep r with front := f } := by
  unfold Core1.busyStep
  split
  · split <;> rfl
  · split
    · split <;> rfl
    · rfl

theorem ac_front {S : Nat} {c c' : Core1} {a : Int} (f : RxFront) (h : c.ac S a = .ok c') :
    Core1.ac S { c with front := f } a = .ok { c' with front := f } := by
  rw [ac_iff] at h ⊢
  obtain ⟨b, o, h1, h2⟩ := h
  refine ⟨b, o, h1, ?_⟩
  subst h2
  simp only [busyStep_front']

theorem ac_tail {S : Nat} {t : C1Tail} {f : RxFront} {c' : Core1} {a : Int} (h : (t.core f).ac S a = .ok c') :
    t.step S a = .ok (c'.tail, { receiving := t.back.uart.receiving, word := c'.word }) ∧ c'.front = f := by
  have h2 := ac_front .init h
  constructor
  · unfold C1Tail.step
    rw [show t.core .init = { t.core f with front := .init } from rfl, h2]
    rfl
  · rw [ac_iff] at h
    obtain ⟨b, o, -, h⟩ := h
    rw [h]
    exact (busyStep_front _ _).1

/-- The words core 1 tried to send. -/
def sent (outs : List C1Out) : List Word := outs.filterMap C1Out.word

/-- The samples that entered the signal chain. -/
def samplesOf (is : List C1In) : List Int :=
  is.filterMap fun i => match i.adc with | .sample v => some v | _ => none

/-- The signal chain up to the DC blocker. -/
def RxFront.run (f : RxFront) : List Int → Res (RxFront × List Int)
  | [] => .ok (f, [])
  | v :: vs => do
    let r ← f.step v
    let q ← RxFront.run r.1 vs
    .ok (q.1, r.2.toList ++ q.2)

/-- The signal chain behind the DC blocker: the results of the UART; `err` is the variable `rx_error`. -/
def RxBack.run (S : Nat) (b : RxBack) (err : Bool) : List Int → Res (RxBack × List (UInt8 × Bool))
  | [] => .ok (b, [])
  | a :: as => do
    let r ← b.step S err a
    let q ← RxBack.run S r.1 (match r.2 with | none => err | some x => x.2) as
    .ok (q.1, r.2.toList ++ q.2)

theorem send_eq (c : Core1) (r : Bool) : (c.send r).1 = { c with word := .zero } ∧
    ∀ {β : Type} (f : Word → List β), f .zero = [] → ((c.send r).2.1.toList).flatMap f = f c.word := by
  unfold Core1.send
  split
  · exact ⟨rfl, fun f h => by simp⟩
  · next h =>
    have hz : c.word = .zero := (C52_zero _).mp (by simpa using h)
    refine ⟨?_, fun f h => by rw [hz, h]; rfl⟩
    rw [← hz]

theorem filterMap_cons' {α β : Type} (f : α → Option β) (a : α) (l : List α) :
    (a :: l).filterMap f = (f a).toList ++ l.filterMap f := by
  rw [List.filterMap_cons]
  cases f a <;> rfl

/-- A run of core 1 is a run of the part behind the DC blocker, on the samples the front delivers. -/
theorem run_ac {S : Nat} : ∀ (is : List C1In) {c c' : Core1} {outs : List C1Out}, c.run S is = .ok (c', outs) →
    ∃ xs tr, RxFront.run c.front (samplesOf is) = .ok (c'.front, xs) ∧ c.tail.run S xs = .ok (c'.tail, tr) ∧
      ∀ {β : Type} (f : Word → List β), f .zero = [] → (f { Word.zero with dadcError := true } = [] ∨ ∀ i ∈ is, i.adc ≠ .error) →
        (sent outs).flatMap f ++ f c'.word = f c.word ++ (tr.map AcOut.word).flatMap f := by
  intro is
  induction is with
  | nil =>
    intro c c' outs h
    simp only [Core1.run, Res.ok.injEq, Prod.mk.injEq] at h
    refine ⟨[], [], ?_, ?_, ?_⟩
    · rw [← h.1]; rfl
    · rw [← h.1]; rfl
    · intro β f hf _
      rw [← h.1, ← h.2]; simp [sent]
  | cons i is ih =>
    intro c c' outs h
    rw [Core1.run, Res.bind_eq_ok] at h
    obtain ⟨⟨c1, o⟩, h1, h⟩ := h
    rw [Res.bind_eq_ok] at h
    obtain ⟨⟨c2, l⟩, h2, h⟩ := h
    simp only [Res.ok.injEq, Prod.mk.injEq] at h
    obtain ⟨rfl, rfl⟩ := h
    obtain ⟨xs, tr, g1, g2, g3⟩ := ih h2
    obtain ⟨e1, e2⟩ := send_eq c i.ready
    have hsent : ∀ {β : Type} (f : Word → List β), f .zero = [] → o.word = (c.send i.ready).2.1 →
        (sent (o :: l)).flatMap f = f c.word ++ (sent l).flatMap f := by
      intro β f hf ho
      rw [sent, filterMap_cons', List.flatMap_append, ho, e2 f hf]; rfl
    unfold Core1.step at h1
    simp only [e1] at h1
    cases ha : i.adc with
    | none =>
      rw [ha] at h1
      simp only [Res.ok.injEq, Prod.mk.injEq] at h1
      obtain ⟨rfl, rfl⟩ := h1
      refine ⟨xs, tr, ?_, g2, ?_⟩
      · rw [show samplesOf (i :: is) = samplesOf is by simp [samplesOf, ha]]; exact g1
      · intro β f hf hf2
        rw [hsent f hf rfl, List.append_assoc, g3 f hf (hf2.imp_right fun h j hj => h j (List.mem_cons_of_mem _ hj))]
        dsimp only; rw [hf, List.nil_append]
    | error =>
      rw [ha] at h1
      simp only [Res.ok.injEq, Prod.mk.injEq] at h1
      obtain ⟨rfl, rfl⟩ := h1
      refine ⟨xs, tr, ?_, g2, ?_⟩
      · rw [show samplesOf (i :: is) = samplesOf is by simp [samplesOf, ha]]; exact g1
      · intro β f hf hf2
        have hf2 : f { Word.zero with dadcError := true } = [] := hf2.resolve_right fun h => h i (List.mem_cons_self ..) ha
        rw [hsent f hf rfl, List.append_assoc, g3 f hf (Or.inl hf2)]
        dsimp only; rw [hf2, List.nil_append]
    | sample v =>
      rw [ha] at h1
      simp only at h1
      rw [Res.bind_eq_ok] at h1
      obtain ⟨c3, h1, h4⟩ := h1
      simp only [Res.ok.injEq, Prod.mk.injEq] at h4
      obtain ⟨rfl, rfl⟩ := h4
      rw [Core1.sample, Res.bind_eq_ok] at h1
      obtain ⟨⟨f', oa⟩, h5, h1⟩ := h1
      have hs : samplesOf (i :: is) = v :: samplesOf is := by simp [samplesOf, ha]
      dsimp only at h5
      cases oa with
      | none =>
        simp only [Res.ok.injEq] at h1
        subst h1
        dsimp only at g1 g3
        refine ⟨xs, tr, ?_, g2, ?_⟩
        · rw [hs, RxFront.run]
          simp only [h5, Res.ok_bind, g1]
          rfl
        · intro β f hf hf2
          rw [hsent f hf rfl, List.append_assoc, g3 f hf (hf2.imp_right fun h j hj => h j (List.mem_cons_of_mem _ hj)), hf, List.nil_append]
      | some a =>
        dsimp only at h1
        obtain ⟨q1, q2⟩ := ac_tail (t := c.tail) (f := f') h1
        rw [q2] at g1
        refine ⟨a :: xs, { receiving := c.back.uart.receiving, word := c3.word } :: tr, ?_, ?_, ?_⟩
        · rw [hs, RxFront.run]
          simp only [h5, Res.ok_bind, g1]
          rfl
        · rw [C1Tail.run, q1]
          simp only [Res.ok_bind, g2]
          rfl
        · intro β f hf hf2
          rw [hsent f hf rfl, List.append_assoc, g3 f hf (hf2.imp_right fun h j hj => h j (List.mem_cons_of_mem _ hj)), List.map_cons, List.flatMap_cons]

/-- The result a word carries. -/
def Word.result (w : Word) : List (UInt8 × Bool) := if w.rxValid || w.rxError then [(w.rxChar, w.rxError)] else []

/-- Well-formed words: a character is either valid or wrong, the line does not become busy and free at once, and the ADC
error comes alone. -/
structure Word.Wf (w : Word) : Prop where
  char : ¬ (w.rxValid = true ∧ w.rxError = true)
  none : w.rxValid = false → w.rxError = false → w.rxChar = 0
  line : ¬ (w.lineBusy = true ∧ w.lineFree = true)
  adc : w.dadcError = true → w = { Word.zero with dadcError := true }

theorem Word.Wf.zero : Word.zero.Wf := ⟨by decide, by decide, by decide, by decide⟩

theorem Word.Wf.adcError : ({ Word.zero with dadcError := true } : Word).Wf := ⟨by decide, by decide, by decide, by decide⟩

theorem send_word {c : Core1} (h : c.word.raw ≠ 0) (r : Bool) : (c.send r).2.1 = some c.word := by
  unfold Core1.send; rw [if_pos h]

/-- The word after the busy detection, if it was empty before. -/
theorem busyStep_word (t : C1Tail) (f : RxFront) (r : Bool) : ∃ b, (t.core f).busyStep r =
    { (t.core f) with
      busy := (match b with | none => t.busy | some x => x)
      idle := ((t.core f).busyStep r).idle
      word := { Word.zero with lineBusy := b == some true, lineFree := b == some false } } ∧
    (b = some true ↔ t.busy = false ∧ r = true) ∧ (b = some false ↔ t.busy = true ∧ r = false ∧ ¬ t.idle > 0) := by
  unfold Core1.busyStep
  cases r <;> cases h : t.busy <;> simp only [C1Tail.core, h, if_true, Bool.false_eq_true, if_false]
  · exact ⟨none, rfl, by simp, by simp⟩
  · split
    · exact ⟨none, rfl, by simp, by simp; omega⟩
    · exact ⟨some false, rfl, by simp, by simp; omega⟩
  · exact ⟨some true, rfl, by simp, by simp⟩
  · exact ⟨none, rfl, by simp, by simp⟩

/-- One sample: what is in the word, and the new state of the busy detection. -/
theorem tail_step {S : Nat} {t t' : C1Tail} {a : Int} {o : AcOut} (h : t.step S a = .ok (t', o)) :
    ∃ b r, t.back.step S t.rxErr a = .ok (t'.back, r) ∧ o.receiving = t.back.uart.receiving ∧
      t'.rxErr = (match r with | none => t.rxErr | some r => r.2) ∧
      t'.busy = (match b with | none => t.busy | some x => x) ∧
      o.word = Word.addResult { Word.zero with lineBusy := b == some true, lineFree := b == some false } r ∧
      (b = some true ↔ t.busy = false ∧ o.receiving = true) ∧
      (b = some false ↔ t.busy = true ∧ o.receiving = false ∧ ¬ t.idle > 0) ∧
      t'.idle = (if o.receiving then (if t.busy then t.idle else 176) else if t.busy ∧ t.idle > 0 then t.idle - 1 else t.idle) := by
  rw [C1Tail.step, Res.bind_eq_ok] at h
  obtain ⟨c, h1, h2⟩ := h
  simp only [Res.ok.injEq, Prod.mk.injEq] at h2
  rw [ac_iff] at h1
  obtain ⟨b', r, h3, h4⟩ := h1
  obtain ⟨b, h5, h6, h7⟩ := busyStep_word t .init t.back.uart.receiving
  obtain ⟨rfl, rfl⟩ := h2
  have hi : ((t.core .init).busyStep t.back.uart.receiving).idle =
      (if t.back.uart.receiving then (if t.busy then t.idle else 176) else if t.busy ∧ t.idle > 0 then t.idle - 1 else t.idle) := by
    unfold Core1.busyStep C1Tail.core
    cases t.back.uart.receiving <;> cases t.busy <;> simp
    split <;> rfl
  rw [show (t.core .init).back = t.back from rfl] at h4
  rw [h5] at h4
  subst h4
  exact ⟨b, r, h3, rfl, rfl, rfl, rfl, h6, h7, hi⟩

theorem addResult_result (b : Option Bool) (r : Option (UInt8 × Bool)) :
    (Word.addResult { Word.zero with lineBusy := b == some true, lineFree := b == some false } r).result = r.toList := by
  cases r with
  | none => rfl
  | some r => obtain ⟨x, e⟩ := r; cases e <;> rfl

theorem addResult_wf (b : Option Bool) (r : Option (UInt8 × Bool)) :
    (Word.addResult { Word.zero with lineBusy := b == some true, lineFree := b == some false } r).Wf := by
  cases r with
  | none => constructor <;> (rcases b with _ | _ | _) <;> simp [Word.addResult, Word.zero]
  | some r => obtain ⟨x, e⟩ := r; constructor <;> cases e <;> (rcases b with _ | _ | _) <;> simp [Word.addResult, Word.zero]

theorem tail_results {S : Nat} : ∀ (xs : List Int) {t t' : C1Tail} {tr : List AcOut}, t.run S xs = .ok (t', tr) →
    RxBack.run S t.back t.rxErr xs = .ok (t'.back, (tr.map AcOut.word).flatMap Word.result) ∧ ∀ o ∈ tr, o.word.Wf := by
  intro xs
  induction xs with
  | nil =>
    intro t t' tr h
    simp only [C1Tail.run, Res.ok.injEq, Prod.mk.injEq] at h
    rw [← h.1, ← h.2]
    exact ⟨rfl, fun o ho => by cases ho⟩
  | cons a as ih =>
    intro t t' tr h
    rw [C1Tail.run, Res.bind_eq_ok] at h
    obtain ⟨⟨t1, o⟩, h1, h⟩ := h
    rw [Res.bind_eq_ok] at h
    obtain ⟨⟨t2, l⟩, h2, h⟩ := h
    simp only [Res.ok.injEq, Prod.mk.injEq] at h
    obtain ⟨rfl, rfl⟩ := h
    obtain ⟨b, r, g1, -, g2, -, g3, -⟩ := tail_step h1
    obtain ⟨e1, e2⟩ := ih h2
    refine ⟨?_, ?_⟩
    · rw [RxBack.run, g1]
      simp only [Res.ok_bind]
      rw [← g2, e1]
      simp only [Res.ok_bind, List.map_cons, List.flatMap_cons, g3, addResult_result]
    · intro o' ho
      rcases List.mem_cons.mp ho with rfl | ho
      · rw [g3]; exact addResult_wf b r
      · exact e2 o' ho

/-- **C52.** In every run of core 1 the words sent (and the one prepared last) carry exactly the results of the UART, in
order, each once: nothing is lost or doubled between the UART and the inter-core FIFO. -/
theorem C52_results {S : Nat} (rxErr : Bool) (is : List C1In) {c : Core1} {outs : List C1Out}
    (h : (Core1.init rxErr).run S is = .ok (c, outs)) :
    ∃ xs rs, RxFront.run .init (samplesOf is) = .ok (c.front, xs) ∧
      RxBack.run S .init rxErr xs = .ok (c.back, rs) ∧
      (sent outs ++ [c.word]).flatMap Word.result = rs := by
  obtain ⟨xs, tr, h1, h2, h3⟩ := run_ac is h
  obtain ⟨h4, -⟩ := tail_results xs h2
  refine ⟨xs, _, h1, h4, ?_⟩
  have := h3 Word.result rfl (Or.inl rfl)
  rw [List.flatMap_append]
  have e : List.flatMap Word.result [c.word] = c.word.result := by simp
  rw [e, this]
  rfl

theorem run_wf {S : Nat} : ∀ (is : List C1In) {c c' : Core1} {outs : List C1Out}, c.run S is = .ok (c', outs) → c.word.Wf →
    (∀ w ∈ sent outs, w.Wf ∧ w.raw ≠ 0) ∧ c'.word.Wf := by
  intro is
  induction is with
  | nil =>
    intro c c' outs h hw
    simp only [Core1.run, Res.ok.injEq, Prod.mk.injEq] at h
    rw [← h.1, ← h.2]
    exact ⟨fun w hm => (by cases hm), hw⟩
  | cons i is ih =>
    intro c c' outs h hw
    rw [Core1.run, Res.bind_eq_ok] at h
    obtain ⟨⟨c1, o⟩, h1, h⟩ := h
    rw [Res.bind_eq_ok] at h
    obtain ⟨⟨c2, l⟩, h2, h⟩ := h
    simp only [Res.ok.injEq, Prod.mk.injEq] at h
    obtain ⟨rfl, rfl⟩ := h
    have key : o.word = (c.send i.ready).2.1 ∧ c1.word.Wf := by
      unfold Core1.step at h1
      simp only [(send_eq c i.ready).1] at h1
      cases ha : i.adc with
      | none =>
        rw [ha] at h1
        simp only [Res.ok.injEq, Prod.mk.injEq] at h1
        obtain ⟨rfl, rfl⟩ := h1
        exact ⟨rfl, Word.Wf.zero⟩
      | error =>
        rw [ha] at h1
        simp only [Res.ok.injEq, Prod.mk.injEq] at h1
        obtain ⟨rfl, rfl⟩ := h1
        exact ⟨rfl, Word.Wf.adcError⟩
      | sample v =>
        rw [ha] at h1
        simp only at h1
        rw [Res.bind_eq_ok] at h1
        obtain ⟨c3, h1, h4⟩ := h1
        simp only [Res.ok.injEq, Prod.mk.injEq] at h4
        obtain ⟨rfl, rfl⟩ := h4
        refine ⟨rfl, ?_⟩
        rw [Core1.sample, Res.bind_eq_ok] at h1
        obtain ⟨⟨f', oa⟩, -, h1⟩ := h1
        cases oa with
        | none =>
          simp only [Res.ok.injEq] at h1
          subst h1
          exact Word.Wf.zero
        | some a =>
          obtain ⟨q1, -⟩ := ac_tail (t := c.tail) (f := f') h1
          obtain ⟨b, r, -, -, -, -, g3, -⟩ := tail_step q1
          dsimp only at g3
          rw [g3]; exact addResult_wf b r
    obtain ⟨e1, e2⟩ := ih h2 key.2
    refine ⟨?_, e2⟩
    intro w hm
    rw [sent, filterMap_cons', List.mem_append, key.1] at hm
    rcases hm with hm | hm
    · unfold Core1.send at hm
      split at hm
      · next hne => simp at hm; rw [hm]; exact ⟨hw, hne⟩
      · simp at hm
    · exact e1 w hm

/-- **C52.** Every word sent is well-formed and not 0. -/
theorem C52_wellformed {S : Nat} (rxErr : Bool) (is : List C1In) {c : Core1} {outs : List C1Out}
    (h : (Core1.init rxErr).run S is = .ok (c, outs)) : (∀ w ∈ sent outs, w.Wf ∧ w.raw ≠ 0) ∧ c.word.Wf :=
  run_wf is h Word.Wf.zero

/-- **C52.** An overrun of the ADC in an iteration is told in the word sent by the next iteration. -/
theorem C52_adc_error {S : Nat} {c c1 c2 : Core1} {i j : C1In} {o1 o2 : C1Out} (hi : i.adc = .error)
    (h1 : c.step S i = .ok (c1, o1)) (h2 : c1.step S j = .ok (c2, o2)) :
    o1.reset = true ∧ ∃ w, o2.word = some w ∧ w.dadcError = true := by
  unfold Core1.step at h1
  simp only [(send_eq c i.ready).1, hi] at h1
  simp only [Res.ok.injEq, Prod.mk.injEq] at h1
  obtain ⟨rfl, rfl⟩ := h1
  refine ⟨rfl, { Word.zero with dadcError := true }, ?_, rfl⟩
  unfold Core1.step at h2
  simp only at h2
  cases ha : j.adc with
  | none =>
    rw [ha] at h2
    simp only [Res.ok.injEq, Prod.mk.injEq] at h2
    rw [← h2.2]; exact send_word (by dsimp only; decide) j.ready
  | error =>
    rw [ha] at h2
    simp only [Res.ok.injEq, Prod.mk.injEq] at h2
    rw [← h2.2]; exact send_word (by dsimp only; decide) j.ready
  | sample v =>
    rw [ha] at h2
    simp only at h2
    rw [Res.bind_eq_ok] at h2
    obtain ⟨c3, -, h4⟩ := h2
    simp only [Res.ok.injEq, Prod.mk.injEq] at h4
    rw [← h4.2]; exact send_word (by dsimp only; decide) j.ready

/-! ## C50: line busy and line free alternate -/

/-- The line events of a word: `false` is line-free, `true` is line-busy. -/
def Word.lineEvents (w : Word) : List Bool := (if w.lineFree then [false] else []) ++ (if w.lineBusy then [true] else [])

theorem addResult_line (b : Option Bool) (r : Option (UInt8 × Bool)) :
    (Word.addResult { Word.zero with lineBusy := b == some true, lineFree := b == some false } r).lineEvents = b.toList := by
  cases r with
  | none => rcases b with _ | _ | _ <;> rfl
  | some r => rcases b with _ | _ | _ <;> rfl

theorem tail_alternating {S : Nat} : ∀ (xs : List Int) {t t' : C1Tail} {tr : List AcOut}, t.run S xs = .ok (t', tr) →
    Alternating (!t.busy) ((tr.map AcOut.word).flatMap Word.lineEvents) := by
  intro xs
  induction xs with
  | nil =>
    intro t t' tr h
    simp only [C1Tail.run, Res.ok.injEq, Prod.mk.injEq] at h
    rw [← h.2]
    trivial
  | cons a as ih =>
    intro t t' tr h
    rw [C1Tail.run, Res.bind_eq_ok] at h
    obtain ⟨⟨t1, o⟩, h1, h⟩ := h
    rw [Res.bind_eq_ok] at h
    obtain ⟨⟨t2, l⟩, h2, h⟩ := h
    simp only [Res.ok.injEq, Prod.mk.injEq] at h
    obtain ⟨rfl, rfl⟩ := h
    obtain ⟨b, r, -, -, -, g2, g3, g4, g5, -⟩ := tail_step h1
    have := ih h2
    rw [g2] at this
    rw [List.map_cons, List.flatMap_cons, g3, addResult_line]
    rcases b with _ | _ | _
    · exact this
    · rw [(g5.mp rfl).1]; exact ⟨rfl, this⟩
    · rw [(g4.mp rfl).1]; exact ⟨rfl, this⟩

/-- **C50.** In every run of the receive side, for every signal and every schedule, the line events of the words sent
(and of the one prepared last) strictly alternate, starting with line-free; no word carries both. -/
theorem C50_alternating {S : Nat} (ring : Nat → Int) (rxErr : Bool) (es : List RxEv) {s : RxSystem} {outs : List C1Out}
    (h : RxSystem.run S (RxSystem.init ring rxErr) es = .ok (s, outs)) :
    Alternating false ((sent outs ++ [s.core.word]).flatMap Word.lineEvents) ∧
      ∀ w ∈ sent outs, ¬ (w.lineBusy = true ∧ w.lineFree = true) := by
  obtain ⟨is, h1⟩ := rx_core es h
  obtain ⟨xs, tr, -, h2, h3⟩ := run_ac is h1
  have h4 := tail_alternating xs h2
  have := h3 Word.lineEvents rfl (Or.inl rfl)
  rw [List.flatMap_append]
  refine ⟨?_, fun w hw => ((C52_wellformed rxErr is h1).1 w hw).1.line⟩
  have e : List.flatMap Word.lineEvents [s.core.word] = s.core.word.lineEvents := by simp
  rw [e, this]
  exact h4

end P1P2
