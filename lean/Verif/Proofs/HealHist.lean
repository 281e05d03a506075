import Verif.Proofs.HealTail
import Verif.Props.Raw
/-!
# Any history of the receive side: the ADC and the age of the UART counter
-/
namespace P1P2

/-! ## The ADC -/

/-- The registers of the ADC between two events. -/
structure Adc.At (a : Adc) : Prop where
  hw : a.tcHw ≤ adcBlock
  tc : a.tc ≤ adcBlock
  le : a.tcHw ≤ a.tc
  wp : a.wp = (adcBlock - a.tcHw) % 256
  off : a.off = (adcBlock - a.tc) % 256

/-- Samples that wait in the ring. -/
def Adc.lag (a : Adc) : Nat := a.tc - a.tcHw

theorem Adc.At.restart (a : Adc) : a.restart.At := ⟨Nat.le_refl _, Nat.le_refl _, Nat.le_refl _, rfl, rfl⟩

theorem Adc.At.write {a : Adc} (h : a.At) (v : Int) : (a.write v).At ∧ (a.write v).lag ≤ a.lag + 1 ∧ (a.write v).err = a.err ∧ (a.write v).tc = a.tc ∧
    (a.write v).off = a.off ∧ (a.write v).tcHw ≤ a.tcHw := by
  obtain ⟨h1, h2, h3, h4, h5⟩ := h
  unfold Adc.write
  split
  · exact ⟨⟨h1, h2, h3, h4, h5⟩, Nat.le_succ _, rfl, rfl, rfl, Nat.le_refl _⟩
  · refine ⟨⟨?_, h2, ?_, ?_, h5⟩, ?_, rfl, rfl, rfl, ?_⟩
    · show a.tcHw - 1 ≤ adcBlock; omega
    · show a.tcHw - 1 ≤ a.tc; omega
    · show (a.wp + 1) % 256 = (adcBlock - (a.tcHw - 1)) % 256
      have hb : adcBlock = 268435456 := rfl
      rw [hb] at h1 h4 ⊢
      omega
    · show a.tc - (a.tcHw - 1) ≤ a.tc - a.tcHw + 1; omega
    · show a.tcHw - 1 ≤ a.tcHw; omega

theorem Adc.At.writes : ∀ (l : List Int) {a : Adc}, a.At → (l.foldl Adc.write a).At ∧ (l.foldl Adc.write a).lag ≤ a.lag + l.length ∧
    (l.foldl Adc.write a).err = a.err ∧ (l.foldl Adc.write a).tc = a.tc ∧ (l.foldl Adc.write a).off = a.off ∧ (l.foldl Adc.write a).tcHw ≤ a.tcHw := by
  intro l
  induction l with
  | nil => intro a h; exact ⟨h, Nat.le_refl _, rfl, rfl, rfl, Nat.le_refl _⟩
  | cons v l ih =>
    intro a h
    obtain ⟨g1, g2, g3, g4, g5, g6⟩ := h.write v
    obtain ⟨k1, k2, k3, k4, k5, k6⟩ := ih g1
    rw [List.foldl_cons, List.length_cons]
    exact ⟨k1, by omega, by rw [k3, g3], by rw [k4, g4], by rw [k5, g5], by omega⟩

/-- `Update` on a ring that holds `lag` samples. -/
theorem Adc.At.update {a a' : Adc} {late : List Int} {o : Option Int} (h : a.At) (he : a.err = false) (hu : a.update late = .ok (a', o)) :
    a'.At ∧ (o = none → a'.err = false ∧ a'.lag ≤ a.lag) ∧ (∀ v, o = some v → a'.err = decide (256 ≤ a.lag) ∧ 0 < a.lag ∧ a'.lag + 1 ≤ a.lag + late.length) := by
  have hb : adcBlock = 268435456 := rfl
  unfold Adc.update at hu
  by_cases h0 : a.tcHw = 0
  · simp only [if_pos h0] at hu
    rw [if_pos (show a.restart.tc = a.restart.tcHw from rfl)] at hu
    simp only [Res.ok.injEq, Prod.mk.injEq] at hu
    obtain ⟨rfl, rfl⟩ := hu
    refine ⟨Adc.At.restart a, fun _ => ⟨he, ?_⟩, fun v hv => (by cases hv)⟩
    show adcBlock - adcBlock ≤ _
    omega
  · simp only [if_neg h0] at hu
    by_cases h1 : a.tc = a.tcHw
    · rw [if_pos h1] at hu
      simp only [Res.ok.injEq, Prod.mk.injEq] at hu
      obtain ⟨rfl, rfl⟩ := hu
      exact ⟨h, fun _ => ⟨he, Nat.le_refl _⟩, fun v hv => (by cases hv)⟩
    · rw [if_neg h1] at hu
      obtain ⟨a1, a2, a3, a4, a5⟩ := h
      -- the state after the bookkeeping, with the read position moved already
      have hat : Adc.At { a with err := a.err || decide (256 ≤ (a.tc + 4294967296 - a.tcHw) % 4294967296), tc := (a.tc + 4294967295) % 4294967296, off := (a.off + 1) % 256 } := by
        refine ⟨a1, ?_, ?_, a4, ?_⟩
        · show (a.tc + 4294967295) % 4294967296 ≤ _; omega
        · show a.tcHw ≤ (a.tc + 4294967295) % 4294967296; omega
        · show (a.off + 1) % 256 = (adcBlock - (a.tc + 4294967295) % 4294967296) % 256; omega
      obtain ⟨g1, g2, g3, g4, g5, g6⟩ := Adc.At.writes late hat
      have hoff : ∀ (l : List Int) (b : Adc) (k : Nat), l.foldl Adc.write { b with off := k } = { l.foldl Adc.write b with off := k } := by
        intro l
        induction l with
        | nil => intro b k; rfl
        | cons v l ih =>
          intro b k
          rw [List.foldl_cons, List.foldl_cons, ← ih]
          congr 1
          unfold Adc.write
          dsimp only
          split <;> rfl
      have e := hoff late { a with err := a.err || decide (256 ≤ (a.tc + 4294967296 - a.tcHw) % 4294967296), tc := (a.tc + 4294967295) % 4294967296 } ((a.off + 1) % 256)
      dsimp only at e g1 g2 g3 g4 g5 g6
      rw [e] at g1 g2 g3 g4 g5 g6
      have hoffw : ∀ (l : List Int) (b : Adc), (l.foldl Adc.write b).off = b.off := by
        intro l
        induction l with
        | nil => intro b; rfl
        | cons v l ih =>
          intro b
          rw [List.foldl_cons, ih]
          unfold Adc.write
          split <;> rfl
      have hoff0 := hoffw late { a with err := a.err || decide (256 ≤ (a.tc + 4294967296 - a.tcHw) % 4294967296), tc := (a.tc + 4294967295) % 4294967296 }
      dsimp only at hu hoff0
      generalize late.foldl Adc.write { a with err := a.err || decide (256 ≤ (a.tc + 4294967296 - a.tcHw) % 4294967296), tc := (a.tc + 4294967295) % 4294967296 } = b at *
      rw [Res.bind_eq_ok] at hu
      obtain ⟨v, -, hu⟩ := hu
      simp only [Res.ok.injEq, Prod.mk.injEq] at hu
      obtain ⟨rfl, rfl⟩ := hu
      rw [hoff0]
      refine ⟨g1, fun hv => (by cases hv), fun w hw => ⟨?_, ?_, ?_⟩⟩
      · show b.err = _
        have g3 : b.err = (a.err || decide (256 ≤ (a.tc + 4294967296 - a.tcHw) % 4294967296)) := g3
        rw [g3, he, Bool.false_or]
        have : (a.tc + 4294967296 - a.tcHw) % 4294967296 = a.tc - a.tcHw := by omega
        rw [this]; rfl
      · show 0 < a.tc - a.tcHw; omega
      · have g2 : b.tc - b.tcHw ≤ (a.tc + 4294967295) % 4294967296 - a.tcHw + late.length := g2
        show b.tc - b.tcHw + 1 ≤ a.tc - a.tcHw + late.length
        omega

/-- Samples that arrive with an event. -/
def RxEv.arrivals : RxEv → Nat
  | .transfer _ => 1
  | .iterate _ late => late.length

/-- The number of samples that arrive. -/
def arrivals (es : List RxEv) : Nat := (es.map RxEv.arrivals).sum

/-- What a history leaves behind. -/
structure HistOk (S : Nat) (s : RxSystem) : Prop where
  adc : s.adc.Ok
  at' : s.adc.At
  err : s.adc.err = false
  core : s.core.Ok S

theorem HistOk.init {S : Nat} {ring : Nat → Int} (hr : SampleRange ring) (rxErr : Bool) : HistOk S (RxSystem.init ring rxErr) :=
  ⟨⟨hr, rfl⟩, Adc.At.restart _, rfl, Core1.Ok.init S rxErr⟩

/-- An event of the history: an iteration of core 1 or nothing. -/
theorem hist_step {S : Nat} (hS : 8 ≤ S) {s s' : RxSystem} {e : RxEv} {o : Option C1Out} (h : HistOk S s) (he : e.InRange)
    (hs : s.step S e = .ok (s', o)) : HistOk S s' ∧ ∃ is, Core1.run S s.core is = .ok (s'.core, o.toList) ∧
      (∀ v ∈ samplesOf is, -9984 ≤ v ∧ v ≤ 9984) ∧ (samplesOf is).length + min s'.adc.lag 255 ≤ min s.adc.lag 255 + e.arrivals := by
  obtain ⟨s1, o1, r1, r2, r3⟩ := rx_step_ok hS h.adc h.core he
  rw [hs] at r1
  simp only [Res.ok.injEq, Prod.mk.injEq] at r1
  obtain ⟨rfl, rfl⟩ := r1
  cases e with
  | transfer v =>
    simp only [RxSystem.step, Res.ok.injEq, Prod.mk.injEq] at hs
    obtain ⟨rfl, rfl⟩ := hs
    obtain ⟨w1, w2, w3, -⟩ := h.at'.write v
    refine ⟨⟨r2, w1, by rw [← h.err]; exact w3, r3⟩, [], rfl, fun v hv => (by cases hv), ?_⟩
    show 0 + min (s.adc.write v).lag 255 ≤ min s.adc.lag 255 + 1
    omega
  | iterate ready late =>
    obtain ⟨b, ob, b1, -, b3⟩ := h.adc.update he
    simp only [RxSystem.step, b1] at hs
    obtain ⟨u1, u2, u3⟩ := h.at'.update h.err b1
    simp only [Res.ok_bind] at hs
    have one : ∀ (i : C1In) (c : Core1) (o1 : C1Out), s.core.step S i = .ok (c, o1) → Core1.run S s.core [i] = .ok (c, [o1]) := by
      intro i c o1 q
      simp only [Core1.run, q, Res.ok_bind]
    cases ob with
    | none =>
      dsimp only at hs
      rw [Res.bind_eq_ok] at hs
      obtain ⟨⟨c, o1⟩, q, hs⟩ := hs
      simp only [Res.ok.injEq, Prod.mk.injEq] at hs
      obtain ⟨rfl, rfl⟩ := hs
      obtain ⟨u4, u5⟩ := u2 rfl
      refine ⟨⟨r2, u1, u4, r3⟩, _, one _ _ _ q, fun v hv => (by cases hv), ?_⟩
      show 0 + min b.lag 255 ≤ min s.adc.lag 255 + late.length
      omega
    | some v =>
      obtain ⟨u4, u5, u6⟩ := u3 v rfl
      dsimp only at hs
      by_cases hl : 256 ≤ s.adc.lag
      · rw [decide_eq_true hl] at u4
        rw [if_pos (by exact u4)] at hs
        rw [Res.bind_eq_ok] at hs
        obtain ⟨⟨c, o1⟩, q, hs⟩ := hs
        simp only [Res.ok.injEq, Prod.mk.injEq] at hs
        obtain ⟨rfl, rfl⟩ := hs
        refine ⟨⟨r2, Adc.At.restart _, rfl, r3⟩, _, one _ _ _ q, fun v hv => (by cases hv), ?_⟩
        show 0 + min (adcBlock - adcBlock) 255 ≤ _
        omega
      · rw [decide_eq_false hl] at u4
        have hne : ¬ b.error.2 = true := by
          show ¬ b.err = true
          rw [u4]; decide
        rw [if_neg hne] at hs
        rw [Res.bind_eq_ok] at hs
        obtain ⟨⟨c, o1⟩, q, hs⟩ := hs
        simp only [Res.ok.injEq, Prod.mk.injEq] at hs
        obtain ⟨rfl, rfl⟩ := hs
        refine ⟨⟨r2, ⟨u1.hw, u1.tc, u1.le, u1.wp, u1.off⟩, rfl, r3⟩, _, one _ _ _ q, ?_, ?_⟩
        · intro w hw
          have : w = v := by simpa [samplesOf] using hw
          rw [this]
          exact b3 v rfl
        · show 1 + min b.lag 255 ≤ min s.adc.lag 255 + late.length
          omega

theorem core_run_append {S : Nat} : ∀ (is js : List C1In) {c c1 c2 : Core1} {o1 o2 : List C1Out}, c.run S is = .ok (c1, o1) → c1.run S js = .ok (c2, o2) →
    c.run S (is ++ js) = .ok (c2, o1 ++ o2) := by
  intro is
  induction is with
  | nil =>
    intro js c c1 c2 o1 o2 h1 h2
    simp only [Core1.run, Res.ok.injEq, Prod.mk.injEq] at h1
    obtain ⟨rfl, rfl⟩ := h1
    exact h2
  | cons i is ih =>
    intro js c c1 c2 o1 o2 h1 h2
    rw [Core1.run, Res.bind_eq_ok] at h1
    obtain ⟨⟨c3, o3⟩, q1, h1⟩ := h1
    rw [Res.bind_eq_ok] at h1
    obtain ⟨⟨c4, o4⟩, q2, h1⟩ := h1
    simp only [Res.ok.injEq, Prod.mk.injEq] at h1
    obtain ⟨rfl, rfl⟩ := h1
    simp only [List.cons_append, Core1.run, q1, Res.ok_bind, ih js q2 h2]

theorem samplesOf_append (is js : List C1In) : samplesOf (is ++ js) = samplesOf is ++ samplesOf js := List.filterMap_append ..

/-- A history. -/
theorem hist_run {S : Nat} (hS : 8 ≤ S) : ∀ (es : List RxEv) {s s' : RxSystem} {outs : List C1Out}, HistOk S s → (∀ e ∈ es, e.InRange) →
    s.run S es = .ok (s', outs) → HistOk S s' ∧ ∃ is, Core1.run S s.core is = .ok (s'.core, outs) ∧
      (∀ v ∈ samplesOf is, -9984 ≤ v ∧ v ≤ 9984) ∧ (samplesOf is).length + min s'.adc.lag 255 ≤ min s.adc.lag 255 + arrivals es := by
  intro es
  induction es with
  | nil =>
    intro s s' outs h _ hr
    simp only [RxSystem.run, Res.ok.injEq, Prod.mk.injEq] at hr
    obtain ⟨rfl, rfl⟩ := hr
    exact ⟨h, [], rfl, fun v hv => (by cases hv), by show 0 + _ ≤ _ + 0; omega⟩
  | cons e es ih =>
    intro s s' outs h he hr
    rw [RxSystem.run, Res.bind_eq_ok] at hr
    obtain ⟨⟨s1, o⟩, h1, hr⟩ := hr
    rw [Res.bind_eq_ok] at hr
    obtain ⟨⟨s2, l⟩, h2, hr⟩ := hr
    simp only [Res.ok.injEq, Prod.mk.injEq] at hr
    obtain ⟨rfl, rfl⟩ := hr
    obtain ⟨k1, is, k2, k3, k4⟩ := hist_step hS h (he e (List.mem_cons_self ..)) h1
    obtain ⟨m1, js, m2, m3, m4⟩ := ih k1 (fun x hx => he x (List.mem_cons_of_mem _ hx)) h2
    refine ⟨m1, is ++ js, core_run_append _ _ k2 m2, ?_, ?_⟩
    · intro v hv
      rw [samplesOf_append] at hv
      rcases List.mem_append.mp hv with hv | hv
      · exact k3 v hv
      · exact m3 v hv
    · rw [samplesOf_append, List.length_append]
      have : arrivals (e :: es) = e.arrivals + arrivals es := by simp [arrivals]
      rw [this]
      omega

/-- The state of the ADC as a point within a block. -/
theorem AdcInv.ofAt {a : Adc} (h : a.At) (hg : a.gain = 4992) (f : Nat → Int) :
    AdcInv a.data (fun k => if k < adcBlock - a.tcHw then a.data (k % 256) else f (k - (adcBlock - a.tcHw))) 4992 (adcBlock - a.tcHw) (adcBlock - a.tc) a := by
  obtain ⟨h1, h2, h3, h4, h5⟩ := h
  refine ⟨by omega, by omega, h4, by omega, by omega, h5, hg, ?_⟩
  intro j j1 j2
  unfold adcHist
  by_cases hj : j < 0
  · rw [if_pos hj]
    congr 1
    omega
  · rw [if_neg hj]
    dsimp only
    rw [if_pos (by omega)]
    congr 1
    omega

/-! ## The counter of the UART at the time of a result -/

/-- Unless the UART waits for a start or receives, its counter is at rest. -/
def Still (u : Uart) : Prop := (u.state = .waitIdle → u.counter = 0) ∧ (u.state = .stop → u.counter = 0)

theorem Still.step {S : Nat} {err : Bool} {u u' : Uart} {v : Int} {o : Option (UInt8 × Bool)} (hS : 8 ≤ S) (h : Still u) (hok : u.Ok S .even)
    (hu : u.step S err v = .ok (u', o)) : Still u' ∧ (o ≠ none → u'.state = .waitIdle) := by
  obtain ⟨⟨w, hw⟩, hp, hc, hd⟩ := hok
  cases hs : u.state with
  | waitIdle =>
    rw [step_waitIdle hs] at hu
    simp only [Res.ok.injEq, Prod.mk.injEq] at hu
    have h0 := h.1 hs
    rw [← hu.2, ← hu.1]
    refine ⟨?_, fun hn => absurd rfl hn⟩
    split
    · exact ⟨fun _ => h0, fun _ => h0⟩
    · exact h
  | waitStart =>
    by_cases hz : toI16 v = 0
    · obtain ⟨u2, e1, e2, e3, e4, e5⟩ := step_wait (S := S) (err := err) hs hw hz
      rw [hu] at e1
      simp only [Res.ok.injEq, Prod.mk.injEq] at e1
      rw [← e1.1] at e4 e5
      rw [e1.2]
      refine ⟨?_, fun hn => absurd rfl hn⟩
      rw [← e4] at e5
      by_cases h0 : u'.counter = 0
      · exact ⟨fun _ => h0, fun _ => h0⟩
      · rw [if_neg h0] at e5
        exact ⟨fun h => (by rw [e5] at h; cases h), fun h => (by rw [e5] at h; cases h)⟩
    · obtain ⟨u2, e1, e2, e3, e4, e5⟩ := step_start (S := S) (err := err) hS hs hw hz
      rw [hu] at e1
      simp only [Res.ok.injEq, Prod.mk.injEq] at e1
      rw [← e1.1] at e5
      rw [e1.2]
      exact ⟨⟨fun h => (by rw [e5] at h; cases h), fun h => (by rw [e5] at h; cases h)⟩, fun hn => absurd rfl hn⟩
  | data =>
    obtain ⟨u2, e1, e2, e3, e4, e5⟩ := step_data (S := S) (err := err) hs hw (hd hs) hc v
    rw [hu] at e1
    simp only [Res.ok.injEq, Prod.mk.injEq] at e1
    rw [← e1.1] at e4 e5
    rw [e1.2]
    refine ⟨?_, fun hn => absurd rfl hn⟩
    by_cases h1 : u.counter = 1
    · exact ⟨fun _ => by omega, fun _ => by omega⟩
    · rw [if_neg h1] at e5
      exact ⟨fun h => (by rw [e5] at h; cases h), fun h => (by rw [e5] at h; cases h)⟩
  | stop =>
    rw [step_stop hs hw] at hu
    simp only [Res.ok.injEq, Prod.mk.injEq] at hu
    rw [← hu.1]
    exact ⟨⟨fun _ => h.2 hs, fun _ => h.2 hs⟩, fun _ => rfl⟩

theorem back_uart {S : Nat} {e : Bool} {b b' : RxBack} {x : Int} {o : Option (UInt8 × Bool)} (h : b.step S e x = .ok (b', o)) :
    ∃ p, b.uart.step S e p = .ok (b'.uart, o) := by
  rw [RxBack.step, Res.bind_eq_ok] at h
  obtain ⟨⟨d, p⟩, d1, h⟩ := h
  rw [RxBack.decode, Res.bind_eq_ok] at h
  obtain ⟨⟨u, r⟩, u1, h⟩ := h
  simp only [Res.ok.injEq, Prod.mk.injEq] at h
  obtain ⟨rfl, rfl⟩ := h
  refine ⟨p, ?_⟩
  rw [← detect_uart d1]
  exact u1

/-- Core 1: the UART counter is at rest when a result waits to be sent. -/
def Fresh (c : Core1) : Prop := Still c.back.uart ∧ (c.word.result ≠ [] → c.back.uart.state = .waitIdle)

theorem Fresh.init (e : Bool) : Fresh (Core1.init e) := ⟨⟨fun _ => rfl, fun _ => rfl⟩, fun h => absurd rfl h⟩

theorem busyStep_result (c : Core1) (r : Bool) (h : c.word = .zero) : (c.busyStep r).word.result = [] := by
  unfold Core1.busyStep
  split
  · split <;> rw [h] <;> rfl
  · split
    · split <;> rw [h] <;> rfl
    · rw [h]; rfl

theorem result_addResult (w : Word) (o : Option (UInt8 × Bool)) (h : w.result = []) : (Word.addResult w o).result = [] ∨ o ≠ none := by
  cases o with
  | none => exact Or.inl h
  | some r => exact Or.inr (by simp)

theorem Fresh.step {S : Nat} (hS : 8 ≤ S) {c c' : Core1} {i : C1In} {o : C1Out} (h : Fresh c) (hok : c.Ok S) (hs : c.step S i = .ok (c', o)) : Fresh c' := by
  obtain ⟨e1, -⟩ := send_eq c i.ready
  unfold Core1.step at hs
  simp only [e1] at hs
  cases ha : i.adc with
  | none =>
    rw [ha] at hs
    simp only [Res.ok.injEq, Prod.mk.injEq] at hs
    rw [← hs.1]
    exact ⟨h.1, fun hn => absurd rfl hn⟩
  | error =>
    rw [ha] at hs
    simp only [Res.ok.injEq, Prod.mk.injEq] at hs
    rw [← hs.1]
    exact ⟨h.1, fun hn => absurd rfl hn⟩
  | sample v =>
    rw [ha] at hs
    simp only at hs
    rw [Res.bind_eq_ok] at hs
    obtain ⟨c3, h1, h4⟩ := hs
    simp only [Res.ok.injEq, Prod.mk.injEq] at h4
    obtain ⟨rfl, -⟩ := h4
    rw [Core1.sample, Res.bind_eq_ok] at h1
    obtain ⟨⟨f', oa⟩, h5, h1⟩ := h1
    cases oa with
    | none =>
      simp only [Res.ok.injEq] at h1
      rw [← h1]
      exact ⟨h.1, fun hn => absurd rfl hn⟩
    | some a =>
      dsimp only at h1
      rw [ac_iff] at h1
      obtain ⟨b, o, g1, g2⟩ := h1
      obtain ⟨p, g3⟩ := back_uart g1
      obtain ⟨g4, g5⟩ := h.1.step hS hok.back.uart g3
      rw [g2]
      refine ⟨g4, fun hn => ?_⟩
      rcases result_addResult _ o (busyStep_result { c with word := .zero, front := f' } c.back.uart.receiving rfl) with hh | hh
      · exact absurd hh hn
      · exact g5 hh

theorem Fresh.run {S : Nat} (hS : 8 ≤ S) : ∀ (es : List RxEv) {s s' : RxSystem} {outs : List C1Out}, HistOk S s → Fresh s.core → (∀ e ∈ es, e.InRange) →
    s.run S es = .ok (s', outs) → Fresh s'.core := by
  intro es
  induction es with
  | nil =>
    intro s s' outs _ h _ hr
    simp only [RxSystem.run, Res.ok.injEq, Prod.mk.injEq] at hr
    exact hr.1 ▸ h
  | cons e es ih =>
    intro s s' outs h hf he hr
    rw [RxSystem.run, Res.bind_eq_ok] at hr
    obtain ⟨⟨s1, o⟩, h1, hr⟩ := hr
    rw [Res.bind_eq_ok] at hr
    obtain ⟨⟨s2, l⟩, h2, hr⟩ := hr
    simp only [Res.ok.injEq, Prod.mk.injEq] at hr
    obtain ⟨rfl, rfl⟩ := hr
    obtain ⟨k1, is, k2, -, -⟩ := hist_step hS h (he e (List.mem_cons_self ..)) h1
    refine ih k1 ?_ (fun x hx => he x (List.mem_cons_of_mem _ hx)) h2
    cases e with
    | transfer v =>
      simp only [RxSystem.step, Res.ok.injEq, Prod.mk.injEq] at h1
      rw [← h1.1]; exact hf
    | iterate ready late =>
      rw [RxSystem.step, Res.bind_eq_ok] at h1
      obtain ⟨⟨a, v⟩, -, h1⟩ := h1
      cases v with
      | none =>
        simp only at h1
        rw [Res.bind_eq_ok] at h1
        obtain ⟨⟨c, o1⟩, q, h1⟩ := h1
        simp only [Res.ok.injEq, Prod.mk.injEq] at h1
        rw [← h1.1]; exact hf.step hS h.core q
      | some v =>
        simp only at h1
        split at h1
        · rw [Res.bind_eq_ok] at h1
          obtain ⟨⟨c, o1⟩, q, h1⟩ := h1
          simp only [Res.ok.injEq, Prod.mk.injEq] at h1
          rw [← h1.1]; exact hf.step hS h.core q
        · rw [Res.bind_eq_ok] at h1
          obtain ⟨⟨c, o1⟩, q, h1⟩ := h1
          simp only [Res.ok.injEq, Prod.mk.injEq] at h1
          rw [← h1.1]; exact hf.step hS h.core q

/-- The age of the counter grows by one with every sample behind the DC blocker. -/
theorem Aged.tail {S : Nat} (hS : 8 ≤ S) : ∀ (xs : List Int) {n : Nat} {t t' : C1Tail} {tr : List AcOut}, t.run S xs = .ok (t', tr) → Aged S n t.back.uart →
    t.back.uart.Ok S .even → n + xs.length < 2 ^ S → Aged S (n + xs.length) t'.back.uart := by
  intro xs
  induction xs with
  | nil =>
    intro n t t' tr h ha _ _
    simp only [C1Tail.run, Res.ok.injEq, Prod.mk.injEq] at h
    rw [← h.1]; exact ha
  | cons a as ih =>
    intro n t t' tr h ha hok hn
    rw [C1Tail.run, Res.bind_eq_ok] at h
    obtain ⟨⟨t1, o1⟩, h1, h⟩ := h
    rw [Res.bind_eq_ok] at h
    obtain ⟨⟨t2, l⟩, h2, h⟩ := h
    simp only [Res.ok.injEq, Prod.mk.injEq] at h
    obtain ⟨rfl, rfl⟩ := h
    obtain ⟨b, r, g1, -⟩ := tail_step h1
    obtain ⟨p, g2⟩ := back_uart g1
    rw [List.length_cons] at hn ⊢
    obtain ⟨u3, o3, k1, k2⟩ := hok.step hS t.rxErr p
    rw [g2] at k1
    simp only [Res.ok.injEq, Prod.mk.injEq] at k1
    have := ih h2 (ha.step hS hok (by omega) g2) (k1.1 ▸ k2) (by omega)
    rw [show n + (as.length + 1) = n + 1 + as.length by omega]
    exact this

end P1P2
