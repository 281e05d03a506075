import Verif.Proofs.AdcTime
/-!
# A reset in the middle of a conversion: a concrete run
-/
namespace P1P2
open Pio

/-- Always granted. -/
def prompt : List (Bool × Bool) := List.replicate 41 (true, true)

theorem prompt_serves : Serves prompt := ⟨[], true, List.replicate 37 (true, true), true, List.replicate 2 (true, true), rfl, by decide, by decide⟩

theorem AdcDev.run_hw (S : Nat) : ∀ (es : List HwEv) (s : DevSystem), s.run S (es.map PathEv.hw) = .ok ({ s with dev := s.dev.hws es }, []) ∧ s.Prompt S (es.map PathEv.hw) := by
  intro es
  induction es with
  | nil => intro s; exact ⟨rfl, trivial⟩
  | cons e es ih =>
    intro s
    obtain ⟨h1, h2⟩ := ih { s with dev := s.dev.hw e }
    exact ⟨by rw [List.map_cons, DevSystem.run, DevSystem.step, Res.ok_bind, h1]; rfl, h2⟩

theorem dev_run_append {S : Nat} : ∀ {xs ys : List PathEv} {s s1 s2 : DevSystem} {o1 o2 : List C1Out}, s.run S xs = .ok (s1, o1) → s1.run S ys = .ok (s2, o2) →
    s.run S (xs ++ ys) = .ok (s2, o1 ++ o2) := by
  intro xs
  induction xs with
  | nil =>
    intro ys s s1 s2 o1 o2 h1 h2
    simp only [DevSystem.run, Res.ok.injEq, Prod.mk.injEq] at h1
    obtain ⟨rfl, rfl⟩ := h1
    exact h2
  | cons x xs ih =>
    intro ys s s1 s2 o1 o2 h1 h2
    rw [DevSystem.run, Res.bind_eq_ok] at h1
    obtain ⟨⟨t, o⟩, h3, h1⟩ := h1
    rw [Res.bind_eq_ok] at h1
    obtain ⟨⟨t2, l⟩, h4, h1⟩ := h1
    simp only [Res.ok.injEq, Prod.mk.injEq] at h1
    obtain ⟨rfl, rfl⟩ := h1
    rw [List.cons_append, DevSystem.run, h3, Res.ok_bind, ih h4 h2, Res.ok_bind, List.append_assoc]

theorem prompt_append {S : Nat} : ∀ {xs ys : List PathEv} {s s1 : DevSystem} {o1 : List C1Out}, s.run S xs = .ok (s1, o1) → s.Prompt S xs → s1.Prompt S ys → s.Prompt S (xs ++ ys) := by
  intro xs
  induction xs with
  | nil =>
    intro ys s s1 o1 h1 _ h2
    simp only [DevSystem.run, Res.ok.injEq, Prod.mk.injEq] at h1
    obtain ⟨rfl, -⟩ := h1
    exact h2
  | cons x xs ih =>
    intro ys s s1 o1 h1 hp h2
    rw [DevSystem.run, Res.bind_eq_ok] at h1
    obtain ⟨⟨t, o⟩, h3, h1⟩ := h1
    rw [Res.bind_eq_ok] at h1
    obtain ⟨⟨t2, l⟩, h4, h1⟩ := h1
    simp only [Res.ok.injEq, Prod.mk.injEq] at h1
    obtain ⟨rfl, -⟩ := h1
    cases x with
    | hw e =>
      simp only [DevSystem.step, Res.ok.injEq, Prod.mk.injEq] at h3
      obtain ⟨rfl, -⟩ := h3
      exact ih h4 hp h2
    | iterate r u rst =>
      refine ⟨hp.1, fun s' o' hs => ?_⟩
      have h3' := h3.symm.trans hs
      simp only [Res.ok.injEq, Prod.mk.injEq] at h3'
      obtain ⟨rfl, -⟩ := h3'
      exact ih h4 (hp.2 _ _ h3) h2

/-- Nothing happens meanwhile. -/
def noUpd : UpdEnv := ⟨[], [], []⟩

/-- Conversions that are completed when `Reset` begins. -/
def withDrain (zs : List HwEv) : ResetEnv := ⟨zs, [], [], [], [], []⟩

theorem converts_keep : ∀ (zs : List UInt8) (d : AdcDev), ∃ f, d.hws (zs.map HwEv.convert) = { d with fifo := f } := by
  intro zs
  induction zs with
  | nil => intro d; exact ⟨d.fifo, rfl⟩
  | cons z zs ih =>
    intro d
    have : ∃ f, d.hw (.convert z) = { d with fifo := f } := by
      simp only [AdcDev.hw]
      split
      · exact ⟨_, rfl⟩
      · exact ⟨d.fifo, rfl⟩
    obtain ⟨f, hf⟩ := this
    obtain ⟨g, hg⟩ := ih (d.hw (.convert z))
    exact ⟨g, by rw [List.map_cons, AdcDev.hws_cons, hg, hf]⟩

/-- Samples that nobody takes. -/
@[irreducible] def unread : List HwEv := (List.replicate 256 ((0 : UInt8), prompt)).flatMap fun x => .convert x.1 :: cycles x.2

/-- Samples that nobody takes, another one is being converted. -/
def overrunOf (U : List HwEv) : List HwEv := .cycle true true :: (U ++ [.convert 0, .cycle true true])

/-- An overrun: an iteration after too many samples.  `zs` are in the FIFO of the ADC.  Afterwards the value that is left in the state machine gets into the ring. -/
def resetOf (U : List HwEv) (P : List (Bool × Bool)) (zs : List UInt8) : List PathEv :=
  (overrunOf U).map PathEv.hw ++ [.iterate true noUpd (withDrain (zs.map HwEv.convert))] ++ (cycles P).map PathEv.hw

/-- The same with 256 samples. -/
@[irreducible] def resetRun (zs : List UInt8) : List PathEv := resetOf unread prompt zs

theorem overrunOf_hws (d : AdcDev) (U : List HwEv) : d.hws (overrunOf U) = ((d.hw (.cycle true true)).hws U).hws [.convert 0, .cycle true true] := by
  unfold overrunOf
  rw [AdcDev.hws_cons, AdcDev.hws_append]

theorem unread_rest {d : AdcDev} (h : AtRest d false) (h1 : d.tc1 = adcBlock) (h2 : d.adc.tcHw = adcBlock) :
    AtRest (d.hws unread) false ∧ (d.hws unread).tc1 = adcBlock - 256 ∧ (d.hws unread).adc.tcHw = adcBlock - 256 ∧ (d.hws unread).adc.tc = d.adc.tc := by
  have hb : adcBlock = 268435456 := rfl
  obtain ⟨j1, j2, j3, j4⟩ := h.samples (c1 := adcBlock - 256) (c2 := adcBlock - 256) (List.replicate 256 ((0 : UInt8), prompt))
    (fun x hx => by rw [(List.mem_replicate.mp hx).2]; exact prompt_serves) (by rw [h1, List.length_replicate]; omega) (by rw [h2, List.length_replicate]; omega)
  rw [List.length_replicate, show turn false 256 = false from rfl] at j1
  unfold unread
  refine ⟨j1, j3, j4, ?_⟩
  · rw [AdcDev.hws_adc, (writes_keep _ _).2.2]

set_option maxRecDepth 8000 in
theorem left_in (y : BitVec 32) : ∃ k, k ≤ 36 ∧ HeadsIn k false (some (word false 0)) (conv 2 0 7 y (narrow 0) 0 32) := by
  have h : (runTo twosComplement 15 36 ((conv 2 0 7 0 (narrow 0) 0 32).step twosComplement)).map
      (fun r => decide (r.2 = conv 15 0 r.2.x r.2.y r.2.osr (word false 0) r.2.osrCnt)) = some true := by decide +kernel
  simp only [Option.map_eq_some_iff] at h
  obtain ⟨⟨k, c'⟩, h1, h2⟩ := h
  simp only [decide_eq_true_eq] at h2
  obtain ⟨⟨l, hl⟩, _⟩ := runTo_steps h1
  have hk := runTo_lt h1
  have hs : (conv 2 0 7 y (narrow 0) 0 32).step twosComplement = (conv 2 0 7 0 (narrow 0) 0 32).step twosComplement := rfl
  have hf : (conv 2 0 7 y (narrow 0) 0 32).free twosComplement = true := rfl
  rw [← hs] at hl
  exact ⟨k + 1, hk, c', _, by simp only [Core.steps, hf, if_true, hl]; rfl, c'.x, c'.y, c'.osr, c'.osrCnt, h2⟩

theorem AdcDev.hws_nil (d : AdcDev) : d.hws [] = d := rfl

theorem take_value {d : AdcDev} {late : List HwEv} {v : Int} (hne : ¬ d.adc.tc = d.adc.tcHw) (hv : (d.book.hws late).adc.value = .ok v) :
    d.take late = .ok ({ d.book.hws late with adc := { (d.book.hws late).adc with off := ((d.book.hws late).adc.off + 1) % 256 } }, some v) := by
  unfold AdcDev.take
  rw [if_neg hne]
  dsimp only
  rw [hv]
  rfl

/-- The iteration that resets. -/
theorem reset_step {S : Nat} {d0 : AdcDev} {core : Core1} (hok : d0.adc.Ok) (hon : d0.on = true) (h2 : d0.adc.tcHw = adcBlock - 256) (h3 : d0.adc.tc = adcBlock) {y : BitVec 32}
    (hp : d0.pio = { core := conv 2 0 7 y (narrow 0) 0 0, tx := [], rx := [] }) (zs : List UInt8) :
    ∃ c o A, DevSystem.step S ⟨d0, core⟩ (.iterate true noUpd (withDrain (zs.map HwEv.convert))) =
        .ok (⟨{ adc := A, tc1 := adcBlock, fifo := [], pio := { core := conv 2 0 7 y (narrow 0) 0 32, tx := [], rx := [] }, on := true }, c⟩, some o) ∧
      o.reset = true ∧ A.tcHw = adcBlock ∧ A.tc = adcBlock ∧ c.busy = core.busy := by
  have hb : adcBlock = 268435456 := rfl
  have hlag : (d0.adc.tc + 4294967296 - d0.adc.tcHw) % 4294967296 = 256 := by omega
  have hbe : d0.blockEnd noUpd = d0 := by unfold AdcDev.blockEnd; rw [if_neg (by rw [h2]; omega)]
  have hne : ¬ d0.adc.tc = d0.adc.tcHw := by rw [h2, h3]; omega
  obtain ⟨t, hbk⟩ : ∃ t, d0.book = { d0 with adc := { d0.adc with err := true, tc := t } } := by
    have : ∀ x t, x = 256 → ({ d0 with adc := { d0.adc with err := d0.adc.err || decide (256 ≤ x), tc := t } } : AdcDev) = { d0 with adc := { d0.adc with err := true, tc := t } } := by
      intro x t hx; subst hx; simp
    exact ⟨_, this _ _ hlag⟩
  obtain ⟨v, hv, -⟩ := (AdcDev.book_ok hok).value
  have htake : d0.take [] = .ok ({ d0 with adc := { d0.adc with err := true, tc := t, off := (d0.adc.off + 1) % 256 } }, some v) := by
    rw [take_value hne (late := []) (by rw [AdcDev.hws_nil]; exact hv), AdcDev.hws_nil, hbk]
  obtain ⟨fifo', hf⟩ := converts_keep zs { d0 with adc := { d0.adc with err := false, tc := t, off := (d0.adc.off + 1) % 256 } }
  have hreset : AdcDev.reset { d0 with adc := { d0.adc with err := false, tc := t, off := (d0.adc.off + 1) % 256 } } (withDrain (zs.map HwEv.convert)) =
      { adc := Adc.restart { d0.adc with err := false, tc := t, off := (d0.adc.off + 1) % 256, tcHw := 0 }, tc1 := adcBlock, fifo := [], pio := { core := conv 2 0 7 y (narrow 0) 0 32, tx := [], rx := [] }, on := true } := by
    unfold AdcDev.reset AdcDev.stop AdcDev.startUp withDrain
    dsimp only
    rw [hf]
    simp only [AdcDev.hws, List.foldl_nil, AdcDev.drain, AdcDev.abort1, AdcDev.abort2, AdcDev.halt, AdcDev.enable, AdcDev.restart, hp]
    rfl
  refine ⟨{ (core.send true).1 with word := { (core.send true).1.word with dadcError := true } }, { word := (core.send true).2.1, dropped := (core.send true).2.2, reset := true }, Adc.restart { d0.adc with err := false, tc := t, off := (d0.adc.off + 1) % 256, tcHw := 0 }, ?_, ?_, rfl, rfl, ?_⟩
  · simp only [DevSystem.step, AdcDev.update, hbe, show noUpd.late = [] from rfl, htake, Res.ok_bind, DevSystem.loop]
    rw [if_pos (show (Adc.error { d0.adc with err := true, tc := t, off := (d0.adc.off + 1) % 256 }).2 = true from rfl)]
    simp only [Core1.step, Res.ok_bind]
    show Res.ok ((⟨AdcDev.reset { d0 with adc := { d0.adc with err := false, tc := t, off := (d0.adc.off + 1) % 256 } } (withDrain (zs.map HwEv.convert)), _⟩ : DevSystem), _) = _
    rw [hreset]
  · rfl
  · show (core.send true).1.busy = core.busy
    unfold Core1.send
    split <;> rfl

theorem pull_scene {d0 : AdcDev} {y osr : BitVec 32} {n : Nat} (r1 : d0.on = true) (r2 : d0.fifo = []) (r3 : d0.pio.tx = []) (r4 : d0.pio.rx = [])
    (r6 : d0.pio.core = conv 1 0 7 y osr 0 n) (j3 : d0.tc1 ≠ 0) :
    d0.hws [.convert 0, .cycle true true] = { d0 with tc1 := d0.tc1 - 1, fifo := [], pio := { core := conv 2 0 7 y (narrow 0) 0 0, tx := [], rx := [] } } := by
  have e1 : d0.hw (.convert 0) = { d0 with fifo := [0] } := by simp [AdcDev.hw, r2]
  show (d0.hw (.convert 0)).hw (.cycle true true) = _
  rw [e1]
  have m1 : ({ d0 with fifo := [0] } : AdcDev).moved1 true = some 0 := by
    unfold AdcDev.moved1; dsimp only; rw [if_pos (by simp [j3])]; rfl
  have m2 : ({ d0 with fifo := [0] } : AdcDev).moved2 true = none := by
    simp only [AdcDev.moved2, r4]; split <;> rfl
  simp only [AdcDev.hw, m1, m2]
  simp only [r1]
  have hi : twosComplement.at 1 = ⟨.pull, none, 0⟩ := rfl
  simp only [Pio.cycle, r6, conv, hi, r3, r4]
  rfl

theorem reset_scene_of {S : Nat} (hS : 8 ≤ S) (ring : Nat → Int) (hr : SampleRange ring) (rxErr : Bool) (zs : List UInt8) {U : List HwEv} {P : List (Bool × Bool)}
    (hU : ∀ d, AtRest d false → d.tc1 = adcBlock → d.adc.tcHw = adcBlock →
      AtRest (d.hws U) false ∧ (d.hws U).tc1 = adcBlock - 256 ∧ (d.hws U).adc.tcHw = adcBlock - 256 ∧ (d.hws U).adc.tc = d.adc.tc) (hser : Serves P) :
    ∃ s outs, DevSystem.run S (DevSystem.init ring rxErr) (resetOf U P zs) = .ok (s, outs) ∧ (DevSystem.init ring rxErr).Prompt S (resetOf U P zs) ∧
      AtRest s.dev true ∧ s.dev.tc1 = adcBlock ∧ s.dev.adc.tcHw = adcBlock - 1 ∧ s.dev.adc.tc = adcBlock ∧ (∃ o ∈ outs, o.reset = true) ∧ s.core.busy = true := by
  have hb : adcBlock = 268435456 := rfl
  obtain ⟨i1, i2, i3, i4⟩ := AtRest.init ring rxErr true true
  have hinv := DevInv.init (S := S) hr rxErr
  have htc0 : ((DevSystem.init ring rxErr).dev.hw (.cycle true true)).adc.tc = adcBlock := by
    rw [AdcDev.hw_adc, i2]; rfl
  obtain ⟨j1, j3, j4, j5⟩ := hU _ i1 i3 i4
  obtain ⟨hrun1, hpr1⟩ := AdcDev.run_hw S (overrunOf U) (DevSystem.init ring rxErr)
  obtain ⟨s1, outs1, -, -, a1, a2, -, -, -, -⟩ := dev_run_refines hS ((overrunOf U).map PathEv.hw) hinv hpr1
  have a3 := hrun1.symm.trans a1
  simp only [Res.ok.injEq, Prod.mk.injEq] at a3
  obtain ⟨rfl, rfl⟩ := a3
  obtain ⟨hist, -⟩ := a2
  have hok := hist.adc
  generalize hcc : (DevSystem.init ring rxErr).core = core at *
  dsimp only at hok
  rw [overrunOf_hws] at hok hrun1
  rw [htc0] at j5
  generalize hd0 : ((DevSystem.init ring rxErr).dev.hw (.cycle true true)).hws U = d0 at *
  obtain ⟨r1, r2, r3, r4, c', l, r5, x, y, osr, n, r6⟩ := j1
  simp only [Core.steps, Option.some.injEq, Prod.mk.injEq] at r5
  obtain ⟨rfl, -⟩ := r5
  have r6 : d0.pio.core = conv 1 0 7 y osr 0 n := r6
  have hd1 := pull_scene r1 r2 r3 r4 r6 (by rw [j3]; omega)
  rw [hd1] at hok hrun1
  generalize hd2 : ({ d0 with tc1 := d0.tc1 - 1, fifo := [], pio := { core := conv 2 0 7 y (narrow 0) 0 0, tx := [], rx := [] } } : AdcDev) = d2 at *
  obtain ⟨c, o, A, g1, g2, g3, g4, g5⟩ := reset_step (S := S) (d0 := d2) (core := core) hok (by rw [← hd2]; exact r1) (by rw [← hd2]; exact j4) (by rw [← hd2]; exact j5) (y := y) (by rw [← hd2]) zs
  have hp2 : DevSystem.Prompt S ⟨d2, core⟩ [.iterate true noUpd (withDrain (zs.map HwEv.convert))] := by
    refine ⟨fun h => ?_, fun _ _ _ => trivial⟩
    rw [← hd2] at h
    have h : d0.adc.tcHw = 0 := h
    rw [j4] at h
    omega
  have hrun2 : DevSystem.run S ⟨d2, core⟩ [.iterate true noUpd (withDrain (zs.map HwEv.convert))] =
      .ok (⟨{ adc := A, tc1 := adcBlock, fifo := [], pio := { core := conv 2 0 7 y (narrow 0) 0 32, tx := [], rx := [] }, on := true }, c⟩, [o]) := by
    rw [DevSystem.run, g1]; rfl
  generalize hD : ({ adc := A, tc1 := adcBlock, fifo := [], pio := { core := conv 2 0 7 y (narrow 0) 0 32, tx := [], rx := [] }, on := true } : AdcDev) = D at *
  have hrunA := dev_run_append hrun1 hrun2
  have hpA := prompt_append hrun1 hpr1 hp2
  obtain ⟨k, k0, k1⟩ := left_in y
  have hw : OnWayC D false 0 adcBlock (adcBlock - 1) (.run k) := by
    rw [← hD]
    exact ⟨⟨rfl, rfl, rfl, rfl, k1⟩, ⟨by simp only [Way.wait]; omega, (fun h => by simp [Way.rank] at h)⟩, by simp [Way.rank], by show A.tcHw = adcBlock - 1 + 1; rw [g3]; omega⟩
  obtain ⟨hrun3, hpr3⟩ := AdcDev.run_hw S (cycles P) ⟨D, c⟩
  obtain ⟨w', n1, n2, -⟩ := hw.cycles (ms := P)
  unfold resetOf
  have hfin : w' = .done 0 := by
    obtain ⟨A', x', B, y', C, he, hB, hC⟩ := hser
    rw [he] at n1
    obtain ⟨w1, q1, q2⟩ := Way.along_append.mp n1
    obtain ⟨w2, q3, q4⟩ := q2
    obtain ⟨w3, q5, q6⟩ := Way.along_append.mp q4
    obtain ⟨w4, q7, q8⟩ := q6
    exact Way.arrives hw.ok q1 q3 q5 q7 q8 hB hC
  subst hfin
  obtain ⟨b1, b2, b3, b4⟩ := n2
  have hR := dev_run_append hrunA hrun3
  have hP := prompt_append hrunA hpA hpr3
  have hDtc : D.adc.tc = adcBlock := by rw [← hD]; exact g4
  refine ⟨_, _, hR, hP, b1, b3, b4, ?_, ⟨o, ?_, g2⟩, ?_⟩
  · show (D.hws (cycles P)).adc.tc = adcBlock
    rw [AdcDev.hws_adc, (writes_keep _ _).2.2, hDtc]
  · simp
  · show c.busy = true
    rw [g5, ← hcc]; rfl

theorem reset_scene {S : Nat} (hS : 8 ≤ S) (ring : Nat → Int) (hr : SampleRange ring) (rxErr : Bool) (zs : List UInt8) :
    ∃ s outs, DevSystem.run S (DevSystem.init ring rxErr) (resetRun zs) = .ok (s, outs) ∧ (DevSystem.init ring rxErr).Prompt S (resetRun zs) ∧
      AtRest s.dev true ∧ s.dev.tc1 = adcBlock ∧ s.dev.adc.tcHw = adcBlock - 1 ∧ s.dev.adc.tc = adcBlock ∧ (∃ o ∈ outs, o.reset = true) ∧ s.core.busy = true := by
  unfold resetRun
  exact reset_scene_of hS ring hr rxErr zs (fun d => unread_rest) prompt_serves

end P1P2
