import Verif.Proofs.WatchStep
/-!
# C144: the watchdog of the bus is silent, and the whole device in real time
-/
namespace P1P2

theorem taken_append (a b : List BoardStep) : taken (a ++ b) = taken a ++ taken b := by
  unfold taken
  rw [List.filterMap_append]

theorem converted_two (a b : List BoardStep) : converted (a ++ b) = converted a ++ converted b := by
  unfold converted
  rw [List.flatMap_append]

theorem looksIn_two (a b : List BoardStep) : looksIn (a ++ b) = looksIn a + looksIn b := by
  unfold looksIn
  rw [List.countP_append]

theorem FastEnough.front {a b : List BoardStep} (h : FastEnough (a ++ b)) : FastEnough a := by
  intro x y z e
  exact h x y (z ++ b) (by rw [e]; simp)

theorem Board.run_snoc {S : Nat} {pf : Platform} {g : Nat → UInt8} {x : BoardStep} : ∀ (xs : List BoardStep) {s t u : Board} {os : List BoardOut} {o : BoardOut},
    s.run S pf g xs = .ok (some (t, os)) → t.step S pf g x = .ok (some (u, o)) → s.run S pf g (xs ++ [x]) = .ok (some (u, os ++ [o])) := by
  intro xs
  induction xs with
  | nil =>
    intro s t u os o h1 h2
    obtain ⟨rfl, rfl⟩ := Board.run_nil h1
    rw [List.nil_append, Board.run, h2, Res.ok_bind]
    rfl
  | cons y xs ih =>
    intro s t u os o h1 h2
    obtain ⟨s', o', os', k1, k2, rfl⟩ := Board.run_cons h1
    rw [List.cons_append, Board.run, k1, Res.ok_bind]
    dsimp only
    rw [ih k2 h2, Res.ok_bind]
    rfl

/-- What a step does to the FIFO and the main loop, when nothing is dropped. -/
theorem main_step {S : Nat} (hS : 9 ≤ S) {pf : Platform} {g : Nat → UInt8} {s s' : Board} {x : BoardStep} {o : BoardOut} {l : Nat}
    (h : s.step S pf g x = .ok (some (s', o))) (hp : Paid S l s) (hl : l ≤ 906) (hb : s.rx.adc.behind ≤ 253) (hb' : s'.rx.adc.behind ≤ 253) :
    (s'.main.c0 = s.main.c0 ∧ taken [x] = [] ∧ looksIn [x] = 0 ∧ o.reports = [] ∧
      (((∀ l, x ≠ .receive l) ∧ s'.main.fifo = s.main.fifo) ∨ (∃ l, x = .receive l) ∧ s'.main.fifo = s.main.fifo ++ s.pending)) ∨
    (∃ e, x = .first e ∧ e.fifoErr = false ∧ s.main.c0.part1 pf g e = .ok (s'.main.c0, o.reports) ∧ s'.main.fifo = s.main.fifo) ∨
    (∃ e r, x = .second e ∧ e.word = s.main.fifo.head? ∧ s.main.c0.part2 pf g e = .ok r ∧ s'.main.c0 = r.1 ∧ o.reports = r.2.reports ∧ s'.main.fifo = s.main.fifo.tail) := by
  have hd := (hp.step hS h hl (by omega) (by omega)).2
  obtain ⟨h1, h2, h3, h4, -⟩ := hp
  obtain ⟨-, hc⟩ := Board.step_ok h
  rcases hc with ⟨v, rfl, rfl, ho, -⟩ | ⟨late, c1, rfl, -, hrx, hc⟩ | ⟨y, to, hy, hrx, hm, ho, hd'⟩
  · exact .inl ⟨rfl, rfl, rfl, ho, .inl ⟨fun _ h => (by cases h), rfl⟩⟩
  · obtain ⟨-, -, i, k3, -⟩ := rx_iterate hrx h2 h3 (by omega)
    obtain ⟨-, -, r3⟩ := rated_step hS k3 h1
    rcases hc with ⟨e1, e2, ho, -⟩ | ⟨w, to, e1, e2, ho, hd'⟩
    · refine .inl ⟨by rw [e2], rfl, rfl, ho, .inr ⟨⟨late, rfl⟩, ?_⟩⟩
      rw [r3] at e1
      have hw : s.rx.core.word = .zero := by
        split at e1
        · assumption
        · cases e1
      rw [e2, Board.pending, if_pos hw, List.append_nil]
    · rw [r3] at e1
      have hw : s.pending = [w] := by
        unfold Board.pending
        split at e1
        · cases e1
        · rename_i hne
          rw [if_neg hne]
          simp only [Option.some.injEq] at e1
          rw [e1]
      rw [hw]
      rcases TwoCores.step_ok e2 with ⟨w', q1, -, q2, q3⟩ | ⟨w', q1, -, q2, q3⟩ | ⟨e, c, rs, q1, -⟩ | ⟨q1, -⟩ | ⟨e, r, q1, -⟩
      · simp only [TwoStep.push.injEq] at q1
        subst q1
        exact .inl ⟨by rw [q2], rfl, rfl, by rw [ho, q3], .inr ⟨⟨late, rfl⟩, by rw [q2]⟩⟩
      · rw [hd', q3] at hd; cases hd
      · cases q1
      · cases q1
      · cases q1
  · rcases hy with ⟨rfl, rfl⟩ | ⟨e, rfl, rfl⟩ | ⟨e, rfl, rfl⟩
    · rcases TwoCores.step_ok hm with ⟨w', q1, -⟩ | ⟨w', q1, -⟩ | ⟨e, c, rs, q1, -⟩ | ⟨-, -, q2, q3⟩ | ⟨e, r, q1, -⟩
      · cases q1
      · cases q1
      · cases q1
      · exact .inl ⟨by rw [q2], rfl, rfl, by rw [ho, q3], .inl ⟨fun _ h => (by cases h), by rw [q2]⟩⟩
      · cases q1
    · rcases TwoCores.step_ok hm with ⟨w', q1, -⟩ | ⟨w', q1, -⟩ | ⟨e', c, rs, q1, -, q4, q5, q2, q3⟩ | ⟨q1, -⟩ | ⟨e, r, q1, -⟩
      · cases q1
      · cases q1
      · simp only [TwoStep.first.injEq] at q1
        subst q1
        exact .inr (.inl ⟨e, rfl, by rw [q4]; exact h4, by rw [ho, q2, q3]; exact q5, by rw [q2]⟩)
      · cases q1
      · cases q1
    · rcases TwoCores.step_ok hm with ⟨w', q1, -⟩ | ⟨w', q1, -⟩ | ⟨e', c, rs, q1, -⟩ | ⟨q1, -⟩ | ⟨e', r, q1, -, q4, q5, q2, q3⟩
      · cases q1
      · cases q1
      · cases q1
      · cases q1
      · simp only [TwoStep.second.injEq] at q1
        subst q1
        exact .inr (.inr ⟨e, r, rfl, q4, q5, by rw [q2], by rw [ho, q3], by rw [q2]⟩)

/-- The messages of the receive side, without the watchdog, have other status codes. -/
theorem take_status {s s' : RxSide} {w : Word} {us : Nat} {ms : List Message} (h : s.take w us = .ok (s', ms)) (hs : s.msg.status ≠ 4) :
    s'.msg.status ≠ 4 ∧ ∀ m ∈ ms, m.status ≠ 4 := by
  have app : ∀ {m m' : Message} {b : UInt8}, m.append b = .ok m' → m'.status = m.status := by
    intro m m' b h
    unfold Message.append at h
    split at h
    · rw [Res.bind_eq_ok] at h
      obtain ⟨d, -, h⟩ := h
      simp only [Res.ok.injEq] at h
      rw [← h]
    · simp only [Res.ok.injEq] at h
      rw [← h]
  rw [RxSide.take, Res.bind_eq_ok] at h
  obtain ⟨m, h1, h⟩ := h
  simp only [Res.ok.injEq, Prod.mk.injEq] at h
  obtain ⟨rfl, rfl⟩ := h
  have hm : m.status ≠ 4 := by
    unfold RxSide.collect at h1
    split at h1
    · simp only [Res.ok.injEq] at h1
      rw [← h1]; show 2 ≠ 4; decide
    · split at h1
      · rw [app h1]; show 3 ≠ 4; decide
      · split at h1
        · rw [app h1]; exact hs
        · simp only [Res.ok.injEq] at h1
          rw [← h1]; exact hs
  have he : (RxSide.ends m w).1.status ≠ 4 ∧ ∀ x ∈ (RxSide.ends m w).2, x.status ≠ 4 := by
    unfold RxSide.ends
    split
    · exact ⟨by show 0 ≠ 4; decide, fun x hx => by rw [List.mem_singleton.mp hx]; exact hm⟩
    · exact ⟨hm, fun x hx => (by cases hx)⟩
  have hf : (RxSide.full (RxSide.ends m w).1).1.status ≠ 4 ∧ ∀ x ∈ (RxSide.full (RxSide.ends m w).1).2, x.status ≠ 4 := by
    unfold RxSide.full
    split
    · exact ⟨by show 0 ≠ 4; decide, fun x hx => by rw [List.mem_singleton.mp hx]; show 2 ≠ 4; decide⟩
    · exact ⟨he.1, fun x hx => (by cases hx)⟩
  constructor
  · unfold RxSide.line
    split
    · exact hf.1
    · split
      · exact hf.1
      · exact hf.1
  · intro x hx
    rcases List.mem_append.mp hx with hx | hx
    · exact he.2 x hx
    · exact hf.2 x hx

/-- Since when the bus is busy, for the main loop: since the start, or since a word with line-busy was taken, which came with a code before. -/
def BusySince (ts : List (Nat × Word)) (t1 : Nat) (hist : List BoardStep) (since : Nat) : Prop :=
  ((∀ w ∈ taken hist, w.lineFree = false) ∧ since = Host.msNow t1) ∨
  ∃ h1 e w h2 k, hist = h1 ++ .second e :: h2 ∧ e.word = some w ∧ w.lineBusy = true ∧ since = Host.msNow e.tBusy ∧ (∀ w ∈ taken h2, w.lineFree = false) ∧
    ts[(taken h1).length]? = some (k, w) ∧ k < (converted h1).length

theorem BusySince.more {ts : List (Nat × Word)} {t1 : Nat} {hist : List BoardStep} {since : Nat} (h : BusySince ts t1 hist since) (x : BoardStep)
    (hx : ∀ w ∈ taken [x], w.lineFree = false) : BusySince ts t1 (hist ++ [x]) since := by
  rcases h with ⟨h1, h2⟩ | ⟨h1, e, w, h2, k, rfl, a2, a3, a4, a5, a6, a7⟩
  · refine .inl ⟨fun w hw => ?_, h2⟩
    rw [taken_append] at hw
    rcases List.mem_append.mp hw with hw | hw
    · exact h1 w hw
    · exact hx w hw
  · refine .inr ⟨h1, e, w, h2 ++ [x], k, by simp, a2, a3, a4, fun w hw => ?_, a6, a7⟩
    rw [taken_append] at hw
    rcases List.mem_append.mp hw with hw | hw
    · exact a5 w hw
    · exact hx w hw

/-- The invariant: `D` samples processed after the steps `hist`. -/
structure Watch (ts : List (Nat × Word)) (t1 : Nat) (hist : List BoardStep) (s : Board) (D : Nat) : Prop where
  late : (comeBy ts (D - 1)).length ≤ (taken hist).length + s.main.fifo.length
  age : ∀ (j k : Nat) (w : Word), ts[j]? = some (k, w) → j < (taken hist).length + s.main.fifo.length →
    ∃ h1 h2, hist = h1 ++ h2 ∧ (converted h1).length ≤ k + 508 ∧ (j < (taken hist).length ∨ j + looksIn h2 ≤ (taken hist).length + 7)
  since : s.main.c0.lineBusy = true → BusySince ts t1 hist s.main.c0.busySince
  status : s.main.c0.rxMsg.status ≠ 4

/-- A word that has not been taken came at most 3024 codes ago. -/
theorem Watch.fresh {ts : List (Nat × Word)} (hs : ts.Pairwise fun x y => x.1 < y.1) {t1 : Nat} {hist rest : List BoardStep} {s : Board} {D : Nat} (h : Watch ts t1 hist s D)
    (hf : FastEnough (hist ++ rest)) (hD : (converted hist).length ≤ D + 253) {j k : Nat} {w : Word} (hj : ts[j]? = some (k, w)) (ht : (taken hist).length ≤ j) :
    (converted hist).length ≤ k + 3024 := by
  by_cases hn : j < (taken hist).length + s.main.fifo.length
  · obtain ⟨h1, h2, rfl, a2, a3⟩ := h.age j k w hj hn
    have := hf h1 h2 rest rfl
    rw [converted_two, List.length_append]
    rcases a3 with a3 | a3
    · omega
    · omega
  · have h1 := h.late
    have h2 : ¬ k < D - 1 := fun hk => by
      have := (comeBy_get (N := D - 1) hs j k w hj).1.mpr hk
      omega
    omega

/-- Taken words are the first ones. -/
theorem taken_get {ts : List (Nat × Word)} (hs : ts.Pairwise fun x y => x.1 < y.1) {a b c : List Word} {N : Nat} (h : a ++ b ++ c = comeBy ts N) {j k : Nat} {w : Word}
    (hj : ts[j]? = some (k, w)) (ha : j < a.length) : a[j]? = some w := by
  have hl : j < (comeBy ts N).length := by
    rw [← h, List.length_append, List.length_append]; omega
  obtain ⟨e1, e2⟩ := comeBy_get (N := N) hs j k w hj
  have := e2 (e1.mp hl)
  rw [← h, List.append_assoc, List.getElem?_append_left ha] at this
  exact this

/-- The watchdog does not report: the bus has not been busy for long. -/
theorem Watch.silent {ts : List (Nat × Word)} (hs : ts.Pairwise fun x y => x.1 < y.1) {ps : List BusPacket} (hp : ∀ p ∈ ps, p.RawOk ∧ p.bytes.length ≤ 31)
    (hts : PacketsRaw 0 ps ts) {t1 : Nat} (ht1 : t1 ≤ 4000000000000) {hist rest : List BoardStep} {e : Env1} {s : Board} {D : Nat} (h : Watch ts t1 hist s D)
    (hf : FastEnough (hist ++ .first e :: rest)) (hc : Clocked t1 (hist ++ .first e :: rest)) (hD : (converted hist).length ≤ D + 253)
    (hw : taken hist ++ s.main.fifo ++ s.pending = comeBy ts D) (hblock : (converted hist).length < adcBlock) : s.main.c0.rxSide.bites e.tDog1 = false := by
  have hb : adcBlock = 268435456 := rfl
  obtain ⟨⟨f, f1, f2⟩, hn⟩ := next_free ps 0 ts hp hts
  have key : ∀ r, r ≤ t1 + 20 * 268435456 + 100000 → e.tDog1 ≤ r + 400000 → s.main.c0.busySince = Host.msNow r → s.main.c0.rxSide.bites e.tDog1 = false := by
    intro r h1 h2 h3
    have h4 := hc.first hist (.first e) rest e.tDog1 rfl rfl
    unfold RxSide.bites
    have h5 : ¬ (s.main.c0.busySince + 500) % 4294967296 < Host.msNow e.tDog1 := by
      rw [h3]
      unfold Host.msNow
      rw [Nat.mod_eq_of_lt (a := r / 1000) (by omega), Nat.mod_eq_of_lt (a := r / 1000 + 500) (by omega), Nat.mod_eq_of_lt (a := e.tDog1 / 1000) (by omega)]
      omega
    have h5 : decide ((s.main.c0.rxSide.since + 500) % 4294967296 < Host.msNow e.tDog1) = false := decide_eq_false h5
    rw [h5, Bool.and_false]
  cases hl : s.main.c0.lineBusy with
  | false =>
    unfold RxSide.bites
    show (s.main.c0.lineBusy && _) = false
    rw [hl]; rfl
  | true =>
    rcases h.since hl with ⟨a1, a2⟩ | ⟨h1, e', w, h2, k, rfl, a2, a3, a4, a5, a6, a7⟩
    · have h0 : (taken hist).length ≤ 0 := by
        by_cases hz : (taken hist).length ≤ 0
        · exact hz
        · have := taken_get hs hw f1 (by omega)
          have := a1 _ (List.mem_of_getElem? this)
          cases this
      have h3 := h.fresh hs hf hD f1 h0
      have h4 := hc.first hist (.first e) rest e.tDog1 rfl rfl
      exact key t1 (by omega) (by omega) a2
    · obtain ⟨j, k', j1, j2, j3⟩ := hn _ _ _ a6 a3
      have htk : taken (h1 ++ .second e' :: h2) = taken h1 ++ w :: taken h2 := by
        rw [taken_append]
        congr 1
        unfold taken
        rw [List.filterMap_cons]
        dsimp only
        rw [a2]
      have h0 : (taken (h1 ++ .second e' :: h2)).length ≤ j := by
        by_cases hz : (taken (h1 ++ .second e' :: h2)).length ≤ j
        · exact hz
        · have hg := taken_get hs hw j2 (by omega)
          rw [htk, List.getElem?_append_right (by omega)] at hg
          obtain ⟨d, hd⟩ : ∃ d, j - (taken h1).length = d + 1 := ⟨j - (taken h1).length - 1, by omega⟩
          rw [hd, List.getElem?_cons_succ] at hg
          have := a5 _ (List.mem_of_getElem? hg)
          cases this
      have h3 := h.fresh hs hf hD j2 h0
      rw [converted_two, List.length_append] at h3 hblock
      have hcv : converted (.second e' :: h2) = converted h2 := rfl
      rw [hcv] at h3 hblock
      have h4 := hc.first h1 (.second e') (h2 ++ .first e :: rest) e'.tBusy (by simp) rfl
      have h5 := hc.two h1 (.second e') h2 (.first e) rest e'.tBusy e.tDog1 (by simp) rfl rfl
      exact key e'.tBusy (by omega) (by omega) a4

/-- One step. -/
theorem Watch.step {S : Nat} (hS : 9 ≤ S) {pf : Platform} {g : Nat → UInt8} {ts : List (Nat × Word)} (hs : ts.Pairwise fun x y => x.1 < y.1) {ps : List BusPacket}
    (hp : ∀ p ∈ ps, p.RawOk ∧ p.bytes.length ≤ 31) (hts : PacketsRaw 0 ps ts) {t1 : Nat} (ht1 : t1 ≤ 4000000000000) {hist rest : List BoardStep} {x : BoardStep} {s s' : Board}
    {o : BoardOut} {D D' l : Nat} (h : Watch ts t1 hist s D) (hx : s.step S pf g x = .ok (some (s', o))) (hpd : Paid S l s) (hl : l ≤ 906) (hb : s.rx.adc.behind ≤ 253)
    (hb' : s'.rx.adc.behind ≤ 253) (h8 : s'.main.fifo.length ≤ 8) (hf : FastEnough (hist ++ x :: rest)) (hc : Clocked t1 (hist ++ x :: rest)) (hD : (converted hist).length ≤ D + 253)
    (hDle : D ≤ (converted hist).length)
    (hw : taken hist ++ s.main.fifo ++ s.pending = comeBy ts D) (hblock : (converted hist).length < adcBlock) (hD1 : D' ≤ D + 1) (hD2 : (∀ l, x ≠ .receive l) → D' = D)
    (hv : x.values.length ≤ 254) : Watch ts t1 (hist ++ [x]) s' D' ∧ ∀ m ∈ rxMsgs o.reports, m.status ≠ 4 := by
  have hwl := congrArg List.length hw
  rw [List.length_append, List.length_append] at hwl
  rcases main_step hS hx hpd hl hb hb' with ⟨a1, a2, a3, a4, a5⟩ | ⟨e, rfl, a2, a3, a4⟩ | ⟨e, r, rfl, a2, a3, a4, a5, a6⟩
  · have htk : taken (hist ++ [x]) = taken hist := by rw [taken_append, a2, List.append_nil]
    have hsince : s'.main.c0.lineBusy = true → BusySince ts t1 (hist ++ [x]) s'.main.c0.busySince := by
      rw [a1]
      exact fun hlb => (h.since hlb).more x (by rw [a2]; intro w hw; cases hw)
    have hold : ∀ (j k : Nat) (w : Word), ts[j]? = some (k, w) → j < (taken hist).length + s.main.fifo.length →
        ∃ h1 h2, hist ++ [x] = h1 ++ h2 ∧ (converted h1).length ≤ k + 508 ∧ (j < (taken hist).length ∨ j + looksIn h2 ≤ (taken hist).length + 7) := by
      intro j k w hj hlt
      obtain ⟨h1, h2, rfl, b2, b3⟩ := h.age j k w hj hlt
      refine ⟨h1, h2 ++ [x], by simp, b2, ?_⟩
      rw [looksIn_two, a3]
      exact b3
    refine ⟨⟨?_, ?_, hsince, by rw [a1]; exact h.status⟩, by rw [a4]; intro m hm; cases hm⟩
    · rw [htk]
      rcases a5 with ⟨b1, b2⟩ | ⟨-, b2⟩
      · rw [b2, hD2 b1]; exact h.late
      · rw [b2, List.length_append]
        have := comeBy_mono (M := D' - 1) (N := D) (by omega) ts
        omega
    · intro j k w hj hlt
      rw [htk] at hlt ⊢
      by_cases hn : j < (taken hist).length + s.main.fifo.length
      · exact hold j k w hj hn
      · refine ⟨hist ++ [x], [], by simp, ?_, .inr ?_⟩
        · have e1 := h.late
          have e2 : ¬ k < D - 1 := fun hk => by
            have := (comeBy_get (N := D - 1) hs j k w hj).1.mpr hk
            omega
          rw [converted_two, List.length_append]
          have : (converted [x]).length = x.values.length := by unfold converted; simp
          omega
        · show j + 0 ≤ _
          omega
  · have htk : taken (hist ++ [.first e]) = taken hist := by rw [taken_append]; simp [taken]
    obtain ⟨q1, q2⟩ := part1_rxSide a3
    have hdog : s.main.c0.rxSide.dog e.tDog1 e.tDog2 = (s.main.c0.rxSide, []) := by
      unfold RxSide.dog
      rw [h.silent hs hp hts ht1 hf hc hD hw hblock]
      rfl
    rw [hdog, a2] at q1 q2
    have q1 : s'.main.c0.rxSide = s.main.c0.rxSide := q1
    have q2 : rxMsgs o.reports = [] := q2
    have e1 : s'.main.c0.lineBusy = s.main.c0.lineBusy := congrArg RxSide.busy q1
    have e2 : s'.main.c0.busySince = s.main.c0.busySince := congrArg RxSide.since q1
    have e3 : s'.main.c0.rxMsg = s.main.c0.rxMsg := congrArg RxSide.msg q1
    refine ⟨⟨?_, ?_, ?_, by rw [e3]; exact h.status⟩, by rw [q2]; intro m hm; cases hm⟩
    · rw [htk, a4, hD2 (fun _ h => by cases h)]; exact h.late
    · intro j k w hj hlt
      rw [htk, a4] at hlt
      rw [htk]
      obtain ⟨h1, h2, rfl, b2, b3⟩ := h.age j k w hj hlt
      exact ⟨h1, h2 ++ [.first e], by simp, b2, by rw [looksIn_two]; exact b3⟩
    · rw [e1, e2]
      exact fun hlb => (h.since hlb).more _ (by intro w hw; simp [taken] at hw)
  · have hDD := hD2 (fun _ h => by cases h)
    subst hDD
    have htk : taken [BoardStep.second e] = e.word.toList := by
      unfold taken
      rw [List.filterMap_cons]
      dsimp only
      cases e.word <;> rfl
    have hlk : looksIn [BoardStep.second e] = 1 := rfl
    have hcount : (taken (hist ++ [.second e])).length + s'.main.fifo.length = (taken hist).length + s.main.fifo.length := by
      rw [taken_append, htk, a6, a2, List.length_append]
      cases s.main.fifo <;> simp <;> omega
    have hage : ∀ (j k : Nat) (w : Word), ts[j]? = some (k, w) → j < (taken (hist ++ [.second e])).length + s'.main.fifo.length →
        ∃ h1 h2, hist ++ [.second e] = h1 ++ h2 ∧ (converted h1).length ≤ k + 508 ∧ (j < (taken (hist ++ [.second e])).length ∨ j + looksIn h2 ≤ (taken (hist ++ [.second e])).length + 7) := by
      intro j k w hj hlt
      rw [hcount] at hlt
      obtain ⟨h1, h2, rfl, b2, b3⟩ := h.age j k w hj hlt
      refine ⟨h1, h2 ++ [.second e], by simp, b2, ?_⟩
      rw [looksIn_two, hlk, taken_append, htk, a2, List.length_append]
      cases hq : s.main.fifo with
      | nil =>
        rw [hq] at hlt
        exact .inl (by simpa using hlt)
      | cons w' l' =>
        simp only [List.head?_cons, Option.toList, List.length_cons, List.length_nil]
        omega
    have hlate : (comeBy ts (D' - 1)).length ≤ (taken (hist ++ [.second e])).length + s'.main.fifo.length := by rw [hcount]; exact h.late
    rw [a5]
    rcases part2_rxSide a3 with ⟨b1, b2, b3⟩ | ⟨w, b1, b2⟩
    · rw [← a4] at b2
      have e1 : s'.main.c0.lineBusy = s.main.c0.lineBusy := congrArg RxSide.busy b2
      have e2 : s'.main.c0.busySince = s.main.c0.busySince := congrArg RxSide.since b2
      have e3 : s'.main.c0.rxMsg = s.main.c0.rxMsg := congrArg RxSide.msg b2
      refine ⟨⟨hlate, hage, ?_, by rw [e3]; exact h.status⟩, by rw [b3]; intro m hm; cases hm⟩
      rw [e1, e2]
      refine fun hlb => (h.since hlb).more _ ?_
      rw [htk, b1]
      intro w hw; cases hw
    · rw [← a4] at b2
      obtain ⟨st1, st2⟩ := take_status b2 h.status
      refine ⟨⟨hlate, hage, ?_, st1⟩, st2⟩
      intro hlb
      rw [RxSide.take, Res.bind_eq_ok] at b2
      obtain ⟨m, -, b2⟩ := b2
      simp only [Res.ok.injEq, Prod.mk.injEq] at b2
      have hline := b2.1
      unfold RxSide.line at hline
      have hlb' : s'.main.c0.rxSide.busy = true := hlb
      have hsince' : s'.main.c0.rxSide.since = s'.main.c0.busySince := rfl
      by_cases hfree : (w.lineFree && s.main.c0.rxSide.busy) = true
      · rw [if_pos hfree] at hline
        rw [← hline] at hlb'
        cases hlb'
      · rw [if_neg hfree] at hline
        by_cases hbusy : (w.lineBusy && !s.main.c0.rxSide.busy) = true
        · rw [if_pos hbusy] at hline
          have hsn : s'.main.c0.busySince = Host.msNow e.tBusy := by rw [← hsince', ← hline]
          rw [Bool.and_eq_true] at hbusy
          have hfi : s.main.fifo.head? = some w := by rw [← a2]; exact b1
          have hlen : (taken hist).length < (comeBy ts D').length := by
            rw [← hwl]
            cases hq : s.main.fifo with
            | nil => rw [hq] at hfi; cases hfi
            | cons w' l' => simp; omega
          have hlen2 := comeBy_length_le ts D'
          obtain ⟨⟨k, w'⟩, hk⟩ : ∃ y, ts[(taken hist).length]? = some y := ⟨_, List.getElem?_eq_getElem (by omega)⟩
          obtain ⟨c1, c2⟩ := comeBy_get (N := D') hs _ k w' hk
          have hkD := c1.mp hlen
          have hww : w' = w := by
            have := c2 hkD
            rw [← hw, List.append_assoc, List.getElem?_append_right (Nat.le_refl _), Nat.sub_self] at this
            cases hq : s.main.fifo with
            | nil => rw [hq] at hfi; cases hfi
            | cons w'' l' =>
              rw [hq] at hfi this
              simp only [List.head?_cons, Option.some.injEq] at hfi
              simp only [List.cons_append, List.getElem?_cons_zero, Option.some.injEq] at this
              rw [← this, hfi]
          subst hww
          exact .inr ⟨hist, e, w', [], k, rfl, b1, hbusy.1, hsn, (by intro w hw; cases hw), hk, (by omega)⟩
        · rw [if_neg hbusy] at hline
          have e1 : s.main.c0.lineBusy = true := by
            have := congrArg RxSide.busy hline
            rw [hlb'] at this
            exact this
          have e2 : s'.main.c0.busySince = s.main.c0.busySince := by rw [← hsince', ← hline]; rfl
          rw [e2]
          refine (h.since e1).more _ ?_
          rw [htk, b1]
          intro w2 hw2
          have : w2 = w := by simpa using hw2
          subst this
          cases hfr : w2.lineFree with
          | false => rfl
          | true =>
            rw [hfr] at hfree
            exact absurd (show (true && s.main.c0.lineBusy) = true by rw [e1]; rfl) hfree

/-- At the start. -/
theorem Watch.init {ts : List (Nat × Word)} {rxErr : Bool} {g : Nat → UInt8} {w0 : Word} {t0 t1 : Nat} : Watch ts t1 [] (Board.init (fun _ => 0) rxErr g w0 t0 t1) 0 := by
  refine ⟨?_, ?_, ?_, ?_⟩
  · rw [comeBy_early (fun x _ => Nat.zero_le _)]; exact Nat.zero_le _
  · intro j k w _ hlt
    exact absurd hlt (Nat.not_lt_zero j)
  · exact fun _ => .inl ⟨fun w hw => (by cases hw), rfl⟩
  · show 0 ≠ 4
    decide

/-- The watchdog does not report in the rest of a run. -/
theorem watch_run {S : Nat} (hS : 9 ≤ S) {rxErr : Bool} {q : Nat → UInt8} {ts : List (Nat × Word)} (hs : ts.Pairwise fun x y => x.1 < y.1) {ps : List BusPacket}
    (hp : ∀ p ∈ ps, p.RawOk ∧ p.bytes.length ≤ 31) (hts : PacketsRaw 0 ps ts) {K : Nat}
    (hT : ∀ N, N ≤ K → ∃ t tr, (C1Tail.init rxErr).run S ((List.range ((N + 1) / 2)).map (rawZ q)) = .ok (t, tr) ∧ nonzero (tr.map AcOut.word) = comeBy ts N)
    {pf : Platform} {g : Nat → UInt8} {w0 : Word} {t0 t1 : Nat} (ht1 : t1 ≤ 4000000000000) : ∀ (xs hist : List BoardStep) {s t : Board} {oh os : List BoardOut} {D : Nat},
    (Board.init (fun _ => 0) rxErr g w0 t0 t1).run S pf g hist = .ok (some (s, oh)) → s.run S pf g xs = .ok (some (t, os)) →
    AdcInv (fun _ => 0) (fun k => Pio.sampleValue k (q k)) 4992 (converted hist).length D s.rx.adc → s.rx.adc.err = false → s.rx.adc.behind ≤ 253 → Watch ts t1 hist s D →
    FastEnough (hist ++ xs) → Clocked t1 (hist ++ xs) → converted (hist ++ xs) = nextSamples (fun k => Pio.sampleValue k (q k)) 0 (converted (hist ++ xs)).length →
    (converted (hist ++ xs)).length ≤ K → (converted (hist ++ xs)).length < adcBlock → (∀ o ∈ oh, o.behind ≤ 253) → (∀ o ∈ os, o.behind ≤ 253) →
    ∀ m ∈ rxMsgs (os.flatMap BoardOut.reports), m.status ≠ 4 := by
  have hr : SampleRange fun k => Pio.sampleValue k (q k) := fun k => C41_conversion k (q k)
  have h0 : SampleRange fun _ => 0 := fun _ => by show (-256 : Int) ≤ 0 ∧ (0 : Int) ≤ 255; decide
  intro xs
  induction xs with
  | nil =>
    intro hist s t oh os D _ hrun _ _ _ _ _ _ _ _ _ _ _
    obtain ⟨rfl, rfl⟩ := Board.run_nil hrun
    intro m hm; cases hm
  | cons x xs ih =>
    intro hist s t oh os D hhist hrun i herr hb hwatch hf hc hv hK hblock hoh hos
    obtain ⟨s', o, os', h1, h2, rfl⟩ := Board.run_cons hrun
    obtain ⟨hbo, -⟩ := Board.step_ok h1
    have hb' : s'.rx.adc.behind ≤ 253 := by rw [← hbo]; exact hos o (List.mem_cons_self ..)
    have hcx : converted [x] = x.values := by unfold converted; simp
    have hcx2 : converted (x :: xs) = x.values ++ converted xs := rfl
    have hlen : (converted (hist ++ x :: xs)).length = (converted hist).length + x.values.length + (converted xs).length := by
      rw [converted_two, hcx2, List.length_append, List.length_append]; omega
    rw [hlen] at hK hblock
    have hv0 := hv
    rw [converted_two, hcx2] at hv0
    obtain ⟨v1, v2⟩ := nextSamples_cut hv0
    obtain ⟨v2, -⟩ := nextSamples_cut v2
    rw [Nat.zero_add] at v2
    obtain ⟨pd, -, -⟩ := paid_run hS hist [] hhist (hf.front) (Paid.init S _ rxErr g w0 t0 t1) (by rw [behind_init]; decide) (fun o ho => Nat.le_succ_of_le (hoh o ho))
    rw [List.nil_append] at pd
    have hw := board_words hS hT hhist v1 (by omega) (by omega) hoh hf.front i
    obtain ⟨D', i', herr', k1, k2, k3⟩ := adc_step h0 hr h1 i herr hb hb' v2 (by omega)
    have hsn := Board.run_snoc hist hhist h1
    have happ : hist ++ x :: xs = (hist ++ [x]) ++ xs := by simp
    have hf' := hf
    rw [happ] at hf'
    have hoh' : ∀ o' ∈ oh ++ [o], o'.behind ≤ 253 := by
      intro o' ho'
      rcases List.mem_append.mp ho' with ho' | ho'
      · exact hoh o' ho'
      · rw [List.mem_singleton.mp ho']; exact hos o (List.mem_cons_self ..)
    obtain ⟨-, -, h8⟩ := C141_no_overflow hS _ rxErr pf g w0 t0 t1 (hist ++ [x]) s' _ hsn (fun o ho => Nat.le_succ_of_le (hoh' o ho)) hf'.front
    have hbd := i.behind
    have hdl := i.dle
    obtain ⟨w1, w2⟩ := hwatch.step hS hs hp hts ht1 h1 pd hf.owed hb hb' h8 hf hc (by omega) hdl hw (by omega) k1 k2 k3
    have hlen' : (converted (hist ++ [x])).length = (converted hist).length + x.values.length := by rw [converted_two, hcx, List.length_append]
    have w3 := ih (hist ++ [x]) hsn h2 (by rw [hlen']; exact i') herr' hb' w1 hf' (by rw [← happ]; exact hc) (by rw [← happ]; exact hv) (by rw [← happ, hlen]; exact hK)
      (by rw [← happ, hlen]; exact hblock) hoh' (fun o ho => hos o (List.mem_cons_of_mem _ ho))
    intro m hm
    rw [List.flatMap_cons, rxMsgs_append] at hm
    rcases List.mem_append.mp hm with hm | hm
    · exact w2 m hm
    · exact w3 m hm

/-- **C144.** The whole device in real time: as C142, with no assumption on what the watchdog of the bus does.  If the clock (which shows `t1` at the start, less than 46 days) does not run away (`Clocked`),
the watchdog is silent and the host was given exactly one line for each packet, in order, with status 0 and the bytes of the packet. -/
theorem C144_device {S : Nat} (hS : 9 ≤ S) (rxErr : Bool) {a c : Int} (h1 : 49 ≤ a) (h2 : a ≤ 88) {L : Nat → Level} {q : Nat → UInt8}
    (hq : Codes a c L q) {M : Nat} (hM : M + 70 ≤ 2 * 2 ^ S) (ps : List BusPacket) (hp : ∀ p ∈ ps, p.RawOk ∧ p.bytes.length ≤ 31)
    (hg : ∀ b ∈ ps.flatMap BusPacket.frames, b.1 ≤ M) (hc : RawCarries L 0 (byteFrames (ps.flatMap BusPacket.frames)))
    (pf : Platform) (g : Nat → UInt8) (w0 : Word) (t0 t1 : Nat) (ht1 : t1 ≤ 4000000000000) (xs : List BoardStep) (b : Board) (os : List BoardOut)
    (h : (Board.init (fun _ => 0) rxErr g w0 t0 t1).run S pf g xs = .ok (some (b, os)))
    (hv : converted xs = (List.range (converted xs).length).map fun k => Pio.sampleValue k (q k))
    (hN : rawEnd 0 (byteFrames (ps.flatMap BusPacket.frames)) + 378 ≤ (converted xs).length)
    (hN' : (converted xs).length ≤ rawEnd 0 (byteFrames (ps.flatMap BusPacket.frames)) + M) (hblock : (converted xs).length < adcBlock)
    (hb : ∀ o ∈ os, o.behind ≤ 253) (hf : FastEnough xs) (hclk : Clocked t1 xs)
    (he : b.rx.adc.behind = 0 ∧ b.rx.core.word = .zero ∧ b.main.fifo = [] ∧ b.main.pc = .top) :
    (∀ m ∈ rxMsgs (os.flatMap BoardOut.reports), m.status ≠ 4) ∧ (rxMsgs (os.flatMap BoardOut.reports)).map lineShown = ps.map fun p => (0, p.bytes) := by
  obtain ⟨ts, r1, r2, r3⟩ := raw_times (S := S) (by omega) rxErr h1 h2 hq hM (by omega) (fun p hp' => (hp p hp').1) hg hc
  have hv' : converted xs = nextSamples (fun k => Pio.sampleValue k (q k)) 0 (converted xs).length := by
    rw [nextSamples]
    simp only [Nat.zero_add]
    exact hv
  have h4 := watch_run hS r2 hp r1 r3 ht1 (pf := pf) (g := g) (w0 := w0) (t0 := t0) xs [] (s := Board.init (fun _ => 0) rxErr g w0 t0 t1) (oh := []) (os := os) (D := 0) rfl h
    (AdcInv.start _ _ 426) rfl (by rw [behind_init]; decide) Watch.init hf hclk hv' hN' hblock (fun o ho => (by cases ho)) hb
  exact ⟨h4, C142_device hS rxErr h1 h2 hq hM ps hp hg hc pf g w0 t0 t1 xs b os h hv hN hN' hblock hb hf he h4⟩

end P1P2
