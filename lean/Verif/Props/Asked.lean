import Verif.Props.Sender
import Verif.Props.Answered
/-!
# C133: a request sent by one modem is answered by the controller of another
-/
namespace P1P2

/-- The iterations can be divided where the words are divided. -/
theorem split_words {E : List (Env1 × Env2)} {x : Env1 × Env2} {W V : List Word} {w : Word} (h : wordsOf (E ++ [x]) = W ++ V ++ [w]) (hx : x.2.word ≠ none) :
    x.2.word = some w ∧ ∃ E0 E1, E = E0 ++ E1 ∧ wordsOf E0 = W ∧ wordsOf E1 = V := by
  cases hw : x.2.word with
  | none => exact absurd hw hx
  | some w' =>
    have e1 : wordsOf (E ++ [x]) = wordsOf E ++ [w'] := by simp [wordsOf, hw]
    rw [e1] at h
    obtain ⟨h1, h2⟩ := List.append_inj' h rfl
    cases h2
    refine ⟨rfl, ?_⟩
    unfold wordsOf at h1
    obtain ⟨E0, E1, k1, k2, k3⟩ := List.filterMap_eq_append_iff.mp h1
    exact ⟨E0, E1, k1, k2, k3⟩

/-- **C133.** A modem hands messages to its transmit driver (hypotheses of C118: each complete, at most 31 bytes, with silence before it), the last of them `r` in cycle `n`.  A second modem
hears the bus; its main loop takes the words of its receiver (`E`, the last one in the iteration `y`), none lost.  If `r` is a valid request to the controller of the second modem (and at least as
long as the echoed part), this controller operates, its transmitter is idle and no packet of its host waits, then in this iteration the answer to `r` is given to its transmitter. -/
theorem C133_answer_started {S : Nat} (hS : 8 ≤ S) (rxErr : Bool) {a v : Int} (h1 : 49 ≤ a) (h2 : a ≤ 88) {P : Nat} (hP : 0 < P) {M : Nat} (hM : M + 70 ≤ 2 * 2 ^ S)
    {c : Nat → Nat} (hc : SenderClock P c) (ev : List DevEv) (d : TxDev) (pins : List (Nat × Bool)) (errs : List Bool)
    (hrun : TxDev.init.run ev = some (d, pins, errs)) (hcl : ClearsLate 1 0 0 ev)
    (hm : ∀ x ∈ sendsFrom 0 ev, 1 ≤ x.1 ∧ 1 ≤ x.2.length ∧ x.2.length ≤ 31 ∧ finalStart x.1 x.2 + 173 ≤ cyclesOf ev) (ha : CallsApart P M c 0 (sendsFrom 0 ev))
    {L : Nat → Level} (hL : Plays c (lineOf (pins.map Pio.view)) L) {q : Nat → UInt8} (hq : Codes a v (fun k => L (k * P)) q)
    (es : List (AdcEv × Bool)) (hk : keepsUp 254 0 0 (es.map Prod.fst))
    (hN : callsEnd P c 0 (sendsFrom 0 ev) + 378 * P ≤ deliveries 0 0 (es.map Prod.fst) * P)
    (hN' : deliveries 0 0 (es.map Prod.fst) * P + 2 * P ≤ callsEnd P c 0 (sendsFrom 0 ev) + M * P)
    (s : RxSystem) (outs : List C1Out)
    (hr : RxSystem.run S (RxSystem.init (fun _ => 0) rxErr) (scheduleEvents (fun k => Pio.sampleValue k (q k)) 0 0 es) = .ok (s, outs)) (hs : s.core.word = .zero)
    {before : List (Nat × Message)} {n : Nat} {r : Message} (hlastm : sendsFrom 0 ev = before ++ [(n, r)])
    (pf : Platform) (g : Nat → UInt8) {E : List (Env1 × Env2)} {y : Env1 × Env2} {cB cm c2 : Core0} {osB : List Out2} {rs : List Report} {o : Out2}
    (h0 : LoopRun pf g E cB osB) (hy1 : cB.part1 pf g y.1 = .ok (cm, rs)) (hy2 : cm.part2 pf g y.2 = .ok (c2, o))
    (hwords : wordsOf (E ++ [y]) = sent outs) (hyw : y.2.word ≠ none)
    (hf : ∀ e ∈ E ++ [y], e.1.fifoErr = false) (hd : ∀ m ∈ busLines osB ++ rxMsgs (rs ++ o.reports), m.status ≠ 4)
    (h30 : r.data 2 = 0x30 → 17 ≤ r.length) (h31 : r.data 2 ≠ 0x30 → 15 ≤ r.length)
    (hop : cm.ctrl.state = .operating) (hv : ValidRequest cm.ctrl.address r) (hidle : cm.sm.isIdle = true) (hq' : cm.host.hasData = false) (herr : cB.sm.err = false) :
    ∃ ans, o.started = some ans ∧ AnswerTo cm.ctrl.address r ans := by
  obtain ⟨-, s', outs', e1, e2⟩ := C118_words hS rxErr h1 h2 hP hM hc ev d pins errs hrun hcl
    (fun x hx => by obtain ⟨m1, m2, m3, m4⟩ := hm x hx; exact ⟨m1, m2, by omega, m4⟩) ha hL hq es hk hN hN'
  rw [hr] at e1
  simp only [Res.ok.injEq, Prod.mk.injEq] at e1
  obtain ⟨rfl, rfl⟩ := e1
  rw [if_pos hs, List.append_nil, hlastm, List.flatMap_append, List.flatMap_singleton] at e2
  have e3 : wordsOf (E ++ [y]) = ((before.flatMap fun x => wFree :: wBusy :: x.2.bytes.map wByte) ++ [wFree]) ++ (wBusy :: r.bytes.map wByte) ++ [wFree] := by
    rw [hwords, e2]; simp
  obtain ⟨k1, E0, E1, rfl, k3, k4⟩ := split_words e3 hyw
  obtain ⟨w0, t0, t1, h0⟩ := h0
  obtain ⟨c0, o0, o1, r1, r2, r3⟩ := Core0.run_append h0
  subst r3
  refine C128_answer_started pf g ⟨w0, t0, t1, r1⟩ r2 hy1 hy2 k4 k1 (.inr ⟨_, k3⟩) (fun e he => hf e ?_) (fun m hmm => hd m ?_)
    (hm (n, r) (by rw [hlastm]; simp)).2.2.1 h30 h31 hop hv hidle hq' herr
  · rw [List.append_assoc]; exact List.mem_append_right _ he
  · rcases List.mem_append.mp hmm with h | h
    · refine List.mem_append_left _ ?_
      unfold busLines at *
      rw [List.flatMap_append]
      exact List.mem_append_right _ h
    · exact List.mem_append_right _ h

/-! ## A case that meets the hypotheses -/

/-- 300 cycles, the call of `Send` with a request of 18 bytes, the DMA as there is room, and `ClearFifo` when the last frame has begun. -/
@[irreducible] def askSender : List DevEv :=
  List.replicate 300 .cycle ++ [.call (.send (messageOf 0 request30))] ++ List.replicate 8 .dma ++
    (List.replicate 10 (List.replicate 175 .cycle ++ [.dma])).flatten ++ List.replicate 1300 .cycle ++ [.call .clearFifo, .error] ++ List.replicate 275 .cycle

theorem askSender_runs : (TxDev.init.run askSender).isSome = true := by decide +kernel

theorem askSender_clears : ClearsLate 1 0 0 askSender := by decide +kernel

set_option maxRecDepth 100000 in
theorem askSender_sends : sendsFrom 0 askSender = [(300, messageOf 0 request30)] := by
  unfold askSender
  rfl

set_option maxRecDepth 100000 in
theorem askSender_cycles : cyclesOf askSender = 3625 := by
  unfold askSender
  rfl

/-- What the main loop of the second modem has done, and its state in the middle of the iteration that takes the last word. -/
theorem askRun_ok : (match (Core0.init (fun _ => 0) .zero 0 0).run .arm (fun _ => 0) (opRun ++ askRun) with
    | .ok (c, os) => match c.part1 .arm (fun _ => 0) (env1 2303000 []) with
      | .ok (cm, rs) => match cm.part2 .arm (fun _ => 0) (env2 2303000 (some wFree)) with
        | .ok (_, o) => decide (cm.ctrl.state = .operating) && decide (cm.ctrl.address = 0xF0) && cm.sm.isIdle && !cm.host.hasData && !c.sm.err &&
            (busLines os ++ rxMsgs (rs ++ o.reports)).all (fun m => decide (m.status ≠ 4)) && (opRun ++ askRun).all (fun e => !e.1.fifoErr)
        | .ub => false
      | .ub => false
    | .ub => false) = true := by decide +kernel

/-- The request goes over the bus, and the answer is started. -/
example : ∃ (pins : List (Nat × Bool)) (outs : List C1Out) (o : Out2) (ans : Message), (∃ d errs, TxDev.init.run askSender = some (d, pins, errs)) ∧
    wordsOf (opRun ++ askRun ++ [bothIter 2303000 [] (some wFree)]) = sent outs ∧ o.started = some ans ∧ AnswerTo 0xF0 (messageOf 0 request30) ans := by
  have h := askSender_runs
  rw [Option.isSome_iff_exists] at h
  obtain ⟨⟨d, pins, errs⟩, hrun⟩ := h
  have hL : Plays (dividerClock 48 0 0) (lineOf (pins.map Pio.view)) (idealLine (dividerClock 48 0 0) (lineOf (pins.map Pio.view))) :=
    ⟨fun τ ht => idealLine_before modemClock _ ht, fun k τ h1 h2 => idealLine_at modemClock _ h1 h2⟩
  obtain ⟨n, hn⟩ : ∃ n, n = 7300 := ⟨_, rfl⟩
  obtain ⟨k1, k2⟩ := atOnceIdle_ok n 0 (by rw [hn]; decide)
  have cend : callsEnd 19625 (dividerClock 48 0 0) 0 (sendsFrom 0 askSender) = dividerClock 48 0 0 3276 + 348 * 19625 := by rw [askSender_sends]; rfl
  have cval : dividerClock 48 0 0 3276 = 127968528 := by decide
  generalize hLL : idealLine (dividerClock 48 0 0) (lineOf (pins.map Pio.view)) = L at hL
  have hq := codesOf_ok fun k => L (k * 19625)
  generalize codesOf (fun k => L (k * 19625)) = q at hq
  have hr : SampleRange fun k => Pio.sampleValue k (q k) := fun k => C41_conversion k (q k)
  have h0 : SampleRange fun _ => 0 := fun _ => by show (-256 : Int) ≤ 0 ∧ (0 : Int) ≤ 255; decide
  obtain ⟨ad, e3⟩ := C101_samples (S := 32) (fun _ => 0) _ h0 hr false (atOnceIdle n) k1
  obtain ⟨is, e4⟩ := atOnceIdle_last 4992 (adcHist (fun _ => 0) fun k => Pio.sampleValue k (q k)) n 0
  have hcyc := askSender_cycles
  have hm : ∀ x ∈ sendsFrom 0 askSender, 1 ≤ x.1 ∧ 1 ≤ x.2.length ∧ x.2.length ≤ 31 ∧ finalStart x.1 x.2 + 173 ≤ cyclesOf askSender := by
    rw [askSender_sends, hcyc]; intro x hx; rw [List.mem_singleton] at hx; subst hx
    exact ⟨by decide, by decide, by decide, by decide⟩
  have hN : callsEnd 19625 (dividerClock 48 0 0) 0 (sendsFrom 0 askSender) + 378 * 19625 ≤ deliveries 0 0 ((atOnceIdle n).map Prod.fst) * 19625 := by
    rw [cend, cval, k2, hn]; decide
  have hN' : deliveries 0 0 ((atOnceIdle n).map Prod.fst) * 19625 + 2 * 19625 ≤ callsEnd 19625 (dividerClock 48 0 0) 0 (sendsFrom 0 askSender) + 1000 * 19625 := by
    rw [cend, cval, k2, hn]; decide
  have hap : CallsApart 19625 1000 (dividerClock 48 0 0) 0 (sendsFrom 0 askSender) := by rw [askSender_sends]; exact ⟨by decide, by decide, trivial⟩
  obtain ⟨-, s, outs, e1, e2⟩ := C118_words (S := 32) (by decide) false (by decide) (by decide) (P := 19625) (by decide) (M := 1000) (by decide) modemClock
    _ d pins errs hrun askSender_clears (fun x hx => by obtain ⟨m1, m2, m3, m4⟩ := hm x hx; exact ⟨m1, m2, by omega, m4⟩) hap hL hq (atOnceIdle n) k1 hN hN'
  have hz : s.core.word = .zero := by
    rw [e1, e4] at e3
    cases hcr : (Core1.init false).run 32 (is ++ [{ ready := true, adc := .none }]) with
    | ub => rw [hcr] at e3; cases e3
    | ok r =>
      rw [hcr] at e3
      simp only [Res.bind, Res.ok.injEq, Prod.mk.injEq] at e3
      rw [e3.1]
      exact Core1.idle_last is hcr
  rw [if_pos hz, List.append_nil, askSender_sends] at e2
  have hw : wordsOf (opRun ++ askRun ++ [bothIter 2303000 [] (some wFree)]) = sent outs := by rw [e2]; rfl
  have hh := askRun_ok
  cases hc : (Core0.init (fun _ => 0) .zero 0 0).run .arm (fun _ => 0) (opRun ++ askRun) with
  | ub => rw [hc] at hh; cases hh
  | ok r =>
    rw [hc] at hh
    obtain ⟨c, os⟩ := r
    dsimp only at hh
    cases hp1 : c.part1 .arm (fun _ => 0) (env1 2303000 []) with
    | ub => rw [hp1] at hh; cases hh
    | ok r1 =>
      rw [hp1] at hh
      obtain ⟨cm, rs⟩ := r1
      dsimp only at hh
      cases hp2 : cm.part2 .arm (fun _ => 0) (env2 2303000 (some wFree)) with
      | ub => rw [hp2] at hh; cases hh
      | ok r2 =>
        rw [hp2] at hh
        obtain ⟨c2, o⟩ := r2
        simp only [Bool.and_eq_true, decide_eq_true_eq, Bool.not_eq_true', List.all_eq_true] at hh
        obtain ⟨⟨⟨⟨⟨⟨x1, x2⟩, x3⟩, x4⟩, x5⟩, x6⟩, x7⟩ := hh
        have hv : ValidRequest cm.ctrl.address (messageOf 0 request30) := by
          rw [x2]
          refine ⟨by decide, by decide, by decide, by decide, ?_⟩
          show genCRC (messageOf 0 request30).data 17 = .ok 0xF3
          decide +kernel
        have hff : ∀ e ∈ opRun ++ askRun ++ [bothIter 2303000 [] (some wFree)], e.1.fifoErr = false := by
          intro e he
          rcases List.mem_append.mp he with he | he
          · exact x7 e he
          · rw [List.mem_singleton] at he; subst he; rfl
        obtain ⟨ans, a1, a2⟩ := C133_answer_started (S := 32) (by decide) false (by decide) (by decide) (P := 19625) (by decide) (M := 1000) (by decide) modemClock
          _ d pins errs hrun askSender_clears hm hap hL hq (atOnceIdle n) k1 hN hN' s outs e1 hz (before := []) (by rw [askSender_sends]; rfl) .arm (fun _ => 0)
          (y := bothIter 2303000 [] (some wFree)) ⟨.zero, 0, 0, hc⟩ hp1 hp2 hw (by intro h; cases h) hff x6 (by decide) (by decide) x1 hv x3 x4 x5
        rw [x2] at a2
        exact ⟨pins, outs, o, ans, ⟨d, errs, hrun⟩, hw, a1, a2⟩

end P1P2
