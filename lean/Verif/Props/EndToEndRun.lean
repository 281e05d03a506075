import Verif.Props.EndToEnd
import Verif.Props.AloneRun
import Verif.Props.Sender
/-!
# C132: a case that meets the hypotheses

The host of modem A types `40F0`; the host of modem B reads the line for 40 F0.
-/
namespace P1P2
open Spec

/-- Fewer than eight lines typed: fewer than eight packets wait. -/
theorem fewWait_of_lines {pf : Platform} {g : Nat → UInt8} {es : List (Env1 × Env2)}
    (h : ∀ pre post, es = pre ++ post → (hostLines pre).length < 8) : FewWait pf g es := by
  intro pre post cp op he hr
  obtain ⟨ps, q, -, -, -, h1, h2, -⟩ := C89_what_is_sent pf g pre cp op hr
  have h3 := h2.length_le
  have h4 := List.length_filterMap_le (packetOf pf g) (hostLines pre)
  have h5 := h pre post he
  rw [List.length_append] at h3
  omega

theorem alone_few : FewWait .arm (fun _ => 0) aloneEnvs := by
  refine fewWait_of_lines fun pre post he => ?_
  have hk : pre = aloneEnvs.take pre.length := by rw [he]; simp
  have hl : pre.length < 20 := by
    have := congrArg List.length he
    rw [List.length_append] at this
    have h19 : aloneEnvs.length = 19 := by decide +kernel
    omega
  have : ∀ k, k < 20 → (hostLines (aloneEnvs.take k)).length < 8 := by decide +kernel
  rw [hk]
  exact this _ hl

/-- What is typed. -/
def aloneChunks : List Chunk := List.replicate 3 ⟨[], []⟩ ++ [⟨[52, 48, 70, 48], [10]⟩] ++ List.replicate 15 ⟨[], []⟩

theorem aloneChunks_typed : aloneEnvs.map (fun e => e.1.chunk) = aloneChunks.map Chunk.bytes := by decide +kernel

theorem aloneChunks_text : ∀ c ∈ aloneChunks, (∀ x ∈ c.body, ¬ Term x ∧ x ≠ 0) ∧ ∀ x ∈ c.terms, Term x := by
  intro c hc
  simp only [aloneChunks, List.mem_append, List.mem_replicate, List.mem_singleton] at hc
  rcases hc with (⟨_, rfl⟩ | rfl) | ⟨_, rfl⟩
  · simp
  · simp [Term]
  · simp

theorem aloneChunks_fit : Fits [] aloneChunks := by
  simp [aloneChunks, Fits, List.replicate]

theorem aloneRun_done : ∃ c, LoopRun .arm (fun _ => 0) (aloneRounds.map Round.env) c (aloneRounds.map Round.out) ∧ c.sm.isIdle = true ∧ c.host.hasData = false := by
  rw [aloneRounds_env.1, aloneRounds_env.2]
  have h : (match (Core0.init (fun _ => 0) .zero 0 0).run .arm (fun _ => 0) aloneEnvs with | .ok r => r.1.sm.isIdle && !r.1.host.hasData | .ub => false) = true := by decide +kernel
  have ho : aloneOuts = match (Core0.init (fun _ => 0) .zero 0 0).run .arm (fun _ => 0) aloneEnvs with | .ok r => r.2 | .ub => [] := rfl
  cases hr : (Core0.init (fun _ => 0) .zero 0 0).run .arm (fun _ => 0) aloneEnvs with
  | ub => rw [hr] at h; cases h
  | ok r =>
    rw [hr] at h ho
    simp only [Bool.and_eq_true, Bool.not_eq_true'] at h
    exact ⟨r.1, ⟨.zero, 0, 0, by rw [hr, ho]⟩, h⟩

/-- The reports of modem B. -/
theorem handOver_reports : (match (TwoCores.init (fun _ => 0) .zero 0 0 false).run .arm (fun _ => 0) handOver with
    | .ok (some (t, os)) => decide (drops os = 0) && decide (t.pc = .top) && decide (t.fifo = []) &&
        (reportsOf os).all (fun r => match r with | .rx m => decide (m.status ≠ 4) | .tx _ => false)
    | _ => false) = true := by decide +kernel

example : ∃ (h' : Host) (text : List UInt8) (ev : List TxEv), runTx (Host.init fun _ => 0) [] ev = .ok (h', text) ∧ Reads text [[0x40, 0xF0]] := by
  obtain ⟨c, hl, hid, hw⟩ := aloneRun_done
  obtain ⟨d, pins, errs, hrun, -⟩ := alone_hears
  have hL : Plays (dividerClock 48 0 0) (lineOf (pins.map Pio.view)) (idealLine (dividerClock 48 0 0) (lineOf (pins.map Pio.view))) :=
    ⟨fun τ ht => idealLine_before modemClock _ ht, fun k τ h1 h2 => idealLine_at modemClock _ h1 h2⟩
  obtain ⟨n, hn⟩ : ∃ n, n = 720000 := ⟨_, rfl⟩
  obtain ⟨k1, k2⟩ := atOnceIdle_ok n 0 (by rw [hn]; decide)
  have cend : callsEnd 19625 (dividerClock 48 0 0) 0 (sendsFrom 0 (devEvents aloneStart aloneRounds)) = dividerClock 48 0 0 (aloneCyc 2334000 + 176) + 348 * 19625 := by
    rw [alone_sends]; simp [callsEnd, finalStart, aloneMsg_length]
  have cval : dividerClock 48 0 0 (aloneCyc 2334000 + 176) = 14010915072 := by decide
  generalize hLL : idealLine (dividerClock 48 0 0) (lineOf (pins.map Pio.view)) = L at hL
  have hq := codesOf_ok fun k => L (k * 19625)
  generalize codesOf (fun k => L (k * 19625)) = q at hq
  have hr : SampleRange fun k => Pio.sampleValue k (q k) := fun k => C41_conversion k (q k)
  have h0 : SampleRange fun _ => 0 := fun _ => by show (-256 : Int) ≤ 0 ∧ (0 : Int) ≤ 255; decide
  obtain ⟨ad, e3⟩ := C101_samples (S := 32) (fun _ => 0) _ h0 hr false (atOnceIdle n) k1
  obtain ⟨is, e4⟩ := atOnceIdle_last 4992 (adcHist (fun _ => 0) fun k => Pio.sampleValue k (q k)) n 0
  have hm : ∀ x ∈ sendsFrom 0 (devEvents aloneStart aloneRounds), 1 ≤ x.1 ∧ 1 ≤ x.2.length ∧ x.2.length ≤ 32 ∧ finalStart x.1 x.2 + 173 ≤ cyclesOf (devEvents aloneStart aloneRounds) := by
    rw [alone_sends, alone_cycles]; intro x hx; rw [List.mem_singleton] at hx; subst hx
    simp only [finalStart, aloneMsg_length]
    exact ⟨by decide, by decide, by decide, by decide⟩
  have hN : callsEnd 19625 (dividerClock 48 0 0) 0 (sendsFrom 0 (devEvents aloneStart aloneRounds)) + 378 * 19625 ≤ deliveries 0 0 ((atOnceIdle n).map Prod.fst) * 19625 := by
    rw [cend, cval, k2, hn]; decide
  have hN' : deliveries 0 0 ((atOnceIdle n).map Prod.fst) * 19625 + 2 * 19625 ≤ callsEnd 19625 (dividerClock 48 0 0) 0 (sendsFrom 0 (devEvents aloneStart aloneRounds)) + 2000000000 * 19625 := by
    rw [cend, cval, k2, hn]; decide
  obtain ⟨-, s, outs, e1, e2⟩ := C118_words (S := 32) (by decide) false (by decide) (by decide) (P := 19625) (by decide) (M := 2000000000) (by decide) modemClock
    _ d pins errs hrun alone_clears hm (by rw [alone_sends]; exact ⟨by decide, by decide, trivial⟩) hL hq (atOnceIdle n) k1 hN hN'
  have hz : s.core.word = .zero := by
    rw [e1, e4] at e3
    cases hcr : (Core1.init false).run 32 (is ++ [{ ready := true, adc := .none }]) with
    | ub => rw [hcr] at e3; cases e3
    | ok r =>
      rw [hcr] at e3
      simp only [Res.bind, Res.ok.injEq, Prod.mk.injEq] at e3
      rw [e3.1]
      exact Core1.idle_last is hcr
  rw [if_pos hz, List.append_nil, alone_sends] at e2
  simp only [List.flatMap_cons, List.flatMap_nil, aloneMsg_bytes] at e2
  have hx : pushes handOver = sent outs := by rw [e2]; rfl
  have hh := handOver_reports
  cases hrb : (TwoCores.init (fun _ => 0) .zero 0 0 false).run .arm (fun _ => 0) handOver with
  | ub => rw [hrb] at hh; cases hh
  | ok r =>
    rw [hrb] at hh
    cases r with
    | none => cases hh
    | some r =>
      obtain ⟨t, os⟩ := r
      simp only [Bool.and_eq_true, decide_eq_true_eq, List.all_eq_true] at hh
      obtain ⟨⟨⟨hd, htop⟩, hf⟩, hrep⟩ := hh
      have h4 : ∀ m ∈ rxMsgs (reportsOf os), m.status ≠ 4 := by
        intro m hm
        obtain ⟨r, hr1, hr2⟩ := List.mem_filterMap.mp hm
        have := hrep r hr1
        cases r with
        | rx m' => cases hr2; simpa using this
        | tx m' => cases hr2
      have hsd : ((rxMsgs (reportsOf os)).map fun m => ({ m := m, us := 0, buf := fun _ => 0, sched := fun _ => 0, kfin := 0 } : SendEv)).map (fun e => Report.rx e.m) = reportsOf os := by
        rw [List.map_map]
        clear hd h4 hrb
        generalize reportsOf os = l at *
        induction l with
        | nil => rfl
        | cons r l ih =>
          have hr1 := hrep r (List.mem_cons_self ..)
          cases r with
          | tx m => cases hr1
          | rx m =>
            have ih' := ih (fun r hr => hrep r (List.mem_cons_of_mem _ hr))
            simp only [rxMsgs, List.filterMap_cons, List.map_cons] at ih' ⊢
            rw [ih']
            rfl
      have hwr : WritesAll (linesOf [] aloneChunks) [[0x40, 0xF0]] := by
        have e : linesOf [] aloneChunks = [[52, 48, 70, 48] ++ []] := by decide +kernel
        rw [e]
        refine .cons (.plain ?_ .nil) (by decide) (by decide) .nil
        exact .byte (hi := 4) (lo := 0) 0 (.inl ⟨by decide, by decide⟩) (.inl ⟨by decide, by decide⟩)
          (.byte (hi := 15) (lo := 0) 0 (.inr ⟨by decide, by decide, .inr (by decide)⟩) (.inl ⟨by decide, by decide⟩) .nil)
      have hno : ∀ bs ∈ [[(0x40 : UInt8), 0xF0]], ¬ IsRequest bs := by
        intro bs hb
        rw [List.mem_singleton] at hb
        subst hb
        rintro ⟨m, addr, hb, -, hv⟩
        have h1 := hv.long
        have := congrArg List.length hb
        simp [Message.bytes] at this
        omega
      have hfe : ∀ r ∈ aloneRounds, r.env.1.fifoErr = false := by
        have h : aloneEnvs.all (fun e => !e.1.fifoErr) = true := by decide +kernel
        intro r hr
        rw [List.all_eq_true] at h
        have := h r.env (by rw [← aloneRounds_env.1]; exact List.mem_map_of_mem hr)
        simpa using this
      have hd4 : ∀ m ∈ busLines (aloneRounds.map Round.out), m.status ≠ 4 := by
        have h : (busLines aloneOuts).all (fun m => m.status ≠ 4) = true := by decide +kernel
        intro m hm
        rw [List.all_eq_true] at h
        have := h m (by rw [← aloneRounds_env.2]; exact hm)
        simpa using this
      obtain ⟨h', text, f1, f2⟩ := C132_exactly .arm rfl (fun _ => 0) aloneBench aloneStart aloneRounds c hl aloneRun_ok hid hw (by rw [aloneRounds_env.1]; exact alone_few)
        aloneChunks (by rw [aloneRounds_env.1]; exact aloneChunks_typed) aloneChunks_text aloneChunks_fit [[0x40, 0xF0]] hwr d pins errs hrun
        (S := 32) (by decide) false (a := 60) (v := 127) (by decide) (by decide) (P := 19625) (by decide) (by decide) (M := 2000000000) (by decide) modemClock 0 0
        (fun _ => rfl) (by decide) (by decide) hL hq (atOnceIdle n) k1 hN hN' s outs e1 hz .arm (fun _ => 0) .zero 0 0 t handOver os hx hrb hd htop hf h4 0 (by decide) _ hsd
        hno hfe hd4
      exact ⟨h', text, _, f1, f2⟩

end P1P2
