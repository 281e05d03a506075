import Verif.Props.Pair
import Verif.Props.WatchDemo
import Verif.Props.EndToEndRun
import Verif.Props.Once
/-!
# Two modems that meet the hypotheses of C146

The host of modem A types `40F0`; modem B is a whole device that processes every conversion at once, 720000 conversions; its host reads the line for 40 F0.
-/
namespace P1P2
open Spec

/-- A main loop that nobody types at and that hears only a packet of two bytes does not transmit, so it tells of no failed transmission. -/
theorem calm_tx {ws : List (Option Word)} {c : Core0} {os : List Out2}
    (h : (Core0.init (fun _ => 0) .zero 0 0).run .arm (fun _ => 0) (ws.map fun w => calmIter 0 w) = .ok (c, os))
    (hb : ∀ m ∈ busLines os, m.bytes.length ≤ 2) : os.flatMap (fun o => txMsgs o.reports) = [] := by
  have hl : LoopRun .arm (fun _ => 0) (ws.map fun w => calmIter 0 w) c os := ⟨.zero, 0, 0, h⟩
  obtain ⟨ps, q, o1, o2, o3, -, o5, -⟩ := C89_what_is_sent .arm (fun _ => 0) _ c os hl
  rw [calm_lines, List.filterMap_nil, List.sublist_nil, List.append_eq_nil_iff] at o5
  have hps : ps = [] := by
    cases ps with
    | nil => rfl
    | cons p ps =>
      exfalso
      cases hp2 : p.2 with
      | none =>
        have : p.1 ∈ Origins.host (p :: ps) := List.mem_filterMap.mpr ⟨p, List.mem_cons_self .., by rw [hp2]⟩
        rw [o5.1] at this
        cases this
      | some r =>
        obtain ⟨addr, had, hv, -⟩ := o2 p (List.mem_cons_self ..) r hp2
        have hr1 : r ∈ busLines os := o3.subset (List.mem_filterMap.mpr ⟨p, List.mem_cons_self .., hp2⟩)
        have h1 := hb r hr1
        have h2 := hv.long
        simp [Message.bytes] at h1
        omega
  rw [hps, List.map_nil] at o1
  have := run_left (LoopRun.good (pf := .arm) (g := fun _ => 0) (es := []) (os := []) ⟨.zero, 0, 0, rfl⟩) h
  rw [← o1] at this
  refine List.length_eq_zero_iff.mp ?_
  have h0 : (Core0.init (fun _ => 0) .zero 0 0).sm.left = 0 := by decide
  simp only [List.length_nil] at this
  omega

example : ∃ (h' : Host) (text : List UInt8) (ev : List TxEv), runTx (Host.init fun _ => 0) [] ev = .ok (h', text) ∧ Reads text [[0x40, 0xF0]] := by
  obtain ⟨c, hl, hid, hw⟩ := aloneRun_done
  obtain ⟨d, pins, errs, hrun, -⟩ := alone_hears
  have hL : Plays (dividerClock 48 0 0) (lineOf (pins.map Pio.view)) (idealLine (dividerClock 48 0 0) (lineOf (pins.map Pio.view))) :=
    ⟨fun τ ht => idealLine_before modemClock _ ht, fun k τ h1 h2 => idealLine_at modemClock _ h1 h2⟩
  obtain ⟨n, hn⟩ : ∃ n, n = 720000 := ⟨_, rfl⟩
  obtain ⟨k1, k2⟩ := atOnceIdle_ok n 0 (by rw [hn]; decide)
  have cend : callsEnd 19625 (dividerClock 48 0 0) 0 (sendsFrom 0 (devEvents aloneStart aloneRounds)) = dividerClock 48 0 0 (aloneCyc 2334000 + 176) + 348 * 19625 := by
    rw [alone_sends]; simp [callsEnd, finalStart, aloneMsg_length]
  have cval : dividerClock 48 0 0 (aloneCyc 2334000 + 176) = 14010915072 := by decide
  generalize hLL : idealLine (dividerClock 48 0 0) (lineOf (pins.map Pio.view)) = L at hL
  have hq := codesOf_ok fun k => L (k * 19625)
  generalize codesOf (fun k => L (k * 19625)) = q at hq
  have hm : ∀ x ∈ sendsFrom 0 (devEvents aloneStart aloneRounds), 1 ≤ x.1 ∧ 1 ≤ x.2.length ∧ x.2.length ≤ 32 ∧ finalStart x.1 x.2 + 173 ≤ cyclesOf (devEvents aloneStart aloneRounds) := by
    rw [alone_sends, alone_cycles]; intro x hx; rw [List.mem_singleton] at hx; subst hx
    simp only [finalStart, aloneMsg_length]
    exact ⟨by decide, by decide, by decide, by decide⟩
  have hN : callsEnd 19625 (dividerClock 48 0 0) 0 (sendsFrom 0 (devEvents aloneStart aloneRounds)) + 378 * 19625 ≤ deliveries 0 0 ((atOnceIdle n).map Prod.fst) * 19625 := by
    rw [cend, cval, k2, hn]; decide
  have hN' : deliveries 0 0 ((atOnceIdle n).map Prod.fst) * 19625 + 2 * 19625 ≤ callsEnd 19625 (dividerClock 48 0 0) 0 (sendsFrom 0 (devEvents aloneStart aloneRounds)) + 2000000000 * 19625 := by
    rw [cend, cval, k2, hn]; decide
  obtain ⟨-, s, outs, e1, e2⟩ := C118_words (S := 32) (by decide) false (by decide) (by decide) (P := 19625) (by decide) (M := 2000000000) (by decide) modemClock
    _ d pins errs hrun alone_clears hm (by rw [alone_sends]; exact ⟨by decide, by decide, trivial⟩) hL hq (atOnceIdle n) k1 hN hN'
  obtain ⟨hz, xs, b, os, cb, os0, l3, hlen, hval, l4, hfast, hend, hread, l6, l5⟩ := at_once_device (by rw [hn]; decide) e1
  have hclk := clocked_zero hread
  rw [k2] at hN hN'
  obtain ⟨-, -, lines⟩ := C146_calls (S := 32) (by decide) false (by decide) (by decide) (P := 19625) (by decide) (M := 2000000000) (by decide) modemClock
    _ d pins errs hrun alone_clears (by
      rw [alone_sends, alone_cycles]; intro x hx; rw [List.mem_singleton] at hx; subst hx
      simp only [finalStart, aloneMsg_length]
      exact ⟨by decide, by decide, by decide, by decide⟩) (by rw [alone_sends]; exact ⟨by decide, by decide, trivial⟩) hL hq .arm (fun _ => 0) .zero 0 0 (by decide) xs b os l3 hval
    (by rw [hlen]; exact hN) (by rw [hlen]; exact hN') (by rw [hlen, hn]; decide) l4 hfast hclk hend
  rw [alone_sends, List.map_cons, List.map_nil, aloneMsg_bytes] at lines
  have hrx0 : busLines os0 = rxMsgs (os.flatMap BoardOut.reports) := by
    rw [l5]
    unfold busLines rxMsgs
    rw [List.filterMap_flatMap]
  have htx : txMsgs (os.flatMap BoardOut.reports) = [] := by
    have := calm_tx l6 (by
      intro m hm
      rw [hrx0] at hm
      have : lineShown m ∈ [(0, [(0x40 : UInt8), 0xF0])] := by rw [← lines]; exact List.mem_map_of_mem hm
      rw [List.mem_singleton] at this
      have := congrArg (fun p => p.2.length) this
      have h2 : m.bytes.length = 2 := this
      omega)
    rw [l5]
    unfold txMsgs at this ⊢
    rw [List.filterMap_flatMap]
    exact this
  have hsd : ((rxMsgs (os.flatMap BoardOut.reports)).map fun m => ({ m := m, us := 0, buf := fun _ => 0, sched := fun _ => 0, kfin := 0 } : SendEv)).map (fun e => Report.rx e.m) =
      os.flatMap BoardOut.reports := by
    rw [List.map_map]
    clear lines hrx0 l5
    generalize os.flatMap BoardOut.reports = l at *
    induction l with
    | nil => rfl
    | cons r l ih =>
      cases r with
      | tx m => cases htx
      | rx m =>
        have ih' := ih htx
        simp only [rxMsgs, List.filterMap_cons, List.map_cons] at ih' ⊢
        rw [ih']
        rfl
  have hwr : WritesAll (linesOf [] aloneChunks) [[0x40, 0xF0]] := by
    have e : linesOf [] aloneChunks = [[52, 48, 70, 48] ++ []] := by decide +kernel
    rw [e]
    refine .cons (.plain ?_ .nil) (by decide) (by decide) .nil
    exact .byte (hi := 4) (lo := 0) 0 (.inl ⟨by decide, by decide⟩) (.inl ⟨by decide, by decide⟩)
      (.byte (hi := 15) (lo := 0) 0 (.inr ⟨by decide, by decide, .inr (by decide)⟩) (.inl ⟨by decide, by decide⟩) .nil)
  have hno : ∀ bs ∈ [[(0x40 : UInt8), 0xF0]], ¬ IsRequest bs := by
    intro bs hb
    rw [List.mem_singleton] at hb
    subst hb
    rintro ⟨m, addr, hb, -, hv⟩
    have h1 := hv.long
    have := congrArg List.length hb
    simp [Message.bytes] at this
    omega
  have hfe : ∀ r ∈ aloneRounds, r.env.1.fifoErr = false := by
    have h : aloneEnvs.all (fun e => !e.1.fifoErr) = true := by decide +kernel
    intro r hr
    rw [List.all_eq_true] at h
    have := h r.env (by rw [← aloneRounds_env.1]; exact List.mem_map_of_mem hr)
    simpa using this
  have hd4 : ∀ m ∈ busLines (aloneRounds.map Round.out), m.status ≠ 4 := by
    have h : (busLines aloneOuts).all (fun m => m.status ≠ 4) = true := by decide +kernel
    intro m hm
    rw [List.all_eq_true] at h
    have := h m (by rw [← aloneRounds_env.2]; exact hm)
    simpa using this
  obtain ⟨h', text, f1, f2⟩ := C146_exactly .arm rfl (fun _ => 0) aloneBench aloneStart aloneRounds c hl aloneRun_ok hid hw (by rw [aloneRounds_env.1]; exact alone_few)
    aloneChunks (by rw [aloneRounds_env.1]; exact aloneChunks_typed) aloneChunks_text aloneChunks_fit [[0x40, 0xF0]] hwr d pins errs hrun
    (S := 32) (by decide) false (a := 60) (v := 127) (by decide) (by decide) (P := 19625) (by decide) (by decide) (M := 2000000000) (by decide) modemClock 0 0
    (fun _ => rfl) (by decide) (by decide) hL hq .arm (fun _ => 0) .zero 0 0 (by decide) xs b os l3 hval (by rw [hlen]; exact hN) (by rw [hlen]; exact hN') (by rw [hlen, hn]; decide)
    l4 hfast hclk hend 0 (by decide) _ hsd hno hfe hd4
  exact ⟨h', text, _, f1, f2⟩

end P1P2
