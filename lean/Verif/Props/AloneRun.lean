import Verif.Props.Alone
/-!
# C121: a case that meets the hypotheses

The modem alone on the bus starts, after 2.3 s the host sends the packet 40 F0, and it is transmitted.  One time unit is 1/6 ns.
-/
namespace P1P2

/-- What the main loop is told. -/
def aloneEnvs : List (Env1 × Env2) :=
  [bothIter 1400 [] (some wFree), bothIter 200000 [] none, bothIter 2300000 [] none, bothIter 2301000 [52, 48, 70, 48, 10] none, bothIter 2334000 [] none,
   bothIter 2334900 [] (some wBusy), bothIter 2336000 [] (some (wByte 0x40)), bothIter 2337000 [] (some (wByte 0xF0)), bothIter 2337600 [] (some wFree), bothIter 2339000 [] none,
   bothIter 2372000 [] none, bothIter 2405000 [] none, bothIter 2438000 [] none, bothIter 2471000 [] none, bothIter 2504000 [] none, bothIter 2537000 [] none, bothIter 2570000 [] none, bothIter 2603000 [] none, bothIter 2636000 [] none]

/-- What it does. -/
def aloneOuts : List Out2 := match (Core0.init (fun _ => 0) .zero 0 0).run .arm (fun _ => 0) aloneEnvs with
  | .ok r => r.2
  | .ub => []

/-- The calls of one iteration, readable. -/
inductive CallKind where
  | on
  | off
  | send (bs : List UInt8)
  | clear
deriving DecidableEq

def HwCmd.kind : HwCmd → CallKind
  | .shutdown true => .off
  | .shutdown false => .on
  | .send m => .send m.bytes
  | .clearFifo => .clear

theorem aloneOuts_calls : aloneOuts.map (fun o => (o.cmds.map HwCmd.kind, o.started.map Message.bytes)) =
    [([], none), ([], none), ([], none), ([.on], some [0x40, 0xF0]), ([.send [0x40, 0xF0]], none), ([], none), ([], none), ([.clear], none), ([.off], none), ([], none), ([], none), ([], none), ([], none), ([], none), ([], none), ([], none), ([], none), ([], none), ([], none)] := by decide +kernel

/-- The message handed over. -/
def aloneMsg : Message := match (aloneOuts.map Out2.cmds)[4]? with
  | some [HwCmd.send m] => m
  | _ => demoMsg

/-- The number of PIO cycles at microsecond `t`. -/
def aloneCyc (t : Nat) : Nat := 6000 * t * 256 / (48 * 208333) + 2

def cyclesFor (t t' : Nat) : List DevEv := List.replicate (aloneCyc t' - aloneCyc t) .cycle

/-- The iterations: environment, events before the first call, events besides the calls from then on. -/
def aloneSpec : List ((Env1 × Env2) × List DevEv × List DevEv) :=
  [(bothIter 1400 [] (some wFree), List.replicate (aloneCyc 1400) .cycle, []), (bothIter 200000 [] none, cyclesFor 1400 200000, []), (bothIter 2300000 [] none, cyclesFor 200000 2300000, []),
   (bothIter 2301000 [52, 48, 70, 48, 10] none, cyclesFor 2300000 2301000, []), (bothIter 2334000 [] none, cyclesFor 2301000 2334000, [.dma, .dma]),
   (bothIter 2334900 [] (some wBusy), cyclesFor 2334000 2334900, []), (bothIter 2336000 [] (some (wByte 0x40)), cyclesFor 2334900 2336000, []),
   (bothIter 2337000 [] (some (wByte 0xF0)), cyclesFor 2336000 2337000, []), (bothIter 2337600 [] (some wFree), cyclesFor 2337000 2337600, []), (bothIter 2339000 [] none, cyclesFor 2337600 2339000, []),
   (bothIter 2372000 [] none, cyclesFor 2339000 2372000, []),
   (bothIter 2405000 [] none, cyclesFor 2372000 2405000, []),
   (bothIter 2438000 [] none, cyclesFor 2405000 2438000, []),
   (bothIter 2471000 [] none, cyclesFor 2438000 2471000, []),
   (bothIter 2504000 [] none, cyclesFor 2471000 2504000, []),
   (bothIter 2537000 [] none, cyclesFor 2504000 2537000, []),
   (bothIter 2570000 [] none, cyclesFor 2537000 2570000, []),
   (bothIter 2603000 [] none, cyclesFor 2570000 2603000, []),
   (bothIter 2636000 [] none, cyclesFor 2603000 2636000, [])]

def mkRound (s : (Env1 × Env2) × List DevEv × List DevEv) (o : Out2) : Round := { env := s.1, out := o, before := s.2.1, after := o.cmds.map .call ++ s.2.2 }

def aloneRounds : List Round := List.zipWith mkRound aloneSpec aloneOuts

def aloneStart : List DevEv := [.call .clearFifo, .call (.shutdown true)]

/-- The transmitter, waiting. -/
def waitingDev (b : Bool) : TxDev := { TxDev.init with pin := b, pio := (Pio.cycle Pio.uartTx (Pio.cycle Pio.uartTx Pio.reset { put := none, get := false }) { put := none, get := false }) }

theorem waitingDev_cycle (b : Bool) : (waitingDev b).cycle = some (waitingDev b) := by cases b <;> rfl

theorem TxDev.run_app {d d1 : TxDev} {a b : List DevEv} {o : List (Nat × Bool)} {r : List Bool} (h : d.run a = some (d1, o, r)) (h' : (d1.run b).isSome = true) : (d.run (a ++ b)).isSome = true := by
  induction a generalizing d d1 o r with
  | nil => simp only [TxDev.run, Option.some.injEq, Prod.mk.injEq] at h; rw [List.nil_append, h.1]; exact h'
  | cons e a ih =>
    rw [List.cons_append]
    unfold TxDev.run at h ⊢
    cases hs : d.step e with
    | none => rw [hs] at h; cases h
    | some y =>
      rw [hs] at h
      simp only [Option.bind_some, Option.isSome_map, Option.map_eq_some_iff] at h ⊢
      obtain ⟨q, h1, h2⟩ := h
      simp only [Prod.mk.injEq] at h2
      exact ih (o := q.2.1) (r := q.2.2) (by rw [h1, ← h2.1]) h'

theorem waiting_run (b : Bool) : ∀ n, ∃ o, (waitingDev b).run (List.replicate n .cycle) = some (waitingDev b, o, []) := by
  intro n
  induction n with
  | zero => exact ⟨[], rfl⟩
  | succ n ih =>
    obtain ⟨o, ih⟩ := ih
    rw [List.replicate_succ]
    unfold TxDev.run TxDev.step
    rw [waitingDev_cycle]
    simp only [Option.map_some, Option.bind_some]
    rw [ih]
    exact ⟨_, rfl⟩

/-- What happens from the call of `Send` on. -/
def aloneTail : List DevEv := [.call (.send aloneMsg), .dma, .dma] ++ cyclesFor 2334000 2334900 ++ cyclesFor 2334900 2336000 ++ cyclesFor 2336000 2337000 ++ [.call .clearFifo] ++
  cyclesFor 2337000 2337600 ++ [.call (.shutdown true)] ++ cyclesFor 2337600 2339000

/-- Silence. -/
def aloneRest : List DevEv := cyclesFor 2339000 2372000 ++ (cyclesFor 2372000 2405000 ++ (cyclesFor 2405000 2438000 ++ (cyclesFor 2438000 2471000 ++ (cyclesFor 2471000 2504000 ++ (cyclesFor 2504000 2537000 ++ (cyclesFor 2537000 2570000 ++ (cyclesFor 2570000 2603000 ++ (cyclesFor 2603000 2636000))))))))

/-- Nothing more happens. -/
def TxDev.rests (d : TxDev) : Bool := decide (Pio.cycle Pio.uartTx d.pio { put := none, get := false } = d.pio) && decide (d.pulling → d.caughtUp)

theorem rests_run {d : TxDev} (h : d.rests = true) : ∀ n, ∃ o, d.run (List.replicate n .cycle) = some (d, o, []) := by
  unfold TxDev.rests at h
  simp only [Bool.and_eq_true, decide_eq_true_eq] at h
  have hc : d.cycle = some d := by unfold TxDev.cycle; rw [if_pos h.2, h.1]
  intro n
  induction n with
  | zero => exact ⟨[], rfl⟩
  | succ n ih =>
    obtain ⟨o, ih⟩ := ih
    rw [List.replicate_succ]
    unfold TxDev.run TxDev.step
    rw [hc]
    simp only [Option.map_some, Option.bind_some]
    rw [ih]
    exact ⟨_, rfl⟩

theorem aloneTail_runs : ∃ d o r, (waitingDev false).run aloneTail = some (d, o, r) ∧ d.rests = true := by
  have h : ((waitingDev false).run aloneTail).any (fun r => r.1.rests) = true := by decide +kernel
  rw [Option.any_eq_true] at h
  obtain ⟨⟨d, o, r⟩, h1, h2⟩ := h
  exact ⟨d, o, r, h1, h2⟩

theorem kinds_nil {l : List HwCmd} (h : l.map HwCmd.kind = []) : l = [] := List.map_eq_nil_iff.mp h

theorem kinds_one {l : List HwCmd} {k : CallKind} (h : l.map HwCmd.kind = [k]) : ∃ cmd, l = [cmd] ∧ cmd.kind = k := by
  obtain ⟨c, t, rfl, h1, h2⟩ := List.map_eq_cons_iff.mp h
  exact ⟨c, by rw [kinds_nil h2], h1⟩

theorem kind_on {cmd : HwCmd} (h : cmd.kind = .on) : cmd = .shutdown false := by
  cases cmd with
  | shutdown b => cases b <;> first | rfl | cases h
  | send m => cases h
  | clearFifo => cases h

theorem kind_off {cmd : HwCmd} (h : cmd.kind = .off) : cmd = .shutdown true := by
  cases cmd with
  | shutdown b => cases b <;> first | rfl | cases h
  | send m => cases h
  | clearFifo => cases h

theorem kind_clear {cmd : HwCmd} (h : cmd.kind = .clear) : cmd = .clearFifo := by
  cases cmd with
  | shutdown b => cases b <;> cases h
  | send m => cases h
  | clearFifo => rfl

theorem kind_send {cmd : HwCmd} {bs : List UInt8} (h : cmd.kind = .send bs) : ∃ m, cmd = .send m ∧ m.bytes = bs := by
  cases cmd with
  | shutdown b => cases b <;> cases h
  | send m => exact ⟨m, rfl, by injection h⟩
  | clearFifo => cases h

theorem aloneOuts_list : ∃ o0 o1 o2 o3 o4 o5 o6 o7 o8 o9 o10 o11 o12 o13 o14 o15 o16 o17 o18 : Out2, aloneOuts = [o0, o1, o2, o3, o4, o5, o6, o7, o8, o9, o10, o11, o12, o13, o14, o15, o16, o17, o18] ∧ o0.cmds = [] ∧ o1.cmds = [] ∧ o2.cmds = [] ∧
    o3.cmds = [.shutdown false] ∧ o4.cmds = [.send aloneMsg] ∧ o5.cmds = [] ∧ o6.cmds = [] ∧ o7.cmds = [.clearFifo] ∧ o8.cmds = [.shutdown true] ∧ o9.cmds = [] ∧ o10.cmds = [] ∧ o11.cmds = [] ∧ o12.cmds = [] ∧ o13.cmds = [] ∧ o14.cmds = [] ∧ o15.cmds = [] ∧ o16.cmds = [] ∧ o17.cmds = [] ∧ o18.cmds = [] ∧ aloneMsg.bytes = [0x40, 0xF0] ∧
    (aloneOuts.filterMap Out2.started).map Message.bytes = [[0x40, 0xF0]] := by
  have h := aloneOuts_calls
  obtain ⟨o0, l, e0, h0, h⟩ := List.map_eq_cons_iff.mp h
  obtain ⟨o1, l, rfl, h1, h⟩ := List.map_eq_cons_iff.mp h
  obtain ⟨o2, l, rfl, h2, h⟩ := List.map_eq_cons_iff.mp h
  obtain ⟨o3, l, rfl, h3, h⟩ := List.map_eq_cons_iff.mp h
  obtain ⟨o4, l, rfl, h4, h⟩ := List.map_eq_cons_iff.mp h
  obtain ⟨o5, l, rfl, h5, h⟩ := List.map_eq_cons_iff.mp h
  obtain ⟨o6, l, rfl, h6, h⟩ := List.map_eq_cons_iff.mp h
  obtain ⟨o7, l, rfl, h7, h⟩ := List.map_eq_cons_iff.mp h
  obtain ⟨o8, l, rfl, h8, h⟩ := List.map_eq_cons_iff.mp h
  obtain ⟨o9, l, rfl, h9, h⟩ := List.map_eq_cons_iff.mp h
  obtain ⟨o10, l, rfl, h10, h⟩ := List.map_eq_cons_iff.mp h
  obtain ⟨o11, l, rfl, h11, h⟩ := List.map_eq_cons_iff.mp h
  obtain ⟨o12, l, rfl, h12, h⟩ := List.map_eq_cons_iff.mp h
  obtain ⟨o13, l, rfl, h13, h⟩ := List.map_eq_cons_iff.mp h
  obtain ⟨o14, l, rfl, h14, h⟩ := List.map_eq_cons_iff.mp h
  obtain ⟨o15, l, rfl, h15, h⟩ := List.map_eq_cons_iff.mp h
  obtain ⟨o16, l, rfl, h16, h⟩ := List.map_eq_cons_iff.mp h
  obtain ⟨o17, l, rfl, h17, h⟩ := List.map_eq_cons_iff.mp h
  obtain ⟨o18, l, rfl, h18, h⟩ := List.map_eq_cons_iff.mp h
  have h := List.map_eq_nil_iff.mp h
  subst h
  simp only [Prod.mk.injEq] at h0 h1 h2 h3 h4 h5 h6 h7 h8 h9 h10 h11 h12 h13 h14 h15 h16 h17 h18
  obtain ⟨c3, k3, j3⟩ := kinds_one h3.1
  obtain ⟨c4, k4, j4⟩ := kinds_one h4.1
  obtain ⟨m, rfl, hm⟩ := kind_send j4
  obtain ⟨c7, k7, j7⟩ := kinds_one h7.1
  obtain ⟨c8, k8, j8⟩ := kinds_one h8.1
  rw [kind_on j3] at k3
  rw [kind_clear j7] at k7
  rw [kind_off j8] at k8
  have e : aloneMsg = m := by unfold aloneMsg; rw [e0]; simp [k4]
  refine ⟨o0, o1, o2, o3, o4, o5, o6, o7, o8, o9, o10, o11, o12, o13, o14, o15, o16, o17, o18, e0, kinds_nil h0.1, kinds_nil h1.1, kinds_nil h2.1, k3, by rw [e]; exact k4, kinds_nil h5.1, kinds_nil h6.1, k7, k8, kinds_nil h9.1, kinds_nil h10.1, kinds_nil h11.1, kinds_nil h12.1, kinds_nil h13.1, kinds_nil h14.1, kinds_nil h15.1, kinds_nil h16.1, kinds_nil h17.1, kinds_nil h18.1, by rw [e]; exact hm, ?_⟩
  decide +kernel

theorem aloneRounds_list : ∃ o0 o1 o2 o3 o4 o5 o6 o7 o8 o9 o10 o11 o12 o13 o14 o15 o16 o17 o18 : Out2, aloneOuts = [o0, o1, o2, o3, o4, o5, o6, o7, o8, o9, o10, o11, o12, o13, o14, o15, o16, o17, o18] ∧ aloneRounds =
    [⟨bothIter 1400 [] (some wFree), o0, List.replicate (aloneCyc 1400) .cycle, []⟩, ⟨bothIter 200000 [] none, o1, cyclesFor 1400 200000, []⟩, ⟨bothIter 2300000 [] none, o2, cyclesFor 200000 2300000, []⟩,
     ⟨bothIter 2301000 [52, 48, 70, 48, 10] none, o3, cyclesFor 2300000 2301000, [.call (.shutdown false)]⟩, ⟨bothIter 2334000 [] none, o4, cyclesFor 2301000 2334000, [.call (.send aloneMsg), .dma, .dma]⟩,
     ⟨bothIter 2334900 [] (some wBusy), o5, cyclesFor 2334000 2334900, []⟩, ⟨bothIter 2336000 [] (some (wByte 0x40)), o6, cyclesFor 2334900 2336000, []⟩,
     ⟨bothIter 2337000 [] (some (wByte 0xF0)), o7, cyclesFor 2336000 2337000, [.call .clearFifo]⟩, ⟨bothIter 2337600 [] (some wFree), o8, cyclesFor 2337000 2337600, [.call (.shutdown true)]⟩,
     ⟨bothIter 2339000 [] none, o9, cyclesFor 2337600 2339000, []⟩,
     ⟨bothIter 2372000 [] none, o10, cyclesFor 2339000 2372000, []⟩,
     ⟨bothIter 2405000 [] none, o11, cyclesFor 2372000 2405000, []⟩,
     ⟨bothIter 2438000 [] none, o12, cyclesFor 2405000 2438000, []⟩,
     ⟨bothIter 2471000 [] none, o13, cyclesFor 2438000 2471000, []⟩,
     ⟨bothIter 2504000 [] none, o14, cyclesFor 2471000 2504000, []⟩,
     ⟨bothIter 2537000 [] none, o15, cyclesFor 2504000 2537000, []⟩,
     ⟨bothIter 2570000 [] none, o16, cyclesFor 2537000 2570000, []⟩,
     ⟨bothIter 2603000 [] none, o17, cyclesFor 2570000 2603000, []⟩,
     ⟨bothIter 2636000 [] none, o18, cyclesFor 2603000 2636000, []⟩] ∧ o0.cmds = [] ∧ o1.cmds = [] ∧ o2.cmds = [] ∧
    o3.cmds = [.shutdown false] ∧ o4.cmds = [.send aloneMsg] ∧ o5.cmds = [] ∧ o6.cmds = [] ∧ o7.cmds = [.clearFifo] ∧ o8.cmds = [.shutdown true] ∧ o9.cmds = [] ∧ o10.cmds = [] ∧ o11.cmds = [] ∧ o12.cmds = [] ∧ o13.cmds = [] ∧ o14.cmds = [] ∧ o15.cmds = [] ∧ o16.cmds = [] ∧ o17.cmds = [] ∧ o18.cmds = [] := by
  obtain ⟨o0, o1, o2, o3, o4, o5, o6, o7, o8, o9, o10, o11, o12, o13, o14, o15, o16, o17, o18, e, h0, h1, h2, h3, h4, h5, h6, h7, h8, h9, h10, h11, h12, h13, h14, h15, h16, h17, h18, -, -⟩ := aloneOuts_list
  refine ⟨o0, o1, o2, o3, o4, o5, o6, o7, o8, o9, o10, o11, o12, o13, o14, o15, o16, o17, o18, e, ?_, h0, h1, h2, h3, h4, h5, h6, h7, h8, h9, h10, h11, h12, h13, h14, h15, h16, h17, h18⟩
  unfold aloneRounds
  rw [e]
  simp [aloneSpec, mkRound, h0, h1, h2, h3, h4, h5, h6, h7, h8, h9, h10, h11, h12, h13, h14, h15, h16, h17, h18]

theorem alone_events : devEvents aloneStart aloneRounds = aloneStart ++ (List.replicate (aloneCyc 1400) .cycle ++ (cyclesFor 1400 200000 ++ (cyclesFor 200000 2300000 ++ (cyclesFor 2300000 2301000 ++
    ([.call (.shutdown false)] ++ (cyclesFor 2301000 2334000 ++ (aloneTail ++ aloneRest))))))) := by
  obtain ⟨o0, o1, o2, o3, o4, o5, o6, o7, o8, o9, o10, o11, o12, o13, o14, o15, o16, o17, o18, -, e, -⟩ := aloneRounds_list
  rw [e]
  simp [devEvents, aloneTail, aloneRest]

theorem alone_runs : (TxDev.init.run (devEvents aloneStart aloneRounds)).isSome = true := by
  rw [alone_events, show aloneCyc 1400 = 2 + (aloneCyc 1400 - 2) by decide, ← List.replicate_append_replicate, List.append_assoc]
  refine TxDev.run_app (d1 := { TxDev.init with pin := true }) (o := []) (r := []) rfl ?_
  refine TxDev.run_app (d1 := waitingDev true) (o := _) (r := _) rfl ?_
  obtain ⟨o, h⟩ := waiting_run true (aloneCyc 1400 - 2)
  refine TxDev.run_app h ?_
  obtain ⟨o, h⟩ := waiting_run true (aloneCyc 200000 - aloneCyc 1400)
  refine TxDev.run_app h ?_
  obtain ⟨o, h⟩ := waiting_run true (aloneCyc 2300000 - aloneCyc 200000)
  refine TxDev.run_app h ?_
  obtain ⟨o, h⟩ := waiting_run true (aloneCyc 2301000 - aloneCyc 2300000)
  refine TxDev.run_app h ?_
  refine TxDev.run_app (d1 := waitingDev false) (o := []) (r := []) rfl ?_
  obtain ⟨o, h⟩ := waiting_run false (aloneCyc 2334000 - aloneCyc 2301000)
  refine TxDev.run_app h ?_
  obtain ⟨d, o, r, h1, h2⟩ := aloneTail_runs
  refine TxDev.run_app h1 ?_
  obtain ⟨o, h⟩ := rests_run h2 (aloneCyc 2372000 - aloneCyc 2339000)
  refine TxDev.run_app h ?_
  obtain ⟨o, h⟩ := rests_run h2 (aloneCyc 2405000 - aloneCyc 2372000)
  refine TxDev.run_app h ?_
  obtain ⟨o, h⟩ := rests_run h2 (aloneCyc 2438000 - aloneCyc 2405000)
  refine TxDev.run_app h ?_
  obtain ⟨o, h⟩ := rests_run h2 (aloneCyc 2471000 - aloneCyc 2438000)
  refine TxDev.run_app h ?_
  obtain ⟨o, h⟩ := rests_run h2 (aloneCyc 2504000 - aloneCyc 2471000)
  refine TxDev.run_app h ?_
  obtain ⟨o, h⟩ := rests_run h2 (aloneCyc 2537000 - aloneCyc 2504000)
  refine TxDev.run_app h ?_
  obtain ⟨o, h⟩ := rests_run h2 (aloneCyc 2570000 - aloneCyc 2537000)
  refine TxDev.run_app h ?_
  obtain ⟨o, h⟩ := rests_run h2 (aloneCyc 2603000 - aloneCyc 2570000)
  refine TxDev.run_app h ?_
  obtain ⟨o, h⟩ := rests_run h2 (aloneCyc 2636000 - aloneCyc 2603000)
  exact Option.isSome_iff_exists.mpr ⟨_, h⟩

theorem cyclesOf_replicate (n : Nat) : cyclesOf (List.replicate n .cycle) = n := by
  induction n with
  | zero => rfl
  | succ n ih => rw [List.replicate_succ, cyclesOf, ih]

theorem callsOf_replicate (n : Nat) : callsOf (List.replicate n .cycle) = [] := by
  induction n with
  | zero => rfl
  | succ n ih => rw [List.replicate_succ]; unfold callsOf at ih ⊢; exact ih

theorem cyclesOf_for {t t' : Nat} : cyclesOf (cyclesFor t t') = aloneCyc t' - aloneCyc t := cyclesOf_replicate _

theorem callsOf_for {t t' : Nat} : callsOf (cyclesFor t t') = [] := callsOf_replicate _

/-- What the pins show. -/
def alonePins : List (Level × Bool) := ((TxDev.init.run (devEvents aloneStart aloneRounds)).map fun r => r.2.1.map Pio.view).getD []

/-- The line shows it. -/
noncomputable def aloneLine : Nat → Level := idealLine (dividerClock 48 0 0) fun k => ((alonePins[k]?).getD (.mid, false)).1

noncomputable def aloneBench : Bench :=
  { U := 6000, P := 19625, c := dividerClock 48 0 0, D := 1400, lag := 100, M := 1073741824, S := 32, rxErr := false, q := codesOf fun k => aloneLine (k * 19625) }

theorem aloneMsg_length : aloneMsg.length = 2 := by decide +kernel

theorem aloneMsg_bytes : aloneMsg.bytes = [0x40, 0xF0] := by decide +kernel

theorem aloneCyc_at : aloneCyc 1400 = 217 ∧ aloneCyc 200000 = 30722 ∧ aloneCyc 2300000 = 353282 ∧ aloneCyc 2301000 = 353436 ∧ aloneCyc 2334000 = 358504 ∧ aloneCyc 2334900 = 358643 ∧ aloneCyc 2336000 = 358812 ∧ aloneCyc 2337000 = 358965 ∧ aloneCyc 2337600 = 359057 ∧ aloneCyc 2339000 = 359272 ∧ aloneCyc 2372000 = 364341 ∧ aloneCyc 2405000 = 369410 ∧ aloneCyc 2438000 = 374479 ∧ aloneCyc 2471000 = 379548 ∧ aloneCyc 2504000 = 384617 ∧ aloneCyc 2537000 = 389685 ∧ aloneCyc 2570000 = 394754 ∧ aloneCyc 2603000 = 399823 ∧ aloneCyc 2636000 = 404892 := by decide

theorem alone_cycles : cyclesOf (devEvents aloneStart aloneRounds) = aloneCyc 2636000 := by
  rw [alone_events]
  unfold aloneTail aloneRest aloneStart
  rw [cyclesOf_append, cyclesOf_append, cyclesOf_append, cyclesOf_append, cyclesOf_append, cyclesOf_append, cyclesOf_append, cyclesOf_append, cyclesOf_append, cyclesOf_append, cyclesOf_append, cyclesOf_append, cyclesOf_append, cyclesOf_append, cyclesOf_append, cyclesOf_append, cyclesOf_append, cyclesOf_append, cyclesOf_append, cyclesOf_append, cyclesOf_append,
    cyclesOf_append, cyclesOf_append, cyclesOf_for, cyclesOf_for, cyclesOf_for, cyclesOf_for, cyclesOf_for, cyclesOf_for, cyclesOf_for, cyclesOf_for, cyclesOf_for, cyclesOf_for, cyclesOf_for, cyclesOf_for, cyclesOf_for, cyclesOf_for, cyclesOf_for, cyclesOf_for, cyclesOf_for, cyclesOf_for, cyclesOf_replicate]
  obtain ⟨e0, e1, e2, e3, e4, e5, e6, e7, e8, e9, e10, e11, e12, e13, e14, e15, e16, e17, e18⟩ := aloneCyc_at
  rw [e0, e1, e2, e3, e4, e5, e6, e7, e8, e9, e10, e11, e12, e13, e14, e15, e16, e17, e18]
  rfl

theorem alone_sends : sendsFrom 0 (devEvents aloneStart aloneRounds) = [(aloneCyc 2334000, aloneMsg)] := by
  rw [alone_events]
  simp only [sendsFrom_append, cyclesOf_append, cyclesOf_for, cyclesOf_replicate, quiet_sends _ callsOf_for, quiet_sends _ (callsOf_replicate _), aloneTail, aloneRest, aloneStart, cyclesOf, sendsFrom, List.nil_append, List.append_nil]
  rw [List.cons.injEq]
  exact ⟨Prod.ext (by decide) rfl, rfl⟩

theorem alone_clears : ClearsLate 1 0 0 (devEvents aloneStart aloneRounds) := by
  rw [alone_events]
  have q1 : ∀ {t t' : Nat} (e n l : Nat), ClearsLate e n l (cyclesFor t t') := fun e n l => (quiet_late e n l callsOf_for).1
  have q2 : ∀ {t t' : Nat} (e n l : Nat), (lateEnd e n l (cyclesFor t t')).1 = e := fun e n l => (quiet_late e n l callsOf_for).2.1
  have q3 : ∀ {t t' : Nat} (e n : Nat), (lateEnd e n 0 (cyclesFor t t')).2 = 0 := fun e n => (quiet_late e n 0 callsOf_for).2.2 rfl
  have q4 : ∀ {k : Nat} (e n l : Nat), ClearsLate e n l (List.replicate k .cycle) := fun e n l => (quiet_late e n l (callsOf_replicate _)).1
  have q5 : ∀ {k : Nat} (e n l : Nat), (lateEnd e n l (List.replicate k .cycle)).1 = e := fun e n l => (quiet_late e n l (callsOf_replicate _)).2.1
  have q6 : ∀ {k : Nat} (e n : Nat), (lateEnd e n 0 (List.replicate k .cycle)).2 = 0 := fun e n => (quiet_late e n 0 (callsOf_replicate _)).2.2 rfl
  simp only [clearsLate_append, lateEnd_append, cyclesOf_append, cyclesOf_for, cyclesOf_replicate, aloneTail, aloneRest, aloneStart, cyclesOf, q1, q2, q3, q4, q5, q6, ClearsLate, lateEnd, aloneMsg_length]
  decide

theorem alone_hears : ∃ d pins errs, TxDev.init.run (devEvents aloneStart aloneRounds) = some (d, pins, errs) ∧ PlaysDuring (dividerClock 48 0 0) (pins.map Pio.view) aloneLine := by
  have h := alone_runs
  rw [Option.isSome_iff_exists] at h
  obtain ⟨⟨d, pins, errs⟩, h⟩ := h
  refine ⟨d, pins, errs, h, ?_⟩
  have e : alonePins = pins.map Pio.view := by unfold alonePins; rw [h]; rfl
  refine ⟨fun τ ht => idealLine_before modemClock _ ht, fun k v hv τ h1 h2 => ?_⟩
  unfold aloneLine
  rw [idealLine_at modemClock _ h1 h2, e, hv]
  rfl

set_option linter.constructorNameAsVariable false in
/-- When the words come. -/
theorem alone_words : ∃ f b k1 k2 f2, f ≤ 376 ∧ 713609 ≤ b ∧ b ≤ 713616 ∧ 713943 ≤ k1 ∧ k1 ≤ 713950 ∧ 714291 ≤ k2 ∧ k2 ≤ 714298 ∧
    k2 < f2 ∧ f2 ≤ 714655 ∧
    ∀ N, N ≤ 805910 → aloneBench.Receives N (comeBy [(f, wFree), (b, wBusy), (k1, wByte 0x40), (k2, wByte 0xF0), (f2, wFree)] N) := by
  obtain ⟨d, pins, errs, h, hL⟩ := alone_hears
  obtain ⟨-, ts, t1, t2, t3⟩ := C120_device (S := 32) (by decide) false (a := 60) (v := 127) (by decide) (by decide) (by decide) (by decide) (P := 19625) (by decide) (M := 1073741824) (by decide) (by decide) modemClock
    _ d pins errs h alone_clears
    (by rw [alone_sends]; intro x hx; rw [List.mem_singleton] at hx; subst hx; rw [aloneMsg_length]; exact ⟨by decide, by decide, by decide⟩)
    (by rw [alone_sends]; exact ⟨by decide, by decide, trivial⟩)
    hL (codes_until (codesOf_ok _) 805910) (by rw [alone_cycles]; decide)
  rw [alone_sends] at t1
  obtain ⟨f, b, ts1, ts2, rfl, f1, f2, f3, f4, f5, f', rfl, f6, f7⟩ := t1
  rw [aloneMsg_bytes] at f5
  obtain ⟨k, ts', rfl, g1, g2, k', ts'', rfl, g3, g4, rfl⟩ := f5
  have e : finalStart (aloneCyc 2334000) aloneMsg = aloneCyc 2334000 + 1 + 175 := by unfold finalStart; rw [aloneMsg_length]
  have c1 : dividerClock 48 0 0 (aloneCyc 2334000 + 1) = 14004079152 := by decide
  have c2 : dividerClock 48 0 0 (aloneCyc 2334000 + 1 + 175) = 14010915072 := by decide
  have c3 : callsEnd 19625 (dividerClock 48 0 0) 0 [(aloneCyc 2334000, aloneMsg)] = 14010915072 + 348 * 19625 := by rw [callsEnd, callsEnd, e, c2]
  rw [e, c2] at f6 f7
  rw [c1] at f3 f4 g1 g2
  rw [c2] at g3 g4
  clear c1 c2 e hL h
  refine ⟨f, b, k, k', f', by clear c3 t3; omega, by clear c3 t3; omega, by clear c3 t3; omega, by clear c3 t3; omega, by clear c3 t3; omega, by clear c3 t3; omega, by clear c3 t3; omega, ?_, by clear c3 t3; omega, ?_⟩
  · simp only [List.cons_append, List.nil_append, List.pairwise_cons, List.mem_cons, forall_eq_or_imp] at t2
    have := t2.2.2.2.1
    simpa using this
  · intro N hN
    obtain ⟨k1, k2⟩ := atOnce_ok N 0 (by show 0 + N < 268435456; omega)
    obtain ⟨s, outs, e1, e2⟩ := t3 (atOnce N) k1 (by rw [k2]; exact hN) (by rw [k2, alone_sends, c3]; have := Nat.mul_le_mul_right 19625 hN; exact Nat.le_trans (Nat.add_le_add_right this _) (by decide))
    rw [k2] at e2
    exact ⟨atOnce N, s, outs, k1, k2, e1, e2.symm⟩

/-- All rounds are connected. -/
def AllRounds (x : Bench) : List DevEv → List Word → List Round → Prop
  | _, _, [] => True
  | ev, ws, r :: rs => RoundOk x ev ws r ∧ AllRounds x (ev ++ (r.before ++ r.after)) (ws ++ wordsOf [r.env]) rs

theorem AllRounds.nil (x : Bench) (ev : List DevEv) (ws : List Word) : AllRounds x ev ws [] := trivial

theorem AllRounds.cons {x : Bench} {ev : List DevEv} {ws ws' : List Word} {r : Round} {rs : List Round} (h : RoundOk x ev ws r)
    (h' : AllRounds x (ev ++ (r.before ++ r.after)) ws' rs) (hw : ws ++ wordsOf [r.env] = ws') : AllRounds x ev ws (r :: rs) := by
  subst hw
  exact ⟨h, h'⟩

theorem allRounds_ok {x : Bench} {ev : List DevEv} : ∀ (rs pre0 : List Round), AllRounds x (devEvents ev pre0) (wordsOf (pre0.map Round.env)) rs →
    ∀ pre r post, rs = pre ++ r :: post → RoundOk x (devEvents ev (pre0 ++ pre)) (wordsOf ((pre0 ++ pre).map Round.env)) r := by
  intro rs
  induction rs with
  | nil => intro pre0 _ pre r post h; cases pre <;> cases h
  | cons s rs ih =>
    intro pre0 h pre r post he
    cases pre with
    | nil =>
      simp only [List.nil_append, List.cons.injEq] at he
      rw [List.append_nil, ← he.1]
      exact h.1
    | cons p pre =>
      simp only [List.cons_append, List.cons.injEq] at he
      have := ih (pre0 ++ [s]) (by
        have h2 := h.2
        rw [show devEvents ev pre0 ++ (s.before ++ s.after) = devEvents ev (pre0 ++ [s]) by unfold devEvents; simp] at h2
        rw [List.map_append, wordsOf_append]
        exact h2) pre r post he.2
      rw [← he.1, show pre0 ++ s :: pre = pre0 ++ [s] ++ pre by simp]
      exact this

theorem mkRound_ok {ev : List DevEv} {ws : List Word} {t k : Nat} {ch : List UInt8} {w : Option Word} {o : Out2} {b : List DevEv} (cs : List HwCmd) (n : Nat) (ho : o.cmds = cs)
    (hk : cyclesOf ev = k) (hb : callsOf b = []) (hn : k + cyclesOf b = n) (lo hi : Nat) (wlo whi : List Word)
    (ht : 6000 * t ≤ dividerClock 48 0 0 n ∧ dividerClock 48 0 0 n ≤ 6000 * (t + 100)) (ht' : 6000 * (t + 100) + 4 * 19625 ≤ 1073741824 * 19625)
    (h1 : lo ≤ hi) (h2 : aloneBench.Receives lo wlo) (h3 : aloneBench.Receives hi whi) (h4 : wlo <+: ws) (h5 : ws ++ w.toList <+: whi) (h6 : hi * 19625 ≤ 6000 * t) (h7 : 6000 * t ≤ lo * 19625 + 8400000)
    (extra : List DevEv) (hx : callsOf extra = [] ∧ cyclesOf extra = 0) (af : List DevEv) (haf : af = cs.map .call ++ extra) :
    RoundOk aloneBench ev ws ⟨bothIter t ch w, o, b, af⟩ ∧ cyclesOf (ev ++ (b ++ af)) = n := by
  subst haf
  have hc : ∀ cs : List HwCmd, callsOf (cs.map .call) = cs ∧ cyclesOf (cs.map .call) = 0 := by
    intro cs
    induction cs with
    | nil => exact ⟨rfl, rfl⟩
    | cons y cs ih =>
      constructor
      · show y :: callsOf (cs.map .call) = _
        rw [ih.1]
      · exact ih.2
  have hcy : cyclesOf (ev ++ b) = n := by rw [cyclesOf_append, hk, hn]
  refine ⟨⟨⟨Nat.le_refl _, Nat.le_refl _, Nat.le_refl _⟩, Nat.le_add_right _ _, hb, ?_, ?_, ?_, ⟨lo, hi, wlo, whi, h1, h2, h3, h4, ?_, h6, h7⟩, ?_, ?_, ?_⟩, ?_⟩
  · show callsOf (cs.map .call ++ extra) = o.cmds
    rw [callsOf_append, (hc cs).1, hx.1, List.append_nil, ho]
  · show 6000 * t ≤ dividerClock 48 0 0 (cyclesOf (ev ++ b))
    rw [hcy]; exact ht.1
  · intro a cmd l he
    have he : cs.map DevEv.call ++ extra = a ++ .call cmd :: l := he
    have h0 : cyclesOf a = 0 := by
      have h0 : cyclesOf (cs.map DevEv.call ++ extra) = 0 := by rw [cyclesOf_append, (hc cs).2, hx.2]
      rw [he, cyclesOf_append] at h0
      omega
    show dividerClock 48 0 0 (cyclesOf (ev ++ b ++ a)) ≤ 6000 * (t + 100)
    rw [cyclesOf_append, hcy, h0]
    exact ht.2
  · have e : wordsOf [(bothIter t ch w)] = w.toList := by cases w <;> rfl
    show ws ++ wordsOf [(bothIter t ch w)] <+: whi
    rw [e]; exact h5
  · intro h; cases h
  · intro h; cases h
  · show 6000 * (t + 100) + 4 * 19625 ≤ callsEnd 19625 _ 0 (sendsFrom 0 ev) + 1073741824 * 19625
    exact Nat.le_trans ht' (Nat.le_add_left _ _)
  · rw [← List.append_assoc, cyclesOf_append, hcy, cyclesOf_append, (hc cs).2, hx.2]; rfl

theorem comeBy_at {f b k1 k2 f2 N : Nat} (h1 : f < b) (h2 : b < k1) (h3 : k1 < k2) (h4 : k2 < f2) :
    (N ≤ f → comeBy [(f, wFree), (b, wBusy), (k1, wByte 0x40), (k2, wByte 0xF0), (f2, wFree)] N = []) ∧
    (f < N → N ≤ b → comeBy [(f, wFree), (b, wBusy), (k1, wByte 0x40), (k2, wByte 0xF0), (f2, wFree)] N = [wFree]) ∧
    (b < N → N ≤ k1 → comeBy [(f, wFree), (b, wBusy), (k1, wByte 0x40), (k2, wByte 0xF0), (f2, wFree)] N = [wFree, wBusy]) ∧
    (k1 < N → N ≤ k2 → comeBy [(f, wFree), (b, wBusy), (k1, wByte 0x40), (k2, wByte 0xF0), (f2, wFree)] N = [wFree, wBusy, wByte 0x40]) ∧
    (k2 < N → N ≤ f2 → comeBy [(f, wFree), (b, wBusy), (k1, wByte 0x40), (k2, wByte 0xF0), (f2, wFree)] N = [wFree, wBusy, wByte 0x40, wByte 0xF0]) ∧
    (f2 < N → comeBy [(f, wFree), (b, wBusy), (k1, wByte 0x40), (k2, wByte 0xF0), (f2, wFree)] N = [wFree, wBusy, wByte 0x40, wByte 0xF0, wFree]) := by
  unfold comeBy
  refine ⟨fun h => ?_, fun h h' => ?_, fun h h' => ?_, fun h h' => ?_, fun h h' => ?_, fun h => ?_⟩
  · rw [List.filter_cons_of_neg (by simp; omega), List.filter_cons_of_neg (by simp; omega), List.filter_cons_of_neg (by simp; omega), List.filter_cons_of_neg (by simp; omega), List.filter_cons_of_neg (by simp; omega)]; rfl
  · rw [List.filter_cons_of_pos (by simp; omega), List.filter_cons_of_neg (by simp; omega), List.filter_cons_of_neg (by simp; omega), List.filter_cons_of_neg (by simp; omega), List.filter_cons_of_neg (by simp; omega)]; rfl
  · rw [List.filter_cons_of_pos (by simp; omega), List.filter_cons_of_pos (by simp; omega), List.filter_cons_of_neg (by simp; omega), List.filter_cons_of_neg (by simp; omega), List.filter_cons_of_neg (by simp; omega)]; rfl
  · rw [List.filter_cons_of_pos (by simp; omega), List.filter_cons_of_pos (by simp; omega), List.filter_cons_of_pos (by simp; omega), List.filter_cons_of_neg (by simp; omega), List.filter_cons_of_neg (by simp; omega)]; rfl
  · rw [List.filter_cons_of_pos (by simp; omega), List.filter_cons_of_pos (by simp; omega), List.filter_cons_of_pos (by simp; omega), List.filter_cons_of_pos (by simp; omega), List.filter_cons_of_neg (by simp; omega)]; rfl
  · rw [List.filter_cons_of_pos (by simp; omega), List.filter_cons_of_pos (by simp; omega), List.filter_cons_of_pos (by simp; omega), List.filter_cons_of_pos (by simp; omega), List.filter_cons_of_pos (by simp; omega)]; rfl

/-- The hypotheses of C121 are met. -/
theorem aloneRun_ok : AloneOnBus aloneBench aloneStart aloneRounds := by
  refine ⟨⟨by decide, by decide, by decide⟩, ⟨modemClock, by decide⟩, ⟨by decide, by decide, by decide⟩, rfl, ?_, ?_⟩
  · obtain ⟨d, pins, errs, h, hL⟩ := alone_hears
    exact ⟨d, pins, errs, h, aloneLine, hL, 60, 127, by decide, by decide, by decide, by decide, fun K _ => codes_until (codesOf_ok _) K⟩
  · obtain ⟨f, b, k1, k2, f2, a1, a2, a3, a4, a5, a6, a7, a8, a9, hR⟩ := alone_words
    obtain ⟨o0, o1, o2, o3, o4, o5, o6, o7, o8, o9, o10, o11, o12, o13, o14, o15, o16, o17, o18, -, e, p0, p1, p2, p3, p4, p5, p6, p7, p8, p9, p10, p11, p12, p13, p14, p15, p16, p17, p18⟩ := aloneRounds_list
    have hcb := fun N => comeBy_at (f := f) (b := b) (k1 := k1) (k2 := k2) (f2 := f2) (N := N) (by omega) (by omega) (by omega) (by omega)
    have r0 : ∀ N, N ≤ f → aloneBench.Receives N [] := fun N h => by have := hR N (by omega); rw [(hcb N).1 h] at this; exact this
    have r1 : ∀ N, f < N → N ≤ b → aloneBench.Receives N [wFree] := fun N h h' => by have := hR N (by omega); rw [(hcb N).2.1 h h'] at this; exact this
    have r2 : ∀ N, b < N → N ≤ k1 → aloneBench.Receives N [wFree, wBusy] := fun N h h' => by have := hR N (by omega); rw [(hcb N).2.2.1 h h'] at this; exact this
    have r3 : ∀ N, k1 < N → N ≤ k2 → aloneBench.Receives N [wFree, wBusy, wByte 0x40] := fun N h h' => by have := hR N (by omega); rw [(hcb N).2.2.2.1 h h'] at this; exact this
    have r4 : ∀ N, k2 < N → N ≤ f2 → aloneBench.Receives N [wFree, wBusy, wByte 0x40, wByte 0xF0] := fun N h h' => by have := hR N (by omega); rw [(hcb N).2.2.2.2.1 h h'] at this; exact this
    have r5 : ∀ N, f2 < N → N ≤ 805910 → aloneBench.Receives N [wFree, wBusy, wByte 0x40, wByte 0xF0, wFree] := fun N h h' => by have := hR N h'; rw [(hcb N).2.2.2.2.2 h] at this; exact this
    have hrs := allRounds_ok (x := aloneBench) (ev := aloneStart) aloneRounds []
    suffices h : AllRounds aloneBench aloneStart [] aloneRounds by
      intro pre r post hp
      exact hrs (by unfold devEvents; rw [List.flatMap_nil, List.append_nil]; exact h) pre r post hp
    rw [e]
    obtain ⟨e0, e1, e2, e3, e4, e5, e6, e7, e8, e9, e10, e11, e12, e13, e14, e15, e16, e17, e18⟩ := aloneCyc_at
    obtain ⟨q0, m0⟩ := mkRound_ok (ev := aloneStart) (b := List.replicate (aloneCyc 1400) .cycle) (ws := []) (k := 0) (t := 1400) (ch := []) (w := some (wFree)) [] 217 p0 rfl (callsOf_replicate _) (by rw [cyclesOf_replicate, e0]) 0 428 [] [wFree] ⟨by decide, by decide⟩ (by decide)
      (by decide) (r0 0 (by omega)) (r1 428 (by omega) (by omega)) ⟨_, rfl⟩ ⟨[], rfl⟩ (by decide) (by decide) [] ⟨rfl, rfl⟩ [] rfl
    obtain ⟨q1, m1⟩ := mkRound_ok (b := cyclesFor 1400 200000) (ws := [wFree]) (k := 217) (t := 200000) (ch := []) (w := none) [] 30722 p1 m0 callsOf_for (by rw [cyclesOf_for, e0, e1]) 60719 60719 [wFree] [wFree] ⟨by decide, by decide⟩ (by decide)
      (by decide) (r1 60719 (by omega) (by omega)) (r1 60719 (by omega) (by omega)) ⟨_, rfl⟩ ⟨[], rfl⟩ (by decide) (by decide) [] ⟨rfl, rfl⟩ [] rfl
    obtain ⟨q2, m2⟩ := mkRound_ok (b := cyclesFor 200000 2300000) (ws := [wFree]) (k := 30722) (t := 2300000) (ch := []) (w := none) [] 353282 p2 m1 callsOf_for (by rw [cyclesOf_for, e1, e2]) 702757 702757 [wFree] [wFree] ⟨by decide, by decide⟩ (by decide)
      (by decide) (r1 702757 (by omega) (by omega)) (r1 702757 (by omega) (by omega)) ⟨_, rfl⟩ ⟨[], rfl⟩ (by decide) (by decide) [] ⟨rfl, rfl⟩ [] rfl
    obtain ⟨q3, m3⟩ := mkRound_ok (b := cyclesFor 2300000 2301000) (ws := [wFree]) (k := 353282) (t := 2301000) (ch := [52, 48, 70, 48, 10]) (w := none) [.shutdown false] 353436 p3 m2 callsOf_for (by rw [cyclesOf_for, e2, e3]) 703063 703063 [wFree] [wFree] ⟨by decide, by decide⟩ (by decide)
      (by decide) (r1 703063 (by omega) (by omega)) (r1 703063 (by omega) (by omega)) ⟨_, rfl⟩ ⟨[], rfl⟩ (by decide) (by decide) [] ⟨rfl, rfl⟩ [.call (.shutdown false)] rfl
    obtain ⟨q4, m4⟩ := mkRound_ok (b := cyclesFor 2301000 2334000) (ws := [wFree]) (k := 353436) (t := 2334000) (ch := []) (w := none) [.send aloneMsg] 358504 p4 m3 callsOf_for (by rw [cyclesOf_for, e3, e4]) 713152 713152 [wFree] [wFree] ⟨by decide, by decide⟩ (by decide)
      (by decide) (r1 713152 (by omega) (by omega)) (r1 713152 (by omega) (by omega)) ⟨_, rfl⟩ ⟨[], rfl⟩ (by decide) (by decide) [.dma, .dma] ⟨rfl, rfl⟩ [.call (.send aloneMsg), .dma, .dma] rfl
    obtain ⟨q5, m5⟩ := mkRound_ok (b := cyclesFor 2334000 2334900) (ws := [wFree]) (k := 358504) (t := 2334900) (ch := []) (w := some (wBusy)) [] 358643 p5 m4 callsOf_for (by rw [cyclesOf_for, e4, e5]) 713427 713854 [wFree] [wFree, wBusy] ⟨by decide, by decide⟩ (by decide)
      (by decide) (r1 713427 (by omega) (by omega)) (r2 713854 (by omega) (by omega)) ⟨_, rfl⟩ ⟨[], rfl⟩ (by decide) (by decide) [] ⟨rfl, rfl⟩ [] rfl
    obtain ⟨q6, m6⟩ := mkRound_ok (b := cyclesFor 2334900 2336000) (ws := [wFree, wBusy]) (k := 358643) (t := 2336000) (ch := []) (w := some (wByte 0x40)) [] 358812 p6 m5 callsOf_for (by rw [cyclesOf_for, e5, e6]) 713764 714191 [wFree, wBusy] [wFree, wBusy, wByte 0x40] ⟨by decide, by decide⟩ (by decide)
      (by decide) (r2 713764 (by omega) (by omega)) (r3 714191 (by omega) (by omega)) ⟨_, rfl⟩ ⟨[], rfl⟩ (by decide) (by decide) [] ⟨rfl, rfl⟩ [] rfl
    obtain ⟨q7, m7⟩ := mkRound_ok (b := cyclesFor 2336000 2337000) (ws := [wFree, wBusy, wByte 0x40]) (k := 358812) (t := 2337000) (ch := []) (w := some (wByte 0xF0)) [.clearFifo] 358965 p7 m6 callsOf_for (by rw [cyclesOf_for, e6, e7]) 714069 (k2 + 1) [wFree, wBusy, wByte 0x40] [wFree, wBusy, wByte 0x40, wByte 0xF0] ⟨by decide, by decide⟩ (by decide)
      (by omega) (r3 714069 (by omega) (by omega)) (r4 (k2 + 1) (by omega) (by omega)) ⟨_, rfl⟩ ⟨[], rfl⟩ (by omega) (by decide) [] ⟨rfl, rfl⟩ [.call .clearFifo] rfl
    obtain ⟨q8, m8⟩ := mkRound_ok (b := cyclesFor 2337000 2337600) (ws := [wFree, wBusy, wByte 0x40, wByte 0xF0]) (k := 358965) (t := 2337600) (ch := []) (w := some (wFree)) [.shutdown true] 359057 p8 m7 callsOf_for (by rw [cyclesOf_for, e7, e8]) 714253 714680 [wFree, wBusy, wByte 0x40] [wFree, wBusy, wByte 0x40, wByte 0xF0, wFree] ⟨by decide, by decide⟩ (by decide)
      (by decide) (r3 714253 (by omega) (by omega)) (r5 714680 (by omega) (by omega)) ⟨_, rfl⟩ ⟨[], rfl⟩ (by decide) (by decide) [] ⟨rfl, rfl⟩ [.call (.shutdown true)] rfl
    obtain ⟨q9, m9⟩ := mkRound_ok (b := cyclesFor 2337600 2339000) (ws := [wFree, wBusy, wByte 0x40, wByte 0xF0, wFree]) (k := 359057) (t := 2339000) (ch := []) (w := none) [] 359272 p9 m8 callsOf_for (by rw [cyclesOf_for, e8, e9]) 714681 714681 [wFree, wBusy, wByte 0x40, wByte 0xF0, wFree] [wFree, wBusy, wByte 0x40, wByte 0xF0, wFree] ⟨by decide, by decide⟩ (by decide)
      (by decide) (r5 714681 (by omega) (by omega)) (r5 714681 (by omega) (by omega)) ⟨_, rfl⟩ ⟨[], rfl⟩ (by decide) (by decide) [] ⟨rfl, rfl⟩ [] rfl
    obtain ⟨q10, m10⟩ := mkRound_ok (b := cyclesFor 2339000 2372000) (ws := [wFree, wBusy, wByte 0x40, wByte 0xF0, wFree]) (k := 359272) (t := 2372000) (ch := []) (w := none) [] 364341 p10 m9 callsOf_for (by rw [cyclesOf_for, e9, e10]) 724770 724770 [wFree, wBusy, wByte 0x40, wByte 0xF0, wFree] [wFree, wBusy, wByte 0x40, wByte 0xF0, wFree] ⟨by decide, by decide⟩ (by decide)
      (by decide) (r5 724770 (by omega) (by omega)) (r5 724770 (by omega) (by omega)) ⟨_, rfl⟩ ⟨[], rfl⟩ (by decide) (by decide) [] ⟨rfl, rfl⟩ [] rfl
    obtain ⟨q11, m11⟩ := mkRound_ok (b := cyclesFor 2372000 2405000) (ws := [wFree, wBusy, wByte 0x40, wByte 0xF0, wFree]) (k := 364341) (t := 2405000) (ch := []) (w := none) [] 369410 p11 m10 callsOf_for (by rw [cyclesOf_for, e10, e11]) 734859 734859 [wFree, wBusy, wByte 0x40, wByte 0xF0, wFree] [wFree, wBusy, wByte 0x40, wByte 0xF0, wFree] ⟨by decide, by decide⟩ (by decide)
      (by decide) (r5 734859 (by omega) (by omega)) (r5 734859 (by omega) (by omega)) ⟨_, rfl⟩ ⟨[], rfl⟩ (by decide) (by decide) [] ⟨rfl, rfl⟩ [] rfl
    obtain ⟨q12, m12⟩ := mkRound_ok (b := cyclesFor 2405000 2438000) (ws := [wFree, wBusy, wByte 0x40, wByte 0xF0, wFree]) (k := 369410) (t := 2438000) (ch := []) (w := none) [] 374479 p12 m11 callsOf_for (by rw [cyclesOf_for, e11, e12]) 744948 744948 [wFree, wBusy, wByte 0x40, wByte 0xF0, wFree] [wFree, wBusy, wByte 0x40, wByte 0xF0, wFree] ⟨by decide, by decide⟩ (by decide)
      (by decide) (r5 744948 (by omega) (by omega)) (r5 744948 (by omega) (by omega)) ⟨_, rfl⟩ ⟨[], rfl⟩ (by decide) (by decide) [] ⟨rfl, rfl⟩ [] rfl
    obtain ⟨q13, m13⟩ := mkRound_ok (b := cyclesFor 2438000 2471000) (ws := [wFree, wBusy, wByte 0x40, wByte 0xF0, wFree]) (k := 374479) (t := 2471000) (ch := []) (w := none) [] 379548 p13 m12 callsOf_for (by rw [cyclesOf_for, e12, e13]) 755037 755037 [wFree, wBusy, wByte 0x40, wByte 0xF0, wFree] [wFree, wBusy, wByte 0x40, wByte 0xF0, wFree] ⟨by decide, by decide⟩ (by decide)
      (by decide) (r5 755037 (by omega) (by omega)) (r5 755037 (by omega) (by omega)) ⟨_, rfl⟩ ⟨[], rfl⟩ (by decide) (by decide) [] ⟨rfl, rfl⟩ [] rfl
    obtain ⟨q14, m14⟩ := mkRound_ok (b := cyclesFor 2471000 2504000) (ws := [wFree, wBusy, wByte 0x40, wByte 0xF0, wFree]) (k := 379548) (t := 2504000) (ch := []) (w := none) [] 384617 p14 m13 callsOf_for (by rw [cyclesOf_for, e13, e14]) 765127 765127 [wFree, wBusy, wByte 0x40, wByte 0xF0, wFree] [wFree, wBusy, wByte 0x40, wByte 0xF0, wFree] ⟨by decide, by decide⟩ (by decide)
      (by decide) (r5 765127 (by omega) (by omega)) (r5 765127 (by omega) (by omega)) ⟨_, rfl⟩ ⟨[], rfl⟩ (by decide) (by decide) [] ⟨rfl, rfl⟩ [] rfl
    obtain ⟨q15, m15⟩ := mkRound_ok (b := cyclesFor 2504000 2537000) (ws := [wFree, wBusy, wByte 0x40, wByte 0xF0, wFree]) (k := 384617) (t := 2537000) (ch := []) (w := none) [] 389685 p15 m14 callsOf_for (by rw [cyclesOf_for, e14, e15]) 775216 775216 [wFree, wBusy, wByte 0x40, wByte 0xF0, wFree] [wFree, wBusy, wByte 0x40, wByte 0xF0, wFree] ⟨by decide, by decide⟩ (by decide)
      (by decide) (r5 775216 (by omega) (by omega)) (r5 775216 (by omega) (by omega)) ⟨_, rfl⟩ ⟨[], rfl⟩ (by decide) (by decide) [] ⟨rfl, rfl⟩ [] rfl
    obtain ⟨q16, m16⟩ := mkRound_ok (b := cyclesFor 2537000 2570000) (ws := [wFree, wBusy, wByte 0x40, wByte 0xF0, wFree]) (k := 389685) (t := 2570000) (ch := []) (w := none) [] 394754 p16 m15 callsOf_for (by rw [cyclesOf_for, e15, e16]) 785305 785305 [wFree, wBusy, wByte 0x40, wByte 0xF0, wFree] [wFree, wBusy, wByte 0x40, wByte 0xF0, wFree] ⟨by decide, by decide⟩ (by decide)
      (by decide) (r5 785305 (by omega) (by omega)) (r5 785305 (by omega) (by omega)) ⟨_, rfl⟩ ⟨[], rfl⟩ (by decide) (by decide) [] ⟨rfl, rfl⟩ [] rfl
    obtain ⟨q17, m17⟩ := mkRound_ok (b := cyclesFor 2570000 2603000) (ws := [wFree, wBusy, wByte 0x40, wByte 0xF0, wFree]) (k := 394754) (t := 2603000) (ch := []) (w := none) [] 399823 p17 m16 callsOf_for (by rw [cyclesOf_for, e16, e17]) 795394 795394 [wFree, wBusy, wByte 0x40, wByte 0xF0, wFree] [wFree, wBusy, wByte 0x40, wByte 0xF0, wFree] ⟨by decide, by decide⟩ (by decide)
      (by decide) (r5 795394 (by omega) (by omega)) (r5 795394 (by omega) (by omega)) ⟨_, rfl⟩ ⟨[], rfl⟩ (by decide) (by decide) [] ⟨rfl, rfl⟩ [] rfl
    obtain ⟨q18, m18⟩ := mkRound_ok (b := cyclesFor 2603000 2636000) (ws := [wFree, wBusy, wByte 0x40, wByte 0xF0, wFree]) (k := 399823) (t := 2636000) (ch := []) (w := none) [] 404892 p18 m17 callsOf_for (by rw [cyclesOf_for, e17, e18]) 805483 805483 [wFree, wBusy, wByte 0x40, wByte 0xF0, wFree] [wFree, wBusy, wByte 0x40, wByte 0xF0, wFree] ⟨by decide, by decide⟩ (by decide)
      (by decide) (r5 805483 (by omega) (by omega)) (r5 805483 (by omega) (by omega)) ⟨_, rfl⟩ ⟨[], rfl⟩ (by decide) (by decide) [] ⟨rfl, rfl⟩ [] rfl
    exact .cons q0 (.cons q1 (.cons q2 (.cons q3 (.cons q4 (.cons q5 (.cons q6 (.cons q7 (.cons q8 (.cons q9 (.cons q10 (.cons q11 (.cons q12 (.cons q13 (.cons q14 (.cons q15 (.cons q16 (.cons q17 (.cons q18 (.nil _ _ _) rfl) rfl) rfl) rfl) rfl) rfl) rfl) rfl) rfl) rfl) rfl) rfl) rfl) rfl) rfl) rfl) rfl) rfl) rfl

theorem aloneRounds_env : aloneRounds.map Round.env = aloneEnvs ∧ aloneRounds.map Round.out = aloneOuts := by
  obtain ⟨o0, o1, o2, o3, o4, o5, o6, o7, o8, o9, o10, o11, o12, o13, o14, o15, o16, o17, o18, h, e, -⟩ := aloneRounds_list
  rw [e, h]
  exact ⟨rfl, rfl⟩

theorem aloneRun_loop : ∃ c, LoopRun .arm (fun _ => 0) (aloneRounds.map Round.env) c (aloneRounds.map Round.out) ∧ c.sm.isIdle = true := by
  rw [aloneRounds_env.1, aloneRounds_env.2]
  have h : (match (Core0.init (fun _ => 0) .zero 0 0).run .arm (fun _ => 0) aloneEnvs with | .ok r => r.1.sm.isIdle | .ub => false) = true := by decide +kernel
  have ho : aloneOuts = match (Core0.init (fun _ => 0) .zero 0 0).run .arm (fun _ => 0) aloneEnvs with | .ok r => r.2 | .ub => [] := rfl
  cases hr : (Core0.init (fun _ => 0) .zero 0 0).run .arm (fun _ => 0) aloneEnvs with
  | ub => rw [hr] at h; cases h
  | ok r =>
    rw [hr] at h ho
    exact ⟨r.1, ⟨.zero, 0, 0, by rw [hr, ho]⟩, h⟩

/-- The hypotheses of C121 are met by this run, in which the packet 40 F0 is started; so it is transmitted, and the host gets its line. -/
example : (aloneRounds.filterMap fun r => r.out.started).map Message.bytes = [[0x40, 0xF0]] ∧
    (aloneRounds.flatMap fun r => r.out.cmds) = (aloneRounds.filterMap fun r => r.out.started).flatMap txCalls ∧
    (busLines (aloneRounds.map Round.out)).map lineShown = [(0, [0x40, 0xF0])] := by
  obtain ⟨c, h1, h2⟩ := aloneRun_loop
  obtain ⟨-, -, -, -, -, -, -, -, -, -, -, -, -, -, -, -, -, -, -, -, -, -, -, -, -, -, -, -, -, -, -, -, -, -, -, -, -, -, -, -, hs⟩ := aloneOuts_list
  have hs' : (aloneRounds.filterMap fun r => r.out.started).map Message.bytes = [[0x40, 0xF0]] := by
    rw [← hs, ← aloneRounds_env.2, List.filterMap_map]
    rfl
  refine ⟨hs', (C121_alone .arm rfl _ _ _ _ c h1 aloneRun_ok).2.2.2.1 h2, ?_⟩
  rw [C121_own_lines .arm rfl _ _ _ _ c h1 aloneRun_ok h2]
  · have := congrArg (List.map fun b : List UInt8 => ((0 : Nat), b)) hs'
    rw [List.map_map] at this
    exact this
  · have h : aloneOuts.all (fun o => o.started.all fun m => decide (m.length ≤ 31)) = true := by decide +kernel
    intro r hr m hm
    rw [List.all_eq_true] at h
    have := h r.out (by rw [← aloneRounds_env.2]; exact List.mem_map_of_mem hr)
    rw [hm] at this
    simpa using this
  · have h : aloneEnvs.all (fun e => !e.1.fifoErr) = true := by decide +kernel
    intro r hr
    rw [List.all_eq_true] at h
    have := h r.env (by rw [← aloneRounds_env.1]; exact List.mem_map_of_mem hr)
    simpa using this
  · have h : (busLines aloneOuts).all (fun m => m.status ≠ 4) = true := by decide +kernel
    intro m hm
    rw [List.all_eq_true] at h
    have := h m (by rw [← aloneRounds_env.2]; exact hm)
    simpa using this

/-- The hypotheses of `C121_in_time` are met: the iteration at 2301 ms starts, and 335 ms later, more than the 311 ms allowed for `δ` = 33 ms, it is over. -/
example : ∃ pre r mid m, aloneRounds = pre ++ r :: mid ∧ r.out.started = some m ∧ m.bytes = [0x40, 0xF0] ∧ LoopPaced 33000 r.env.2.tWake ((r :: mid).map Round.env) ∧
    r.env.2.tWake + 72000 + 4000 * m.length + (m.length + 5) * 33000 < loopTime r.env.2.tWake ((r :: mid).map Round.env) ∧
    ∃ a b, mid = a ++ b ∧ (a.filterMap fun r => r.out.started) = [] ∧
      ((pre ++ r :: a).flatMap fun r => r.out.cmds) = (pre.filterMap fun r => r.out.started).flatMap txCalls ++ txCalls m := by
  obtain ⟨c, hl, -⟩ := aloneRun_loop
  have hst : (aloneOuts[3]?).any (fun o => o.started.any fun m => decide (m.length = 2) && decide (m.bytes = [0x40, 0xF0])) = true := by decide +kernel
  have henv : (aloneEnvs.drop 3).head?.any (fun e => decide (e.2.tWake = 2301000)) = true := by decide +kernel
  have hlen : aloneRounds.length = 19 := by have := congrArg List.length aloneRounds_env.1; rw [List.length_map] at this; exact this.trans (by decide +kernel)
  obtain ⟨r, mid, hd⟩ : ∃ r mid, aloneRounds.drop 3 = r :: mid := by
    cases h : aloneRounds.drop 3 with
    | nil => have := congrArg List.length h; rw [List.length_drop, hlen] at this; cases this
    | cons r mid => exact ⟨r, mid, rfl⟩
  have hsp : aloneRounds = aloneRounds.take 3 ++ r :: mid := by rw [← hd, List.take_append_drop]
  have hr : aloneOuts[3]? = some r.out := by
    rw [← aloneRounds_env.2, List.getElem?_map]
    have h3 : aloneRounds[3]? = some r := by
      have := congrArg (fun l => l[0]?) hd
      simpa using this
    rw [h3]; rfl
  rw [hr] at hst
  simp only [Option.any_some] at hst
  obtain ⟨m, hm, hb⟩ := Option.any_eq_true _ _ |>.mp hst
  simp only [Bool.and_eq_true, decide_eq_true_eq] at hb
  have hE : (r :: mid).map Round.env = aloneEnvs.drop 3 := by rw [← hd, List.map_drop, aloneRounds_env.1]
  have ht : r.env.2.tWake = 2301000 := by
    rw [← hE] at henv
    simpa using henv
  have hp : LoopPaced 33000 r.env.2.tWake ((r :: mid).map Round.env) := by
    rw [hE, ht]
    simp [LoopPaced, aloneEnvs, bothIter, env2]
  have hT : r.env.2.tWake + 72000 + 4000 * m.length + (m.length + 5) * 33000 < loopTime r.env.2.tWake ((r :: mid).map Round.env) := by
    rw [hE, ht, hb.1]
    show 2612000 < 2636000
    decide
  refine ⟨aloneRounds.take 3, r, mid, m, hsp, hm, hb.2, hp, hT, ?_⟩
  refine C121_in_time .arm rfl (fun _ => 0) aloneBench aloneStart (aloneRounds.take 3) mid r c m 33000 ?_ ?_ hm hp hT
  · rw [← hsp]; exact hl
  · rw [← hsp]; exact aloneRun_ok

end P1P2
