import Verif.Props.Success
import Verif.Spec.Collide
/-!
# Property C136: two modems that send at the same time
-/
namespace P1P2

/-- The first call with a send command is where it is. -/
theorem first_send_unique {a b : List TxObs} {u v : TxObs} : ∀ {a' b' : List TxObs}, a ++ u :: b = a' ++ v :: b' → noSend a → noSend a' →
    (∃ m, HwCmd.send m ∈ u.cmds) → (∃ m, HwCmd.send m ∈ v.cmds) → a = a' ∧ u = v ∧ b = b' := by
  induction a with
  | nil =>
    intro a' b' h _ h2 hu _
    cases a' with
    | nil => simp only [List.nil_append, List.cons.injEq] at h; exact ⟨rfl, h.1, h.2⟩
    | cons e a' =>
      simp only [List.nil_append, List.cons_append, List.cons.injEq] at h
      obtain ⟨m, hm⟩ := hu
      rw [h.1] at hm
      exact absurd hm (h2 e (by simp) m)
  | cons d a ih =>
    intro a' b' h h1 h2 hu hv
    cases a' with
    | nil =>
      simp only [List.nil_append, List.cons_append, List.cons.injEq] at h
      obtain ⟨m, hm⟩ := hv
      rw [← h.1] at hm
      exact absurd hm (h1 d (by simp) m)
    | cons e a' =>
      simp only [List.cons_append, List.cons.injEq] at h
      obtain ⟨k1, k2, k3⟩ := ih h.2 (fun y hy => h1 y (by simp [hy])) (fun y hy => h2 y (by simp [hy])) hu hv
      exact ⟨by rw [h.1, k1], k2, k3⟩

theorem Core0.run_join {pf : Platform} {g : Nat → UInt8} {b : List (Env1 × Env2)} {c1 c2 : Core0} {o2 : List Out2} (h2 : c1.run pf g b = .ok (c2, o2)) :
    ∀ {a : List (Env1 × Env2)} {c : Core0} {o1 : List Out2}, c.run pf g a = .ok (c1, o1) → c.run pf g (a ++ b) = .ok (c2, o1 ++ o2) := by
  intro a
  induction a with
  | nil => intro c o1 h; cases h; exact h2
  | cons e a ih =>
    intro c o1 h
    obtain ⟨c', o, os, k1, k2, rfl⟩ := Core0.run_cons h
    rw [List.cons_append, Core0.run, k1, Res.ok_bind]
    dsimp only
    rw [ih k2]; rfl

/-- What is heard after the hand-over begins with the packet. -/
theorem TakenForSent.heard {pf : Platform} (hpf : pf.charSigned = false) {g : Nat → UInt8} {m : Message} {l : List UInt8} (h : TakenForSent pf g m l) : m.bytes <+: l := by
  obtain ⟨es, pre, post, x, h, y, z, c0, c1, ca, cb, c2, c3, c4, os, op, oq, ox, oh, oy, oz, hr, hx, hs, hp, hh, ⟨m', hsend⟩, hq, hy, hidle, hz, hbusy, hno, hrx, rfl⟩ := h
  have hg := hr.good
  have hg1 := (hg.iter hx).1
  have hga := (hg1.run hp).1
  have hgb := (hga.iter hh).1
  have hg2 := (hgb.run hq).1
  have hq' : ca.run pf g (h :: post) = .ok (c2, oh :: oq) := by
    rw [Core0.run, hh, Res.ok_bind]
    dsimp only
    rw [hq]; rfl
  have hmid : c1.run pf g (pre ++ h :: post) = .ok (c2, op ++ oh :: oq) := Core0.run_join hq' hp
  have hidle' : c3.sm.st = .idle := by simpa [TxSM.isIdle] using hidle
  have hbusy' : ∀ a b ct ot, pre ++ h :: post = a ++ b → c1.run pf g a = .ok (ct, ot) → ct.sm.st ≠ .idle := by
    intro a b ct ot h1 h2
    simpa [TxSM.isIdle] using hbusy a b ct ot h1 h2
  have herr := run_errs hg hx hmid hy (fun o ho => hno o (by
    rcases List.mem_append.mp ho with ho | ho
    · exact List.mem_append_left _ ho
    · simp [List.mem_singleton.mp ho])) (fun w hw => hrx w (by
      rw [wordsOf_append]; exact List.mem_append_left _ hw))
  have herr3 : c3.sm.err = false := err_false hg2 hy hz (hno oz (by simp)) (fun w hw => hrx w (by
    rw [wordsOf_append]; exact List.mem_append_right _ (by simp [wordsOf, hw])))
  obtain ⟨p, hp0, hc⟩ := iter_trace hg hx
  rcases hc with ⟨_, _, _, hn, _⟩ | ⟨_, hz1, ⟨hn, _⟩ | ⟨m1, hst, hsd, hi, hu⟩⟩
  · rw [hn] at hs; cases hs
  · rw [hn] at hs; cases hs
  rw [hst] at hs
  cases hs
  have hi' : (txEnd c0.sm p).st = .idle := by rw [hp0.last.1]; exact hi
  obtain ⟨obs, r1, r2, r3, r4, r5, r6, _⟩ := busy_run hg1 hz1 (es := pre) (fun a b ct ot k1 k2 => by
    have e : pre ++ h :: post = a ++ (b ++ h :: post) := by rw [k1]; simp
    exact ⟨hbusy' a _ ct ot e k2, herr a _ ct ot e k2⟩) hp
  obtain ⟨ph, lh, u1, u2, u3, u4, u5, u6, u7, u8, u9⟩ := busy_iter_last hga r6 (hbusy' pre _ ca op rfl hp) hh
  obtain ⟨obs2, v1, v2, v3, v4, v5, v6, _⟩ := busy_run hgb u7 (es := post) (fun a b ct ot k1 k2 => by
    have e : pre ++ h :: post = (pre ++ h :: a) ++ b := by rw [k1]; simp
    have k2' : ca.run pf g (h :: a) = .ok (ct, oh :: ot) := by
      rw [Core0.run, hh, Res.ok_bind]
      dsimp only
      rw [k2]; rfl
    have k3 := Core0.run_join k2' hp
    exact ⟨hbusy' _ _ ct _ e k3, herr _ _ ct _ e k3⟩) hq
  obtain ⟨q, last, t1, t2, t3, t4, t5, t6, _⟩ := busy_iter hg2 v6 (hbusy' (pre ++ h :: post) [] c2 _ (by simp) hmid) hy
  have hcb : cb.sm.st ≠ .idle ∧ cb.sm.err = false := by
    have k2' : ca.run pf g [h] = .ok (cb, [oh]) := by
      rw [Core0.run, hh, Res.ok_bind]; rfl
    have k3 := Core0.run_join k2' hp
    have e : pre ++ h :: post = (pre ++ [h]) ++ post := by simp
    exact ⟨hbusy' _ _ cb _ e k3, herr _ _ cb _ e k3⟩
  let s0 := txEnd c0.sm p
  let wk : TxObs := ⟨.wake m x.2.tWake, [], (s0.wake m x.2.tWake).1⟩
  let up : TxObs := ⟨.update (loopIn c1 x.2 (x.2.word.getD c0.word)), ox.cmds, c1.sm⟩
  have hwk : s0.wake m x.2.tWake = ((s0.wake m x.2.tWake).1, []) := by rw [TxSM.wake_idle hi']
  have run1 : TxRun pf wk.after (up :: (obs ++ ph)) := ⟨hu, TxRun.append.mpr ⟨r1, by rw [r2]; exact (TxRun.append.mp u1).1⟩⟩
  have hb1 : ∀ e ∈ up :: (obs ++ ph), e.after.st ≠ .idle ∧ e.after.err = false := by
    intro e he
    rcases List.mem_cons.mp he with rfl | he
    · exact ⟨hbusy' [] _ c1 [] rfl rfl, herr [] _ c1 [] rfl rfl⟩
    · rcases List.mem_append.mp he with he | he
      · exact r3 e he
      · exact u3 e he
  have hinv : EchoInv m (up :: (obs ++ ph)) (txEnd wk.after (up :: (obs ++ ph))) := by
    refine EchoInv.run hpf hsd ?_ run1 (fun e he => (hb1 e he).1) (fun e he => (hb1 e he).2)
    show EchoInv m [] (s0.wake m x.2.tWake).1
    rw [TxSM.wake_idle hi']
    exact ⟨rfl, rfl, by intro y hy; simp at hy⟩
  -- the hand-over
  have hend : txEnd wk.after (up :: (obs ++ ph)) = txEnd ca.sm ph := by
    show txEnd c1.sm (obs ++ ph) = _
    rw [txEnd_append, r2]
  rw [hend] at hinv
  have hlh := (TxRun.append.mp u1).2.1
  have hnos : noSend (up :: (obs ++ ph)) := by
    have hs' : HwCmd.send m' ∈ lh.cmds := by rw [u8]; exact hsend
    have hwp : (txEnd ca.sm ph).st = .waitPowerOn := by
      cases TxSM.callCase hlh with
      | upd i hcall hu => exact ((update_power (by rw [hcall] at hlh; exact hlh)).2.2.2 m' hs').1
      | accept m t hcall hst hs hc => rw [hc] at hs'; cases hs'
      | refuse m t hcall hst hs hc => rw [hc] at hs'; cases hs'
      | error hcall hs hc => rw [hc] at hs'; cases hs'
      | clearRx hcall hs hc => rw [hc] at hs'; cases hs'
    have := hinv.2
    rw [hwp] at this
    exact this.2
  have run : TxRun pf s0 (wk :: (((up :: (obs ++ ph)) ++ lh :: (obs2 ++ q)) ++ [last])) := by
    refine ⟨?_, ?_⟩
    · show Res.ok (s0.wake m x.2.tWake) = _
      rw [hwk]
    · rw [List.append_assoc]
      refine TxRun.append.mpr ⟨run1, ?_⟩
      rw [hend]
      refine ⟨hlh, ?_⟩
      rw [u4]
      show TxRun pf cb.sm ((obs2 ++ q) ++ [last])
      rw [List.append_assoc]
      exact TxRun.append.mpr ⟨v1, by rw [v2]; exact t1⟩
  have hb : ∀ e ∈ (up :: (obs ++ ph)) ++ lh :: (obs2 ++ q), e.after.st ≠ .idle ∧ e.after.err = false := by
    intro e he
    rcases List.mem_append.mp he with he | he
    · exact hb1 e he
    · rcases List.mem_cons.mp he with rfl | he
      · rw [u4]; exact hcb
      · rcases List.mem_append.mp he with he | he
        · exact v3 e he
        · exact t3 e he
  obtain ⟨_, a, s, b, d, k1, k2, k3, k4, _⟩ := C24_verified_echo pf hpf s0 hi' m hsd x.2.tWake wk _ last rfl run
    (fun e he => (hb e he).1) (by rw [t4]; exact hidle') (by
      intro e he
      rcases List.mem_append.mp he with he | he
      · exact (hb e he).2
      · rw [List.mem_singleton.mp he, t4]; exact herr3)
  obtain ⟨_, _, k⟩ := first_send_unique k1 hnos k2 ⟨m', by rw [u8]; exact hsend⟩ ⟨m, by rw [k3]; simp⟩
  have hech : echoes (obs2 ++ q ++ [last]) = goodBytes (wordsOf (post ++ [y])) := by
    rw [List.append_assoc, echoes_append, v4, t5, wordsOf_append, goodBytes_append]
  rw [← hech, k, ← k4]
  refine ⟨echoes (d ++ [last]), ?_⟩
  rw [← echoes_append]
  congr 1
  simp

/-- **C136** (part; target). Two modems, each with any history, transmit and both take it for a success.  If the bytes each of them heard since its hand-over are what was on the bus (one bus: the beginnings of the
same sequence `bus`), then one of the packets is the beginning of the other.  So if the packets differ in a byte that both have, at least one of the two tells its host that the transmission failed.  Missing: a
packet that is the beginning of the other one is not noticed (`C136_refuted`). -/
theorem C136_collision_noticed_partial (pf pf' : Platform) (hpf : pf.charSigned = false) (hpf' : pf'.charSigned = false) (g g' : Nat → UInt8) (m m' : Message) (bus heard heard' : List UInt8)
    (h : TakenForSent pf g m heard) (h' : TakenForSent pf' g' m' heard') (hb : heard <+: bus) (hb' : heard' <+: bus) : m.bytes <+: m'.bytes ∨ m'.bytes <+: m.bytes :=
  List.prefix_or_prefix_of_prefix ((h.heard hpf).trans hb) ((h'.heard hpf').trans hb')

/-- **C136**, for packets of the same length: both cannot be taken for a success unless they are the same. -/
theorem C136_same_length (pf pf' : Platform) (hpf : pf.charSigned = false) (hpf' : pf'.charSigned = false) (g g' : Nat → UInt8) (m m' : Message) (bus heard heard' : List UInt8)
    (h : TakenForSent pf g m heard) (h' : TakenForSent pf' g' m' heard') (hb : heard <+: bus) (hb' : heard' <+: bus) (hl : m.bytes.length = m'.bytes.length) : m.bytes = m'.bytes := by
  rcases C136_collision_noticed_partial pf pf' hpf hpf' g g' m m' bus heard heard' h h' hb hb' with k | k
  · exact k.eq_of_length hl
  · exact (k.eq_of_length hl.symm).symm

/-! ## The missing case -/

/-- The transmitter is not idle before any of the iterations, nor after the last one, and no line about a failure is given. -/
def busyAll (pf : Platform) (g : Nat → UInt8) (c : Core0) : List (Env1 × Env2) → Bool
  | [] => !c.sm.isIdle
  | e :: es => !c.sm.isIdle && match c.iter pf g e with
    | .ok (c', o) => (txMsgs o.reports).isEmpty && busyAll pf g c' es
    | .ub => false

theorem busyAll_spec {pf : Platform} {g : Nat → UInt8} : ∀ {es : List (Env1 × Env2)} {c : Core0}, busyAll pf g c es = true →
    (∃ c' os, c.run pf g es = .ok (c', os) ∧ ∀ o ∈ os, txMsgs o.reports = []) ∧ ∀ a b ct ot, es = a ++ b → c.run pf g a = .ok (ct, ot) → ct.sm.isIdle = false := by
  intro es
  induction es with
  | nil =>
    intro c h
    refine ⟨⟨c, [], rfl, by simp⟩, ?_⟩
    intro a b ct ot hab hr
    obtain ⟨rfl, rfl⟩ := List.append_eq_nil_iff.mp hab.symm
    cases hr
    simpa [busyAll] using h
  | cons e es ih =>
    intro c h
    rw [busyAll, Bool.and_eq_true] at h
    obtain ⟨h0, h⟩ := h
    cases hi : c.iter pf g e with
    | ub => rw [hi] at h; cases h
    | ok r =>
      obtain ⟨c', o⟩ := r
      rw [hi] at h
      dsimp only at h
      rw [Bool.and_eq_true] at h
      obtain ⟨⟨c2, os, k1, k2⟩, k3⟩ := ih h.2
      refine ⟨⟨c2, o :: os, by rw [Core0.run, hi, Res.ok_bind]; dsimp only; rw [k1]; rfl, ?_⟩, ?_⟩
      · intro o' ho
        rcases List.mem_cons.mp ho with rfl | ho
        · exact List.isEmpty_iff.mp h.1
        · exact k2 o' ho
      · intro a b ct ot hab hr
        cases a with
        | nil => cases hr; simpa using h0
        | cons e' a =>
          simp only [List.cons_append, List.cons.injEq] at hab
          obtain ⟨rfl, hab⟩ := hab
          obtain ⟨c3, o3, os3, j1, j2, rfl⟩ := Core0.run_cons hr
          rw [hi] at j1
          cases j1
          exact k3 a b ct os3 hab j2

/-- Does the run (history, start, up to the hand-over, hand-over, rest, end, one more) meet `TakenForSent` for a packet with the given bytes? -/
def takenCheck (es : List (Env1 × Env2)) (x : Env1 × Env2) (pre : List (Env1 × Env2)) (h : Env1 × Env2) (post : List (Env1 × Env2)) (y z : Env1 × Env2) (bs : List UInt8) : Bool :=
  match (Core0.init (fun _ => 0) .zero 0 0).run .arm (fun _ => 0) es with
  | .ub => false
  | .ok (c0, _) => match c0.iter .arm (fun _ => 0) x with
    | .ub => false
    | .ok (c1, ox) => (match ox.started with | none => false | some m => m.bytes == bs) && busyAll .arm (fun _ => 0) c1 (pre ++ h :: post) &&
      (match c1.run .arm (fun _ => 0) pre with
      | .ub => false
      | .ok (ca, _) => match ca.iter .arm (fun _ => 0) h with
        | .ub => false
        | .ok (cb, oh) => oh.cmds.any (fun | .send _ => true | _ => false) && match cb.run .arm (fun _ => 0) post with
          | .ub => false
          | .ok (c2, _) => match c2.iter .arm (fun _ => 0) y with
            | .ub => false
            | .ok (c3, oy) => (txMsgs oy.reports).isEmpty && c3.sm.isIdle && match c3.iter .arm (fun _ => 0) z with
              | .ub => false
              | .ok (_, oz) => (txMsgs oz.reports).isEmpty) &&
      (wordsOf (x :: (pre ++ h :: post) ++ [y])).all fun w => !w.rxError

theorem takenCheck_spec {es pre post : List (Env1 × Env2)} {x h y z : Env1 × Env2} {bs : List UInt8} (hc : takenCheck es x pre h post y z bs = true) :
    ∃ m, m.bytes = bs ∧ TakenForSent .arm (fun _ => 0) m (goodBytes (wordsOf (post ++ [y]))) := by
  unfold takenCheck at hc
  split at hc
  · cases hc
  rename_i c0 os e0
  split at hc
  · cases hc
  rename_i c1 ox e1
  rw [Bool.and_eq_true, Bool.and_eq_true, Bool.and_eq_true] at hc
  obtain ⟨⟨⟨h1, h2⟩, h3⟩, h4⟩ := hc
  split at h1
  · cases h1
  rename_i m em
  split at h3
  · cases h3
  rename_i ca op ea
  split at h3
  · cases h3
  rename_i cb oh eb
  rw [Bool.and_eq_true] at h3
  obtain ⟨h5, h3⟩ := h3
  split at h3
  · cases h3
  rename_i c2 oq e2
  split at h3
  · cases h3
  rename_i c3 oy e3
  rw [Bool.and_eq_true, Bool.and_eq_true] at h3
  obtain ⟨⟨h6, h7⟩, h3⟩ := h3
  split at h3
  · cases h3
  rename_i c4 oz e4
  obtain ⟨⟨cx, ol, k1, k2⟩, k3⟩ := busyAll_spec h2
  have e5 : ca.run .arm (fun _ => 0) (h :: post) = .ok (c2, oh :: oq) := by
    rw [Core0.run, eb, Res.ok_bind]
    dsimp only
    rw [e2]; rfl
  rw [Core0.run_join e5 ea] at k1
  cases k1
  refine ⟨m, by simpa using h1, es, pre, post, x, h, y, z, c0, c1, ca, cb, c2, c3, c4, os, op, oq, ox, oh, oy, oz, ⟨_, _, _, e0⟩, e1, em, ea, eb, ?_, e2, e3, h7, e4, k3, ?_, ?_, rfl⟩
  · rw [List.any_eq_true] at h5
    obtain ⟨c, hc, hk⟩ := h5
    split at hk
    · exact ⟨_, hc⟩
    · cases hk
  · intro o ho
    rcases List.mem_append.mp ho with ho | ho
    · exact k2 o ho
    · simp only [List.mem_cons, List.not_mem_nil, or_false] at ho
      rcases ho with rfl | rfl
      · exact List.isEmpty_iff.mp h6
      · exact List.isEmpty_iff.mp h3
  · intro w hw
    rw [List.all_eq_true] at h4
    simpa using h4 w hw

/-- The host asks for a packet at 2301 ms; it is handed over at 2334 ms. -/
def askIter (line : List UInt8) : Env1 × Env2 := bothIter 2301000 line none

/-- The bus becomes busy and three bytes are heard, one per millisecond. -/
def threeHeard : List (Env1 × Env2) := [bothIter 2334500 [] (some wBusy), bothIter 2335500 [] (some (wByte 0x40)), bothIter 2336500 [] (some (wByte 0xF0)), bothIter 2337500 [] (some (wByte 0x12))]

/-- The packet `40F0`, and the packet `40F012`, transmitted while `40 F0 12` is heard. -/
theorem short_taken : ∃ m, m.bytes = [0x40, 0xF0] ∧ TakenForSent .arm (fun _ => 0) m [0x40, 0xF0, 0x12] :=
  takenCheck_spec (es := opRun) (x := askIter [52, 48, 70, 48, 10]) (pre := [bothIter 2302000 [] none, bothIter 2303000 [] none]) (h := bothIter 2334000 [] none) (post := threeHeard)
    (y := bothIter 2338500 [] (some wFree)) (z := bothIter 2339500 [] none) (by decide +kernel)

theorem long_taken : ∃ m, m.bytes = [0x40, 0xF0, 0x12] ∧ TakenForSent .arm (fun _ => 0) m [0x40, 0xF0, 0x12] :=
  takenCheck_spec (es := opRun) (x := askIter [52, 48, 70, 48, 49, 50, 10]) (pre := [bothIter 2302000 [] none, bothIter 2303000 [] none]) (h := bothIter 2334000 [] none) (post := threeHeard)
    (y := bothIter 2338500 [] (some wFree)) (z := bothIter 2339500 [] none) (by decide +kernel)

/-- **C136** fails in full: two modems transmit `40F0` and `40F012` at the same time, both hear `40 F0 12`, and neither reports a failure: after the last byte of its own packet a modem does not look at further bytes. -/
theorem C136_refuted : ¬ ∀ (m m' : Message) (heard : List UInt8), TakenForSent .arm (fun _ => 0) m heard → TakenForSent .arm (fun _ => 0) m' heard → m.bytes = m'.bytes := by
  intro h
  obtain ⟨m, h1, h2⟩ := short_taken
  obtain ⟨m', h3, h4⟩ := long_taken
  have := h m m' _ h2 h4
  rw [h1, h3] at this
  cases this

/-- The hypotheses of `C136_collision_noticed_partial` are met by these two runs (and those of `C136_same_length` by the first one, twice). -/
example : ∃ m m' : Message, (m.bytes <+: m'.bytes ∨ m'.bytes <+: m.bytes) ∧ m.bytes.length = 2 ∧ m'.bytes.length = 3 := by
  obtain ⟨m, h1, h2⟩ := short_taken
  obtain ⟨m', h3, h4⟩ := long_taken
  exact ⟨m, m', C136_collision_noticed_partial .arm .arm rfl rfl _ _ m m' _ _ _ h2 h4 (List.prefix_refl _) (List.prefix_refl _), by rw [h1]; rfl, by rw [h3]; rfl⟩

end P1P2
