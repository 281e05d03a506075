import Verif.Props.Drain
import Verif.Props.Collide
import Verif.Spec.Account
/-!
# Property C138: every packet of the host is settled in time
-/
namespace P1P2

theorem run_length {pf : Platform} {g : Nat → UInt8} : ∀ {es : List (Env1 × Env2)} {c c' : Core0} {os : List Out2}, c.run pf g es = .ok (c', os) → os.length = es.length := by
  intro es
  induction es with
  | nil => intro c c' os h; cases h; rfl
  | cons e es ih =>
    intro c c' os h
    obtain ⟨c1, o, os', _, h2, rfl⟩ := Core0.run_cons h
    simp [ih h2]

/-- While a transmission is under way none is started. -/
theorem busy_started {pf : Platform} {g : Nat → UInt8} {c c' : Core0} {e : Env1 × Env2} {o : Out2} (hg : c.Good) (hb : c.sm.st ≠ .idle) (h : c.iter pf g e = .ok (c', o)) : o.started = none := by
  obtain ⟨p, _, hc⟩ := iter_trace hg h
  rcases hc with ⟨_, hi, _⟩ | ⟨_, _, ⟨hst, _⟩ | ⟨_, _, _, hi, _⟩⟩
  · exact absurd hi hb
  · exact hst
  · exact absurd hi hb

/-- A transmission that is over at once has failed. -/
theorem start_fails {pf : Platform} {g : Nat → UInt8} {c c' : Core0} {e : Env1 × Env2} {o : Out2} {m : Message} (hg : c.Good) (h : c.iter pf g e = .ok (c', o)) (hs : o.started = some m)
    (hi : c'.sm.st = .idle) : c'.sm.err = true := by
  obtain ⟨p, hp, hc⟩ := iter_trace hg h
  rcases hc with ⟨_, _, _, hn, _⟩ | ⟨_, _, ⟨hn, _⟩ | ⟨m', _, _, hid, hu⟩⟩
  · rw [hn] at hs; cases hs
  · rw [hn] at hs; cases hs
  have hi' : (txEnd c.sm p).st = .idle := by rw [hp.last.1]; exact hid
  rw [TxSM.wake_idle hi'] at hu
  cases TxSM.updCase hu with
  | early _ hs hc => rw [hs]
  | hw _ _ _ hs hc => rw [hs]
  | stay _ _ _ _ _ _ _ hs hc => rw [hs] at hi; cases hi
  | power _ _ _ _ _ _ hs hc => rw [hs] at hi; cases hi
  | start _ _ hst _ hs hc => cases hst
  | busy _ _ hst _ _ _ hs hc => cases hst
  | rxErr _ _ hst _ hs hc => rcases hst with hst | hst <;> cases hst
  | good _ _ hst _ _ _ _ rx _ hs hc => rcases hst with hst | hst <;> cases hst
  | bad _ _ hst _ _ _ _ rx _ hs hc => rcases hst with hst | hst <;> cases hst
  | finish _ _ hst _ hs hc => cases hst

/-- Lines about failed transmissions are about the last packet that was started. -/
theorem lines_about {pf : Platform} (hpf : pf.charSigned = false) {g : Nat → UInt8} {m : Message} : ∀ {mid es : List (Env1 × Env2)} {x : Env1 × Env2} {c0 c1 c2 : Core0} {os om : List Out2} {ox : Out2},
    LoopRun pf g es c0 os → c0.iter pf g x = .ok (c1, ox) → c1.run pf g mid = .ok (c2, om) → (∀ w ∈ wordsOf (es ++ x :: mid), WordOk w) →
    ((os ++ [ox]).filterMap Out2.started).getLast? = some m → (∀ o ∈ om.dropLast, o.started = none) →
    ∀ o ∈ om, ∀ l ∈ txMsgs o.reports, l.status ≠ 0 ∧ l.bytes <+: m.bytes := by
  intro mid
  induction mid with
  | nil => intro es x c0 c1 c2 os om ox _ _ h; cases h; simp
  | cons e mid ih =>
    intro es x c0 c1 c2 os om ox hr hx h hw hm hn
    obtain ⟨c3, oe, om', h1, h2, rfl⟩ := Core0.run_cons h
    have hr1 := hr.snoc hx
    intro o ho l hl
    rcases List.mem_cons.mp ho with rfl | ho
    · obtain ⟨p, p1, p2, p3⟩ := C98_failure_line pf hpf g es x e c0 c1 c3 os ox o hr hx h1 (fun w k => hw w (by
        rw [show es ++ x :: e :: mid = (es ++ [x]) ++ (e :: mid) by simp, wordsOf_append]
        exact List.mem_append_left _ k)) l hl
      rw [hm] at p1
      cases p1
      refine ⟨?_, p2⟩
      rcases p3 with ⟨p3, _⟩ | ⟨p3, _⟩ | ⟨p3, _⟩ | ⟨p3, _⟩ <;> rw [p3] <;> decide
    · cases om' with
      | nil => cases ho
      | cons o2 om2 =>
        have hn1 : oe.started = none := hn oe (by simp [List.dropLast])
        refine ih hr1 h1 h2 (by simpa using hw) ?_ (fun o' ho' => hn o' ?_) o ho l hl
        · rw [started_snoc, hn1, Option.toList_none, List.append_nil]
          exact hm
        · rw [List.dropLast_cons_of_ne_nil (by simp)]
          exact List.mem_cons_of_mem _ ho'

/-- A run in which the transmitter is busy at the start: it stays busy, or there is a first iteration after which it is idle. -/
theorem idle_again {pf : Platform} {g : Nat → UInt8} : ∀ {es : List (Env1 × Env2)} {c c' : Core0} {os : List Out2}, c.sm.st ≠ .idle → c.run pf g es = .ok (c', os) →
    (∀ pre post cp op, es = pre ++ post → c.run pf g pre = .ok (cp, op) → cp.sm.st ≠ .idle) ∨
    ∃ a y b c2 c3 oa oy ob, es = a ++ y :: b ∧ os = oa ++ oy :: ob ∧ c.run pf g a = .ok (c2, oa) ∧ c2.iter pf g y = .ok (c3, oy) ∧ c3.run pf g b = .ok (c', ob) ∧ c3.sm.st = .idle ∧
      ∀ pre post cp op, a = pre ++ post → c.run pf g pre = .ok (cp, op) → cp.sm.st ≠ .idle := by
  intro es
  induction es with
  | nil =>
    intro c c' os hb _
    left
    intro pre post cp op hp hr
    obtain ⟨rfl, rfl⟩ := List.append_eq_nil_iff.mp hp.symm
    cases hr
    exact hb
  | cons e es ih =>
    intro c c' os hb h
    obtain ⟨c1, o, os', h1, h2, rfl⟩ := Core0.run_cons h
    have step : ∀ a : List (Env1 × Env2), (∀ pre post cp op, a = pre ++ post → c1.run pf g pre = .ok (cp, op) → cp.sm.st ≠ .idle) →
        ∀ pre post cp op, e :: a = pre ++ post → c.run pf g pre = .ok (cp, op) → cp.sm.st ≠ .idle := by
      intro a ha pre post cp op hp hr
      cases pre with
      | nil => cases hr; exact hb
      | cons e' pre =>
        simp only [List.cons_append, List.cons.injEq] at hp
        obtain ⟨rfl, hp⟩ := hp
        obtain ⟨c5, o5, os5, h3, h4, rfl⟩ := Core0.run_cons hr
        rw [h1] at h3
        cases h3
        exact ha pre post cp os5 hp h4
    by_cases hi : c1.sm.st = .idle
    · right
      refine ⟨[], e, es, c, c1, [], o, os', rfl, rfl, rfl, h1, h2, hi, ?_⟩
      intro pre post cp op hp hr
      obtain ⟨rfl, rfl⟩ := List.append_eq_nil_iff.mp hp.symm
      cases hr
      exact hb
    · rcases ih hi h2 with k | ⟨a, y, b, c2, c3, oa, oy, ob, rfl, rfl, k3, k4, k5, k6, k7⟩
      · exact .inl (step _ k)
      · right
        refine ⟨e :: a, y, b, c2, c3, o :: oa, oy, ob, rfl, rfl, ?_, k4, k5, k6, step _ k7⟩
        rw [Core0.run, h1, Res.ok_bind]
        dsimp only
        rw [k3]; rfl

theorem busy_run_started {pf : Platform} {g : Nat → UInt8} : ∀ {es : List (Env1 × Env2)} {c c' : Core0} {os : List Out2}, c.Good → c.run pf g es = .ok (c', os) →
    (∀ pre post cp op, es = pre ++ post → c.run pf g pre = .ok (cp, op) → cp.sm.st ≠ .idle) → ∀ o ∈ os, o.started = none := by
  intro es
  induction es with
  | nil => intro c c' os _ h _; cases h; simp
  | cons e es ih =>
    intro c c' os hg h hb o ho
    obtain ⟨c1, o1, os', h1, h2, rfl⟩ := Core0.run_cons h
    rcases List.mem_cons.mp ho with rfl | ho
    · exact busy_started hg (hb [] _ c [] rfl rfl) h1
    · refine ih (hg.iter h1).1 h2 (fun pre post cp op hp hr => hb (e :: pre) post cp (o1 :: op) (by rw [hp]; rfl) ?_) o ho
      rw [Core0.run, h1, Res.ok_bind]
      dsimp only
      rw [hr]; rfl

theorem LoopClock.paced {d : Nat} : ∀ {es : List (Env1 × Env2)} {t : Nat}, LoopClock d t es → LoopPaced d t es := by
  intro es
  induction es with
  | nil => intro t _; trivial
  | cons e es ih =>
    intro t h
    obtain ⟨p0, p1, p2, p3, p4, p5⟩ := h
    exact ⟨by omega, p2, p3, p4, ih p5⟩

theorem mem_words_left {a b : List (Env1 × Env2)} {w : Word} (h : w ∈ wordsOf a) : w ∈ wordsOf (a ++ b) := by
  rw [wordsOf_append]; exact List.mem_append_left _ h

/-- **C138.** In every history in which each iteration takes at most `d`: iteration `x` starts to transmit the packet `m`, followed by the iterations `mid`, which take longer than the
longest transmission.  Whatever happens on the bus, the packet is settled in time: a failure is reported, or a byte was received with an error, or the packet was handed to the transmit hardware
and heard on the bus completely. -/
theorem C138_settled_in_time (pf : Platform) (hpf : pf.charSigned = false) (g : Nat → UInt8) (es mid : List (Env1 × Env2)) (x : Env1 × Env2) (c0 c1 c2 : Core0) (os om : List Out2) (ox : Out2)
    (m : Message) (d t : Nat) (hr : LoopRun pf g es c0 os) (hx : c0.iter pf g x = .ok (c1, ox)) (hs : ox.started = some m) (hm : c1.run pf g mid = .ok (c2, om))
    (hw : ∀ w ∈ wordsOf (es ++ x :: mid), WordOk w) (hclk : LoopClock d t (x :: mid)) (hl : x.2.tWake + longest d < loopTime x.2.tNew mid) : SettledInTime d m x mid om := by
  have hr1 := hr.snoc hx
  have hg := hr.good
  have hg1 := hr1.good
  obtain ⟨p0, p1, p2, p3, p4, p5⟩ := hclk
  have hlast : ((os ++ [ox]).filterMap Out2.started).getLast? = some m := by
    rw [started_snoc, hs]; simp
  have hsend := (hg.iter hx).2 m hs
  unfold longest at hl
  by_cases hi : c1.sm.st = .idle
  · -- over at once
    have herr := start_fails hg hx hs hi
    cases mid with
    | nil =>
      have hl : x.2.tWake + (200000 + 39 * d) < x.2.tNew := hl
      omega
    | cons z mid =>
      obtain ⟨c3, oz, om', h1, h2, rfl⟩ := Core0.run_cons hm
      obtain ⟨q0, q1, q2, q3, q4, _⟩ := p5
      have hrz : c1.run pf g [z] = .ok (c3, [oz]) := by rw [Core0.run, h1]; rfl
      refine ⟨[z], mid, [oz], om', rfl, rfl, rfl, ?_, by simp, ?_⟩
      · show z.2.tNew ≤ x.2.tWake + (200000 + 39 * d)
        omega
      · have hab := lines_about hpf hr hx hrz (fun w k => hw w (by
          rw [show es ++ x :: z :: mid = (es ++ x :: [z]) ++ mid by simp]
          exact mem_words_left k)) hlast (by simp)
        rcases (C59_failure_reported pf g es c0 c1 c3 os x z ox oz hr hx h1 (fun w k => hw w (by
          rw [show es ++ x :: z :: mid = (es ++ [x]) ++ (z :: mid) by simp]
          exact mem_words_left (by rw [wordsOf_append]; exact List.mem_append_right _ (by simp [wordsOf, k]))))).1 herr with ⟨l, k1, _⟩ | ⟨w, _, k1, k2, _⟩
        · exact .inl ⟨oz, by simp, l, by rw [k1]; simp, hab oz (by simp) l (by rw [k1]; simp)⟩
        · exact .inr (.inl ⟨w, by simp [wordsOf, k1], k2⟩)
  · have hpace : LoopPaced d x.2.tWake (x :: mid) := ⟨p1, p2, p3, by omega, p5.paced⟩
    have h32 : m.length ≤ 32 := hsend.2
    have hmul : (m.length + 5) * d ≤ 37 * d := Nat.mul_le_mul_right _ (by omega)
    rcases idle_again hi hm with hb | ⟨a, y, b, c3, c4, oa, oy, ob, rfl, rfl, k3, k4, k5, k6, k7⟩
    · have := C97_ends pf g es mid x c0 c1 c2 os om ox m d hr hx hs hm hpace (fun pre post cp op h1 h2 => by simpa [TxSM.isIdle] using hb pre post cp op h1 h2)
      have : loopTime x.2.tNew mid ≤ x.2.tWake + 72000 + 4000 * m.length + (m.length + 5) * d := this
      omega
    · have hend := C97_ends pf g es a x c0 c1 c3 os oa ox m d hr hx hs k3 (by
        obtain ⟨u, _⟩ := LoopClock.split (a := a) p5
        exact ⟨p1, p2, p3, by omega, u.paced⟩) (fun pre post cp op h1 h2 => by simpa [TxSM.isIdle] using k7 pre post cp op h1 h2)
      have hend : loopTime x.2.tNew a ≤ x.2.tWake + 72000 + 4000 * m.length + (m.length + 5) * d := hend
      obtain ⟨_, u⟩ := LoopClock.split (a := a) p5
      obtain ⟨q0, q1, q2, q3, q4, q5⟩ := u
      cases b with
      | nil =>
        rw [loopTime_append] at hl
        have hl : x.2.tWake + (200000 + 39 * d) < y.2.tNew := hl
        omega
      | cons z b =>
        obtain ⟨c5, oz, ob', h1, h2, rfl⟩ := Core0.run_cons k5
        obtain ⟨r0, r1, r2, r3, r4, _⟩ := q5
        have hgy : c3.Good := (hg1.run k3).1
        have hb3 : c3.sm.st ≠ .idle := k7 a [] c3 oa (by simp) k3
        have hrun : c1.run pf g (a ++ [y, z]) = .ok (c5, oa ++ [oy, oz]) := by
          refine Core0.run_join ?_ k3
          rw [Core0.run, k4, Res.ok_bind]
          dsimp only
          rw [Core0.run, h1]; rfl
        have hns : ∀ o ∈ (oa ++ [oy, oz]).dropLast, o.started = none := by
          intro o ho
          rw [show oa ++ [oy, oz] = (oa ++ [oy]) ++ [oz] by simp, List.dropLast_concat] at ho
          rcases List.mem_append.mp ho with ho | ho
          · exact busy_run_started hg1 k3 k7 o ho
          · rw [List.mem_singleton.mp ho]; exact busy_started hgy hb3 k4
        refine ⟨a ++ [y, z], b, oa ++ [oy, oz], ob', by simp, by simp, by simp [run_length k3], ?_, hns, ?_⟩
        · rw [loopTime_append]
          show z.2.tNew ≤ x.2.tWake + (200000 + 39 * d)
          omega
        · by_cases hno : ∀ o ∈ oa ++ [oy, oz], txMsgs o.reports = []
          · by_cases hrx : ∀ w ∈ wordsOf (x :: a ++ [y]), w.rxError = false
            · obtain ⟨⟨o, g1, g2⟩, g3⟩ := C88_success_means_echo pf hpf g es a x y z c0 c1 c3 c4 c5 os oa ox oy oz m hr hx hs k3 k4 h1
                (fun pre post cp op h1 h2 => by simpa [TxSM.isIdle] using k7 pre post cp op h1 h2) (by simp [TxSM.isIdle, k6]) hno hrx
              refine .inr (.inr ⟨⟨o, ?_, g2⟩, ?_⟩)
              · rcases List.mem_append.mp g1 with g1 | g1
                · simp [g1]
                · simp [List.mem_singleton.mp g1]
              · rw [show a ++ [y, z] = (a ++ [y]) ++ [z] by simp, wordsOf_append, goodBytes_append]
                obtain ⟨u, v, e⟩ := g3
                exact ⟨u, v ++ goodBytes (wordsOf [z]), by rw [← e]; simp⟩
            · right; left
              simp only [Classical.not_forall] at hrx
              obtain ⟨w, w1, w2⟩ := hrx
              refine ⟨w, ?_, by simpa using w2⟩
              rw [show x :: (a ++ [y, z]) = (x :: a ++ [y]) ++ [z] by simp]
              exact mem_words_left w1
          · left
            simp only [Classical.not_forall] at hno
            obtain ⟨o, o1, o2⟩ := hno
            cases hc : txMsgs o.reports with
            | nil => exact absurd hc o2
            | cons l ls =>
              refine ⟨o, o1, l, by rw [hc]; simp, lines_about hpf hr hx hrun (fun w k => hw w ?_) hlast hns o o1 l (by rw [hc]; simp)⟩
              rw [show es ++ x :: (a ++ y :: z :: b) = (es ++ x :: (a ++ [y, z])) ++ b by simp]
              exact mem_words_left k

theorem LoopClock.mono {d : Nat} : ∀ {es : List (Env1 × Env2)} {t : Nat}, LoopClock d t es → t ≤ loopTime t es := by
  intro es
  induction es with
  | nil => intro t _; exact Nat.le_refl _
  | cons e es ih =>
    intro t h
    obtain ⟨p0, p1, p2, p3, p4, p5⟩ := h
    have := ih p5
    show t ≤ loopTime e.2.tNew es
    omega

/-- The first iterations that take longer than until `B`. -/
theorem time_prefix {d B : Nat} : ∀ {es : List (Env1 × Env2)} {t : Nat}, LoopClock d t es → t ≤ B → B < loopTime t es → ∃ a b, es = a ++ b ∧ B < loopTime t a ∧ loopTime t a ≤ B + d := by
  intro es
  induction es with
  | nil =>
    intro t _ h1 h2
    have h2 : B < t := h2
    omega
  | cons e es ih =>
    intro t h h1 h2
    obtain ⟨p0, p1, p2, p3, p4, p5⟩ := h
    by_cases hb : B < e.2.tNew
    · exact ⟨[e], es, rfl, hb, by show e.2.tNew ≤ B + d; omega⟩
    · obtain ⟨a, b, k1, k2, k3⟩ := ih p5 (by omega) h2
      exact ⟨e :: a, b, by rw [k1]; rfl, k2, k3⟩

/-- **C138.** In every history in which each iteration takes at most `d`, whatever happens on the bus: `n` packets of the host wait after the iterations `es`.  If the time of `n + 2` longest transmissions
(and one iteration) passes, then in a first part of the iterations these packets are the next `n` packets that are started, in the order of the queue, and every packet that is started in this part is settled in time. -/
theorem C138_every_packet_is_settled (pf : Platform) (hpf : pf.charSigned = false) (g : Nat → UInt8) (es mid : List (Env1 × Env2)) (c c' : Core0) (os om : List Out2) (T d : Nat) (hr : LoopRun pf g es c os)
    (hm : c.run pf g mid = .ok (c', om)) (hw : ∀ w ∈ wordsOf (es ++ mid), WordOk w) (hclk : LoopClock d T (es ++ mid))
    (hl : loopTime T es + (c.host.msgs.length + 2) * longest d + d < loopTime T (es ++ mid)) :
    ∃ m1 m2 o1 o2, mid = m1 ++ m2 ∧ om = o1 ++ o2 ∧ o1.length = m1.length ∧ queued g c <+: o1.filterMap Out2.started ∧
      ∀ pre x post opre ox opost m, m1 = pre ++ x :: post → o1 = opre ++ ox :: opost → opre.length = pre.length → ox.started = some m → SettledInTime d m x (post ++ m2) (opost ++ o2) := by
  obtain ⟨k1, k2⟩ := hclk.split
  have hl' := hl
  rw [loopTime_append] at hl'
  rw [Nat.add_mul] at hl'
  obtain ⟨m1, m2, rfl, a2, a3⟩ := time_prefix (B := loopTime T es + (c.host.msgs.length + 1) * longest d) k2 (Nat.le_add_right _ _) (by rw [Nat.add_mul]; omega)
  obtain ⟨cm, o1, o2, b1, b2, rfl⟩ := Core0.run_append hm
  have hlen := run_length b1
  refine ⟨m1, m2, o1, o2, rfl, rfl, hlen, ?_, ?_⟩
  · refine C137_waiting_are_next pf g es m1 c cm os o1 T d hr b1 ?_ (by rw [loopTime_append]; exact a2)
    rw [← List.append_assoc] at hclk
    exact hclk.split.1
  · intro pre x post opre ox opost m e1 e2 e3 e4
    subst e1
    obtain ⟨c0, q1, q2, d1, d2, d3⟩ := Core0.run_append b1
    obtain ⟨c1, q, q3, d4, d5, rfl⟩ := Core0.run_cons d2
    have hsplit := d3.symm.trans e2
    have hq1 := run_length d1
    obtain ⟨rfl, heq⟩ := List.append_inj hsplit (by rw [hq1, e3])
    simp only [List.cons.injEq] at heq
    obtain ⟨rfl, rfl⟩ := heq
    obtain ⟨w0, t0, t1, hrun⟩ := hr
    have hr0 : LoopRun pf g (es ++ pre) c0 (os ++ q1) := ⟨w0, t0, t1, Core0.run_join d1 hrun⟩
    have hclk1 : LoopClock d (loopTime T (es ++ pre)) (x :: (post ++ m2)) := by
      have : es ++ (pre ++ x :: post ++ m2) = (es ++ pre) ++ (x :: (post ++ m2)) := by simp
      rw [this] at hclk
      exact hclk.split.2
    refine C138_settled_in_time pf hpf g (es ++ pre) (post ++ m2) x c0 c1 c' (os ++ q1) (q3 ++ o2) q m d (loopTime T (es ++ pre)) hr0 d4 e4 (Core0.run_join b2 d5) (by simpa using hw) hclk1 ?_
    obtain ⟨p0, p1, p2, p3, p4, p5⟩ := hclk1
    have hmono := p5.split.1.mono
    have e5 : loopTime (loopTime T es) (pre ++ x :: post) = loopTime x.2.tNew post := by rw [loopTime_append]; rfl
    have e6 : loopTime (loopTime T es) (pre ++ x :: post ++ m2) = loopTime x.2.tNew (post ++ m2) := by rw [List.append_assoc, loopTime_append]; rfl
    rw [e5] at a3
    rw [e6] at hl'
    rw [Nat.add_mul] at a3
    omega

/-! ## A case -/

/-- A Boolean form of `WordOk`. -/
theorem words_check {es : List (Env1 × Env2)} (h : (wordsOf es).all (fun w => !(w.rxValid && w.rxError) && !(w.lineBusy && w.lineFree) && !w.dadcError) = true) : ∀ w ∈ wordsOf es, WordOk w := by
  intro w hw
  have := List.all_eq_true.mp h w hw
  simp only [Bool.and_eq_true, Bool.not_eq_true', Bool.and_eq_false_iff] at this
  obtain ⟨⟨h1, h2⟩, h3⟩ := this
  refine ⟨?_, ?_, fun h => by rw [h3] at h; cases h⟩
  · rintro ⟨a, b⟩; rw [a, b] at h1; simp at h1
  · rintro ⟨a, b⟩; rw [a, b] at h2; simp at h2


/-- The bus stays busy; an iteration every 2.1 s. -/
def stuckLong : List (Env1 × Env2) := (List.range 120).map fun k => bothIter (2302000 + 2100000 * (k + 1)) [] none

/-- What the case shows: the packets that wait after `twoAsked`, those started afterwards, and the lines about failed transmissions (status and bytes). -/
def stuckLongSeen : Option (List (List UInt8) × List (List UInt8) × List (Nat × List UInt8)) :=
  match (Core0.init (fun _ => 0) .zero 0 0).run .arm (fun _ => 0) twoAsked with
  | .ok (c, _) => match c.run .arm (fun _ => 0) stuckLong with
    | .ok (_, om) => some ((queued (fun _ => 0) c).map Message.bytes, (om.filterMap Out2.started).map Message.bytes, (om.flatMap fun o => txMsgs o.reports).map fun l => (l.status, l.bytes))
    | .ub => none
  | .ub => none

set_option maxRecDepth 100000 in
theorem stuckLong_seen : stuckLongSeen = some ([[0x40, 0xF1]], [[0x40, 0xF1]], [(1, []), (1, [])]) := by decide +kernel

set_option maxRecDepth 100000 in
/-- The hypotheses of `C138_every_packet_is_settled` are met: one packet waits, the bus is never free, and both packets end with a line that says so. -/
example : ∃ (c c' : Core0) (os om : List Out2), LoopRun .arm (fun _ => 0) twoAsked c os ∧ c.run .arm (fun _ => 0) stuckLong = .ok (c', om) ∧ (∀ w ∈ wordsOf (twoAsked ++ stuckLong), WordOk w) ∧
    LoopClock 2100000 0 (twoAsked ++ stuckLong) ∧ c.host.msgs.length = 1 ∧ loopTime 0 twoAsked + (c.host.msgs.length + 2) * longest 2100000 + 2100000 < loopTime 0 (twoAsked ++ stuckLong) := by
  have h := stuckLong_seen
  unfold stuckLongSeen at h
  split at h
  · rename_i c os e0
    split at h
    · rename_i c' om e1
      simp only [Option.some.injEq, Prod.mk.injEq] at h
      have hr : LoopRun .arm (fun _ => 0) twoAsked c os := ⟨_, _, _, e0⟩
      obtain ⟨q, hq⟩ := hr.good.host
      have hl : c.host.msgs.length = 1 := by
        rw [hq.2.1.len]
        have := h.1
        rw [queued_eq _ hq] at this
        have := congrArg List.length this
        rwa [List.length_map] at this
      exact ⟨c, c', os, om, hr, e1, words_check (by decide +kernel), clockOk_spec (by decide +kernel), hl, by rw [hl]; decide +kernel⟩
    · cases h
  · cases h

/-- The host asks for `40F0`, the packet is sent and heard, and the main loop goes on for more than 2 s, an iteration every 50 ms at least. -/
def sentRun : List (Env1 × Env2) := [bothIter 2302000 [] none, bothIter 2303000 [] none, bothIter 2334000 [] none, bothIter 2334500 [] (some wBusy), bothIter 2335500 [] (some (wByte 0x40)),
  bothIter 2336500 [] (some (wByte 0xF0)), bothIter 2338500 [] (some wFree)] ++ (List.range 50).map fun k => bothIter (2338500 + 50000 * (k + 1)) [] none

/-- A packet is started by the first iteration; no line about a failed transmission is given to the host in the others. -/
def sentSeen : Option (Option (List UInt8) × List (List UInt8)) :=
  match (Core0.init (fun _ => 0) .zero 0 0).run .arm (fun _ => 0) opRun with
  | .ok (c0, _) => match c0.iter .arm (fun _ => 0) (askIter [52, 48, 70, 48, 10]) with
    | .ok (c1, ox) => match c1.run .arm (fun _ => 0) sentRun with
      | .ok (_, om) => some (ox.started.map Message.bytes, (om.flatMap fun o => txMsgs o.reports).map Message.bytes)
      | .ub => none
    | .ub => none
  | .ub => none

set_option maxRecDepth 100000 in
theorem sent_seen : sentSeen = some (some [0x40, 0xF0], []) := by decide +kernel

set_option maxRecDepth 100000 in
/-- The hypotheses of `C138_settled_in_time` are met, and here the packet was sent and heard. -/
example : ∃ (c0 c1 c2 : Core0) (os om : List Out2) (ox : Out2) (m : Message), LoopRun .arm (fun _ => 0) opRun c0 os ∧ c0.iter .arm (fun _ => 0) (askIter [52, 48, 70, 48, 10]) = .ok (c1, ox) ∧
    ox.started = some m ∧ m.bytes = [0x40, 0xF0] ∧ c1.run .arm (fun _ => 0) sentRun = .ok (c2, om) ∧ SettledInTime 50000 m (askIter [52, 48, 70, 48, 10]) sentRun om ∧
    (∃ o ∈ om, HwCmd.send m ∈ o.cmds) ∧ m.bytes <:+: goodBytes (wordsOf sentRun) := by
  have h := sent_seen
  unfold sentSeen at h
  split at h
  · rename_i c0 os e0
    split at h
    · rename_i c1 ox e1
      split at h
      · rename_i c2 om e2
        simp only [Option.some.injEq, Prod.mk.injEq, Option.map_eq_some_iff, List.map_eq_nil_iff] at h
        obtain ⟨⟨m, h1, h2⟩, h3⟩ := h
        have hs : SettledInTime 50000 m (askIter [52, 48, 70, 48, 10]) sentRun om :=
          C138_settled_in_time .arm rfl _ opRun sentRun _ c0 c1 c2 os om ox m 50000 2300000 ⟨_, _, _, e0⟩ e1 h1 e2 (words_check (by decide +kernel)) (clockOk_spec (by decide +kernel)) (by decide +kernel)
        refine ⟨c0, c1, c2, os, om, ox, m, ⟨_, _, _, e0⟩, e1, h1, h2, e2, hs, ?_⟩
        obtain ⟨b, rest, ob, orest, k1, k2, _, _, _, k5⟩ := hs
        rcases k5 with ⟨o, ho, l, hl, _⟩ | ⟨w, hw, hw'⟩ | ⟨⟨o, ho, ho'⟩, k6⟩
        · have : l ∈ om.flatMap fun o => txMsgs o.reports := List.mem_flatMap.mpr ⟨o, by rw [k2]; exact List.mem_append_left _ ho, hl⟩
          rw [h3] at this; cases this
        · have hall : ∀ w ∈ wordsOf (askIter [52, 48, 70, 48, 10] :: sentRun), w.rxError = false := by decide +kernel
          have := hall w (by
            rw [k1, ← List.cons_append]
            exact mem_words_left hw)
          rw [this] at hw'; cases hw'
        · refine ⟨⟨o, by rw [k2]; exact List.mem_append_left _ ho, ho'⟩, ?_⟩
          rw [k1, wordsOf_append, goodBytes_append]
          obtain ⟨u, v, e⟩ := k6
          exact ⟨u, v ++ goodBytes (wordsOf rest), by rw [← e]; simp⟩
      · cases h
    · cases h
  · cases h

end P1P2
