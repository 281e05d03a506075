import Verif.Proofs.RxSide
import Verif.Props.Core0
/-!
# Properties C56, C57: packets and the watchdog of the main loop
-/
namespace P1P2

/-! ## C56 -/

/-- A word of an intact packet. -/
def CleanWord (w : Word) : Prop := w.rxError = false ∧ w.dadcError = false

namespace RxSide

theorem step_quiet (s : RxSide) (e : Env1 × Env2) (hf : e.1.fifoErr = false) (hb : s.bites e.1.tDog1 = false) :
    s.step e = match e.2.word with | none => .ok (s, []) | some w => s.take w e.2.tBusy := by
  unfold step
  have h1 : s.dog e.1.tDog1 e.1.tDog2 = (s, []) := by unfold dog; rw [hb]; rfl
  have h2 : s.flag e.1.fifoErr = (s, []) := by unfold flag; rw [hf]; rfl
  rw [h1]
  dsimp only
  rw [h2]
  cases e.2.word with
  | none => rfl
  | some w => 
    dsimp only
    cases s.take w e.2.tBusy <;> rfl

theorem collect_clean {m m' : Message} {w : Word} (hw : CleanWord w) (hl : m.length < 32) (h : collect m w = .ok m') :
    m'.bytes = m.bytes ++ (resultOf w).map Prod.fst ∧ m'.status = m.status ∧ m'.length = m.length + (resultOf w).length := by
  unfold collect at h
  rw [hw.1, hw.2] at h
  simp only [Bool.false_eq_true, if_false] at h
  unfold resultOf
  rw [hw.1]
  cases hv : w.rxValid with
  | true =>
    rw [hv] at h
    obtain ⟨h1, h2, h3, _⟩ := Message.append_snoc hl h
    simp [h1, h2, h3]
  | false =>
    rw [hv] at h
    simp only [Bool.false_eq_true, if_false, Res.ok.injEq] at h
    subst h
    simp

/-- Readings within 500 ms do not alarm the watchdog. -/
structure Calm (T : Nat) (s : RxSide) : Prop where
  lo : s.busy = true → T ≤ s.since
  hi : s.busy = true → s.since ≤ T + 500

theorem Calm.no_bite {T : Nat} {s : RxSide} (h : Calm T s) {us : Nat} (hT : T + 1000 < 4294967296) (hu : Host.msNow us ≤ T + 500) :
    s.bites us = false := by
  unfold bites
  cases hb : s.busy with
  | false => rfl
  | true =>
    have h1 := h.lo hb
    have h2 := h.hi hb
    simp only [Bool.true_and, decide_eq_false_iff_not]
    rw [Nat.mod_eq_of_lt (by omega)]
    omega

theorem Calm.line {T : Nat} {s : RxSide} (h : Calm T s) (m : Message) (w : Word) {us : Nat} (h1 : T ≤ Host.msNow us) (h2 : Host.msNow us ≤ T + 500) :
    Calm T (line { s with msg := m } w us) := by
  unfold RxSide.line
  split
  · exact ⟨fun hh => (by cases hh), fun hh => (by cases hh)⟩
  · split
    · exact ⟨fun _ => h1, fun _ => h2⟩
    · exact ⟨h.lo, h.hi⟩

theorem line_msg (s : RxSide) (w : Word) (us : Nat) : (line s w us).msg = s.msg := by
  unfold line
  split
  · rfl
  · split <;> rfl

theorem step_word {T : Nat} {s : RxSide} (hc : Calm T s) {e : Env1 × Env2} {es : List (Env1 × Env2)} (hW : Within T (e :: es)) {r : RxSide × List Message}
    (h : s.step e = .ok r) : (e.2.word = none ∧ r = (s, [])) ∨
      ∃ w m, e.2.word = some w ∧ collect s.msg w = .ok m ∧ r.1.msg = (full (ends m w).1).1 ∧ r.2 = (ends m w).2 ++ (full (ends m w).1).2 ∧ Calm T r.1 := by
  rw [step_quiet s e (hW.flag e (by simp)) (hc.no_bite hW.wrap (hW.dog e (by simp)).2)] at h
  cases hw : e.2.word with
  | none =>
    rw [hw] at h
    simp only [Res.ok.injEq] at h
    exact .inl ⟨rfl, h.symm⟩
  | some w =>
    rw [hw] at h
    right
    simp only [take] at h
    rw [Res.bind_eq_ok] at h
    obtain ⟨m, h1, h⟩ := h
    simp only [Res.ok.injEq] at h
    subst h
    refine ⟨w, m, rfl, h1, line_msg _ _ _, rfl, ?_⟩
    exact hc.line _ _ (hW.busy e (by simp)) (hW.late e (by simp))

theorem _root_.P1P2.Within.tail {T : Nat} {e : Env1 × Env2} {es : List (Env1 × Env2)} (h : Within T (e :: es)) : Within T es :=
  ⟨fun x hx => h.flag x (by simp [hx]), fun x hx => h.dog x (by simp [hx]), fun x hx => h.busy x (by simp [hx]), h.wrap,
    fun x hx => h.late x (by simp [hx])⟩

theorem _root_.P1P2.Within.append {T : Nat} {a b : List (Env1 × Env2)} (h : Within T (a ++ b)) : Within T a ∧ Within T b :=
  ⟨⟨fun x hx => h.flag x (by simp [hx]), fun x hx => h.dog x (by simp [hx]), fun x hx => h.busy x (by simp [hx]), h.wrap,
    fun x hx => h.late x (by simp [hx])⟩,
   ⟨fun x hx => h.flag x (by simp [hx]), fun x hx => h.dog x (by simp [hx]), fun x hx => h.busy x (by simp [hx]), h.wrap,
    fun x hx => h.late x (by simp [hx])⟩⟩

theorem run_cons' {s s' : RxSide} {e : Env1 × Env2} {es : List (Env1 × Env2)} {os : List (List Message)}
    (h : s.run (e :: es) = .ok (s', os)) : ∃ r os', s.step e = .ok r ∧ r.1.run es = .ok (s', os') ∧ os = r.2 :: os' := by
  rw [run, Res.bind_eq_ok] at h
  obtain ⟨r, h1, h⟩ := h
  rw [Res.bind_eq_ok] at h
  obtain ⟨⟨s2, os'⟩, h2, h⟩ := h
  simp only [Res.ok.injEq, Prod.mk.injEq] at h
  obtain ⟨rfl, rfl⟩ := h
  exact ⟨r, os', h1, h2, rfl⟩

theorem run_append' {s s' : RxSide} {a b : List (Env1 × Env2)} {os : List (List Message)} (h : s.run (a ++ b) = .ok (s', os)) :
    ∃ s1 o1 o2, s.run a = .ok (s1, o1) ∧ s1.run b = .ok (s', o2) ∧ os = o1 ++ o2 := by
  induction a generalizing s os with
  | nil => exact ⟨s, [], os, rfl, h, rfl⟩
  | cons e a ih =>
    obtain ⟨r, os', h1, h2, rfl⟩ := run_cons' h
    obtain ⟨s1, o1, o2, h3, h4, rfl⟩ := ih h2
    refine ⟨s1, r.2 :: o1, o2, ?_, h4, rfl⟩
    rw [run, h1, Res.ok_bind, h3]; rfl

theorem ends_none (m : Message) (w : Word) (h : w.lineFree = false) : ends m w = (m, []) := by
  unfold ends; rw [h]; rfl

theorem full_not (m : Message) (h : m.length < 32) : full m = (m, []) := by
  unfold full; rw [if_neg (by omega)]

/-- Collecting: no end of packet, at most 31 bytes. -/
theorem run_collect {T : Nat} : ∀ (es : List (Env1 × Env2)) {s s' : RxSide} {os : List (List Message)}, Calm T s → Within T es →
    s.run es = .ok (s', os) → (∀ w ∈ wordsOf es, CleanWord w ∧ w.lineFree = false) →
    s.msg.length + ((wordsOf es).flatMap resultOf).length < 32 →
    Calm T s' ∧ os.flatten = [] ∧ s'.msg.status = s.msg.status ∧ s'.msg.bytes = s.msg.bytes ++ ((wordsOf es).flatMap resultOf).map Prod.fst ∧
      s'.msg.length = s.msg.length + ((wordsOf es).flatMap resultOf).length := by
  intro es
  induction es with
  | nil =>
    intro s s' os hc _ h _ _
    simp only [run, Res.ok.injEq, Prod.mk.injEq] at h
    obtain ⟨rfl, rfl⟩ := h
    exact ⟨hc, rfl, rfl, by simp [wordsOf], by simp [wordsOf]⟩
  | cons e es ih =>
    intro s s' os hc hW h hw hl
    obtain ⟨r, os', h1, h2, rfl⟩ := run_cons' h
    rcases step_word hc hW h1 with ⟨hn, rfl⟩ | ⟨w, m, hs, h3, h4, h5, h6⟩
    · have e0 : wordsOf (e :: es) = wordsOf es := by simp [wordsOf, hn]
      rw [e0] at hw hl ⊢
      have := ih hc hW.tail h2 hw hl
      simpa using this
    · have e0 : wordsOf (e :: es) = w :: wordsOf es := by simp [wordsOf, hs]
      rw [e0] at hw hl ⊢
      rw [List.flatMap_cons, List.length_append] at hl
      obtain ⟨g1, g2, g3⟩ := collect_clean (hw w (by simp)).1 (by omega) h3
      rw [ends_none m w (hw w (by simp)).2] at h4 h5
      dsimp only at h4 h5
      rw [full_not m (by omega)] at h4 h5
      obtain ⟨k1, k2, k3, k4, k5⟩ := ih h6 hW.tail h2 (fun x hx => hw x (by simp [hx])) (by rw [h4]; dsimp only; omega)
      rw [h4] at k3 k4 k5
      dsimp only at k3 k4 k5
      refine ⟨k1, by rw [List.flatten_cons, h5, k2]; rfl, by rw [k3, g2], ?_, ?_⟩
      · rw [k4, g1, List.flatMap_cons, List.map_append, List.append_assoc]
      · rw [k5, g3, List.flatMap_cons, List.length_append]; omega

theorem run_idle {T : Nat} (es : List (Env1 × Env2)) {s s' : RxSide} {os : List (List Message)} (hc : Calm T s) (hW : Within T es)
    (h : s.run es = .ok (s', os)) (hn : ∀ e ∈ es, e.2.word = none) : s' = s ∧ os.flatten = [] := by
  induction es generalizing s os with
  | nil =>
    simp only [run, Res.ok.injEq, Prod.mk.injEq] at h
    obtain ⟨rfl, rfl⟩ := h
    exact ⟨rfl, rfl⟩
  | cons e es ih =>
    obtain ⟨r, os', h1, h2, rfl⟩ := run_cons' h
    rcases step_word hc hW h1 with ⟨_, rfl⟩ | ⟨w, m, hs, _⟩
    · obtain ⟨rfl, h3⟩ := ih hc hW.tail h2 (fun x hx => hn x (by simp [hx]))
      exact ⟨rfl, by simpa using h3⟩
    · rw [hn e (by simp)] at hs; cases hs

/-- Exactly one word in the history. -/
theorem run_one {T : Nat} {es : List (Env1 × Env2)} {s s' : RxSide} {os : List (List Message)} (hc : Calm T s) (hW : Within T es)
    (h : s.run es = .ok (s', os)) {w : Word} (hw : wordsOf es = [w]) :
    ∃ m, collect s.msg w = .ok m ∧ s'.msg = (full (ends m w).1).1 ∧ os.flatten = (ends m w).2 ++ (full (ends m w).1).2 ∧ Calm T s' := by
  obtain ⟨a, e, b, rfl, h1, h2, h3⟩ := List.filterMap_eq_cons_iff.mp hw
  obtain ⟨s1, o1, o2, r1, r2, rfl⟩ := run_append' h
  obtain ⟨wa, wb⟩ := Within.append hW
  obtain ⟨rfl, k1⟩ := run_idle a hc wa r1 h1
  obtain ⟨r, o3, r3, r4, rfl⟩ := run_cons' r2
  rcases step_word hc wb r3 with ⟨hn, _⟩ | ⟨w', m, hs, g1, g2, g3, g4⟩
  · rw [h2] at hn; cases hn
  · rw [h2] at hs; cases hs
    obtain ⟨rfl, k2⟩ := run_idle b g4 wb.tail r4 (List.filterMap_eq_nil_iff.mp h3)
    exact ⟨m, g1, g2, by rw [List.flatten_append, List.flatten_cons, k1, k2, g3]; simp, g4⟩

end RxSide

theorem calm_of {T : Nat} {c : Core0} (h : c.lineBusy = true → T ≤ c.busySince ∧ c.busySince ≤ T + 500) : RxSide.Calm T c.rxSide :=
  ⟨fun hb => (h hb).1, fun hb => (h hb).2⟩

theorem busLines_eq (os : List Out2) : busLines os = (os.map fun o => rxMsgs o.reports).flatten := by
  unfold busLines; rw [List.flatMap_def]

/-- **C56, up to 31 bytes.** Start without collected bytes; then come words without errors that carry the bytes `bs`, at most 31, in any number of iterations; the
last word says that the line is free.  If the inter-core FIFO does not overflow and all this takes at most 500 ms, the host is given exactly one
message about the bus: the bytes with status 0; nothing remains collected. -/
theorem C56_one_line_partial (pf : Platform) (g : Nat → UInt8) (c c' : Core0) (es : List (Env1 × Env2)) (os : List Out2) (T : Nat)
    (ws : List Word) (w : Word) (bs : List UInt8)
    (h : c.run pf g es = .ok (c', os)) (h0 : c.rxMsg.length = 0 ∧ c.rxMsg.status = 0)
    (hT : Within T es) (hb : c.lineBusy = true → T ≤ c.busySince ∧ c.busySince ≤ T + 500)
    (hw : wordsOf es = ws ++ [w]) (hclean : ∀ x ∈ ws ++ [w], x.rxError = false ∧ x.dadcError = false)
    (hbusy : ∀ x ∈ ws, x.lineFree = false) (hfree : w.lineFree = true)
    (hbs : ((ws ++ [w]).flatMap resultOf).map Prod.fst = bs) (hl : 1 ≤ bs.length ∧ bs.length ≤ 31) :
    ∃ m, busLines os = [m] ∧ m.status = 0 ∧ m.bytes = bs ∧ c'.rxMsg.length = 0 ∧ c'.rxMsg.status = 0 := by
  have hr := run_rxSide h
  obtain ⟨e1, e2, rfl, hw1, hw2⟩ := List.filterMap_eq_append_iff.mp hw
  obtain ⟨s1, o1, o2, r1, r2, ho⟩ := RxSide.run_append' hr
  obtain ⟨wa, wb⟩ := Within.append hT
  have hlen : ((ws ++ [w]).flatMap resultOf).length = bs.length := by rw [← hbs, List.length_map]
  rw [List.flatMap_append, List.length_append] at hlen
  have e0 : wordsOf e1 = ws := hw1
  have hc0 : c.rxSide.msg.length = 0 := h0.1
  obtain ⟨k1, k2, k3, k4, k5⟩ := RxSide.run_collect e1 (calm_of hb) wa r1
    (by rw [e0]; exact fun x hx => ⟨hclean x (by simp [hx]), hbusy x hx⟩) (by rw [e0]; omega)
  rw [e0] at k4 k5
  obtain ⟨m, g1, g2, g3, hcalm⟩ := RxSide.run_one k1 wb r2 hw2
  have hb0 : c.rxSide.msg.bytes = [] := by unfold Message.bytes; rw [hc0]; rfl
  have e5 : ([w].flatMap resultOf) = resultOf w := by simp
  rw [e5] at hlen
  obtain ⟨n1, n2, n3⟩ := RxSide.collect_clean (hclean w (by simp)) (by omega) g1
  have hm : m.bytes = bs := by
    rw [n1, k4, hb0, ← hbs, List.flatMap_append, List.map_append, e5]; rfl
  have hml : m.length = bs.length := by rw [← hm, Message.bytes_length]
  have he : RxSide.ends m w = (m.clear, [m]) := by
    unfold RxSide.ends; rw [if_pos]; simp [hfree]; left; omega
  rw [he] at g2 g3
  have hfl : RxSide.full m.clear = (m.clear, []) := RxSide.full_not _ (by show 0 < 32; omega)
  dsimp only at g2 g3
  rw [hfl] at g2 g3
  have hst : m.status = 0 := by rw [n2, k3]; exact h0.2
  refine ⟨m, ?_, hst, hm, ?_, ?_⟩
  · rw [busLines_eq, ho, List.flatten_append, k2, g3]; rfl
  · show c'.rxSide.msg.length = 0; rw [g2]; rfl
  · show c'.rxSide.msg.status = 0; rw [g2]; rfl

/-- **C56 fails at exactly 32 bytes**: the same situation with a packet of 32 bytes, one per word; the host is given one message with all
bytes but the overflow status. -/
theorem C56_refuted (pf : Platform) (g : Nat → UInt8) (c c' : Core0) (es : List (Env1 × Env2)) (os : List Out2) (T : Nat) (bs : List UInt8)
    (h : c.run pf g es = .ok (c', os)) (h0 : c.rxMsg.length = 0 ∧ c.rxMsg.status = 0)
    (hT : Within T es) (hb : c.lineBusy = true → T ≤ c.busySince ∧ c.busySince ≤ T + 500)
    (hw : wordsOf es = bs.map wByte ++ [wFree]) (hl : bs.length = 32) :
    ∃ m, busLines os = [m] ∧ m.status = Message.errOverflow ∧ m.bytes = bs := by
  have hr := run_rxSide h
  have hne : bs ≠ [] := by intro hh; rw [hh] at hl; cases hl
  obtain ⟨as, b, rfl⟩ : ∃ as b, bs = as ++ [b] := ⟨bs.dropLast, bs.getLast hne, (List.dropLast_concat_getLast hne).symm⟩
  have hl' : as.length = 31 := by simp at hl; omega
  rw [List.map_append, List.map_cons, List.map_nil, List.append_assoc] at hw
  obtain ⟨e1, e23, rfl, hw1, hw23⟩ := List.filterMap_eq_append_iff.mp hw
  obtain ⟨e2, e3, rfl, hw2, hw3⟩ := List.filterMap_eq_append_iff.mp hw23
  obtain ⟨s1, o1, o23, r1, r23, ho⟩ := RxSide.run_append' hr
  obtain ⟨s2, o2, o3, r2, r3, rfl⟩ := RxSide.run_append' r23
  obtain ⟨wa, wb⟩ := Within.append hT
  obtain ⟨wb, wc⟩ := Within.append wb
  have e0 : wordsOf e1 = as.map wByte := hw1
  have hres : ∀ l : List UInt8, (l.map wByte).flatMap resultOf = l.map fun b => (b, false) := by
    intro l
    induction l with
    | nil => rfl
    | cons x l ih => rw [List.map_cons, List.flatMap_cons, ih]; rfl
  have hc0 : c.rxSide.msg.length = 0 := h0.1
  obtain ⟨k1, k2, k3, k4, k5⟩ := RxSide.run_collect e1 (calm_of hb) wa r1
    (by rw [e0]; intro x hx; obtain ⟨b, -, rfl⟩ := List.mem_map.mp hx; exact ⟨⟨rfl, rfl⟩, rfl⟩) (by rw [e0, hres]; simp; omega)
  rw [e0, hres] at k4 k5
  simp only [List.length_map, List.map_map] at k4 k5
  have e4 : (Prod.fst ∘ fun b : UInt8 => (b, false)) = id := rfl
  rw [e4, List.map_id] at k4
  have hb0 : c.rxSide.msg.bytes = [] := by unfold Message.bytes; rw [hc0]; rfl
  obtain ⟨m, g1, g2, g3, hcalm⟩ := RxSide.run_one k1 wb r2 hw2
  obtain ⟨n1, n2, n3⟩ := RxSide.collect_clean (w := wByte b) ⟨rfl, rfl⟩ (by omega) g1
  have n4 : m.bytes = as ++ [b] := by rw [n1, k4, hb0]; rfl
  have n5 : m.length = 32 := by rw [n3, k5]; show c.rxSide.msg.length + as.length + 1 = 32; omega
  rw [RxSide.ends_none m _ rfl] at g2 g3
  have hfull : RxSide.full m = (m.clear, [{ m with status := Message.errOverflow }]) := by unfold RxSide.full; rw [if_pos n5]
  dsimp only at g2 g3
  rw [hfull] at g2 g3
  obtain ⟨m2, j1, j2, j3, _⟩ := RxSide.run_one hcalm wc r3 hw3
  rw [g2] at j1
  have : m2 = m.clear := by
    simp only [RxSide.collect, wFree, Word.zero, Bool.false_eq_true, if_false, Res.ok.injEq] at j1
    exact j1.symm
  subst this
  have he : RxSide.ends m.clear wFree = (m.clear, []) := by
    unfold RxSide.ends; rw [if_neg]; simp [Message.clear]
  rw [he] at j3
  dsimp only at j3
  rw [RxSide.full_not m.clear (by show 0 < 32; omega)] at j3
  refine ⟨{ m with status := Message.errOverflow }, ?_, rfl, n4⟩
  rw [busLines_eq, ho, List.flatten_append, List.flatten_append, k2, g3, j3]; rfl

/-- One iteration with all clock readings equal to `t` (microseconds). -/
def calmIter (t : Nat) (w : Option Word) : Env1 × Env2 := (env1 t [], env2 t w)

/-- Status and bytes of the messages about the bus in a run from the start. -/
def busSeen (es : List (Env1 × Env2)) : Option (List (Nat × List UInt8)) :=
  match (Core0.init (fun _ => 0) .zero 0 0).run .arm (fun _ => 0) es with
  | .ok (_, os) => some ((busLines os).map fun m => (m.status, m.bytes))
  | .ub => none

/-- The hypotheses of C56 are met by a packet of 31 bytes ... -/
example : Within 0 ((List.replicate 31 7).map (fun b => calmIter 400000 (some (wByte b))) ++ [calmIter 400000 none, calmIter 400000 (some wFree)]) ∧
    busSeen ((List.replicate 31 7).map (fun b => calmIter 400000 (some (wByte b))) ++ [calmIter 400000 none, calmIter 400000 (some wFree)]) =
      some [(0, List.replicate 31 7)] := by
  refine ⟨⟨by decide, by decide, by decide, by decide, by decide⟩, by decide +kernel⟩

/-- ... and those of its refutation by one of 32. -/
example : Within 0 ((List.replicate 32 7).map (fun b => calmIter 400000 (some (wByte b))) ++ [calmIter 400000 (some wFree)]) ∧
    busSeen ((List.replicate 32 7).map (fun b => calmIter 400000 (some (wByte b))) ++ [calmIter 400000 (some wFree)]) =
      some [(2, List.replicate 32 7)] := by
  refine ⟨⟨by decide, by decide, by decide, by decide, by decide⟩, by decide +kernel⟩

/-! ## C57 -/

/-- The clock readings of an iteration are below 2^32 - 500 milliseconds. -/
def EarlyEnv (e : Env1 × Env2) : Prop :=
  e.1.tDog1 < 4294966796000 ∧ e.1.tDog2 < 4294966796000 ∧ e.2.tBusy < 4294966796000

theorem msNow_of_lt {us : Nat} (h : us < 4294966796000) : Host.msNow us = us / 1000 := by
  unfold Host.msNow; omega

theorem msNow_lt {us : Nat} (h : us < 4294966796000) : us / 1000 + 500 < 4294967296 := by omega

/-- The watchdog variables as in the specification; the collected message has no status 4. -/
def RxSide.Dog (s : RxSide) (since : Option Nat) : Prop :=
  s.msg.status ≠ 4 ∧ (s.busy = true ↔ since.isSome = true) ∧ ∀ t, since = some t → s.since = t ∧ t + 500 < 4294967296

theorem collect_status {m m' : Message} {w : Word} (h : RxSide.collect m w = .ok m') (h4 : m.status ≠ 4) : m'.status ≠ 4 := by
  unfold RxSide.collect at h
  have key : ∀ (a a' : Message) (b : UInt8), a.append b = .ok a' → a'.status = a.status := by
    intro a a' b h
    unfold Message.append at h
    split at h
    · rw [Res.bind_eq_ok] at h
      obtain ⟨_, _, h⟩ := h
      simp only [Res.ok.injEq] at h
      subst h; rfl
    · simp only [Res.ok.injEq] at h
      subst h; rfl
  split at h
  · simp only [Res.ok.injEq] at h
    subst h; show (2 : Nat) ≠ 4; decide
  · split at h
    · rw [key _ _ _ h]; show (3 : Nat) ≠ 4; decide
    · split at h
      · rw [key _ _ _ h]; exact h4
      · simp only [Res.ok.injEq] at h
        subst h; exact h4

/-- After the first part: the watchdog told or not. -/
theorem dog_step {s : RxSide} {since : Option Nat} (h : s.Dog since) {u1 u2 : Nat} (h1 : u1 < 4294966796000) (h2 : u2 < 4294966796000) (err : Bool) :
    ∃ told : Bool, (told = true ↔ ∃ t, since = some t ∧ t + 500 < u1 / 1000) ∧
      (((s.dog u1 u2).2 ++ ((s.dog u1 u2).1.flag err).2).any fun m => m.status == 4) = told ∧
      ((s.dog u1 u2).1.flag err).1.Dog (if told then some (u2 / 1000) else since) := by
  obtain ⟨h3, h4, h5⟩ := h
  have hflag : ∀ (s : RxSide) (since : Option Nat), s.Dog since → (((s.flag err).2).any fun m => m.status == 4) = false ∧ (s.flag err).1.Dog since := by
    intro s since hs
    unfold RxSide.flag
    split
    · exact ⟨rfl, by show (0 : Nat) ≠ 4; decide, hs.2⟩
    · exact ⟨rfl, hs⟩
  have hb : s.bites u1 = true ↔ ∃ t, since = some t ∧ t + 500 < u1 / 1000 := by
    unfold RxSide.bites
    rw [msNow_of_lt h1, Bool.and_eq_true, decide_eq_true_eq, h4]
    constructor
    · rintro ⟨ha, hb⟩
      obtain ⟨t, rfl⟩ := Option.isSome_iff_exists.mp ha
      obtain ⟨h6, h7⟩ := h5 t rfl
      rw [h6, Nat.mod_eq_of_lt h7] at hb
      exact ⟨t, rfl, hb⟩
    · rintro ⟨t, rfl, hb⟩
      obtain ⟨h6, h7⟩ := h5 t rfl
      rw [h6, Nat.mod_eq_of_lt h7]
      exact ⟨rfl, hb⟩
  refine ⟨s.bites u1, hb, ?_⟩
  cases hc : s.bites u1 with
  | true =>
    have hd : s.dog u1 u2 = ({ s with since := Host.msNow u2, msg := s.msg.clear }, [{ s.msg with status := Message.errNoFraming }]) := by
      unfold RxSide.dog; rw [hc]; rfl
    rw [hd]
    have hs : ({ s with since := Host.msNow u2, msg := s.msg.clear } : RxSide).Dog (some (u2 / 1000)) := by
      refine ⟨by show (0 : Nat) ≠ 4; decide, ?_, ?_⟩
      · have : s.busy = true := by unfold RxSide.bites at hc; simp at hc; exact hc.1
        simp [this]
      · intro t ht
        simp only [Option.some.injEq] at ht
        subst ht
        exact ⟨msNow_of_lt h2, msNow_lt h2⟩
    exact ⟨by simp [Message.errNoFraming], (hflag _ _ hs).2⟩
  | false =>
    have hd : s.dog u1 u2 = (s, []) := by unfold RxSide.dog; rw [hc]; rfl
    rw [hd]
    exact ⟨(hflag s since ⟨h3, h4, h5⟩).1, (hflag s since ⟨h3, h4, h5⟩).2⟩

/-- A word does not tell that the bus is busy for too long, and keeps the watchdog variables as specified. -/
theorem dog_take {s : RxSide} {since : Option Nat} (h : s.Dog since) {w : Word} (hw : WordOk w) {us : Nat} (hu : us < 4294966796000)
    {r : RxSide × List Message} (ht : s.take w us = .ok r) : (r.2.any fun m => m.status == 4) = false ∧
      r.1.Dog (if w.lineFree then none else if w.lineBusy then some (since.getD (us / 1000)) else since) := by
  rw [RxSide.take, Res.bind_eq_ok] at ht
  obtain ⟨m, h1, ht⟩ := ht
  simp only [Res.ok.injEq] at ht
  subst ht
  obtain ⟨h2, h3, h4⟩ := h
  have hm := collect_status h1 h2
  have he : (((RxSide.ends m w).2).any fun m => m.status == 4) = false ∧ (RxSide.ends m w).1.status ≠ 4 := by
    unfold RxSide.ends
    split
    · exact ⟨by simp [hm], by show (0 : Nat) ≠ 4; decide⟩
    · exact ⟨rfl, hm⟩
  have hf : ∀ m : Message, m.status ≠ 4 → (((RxSide.full m).2).any fun m => m.status == 4) = false ∧ (RxSide.full m).1.status ≠ 4 := by
    intro m hm
    unfold RxSide.full
    split
    · exact ⟨rfl, by show (0 : Nat) ≠ 4; decide⟩
    · exact ⟨rfl, hm⟩
  obtain ⟨f1, f2⟩ := hf _ he.2
  refine ⟨by rw [List.any_append, he.1, f1]; rfl, ?_⟩
  unfold RxSide.line
  dsimp only
  cases hfree : w.lineFree with
  | true =>
    have hnb : w.lineBusy = false := by
      cases hb : w.lineBusy with
      | false => rfl
      | true => exact absurd ⟨hb, hfree⟩ hw.2.1
    rw [hnb]
    simp only [if_true, Bool.true_and, Bool.false_and, Bool.false_eq_true, if_false]
    cases hb : s.busy with
    | true => exact ⟨f2, by simp, fun t ht => by cases ht⟩
    | false => exact ⟨f2, by simp [hb], fun t ht => by cases ht⟩
  | false =>
    simp only [Bool.false_and, Bool.false_eq_true, if_false]
    cases hbusy : w.lineBusy with
    | true =>
      simp only [if_true, Bool.true_and]
      cases hs : since with
      | some t =>
        have hb : s.busy = true := h3.mpr (by rw [hs]; rfl)
        rw [hb]
        exact ⟨f2, by simp [hb], by rw [hs] at h4; exact h4⟩
      | none =>
        have hb : s.busy = false := by
          cases hb : s.busy with
          | false => rfl
          | true => have := h3.mp hb; rw [hs] at this; cases this
        rw [hb]
        refine ⟨f2, by simp, ?_⟩
        intro t ht
        simp only [Option.some.injEq] at ht
        subst ht
        exact ⟨msNow_of_lt hu, msNow_lt hu⟩
    | false =>
      simp only [Bool.false_and, Bool.false_eq_true, if_false]
      exact ⟨f2, h3, h4⟩

theorem dog_run (pf : Platform) (g : Nat → UInt8) : ∀ (es : List (Env1 × Env2)) (c c' : Core0) (os : List Out2) (since : Option Nat), c.rxSide.Dog since →
    c.run pf g es = .ok (c', os) → (∀ e ∈ es, EarlyEnv e) → (∀ w ∈ wordsOf es, WordOk w) → WatchdogOk since es os := by
  intro es
  induction es with
  | nil =>
    intro c c' os since _ h _ _
    simp only [Core0.run, Res.ok.injEq, Prod.mk.injEq] at h
    rw [← h.2]
    trivial
  | cons e es ih =>
    intro c c' os since hd h he hw
    obtain ⟨c1, o, os', h1, h2, rfl⟩ := Core0.run_cons h
    have h3 := iter_rxSide h1
    obtain ⟨e1, e2, e3⟩ := he e (by simp)
    obtain ⟨told, t1, t2, t3⟩ := dog_step hd e1 e2 e.1.fifoErr
    unfold RxSide.step at h3
    dsimp only at h3
    have key : tellsBusy o = told ∧ c1.rxSide.Dog (busyNext since e told) := by
      cases hwd : e.2.word with
      | none =>
        rw [hwd] at h3
        simp only [Res.ok.injEq, Prod.mk.injEq] at h3
        obtain ⟨h4, h5⟩ := h3
        unfold tellsBusy
        rw [← h5, t2, ← h4]
        refine ⟨rfl, ?_⟩
        unfold busyNext
        rw [hwd]
        exact t3
      | some w =>
        rw [hwd] at h3
        dsimp only at h3
        rw [Res.bind_eq_ok] at h3
        obtain ⟨r, h4, h5⟩ := h3
        simp only [Res.ok.injEq, Prod.mk.injEq] at h5
        obtain ⟨h5, h6⟩ := h5
        obtain ⟨k1, k2⟩ := dog_take t3 (hw w (by simp [wordsOf, hwd])) e3 h4
        unfold tellsBusy
        rw [← h6, List.any_append, t2, k1, ← h5]
        refine ⟨by simp, ?_⟩
        unfold busyNext
        rw [hwd]
        exact k2
    refine ⟨by rw [key.1]; exact t1, ?_⟩
    rw [key.1]
    refine ih c1 c' os' _ key.2 h2 (fun x hx => he x (by simp [hx])) (fun w hw' => hw w ?_)
    have : wordsOf (e :: es) = e.2.word.toList ++ wordsOf es := by
      unfold wordsOf
      cases hwd : e.2.word <;> simp [hwd]
    rw [this]
    exact List.mem_append_right _ hw'

/-- **C57, before the millisecond counter wraps around** (and 500 ms earlier, up to 49.7 days of uptime): in every history of iterations, the host is told in an
iteration that the bus is busy for too long exactly when the bus is busy and more than 500 ms have passed since it became busy (or since the start, or
since the host was told before). -/
theorem C57_watchdog_partial (pf : Platform) (g g0 : Nat → UInt8) (w0 : Word) (t0 t1 : Nat) (c' : Core0) (es : List (Env1 × Env2)) (os : List Out2)
    (h : (Core0.init g0 w0 t0 t1).run pf g es = .ok (c', os)) (h1 : t1 < 4294966796000) (he : ∀ e ∈ es, EarlyEnv e)
    (hw : ∀ w ∈ wordsOf es, WordOk w) : WatchdogOk (some (t1 / 1000)) es os := by
  refine dog_run pf g es _ c' os _ ⟨by show (0 : Nat) ≠ 4; decide, by simp [Core0.rxSide, Core0.init], ?_⟩ h he hw
  intro t ht
  simp only [Option.some.injEq] at ht
  subst ht
  exact ⟨msNow_of_lt h1, msNow_lt h1⟩

/-- Which iterations of a run from the start tell the host that the bus is busy for too long. -/
def busyTold (es : List (Env1 × Env2)) : Option (List Bool) :=
  match (Core0.init (fun _ => 0) .zero 0 0).run .arm (fun _ => 0) es with
  | .ok (_, os) => some (os.map tellsBusy)
  | .ub => none

/-- The hypotheses of C57 are met and the host is told after 501 ms, not after 500 ms. -/
example : (∀ e ∈ [calmIter 0 (some wFree), calmIter 1000000 (some wBusy), calmIter 1500000 none, calmIter 1501000 none, calmIter 1502000 none],
      EarlyEnv e) ∧
    busyTold [calmIter 0 (some wFree), calmIter 1000000 (some wBusy), calmIter 1500000 none, calmIter 1501000 none, calmIter 1502000 none] =
      some [false, false, false, true, false] := by
  refine ⟨?_, by decide +kernel⟩
  unfold EarlyEnv
  decide

/-- **C57 fails near the wrap-around of the millisecond counter**: the bus becomes busy 100 ms before; the host is told 1 ms later. -/
theorem C57_refuted_early :
    busyTold [calmIter 0 (some wFree), calmIter (4294967196 * 1000) (some wBusy), calmIter (4294967197 * 1000) none] =
      some [false, false, true] := by decide +kernel

/-- **C57 fails near the wrap-around of the millisecond counter**: the bus becomes busy 600 ms before; the host is not told 700 ms later, nor after 1000 s. -/
theorem C57_refuted_late :
    busyTold [calmIter 0 (some wFree), calmIter (4294966696 * 1000) (some wBusy), calmIter (4294967396 * 1000) none,
      calmIter (4295966696 * 1000) none] = some [false, false, false, false] := by decide +kernel

end P1P2
