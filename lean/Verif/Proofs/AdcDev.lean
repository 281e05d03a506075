import Verif.Proofs.AdcPipe
/-!
# The ADC with its DMA channels: invariants, and the run of the receive side as a run of the model behind the DMA
-/
namespace P1P2
open Pio

theorem AdcDev.hw_adc (d : AdcDev) (e : HwEv) : (d.hw e).adc = (d.stores e).foldl Adc.write d.adc := by
  cases e with
  | convert b => unfold AdcDev.hw; dsimp only; split <;> rfl
  | cycle m1 m2 =>
    simp only [AdcDev.hw, AdcDev.stores]
    cases d.moved2 m2 <;> rfl

theorem AdcDev.hws_cons (d : AdcDev) (e : HwEv) (es : List HwEv) : d.hws (e :: es) = (d.hw e).hws es := rfl

theorem AdcDev.hws_adc : ∀ (es : List HwEv) (d : AdcDev), (d.hws es).adc = (d.stored es).foldl Adc.write d.adc := by
  intro es
  induction es with
  | nil => intro d; rfl
  | cons e es ih => intro d; rw [AdcDev.hws_cons, ih, AdcDev.hw_adc, AdcDev.stored, List.foldl_append]

/-- The FIFOs of the state machine have four entries. -/
def Room (s : Pio.State) : Prop := s.tx.length ≤ 4 ∧ s.rx.length ≤ 4

theorem Room.cycle {s : Pio.State} (h : Room s) (e : Pio.Env) : Room (Pio.cycle twosComplement s e) := by
  obtain ⟨h1, h2⟩ := h
  have t : (enqueue twosComplement s.tx e).length ≤ 4 := by
    have hd : twosComplement.txDepth = 4 := rfl
    unfold enqueue
    rw [hd]
    cases e.put with
    | none => exact h1
    | some w => dsimp only; split <;> simp <;> omega
  have r : (dequeue s.rx e).length ≤ 4 := by
    unfold dequeue
    split
    · simp only [List.length_tail]; omega
    · exact h2
  have hr : twosComplement.rxDepth = 4 := rfl
  unfold Pio.cycle
  rw [hr]
  dsimp only
  generalize enqueue twosComplement s.tx e = tx at *
  generalize dequeue s.rx e = rx at *
  split
  · exact ⟨t, r⟩
  · split
    · cases tx with
      | nil => exact ⟨t, r⟩
      | cons w q => exact ⟨by rw [List.length_cons] at t; show q.length ≤ 4; omega, r⟩
    · split
      · exact ⟨t, by show (rx ++ [_]).length ≤ 4; simp; omega⟩
      · exact ⟨t, r⟩
    · exact ⟨t, r⟩

/-- State of the device: the state machine runs, holds the values `vs`, and the channels have counted accordingly. -/
structure DevOk (d : AdcDev) (ph : Bool) (vs : List Int) : Prop where
  on : d.on = true
  pipe : Pipe d.pio ph vs
  count : d.tc1 + vs.length ≤ d.adc.tcHw + 1
  room : Room d.pio

/-- At most nine values are in the state machine and its FIFOs. -/
theorem DevOk.nine {d : AdcDev} {ph : Bool} {vs : List Int} (h : DevOk d ph vs) : vs.length ≤ 9 := by
  obtain ⟨-, -, odd, busy, q, -, htx, hvs, -⟩ := h.pipe
  obtain ⟨h1, h2⟩ := h.room
  rw [hvs, List.length_append, List.length_append, List.length_map, List.length_map, alternate_length]
  rw [htx, List.length_map] at h1
  cases busy <;> simp <;> omega

theorem xor_turn (ph : Bool) (o : Option UInt8) : (ph ^^ o.isSome) = turn ph o.toList.length := by cases o <;> simp [turn]

theorem alternate_opt (ph : Bool) (o : Option UInt8) : alternate ph o.toList = o.toList.map (signed ph) := by cases o <;> rfl

theorem DevOk.hw {d : AdcDev} {ph : Bool} {vs : List Int} (h : DevOk d ph vs) (e : HwEv) :
    ∃ vs', DevOk (d.hw e) (turn ph (d.enters e).length) vs' ∧ vs ++ alternate ph (d.enters e) = d.stores e ++ vs' := by
  cases e with
  | convert b =>
    refine ⟨vs, ?_, by simp [AdcDev.enters, AdcDev.stores, alternate]⟩
    show DevOk (if d.fifo.length < 4 then _ else _) ph vs
    split
    · exact ⟨h.on, h.pipe, h.count, h.room⟩
    · exact h
  | cycle m1 m2 =>
    obtain ⟨inn, hinn, hp, hhead⟩ := h.pipe.cycle (d.moved1 m1) (d.moved2 m2).isSome
    have hent : d.enters (.cycle m1 m2) = inn.toList := by
      rw [hinn]
      simp only [AdcDev.enters]
      split <;> rfl
    have hpio : (d.hw (.cycle m1 m2)).pio = Pio.cycle twosComplement d.pio (adcEnv (d.moved1 m1, (d.moved2 m2).isSome)) := by
      simp only [AdcDev.hw, h.on, if_true]
      rfl
    have htc1 : (d.hw (.cycle m1 m2)).tc1 + inn.toList.length ≤ d.tc1 := by
      have hm : (d.moved1 m1).isSome → d.tc1 ≠ 0 := by
        unfold AdcDev.moved1
        split
        · rename_i hc; intro _; simp only [Bool.and_eq_true, decide_eq_true_eq] at hc; exact hc.2
        · intro hc; cases hc
      simp only [AdcDev.hw]
      rw [hinn]
      cases hm1 : d.moved1 m1 with
      | none => simp
      | some b =>
        rw [hm1] at hm
        have := hm rfl
        simp only [Option.isSome_some, if_true]
        split <;> simp <;> omega
    rw [hent, ← xor_turn, alternate_opt]
    cases hg : d.moved2 m2 with
    | none =>
      refine ⟨vs ++ inn.toList.map (signed ph), ⟨h.on, ?_, ?_, by rw [hpio]; exact h.room.cycle _⟩, by simp [AdcDev.stores, hg]⟩
      · rw [hpio]
        rw [hg] at hp ⊢
        simpa using hp
      · rw [AdcDev.hw_adc]
        have hc := h.count
        simp only [AdcDev.stores, hg, List.length_append, List.length_map]
        show _ ≤ d.adc.tcHw + 1
        omega
    | some w =>
      have hrx : d.pio.rx.head? = some w := by
        have := hg
        unfold AdcDev.moved2 at this
        split at this
        · exact this
        · cases this
      have htc : d.adc.tcHw ≠ 0 := by
        have := hg
        unfold AdcDev.moved2 at this
        split at this
        · rename_i hc; simp only [Bool.and_eq_true, decide_eq_true_eq] at hc; exact hc.2
        · cases this
      rw [hg] at hp hhead
      have hh := hhead rfl w hrx
      obtain ⟨v0, vs', rfl⟩ : ∃ v0 vs', vs = v0 :: vs' := by
        cases vs with
        | nil => cases hh
        | cons a l => exact ⟨a, l, rfl⟩
      have hv0 : v0 = ringValue w := Option.some.inj hh
      clear hh hhead
      have hne : d.pio.rx ≠ [] := by intro hn; rw [hn] at hrx; cases hrx
      refine ⟨vs' ++ inn.toList.map (signed ph), ⟨h.on, ?_, ?_, by rw [hpio]; exact h.room.cycle _⟩, (by simp only [AdcDev.stores, hg, hv0, List.cons_append, Option.toList_some, List.map_cons, List.map_nil, List.nil_append])⟩
      · rw [hpio, hg]
        simpa [hne] using hp
      · rw [AdcDev.hw_adc]
        have hc := h.count
        have : ((d.stores (.cycle m1 m2)).foldl Adc.write d.adc).tcHw = d.adc.tcHw - 1 := by
          simp only [AdcDev.stores, hg, Option.toList_some, List.map_cons, List.map_nil, List.foldl_cons, List.foldl_nil, Adc.write, if_neg htc]
        rw [this]
        rw [List.length_cons] at hc
        rw [List.length_append, List.length_map]
        clear this hp hinn hent hpio
        omega

theorem turn_turn (ph : Bool) (m n : Nat) : turn (turn ph m) n = turn ph (m + n) := by
  unfold turn
  by_cases h1 : m % 2 = 0 <;> by_cases h2 : n % 2 = 0
  · rw [if_pos h1, if_pos h2, if_pos (by omega)]
  · rw [if_pos h1, if_neg h2, if_neg (by omega)]
  · rw [if_neg h1, if_pos h2, if_neg (by omega)]
  · rw [if_neg h1, if_neg h2, if_pos (by omega), Bool.not_not]

theorem DevOk.hws : ∀ (es : List HwEv) {d : AdcDev} {ph : Bool} {vs : List Int}, DevOk d ph vs →
    ∃ vs', DevOk (d.hws es) (turn ph (d.entered es).length) vs' ∧ vs ++ alternate ph (d.entered es) = d.stored es ++ vs' := by
  intro es
  induction es with
  | nil => intro d ph vs h; exact ⟨vs, h, by simp [AdcDev.entered, AdcDev.stored, alternate]⟩
  | cons e es ih =>
    intro d ph vs h
    obtain ⟨vs1, h1, h2⟩ := h.hw e
    obtain ⟨vs2, h3, h4⟩ := ih h1
    refine ⟨vs2, ?_, ?_⟩
    · rw [AdcDev.hws_cons, AdcDev.entered, List.length_append, ← turn_turn]; exact h3
    · rw [AdcDev.entered, AdcDev.stored, alternate_append, ← List.append_assoc, h2, List.append_assoc, h4, List.append_assoc]

theorem DevOk.stored_ok {d : AdcDev} {ph : Bool} {vs : List Int} (h : DevOk d ph vs) (es : List HwEv) : ∀ v ∈ d.stored es, ValOk v := by
  obtain ⟨vs', -, h2⟩ := h.hws es
  intro v hv
  have : v ∈ vs ++ alternate ph (d.entered es) := by rw [h2]; exact List.mem_append_left _ hv
  rcases List.mem_append.mp this with h3 | h3
  · exact h.pipe.2.1 v h3
  · exact alternate_ok _ _ v h3

/-- While channel2 is stopped nothing is stored. -/
theorem AdcDev.stored_stopped : ∀ (es : List HwEv) {d : AdcDev}, d.adc.tcHw = 0 → d.stored es = [] ∧ (d.hws es).adc = d.adc := by
  intro es
  induction es with
  | nil => intro d _; exact ⟨rfl, rfl⟩
  | cons e es ih =>
    intro d h
    have h1 : d.stores e = [] := by
      cases e with
      | convert b => rfl
      | cycle m1 m2 => simp [AdcDev.stores, AdcDev.moved2, h]
    have h2 : (d.hw e).adc = d.adc := by rw [AdcDev.hw_adc, h1]; rfl
    obtain ⟨h3, h4⟩ := ih (d := d.hw e) (by rw [h2]; exact h)
    exact ⟨by rw [AdcDev.stored, h1, h3]; rfl, by rw [AdcDev.hws_cons, h4, h2]⟩

/-- While `channel` is stopped nothing gets into the PIO. -/
theorem AdcDev.entered_stopped : ∀ (es : List HwEv) {d : AdcDev}, d.tc1 = 0 → d.entered es = [] ∧ (d.hws es).tc1 = 0 := by
  intro es
  induction es with
  | nil => intro d h; exact ⟨rfl, h⟩
  | cons e es ih =>
    intro d h
    have hm : ∀ m, d.moved1 m = none := by intro m; simp [AdcDev.moved1, h]
    have h1 : d.enters e = [] := by
      cases e with
      | convert b => rfl
      | cycle m1 m2 => simp [AdcDev.enters, hm]
    have h2 : (d.hw e).tc1 = 0 := by
      cases e with
      | convert b => simp only [AdcDev.hw]; split <;> exact h
      | cycle m1 m2 => simp [AdcDev.hw, hm, h]
    obtain ⟨h3, h4⟩ := ih h2
    exact ⟨by rw [AdcDev.entered, h1, h3]; rfl, by rw [AdcDev.hws_cons, h4]⟩

/-- While everything is stopped only the FIFO of the ADC changes. -/
theorem AdcDev.hws_off : ∀ (es : List HwEv) {d : AdcDev}, d.on = false → d.tc1 = 0 → d.adc.tcHw = 0 → ∃ f, d.hws es = { d with fifo := f } := by
  intro es
  induction es with
  | nil => intro d _ _ _; exact ⟨d.fifo, rfl⟩
  | cons e es ih =>
    intro d h1 h2 h3
    have : ∃ f, d.hw e = { d with fifo := f } := by
      cases e with
      | convert b =>
        simp only [AdcDev.hw]
        split
        · exact ⟨_, rfl⟩
        · exact ⟨d.fifo, rfl⟩
      | cycle m1 m2 =>
        refine ⟨d.fifo, ?_⟩
        obtain ⟨adc, tc1, fifo, ⟨core, tx, rx⟩, on⟩ := d
        simp only at h1 h2 h3
        subst h1 h2
        simp [AdcDev.hw, AdcDev.moved1, AdcDev.moved2, h3, enqueue, dequeue]
    obtain ⟨f, hf⟩ := this
    rw [AdcDev.hws_cons, hf]
    obtain ⟨g, hg⟩ := ih (d := { d with fifo := f }) h1 h2 h3
    exact ⟨g, by rw [hg]⟩

theorem AdcDev.hw_on (d : AdcDev) (e : HwEv) : (d.hw e).on = d.on := by
  cases e with
  | convert b => simp only [AdcDev.hw]; split <;> rfl
  | cycle m1 m2 => rfl

/-! ## `Reset` -/

theorem AdcDev.hws_legal : ∀ (es : List HwEv) (d : AdcDev), d.on = true → Legal d.pio.core → Legal (d.hws es).pio.core := by
  intro es
  induction es with
  | nil => intro d _ h; exact h
  | cons x es ih =>
    intro d ho h
    rw [AdcDev.hws_cons]
    apply ih
    · rw [AdcDev.hw_on]; exact ho
    · cases x with
      | convert b => simp only [AdcDev.hw]; split <;> exact h
      | cycle m1 m2 => simp only [AdcDev.hw, ho, if_true]; exact h.cycle _

theorem DevOk.reset {d : AdcDev} {ph : Bool} {vs : List Int} (h : DevOk d ph vs) (e : ResetEnv) :
    (∃ ph' vs', DevOk (d.reset e) ph' vs' ∧ vs'.length ≤ 1) ∧ (d.reset e).adc = ((d.resetStores e).foldl Adc.write d.adc).restart ∧
      (∀ v ∈ d.resetStores e, ValOk v) ∧ (d.reset e).tc1 = adcBlock := by
  obtain ⟨v1, k1, -⟩ := h.hws e.drain
  have s1 := h.stored_ok e.drain
  have a1 := AdcDev.hws_adc e.drain d
  have k1' : DevOk (d.hws e.drain).drain _ _ := ⟨k1.on, k1.pipe, k1.count, k1.room⟩
  obtain ⟨v2, k2, -⟩ := k1'.hws e.abort1
  have s2 := k1'.stored_ok e.abort1
  have a2 := AdcDev.hws_adc e.abort1 (d.hws e.drain).drain
  have k2' : DevOk ((d.hws e.drain).drain.hws e.abort1).abort1 (turn (turn ph (d.entered e.drain).length) ((d.hws e.drain).drain.entered e.abort1).length) v2 :=
    ⟨k2.on, k2.pipe, by have := k2.count; show 0 + v2.length ≤ ((d.hws e.drain).drain.hws e.abort1).adc.tcHw + 1; omega, k2.room⟩
  have s3 := k2'.stored_ok e.abort2
  have a3 := AdcDev.hws_adc e.abort2 ((d.hws e.drain).drain.hws e.abort1).abort1
  obtain ⟨v3, k3, -⟩ := k2'.hws e.abort2
  obtain ⟨-, t3⟩ := AdcDev.entered_stopped e.abort2 (d := ((d.hws e.drain).drain.hws e.abort1).abort1) rfl
  have hst : ∀ v ∈ d.resetStores e, ValOk v := by
    intro v hv
    unfold AdcDev.resetStores at hv
    rcases List.mem_append.mp hv with hv | hv
    · exact s1 v hv
    · rcases List.mem_append.mp hv with hv | hv
      · exact s2 v hv
      · exact s3 v hv
  have hadc : (((d.hws e.drain).drain.hws e.abort1).abort1.hws e.abort2).adc = (d.resetStores e).foldl Adc.write d.adc := by
    unfold AdcDev.resetStores
    rw [List.foldl_append, List.foldl_append, ← a1, a3]
    show List.foldl Adc.write ((d.hws e.drain).drain.hws e.abort1).adc _ = _
    rw [a2]
    rfl
  generalize hX : d.resetStores e = X at *
  unfold AdcDev.reset AdcDev.stop AdcDev.startUp
  generalize ((d.hws e.drain).drain.hws e.abort1).abort1.hws e.abort2 = d3 at *
  have o3 := AdcDev.stored_stopped e.off (d := d3.abort2) rfl
  have hleg : Legal (d3.abort2.hws e.off).pio.core := AdcDev.hws_legal _ _ k3.on k3.pipe.1
  have t4 := AdcDev.entered_stopped e.off (d := d3.abort2) t3
  generalize d3.abort2.hws e.off = d4 at *
  have z4 : d4.adc.tcHw = 0 := by rw [o3.2]; rfl
  obtain ⟨f, hf⟩ := AdcDev.hws_off e.on (d := d4.halt) rfl t4.2 z4
  rw [hf]
  obtain ⟨ph', vs', p1, p2⟩ := Pipe.restart hleg
  have k5 : DevOk ({ d4.halt with fifo := f } : AdcDev).enable ph' vs' := by
    refine ⟨rfl, p1, ?_, ⟨Nat.zero_le _, Nat.zero_le _⟩⟩
    show d4.tc1 + vs'.length ≤ d4.adc.tcHw + 1
    rw [t4.2]
    omega
  obtain ⟨vs6, k6, e6⟩ := k5.hws e.start
  have t6 := AdcDev.entered_stopped e.start (d := ({ d4.halt with fifo := f } : AdcDev).enable) t4.2
  have o6 := AdcDev.stored_stopped e.start (d := ({ d4.halt with fifo := f } : AdcDev).enable) z4
  rw [t6.1, o6.1] at e6
  simp only [alternate, List.append_nil, List.nil_append] at e6
  subst e6
  refine ⟨⟨_, vs', ⟨k6.on, k6.pipe, ?_, k6.room⟩, p2⟩, ?_, hst, rfl⟩
  · show adcBlock + vs'.length ≤ adcBlock + 1; omega
  · show Adc.restart (AdcDev.hws _ e.start).adc = _
    rw [o6.2, ← hadc]
    show Adc.restart d4.adc = _
    rw [o3.2]
    rfl

end P1P2
