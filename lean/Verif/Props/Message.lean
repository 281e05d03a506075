import Verif.Proofs.Message
/-!
# C01-C08, C76: messages and their text form

`Message.lineOf m buf` is the text a caller of `c_str` reads (`buf`: previous content of the static
buffer), `Message.parse pf g line` the constructor from a line on platform `pf` (`g`: indeterminate
initial payload).  `.ub` is undefined behaviour.
-/
namespace P1P2
open Spec Message

/-- The observable content of a message object. -/
def Message.Is (m : Message) (time status : Nat) (bytes : List UInt8) : Prop :=
  m.time = time ∧ m.status = status ∧ m.length = bytes.length ∧
    ∀ i (h : i < bytes.length), m.data i = bytes[i]

/-- The two platforms the code is built for. -/
def Platform.Real (pf : Platform) : Prop := pf = .arm ∨ pf = .host

theorem Message.is_bytes (m : Message) : m.Is m.time m.status m.bytes :=
  ⟨rfl, rfl, by simp [Message.bytes], by intro i h; simp [Message.bytes]⟩

/-! ## C01 -/

theorem C01_round_trip (pf : Platform) (hpf : pf.Real) (m : Message) (t s : Nat) (bs : List UInt8)
    (hm : m.Is t s bs) (hl : bs.length ≤ 32) (ht : t < 2 ^ 63) (hs : s < 2 ^ 31)
    (buf g : Nat → UInt8) :
    ∃ text m', Message.lineOf m buf = .ok text ∧ Message.parse pf g text = .ok m' ∧ m'.Is t s bs := by
  obtain ⟨h1, h2, h3, h4⟩ := hm
  have hb : m.bytes = bs := by
    apply List.ext_getElem
    · simp [Message.bytes, h3]
    · intro i a b
      simp [Message.bytes, h4 i b]
  have e := lineOf_eq m buf (by omega) (by omega) (by omega)
  rw [h1, h2, hb] at e
  obtain ⟨ds, hd1, hd2⟩ := fmtHex2_digits s
  have hclean1 : Clean (fmtDec t) := (fmtDec_digits t).clean (fun v c h => (decDigit_char h).2.2.2.2)
  have hclean2 : Clean (fmtHex2 s) := hd1.clean (fun v c h => (hexDigit_char h).2.2.2.2.imp id (·.1))
  obtain ⟨d, hd, hdd⟩ := dataLoop_spelling pf g [] (spelling_hex bs) (Or.inl rfl) Tail.nil (by simp; omega)
  simp only [List.append_nil] at hd
  have hp := parse_three pf g (fmtDec t) (fmtHex2 s) (bs.flatMap (fun b => fmtHex2 b.toNat)) []
    hclean1 hclean2 (spelling_clean (spelling_hex bs)) (Or.inl rfl)
  refine ⟨_, { status := s, time := t, data := d, length := bs.length }, e, ?_, rfl, rfl, rfl, hdd⟩
  simp only [List.append_nil, List.append_assoc, List.cons_append, List.nil_append] at hp ⊢
  have hne1 : fmtDec t ≠ [] := by simp [fmtDec, digits_ne_nil]
  have hne2 : fmtHex2 s ≠ [] := by
    simp [fmtHex2, digits_ne_nil]
  rw [hp]
  unfold parseFields
  rw [if_neg hne1, if_neg hne2, atoll_digits (fmtDec_digits t), digits_value (by omega), if_pos ht,
    strtol16_digits pf hd1, hd2, hd]
  simp only [Res.ok_bind]
  have hmin : min (s : Int) (2 ^ (pf.longBits - 1) - 1) = s := by
    rcases hpf with rfl | rfl <;> simp [Platform.arm, Platform.host] <;> omega
  rw [hmin, toU32_of_lt (by omega)]
  congr 2
  omega

/-- Non-trivial instance of the hypotheses: a 3 byte packet at t = 1234567890123, status 3. -/
example : (⟨3, 1234567890123, fun i => if i = 0 then 0x40 else if i = 1 then 0xF0 else 0x0a, 3⟩ : Message).Is
    1234567890123 3 [0x40, 0xF0, 0x0a] := by
  refine ⟨rfl, rfl, rfl, ?_⟩
  decide

/-! ## C02 -/

theorem C02_printed_line (m : Message) (t s : Nat) (bs : List UInt8) (hm : m.Is t s bs)
    (hl : bs.length ≤ 32) (ht : t < 2 ^ 64) (hs : s < 2 ^ 32) (buf : Nat → UInt8) :
    Message.lineOf m buf = .ok (Spec.line t s bs) ∧ (Spec.line t s bs).length ≤ 94 := by
  obtain ⟨h1, h2, h3, h4⟩ := hm
  have hb : m.bytes = bs := by
    apply List.ext_getElem
    · simp [Message.bytes, h3]
    · intro i a b
      simp [Message.bytes, h4 i b]
  have e := lineOf_eq m buf (by omega) (by omega) (by omega)
  rw [h1, h2, hb] at e
  rw [text_eq_spec] at e
  refine ⟨e, ?_⟩
  have hh := head_length (m := m) (by omega) (by omega)
  have h5 := flatMap_hex_length bs
  rw [h1, h2] at hh
  rw [← text_eq_spec, List.length_append, h5]
  omega

/-- The line of a concrete packet. -/
example : Spec.line 7 21 [0x40, 0x0f] = "7:15:400f".toList.map (fun c => UInt8.ofNat c.toNat) := by decide

/-! ## C03 -/

theorem fields_cons (l : List UInt8) : ∀ x fs, fields l = x :: fs →
    (∀ c ∈ x, c ≠ 58) ∧ ((fs = [] ∧ l = x) ∨ ∃ l', l = x ++ 58 :: l' ∧ fields l' = fs) := by
  induction l with
  | nil => intro x fs h; simp [fields] at h; obtain ⟨rfl, rfl⟩ := h; simp
  | cons c cs ih =>
    intro x fs h
    simp only [fields] at h
    split at h
    · rename_i hc
      simp at h
      obtain ⟨rfl, rfl⟩ := h
      exact ⟨by simp, Or.inr ⟨cs, by simp [hc], rfl⟩⟩
    · rename_i hc
      cases hf : fields cs with
      | nil =>
        exfalso
        cases cs with
        | nil => simp [fields] at hf
        | cons a as =>
          simp only [fields] at hf
          split at hf
          · simp at hf
          · split at hf <;> simp at hf
      | cons f fs' =>
        rw [hf] at h
        simp at h
        obtain ⟨rfl, rfl⟩ := h
        obtain ⟨g1, g2⟩ := ih f fs' hf
        refine ⟨?_, ?_⟩
        · intro y hy
          rcases List.mem_cons.mp hy with rfl | hy
          · exact hc
          · exact g1 y hy
        · rcases g2 with ⟨a, b⟩ | ⟨l', a, b⟩
          · exact Or.inl ⟨a, by rw [b]⟩
          · exact Or.inr ⟨l', by rw [a]; rfl, b⟩

theorem fields_ne_nil (l : List UInt8) : fields l ≠ [] := by
  cases l with
  | nil => simp [fields]
  | cons c cs =>
    simp only [fields]
    split
    · simp
    · split <;> simp

/-- Every line is parsed according to its fields. -/
theorem parse_by_fields (pf : Platform) (g : Nat → UInt8) (l : List UInt8) (hl : ∀ c ∈ l, c ≠ 0) :
    ∃ s, parse pf g l = parseFields pf g (timeField l) s (dataField l) := by
  have hcol : (58 : UInt8) = chr ':' := by decide
  cases h1 : fields l with
  | nil => exact absurd h1 (fields_ne_nil l)
  | cons x fs =>
    obtain ⟨a1, a2⟩ := fields_cons l x fs h1
    rcases a2 with ⟨rfl, rfl⟩ | ⟨l', rfl, h2⟩
    · refine ⟨[], ?_⟩
      simp only [timeField, dataField, h1]
      exact parse_none pf g _ (fun c hc => ⟨hcol ▸ a1 c hc, hl c hc⟩)
    · have cx : Clean x := fun c hc => ⟨hcol ▸ a1 c hc, hl c (by simp [hc])⟩
      cases fs with
      | nil => exact absurd h2 (fields_ne_nil l')
      | cons y fs =>
        obtain ⟨b1, b2⟩ := fields_cons l' y fs h2
        rcases b2 with ⟨rfl, rfl⟩ | ⟨l'', rfl, h3⟩
        · refine ⟨l', ?_⟩
          simp only [timeField, dataField, h1]
          exact parse_one pf g _ _ cx (fun c hc => ⟨hcol ▸ b1 c hc, hl c (by simp [hc])⟩)
        · have cy : Clean y := fun c hc => ⟨hcol ▸ b1 c hc, hl c (by simp [hc])⟩
          cases fs with
          | nil => exact absurd h3 (fields_ne_nil l'')
          | cons z fs =>
            obtain ⟨c1, c2⟩ := fields_cons l'' z fs h3
            refine ⟨y, ?_⟩
            simp only [timeField, dataField, h1]
            rcases c2 with ⟨rfl, rfl⟩ | ⟨r, rfl, h4⟩
            · have := parse_three pf g x y l'' [] cx cy
                (fun c hc => ⟨hcol ▸ c1 c hc, hl c (by simp [hc])⟩) (Or.inl rfl)
              simpa [hcol] using this
            · have := parse_three pf g x y z (58 :: r) cx cy
                (fun c hc => ⟨hcol ▸ c1 c hc, hl c (by simp [hc])⟩) (Or.inr ⟨r, by rw [hcol]⟩)
              simpa [hcol] using this

theorem accDigits_lt (acc : Nat) (cs : List UInt8) :
    accDigits 10 decVal acc cs < (acc + 1) * 10 ^ cs.length := by
  induction cs generalizing acc with
  | nil => simp [accDigits]
  | cons c cs ih =>
    simp only [accDigits]
    cases hv : decVal c with
    | none =>
      simp only
      have : 0 < 10 ^ (c :: cs).length := Nat.pow_pos (by omega)
      calc acc < acc + 1 := by omega
        _ ≤ (acc + 1) * 10 ^ (c :: cs).length := Nat.le_mul_of_pos_right _ this
    | some d =>
      simp only
      have hd : d < 10 := by
        unfold decVal at hv
        split at hv
        · simp at hv; omega
        · simp at hv
      calc _ < (acc * 10 + d + 1) * 10 ^ cs.length := ih _
        _ ≤ ((acc + 1) * 10) * 10 ^ cs.length := Nat.mul_le_mul_right _ (by omega)
        _ = (acc + 1) * 10 ^ (c :: cs).length := by
          rw [List.length_cons, Nat.pow_succ, Nat.mul_assoc, Nat.mul_comm 10]

theorem dropWhile_length_le {α : Type} (p : α → Bool) (l : List α) : (l.dropWhile p).length ≤ l.length := by
  have h := List.takeWhile_append_dropWhile (p := p) (l := l)
  have h' := congrArg List.length h
  rw [List.length_append] at h'
  omega

theorem skipSign_length (s : List UInt8) : (skipSign s).2.length ≤ s.length := by
  unfold skipSign
  have h := dropWhile_length_le isSpace s
  split
  · rename_i c cs he
    rw [he] at h
    simp at h
    split
    · simp; omega
    · split
      · simp; omega
      · simp; omega
  · simp

theorem atoll_short {s : List UInt8} (h : s.length ≤ 18) : ∃ v, atoll s = .ok v := by
  unfold atoll
  have h1 := accDigits_lt 0 (skipSign s).2
  have h2 := skipSign_length s
  have h3 : 10 ^ (skipSign s).2.length ≤ 10 ^ 18 := Nat.pow_le_pow_right (by omega) (by omega)
  generalize hsk : skipSign s = r at h1 h2 h3
  obtain ⟨neg, r⟩ := r
  simp only [] at h1 h3 ⊢
  have h4 : accDigits 10 decVal 0 r < 10 ^ 18 := by omega
  refine ⟨if neg then -(accDigits 10 decVal 0 r : Int) else accDigits 10 decVal 0 r, ?_⟩
  rw [if_pos]
  cases neg <;> simp <;> omega

theorem nibbles_arm_length (d : List UInt8) : (nibbles .arm d).length = (payload d).length := by
  induction d with
  | nil => rfl
  | cons c cs ih =>
    simp only [nibbles]
    by_cases h1 : c = chr ' '
    · subst h1
      rw [if_pos rfl, ih]
      rfl
    · rw [if_neg h1]
      by_cases h2 : c = chr '#' ∨ c = chr ';'
      · rw [if_pos h2]
        rcases h2 with rfl | rfl <;> rfl
      · rw [if_neg h2]
        have hd : ∃ v, decodeChar .arm c = some v := by
          unfold decodeChar
          split
          · exact ⟨_, rfl⟩
          · exact ⟨255, rfl⟩
        obtain ⟨v, hv⟩ := hd
        rw [hv]
        have h1' : c ≠ 32 := h1
        have h2' : c ≠ 35 ∧ c ≠ 59 := by
          constructor
          · intro h; exact h2 (Or.inl h)
          · intro h; exact h2 (Or.inr h)
        have : payload (c :: cs) = c :: payload cs := by
          simp [payload, h1', h2'.1, h2'.2]
        simp [this, ih]

/-- **C03, exact bound.**  On the target, for every line (C string) whose time prefix has at most 18
characters, parsing stays within the message object exactly if the data field holds at most 64
characters that are neither spaces nor comment. -/
theorem C03_exact (g : Nat → UInt8) (line : List UInt8) (h0 : ∀ c ∈ line, c ≠ 0)
    (ht : (timeField line).length ≤ 18) :
    Message.parse .arm g line ≠ .ub ↔ (payload (dataField line)).length ≤ 64 := by
  obtain ⟨s, hs⟩ := parse_by_fields .arm g line h0
  rw [hs]
  unfold parseFields
  have hT : ∃ n, (if timeField line = [] then (.ok 0 : Res Nat)
      else do let v ← atoll (timeField line); .ok (v % 18446744073709551616).toNat) = .ok n := by
    split
    · exact ⟨0, rfl⟩
    · obtain ⟨v, hv⟩ := atoll_short ht
      rw [hv]; exact ⟨_, rfl⟩
  obtain ⟨n, hn⟩ := hT
  rw [hn]
  simp only [Res.ok_bind, dataLoop_eq]
  rw [← nibbles_arm_length]
  by_cases h : (nibbles .arm (dataField line)).length ≤ 64
  · obtain ⟨d', e, _⟩ := store_ok (nibbles .arm (dataField line)) g 0 (by omega)
    simp [e, h]
  · have e := store_ub (nibbles .arm (dataField line)) g 0 (by omega) (by omega)
    simp [e, h]

/-- **C03, the part that holds.**  What is missing for the full C03: lines with more than 64 data
characters or a time prefix that does not fit 63 bits (see `C03_refuted`). -/
theorem C03_in_bounds_partial (g : Nat → UInt8) (line : List UInt8) (h0 : ∀ c ∈ line, c ≠ 0)
    (ht : (timeField line).length ≤ 18) (hd : (payload (dataField line)).length ≤ 64) :
    ∃ m, Message.parse .arm g line = .ok m ∧ m.length ≤ 32 := by
  obtain ⟨s, hs⟩ := parse_by_fields .arm g line h0
  have hne := (C03_exact g line h0 ht).mpr hd
  cases hp : Message.parse .arm g line with
  | ub => exact absurd hp hne
  | ok m =>
    refine ⟨m, rfl, ?_⟩
    rw [hs] at hp
    unfold parseFields at hp
    rw [Res.bind_eq_ok] at hp
    obtain ⟨n, _, hp⟩ := hp
    rw [Res.bind_eq_ok] at hp
    obtain ⟨r, h2, hp⟩ := hp
    rw [dataLoop_eq] at h2
    rw [← nibbles_arm_length] at hd
    obtain ⟨d', e, _⟩ := store_ok (nibbles .arm (dataField line)) g 0 (by omega)
    rw [e] at h2
    simp at h2 hp
    subst h2
    subst hp
    simp [pack_length]; omega

/-- **C03 is violated**: a line of 65 digits (the line buffer holds 127) makes the parser store outside
the payload, on the target and on the host. -/
theorem C03_refuted (pf : Platform) (g : Nat → UInt8) :
    ∃ line : List UInt8, line.length ≤ 127 ∧ (∀ c ∈ line, c ≠ 0) ∧ Message.parse pf g line = .ub := by
  refine ⟨List.replicate 65 (chr '0'), by simp, ?_, ?_⟩
  · intro c hc
    rw [(List.mem_replicate.mp hc).2]; decide
  · rw [parse_none]
    · have hn : ∀ k, nibbles pf (List.replicate k (chr '0')) = List.replicate k 0 := by
        intro k
        induction k with
        | zero => rfl
        | succ k ih =>
          rw [List.replicate_succ, nibbles_hex pf (v := 0) (Or.inl ⟨by omega, by decide⟩), ih]
          rfl
      have := store_ub (List.replicate 65 0) g 0 (by simp) (by omega)
      simp only [parseFields, dataLoop_eq, hn, this, if_true]
      rfl
    · intro c hc
      rw [(List.mem_replicate.mp hc).2]; decide

/-- The hypotheses of `C03_in_bounds_partial` hold for ordinary lines. -/
example : (timeField (ascii "123:0:40f0".toList)).length ≤ 18 ∧
    (payload (dataField (ascii "123:0:40f0".toList))).length = 4 := by decide

/-! ## C04 -/

/-- Time prefix: decimal digits whose value fits 63 bits, or empty. -/
def TimePrefix (p : List UInt8) : Prop := ∃ ds, Digits DecDigit ds p ∧ digitsValue 10 ds < 2 ^ 63

/-- Status prefix: hexadecimal digits, or empty. -/
def StatusPrefix (p : List UInt8) : Prop := ∃ ds, Digits HexDigit ds p

theorem C04_notation (pf : Platform) (g : Nat → UInt8) (bs t stray tl : List UInt8)
    (hs : Spelling bs t) (hst : stray = [] ∨ ∃ v c, HexDigit v c ∧ stray = [c]) (htl : Tail tl)
    (hlen : 2 * bs.length + stray.length ≤ 64) :
    (∃ m, Message.parse pf g (t ++ (stray ++ tl)) = .ok m ∧ m.Is 0 0 bs) ∧
    (∀ p q, TimePrefix p → StatusPrefix q →
      ∃ m ti st, Message.parse pf g (p ++ 58 :: (q ++ 58 :: (t ++ (stray ++ tl)))) = .ok m ∧ m.Is ti st bs) := by
  have hcl : Clean (t ++ (stray ++ tl)) := by
    refine (spelling_clean hs).append (Clean.append ?_ (tail_clean htl))
    rcases hst with rfl | ⟨v, c, hv, rfl⟩
    · intro c hc; simp at hc
    · intro x hx
      simp at hx; subst hx
      exact ⟨(hexDigit_char hv).2.2.2.2.1, (hexDigit_char hv).2.2.2.2.2.1⟩
  obtain ⟨d, hd1, hd2⟩ := dataLoop_spelling pf g stray hs hst htl hlen
  constructor
  · refine ⟨{ status := 0, time := 0, data := d, length := bs.length }, ?_, rfl, rfl, rfl, hd2⟩
    rw [parse_none pf g _ hcl]
    simp [parseFields, hd1]
  · rintro p q ⟨ds, hp, hv⟩ ⟨es, hq⟩
    have hcp : Clean p := hp.clean (fun v c h => (decDigit_char h).2.2.2.2)
    have hcq : Clean q := hq.clean (fun v c h => (hexDigit_char h).2.2.2.2.imp id (·.1))
    have hpp := parse_three pf g p q _ [] hcp hcq hcl (Or.inl rfl)
    rw [List.append_nil] at hpp
    have h58 : (58 : UInt8) = chr ':' := by decide
    rw [h58, hpp]
    unfold parseFields
    by_cases hpe : p = []
    · rw [if_pos hpe]
      simp only [hd1, Res.ok_bind]
      exact ⟨_, _, _, rfl, rfl, rfl, rfl, hd2⟩
    · rw [if_neg hpe, atoll_digits hp, if_pos hv]
      simp only [hd1, Res.ok_bind]
      exact ⟨_, _, _, rfl, rfl, rfl, rfl, hd2⟩

/-- `"4 0F"` spells 0x40 and leaves a stray digit; mixed case `"fA"` spells 0xfa. -/
example : Spelling [0x40] [52, 32, 48] ∧ HexDigit 15 70 ∧ Spelling [0xfa] [102, 65] := by
  refine ⟨?_, ?_, ?_⟩
  · exact Spelling.byte (hi := 4) (lo := 0) 1 (Or.inl ⟨by omega, by decide⟩) (Or.inl ⟨by omega, by decide⟩) .nil
  · exact Or.inr ⟨by omega, by omega, Or.inr (by decide)⟩
  · exact Spelling.byte (hi := 15) (lo := 10) 0 (Or.inr ⟨by omega, by omega, Or.inl (by decide)⟩)
      (Or.inr ⟨by omega, by omega, Or.inr (by decide)⟩) .nil

/-! ## C05 -/

/-- **C05 is violated** for every line with exactly one prefix: the bytes taken are those spelled by the
*time digits*, whatever data follows the colon. -/
theorem C05_refuted (pf : Platform) (g : Nat → UInt8) (ts bs : List UInt8) (data : List UInt8)
    (ht : TimePrefix ts) (hsp : Spelling bs ts) (hl : bs.length ≤ 32)
    (hd : ∀ c ∈ data, c ≠ 58 ∧ c ≠ 0) :
    ∃ m ti st, Message.parse pf g (ts ++ 58 :: data) = .ok m ∧ m.Is ti st bs := by
  obtain ⟨ds, hp, hv⟩ := ht
  have hcp : Clean ts := spelling_clean hsp
  have h58 : (58 : UInt8) = chr ':' := by decide
  have hcd : Clean data := fun c hc => ⟨by rw [← h58]; exact (hd c hc).1, (hd c hc).2⟩
  have hpp := parse_one pf g ts data hcp hcd
  obtain ⟨d, hd1, hd2⟩ := dataLoop_spelling pf g [] hsp (Or.inl rfl) Tail.nil (by simp; omega)
  simp only [List.append_nil] at hd1
  rw [h58, hpp]
  unfold parseFields
  by_cases hpe : ts = []
  · rw [if_pos hpe]
    simp only [hd1, Res.ok_bind]
    exact ⟨_, _, _, rfl, rfl, rfl, rfl, hd2⟩
  · rw [if_neg hpe, atoll_digits hp, if_pos hv]
    simp only [hd1, Res.ok_bind]
    exact ⟨_, _, _, rfl, rfl, rfl, rfl, hd2⟩

/-- `12:0102` is read as the one byte packet 0x12. -/
example (pf : Platform) (g : Nat → UInt8) : ∃ m ti st,
    Message.parse pf g (ascii "12:0102".toList) = .ok m ∧ m.Is ti st [0x12] :=
  C05_refuted pf g [49, 50] [0x12] [48, 49, 48, 50]
    ⟨[1, 2], .cons ⟨by omega, by decide⟩ (.cons ⟨by omega, by decide⟩ .nil), by decide⟩
    (Spelling.byte (hi := 1) (lo := 2) 0 (Or.inl ⟨by omega, by decide⟩) (Or.inl ⟨by omega, by decide⟩) .nil)
    (by simp) (by decide)

/-- **C05, the part that holds**: the time stamp of a line with one prefix is understood, whatever follows. -/
theorem C05_time_partial (pf : Platform) (g : Nat → UInt8) (ts bs : List UInt8) (ds : List Nat) (data : List UInt8)
    (ht : Digits DecDigit ds ts) (h0 : ts ≠ []) (hv : digitsValue 10 ds < 2 ^ 63) (hsp : Spelling bs ts) (hl : bs.length ≤ 32)
    (hd : ∀ c ∈ data, c ≠ 58 ∧ c ≠ 0) :
    ∃ m, Message.parse pf g (ts ++ 58 :: data) = .ok m ∧ m.time = digitsValue 10 ds := by
  have hcp : Clean ts := spelling_clean hsp
  have h58 : (58 : UInt8) = chr ':' := by decide
  have hcd : Clean data := fun c hc => ⟨by rw [← h58]; exact (hd c hc).1, (hd c hc).2⟩
  have hpp := parse_one pf g ts data hcp hcd
  obtain ⟨d, hd1, hd2⟩ := dataLoop_spelling pf g [] hsp (Or.inl rfl) Tail.nil (by simp; omega)
  simp only [List.append_nil] at hd1
  rw [h58, hpp]
  unfold parseFields
  rw [if_neg h0, atoll_digits ht, if_pos hv]
  simp only [hd1, Res.ok_bind]
  refine ⟨_, rfl, ?_⟩
  dsimp only
  omega

/-- `12:0102` has the time 12. -/
example (pf : Platform) (g : Nat → UInt8) : ∃ m, Message.parse pf g (ascii "12:0102".toList) = .ok m ∧ m.time = 12 :=
  C05_time_partial pf g [49, 50] [0x12] [1, 2] [48, 49, 48, 50]
    (.cons ⟨by omega, by decide⟩ (.cons ⟨by omega, by decide⟩ .nil)) (by simp) (by decide)
    (Spelling.byte (hi := 1) (lo := 2) 0 (Or.inl ⟨by omega, by decide⟩) (Or.inl ⟨by omega, by decide⟩) .nil)
    (by simp) (by decide)

/-! ## C06 -/

/-- Characters with a meaning in the data field: hex digits, space, '#', ';'. -/
def Meaningful (c : UInt8) : Bool :=
  (48 ≤ c.toNat && c.toNat ≤ 57) || (65 ≤ c.toNat && c.toNat ≤ 70) || (97 ≤ c.toNat && c.toNat ≤ 102) ||
    c.toNat == 32 || c.toNat == 35 || c.toNat == 59

set_option maxRecDepth 8000 in
theorem hexVal_none_of_not_meaningful {c : UInt8} (h : Meaningful c = false) :
    hexVal c = none ∧ c ≠ chr ' ' ∧ c ≠ chr '#' ∧ c ≠ chr ';' := by
  revert h
  exact forall_u8 (P := fun c => Meaningful c = false →
    hexVal c = none ∧ c ≠ chr ' ' ∧ c ≠ chr '#' ∧ c ≠ chr ';') (by decide) c

theorem nibbles_host_filter (d : List UInt8) : nibbles .host (d.filter Meaningful) = nibbles .host d := by
  induction d with
  | nil => rfl
  | cons c cs ih =>
    by_cases h : Meaningful c = true
    · rw [List.filter_cons_of_pos h]
      simp only [nibbles, ih]
    · have h' : Meaningful c = false := by simpa using h
      rw [List.filter_cons_of_neg h]
      obtain ⟨h1, h2, h3, h4⟩ := hexVal_none_of_not_meaningful h'
      rw [ih]
      have : decodeChar .host c = none := by simp [decodeChar, h1, Platform.host]
      simp [nibbles, h2, h3, h4, this]

/-- **C06 on the test host** (signed `char`): removing all characters without a meaning from a line
without prefixes does not change the result.  Missing for the full C06: the target, see `C06_refuted`. -/
theorem C06_host_partial (g : Nat → UInt8) (d : List UInt8) (hd : ∀ c ∈ d, c ≠ 58 ∧ c ≠ 0) :
    Message.parse .host g d = Message.parse .host g (d.filter Meaningful) := by
  have h58 : (58 : UInt8) = chr ':' := by decide
  have hc : Clean d := fun c hc => ⟨by rw [← h58]; exact (hd c hc).1, (hd c hc).2⟩
  have hc' : Clean (d.filter Meaningful) := fun c h => hc c ((List.mem_filter.mp h).1)
  rw [parse_none _ _ _ hc, parse_none _ _ _ hc']
  simp only [parseFields, dataLoop_eq, nibbles_host_filter]

/-- **C06 is violated on the target**: any character without a meaning acts as the digit 'f', and
clobbers the whole byte when it is in the low position. -/
theorem C06_refuted (g : Nat → UInt8) (c : UInt8) (hc : Meaningful c = false) (h1 : c ≠ 58) (h2 : c ≠ 0) :
    (∃ m, Message.parse .arm g [c, 49] = .ok m ∧ m.Is 0 0 [0xF1]) ∧
    (∃ m, Message.parse .arm g [49, c] = .ok m ∧ m.Is 0 0 [0xFF]) := by
  obtain ⟨a1, a2, a3, a4⟩ := hexVal_none_of_not_meaningful hc
  have h58 : (58 : UInt8) = chr ':' := by decide
  have b1 := (hexDigit_char (v := 1) (c := 49) (Or.inl ⟨by omega, by decide⟩))
  have e1 : nibbles .arm [c, 49] = [255, 1] := by
    simp [nibbles, a2, a3, a4, decodeChar, a1, Platform.arm, b1.1, b1.2.1, b1.2.2.1, b1.2.2.2.1]
  have e2 : nibbles .arm [49, c] = [1, 255] := by
    simp [nibbles, a2, a3, a4, decodeChar, a1, Platform.arm, b1.1, b1.2.1, b1.2.2.1, b1.2.2.2.1]
  constructor
  · rw [parse_none]
    · simp only [parseFields, dataLoop_eq, e1, if_true, Res.ok_bind]
      refine ⟨_, rfl, rfl, rfl, rfl, ?_⟩
      intro i hi
      have : i = 0 := by simpa using hi
      subst this
      simp; decide
    · intro x hx
      simp at hx
      rcases hx with rfl | rfl
      · exact ⟨by rw [← h58]; exact h1, h2⟩
      · decide
  · rw [parse_none]
    · simp only [parseFields, dataLoop_eq, e2, if_true, Res.ok_bind]
      refine ⟨_, rfl, rfl, rfl, rfl, ?_⟩
      intro i hi
      have : i = 0 := by simpa using hi
      subst this
      simp; decide
    · intro x hx
      simp at hx
      rcases hx with rfl | rfl
      · decide
      · exact ⟨by rw [← h58]; exact h1, h2⟩

/-- e.g. 'x' is such a character -/
example : Meaningful 120 = false ∧ (120 : UInt8) ≠ 58 ∧ (120 : UInt8) ≠ 0 := by decide

/-! ## C07 -/

/-- **C07** for times below 2^63: the fields have the values the prefixes denote; the status saturates
at the largest `long`; nothing else is affected by an out-of-range status. Missing for the full C07:
times of 2^63 and more (`C07_refuted`). -/
theorem C07_prefix_values_partial (pf : Platform) (hpf : pf.Real) (g : Nat → UInt8) (ds es : List Nat)
    (p q bs t tl : List UInt8) (hp : Digits DecDigit ds p) (hq : Digits HexDigit es q)
    (hv : digitsValue 10 ds < 2 ^ 63) (hs : Spelling bs t) (htl : Tail tl) (hlen : bs.length ≤ 32) :
    ∃ m, Message.parse pf g (p ++ 58 :: (q ++ 58 :: (t ++ tl))) = .ok m ∧
      m.Is (digitsValue 10 ds) (if pf = .arm then min (digitsValue 16 es) (2 ^ 31 - 1)
        else min (digitsValue 16 es) (2 ^ 63 - 1) % 2 ^ 32) bs := by
  have hcl : Clean (t ++ tl) := (spelling_clean hs).append (tail_clean htl)
  obtain ⟨d, hd1, hd2⟩ := dataLoop_spelling pf g [] hs (Or.inl rfl) htl (by simp; omega)
  rw [List.nil_append] at hd1
  have hcp : Clean p := hp.clean (fun v c h => (decDigit_char h).2.2.2.2)
  have hcq : Clean q := hq.clean (fun v c h => (hexDigit_char h).2.2.2.2.imp id (·.1))
  have hpp := parse_three pf g p q _ [] hcp hcq hcl (Or.inl rfl)
  rw [List.append_nil] at hpp
  have h58 : (58 : UInt8) = chr ':' := by decide
  rw [h58, hpp]
  unfold parseFields
  have hst : (if q = [] then 0 else toU32 (strtol16 pf q)) =
      (if pf = .arm then min (digitsValue 16 es) (2 ^ 31 - 1)
        else min (digitsValue 16 es) (2 ^ 63 - 1) % 2 ^ 32) := by
    by_cases hq0 : q = []
    · subst hq0
      cases hq
      rw [if_pos rfl]
      simp [digitsValue]
    · rw [if_neg hq0, strtol16_digits pf hq]
      generalize digitsValue 16 es = n
      unfold toU32
      rcases hpf with rfl | rfl
      · rw [if_pos rfl]; simp [Platform.arm]; omega
      · rw [if_neg (by decide)]; simp [Platform.host]; omega
  rw [hst]
  by_cases hpe : p = []
  · subst hpe
    cases hp
    rw [if_pos rfl]
    simp only [hd1, Res.ok_bind]
    exact ⟨_, rfl, rfl, rfl, rfl, hd2⟩
  · rw [if_neg hpe, atoll_digits hp, if_pos hv]
    simp only [hd1, Res.ok_bind]
    refine ⟨_, rfl, ?_, rfl, rfl, hd2⟩
    show ((digitsValue 10 ds : Int) % 18446744073709551616).toNat = digitsValue 10 ds
    omega

/-- **C07 is violated** for a time prefix of 2^63 or more: the conversion is undefined. -/
theorem C07_refuted (pf : Platform) (g : Nat → UInt8) (ds es : List Nat) (p q d : List UInt8)
    (hp : Digits DecDigit ds p) (hq : Digits HexDigit es q) (hv : 2 ^ 63 ≤ digitsValue 10 ds)
    (hd : ∀ c ∈ d, c ≠ 58 ∧ c ≠ 0) :
    Message.parse pf g (p ++ 58 :: (q ++ 58 :: d)) = .ub := by
  have h58 : (58 : UInt8) = chr ':' := by decide
  have hcl : Clean d := fun c hc => ⟨by rw [← h58]; exact (hd c hc).1, (hd c hc).2⟩
  have hcp : Clean p := hp.clean (fun v c h => (decDigit_char h).2.2.2.2)
  have hcq : Clean q := hq.clean (fun v c h => (hexDigit_char h).2.2.2.2.imp id (·.1))
  have hpp := parse_three pf g p q _ [] hcp hcq hcl (Or.inl rfl)
  rw [List.append_nil] at hpp
  rw [h58, hpp]
  unfold parseFields
  have hpe : p ≠ [] := by
    rintro rfl
    cases hp
    simp [digitsValue] at hv
  rw [if_neg hpe, atoll_digits hp, if_neg (by omega)]
  rfl

/-- Nineteen nines exceed 2^63. -/
example : 2 ^ 63 ≤ digitsValue 10 (List.replicate 19 9) := by decide

/-! ## C08 -/

/-- Run of calls on a message object, collecting the answers of `Overflow()`. -/
def runBuf : Message → List BufOp → Res (Message × List Bool)
  | m, [] => .ok (m, [])
  | m, .append b :: ops => do
    let m' ← m.append b
    runBuf m' ops
  | m, .clear :: ops => runBuf m.clear ops
  | m, .overflow :: ops => do
    let r ← runBuf m ops
    .ok (r.1, m.overflow :: r.2)

theorem C08_bounded_list (m : Message) (t s : Nat) (l : List UInt8) (hm : m.Is t s l) (hl : l.length ≤ 32)
    (ops : List BufOp) :
    ∃ m', runBuf m ops = .ok (m', bufOut l ops) ∧
      m'.Is t (if BufOp.clear ∈ ops then 0 else s) (ops.foldl bufStep l) ∧
      (ops.foldl bufStep l).length ≤ 32 := by
  induction ops generalizing m s l with
  | nil => exact ⟨m, rfl, by simpa using hm, by simpa using hl⟩
  | cons op ops ih =>
    obtain ⟨h1, h2, h3, h4⟩ := hm
    cases op with
    | append b =>
      simp only [runBuf, bufOut, List.foldl_cons, bufStep]
      by_cases hlt : l.length < 32
      · have hap : m.append b =
            .ok { m with data := upd m.data m.length b, length := m.length + 1 } := by
          exact Message.append_lt m b (by omega)
        rw [hap, Res.ok_bind, if_pos hlt]
        have := ih { m with data := upd m.data m.length b, length := m.length + 1 } s (l ++ [b])
          ⟨h1, h2, by simp [h3], by
            intro i hi
            by_cases hi2 : i < l.length
            · show upd m.data m.length b i = _
              rw [upd_other _ _ (by omega), List.getElem_append_left hi2, h4 i hi2]
            · have : i = l.length := by simp at hi; omega
              subst this
              show upd m.data m.length b l.length = _
              simp [h3]⟩ (by simp; omega)
        simpa using this
      · have hap : m.append b = .ok m := by
          exact Message.append_ge m b (by omega)
        rw [hap, Res.ok_bind, if_neg hlt]
        have := ih m s l ⟨h1, h2, h3, h4⟩ hl
        simpa using this
    | clear =>
      simp only [runBuf, bufOut, List.foldl_cons, bufStep]
      have := ih m.clear 0 [] ⟨h1, rfl, rfl, by simp⟩ (by simp)
      simpa using this
    | overflow =>
      simp only [runBuf, bufOut, List.foldl_cons, bufStep]
      obtain ⟨m', e1, e2, e3⟩ := ih m s l ⟨h1, h2, h3, h4⟩ hl
      refine ⟨m', ?_, by simpa using e2, e3⟩
      rw [e1]
      simp [Message.overflow, h3, maxPacket]

/-- The default-constructed message meets the hypotheses (empty list). -/
example (g : Nat → UInt8) : (Message.empty g).Is 0 0 [] := ⟨rfl, rfl, rfl, by simp⟩

/-! ## C76 -/

/-- **C76 is violated**: colons inside a trailing comment are taken as field delimiters, so the comment
replaces the packet: `d ;a:b:e` is parsed as the packet spelled by `e`, and none of `d` is used. -/
theorem C76_refuted (pf : Platform) (g : Nat → UInt8) :
    ∃ m ti st, Message.parse pf g (ascii "0102 ;a:b:c0".toList) = .ok m ∧ m.Is ti st [0xc0] := by
  have hd := parse_three pf g (ascii "0102 ;a".toList) (ascii "b".toList) (ascii "c0".toList) []
    (by unfold Clean; decide) (by unfold Clean; decide) (by unfold Clean; decide) (Or.inl rfl)
  have hline : ascii "0102 ;a:b:c0".toList =
    (ascii "0102 ;a".toList ++ chr ':' :: (ascii "b".toList ++ chr ':' :: (ascii "c0".toList ++ []))) := by
    decide
  rw [hline, hd]
  have hsp : Spelling [0xc0] (ascii "c0".toList) :=
    Spelling.byte (hi := 12) (lo := 0) 0 (Or.inr ⟨by omega, by omega, Or.inl (by decide)⟩)
      (Or.inl ⟨by omega, by decide⟩) .nil
  obtain ⟨d, hd1, hd2⟩ := dataLoop_spelling pf g [] hsp (Or.inl rfl) Tail.nil (by simp)
  simp only [List.append_nil] at hd1
  have hat : atoll (ascii "0102 ;a".toList) = .ok 102 := by decide
  unfold parseFields
  rw [if_neg (by decide), hat]
  simp only [hd1, Res.ok_bind]
  exact ⟨_, _, _, rfl, rfl, rfl, rfl, hd2⟩

/-- Without a colon a trailing comment has no effect (the part of C76 that holds), whatever prefixes. -/
theorem C76_comment_partial (pf : Platform) (g : Nat → UInt8) (bs t tl : List UInt8)
    (hs : Spelling bs t) (htl : Tail tl) :
    Message.parse pf g (t ++ tl) = Message.parse pf g t ∧
    (∀ p q, TimePrefix p → StatusPrefix q →
      Message.parse pf g (p ++ 58 :: (q ++ 58 :: (t ++ tl))) = Message.parse pf g (p ++ 58 :: (q ++ 58 :: t))) := by
  have h58 : (58 : UInt8) = chr ':' := by decide
  have hcl : Clean (t ++ tl) := (spelling_clean hs).append (tail_clean htl)
  have hn : nibbles pf (t ++ tl) = nibbles pf t := by
    rw [nibbles_spelling_append pf hs, tail_nibbles pf htl, List.append_nil]
  constructor
  · rw [parse_none pf g _ hcl, parse_none pf g _ (spelling_clean hs)]
    simp only [parseFields, dataLoop_eq, hn]
  · rintro p q ⟨ds, hp, hv⟩ ⟨es, hq⟩
    have hcp : Clean p := hp.clean (fun v c h => (decDigit_char h).2.2.2.2)
    have hcq : Clean q := hq.clean (fun v c h => (hexDigit_char h).2.2.2.2.imp id (·.1))
    have e1 := parse_three pf g p q _ [] hcp hcq hcl (Or.inl rfl)
    have e2 := parse_three pf g p q _ [] hcp hcq (spelling_clean hs) (Or.inl rfl)
    rw [List.append_nil] at e1 e2
    rw [h58, e1, e2]
    simp only [parseFields, dataLoop_eq, hn]

end P1P2
