import Verif.Model.Message
import Verif.Spec.Message
import Verif.Proofs.Text
/-! Lemmas about `Message`: printing, field splitting and the data loop. -/
namespace P1P2
open Spec

namespace Message

/-! ### Printing -/

theorem bytes_length (m : Message) : m.bytes.length = m.length := by simp [bytes]

theorem cStrLoop_holds (m : Message) (off : Nat) (n i : Nat) (buf : Nat → UInt8) (s : List UInt8)
    (hs : s.length = off + i * 2) (hb : Holds buf s) (hcap : off + (i + n) * 2 < 128)
    (hi : i + n ≤ 32) :
    ∃ buf', cStrLoop m off n i buf = .ok buf' ∧
      Holds buf' (s ++ ((List.range' i n).flatMap (fun j => fmtHex2 (m.data j).toNat))) := by
  induction n generalizing i buf s with
  | zero => exact ⟨buf, rfl, by simpa using hb⟩
  | succ n ih =>
    simp only [cStrLoop, maxPacket]
    rw [rd_of_lt _ (by omega)]
    simp only [Res.ok_bind]
    rw [snprintfAt_fits (by rw [fmtHex2_byte_length]; omega)]
    simp only [Res.ok_bind]
    rw [← hs]
    obtain ⟨b', h1, h2⟩ := ih (i + 1) _ (s ++ fmtHex2 (m.data i).toNat)
      (by rw [List.length_append, fmtHex2_byte_length]; omega) (Holds.append hb) (by omega) (by omega)
    refine ⟨b', h1, ?_⟩
    rw [List.range'_succ, List.flatMap_cons]
    rw [List.append_assoc] at h2
    exact h2

theorem head_length {m : Message} (ht : m.time < 2 ^ 64) (hs : m.status < 2 ^ 32) :
    (fmtDec m.time ++ [chr ':'] ++ fmtHex2 m.status ++ [chr ':']).length ≤ 30 := by
  have h1 := fmtDec_length_le ht
  have h2 := fmtHex2_length_le hs
  simp only [List.length_append, List.length_singleton]
  omega

theorem flatMap_range' (m : Message) :
    (List.range' 0 m.length).flatMap (fun j => fmtHex2 (m.data j).toNat) =
      m.bytes.flatMap (fun b => fmtHex2 b.toNat) := by
  simp [bytes, List.flatMap_map, List.range_eq_range']

theorem cStr_holds (m : Message) (buf : Nat → UInt8) (ht : m.time < 2 ^ 64) (hs : m.status < 2 ^ 32)
    (hl : m.length ≤ 32) :
    ∃ buf', cStr m buf = .ok buf' ∧
      Holds buf' (fmtDec m.time ++ [chr ':'] ++ fmtHex2 m.status ++ [chr ':'] ++
        m.bytes.flatMap (fun b => fmtHex2 b.toNat)) := by
  have hh := head_length ht hs
  unfold cStr
  simp only []
  rw [snprintfAt_fits (by omega)]
  simp only [Res.ok_bind]
  rw [← flatMap_range']
  refine cStrLoop_holds m _ m.length 0 _ _ (by omega) ?_ (by omega) (by omega)
  constructor
  · intro j hj
    have := writeList_in buf 0 ((fmtDec m.time ++ [chr ':'] ++ fmtHex2 m.status ++ [chr ':']) ++ [0]) j
      (by simp at hj ⊢; omega)
    rw [Nat.zero_add] at this
    rw [this, List.getElem_append_left hj]
  · have := writeList_in buf 0 ((fmtDec m.time ++ [chr ':'] ++ fmtHex2 m.status ++ [chr ':']) ++ [0])
      (fmtDec m.time ++ [chr ':'] ++ fmtHex2 m.status ++ [chr ':']).length (by simp)
    rw [Nat.zero_add] at this
    rw [this]; simp

theorem flatMap_hex_length (bs : List UInt8) :
    (bs.flatMap (fun b => fmtHex2 b.toNat)).length = 2 * bs.length := by
  induction bs with
  | nil => rfl
  | cons b bs ih => rw [List.flatMap_cons, List.length_append, fmtHex2_byte_length, ih]; simp; omega

theorem text_ne_zero (m : Message) :
    ∀ c ∈ fmtDec m.time ++ [chr ':'] ++ fmtHex2 m.status ++ [chr ':'] ++
        m.bytes.flatMap (fun b => fmtHex2 b.toNat), c ≠ 0 := by
  intro c hc
  simp only [List.mem_append, List.mem_singleton, List.mem_flatMap] at hc
  rcases hc with (((h | h) | h) | h) | ⟨b, _, h⟩
  · obtain ⟨d, hd, rfl⟩ := fmtDec_mem _ _ h
    exact (digitChar_ne (by omega)).1
  · subst h; decide
  · obtain ⟨d, hd, rfl⟩ := fmtHex2_mem _ _ h
    exact (digitChar_ne (by omega)).1
  · subst h; decide
  · obtain ⟨d, hd, rfl⟩ := fmtHex2_mem _ _ h
    exact (digitChar_ne (by omega)).1

theorem lineOf_eq (m : Message) (buf : Nat → UInt8) (ht : m.time < 2 ^ 64) (hs : m.status < 2 ^ 32)
    (hl : m.length ≤ 32) :
    lineOf m buf = .ok (fmtDec m.time ++ [chr ':'] ++ fmtHex2 m.status ++ [chr ':'] ++
        m.bytes.flatMap (fun b => fmtHex2 b.toNat)) := by
  obtain ⟨b', h1, h2⟩ := cStr_holds m buf ht hs hl
  unfold lineOf
  rw [h1]
  simp only [Res.ok_bind]
  refine readCStr_holds h2 (text_ne_zero m) ?_
  have := head_length ht hs
  have h3 := flatMap_hex_length m.bytes
  rw [bytes_length] at h3
  rw [List.length_append, h3]
  omega

theorem text_eq_spec (t s : Nat) (bs : List UInt8) :
    fmtDec t ++ [chr ':'] ++ fmtHex2 s ++ [chr ':'] ++ bs.flatMap (fun b => fmtHex2 b.toNat) =
      Spec.line t s bs := by
  have h : bs.flatMap (fun b => fmtHex2 b.toNat) = ascii (bs.flatMap (fun b => hex2 b.toNat)) := by
    induction bs with
    | nil => rfl
    | cons b bs ih => rw [List.flatMap_cons, ih, List.flatMap_cons, ascii_append, fmtHex2_eq]
  rw [h]
  unfold Spec.line
  simp only [ascii_append, fmtDec_eq, fmtHex2_eq]
  rfl

/-! ### Splitting into fields -/

theorem scan_noColon (a r : List UInt8) (pos : Nat) (s : Scan) (h : ∀ c ∈ a, c ≠ chr ':') :
    scan (a ++ r) pos s = scan r (pos + a.length) s := by
  induction a generalizing pos with
  | nil => simp
  | cons c cs ih =>
    have hc := h c (by simp)
    simp only [List.cons_append, scan, hc, if_false]
    rw [ih _ (fun x hx => h x (by simp [hx]))]
    simp only [List.length_cons]
    congr 1; omega

theorem scan_ge2 (r : List UInt8) (pos : Nat) (s : Scan) (h : 2 ≤ s.field) :
    (scan r pos s).timePtr = s.timePtr ∧ (scan r pos s).statusPtr = s.statusPtr ∧
      (scan r pos s).dataPtr = s.dataPtr := by
  induction r generalizing pos s with
  | nil => simp [scan]
  | cons c cs ih =>
    simp only [scan]
    by_cases hc : c = chr ':'
    · have h0 : ¬ s.field = 0 := by omega
      have h1 : ¬ s.field = 1 := by omega
      simp only [hc, if_true, h0, h1, if_false]
      exact ih (pos + 1) { s with field := s.field + 1 } (by simp; omega)
    · simp only [hc, if_false]
      exact ih _ s h

/-- The end of a field: end of line or a colon. -/
def FieldEnd (post : List UInt8) : Prop := post = [] ∨ ∃ r, post = chr ':' :: r

theorem cut_clean {x : List UInt8} (h : ∀ c ∈ x, c ≠ chr ':') : cut x = x := by
  unfold cut
  conv => rhs; rw [← List.map_id x]
  apply List.map_congr_left
  intro c hc
  simp [h c hc]

theorem takeWhile_append_end (x post : List UInt8) (h : ∀ c ∈ x, c ≠ 0)
    (hp : post = [] ∨ ∃ r, post = 0 :: r) :
    (x ++ post).takeWhile (· ≠ 0) = x := by
  induction x with
  | nil => rcases hp with rfl | ⟨r, rfl⟩ <;> simp
  | cons c cs ih =>
    have hc := h c (by simp)
    simp only [List.cons_append]
    rw [List.takeWhile_cons_of_pos (by simpa using hc), ih (fun y hy => h y (by simp [hy]))]

theorem strAt_field (pre x post : List UInt8) (hx : ∀ c ∈ x, c ≠ chr ':' ∧ c ≠ 0) (hp : FieldEnd post) :
    strAt (pre ++ (x ++ post)) pre.length = x := by
  unfold strAt
  have h1 : (cut (pre ++ (x ++ post))).drop pre.length = x ++ cut post := by
    rw [show cut (pre ++ (x ++ post)) = cut pre ++ (cut x ++ cut post) by simp [cut]]
    rw [List.drop_append_of_le_length (by simp [cut]), List.drop_of_length_le (by simp [cut])]
    rw [cut_clean (fun c hc => (hx c hc).1)]; simp
  rw [h1]
  refine takeWhile_append_end x _ (fun c hc => (hx c hc).2) ?_
  rcases hp with rfl | ⟨r, rfl⟩
  · left; rfl
  · right; exact ⟨cut r, by simp [cut]⟩

def Clean (x : List UInt8) : Prop := ∀ c ∈ x, c ≠ chr ':' ∧ c ≠ 0

/-- Result of the parser in terms of the fields. -/
def parseFields (pf : Platform) (g : Nat → UInt8) (t s d : List UInt8) : Res Message := do
  let time ← (if t = [] then .ok 0 else do let v ← atoll t; .ok (v % 18446744073709551616).toNat)
  let r ← dataLoop pf d false g 0
  .ok { status := if s = [] then 0 else toU32 (strtol16 pf s), time := time, data := r.1, length := r.2 }

theorem ite_length_pos {α : Type} (x : List UInt8) (a b : α) :
    (if x.length > 0 then a else b) = if x = [] then b else a := by
  cases x <;> simp

theorem parse_three (pf : Platform) (g : Nat → UInt8) (t s d post : List UInt8)
    (ht : Clean t) (hs : Clean s) (hd : Clean d) (hp : FieldEnd post) :
    parse pf g (t ++ chr ':' :: (s ++ chr ':' :: (d ++ post))) = parseFields pf g t s d := by
  have e1 : strAt (t ++ chr ':' :: (s ++ chr ':' :: (d ++ post))) 0 = t := by
    have := strAt_field [] t (chr ':' :: (s ++ chr ':' :: (d ++ post))) ht (Or.inr ⟨_, rfl⟩)
    simpa using this
  have e2 : strAt (t ++ chr ':' :: (s ++ chr ':' :: (d ++ post))) (t.length + 1) = s := by
    have := strAt_field (t ++ [chr ':']) s (chr ':' :: (d ++ post)) hs (Or.inr ⟨_, rfl⟩)
    simpa using this
  have e3 : strAt (t ++ chr ':' :: (s ++ chr ':' :: (d ++ post))) (t.length + 1 + s.length + 1) = d := by
    have := strAt_field (t ++ [chr ':'] ++ s ++ [chr ':']) d post hd hp
    have hl : (t ++ [chr ':'] ++ s ++ [chr ':']).length = t.length + 1 + s.length + 1 := by simp; omega
    rw [hl] at this
    simpa using this
  have hsc := scan_noColon t (chr ':' :: (s ++ chr ':' :: (d ++ post))) 0
    { field := 0, timePtr := none, statusPtr := none, dataPtr := 0 } (fun c hc => (ht c hc).1)
  unfold parse parseFields
  simp only [hsc, scan, if_true]
  rw [scan_noColon s _ _ _ (fun c hc => (hs c hc).1)]
  simp only [scan, if_true]
  obtain ⟨g1, g2, g3⟩ := scan_ge2 (d ++ post) (0 + t.length + 1 + s.length + 1)
    { field := 2, timePtr := some 0, statusPtr := some (0 + t.length + 1),
      dataPtr := 0 + t.length + 1 + s.length + 1 } (by simp)
  simp only [Nat.zero_add, Nat.reduceAdd, Nat.one_ne_zero, if_false] at g1 g2 g3 ⊢
  rw [g1, g2, g3]
  simp only [parseTime, parseStatus, e1, e2, e3, ite_length_pos]

theorem parse_none (pf : Platform) (g : Nat → UInt8) (d : List UInt8) (hd : Clean d) :
    parse pf g d = parseFields pf g [] [] d := by
  have e3 : strAt d 0 = d := by
    have := strAt_field [] d [] hd (Or.inl rfl)
    simpa using this
  have hsc := scan_noColon d [] 0
    { field := 0, timePtr := none, statusPtr := none, dataPtr := 0 } (fun c hc => (hd c hc).1)
  rw [List.append_nil] at hsc
  unfold parse parseFields
  simp only [hsc, scan, e3, parseTime, parseStatus, if_true, Res.ok_bind]

theorem parse_one (pf : Platform) (g : Nat → UInt8) (t s : List UInt8) (ht : Clean t) (hs : Clean s) :
    parse pf g (t ++ chr ':' :: s) = parseFields pf g t s t := by
  have e1 : strAt (t ++ chr ':' :: s) 0 = t := by
    have := strAt_field [] t (chr ':' :: s) ht (Or.inr ⟨_, rfl⟩)
    simpa using this
  have e2 : strAt (t ++ chr ':' :: s) (t.length + 1) = s := by
    have := strAt_field (t ++ [chr ':']) s [] hs (Or.inl rfl)
    simpa using this
  have hsc := scan_noColon t (chr ':' :: s) 0
    { field := 0, timePtr := none, statusPtr := none, dataPtr := 0 } (fun c hc => (ht c hc).1)
  have hsc2 := fun p q => scan_noColon s [] p q (fun c hc => (hs c hc).1)
  simp only [List.append_nil] at hsc2
  unfold parse parseFields
  simp only [hsc, scan, hsc2, if_true, Nat.zero_add, parseTime, parseStatus, e1, e2, ite_length_pos]

/-! ### The data loop -/

/-- The nibble values stored by the data loop. -/
def nibbles (pf : Platform) : List UInt8 → List Nat
  | [] => []
  | c :: cs =>
    if c = chr ' ' then nibbles pf cs
    else if c = chr '#' ∨ c = chr ';' then []
    else match decodeChar pf c with
      | none => nibbles pf cs
      | some v => v :: nibbles pf cs

/-- Storing the nibbles. -/
def store : List Nat → Bool → (Nat → UInt8) → Nat → Res ((Nat → UInt8) × Nat)
  | [], _, d, len => .ok (d, len)
  | v :: vs, false, d, len => do
    let d' ← wr maxPacket d len (UInt8.ofNat (v * 16))
    store vs true d' len
  | v :: vs, true, d, len => do
    let old ← rd maxPacket d len
    let d' ← wr maxPacket d len (old ||| UInt8.ofNat v)
    store vs false d' ((len + 1) % 256)

theorem dataLoop_eq (pf : Platform) (cs : List UInt8) (f : Bool) (d : Nat → UInt8) (len : Nat) :
    dataLoop pf cs f d len = store (nibbles pf cs) f d len := by
  induction cs generalizing f d len with
  | nil => simp [dataLoop, nibbles, store]
  | cons c cs ih =>
    simp only [dataLoop, nibbles]
    split
    · exact ih _ _ _
    · split
      · simp [store]
      · cases decodeChar pf c with
        | none => exact ih _ _ _
        | some v => cases f <;> simp [store, ih]

/-- Bytes formed by pairs of nibbles; a left-over nibble forms none. -/
def pack : List Nat → List UInt8
  | v :: w :: t => (UInt8.ofNat (v * 16) ||| UInt8.ofNat w) :: pack t
  | _ => []

theorem pack_length (vs : List Nat) : (pack vs).length = vs.length / 2 := by
  induction vs using pack.induct with
  | case1 v w t ih => simp [pack, ih]; omega
  | case2 t h =>
    cases t with
    | nil => rfl
    | cons a t =>
      cases t with
      | nil => simp [pack]
      | cons b t => exact absurd rfl (h a b t)

theorem store_ok (vs : List Nat) (d : Nat → UInt8) (len : Nat) (h : 2 * len + vs.length ≤ 64) :
    ∃ d', store vs false d len = .ok (d', len + (pack vs).length) ∧ (∀ i < len, d' i = d i) ∧
      ∀ j (hj : j < (pack vs).length), d' (len + j) = (pack vs)[j] := by
  induction vs using pack.induct generalizing d len with
  | case1 v w t ih =>
    simp only [List.length_cons] at h
    simp only [store, maxPacket]
    rw [wr_of_lt _ _ (by omega)]
    simp only [Res.ok_bind]
    rw [rd_of_lt _ (by omega), Res.ok_bind, wr_of_lt _ _ (by omega), Res.ok_bind]
    rw [Nat.mod_eq_of_lt (by omega)]
    obtain ⟨d', h1, h2, h3⟩ := ih (upd (upd d len (UInt8.ofNat (v * 16))) len
      (upd d len (UInt8.ofNat (v * 16)) len ||| UInt8.ofNat w)) (len + 1) (by omega)
    refine ⟨d', ?_, ?_, ?_⟩
    · rw [h1]; simp [pack]; omega
    · intro i hi
      rw [h2 i (by omega), upd_other _ _ (by omega), upd_other _ _ (by omega)]
    · intro j hj
      cases j with
      | zero => rw [Nat.add_zero, h2 len (by omega)]; simp [pack]
      | succ j =>
        have := h3 j (by simp [pack] at hj; omega)
        rw [show len + (j + 1) = len + 1 + j by omega, this]; simp [pack]
  | case2 t h0 =>
    cases t with
    | nil => exact ⟨d, by simp [store, pack], fun _ _ => rfl, by simp [pack]⟩
    | cons a t =>
      cases t with
      | nil =>
        simp only [List.length_singleton] at h
        simp only [store, maxPacket]
        rw [wr_of_lt _ _ (by omega)]
        refine ⟨_, rfl, ?_, by simp [pack]⟩
        intro i hi
        rw [upd_other _ _ (by omega)]
      | cons b t => exact absurd rfl (h0 a b t)

theorem store_ub (vs : List Nat) (d : Nat → UInt8) (len : Nat) (h : 64 < 2 * len + vs.length) (hl : len ≤ 32) :
    store vs false d len = .ub := by
  induction vs using pack.induct generalizing d len with
  | case1 v w t ih =>
    simp only [List.length_cons] at h
    simp only [store, maxPacket]
    by_cases h1 : len < 32
    · rw [wr_of_lt _ _ (by omega)]
      simp only [Res.ok_bind]
      rw [rd_of_lt _ (by omega), Res.ok_bind, wr_of_lt _ _ (by omega), Res.ok_bind]
      rw [Nat.mod_eq_of_lt (by omega)]
      exact ih _ _ (by omega) (by omega)
    · rw [wr_of_ge _ _ (by omega)]; rfl
  | case2 t h0 =>
    cases t with
    | nil => simp at h; omega
    | cons a t =>
      cases t with
      | nil =>
        simp only [List.length_singleton] at h
        simp only [store, maxPacket]
        rw [wr_of_ge _ _ (by omega)]; rfl
      | cons b t => exact absurd rfl (h0 a b t)

theorem nibbles_append_space (pf : Platform) (k : Nat) (t : List UInt8) :
    nibbles pf (List.replicate k 32 ++ t) = nibbles pf t := by
  induction k with
  | zero => rfl
  | succ k ih =>
    rw [List.replicate_succ, List.cons_append]
    simp only [nibbles]
    rw [if_pos (by decide), ih]

theorem hexDigit_char {v : Nat} {c : UInt8} (h : HexDigit v c) :
    hexVal c = some v ∧ c ≠ chr ' ' ∧ c ≠ chr '#' ∧ c ≠ chr ';' ∧ c ≠ chr ':' ∧ c ≠ 0 ∧ v < 16 := by
  unfold HexDigit at h
  have hv : v < 16 := by omega
  refine ⟨?_, ?_, ?_, ?_, ?_, ?_, hv⟩
  · unfold hexVal
    rcases h with ⟨h1, h2⟩ | ⟨h1, h2, h3 | h3⟩
    · rw [if_neg (by omega), if_neg (by omega), if_pos (by omega)]; simp; omega
    · rw [if_pos (by omega)]; simp; omega
    · rw [if_neg (by omega), if_pos (by omega)]; simp; omega
  all_goals
    intro hc
    subst hc
    revert h
    first
      | (rw [show (chr ' ').toNat = 32 from by decide]; omega)
      | (rw [show (chr '#').toNat = 35 from by decide]; omega)
      | (rw [show (chr ';').toNat = 59 from by decide]; omega)
      | (rw [show (chr ':').toNat = 58 from by decide]; omega)
      | (rw [show (0 : UInt8).toNat = 0 from by decide]; omega)

theorem nibbles_hex (pf : Platform) {v : Nat} {c : UInt8} (h : HexDigit v c) (t : List UInt8) :
    nibbles pf (c :: t) = v :: nibbles pf t := by
  obtain ⟨h1, h2, h3, h4, _, _⟩ := hexDigit_char h
  simp [nibbles, h2, h3, h4, decodeChar, h1]

theorem nibble_or : ∀ hi < 16, ∀ lo < 16,
    UInt8.ofNat (hi * 16) ||| UInt8.ofNat lo = UInt8.ofNat (16 * hi + lo) := by decide

theorem spelling_nibbles (pf : Platform) {bs t : List UInt8} (h : Spelling bs t) (rest : List UInt8) :
    ∃ vs, nibbles pf (t ++ rest) = vs ++ nibbles pf rest ∧ vs.length = 2 * bs.length ∧
      ∀ ws, pack (vs ++ ws) = bs ++ pack ws := by
  induction h with
  | nil => exact ⟨[], rfl, rfl, fun _ => rfl⟩
  | space _ ih =>
    obtain ⟨vs, h1, h2, h3⟩ := ih
    refine ⟨vs, ?_, h2, h3⟩
    rw [List.cons_append, nibbles, if_pos (by decide), h1]
  | @byte bs t hi lo ch cl k hh hlo _ ih =>
    obtain ⟨vs, h1, h2, h3⟩ := ih
    refine ⟨hi :: lo :: vs, ?_, ?_, ?_⟩
    · rw [List.cons_append, nibbles_hex pf hh, List.append_assoc, nibbles_append_space, List.cons_append,
        nibbles_hex pf hlo, h1]
      rfl
    · simp [h2]; omega
    · intro ws
      simp only [List.cons_append, pack, h3]
      rw [nibble_or hi (hexDigit_char hh).2.2.2.2.2.2 lo (hexDigit_char hlo).2.2.2.2.2.2]

theorem nibbles_spelling_append (pf : Platform) {bs t : List UInt8} (h : Spelling bs t) (rest : List UInt8) :
    nibbles pf (t ++ rest) = nibbles pf t ++ nibbles pf rest := by
  induction h with
  | nil => rfl
  | space _ ih =>
    rw [List.cons_append, nibbles, if_pos (by decide), ih]
    conv => rhs; rw [nibbles, if_pos (by decide)]
  | @byte bs t hi lo ch cl k hh hlo _ ih =>
    rw [List.cons_append, nibbles_hex pf hh, List.append_assoc, nibbles_append_space, List.cons_append,
        nibbles_hex pf hlo, ih, nibbles_hex pf hh, nibbles_append_space, nibbles_hex pf hlo]
    rfl

theorem spelling_clean {bs t : List UInt8} (h : Spelling bs t) : Clean t := by
  induction h with
  | nil => intro c hc; simp at hc
  | space _ ih =>
    intro c hc
    rcases List.mem_cons.mp hc with rfl | hc
    · decide
    · exact ih c hc
  | @byte bs t hi lo ch cl k hh hlo _ ih =>
    intro c hc
    rcases List.mem_cons.mp hc with rfl | hc
    · exact ⟨(hexDigit_char hh).2.2.2.2.1, (hexDigit_char hh).2.2.2.2.2.1⟩
    · rcases List.mem_append.mp hc with hc | hc
      · have := (List.mem_replicate.mp hc).2; subst this; decide
      · rcases List.mem_cons.mp hc with rfl | hc
        · exact ⟨(hexDigit_char hlo).2.2.2.2.1, (hexDigit_char hlo).2.2.2.2.2.1⟩
        · exact ih c hc

theorem tail_nibbles (pf : Platform) {t : List UInt8} (h : Tail t) : nibbles pf t = [] := by
  cases h with
  | nil => rfl
  | comment hc _ =>
    rw [nibbles]
    rcases hc with rfl | rfl
    · rw [if_neg (by decide), if_pos (by decide)]
    · rw [if_neg (by decide), if_pos (by decide)]

theorem tail_clean {t : List UInt8} (h : Tail t) : Clean t := by
  cases h with
  | nil => intro c hc; simp at hc
  | comment hc ht =>
    intro c hx
    rcases List.mem_cons.mp hx with rfl | hx
    · rcases hc with rfl | rfl <;> decide
    · exact ht c hx

theorem Clean.append {a b : List UInt8} (ha : Clean a) (hb : Clean b) : Clean (a ++ b) := by
  intro c hc
  rcases List.mem_append.mp hc with h | h
  · exact ha c h
  · exact hb c h

/-- The data loop on a spelled packet, an optional stray digit and an optional comment. -/
theorem dataLoop_spelling (pf : Platform) (g : Nat → UInt8) {bs t tl : List UInt8} (stray : List UInt8)
    (hs : Spelling bs t) (hst : stray = [] ∨ ∃ v c, HexDigit v c ∧ stray = [c]) (htl : Tail tl)
    (hlen : 2 * bs.length + stray.length ≤ 64) :
    ∃ d, dataLoop pf (t ++ (stray ++ tl)) false g 0 = .ok (d, bs.length) ∧
      ∀ j (hj : j < bs.length), d j = bs[j] := by
  obtain ⟨vs, h1, h2, h3⟩ := spelling_nibbles pf hs (stray ++ tl)
  have hst' : ∃ ws, nibbles pf (stray ++ tl) = ws ∧ ws.length = stray.length ∧ pack ws = [] := by
    rcases hst with rfl | ⟨v, c, hv, rfl⟩
    · exact ⟨[], by simpa using tail_nibbles pf htl, rfl, rfl⟩
    · exact ⟨[v], by rw [List.singleton_append, nibbles_hex pf hv, tail_nibbles pf htl], rfl, rfl⟩
  obtain ⟨ws, hw1, hw2, hw3⟩ := hst'
  rw [dataLoop_eq, h1, hw1]
  obtain ⟨d', e1, _, e3⟩ := store_ok (vs ++ ws) g 0 (by simp [h2, hw2]; omega)
  have hp : pack (vs ++ ws) = bs := by rw [h3, hw3, List.append_nil]
  refine ⟨d', ?_, ?_⟩
  · rw [e1, hp]; simp
  · intro j hj
    have := e3 j (by rw [hp]; exact hj)
    rw [Nat.zero_add] at this
    rw [this]; simp [hp]

/-! ### Prefixes -/

theorem decDigit_char {v : Nat} {c : UInt8} (h : DecDigit v c) :
    decVal c = some v ∧ isSpace c = false ∧ c ≠ chr '-' ∧ c ≠ chr '+' ∧ c ≠ chr ':' ∧ c ≠ 0 := by
  obtain ⟨h1, h2⟩ := h
  refine ⟨?_, ?_, ?_, ?_, ?_, ?_⟩
  · unfold decVal; rw [if_pos (by omega)]; simp; omega
  · simp [isSpace]; omega
  all_goals
    intro hc
    subst hc
    revert h2
    first
      | (rw [show (chr '-').toNat = 45 from by decide]; omega)
      | (rw [show (chr '+').toNat = 43 from by decide]; omega)
      | (rw [show (chr ':').toNat = 58 from by decide]; omega)
      | (rw [show (0 : UInt8).toNat = 0 from by decide]; omega)

theorem _root_.P1P2.Spec.Digits.map_val {P : Nat → UInt8 → Prop} {val : UInt8 → Option Nat}
    (hP : ∀ v c, P v c → val c = some v) {ds cs} (h : Digits P ds cs) : cs.map val = ds.map some := by
  induction h with
  | nil => rfl
  | cons h _ ih => simp [hP _ _ h, ih]

theorem skipSign_digits {c : UInt8} (cs : List UInt8) (h1 : isSpace c = false) (h2 : c ≠ chr '-')
    (h3 : c ≠ chr '+') : skipSign (c :: cs) = (false, c :: cs) := by
  simp [skipSign, h1, h2, h3]

theorem atoll_digits {ds : List Nat} {cs : List UInt8} (h : Digits DecDigit ds cs) :
    atoll cs = if digitsValue 10 ds < 2 ^ 63 then .ok (digitsValue 10 ds : Int) else .ub := by
  have hacc := accDigits_digits (b := 10) (val := decVal) ds cs [] 0
    (Digits.map_val (val := decVal) (fun v c hv => (decDigit_char hv).1) h) (by simp)
  rw [List.append_nil] at hacc
  have hsk : skipSign cs = (false, cs) := by
    cases h with
    | nil => rfl
    | cons hv _ =>
      obtain ⟨_, a, b, c, _⟩ := decDigit_char hv
      exact skipSign_digits _ a b c
  unfold atoll
  rw [hsk]
  simp only [hacc]
  show (if _ then _ else _) = _
  simp only [Bool.false_eq_true, if_false]
  unfold digitsValue
  generalize List.foldl (fun a d => a * 10 + d) 0 ds = n
  by_cases hn : n < 2 ^ 63
  · rw [if_pos hn, if_pos (by omega)]
  · rw [if_neg hn, if_neg (by omega)]

theorem hexDigit_more {v : Nat} {c : UInt8} (h : HexDigit v c) :
    isSpace c = false ∧ c ≠ chr '-' ∧ c ≠ chr '+' ∧ c ≠ chr 'x' ∧ c ≠ chr 'X' := by
  unfold HexDigit at h
  refine ⟨?_, ?_, ?_, ?_, ?_⟩
  · simp [isSpace]; omega
  all_goals
    intro hc
    subst hc
    revert h
    first
      | (rw [show (chr '-').toNat = 45 from by decide]; omega)
      | (rw [show (chr '+').toNat = 43 from by decide]; omega)
      | (rw [show (chr 'x').toNat = 120 from by decide]; omega)
      | (rw [show (chr 'X').toNat = 88 from by decide]; omega)

theorem strtol16_digits (pf : Platform) {ds : List Nat} {cs : List UInt8} (h : Digits HexDigit ds cs) :
    strtol16 pf cs = min (digitsValue 16 ds : Int) (2 ^ (pf.longBits - 1) - 1) := by
  have hacc := accDigits_digits (b := 16) (val := hexVal) ds cs [] 0
    (Digits.map_val (val := hexVal) (fun v c hv => (hexDigit_char hv).1) h) (by simp)
  rw [List.append_nil] at hacc
  have hsk : skipSign cs = (false, cs) := by
    cases h with
    | nil => rfl
    | cons hv _ =>
      obtain ⟨a, b, c, _⟩ := hexDigit_more hv
      exact skipSign_digits _ a b c
  have hx : ∀ z x y t, cs = z :: x :: y :: t → ¬ (x = chr 'x' ∨ x = chr 'X') := by
    intro z x y t hc
    subst hc
    cases h with
    | cons _ h =>
      cases h with
      | cons hv _ =>
        have := hexDigit_more hv
        intro hor
        rcases hor with h | h
        · exact this.2.2.2.1 h
        · exact this.2.2.2.2 h
  have hr : skip0x cs = cs := by
    unfold skip0x
    split
    · rename_i z x y t
      rw [if_neg]
      intro hh
      exact hx z x y t rfl hh.2.1
    · rfl
  unfold strtol16
  rw [hsk]
  simp only []
  rw [hr, hacc]
  simp only [Bool.false_eq_true, if_false]
  unfold digitsValue
  generalize List.foldl (fun a d => a * 16 + d) 0 ds = n
  have hpos : (0:Int) < 2 ^ (pf.longBits - 1) := Int.pow_pos (by omega)
  generalize (2:Int) ^ (pf.longBits - 1) = lim at hpos ⊢
  rw [if_neg (by omega)]
  split <;> omega

theorem _root_.P1P2.Spec.Digits.clean {P : Nat → UInt8 → Prop} (hP : ∀ v c, P v c → c ≠ chr ':' ∧ c ≠ 0) {ds cs}
    (h : Digits P ds cs) : Clean cs := by
  induction h with
  | nil => intro c hc; simp at hc
  | cons h _ ih =>
    intro c hc
    rcases List.mem_cons.mp hc with rfl | hc
    · exact hP _ _ h
    · exact ih c hc

theorem fmtDec_digits (n : Nat) : Digits DecDigit (digits 10 n) (fmtDec n) := by
  have h := digits_mem_lt (b := 10) (by omega) n
  unfold fmtDec
  generalize digits 10 n = l at h
  induction l with
  | nil => exact .nil
  | cons d ds ih =>
    refine .cons ?_ (ih (fun x hx => h x (by simp [hx])))
    have := h d (by simp)
    exact ⟨this, by rw [digitChar_toNat (by omega), if_pos this]⟩

theorem hexDigit_digitChar {d : Nat} (h : d < 16) : HexDigit d (digitChar d) := by
  unfold HexDigit
  rw [digitChar_toNat h]
  split <;> omega

theorem fmtHex2_digits (n : Nat) :
    ∃ ds, Digits HexDigit ds (fmtHex2 n) ∧ digitsValue 16 ds = n := by
  refine ⟨List.replicate (2 - (digits 16 n).length) 0 ++ digits 16 n, ?_, ?_⟩
  · have h : ∀ d ∈ List.replicate (2 - (digits 16 n).length) 0 ++ digits 16 n, d < 16 := by
      intro d hd
      rcases List.mem_append.mp hd with h | h
      · have := (List.mem_replicate.mp h).2; omega
      · exact digits_mem_lt (by omega) n d h
    unfold fmtHex2
    simp only []
    generalize List.replicate (2 - (digits 16 n).length) 0 ++ digits 16 n = l at h
    induction l with
    | nil => exact .nil
    | cons d ds ih =>
      exact .cons (hexDigit_digitChar (h d (by simp))) (ih (fun x hx => h x (by simp [hx])))
  · have h := digits_value (b := 16) (by omega) n
    unfold digitsValue at h ⊢
    rw [List.foldl_append]
    have : ∀ k, List.foldl (fun a d => a * 16 + d) 0 (List.replicate k 0) = 0 := by
      intro k; induction k with
      | zero => rfl
      | succ k ih => simp [List.replicate_succ, ih]
    rw [this, h]

theorem spelling_hex (bs : List UInt8) : Spelling bs (bs.flatMap (fun b => fmtHex2 b.toNat)) := by
  induction bs with
  | nil => exact .nil
  | cons b bs ih =>
    have hb := b.toNat_lt
    rw [List.flatMap_cons, fmtHex2_byte]
    have h := Spelling.byte (bs := bs) 0 (hexDigit_digitChar (d := b.toNat / 16) (by omega))
      (hexDigit_digitChar (d := b.toNat % 16) (by omega)) ih
    have hb2 : UInt8.ofNat (16 * (b.toNat / 16) + b.toNat % 16) = b := by
      rw [Nat.div_add_mod]; simp
    rw [hb2] at h
    exact h

theorem append_lt (m : Message) (b : UInt8) (h : m.length < 32) :
    m.append b = .ok { m with data := upd m.data m.length b, length := m.length + 1 } := by
  have h' : m.length < maxPacket := h
  simp [append, h']

theorem append_ge (m : Message) (b : UInt8) (h : 32 ≤ m.length) : m.append b = .ok m := by
  have h' : ¬ m.length < maxPacket := Nat.not_lt.mpr h
  simp [append, h']

theorem toU32_of_lt {n : Nat} (h : n < 2 ^ 32) : toU32 (n : Int) = n := by
  unfold toU32; omega

end Message
end P1P2
