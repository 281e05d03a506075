import Verif.Model.Text
import Verif.Spec.Message
/-! Lemmas about the text conversions. -/
namespace P1P2
open Spec

theorem digits_lt {b n : Nat} (h : n < b) : digits b n = [n] := by
  rw [digits]; simp [h]

theorem digits_ge {b n : Nat} (hb : 2 ≤ b) (h : b ≤ n) : digits b n = digits b (n / b) ++ [n % b] := by
  rw [digits]
  have h1 : ¬ (b ≤ 1 ∨ n < b) := by omega
  simp [h1]

theorem digits_mem_lt {b : Nat} (hb : 2 ≤ b) (n : Nat) : ∀ d ∈ digits b n, d < b := by
  induction n using Nat.strongRecOn with
  | ind n ih =>
    by_cases h : n < b
    · simp [digits_lt h, h]
    · rw [digits_ge hb (by omega)]
      intro d hd
      rcases List.mem_append.mp hd with h1 | h1
      · exact ih (n / b) (Nat.div_lt_self (by omega) (by omega)) d h1
      · simp at h1; subst h1; exact Nat.mod_lt _ (by omega)

theorem digits_value {b : Nat} (hb : 2 ≤ b) (n : Nat) : digitsValue b (digits b n) = n := by
  induction n using Nat.strongRecOn with
  | ind n ih =>
    by_cases h : n < b
    · simp [digits_lt h, digitsValue]
    · rw [digits_ge hb (by omega)]
      have := ih (n / b) (Nat.div_lt_self (by omega) (by omega))
      simp only [digitsValue] at this ⊢
      rw [List.foldl_append, this]
      simp only [List.foldl_cons, List.foldl_nil]
      have := Nat.div_add_mod n b
      rw [Nat.mul_comm]; exact this

theorem digits_ne_nil {b : Nat} (hb : 2 ≤ b) (n : Nat) : digits b n ≠ [] := by
  by_cases h : n < b
  · simp [digits_lt h]
  · rw [digits_ge hb (by omega)]; simp

theorem digitChar_eq_ascii : ∀ d, d < 16 → digitChar d = UInt8.ofNat (Nat.digitChar d).toNat := by
  decide

theorem digits_ascii {b : Nat} (hb : 2 ≤ b) (hb' : b ≤ 16) (n : Nat) :
    (digits b n).map digitChar = ascii (Nat.toDigits b n) := by
  induction n using Nat.strongRecOn with
  | ind n ih =>
    by_cases h : n < b
    · rw [digits_lt h, Nat.toDigits_of_lt_base h]
      simp [ascii, digitChar_eq_ascii n (by omega)]
    · rw [digits_ge hb (by omega), Nat.toDigits_of_base_le (by omega) (by omega)]
      have := ih (n / b) (Nat.div_lt_self (by omega) (by omega))
      have hm := Nat.mod_lt n (y := b) (by omega)
      simp only [ascii, List.map_append, List.map_cons, List.map_nil] at this ⊢
      rw [this, digitChar_eq_ascii (n % b) (by omega)]

theorem digits_length_eq {b : Nat} (hb : 2 ≤ b) (hb' : b ≤ 16) (n : Nat) :
    (digits b n).length = (Nat.toDigits b n).length := by
  have := congrArg List.length (digits_ascii hb hb' n)
  simpa [ascii] using this

theorem fmtDec_eq (n : Nat) : fmtDec n = ascii (Nat.toDigits 10 n) := by
  simp [fmtDec, digits_ascii]

theorem ascii_append (a b : List Char) : ascii (a ++ b) = ascii a ++ ascii b := by simp [ascii]

theorem fmtHex2_eq (n : Nat) : fmtHex2 n = ascii (hex2 n) := by
  have h0 := digits_length_eq (b := 16) (by omega) (by omega) n
  have hne := digits_ne_nil (b := 16) (by omega) n
  have hpos : 0 < (digits 16 n).length := by
    cases h : digits 16 n with
    | nil => exact absurd h hne
    | cons _ _ => simp
  unfold fmtHex2 hex2
  simp only [List.map_append, digits_ascii (b := 16) (by omega) (by omega) n]
  by_cases h : (Nat.toDigits 16 n).length < 2
  · have h1 : 2 - (digits 16 n).length = 1 := by omega
    simp only [h1, h, if_true]
    simp [ascii, digitChar]
  · have h1 : 2 - (digits 16 n).length = 0 := by omega
    simp [h1, h]

theorem fmtHex2_byte (b : UInt8) : fmtHex2 b.toNat = [digitChar (b.toNat / 16), digitChar (b.toNat % 16)] := by
  have hb := b.toNat_lt
  unfold fmtHex2
  by_cases h : b.toNat < 16
  · rw [digits_lt h]
    have h1 : b.toNat / 16 = 0 := by omega
    have h2 : b.toNat % 16 = b.toNat := by omega
    simp [h1, h2]
  · rw [digits_ge (by omega) (by omega), digits_lt (n := b.toNat / 16) (by omega)]
    simp

theorem fmtHex2_byte_length (b : UInt8) : (fmtHex2 b.toNat).length = 2 := by
  rw [fmtHex2_byte]; rfl

theorem digits_length_le {b k n : Nat} (hb : 2 ≤ b) (hb' : b ≤ 16) (hk : 0 < k) (h : n < b ^ k) :
    (digits b n).length ≤ k := by
  rw [digits_length_eq hb hb']
  exact (Nat.length_toDigits_le_iff (by omega) hk).mpr h

theorem fmtDec_length_le {n : Nat} (h : n < 2 ^ 64) : (fmtDec n).length ≤ 20 := by
  simp only [fmtDec, List.length_map]
  exact digits_length_le (by omega) (by omega) (by omega) (Nat.lt_of_lt_of_le h (by decide))

theorem fmtHex2_length_le {n : Nat} (h : n < 2 ^ 32) : (fmtHex2 n).length ≤ 8 := by
  have : (digits 16 n).length ≤ 8 :=
    digits_length_le (by omega) (by omega) (by omega) (Nat.lt_of_lt_of_le h (by decide))
  simp only [fmtHex2, List.length_map, List.length_append, List.length_replicate]
  omega

theorem digitChar_toNat {d : Nat} (h : d < 16) :
    (digitChar d).toNat = if d < 10 then 48 + d else 87 + d := by
  revert d; decide

theorem fmtDec_mem (n : Nat) : ∀ c ∈ fmtDec n, ∃ d < 10, c = digitChar d := by
  intro c hc
  simp only [fmtDec, List.mem_map] at hc
  obtain ⟨d, hd, rfl⟩ := hc
  exact ⟨d, digits_mem_lt (by omega) n d hd, rfl⟩

theorem fmtHex2_mem (n : Nat) : ∀ c ∈ fmtHex2 n, ∃ d < 16, c = digitChar d := by
  intro c hc
  simp only [fmtHex2, List.mem_map, List.mem_append, List.mem_replicate] at hc
  obtain ⟨d, hd, rfl⟩ := hc
  rcases hd with ⟨_, rfl⟩ | hd
  · exact ⟨0, by omega, rfl⟩
  · exact ⟨d, digits_mem_lt (by omega) n d hd, rfl⟩

theorem digitChar_ne {d : Nat} (h : d < 16) :
    digitChar d ≠ 0 ∧ digitChar d ≠ chr ':' ∧ digitChar d ≠ chr ' ' ∧ digitChar d ≠ chr '#' ∧
    digitChar d ≠ chr ';' ∧ digitChar d ≠ chr '\n' ∧ digitChar d ≠ chr '\r' := by
  revert d; decide

/-! ### Buffers and C strings -/

theorem writeList_out (buf : Nat → UInt8) (off : Nat) (s : List UInt8) (j : Nat)
    (h : j < off ∨ off + s.length ≤ j) : writeList buf off s j = buf j := by
  induction s generalizing buf off with
  | nil => rfl
  | cons c cs ih =>
    simp only [writeList]
    rw [ih]
    · apply upd_other; simp at h; omega
    · simp at h; omega

theorem writeList_in (buf : Nat → UInt8) (off : Nat) (s : List UInt8) (j : Nat) (h : j < s.length) :
    writeList buf off s (off + j) = s[j] := by
  induction s generalizing buf off j with
  | nil => simp at h
  | cons c cs ih =>
    simp only [writeList]
    cases j with
    | zero => rw [writeList_out _ _ _ _ (by omega)]; simp
    | succ j =>
      have := ih (upd buf off c) (off + 1) j (by simpa using h)
      rw [show off + (j + 1) = off + 1 + j by omega, this]; simp

/-- The buffer holds the text `s` followed by NUL. -/
def Holds (buf : Nat → UInt8) (s : List UInt8) : Prop :=
  (∀ j (h : j < s.length), buf j = s[j]) ∧ buf s.length = 0

theorem Holds.append {buf : Nat → UInt8} {s t : List UInt8} (h : Holds buf s) :
    Holds (writeList buf s.length (t ++ [0])) (s ++ t) := by
  constructor
  · intro j hj
    by_cases h1 : j < s.length
    · rw [writeList_out _ _ _ _ (Or.inl h1), h.1 j h1, List.getElem_append_left h1]
    · have := writeList_in buf s.length (t ++ [0]) (j - s.length) (by simp at hj ⊢; omega)
      rw [show s.length + (j - s.length) = j by omega] at this
      rw [this]
      simp only [List.length_append] at hj
      have e1 : (t ++ [(0:UInt8)])[j - s.length]'(by simp; omega) = t[j - s.length]'(by omega) :=
        List.getElem_append_left (by omega)
      have e2 : (s ++ t)[j]'(by simp; omega) = t[j - s.length]'(by omega) :=
        List.getElem_append_right (by omega)
      rw [e1, e2]
  · have := writeList_in buf s.length (t ++ [0]) t.length (by simp)
    rw [List.length_append, this]; simp

theorem snprintfAt_fits {cap : Nat} {buf : Nat → UInt8} {off : Nat} {s : List UInt8}
    (h : off + s.length < cap) : snprintfAt cap buf off s = .ok (writeList buf off (s ++ [0])) := by
  unfold snprintfAt
  have h1 : ¬ off > cap := by omega
  have h2 : ¬ off = cap := by omega
  simp only [h1, h2, if_false]
  rw [List.take_of_length_le (by omega)]

theorem readCStr_suffix {buf : Nat → UInt8} {s : List UInt8} (h : Holds buf s)
    (hne : ∀ c ∈ s, c ≠ 0) (i rem : Nat) (hi : i ≤ s.length) (hr : s.length - i < rem) :
    readCStr buf rem i = .ok (s.drop i) := by
  induction rem generalizing i with
  | zero => omega
  | succ rem ih =>
    simp only [readCStr]
    by_cases h1 : i = s.length
    · subst h1; simp [h.2]
    · have h2 : i < s.length := by omega
      have h3 := h.1 i h2
      have h4 : s[i] ≠ 0 := hne _ (List.getElem_mem h2)
      simp only [h3, h4, if_false]
      rw [ih (i + 1) (by omega) (by omega)]
      simp only [Res.ok_bind]
      rw [← List.drop_eq_getElem_cons h2]

theorem readCStr_holds {buf : Nat → UInt8} {s : List UInt8} (h : Holds buf s)
    (hne : ∀ c ∈ s, c ≠ 0) {n : Nat} (hn : s.length < n) : readCStr buf n 0 = .ok s := by
  simpa using readCStr_suffix h hne 0 n (by omega) (by omega)

/-! ### Reading numbers -/

theorem accDigits_digits {b : Nat} {val : UInt8 → Option Nat} (ds : List Nat) (cs : List UInt8)
    (rest : List UInt8) (acc : Nat)
    (hcs : cs.map val = ds.map some)
    (hrest : ∀ c ∈ rest.head?, val c = none) :
    accDigits b val acc (cs ++ rest) = ds.foldl (fun a d => a * b + d) acc := by
  induction ds generalizing cs acc with
  | nil =>
    simp at hcs; subst hcs
    cases rest with
    | nil => simp [accDigits]
    | cons c cs => simp [accDigits, hrest c (by simp)]
  | cons d ds ih =>
    cases cs with
    | nil => simp at hcs
    | cons c cs =>
      simp at hcs
      simp [accDigits, hcs.1, ih cs _ hcs.2]

theorem hexVal_digitChar {d : Nat} (h : d < 16) : hexVal (digitChar d) = some d := by
  revert d; decide

theorem decVal_digitChar {d : Nat} (h : d < 10) : decVal (digitChar d) = some d := by
  revert d; decide

end P1P2
