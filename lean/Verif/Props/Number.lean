import Verif.Props.Message
import Verif.Spec.Number
/-!
# C143: prefixes with blanks, signs, `0x` and junk

Every time prefix and every status prefix, not only strings of digits: white space in front, a sign,
`0x`, anything behind the digits, nothing at all.
-/
namespace P1P2
open Spec Message

theorem isSpace_iff (c : UInt8) : isSpace c = true ↔ Blank c := by
  have : isSpace c = decide (c ∈ [32, 9, 10, 11, 12, 13]) :=
    forall_u8 (P := fun c => isSpace c = decide (c ∈ [32, 9, 10, 11, 12, 13])) (by decide +kernel) c
  rw [this]
  simp [Blank]

theorem decVal_none {c : UInt8} (h : ¬ ∃ v, DecDigit v c) : decVal c = none := by
  unfold decVal
  split
  · rename_i hc
    exact absurd ⟨c.toNat - 48, by omega, by omega⟩ h
  · rfl

theorem decVal_some {c : UInt8} {v : Nat} (h : decVal c = some v) : DecDigit v c := by
  unfold decVal at h
  split at h
  · simp only [Option.some.injEq] at h
    exact ⟨by omega, by omega⟩
  · cases h

theorem hexVal_some {c : UInt8} {v : Nat} (h : hexVal c = some v) : HexDigit v c := by
  unfold hexVal at h
  unfold HexDigit
  split at h
  · simp only [Option.some.injEq] at h; omega
  · split at h
    · simp only [Option.some.injEq] at h; omega
    · split at h
      · simp only [Option.some.injEq] at h; omega
      · cases h

theorem hexVal_none {c : UInt8} (h : ¬ ∃ v, HexDigit v c) : hexVal c = none := by
  cases hc : hexVal c with
  | none => rfl
  | some v => exact absurd ⟨v, hexVal_some hc⟩ h

theorem dropWhile_blank {ws body : List UInt8} (hw : ∀ c ∈ ws, Blank c) (hb : NotStart Blank body) :
    (ws ++ body).dropWhile isSpace = body := by
  induction ws with
  | nil =>
    cases body with
    | nil => rfl
    | cons c r =>
      have : isSpace c = false := by
        cases h : isSpace c with
        | false => rfl
        | true => exact absurd ((isSpace_iff c).mp h) (hb c r rfl)
      simp [this]
  | cons c ws ih =>
    have : isSpace c = true := (isSpace_iff c).mpr (hw c (by simp))
    simp only [List.cons_append, List.dropWhile_cons, this, if_true]
    exact ih (fun x hx => hw x (by simp [hx]))

/-- White space and the sign are taken off. -/
theorem skipSign_spec {ws sg body : List UInt8} {neg : Bool} (hw : ∀ c ∈ ws, Blank c) (hs : Sign neg sg)
    (hb : Begins sg body) : skipSign (ws ++ (sg ++ body)) = (neg, body) := by
  have h43 : chr '+' = 43 := by decide
  have h45 : chr '-' = 45 := by decide
  unfold skipSign
  cases hs with
  | none =>
    have hb := hb rfl
    rw [List.nil_append, dropWhile_blank hw (fun c r hc h => hb c r hc (Or.inl h))]
    cases body with
    | nil => rfl
    | cons c r =>
      have := hb c r rfl
      simp only [h43, h45]
      rw [if_neg (fun h => this (Or.inr (Or.inr h))), if_neg (fun h => this (Or.inr (Or.inl h)))]
  | plus =>
    rw [dropWhile_blank hw (by rintro c r hc; simp at hc; rw [← hc.1]; unfold Blank; decide)]
    simp only [List.singleton_append, h43, h45]
    rw [if_neg (by decide), if_pos trivial]
  | minus =>
    rw [dropWhile_blank hw (by rintro c r hc; simp at hc; rw [← hc.1]; unfold Blank; decide)]
    simp only [List.singleton_append, h45]
    rw [if_pos trivial]

theorem atoll_spec {neg : Bool} {ds : List Nat} {s : List UInt8} (h : DecNumber neg ds s) :
    atoll s = if -2 ^ 63 ≤ signed neg (digitsValue 10 ds) ∧ signed neg (digitsValue 10 ds) < 2 ^ 63
      then .ok (signed neg (digitsValue 10 ds)) else .ub := by
  obtain ⟨hw, hs, hb, hd, hr⟩ := h
  rename_i ws sg num rest
  unfold atoll
  rw [skipSign_spec hw hs hb]
  simp only
  rw [accDigits_digits (b := 10) (val := decVal) ds num rest 0
    (Digits.map_val (val := decVal) (fun v c hv => (decDigit_char hv).1) hd)
    (fun c hc => decVal_none (hr c rest.tail (by cases rest with
      | nil => simp at hc
      | cons x r => simp at hc; simp [hc])))]
  have e : digitsValue 10 ds = List.foldl (fun a d => a * 10 + d) 0 ds := rfl
  rw [← e]
  generalize digitsValue 10 ds = n
  have hb : ∀ v : Int, (if -9223372036854775808 ≤ v ∧ v ≤ 9223372036854775807 then Res.ok v else .ub) =
      if -2 ^ 63 ≤ v ∧ v < 2 ^ 63 then .ok v else .ub := by
    intro v
    by_cases hv : -2 ^ 63 ≤ v ∧ v < 2 ^ 63
    · rw [if_pos hv, if_pos (by omega)]
    · rw [if_neg hv, if_neg (by omega)]
  exact hb _

theorem skip0x_plain {t : List UInt8} (h : ¬ Ox t) : skip0x t = t := by
  unfold skip0x
  split
  · rename_i z x y r
    rw [if_neg]
    rintro ⟨rfl, hx, hv⟩
    cases hy : hexVal y with
    | none => rw [hy] at hv; cases hv
    | some v =>
      refine h ⟨x, y, r, v, rfl, ?_, hexVal_some hy⟩
      rcases hx with rfl | rfl
      · exact Or.inl (by decide)
      · exact Or.inr (by decide)
  · rfl

theorem strtol16_spec (pf : Platform) {neg : Bool} {ds : List Nat} {s : List UInt8} (h : HexNumber neg ds s) :
    strtol16 pf s = clamp pf.longBits (signed neg (digitsValue 16 ds)) := by
  have key : ∀ {num rest : List UInt8}, Digits HexDigit ds num → NotStart (fun c => ∃ v, HexDigit v c) rest →
      accDigits 16 hexVal 0 (num ++ rest) = digitsValue 16 ds := by
    intro num rest hd hr
    exact accDigits_digits (b := 16) (val := hexVal) ds num rest 0
      (Digits.map_val (val := hexVal) (fun v c hv => (hexDigit_char hv).1) hd)
      (fun c hc => hexVal_none (hr c rest.tail (by cases rest with
        | nil => simp at hc
        | cons x r => simp at hc; simp [hc])))
  have fin : ∀ v : Int, (if v < -2 ^ (pf.longBits - 1) then (-2 ^ (pf.longBits - 1) : Int)
      else if v > 2 ^ (pf.longBits - 1) - 1 then 2 ^ (pf.longBits - 1) - 1 else v) = clamp pf.longBits v := by
    intro v
    unfold clamp
    have hpos : (0:Int) < 2 ^ (pf.longBits - 1) := Int.pow_pos (by omega)
    generalize (2:Int) ^ (pf.longBits - 1) = lim at hpos ⊢
    split
    · omega
    · split <;> omega
  cases h with
  | plain hw hs hb hx hd hr =>
    unfold strtol16
    rw [skipSign_spec hw hs hb]
    simp only
    rw [skip0x_plain hx, key hd hr, fin]
    rfl
  | ox hw hs hx hn hd hr =>
    rename_i ws sg num rest x
    unfold strtol16
    rw [skipSign_spec hw hs (by
      intro _ c r hc
      simp only [List.cons.injEq] at hc
      rw [← hc.1]
      unfold Blank; decide)]
    simp only
    have : skip0x (48 :: x :: (num ++ rest)) = num ++ rest := by
      cases hd with
      | nil => exact absurd rfl hn
      | cons hv _ =>
        rename_i v c ds' cs' _
        show skip0x (48 :: x :: c :: (cs' ++ rest)) = _
        simp only [skip0x]
        have hxx : x = chr 'x' ∨ x = chr 'X' := by
          rcases hx with rfl | rfl
          · exact Or.inl (by decide)
          · exact Or.inr (by decide)
        have h0 : (48 : UInt8) = chr '0' := by decide
        rw [if_pos ⟨h0, hxx, by rw [(hexDigit_char hv).1]; rfl⟩]
        rfl
    rw [this, key hd hr, fin]
    rfl

/-- Every text can be read as a number in front of an ignored rest. -/
theorem split_digits (P : Nat → UInt8 → Prop) (val : UInt8 → Option Nat)
    (hs : ∀ c v, val c = some v → P v c) (hn : ∀ c v, P v c → val c = some v) (t : List UInt8) :
    ∃ ds num rest, t = num ++ rest ∧ Digits P ds num ∧ NotStart (fun c => ∃ v, P v c) rest := by
  induction t with
  | nil => exact ⟨[], [], [], rfl, .nil, by intro c r h; cases h⟩
  | cons c t ih =>
    cases hc : val c with
    | none =>
      refine ⟨[], [], c :: t, rfl, .nil, ?_⟩
      intro x r hx
      simp only [List.cons.injEq] at hx
      rintro ⟨v, hv⟩
      rw [← hx.1] at hv
      rw [hn _ _ hv] at hc
      cases hc
    | some v =>
      obtain ⟨ds, num, rest, h1, h2, h3⟩ := ih
      exact ⟨v :: ds, c :: num, rest, by rw [h1]; rfl, .cons (hs _ _ hc) h2, h3⟩

theorem split_sign (s : List UInt8) :
    ∃ ws sg body neg, s = ws ++ (sg ++ body) ∧ (∀ c ∈ ws, Blank c) ∧ Sign neg sg ∧ Begins sg body := by
  induction s with
  | nil => exact ⟨[], [], [], false, rfl, by simp, .none, by intro _ c r h; cases h⟩
  | cons c s ih =>
    cases hc : isSpace c with
    | true =>
      obtain ⟨ws, sg, body, neg, h1, h2, h3, h4⟩ := ih
      refine ⟨c :: ws, sg, body, neg, by rw [h1]; rfl, ?_, h3, h4⟩
      intro x hx
      rcases List.mem_cons.mp hx with rfl | hx
      · exact (isSpace_iff _).mp hc
      · exact h2 x hx
    | false =>
      have hb : ¬ Blank c := by
        intro h
        rw [(isSpace_iff c).mpr h] at hc
        cases hc
      by_cases h43 : c = 43
      · subst h43
        exact ⟨[], [43], s, false, rfl, by simp, .plus, by intro h; cases h⟩
      · by_cases h45 : c = 45
        · subst h45
          exact ⟨[], [45], s, true, rfl, by simp, .minus, by intro h; cases h⟩
        · refine ⟨[], [], c :: s, false, rfl, by simp, .none, ?_⟩
          intro _ x r hx
          simp only [List.cons.injEq] at hx
          rw [← hx.1]
          rintro (h | h | h)
          · exact hb h
          · exact h43 h
          · exact h45 h

/-- **C143, every text is covered**: any prefix is a decimal and a hexadecimal number in the sense of the
specification (possibly without digits), so `C143_prefixes` speaks about all of them. -/
theorem C143_total (s : List UInt8) :
    (∃ neg ds, DecNumber neg ds s) ∧ (∃ neg ds, HexNumber neg ds s) := by
  obtain ⟨ws, sg, body, neg, h1, h2, h3, h4⟩ := split_sign s
  subst h1
  constructor
  · obtain ⟨ds, num, rest, e1, e2, e3⟩ := split_digits DecDigit decVal (fun _ _ h => decVal_some h)
      (fun _ _ h => (decDigit_char h).1) body
    subst e1
    exact ⟨neg, ds, .mk h2 h3 h4 e2 e3⟩
  · by_cases hx : Ox body
    · obtain ⟨x, h, r, v, rfl, hxx, hv⟩ := hx
      obtain ⟨ds, num, rest, e1, e2, e3⟩ := split_digits HexDigit hexVal (fun _ _ h => hexVal_some h)
        (fun _ _ h => (hexDigit_char h).1) r
      subst e1
      exact ⟨neg, v :: ds, .ox (num := h :: num) h2 h3 hxx (by simp) (.cons hv e2) e3⟩
    · obtain ⟨ds, num, rest, e1, e2, e3⟩ := split_digits HexDigit hexVal (fun _ _ h => hexVal_some h)
        (fun _ _ h => (hexDigit_char h).1) body
      subst e1
      exact ⟨neg, ds, .plain h2 h3 h4 hx e2 e3⟩

/-- **C143**: whatever is written in the two prefixes, the time is the signed decimal number at the start
of the first, modulo 2^64, and the status the signed hexadecimal number at the start of the second, forced
into the range of `long` and reduced to 32 bits; the data bytes are unaffected.  Only a time outside the
64 bit range is undefined. -/
theorem C143_prefixes (pf : Platform) (g : Nat → UInt8) (neg neg' : Bool) (ds es : List Nat)
    (p q bs t tl : List UInt8) (hp : DecNumber neg ds p) (hq : HexNumber neg' es q)
    (hcp : ∀ c ∈ p, c ≠ 58 ∧ c ≠ 0) (hcq : ∀ c ∈ q, c ≠ 58 ∧ c ≠ 0)
    (hs : Spelling bs t) (htl : Tail tl) (hlen : bs.length ≤ 32) :
    if -2 ^ 63 ≤ signed neg (digitsValue 10 ds) ∧ signed neg (digitsValue 10 ds) < 2 ^ 63 then
      ∃ m, Message.parse pf g (p ++ 58 :: (q ++ 58 :: (t ++ tl))) = .ok m ∧
        m.Is (signed neg (digitsValue 10 ds) % 2 ^ 64).toNat
          (clamp pf.longBits (signed neg' (digitsValue 16 es)) % 2 ^ 32).toNat bs
    else Message.parse pf g (p ++ 58 :: (q ++ 58 :: (t ++ tl))) = .ub := by
  have h58 : (58 : UInt8) = chr ':' := by decide
  have hcl : Clean (t ++ tl) := (spelling_clean hs).append (tail_clean htl)
  obtain ⟨d, hd1, hd2⟩ := dataLoop_spelling pf g [] hs (Or.inl rfl) htl (by simp; omega)
  rw [List.nil_append] at hd1
  rw [h58] at hcp hcq
  have hpp := parse_three pf g p q _ [] hcp hcq hcl (Or.inl rfl)
  rw [List.append_nil] at hpp
  rw [h58, hpp]
  unfold parseFields
  have hst : (if q = [] then 0 else toU32 (strtol16 pf q)) =
      (clamp pf.longBits (signed neg' (digitsValue 16 es)) % 2 ^ 32).toNat := by
    rw [← strtol16_spec pf hq]
    split
    · rename_i hq0
      subst hq0
      have : strtol16 pf [] = 0 := by
        unfold strtol16
        simp only [skipSign, skip0x, accDigits, List.dropWhile_nil]
        have hpos : (0:Int) < 2 ^ (pf.longBits - 1) := Int.pow_pos (by omega)
        generalize (2:Int) ^ (pf.longBits - 1) = lim at hpos ⊢
        simp
        omega
      rw [this]; rfl
    · rfl
  rw [hst]
  have hat := atoll_spec hp
  by_cases hr : -2 ^ 63 ≤ signed neg (digitsValue 10 ds) ∧ signed neg (digitsValue 10 ds) < 2 ^ 63
  · rw [if_pos hr]
    rw [if_pos hr] at hat
    by_cases hpe : p = []
    · subst hpe
      have h0 : atoll [] = .ok 0 := by decide
      rw [h0] at hat
      have h1 := Res.ok.inj hat
      rw [if_pos rfl]
      simp only [hd1, Res.ok_bind]
      exact ⟨_, rfl, by show 0 = _; rw [← h1]; rfl, rfl, rfl, hd2⟩
    · rw [if_neg hpe, hat]
      simp only [hd1, Res.ok_bind]
      exact ⟨_, rfl, rfl, rfl, rfl, hd2⟩
  · rw [if_neg hr]
    rw [if_neg hr] at hat
    have hpe : p ≠ [] := by
      rintro rfl
      have h0 : atoll [] = .ok 0 := by decide
      rw [h0] at hat
      cases hat
    rw [if_neg hpe, hat]
    rfl

/-- CR, tab, `-12x` denotes -12; ` 0xfg` denotes 15. -/
example : DecNumber true [1, 2] [13, 9, 45, 49, 50, 120] ∧ HexNumber false [15] [32, 48, 120, 102, 103] := by
  refine ⟨.mk (ws := [13, 9]) (sg := [45]) (num := [49, 50]) (rest := [120]) (by unfold Blank; decide) .minus
      (by intro h; cases h) (.cons ⟨by omega, by decide⟩ (.cons ⟨by omega, by decide⟩ .nil)) ?_,
    .ox (ws := [32]) (sg := []) (num := [102]) (rest := [103]) (by unfold Blank; decide) .none
      (Or.inl rfl) (by simp) (.cons (Or.inr ⟨by omega, by omega, Or.inl (by decide)⟩) .nil) ?_⟩
  · intro c r h
    simp only [List.cons.injEq] at h
    rw [← h.1]
    rintro ⟨v, h1, h2⟩
    simp at h2
    omega
  · intro c r h
    simp only [List.cons.injEq] at h
    rw [← h.1]
    rintro ⟨v, h1⟩
    unfold HexDigit at h1
    simp at h1
    omega

end P1P2
