import Verif.Proofs.ShapeRun
import Verif.Props.LineFree
/-!
# C102: bytes from pulses with finite edges

`Shape.Carries` and `Shape.Tol` are in `Verif/Spec/Shape.lean`.
-/
namespace P1P2

theorem feed_err {S : Nat} (hS : 8 ≤ S) (e e' : Bool) (x : Nat → Int) : ∀ n,
    feed (Uart.step S e) (Uart.init .even) x n = feed (Uart.step S e') (Uart.init .even) x n ∧
      ∀ {u : Uart} {l}, feed (Uart.step S e) (Uart.init .even) x n = .ok (u, l) → u.Ok S .even := by
  intro n
  induction n with
  | zero =>
    refine ⟨rfl, fun h => ?_⟩
    simp only [feed, Res.ok.injEq, Prod.mk.injEq] at h
    rw [← h.1]; exact Uart.Ok.init _
  | succ n ih =>
    obtain ⟨i1, i2⟩ := ih
    constructor
    · simp only [feed]
      rw [← i1]
      cases h : feed (Uart.step S e) (Uart.init .even) x n with
      | ub => rfl
      | ok r =>
        simp only [Res.ok_bind]
        rw [step_err (i2 (u := r.1) (l := r.2) h) e e']
    · intro u l h
      rw [feed, Res.bind_eq_ok] at h
      obtain ⟨r, h1, h⟩ := h
      rw [Res.bind_eq_ok] at h
      obtain ⟨q, h2, h⟩ := h
      simp only [Res.ok.injEq, Prod.mk.injEq] at h
      obtain ⟨u', o, g1, g2⟩ := (i2 (u := r.1) (l := r.2) h1).step hS e (x n)
      rw [g1] at h2
      simp only [Res.ok.injEq] at h2
      rw [← h.1, ← h2]
      exact g2

/-- The receiver on a line that carries the frames `fs` and nothing else, pulses with finite edges. -/
theorem shape_frames {S : Nat} (hS : 8 ≤ S) (err : Bool) {s : Shape} (ht : s.Tol) {x : Nat → Int} {G : Nat} (hG : G + 32 ≤ 2 ^ S)
    {fs : List (Nat × (Nat → Level))} (hc : s.Carries x 0 fs) (hf : StopOk G fs) {n : Nat} (hn : lineEnd 0 fs + 9 ≤ n)
    (hn' : n ≤ lineEnd 0 fs + 9 + G) :
    ∃ c l, feed (RxBack.step S err) RxBack.init x n = .ok (c, l) ∧ l.filterMap id = fs.map (fun f => decodeSymbols f.2) := by
  obtain ⟨u, ws, k, h1, h2, h3, -⟩ := shape_run hS ht hG hc hf hn hn'
  rw [(feed_err hS false err _ n).1] at h3
  have := ht.quiet; have := ht.edge; have := ht.min; have := ht.le; have := ht.max; have := ht.quiet0
  obtain ⟨c, g1, -, -⟩ := back_feed (S := S) (err := err) (x := x) (fun k => by
    have := hc.bound (by omega) ht.edge (by omega) ht.le k (Nat.zero_le _)
    omega) n h3
  refine ⟨c, _, g1, ?_⟩
  rw [List.filterMap_append, filterMap_none, List.append_nil]
  exact frameOuts_results h1

/-- **C102.** For every sequence of bytes, sent with any start polarities and any gaps, and every waveform whose pulses
have one sample of any height on each edge (which may be late by one sample), tops between `lo` and `hi` and residues up to `quiet` elsewhere, with these
limits in the tolerance of the receiver (for example 3000, 3600, 2000 and 150): the receiver delivers exactly the bytes,
in order, without error. -/
theorem C102_bytes {S : Nat} (hS : 8 ≤ S) (err : Bool) {s : Shape} (ht : s.Tol) {x : Nat → Int} {G : Nat} (hG : G + 32 ≤ 2 ^ S)
    (bs : List (Nat × Bool × UInt8)) (hg : ∀ b ∈ bs, b.1 ≤ G) (hc : s.Carries x 0 (byteFrames bs)) {n : Nat}
    (hn : lineEnd 0 (byteFrames bs) + 9 ≤ n) (hn' : n ≤ lineEnd 0 (byteFrames bs) + 9 + G) :
    ∃ c l, feed (RxBack.step S err) RxBack.init x n = .ok (c, l) ∧ l.filterMap id = bs.map (fun b => (b.2.2, false)) := by
  have hf : StopOk G (byteFrames bs) := by
    intro f hf
    rw [byteFrames, List.mem_map] at hf
    obtain ⟨b, hb, rfl⟩ := hf
    exact ⟨hg b hb, by show symbolsOf b.2.1 b.2.2 0 ≠ _; rw [symbolsOf_start]; split <;> decide, symbolsOf_stop _ _⟩
  obtain ⟨c, l, h1, h2⟩ := shape_frames hS err ht hG hc hf hn hn'
  refine ⟨c, l, h1, ?_⟩
  rw [h2, byteFrames, List.map_map]
  exact List.map_congr_left fun b _ => decode_symbolsOf b.2.1 b.2.2

/-- Any ten symbols with a start pulse, followed by a stop bit: the byte has the data bits, the error flag tells exactly
parity errors and pulses of equal polarity in a row. -/
theorem C102_symbols {S : Nat} (hS : 8 ≤ S) (err : Bool) {s : Shape} (ht : s.Tol) {x : Nat → Int} {g : Nat} (hG : g + 32 ≤ 2 ^ S)
    (σ : Nat → Level) (h0 : σ 0 ≠ .mid) (h10 : σ 10 = .mid) (hc : s.Carries x 0 [(g, σ)]) {n : Nat} (hn : g + 183 ≤ n)
    (hn' : n ≤ 2 * g + 183) :
    ∃ c l b e, feed (RxBack.step S err) RxBack.init x n = .ok (c, l) ∧ l.filterMap id = [(b, e)] ∧
      (∀ k < 8, bitOf b k = true ↔ σ (k + 1) = .mid) ∧
      (e = true ↔ ((List.range 9).filter (fun k => σ (k + 1) == .mid)).length % 2 = 1 ∨ polRepeat ((List.range 11).map σ) = true) := by
  obtain ⟨c, l, h1, h2⟩ := shape_frames hS err ht hG hc (fun f hf => by
      rw [List.mem_singleton] at hf
      rw [hf]
      exact ⟨Nat.le_refl _, h0, h10⟩)
    (n := n) (by simp only [lineEnd]; omega) (by simp only [lineEnd]; omega)
  refine ⟨c, l, (decodeSymbols σ).1, (decodeSymbols σ).2, h1, h2, ?_, ?_⟩
  · intro k hk
    show bitOf (byteOf (fun k => σ (k + 1) == .mid)) k = true ↔ _
    rw [bitOf_byteOf _ k hk]
    simp
  · simp [decodeSymbols, h10]

/-- A waveform with edges of one sample: the byte 0x5A after 50 samples; a tone of 100 on the undisturbed line.  From
symbol 4 on, the pulses start one sample late, from symbol 7 on they also end one sample late. -/
def edgyLine (k : Nat) : Int :=
  let j := k - 50
  let o := if 4 ≤ j / 16 then 1 else 0
  let o' := if 7 ≤ j / 16 then 1 else 0
  let v : Int := if j % 16 = o then 1200 else if j % 16 = 8 + o' then 1900 else if o < j % 16 ∧ j % 16 < 8 + o' then 3300 else 100
  if k < 50 ∨ 224 ≤ k then 100 else match symbolsOf true 0x5A (j / 16) with
    | .mid => 100
    | .up => v
    | .down => -v

def edgyShape : Shape := { lo := 3000, hi := 3600, edge := 2000, quiet := 150 }

instance (s : Shape) (v : Int) : Decidable (s.Quiet v) := by unfold Shape.Quiet; exact inferInstance
instance (s : Shape) (o o' j : Nat) (v : Int) : Decidable (s.Pulse o o' j v) := by unfold Shape.Pulse; exact inferInstance
instance (s : Shape) (l : Level) (o o' j : Nat) (v : Int) : Decidable (s.Symbol l o o' j v) :=
  match l with
  | .mid => inferInstanceAs (Decidable (s.Quiet v))
  | .up => inferInstanceAs (Decidable (s.Pulse o o' j v))
  | .down => inferInstanceAs (Decidable (s.Pulse o o' j (-v)))

/-- The hypotheses of C102 hold for it. -/
example : edgyShape.Tol ∧ edgyShape.Carries edgyLine 0 (byteFrames [(50, true, 0x5A)]) ∧
    StopOk 100 (byteFrames [(50, true, 0x5A)]) ∧ 100 + 32 ≤ 2 ^ 16 ∧ lineEnd 0 (byteFrames [(50, true, 0x5A)]) + 9 = 233 := by
  refine ⟨⟨?_, ?_, ?_, ?_, ?_, ?_, ?_, ?_, ?_, ?_, ?_, ?_⟩, ⟨fun k _ hk => ?_, ?_, fun k hk => ?_⟩, ?_, by decide, rfl⟩
  all_goals try (show (_ : Int) ≤ _; decide)
  all_goals try (show (_ : Int) < _; decide)
  · unfold edgyLine
    rw [if_pos (Or.inl (by omega))]
    exact ⟨by decide, by decide⟩
  · have key : ∀ j, j < 174 → edgyShape.Symbol (symbolsOf true 0x5A (j / 16)) (if 4 ≤ j / 16 then 1 else 0) (if 7 ≤ j / 16 then 1 else 0)
      (j % 16) (edgyLine (0 + 50 + j)) := by decide +kernel
    exact ⟨fun i => if 4 ≤ i then 1 else 0, fun i => if 7 ≤ i then 1 else 0, fun i => by dsimp only; split <;> split <;> omega, key⟩
  · unfold edgyLine
    rw [if_pos (Or.inr (by omega))]
    exact ⟨by decide, by decide⟩
  · intro f hf
    rw [byteFrames, List.map_cons, List.map_nil, List.mem_singleton] at hf
    rw [hf]
    exact ⟨by decide, by decide, by decide⟩

end P1P2
