import Verif.Spec.Rx
/-!
# Specification: pulses with finite edges

After filtering, a pulse does not rise and fall within one sample.  A symbol of 16 samples is an undisturbed line, or a
pulse with the samples 1 to 7 at the top and one sample on each edge (0 and 8).  As the clock of the sender differs from
that of the receiver, the edges may be late by one sample.
-/
namespace P1P2

/-- Limits of a pulse: top between `lo` and `hi`, edges up to `edge`, everything else within `quiet`. -/
structure Shape where
  lo : Int
  hi : Int
  edge : Int
  quiet : Int

/-- An undisturbed sample. -/
def Shape.Quiet (s : Shape) (v : Int) : Prop := -s.quiet ≤ v ∧ v ≤ s.quiet

/-- Sample `j` of 16 of a positive pulse whose edges are at the samples `o` and `8 + o'`. -/
def Shape.Pulse (s : Shape) (o o' j : Nat) (v : Int) : Prop :=
  if j = o ∨ j = 8 + o' then -s.quiet ≤ v ∧ v ≤ s.edge
  else if o < j ∧ j < 8 + o' then s.lo ≤ v ∧ v ≤ s.hi
  else s.Quiet v

/-- Sample `j` of 16 of a symbol. -/
def Shape.Symbol (s : Shape) (l : Level) (o o' j : Nat) (v : Int) : Prop :=
  match l with
  | .mid => s.Quiet v
  | .up => s.Pulse o o' j v
  | .down => s.Pulse o o' j (-v)

/-- Each edge may be one sample late, the falling one only if the rising one is. -/
def EdgesOk (o o' : Nat → Nat) : Prop := ∀ i, o' i ≤ o i ∧ o i ≤ 1

/-- From sample `t` on, the signal consists of the given frames and nothing else: for each frame a gap of undisturbed
samples and eleven symbols; the last one may end two samples early.  The edges of every pulse may be late. -/
def Shape.Carries (s : Shape) (x : Nat → Int) : Nat → List (Nat × (Nat → Level)) → Prop
  | t, [] => ∀ k, t ≤ k → s.Quiet (x k)
  | t, (g, σ) :: fs =>
    (∀ k, t ≤ k → k < t + g → s.Quiet (x k)) ∧
    (∃ o o', EdgesOk o o' ∧ ∀ j, j < 174 → s.Symbol (σ (j / 16)) (o (j / 16)) (o' (j / 16)) (j % 16) (x (t + g + j))) ∧
    Shape.Carries s x (t + g + 174) fs

/-- Every frame starts with a pulse and has no pulse in the stop bit, and no gap is longer than `maxGap`. -/
def StopOk (maxGap : Nat) (fs : List (Nat × (Nat → Level))) : Prop :=
  ∀ f ∈ fs, f.1 ≤ maxGap ∧ f.2 0 ≠ .mid ∧ f.2 10 = .mid

/-- What the receiver copes with at the input of the level detector: the tops reach its threshold (1400 mV), the
undisturbed line stays below its release level (600 mV), and the edges are not too strong compared with the top. -/
structure Shape.Tol (s : Shape) : Prop where
  min : 1400 ≤ s.lo
  le : s.lo ≤ s.hi
  max : s.hi ≤ 4681
  edge0 : 142 ≤ s.edge
  edge : s.edge ≤ s.hi
  quiet0 : 0 ≤ s.quiet
  quiet : s.quiet ≤ 599
  /-- a late phase is not taken for the best one -/
  late : 256 * (s.hi + 2 * s.edge) + 15 * (26 * s.quiet + 255) < 256 * (4 * s.lo)
  later : 256 * (s.hi + s.edge) + 9 * (26 * s.quiet + 255) < 256 * (3 * s.lo)
  /-- the start pulse is recognised early enough -/
  early : 256 * (4921 + s.edge) + 8 * (26 * s.quiet + 255) ≤ 256 * (5 * s.lo)
  /-- but not too early -/
  soon : 256 * (s.edge + 2 * s.hi) + 4 * (26 * s.quiet + 255) < 256 * (4921 + 3 * s.lo)
  /-- pulses are still recognised one sample after the best phase -/
  wide : 256 * (4921 + s.hi + s.edge) + 7 * (26 * s.quiet + 255) ≤ 256 * (6 * s.lo)

/-- A packet on the bus: the undisturbed samples before it, the polarity of its first pulse, its first byte, and for every
further byte the undisturbed samples before it, the polarity of its first pulse and the byte. -/
structure BusPacket where
  gap : Nat
  pol : Bool
  first : UInt8
  rest : List (Nat × Bool × UInt8)

/-- Its bytes. -/
def BusPacket.bytes (p : BusPacket) : List UInt8 := p.first :: p.rest.map fun b => b.2.2

/-- Its frames. -/
def BusPacket.frames (p : BusPacket) : List (Nat × Bool × UInt8) := (p.gap, p.pol, p.first) :: p.rest

/-- At least eleven bit times between packets, and less in total between the bytes of a packet (the receiver misses five
further samples after every byte). -/
structure BusPacket.Ok (p : BusPacket) : Prop where
  gap : 175 ≤ p.gap
  rest : (p.rest.map fun b => b.1 + 5).sum ≤ 173

end P1P2
