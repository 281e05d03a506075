import Verif.Spec.Eye
import Verif.Spec.Packets
/-!
# Specification: when the words of the receiving core come

A word comes with the code that brings it about; code `k` is taken at time `k P`.
-/
namespace P1P2

/-- The words of the bytes: each comes with a code taken 359 to 367 code times after the reference time of its frame (which takes 348 code times).
`t` is the end of the frame before. -/
def BytesTimed (P : Nat) : Nat → List (Nat × Bool × UInt8) → List (Nat × Word) → Prop
  | _, [], ts => ts = []
  | t, (g, _, b) :: bs, ts => ∃ k ts', ts = (k, wByte b) :: ts' ∧ t + g + 359 * P ≤ k * P ∧ k * P ≤ t + g + 367 * P ∧
      BytesTimed P (t + g + 348 * P) bs ts'

/-- The words of packets, in order: line-free comes with a code taken 2 to 376 code times after the end of the packet before (`t`), line-busy with one taken 25 to 33
code times after the reference time of the first frame, then come the bytes; at last line-free again. -/
def PacketsTimed (P : Nat) : Nat → List BusPacket → List (Nat × Word) → Prop
  | t, [], ts => ∃ f, ts = [(f, wFree)] ∧ t + 2 * P ≤ f * P ∧ f * P ≤ t + 376 * P
  | t, p :: ps, ts => ∃ f b ts1 ts2, ts = (f, wFree) :: (b, wBusy) :: (ts1 ++ ts2) ∧ t + 2 * P ≤ f * P ∧ f * P ≤ t + 376 * P ∧
      t + p.gap + 25 * P ≤ b * P ∧ b * P ≤ t + p.gap + 33 * P ∧ BytesTimed P t p.frames ts1 ∧ PacketsTimed P (eyeEnd P t p.frames) ps ts2

/-- As `Codes`, for the first `K` codes. -/
def CodesUntil (K : Nat) (a c : Int) (L : Nat → Level) (q : Nat → UInt8) : Prop :=
  ∀ k, k < K → let ideal := if k % 2 = 0 then c - a * (L k).sign else c + a * (L k).sign
    ideal - 1 ≤ (q k).toNat ∧ ((q k).toNat : Int) ≤ ideal + 1

/-- The words that come with the first `N` codes. -/
def comeBy (ts : List (Nat × Word)) (N : Nat) : List Word := (ts.filter fun x => decide (x.1 < N)).map Prod.snd

end P1P2
