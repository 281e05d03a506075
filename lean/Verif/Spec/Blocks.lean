import Verif.Spec.Cut
import Verif.Props.Overrun
/-!
# Specification: a reception over any number of DMA blocks

The DMA of the ADC transfers blocks of `adcBlock` samples.  When the last one of a block has been transferred, the next iteration of the loop starts the next
block and processes nothing: what the loop has not processed by then, at least one sample, is lost (`C49_refuted`).
-/
namespace P1P2

/-- The events of a schedule: for each complete block the transfers and iterations before its last transfer, the last transfer, and the iteration that starts the
next block (with the state of the FIFO); then those of the block that is not complete. -/
def blockEvents (h : Nat → Int) : List (List (AdcEv × Bool) × Bool) → List (AdcEv × Bool) → List RxEv
  | [], last => scheduleEvents h 0 0 last
  | (es, r) :: bs, last => scheduleEvents h 0 0 es ++ .transfer (h (adcBlock - 1)) :: .iterate r [] :: blockEvents (fun k => h (adcBlock + k)) bs last

/-- A complete block during which the loop keeps up: at most 254 samples behind, also before the last transfer. -/
structure BlockOk (es : List (AdcEv × Bool)) : Prop where
  keeps : keepsUp 254 0 0 (es.map Prod.fst)
  all : written 0 0 (es.map Prod.fst) = adcBlock - 1
  lag : adcBlock - 1 ≤ deliveries 0 0 (es.map Prod.fst) + 254

/-- How many samples the loop processes of each complete block. -/
def processed (bs : List (List (AdcEv × Bool) × Bool)) : List Nat := bs.map fun b => deliveries 0 0 (b.1.map Prod.fst)

/-- Which conversion the `k`-th processed sample is, if the loop processes `ds` samples of the complete blocks. -/
def heardAt : List Nat → Nat → Nat
  | [], k => k
  | d :: ds, k => if k < d then k else adcBlock + heardAt ds (k - d)

/-- The levels of the samples lost at the end of each block, and of the two before them, are the same. -/
def FlatLoss (L : Nat → Level) : List Nat → Prop
  | [] => True
  | d :: ds => (∀ j, d ≤ j + 2 → j < adcBlock → L j = L d) ∧ FlatLoss (fun k => L (adcBlock + k)) ds

/-- At the end of each block, from 700 codes before the samples that are lost to the second one of the next block, the line is silent. -/
def RestLoss (L : Nat → Level) : List Nat → Prop
  | [] => True
  | d :: ds => (∀ j, d ≤ j + 700 → j < adcBlock + 2 → L j = .mid) ∧ RestLoss (fun k => L (adcBlock + k)) ds

end P1P2
