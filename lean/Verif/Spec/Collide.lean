import Verif.Spec.MainLoop
/-!
# Vocabulary for C136: two modems on one bus
-/
namespace P1P2

/-- A modem with any history transmits `m` and takes this for a success: iteration `x` starts the transmission, iteration `h` hands a packet to the hardware, in iteration `y` the transmitter is idle again for
the first time; up to the next iteration `z` the host is given no line about a failed transmission, and nothing was received with an error.  `heard` are the bytes received without error after the
hand-over. -/
def TakenForSent (pf : Platform) (g : Nat → UInt8) (m : Message) (heard : List UInt8) : Prop :=
  ∃ (es pre post : List (Env1 × Env2)) (x h y z : Env1 × Env2) (c0 c1 ca cb c2 c3 c4 : Core0) (os op oq : List Out2) (ox oh oy oz : Out2),
    LoopRun pf g es c0 os ∧
    c0.iter pf g x = .ok (c1, ox) ∧ ox.started = some m ∧
    c1.run pf g pre = .ok (ca, op) ∧
    ca.iter pf g h = .ok (cb, oh) ∧ (∃ m', HwCmd.send m' ∈ oh.cmds) ∧
    cb.run pf g post = .ok (c2, oq) ∧
    c2.iter pf g y = .ok (c3, oy) ∧ c3.sm.isIdle = true ∧
    c3.iter pf g z = .ok (c4, oz) ∧
    (∀ a b ct ot, pre ++ h :: post = a ++ b → c1.run pf g a = .ok (ct, ot) → ct.sm.isIdle = false) ∧
    (∀ o ∈ op ++ oh :: oq ++ [oy, oz], txMsgs o.reports = []) ∧
    (∀ w ∈ wordsOf (x :: (pre ++ h :: post) ++ [y]), w.rxError = false) ∧
    heard = goodBytes (wordsOf (post ++ [y]))

end P1P2
