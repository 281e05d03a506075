/-!
# Specification: the lines that are handed over to the host interface
-/
namespace P1P2.Spec

/-- The lines handed over if the text `pending` is in the buffer and at each poll the characters of a portion have arrived: the buffer keeps the first 128 characters; if there is a terminator
among them, the text before the first one is handed over (up to the first NUL, and unless there is none) and everything is discarded. -/
def handed : List UInt8 → List (List UInt8) → List (List UInt8)
  | _, [] => []
  | pending, c :: cs =>
    let b := (pending ++ c).take 128
    let a := b.takeWhile fun x => !(x == 10 || x == 13)
    if a = b then handed b cs
    else if a = [] then handed [] cs
    else (a.takeWhile fun x => !(x == 0)) :: handed [] cs

end P1P2.Spec
