import Verif.Model.Fifo
/-!
# Specification of the FIFO: a first-in first-out queue of capacity `N`, as a list (oldest first).
Only the call and result types (`QOp`, `QRes`) are shared with the model.
-/
namespace P1P2.Spec
variable {α : Type}

def queue (N : Nat) (l : List α) : QOp α → List α × QRes α
  | .push v => if l.length < N then (l ++ [v], .bool true) else (l, .bool false)
  | .pop => (l.tail, .popped l.head?)
  | .length => (l, .num l.length)
  | .empty => (l, .bool l.isEmpty)
  | .full => (l, .bool (l.length == N))
  | .clear => ([], .unit)

/-- Content and results after a sequence of calls. -/
def queueRun (N : Nat) : List α → List (QOp α) → List α × List (QRes α)
  | l, [] => (l, [])
  | l, op :: ops =>
    let (l', r) := queue N l op
    let (l'', rs) := queueRun N l' ops
    (l'', r :: rs)

/-- Calls on the line buffer. -/
inductive LOp (α : Type) where
  | push (v : α)
  | length
  | empty
  | full
  | clear
  | at_ (i : Nat)

/-- Results. -/
inductive LRes (α : Type) where
  | bool (b : Bool)
  | num (n : Nat)
  | elem (v : α)
  | unit

/-- A line buffer is a list that only grows, up to `N`, until cleared. -/
def buffer (N : Nat) (l : List α) : LOp α → List α
  | .push v => if l.length < N then l ++ [v] else l
  | .clear => []
  | _ => l

/-- What a call on a line buffer with content `l` may return: reading a position below the length
gives that character; reading beyond is unspecified. -/
def bufferOut (N : Nat) (l : List α) : LOp α → LRes α → Prop
  | .push _, r => r = .bool (l.length < N)
  | .length, r => r = .num l.length
  | .empty, r => r = .bool l.isEmpty
  | .full, r => r = .bool (l.length == N)
  | .clear, r => r = .unit
  | .at_ i, r => ∀ h : i < l.length, r = .elem l[i]

/-- All results of a run are as specified. -/
def bufferOuts (N : Nat) : List α → List (LOp α) → List (LRes α) → Prop
  | _, [], [] => True
  | l, op :: ops, r :: rs => bufferOut N l op r ∧ bufferOuts N (buffer N l op) ops rs
  | _, _, _ => False

end P1P2.Spec
