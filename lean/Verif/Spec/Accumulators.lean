import Verif.Model.Accumulators
/-!
# What an accumulator is for

What thread `t` has put into accumulator `a` and not yet taken out, read off the history of calls, the latest call first.
-/
namespace OsmIo.Spec

/-- What is waiting, given the calls so far, latest first: nothing at the beginning or right after `elements` of the same thread on the same
accumulator; an `add` of the same thread to the same accumulator puts the element behind; all other calls are irrelevant. -/
def waiting {θ α : Type} [DecidableEq θ] [DecidableEq α] (t : θ) (a : α) : List (θ × α × AccCall) → List Element
  | [] => []
  | (u, b, c) :: before =>
    if u = t ∧ b = a then
      match c with
      | .add e => waiting t a before ++ [e]
      | .elements => []
      | .len => waiting t a before
    else waiting t a before

/-- What the call has to return. -/
def answer {θ α : Type} [DecidableEq θ] [DecidableEq α] (before : List (θ × α × AccCall)) : θ × α × AccCall → AccResult
  | (_, _, .add _) => .unit
  | (t, a, .elements) => .elements (waiting t a before)
  | (t, a, .len) => .len (waiting t a before).length

/-- What `t` has added to `a`, in order. -/
def added {θ α : Type} [DecidableEq θ] [DecidableEq α] (t : θ) (a : α) (calls : List (θ × α × AccCall)) : List Element :=
  calls.filterMap fun | (u, b, .add e) => if u = t ∧ b = a then some e else none | _ => none

/-- What `t` got from `elements` on `a`, in order. -/
def taken {θ α : Type} [DecidableEq θ] [DecidableEq α] (t : θ) (a : α) (calls : List (θ × α × AccCall)) (results : List AccResult) :
    List Element :=
  (calls.zip results).flatMap fun | ((u, b, .elements), .elements es) => if u = t ∧ b = a then es else [] | _ => []

end OsmIo.Spec
