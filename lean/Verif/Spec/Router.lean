import Verif.Model.Router

/-! # Specification of slice routers in terms of the history of registration calls -/

namespace Zinx.Router

open Zinx

variable {H : Type}

/-- All global middleware registered in a history, in call order. -/
def usedBy (ops : List (Op H)) : List (Option H) :=
  ops.flatMap fun
    | .use hs => hs
    | _ => []

/-- The `Group` calls of a history in call order: range and initial middleware. -/
def groupCalls (ops : List (Op H)) : List (UInt32 × UInt32 × List (Option H)) :=
  ops.filterMap fun
    | .group a b hs => some (a, b, hs)
    | _ => none

/-- Middleware added by `Use` on group number `g` in a history. -/
def groupUsedBy (g : Nat) (ops : List (Op H)) : List (Option H) :=
  ops.flatMap fun
    | .groupUse g' hs => if g' = g then hs else []
    | _ => []

/-- The call is not made on a group that does not exist yet (the user needs the group object to make it). -/
def GroupExists (pre : List (Op H)) : Op H → Prop
  | .groupUse g _ => g < (groupCalls pre).length
  | .groupAdd g _ _ => g < (groupCalls pre).length
  | _ => True

/-- Histories that a program can produce: calls are only made on groups that exist. -/
def Sensible (ops : List (Op H)) : Prop := ∀ pre o post, ops = pre ++ o :: post → GroupExists pre o

/-- The handlers a registration call stores and for which message, given the history `pre` before it; `none` when the call does not
register a route or its group refuses the message ID. -/
def registers (pre : List (Op H)) : Op H → Option (UInt32 × List (Option H))
  | .addHandler i hs => some (i, usedBy pre ++ hs)
  | .groupAdd g i hs =>
    match (groupCalls pre)[g]? with
    | none => none
    | some (a, b, init) => if a ≤ i ∧ i ≤ b then some (i, usedBy pre ++ ((init ++ groupUsedBy g pre) ++ hs)) else none
  | _ => none

/-- The route of message `i` after a history: what the first call registering `i` stores. -/
def routeOf (i : UInt32) : List (Op H) → List (Op H) → Option (List (Option H))
  | _, [] => none
  | pre, o :: rest =>
    match registers pre o with
    | some (j, hs) => if j = i then some hs else routeOf i (pre ++ [o]) rest
    | none => routeOf i (pre ++ [o]) rest

/-- The call tries to register a route for message `i`. -/
def names (i : UInt32) : Op H → Prop
  | .addHandler j _ => j = i
  | .groupAdd _ j _ => j = i
  | _ => False

end Zinx.Router
