import Verif.Model.Chain

/-! # Vocabulary for stating the properties of the interceptor chain (uses only the types of the model) -/

namespace Zinx.Chain

open Zinx

variable {W : Type}

/-- Positions of the interceptors called, in order. -/
def enters (t : List (Event W)) : List Nat :=
  t.filterMap fun
    | .enter p _ _ => some p
    | .proceed _ _ _ => none

/-- The body never proceeds, whatever happens. -/
def NoProceed : Code W → Prop
  | .ret _ => True
  | .panic => True
  | .act f k => ∀ w, NoProceed (k (f w))
  | .proceed _ _ => False

/-- The body proceeds at most once, whatever happens. -/
def AtMostOnce : Code W → Prop
  | .ret _ => True
  | .panic => True
  | .act f k => ∀ w, AtMostOnce (k (f w))
  | .proceed _ k => ∀ r, NoProceed (k r)

/-- The body proceeds exactly once, whatever happens. -/
def ExactlyOnce : Code W → Prop
  | .ret _ => False
  | .panic => False
  | .act f k => ∀ w, ExactlyOnce (k (f w))
  | .proceed _ k => ∀ r, NoProceed (k r)

/-- What a history of calls on a builder asks for: the head and tail set last, and the added interceptors in call order. -/
def lastHead (ops : List (BuilderOp W)) : Option (Interceptor W) :=
  ((ops.filterMap fun | .head i => some i | _ => none).getLast?).getD none

def lastTail (ops : List (BuilderOp W)) : Option (Interceptor W) :=
  ((ops.filterMap fun | .tail i => some i | _ => none).getLast?).getD none

def added (ops : List (BuilderOp W)) : List (Interceptor W) :=
  ops.filterMap fun | .add i => some i | _ => none

/-- The interceptors the user added through the API, in order. -/
def userAdded (ops : List (ApiOp W)) : List (Interceptor W) :=
  ops.filterMap fun | .addInterceptor i => some i | _ => none

end Zinx.Chain
