import Verif.Model.Request

/-! # Specifications of the stage machine and of handler lists (using only the types of the model) -/

namespace Zinx.Request

open Zinx

/-! ## Stages of a router -/

/-- Which stage comes after stage `s` behaved like `out` (`none`: no further stage): the last steering call decides. `Goto` to a
number at or beyond the end stops, `Goto` to a negative number restarts at the first stage. -/
def nextStage {W : Type} (s : Nat) (out : StageRun W) : Option Nat :=
  if out.panics then none
  else
    match out.ops.getLast? with
    | none => if s + 1 < 3 then some (s + 1) else none
    | some .abort => none
    | some (.goto t) => if 3 ≤ t then none else if t < 0 then some 0 else some t.toNat

/-- The first `n` stages run from stage `cur` on: the stages, what is next, and the process state. -/
def stages {W : Type} (r : Router W) : Nat → Option Nat → W → List Nat × Option Nat × W
  | 0, cur, w => ([], cur, w)
  | _ + 1, none, w => ([], none, w)
  | n + 1, some s, w =>
    let out := r s w
    let (l, c, w') := stages r n (nextStage s out) out.world
    (s :: l, c, w')

/-! ## Handler lists -/

/-- Result of running a list of pending handlers: the handlers still pending are `rest`. -/
structure SpecRun (W : Type) where
  panicked : Bool
  rest : List (Nat × Handler W)
  world : W
  trace : List HEvent

/-- Body of a handler over the list of pending handlers: `Next` runs them (`nxt`), `Abort` drops them. -/
def specExec {W : Type} (nxt : List (Nat × Handler W) → W → SpecRun W) :
    Handler W → List (Nat × Handler W) → W → SpecRun W
  | .ret, rest, w => ⟨false, rest, w, []⟩
  | .panic, rest, w => ⟨true, rest, w, [.panic]⟩
  | .act f k, rest, w => specExec nxt (k (f w)) rest (f w)
  | .abort k, _, w =>
    let r := specExec nxt k [] w
    { r with trace := .abort :: r.trace }
  | .next k, rest, w =>
    let a := nxt rest w
    let r := specExec nxt (k a.panicked) a.rest a.world
    { r with trace := .next :: (a.trace ++ .resume a.panicked :: r.trace) }

/-- Running pending handlers: take the first, run it, continue with what is then pending. The first argument bounds the
length of the list. -/
def specLoop {W : Type} : Nat → List (Nat × Handler W) → W → SpecRun W
  | _, [], w => ⟨false, [], w, []⟩
  | 0, rest, w => ⟨false, rest, w, []⟩
  | n + 1, (i, h) :: rest, w =>
    let a := specExec (specLoop n) h rest w
    if a.panicked then { a with trace := .start i :: a.trace }
    else
      let b := specLoop n a.rest a.world
      { b with trace := .start i :: (a.trace ++ b.trace) }

/-- Handlers numbered from `i` on. -/
def numbered {W : Type} : Nat → List (Handler W) → List (Nat × Handler W)
  | _, [] => []
  | i, h :: hs => (i, h) :: numbered (i + 1) hs

/-- What running the handler list of a message should do. -/
def specRun {W : Type} (hs : List (Handler W)) (w : W) : SpecRun W := specLoop hs.length (numbered 0 hs) w

/-- Running the handler list `hs` of a message ends with result `m` (for some amount of fuel; see `Runs.unique`). -/
def Runs {W : Type} (hs : List (Handler W)) (w : W) (m : SlicesRun W) : Prop := ∃ fuel, runHandlers hs fuel w = some m

/-- Numbers of the handlers started, in order. -/
def starts (t : List HEvent) : List Nat :=
  t.filterMap fun
    | .start i => some i
    | _ => none

/-- No handler recovers: a panic inside `Next` makes the caller panic too. -/
def NonRecovering {W : Type} : Handler W → Prop
  | .ret => True
  | .panic => True
  | .act f k => ∀ w, NonRecovering (k (f w))
  | .abort k => NonRecovering k
  | .next k => k true = .panic ∧ NonRecovering (k false)

/-- Number of `Next` calls made by handlers. -/
def nextCalls (t : List HEvent) : Nat := t.count .next

end Zinx.Request
