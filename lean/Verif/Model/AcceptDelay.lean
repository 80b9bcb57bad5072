import Verif.Model.Basic

/-! # Model of `znet/acceptdelay.go` -/

namespace Zinx.AcceptDelay

open Zinx

/-- Nanoseconds in a millisecond (`time.Millisecond`). As used in znet/acceptdelay.go:32. -/
def millisecond : Int := 1000000

/-- `maxDelay` (znet/acceptdelay.go:8), one second in nanoseconds. -/
def maxDelay : Int := 1000000000

/-- `Up` (znet/acceptdelay.go:30-39) on the `time.Duration` (an int64) `d`. -/
def up (d : Int) : Int :=
  if d = 0 then 5 * millisecond
  else
    let d' := wrap64 (2 * d)
    if d' > maxDelay then maxDelay else d'

/-- What the accept loop sees: a failure (`Delay`, znet/acceptdelay.go:21-24: `Up`, then sleep for the new duration) or a success
(`Reset`, :26-28). -/
inductive Event where
  | failure
  | success
  deriving DecidableEq

/-- The duration after one event. znet/acceptdelay.go:21-28. -/
def next (d : Int) : Event → Int
  | .failure => up d
  | .success => 0

/-- The duration after a history; it starts at 0 (znet/acceptdelay.go:13-15). After a failure this is how long the loop sleeps. -/
def after (es : List Event) : Int := es.foldl next 0

end Zinx.AcceptDelay
