import Verif.Model.Worker

/-! # What is observed of workers -/

namespace Zinx.Worker

open Zinx

/-- Requests the reader of connection `c` made, in order. -/
def arrivedAt (c : Nat) (l : List Act) : List Req :=
  l.flatMap fun
    | .arrive c' rs => if c' = c then rs else []
    | _ => []

/-- Requests put on the queue of worker `w`, in order. -/
def submitted (w : Nat) (l : List Act) : List Req :=
  l.filterMap fun
    | .submit w' r => if w' = w then some r else none
    | _ => none

/-- Requests worker `w` began with, in order. -/
def started (w : Nat) (l : List Act) : List Req :=
  l.filterMap fun
    | .start w' r => if w' = w then some r else none
    | _ => none

/-- Requests worker `w` is through with, in order. -/
def finished (w : Nat) (l : List Act) : List Req :=
  l.filterMap fun
    | .finish w' r _ => if w' = w then some r else none
    | _ => none

/-- Handling of a message: begin or end. -/
inductive HEv where
  | begins (r : Req)
  | ends (r : Req)
deriving DecidableEq, Repr

/-- The handling events of the messages of connection `c`, by whichever worker, in order. -/
def handlingOf (c : Nat) (l : List Act) : List HEv :=
  l.filterMap fun
    | .start _ r => if r.conn = some c then some (.begins r) else none
    | .finish _ r _ => if r.conn = some c then some (.ends r) else none
    | _ => none

/-- One at a time, in the given order. -/
def sequential (l : List Req) : List HEv := l.flatMap fun r => [.begins r, .ends r]

/-- The connection is live and served by worker `w`: in the manager and `useWorker` has returned. -/
def Serves (s : AState) (w conn : Nat) : Prop := (conn, Phase.holds w) ∈ s.conns ∧ conn ∈ s.mgr

/-- Number of connections that hold a worker (until `freeWorker`). -/
def holding (s : AState) : Nat :=
  (s.conns.filter fun x => match x.2 with | .holds _ => true | _ => false).length

end Zinx.Worker
