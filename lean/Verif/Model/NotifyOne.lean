import Verif.Model.Fair

/-!
# Messages to one ID of the notify table while the table changes (znotify/notify.go)

Any number of goroutines call `NotifyToConnByID` or `NotifyBuffToConnByID` while others set and remove IDs and connections are closed. A call looks the ID up and sends after the lock of the shard has
been released. Numbers stand for goroutines, IDs and connections.
Simplified: the table is a function from IDs to connections; each access of it has the lock of one shard for a single operation on the map (zutils/shard_lock_map.go:62-68, :71-76, :110-115) and is one
action. The send is one action too; it may take any time (C102).
-/

namespace Zinx.NotifyOne

/-- A call of `NotifyToConnByID` (znotify/notify.go:64-75) or `NotifyBuffToConnByID` (:90-101): the goroutine that makes it and how many it has made before. -/
structure Call where
  who : Nat
  n : Nat
deriving DecidableEq, Repr

/-- What a call returns: `nil` (znotify/notify.go:74, :100), the error of the send (:72, :98), the error of the look-up (:67, :93). -/
inductive Res where
  | sent
  | failed
  | unknown
deriving DecidableEq, Repr

/-- Where a goroutine is in znotify/notify.go:64-75 or :90-101. -/
inductive Job where
  | idle
  /-- Before the look-up (:65, :91). -/
  | look (x : Call) (id : Nat)
  /-- Before the send to the connection it has found (:69, :95). -/
  | send (x : Call) (id c : Nat)
  /-- About to return (:67, :72, :74, :93, :98, :100). -/
  | back (x : Call) (id : Nat) (r : Res)
deriving DecidableEq, Repr

/-- The table (znotify/notify.go:20-22), the connections and the goroutines. -/
structure State where
  tab : Nat → Option Nat := fun _ => none
  closed : Nat → Bool := fun _ => false
  job : Nat → Job := fun _ => .idle
  /-- Calls begun by each goroutine. -/
  made : Nat → Nat := fun _ => 0

/-- Calls and what they do. znotify/notify.go:44-47, :49-57, :59-62, :64-75, :90-101. -/
inductive Label where
  | set (id c : Nat)
  | del (id : Nat)
  | close (c : Nat)
  | start (x : Call) (id : Nat)
  | get (x : Call) (id : Nat)
  /-- The message is sent to connection `c`; whether the send succeeds. -/
  | send (x : Call) (id c : Nat) (ok : Bool)
  | ret (x : Call) (id : Nat) (r : Res)
deriving DecidableEq, Repr

/-- Change of a table at one point. Auxiliary. -/
def upd {α : Type} (f : Nat → α) (k : Nat) (v : α) : Nat → α := fun j => if j = k then v else f j

/-- One action of a goroutine. znotify/notify.go:44-101. -/
inductive Step : State → Label → State → Prop where
  /-- znotify/notify.go:44-47. -/
  | set {s : State} (id c : Nat) : Step s (.set id c) { s with tab := upd s.tab id (some c) }
  /-- znotify/notify.go:59-62. -/
  | del {s : State} (id : Nat) : Step s (.del id) { s with tab := upd s.tab id none }
  /-- The connection is closed (znet/connection.go:329-331). -/
  | close {s : State} (c : Nat) : Step s (.close c) { s with closed := upd s.closed c true }
  /-- The call (znotify/notify.go:64, :90). -/
  | start {s : State} (g id : Nat) (h : s.job g = .idle) : Step s (.start ⟨g, s.made g⟩ id) { s with job := upd s.job g (.look ⟨g, s.made g⟩ id), made := upd s.made g (s.made g + 1) }
  /-- znotify/notify.go:49-57, :65, :91: the ID is there. -/
  | found {s : State} (g : Nat) (x : Call) (id c : Nat) (h : s.job g = .look x id) (hc : s.tab id = some c) : Step s (.get x id) { s with job := upd s.job g (.send x id c) }
  /-- znotify/notify.go:53, :66-67, :92-93: it is not. -/
  | missed {s : State} (g : Nat) (x : Call) (id : Nat) (h : s.job g = .look x id) (hc : s.tab id = none) : Step s (.get x id) { s with job := upd s.job g (.back x id .unknown) }
  /-- znotify/notify.go:69-74, :95-100: the send fails if the connection is closed. -/
  | send {s : State} (g : Nat) (x : Call) (id c : Nat) (h : s.job g = .send x id c) :
      Step s (.send x id c (!s.closed c)) { s with job := upd s.job g (.back x id (if s.closed c then .failed else .sent)) }
  /-- znotify/notify.go:67, :72, :74, :93, :98, :100. -/
  | ret {s : State} (g : Nat) (x : Call) (id : Nat) (r : Res) (h : s.job g = .back x id r) : Step s (.ret x id r) { s with job := upd s.job g .idle }

end Zinx.NotifyOne
