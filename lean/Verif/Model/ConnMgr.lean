import Verif.Model.ShardMap

/-!
# Model of `znet/connmanager.go` and `znotify/notify.go`

Both are sharded maps keyed by decimal strings.
-/

namespace Zinx.ConnMgr

open Zinx Zinx.ShardMap

/-! ## `strconv` -/

/-- `strconv.FormatUint(n, 10)`. As called in znet/connmanager.go:38 and znet/connection.go:130. -/
def formatUint (n : Nat) : Bytes :=
  if n < 10 then [UInt8.ofNat (48 + n)] else formatUint (n / 10) ++ [UInt8.ofNat (48 + n % 10)]
termination_by n
decreasing_by omega

/-- `strconv.ParseUint(s, 10, 64)`: fails on the empty string, on anything but digits, and above 2^64-1. As called in znet/connmanager.go:84, :103. -/
def parseUint (s : Bytes) : Option UInt64 :=
  if s = [] then none
  else if s.all (fun b => 48 ≤ b && b ≤ 57) then
    let n := s.foldl (fun n b => n * 10 + (b.toNat - 48)) 0
    if n < 2 ^ 64 then some (UInt64.ofNat n) else none
  else none

/-! ## The connection manager -/

/-- A connection made by a server: which object it is, and its ID. Its ID string is `strconv.FormatUint(connID, 10)`
(znet/connection.go:130, znet/ws_connection.go:125, znet/kcp_connection.go:129). -/
structure Conn where
  handle : Nat
  id : UInt64
  deriving DecidableEq

/-- `GetConnIdStr`. znet/connection.go:350-352. -/
def Conn.idStr (c : Conn) : Bytes := formatUint c.id.toNat

/-- `ConnManager` (znet/connmanager.go:12-20): the default hash and shard count. -/
def newConnManager : Shards Bytes Conn := create Conn fnv32 shardCount

/-- Calls of the manager. znet/connmanager.go:22-97. -/
inductive Op where
  | add (c : Conn)
  | remove (c : Conn)
  | get (id : UInt64)
  | get2 (id : Bytes)
  | len
  | allIds
  | allIdStrs
  | clear

/-- What a call gives back: nothing, a connection or an error, a number, a list, or the connections on which `Stop` was called. znet/connmanager.go:22-97. -/
inductive Res where
  | unit
  | conn (c : Option Conn)
  | nat (n : Nat)
  | ids (l : List UInt64)
  | idStrs (l : List Bytes)
  | stopped (l : List Conn)

/-- One call while nothing else runs (znet/connmanager.go:22-97). `ClearConn` only calls `Stop` on every connection; each stop eventually leads
to a `Remove`. The debug lines and the extra `Len` they print are left out. -/
inductive Call : Shards Bytes Conn → Op × Res → Shards Bytes Conn → Prop where
  | add (s : Shards Bytes Conn) (c : Conn) : Call s (.add c, .unit) (s.set c.idStr c)
  | remove (s : Shards Bytes Conn) (c : Conn) : Call s (.remove c, .unit) (s.remove c.idStr)
  | get (s : Shards Bytes Conn) (id : UInt64) : Call s (.get id, .conn (s.get (formatUint id.toNat))) s
  | get2 (s : Shards Bytes Conn) (id : Bytes) : Call s (.get2 id, .conn (s.get id)) s
  | len (s : Shards Bytes Conn) : Call s (.len, .nat s.count) s
  | allIds (s : Shards Bytes Conn) (order : List (Bytes × Conn)) (h : order.Perm s.entries) :
      Call s (.allIds, .ids ((order.map (·.1)).filterMap parseUint)) s
  | allIdStrs (s : Shards Bytes Conn) (order : List (Bytes × Conn)) (h : order.Perm s.entries) :
      Call s (.allIdStrs, .idStrs (order.map (·.1))) s
  | clear (s : Shards Bytes Conn) (order : List (Bytes × Conn)) (h : order.Perm s.entries) :
      Call s (.clear, .stopped (order.map (·.2))) s

/-- `Range` (znet/connmanager.go:99-111): visits the entries in the order `order`. `cb i id c` is what the callback answers on its `i`th call.
Gives the calls made and the error returned. -/
def range {E : Type} (cb : Nat → UInt64 → Conn → Option E) (order : List (Bytes × Conn)) : List (UInt64 × Conn) × Option E :=
  order.foldl (fun st x =>
    let id := (parseUint x.1).getD 0
    (st.1 ++ [(id, x.2)], cb st.1.length id x.2)) ([], none)

/-- `Range2` (znet/connmanager.go:114-125). -/
def range2 {E : Type} (cb : Nat → Bytes → Conn → Option E) (order : List (Bytes × Conn)) : List (Bytes × Conn) × Option E :=
  order.foldl (fun st x => (st.1 ++ [(x.2.idStr, x.2)], cb st.1.length x.2.idStr x.2)) ([], none)

/-! ## Notification by ID -/

/-- `notify` (znotify/notify.go:20-28). Connections are just names here; they are taken to be non-nil. -/
def newNotify : Shards Bytes Nat := create Nat fnv32 shardCount

/-- Calls of the notifier; the buffered and the direct variants differ only in the send call of the connection. znotify/notify.go:35-114. -/
inductive NOp where
  | set (id : UInt64) (c : Nat)
  | get (id : UInt64)
  | has (id : UInt64)
  | del (id : UInt64)
  | nums
  | send (id : UInt64)
  | sendAll

/-- What a call gives back and which connections it sent to. znotify/notify.go:35-114. -/
inductive NRes where
  | unit
  | conn (c : Option Nat)
  | bool (b : Bool)
  | nat (n : Nat)
  | sent (to : List Nat) (failed : Bool)

/-- One call (znotify/notify.go:35-114). `ok c` says whether the send call of connection `c` succeeds. -/
inductive NCall (ok : Nat → Bool) : Shards Bytes Nat → NOp × NRes → Shards Bytes Nat → Prop where
  | set (s : Shards Bytes Nat) (id : UInt64) (c : Nat) : NCall ok s (.set id c, .unit) (s.set (formatUint id.toNat) c)
  | get (s : Shards Bytes Nat) (id : UInt64) : NCall ok s (.get id, .conn (s.get (formatUint id.toNat))) s
  | has (s : Shards Bytes Nat) (id : UInt64) : NCall ok s (.has id, .bool (s.has (formatUint id.toNat))) s
  | del (s : Shards Bytes Nat) (id : UInt64) : NCall ok s (.del id, .unit) (s.remove (formatUint id.toNat))
  | nums (s : Shards Bytes Nat) : NCall ok s (.nums, .nat s.count) s
  | send (s : Shards Bytes Nat) (id : UInt64) :
      NCall ok s (.send id, match s.get (formatUint id.toNat) with
        | none => .sent [] true
        | some c => .sent [c] (!ok c)) s
  | sendAll (s : Shards Bytes Nat) (order : List (Bytes × Nat)) (h : order.Perm s.entries) :
      NCall ok s (.sendAll, .sent (order.map (·.2)) false) s

end Zinx.ConnMgr
