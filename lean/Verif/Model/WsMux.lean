import Verif.Model.Sys

/-!
# WebSocket listeners of one process

`ListenWebsocketConn` (znet/server.go:316-364) registers the path of the server with `http.HandleFunc`, that is with `http.DefaultServeMux`, of which there is one in the process, and then
calls `http.ListenAndServe` with that same multiplexer. The model follows the multiplexer, the addresses listened at and the requests that come. `http.ServeMux` is taken from the Go library
(the version of go.mod, 1.17). Left out: paths that do not begin with a slash (for the library these are host names), requests whose path is not in canonical form (answered by a redirect
before any handler is looked up), and what the handlers do with a request (`Model/Handshake`).
-/

namespace Zinx.WsMux

/-- `WsPath` (znet/server.go:138), a string. -/
abbrev Path := List Char

/-- Address and path of a server (`IP`, `WsPort`, `WsPath`, znet/server.go:135-138). -/
structure Conf where
  addr : Nat
  path : Path

/-- What a request gets: the handler of a server, the redirect to the path with a slash at its end, "404 page not found". The multiplexer is that of the library; it is used at znet/server.go:318 and :360. -/
inductive Answer where
  | served (i : Nat)
  | redirect
  | notFound
deriving DecidableEq

/-- Of two registered subtrees the one with the longer pattern comes first (`appendSorted` of net/http). Used by znet/server.go:318. -/
def longer (a b : Option (Path × Nat)) : Option (Path × Nat) :=
  match a, b with
  | none, b => b
  | a, none => a
  | some (p, i), some (q, j) => if q.length ≤ p.length then some (p, i) else some (q, j)

/-- The registered subtree with the longest pattern that the path lies in (second half of `ServeMux.match`). Used by znet/server.go:360, through `http.ListenAndServe`. -/
def subtree (p : Path) : List (Path × Nat) → Option (Path × Nat)
  | [] => none
  | (q, i) :: r => longer (if q.getLast? = some '/' ∧ q <+: p then some (q, i) else none) (subtree p r)

/-- `ServeMux.Handler` with `shouldRedirectRLocked` and `match` of net/http. Used by znet/server.go:360, through `http.ListenAndServe`. -/
def answer (mux : List (Path × Nat)) (p : Path) : Answer :=
  match mux.lookup p with
  | some i => .served i
  | none =>
    if p.getLast? ≠ some '/' ∧ (mux.lookup (p ++ ['/'])).isSome then .redirect
    else match subtree p mux with
      | some (_, i) => .served i
      | none => .notFound

/-- The servers of a process in znet/server.go:316-364. -/
structure State where
  /-- goroutines of `ListenWebsocketConn` before line 318 and before line 360 of znet/server.go, by server -/
  reg : List Nat := []
  lis : List Nat := []
  mux : List (Path × Nat) := []
  /-- addresses listened at -/
  bound : List Nat := []
  /-- a panic outside of any handler ends the process -/
  dead : Bool := false

/-- The actions of znet/server.go:316-364, :423-460, and requests. -/
inductive Label where
  | start (i : Nat)
  | stop (i : Nat)
  | register (i : Nat)
  | listen (i : Nat)
  | panic (i : Nat)
  /-- a request at an address -/
  | request (a : Nat) (p : Path) (r : Answer)

/-- `conf` are the settings of the servers, `taken` the addresses that other processes use. -/
inductive Step (conf : Nat → Conf) (taken : Nat → Prop) : State → Label → State → Prop where
  /-- `Start` in a mode with WebSockets (znet/server.go:437-447) -/
  | start (s : State) (i : Nat) : s.dead = false → ((conf i).path = [] ∨ (conf i).path.head? = some '/') → Step conf taken s (.start i) { s with reg := i :: s.reg }
  /-- `Stop` (znet/server.go:452-460): neither the handler nor the listener is removed -/
  | stop (s : State) (i : Nat) : s.dead = false → Step conf taken s (.stop i) s
  /-- znet/server.go:318 -/
  | register (s : State) (i : Nat) : s.dead = false → i ∈ s.reg → (conf i).path ≠ [] → s.mux.lookup (conf i).path = none →
      Step conf taken s (.register i) { s with reg := s.reg.erase i, lis := i :: s.lis, mux := ((conf i).path, i) :: s.mux }
  /-- `HandleFunc` panics on the empty pattern and on a pattern that is registered -/
  | registerPanic (s : State) (i : Nat) : s.dead = false → i ∈ s.reg → ((conf i).path = [] ∨ (s.mux.lookup (conf i).path).isSome) →
      Step conf taken s (.panic i) { s with dead := true }
  /-- znet/server.go:360 -/
  | listen (s : State) (i : Nat) : s.dead = false → i ∈ s.lis → (conf i).addr ∉ s.bound → ¬ taken (conf i).addr →
      Step conf taken s (.listen i) { s with lis := s.lis.erase i, bound := (conf i).addr :: s.bound }
  /-- znet/server.go:361-363 -/
  | listenPanic (s : State) (i : Nat) : s.dead = false → i ∈ s.lis → ((conf i).addr ∈ s.bound ∨ taken (conf i).addr) →
      Step conf taken s (.panic i) { s with dead := true }
  | request (s : State) (a : Nat) (p : Path) : s.dead = false → a ∈ s.bound → p.head? = some '/' → Step conf taken s (.request a p (answer s.mux p)) s

end Zinx.WsMux
