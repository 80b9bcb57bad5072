import Verif.Model.Sys

/-!
# Adding and looking up routes at the same time (znet/msghandler.go:320-344, 354-365, 383-401, znet/router.go:59-77)

Any number of goroutines call `AddRouter` (or `AddRouterSlices`) and look up the route of a message (`doMsgHandler`, `doMsgHandlerSlices`). A route is a list of handlers of any type `H`; a router
registered with `AddRouter` is a list of one. An access to the Go map has a beginning and an end: an access while another writes ends the process ("concurrent map read and map write"), and no
`recover` catches that. `GetHandlers` takes the read lock (znet/router.go:73-74); as nobody ever takes the write lock, it waits for nobody and keeps nobody out, and is left out here. The handlers
given to `Use` do not change and are part of the routes.
-/

namespace Zinx.RouteConc

/-- A call. `AddRouter` or `AddRouterSlices` (znet/msghandler.go:354-372), `doMsgHandler` or `doMsgHandlerSlices` (:320-344, :383-401). -/
inductive Op (H : Type) where
  | add (id : UInt32) (hs : List H)
  | lookup (id : UInt32)

/-- Auxiliary; no code of zinx. -/
def Op.id {H : Type} : Op H → UInt32
  | .add id _ => id
  | .lookup id => id

/-- The panics are those of znet/msghandler.go:359 and znet/router.go:62. -/
inductive Res (H : Type) where
  | added
  /-- the panic of a repeated route -/
  | refused
  | found (hs : Option (List H))

/-- A goroutine: in no call; before its first access to the map; in it; after it, with what it saw; in the second read of line 69 of znet/router.go; after it; before the write; in it, with the list
it writes; before the return. -/
inductive Pc (H : Type) where
  | idle
  | start (op : Op H)
  | look (op : Op H)
  | seen (op : Op H) (v : Option (List H))
  | look2 (id : UInt32) (hs : List H)
  | seen2 (id : UInt32) (hs : List H) (v : Option (List H))
  | put (id : UInt32) (hs v : List H)
  | write (id : UInt32) (hs v : List H)
  | leave (op : Op H) (res : Res H)

/-- In an access to the map. Auxiliary; no code of zinx. -/
def Pc.accesses {H : Type} : Pc H → Bool
  | .look _ | .look2 _ _ | .write _ _ _ => true
  | _ => false

/-- `Apis` of znet/msghandler.go:26 or znet/router.go:43, and the goroutines. -/
structure State (H : Type) where
  /-- `Apis` -/
  map : UInt32 → Option (List H) := fun _ => none
  pc : Nat → Pc H := fun _ => .idle

/-- The actions of znet/msghandler.go:320-372, :383-401. -/
inductive Label (H : Type) where
  | call (i : Nat) (op : Op H)
  | inside (i : Nat)
  | ret (i : Nat) (op : Op H) (res : Res H)
  /-- the process ends -/
  | fatal

/-- Auxiliary; no code of zinx. -/
def set {α : Type} (f : Nat → α) (i : Nat) (v : α) : Nat → α := fun j => if j = i then v else f j

/-- `slices`: `RouterSlicesMode`. -/
inductive Step (H : Type) (slices : Bool) : State H → Label H → State H → Prop where
  | call (s : State H) (i : Nat) (op : Op H) : s.pc i = .idle → Step H slices s (.call i op) { s with pc := set s.pc i (.start op) }
  /-- msghandler.go:328, 357; router.go:61, 75 -/
  | look (s : State H) (i : Nat) (op : Op H) : s.pc i = .start op → Step H slices s (.inside i) { s with pc := set s.pc i (.look op) }
  | seen (s : State H) (i : Nat) (op : Op H) : s.pc i = .look op → Step H slices s (.inside i) { s with pc := set s.pc i (.seen op (s.map op.id)) }
  /-- msghandler.go:330-333, 391-394 -/
  | found (s : State H) (i : Nat) (id : UInt32) (v : Option (List H)) : s.pc i = .seen (.lookup id) v →
      Step H slices s (.inside i) { s with pc := set s.pc i (.leave (.lookup id) (.found v)) }
  /-- msghandler.go:357-360, router.go:61-63 -/
  | repeated (s : State H) (i : Nat) (id : UInt32) (hs v : List H) : s.pc i = .seen (.add id hs) (some v) →
      Step H slices s (.inside i) { s with pc := set s.pc i (.leave (.add id hs) .refused) }
  /-- msghandler.go:363 -/
  | plain (s : State H) (i : Nat) (id : UInt32) (hs : List H) : s.pc i = .seen (.add id hs) none → slices = false →
      Step H slices s (.inside i) { s with pc := set s.pc i (.put id hs hs) }
  /-- router.go:69, right side -/
  | look2 (s : State H) (i : Nat) (id : UInt32) (hs : List H) : s.pc i = .seen (.add id hs) none → slices = true →
      Step H slices s (.inside i) { s with pc := set s.pc i (.look2 id hs) }
  | seen2 (s : State H) (i : Nat) (id : UInt32) (hs : List H) : s.pc i = .look2 id hs → Step H slices s (.inside i) { s with pc := set s.pc i (.seen2 id hs (s.map id)) }
  | append (s : State H) (i : Nat) (id : UInt32) (hs : List H) (v : Option (List H)) : s.pc i = .seen2 id hs v →
      Step H slices s (.inside i) { s with pc := set s.pc i (.put id hs (v.getD [] ++ hs)) }
  /-- msghandler.go:363, router.go:69, the assignment -/
  | write (s : State H) (i : Nat) (id : UInt32) (hs v : List H) : s.pc i = .put id hs v → Step H slices s (.inside i) { s with pc := set s.pc i (.write id hs v) }
  | written (s : State H) (i : Nat) (id : UInt32) (hs v : List H) : s.pc i = .write id hs v →
      Step H slices s (.inside i) { s with map := fun k => if k = id then some v else s.map k, pc := set s.pc i (.leave (.add id hs) .added) }
  /-- an access while another writes -/
  | clash (s : State H) (i j : Nat) (id : UInt32) (hs v : List H) : i ≠ j → s.pc i = .write id hs v → (s.pc j).accesses = true → Step H slices s .fatal s
  | ret (s : State H) (i : Nat) (op : Op H) (r : Res H) : s.pc i = .leave op r → Step H slices s (.ret i op r) { s with pc := set s.pc i .idle }

end Zinx.RouteConc
