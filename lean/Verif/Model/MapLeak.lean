import Verif.Model.MapLock

/-!
# A callback of the sharded map that panics (zutils/shard_lock_map.go)

`Model/MapLock` with one more action: a function that was given to `IterCb` or `RemoveCb`, also by way of `Range` and `NotifyAll`, panics, and something further up the stack recovers, as the workers do
(znet/msghandler.go:310, :322). The calls of the map have no deferred `Unlock`, so what they have locked stays locked (C125 says which calls these are); the goroutine goes on with its next call.
-/

namespace Zinx.MapLeak

/-- zutils/shard_lock_map.go:50-145, :264-273, and the panic of a callback (:129, :269). -/
inductive Label where
  | base (l : MapLock.Label)
  | panic (g : Nat)

/-- The steps of `Model/MapLock` (zutils/shard_lock_map.go:50-145, :264-273) and the panic. -/
inductive Step (n : Nat) : MapLock.State → Label → MapLock.State → Prop where
  | base {s t : MapLock.State} {l : MapLock.Label} (h : MapLock.Step n s l t) : Step n s (.base l) t
  /-- zutils/shard_lock_map.go:129, :269: the rest of the call, with its `Unlock` and `RUnlock`, is not executed. -/
  | panic {s : MapLock.State} (g : Nat) (c : List MapLock.Instr) (h : s.stat g = .ready) (hc : s.code g = .work :: c) : Step n s (.panic g) { s with code := MapLock.upd s.code g [] }

end Zinx.MapLeak
