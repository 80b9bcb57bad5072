import Verif.Props.Race
import Verif.Lemmas.Wait

/-!
# C101: goroutines do not wait for each other's locks in a circle
-/

namespace Zinx.Props

open Zinx.Race

/-! ## What is true -/

/-- Connections, if the functions given to `Range` keep clear of some methods. TCP: of the close callbacks. WebSocket and KCP: of the close callbacks and of all sends. The user's hooks, handlers, close
callbacks and goroutines may otherwise call any methods of the connection and of the manager. -/
theorem C101_connections_partial (code : Nat → ConnCode) (hcode : code = tcpCalm ∨ code = wsCalm ∨ code = kcpCalm) (tr : Trace ConnField ConnLock) (group : List Nat) (wants : Nat → ConnLock × Bool) :
    ¬ CircularWait code tr group wants := by
  let rank : ConnLock → Nat := fun
    | .callback => 0
    | .msg => 1
    | .shard | .other => 2
    | .property | .context | .net => 3
  refine no_circle (rank := rank) ?_
  rcases hcode with rfl | rfl | rfl
  all_goals
    intro t
    match t with
    | 0 => decide +kernel
    | 1 => decide +kernel
    | 2 => decide +kernel
    | 3 => decide +kernel
    | 4 => decide +kernel
    | 5 => decide +kernel
    | 6 => decide +kernel
    | _ + 7 => simp only [tcpCalm, wsCalm, kcpCalm]; decide +kernel

/-- The timer scheduler with its wheels, the logger with its file writer (and a hook that does not call it), the tables of free workers. -/
theorem C101_objects :
    (∀ tr group wants, ¬ CircularWait (uses timerMethods) tr group wants) ∧
    (∀ tr group wants, ¬ CircularWait (uses outMethods) tr group wants) ∧
    (∀ tr group wants, ¬ CircularWait (uses workersMethods) tr group wants) := by
  refine ⟨fun tr group wants => ?_, fun tr group wants => ?_, fun tr group wants => ?_⟩
  · let rank : TimerLock → Nat := fun
      | .scheduler => 0
      | .hour => 1
      | .minute => 2
      | .second => 3
    exact no_circle (rank := rank) (ordered_uses (by decide +kernel))
  · let rank : OutLock → Nat := fun
      | .logger => 0
      | .writer => 1
    exact no_circle (rank := rank) (ordered_uses (by decide +kernel))
  · exact no_circle (rank := fun _ => 0) (ordered_uses (by decide +kernel))

/-! ## What is false -/

/-- An execution in which the goroutines in `group` wait for each other, and however it goes on they do nothing more. -/
def Deadlock (code : Nat → ConnCode) (tr : Trace ConnField ConnLock) (group : List Nat) (wants : Nat → ConnLock × Bool) : Prop :=
  Execution code tr ∧ CircularWait code tr group wants ∧
  ∀ ext, Execution code (tr ++ ext) → (∀ t ∈ group, ∀ a w, proj t ext = a :: w → a = .acq (wants t).1 (wants t).2) → ∀ t ∈ group, proj t ext = []

/-- Checks that the goroutines in `group` hold what they want. -/
def circle (tr : Trace ConnField ConnLock) (group : List Nat) (wants : Nat → ConnLock × Bool) : Bool :=
  match locks {} tr with
  | none => false
  | some h => group.all fun t => group.any fun u => h.excl (wants t).1 = some u || (wants t).2 && decide (u ∈ h.shared (wants t).1)

theorem deadlock_of {code : Nat → ConnCode} (hcode : code = tcpCode ∨ code = wsCode ∨ code = kcpCode) {tr : Trace ConnField ConnLock} {group : List Nat} {wants : Nat → ConnLock × Bool}
    (h1 : runs code tr = true) (h2 : group ≠ []) (h3 : (group.all fun t => accepts (code t) (proj t tr ++ [.acq (wants t).1 (wants t).2])) = true) (h4 : circle tr group wants = true) :
    Deadlock code tr group wants := by
  have he := runs_sound (conn_productive code hcode) h1
  unfold circle at h4
  split at h4
  · cases h4
  · rename_i h hl
    have hk : Locked h group [] wants := by
      intro t ht
      have := List.all_eq_true.1 h4 t ht
      obtain ⟨u, hu, hx⟩ := List.any_eq_true.1 this
      refine ⟨u, by simpa using hu, ?_⟩
      simpa using hx
    refine ⟨he, ⟨h2, fun t ht => ?_, h, hl, fun t ht => ?_⟩, fun ext hx hn => ?_⟩
    · obtain ⟨rest, hr⟩ := accepts_sound (List.all_eq_true.1 h3 t ht)
      exact ⟨rest, by simpa using hr⟩
    · obtain ⟨u, hu, hh⟩ := hk t ht
      exact ⟨u, by simpa using hu, hh.imp id .inl⟩
    · obtain ⟨h', hl'⟩ := hx.locks
      rw [locks_append, hl] at hl'
      exact locked_forever hk hl' hn (fun t ht => absurd ht (by simp))

/-- A WebSocket connection is accepted and started; goroutine 7 stops it; goroutine 8 is inside `Range` at the shard with the connection when the finalizer (goroutine 1) has taken `msgLock`. -/
def wsBroadcast : Trace ConnField ConnLock :=
  wsAccepted ++ finds 7 ++ does 1 [.rd .ctx, .wr .ctx, .wr .cancel, .rd .onConnStart, .rd .hc, .rd .msgHandler, .rd .connID, .wr .workerID, .fork 2, .rd .ctx, .atom 1] ++
    does 7 [.rd .cancel, .acq .context true, .snd 0, .rel .context true] ++ does 8 [.acq .shard false, .rd .table] ++
    does 1 [.rcv 0, .rd .onConnStop, .acq .msg true, .rd .closed, .rd .hc, .rd .conn, .rd .connManager, .rd .connIdStr]

/-- The same with a KCP connection. -/
def kcpBroadcast : Trace ConnField ConnLock :=
  kcpAccepted ++ finds 7 ++ does 1 [.wr .ctx, .wr .cancel, .rd .onConnStart, .rd .hc, .rd .msgHandler, .rd .connID, .wr .workerID, .fork 2, .rd .ctx, .atom 1] ++
    does 7 [.rd .cancel, .acq .context true, .snd 0, .rel .context true] ++ does 8 [.acq .shard false, .rd .table] ++
    does 1 [.rcv 0, .atom 0, .atom 0, .rd .onConnStop, .acq .msg true, .rd .hc, .rd .conn, .rd .connManager, .rd .connIdStr]

/-- A TCP connection: goroutine 8 is inside `Range` at another shard and has got past the test in `AddCloseCallback`; goroutine 7 stops the connection, which is torn down; its close callbacks run
(goroutine 5). -/
def tcpCallbackInRange : Trace ConnField ConnLock :=
  tcpAccepted ++ finds 8 ++ finds 7 ++ does 1 [.wr .ctx, .wr .cancel, .rd .onConnStart, .rd .hc, .rd .msgHandler, .rd .connID, .wr .workerID, .fork 2, .rd .ctx, .atom 1] ++
    does 8 [.acq .other false, .rd .ctx, .acq .context true, .rel .context true] ++ does 7 [.rd .cancel, .acq .context true, .snd 0, .rel .context true] ++
    does 1 [.rcv 0, .rd .onConnStop, .rd .hc, .rd .conn, .rd .connManager, .rd .connIdStr, .acq .shard true, .wr .table, .rel .shard true, .rd .connID, .fork 5] ++ does 5 [.acq .callback false, .rd .closeCallback]

/-- Deadlocks.
- A broadcast with `Range` that sends (`SendMsg`) to a WebSocket or KCP connection that is being closed: the broadcast holds the shard of the manager and waits for `msgLock`, the finalizer holds `msgLock` and
waits for the shard in `Remove`.
- A function given to `Range` that calls `AddCloseCallback` of a TCP connection in another shard that is being closed, while a close callback removes a connection in the shard `Range` is at. -/
theorem C101_refuted :
    Deadlock wsCode wsBroadcast [1, 8] (fun t => if t = 1 then (.shard, true) else (.msg, true)) ∧
    Deadlock kcpCode kcpBroadcast [1, 8] (fun t => if t = 1 then (.shard, true) else (.msg, false)) ∧
    Deadlock tcpCode tcpCallbackInRange [5, 8] (fun t => if t = 5 then (.other, true) else (.callback, true)) := by
  refine ⟨?_, ?_, ?_⟩ <;> exact deadlock_of (by simp) (by decide +kernel) (by decide) (by decide +kernel) (by decide +kernel)

/-- The execution of `C101_connections_partial` may contain all of these goroutines: the broadcast's start and the finalizer are executions of the restricted code, too. -/
example : Execution wsCalm wsBroadcast ∧ Execution kcpCalm kcpBroadcast ∧ Execution tcpCalm (tcpCallbackInRange.filter fun e => e.1 != 8) := by
  refine ⟨runs_sound (fun t => ?_) (by decide +kernel), runs_sound (fun t => ?_) (by decide +kernel), runs_sound (fun t => ?_) (by decide +kernel)⟩
  all_goals
    match t with
    | 0 => decide +kernel
    | 1 => decide +kernel
    | 2 => decide +kernel
    | 3 => decide +kernel
    | 4 => decide +kernel
    | 5 => decide +kernel
    | 6 => decide +kernel
    | _ + 7 => simp only [tcpCalm, wsCalm, kcpCalm]; decide +kernel

/-- A timer is created and passed on to the smallest wheel while that wheel turns; a line is logged into a file. -/
example :
    Execution (uses timerMethods) [(0, .acq .scheduler true), (0, .acq .hour true), (1, .acq .second true), (0, .acq .minute true), (1, .rel .second true), (0, .acq .second true), (0, .rel .second true),
      (0, .rel .minute true), (0, .rel .hour true), (0, .rel .scheduler true)] ∧
    Execution (uses outMethods) [(0, .acq .logger true), (0, .rel .logger true), (1, .acq .logger true), (1, .rel .logger true), (0, .acq .logger true), (0, .acq .writer true), (0, .rel .writer true),
      (0, .rel .logger true)] :=
  ⟨runs_sound (fun t => by simp only [uses]; decide +kernel) (by decide +kernel), runs_sound (fun t => by simp only [uses]; decide +kernel) (by decide +kernel)⟩

end Zinx.Props
