import Verif.Props.Race
import Verif.Lemmas.RaceOnce

/-! # C100: the message channel of WebSocket connections, and the fields that `Start` sets for all kinds of connections -/

namespace Zinx.Props

open Zinx Zinx.Race

/-- **C100 (message channel of WebSocket connections).** The writer goroutine reads the field without the lock. There is no race: the field is set with the lock held, only by a goroutine that has just seen that
it is nil (znet/ws_connection.go:369-370, 430-431), hence once; and the writer is started after that (375, 436). Values are not in the trace; `TestedFirst` says what the nil test means: there is no write before a read that sees nil. -/
theorem C100_ws_queue (tr : Trace ConnField ConnLock) (he : Execution wsCode tr) (hnil : TestedFirst tr .msgBuffChan) (hstart : StartedWhenSet tr .msgBuffChan 3) : RaceFree tr .msgBuffChan := by
  refine once_race_free (l := .msg) (g := .name) (w := 3) ?_ (by decide +kernel) he hnil hstart
  intro t
  match t with
  | 0 => decide +kernel
  | 1 => decide +kernel
  | 2 => decide +kernel
  | 3 => decide +kernel
  | 4 => decide +kernel
  | 5 => decide +kernel
  | 6 => decide +kernel
  | _ + 7 =>
    have : renameCode ConnField.msgBuffChan .name 3 wsCode (‹Nat› + 7) = appCode wsUser wsInRange := by simp [renameCode, wsCode]
    rw [this]
    decide +kernel

/-- **C100 (writing to a WebSocket connection).** gorilla/websocket allows one writer at a time; all that write to the connection hold `msgLock`, so writes of any goroutines are ordered. (For TCP and KCP the
library below orders them.) -/
theorem C100_ws_writes (tr : Trace ConnField ConnLock) (he : Execution wsCode tr) : RaceFree tr .wire := by
  have h : Guarded .msg .wire wsCode := by
    intro t
    match t with
    | 0 => decide +kernel
    | 1 => decide +kernel
    | 2 => decide +kernel
    | 3 => decide +kernel
    | 4 => decide +kernel
    | 5 => decide +kernel
    | 6 => decide +kernel
    | _ + 7 => simp only [wsCode]; decide +kernel
  exact race_free h he

def wsCtxRace : Trace ConnField ConnLock := wsAccepted ++ finds 8 ++ [(1, .rd .ctx), (8, .rd .ctx), (1, .wr .ctx)]
def wsCancelRace : Trace ConnField ConnLock := wsAccepted ++ finds 8 ++ [(1, .rd .ctx), (1, .wr .ctx), (8, .rd .cancel), (1, .wr .cancel)]
def wsWorkerRace : Trace ConnField ConnLock :=
  wsAccepted ++ finds 8 ++ does 1 [.rd .ctx, .wr .ctx, .wr .cancel, .rd .onConnStart, .rd .hc, .rd .msgHandler, .rd .connID] ++ [(8, .rd .workerID), (1, .wr .workerID)]
def kcpCtxRace : Trace ConnField ConnLock := kcpAccepted ++ finds 8 ++ [(8, .rd .ctx), (1, .wr .ctx)]
def kcpCancelRace : Trace ConnField ConnLock := kcpAccepted ++ finds 8 ++ [(1, .wr .ctx), (8, .rd .cancel), (1, .wr .cancel)]
def kcpWorkerRace : Trace ConnField ConnLock :=
  kcpAccepted ++ finds 8 ++ does 1 [.wr .ctx, .wr .cancel, .rd .onConnStart, .rd .hc, .rd .msgHandler, .rd .connID] ++ [(8, .rd .workerID), (1, .wr .workerID)]

/-- The context, the cancel function and the worker ID of WebSocket and KCP connections, like those of TCP connections. -/
theorem C100_start_refuted :
    RaceOf wsCode .ctx wsCtxRace ∧ RaceOf wsCode .cancel wsCancelRace ∧ RaceOf wsCode .workerID wsWorkerRace ∧
    RaceOf kcpCode .ctx kcpCtxRace ∧ RaceOf kcpCode .cancel kcpCancelRace ∧ RaceOf kcpCode .workerID kcpWorkerRace := by
  refine ⟨?_, ?_, ?_, ?_, ?_, ?_⟩
  all_goals
    refine race_of _ (by simp) _ _ (by decide +kernel) (fun g hg => ?_) (by decide +kernel)
    cases g <;> first | exact absurd rfl hg | decide +kernel

/-- A user makes the channel and starts the writer, which reads the field while another user sends. -/
def wsQueueUse : Trace ConnField ConnLock :=
  wsAccepted ++ finds 8 ++ finds 7 ++ does 8 [.acq .msg true, .rd .msgBuffChan, .wr .msgBuffChan, .fork 3, .rd .closed, .rd .packet, .rd .msgBuffChan, .snd 5, .rel .msg true] ++
    does 7 [.acq .msg true, .rd .msgBuffChan] ++ does 3 [.rd .msgBuffChan] ++ does 7 [.rd .closed]

example : ∃ tr, Execution wsCode tr ∧ TestedFirst tr .msgBuffChan ∧ StartedWhenSet tr .msgBuffChan 3 ∧ ∃ i j, Conflict tr .msgBuffChan i j := by
  have len : wsQueueUse.length = 36 := by decide +kernel
  have short : ∀ {j : Nat} {e : Nat × Act ConnField ConnLock}, wsQueueUse[j]? = some e → j < 36 := fun h => len ▸ (List.getElem?_eq_some_iff.1 h).1
  have set : ∀ j, j < 36 → (wsQueueUse[j]?.map (·.2)) = some (.wr .msgBuffChan) → j = 25 := by decide +kernel
  have writer : ∀ j, j < 36 → (wsQueueUse[j]?.map (·.1)) = some 3 → j = 34 := by decide +kernel
  refine ⟨wsQueueUse, runs_sound (conn_productive _ (.inr (.inl rfl))) (by decide +kernel), ?_, ?_, 25, 34, ?_⟩
  · intro j t hj
    obtain rfl := set j (short hj) (by rw [hj]; rfl)
    have e : wsQueueUse[25]? = some (8, .wr .msgBuffChan) := by decide +kernel
    rw [e] at hj
    cases hj
    refine ⟨24, by omega, by decide +kernel, fun k a h1 h2 => by omega, fun k u hk h => ?_⟩
    have := set k (by omega) (by rw [h]; rfl)
    omega
  · intro j a hj
    obtain rfl := writer j (short hj) (by rw [hj]; rfl)
    exact ⟨25, 26, 8, by omega, by omega, by decide +kernel, by decide +kernel⟩
  · exact ⟨by omega, 8, .wr .msgBuffChan, 3, .rd .msgBuffChan, by decide +kernel, by decide +kernel, by decide, .inl ⟨rfl, .inl rfl⟩⟩

/-- Two users send on a WebSocket connection, one after the other. -/
def wsTwoSends : Trace ConnField ConnLock :=
  wsAccepted ++ finds 8 ++ finds 7 ++ does 8 [.acq .msg true, .rd .closed, .rd .conn, .acq .net true, .wr .wire, .rel .net true, .rel .msg true] ++
    does 7 [.acq .msg true, .rd .closed, .rd .packet, .rd .conn, .acq .net true, .wr .wire, .rel .net true, .rel .msg true]

example : ∃ tr, Execution wsCode tr ∧ ∃ i j, Conflict tr .wire i j :=
  ⟨wsTwoSends, runs_sound (conn_productive _ (.inr (.inl rfl))) (by decide +kernel), 27, 35,
    by omega, 8, .wr .wire, 7, .wr .wire, by decide +kernel, by decide +kernel, by decide, .inl ⟨rfl, .inr rfl⟩⟩

end Zinx.Props
