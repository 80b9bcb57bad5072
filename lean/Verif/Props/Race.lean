import Verif.Lemmas.Race
import Verif.Model.RaceCode

/-!
# C100: data races

Which fields of zinx's objects are accessed without a data race, whatever the goroutines do, and which are not.
-/

namespace Zinx.Props

open Zinx.Race

/-! ## Fields under a lock -/

/-- The connections: the map of the manager, the properties and the close callbacks are free of data races, in all executions of a server's goroutines and any number of the user's. -/
theorem C100_locked (code : Nat → ConnCode) (hcode : code = tcpCode ∨ code = wsCode ∨ code = kcpCode) (tr : Trace ConnField ConnLock) (he : Execution code tr) :
    RaceFree tr .table ∧ RaceFree tr .property ∧ RaceFree tr .closeCallback := by
  have h : Guarded .shard .table code ∧ Guarded .property .property code ∧ Guarded .callback .closeCallback code := by
    rcases hcode with rfl | rfl | rfl
    all_goals
      refine ⟨?_, ?_, ?_⟩
      all_goals
        intro t
        match t with
        | 0 => decide +kernel
        | 1 => decide +kernel
        | 2 => decide +kernel
        | 3 => decide +kernel
        | 4 => decide +kernel
        | 5 => decide +kernel
        | 6 => decide +kernel
        | _ + 7 => simp only [tcpCode, wsCode, kcpCode]; decide +kernel
  exact ⟨race_free h.1 he, race_free h.2.1 he, race_free h.2.2 he⟩

/-- Objects with a single lock: the logger, the file writer, requests, time wheels, the timer scheduler, ID workers, shards of the map, the tables of free workers, the client's connection, and the grids,
the players and the counter of the demo, each used by any number of goroutines. -/
theorem C100_objects :
    (∀ tr, Execution (uses logMethods) tr → RaceFree tr .prefix ∧ RaceFree tr .flag ∧ RaceFree tr .buf ∧ RaceFree tr .calldDepth) ∧
    (∀ tr f, Execution (uses writerMethods) tr → f ≠ .maxAge → RaceFree tr f) ∧
    (∀ tr, Execution (uses requestHandler) tr → RaceFree tr .keys ∧ RaceFree tr .needNext ∧ RaceFree tr .steps ∧ RaceFree tr .msg ∧ RaceFree tr .conn) ∧
    (∀ tr f, Execution (uses wheelMethods) tr → RaceFree tr f) ∧
    (∀ tr, Execution (uses schedulerMethods) tr → RaceFree tr ()) ∧
    (∀ tr f, Execution (uses idMethods) tr → RaceFree tr f) ∧
    (∀ tr, Execution (uses shardMethods) tr → RaceFree tr ()) ∧
    (∀ tr f, Execution (uses workersMethods) tr → RaceFree tr f) ∧
    (∀ tr, Execution (uses clientMethods) tr → RaceFree tr ()) ∧
    (∀ tr, Execution (uses gridMethods) tr → RaceFree tr ()) ∧
    (∀ tr, Execution (uses worldMethods) tr → RaceFree tr ()) ∧
    (∀ tr, Execution (uses pidMethods) tr → RaceFree tr ()) := by
  refine ⟨fun tr h => ⟨race_free (l := ()) (guarded_uses (by decide +kernel)) h, race_free (l := ()) (guarded_uses (by decide +kernel)) h, race_free (l := ()) (guarded_uses (by decide +kernel)) h, ?_⟩,
    fun tr f h hf => ?_, fun tr h => ⟨race_free (l := ()) (guarded_uses (by decide +kernel)) h, race_free (l := ()) (guarded_uses (by decide +kernel)) h, race_free (l := ()) (guarded_uses (by decide +kernel)) h,
      unwritten_race_free (fun t => by simp only [uses]; decide +kernel) h, unwritten_race_free (fun t => by simp only [uses]; decide +kernel) h⟩,
    fun tr f h => ?_, fun tr h => race_free (l := ()) (guarded_uses (by decide +kernel)) h, fun tr f h => ?_, fun tr h => race_free (l := ()) (guarded_uses (by decide +kernel)) h,
    fun tr f h => ?_, fun tr h => race_free (l := ()) (guarded_uses (by decide +kernel)) h, fun tr h => race_free (l := ()) (guarded_uses (by decide +kernel)) h,
    fun tr h => race_free (l := ()) (guarded_uses (by decide +kernel)) h, fun tr h => race_free (l := ()) (guarded_uses (by decide +kernel)) h⟩
  · exact unwritten_race_free (fun t => by simp only [uses]; decide +kernel) h
  · cases f
    · exact absurd rfl hf
    all_goals exact race_free (l := ()) (guarded_uses (by decide +kernel)) h
  · cases f <;> exact race_free (l := ()) (guarded_uses (by decide +kernel)) h
  · cases f <;> exact race_free (l := ()) (guarded_uses (by decide +kernel)) h
  · cases f
    · exact race_free (l := false) (guarded_uses (by decide +kernel)) h
    · exact race_free (l := true) (guarded_uses (by decide +kernel)) h

/-! ## Fields set by the constructor -/

/-- The fields a constructor fills in before it puts the connection into the manager. -/
def constructed : List ConnField := [.conn, .bufWriter, .connID, .connIdStr, .msgHandler, .connManager, .onConnStart, .onConnStop, .packet, .frameDecoder, .name, .localAddr, .remoteAddr]

/-- They are read without a lock by whoever has a pointer to the connection, and free of data races. -/
theorem C100_constructed (code : Nat → ConnCode) (hcode : code = tcpCode ∨ code = wsCode ∨ code = kcpCode) (f : ConnField) (hf : f ∈ constructed) (tr : Trace ConnField ConnLock) (he : Execution code tr)
    (ho : Owned .table f 0 tr) : RaceFree tr f := by
  have hi : InitOnly (L := ConnLock) .table f 0 code := by
    rcases hcode with rfl | rfl | rfl
    all_goals
      refine init_only (by first | exact (rfl : tcpCode 0 = _) | exact (rfl : wsCode 0 = _) | exact (rfl : kcpCode 0 = _)) (by decide +kernel) ?_ ?_
      · clear ho; revert f; decide +kernel
      · intro t ht
        match t with
        | 0 => exact absurd rfl ht
        | 1 => clear ho; revert f; decide +kernel
        | 2 => clear ho; revert f; decide +kernel
        | 3 => clear ho; revert f; decide +kernel
        | 4 => clear ho; revert f; decide +kernel
        | 5 => clear ho; revert f; decide +kernel
        | 6 => clear ho; revert f; decide +kernel
        | _ + 7 => clear ho; simp only [tcpCode, wsCode, kcpCode]; revert f; decide +kernel
  have hg : Guarded .shard .table code := by
    rcases hcode with rfl | rfl | rfl
    all_goals
      intro t
      match t with
      | 0 => decide +kernel
      | 1 => decide +kernel
      | 2 => decide +kernel
      | 3 => decide +kernel
      | 4 => decide +kernel
      | 5 => decide +kernel
      | 6 => decide +kernel
      | _ + 7 => simp only [tcpCode, wsCode, kcpCode]; decide +kernel
  exact published_race_free hg (by rintro rfl; exact absurd hf (by decide)) hi he ho

/-! ## Fields set by `Start` -/

/-- The context and the heartbeat checker are set by the goroutine that runs `Start`. Nobody else accesses them at the same time if nobody else has the connection from the manager: if every goroutine that
accesses them was started by that goroutine or by one it has started, or received the connection from such a one, they are free of data races. (`ctx` of a websocket connection is also set by the
constructor, and is left out.) -/
theorem C100_started_partial (code : Nat → ConnCode) (f : ConnField) (hc : (code = tcpCode ∨ code = kcpCode) ∧ f ∈ [ConnField.ctx, .cancel, .hc] ∨ code = wsCode ∧ f ∈ [ConnField.cancel, .hc])
    (tr : Trace ConnField ConnLock) (he : Execution code tr) (ho : Owned .table f 1 tr) : RaceFree tr f := by
  have hi : InitOnly (L := ConnLock) .table f 1 code := by
    rcases hc with ⟨rfl | rfl, hf⟩ | ⟨rfl, hf⟩
    all_goals
      refine init_only (by first | exact (rfl : tcpCode 1 = _) | exact (rfl : wsCode 1 = _) | exact (rfl : kcpCode 1 = _)) (by decide +kernel) ?_ ?_
      · clear ho; revert f; decide +kernel
      · intro t ht
        match t with
        | 0 => clear ho; revert f; decide +kernel
        | 1 => exact absurd rfl ht
        | 2 => clear ho; revert f; decide +kernel
        | 3 => clear ho; revert f; decide +kernel
        | 4 => clear ho; revert f; decide +kernel
        | 5 => clear ho; revert f; decide +kernel
        | 6 => clear ho; revert f; decide +kernel
        | _ + 7 => clear ho; simp only [tcpCode, wsCode, kcpCode]; revert f; decide +kernel
  have hg : Guarded .shard .table code := by
    have hcode : code = tcpCode ∨ code = wsCode ∨ code = kcpCode := by
      rcases hc with ⟨h | h, _⟩ | ⟨h, _⟩
      · exact .inl h
      · exact .inr (.inr h)
      · exact .inr (.inl h)
    rcases hcode with rfl | rfl | rfl
    all_goals
      intro t
      match t with
      | 0 => decide +kernel
      | 1 => decide +kernel
      | 2 => decide +kernel
      | 3 => decide +kernel
      | 4 => decide +kernel
      | 5 => decide +kernel
      | 6 => decide +kernel
      | _ + 7 => simp only [tcpCode, wsCode, kcpCode]; decide +kernel
  refine published_race_free hg ?_ hi he ho
  rintro rfl
  rcases hc with ⟨_, h⟩ | ⟨_, h⟩ <;> simp at h

/-! ## Fields with data races -/

/-- Events of one goroutine. -/
def does (t : Nat) (as : List (Act ConnField ConnLock)) : Trace ConnField ConnLock := as.map fun a => (t, a)

/-- The accept loop makes a connection, adds it to the manager and starts the goroutine that starts it. -/
def accepted (fs : List ConnField) : Trace ConnField ConnLock :=
  does 0 (fs.map .wr ++ [.wr .packet, .wr .onConnStart, .wr .onConnStop, .wr .msgHandler, .wr .connManager, .rd .connIdStr, .acq .shard true, .wr .table, .rel .shard true, .fork 1])

def tcpAccepted : Trace ConnField ConnLock := accepted [.conn, .bufWriter, .connID, .connIdStr, .name, .localAddr, .remoteAddr]
def wsAccepted : Trace ConnField ConnLock := accepted [.ctx, .conn, .connID, .connIdStr, .name, .localAddr, .remoteAddr]
def kcpAccepted : Trace ConnField ConnLock := accepted [.conn, .connID, .connIdStr, .name, .localAddr, .remoteAddr]

/-- `ConnManager.Get` -/
def finds (t : Nat) : Trace ConnField ConnLock := does t [.acq .shard false, .rd .table, .rel .shard false]

/-- `Context()` while `Start` sets the context. -/
def ctxRace : Trace ConnField ConnLock := tcpAccepted ++ finds 8 ++ [(8, .rd .ctx), (1, .wr .ctx)]
/-- `Stop()` while `Start` sets the context. -/
def cancelRace : Trace ConnField ConnLock := tcpAccepted ++ finds 8 ++ [(1, .wr .ctx), (8, .rd .cancel), (1, .wr .cancel)]
/-- `GetWorkerID()` while `Start` takes a worker. -/
def workerRace : Trace ConnField ConnLock :=
  tcpAccepted ++ finds 8 ++ does 1 [.wr .ctx, .wr .cancel, .rd .onConnStart, .rd .hc, .rd .msgHandler, .rd .connID] ++ [(8, .rd .workerID), (1, .wr .workerID)]
/-- The heartbeat checker looks at the time of the last activity while `Start`, which has just started it, sets it; no user is involved. -/
def activityRace : Trace ConnField ConnLock :=
  tcpAccepted ++ does 1 [.wr .hc, .wr .ctx, .wr .cancel, .rd .onConnStart, .rd .hc, .fork 4] ++ does 4 [.rd .ctx, .acq .context true, .rel .context true, .rd .lastActivityTime] ++ [(1, .wr .lastActivityTime)]
/-- Two goroutines call `SendBuffMsg`; one has made the channel, the other looks whether there is one. -/
def queueRace : Trace ConnField ConnLock :=
  tcpAccepted ++ finds 8 ++ finds 7 ++ does 7 [.rd .packet] ++ does 8 [.rd .packet, .rd .msgBuffChan, .atom 0, .wr .msgBuffChan] ++ [(7, .rd .msgBuffChan)]

/-- `IsAlive()` of a websocket connection while the finalizer marks it closed. -/
def wsClosedRace : Trace ConnField ConnLock :=
  wsAccepted ++ finds 8 ++ does 1 [.rd .ctx, .wr .ctx, .wr .cancel, .rd .onConnStart, .rd .hc, .rd .msgHandler, .rd .connID, .wr .workerID, .fork 2, .rd .ctx, .atom 1] ++
    does 8 [.rd .cancel, .acq .context true, .snd 0, .rel .context true] ++
    does 1 [.rcv 0, .rd .onConnStop, .acq .msg true, .rd .closed, .rd .hc, .rd .conn, .rd .connManager, .rd .connIdStr, .acq .shard true, .wr .table, .rel .shard true, .rd .msgBuffChan] ++
    [(8, .rd .closed), (1, .wr .closed)]
def wsActivityRace : Trace ConnField ConnLock :=
  wsAccepted ++ does 1 [.wr .hc, .rd .ctx, .wr .ctx, .wr .cancel, .rd .onConnStart, .rd .hc, .fork 4] ++ does 4 [.rd .closed, .rd .lastActivityTime] ++ [(1, .wr .lastActivityTime)]

/-- Two goroutines call `SendBuffMsg` of a KCP connection; both find no channel and make one. -/
def kcpQueueRace : Trace ConnField ConnLock :=
  kcpAccepted ++ finds 8 ++ finds 7 ++ does 8 [.atom 0, .rd .msgBuffChan] ++ does 7 [.atom 0, .rd .msgBuffChan] ++ [(8, .wr .msgBuffChan), (7, .wr .msgBuffChan)]
/-- The same with `SendToQueue`, which holds the lock for reading only. -/
def kcpQueueRace2 : Trace ConnField ConnLock :=
  kcpAccepted ++ finds 8 ++ finds 7 ++ does 8 [.acq .msg false, .rd .msgBuffChan] ++ does 7 [.acq .msg false, .rd .msgBuffChan] ++ [(8, .wr .msgBuffChan), (7, .wr .msgBuffChan)]
def kcpActivityRace : Trace ConnField ConnLock :=
  kcpAccepted ++ does 1 [.wr .hc, .wr .ctx, .wr .cancel, .rd .onConnStart, .rd .hc, .fork 4] ++ does 4 [.atom 0, .rd .lastActivityTime] ++ [(1, .wr .lastActivityTime)]

theorem conn_productive (code : Nat → ConnCode) (hcode : code = tcpCode ∨ code = wsCode ∨ code = kcpCode) (t : Nat) : productive (code t) = true := by
  rcases hcode with rfl | rfl | rfl
  all_goals
    match t with
    | 0 => decide +kernel
    | 1 => decide +kernel
    | 2 => decide +kernel
    | 3 => decide +kernel
    | 4 => decide +kernel
    | 5 => decide +kernel
    | 6 => decide +kernel
    | _ + 7 => simp only [tcpCode, wsCode, kcpCode]; decide +kernel

/-- An execution with a data race on `f`, between its last two events, in which every goroutine has got its pointer to the connection in a regular way. -/
def RaceOf (code : Nat → ConnCode) (f : ConnField) (tr : Trace ConnField ConnLock) : Prop :=
  Execution code tr ∧ (∀ g, g ≠ .table → Owned .table g 0 tr) ∧ Conflict tr f (tr.length - 2) (tr.length - 1) ∧ ¬ HB true tr (tr.length - 2) (tr.length - 1)

theorem hb_more {F L : Type} {tr : Trace F L} {i j : Nat} (h : HB false tr i j) : HB true tr i j := by
  induction h with
  | one h =>
    obtain ⟨hl, t, a, u, b, h1, h2, h3⟩ := h
    refine .one ⟨hl, t, a, u, b, h1, h2, ?_⟩
    rcases h3 with h | h | h | h | ⟨h, _⟩
    · exact .inl h
    · exact .inr (.inl h)
    · exact .inr (.inr (.inl h))
    · exact .inr (.inr (.inr (.inl h)))
    · cases h
  | trans _ _ h1 h2 => exact .trans h1 h2

/-- No field has a data race and none. -/
theorem races_not_free {F L : Type} {tr : Trace F L} {f : F} (h : Races tr f) : ¬ RaceFree tr f := by
  obtain ⟨i, j, hc, hn⟩ := h
  exact fun hf => hn (hb_more (hf i j hc))

theorem RaceOf.races {code : Nat → ConnCode} {f : ConnField} {tr : Trace ConnField ConnLock} (h : RaceOf code f tr) : Races tr f := ⟨_, _, h.2.2.1, h.2.2.2⟩

theorem race_of (code : Nat → ConnCode) (hcode : code = tcpCode ∨ code = wsCode ∨ code = kcpCode) (f : ConnField) (tr : Trace ConnField ConnLock) (h1 : runs code tr = true)
    (h2 : ∀ g, g ≠ .table → (knows .table g { who := [0] } tr).isSome = true) (h3 : raceAt tr f (tr.length - 2) (tr.length - 1) [tr.length - 2] = true) : RaceOf code f tr :=
  ⟨runs_sound (conn_productive code hcode) h1, fun g hg => Option.isSome_iff_exists.1 (h2 g hg), (raceAt_sound h3).1, (raceAt_sound h3).2⟩

/-- Connections: data races. -/
theorem C100_connection_refuted :
    RaceOf tcpCode .ctx ctxRace ∧ RaceOf tcpCode .cancel cancelRace ∧ RaceOf tcpCode .workerID workerRace ∧ RaceOf tcpCode .lastActivityTime activityRace ∧ RaceOf tcpCode .msgBuffChan queueRace ∧
    RaceOf wsCode .closed wsClosedRace ∧ RaceOf wsCode .lastActivityTime wsActivityRace ∧
    RaceOf kcpCode .msgBuffChan kcpQueueRace ∧ RaceOf kcpCode .msgBuffChan kcpQueueRace2 ∧ RaceOf kcpCode .lastActivityTime kcpActivityRace := by
  refine ⟨?_, ?_, ?_, ?_, ?_, ?_, ?_, ?_, ?_, ?_⟩
  all_goals
    refine race_of _ (by simp) _ _ (by decide +kernel) (fun g hg => ?_) (by decide +kernel)
    cases g <;> first | exact absurd rfl hg | decide +kernel

/-- An execution of goroutines that call methods of one object, with a data race on `f` between its last two events. -/
def RaceAmong {F L : Type} [DecidableEq F] [DecidableEq L] (methods : List (Code F L)) (f : F) (tr : Trace F L) : Prop :=
  Execution (uses methods) tr ∧ Conflict tr f (tr.length - 2) (tr.length - 1) ∧ ¬ HB true tr (tr.length - 2) (tr.length - 1)

theorem race_among {F L : Type} [DecidableEq F] [DecidableEq L] (methods : List (Code F L)) (f : F) (tr : Trace F L) (hp : productive (uses methods 0) = true) (h1 : runs (uses methods) tr = true)
    (h3 : raceAt tr f (tr.length - 2) (tr.length - 1) [tr.length - 2] = true) : RaceAmong methods f tr :=
  ⟨runs_sound (fun _ => hp) h1, raceAt_sound h3⟩

/-- Other objects: data races.
- Logger: `Debug` reads the level, the writer and the hook while `SetLogLevel`, `SetLogFile` and `SetLogHook` write them.
- File writer: the goroutine that deletes old files reads `maxAge` while `SetMaxAge` writes it.
- Request: `Copy` reads the keys while another goroutine calls `Set`, and the steps while another calls `Goto`; `Call` reads `needNext` while another calls `Goto`.
- Demo: `GrID.String` reads the set of players while `Add` writes it; `UpdatePos` writes the position of a player that another's goroutine reads. -/
theorem C100_objects_refuted :
    RaceAmong logMethods .isolationLevel [(0, .rd .isolationLevel), (1, .wr .isolationLevel)] ∧
    RaceAmong logMethods .fw ([(1, .rd .fw)] ++ [(0, .rd .isolationLevel), (0, .acq () true), (0, .rd .flag), (0, .wr .buf), (0, .rd .prefix), (0, .rd .flag), (0, .wr .buf)] ++ [(0, .rd .fw), (1, .wr .fw)]) ∧
    RaceAmong logMethods .onLogHook ([(0, .rd .isolationLevel), (0, .acq () true), (0, .rd .flag), (0, .wr .buf), (0, .rd .prefix), (0, .rd .flag), (0, .wr .buf), (0, .rd .fw), (0, .rd .buf)] ++
      [(0, .rd .onLogHook), (1, .wr .onLogHook)]) ∧
    RaceAmong writerMethods .maxAge [(1, .acq () true), (0, .rd .maxAge), (1, .wr .maxAge)] ∧
    RaceAmong (requestCopy :: requestHandler) .keys [(0, .rd .steps), (1, .acq () true), (1, .rd .keys), (0, .rd .keys), (1, .wr .keys)] ∧
    RaceAmong (requestCopy :: requestHandler) .steps [(1, .acq () true), (0, .rd .steps), (1, .wr .steps)] ∧
    RaceAmong (requestCall ++ requestHandler) .needNext [(0, .rd .router), (0, .rd .steps), (0, .rd .router), (1, .acq () true), (1, .wr .steps), (0, .rd .needNext), (1, .wr .needNext)] ∧
    RaceAmong (gridString :: gridMethods) () [(1, .acq () true), (0, .rd ()), (1, .wr ())] ∧
    RaceAmong playerMethods () [(0, .rd ()), (1, .wr ())] := by
  refine ⟨?_, ?_, ?_, ?_, ?_, ?_, ?_, ?_, ?_⟩ <;> exact race_among _ _ _ (by decide +kernel) (by decide +kernel) (by decide +kernel)

/-! ## The hypotheses are met -/

/-- A connection is accepted and started, a user finds it and stops it, the finalizer takes it off the manager: the map of the manager and the name are accessed by three goroutines. -/
example : Execution wsCode wsClosedRace ∧ Owned .table .connIdStr 0 wsClosedRace ∧ RaceFree wsClosedRace .table ∧ RaceFree wsClosedRace .connIdStr :=
  have h := C100_connection_refuted.2.2.2.2.2.1
  ⟨h.1, h.2.1 _ (by decide), (C100_locked _ (.inr (.inl rfl)) _ h.1).1, C100_constructed _ (.inr (.inl rfl)) _ (by decide) _ h.1 (h.2.1 _ (by decide))⟩

/-- `Start` sets the context and starts the heartbeat checker, which reads it. -/
example : Execution tcpCode activityRace ∧ Owned .table .ctx 1 activityRace ∧ RaceFree activityRace .ctx :=
  have h := C100_connection_refuted.2.2.2.1
  have ho : Owned .table .ctx 1 activityRace := Option.isSome_iff_exists.1 (by decide +kernel)
  ⟨h.1, ho, C100_started_partial _ _ (.inl ⟨.inl rfl, by decide⟩) _ h.1 ho⟩

/-- Two goroutines set and read a key of a request; two goroutines write to a log file. -/
example :
    Execution (uses requestHandler) [(0, .acq () true), (0, .rd .keys), (0, .wr .keys), (0, .wr .keys), (0, .rel () true), (1, .acq () false), (1, .rd .keys), (1, .rel () false)] ∧
    Execution (uses writerMethods) [(0, .acq () true), (0, .wr .maxSize), (0, .rel () true), (1, .acq () true), (1, .rd .cons), (1, .rd .file), (1, .rd .creates), (1, .rd .size), (1, .rd .bw), (1, .rd .maxSize),
      (1, .wr .bw), (1, .wr .size), (1, .rel () true), (2, .acq () true), (2, .rd .bw), (2, .wr .bw), (2, .rel () true)] :=
  ⟨runs_sound (fun t => by simp only [uses]; decide +kernel) (by decide +kernel), runs_sound (fun t => by simp only [uses]; decide +kernel) (by decide +kernel)⟩

end Zinx.Props
