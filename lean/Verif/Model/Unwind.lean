import Verif.Model.Basic

/-!
# Panics of functions given by the user

Everywhere the library calls a function that the user has given it, that function may panic. A panic unwinds the stack of its goroutine: deferred calls run, locks whose `Unlock` is not deferred stay locked, and
if no deferred call recovers, the process ends. The code below has, for every goroutine the library starts and every call that takes a callback, the calls of user functions, log calls (they call the hook of the logger), locks
held around them, and deferred calls, in their order; everything else is left out. Which functions are called how often is left open (`alt`, `loop`).

* A function of the user may do anything before it panics; that it calls the library itself is the matter of `api`.
* Goroutines of libraries: `net/http` recovers panics of handlers.
* `fmt` recovers panics of `String` and `Error` methods of values that are logged. Values of a user's type for the interfaces of the library (connections, servers, a logger set with `SetLogger`) are not considered.
-/

namespace Zinx.Unwind

/-- Functions given by the user. Called in znet/msghandler.go:308-344, :383-401, znet/chainbuilder.go:44-63, znet/connection.go:529-541 and the other places cited below. -/
inductive Fun where
  /-- `PreHandle`, `Handle`, `PostHandle` of a router -/
  | handler
  /-- a `RouterHandler` of the slice mode -/
  | slice
  /-- an interceptor or decoder in the chain -/
  | interceptor
  | connStart
  | connStop
  /-- `AddCloseCallback` -/
  | closeCb
  /-- `SetOnRemoteNotAlive` -/
  | notAlive
  /-- `SetHeartbeatFunc` -/
  | beat
  /-- `SetHeartbeatMsgFunc` -/
  | makeMsg
  /-- `Pack` of a user's `IDataPack` -/
  | pack
  /-- `zasync_op.Process` -/
  | asyncOp
  /-- `OnComplete` -/
  | complete
  /-- a `DelayFunc` -/
  | timer
  /-- `SetWebsocketAuth` -/
  | auth
  /-- the callback of `IterCb`, `Range`, `Range2` -/
  | iter
  /-- the callback of `RemoveCb` -/
  | remove
  /-- `SetLogHook` -/
  | hook
deriving DecidableEq

/-- zutils/shard_lock_map.go:18-21, znet/ws_connection.go:26-113, znet/connection.go:26-119. -/
inductive Lock where
  /-- a shard of a map -/
  | shard
  /-- `msgLock` -/
  | msg
  /-- `closeCallbackMutex` -/
  | callbacks
  /-- `freeWorkerMu`, `extraFreeWorkerMu` -/
  | workers
  /-- `mu` of the logger -/
  | log
deriving DecidableEq

/-- Go code, as far as panics are concerned. Language for the code cited below; no code of zinx by itself. -/
inductive Cmd where
  | skip
  /-- call of a user's function -/
  | user (f : Fun)
  | seq (a b : Cmd)
  /-- one of the two -/
  | alt (a b : Cmd)
  /-- any number of times -/
  | loop (a : Cmd)
  /-- `l.Lock(); a; l.Unlock()` -/
  | under (l : Lock) (a : Cmd)
  /-- `l.Lock(); defer l.Unlock(); a` to the end of the function -/
  | guard (l : Lock) (a : Cmd)
  /-- `defer func() { if err := recover(); err != nil { h } }(); a` to the end of the function -/
  | recovered (a h : Cmd)
  /-- `defer b; a` to the end of the function -/
  | finally (a b : Cmd)

/-- No code of zinx by itself. -/
inductive Out where
  | done
  | panic (f : Fun)
deriving DecidableEq

/-- A run of a command: its outcome, and the locks it has taken and not given back. Only functions in `may` panic. No code of zinx by itself. -/
inductive Run (may : Fun → Prop) : Cmd → Out → List Lock → Prop where
  | skip : Run may .skip .done []
  | ret (f : Fun) : Run may (.user f) .done []
  | panic (f : Fun) : may f → Run may (.user f) (.panic f) []
  | seq {a b : Cmd} {o : Out} {l k : List Lock} : Run may a .done l → Run may b o k → Run may (.seq a b) o (l ++ k)
  | seqPanic {a b : Cmd} {f : Fun} {l : List Lock} : Run may a (.panic f) l → Run may (.seq a b) (.panic f) l
  | left {a b : Cmd} {o : Out} {l : List Lock} : Run may a o l → Run may (.alt a b) o l
  | right {a b : Cmd} {o : Out} {l : List Lock} : Run may b o l → Run may (.alt a b) o l
  | stop {a : Cmd} : Run may (.loop a) .done []
  | round {a : Cmd} {o : Out} {l k : List Lock} : Run may a .done l → Run may (.loop a) o k → Run may (.loop a) o (l ++ k)
  | roundPanic {a : Cmd} {f : Fun} {l : List Lock} : Run may a (.panic f) l → Run may (.loop a) (.panic f) l
  | under {x : Lock} {a : Cmd} {l : List Lock} : Run may a .done l → Run may (.under x a) .done l
  /-- the `Unlock` is not reached -/
  | underPanic {x : Lock} {a : Cmd} {f : Fun} {l : List Lock} : Run may a (.panic f) l → Run may (.under x a) (.panic f) (x :: l)
  | guard {x : Lock} {a : Cmd} {o : Out} {l : List Lock} : Run may a o l → Run may (.guard x a) o l
  | noPanic {a h : Cmd} {l : List Lock} : Run may a .done l → Run may (.recovered a h) .done l
  | recovers {a h : Cmd} {f : Fun} {o : Out} {l k : List Lock} : Run may a (.panic f) l → Run may h o k → Run may (.recovered a h) o (l ++ k)
  | deferred {a b : Cmd} {o : Out} {l k : List Lock} : Run may a o l → Run may b .done k → Run may (.finally a b) o (l ++ k)
  /-- a panic in a deferred call takes the place of the one before -/
  | deferredPanic {a b : Cmd} {o : Out} {f : Fun} {l k : List Lock} : Run may a o l → Run may b (.panic f) k → Run may (.finally a b) (.panic f) (l ++ k)

/-- In a run of the command, function `f` of the user is called while its goroutine holds the locks `l`. Only functions in `may` panic. No code of zinx by itself. -/
inductive Call (may : Fun → Prop) : Cmd → Fun → List Lock → Prop where
  | user (f : Fun) : Call may (.user f) f []
  | first {a b : Cmd} {f : Fun} {l : List Lock} : Call may a f l → Call may (.seq a b) f l
  | second {a b : Cmd} {f : Fun} {l k : List Lock} : Run may a .done l → Call may b f k → Call may (.seq a b) f (l ++ k)
  | left {a b : Cmd} {f : Fun} {l : List Lock} : Call may a f l → Call may (.alt a b) f l
  | right {a b : Cmd} {f : Fun} {l : List Lock} : Call may b f l → Call may (.alt a b) f l
  | round {a : Cmd} {f : Fun} {l : List Lock} : Call may a f l → Call may (.loop a) f l
  | later {a : Cmd} {f : Fun} {l k : List Lock} : Run may a .done l → Call may (.loop a) f k → Call may (.loop a) f (l ++ k)
  | under {x : Lock} {a : Cmd} {f : Fun} {l : List Lock} : Call may a f l → Call may (.under x a) f (x :: l)
  | guard {x : Lock} {a : Cmd} {f : Fun} {l : List Lock} : Call may a f l → Call may (.guard x a) f (x :: l)
  | tried {a h : Cmd} {f : Fun} {l : List Lock} : Call may a f l → Call may (.recovered a h) f l
  | handler {a h : Cmd} {f g : Fun} {l k : List Lock} : Run may a (.panic g) l → Call may h f k → Call may (.recovered a h) f (l ++ k)
  | body {a b : Cmd} {f : Fun} {l : List Lock} : Call may a f l → Call may (.finally a b) f l
  | deferred {a b : Cmd} {o : Out} {f : Fun} {l k : List Lock} : Run may a o l → Call may b f k → Call may (.finally a b) f (l ++ k)

/-- A log call with the built-in logger (zlog/logger_core.go:201-202, 236-238). -/
def log : Cmd := .guard .log (.user .hook)

/-- Perhaps. No code of zinx by itself. -/
def opt (a : Cmd) : Cmd := .alt .skip a

/-- `doFuncHandler` (znet/msghandler.go:308-316). -/
def doFunc : Cmd := .recovered (.user .complete) log

/-- `doMsgHandler` (znet/msghandler.go:320-344), with `Call` (znet/request.go). -/
def doMsg : Cmd := .recovered (.alt log (.user .handler)) log

/-- Handlers of a route in slice mode, with or without `RouterRecovery` at their head (znet/defaultrouterfunc.go:32-47). -/
def slices : Cmd := .alt (.loop (.user .slice)) (.recovered (.loop (.user .slice)) log)

/-- `doMsgHandlerSlices` (znet/msghandler.go:383-401). -/
def doSlices : Cmd := .recovered (.alt log slices) log

/-- `Execute` (znet/msghandler.go:346-350): the interceptors, then `Intercept` of the message handler and `SendMsgToTaskQueue`, which logs (:304). -/
def execute : Cmd := .seq (.loop (.user .interceptor)) (opt log)

/-- A round of a reader: the bytes read are logged, messages are handed on (znet/connection.go:249-284, znet/kcp_connection.go:234-269, znet/ws_connection.go:224-268). -/
def round : Cmd := .seq log (.loop (.seq (opt log) execute))

/-- `useWorker` (znet/msghandler.go:162-217): with the lock of the extra workers, it logs. -/
def useWorker : Cmd := .alt (opt log) (.guard .workers (opt log))

/-- `freeWorker` (znet/msghandler.go:221-250, 403-408). -/
def freeWorker : Cmd := opt log

/-- `callOnConnStart`, `callOnConnStop` (znet/connection.go:529-541, znet/kcp_connection.go:535-547, znet/ws_connection.go:549-561). -/
def callHook (f : Fun) : Cmd := opt (.seq log (.user f))

/-- What the finalizer does after the stop hook: the heartbeat is stopped (znet/heartbeat.go:122-125), the connection taken from the manager (znet/connmanager.go:29-34). -/
def finish : Cmd := .seq (opt log) (.seq (opt log) log)

/-- The finalizers: TCP (znet/connection.go:498-527); the others take `msgLock` after the hook (znet/kcp_connection.go:486-533, znet/ws_connection.go:497-547). -/
def finalizerTcp : Cmd := .seq (callHook .connStop) finish
/-- znet/ws_connection.go:497-547, znet/kcp_connection.go:486-533; a TCP connection takes no lock (znet/connection.go:498-527). -/
def finalizer : Cmd := .seq (callHook .connStop) (.guard .msg (opt finish))

/-- `Start` after its deferred call (znet/connection.go:298-325, znet/kcp_connection.go:283-309, znet/ws_connection.go:276-308). -/
def start (fin : Cmd) : Cmd := .seq (callHook .connStart) (.seq useWorker (.seq fin freeWorker))

/-- `SendMsg`: TCP (znet/connection.go:435-454) and KCP (znet/kcp_connection.go:403-421, `Send` at :351-365); WebSocket (znet/ws_connection.go:400-423). -/
def sendMsg : Cmd := .seq (.user .pack) (opt (.seq log log))
/-- znet/kcp_connection.go:403-421. -/
def sendMsgKcp : Cmd := .seq (.user .pack) (.seq (.guard .msg (opt log)) (opt log))
/-- znet/ws_connection.go:400-423. -/
def sendMsgWs : Cmd := .guard .msg (.seq (.user .pack) (opt log))

/-- `SendMsg` of any connection. znet/connection.go:435-454, znet/ws_connection.go:400-423, znet/kcp_connection.go:403-421. -/
def sendAny : Cmd := .alt sendMsg (.alt sendMsgKcp sendMsgWs)

/-- The writer's sends log when they fail; before and after its loop it logs (znet/connection.go:193-223, znet/kcp_connection.go:189-210, znet/ws_connection.go:185-206). -/
def writer : Cmd := .seq log (.finally (.loop (.alt (opt (.seq log log)) (.guard .msg (opt log)))) log)

/-- The goroutines of the library. The `go` statements of znet/msghandler.go, znet/connection.go, znet/ws_connection.go:298, znet/kcp_connection.go:300, znet/server.go, znet/client.go:118, znet/heartbeat.go:119; see `code`. -/
inductive Go where
  /-- `StartOneWorker` -/
  | worker
  /-- handling a message without a pool -/
  | direct
  /-- `StartReader` of TCP and KCP -/
  | reader
  | readerWs
  /-- `StartConn` or `Start` of TCP, KCP, WebSocket -/
  | startTcp
  | startKcp
  | startWs
  /-- the goroutine for close callbacks -/
  | closer
  | heartbeat
  /-- `loopExecTask` -/
  | async
  /-- `DelayFunc.Call` -/
  | timer
  /-- a WebSocket handshake -/
  | handshake
  /-- accepting, listening, writers, the client's goroutine, the scheduler of timers: they log, and call no other function of the user -/
  | logging
  | writer
deriving DecidableEq

/-- The code of a goroutine. -/
def code : Go → Cmd
  /- znet/msghandler.go:412-444 -/
  | .worker => .seq log (.loop (.alt log (.alt doFunc (.alt doMsg doSlices))))
  /- znet/msghandler.go:270, 272 -/
  | .direct => .alt doMsg doSlices
  /- znet/connection.go:227-288, znet/kcp_connection.go:214-273: the deferred calls are run last to first -/
  | .reader => .seq log (.finally (.recovered (.loop (.alt log round)) log) log)
  /- znet/ws_connection.go:210-272 -/
  | .readerWs => .seq log (.finally (.loop (.alt log round)) log)
  /- znet/connection.go:292-325 -/
  | .startTcp => .recovered (start finalizerTcp) log
  /- znet/kcp_connection.go:277-310 -/
  | .startKcp => .recovered (start finalizer) log
  /- znet/ws_connection.go:276-308 -/
  | .startWs => start finalizer
  /- znet/connection.go:516-524, 603-607, znet/kcp_connection.go:522-530, znet/ws_connection.go:536-544 -/
  | .closer => .recovered (.guard .callbacks (.loop (.user .closeCb))) log
  /- znet/heartbeat.go:105-116, 127-157; the functions set by default log -/
  | .heartbeat => .loop (.alt (.alt log (.user .notAlive)) (.alt (.user .beat) (.seq (.user .makeMsg) (.seq sendAny (opt log)))))
  /- zasync_op/async_worker.go:26-50 -/
  | .async => .loop (.recovered (.user .asyncOp) log)
  /- ztimer/delayfunc.go:41-50, started at ztimer/timerscheduler.go:130 or called in the goroutine of ztimer/timer.go:76-86 -/
  | .timer => .recovered (.user .timer) log
  /- znet/server.go:318-358, in a goroutine of net/http -/
  | .handshake => .recovered (.seq (opt log) (.seq (opt (.user .auth)) (.seq (opt log) (opt log)))) .skip
  /- znet/server.go:238-314, 366-419, znet/client.go:118-206, ztimer/timerscheduler.go:101-116 -/
  | .logging => .loop log
  | .writer => writer

/-- Calls of the library that take a callback of the user, or pack or log under a lock, in the goroutine of the caller. -/
inductive Api where
  /-- `IterCb` (zutils/shard_lock_map.go:264-273) -/
  | iterCb
  /-- `Range`, `Range2` (znet/connmanager.go:99-125) -/
  | range
  /-- `RemoveCb` (zutils/shard_lock_map.go:124-135) -/
  | removeCb
  /-- `NotifyAll`, and `NotifyBuffAll` with `SendBuffMsg` in the place of `SendMsg` (znotify/notify.go:77-88, 103-114) -/
  | notifyAll
  /-- `SendMsg` of any connection -/
  | sendMsg
  /-- a log call -/
  | log
deriving DecidableEq

/-- zutils/shard_lock_map.go:124-135, :264-273, znet/connmanager.go:99-125, znotify/notify.go:77-88, :103-114, zlog/logger_core.go:197-240. -/
def api : Api → Cmd
  | .iterCb => .loop (.under .shard (.loop (.user .iter)))
  | .range => .loop (.under .shard (.loop (.seq (.user .iter) (opt log))))
  | .removeCb => .under .shard (.user .remove)
  | .notifyAll => .loop (.under .shard (.loop (.seq sendAny (opt log))))
  | .sendMsg => sendAny
  | .log => log

/-- A handler that does nothing but a call of the library: the worker recovers what comes out of it (znet/msghandler.go:320-325). -/
def handlerCalls (a : Api) : Cmd := .recovered (api a) log

end Zinx.Unwind
