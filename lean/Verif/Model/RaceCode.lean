import Verif.Model.Race

/-!
# What the methods of zinx's objects do with fields and locks

For every class: its fields, its locks, and the code of its methods as far as it concerns them. What is left out: values and conditions (a branch may be taken or not), calls that touch neither fields nor
locks of the object, the log lines written on the way. `star` around the user's code in hooks and callbacks: it may call any methods.
-/

namespace Zinx.Race

/-! ## Connections -/

/-- The fields of `Connection` (znet/connection.go:26-119), `WsConnection` (znet/ws_connection.go:26-113) and `KcpConnection` (znet/kcp_connection.go:26-120) that are not locks or atomics. `table` is
the map of the shard of the connection manager in which the connection is (zutils/shard_lock_map.go:10-21). `closed` is `WsConnection.isClosed`. `wire` is what `WriteMessage` of `websocket.Conn` changes in that
object: gorilla/websocket supports one writer at a time only. -/
inductive ConnField where
  | table | conn | bufWriter | connID | connIdStr | workerID | msgHandler | ctx | cancel | msgBuffChan | property | connManager | onConnStart | onConnStop | packet | lastActivityTime | frameDecoder | hc
  | name | localAddr | remoteAddr | closeCallback | closed | wire
deriving DecidableEq

/-- Locks: of the shard; of another shard of the manager; `propertyLock`; `closeCallbackMutex`; `msgLock`; the mutex inside the `context.Context`; the right to
write to the network, which the peer takes away while it does not read. zutils/shard_lock_map.go:18-21, znet/connection.go:26-119, znet/ws_connection.go:26-113, znet/kcp_connection.go:26-120. -/
inductive ConnLock where
  | shard | other | property | callback | msg | context | net
deriving DecidableEq

/-- Code that concerns a connection and its manager. Auxiliary. -/
abbrev ConnCode := Code ConnField ConnLock

open Code

/-- Fields a constructor fills in before it puts the connection into the manager; `frameDecoder` only if there is a length field (znet/connection.go:126-152, ws_connection.go:121-146,
kcp_connection.go:126-150). Fields that the literal sets to their zero value are left out: the allocation does the same. -/
def newConn (fs : List ConnField) : ConnCode := all [all (fs.map .wr), opt (.wr .frameDecoder), .wr .packet, .wr .onConnStart, .wr .onConnStop, .wr .msgHandler, .wr .connManager]

/-- `connManager.Add` (znet/connmanager.go:22-24, shard_lock_map.go:71-76), `Remove` (znet/connmanager.go:29-31, shard_lock_map.go:110-115), `Get`, `Get2` (znet/connmanager.go:36-54). `Add` of other
connections changes the same map, or that of another shard. -/
def mgrAdd : ConnCode := .seq (.rd .connIdStr) (within .shard true (.wr .table))
/-- znet/connmanager.go:29-34, zutils/shard_lock_map.go:110-115. -/
def mgrRemove : ConnCode := .seq (.rd .connIdStr) (within .shard true (.wr .table))
/-- `Add` and `Remove` of another connection of the same shard, znet/connmanager.go:22-34. -/
def mgrOther : ConnCode := within .shard true (.wr .table)
/-- `Add` and `Remove` of a connection of another shard, znet/connmanager.go:22-34. -/
def mgrElse : ConnCode := within .other true .skip
/-- `Get`, `Get2`, znet/connmanager.go:36-54, of a key of this shard. -/
def mgrGet : ConnCode := within .shard false (.rd .table)
/-- `Get`, `Get2`, znet/connmanager.go:36-54, of a key of another shard. -/
def mgrGetElse : ConnCode := within .other false .skip
/-- The methods of the manager, with this and with other connections. znet/connmanager.go:22-54. -/
def manager : List ConnCode := [mgrRemove, mgrOther, mgrElse, mgrGet, mgrGetElse]

/-- `ctx.Done()`, a receive from it, `ctx.Err()`, `cancel()` of the standard library: an atomic load, the mutex of the context, the close of its channel. As in znet/connection.go:243, :318. -/
def ctxDone : ConnCode := .seq (.rd .ctx) (.atom 1)
/-- As in znet/connection.go:577-579. -/
def ctxErr : ConnCode := opt (within .context true .skip)
/-- `Stop`, znet/connection.go:329-331, znet/ws_connection.go:312-314, znet/kcp_connection.go:314-316. -/
def stop : ConnCode := .seq (.rd .cancel) (within .context true (opt .snd))

/-- The getters (znet/connection.go:333-364, 494-496, 561-575). -/
def getters : List ConnCode := [.rd .conn, .rd .connID, .rd .connIdStr, .rd .workerID, .rd .ctx, .rd .localAddr, .rd .remoteAddr, .rd .name, .rd .msgHandler]

/-- `SetProperty`, `GetProperty`, `RemoveProperty` (znet/connection.go:466-492; the same in ws_connection.go:463-489 and kcp_connection.go:454-480). -/
def properties : List ConnCode :=
  [within .property true (all [.rd .property, opt (.wr .property), .wr .property]), within .property true (.rd .property), within .property true (.wr .property)]

/-- `conn.Write` (no deadline is set): waits for other writers, and for the peer while it does not read. As in znet/connection.go:373-383, znet/ws_connection.go:349-363, znet/kcp_connection.go:351-365. -/
def netWrite : ConnCode := within .net true .skip
/-- The peer stops reading and starts again. Not code of zinx; it decides how long the writes in znet/connection.go:373-383 take. -/
def peer : ConnCode := .star (within .net true .skip)

/-- What user code may do beside calling methods of the connection: start goroutines, pass the connection on, receive it. -/
def around : List ConnCode := [.go, .snd, .rcv]

/-! ### TCP -/

/-- znet/connection.go:577-579: `c.ctx == nil || c.ctx.Err() != nil`. -/
def tcpClosed : ConnCode := .seq (.rd .ctx) ctxErr
/-- `Flush`, `Send`, `SendBuf` (znet/connection.go:366-395). The contents of the buffer of `bufWriter` are not modelled; only the writer goroutine uses it, as `Flush` and `SendBuf` are not in the interface. -/
def tcpFlush : ConnCode := all [tcpClosed, .rd .bufWriter, opt netWrite]
def tcpSend : ConnCode := all [tcpClosed, .rd .conn, opt netWrite]
def tcpSendBuf : ConnCode := all [tcpClosed, .rd .bufWriter, opt netWrite]
/-- `SendToQueue` (znet/connection.go:397-431): the nil test, the compare-and-swap, the new channel and the writer goroutine; then the closed test and the `select`. -/
def tcpQueue : ConnCode := all [.rd .msgBuffChan, opt (.seq (.atom 0) (opt (.seq (.wr .msgBuffChan) .go))), tcpClosed, opt (all [ctxDone, .rd .msgBuffChan, opt .rcv, opt .snd, opt (.rd .msgBuffChan)])]
/-- `SendMsg`, `SendBuffMsg` (znet/connection.go:435-464). -/
def tcpSendMsg : ConnCode := all [tcpClosed, .rd .packet, tcpSend]
def tcpBuffMsg : ConnCode := .seq (.rd .packet) tcpQueue
/-- `IsAlive` (znet/connection.go:543-551). -/
def tcpAlive : ConnCode := .seq tcpClosed (.rd .lastActivityTime)
/-- `AddCloseCallback`, `RemoveCloseCallback`, `InvokeCloseCallbacks` (znet/connection.go:585-607). -/
def tcpCallbacks (inside : List ConnCode) : List ConnCode := [.seq tcpClosed (opt (within .callback true (.wr .closeCallback))), within .callback false (.seq (.rd .closeCallback) (.star (any inside)))]

/-- The methods of the interface `IConnection` without `Start` and `SetHeartBeat`, which are for the library. ziface/iconnection.go, znet/connection.go:329-607. -/
def tcpApi : List ConnCode := stop :: tcpSend :: tcpQueue :: tcpSendMsg :: tcpBuffMsg :: tcpAlive :: (getters ++ properties ++ around)

/-- User code: in a close callback, in the function given to `Range`, elsewhere. A close callback that called `AddCloseCallback` or `RemoveCloseCallback` and got past their test would wait for ever; such a
call has the same events as one that returns after the test (cf. C76). Close callbacks that call `InvokeCloseCallbacks` or `Range`, and functions given to `Range` that call methods of the manager (cf. C90),
are left out. A function given to `AddCloseCallback`, znet/connection.go:585-592. -/
def tcpInCallback : List ConnCode := manager ++ tcpApi
/-- A function given to `Range`, znet/connmanager.go:99-111. -/
def tcpInRange : ConnCode := .star (any (tcpApi ++ tcpCallbacks tcpApi))
/-- Hooks and handlers, znet/connection.go:302, :501. -/
def tcpUser : ConnCode := .star (any (manager ++ tcpApi ++ tcpCallbacks tcpInCallback))

/-- `newServerConn` (znet/connection.go:123-159) and the `go` statement in the accept loop (znet/server.go:301-303), which goes on to other connections. -/
def tcpAccept : ConnCode := .seq (newConn [.conn, .bufWriter, .connID, .connIdStr, .name, .localAddr, .remoteAddr]) (all [mgrAdd, .go, .star (any [mgrOther, mgrElse])])

/-- `StartConn` (znet/server.go:224-236) up to the point where `Start` (znet/connection.go:292-325) has set the context. -/
def tcpStartHead : ConnCode := all [opt (.wr .hc), .wr .ctx, .wr .cancel]

/-- `finalizer` (znet/connection.go:498-527); `hc.Stop` (znet/heartbeat.go:122-125) sends to the checker's goroutine, which answers in that it receives. -/
def tcpFinalizer : ConnCode :=
  all [.rd .onConnStop, tcpUser, .rd .hc, opt (all [.rd .connID, .snd, .rcv]), .rd .conn, .rd .connManager, mgrRemove, .rd .connID, .go, .rd .connID]

/-- The rest of `Start`: the hook, the heartbeat checker, the worker, the reader; at the end the finalizer and the return of the worker (znet/msghandler.go:162-251). -/
def tcpStartRest : ConnCode :=
  all [.rd .onConnStart, tcpUser, .rd .hc, opt (.seq .go (.wr .lastActivityTime)), .rd .msgHandler, .rd .connID, .wr .workerID, .go, ctxDone, .rcv, tcpFinalizer, .rd .msgHandler, .rd .workerID]

/-- `StartReader` (znet/connection.go:227-288): handlers run in the worker that receives the request (`snd`), in a new goroutine (`go`) or, for interceptors, in the reader itself. -/
def tcpReader : ConnCode :=
  .seq (.star (all [ctxDone, .rd .conn, opt (.seq (.rd .hc) (opt (.wr .lastActivityTime))), .rd .frameDecoder, .star (all [.rd .msgHandler, tcpUser, .rd .workerID, any [.snd, .go, .skip]])])) (.seq stop (.rd .conn))

/-- `StartWriter` (znet/connection.go:193-223). -/
def tcpWriter : ConnCode := .seq (.star (all [.rd .msgBuffChan, ctxDone, any [tcpFlush, .seq .rcv tcpSendBuf, .rcv]])) (.seq (.rd .conn) tcpFlush)

/-- The goroutine of the heartbeat checker (znet/heartbeat.go:105-116, 140-157): `IsAlive`, `SendMsg`, `Stop` or the user's functions, until told to stop. -/
def heartbeat (user : ConnCode) : ConnCode := .seq user (.seq .rcv .snd)

/-- Goroutines of the user: they find the connection in the manager or receive it, go through the manager with `Range` (znet/connmanager.go:99-125), which calls the user's function with the lock of the
shard held that it has come to, start further goroutines, and call methods. -/
def appCode (user inRange : ConnCode) : ConnCode := .star (any [within .shard false (.seq (.rd .table) inRange), within .other false inRange, user])

/-- The goroutines of a server that concern one of its TCP connections: the accept loop, `StartConn`, the reader, the writer, the heartbeat checker, the one that calls the close callbacks, the peer
(as far as it keeps goroutines waiting), those of the user. znet/server.go:224-236, :238-314; znet/connection.go:193-325, :498-527; znet/heartbeat.go:105-157. -/
def tcpCode : Nat → ConnCode
  | 0 => tcpAccept
  | 1 => .seq tcpStartHead tcpStartRest
  | 2 => tcpReader
  | 3 => tcpWriter
  | 4 => heartbeat tcpUser
  | 5 => within .callback false (.seq (.rd .closeCallback) (.star (any tcpInCallback)))
  | 6 => peer
  | _ => appCode tcpUser tcpInRange

/-! ### Websocket -/

/-- `WriteMessage` of gorilla/websocket. -/
def wsWrite : ConnCode := within .net true (.wr .wire)
/-- znet/ws_connection.go:349-363, 365-396, 400-423, 426-461, 563-571, 597-619. -/
def wsSend : ConnCode := within .msg true (.seq (.rd .closed) (opt (.seq (.rd .conn) wsWrite)))
def wsQueue : ConnCode := within .msg true (all [.rd .msgBuffChan, opt (.seq (.wr .msgBuffChan) .go), .rd .closed, opt (.seq (.rd .msgBuffChan) (opt .snd))])
def wsSendMsg : ConnCode := within .msg true (.seq (.rd .closed) (opt (.seq (.rd .packet) (opt (.seq (.rd .conn) wsWrite)))))
def wsBuffMsg : ConnCode := within .msg true (all [.rd .msgBuffChan, opt (.seq (.wr .msgBuffChan) .go), .rd .closed, opt (.seq (.rd .packet) (opt (.seq (.rd .msgBuffChan) (opt .snd))))])
/-- znet/ws_connection.go:563-571. -/
def wsAlive : ConnCode := .seq (.rd .closed) (opt (.rd .lastActivityTime))
/-- znet/ws_connection.go:597-619. -/
def wsCallbacks (inside : List ConnCode) : List ConnCode := [.seq (.rd .closed) (opt (within .callback true (.wr .closeCallback))), within .callback false (.seq (.rd .closeCallback) (.star (any inside)))]

/-- ziface/iconnection.go, znet/ws_connection.go:312-619. -/
def wsApi : List ConnCode := stop :: wsSend :: wsQueue :: wsSendMsg :: wsBuffMsg :: wsAlive :: (getters ++ properties ++ around)
/-- As `tcpInCallback`, znet/ws_connection.go:597-604. -/
def wsInCallback : List ConnCode := manager ++ wsApi
/-- As `tcpInRange`, znet/connmanager.go:99-111. -/
def wsInRange : ConnCode := .star (any (wsApi ++ wsCallbacks wsApi))
/-- As `tcpUser`, znet/ws_connection.go:284, :500. -/
def wsUser : ConnCode := .star (any (manager ++ wsApi ++ wsCallbacks wsInCallback))

/-- `newWebsocketConn` (znet/ws_connection.go:119-152), which also gives it a context with the request's user values, and the handler of the upgrade (znet/server.go:355-356). -/
def wsAccept : ConnCode := .seq (newConn [.ctx, .conn, .connID, .connIdStr, .name, .localAddr, .remoteAddr]) (all [mgrAdd, .go, .star (any [mgrOther, mgrElse])])

/-- `finalizer` (znet/ws_connection.go:497-547). -/
def wsFinalizer : ConnCode :=
  all [.rd .onConnStop, wsUser, within .msg true (.seq (.rd .closed) (opt (all [.rd .hc, opt (all [.rd .connID, .snd, .rcv]), .rd .conn, .rd .connManager, mgrRemove, .rd .msgBuffChan, opt .snd, .wr .closed, .go, .rd .connID])))]

/-- `StartConn` and `Start` (znet/ws_connection.go:276-308). -/
def wsStartHead : ConnCode := all [opt (.wr .hc), .rd .ctx, .wr .ctx, .wr .cancel]
def wsStartRest : ConnCode :=
  all [.rd .onConnStart, wsUser, .rd .hc, opt (.seq .go (.wr .lastActivityTime)), .rd .msgHandler, .rd .connID, .wr .workerID, .go, ctxDone, .rcv, wsFinalizer, .rd .msgHandler, .rd .workerID]

/-- `StartReader` (znet/ws_connection.go:210-272), `StartWriter` (znet/ws_connection.go:185-206). -/
def wsReader : ConnCode :=
  .seq (.star (all [ctxDone, .rd .conn, opt (.seq (.rd .hc) (opt (.wr .lastActivityTime))), .rd .frameDecoder, .star (all [.rd .msgHandler, wsUser, .rd .workerID, any [.snd, .go, .skip]])])) (.seq stop (.rd .conn))
/-- znet/ws_connection.go:185-206. -/
def wsWriter : ConnCode := .star (all [.rd .msgBuffChan, ctxDone, opt (.seq .rcv (opt wsSend))])

/-- As `tcpCode`: znet/server.go:316-364, znet/ws_connection.go:185-308, :497-547, znet/heartbeat.go:105-157. -/
def wsCode : Nat → ConnCode
  | 0 => wsAccept
  | 1 => .seq wsStartHead wsStartRest
  | 2 => wsReader
  | 3 => wsWriter
  | 4 => heartbeat wsUser
  | 5 => within .callback false (.seq (.rd .closeCallback) (.star (any wsInCallback)))
  | 6 => peer
  | _ => appCode wsUser wsInRange

/-! ### KCP -/

/-- znet/kcp_connection.go:351-365, 367-399, 403-421, 423-452, 549-557, 583-614; the flag `closed` is only accessed with atomic operations (`atom 0`). -/
def kcpSend : ConnCode := within .msg false (.seq (.atom 0) (opt (.seq (.rd .conn) netWrite)))
def kcpQueue : ConnCode := within .msg false (all [.rd .msgBuffChan, opt (.seq (.wr .msgBuffChan) .go), .atom 0, opt (.seq (.rd .msgBuffChan) (opt .snd))])
def kcpSendMsg : ConnCode := .seq (.atom 0) (opt (.seq (.rd .packet) (opt kcpSend)))
def kcpBuffMsg : ConnCode := .seq (.atom 0) (opt (all [.rd .msgBuffChan, opt (.seq (.wr .msgBuffChan) .go), .rd .packet, opt (.seq (.rd .msgBuffChan) (opt .snd))]))
/-- znet/kcp_connection.go:549-557. -/
def kcpAlive : ConnCode := .seq (.atom 0) (opt (.rd .lastActivityTime))
/-- znet/kcp_connection.go:591-614. -/
def kcpCallbacks (inside : List ConnCode) : List ConnCode := [.seq (.atom 0) (opt (within .callback true (.wr .closeCallback))), within .callback false (.seq (.rd .closeCallback) (.star (any inside)))]

/-- ziface/iconnection.go, znet/kcp_connection.go:314-614. -/
def kcpApi : List ConnCode := stop :: kcpSend :: kcpQueue :: kcpSendMsg :: kcpBuffMsg :: kcpAlive :: (getters ++ properties ++ around)
/-- As `tcpInCallback`, znet/kcp_connection.go:591-598. -/
def kcpInCallback : List ConnCode := manager ++ kcpApi
/-- As `tcpInRange`, znet/connmanager.go:99-111. -/
def kcpInRange : ConnCode := .star (any (kcpApi ++ kcpCallbacks kcpApi))
/-- As `tcpUser`, znet/kcp_connection.go:287, :499. -/
def kcpUser : ConnCode := .star (any (manager ++ kcpApi ++ kcpCallbacks kcpInCallback))

/-- `newKcpServerConn` (znet/kcp_connection.go:124-157) and the accept loop (znet/server.go:407-409). -/
def kcpAccept : ConnCode := .seq (newConn [.conn, .connID, .connIdStr, .name, .localAddr, .remoteAddr]) (all [mgrAdd, .go, .star (any [mgrOther, mgrElse])])

/-- `finalizer` (znet/kcp_connection.go:486-533). -/
def kcpFinalizer : ConnCode :=
  .seq (.atom 0) (opt (.seq (.atom 0) (opt (all [.rd .onConnStop, kcpUser, within .msg true (all [.rd .hc, opt (all [.rd .connID, .snd, .rcv]), .rd .conn, .rd .connManager, mgrRemove, .rd .msgBuffChan, opt .snd, .go, .rd .connID])]))))

/-- `StartConn` and `Start` (znet/kcp_connection.go:277-310). -/
def kcpStartHead : ConnCode := all [opt (.wr .hc), .wr .ctx, .wr .cancel]
def kcpStartRest : ConnCode :=
  all [.rd .onConnStart, kcpUser, .rd .hc, opt (.seq .go (.wr .lastActivityTime)), .rd .msgHandler, .rd .connID, .wr .workerID, .go, ctxDone, .rcv, kcpFinalizer, .rd .msgHandler, .rd .workerID]

/-- `StartReader` (znet/kcp_connection.go:214-273), `StartWriter` (znet/kcp_connection.go:189-210). -/
def kcpReader : ConnCode :=
  .seq (.star (all [ctxDone, .rd .conn, opt (.seq (.rd .hc) (opt (.wr .lastActivityTime))), .rd .frameDecoder, .star (all [.rd .msgHandler, kcpUser, .rd .workerID, any [.snd, .go, .skip]])])) (.seq stop (.rd .conn))
/-- znet/kcp_connection.go:189-210. -/
def kcpWriter : ConnCode := .star (all [.rd .msgBuffChan, ctxDone, opt (.seq .rcv (opt kcpSend))])

/-- As `tcpCode`: znet/server.go:366-419, znet/kcp_connection.go:189-310, :486-533, znet/heartbeat.go:105-157. -/
def kcpCode : Nat → ConnCode
  | 0 => kcpAccept
  | 1 => .seq kcpStartHead kcpStartRest
  | 2 => kcpReader
  | 3 => kcpWriter
  | 4 => heartbeat kcpUser
  | 5 => within .callback false (.seq (.rd .closeCallback) (.star (any kcpInCallback)))
  | 6 => peer
  | _ => appCode kcpUser kcpInRange

/-! ## Objects with a single lock -/

/-- The fields of `ZinxLoggerCore` (zlog/logger_core.go:67-93); its lock is `mu`. -/
inductive LogField where
  | prefix | flag | buf | isolationLevel | calldDepth | fw | onLogHook
deriving DecidableEq

/-- `OutPut` (zlog/logger_core.go:197-240), which lets go of the lock while it looks for the caller. -/
def logOutput : Code LogField Unit :=
  within () true (all [.rd .flag, opt (all [.rel () true, .rd .calldDepth, .acq () true]), .wr .buf, .rd .prefix, .rd .flag, .wr .buf, .rd .fw, .rd .buf, .rd .onLogHook, opt (.rd .buf)])

/-- The methods: `Debugf` … `Panic` (242-334), `Stack` (336-344), `Flags`, `ResetFlags`, `AddFlag`, `SetPrefix` (348-376), `SetLogFile` (380-385), `SetMaxAge`, `SetMaxSize`, `SetCons` (388-415), `SetLogLevel`
(425-427), `SetLogHook` (119-121). Lines of zlog/logger_core.go. -/
def logMethods : List (Code LogField Unit) :=
  [.seq (.rd .isolationLevel) (opt logOutput), logOutput, within () true (.rd .flag), within () true (.wr .flag), within () true (.seq (.rd .flag) (.wr .flag)), within () true (.wr .prefix),
   .seq (.rd .fw) (.wr .fw), .seq (.rd .fw) (opt (within () true (.rd .fw))), .wr .isolationLevel, .wr .onLogHook]

/-- The fields of the file writer (zutils/witer.go:25-40) that change; its lock is `mu`. -/
inductive WriterField where
  | maxAge | maxSize | size | created | creates | cons | file | bw
deriving DecidableEq

/-- `rotate` (zutils/witer.go:131-166). -/
def writerRotate : Code WriterField Unit :=
  all [.rd .file, opt (all [.wr .bw, .rd .file, .rd .created, .wr .size]), .wr .created, opt (.seq (.wr .size) (.wr .created)), .rd .created, .wr .creates, opt (.seq (.wr .file) (.wr .bw))]

/-- `SetMaxAge`, `SetMaxSize`, `SetCons` (69-90), `Write` (92-128), the goroutine `delete` (169-190), `close` (208-218), `flush`, also of the goroutine `daemon` (62-66, 220-227). -/
def writerMethods : List (Code WriterField Unit) :=
  [within () true (.wr .maxAge), within () true (.wr .maxSize), within () true (.wr .cons),
   within () true (all [.rd .cons, .rd .file, opt writerRotate, .rd .creates, opt (.seq .go (opt writerRotate)), .rd .size, .rd .bw, .rd .maxSize, opt writerRotate, opt (.seq (.wr .bw) (.wr .size))]),
   .seq (.rd .maxAge) (opt (.rd .maxAge)), within () true (.seq (.rd .file) (opt (.wr .file))), within () true (.seq (.rd .bw) (opt (.wr .bw)))]

/-- The fields of `Request` (znet/request.go:29-41); its lock is `stepLock`. -/
inductive RequestField where
  | conn | msg | router | steps | needNext | icResp | handlers | index | keys
deriving DecidableEq

/-- `Set`, `Get` (136-152), `Goto` (185-190), `Abort` (214-222), and the getters (43-49, 154-168): what a handler may call. Lines of znet/request.go. -/
def requestHandler : List (Code RequestField Unit) :=
  [within () true (all [.rd .keys, opt (.wr .keys), .wr .keys]), within () false (.rd .keys), within () true (.seq (.wr .steps) (.wr .needNext)), .alt (.seq (.rd .handlers) (.wr .index)) (within () true (.wr .steps)),
   .rd .icResp, .wr .icResp, .rd .msg, .rd .conn]

/-- `Copy` (103-133). Lines of znet/request.go. -/
def requestCopy : Code RequestField Unit := all [.rd .steps, .star (.rd .keys), .rd .icResp, .rd .msg]

/-- `Call` with `next` (174-183, 192-212), `RouterSlicesNext` (229-235), `BindRouter`, `BindRouterSlices` (170-172, 225-227): what the worker does. Lines of znet/request.go. -/
def requestCall : List (Code RequestField Unit) :=
  [.wr .router, .wr .handlers,
   .seq (.rd .router) (.seq (.star (all [.rd .steps, .rd .router, .star (any (requestCopy :: requestHandler)), .rd .needNext, .alt (.wr .needNext) (within () true (.wr .steps))])) (.seq (.rd .steps) (.wr .steps))),
   .seq (.wr .index) (.star (all [.rd .index, .rd .handlers, .star (any (requestCopy :: requestHandler)), .wr .index]))]

/-- `TimeWheel` (ztimer/timewheel.go:30-48), whose lock is embedded: `addTimer` (85-130), `AddTimer` (133-138), `RemoveTimer` (141-150), `run` (161-188), `GetTimerWithIn` (197-223). The wheels below have
locks of their own. -/
inductive WheelField where
  | curIndex | timerQueue
deriving DecidableEq

/-- ztimer/timewheel.go:85-130. -/
def wheelAdd : Code WheelField Unit := opt (.seq (.rd .curIndex) (.wr .timerQueue))
/-- ztimer/timewheel.go:133-150, :161-188, :197-223. -/
def wheelMethods : List (Code WheelField Unit) :=
  [within () true wheelAdd, within () true (.star (.seq (.rd .timerQueue) (opt (.wr .timerQueue)))),
   within () true (all [.rd .curIndex, .rd .timerQueue, .wr .timerQueue, .star wheelAdd, .rd .timerQueue, .wr .timerQueue, .star wheelAdd, .rd .curIndex, .wr .curIndex]),
   within () true (all [.rd .curIndex, .rd .timerQueue, .star (.wr .timerQueue)])]

/-- `TimerScheduler.IDGen` (ztimer/timerscheduler.go:65-92), lock embedded. -/
def schedulerMethods : List (Code Unit Unit) := [within () true (all [.rd (), .wr (), .rd (), .rd ()]), within () true .skip]

/-- `IDWorker` (zutils/snowflake_uuid.go:26-74): `NextID` under `mutex`. -/
inductive IdField where
  | sequence | lastTimestamp
deriving DecidableEq

/-- zutils/snowflake_uuid.go:45-67. -/
def idMethods : List (Code IdField Unit) :=
  [within () true (.seq (.rd .lastTimestamp) (opt (all [.rd .lastTimestamp, .alt (all [.rd .sequence, .wr .sequence, .rd .sequence, .star (.rd .lastTimestamp)]) (.wr .sequence), .wr .lastTimestamp, .rd .sequence])))]

/-- The map of a shard (zutils/shard_lock_map.go:62-145, 169-187, 229-273): all methods, and the goroutines of `snapshot` and `Keys`; `Count` (50-60). -/
def shardMethods : List (Code Unit Unit) :=
  [within () false (.rd ()), within () true (.wr ()), within () true (.seq (.rd ()) (opt (.wr ()))), within () true (.seq (.rd ()) (.wr ())), within () false (.star (.seq (.rd ()) (opt .snd))), .go, .rcv, .snd]

/-- The worker tables of `MsgHandle` (znet/msghandler.go:34-44, 162-251), with their two locks (`true`: that of the extra workers). -/
inductive WorkersField where
  | free | extra
deriving DecidableEq

def workersMethods : List (Code WorkersField Bool) :=
  [within false true (opt (.wr .free)), all [within false true (.seq (.rd .free) (opt (.wr .free))), opt (within true true (.rd .extra)), opt .go], within false true (.wr .free), .seq .snd (within true true (.wr .extra))]

/-- `Client.conn` (znet/client.go:246-271), under `connMux`. -/
def clientMethods : List (Code Unit Unit) := [within () true (.rd ()), within () true (.wr ()), .go]

/-- `GrID.playerIDs` (zinx_app_demo/mmo_game/core/grid.go:32-57), under `pIDLock`, and `String` (60-63). -/
def gridMethods : List (Code Unit Unit) := [within () true (.wr ()), within () true (.wr ()), within () false (.star (.rd ()))]
/-- zinx_app_demo/mmo_game/core/grid.go:60-63. -/
def gridString : Code Unit Unit := .rd ()

/-- `WorldManager.Players` (zinx_app_demo/mmo_game/core/world_manager.go:29-94), under `pLock`; `PIDGen` (zinx_app_demo/mmo_game/core/player.go:29-33), under `IDLock`. -/
def worldMethods : List (Code Unit Unit) := [within () true (.wr ()), within () false (.star (.rd ()))]
/-- zinx_app_demo/mmo_game/core/player.go:29-33. -/
def pidMethods : List (Code Unit Unit) := [within () true (all [.rd (), .rd (), .wr ()])]

/-- The position of a player (zinx_app_demo/mmo_game/core/player.go): `UpdatePos` (177-193) writes it, and the goroutines of other players read it when they learn about
their surroundings (`SyncSurrounding`, 87-150; `OnExchangeAoiGrID`, 235-345).
There is no lock. -/
def playerMethods : List (Code Unit Unit) := [.wr (), .rd ()]

end Zinx.Race
