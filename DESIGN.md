# Formal model of aceld/zinx: design

Source of truth: `/repo` at the pinned commit (Go). Nothing in `/repo` is built or run; the
model was written by reading the source. Every model definition cites file and lines.

## Layout

* `lean/Verif/Model/*.lean` – transcription of the Go code, one file per Go package or concern.
  Only definitions, each with a `file:lines` citation and a note on every simplification.
* `lean/Verif/Spec/*.lean` – small independent specifications (reference CRC, reference framing,
  abstract map, ...). They do not mention model functions.
* `lean/Verif/Lemmas/*.lean` – helper lemmas.
* `lean/Verif/Props/*.lean` – the property theorems (named `Cnn_...`) and, beside each one, `example`s
  that meet the hypotheses. A theorem name with suffix `_partial` proves only part of the listed property;
  a theorem name containing `_refuted` proves that the listed property is false of the code, by a concrete
  reachable witness.
* `properties.jsonl` – the properties. `MANIFEST.json` – for each property its status and theorems.
  `AXIOMS.md` – the axioms of each claimed theorem. `seeded/LOG.jsonl` – wrong programs tried.

Status `proved` means: the statement of the property holds of the model as listed, for all inputs, states and
executions. Status `partial` means: the statement is false of the code (then there is a `_refuted` theorem, and
`_partial` theorems say what is true), or only part of it is proved. The notes in `MANIFEST.json` say which.

## Conventions

* Go `panic` is an explicit result (`Except`/`Option`/an inductive outcome/a label), never a totalised default.
  So is an endless loop where the code has a loop that may not end.
* Fixed-width integers are modelled with explicit wrap-around (`Nat` modulo, `Int.bmod`, or `BitVec`/`UInt8`).
* Goroutines are modelled as transition systems (`Model/Sys`): one step = one atomic action (lock-protected
  section, atomic instruction, channel operation); theorems quantify over all executions (all interleavings,
  sequential consistency). The Go memory model's weak behaviour for racy programs is not modelled; where the code
  has a data race the model gives it the *best* possible meaning (SC), so a refutation under SC is a real one and a
  proof is valid for race-free code only (said in the note of the property). Concurrent map access is modelled as
  what the Go runtime does: the process ends (`Model/Property`, `Model/RouteConc`).
  C100 says for which fields the assumption holds: a model of the accesses of every goroutine as a regular expression
  (more executions than the code has: data is left out), with the happens-before relation of the Go memory model.
  Fields shown there to be free of races behave as under SC; those with a race are named in its refutations. Atomic
  operations and unbuffered channels' answers are not used to show freedom of races, and are counted as ordering
  events in both directions when a race is shown.
* "Eventually" is stated over infinite executions that may stutter, with explicit fairness hypotheses
  (`Model/Fair`). Weak fairness of a kind of action: if it stays possible it is done. Strong fairness: if it is
  possible again and again it is done. Strong fairness is used for `select` branches (Go chooses at random among the
  ready ones), for mutexes (starvation mode hands the lock over) and for senders waiting for room in a channel (the
  runtime serves them in order). Every fairness hypothesis is an argument of the theorem that uses it.
* Time is an explicit input (every clock reading is an argument), so theorems quantify over all clocks.
* User code (hooks, handlers, callbacks, interceptors) is an arbitrary value or an arbitrary choice: it may return,
  panic, or take any time.

## Trusted base

* The Lean 4.33.0 kernel, and the axioms `propext`, `Classical.choice`, `Quot.sound`; which theorem uses which is
  in `AXIOMS.md` (made with `#print axioms`). No own axioms, `sorry`, `native_decide` or `bv_decide`.
* The reading of the Go source, i.e. that each model definition means the same as the cited lines.
* Go's standard library and runtime are modelled by their documentation: `bytes.Buffer`, `bufio.Writer`,
  `encoding/binary`, `strconv`, slices with backing arrays, maps (unspecified iteration order), channels, `select`,
  `sync.Mutex`, `sync.RWMutex` (as implemented: a waiting writer keeps new readers out), `sync/atomic`, `sync.Once`,
  `sync.Pool`, `context`, `time.Format`/`time.Parse` for one layout, `http.ServeMux` (as of Go 1.17).
* gorilla/websocket and kcp-go: a connection carries the payload bytes of the messages in order; a write that fails
  has sent a prefix, and later writes fail; `Upgrade` picks the subprotocol as documented; `ReadMessage` gathers
  frames and deals with pings as RFC 6455 and the documentation say.

## What is modelled, file by file

| source | model | left out |
|--------|-------|----------|
| `zinterceptor/framedecoder.go` | `Frame` (all of `FrameDecoder`) | log output |
| `zinterceptor/chain.go`, `interceptor.go`, `znet/chainbuilder.go` | `Chain`, `ChainConc` | `ChainConc`: additions while messages are handled, the words of the slice written and read in any order |
| `zdecoder/crc.go`, `tlvdecoder.go`, `ltvdecoder_little.go`, `htlvcrcdecoder.go` | `Crc`, `Decoder` | |
| `zpack/*` | `Pack` (messages, packing), `Options` (`NewPack`) | – |
| `znet/options.go` | `Options` (packing and decoder of server and client) | name and URL of a client |
| `znet/request.go` | `Request` (stages, handler index, pool, copy, key-value store), `Recycle` (who has a pooled object, and when) | the lock of the store (one goroutine per request) |
| `znet/router.go`, `AddRouter` | `Router` (slices with backing arrays), `RouteConc` (concurrent use) | |
| `znet/msghandler.go` | `Worker` (queues, loops, hash/bind/dynamic modes), `RouteConc`, `Leaving` (end of a connection and its worker), `PoolCycle` (the pool of a server that is started again) | |
| `znet/connection.go` | `ConnLife`, `Teardown`, `Alive`, `Send`, `RawRead`, `ReadBuf` (size of the read buffer), `CloseCb`, `Property`, `Pipe`, `Rpc`, `RpcAny`, `SendAlias`, `Leaving`, `Unbuf` (queues of length 0), `Made` (what is taken over from the server or client, contexts) | names, addresses, TLS |
| `znet/ws_connection.go` | the same with `WsSend`; `Handshake`, `WsFrames` (frames, fragments, pings) | masks, compression, UTF-8 |
| `znet/kcp_connection.go` | the same with `KcpSend` | KCP itself |
| `znet/callbacks.go` | `Callbacks` (linked list on a heap), `CloseCb` (with other goroutines) | |
| `znet/connmanager.go`, `znotify/notify.go` | `ConnMgr`, `MapLock`, `Bcast` (broadcasts that overlap), `NotifyOne` (look-up and send) | |
| `znet/server.go` | `Accept` (accept loops, limit, IDs), `ServerStop` (with `Serve`), `ServerCycle` (start again), `Handshake`, `Servers` (several in one process), `WsMux`, `FirstClient` (from the configuration to the first message) | options, banner |
| `znet/acceptdelay.go` | `AcceptDelay`, `DelayConc` (used by several goroutines) | |
| `znet/client.go` | `Client`, `HbShare` (the heartbeat checker of successive connections) | dialling and TLS |
| `znet/heartbeat.go` | `HeartbeatConf`, `HbStart`, `Alive`, `Beats`, `Teardown`, `HbShare` | |
| `zutils/shard_lock_map.go`, `hash.go` | `ShardMap`, `MapLock`, `MapLeak` (callbacks that panic), `IterChan` (goroutines and channels of `IterBuffered`), `KeysChan` (those of `Keys`), `ShardCount` (the variable set later), `ShardJson` | the JSON library (any functions) |
| `zutils/snowflake_uuid.go` | `Snowflake` | |
| `zutils/witer.go` | `LogWriter`, `LogClean`, `LogFault` (failing file operations), `LastWords` (end of the process) | zip format |
| `zlog/*` | `Log`, `LogConc`, `Caller`, `HookBuf` | `fmt` formatting of the text |
| `ztimer/*` | `Timer` (three wheels, scheduler), `AutoTimer`, `OneShot` (timers run without a scheduler) | `reflect` names in log lines |
| `zasync_op/*` | `Async`, `AsyncStart` (the start of the workers by the first calls of `Process`), `AsyncHome` (callbacks and the workers they are run by), `Stations` (full queues of both kinds of workers) | |
| `zconf/userconf.go`, `zconf.go`, `env.go` | `Conf`, `ConfLog` (loading, and the settings of the standard logger), `ConfJson` (what a file sets), `ConfPath` (which file it is, with `env.go`) | JSON syntax, `Show` |
| `zinx_app_demo/mmo_game` (`core`, `server.go`, `api/*`, `client_AI_robot.go`) | `Aoi` (grids, manager, players' sight), `WorldConc` (hooks and handlers of all players at the same time), `Screen` (all messages about places, and what clients show), `ScreenConc` (moves handled at the same time), `Chat` (world chat), `Robot` (the robot client) | protobuf |
| all packages: calls of functions given by the user | `Unwind` (what a panic in them does, and the locks held during them), `Goexit` (what ending the goroutine in them does) | everything but such calls, log calls, locks and deferred calls |
| `examples/zinx_decoder/bili` | `Device` (the routers, the chain of decoders with its responses) | printing |
| `examples/zinx_version_ex/datapackDemo/server`, `zinx_async_op/client`, `zinx_new_router/client`, `zinx_kcp/client` | `HandRead` (reading with `io.ReadFull` and `Unpack`) | printing, closing |
| `examples/zinx_async_op` (`router/login.go`, `async_op_apis/user_async_api.go`) | `Login` (handler, operation and callback, with request objects and `RequestPool`, on top of `AsyncHome`) | the database, JSON, sleeping, what the reply holds |
| `ziface/*`, `logo/*`, other `examples/*` | none (interfaces, banner, examples) | |

## Plan per property

| id | what is modelled | how proved |
|----|------------------|------------|
| C01 | `FrameDecoder` state machine (`Model/Frame`) | strong induction on buffered bytes: `Decode` commutes with append |
| C02 | same, against a reference frame format in `Spec/Frame` | induction on the frame list |
| C03 | `getUnadjustedFrameLength` | against positional-notation spec |
| C04 | same | false of the code: refuted with witness; partial: the over-long frame itself is not delivered by the call that detects it; exactly when (`longest f ≤ f.max`) |
| C05 | same with the three shipped length fields | invariant over all reads |
| C06 | same, all configurations | false of the code (negative adjusted length, strip larger than frame, zero-length frame): refuted; partial: exact condition on configurations (C06_exact_partial) |
| C07 | same | consequence of loop exit condition |
| C08, C09, C10 | `Pack`, `Unpack`, `NewMsgPackage` (`Model/Pack`) | byte-level round trip |
| C11, C12 | pack + frame decoder + decoder interceptors (`Model/Decoder`) | composition of C02 and round trip |
| C13 | HTLV decoder | bodies 0..254 proved, body 255 refuted |
| C14, C15, C68 | `GetCrC` with both tables (`Model/Crc`), bitwise spec (`Spec/Crc`) | full 256-entry table check lifted by induction; injectivity of the step |
| C16 | HTLV `Intercept` + reader recover structure | no router sees it: proved; process survival: refuted for WebSocket, with the exact condition |
| C17 | receive path | refuted; partial: `Unpack` does enforce it |
| C18 | chain (`Model/Chain`) | induction on chain index |
| C19 | `chainBuilder`, server/client `Start` | server proved, client refuted |
| C20, C21, C69 | `Request` stage machine and int8 index machine (`Model/Request`) | induction on fuel/handlers; refuted for 128+ handlers and for the recovery middleware |
| C22, C23 | `RouterSlices`, groups, `AddRouter` (`Model/Router`) | invariant over histories |
| C24, C25, C73, C79 | request pool, `Copy`, key-value store | refuted for stale response, raw payload, calls on copies; partial for the rest |
| C26, C27, C70 | worker loop, task queues (`Model/Worker`) | transition system, FIFO invariant, fairness |
| C28, C29, C30 | worker assignment | invariants over all schedules; refutations by explicit schedules; C28 with its exact condition |
| C31, C34 | `ConnManager` over sharded map | refinement to abstract map |
| C32, C33, C80 | accept loops | transition system; the count is taken shard by shard; C33 with the sharp bound for k requests at a time |
| C35, C36 | connection life cycle (`Model/ConnLife`) | transition system, fairness |
| C37, C38, C39, C40, C85, C86 | send paths of the three kinds of connections (`Model/Send`, `WsSend`, `KcpSend`) | transition systems, invariants relating queue, buffer and wire; refutations by schedules |
| C41, C76 | callback linked list on a heap (`Model/Callbacks`), with other goroutines (`Model/CloseCb`) | refinement to list; transition system |
| C42, C43, C44 | heartbeat (`Model/Teardown`, `Alive`, `HeartbeatConf`) | deadlock witness; timed model; record model |
| C45, C46, C47 | `ShardLockMaps` | refinement to abstract map; scan interleaving theorem |
| C48, C49 | snowflake on 64-bit integers | invariant over clock sequences |
| C50, C51, C81, C82 | log writer over an abstract file system (`Model/LogWriter`, `LogClean`) | invariant over histories; calendar arithmetic |
| C52..C55 | time wheels and scheduler (`Model/Timer`) | conservation invariant; interleaving proof for cancel; punctual-tick timing invariant |
| C56, C57, C58 | async result / worker, start of the workers (`Model/AsyncStart`) | transition system over all interleavings; C58 under fairness too |
| C59 | `UserConfToGlobal` field by field | per-field theorem; refutations for the exceptional fields |
| C60, C61 | logger filter, line, header, `itoa` | direct |
| C62 | accept delay | closed form by induction |
| C63, C64, C71, C72 | AOI grid arithmetic, players | arithmetic over all geometries; refuted at the declared bounds; invariant over histories |
| C65 | notify over sharded map | refinement |
| C66 | server stop: snapshot of the manager shard by shard, exit channel, listeners, hooks | transition system; exactly when `Stop` panics, returns, and which connections it leaves open; refuted for WebSocket alone, late and unstarted connections |
| C67, C74 | reader buffer aliasing (`Model/RawRead`) | refuted for TCP; proved for KCP (fresh buffer per read) |
| C75 | client start/stop (`Model/Client`) | transition system; many refutations |
| C77 | logger with its mutex (`Model/LogConc`) | transition system; refuted for hooks that log |
| C78 | `FrameDecoder` memory | invariant; refuted for over-long frames; exactly when (`longest f ≤ f.max`) |
| C83 | property table (`Model/Property`) | trace inclusion in an atomic table (`Spec/Property`) |
| C84, C91, C92 | sender, network, decoder and workers put together (`Model/Pipe`) | composition of C38, C11/C12, C27 and their fairness versions |
| C87 | routes added while messages are handled (`Model/RouteConc`) | transition system; refuted |
| C88 | automatic timer scheduler (`Model/AutoTimer`) | transition system, fairness |
| C89 | WebSocket handshakes (`Model/Handshake`) | transition system; refuted for subprotocols |
| C90 | locks of the sharded map (`Model/MapLock`) | ranking argument with strong fairness; deadlock witnesses |
| C93 | several servers sharing the global configuration (`Model/Servers`) | simulation by the process with one server; refuted for settings read while running; what each server does, by invariants over the calls (`Props/ServersOwn`) |
| C94 | the HTTP multiplexer the WebSocket listeners share (`Model/WsMux`) | invariant; longest-match characterization; refuted for several servers and restarts |
| C95 | players who arrive, move and leave at the same time (`Model/WorldConc`) | invariants of the transition system; refuted by executions run by a checked interpreter (`Lemmas/WorldRun`) |
| C96 | default hash and shard choice (`Model/ShardMap`, `ConnMgr`) | the step is a bijection modulo 2^32 and modulo 32; pigeonhole for the load |
| C97 | configuration files, user configurations and logger settings (`Model/ConfLog`) | exact conditions; refuted by short histories |
| C98 | log writer with failing file operations (`Model/LogFault`) | invariant over histories; refuted, one failure silencing a day; without failures the same as `Model/LogWriter`, and never out of order (`Props/LogFaultMore`) |
| C99 | two endpoints with heartbeat checkers (`Model/Beats`) | timed transition system with bounds; invariant; time can always go on |
| C100 | accesses of shared fields (`Model/Race`, `Model/RaceCode`) | traces with happens-before; lockset analysis of regular expressions, proved sound; publication theorem; witnesses found by a checked matcher |
| C101 | locks of the same executions (`Model/Wait`) | lock order analysis of regular expressions, proved sound; deadlocks shown to last |
| C102 | the same with the network as a lock the peer may keep (`Model/Wait`) | lock order with the network below the manager; stalls shown to last as long as the peer does not read |
| C103 | call stacks at `runtime.Caller`, `getInfo` (`Model/Caller`) | list indexing; exact condition on names |
| C104 | the logger's `bytes.Buffer` with its arrays (`Model/HookBuf`) | induction on writes; exact content of a kept slice |
| C105 | two directions of a connection with handlers in between (`Model/Rpc`, on top of `Model/Pipe`) | projections to the parts; invariant linking handling, calls and queue; liveness by projecting a fair execution to the two directions, the handlers' progress giving the worker's fairness |
| C106 | a logger, its buffered writers and the console until the process ends (`Model/LastWords`, on top of `Model/Log` and `Model/LogWriter`) | accounting invariant over histories; refuted, with the exact size of what is missing |
| C107 | workers, their channels, readers, handlers in `OnComplete`, operations in `SetReturnedObj`, worker numbers with and without dynamic binding (`Model/AsyncHome`) | invariants, fairness, permanent deadlock, refuted by concrete executions |
| C108 | buffers of callers, slices on the channels of writer goroutines, packs that copy or not (`Model/SendAlias`) | equal to what was asked for, by an invariant; refuted for `SendToQueue` |
| C109 | request objects between the pool, readers, queues and workers (`Model/Recycle`) | who has an object and what it holds, by invariants over traces; refuted for looks after proceeding and for interceptors that proceed twice |
| C110 | workers of both kinds as stations with bounded queues, arbitrary user code (`Model/Stations`) | under fairness, everything queued is taken iff no set of stations waits in a circle; refuted for every size; proved for sends that go down ranks or find room |
| C111 | starts and stops of one server, exit channels, listeners, port (`Model/ServerCycle`) | with alternating calls, broken iff a start listens before the old listener is closed; refuted for TCP and KCP; otherwise proved under fairness |
| C112 | workers and readers with handlers that never return (`Model/Worker`) | under fairness, all of a connection is handled iff it is complete before its worker is caught; refuted for any two connections of one worker; proved for a worker of one's own and without pool |
| C113 | handlers of the world chat, table of players (`Model/Chat`) | what is heard of one worker is a sublist of what it took; everyone who stays hears everything passed on; under fairness all of it; common order and lines of leaving speakers refuted |
| C114 | setters and `Start` of server and client, chain of decoders, reader (`Model/Options`) | one side understands the other iff decoder at the making of the connection and chain are the decoder of the packing, once; in terms of the calls; same calls refuted, second `Start` of a client and late `SetDecoder` refuted |
| C115 | setters of messages (`Model/Pack`), packing, receiver | data is given as the length field says; unchanged iff the length set last is that of the data set last; refuted for `SetData` alone |
| C116 | reader, `Start`, worker and queue of a connection that ends (`Model/Leaving`) | under fairness everything ends and is handled, but exactly for what the reader has in hand when its own queue is closed; refuted for workers made for one connection (message lost; WebSocket: process ends), for stop hooks that panic and for handlers that do not return |
| C117 | `Serve` and signals (`Model/ServerStop`) | `Serve` only returns (exact); refuted; holds if the application calls `Stop` |
| C118 | queues and workers over several starts, readers that look a queue up and send later (`Model/PoolCycle`) | order lost exactly when messages are in two queues of one place; count of workers exact; refuted for both; every message handled once proved under fairness |
| C119 | goroutines, channels and WaitGroups of `IterBuffered` with writers of the shards and a reader that may stop (`Model/IterChan`) | per shard: contents at the lock = passed on, in hand, in the channel, left; sums give room; end by measures under fairness |
| C120 | `GetShard`, `Get`, `Set`, `Remove`, `Count` and `IterBuffered` with a count other than the number of shards (`Model/ShardCount`, `Model/IterChan`) | false: refuted for every change; exact conditions by arithmetic of remainders; the WaitGroup never gets to zero, or an index is out of range in every fair execution |
| C121 | `MarshalJSON`, `UnmarshalJSON` with the library as a parameter (`Model/ShardJson`) | false for the zero value: refuted, exact condition; partial for maps that were made, from C45's lemmas |
| C122 | the robot client (`Model/Robot`): its reader as a function of the stream, its goroutines as a transition system with a clock | from C12's lemmas; runs of the demo server's welcome refute the end; exact conditions for loops and reader |
| C123 | the histories of `Model/LogConc` with the times of the calls | refuted by a run of two goroutines; exact: only overlapping calls, from C77's invariant |
| C124 | the reader of TCP and KCP with the buffer as a parameter (`Model/ReadBuf`) | invariant for all sizes; measure arguments under fairness of the reader; an endless run refutes size 0; exact |
| C125 | Go code reduced to calls of user functions, locks, deferred calls and recovers, with a big-step semantics of panics (`Model/Unwind`); every goroutine of the library | sound and complete analyses of escaping panics and of locks left locked, by induction; then exact conditions per goroutine |
| C126 | `Keys` with its channel, which holds what `Count` said (`Model/KeysChan`) | invariant with a count of goroutines not done; liveness by strong fairness for lock and channel, the caller reading; examples with a channel that is too small |
| C127 | `StartHeartBeatWithOption` on a server or client: checker, routes, what is done with a message (`Model/HbStart`) | closed form of the checker by C44, then the representation lemma of the routes (C22); refutations by unfolding |
| C128 | the routers of the device server, byte for byte, and its chain of decoders (`Model/Device`) | receive loop of C01/C13 carried over to chains; the residue of the CRC shows what three further bytes do |
| C129 | WebSocket frames gathered into messages (`Model/WsFrames`), then the receive loop | induction over frames; composed with C11 and C12 |
| C130 | reader and checker of a WebSocket connection at the level of frames (`Model/WsFrames`) | refuted for every limit by clients that only ping; exact condition as an invariant over all executions |
| C131 | the accept delay shared by all listeners and handshakes, one step per access of its field (`Model/DelayConc`) | refuted with two goroutines for every power of two up to 2^33 seconds, by induction over rounds; invariant over executions without overlapping calls |
| C132 | configuration, message handler, listeners, worker of the first connection (`Model/FirstClient`) | case analysis; composed with C59 |
| C133 | the interceptor slice appended to and read without a lock (`Model/ChainConc`) | invariant over the writes still to be made; continuation built from any quiet reachable state; lost update as a concrete execution |
| C134 | one checker object, several connections of a client and several goroutines (`Model/HbShare`) | invariant with one connection at a time; counting invariant (goroutines = watched connections) in general; concrete executions for the failures |
| C135 | readers, task queues and workers (`Model/Worker`), frame decoder | counting invariant: arrived = finished + waiting + handled, requests only at the worker of their connection; frames of at least 8 bytes |
| C136 | timers, the goroutines of `Run`, monotonic and wall clock in nanoseconds (`Model/OneShot`) | invariant with the sleep in closed form; fairness; every steady clock and every duration beyond 2^63 ns for the failure |
| C137 | `Reload`: what `encoding/json` stores in the 36 fields of `Config` (`Model/ConfJson`) | induction over the members; every setting by cases; names compared by computation |
| C138 | the examples' loops of `io.ReadFull` and `Unpack` (`Model/HandRead`) | well-founded recursion over the bytes left; any stream is messages and the beginning of one; comparison with C11, C12 |
| C139 | `Model/Unwind` with a semantics of calls and the locks held during them | sound and complete analysis by induction over the code; exact table per goroutine and call |
| C140 | `Model/Screen` over `Model/Aoi`: every message with its place; a client that follows them; `Model/ScreenConc`: moves as interleaved instructions | invariant relating scene, screens and a history of places that does not use the model; the uninterrupted run of the instructions is the sequential move; concrete witnesses |
| C141 | `Model/Unbuf` over `Model/Send`, `Model/WsSend`, `Model/KcpSend`: sender and writer meet | simulation by executions with queues of length 1; for what needs fairness, executions at half speed (`Props/UnbufLive`) |
| C142 | `Model/Made`: settings, connections being made, contexts | trace invariant; executions written out |
| C143 | the same | a lemma for anything that is set, read once and kept, used four times |
| C144 | the code of `Model/Unwind` with a semantics of `runtime.Goexit` (`Model/Goexit`) | sound and complete analyses of goroutines that end and locks left locked; invariant of the list of calls |
| C145 | `Model/Send`, `Model/WsSend`, `Model/KcpSend`, one of the senders running the hook | from C37 and C38; invariant of the states in which the hook runs |
| C146 | path of the configuration file: `Clean`, `Join`, `Abs` on texts, lookups in any file system with links (`Model/ConfPath`) | invariant of `Clean`: the elements kept lead where those read lead; refuted by a working directory entered through a link |
| C147 | `Model/ConnLife` | the invariant of C35; refuted by a message handed on during the teardown |
| C148 | the same over WebSocket and KCP (`Model/RpcAny`, for any sender; instances `ws`, `kcp`) | the handlers' sends come one at a time; what is needed of a way of sending under that condition is stated once (`Carrier`) and proved for direct and buffered sends of both; that requests are answered follows from what was proved of the parts (C27, C39, C40, C91, C92) by projecting executions, for any sender with `Ready` |
| C149 | the login example: request objects in and out of the pool, the handler, the operation, the callback (`Model/Login`, on top of `Model/AsyncHome`) | invariants: objects of messages under way are not shared, not in the pool, and have their connection; the rest is a run of `AsyncHome`, so C107 applies; order (C149_order): messages of a connection are handled one at a time and in order, so its operations are started, run and ended in order, a callback whose operation has ended without putting it is still being put by its handler, hence callbacks are put, taken and answered in order; liveness (C149_live_partial): a fair execution of `Login` gives a fair one of `AsyncHome`, because the user's code in a worker has at most three steps and the operations ahead in the queue of the asynchronous worker end, so C107_partial applies; refuted in pool mode and for the missing result by executions that exist for all sizes |
| C150 | broadcasts of the notify table by several goroutines (`Model/Bcast`) | invariant: the items still to be sent to are in the shard, whose lock is held, and not among those sent to; one ID's way through the shards; weak fairness, induction over shards and items; refuted by executions built for every number of shards and every spread of the IDs |
| C151 | messages to one ID of the notify table by several goroutines (`Model/NotifyOne`) | invariant: what the look-up of a call has found was registered at a moment since the call, and its sends so far; a split of the execution at the call; weak fairness; refuted by a removal or a new registration between look-up and send |
| C152 | the locks of the sharded map with callbacks that panic (`Model/MapLeak`) | invariant: the goroutine that panicked is among the readers more often than the rest of its code leaves; balanced code; nobody has an `Unlock` of the shard before a `Lock` of it; without panics an execution of `Model/MapLock` |

For C13, C17, C21, C24, C25, C34, C36, C57, C60, C64, C65, C67, C69, C70 and C81, of which only a part holds, `Props/Exact`, `Props/Exact2`, `Props/Exact3` and `Props/ExactAoi` prove the exact condition (`C.._exact`).

## Assumptions worth knowing

* Where a model leaves a choice open (order of map iteration, size of a read, when a timeout fires, which pending
  timers a poll collects), all choices are executions of the model. Some models allow more than the code does; this
  is said in their header, and refutations do not use the additional executions.
* Refutations are reachable from the initial state of the model; their schedules are written out in the theorem.
* Hypotheses that restrict users (no nil callback, hooks that do not log, one goroutine registering routes, packed
  messages below 2^32-8 bytes) are in the theorem and in the note of the claim.

## Wrong programs

`seeded/LOG.jsonl` has one line per wrong program that was tried: a change of a model definition that describes a bug
one could make in Go (guard dropped, update dropped, order changed, bound off by one, lock not taken, ...), made in a
copy of the project and built. `detected` means that some proof no longer goes through; `survived` that everything
still builds. Each survivor was looked at: either the change makes no difference to anything the listed properties
speak of (the note says why), or a theorem was added or tightened (field `tightened`).
