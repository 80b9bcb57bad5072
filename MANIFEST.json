{
 "claims": [
  {
   "property": "C01",
   "status": "proved",
   "theorems": [
    "Zinx.Props.C01_chunking_independent",
    "Zinx.Props.C01_chunking_independent_tlv_ltv"
   ],
   "note": "Clean streams for every documented format; for the shipped TLV and LTV decoders every stream whatsoever."
  },
  {
   "property": "C02",
   "status": "proved",
   "theorems": [
    "Zinx.Props.C02_frames_delivered"
   ],
   "note": ""
  },
  {
   "property": "C03",
   "status": "proved",
   "theorems": [
    "Zinx.Props.C03_length_header"
   ],
   "note": "Eight byte lengths are read as two's complement; other widths panic."
  },
  {
   "property": "C04",
   "status": "partial",
   "theorems": [
    "Zinx.Props.C04_exact",
    "Zinx.Props.C04_partial",
    "Zinx.Props.C04_partial_bounded",
    "Zinx.Props.C04_refuted",
    "Zinx.Props.C04_refuted_wedged_forever",
    "Zinx.Props.C04_refuted_payload_delivered_as_frame"
   ],
   "note": "False of the code: a completely buffered over-long frame wedges the connection for ever, one arriving in pieces has its payload parsed as frames. Proved: frames before it are delivered, nothing longer than the maximum is ever delivered. C04_exact: a decoder finds its way back after every over-long frame exactly if no frame it can be announced is longer than its maximum, so TLV and LTV always do and HTLV does not."
  },
  {
   "property": "C05",
   "status": "proved",
   "theorems": [
    "Zinx.Props.C05_shipped_never_panics_or_hangs"
   ],
   "note": "Frame decoder of the three shipped protocols."
  },
  {
   "property": "C06",
   "status": "partial",
   "theorems": [
    "Zinx.Props.C06_partial",
    "Zinx.Props.C06_exact_partial",
    "Zinx.Props.C06_refuted",
    "Zinx.Props.C06_refuted_hang",
    "Zinx.Props.C06_refuted_negative",
    "Zinx.Props.C06_refuted_strip",
    "Zinx.Props.C06_refuted_signed"
   ],
   "note": "False of the code for configurations in which a peer can announce a length below zero, below the strip count, or of exactly zero. Proved for all configurations whose header plus adjustment is at least one byte and covers the strip count or exceeds the maximum; C06_exact_partial: these are exactly the configurations for which it holds (eight byte lengths are signed and never safe)."
  },
  {
   "property": "C07",
   "status": "proved",
   "theorems": [
    "Zinx.Props.C07_no_complete_frame_withheld"
   ],
   "note": ""
  },
  {
   "property": "C08",
   "status": "proved",
   "theorems": [
    "Zinx.Props.C08_tlv_roundtrip",
    "Zinx.Props.C08_any_message"
   ],
   "note": ""
  },
  {
   "property": "C09",
   "status": "proved",
   "theorems": [
    "Zinx.Props.C09_ltv_roundtrip",
    "Zinx.Props.C09_any_message"
   ],
   "note": ""
  },
  {
   "property": "C10",
   "status": "proved",
   "theorems": [
    "Zinx.Props.C10_unpack_tlv",
    "Zinx.Props.C10_unpack_ltv"
   ],
   "note": ""
  },
  {
   "property": "C100",
   "status": "partial",
   "theorems": [
    "Zinx.Props.C100_locked",
    "Zinx.Props.C100_objects",
    "Zinx.Props.C100_constructed",
    "Zinx.Props.C100_ws_queue",
    "Zinx.Props.C100_ws_writes",
    "Zinx.Props.C100_started_partial",
    "Zinx.Props.C100_connection_refuted",
    "Zinx.Props.C100_start_refuted",
    "Zinx.Props.C100_objects_refuted"
   ],
   "note": "The framework: executions of goroutines that run regular expressions over accesses, lock operations, go statements, messages and atomics; happens-before is the transitive closure of program order, locks, go statements and messages (races: also of atomics, so that a race is one however atomics are read). Free of races in all executions: the manager's map, properties and close callbacks of connections (C100_locked), all fields the constructor fills in before the connection is published, although they are read without a lock (C100_constructed), and most fields of the other objects (C100_objects). False for the rest: C100_connection_refuted shows executions with races on the context, the cancel function, the worker ID, the time of the last activity (between goroutines of the framework alone) and the message channel of TCP connections, the closed flag of WebSocket connections and the message channel of KCP connections; C100_objects_refuted shows races on the logger's level, writer and hook, the log writer's retention time, the keys and steps of requests, the demo's grids and players. In every witness the racing accesses are next to each other. C100_started_partial: what Start sets is free of races as long as nobody gets the connection from the manager. C100_ws_queue: the message channel of WebSocket connections, which the writer reads without the lock, is free of races, as it is set once, after a nil test under the lock, before the writer is started. C100_start_refuted: context, cancel function and worker ID of WebSocket and KCP connections have the same races as those of TCP connections."
  },
  {
   "property": "C101",
   "status": "partial",
   "theorems": [
    "Zinx.Props.C101_connections_partial",
    "Zinx.Props.C101_objects",
    "Zinx.Props.C101_refuted"
   ],
   "note": "False of the code. The finalizer of WebSocket and KCP connections calls Remove of the manager with msgLock held, and Range calls the user's function with the shard locked: a broadcast with Range that sends to a connection being closed waits for ever, and so do the finalizer and all that need the shard afterwards (C101_refuted, first two parts). With TCP a function given to Range that adds a close callback and a close callback that removes a connection do (third part). The executions are given with the proof that the goroutines do nothing more however it goes on. C101_connections_partial: without sends (WebSocket, KCP) and close callbacks in functions given to Range there is no circle; all other user code is arbitrary. C101_objects: the other objects. Waiting for channels is the subject of C42, C75, C85 and C90; hooks of the logger that log are that of C77."
  },
  {
   "property": "C102",
   "status": "partial",
   "theorems": [
    "Zinx.Props.C102_manager_partial",
    "Zinx.Props.C102_close_partial",
    "Zinx.Props.C102_accept_refuted",
    "Zinx.Props.C102_close_refuted"
   ],
   "note": "False of the code. A broadcast with Range that sends keeps a shard of the manager locked while it waits for the peer, and the accept loop waits for the shard (C102_accept_refuted, all three transports). The finalizer of WebSocket and KCP connections takes msgLock before it closes the socket, and a send that waits for the peer holds it: such a connection cannot be closed, neither by Stop nor by the heartbeat checker (C102_close_refuted). Both come with the proof that the goroutines do nothing as long as the peer does not read. True: without sends and close callbacks in functions given to Range (TCP: without direct sends) nobody who waits for the manager, and in particular not the accept loop, waits even indirectly for the network (C102_manager_partial); after the hook the finalizer of TCP connections takes no other lock than the manager's (C102_close_partial). Writes have no deadline in the code; the system's own timeouts are not modelled."
  },
  {
   "property": "C103",
   "status": "partial",
   "theorems": [
    "Zinx.Props.C103_place_partial",
    "Zinx.Props.C103_place_unknown",
    "Zinx.Props.C103_place_refuted",
    "Zinx.Props.C103_name_exact",
    "Zinx.Props.C103_name_refuted",
    "Zinx.Props.C103_name_panics",
    "Zinx.Props.C103_report"
   ],
   "note": "Proved: lines logged with the package functions, with zlog.Ins() and with the methods of a logger of one's own name the place of the call; the panic report contains the line of the panic for one to three runtime frames. Refuted: the methods of zlog.StdZinxLog and OutPut (of any logger) name the caller of the function that logs, or the caller of that; the report shows what is between the first two dots of the full name, for packages with a dot in their path (github.com/…) a piece of the path. Exact: a report panics iff a name has no dot."
  },
  {
   "property": "C104",
   "status": "partial",
   "theorems": [
    "Zinx.Props.C104_given",
    "Zinx.Props.C104_exact",
    "Zinx.Props.C104_partial",
    "Zinx.Props.C104_refuted"
   ],
   "note": "Proved: during the call file and hook see exactly the line. Refuted: the slice is the logger's buffer, so the next line that fits overwrites what the hook kept (C104_exact: byte for byte what it finds then); it stays only if the buffer has moved to a larger array."
  },
  {
   "property": "C105",
   "status": "partial",
   "theorems": [
    "Zinx.Props.C105_replies",
    "Zinx.Props.C105_in_step",
    "Zinx.Props.C105_answered",
    "Zinx.Props.C105_once",
    "Zinx.Props.C105_handled",
    "Zinx.Props.C105_handling_refuted",
    "Zinx.Props.C105_in_step_refuted"
   ],
   "note": "Proved: replies received answer different requests, in order, with the right contents; those whose send returned nil form a prefix of what arrives, followed by at most one cut off; the i-th reply answers the i-th request as long as no send of a reply failed; under fairness, with buffered requests on a working connection, all queued requests are answered (C105_answered); the client handles every message it has received exactly once (C105_once, C105_handled). Refuted: a buffered reply can time out on a working connection, so that the next reply takes its place; the client starts a goroutine per message, so replies are not handled in order. TCP, TLV or LTV, data below 2^32-8 bytes; nobody else sends on the server's side of the connection."
  },
  {
   "property": "C106",
   "status": "partial",
   "theorems": [
    "Zinx.Props.C106_refuted",
    "Zinx.Props.C106_partial",
    "Zinx.Props.C106_old",
    "Zinx.Props.C106_last",
    "Zinx.Props.C106_console"
   ],
   "note": "Refuted: the writer buffers, and neither Fatal nor Panic nor Serve flushes it; a process that logs one line and then ends by Fatal leaves an empty file. C106_last: this is not an accident, a last line of 1 to 4096 bytes is never completely in the file. C106_partial: if archive names are distinct (see C50), exactly an end of at most 4096 bytes is missing, not longer than the lines since any flush. C106_old: in timed histories only lines at or after the last flush can be missing. C106_console: without a file, or with the console on, every line is on the console at once."
  },
  {
   "property": "C107",
   "status": "partial",
   "theorems": [
    "Zinx.Props.C107_refuted",
    "Zinx.Props.C107_home",
    "Zinx.Props.C107_once",
    "Zinx.Props.C107_partial",
    "Zinx.Props.C107_jam",
    "Zinx.Props.C107_jammed",
    "Zinx.Props.C107_noPool",
    "Zinx.Props.C107_client_refuted",
    "Zinx.Props.C107_overlap_refuted",
    "Zinx.Props.C107_lost_refuted"
   ],
   "note": "Refuted: a handler that registers a callback for an operation that has ended sends to the queue of its own worker, and if that is full waits for ever (possible with every fixed pool, C107_jammed; permanent, C107_jam). Proved with a pool and without dynamic binding: the callback is run by the worker that runs the connection's handlers (C107_home), at most once in every mode (C107_once), and in every fair execution in which that worker is never in that situation it is run (C107_partial). That operations get their turn and Process returns is assumed. Clients and servers without a pool never run a callback (C107_noPool, C107_client_refuted). With dynamic binding a callback can overlap with a handler of its connection, or be lost, since a number is given to several connections."
  },
  {
   "property": "C108",
   "status": "partial",
   "theorems": [
    "Zinx.Props.C108_refuted",
    "Zinx.Props.C108_copied",
    "Zinx.Props.C108_partial",
    "Zinx.Props.C108_pack_refuted"
   ],
   "note": "Refuted: SendToQueue queues the caller's slice itself, so a later write to it changes what is transmitted. Proved for Send, SendMsg and SendBuffMsg with packs that make a new array, as the shipped ones do (C108_copied); with a pack that returns the slice it is given SendBuffMsg has the same fault (C108_pack_refuted). C108_partial: for every call and pack, what is transmitted is right if the slice is not written to before the writer goroutine has taken it."
  },
  {
   "property": "C109",
   "status": "partial",
   "theorems": [
    "Zinx.Props.C109_partial",
    "Zinx.Props.C109_late",
    "Zinx.Props.C109_window",
    "Zinx.Props.C109_late_refuted",
    "Zinx.Props.C109_refuted",
    "Zinx.Props.C109_exact",
    "Zinx.Props.C109_once"
   ],
   "note": "Always, every message read gets one request object, filled once, and the chain returns once for it before the next message is read (C109_once). Refuted as stated, in two ways. With RequestPoolMode, an interceptor that looks at its request after it has proceeded may find the message of another connection: the worker has handled the request and put it back, and another reader has taken it (C109_late_refuted; the debug line in SendMsgToTaskQueue, znet/msghandler.go:304, is such a look). With RequestPoolMode and an interceptor that proceeds twice, a handler may find a message that was not sent to any worker yet (C109_refuted): the object is put back by the first handler while it still waits in the queue. Proved: without the pool, or with interceptors that proceed at most once, every handler finds the message sent at its place, and interceptors find the last message of their connection until they proceed (C109_partial; C109_exact: for handlers this condition is exact); without the pool also after it (C109_late); with the pool until the worker of the connection has finished a request (C109_window). Partial because the statement is false; nothing is missing from the proofs. All this with a worker pool and without one (a goroutine per message)."
  },
  {
   "property": "C11",
   "status": "proved",
   "theorems": [
    "Zinx.Props.C11_tlv_end_to_end",
    "Zinx.Props.C11_remark_largest_lengths_panic"
   ],
   "note": "The remark shows why payloads of the eight largest lengths are excluded: 8+Length wraps and the receiver panics."
  },
  {
   "property": "C110",
   "status": "partial",
   "theorems": [
    "Zinx.Props.C110_exact",
    "Zinx.Props.C110_jam",
    "Zinx.Props.C110_partial",
    "Zinx.Props.C110_refuted",
    "Zinx.Props.C110_starves_refuted"
   ],
   "note": "Refuted as stated, for every number of workers and every capacity, already by handlers that start at most one operation each and operations that submit at most one callback (C110_refuted, C110_starves_refuted): a message worker waits in Process for room on the full queue of an asynchronous worker, whose operation waits in SetReturnedObj for room on the full queue of the message worker. Nothing ends this (C110_jam). Proved: this is the only way to be held up (C110_exact: in a fair execution everything queued is taken if and only if there is never a set of stations each of which waits for room on the full queue of one of the set), and it does not happen if operations submit nothing to message workers, or never more operations are outstanding at an asynchronous worker than its queue has room for (C110_partial, for any assignment of ranks). Partial because the statement is false; nothing is missing from the proofs. Queues have room for at least one element; no dynamic binding."
  },
  {
   "property": "C111",
   "status": "partial",
   "theorems": [
    "Zinx.Props.C111_exact",
    "Zinx.Props.C111_partial",
    "Zinx.Props.C111_refuted",
    "Zinx.Props.C111_kcp_refuted",
    "Zinx.Props.C111_accept_refuted",
    "Zinx.Props.C111_unstarted_refuted",
    "Zinx.Props.C111_twice_refuted",
    "Zinx.Props.C111_start_twice_refuted",
    "Zinx.Props.C111_dead"
   ],
   "note": "Refuted as stated: Stop returns as soon as its signal has been taken, before the listener has been closed. With TCP a second Start after that can end the process (C111_refuted, panic in ListenTcpConn); with KCP the second start can be left without a listener, and the Stop after it never returns (C111_kcp_refuted). The goroutine that accepts KCP sessions never ends (C111_accept_refuted). Proved: with alternating calls the break happens exactly if a start tries to listen before the listener of the start before has been closed (C111_exact); if that does not happen, the rest of the property holds under fairness, the end of the accepting goroutine for TCP (C111_partial). Calls that do not alternate: Stop before any Start never returns (C111_unstarted_refuted); a second Stop ends the process (C111_twice_refuted), after which nothing runs (C111_dead); after two calls of Start without Stop between them, with KCP, whether Stop returns depends on a race (C111_start_twice_refuted). Not treated: modes with WebSocket (C66_ws_refuted, C94_restart_refuted), worker goroutines, which each Start adds to (C118), calls from several goroutines."
  },
  {
   "property": "C112",
   "status": "partial",
   "theorems": [
    "Zinx.Props.C112_exact",
    "Zinx.Props.C112_partial",
    "Zinx.Props.C112_backlog",
    "Zinx.Props.C112_refuted",
    "Zinx.Props.C112_nopool"
   ],
   "note": "Refuted as stated: any two connections that have the same worker can hold each other up for ever, for every assignment and capacity (C112_refuted; with hashing, any two numbers with the same rest modulo the pool size; in bind mode connections can come to share a worker too, see C28 and C29). Proved: the exact condition (C112_exact: all messages of a connection are handled iff the connection has been served completely before its worker is caught in such a handler); isolation if no other connection has the same worker (C112_partial); without worker pool every message is begun whether or not others return (C112_nopool); and while the worker is caught, at most one queue of further messages is accepted, after which the readers stop too (C112_backlog)."
  },
  {
   "property": "C113",
   "status": "partial",
   "theorems": [
    "Zinx.Props.C113_order_partial",
    "Zinx.Props.C113_agree_partial",
    "Zinx.Props.C113_everyone_partial",
    "Zinx.Props.C113_fair_partial",
    "Zinx.Props.C113_order_refuted",
    "Zinx.Props.C113_lost_refuted",
    "Zinx.Props.C113_whom"
   ],
   "note": "Lines go to players who have come and whose connection is open, and whoever misses one has been cut off (C113_whom). Refuted as stated: whenever the connections of two players have different workers, two listeners can hear their lines in different orders (C113_order_refuted); a line is lost, with a recovered nil dereference, if the speaker leaves the table between the moment its message is taken and the look-up (C113_lost_refuted). Proved for all executions: nobody hears a line twice, and what is heard of the speakers of one worker, in particular of one speaker, comes in the order in which it was said, the same for all (C113_order_partial, C113_agree_partial); once a line has been passed on, everyone who was online and stayed has heard it (C113_everyone_partial); under fair scheduling that happens unless the speaker leaves (C113_fair_partial)."
  },
  {
   "property": "C114",
   "status": "partial",
   "theorems": [
    "Zinx.Props.C114_exact",
    "Zinx.Props.C114_partial",
    "Zinx.Props.C114_packet",
    "Zinx.Props.C114_factory",
    "Zinx.Props.C114_again",
    "Zinx.Props.C114_crossed",
    "Zinx.Props.C114_message",
    "Zinx.Props.C114_refuted",
    "Zinx.Props.C114_refuted_again",
    "Zinx.Props.C114_refuted_late"
   ],
   "note": "Exact: one side understands the other iff, when its connection is made, its decoder goes with the sender's packing and the chain holds that decoder once and no other. Before a single Start this means: the decoder set last goes with the packing set last. False of the code: WithPacket alone leaves the TLV decoder; a client started twice decodes twice; SetDecoder after Start cuts by the new decoder and decodes by the old one. A message packed one way is read the other way with ID and length swapped bytewise."
  },
  {
   "property": "C115",
   "status": "partial",
   "theorems": [
    "Zinx.Props.C115_exact",
    "Zinx.Props.C115_partial",
    "Zinx.Props.C115_init",
    "Zinx.Props.C115_taken",
    "Zinx.Props.C115_waits",
    "Zinx.Props.C115_refuted",
    "Zinx.Props.C115_refuted_swallows"
   ],
   "note": "Exact: given unchanged iff the length set last is the length of the data set last; Init always suffices. False of the code: SetData does not set the length; the receiver takes as many bytes as the length field says, from the next message if need be."
  },
  {
   "property": "C116",
   "status": "partial",
   "theorems": [
    "Zinx.Props.Leave.C116_partial",
    "Zinx.Props.Leave.C116_exact",
    "Zinx.Props.Leave.C116_process",
    "Zinx.Props.Leave.C116_worker_exact",
    "Zinx.Props.Leave.C116_reader",
    "Zinx.Props.Leave.C116_down",
    "Zinx.Props.Leave.C116_refuted",
    "Zinx.Props.Leave.C116_refuted_process",
    "Zinx.Props.Leave.C116_refuted_hook",
    "Zinx.Props.Leave.C116_refuted_hang"
   ],
   "note": "False as stated. C116_refuted: dynamic binding, connection with a worker of its own: a message that was read is never handled although nothing fails (the queue is closed under the reader, which panics with 'send on closed channel'); C116_refuted_process: with WebSocket this ends the process, as StartReader does not recover; C116_refuted_hook: after a panic of the stop hook, freeWorker is skipped: worker and reader stay; C116_refuted_hang: a handler that does not return keeps the readers of ended connections. C116_exact and C116_process: exactly the messages in the reader's hand at freeWorker are lost, exactly then the process ends (WebSocket); C116_worker_exact: the worker ends exactly if the hook does not panic. C116_partial: in all fair executions without such a panic everything ends and everything else is handled."
  },
  {
   "property": "C117",
   "status": "partial",
   "theorems": [
    "Zinx.Props.C117_exact",
    "Zinx.Props.C117_refuted",
    "Zinx.Props.C117_partial"
   ],
   "note": "Refuted as stated (C117_refuted: in a fair execution a connection that is open when the signal comes stays open for ever and its stop hook never runs): when the signal comes Serve returns at once, in any state, and does nothing else (C117_exact). Proved: if the application calls Stop itself, in every mode but WebSocket alone, when the connections in the manager have been started and no more are entered into it, Stop returns and every connection runs its stop hook once and leaves the manager (C117_partial). Partial because the statement is false; nothing is missing from the proofs. What main does after Serve has returned is not described."
  },
  {
   "property": "C118",
   "status": "partial",
   "theorems": [
    "Zinx.Props.C118_exact",
    "Zinx.Props.C118_partial",
    "Zinx.Props.C118_workers",
    "Zinx.Props.C118_old",
    "Zinx.Props.C118_once",
    "Zinx.Props.C118_handled",
    "Zinx.Props.C118_refuted",
    "Zinx.Props.C118_refuted_workers"
   ],
   "note": "Refuted as stated. Order: for every pool, capacity and assignment, the two messages of one read can be put in the queues of two starts and be handled in the wrong order (C118_refuted). Workers: between calls there are WorkerPoolSize times the number of starts (C118_workers), without bound (C118_refuted_workers), and a worker of an earlier start whose queue is empty waits for ever (C118_old). Proved: the order can be lost exactly when messages of the connection are in two of the queues its place has had (C118_exact); it is kept if the server is started again only while nothing of the connection is under way (C118_partial); nothing is handled twice (C118_once), and everything read is handled under fairness (C118_handled). Not treated: overflow workers of dynamic binding, whose queues StartWorkerPool leaves alone."
  },
  {
   "property": "C119",
   "status": "proved",
   "theorems": [
    "Zinx.Props.C119_no_wait",
    "Zinx.Props.C119_content",
    "Zinx.Props.C119_ends",
    "Zinx.Props.C119_read_all"
   ],
   "note": "ShardCount as it was when the map was made (see C120). Items, Clear and MarshalJSON are readers that go on to the end. Fairness: every goroutine of the call goes on if it can, readers get a shard lock that is free again and again, writers give it back; nothing is asked of the reader (except in C119_read_all)."
  },
  {
   "property": "C12",
   "status": "proved",
   "theorems": [
    "Zinx.Props.C12_ltv_end_to_end"
   ],
   "note": ""
  },
  {
   "property": "C120",
   "status": "partial",
   "theorems": [
    "Zinx.Props.C120_refuted",
    "Zinx.Props.C120_exact_get",
    "Zinx.Props.C120_exact_count",
    "Zinx.Props.C120_hangs_refuted",
    "Zinx.Props.C120_ends_refuted",
    "Zinx.Props.C120_keys_refuted",
    "Zinx.Props.C120_partial"
   ],
   "note": "False: the methods use the current value of ShardCount, not the number of shards. For every change there are keys that are lost; exactly those whose hash has another remainder. Count is right exactly if the new value is not greater and the shards beyond it are empty; IterBuffered (Items, Clear, MarshalJSON) never returns after the value was raised, and ends the process after it was lowered, as Keys does. Proved: all is well as long as the value is the one the map was made with."
  },
  {
   "property": "C121",
   "status": "partial",
   "theorems": [
    "Zinx.Props.C121_refuted",
    "Zinx.Props.C121_marshal_refuted",
    "Zinx.Props.C121_exact_panic",
    "Zinx.Props.C121_error",
    "Zinx.Props.C121_partial"
   ],
   "note": "False for a zero value ShardLockMaps (var m ShardLockMaps; json.Unmarshal(b, &m)), the usual way to decode: UnmarshalJSON has a value receiver and cannot make the map, so it panics exactly if the text has a key; MarshalJSON of the zero value never returns. Proved for maps that were made with NewShardLockMaps or NewWithCustomHash; keys the receiver had before stay. The JSON library is a parameter with the stated round trip (JsonLib)."
  },
  {
   "property": "C122",
   "status": "partial",
   "theorems": [
    "Zinx.Props.C122_reads",
    "Zinx.Props.C122_heard",
    "Zinx.Props.C122_moves",
    "Zinx.Props.C122_steps",
    "Zinx.Props.C122_steps_sharp",
    "Zinx.Props.C122_lost",
    "Zinx.Props.C122_not_early",
    "Zinx.Props.C122_returns",
    "Zinx.Props.C122_exact_reader",
    "Zinx.Props.C122_loops",
    "Zinx.Props.C122_loops_forever",
    "Zinx.Props.C122_loops_refuted",
    "Zinx.Props.C122_reader_refuted"
   ],
   "note": "False in two places. Loops: the robot starts a loop for each message with its own position, and the demo server sends two of them when a player comes; the loops never end, also when the connection is closed (C122_loops_refuted, C122_loops_forever; their number is exact, C122_loops). Reader: if the position comes when the timer has gone off, the reader waits for ever on a channel nobody reads (C122_reader_refuted); otherwise it ends (C122_exact_reader). Proved: the messages, the rectangle, no return before the ten seconds (C122_not_early), return unless the robot is told its position again and again (C122_returns)."
  },
  {
   "property": "C123",
   "status": "partial",
   "theorems": [
    "Zinx.Props.C123_refuted",
    "Zinx.Props.C123_overlap",
    "Zinx.Props.C123_partial"
   ],
   "note": "False of the code: OutPut takes the time before the lock, so of two calls made at about the same time the later one can be written first (C123_refuted, with the two lines). Proved: this happens only to calls of two goroutines that overlap, the one with the earlier time being under way and not yet written when the other is made (C123_overlap); hence times do not decrease if no call is made while another one is under way and has not written (C123_partial). The hook does not log (see C77). The clock is any function of the times that grows from call to call."
  },
  {
   "property": "C124",
   "status": "partial",
   "theorems": [
    "Zinx.Props.C124_exact",
    "Zinx.Props.C124_partial",
    "Zinx.Props.C124_prefix",
    "Zinx.Props.C124_notices",
    "Zinx.Props.C124_messages",
    "Zinx.Props.C124_zero",
    "Zinx.Props.C124_spins",
    "Zinx.Props.C124_refuted"
   ],
   "note": "False for the size 0, which a JSON file may set (C124_refuted, in a fair execution that goes on for ever): nothing is ever read, the heartbeat hears nothing, the peer's going is not noticed (C124_zero), and a TCP reader is busy all the time, passing on an empty piece in each round, which without a frame decoder is a message (C124_spins). Proved for every other size; the sizes that will do are exactly those (C124_exact). What Read does with an empty buffer (0, nil at once on TCP; as soon as something is there on KCP) is the libraries' and assumed. Fairness: the reader goes on if it can. WebSocket connections have no such buffer."
  },
  {
   "property": "C125",
   "status": "partial",
   "theorems": [
    "Zinx.Props.C125_exact",
    "Zinx.Props.C125_locks",
    "Zinx.Props.C125_api",
    "Zinx.Props.C125_handler",
    "Zinx.Props.C125_partial",
    "Zinx.Props.C125_refuted",
    "Zinx.Props.C125_refuted_ws",
    "Zinx.Props.C125_refuted_lock"
   ],
   "note": "False of the code; exact. The process ends (C125_exact) if a function of the heartbeat panics (C125_refuted), if an interceptor or a connection hook of a WebSocket connection does (TCP and KCP recover; C125_refuted_ws), and if the log hook does wherever the library logs, also in the deferred functions that log a recovered panic; a panicking close callback, asynchronous operation or timer function only together with such a hook. Locks: no goroutine of the library leaves one locked (C125_locks); IterCb, Range, Range2, RemoveCb and NotifyAll leave that of a shard locked exactly if their callback, Pack or the hook panics (C125_api), and if a handler made the call the worker recovers and goes on with the shard locked for ever (C125_handler, C125_refuted_lock). The code is abstracted to its calls of user functions, log calls, locks and deferred calls."
  },
  {
   "property": "C126",
   "status": "proved",
   "theorems": [
    "Zinx.Props.C126_content",
    "Zinx.Props.C126_returns",
    "Zinx.Props.C126_excl"
   ],
   "note": "ShardCount being the number of shards; for other values see C120."
  },
  {
   "property": "C127",
   "status": "partial",
   "theorems": [
    "Zinx.Props.C127_exact",
    "Zinx.Props.C127_plain",
    "Zinx.Props.C127_partial",
    "Zinx.Props.C127_refuted_default",
    "Zinx.Props.C127_refuted_id",
    "Zinx.Props.C127_refuted_slices",
    "Zinx.Props.C127_refuted_client",
    "Zinx.Props.C127_refuted_twice"
   ],
   "note": "False in general, with the exact behaviour in C127_exact (for every option and mode: when the call panics, what is sent, by whom it is handled, other routes unchanged) and C127_plain (no option). Refuted: a router given with the default ID 99999 is not used; an ID given without a router is not used; in slice mode the default handler still runs before those of the option; a client in a process with slice mode on drops every heartbeat it receives because its router goes into the other table; starting heartbeats twice for one ID panics. Partial: in plain mode with a router and a free ID other than 99999 it holds, at both ends."
  },
  {
   "property": "C128",
   "status": "partial",
   "theorems": [
    "Zinx.Props.C128_partial",
    "Zinx.Props.C128_exact",
    "Zinx.Props.C128_wrapped",
    "Zinx.Props.C128_refuted",
    "Zinx.Props.C128_refuted_15",
    "Zinx.Props.C128_refuted_short"
   ],
   "note": "False in three ways. The server as it stands adds the HTLV decoder behind the TLV one, so it takes bytes 4 to 7 of a device's frame for a length and does not answer the sample frame of its own client (C128_refuted); it answers HTLV frames inside TLV frames, exactly as the server with the right decoder answers the frames (C128_wrapped). With the right decoder: code 0x15 is answered with 35 bytes under the length 38, no frame, and the next reply makes the device's reader fail (C128_refuted_15); short bodies get the checksum as part of the number, or no answer (C128_refuted_short). C128_exact: when a reply is a frame; C128_partial: everything else holds, for all sequences and cuts."
  },
  {
   "property": "C129",
   "status": "proved",
   "theorems": [
    "Zinx.Props.C129_messages",
    "Zinx.Props.C129_tlv",
    "Zinx.Props.C129_ltv",
    "Zinx.Props.C129_raw",
    "Zinx.Props.C129_reader"
   ],
   "note": "Frames are gathered into messages as RFC 6455 and the documentation of gorilla/websocket say (the library is not in /repo); pongs are taken to be written. Then C11 and C12 apply to the messages as pieces of the stream."
  },
  {
   "property": "C13",
   "status": "partial",
   "theorems": [
    "Zinx.Props.C13_partial",
    "Zinx.Props.C13_refuted",
    "Zinx.Props.C13_refuted_wedged",
    "Zinx.Props.C13_exact"
   ],
   "note": "False of the code for bodies of exactly 255 bytes (maximum frame length is 259, the frame has 260 bytes); proved for 0..254. C13_exact: a frame that arrives whole is delivered iff its body has at most 254 bytes."
  },
  {
   "property": "C130",
   "status": "partial",
   "theorems": [
    "Zinx.Props.C130_exact",
    "Zinx.Props.C130_refuted",
    "Zinx.Props.C130_refuted_frames"
   ],
   "note": "False of the code: the reader looks for messages of type PingMessage, but the library answers pings itself and never returns them, so a client that sends only pings, or a long message slowly, is declared dead after HeartbeatMax (C130_refuted, for every HeartbeatMax; C130_refuted_frames: whatever frames are sent that complete no message). C130_exact, for all executions: alive exactly if not closed and less than HeartbeatMax has passed since a message that is not empty was read to its end and noted, or since the start."
  },
  {
   "property": "C131",
   "status": "partial",
   "theorems": [
    "Zinx.Props.C131_partial",
    "Zinx.Props.C131_alone",
    "Zinx.Props.C131_refuted",
    "Zinx.Props.C131_goes_on"
   ],
   "note": "False of the code: the duration is a field of one process-wide object without a lock, and the doubling and the capping are separate accesses. With two goroutines a wait can be 2^k seconds for every k up to 33 (C131_refuted): each in turn holds a doubled value that the other has not yet capped. It holds for every execution in which no call of Delay starts before the one before it sleeps (C131_partial), and such a call does what the sequential model of C62 says (C131_alone)."
  },
  {
   "property": "C132",
   "status": "proved",
   "theorems": [
    "Zinx.Props.C132_exact",
    "Zinx.Props.C132_user",
    "Zinx.Props.C132_refuted",
    "Zinx.Props.C132_no_queue"
   ],
   "note": "C132_exact: the conditions are necessary and sufficient, whichever free worker is chosen. C132_user: the same in terms of the settings of the user, through C59. C132_refuted: none of the conditions is checked when the server is made; the default configuration with one setting changed ends in a panic of Start, the end of the process at the first connection (heartbeat interval 0, from time.NewTicker in a goroutine of the library) or of the listener (certificate), no connection at all or nothing read. Addresses are free and memory suffices."
  },
  {
   "property": "C133",
   "status": "partial",
   "theorems": [
    "Zinx.Props.C133_partial",
    "Zinx.Props.C133_any_refuted",
    "Zinx.Props.C133_lost_refuted",
    "Zinx.Props.C133_calls"
   ],
   "note": "However calls interleave, Execute ends once per begin and AddInterceptor ends in the order it began in each goroutine (C133_calls). False of the code: the slice of interceptors is appended to and read without a lock. C133_any_refuted: after any additions made one at a time, one more addition and one message can always come together so that the message passes a nil interceptor (panic) or memory behind the array is read. C133_lost_refuted: of two additions at the same time that both return, one is lost. C133_partial: if nothing else is in progress during an addition, every message passes exactly the interceptors added before, in order."
  },
  {
   "property": "C134",
   "status": "partial",
   "theorems": [
    "Zinx.Props.C134_partial",
    "Zinx.Props.C134_settled",
    "Zinx.Props.C134_finalizer",
    "Zinx.Props.C134_crash_refuted",
    "Zinx.Props.C134_wrong_refuted",
    "Zinx.Props.C134_forgotten_refuted",
    "Zinx.Props.C134_heard"
   ],
   "note": "False of the code: a client has one checker object, which every Restart binds to the new connection, while goroutines started for earlier connections still use it. C134_crash_refuted: a tick after the binding and before Start of the new connection ends the process (nil cancel function). C134_wrong_refuted: a connection on which something has just been received is stopped because the old one was. C134_forgotten_refuted: after connecting again no earlier connection is looked at any more. C134_partial: with one connection at a time and no tick before updateActivity the property holds. C134_settled: when the earlier connections have ended exactly one goroutine is there, for the last connection (it may be an older connection's). TCP client; one-step heartbeats."
  },
  {
   "property": "C135",
   "status": "partial",
   "theorems": [
    "Zinx.Props.C135_pool",
    "Zinx.Props.C135_reached",
    "Zinx.Props.C135_read",
    "Zinx.Props.C135_nopool_refuted"
   ],
   "note": "Holds with a worker pool: C135_pool bounds the pending requests of a connection by (requests of one read) + max(MaxWorkerTaskLen, 1) + 1, every queue by max(MaxWorkerTaskLen, 1) (a hand-over through an unbuffered channel is two actions in the model); C135_reached shows that the bound is attained; C135_read bounds the requests of one read for TLV/LTV. False without a pool (WorkerPoolSize 0, and every client): C135_nopool_refuted, every message gets its own goroutine, any number of handlers run at once. With HTLV an overlong frame makes the decoder keep everything (C78)."
  },
  {
   "property": "C136",
   "status": "partial",
   "theorems": [
    "Zinx.Props.C136_partial",
    "Zinx.Props.C136_once",
    "Zinx.Props.C136_late",
    "Zinx.Props.C136_called",
    "Zinx.Props.C136_exact",
    "Zinx.Props.C136_refuted"
   ],
   "note": "False of the code: NewTimerAfter adds the duration to the time in 64 bits, so a duration that leads beyond the year 2262 wraps and the function is called at once (C136_refuted, for every steady clock and every such duration; C136_exact: exactly then). Proved otherwise: not a millisecond early if the wall clock is not set back (C136_partial), ready to be called a millisecond after its time if the clock is not set ahead (C136_late), called at most once per Run (C136_once), and called under fair scheduling if time goes on, whatever the clock shows (C136_called). Timers of the scheduler are the subject of C52-C55 and C88; they are made with the same functions. A nil *DelayFunc is left out (C88_nil)."
  },
  {
   "property": "C137",
   "status": "partial",
   "theorems": [
    "Zinx.Props.C137_partial",
    "Zinx.Props.C137_names",
    "Zinx.Props.C137_case",
    "Zinx.Props.C137_exact",
    "Zinx.Props.C137_unchanged",
    "Zinx.Props.C137_again",
    "Zinx.Props.C137_restart_exact",
    "Zinx.Props.C137_refuted",
    "Zinx.Props.C137_stale_refuted"
   ],
   "note": "Proved for every file and configuration: what each setting is afterwards (C137_partial), that names cannot be confused when case is ignored (C137_names; the demo game writes TcpPort for TCPPort), exactly when Reload panics (C137_exact), that files that are no JSON object change nothing (C137_unchanged), that loading twice is loading once (C137_again). False of the code: a file with one value that does not fit panics only after all other members have taken effect (C137_refuted), and a setting taken out of the file keeps its old value instead of the default (C137_stale_refuted); loading is like a restart exactly if all settings without a value have their defaults (C137_restart_exact). What encoding/json makes of text (syntax, escapes) is not modelled; an error of os.Stat other than 'does not exist' counts as a missing file, as in the code."
  },
  {
   "property": "C138",
   "status": "partial",
   "theorems": [
    "Zinx.Props.C138_exact",
    "Zinx.Props.C138_partial",
    "Zinx.Props.C138_agree",
    "Zinx.Props.C138_refuted"
   ],
   "note": "Proved for every byte stream and every way of cutting it: the program shows the messages the library hands on, without those that have no data, up to the first longer than MaxPacketSize of its own process (C138_partial; C138_exact also says when it ends and when it waits; C138_agree: the two agree exactly if all messages have data and none is longer than the limit). False as stated (C138_refuted): with the default limit of 4096 a message of 4097 bytes, which the library sends and accepts (C17), ends the program; a message without data is not shown. How the program prints, and what it does after it has returned, is not modelled."
  },
  {
   "property": "C139",
   "status": "partial",
   "theorems": [
    "Zinx.Props.C139_exact",
    "Zinx.Props.C139_api",
    "Zinx.Props.C139_send",
    "Zinx.Props.C139_partial",
    "Zinx.Props.C139_refuted"
   ],
   "note": "Exact table, by a sound and complete analysis of the code of every goroutine and call, whatever panics. Without locks (C139_partial): handlers, interceptors, connection hooks, heartbeat functions, asynchronous operations, completion callbacks, timer functions and the WebSocket check. With locks, so the property as stated is false (C139_refuted): the log hook (lock of the logger, and those held by the code that logs: extra workers, msgLock of KCP and WebSocket connections, a shard), close callbacks (lock of the close callbacks), Pack (msgLock of a WebSocket connection, a shard in NotifyAll), and the callbacks of Range, IterCb and RemoveCb (a shard)."
  },
  {
   "property": "C14",
   "status": "proved",
   "theorems": [
    "Zinx.Props.C14_crc_is_modbus"
   ],
   "note": ""
  },
  {
   "property": "C140",
   "status": "partial",
   "theorems": [
    "Zinx.Props.C140_partial",
    "Zinx.Props.C140_alone",
    "Zinx.Props.C140_ghost",
    "Zinx.Props.C140_refuted",
    "Zinx.Props.C140_overlap_refuted"
   ],
   "note": "Proved for every world and every history handled one operation after the other in which the places have a grid (C140_partial). False otherwise. C140_refuted, C140_ghost: a client can give any place; if it gives one without a grid and then leaves, both handlers panic, nobody is told, and every client in sight goes on showing the player where it was. C140_overlap_refuted: two moves at the same time, all places having grids, leave two players on each other's screens who are far from each other; the handlers pause 200 ms for each player they tell, so that this does not take much. C140_alone: the instructions of the model with interleavings, run without interruption, are those of the sequential model. Messages are taken to arrive in order; for arrivals and departures that overlap see C95."
  },
  {
   "property": "C141",
   "status": "proved",
   "theorems": [
    "Zinx.Props.C141_calls",
    "Zinx.Props.C141_tcp",
    "Zinx.Props.C141_ws",
    "Zinx.Props.C141_kcp",
    "Zinx.Props.C141_taken",
    "Zinx.Props.C141_refused",
    "Zinx.Props.C141_arrives",
    "Zinx.Props.C141_ws_arrives",
    "Zinx.Props.C141_kcp_arrives_partial"
   ],
   "note": "Every execution with length 0 is one with length 1 in which each message is taken right after it was queued; so C84_buffered, C91_ws, C92_kcp_partial and C86 apply. C141_refused: the difference is that nothing is taken while the writer is busy. C141_arrives, C141_ws_arrives: what was taken is handled if the connection stays open and the schedule is fair, as in C84_arrives, C91_ws_arrives; C141_kcp_arrives_partial as C92_kcp_arrives_partial (for KCP, only if one goroutine used buffered sends until its first was taken; C92_kcp_refuted tells why)."
  },
  {
   "property": "C142",
   "status": "partial",
   "theorems": [
    "Zinx.Props.C142_exact",
    "Zinx.Props.C142_partial",
    "Zinx.Props.C142_value",
    "Zinx.Props.C142_hook",
    "Zinx.Props.C142_stop",
    "Zinx.Props.C142_refuted"
   ],
   "note": "C142_exact: a context taken is done iff Start had been called before it was taken and Stop since. False of the code for a connection that is in the connection manager (or in the client) but not started yet: Context() returns nil there, and on a WebSocket server a context that is never done (C142_refuted). C142_partial: from the start hook on it holds. Go's contexts are modelled as Background, WithValue and WithCancel."
  },
  {
   "property": "C143",
   "status": "proved",
   "theorems": [
    "Zinx.Props.C143_kept",
    "Zinx.Props.C143_later"
   ],
   "note": "Reads and writes of the fields are taken to be sequentially consistent (they are unsynchronised, see C100)."
  },
  {
   "property": "C144",
   "status": "partial",
   "theorems": [
    "Zinx.Props.C144_process",
    "Zinx.Props.C144_exact",
    "Zinx.Props.C144_locks",
    "Zinx.Props.C144_api",
    "Zinx.Props.C144_last",
    "Zinx.Props.C144_partial",
    "Zinx.Props.C144_refuted"
   ],
   "note": "False as stated: `recover` does not stop `Goexit`, so a handler that ends its goroutine ends the worker, where one that panics does not (C144_refuted). Proved: the process ends in exactly the runs in which C125 says so, whichever functions end their goroutine (C144_process); exactly which functions end which goroutine (C144_exact); no goroutine leaves a lock locked (C144_locks), exactly which calls with callbacks do (C144_api); a goroutine ended so calls no further function of the user but the hook of the logger (C144_last). What a worker that handles nothing more means for the others is C112."
  },
  {
   "property": "C145",
   "status": "partial",
   "theorems": [
    "Zinx.Props.C145_ws_partial",
    "Zinx.Props.C145_refuted_tcp",
    "Zinx.Props.C145_refuted_kcp",
    "Zinx.Props.C145_refuted_ws"
   ],
   "note": "True of direct sends on WebSocket connections only (C145_ws_partial). On TCP and KCP connections every send of a stop hook is refused, in every run (C145_refuted_tcp, C145_refuted_kcp): the context is done, or the flag set, before the hook is called. On WebSocket connections a message that the hook queued may never be sent, though the call returned nil (C145_refuted_ws). That direct sends return is not part of it."
  },
  {
   "property": "C146",
   "status": "partial",
   "theorems": [
    "Zinx.Props.C146_path",
    "Zinx.Props.C146_partial",
    "Zinx.Props.C146_missing_partial",
    "Zinx.Props.C146_refuted"
   ],
   "note": "False of the code: filepath.Abs and Join take away `x/..` in the text of the path. If the working directory was entered through a link (os.Getwd then gives the path with the link), `../zinx.json` is looked for beside the link, not in the directory above; likewise a link followed by `..` in the variable itself; and a path through a missing directory is accepted (C146_refuted). Proved: the path is absolute and clean, hence independent of later changes of the working directory, and the initialiser panics exactly if the working directory cannot be found out and is needed (C146_path); the named file is read if there is no `..` or no link to a directory (C146_partial); the defaults stay if there is no such file and the name has no `..` and no slash at its end (C146_missing_partial). filepath and os as documented for Unix."
  },
  {
   "property": "C147",
   "status": "partial",
   "theorems": [
    "Zinx.Props.C147_partial",
    "Zinx.Props.C147_refuted"
   ],
   "note": "Proved for the hooks, with the exact moment of the removal. False of handlers: a message read before the teardown can be handled after the connection has left the manager (C147_refuted, every transport). Removal by the user with Remove and the table itself (C31) are not part of it."
  },
  {
   "property": "C148",
   "status": "partial",
   "theorems": [
    "Zinx.Props.C148_ws",
    "Zinx.Props.C148_ws_in_step",
    "Zinx.Props.C148_kcp",
    "Zinx.Props.C148_kcp_in_step",
    "Zinx.Props.C148_ws_answered",
    "Zinx.Props.C148_kcp_answered",
    "Zinx.Props.C148_in_step_refuted"
   ],
   "note": "Proved for both kinds of connection and all ways of sending: replies received answer different requests, in order, with the right contents; those whose send returned nil form a prefix of what arrives, followed by at most one whose send failed or is going on; the i-th reply answers the i-th request as long as every handler replies and no send of a reply failed. On KCP, messages of concurrent first users of the queue can change places (C38_kcp_refuted), but not replies, since the handlers of a connection run one after the other. Refuted: that a reply is never lost while both stay connected (a buffered send gives up after five milliseconds, C148_in_step_refuted). If both stay connected, no send of a reply fails and scheduling is fair, the replies to all requests written arrive (C148_ws_answered, C148_kcp_answered); that messages queued by the client are written is part of C148_ws_answered, and on KCP it is C92. Missing: replies when sends fail, which is the refuted part."
  },
  {
   "property": "C149",
   "status": "partial",
   "theorems": [
    "Zinx.Props.C149_asks",
    "Zinx.Props.C149_own_partial",
    "Zinx.Props.C149_exact",
    "Zinx.Props.C149_refuted",
    "Zinx.Props.C149_silent",
    "Zinx.Props.C149_silent_refuted",
    "Zinx.Props.C149_once",
    "Zinx.Props.C149_order",
    "Zinx.Props.C149_sent_partial",
    "Zinx.Props.C149_live_partial"
   ],
   "note": "Proved in both modes: an operation is started for the connection of its message (C149_asks), a login is answered at most once (C149_once), and without dynamic binding the logins of a connection are answered in the order of their arrival with none skipped (C149_order; C149_sent_partial: without pooling, the replies sent on a connection are for ever later messages of it). In every fair execution without dynamic binding and in which no worker waits for room on its own full channel (C107), every message that has arrived gets its answer (C149_live_partial; or the callback finds no result). Replies go to the connection that asked exactly if request objects are not pooled (C149_exact): in pool mode the callback keeps a request that has been put back and may be another connection's by then (C149_refuted, for all sizes). A callback may find no result and send nothing, in both modes (C149_silent_refuted); this happens only while the operation is between setting its flag and storing the result (C149_silent, cf. C57). What SendMsg does is C37 to C40."
  },
  {
   "property": "C15",
   "status": "proved",
   "theorems": [
    "Zinx.Props.C15_adjacent_bytes_change_crc",
    "Zinx.Props.C15_corrupted_frame_rejected"
   ],
   "note": ""
  },
  {
   "property": "C150",
   "status": "partial",
   "theorems": [
    "Zinx.Props.C150_order_partial",
    "Zinx.Props.C150_agree_partial",
    "Zinx.Props.C150_registered",
    "Zinx.Props.C150_everyone",
    "Zinx.Props.C150_exact",
    "Zinx.Props.C150_returns",
    "Zinx.Props.C150_order_refuted"
   ],
   "note": "The last part is false of the code, however the IDs are spread over the shards: two connections that are registered all the time can be sent two overlapping broadcasts in different orders, in one shard because the read lock is shared and in two because one goroutine can overtake the other between them (C150_order_refuted). Proved for all executions: nobody is sent a broadcast twice, those of one goroutine come in the order of the calls (C150_order_partial), and so do those that do not overlap (C150_agree_partial); a broadcast is sent, between call and return, to the connection registered at that time, and the send succeeds if and only if the connection is open (C150_registered); a broadcast that has returned was sent to everyone who stayed registered and open (C150_everyone); exactly those who are registered when it locks their shard are sent to (C150_exact); with weak fairness of its goroutine, its sends returning (see C102), it returns (C150_returns). Writers of the table are one action each; a waiting writer keeps no reader out, which allows more executions than the code has."
  },
  {
   "property": "C151",
   "status": "partial",
   "theorems": [
    "Zinx.Props.C151_holder_partial",
    "Zinx.Props.C151_result",
    "Zinx.Props.C151_stays",
    "Zinx.Props.C151_gone_partial",
    "Zinx.Props.C151_once",
    "Zinx.Props.C151_returns",
    "Zinx.Props.C151_holder_refuted"
   ],
   "note": "The last part is false of the code: the look-up and the send are not one operation, so a message can be sent, with success, to a connection whose ID has been removed by then or given to another connection (C151_holder_refuted). Proved for all executions: a call sends to a connection that had the ID at some moment since it was called, and the send succeeds if and only if the connection is open (C151_holder_partial); a call that begins when a connection no longer has the ID sends it nothing unless it is given the ID again (C151_gone_partial); the results are as stated (C151_result), whoever keeps the ID is sent the message and nobody else is (C151_stays), there is at most one send (C151_once); with weak fairness of its goroutine, its send returning (see C102), a call returns (C151_returns). Each access of the table, which has the lock of a shard for one operation, is one action."
  },
  {
   "property": "C152",
   "status": "partial",
   "theorems": [
    "Zinx.Props.C152_partial",
    "Zinx.Props.C152_stuck",
    "Zinx.Props.C152_readers",
    "Zinx.Props.C152_count",
    "Zinx.Props.C152_removeCb",
    "Zinx.Props.C152_refuted"
   ],
   "note": "False of the code: IterCb and RemoveCb unlock without defer. Whatever is done after a callback of IterCb has panicked, in every execution the shard stays locked for reading, and whoever calls Set, Remove or another call that writes the shard waits for ever (C152_stuck, for any reachable state, also if the goroutine that panicked uses the map again; C152_refuted: a concrete execution with a map of 32 shards). As long as no callback panics calls return under the conditions of C90_partial (C152_partial). Once somebody waits to write the shard, those who want to read it wait for ever as well (C152_readers) and no call of Count, and so of Len of the connection manager, returns (C152_count); after a panic in RemoveCb all who want the shard wait for ever (C152_removeCb)."
  },
  {
   "property": "C16",
   "status": "partial",
   "theorems": [
    "Zinx.Props.C16_only_correct_frames_pass",
    "Zinx.Props.C16_partial",
    "Zinx.Props.C16_exact",
    "Zinx.Props.C16_first_wrong",
    "Zinx.Props.C16_refuted_websocket"
   ],
   "note": "No router ever sees a bad frame: proved. Process survival: proved for TCP and KCP, false for WebSocket (nil dereference in a goroutine without recover). Exact for WebSocket: the process survives iff every frame has a correct checksum; the router sees exactly the frames before the first wrong one."
  },
  {
   "property": "C17",
   "status": "partial",
   "theorems": [
    "Zinx.Props.C17_partial",
    "Zinx.Props.C17_exact",
    "Zinx.Props.C17_refuted",
    "Zinx.Props.C17_refuted_any_limit"
   ],
   "note": "False of the code: the receive path never looks at MaxPacketSize. Exact: a limit holds iff no frame could exceed it (2^32-9)."
  },
  {
   "property": "C18",
   "status": "proved",
   "theorems": [
    "Zinx.Props.C18_chain_is_head_added_tail",
    "Zinx.Props.C18_handover",
    "Zinx.Props.C18_stops_where_not_proceeding",
    "Zinx.Props.C18_each_once_in_order",
    "Zinx.Props.C18_answers",
    "Zinx.Props.C18_answer_unique",
    "Zinx.Props.C18_with_message"
   ],
   "note": ""
  },
  {
   "property": "C19",
   "status": "partial",
   "theorems": [
    "Zinx.Props.C19_server_chain",
    "Zinx.Props.C19_server_decoder_first_and_once",
    "Zinx.Props.C19_client_partial",
    "Zinx.Props.C19_client_exact_partial",
    "Zinx.Props.C19_refuted_client_order",
    "Zinx.Props.C19_refuted_client_restart"
   ],
   "note": "Server proved. False for the client: it adds its decoder in Start, so interceptors added earlier run before it, and after a second Start it decodes twice; C19_client_exact_partial gives the chain of a client after every history."
  },
  {
   "property": "C20",
   "status": "proved",
   "theorems": [
    "Zinx.Props.C20_stages_follow_the_rule",
    "Zinx.Props.C20_plain",
    "Zinx.Props.C20_abort_goto",
    "Zinx.Props.C20_nil_router"
   ],
   "note": ""
  },
  {
   "property": "C21",
   "status": "partial",
   "theorems": [
    "Zinx.Props.C21_partial",
    "Zinx.Props.C21_order_partial",
    "Zinx.Props.C21_refuted_128",
    "Zinx.Props.C21_refuted",
    "Zinx.Props.C21_refuted_nested",
    "Zinx.Props.C21_refuted_abort",
    "Zinx.Props.C21_exact"
   ],
   "note": "False of the code: the index is an int8, so of 128 to 255 handlers none runs, and fewer panic with enough nested calls. Proved while handlers plus Next calls (plus one after an abort) stay within 127. C21_exact: of n handlers that neither call Next nor Abort nor panic, exactly the first int8(n) run, so all of them iff n is at most 127."
  },
  {
   "property": "C22",
   "status": "proved",
   "theorems": [
    "Zinx.Props.C22_plain_route",
    "Zinx.Props.C22_group_route",
    "Zinx.Props.C22_no_route"
   ],
   "note": "Registration calls from one goroutine (the code takes no lock)."
  },
  {
   "property": "C23",
   "status": "proved",
   "theorems": [
    "Zinx.Props.C23_stable",
    "Zinx.Props.C23_duplicate_refused",
    "Zinx.Props.C23_new_accepted",
    "Zinx.Props.C23_router_mode",
    "Zinx.Props.C23_mode"
   ],
   "note": "Registration calls from one goroutine (the code takes no lock)."
  },
  {
   "property": "C24",
   "status": "partial",
   "theorems": [
    "Zinx.Props.C24_partial",
    "Zinx.Props.C24_no_pool_partial",
    "Zinx.Props.C24_runs_partial",
    "Zinx.Props.C24_refuted",
    "Zinx.Props.C24_exact"
   ],
   "note": "False of the code: the decoder response of the previous message survives the reset of a pooled request. All other observable fields are proved to be fresh. C24_exact: the request equals a new one iff the recycled one had no response."
  },
  {
   "property": "C25",
   "status": "partial",
   "theorems": [
    "Zinx.Props.C25_independent_partial",
    "Zinx.Props.C25_same_partial",
    "Zinx.Props.C25_refuted_response",
    "Zinx.Props.C25_refuted_payload",
    "Zinx.Props.C25_exact"
   ],
   "note": "False of the code: the copy loses the response and, for decoded protocols, its payload is the raw frame. Proved: the other fields agree and the copy is independent. C25_exact: the copy shows the same as the original iff payload and raw data agree and there is no response."
  },
  {
   "property": "C26",
   "status": "proved",
   "theorems": [
    "Zinx.Props.C26_processed_once_in_order",
    "Zinx.Props.C26_all_processed",
    "Zinx.Props.C26_fair"
   ],
   "note": "Transition system over all schedules, with bounded queues. C26_fair: in every infinite execution in which the worker runs and user code ends, everything submitted is processed; user code that never returns keeps its worker busy."
  },
  {
   "property": "C27",
   "status": "proved",
   "theorems": [
    "Zinx.Props.C27_fifo_one_at_a_time",
    "Zinx.Props.C27_hash_mode",
    "Zinx.Props.C27_hash_number",
    "Zinx.Props.C27_fair"
   ],
   "note": "C27_fair: everything that arrived is eventually handled. For every fixed assignment of workers to connections, in particular hash mode with at least one worker. One start of the server; for further starts see C118."
  },
  {
   "property": "C28",
   "status": "partial",
   "theorems": [
    "Zinx.Props.C28_partial",
    "Zinx.Props.C28_exact",
    "Zinx.Props.C28_refuted",
    "Zinx.Props.C28_refuted_later"
   ],
   "note": "False of the code: a closing connection leaves the manager before it returns its worker, so a new connection may find no free worker and falls back to a shared one. Proved when a worker is only asked for while fewer than MaxConn connections hold one, and that this condition is exact: an execution shares no worker if and only if it meets it."
  },
  {
   "property": "C29",
   "status": "partial",
   "theorems": [
    "Zinx.Props.C29_partial",
    "Zinx.Props.C29_apart_partial",
    "Zinx.Props.C29_exact",
    "Zinx.Props.C29_any",
    "Zinx.Props.C29_refuted_shared",
    "Zinx.Props.C29_refuted_closed_twice",
    "Zinx.Props.C29_refuted_client"
   ],
   "note": "False of the code: a taken overflow worker stays in the extra set. Proved for base workers, and for overflow workers in every execution in which one is only taken when nobody holds it; this condition is exact (C29_exact), and nothing in the code ensures it: a connection that needs an overflow worker may always be given any of them (C29_any)."
  },
  {
   "property": "C30",
   "status": "partial",
   "theorems": [
    "Zinx.Props.C30_partial",
    "Zinx.Props.C30_start_partial",
    "Zinx.Props.C30_refuted",
    "Zinx.Props.C30_refuted_start"
   ],
   "note": "Proved in hash and bind mode; in dynamic bind mode the number is valid but its queue may be closed, and with more base workers than MaxConn the server panics at start."
  },
  {
   "property": "C31",
   "status": "proved",
   "theorems": [
    "Zinx.Props.C31_manager_is_map",
    "Zinx.Props.C31_last_added"
   ],
   "note": "Connections made by the server (their ID string is the decimal ID). ClearConn calls Stop once on every connection; entries go away through Remove."
  },
  {
   "property": "C32",
   "status": "proved",
   "theorems": [
    "Zinx.Props.C32_unique_ids",
    "Zinx.Props.C32_added_ids"
   ],
   "note": ""
  },
  {
   "property": "C33",
   "status": "partial",
   "theorems": [
    "Zinx.Props.C33_partial",
    "Zinx.Props.C33_bound_partial",
    "Zinx.Props.C33_refuted",
    "Zinx.Props.C33_refuted_sharp"
   ],
   "note": "False of the code in WebSocket mode and with both listeners (check, then act). Proved for a single TCP or KCP accept loop, with Len reading shard by shard while connections leave. In every mode: with at most k requests at a time between check and addition there are never more than MaxConn + k - 1 connections, and that number is reached."
  },
  {
   "property": "C34",
   "status": "partial",
   "theorems": [
    "Zinx.Props.C34_once_each_partial",
    "Zinx.Props.C34_result_partial",
    "Zinx.Props.C34_refuted",
    "Zinx.Props.C34_exact"
   ],
   "note": "False of the code: only the error of the last callback is returned. Once per connection, and no made-up error: proved. C34_exact: the result is that of the callback on the connection visited last."
  },
  {
   "property": "C35",
   "status": "partial",
   "theorems": [
    "Zinx.Props.C35_start_first",
    "Zinx.Props.C35_at_most_once",
    "Zinx.Props.C35_sends",
    "Zinx.Props.C35_partial",
    "Zinx.Props.C35_refuted"
   ],
   "note": "C35_sends: closing the socket cuts off no send that holds the lock. TCP, WebSocket and KCP, without heartbeat (see C42). Proved for every schedule: messages only after the start hook, each hook at most once, and every fair execution of an ended connection runs the stop hook exactly once, closes the socket and leaves the manager, provided no hook panics, with WebSocket no message handling panics in the reader, and with WebSocket and KCP writes return. False without each of these: Start recovers from a hook panic and the socket is never closed; WebSocket recovers nothing and the process ends; a send to a peer that does not read holds the lock the finalizer needs."
  },
  {
   "property": "C36",
   "status": "partial",
   "theorems": [
    "Zinx.Props.C36_partial",
    "Zinx.Props.C36_exact",
    "Zinx.Props.C36_refuted"
   ],
   "note": "TCP, WebSocket and KCP. Proved once Start has made the context: Stop never panics, further calls change nothing. False before that: the connection is in the manager with a nil cancel function, and Stop/ClearConn panics."
  },
  {
   "property": "C37",
   "status": "partial",
   "theorems": [
    "Zinx.Props.C37_tcp_direct_partial",
    "Zinx.Props.C37_tcp_buffered_partial",
    "Zinx.Props.C37_ws_partial",
    "Zinx.Props.C37_ws_refuted",
    "Zinx.Props.C37_kcp_partial",
    "Zinx.Props.C37_kcp_refuted"
   ],
   "note": "TCP connections. Stopped means that the context is cancelled; a send begun after that writes nothing, is not queued, and does not panic. WebSocket: false between Stop and the end of the teardown (C37_ws_refuted), holds after it. KCP: false between Stop and the moment the closed flag is set (C37_kcp_refuted), holds from the flag on, which is set before the stop hook."
  },
  {
   "property": "C38",
   "status": "partial",
   "theorems": [
    "Zinx.Props.C38_order",
    "Zinx.Props.C38_flushed",
    "Zinx.Props.C38_direct_whole",
    "Zinx.Props.C38_end",
    "Zinx.Props.C38_partial",
    "Zinx.Props.C38_refuted",
    "Zinx.Props.C38_ws",
    "Zinx.Props.C38_ws_exclusive",
    "Zinx.Props.C38_kcp_partial",
    "Zinx.Props.C38_kcp_refuted"
   ],
   "note": "TCP connections. C38_end: nothing is written after the network failed or a direct write was cut short. False when direct and buffered sends are mixed: bufio.Writer splits a message at its 16 KiB boundary and a direct write can come between (C38_refuted). Holds for either kind alone; the writer's bytes are always a prefix of the queued messages in order. WebSocket: holds for every mix (C38_ws). KCP: whole messages always; the order of buffered sends is lost when two goroutines use them for the first time at once, since each makes a channel and a writer (C38_kcp_refuted)."
  },
  {
   "property": "C39",
   "status": "partial",
   "theorems": [
    "Zinx.Props.C39_running_partial",
    "Zinx.Props.C39_single_partial",
    "Zinx.Props.C39_returns",
    "Zinx.Props.C39_close_twice_refuted",
    "Zinx.Props.C39_send_closed_refuted",
    "Zinx.Props.C39_close_nil_refuted",
    "Zinx.Props.C39_ws",
    "Zinx.Props.C39_ws_returns",
    "Zinx.Props.C39_kcp_partial",
    "Zinx.Props.C39_kcp_returns",
    "Zinx.Props.C39_kcp_refuted"
   ],
   "note": "TCP connections. False when the connection is stopped while two goroutines wait in a buffered send: close of a closed channel, send on a closed channel, close of a nil channel. Holds without a stop, and for a single sender; every call ends. WebSocket: holds, also while closing (C39_ws, C39_ws_returns). KCP: SendBuffMsg can panic while the connection closes (C39_kcp_refuted); SendToQueue cannot; every call returns."
  },
  {
   "property": "C40",
   "status": "partial",
   "theorems": [
    "Zinx.Props.C40_partial",
    "Zinx.Props.C40_refuted",
    "Zinx.Props.C40_ws_partial",
    "Zinx.Props.C40_ws_refuted",
    "Zinx.Props.C40_kcp_partial",
    "Zinx.Props.C40_kcp_refuted",
    "Zinx.Props.C40_kcp_refuted_open"
   ],
   "note": "TCP connections. False when the connection is stopped right after the send: the writer exits and Flush refuses to write (C40_refuted). Holds under fairness if the connection is not stopped and the network does not fail. WebSocket: the same (C40_ws_partial, C40_ws_refuted). KCP: the same, and false also on an open connection when two goroutines use buffered sends for the first time at once: the message stays in a lost channel for ever (C40_kcp_refuted_open)."
  },
  {
   "property": "C41",
   "status": "proved",
   "theorems": [
    "Zinx.Props.C41_callbacks"
   ],
   "note": "Linked list on a heap with first/last pointers refined to a list for every history; no call dereferences nil or loops; also says what runs when a callback panics. Handlers and keys are comparable values (Go panics when comparing interface values of uncomparable types). Operations are atomic (the connection holds its mutex)."
  },
  {
   "property": "C42",
   "status": "partial",
   "theorems": [
    "Zinx.Props.C42_partial",
    "Zinx.Props.C42_tcp_partial",
    "Zinx.Props.C42_kcp_partial",
    "Zinx.Props.C42_beats",
    "Zinx.Props.C42_sends",
    "Zinx.Props.C42_ws_refuted",
    "Zinx.Props.C42_kcp_refuted",
    "Zinx.Props.C42_tcp_stuck_refuted"
   ],
   "note": "C42_sends: on WebSocket and KCP connections no send of others is under way while the finalizer has the lock. Writes returning: a fair execution completes the teardown after a stop exactly if it never comes to a state where the finalizer holds msgLock of a WebSocket or KCP connection and waits for the checker, which waits for msgLock in SendMsg; so for TCP always, for KCP if the checker is not between its two tests of the closed flag when the finalizer begins. False for WebSocket and KCP otherwise, and for TCP when the peer does not read (the checker's write returns only after the socket is closed, which the finalizer does only after the checker has ended); all shown by reachable states from which the teardown can never complete. C42_beats: until a stop, a heartbeat that has been made is written."
  },
  {
   "property": "C43",
   "status": "partial",
   "theorems": [
    "Zinx.Props.C43_partial",
    "Zinx.Props.C43_one_action",
    "Zinx.Props.C43_noted",
    "Zinx.Props.C43_start",
    "Zinx.Props.C43_kept_up",
    "Zinx.Props.C43_refuted"
   ],
   "note": "C43_start: apart from data, only the start counts as activity, once. C43_noted: activity is only noted for bytes that arrived. C43_kept_up: if all that arrived has been read and noted, a peer whose last bytes arrived less than HeartbeatMax ago is not declared dead. Proved for every timing: the verdict of each check is dead iff the connection was stopped before the check began or no *noted* activity (data returned by Read and recorded, or connection start) lies within HeartbeatMax; each check does exactly one action. False as stated for data that merely arrived: while the reader is held up handing data to a full worker queue, arriving bytes are not noted and the connection is declared dead (C43_refuted). HeartbeatMax must not overflow 64-bit nanoseconds."
  },
  {
   "property": "C44",
   "status": "proved",
   "theorems": [
    "Zinx.Props.C44_new",
    "Zinx.Props.C44_nil",
    "Zinx.Props.C44_set",
    "Zinx.Props.C44_clone",
    "Zinx.Props.C44_independent"
   ],
   "note": "Checkers as objects with Go slices on a heap of backing arrays (any growth policy), every history of settings and clones. Callers that write into the slice returned by RouterSlices() are not modelled."
  },
  {
   "property": "C45",
   "status": "proved",
   "theorems": [
    "Zinx.Props.C45_one_map"
   ],
   "note": "Also Count, IsEmpty, Keys, Items and iteration. Shard counts that are multiples of 2^32 excluded (division by zero)."
  },
  {
   "property": "C46",
   "status": "proved",
   "theorems": [
    "Zinx.Props.C46_no_key_twice",
    "Zinx.Props.C46_reports_constant",
    "Zinx.Props.C46_reports_only_present"
   ],
   "note": "Each shard is read under its read lock, hence atomically; the order of shards and of entries is arbitrary."
  },
  {
   "property": "C47",
   "status": "partial",
   "theorems": [
    "Zinx.Props.C47_exact_partial",
    "Zinx.Props.C47_only_additions_partial",
    "Zinx.Props.C47_only_removals_partial",
    "Zinx.Props.C47_between_partial",
    "Zinx.Props.C47_refuted",
    "Zinx.Props.C47_refuted_any"
   ],
   "note": "False of the code: Count can miss an entry that moves behind it, and be off by any number. Proved without concurrent updates, and with concurrent updates that only add or only remove; with any updates the result is the size of a set of keys that contains those present during the whole call and only such as were present at some moment of it."
  },
  {
   "property": "C48",
   "status": "proved",
   "theorems": [
    "Zinx.Props.C48_increasing",
    "Zinx.Props.C48_backwards"
   ],
   "note": ""
  },
  {
   "property": "C49",
   "status": "proved",
   "theorems": [
    "Zinx.Props.C49_no_collision",
    "Zinx.Props.C49_worker_range"
   ],
   "note": ""
  },
  {
   "property": "C50",
   "status": "partial",
   "theorems": [
    "Zinx.Props.C50_partial",
    "Zinx.Props.C50_exact",
    "Zinx.Props.C50_refuted",
    "Zinx.Props.C50_refuted_close"
   ],
   "note": "Proved when no archive name repeats and Close does not overlap a write. C50_exact: whatever the clock, the writer cuts its input into files without losing a byte, the archives are the last file cut for each name, and nothing is lost exactly if every file whose name is given again is empty. False otherwise: an archive name that repeats overwrites the earlier archive, and a write between the two critical sections of Close is dropped."
  },
  {
   "property": "C51",
   "status": "proved",
   "theorems": [
    "Zinx.Props.C51_after_write",
    "Zinx.Props.C51_all_files",
    "Zinx.Props.C51_default"
   ],
   "note": "A file is below the limit or consists of one write at least as long as the limit."
  },
  {
   "property": "C52",
   "status": "proved",
   "theorems": [
    "Zinx.Props.C52_conserved",
    "Zinx.Props.C52_at_rest",
    "Zinx.Props.C52_only_created"
   ],
   "note": "Small-step model with one lock per wheel, rotations interleaved with calls timer by timer; arbitrary clock readings. IDs are 32 bits, hence the bound on creations."
  },
  {
   "property": "C53",
   "status": "proved",
   "theorems": [
    "Zinx.Props.C53_once_and_not_early",
    "Zinx.Props.C53_fired"
   ],
   "note": "Handing out is GetTimerWithIn; the scheduler then sends each timer of the result over the trigger channel once."
  },
  {
   "property": "C54",
   "status": "proved",
   "theorems": [
    "Zinx.Props.C54_cancelled"
   ],
   "note": "No bound on creations needed; a later timer that gets the same ID after the counter wraps is a different timer."
  },
  {
   "property": "C55",
   "status": "proved",
   "theorems": [
    "Zinx.Props.C55_in_polled_slot",
    "Zinx.Props.C55_delivered"
   ],
   "note": "Punctual model: operations take no time. timed_sim shows that its executions are executions of the small-step model."
  },
  {
   "property": "C56",
   "status": "proved",
   "theorems": [
    "Zinx.Props.C56_at_most_once",
    "Zinx.Props.C56_exactly_once"
   ],
   "note": "All interleavings of any number of calls, each atomic operation a step. The exactly-once part assumes no nil callback is registered: a nil callback is ignored by the code but uses up the registration."
  },
  {
   "property": "C57",
   "status": "partial",
   "theorems": [
    "Zinx.Props.C57_partial",
    "Zinx.Props.C57_refuted",
    "Zinx.Props.C57_exact"
   ],
   "note": "False as stated: SetReturnedObj sets the flag before it stores the object, so a callback registered in between runs and reads nil (C57_refuted). Proved: whenever no SetReturnedObj call is between those two writes, the callback reads a value passed to SetReturnedObj. C57_exact: the callback reads nil iff a SetReturnedObj call is between its two writes."
  },
  {
   "property": "C58",
   "status": "proved",
   "theorems": [
    "Zinx.Props.C58_valid_index",
    "Zinx.Props.C58_fifo",
    "Zinx.Props.C58_bounded",
    "Zinx.Props.C58_one_queue",
    "Zinx.Props.C58_start_fifo",
    "Zinx.Props.C58_no_wait",
    "Zinx.Props.C58_runs"
   ],
   "note": "Every 64-bit ID including the least; every submission history, with panics. The start of the workers by the first calls, through sync.Once, is part of the model of C58_one_queue (no call is left without a queue, calls for one index get the same), C58_start_fifo and C58_runs (under fairness every call returns and its operation is run)."
  },
  {
   "property": "C59",
   "status": "partial",
   "theorems": [
    "Zinx.Props.C59_exact",
    "Zinx.Props.C59_partial",
    "Zinx.Props.C59_exceptions",
    "Zinx.Props.C59_logger",
    "Zinx.Props.C59_defaults",
    "Zinx.Props.C59_refuted"
   ],
   "note": "False as stated for 5 of the 36 settings. Proved for the other 31 and all configurations (C59_partial); what happens to the five is proved exactly (C59_exceptions): LogIsolationLevel is always overwritten, KcpStreamMode can only be turned off, LogSaveDays, LogFileSize and LogCons are never taken over. C59_logger: the logger is told the new level and file. C59_refuted gives witnesses."
  },
  {
   "property": "C60",
   "status": "partial",
   "theorems": [
    "Zinx.Props.C60_partial",
    "Zinx.Props.C60_exact",
    "Zinx.Props.C60_refuted"
   ],
   "note": "False as stated: Stack ignores the isolation level and an empty text gets no newline (C60_refuted). Proved for all levelled methods and all non-empty texts, for every flag set, time, prefix, file and line."
  },
  {
   "property": "C61",
   "status": "partial",
   "theorems": [
    "Zinx.Props.C61_exact",
    "Zinx.Props.C61_partial",
    "Zinx.Props.C61_no_time_flag",
    "Zinx.Props.C61_refuted"
   ],
   "note": "False as stated: with none of the date, time and microsecond flags set, the level and file flags are ignored (C61_refuted). Proved whenever one of the three is set, for all values; C61_no_time_flag gives the header in the other case."
  },
  {
   "property": "C62",
   "status": "proved",
   "theorems": [
    "Zinx.Props.C62_backoff",
    "Zinx.Props.C62_every_history"
   ],
   "note": "The delay object is shared by all listeners; histories are of the object."
  },
  {
   "property": "C63",
   "status": "proved",
   "theorems": [
    "Zinx.Props.C63_exact",
    "Zinx.Props.C63_symmetric"
   ],
   "note": "All geometries with mathematical integers (no overflow as long as extents and grid count fit in 64 bits)."
  },
  {
   "property": "C64",
   "status": "partial",
   "theorems": [
    "Zinx.Props.C64_partial",
    "Zinx.Props.C64_refuted",
    "Zinx.Props.C64_exact",
    "Zinx.Props.C64_margin"
   ],
   "note": "False as stated: the margin left by integer division is looked up in a grid elsewhere or in none, also in the demo world; negative coordinates are truncated towards zero (C64_refuted). Proved for the part covered by grids with non-negative bounds. Positions are rationals. C64_exact: exact set of coordinates for which the grid found contains the point; C64_margin: what happens in the uncovered margin."
  },
  {
   "property": "C65",
   "status": "partial",
   "theorems": [
    "Zinx.Props.C65_map_partial",
    "Zinx.Props.C65_broadcast_partial",
    "Zinx.Props.C65_exact",
    "Zinx.Props.C65_refuted"
   ],
   "note": "False of the code: a broadcast always returns nil. The rest is proved; a history is as stated exactly if no send of a broadcast failed (C65_exact)."
  },
  {
   "property": "C66",
   "status": "partial",
   "theorems": [
    "Zinx.Props.C66_exact",
    "Zinx.Props.C66_panics_exact",
    "Zinx.Props.C66_late_untouched",
    "Zinx.Props.C66_ends",
    "Zinx.Props.C66_partial",
    "Zinx.Props.C66_quiet",
    "Zinx.Props.C66_hooks",
    "Zinx.Props.C66_ws_refuted",
    "Zinx.Props.C66_late_refuted",
    "Zinx.Props.C66_unstarted_refuted",
    "Zinx.Props.C66_both_refuted",
    "Zinx.Props.C66_hooks_refuted"
   ],
   "note": "False with WebSocket alone (Stop blocks for ever on the exit channel: C66_ws_refuted), for a connection entered into the manager after ClearConn has looked at its shard (it stays open: C66_late_refuted), for one that is in the manager but not started (its cancel function is nil, Stop panics: C66_unstarted_refuted); with TCP and WebSocket together WebSocket connections are accepted as before after Stop has returned (C66_both_refuted), and when Stop returns the stop hooks need not have run (C66_hooks_refuted). Proved for every execution: Stop panics if and only if it tells a connection to stop that has not been started (C66_panics_exact); in every mode but WebSocket alone it returns or panics, under fairness (C66_ends); when it has returned, a connection is open if and only if it was entered into the manager after its shard had been looked at and has not ended by itself (C66_exact, C66_partial); with none such all are closed (C66_quiet); what was stopped runs its hook once and leaves the manager (C66_hooks). Partial because the statement is false; nothing is missing from the proofs."
  },
  {
   "property": "C67",
   "status": "partial",
   "theorems": [
    "Zinx.Props.C67_fresh_partial",
    "Zinx.Props.C67_tcp_partial",
    "Zinx.Props.C67_refuted",
    "Zinx.Props.C67_exact"
   ],
   "note": "False for TCP: one read buffer is shared by all messages. Proved for KCP and WebSocket, and for TCP if each message is handled before the next read. C67_exact: what a TCP handler sees is its bytes overwritten by all reads since."
  },
  {
   "property": "C68",
   "status": "proved",
   "theorems": [
    "Zinx.Props.C68_burst_rejected",
    "Zinx.Props.C68_odd_rejected",
    "Zinx.Props.C68_two_bits_rejected"
   ],
   "note": ""
  },
  {
   "property": "C69",
   "status": "partial",
   "theorems": [
    "Zinx.Props.C69_partial",
    "Zinx.Props.C69_exact",
    "Zinx.Props.C69_refuted"
   ],
   "note": "False of the code with the recovery middleware: the root loop continues with the handler after the panicking chain. C69_exact: with it, the first panic is forgotten and all handlers are run; a second one ends the run."
  },
  {
   "property": "C70",
   "status": "partial",
   "theorems": [
    "Zinx.Props.C70_partial",
    "Zinx.Props.C70_exact",
    "Zinx.Props.C70_overlap",
    "Zinx.Props.C70_refuted_order"
   ],
   "note": "False of the code: one goroutine per message. Exact: the possible orders are all permutations, with all handlers running at once."
  },
  {
   "property": "C71",
   "status": "proved",
   "theorems": [
    "Zinx.Props.C71_listed",
    "Zinx.Props.C71_outside"
   ],
   "note": "Operations one at a time. C71_outside: a position without a grid, which any client may send, makes the handler panic and leaves the player in no grid."
  },
  {
   "property": "C72",
   "status": "proved",
   "theorems": [
    "Zinx.Props.C72_sight"
   ],
   "note": "Operations one at a time; messages that fail to be sent are not modelled."
  },
  {
   "property": "C73",
   "status": "proved",
   "theorems": [
    "Zinx.Props.C73_store"
   ],
   "note": "One goroutine at a time uses a request (its lock is omitted)."
  },
  {
   "property": "C74",
   "status": "proved",
   "theorems": [
    "Zinx.Props.C74_raw"
   ],
   "note": "What a handler sees later, when the read buffer is used again, is C67."
  },
  {
   "property": "C75",
   "status": "partial",
   "theorems": [
    "Zinx.Props.C75_partial",
    "Zinx.Props.C75_once_refuted",
    "Zinx.Props.C75_failed_refuted",
    "Zinx.Props.C75_unstarted_refuted",
    "Zinx.Props.C75_again_refuted",
    "Zinx.Props.C75_twice_refuted",
    "Zinx.Props.C75_redial_refuted",
    "Zinx.Props.C75_early_refuted"
   ],
   "note": "Proved for the first Stop of a client started once whose connection has begun to run. The rest is false of the code: Stop after a failed dial or before any start blocks for ever; Stop before the connection has made its context panics; a client can be stopped at most once in its life (ErrChan is closed and never remade), so Stop after Restart panics; Restart after Stop with a failing dial panics in the background."
  },
  {
   "property": "C76",
   "status": "partial",
   "theorems": [
    "Zinx.Props.C76_partial",
    "Zinx.Props.C76_ends",
    "Zinx.Props.C76_reentrant",
    "Zinx.Props.C76_panic_refuted",
    "Zinx.Props.C76_race_refuted",
    "Zinx.Props.C76_early_refuted"
   ],
   "note": "Proved: the callbacks called are exactly those due by the additions and removals that took effect before the invocation began, once and in order (up to the first that panics); the invocation ends; re-entrant calls return at once; an addition is dropped only after the connection was stopped, or, with TCP, before it was started. False of the code: callbacks after a panicking one do not run; an addition that found the connection open and takes effect after the invocation began is lost; additions to a TCP connection before Start are lost."
  },
  {
   "property": "C77",
   "status": "partial",
   "theorems": [
    "Zinx.Props.C77_partial",
    "Zinx.Props.C77_returns",
    "Zinx.Props.C77_hook_refuted"
   ],
   "note": "Proved when the hook does not log. False of the code when it does: the hook runs with the mutex held, so a log call in it waits for ever, and with it every later log call and setting change of the whole process. SetLogFile, SetLogHook and SetLogLevel take no lock and are taken to be called before."
  },
  {
   "property": "C78",
   "status": "partial",
   "theorems": [
    "Zinx.Props.C78_exact",
    "Zinx.Props.C78_partial",
    "Zinx.Props.C78_tlv_ltv",
    "Zinx.Props.C78_htlv_refuted",
    "Zinx.Props.C78_refuted"
   ],
   "note": "C78_exact: for every valid format the bytes kept are bounded exactly if no frame that can be announced is longer than the maximum. Proved for every valid format as long as no over-long frame is announced, and for the shipped TLV and LTV decoders for every input (bound 2^32+6 bytes). False otherwise: a completely buffered over-long frame is never removed. The shipped HTLV decoder allows 259 bytes but its one byte length can announce 260, so a single frame with length byte 255 stops all further delivery on that connection and lets the peer fill memory without bound."
  },
  {
   "property": "C79",
   "status": "partial",
   "theorems": [
    "Zinx.Props.C79_partial",
    "Zinx.Props.C79_refuted",
    "Zinx.Props.C79_bound_refuted"
   ],
   "note": "False of the code: RouterSlicesNext on a copy increments the int8 index 127 to -128 and panics, and binding a router to a copy and calling it runs the stage twice. Proved: Call on a copy with no router bound runs nothing and changes nothing."
  },
  {
   "property": "C80",
   "status": "partial",
   "theorems": [
    "Zinx.Props.C80_partial",
    "Zinx.Props.C80_decides",
    "Zinx.Props.C80_refuted"
   ],
   "note": "False of the websocket server and of the mixed mode: the count is taken shard by shard while connections come and go, so one client moving between shards can be counted twice. Proved: with TCP only or KCP only a refusal implies the manager held MaxConn connections when the check began; every check ends under weak fairness in all modes."
  },
  {
   "property": "C81",
   "status": "partial",
   "theorems": [
    "Zinx.Props.C81_partial",
    "Zinx.Props.C81_refuted",
    "Zinx.Props.C81_exact"
   ],
   "note": "False of the code: bytes in the buffer are counted twice in the size check of Write, so the file may be rotated up to one buffer early. Proved: a write that stays more than 4096 bytes below the limit is appended and nothing is archived. C81_exact: an archive is made iff length of the file with the write plus once more the buffered bytes reaches the limit; both outcomes described."
  },
  {
   "property": "C82",
   "status": "partial",
   "theorems": [
    "Zinx.Props.C82_partial",
    "Zinx.Props.C82_form",
    "Zinx.Props.C82_kept",
    "Zinx.Props.C82_calendar",
    "Zinx.Props.C82_clock",
    "Zinx.Props.C82_refuted"
   ],
   "note": "False of the code: names carry local time but are read as UTC, so archives go early west of Greenwich and late east of it; files without the stem are removed; with an empty stem (log file .log) nothing is ever removed because filepath.Base gives a full stop. Proved: exact by age where local time is UTC, off by at most the offset elsewhere; only names of the date form are removed; N ≤ 0, directories and the log file are safe."
  },
  {
   "property": "C83",
   "status": "proved",
   "theorems": [
    "Zinx.Props.C83_linearizable",
    "Zinx.Props.C83_never_fatal",
    "Zinx.Props.C83_returns"
   ],
   "note": "Linearizability as trace inclusion in a lock-free atomic table (Spec/Property.lean). The return of every call assumes strong fairness of each goroutine, which sync.Mutex provides by its starvation mode."
  },
  {
   "property": "C84",
   "status": "proved",
   "theorems": [
    "Zinx.Props.C84_buffered",
    "Zinx.Props.C84_direct",
    "Zinx.Props.C84_arrives"
   ],
   "note": "Composition of the models of sending, decoding and workers. Mixing both kinds of sends is outside (their bytes may interleave, C38_refuted), and so is the HTLV packing, whose one-byte length does not carry every message. Fairness of C84_arrives: the writer and the reader run, the writer's select does not ignore a ready branch for ever, a reader waiting for room in a queue that becomes free again and again gets it, handlers end."
  },
  {
   "property": "C85",
   "status": "proved",
   "theorems": [
    "Zinx.Props.C85_tcp",
    "Zinx.Props.C85_ws",
    "Zinx.Props.C85_kcp"
   ],
   "note": "TCP: needs only that the writer goes on when it can. WebSocket and KCP: the select must not prefer other ready branches to the context for ever (after the queue is closed the loop spins until the context is chosen), the lock holder goes on, and the writer gets a lock that is free again and again."
  },
  {
   "property": "C86",
   "status": "proved",
   "theorems": [
    "Zinx.Props.C86_tcp",
    "Zinx.Props.C86_ws",
    "Zinx.Props.C86_kcp"
   ],
   "note": "That the calls return is C39."
  },
  {
   "property": "C87",
   "status": "partial",
   "theorems": [
    "Zinx.Props.C87_partial",
    "Zinx.Props.C87_refuted",
    "Zinx.Props.C87_any_refuted",
    "Zinx.Props.C87_twice_refuted"
   ],
   "note": "False of the code: Apis has no lock, and AddHandler of the slices routes writes its map without the lock that GetHandlers takes for reading. C87_refuted: the process ends when a route is added while another ID is looked up, for both kinds of routes. C87_twice_refuted: two goroutines register one ID, both succeed, and the route gets the handlers of both. C87_partial: if no other route call is in progress while one is being added, the process does not end, lookups (also concurrent ones) find what was registered, and a second registration is refused. C87_any_refuted: in every state in which a registration of a new ID and any other call have begun, the process can end."
  },
  {
   "property": "C88",
   "status": "proved",
   "theorems": [
    "Zinx.Props.C88_once",
    "Zinx.Props.C88_called",
    "Zinx.Props.C88_nil"
   ],
   "note": "C88_once: at most once, after creation and collection, in order of collection, never after an early cancel, and the process does not end unless a nil *DelayFunc was given. C88_called: every collected function begins and the scheduler polls again, whatever the functions do. C88_nil shows the limit: for a nil *DelayFunc, which NewDelayFunc never returns, the deferred function of Call panics in df.String() and the process ends. Which timers are collected and when is C53 to C55; here a poll collects any pending timers."
  },
  {
   "property": "C89",
   "status": "partial",
   "theorems": [
    "Zinx.Props.C89_answers",
    "Zinx.Props.C89_partial",
    "Zinx.Props.C89_refuted"
   ],
   "note": "False of the code for subprotocols: all handshakes set and read the Subprotocols field of the one Upgrader without a lock. C89_refuted: two clients offer one subprotocol each at the same time, and the first gets a connection without it. C89_partial: if no other handshake sets the list between a handshake's setting it and its upgrade, the client gets the first it offered or none if it offered none. C89_answers: the rest of the property, for all interleavings, and that a selected subprotocol was offered by this client. That 401 is exact (not only when authentication fails but whenever it does, unless the limit is reached first) is in answerFits: upgrade and error need authentication."
  },
  {
   "property": "C90",
   "status": "partial",
   "theorems": [
    "Zinx.Props.C90_partial",
    "Zinx.Props.C90_exclusive",
    "Zinx.Props.C90_reenter_refuted",
    "Zinx.Props.C90_nested_refuted",
    "Zinx.Props.C90_slow_refuted"
   ],
   "note": "False of the code, because IterCb runs the callbacks with the shard's read lock held. C90_reenter_refuted: a callback that sets or removes a key in the shard being visited waits for itself for ever. C90_nested_refuted: a callback that only counts or reads is stuck for ever, and the writer with it, if a writer came in between (sync.RWMutex is not for recursive reading). C90_slow_refuted: while one callback does not return, for instance a NotifyAll whose peer does not read, a writer in this shard and after it all readers wait, among them Len, which the accept loop calls. C90_partial: if callbacks return and do not use the map, every call returns. C90_exclusive: readers and writers of a shard exclude each other. Keys and IterBuffered, whose goroutines read one shard each and call nobody, are covered as reads."
  },
  {
   "property": "C91",
   "status": "proved",
   "theorems": [
    "Zinx.Props.C91_ws",
    "Zinx.Props.C91_ws_arrives"
   ],
   "note": "End-to-end model (Model/Pipe.lean) with the WebSocket sender (Model/WsSend.lean). The receiver may read pieces of any size, though the library hands out whole WebSocket messages; this adds executions."
  },
  {
   "property": "C92",
   "status": "partial",
   "theorems": [
    "Zinx.Props.C92_kcp_partial",
    "Zinx.Props.C92_kcp_arrives_partial",
    "Zinx.Props.C92_kcp_refuted"
   ],
   "note": "The claim is false of the code: two goroutines that use buffered sends for the first time at once each make a channel, and a message queued in the first of them is never written (C92_kcp_refuted, for any two different messages and any receiver). Proved: everything handled was given to a send, in the order of writing, each once, one at a time; everything written is handled; and if only one goroutine used buffered sends until its first was queued, everything queued is written, in order."
  },
  {
   "property": "C93",
   "status": "partial",
   "theorems": [
    "Zinx.Props.C93_partial",
    "Zinx.Props.C93_copied",
    "Zinx.Props.C93_finds",
    "Zinx.Props.C93_limit",
    "Zinx.Props.C93_reads",
    "Zinx.Props.C93_last",
    "Zinx.Props.C93_total",
    "Zinx.Props.C93_routes_refuted",
    "Zinx.Props.C93_workers_refuted",
    "Zinx.Props.C93_limit_refuted",
    "Zinx.Props.C93_mode_refuted",
    "Zinx.Props.C93_heartbeat_refuted",
    "Zinx.Props.C93_extra_refuted",
    "Zinx.Props.C93_extra_closed"
   ],
   "note": "The claim is false of the code, because the servers share zconf.GlobalObject and read it while running: after NewDefaultRouterSlicesServer no router of an older server is found (C93_routes_refuted); after the creation of a server in bind mode every connection of an older server ends with a write to a nil map (C93_workers_refuted); the connection limit, the listeners and the heartbeat limit are those of the server created last (C93_limit_refuted, C93_mode_refuted, C93_heartbeat_refuted); whether an extra worker is stopped when its connection ends depends on the mode of the server created last (C93_extra_refuted, C93_extra_closed). Proved: if all servers are created with the same settings of worker mode, pool size, connection limit, router mode, listening mode, heartbeat limit and packet limit (names, ports, paths, log and KCP settings may differ), each does what it would do alone (C93_partial); what is copied at creation is not changed by others (C93_copied). What each server does in all executions: routes (C93_finds), connection limit (C93_limit), settings read when needed (C93_reads), workers of the server created last, outside of DynamicBind mode (C93_last), and that every call has an answer (C93_total). Calls are taken one at a time."
  },
  {
   "property": "C94",
   "status": "partial",
   "theorems": [
    "Zinx.Props.C94_own_partial",
    "Zinx.Props.C94_longest_partial",
    "Zinx.Props.C94_single_partial",
    "Zinx.Props.C94_no_panic_partial",
    "Zinx.Props.C94_everywhere",
    "Zinx.Props.C94_panics",
    "Zinx.Props.C94_goes_on",
    "Zinx.Props.C94_panic_refuted",
    "Zinx.Props.C94_restart_refuted",
    "Zinx.Props.C94_foreign_refuted"
   ],
   "note": "The claim is false of the code, because all servers register with http.DefaultServeMux: two servers with the default path end the process (C94_panic_refuted), so does a server that is started again after Stop (C94_restart_refuted), and a request at one server's address with another's path is answered by the other (C94_foreign_refuted; in general the address has no influence, C94_everywhere). Proved: a request is answered by the registered server with the longest path covering it, a request with a server's own path by this server; with one server the claim holds; no panic if every server is started once and has an address and a path of its own; the only reasons of a panic (C94_panics), and that otherwise every server goes on to register and listen and every request is answered (C94_goes_on). The multiplexer is that of net/http as of Go 1.17; host patterns and paths not in canonical form are left out."
  },
  {
   "property": "C95",
   "status": "partial",
   "theorems": [
    "Zinx.Props.C95_cause_partial",
    "Zinx.Props.C95_listed_partial",
    "Zinx.Props.C95_calm_partial",
    "Zinx.Props.C95_look_refuted",
    "Zinx.Props.C95_stays_refuted",
    "Zinx.Props.C95_ghost_refuted",
    "Zinx.Props.C95_late_refuted"
   ],
   "note": "False of the code, by four executions. A handler that has collected the players around and then looks one up who has left in between dereferences nil (C95_look_refuted). If that happens in OnConnectionLost of a player who leaves at the same time, that player stays online for ever (C95_stays_refuted). If a player leaves while its own UpdatePos is between setting the position and changing the grids, its number stays listed for ever, and in the world of the witness nobody who arrives afterwards is ever served (C95_ghost_refuted). A move handled after the departure panics (C95_late_refuted). Proved for all executions: a panic about a player comes only after that player's departure (C95_cause_partial). Proved if no move of a player overlaps its own departure: the claims about grids and about being online (C95_listed_partial; a player whose OnConnectionLost panicked is still online, as the statement of that theorem leaves open). Proved if, besides, nobody leaves the table while its number is collected and not looked up: no panic (C95_calm_partial)."
  },
  {
   "property": "C96",
   "status": "proved",
   "theorems": [
    "Zinx.Props.C96_sum",
    "Zinx.Props.C96_one_byte",
    "Zinx.Props.C96_shard",
    "Zinx.Props.C96_decade",
    "Zinx.Props.C96_load"
   ],
   "note": "The recurrence in C96_sum determines the sum of every key. C96_shard is for every map with the default hash and 32 shards (the default ShardCount)."
  },
  {
   "property": "C97",
   "status": "partial",
   "theorems": [
    "Zinx.Props.C97_start_partial",
    "Zinx.Props.C97_reload_partial",
    "Zinx.Props.C97_user_partial",
    "Zinx.Props.C97_retention_refuted",
    "Zinx.Props.C97_level_refuted",
    "Zinx.Props.C97_directory_refuted",
    "Zinx.Props.C97_reload_refuted"
   ],
   "note": "True at process start (C97_start_partial). False for later changes: a user configuration that names a log file drops the configured retention time, file size and console output (C97_retention_refuted); one that does not mention the level leaves the old one in force while the configuration says 0 (C97_level_refuted); one with only a directory changes the configuration but not the logger (C97_directory_refuted); loading a file again that has no log file or level leaves both in force (C97_reload_refuted). C97_reload_partial and C97_user_partial give the exact conditions."
  },
  {
   "property": "C98",
   "status": "partial",
   "theorems": [
    "Zinx.Props.C98_mild_partial",
    "Zinx.Props.C98_recovers_partial",
    "Zinx.Props.C98_agree",
    "Zinx.Props.C98_ordered",
    "Zinx.Props.C98_deaf",
    "Zinx.Props.C98_open_refuted",
    "Zinx.Props.C98_zip_refuted",
    "Zinx.Props.C98_flush_refuted"
   ],
   "note": "False of the code. If the file cannot be opened once in a rotation, the writer goes on with the closed file: up to 4096 bytes are reported as written and lost, and nothing written on that day gets into a file although all works again (C98_open_refuted). An error when a zip archive is completed is dropped and the log file is removed (C98_zip_refuted). A failing flush in a rotation is dropped with the buffered lines (C98_flush_refuted). True: failures of renaming, of zipping with a report, of asking for the size, and of the first opening lose nothing, the line being shown on the console in the last case (C98_mild_partial, for archive names used once, cf. C50); and C98_recovers_partial says when a write works again. Without failures the writer is that of C50 (C98_agree); whatever fails, nothing is invented, repeated or reordered (C98_ordered); C98_deaf says when the rest of a day is lost."
  },
  {
   "property": "C99",
   "status": "proved",
   "theorems": [
    "Zinx.Props.C99_kept",
    "Zinx.Props.C99_noticed",
    "Zinx.Props.C99_goes_on",
    "Zinx.Props.C99_too_slow",
    "Zinx.Props.C99_no_slack"
   ],
   "note": "Timed model: time passes only while nothing is overdue; the bounds are parameters. C99_goes_on shows that the bounds never contradict each other, so the other theorems are not about executions that stop. C99_no_slack shows the bound of C99_kept to be exact: with equality there is an execution in which a working end is taken for dead. Only heartbeats are sent; more traffic only helps."
  }
 ]
}
