{"id": "C01", "title": "Frame decoding is independent of how the stream is split into reads", "statement": "For a length-field configuration, feeding a byte stream to the frame decoder in any number of pieces of any sizes delivers exactly the same list of frames, and leaves exactly the same undelivered tail, as feeding it in one piece, as long as the stream contains no over-long or malformed frame.", "quantifier": "every well-formed length-field configuration, every byte stream free of over-long/malformed frames, every division of it into reads (including empty reads)", "why_tests_cant": "The number of ways to cut a stream grows exponentially with its length; a test fixes a few cuts.", "anchors": ["zinterceptor/framedecoder.go:FrameDecoder.Decode", "zinterceptor/framedecoder.go:FrameDecoder.decode"]}
{"id": "C02", "title": "A concatenation of well-formed frames is delivered exactly once each, in order", "statement": "If the received bytes are a concatenation of well-formed frames followed by an incomplete frame, the decoder delivers exactly those frames, in order, each with its configured prefix stripped, and keeps exactly the incomplete tail.", "quantifier": "every well-formed configuration, every list of frames, every incomplete tail", "why_tests_cant": "Lengths, contents and counts of frames are unbounded.", "anchors": ["zinterceptor/framedecoder.go:FrameDecoder.Decode", "zinterceptor/framedecoder.go:FrameDecoder.decode", "zinterceptor/framedecoder.go:NewFrameDecoder"]}
{"id": "C03", "title": "The length header is read with the configured width and byte order", "statement": "The number the decoder reads from the length field equals the big-endian (or little-endian) value of those bytes, for widths 1, 2, 3, 4 and 8 (8 is two's complement); any other width makes the decoder fail loudly.", "quantifier": "every buffer content, every offset inside the buffer, every width, both byte orders", "why_tests_cant": "There are 2^64 field values and unboundedly many offsets.", "anchors": ["zinterceptor/framedecoder.go:FrameDecoder.getUnadjustedFrameLength"]}
{"id": "C04", "title": "An over-long frame is dropped and the stream resynchronises on the next frame", "statement": "A frame longer than the configured maximum is never delivered and, once its bytes have been received, the frames behind it are delivered normally.", "quantifier": "every configuration, every over-long frame, every following stream, every division into reads", "why_tests_cant": "Requires reasoning over all later inputs; tests stop after a few frames.", "anchors": ["zinterceptor/framedecoder.go:FrameDecoder.exceededFrameLength", "zinterceptor/framedecoder.go:FrameDecoder.discardingTooLongFrameFunc", "zinterceptor/framedecoder.go:FrameDecoder.Decode"]}
{"id": "C05", "title": "No bytes a peer can send make a shipped frame decoder panic or loop", "statement": "With the length fields of the shipped TLV, LTV and HTLV decoders, the frame decoder returns (no panic, no endless loop) on every input after every history.", "quantifier": "every sequence of reads with arbitrary contents", "why_tests_cant": "Inputs are adversarial and unbounded.", "anchors": ["zinterceptor/framedecoder.go:FrameDecoder.Decode", "zdecoder/tlvdecoder.go:GetLengthField", "zdecoder/ltvdecoder_little.go:GetLengthField", "zdecoder/htlvcrcdecoder.go:GetLengthField"]}
{"id": "C06", "title": "No configuration lets a peer hang or crash the frame decoder", "statement": "For every length-field configuration the library accepts, the frame decoder either delivers, waits or drops on every input; it never panics and never loops for ever.", "quantifier": "every configuration built from a supported length width, every input", "why_tests_cant": "Configuration space times input space is unbounded.", "anchors": ["zinterceptor/framedecoder.go:FrameDecoder.Decode", "zinterceptor/framedecoder.go:FrameDecoder.decode", "zinterceptor/framedecoder.go:failOnNegativeLengthField", "zinterceptor/framedecoder.go:failOnFrameLengthLessThanInitialBytesToStrip"]}
{"id": "C07", "title": "The decoder never sits on a complete frame", "statement": "After a read has been decoded, the bytes still buffered do not contain a complete frame, so a frame is delivered during the very read that completes it and the buffer of a well-behaved stream stays shorter than one frame.", "quantifier": "every well-formed configuration and every stream without over-long frames", "why_tests_cant": "A universally quantified timing statement over all prefixes of all streams.", "anchors": ["zinterceptor/framedecoder.go:FrameDecoder.Decode"]}
{"id": "C08", "title": "TLV big-endian pack/unpack round trip", "statement": "Packing a message and unpacking the first bytes yields the same message ID and data length, and the bytes after the 8-byte header are the payload, whatever follows in the stream.", "quantifier": "every message ID, every payload shorter than 4 GiB and within the configured maximum, every trailing bytes", "why_tests_cant": "2^32 IDs times all payloads.", "anchors": ["zpack/datapack_tlv_bigendian.go:Pack", "zpack/datapack_tlv_bigendian.go:Unpack", "zpack/message.go:NewMsgPackage"]}
{"id": "C09", "title": "LTV little-endian pack/unpack round trip", "statement": "Same as the TLV round trip, for the old length-first little-endian format.", "quantifier": "every message ID, every payload shorter than 4 GiB and within the configured maximum, every trailing bytes", "why_tests_cant": "2^32 IDs times all payloads.", "anchors": ["zpack/datapack_ltv_littleendian.go:Pack", "zpack/datapack_ltv_littleendian.go:Unpack"]}
{"id": "C10", "title": "Unpack is total and enforces the packet limit exactly", "statement": "Unpack on any bytes returns an error when fewer than eight bytes are given, an error when a limit is configured and the announced length exceeds it, and otherwise the header; it never fails for another reason, and a limit of zero means no limit.", "quantifier": "every byte string, every limit, both pack formats", "why_tests_cant": "Boundary behaviour at every limit and every header value.", "anchors": ["zpack/datapack_tlv_bigendian.go:Unpack", "zpack/datapack_ltv_littleendian.go:Unpack"]}
{"id": "C11", "title": "Every message sent is received intact: TLV", "statement": "If a sender packs any messages (payloads below 2^32-8 bytes) with the default TLV format and the transport delivers the bytes cut in any way, the receiver's frame decoder plus TLV decoder hand the router exactly those (ID, payload) pairs, in order.", "quantifier": "every list of messages, every way of cutting the byte stream", "why_tests_cant": "Unbounded messages and cuts.", "anchors": ["zpack/datapack_tlv_bigendian.go:Pack", "zinterceptor/framedecoder.go:FrameDecoder.Decode", "zdecoder/tlvdecoder.go:Intercept"]}
{"id": "C12", "title": "Every message sent is received intact: LTV", "statement": "The same end-to-end statement for the LTV little-endian format and decoder.", "quantifier": "every list of messages, every way of cutting the byte stream", "why_tests_cant": "Unbounded messages and cuts.", "anchors": ["zpack/datapack_ltv_littleendian.go:Pack", "zinterceptor/framedecoder.go:FrameDecoder.Decode", "zdecoder/ltvdecoder_little.go:Intercept"]}
{"id": "C13", "title": "Every HTLV-CRC frame the format can express is received", "statement": "For every header byte, function code and body of 0 to 255 bytes, the frame with a correct CRC is delivered by the frame decoder, cut in any way, and reaches the router selected by the function code.", "quantifier": "every frame expressible with a one-byte length, every cut", "why_tests_cant": "All bodies of all lengths up to 255, all cuts.", "anchors": ["zdecoder/htlvcrcdecoder.go:GetLengthField", "zdecoder/htlvcrcdecoder.go:decode", "zdecoder/htlvcrcdecoder.go:Intercept"]}
{"id": "C14", "title": "The table-driven checksum is CRC-16/MODBUS", "statement": "GetCrC computes, for every byte string, the CRC-16 with reflected polynomial 0xA001 and initial value 0xFFFF, low byte first.", "quantifier": "every byte string", "why_tests_cant": "Test vectors exercise a handful of strings; a wrong table entry is only met by some inputs.", "anchors": ["zdecoder/crc.go:GetCrC", "zdecoder/crc.go:crc16_h", "zdecoder/crc.go:crc16_l"]}
{"id": "C15", "title": "Corruption confined to two adjacent bytes is always detected", "statement": "If a byte string is changed in one byte or in two adjacent bytes, its checksum changes; so the checksum test rejects the altered frame.", "quantifier": "every byte string, every position, every replacement value", "why_tests_cant": "Universally quantified over all strings and all corruptions.", "anchors": ["zdecoder/crc.go:GetCrC", "zdecoder/crc.go:CheckCRC"]}
{"id": "C16", "title": "A frame whose checksum is wrong never reaches a router and never takes the process down", "statement": "An HTLV frame with a wrong CRC is rejected: no router sees it, and the rejection affects at most that connection.", "quantifier": "every frame, every transport (TCP, KCP, WebSocket)", "why_tests_cant": "All corruptions and all transports.", "anchors": ["zdecoder/htlvcrcdecoder.go:decode", "zdecoder/htlvcrcdecoder.go:Intercept", "znet/connection.go:StartReader", "znet/ws_connection.go:StartReader"]}
{"id": "C17", "title": "The configured maximum packet size bounds what a router can be given", "statement": "When MaxPacketSize is positive, no router is ever handed a payload longer than MaxPacketSize.", "quantifier": "every received stream, every configured limit", "why_tests_cant": "Needs all streams.", "anchors": ["znet/connection.go:StartReader", "zpack/datapack_tlv_bigendian.go:Unpack", "zdecoder/tlvdecoder.go:GetLengthField"]}
{"id": "C18", "title": "Interceptors run in registration order and stop where one does not proceed", "statement": "Executing the chain calls head, then the added interceptors in registration order, then tail; each one sees the message left by its predecessors; if one does not proceed none of the later ones runs, and each runs at most once when every one proceeds once.", "quantifier": "every list of interceptors, every decision of each of them, every request", "why_tests_cant": "Any number of interceptors with arbitrary behaviour.", "anchors": ["zinterceptor/chain.go:Proceed", "zinterceptor/chain.go:ProceedWithIMessage", "znet/chainbuilder.go:Execute"]}
{"id": "C19", "title": "User interceptors always see decoded messages", "statement": "On server and client, every interceptor the user adds runs after the protocol decoder, and the decoder runs exactly once per message.", "quantifier": "every sequence of AddInterceptor/Start calls, server and client", "why_tests_cant": "Depends on the order of calls.", "anchors": ["znet/server.go:Start", "znet/client.go:Start", "znet/chainbuilder.go:Execute"]}
{"id": "C20", "title": "Router stages run Pre, Handle, Post in order, with Abort and Goto", "statement": "Without Abort or Goto a router's three stages each run exactly once in order; after Abort no later stage runs; after Goto(s) the next stage run is s; a nil router does nothing.", "quantifier": "every behaviour of the three stages", "why_tests_cant": "Stage behaviours form an unbounded space (they may depend on history).", "anchors": ["znet/request.go:Call", "znet/request.go:next", "znet/request.go:Goto", "znet/request.go:Abort"]}
{"id": "C21", "title": "A route's handler list runs in order, with nested Next and Abort", "statement": "The handlers registered for a message run in list order, each exactly once; a handler that calls Next runs the rest before it continues; after Abort no further handler starts. This holds for every list length.", "quantifier": "every handler list of every length, every behaviour of the handlers", "why_tests_cant": "Any number of handlers with any nesting.", "anchors": ["znet/request.go:RouterSlicesNext", "znet/request.go:Abort", "znet/defaultrouterfunc.go:RouterRecovery"]}
{"id": "C22", "title": "A route's handlers are the global ones, then the group's, then its own, fixed at registration", "statement": "The handlers stored for a message are exactly: global middleware registered before the route, then the group's middleware registered before it, then the route's own; later registrations and other routes never change it.", "quantifier": "every sequence of Use, Group, group Use and AddHandler calls", "why_tests_cant": "Any history of registrations, including slice-aliasing effects.", "anchors": ["znet/router.go:RouterSlices.Use", "znet/router.go:RouterSlices.AddHandler", "znet/router.go:NewGroup", "znet/router.go:GroupRouter.AddHandler"]}
{"id": "C23", "title": "A message ID has at most one route; re-registration is refused without damage", "statement": "Registering a second route for a message ID fails loudly and leaves the first one in force; registering different IDs never interferes; a group refuses IDs outside its range.", "quantifier": "every sequence of registrations (router mode and slice mode)", "why_tests_cant": "All histories.", "anchors": ["znet/msghandler.go:AddRouter", "znet/router.go:RouterSlices.AddHandler", "znet/router.go:GroupRouter.AddHandler"]}
{"id": "C24", "title": "A pooled request is indistinguishable from a new one", "statement": "With request pooling on, nothing a previous request left behind (connection, message, user keys, response, stage, handlers) can be observed by a handler of the next request.", "quantifier": "every history of requests through the pool", "why_tests_cant": "Depends on what any earlier request did.", "anchors": ["znet/request.go:GetRequest", "znet/request.go:PutRequest", "znet/request.go:Reset"]}
{"id": "C25", "title": "Copy gives an independent snapshot that can be used after the original is recycled", "statement": "A copied request shows the same message ID, payload, user keys and response as the original at copy time and is unaffected by later changes to it.", "quantifier": "every request state, every later operation on the original", "why_tests_cant": "All states and all later histories.", "anchors": ["znet/request.go:Copy", "znet/request.go:Set", "znet/request.go:Get"]}
{"id": "C26", "title": "A panicking or missing handler never stops a worker", "statement": "Each request put on a worker's queue is processed exactly once, in queue order, whether or not handlers of earlier requests panicked or no handler was registered.", "quantifier": "every queue content, every set of routes, every panic behaviour", "why_tests_cant": "Any sequence of panics.", "anchors": ["znet/msghandler.go:StartOneWorker", "znet/msghandler.go:doMsgHandler", "znet/msghandler.go:doMsgHandlerSlices", "znet/msghandler.go:doFuncHandler"]}
{"id": "C27", "title": "Messages of one connection are handled in arrival order, one at a time", "statement": "In the default (hash) worker mode, for every schedule of readers and workers, the messages of one connection are handled in the order the reader delivered them and never two at once.", "quantifier": "every number of connections and workers, every schedule", "why_tests_cant": "Concurrency: all interleavings.", "anchors": ["znet/msghandler.go:useWorker", "znet/msghandler.go:SendMsgToTaskQueue", "znet/msghandler.go:StartOneWorker"]}
{"id": "C28", "title": "In bind mode every connection has a worker of its own", "statement": "In bind mode no two live connections are served by the same worker.", "quantifier": "every schedule of accepts, starts and closes up to the connection limit", "why_tests_cant": "Concurrency between accept, close and worker release.", "anchors": ["znet/msghandler.go:useWorker", "znet/msghandler.go:freeWorker", "znet/connection.go:Start", "znet/connection.go:finalizer"]}
{"id": "C29", "title": "In dynamic-bind mode an overflow worker is never shared and never closed twice", "statement": "In dynamic-bind mode each live connection has its own worker, an overflow worker is created when taken and closed exactly once when released, and a base worker is never closed.", "quantifier": "every schedule of starts and closes", "why_tests_cant": "Concurrency plus map iteration order.", "anchors": ["znet/msghandler.go:useWorker", "znet/msghandler.go:freeWorker", "znet/msghandler.go:StopOneWorker"]}
{"id": "C30", "title": "A connection's worker number always denotes an existing task queue", "statement": "Whatever the mode and history, the worker number given to a connection is within the task-queue table and its queue exists, so delivering a message cannot fail on it.", "quantifier": "every mode, pool size, connection limit and history", "why_tests_cant": "All configurations.", "anchors": ["znet/msghandler.go:newMsgHandle", "znet/msghandler.go:newCliMsgHandle", "znet/msghandler.go:useWorker", "znet/msghandler.go:StartWorkerPool"]}
{"id": "C31", "title": "The connection manager is a map keyed by connection ID", "statement": "After any history of Add/Remove/Clear, Get(id) returns the connection last added under that id and not removed since, and an error otherwise; Len and the ID listing agree with it.", "quantifier": "every history of operations, every id in 0..2^64-1", "why_tests_cant": "All histories; ids are stored as decimal strings in hash shards.", "anchors": ["znet/connmanager.go:Add", "znet/connmanager.go:Remove", "znet/connmanager.go:Get", "znet/connmanager.go:Len", "zutils/shard_lock_map.go"]}
{"id": "C32", "title": "Connection IDs are unique while the server runs", "statement": "No two connections accepted by one server ever get the same ID, whichever listeners accept them concurrently, for the first 2^64 connections.", "quantifier": "every schedule of accepts on all listeners", "why_tests_cant": "Concurrency and unbounded counts.", "anchors": ["znet/server.go:ListenTcpConn", "znet/server.go:ListenWebsocketConn", "znet/server.go:ListenKcpConn"]}
{"id": "C33", "title": "The number of live connections never exceeds MaxConn", "statement": "At every moment the number of connections in the manager is at most the configured maximum.", "quantifier": "every schedule of accepts and closes on the running listeners", "why_tests_cant": "Check-then-act interleavings.", "anchors": ["znet/server.go:ListenTcpConn", "znet/server.go:ListenWebsocketConn", "znet/connmanager.go:Add"]}
{"id": "C34", "title": "Range over connections reports a callback failure", "statement": "Ranging over the connections calls the callback once per connection and returns a non-nil error if some callback failed.", "quantifier": "every set of connections, every callback", "why_tests_cant": "All failure patterns.", "anchors": ["znet/connmanager.go:Range", "znet/connmanager.go:Range2"]}
{"id": "C35", "title": "Connection lifecycle hooks: start before any message, stop exactly once", "statement": "For a started connection the start hook finishes before any of its messages is handled; after the connection ends the stop hook runs exactly once, the socket is closed and the connection leaves the manager, in every schedule.", "quantifier": "every schedule of reader, user Stop calls, read errors and hook behaviour", "why_tests_cant": "Concurrency and crash points in hooks.", "anchors": ["znet/connection.go:Start", "znet/connection.go:StartReader", "znet/connection.go:finalizer", "znet/connection.go:Stop"]}
{"id": "C36", "title": "Stop may be called at any time, any number of times, by anyone", "statement": "Stopping a connection that is visible in the manager is always safe: repeated or concurrent Stop calls have the effect of one, at whatever stage the connection is.", "quantifier": "every point of a connection's life, every number of concurrent Stop/ClearConn calls", "why_tests_cant": "Races with accept and start.", "anchors": ["znet/connection.go:Stop", "znet/connection.go:newServerConn", "znet/connmanager.go:ClearConn"]}
{"id": "C37", "title": "After close, sends fail and write nothing", "statement": "Once a connection has been stopped, every send returns an error and no byte of it is written.", "quantifier": "every connection state and payload", "why_tests_cant": "All histories.", "anchors": ["znet/connection.go:Send", "znet/connection.go:SendMsg", "znet/connection.go:SendToQueue", "znet/connection.go:isClosed"]}
{"id": "C38", "title": "What goes on the wire is a sequence of whole messages", "statement": "Whatever mix of direct and buffered sends is used concurrently, the bytes written to the socket are a concatenation of whole packed messages, and buffered messages appear in the order they were queued.", "quantifier": "every schedule of direct senders, buffered senders and the writer, every message size", "why_tests_cant": "Interleavings and buffer boundary effects.", "anchors": ["znet/connection.go:StartWriter", "znet/connection.go:SendBuf", "znet/connection.go:Flush", "znet/connection.go:Send"]}
{"id": "C39", "title": "Concurrent buffered sends never crash, even while the connection closes", "statement": "Any number of goroutines may call SendBuffMsg on a connection at any time, including while it is closing; each call returns nil or an error.", "quantifier": "every schedule of senders and stop", "why_tests_cant": "Interleavings around channel close.", "anchors": ["znet/connection.go:SendToQueue", "znet/connection.go:SendBuffMsg"]}
{"id": "C40", "title": "A buffered send that returned nil is transmitted unless the peer fails", "statement": "If SendBuffMsg returned nil and the network does not fail, the message is eventually written to the socket, also when the connection is stopped right afterwards.", "quantifier": "every schedule of sends, flush ticks and stop", "why_tests_cant": "Interleavings.", "anchors": ["znet/connection.go:SendToQueue", "znet/connection.go:StartWriter", "znet/connection.go:Flush"]}
{"id": "C41", "title": "Close callbacks form an ordered list with first-match removal", "statement": "After any history of adds and removes, invoking runs exactly the remaining callbacks, each once, in the order they were added; removal deletes the first entry with the given handler and key and nothing else; count is the number remaining; nil callbacks are ignored.", "quantifier": "every history of add and remove", "why_tests_cant": "Linked-list pointer manipulation over all histories.", "anchors": ["znet/callbacks.go:Add", "znet/callbacks.go:Remove", "znet/callbacks.go:Invoke", "znet/callbacks.go:Count"]}
{"id": "C42", "title": "Stopping a connection with heartbeat on always completes", "statement": "After Stop, the connection teardown always runs to completion (stop hook, heartbeat stopped, socket closed, removed from manager), whatever the heartbeat goroutine is doing.", "quantifier": "every schedule of teardown and heartbeat goroutine, TCP and WebSocket", "why_tests_cant": "Deadlock is schedule dependent.", "anchors": ["znet/heartbeat.go:start", "znet/heartbeat.go:Stop", "znet/heartbeat.go:check", "znet/ws_connection.go:finalizer", "znet/ws_connection.go:SendMsg"]}
{"id": "C43", "title": "Heartbeat declares a connection dead exactly when it has been silent for the limit", "statement": "At each check a connection is declared not alive iff it is closed or no data arrived during the last HeartbeatMax; a peer that sends at least once per HeartbeatMax is never dropped, a silent one is dropped at the first check after the limit; live connections get one heartbeat per check.", "quantifier": "every timing of received data and checks", "why_tests_cant": "All timings.", "anchors": ["znet/heartbeat.go:check", "znet/connection.go:IsAlive", "znet/connection.go:updateActivity"]}
{"id": "C44", "title": "Heartbeat configuration: defaults survive nil options and each connection gets an independent clone", "statement": "Setting a nil callback leaves the default in place; a custom router is used only with a non-default ID and non-nil router; a clone has the same settings, no connection, its own quit channel, and later changes to the original do not affect it.", "quantifier": "every sequence of option settings and clones", "why_tests_cant": "All histories.", "anchors": ["znet/heartbeat.go:SetOnRemoteNotAlive", "znet/heartbeat.go:BindRouter", "znet/heartbeat.go:BindRouterSlices", "znet/heartbeat.go:Clone"]}
{"id": "C45", "title": "The sharded map behaves as one map", "statement": "For any history of Set/SetNX/MSet/Get/Has/Remove/RemoveCb/Pop/Clear, the results are those of a single ordinary map, whatever the hash function and shard count.", "quantifier": "every history of operations, every hash function, every positive shard count", "why_tests_cant": "All histories and hash functions.", "anchors": ["zutils/shard_lock_map.go:Set", "zutils/shard_lock_map.go:SetNX", "zutils/shard_lock_map.go:MSet", "zutils/shard_lock_map.go:Get", "zutils/shard_lock_map.go:Remove", "zutils/shard_lock_map.go:RemoveCb", "zutils/shard_lock_map.go:Pop", "zutils/shard_lock_map.go:Clear", "zutils/shard_lock_map.go:Count"]}
{"id": "C46", "title": "Iterating the sharded map during updates is weakly consistent", "statement": "Keys/Items/IterCb/IterBuffered running concurrently with arbitrary updates visit every key present with a constant value throughout the scan exactly once with that value, never report a key absent throughout, and never report a key twice.", "quantifier": "every interleaving of shard visits with updates", "why_tests_cant": "Interleavings.", "anchors": ["zutils/shard_lock_map.go:snapshot", "zutils/shard_lock_map.go:IterBuffered", "zutils/shard_lock_map.go:Items", "zutils/shard_lock_map.go:Keys", "zutils/shard_lock_map.go:IterCb"]}
{"id": "C47", "title": "Counting the sharded map is exact", "statement": "Count (and IsEmpty) returns the number of entries the map had at some moment during the call.", "quantifier": "every interleaving of Count with updates", "why_tests_cant": "Interleavings.", "anchors": ["zutils/shard_lock_map.go:Count", "zutils/shard_lock_map.go:IsEmpty"]}
{"id": "C48", "title": "Snowflake IDs are positive, unique and increasing per generator", "statement": "Successive successful IDs from one generator strictly increase and are non-negative, for any clock behaviour up to the year the 41-bit field is exhausted; when the clock moves backwards an error is returned instead of an ID.", "quantifier": "every sequence of clock readings", "why_tests_cant": "All clock behaviours.", "anchors": ["zutils/snowflake_uuid.go:NextID", "zutils/snowflake_uuid.go:nextMillisecond"]}
{"id": "C49", "title": "Snowflake IDs from different worker numbers never collide", "statement": "Two generators created with different worker numbers never produce the same ID; worker numbers outside 0..1023 are refused.", "quantifier": "every pair of worker numbers, every clock sequence of each", "why_tests_cant": "All pairs and histories.", "anchors": ["zutils/snowflake_uuid.go:NewIDWorker", "zutils/snowflake_uuid.go:NextID"]}
{"id": "C50", "title": "Log rotation loses no log output", "statement": "The bytes in the archives in rotation order followed by the current file are exactly the bytes written, in order.", "quantifier": "every sequence of writes, every size limit, every clock sequence", "why_tests_cant": "All histories and clock values.", "anchors": ["zutils/witer.go:Write", "zutils/witer.go:rotate", "zutils/witer.go:Close"]}
{"id": "C51", "title": "A log file never grows past the size limit except by a single oversized line", "statement": "Every log file is smaller than the limit unless it holds exactly one write that is itself at least the limit; a limit below one is ignored.", "quantifier": "every sequence of writes and limits", "why_tests_cant": "All histories.", "anchors": ["zutils/witer.go:Write", "zutils/witer.go:SetMaxSize"]}
{"id": "C52", "title": "A pending timer is never lost and never duplicated", "statement": "From creation until it fires or is cancelled a timer is stored exactly once in the wheels, whatever ticks, insertions and cancellations happen, at whatever clock values.", "quantifier": "every interleaving of create, cancel, tick and collect operations with fewer than 2^32 creations (IDs are 32 bits), every clock sequence", "why_tests_cant": "All histories of a cascading structure.", "anchors": ["ztimer/timewheel.go:addTimer", "ztimer/timewheel.go:run", "ztimer/timewheel.go:RemoveTimer", "ztimer/timewheel.go:GetTimerWithIn", "ztimer/timerscheduler.go:NewTimerScheduler"]}
{"id": "C53", "title": "A timer fires at most once and at most 100 ms early", "statement": "A collected timer is removed, so it fires at most once, and when collected its due time is less than 100 ms away.", "quantifier": "every interleaving with fewer than 2^32 creations, every clock sequence", "why_tests_cant": "All histories.", "anchors": ["ztimer/timewheel.go:GetTimerWithIn", "ztimer/timerscheduler.go:Start"]}
{"id": "C54", "title": "After CancelTimer returns, the timer never fires any more unless already handed out", "statement": "Cancelling visits the wheels one lock at a time, top down; for every interleaving with rotations, after it returns the timer is in no wheel and is never collected afterwards.", "quantifier": "every interleaving of cancel with wheel rotations", "why_tests_cant": "Interleavings.", "anchors": ["ztimer/timerscheduler.go:CancelTimer", "ztimer/timewheel.go:RemoveTimer", "ztimer/timewheel.go:run"]}
{"id": "C55", "title": "With punctual ticks a timer is available for collection no later than its due time", "statement": "If each wheel ticks exactly at its interval (arbitrary phases) then by its due time every pending timer is in the slot the scheduler is polling, so it is delivered within one poll period of its due time.", "quantifier": "every due time, every phase of the wheels, every set of other timers, fewer than 2^32 creations", "why_tests_cant": "Unbounded delays and phases.", "anchors": ["ztimer/timewheel.go:addTimer", "ztimer/timewheel.go:run", "ztimer/timewheel.go:GetTimerWithIn"]}
{"id": "C56", "title": "An asynchronous completion callback runs exactly once", "statement": "Whatever the order or overlap of setting the result and registering the callback, the callback is dispatched at most once, and exactly once when both calls have finished.", "quantifier": "every interleaving of any number of SetReturnedObj and OnComplete calls", "why_tests_cant": "Interleavings.", "anchors": ["zasync_op/async_op_result.go:SetReturnedObj", "zasync_op/async_op_result.go:OnComplete", "zasync_op/async_op_result.go:doComplete"]}
{"id": "C57", "title": "The completion callback sees the result", "statement": "When the callback runs, the result object it reads is the one passed to SetReturnedObj.", "quantifier": "every interleaving", "why_tests_cant": "Interleavings.", "anchors": ["zasync_op/async_op_result.go:SetReturnedObj", "zasync_op/async_op_result.go:OnComplete"]}
{"id": "C58", "title": "Asynchronous operations with the same ID run one after another in submission order", "statement": "Operations submitted under the same ID go to one worker and run in submission order, a panicking one included; every 64-bit ID selects a valid worker.", "quantifier": "every 64-bit ID, every submission history, every panic pattern", "why_tests_cant": "2^64 IDs and all histories.", "anchors": ["zasync_op/async_op.go:Process", "zasync_op/async_op.go:getCurWorker", "zasync_op/async_worker.go:process", "zasync_op/async_worker.go:loopExecTask"]}
{"id": "C59", "title": "User configuration overrides exactly what it sets", "statement": "After applying a user configuration, each setting equals the user's value if the user gave a non-zero one and is unchanged otherwise.", "quantifier": "every user configuration, every prior global configuration, every field", "why_tests_cant": "All combinations of fields.", "anchors": ["zconf/userconf.go:UserConfToGlobal"]}
{"id": "C60", "title": "Log level isolation suppresses exactly the lower levels", "statement": "A message is output iff its level is not below the configured isolation level; each output is one line ending in exactly the caller's text plus a newline if it lacked one.", "quantifier": "every level, isolation level and message", "why_tests_cant": "All messages.", "anchors": ["zlog/logger_core.go:verifyLogIsolation", "zlog/logger_core.go:OutPut"]}
{"id": "C61", "title": "The log header shows the parts selected by the flags", "statement": "The header of each log line contains date, time, microseconds, level and file parts exactly as selected by the flag bits, numbers being zero-padded decimals.", "quantifier": "every flag set, every time, level, file and line", "why_tests_cant": "All flag combinations and values.", "anchors": ["zlog/logger_core.go:formatHeader", "zlog/logger_core.go:itoa"]}
{"id": "C62", "title": "Accept back-off doubles from 5 ms and is capped at one second", "statement": "After n consecutive accept failures the delay is min(5 ms * 2^(n-1), 1 s); a success resets it.", "quantifier": "every sequence of failures and successes", "why_tests_cant": "All histories.", "anchors": ["znet/acceptdelay.go:Up", "znet/acceptdelay.go:Reset"]}
{"id": "C63", "title": "Area-of-interest neighbourhoods are exact and symmetric", "statement": "The surrounding grids of a grid are exactly the grids within distance one in both directions, each once; A is in the neighbourhood of B iff B is in that of A.", "quantifier": "every grid geometry, every grid", "why_tests_cant": "All geometries.", "anchors": ["zinx_app_demo/mmo_game/core/aoi.go:GetSurroundGrIDsByGID", "zinx_app_demo/mmo_game/core/aoi.go:NewAOIManager"]}
{"id": "C64", "title": "A position inside the world maps to the grid that contains it", "statement": "For every position within the manager's declared bounds the grid lookup gives an existing grid whose rectangle contains it.", "quantifier": "every geometry, every position within bounds", "why_tests_cant": "All positions.", "anchors": ["zinx_app_demo/mmo_game/core/aoi.go:GetGIDByPos", "zinx_app_demo/mmo_game/core/aoi.go:grIDWIDth"]}
{"id": "C65", "title": "Notification by ID is a map; broadcast reports failures", "statement": "SetNotifyID/GetNotifyByID/DelNotifyByID behave as a map from ID to connection where the last set wins until deleted; sending to an unknown ID fails; broadcast sends once to every registered connection and reports whether a send failed.", "quantifier": "every history of operations, every set of failing connections", "why_tests_cant": "All histories.", "anchors": ["znotify/notify.go:SetNotifyID", "znotify/notify.go:GetNotifyByID", "znotify/notify.go:DelNotifyByID", "znotify/notify.go:NotifyToConnByID", "znotify/notify.go:NotifyAll"]}
{"id": "C66", "title": "Stopping a running server returns", "statement": "Server.Stop on a started server closes every connection and returns, in every mode.", "quantifier": "every mode and schedule", "why_tests_cant": "Blocking depends on mode and schedule.", "anchors": ["znet/server.go:Stop", "znet/server.go:ListenTcpConn", "znet/server.go:ListenWebsocketConn"]}
{"id": "C67", "title": "Raw mode payloads stay valid after they are handed to a worker", "statement": "Without a frame decoder, the payload a handler reads is the bytes that arrived in that read, even if the handler runs after later reads.", "quantifier": "every schedule of reader and worker", "why_tests_cant": "Buffer aliasing across goroutines.", "anchors": ["znet/connection.go:StartReader", "znet/kcp_connection.go:StartReader"]}
{"id": "C68", "title": "The checksum detects bursts, odd errors and double errors", "statement": "A frame that passes the checksum test fails it after any change confined to 16 consecutive bits, after flipping any odd number of bits, and after flipping any two bits of a frame shorter than 2048 bytes.", "quantifier": "every accepted frame, every position and error pattern of these kinds", "why_tests_cant": "The number of frames and error patterns is astronomically large.", "anchors": ["zdecoder/crc.go:GetCrC", "zdecoder/crc.go:CheckCRC", "zdecoder/htlvcrcdecoder.go:decode"]}
{"id": "C69", "title": "A panicking handler ends the handling of its message", "statement": "If a handler of a message panics, no handler after it in the route runs for that message, with or without the default recovery middleware, and the panic does not reach the process.", "quantifier": "every route, every panicking position", "why_tests_cant": "Every combination of routes and panicking handlers.", "anchors": ["znet/defaultrouterfunc.go:RouterRecovery", "znet/request.go:RouterSlicesNext", "znet/msghandler.go:doMsgHandlerSlices"]}
{"id": "C70", "title": "Without a worker pool messages of one connection are handled in order, too", "statement": "On a client, or a server with worker pool size 0, the messages of one connection are handled in arrival order and never two at once.", "quantifier": "every schedule of reader and handlers", "why_tests_cant": "Goroutine schedules.", "anchors": ["znet/msghandler.go:Intercept", "znet/msghandler.go:newCliMsgHandle", "znet/msghandler.go:doMsgHandler"]}
{"id": "C71", "title": "Players are listed in the grid they stand in", "statement": "After any history of arrivals, moves and departures at positions that have a grid, every online player is listed once in the grid of its position and in no other grid, offline players are listed nowhere, and no such operation panics.", "quantifier": "every geometry, every history of operations, any number of players", "why_tests_cant": "All histories and positions.", "anchors": ["zinx_app_demo/mmo_game/core/world_manager.go:AddPlayer", "zinx_app_demo/mmo_game/core/player.go:UpdatePos", "zinx_app_demo/mmo_game/core/player.go:LostConnection"]}
{"id": "C72", "title": "Players are told exactly who comes into and goes out of sight", "statement": "When a player moves, it and another player are told of each other's appearance iff they see each other after the move and did not before, and of the disappearance iff they saw each other before and do not after; seeing means standing in neighbouring grids.", "quantifier": "every geometry, every history, every move", "why_tests_cant": "All pairs of positions.", "anchors": ["zinx_app_demo/mmo_game/core/player.go:OnExchangeAoiGrID", "zinx_app_demo/mmo_game/core/aoi.go:GetSurroundGrIDsByGID"]}
{"id": "C73", "title": "A request's key-value store is a map of its own", "statement": "Get on a request returns the value last Set for that key on that request, or reports that there is none; stores of different requests are independent, and a recycled request starts with an empty one.", "quantifier": "every history of Set and recycling on any number of requests", "why_tests_cant": "All interleavings of keys and requests.", "anchors": ["znet/request.go:Set", "znet/request.go:Get", "znet/request.go:Reset"]}
{"id": "C74", "title": "Undecoded reads reach the router whole, as message 0", "statement": "Without a decoder, and for reads too short for the decoder in use, the router gets exactly one message per read, in order, with ID 0 and all bytes of the read.", "quantifier": "every sequence of reads", "why_tests_cant": "All contents of reads.", "anchors": ["znet/connection.go:StartReader", "zpack/message.go:NewMessage", "zdecoder/tlvdecoder.go:Intercept", "zdecoder/htlvcrcdecoder.go:Intercept"]}
{"id": "C75", "title": "A client can be stopped, and started and stopped again", "statement": "Client.Stop returns without panic and leaves the connection stopped and the client's goroutine ended, whatever became of the dial; after Restart the client can be stopped again.", "quantifier": "every history of Start, Restart and Stop by one goroutine, every outcome of dialling, every schedule", "why_tests_cant": "Schedules of the dialling goroutine against Stop.", "anchors": ["znet/client.go:Restart", "znet/client.go:Start", "znet/client.go:Stop"]}
{"id": "C76", "title": "Close callbacks run once, in order, when the connection closes", "statement": "Every close callback added to an open connection and not removed runs exactly once, in the order of addition, after the connection was stopped; calls of AddCloseCallback and RemoveCloseCallback from within a callback do not deadlock.", "quantifier": "every schedule of goroutines adding, removing, stopping, finalizing; TCP, WebSocket and KCP connections", "why_tests_cant": "Schedules of additions against the finalizer.", "anchors": ["znet/connection.go:AddCloseCallback", "znet/connection.go:RemoveCloseCallback", "znet/connection.go:InvokeCloseCallbacks", "znet/connection.go:finalizer", "znet/ws_connection.go:AddCloseCallback", "znet/kcp_connection.go:AddCloseCallback"]}
{"id": "C77", "title": "Log lines of concurrent calls stay whole", "statement": "When several goroutines log and change settings at once, every write to the output is exactly the line of one call, each call writes once before it returns, the hook gets the same bytes, and every call returns; a log hook may itself log.", "quantifier": "every schedule, any number of goroutines, calls and setting changes", "why_tests_cant": "All schedules, in particular while the mutex is given up to look for the caller.", "anchors": ["zlog/logger_core.go:OutPut", "zlog/logger_core.go:ResetFlags", "zlog/logger_core.go:SetPrefix", "zlog/logger_core.go:SetLogHook"]}
{"id": "C78", "title": "A peer cannot make the decoder keep more than one frame", "statement": "After every read the frame decoder keeps less than one frame of the configured maximum length (or an unfinished header) of undecoded input, whatever the peer sends.", "quantifier": "every length field configuration with unsigned lengths and non-negative frame lengths, every sequence of reads; in particular the shipped TLV, LTV and HTLV decoders", "why_tests_cant": "Memory only grows without bound after particular announced lengths, over long streams.", "anchors": ["zinterceptor/framedecoder.go:Decode", "zinterceptor/framedecoder.go:exceededFrameLength", "zdecoder/htlvcrcdecoder.go:GetLengthField", "zdecoder/tlvdecoder.go:GetLengthField", "zdecoder/ltvdecoder_little.go:GetLengthField"]}
{"id": "C79", "title": "A copied request runs no router function", "statement": "Calling Call or RouterSlicesNext on a request made by Copy runs no router function, changes nothing and returns without a panic.", "quantifier": "every request state, every router and handler table", "why_tests_cant": "Every state the original can be in when copied.", "anchors": ["znet/request.go:Copy", "znet/request.go:Call", "znet/request.go:RouterSlicesNext"]}
{"id": "C80", "title": "Clients are turned away only when the server is full", "statement": "An accept check refuses a client only if at some moment of the check the manager held at least MaxConn connections, and every check ends.", "quantifier": "every mode, every schedule of accepts, checks and closes", "why_tests_cant": "The count is taken shard by shard while connections come and go.", "anchors": ["znet/server.go:ListenTcpConn", "znet/server.go:ListenWebsocketConn", "znet/server.go:ListenKcpConn", "zutils/shard_lock_map.go:Count", "znet/connmanager.go:Len"]}
{"id": "C81", "title": "The log file is not rotated for its size before it is full", "statement": "Within a day, a write that leaves the log file below the size limit is appended to it and nothing is archived.", "quantifier": "every history of writes, flushes, closes and limit changes on one day, every clock", "why_tests_cant": "Depends on buffer contents and all histories.", "anchors": ["zutils/witer.go:Write", "zutils/witer.go:rotate"]}
{"id": "C82", "title": "Old log archives are removed by age, and nothing else is", "statement": "With a retention time of N > 0 days, the daily clean-up removes exactly the archives of this log created more than N days ago; with N ≤ 0 it removes nothing.", "quantifier": "every directory, file name, retention time, date and time zone offset", "why_tests_cant": "All dates, names and offsets.", "anchors": ["zutils/witer.go:delete", "zutils/witer.go:name2time", "zutils/witer.go:time2name"]}
{"id": "C83", "title": "Connection properties behave as one table under concurrent use", "statement": "For any number of goroutines calling SetProperty, GetProperty and RemoveProperty on one connection in any interleaving, the calls and results are those of a single table on which each call takes effect at one instant between its beginning and its return: GetProperty gives the value set last for the key, or an error if none was set or it was removed since. No interleaving ends the process by concurrent use of the Go map or a write to the nil map, and every call returns if the lock is handed out fairly.", "quantifier": "for all keys, values, numbers of goroutines and interleavings", "why_tests_cant": "A race on the map shows only under particular schedules, and linearizability quantifies over all of them.", "anchors": ["znet/connection.go:466-491", "znet/ws_connection.go:463-488", "znet/kcp_connection.go:454-479"]}
{"id": "C84", "title": "Messages sent on a TCP connection are handled by the receiver once, unchanged and in order", "statement": "Two ends of a TCP connection use the same TLV or LTV packing, each message carries fewer than 2^32-8 bytes, and the sender uses either only SendBuffMsg or only SendMsg. Then, however the network cuts the byte stream into reads and whatever the other connections and workers of the receiver do, the handling of this connection's messages is a prefix of: the first message sent begins and ends, then the second begins and ends, and so on, each with the ID and data it was sent with; no message is lost in between, doubled, changed, merged or overtaken. For SendBuffMsg the order is that in which the calls returned nil; for SendMsg every call that returned nil is in the sequence, with at most one failed call, at the end. If moreover the sending connection stays open and its network works, every message for which SendBuffMsg returned nil is eventually handled.", "quantifier": "For all messages, sizes of the queues and of the write buffer, numbers of senders, schedules of senders, writer, reader and workers, sizes of reads, other traffic on the receiver, outcomes of handlers; for the last sentence all fair infinite executions.", "why_tests_cant": "Needs two ends, every split of the stream into reads and every schedule of at least four goroutines; a test samples a few.", "anchors": ["znet/connection.go:193-223", "znet/connection.go:241-287", "znet/connection.go:372-463", "znet/msghandler.go:255-305", "znet/msghandler.go:412-444", "zinterceptor/framedecoder.go:494-598"]}
{"id": "C85", "title": "The writer goroutine of a stopped connection ends", "statement": "Once a connection has been stopped, the goroutine that writes its buffered messages, whenever it was or is started, ends and does not run again: whatever it is doing at that moment (waiting, flushing, writing a message of any size, waiting for the lock), whether the queue is full, empty or closed, whether the network works or not, and whatever senders do. So no goroutine is left over from connections that have come and gone.", "quantifier": "For all queue and buffer sizes, messages, numbers of senders, moments of stopping, and all infinite executions in which writes return, whoever holds the lock goes on, and a goroutine that could go on again and again does.", "why_tests_cant": "A leaked goroutine shows in no output, and one that leaks only under a rare schedule does not show in a leak detector either.", "anchors": ["znet/connection.go:193-223", "znet/ws_connection.go:185-206", "znet/kcp_connection.go:189-211"]}
{"id": "C86", "title": "A send call has one outcome, and it is about its own message", "statement": "Seen from a goroutine that sends, calls and returns alternate. A buffered send that returns nil has put exactly the message it was called with on the queue, once, and has written nothing itself. A direct send writes only bytes of its own message, from its beginning, in order and without repetition; if it returns nil it has written all of them. A send that returns an error has queued nothing.", "quantifier": "For all messages, numbers of goroutines, queue sizes, network failures, stops and interleavings, for TCP, WebSocket and KCP connections.", "why_tests_cant": "Mixing up the messages of two callers needs a particular interleaving; tests with one sender cannot show it.", "anchors": ["znet/connection.go:373-463", "znet/ws_connection.go:349-461", "znet/kcp_connection.go:351-452"]}
{"id": "C87", "title": "Routes may be added while messages are handled", "statement": "Routes may be registered at any moment, by any goroutine, also while workers look up handlers. Registering a route never ends the process. A lookup finds the handlers registered for its ID if the registration returned before the lookup began, and none if no registration began. Of several registrations of one ID exactly one succeeds and the others are refused, and a route has the handlers of the one that succeeded.", "quantifier": "for all IDs, handlers, numbers of goroutines and interleavings, for both kinds of routes", "why_tests_cant": "Routes are usually added before Start, so tests do not add them under load, and concurrent use of a Go map is detected only under particular schedules.", "anchors": ["znet/msghandler.go:319-366", "znet/msghandler.go:383-401", "znet/router.go:59-77"]}
{"id": "C88", "title": "Timer functions are called once each and do not get in each other's way", "statement": "With the automatic scheduler and timers made with NewDelayFunc (also with a nil function), the function of each timer begins at most once, and only after the timer was created and collected as due. Functions are started in the order in which the timers were collected. Every collected timer's function does begin, and the scheduler always comes to its next poll, even if other functions panic or never return. A timer cancelled before it was collected is never called. No panic of a timer function ends the process.", "quantifier": "for all timers, functions, channel capacities above 0, moments of creating and cancelling, and all executions; the calling part for all infinite executions in which the two goroutines of the scheduler and the started goroutine go on whenever they can", "why_tests_cant": "A test runs a few functions that end; functions that block for ever, a full trigger channel and every interleaving of the goroutines cannot be enumerated.", "anchors": ["ztimer/timerscheduler.go:64-135", "ztimer/delayfunc.go:40-50"]}
{"id": "C89", "title": "WebSocket handshakes are answered once and for the request they answer", "statement": "Whatever handshakes run at the same time, each is answered at most once: no connection at the limit, 401 exactly if authentication fails, an error if it is no proper handshake, and otherwise an upgrade, after which, and only then, one connection is made. A client that offers subprotocols gets the first one it offered, one that offers none gets none, and no client gets one it did not offer.", "quantifier": "for all requests, authentication functions, numbers of handshakes and interleavings", "why_tests_cant": "The result depends on how the steps of handshakes in different goroutines interleave; tests make one handshake at a time.", "anchors": ["znet/server.go:317-360", "znet/server.go:149-154"]}
{"id": "C90", "title": "Calls of the connection manager and the sharded map return", "statement": "Every call of the connection manager, the notify table or the sharded map (Add, Remove, Get, Len, Set, Has, Pop, RemoveCb, Count, Range, IterCb, NotifyAll) returns, whatever calls other goroutines make at the same time, whatever callbacks of Range do with the map, and however long one of them takes. No shard is written while another goroutine reads or writes it.", "quantifier": "for all numbers of shards, goroutines and calls, and all infinite executions in which goroutines go on when they can and waiting writers get their turn", "why_tests_cant": "Deadlocks of this kind need a writer to arrive in the short time between two read locks of one goroutine.", "anchors": ["zutils/shard_lock_map.go:45-145", "zutils/shard_lock_map.go:262-273", "znet/connmanager.go:99-124", "znotify/notify.go:77-112"]}
{"id": "C91", "title": "WebSocket connections from end to end", "statement": "Between two zinx endpoints joined by a WebSocket connection with the same length-field decoder (TLV or LTV): whatever direct and buffered sends are made by any number of goroutines, in any mixture, the router of the receiver handles a sequence of messages each of which equals, in ID and data, a message given to a send; it handles them in the order in which they were written, each once, and never begins one before the one before it has ended; at most the last of them belongs to a send that did not return nil. If the connection is not stopped and the network works, every message whose buffered send returned nil and every message whose direct send returned nil is handled.", "quantifier": "all numbers of senders, mixtures of direct and buffered sends, messages, schedules, ways of cutting the stream into reads, other connections sharing the workers, points at which the sender stops or the network fails", "why_tests_cant": "The claim joins four goroutines on two machines and the cutting of a byte stream at arbitrary places; a test sees a few schedules and a few message sizes.", "anchors": ["znet/ws_connection.go:185-274", "znet/ws_connection.go:347-463", "znet/msghandler.go:171-330"]}
{"id": "C92", "title": "KCP connections from end to end", "statement": "Between two zinx endpoints joined by a KCP connection with the same length-field decoder (TLV or LTV): the router of the receiver handles a sequence of messages each of which equals, in ID and data, a message given to a send, in the order in which they were written, each once, one after the other. If the connection is not stopped and the network works, every message whose send returned nil is handled, and the buffered ones in the order in which they were queued.", "quantifier": "all numbers of senders, mixtures of the four kinds of sends, messages, schedules, ways of cutting the stream into reads, other connections sharing the workers, points at which the sender stops or the network fails", "why_tests_cant": "Losing or swapping messages needs two goroutines that use buffered sends for the first time at the same moment, a window of a few instructions.", "anchors": ["znet/kcp_connection.go:189-281", "znet/kcp_connection.go:351-455", "znet/msghandler.go:171-330"]}
{"id": "C93", "title": "Servers in one process do not influence each other", "statement": "Several servers created in one process with NewServer, NewUserConfServer, NewDefaultRouterSlicesServer or NewUserConfDefaultRouterSlicesServer, each with its own settings, are independent: what a server answers to AddRouter and Start, which listeners it opens, which connections it accepts and to which worker it gives them, by which handler a message of a connection is handled, how the end of a connection goes, when a connection counts as dead and which packets are too long, is possible also in a process in which only this server was created and used.", "quantifier": "all initial configurations, all sequences of creations of servers and calls on them and events at their connections, all choices of workers, all servers", "why_tests_cant": "Tests create one server per process, or several with equal settings; the influence shows only for particular pairs of settings and orders of creation and use.", "anchors": ["znet/server.go:127-220", "znet/server.go:423-489", "znet/msghandler.go:54-104", "znet/msghandler.go:160-273", "znet/msghandler.go:446-460", "zconf/userconf.go:9-143", "znet/connection.go:543-551"]}
{"id": "C94", "title": "WebSocket listeners of one process keep apart", "statement": "In a process with several servers that listen for WebSocket connections, each at its own address: starting them does not end the process with a panic; and a handshake request that arrives at the address of a server is answered by this server, if the path of the request lies under the path of the server, and by no server otherwise.", "quantifier": "all numbers of servers, addresses, paths and request paths, all orders of starts, stops, registrations, listens and requests", "why_tests_cant": "Tests start one WebSocket server per process; the panic and the wrong server need two servers or a second start, and depend on the pairs of paths.", "anchors": ["znet/server.go:316-362", "znet/server.go:423-460"]}
{"id": "C95", "title": "Players who come, move and go at the same time", "statement": "In the multiplayer demo, whatever the order in which players connect, move and disconnect: no connection hook and no move handler panics; when no hook or handler is running, every online player is listed in the grid of its position and in no other, and a player who is not online is listed nowhere; a player whose connection has ended and whose hook has returned is not online.", "quantifier": "all numbers of players, all grids and moves, all interleavings of the hooks and handlers of all players at the granularity of accesses under one lock", "why_tests_cant": "Tests connect a few clients that stay; the races between a departure and another player's look around, or between a departure and the player's own move, take two goroutines a few instructions apart.", "anchors": ["zinx_app_demo/mmo_game/server.go:16-68", "zinx_app_demo/mmo_game/core/player.go:87-150", "zinx_app_demo/mmo_game/core/player.go:177-389", "zinx_app_demo/mmo_game/core/world_manager.go:27-94", "zinx_app_demo/mmo_game/core/grid.go:30-57", "zinx_app_demo/mmo_game/api/move.go:19-47"]}
{"id": "C96", "title": "Keys spread over the shards", "statement": "The default hash of the sharded map is 32-bit FNV-1: offset basis 2166136261, each byte first multiplies by 16777619 modulo 2^32 and is then xored in. Keys that differ in exactly one byte have different sums. In a map with 32 shards such keys share a shard exactly if the two bytes agree in their low five bits. Hence no shard of the connection manager ever holds two connections whose IDs differ only in the last decimal digit, and while all IDs are below 10*q no shard holds more than q connections.", "quantifier": "all keys, all histories of the connection manager, all IDs", "why_tests_cant": "All pairs of keys: 256^n of them.", "anchors": ["zutils/hash.go:Fnv32Hash.Sum", "zutils/shard_lock_map.go:GetShard", "znet/connmanager.go"]}
{"id": "C97", "title": "The logger follows the configuration", "statement": "When a process starts, when a configuration file is loaded again, and when a server is created with a user configuration, the standard logger afterwards works by the global configuration: it writes to LogFile in LogDir (to the console if there is none), repeats lines on the console as LogCons says, keeps files for LogSaveDays days (31 if not set) up to LogFileSize bytes each (64 MiB if not set), and suppresses messages below LogIsolationLevel.", "quantifier": "all configuration files, all user configurations, all sequences of loading and applying them", "why_tests_cant": "The combinations of settings, and what an earlier configuration left behind.", "anchors": ["zconf/zconf.go:Reload", "zconf/zconf.go:InitLogConfig", "zconf/userconf.go:UserConfToGlobal", "zlog/logger_core.go:SetLogFile", "zutils/witer.go:New"]}
{"id": "C98", "title": "Log output survives failing file operations", "statement": "When file operations of the log writer fail (opening, renaming, zipping, writing), no line is lost for which Write returned no error, lines for which it returned an error are shown on the console, and writing goes on as soon as the file operations succeed again.", "quantifier": "all histories of Write, Close and the flushing goroutine, all clocks, all combinations of failing operations", "why_tests_cant": "A test would have to make each single file operation fail at each time.", "anchors": ["zutils/witer.go:Write", "zutils/witer.go:rotate", "zutils/witer.go:ZipToFile"]}
{"id": "C99", "title": "Two endpoints keep each other alive", "statement": "If both ends of a connection have a heartbeat checker, and for each end the other end's interval together with the delays of starting, checking, sending and reading stays below its HeartbeatMax, neither end ever takes the other one for dead while the network works. Once the network is cut, each end notices within its HeartbeatMax plus its interval plus the time a check takes. If the intervals are not below HeartbeatMax, the first check ends the connection.", "quantifier": "all intervals, limits and bounds, all interleavings of checks, deliveries and the passing of time", "why_tests_cant": "The two timers drift against each other, and the failure needs the worst of all delays at once.", "anchors": ["znet/heartbeat.go:start", "znet/heartbeat.go:check", "znet/connection.go:IsAlive", "znet/connection.go:updateActivity", "zconf/zconf.go:HeartbeatMaxDuration"]}
{"id": "C100", "title": "Fields shared by goroutines are accessed without data races", "statement": "Any two accesses of one field of a connection, the connection manager, a request, the logger, the log writer, a time wheel, the timer scheduler, an ID worker, a shard of the map, the worker tables, the client, or a grid or player of the demo, of which one writes, are ordered by the happens-before relation of the Go memory model, whatever methods the user's goroutines call beside those of the framework.", "quantifier": "all executions of the goroutines of a server and any number of goroutines of the user, all interleavings, for TCP, WebSocket and KCP connections", "why_tests_cant": "The race detector sees only the schedules that a test happens to run.", "anchors": ["znet/connection.go:33-120", "znet/ws_connection.go:29-105", "znet/kcp_connection.go:29-105", "znet/request.go:29-235", "zlog/logger_core.go:100-430", "zutils/witer.go:25-227", "ztimer/timewheel.go:30-223"]}
{"id": "C101", "title": "Goroutines do not wait for each other's locks in a circle", "statement": "Whatever methods of a connection and of the connection manager the user calls in hooks, handlers, close callbacks, functions given to Range and goroutines of their own, no group of goroutines ever comes to a point where each waits for a lock that another one of the group holds (or waits to write). The same holds for the timer scheduler with its wheels, the logger with its file writer, and the tables of free workers.", "quantifier": "all executions of the goroutines of a server and any number of goroutines of the user, all groups of goroutines, for TCP, WebSocket and KCP connections", "why_tests_cant": "A deadlock needs two goroutines to hold their first locks at the same moment, and a test that hits it does not end.", "anchors": ["znet/ws_connection.go:497-547", "znet/kcp_connection.go:486-533", "znet/connection.go:498-527", "znet/connmanager.go:99-125", "zutils/shard_lock_map.go:262-273", "ztimer/timewheel.go:85-223", "ztimer/timerscheduler.go:65-92", "zlog/logger_core.go:197-240"]}
{"id": "C102", "title": "A peer that does not read holds up only those who send to it", "statement": "If the peer of a connection stops reading, so that writes to it do not return, only goroutines that send to this connection wait. The server goes on accepting connections, connections can be looked up and removed, and the connection can be stopped and is then closed and removed.", "quantifier": "all executions of the goroutines of a server and any number of goroutines of the user, for TCP, WebSocket and KCP connections", "why_tests_cant": "Tests use peers that read; a peer that stops reading at the worst moment has to be made on purpose, and its effect is that something does not happen.", "anchors": ["znet/connection.go:498-527", "znet/ws_connection.go:400-423", "znet/ws_connection.go:497-547", "znet/kcp_connection.go:351-365", "znet/kcp_connection.go:486-533", "znet/connmanager.go:99-125", "zutils/shard_lock_map.go:262-273", "znet/server.go:270-305"]}
{"id": "C103", "title": "Log lines and panic reports name the right places", "statement": "A log line that shows file and line shows those of the call that logged it, whichever of the logger's entry points was used; the report of RouterRecovery contains the line at which the handler panicked and names each function by its name, and making the report does not itself panic.", "quantifier": "every entry point, every call stack, every function name, panics by panic(v), index and nil pointer", "why_tests_cant": "Call depths are counted by hand per entry point, and names depend on the import path of the user's package.", "anchors": ["zlog/logger_core.go:OutPut", "zlog/stdzlog.go:init", "zlog/default.go:zinxDefaultLog", "znet/defaultrouterfunc.go:getInfo", "znet/defaultrouterfunc.go:RouterRecovery"]}
{"id": "C104", "title": "A log hook may keep the line it was given", "statement": "The bytes passed to the log hook are exactly the line, and a hook that keeps them and looks at them later, after other lines were logged, still finds that line.", "quantifier": "all lines, split in all ways into writes, all capacities of the buffer, all histories", "why_tests_cant": "Whether kept bytes are overwritten depends on the lengths of later lines and on when the buffer grows.", "anchors": ["zlog/logger_core.go:OutPut", "zlog/logger_core.go:SetLogHook"]}
{"id": "C105", "title": "Every request gets at most one reply, and replies come in the order of the requests", "statement": "A client sends messages on a TCP connection (all with SendBuffMsg or all with SendMsg); the server's handlers answer on the connection of the request, at most once each, all in the same way. Then the messages the client receives are replies to different requests, each what the handler made of that request, in the order of the requests; a reply whose send returned nil is not lost before a later one arrives. As long as every handler replies and the client and server stay connected, the i-th message the client receives and handles is the reply to its i-th request.", "quantifier": "all messages, replies, ways of sending, queue and buffer sizes, schedules, sizes of reads, other traffic at the server, network failures and stops", "why_tests_cant": "Needs both directions of a connection with every schedule of client, server reader, worker, writers and client reader.", "anchors": ["znet/connection.go:193-223", "znet/connection.go:241-287", "znet/connection.go:372-463", "znet/msghandler.go:255-274", "znet/msghandler.go:412-444", "znet/client.go"]}
{"id": "C106", "title": "What was logged before the process ends is in the log file", "statement": "Whenever the process ends - by Fatal, by a panic nobody recovers, or because main returns after Serve - the log files hold every line logged to them before, in order, and in particular the line that says why the process ends.", "quantifier": "all histories of log calls with any settings, changes of log file, console and limits, flushes of the writer's goroutine, and all moments of the end", "why_tests_cant": "What is missing depends on where the 4096-byte buffer and the five-second flush happen to be when the process ends; a test of Fatal has to end its own process and then usually looks at the console only.", "anchors": ["zlog/logger_core.go:197-240", "zlog/logger_core.go:302-335", "zutils/witer.go:62-66", "zutils/witer.go:92-166", "zutils/witer.go:202-227", "znet/server.go:463-472"]}
{"id": "C107", "title": "Completion callbacks are run, once, on the worker of their connection", "statement": "A handler starts an asynchronous operation with zasync_op.Process and registers a callback with OnComplete on its result. Whatever the order of the end of the operation and of OnComplete, and whatever other handlers, callbacks, connections and operations do in between: the callback is run exactly once, by the worker that runs the handlers of the result's connection, so that it never overlaps with them; it is run provided that operations end, handlers and callbacks return and the scheduler is fair.", "quantifier": "all numbers of workers, queue capacities and worker modes, all interleavings of readers, workers, handlers, callbacks and operations, all fair infinite executions", "why_tests_cant": "The failing schedules need a full task queue at the moment a handler registers a callback, or two connections sharing an extra worker number; a client needs to use asynchronous operations at all. Absence of overlap and eventual execution are about all schedules and infinite executions.", "anchors": ["zasync_op/async_op_result.go:37-79", "zasync_op/async_op.go:48-59", "zasync_op/async_worker.go:15-50", "znet/msghandler.go:160-250", "znet/msghandler.go:254-305", "znet/msghandler.go:403-460"]}
{"id": "C108", "title": "The caller of a send may reuse its buffer", "statement": "When a send call (Send, SendMsg, SendBuffMsg or SendToQueue, on any kind of connection) has returned, the caller may write to the slice it passed: what is transmitted for the call is the packed form of what the slice contained when it was passed, and messages are transmitted in the order of the calls, whenever the writer goroutine gets to them.", "quantifier": "all data packs, all buffers and contents, any number of connections, all interleavings of senders, writes to the buffers and writer goroutines", "why_tests_cant": "The writer goroutine normally empties its queue at once, so a test that changes its buffer after a call will mostly see the old contents; which contents are transmitted depends on the schedule.", "anchors": ["znet/connection.go:193-225", "znet/connection.go:373-464", "znet/ws_connection.go:185-206", "znet/ws_connection.go:349-464", "znet/kcp_connection.go:189-210", "znet/kcp_connection.go:351-452", "zpack/datapack_tlv_bigendian.go:31-52", "zpack/datapack_ltv_littleendian.go:32-53"]}
{"id": "C109", "title": "A request holds its message for as long as it is used", "statement": "With the worker pool: whenever a handler reads the message of its request, it finds the message that was sent at that place in the queue of its worker, and whenever an interceptor reads the message of its request, it finds the message that was read last on its connection, before it proceeds and after it has, although request objects are used again for other connections (RequestPoolMode).", "quantifier": "all interleavings of any number of readers, interceptors and workers; pool or no pool; all choices of sync.Pool; interceptors that do not proceed, proceed once or proceed several times; handlers that return, panic or are missing", "why_tests_cant": "which object sync.Pool gives is not under the control of a test, and two users of one object meet only if a reader, an interceptor that has proceeded and a worker interleave in a particular way", "anchors": ["znet/request.go:62-98", "znet/msghandler.go:252-305", "znet/msghandler.go:312-345", "znet/msghandler.go:371-401", "zinterceptor/chain.go"]}
{"id": "C110", "title": "Message workers and asynchronous workers do not hold each other up for ever", "statement": "Whatever is put on the task queue of a message worker or of an asynchronous worker is taken from it some time, if handlers, operations and callbacks return: handlers that start operations (Process) and operations that submit completion callbacks (SetReturnedObj) do not wait for room on each other's queues for ever.", "quantifier": "all fair executions of any number of message workers and asynchronous workers, queues of any capacity, handlers, operations and callbacks that send any number of times to any queue", "why_tests_cant": "the queues have room for thousands of elements; a circle of waits needs all of them full at once, under load no unit test produces, and a test that hangs does not say why", "anchors": ["zasync_op/async_op.go:48-87", "zasync_op/async_worker.go:15-50", "zasync_op/async_op_result.go:37-79", "znet/msghandler.go:299-305", "znet/msghandler.go:412-442"]}
{"id": "C111", "title": "A stopped server can be started again", "statement": "A server is started and stopped any number of times, each call after the one before has returned. Then every start listens at the port and does not end the process; every Stop returns, its listener is closed and the port is free again; and the goroutine that accepted connections ends.", "quantifier": "all numbers of calls and all schedules of the calling, listening and accepting goroutines, TCP and KCP", "why_tests_cant": "Whether the second start finds the port free depends on the schedule: Stop returns before the listener has been closed; that a goroutine never ends is no observation of a test.", "anchors": ["znet/server.go:ListenTcpConn", "znet/server.go:ListenKcpConn", "znet/server.go:Start", "znet/server.go:Stop"]}
{"id": "C112", "title": "A handler that does not return holds up only its own connection", "statement": "If the handling of a message of one connection never ends, the messages of every other connection are still all handled.", "quantifier": "all executions in which workers and readers are scheduled fairly, all sets of requests the handling of which never ends, all assignments of connections to workers, all queue capacities", "why_tests_cant": "A test sees a handler that is slow for a while and connections that happen to have different workers; which connections share a worker depends on connection numbers, and 'never' cannot be observed.", "anchors": ["znet/msghandler.go:255-274", "znet/msghandler.go:299-305", "znet/msghandler.go:185-227", "znet/msghandler.go:411-445"]}
{"id": "C113", "title": "World chat: everyone who stays hears every line once, in the same order", "statement": "In the demo game, a line that the server takes from a player reaches every player who is online then and stays, exactly once, and all players hear the lines in the same order.", "quantifier": "all executions: any number of players who join, speak, leave and are cut off at any time, all assignments of connections to workers, all orders in which the table is iterated", "why_tests_cant": "The order in which two listeners are served by two workers, and a speaker who leaves between two instructions of a handler, are matters of scheduling that a test does not control.", "anchors": ["zinx_app_demo/mmo_game/api/world_chat.go:19-45", "zinx_app_demo/mmo_game/core/player.go:126-147", "zinx_app_demo/mmo_game/core/world_manager.go:29-76"]}
{"id": "C114", "title": "Endpoints set up the same way understand each other", "statement": "A server and a client whose packing (WithPacket, WithPacketClient, SetPacket) and decoder (SetDecoder) were chosen by the same calls before Start give their routers exactly the messages the other side sent. Exactly which combinations of packing, decoder and Start calls achieve this is part of the claim.", "quantifier": "all sequences of SetPacket, SetDecoder and Start on both sides, all packings and decoders shipped, all messages, all ways of cutting the stream", "why_tests_cant": "The combinations of calls, messages and cuts are unbounded, and a wrong combination shows only for particular IDs and lengths.", "anchors": ["znet/options.go:WithPacket", "znet/server.go:Server.SetPacket", "znet/server.go:Server.SetDecoder", "znet/server.go:Server.Start", "znet/client.go:Client.Start", "znet/client.go:Client.SetDecoder", "zpack/packfactory.go:pack_factory.NewPack", "znet/connection.go:newServerConn"]}
{"id": "C115", "title": "A message arrives as it was last set", "statement": "A message made by NewMsgPackage and changed by any calls of Init, SetMsgID, SetData and SetDataLen is, once packed and received, given to the router with the ID and the data set last, and the messages behind it are not affected.", "quantifier": "all sequences of calls, all data below 2^32-8 bytes, both packings, all ways of cutting the stream, all that follows", "why_tests_cant": "The sequences of calls and the streams behind the message are unbounded.", "anchors": ["zpack/message.go:Message.Init", "zpack/message.go:Message.SetData", "zpack/message.go:Message.SetDataLen", "zpack/datapack_tlv_bigendian.go:DataPack.Pack", "zpack/datapack_ltv_littleendian.go:DataPackLtv.Pack"]}
{"id": "C116", "title": "The end of a connection leaves nothing behind", "statement": "After a connection has been stopped (by Stop, by its peer, by the heartbeat), the goroutine of Start, the reader and a worker that was made for it end, every message read before that is handed to its handler once, in order, and nothing else is harmed: no panic, and the process goes on. Exactly when this fails: with a worker made for the connection (dynamic binding), freeWorker closes the queue while the reader may still have messages in hand; exactly those are lost, and with a WebSocket connection exactly then the process ends. If the stop hook panics, such a worker (and the reader of a silent peer) stays for ever; with a worker of the pool, a handler that does not return, even of another connection, keeps the reader.", "quantifier": "all executions of reader, Start goroutine, worker, callers of Stop and other connections, all queue capacities, all ways in which reads split into messages, TCP, WebSocket and KCP, worker of the pool or of the connection", "why_tests_cant": "the loss and the crash need the close of the queue to fall between two sends of the reader, a window of microseconds; that everything ends is a statement about all fair schedules", "anchors": ["znet/msghandler.go:220-252 freeWorker, 403-445 StopOneWorker, StartOneWorker", "znet/msghandler.go:299-305 SendMsgToTaskQueue", "znet/connection.go:226-324 StartReader, Start, 498-527 finalizer", "znet/ws_connection.go:210-305", "znet/kcp_connection.go:214-310"]}
{"id": "C117", "title": "A server that is told to end by a signal shuts down", "statement": "When Serve returns because the process has been told to end (SIGINT, SIGTERM), the server has been shut down: every connection has been stopped and its stop hook has run.", "quantifier": "all modes, all executions, any connections in any state when the signal comes", "why_tests_cant": "a test process does not send itself signals in every state of every connection, and what Serve leaves undone cannot be seen after the process has ended", "anchors": ["znet/server.go:463-472", "znet/server.go:452-460", "znet/connmanager.go:63-77", "znet/connection.go:498-528"]}
{"id": "C118", "title": "Starting a server again leaves workers and messages as they were", "statement": "When a stopped server is started again, the messages of every connection, also of one that is still being served, are handled once each, in the order in which they were read, one at a time, and the number of worker goroutines stays WorkerPoolSize.", "quantifier": "all pool sizes, queue capacities, assignments of workers, numbers of starts, all interleavings of starts, readers and workers", "why_tests_cant": "needs a second Start to fall between two messages of one read, and the order of two goroutines after that; that every message is handled is a statement about all fair schedules", "anchors": ["znet/msghandler.go:446-460 StartWorkerPool", "znet/msghandler.go:298-305 SendMsgToTaskQueue", "znet/msghandler.go:415-444 StartOneWorker", "znet/server.go:420-450 Start"]}
{"id": "C119", "title": "An iterator of the sharded map that is given up leaves nothing behind", "statement": "IterBuffered returns, and every goroutine it has started ends, gives back the lock of its shard and closes its channel, whether the caller reads everything, a part or nothing from the channel it was given: no goroutine of it ever waits for the reader. What is read of a shard is, in order, the beginning of what the shard held at one moment between call and return, and all of it once the channel is closed and empty; a caller that goes on reading gets there. There is no panic.", "quantifier": "all numbers and contents of shards, all concurrent updates, all interleavings, readers that stop reading at any point; for the end, all fair schedules in which writers give the shard locks back", "why_tests_cant": "that no goroutine is left blocked after a reader has given up is a statement about all schedules and all times; a test sees a leak only if it counts goroutines after the one interleaving it happened to run", "anchors": ["zutils/shard_lock_map.go:169-187 snapshot", "zutils/shard_lock_map.go:190-203 fanIn", "zutils/shard_lock_map.go:206-215 IterBuffered"]}
{"id": "C120", "title": "Setting ShardCount does not disturb maps that exist", "statement": "ShardCount is an exported variable that a program may set at any time. Setting it has no effect on sharded maps made before: their keys are still found, Count counts them, and IterBuffered, Items and Clear go through all of them.", "quantifier": "all numbers of shards, all new values, all hash functions and keys, all histories; for IterBuffered all interleavings with concurrent updates", "why_tests_cant": "which keys are lost depends on the hash of every key modulo both numbers; that a call never returns cannot be seen in finite time", "anchors": ["zutils/shard_lock_map.go:8 ShardCount", "zutils/shard_lock_map.go:45-47 GetShard", "zutils/shard_lock_map.go:50-59 Count", "zutils/shard_lock_map.go:169-187 snapshot"]}
{"id": "C121", "title": "UnmarshalJSON of a sharded map reverses MarshalJSON", "statement": "What MarshalJSON gives for a sharded map, given to UnmarshalJSON of a ShardLockMaps, gives a map with the same keys and the values as encoding/json gives them back; text that cannot be decoded gives an error and changes nothing; there is no panic.", "quantifier": "all maps, all histories of both maps, all orders of iteration, every JSON library that keeps keys", "why_tests_cant": "contents and receivers are unbounded; the zero value as a receiver is easily forgotten", "anchors": ["zutils/shard_lock_map.go:275-282 MarshalJSON", "zutils/shard_lock_map.go:285-297 UnmarshalJSON"]}
{"id": "C122", "title": "The robots of the demo walk, and go when they are done", "statement": "A robot of the demo (TcpClient) handles exactly the messages the server sent it, and the server those of the robot, whatever the cuts of the stream; every position it sends lies in the rectangle of the world; it acts in one loop; Start returns ten seconds after it was last told its position, and after that none of its goroutines is left.", "quantifier": "all messages, all cuts of the stream, all random choices, all orders in which the reader, the caller of Start, the timer and the server act", "why_tests_cant": "a goroutine that waits for ever on a channel nobody reads is seen by no test of the messages; it depends on the moment at which the timer goes off", "anchors": ["zinx_app_demo/mmo_game/client_AI_robot.go:TcpClient.Start", "zinx_app_demo/mmo_game/client_AI_robot.go:TcpClient.DoMsg", "zinx_app_demo/mmo_game/client_AI_robot.go:TcpClient.AIRobotAction", "zinx_app_demo/mmo_game/client_AI_robot.go:TcpClient.Unpack", "zinx_app_demo/mmo_game/client_AI_robot.go:TcpClient.Pack", "zinx_app_demo/mmo_game/core/player.go:Player.SyncSurrounding"]}
{"id": "C123", "title": "The log is in the order of time", "statement": "The lines of the log, in the order in which they are written, bear times that do not decrease: a line written later does not say an earlier time, as long as the clock does not go back.", "quantifier": "all numbers of goroutines, all log calls and changes of settings, all interleavings", "why_tests_cant": "two calls must be made at almost the same moment and get the lock in the other order", "anchors": ["zlog/logger_core.go:ZinxLoggerCore.OutPut"]}
{"id": "C124", "title": "A read buffer of any size will do", "statement": "Whatever IOReadBuffSize is configured, a TCP or KCP connection that is not stopped reads everything its peer sends, in order and in pieces no longer than the buffer, so that the same messages are decoded; and a TCP connection notices that its peer has gone.", "quantifier": "all sizes of the buffer, all streams, all sizes of the reads that the library returns, all interleavings of arrival, hang-up, Stop and the reader", "why_tests_cant": "the sizes 0 and 1 are not tried, and a reader that is busy for ever looks like one that waits", "anchors": ["znet/connection.go:Connection.StartReader", "znet/kcp_connection.go:KcpConnection.StartReader", "zconf/zconf.go:Config.IOReadBuffSize", "zconf/zconf.go:Config.Reload"]}
{"id": "C125", "title": "A panic in a function of the user is contained", "statement": "If a function the user has given to the library panics (router and slice handlers, interceptors, connection hooks, close callbacks, functions of the heartbeat, Pack, asynchronous operations and their callbacks, timer functions, the WebSocket check, callbacks of Range and of the sharded map, the log hook), the process goes on and no lock of the library stays locked.", "quantifier": "all sets of functions that may panic, all goroutines of the library and all calls that take a callback, all points at which they are called and all numbers of calls", "why_tests_cant": "the effect depends on the goroutine the function happens to run in and on the transport; a test that panics there ends with the process", "anchors": ["znet/msghandler.go:MsgHandle.doMsgHandler", "znet/connection.go:Connection.Start", "znet/connection.go:Connection.StartReader", "znet/ws_connection.go:WsConnection.Start", "znet/ws_connection.go:WsConnection.StartReader", "znet/kcp_connection.go:KcpConnection.Start", "znet/heartbeat.go:HeartbeatChecker.check", "zutils/shard_lock_map.go:ShardLockMaps.IterCb", "zutils/shard_lock_map.go:ShardLockMaps.RemoveCb", "znet/connmanager.go:ConnManager.Range", "zlog/logger_core.go:ZinxLoggerCore.OutPut", "zasync_op/async_worker.go:AsyncWorker.process", "ztimer/delayfunc.go:DelayFunc.Call"]}
{"id": "C126", "title": "Listing the keys of a sharded map returns, while the map is changed", "statement": "Keys returns, whatever other goroutines add and remove during the call and however many keys there are compared with what Count said at its beginning. Its result has, of each shard, the keys the shard held at one moment of the call, each once, and no others. When it has returned all goroutines it has started have given back the lock of their shard and ended. There is no panic.", "quantifier": "all numbers and contents of shards, all results of Count (right or not), all concurrent updates, all interleavings; for the return, all fair schedules in which writers give the shard locks back", "why_tests_cant": "the channel is made for a number of keys that may be out of date when it is used; whether goroutines that hold locks can then wait for each other for ever is a question about all schedules and all times", "anchors": ["zutils/shard_lock_map.go:229-254 Keys"]}
{"id": "C127", "title": "Heartbeats are handled by the functions given for them", "statement": "After StartHeartBeatWithOption on a server or client, heartbeats carry the message ID of the option and the data its MakeMsg makes, and those that arrive are handled by exactly the router (or, in slice mode, the handlers) of the option; routes for other messages are unchanged.", "quantifier": "every option, every mode, every set of routes already there, with and without an option", "why_tests_cant": "The settings interact: an ID without a router, a router with the default ID, slice mode and the client's plain table are each silently treated differently, and a test tries one combination.", "anchors": ["znet/server.go:533-582", "znet/client.go:209-244", "znet/heartbeat.go:91-103", "znet/msghandler.go:269-273"]}
{"id": "C128", "title": "The device server of the decoder example answers each frame with a correct frame", "statement": "For every sequence of correct frames that devices send to the server of examples/zinx_decoder/bili, however cut into reads, each frame whose function code has a router is answered, in order, with one correct frame that repeats the device's number; a device that reads the replies with the HTLV decoder finds exactly these frames.", "quantifier": "all sequences of frames with bodies of up to 254 bytes, all function codes and heads, all ways of cutting requests and replies into reads, all further bytes", "why_tests_cant": "Tests send the sample frame and look at the bytes of one reply; whether a reply is a frame for all bodies, and what a reader makes of the replies after a malformed one, depends on lengths, slices with spare capacity and the checksum of every stream.", "anchors": ["examples/zinx_decoder/bili/main.go:16-38", "examples/zinx_decoder/bili/router/bili0x10router.go:34-64", "examples/zinx_decoder/bili/router/bili0x13router.go:33-61", "examples/zinx_decoder/bili/router/bili0x14router.go:33-40", "examples/zinx_decoder/bili/router/bili0x15router.go:33-223", "examples/zinx_decoder/bili/router/bili0x16router.go:35-42"]}
{"id": "C129", "title": "A WebSocket client may use frames as it likes", "statement": "Whatever a client does with its stream of packed messages - cutting it into WebSocket messages at any place, sending these as text or binary, in one frame or in many, and putting pings and pongs between the frames - the router is given exactly the messages that were packed, in order, and the connection goes on. Without a frame decoder each WebSocket message is given to the router as one message.", "quantifier": "all lists of messages (TLV and LTV, data below 2^32-8 bytes), all ways of cutting them into WebSocket messages and frames, all pings and pongs in between, all unfinished ends", "why_tests_cant": "Browsers and libraries cut messages in their own ways; tests use one client library, which sends each message in one frame and no pings.", "anchors": ["znet/ws_connection.go:210-272", "zinterceptor/framedecoder.go", "zdecoder/tlvdecoder.go", "zdecoder/ltvdecoder_little.go"]}
{"id": "C130", "title": "A WebSocket client that pings stays connected", "statement": "A WebSocket connection with a heartbeat checker is declared dead by a check exactly if it is closed or nothing - no message, no part of one, no ping - has arrived from the client for HeartbeatMax, provided that the reader reads what arrives at once.", "quantifier": "all settings of HeartbeatMax that fit 64-bit nanoseconds, all sequences of frames and all times of arrival, all checks", "why_tests_cant": "Needs clients that send only pings, or long messages slowly, for longer than HeartbeatMax; the client of zinx sends neither.", "anchors": ["znet/ws_connection.go:210-245", "znet/ws_connection.go:563-575", "znet/heartbeat.go:104-156"]}
{"id": "C131", "title": "Nobody waits longer than a second before the next attempt", "statement": "However many listeners and WebSocket handshakes of a process fail and succeed, and in whatever order, a goroutine that calls AcceptDelay.Delay sleeps for at most one second.", "quantifier": "all numbers of goroutines calling Delay and Reset, all interleavings of their reads and writes of the duration", "why_tests_cant": "The test calls Up in one goroutine; the excess needs two goroutines whose accesses to the unprotected field interleave.", "anchors": ["znet/acceptdelay.go:11-45", "znet/server.go:278-296", "znet/server.go:322-351", "znet/server.go:382-395"]}
{"id": "C132", "title": "The configurations under which a server serves its clients", "statement": "A server that has been made and started serves its first client - the client's first message reaches its router and the process goes on - exactly if the mode opens a listener for the client's transport, MaxConn is positive, the read buffer is not empty (TCP, KCP), a certificate that is named can be loaded, with dynamic binding WorkerPoolSize does not exceed MaxConn as uint32, and the interval of a heartbeat is positive. With NewUserConfServer on the built-in settings and TCP: exactly if the user's settings do not break one of these.", "quantifier": "all values of all 36 settings of the configuration, all heartbeat intervals, all three transports, all choices of the worker", "why_tests_cant": "Tests start servers with a handful of configurations; none of them with one that cannot be served, where the process ends or nothing ever happens.", "anchors": ["znet/server.go:127-196", "znet/server.go:240-447", "znet/msghandler.go:54-217", "znet/msghandler.go:447-460", "znet/heartbeat.go:104-120", "zconf/userconf.go:9-143"]}
{"id": "C133", "title": "Interceptors may be added while messages are handled", "statement": "Whenever `AddInterceptor` is called, also while connections are served, every message passes a list of the interceptors added so far, each once and in the order of the additions, and contains every one whose addition had returned before the message was handled.", "quantifier": "all interleavings of any number of calls of AddInterceptor with the handling of messages by any number of goroutines, with the writes of append and the reads of Execute in any order", "why_tests_cant": "A test would have to hit the few instructions between the write of the length and the writes of pointer and element; under an ordinary scheduler and on x86 that practically never happens, and the race detector only sees the accesses that occur.", "anchors": ["znet/chainbuilder.go:39-41", "znet/chainbuilder.go:44-63", "znet/msghandler.go:348-350"]}
{"id": "C134", "title": "A client that connects again is watched anew", "statement": "A client with StartHeartBeat may connect again (Restart) whenever it likes, for example from its OnConnStop hook or after Stop. Each of its connections is watched for itself: OnRemoteNotAlive is called for a connection only if it was stopped or nothing was received on it for HeartbeatMax, heartbeats are sent on every connection in use, and the process does not end.", "quantifier": "all numbers of connections of one client, all interleavings of dialling, starting, stopping and receiving with the ticks and checks of the checker's goroutines", "why_tests_cant": "Tests use a client that connects once. The failures need a tick within the short time between binding the checker to the new connection and the start of that connection, or between two reads of one field.", "anchors": ["znet/client.go:115-195", "znet/client.go:212-222", "znet/heartbeat.go:105-162", "znet/connection.go:292-331", "znet/connection.go:498-506"]}
{"id": "C135", "title": "A peer cannot pile up work", "statement": "However much a peer sends and however slow the handlers are, the requests of one connection that wait or are being handled are never more than what one read gives, plus one task queue (MaxWorkerTaskLen), plus one; a read of n bytes gives at most (n + 7) / 8 requests with the shipped TLV and LTV decoders; no task queue ever holds more than MaxWorkerTaskLen requests.", "quantifier": "every assignment of connections to workers, every MaxWorkerTaskLen, every interleaving of readers, workers and other code that puts requests on queues, every sequence of reads; with a worker pool", "why_tests_cant": "Load tests measure a typical backlog with handlers that end; the bound is about the slowest handler and the most talkative peer.", "anchors": ["znet/msghandler.go:Intercept", "znet/msghandler.go:SendMsgToTaskQueue", "znet/msghandler.go:StartWorkerPool", "znet/msghandler.go:StartOneWorker", "znet/connection.go:StartReader", "zinterceptor/framedecoder.go:Decode"]}
{"id": "C136", "title": "A timer that is run calls its function once, at its time", "statement": "A timer made with NewTimerAt(f, t) or NewTimerAfter(f, d) and started with Run calls its function exactly once, not a millisecond or more before the time asked for (t, or d after the moment of the call), and may call it as soon as a millisecond has passed since then; a panic of the function is recovered.", "quantifier": "all clocks (the years 1970 to 2262, also corrected ones), moments, durations, timers run any number of times, interleavings; fair scheduling for being called", "why_tests_cant": "times are 64-bit integers that wrap and are rounded twice; tests use durations of seconds", "anchors": ["ztimer/timer.go:57-87", "ztimer/delayfunc.go:40-50"]}
{"id": "C137", "title": "A configuration file sets what it names", "statement": "When a process starts and whenever Reload is called: a configuration file that is a JSON object gives each setting it names (in upper or lower case letters) the value of the last mention, and leaves the others, also those mentioned with null, as they are; loading it again changes nothing. A file that is not there changes nothing. A file that cannot be read, is not JSON, or gives a setting a value of another type or out of range ends in a panic and changes nothing. After Reload the configuration is the same as if the process had been started with the file.", "quantifier": "all configurations, all files (any members in any order, repeated, unknown, of any type), all 36 settings", "why_tests_cant": "combinations of members, cases and types are endless; tests use files with a few well-typed members", "anchors": ["zconf/zconf.go:142-166", "zconf/zconf.go:44-120", "zconf/zconf.go:206-259"]}
{"id": "C138", "title": "A program that reads with ReadFull and Unpack receives what a connection of the library would", "statement": "A program that reads from the socket as the examples do, eight bytes with io.ReadFull, Unpack, then as many bytes as the header says, shows for any bytes that arrive, however they are cut into segments, exactly the messages (ID and data, in order) a connection of the library hands to its routers for the same bytes, with TLV and with LTV packing, and then waits for more.", "quantifier": "all byte streams shorter than 2^32, all ways of cutting them, both packings, all values of MaxPacketSize", "why_tests_cant": "byte streams and segmentations are endless; the examples are run by hand with short messages", "anchors": ["examples/zinx_version_ex/datapackDemo/server/server.go:32-60", "examples/zinx_async_op/client/client.go:26-53", "examples/zinx_new_router/client/client.go:33-63", "examples/zinx_kcp/client/kcp_client.go:30-67", "zpack/datapack_tlv_bigendian.go:56-83", "zpack/datapack_ltv_littleendian.go:57-84"]}
{"id": "C139", "title": "The library holds none of its locks while it calls a function of the user", "statement": "Whenever a goroutine of the library or a call of the library runs a function given by the user (router and slice handlers, interceptors, connection hooks, close callbacks, functions of the heartbeat, Pack, asynchronous operations and their callbacks, timer functions, the WebSocket check, callbacks of Range, IterCb and RemoveCb, the log hook), it holds no lock, so that the function may call the library without waiting for itself.", "quantifier": "all goroutines and calls of the library that run functions of the user, all sequences of such calls, all functions that panic", "why_tests_cant": "a lock that is held shows only if the function happens to call back into the library at that place", "anchors": ["znet/connection.go:498-541", "znet/ws_connection.go:400-423", "znet/ws_connection.go:497-561", "znet/kcp_connection.go:486-547", "znet/msghandler.go:162-250", "znet/heartbeat.go:105-157", "zutils/shard_lock_map.go:124-135", "zutils/shard_lock_map.go:264-273", "zlog/logger_core.go:197-240"]}
{"id": "C140", "title": "What the screens of the players show", "statement": "In the multiplayer demo, whatever the players do (arrive, give any place to move to, leave), once everything has been handled, a client that puts and moves players as messages 200 and 202 say and removes them as message 201 says shows exactly the players that are online in the grid of its own player and the grids that touch it (its own player included), each at the place it gave last.", "quantifier": "all sizes and divisions of the world, all histories of arrivals, moves and departures of any number of players, all places, all interleavings of moves", "why_tests_cant": "tests walk a few players about and look at single messages; a player shown where it no longer is takes a particular sequence of moves across grid borders", "anchors": ["zinx_app_demo/mmo_game/server.go:16-68", "zinx_app_demo/mmo_game/api/move.go:19-47", "zinx_app_demo/mmo_game/core/player.go:49-150", "zinx_app_demo/mmo_game/core/player.go:177-389", "zinx_app_demo/mmo_game/core/aoi.go:144-159", "zinx_app_demo/mmo_game/core/world_manager.go:77-94"]}
{"id": "C141", "title": "Message queues of length 0", "statement": "With MaxMsgChanLen 0, which a configuration file may set, buffered sends hand their messages to the writer goroutine without storing them. All that holds of sends with longer queues holds: each call has one outcome, about its own message; the receiver handles, unchanged, one after the other and in order, messages that were sent (TCP: buffered sends in the order of their success; WebSocket and KCP: all sends, in the order of writing). While the writer of a TCP connection runs, the bytes of all messages whose sends have returned nil are written, in the buffer of the writer or in its hands. On a connection that stays open, under a fair schedule, every message whose buffered send returned nil is handled by the receiver (KCP: if only one goroutine used buffered sends until its first was taken).", "quantifier": "all messages, numbers of senders, interleavings, ways of cutting the stream, stops and network failures, other traffic of the receiver; TCP, WebSocket and KCP", "why_tests_cant": "tests use the default length of 1024; an unbuffered channel needs sender and writer to meet, which depends on the schedule", "anchors": ["znet/connection.go:397-431", "znet/connection.go:193-223", "znet/ws_connection.go:365-461", "znet/kcp_connection.go:367-452", "zconf/userconf.go:42-44"]}
{"id": "C142", "title": "The context of a connection ends with the connection", "statement": "The context that Context() returns is done when the connection has been stopped, and not before; when the stop hook is called it is done already. On a WebSocket server it holds, under the key WsConnectionHttpReqCtxKey, the context that the request had after the authentication function, also after the request is over. Exactly when this holds is part of the claim.", "quantifier": "all connections of servers and clients, moments of calling Context and Stop, interleavings, changes of settings", "why_tests_cant": "a test calls Context in a handler; whether it is also right for a goroutine that gets the connection from the connection manager depends on the schedule", "anchors": ["znet/connection.go:292-331", "znet/connection.go:494-496", "znet/ws_connection.go:121-122", "znet/ws_connection.go:277-281", "znet/ws_connection.go:493-495", "znet/kcp_connection.go:283", "znet/server.go:324-358"]}
{"id": "C143", "title": "A connection keeps the functions it was made with", "statement": "The start hook, the stop hook and the packing used for a connection are those that were set last (SetOnConnStart, SetOnConnStop, SetPacket) when it was accepted or dialled, or were set while it was being made; its heartbeat checker is the one set last when the connection became known, or set before it was started. Setting others later makes no difference to it.", "quantifier": "all sequences of settings and connections of a server or client, interleaved in any way", "why_tests_cant": "tests set everything before the server starts", "anchors": ["znet/connection.go:145-156", "znet/connection.go:183-185", "znet/ws_connection.go:140-149", "znet/ws_connection.go:175-177", "znet/kcp_connection.go:143-154", "znet/server.go:224-236", "znet/server.go:505-527", "znet/client.go:177-185"]}
{"id": "C144", "title": "A function of the user that ends its goroutine costs that goroutine and nothing else", "statement": "If a function given to the library by the user ends its goroutine (`runtime.Goexit`, as `FailNow` of package testing does) instead of returning, the process goes on, no lock of the library stays locked, and the goroutines of the library (workers, readers, starters, heartbeats, the asynchronous workers, timers) go on as they do after a panic that is recovered.", "quantifier": "all functions of the user that the library calls, all choices of those that panic and of those that end their goroutine, all runs of every goroutine the library starts and of the calls that take a callback", "why_tests_cant": "Whether a goroutine survives depends on every place where a user's function is called and on what is deferred there; no test ends a goroutine in each of them, and a worker that is gone shows only in messages that are never handled.", "anchors": ["znet/msghandler.go:308-344", "znet/msghandler.go:383-444", "znet/connection.go:227-331", "zasync_op/async_worker.go:26-50", "zutils/shard_lock_map.go:264-273"]}
{"id": "C145", "title": "A stop hook can say goodbye", "statement": "A message that the function set with `SetOnConnStop` sends on its connection, while the network works, is sent: the call returns nil and the whole message goes out before the socket is closed.", "quantifier": "all states in which the stop hook runs, all interleavings with other senders, the writer and stops; TCP, WebSocket and KCP connections; direct and buffered sends", "why_tests_cant": "Whether the message goes out depends on which flag is set before the hook is called and, for buffered sends, on what the writer's select picks; a test sees one transport and one schedule.", "anchors": ["znet/connection.go:372-431", "znet/connection.go:498-541", "znet/ws_connection.go:349-461", "znet/ws_connection.go:497-561", "znet/kcp_connection.go:351-452", "znet/kcp_connection.go:486-533"]}
{"id": "C146", "title": "The configuration file is the one that was named", "statement": "A process reads its configuration from the file that the environment variable ZINX_CONFIG_FILE_PATH names at its start (relative to its working directory if it is not an absolute path), or from conf/zinx.json in its working directory if the variable is not set or empty, wherever it goes later; without such a file the defaults stay.", "quantifier": "all values of the variable, all working directories and names the system gives for them, all file systems with directories, files and links", "why_tests_cant": "The paths and file systems are unbounded; a test has one directory, which it did not enter through a link.", "anchors": ["zconf/env.go:init", "zconf/env.go:GetConfigFilePath", "zconf/zconf.go:PathExists", "zconf/zconf.go:Reload"]}
{"id": "C147", "title": "Whoever is given a connection finds it in the manager", "statement": "While the start hook, the stop hook or a handler of a message of a server's connection runs, the connection is in the manager, so that GetConnMgr().Get finds it and a broadcast over the manager reaches it; it is taken out once, after the stop hook has returned and the socket is closed, and does not come back.", "quantifier": "TCP, WebSocket and KCP; every interleaving of Start, the reader, Stop calls and sends; hooks and handlers that take any time or panic; peers that do not read", "why_tests_cant": "The moment between the removal and the end of a handler is too short for a test.", "anchors": ["znet/connection.go:Start", "znet/connection.go:finalizer", "znet/ws_connection.go:finalizer", "znet/kcp_connection.go:finalizer", "znet/connmanager.go:Remove"]}
{"id": "C148", "title": "Requests and replies on WebSocket and KCP connections", "statement": "A client sends messages on a WebSocket or KCP connection, in any of the ways of sending; the server's handlers answer on the connection of the request, at most once each, all in the same way (any of those of the connection). Then the messages the client receives are replies to different requests, each what the handler made of that request, in the order in which the requests were written; a reply whose send returned nil is not lost before a later one arrives. As long as every handler replies and the client and server stay connected, the i-th message the client receives is the reply to the i-th request, and every request that was written is answered.", "quantifier": "all messages, replies, ways of sending, queue sizes, schedules, sizes of reads, other traffic at the server, network failures and stops", "why_tests_cant": "Needs both directions of a connection with every schedule of client, server reader, worker, writers, finalizers and client reader.", "anchors": ["znet/ws_connection.go:185-276", "znet/ws_connection.go:349-461", "znet/kcp_connection.go:189-275", "znet/kcp_connection.go:351-452", "znet/msghandler.go:412-444"]}
{"id": "C149", "title": "Replies from completion callbacks reach the one who asked", "statement": "In the login example, the handler of a message starts an asynchronous operation, registers a callback with OnComplete and returns; the callback looks at the result and replies with request.GetConnection().SendMsg, where request is the handler's. Whatever other messages, connections, handlers, operations and callbacks do in between: the operation is started for the connection the message came from, the callback decides at most once what to answer, it finds the result, and the reply goes to the connection whose message asked for it. Without dynamic binding, the messages of one connection are answered in the order in which they arrived, with none skipped. If workers, the asynchronous worker and user code are never held up for ever, and no worker waits for room on its own full queue, every message that has arrived is answered.", "quantifier": "all numbers of workers, queue capacities and worker modes, all numbers of connections and messages, with and without pooled request objects, all interleavings of readers, workers, handlers, callbacks and operations", "why_tests_cant": "The wrong recipient needs pooled requests and a message of another connection between the handler's return and its callback; the missing result needs a callback to run between two adjacent statements of the operation. The positive part is about all schedules.", "anchors": ["examples/zinx_async_op/router/login.go:19-75", "examples/zinx_async_op/async_op_apis/user_async_api.go:9-31", "zasync_op/async_op_result.go:37-79", "znet/request.go:51-90", "znet/msghandler.go:299-344", "znet/msghandler.go:412-444"]}
{"id": "C150", "title": "Broadcasts reach everyone who stays, once and in the same order", "statement": "NotifyAll and NotifyBuffAll may be called by several goroutines while IDs are set and removed and connections are closed: every broadcast returns; it is sent to every connection that is registered when it is called and stays registered, exactly once, and to no connection that is not registered at that time; and everyone is sent the broadcasts in the same order.", "quantifier": "all executions: any number of goroutines that broadcast, set and remove IDs and close connections at any time; any number of shards and any spread of the IDs over them; all orders in which the maps are iterated", "why_tests_cant": "Two broadcasts meet in a shard only if the scheduler lets one goroutine overtake the other between two sends, and the order in which a Go map is iterated is random.", "anchors": ["znotify/notify.go:44-47", "znotify/notify.go:59-62", "znotify/notify.go:77-88", "znotify/notify.go:103-114", "zutils/shard_lock_map.go:264-273"]}
{"id": "C151", "title": "A message to an ID goes to the connection that has it", "statement": "NotifyToConnByID and NotifyBuffToConnByID may be called by several goroutines while IDs are set and removed and connections are closed: every call returns; it sends at most once; it returns nil if and only if it has sent with success, the error of the send if the connection is closed, and the error of the look-up only if nobody had the ID at some moment during the call; whoever has the ID from the call to the return is sent the message; and the message is only sent to a connection that has the ID when it is sent.", "quantifier": "all executions: any number of goroutines that send, set and remove IDs and close connections at any time", "why_tests_cant": "The look-up and the send are apart; a test would have to remove or replace the ID between the two, after the lock of the shard is released.", "anchors": ["znotify/notify.go:44-47", "znotify/notify.go:49-57", "znotify/notify.go:59-62", "znotify/notify.go:64-75", "znotify/notify.go:90-101"]}
{"id": "C152", "title": "The sharded map can be used after a callback has panicked", "statement": "If a function given to RemoveCb or IterCb (or, by way of it, to Range of the connection manager or called by NotifyAll) panics and the panic is recovered further up the stack, as the workers do with handlers, calls of the map by others (Set, Remove, Pop, Get, Count) still return.", "quantifier": "all executions: any number of goroutines, calls, shards and panics; all schedules of the RWMutex", "why_tests_cant": "Tests do not let callbacks panic, and the effect is a wait for ever in another goroutine, which needs the lock of the same shard later.", "anchors": ["zutils/shard_lock_map.go:71-76", "zutils/shard_lock_map.go:110-115", "zutils/shard_lock_map.go:124-135", "zutils/shard_lock_map.go:264-273", "znet/msghandler.go:308-333"]}
