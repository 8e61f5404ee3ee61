{"id": "C01", "title": "Frame header bits round-trip", "statement": "Packing any frame header into its two header bytes and unpacking them gives back FIN, RSV1-3, MASK, the low four opcode bits and the 7-bit length code; and unpacking any 16-bit value then packing it again reproduces the value. Two headers with the same two bytes agree on all these fields.", "quantifier": "every header (all flags, all opcodes, every signed 64-bit payload length) and every 16-bit value", "why_tests_cant": "the header space is 2^64 lengths times flags; tests sample a few", "anchors": ["src/oatpp-websocket/Frame.cpp:packHeaderBits", "src/oatpp-websocket/Frame.cpp:unpackHeaderBits"]}
{"id": "C02", "title": "Header wire format is RFC 6455 5.2, minimal and host independent", "statement": "The bytes written for a frame header are exactly the RFC 6455 section 5.2 layout: flag/opcode byte, mask/len7 byte, then the length in the shortest of the 7-bit, 16-bit or 64-bit big-endian forms, then the mask key iff MASK is set; on little-endian and big-endian hosts alike. The header is 2, 4 or 10 bytes long, plus 4 with a mask, with the form changing exactly at 126 and 65536.", "quantifier": "every header with a length in [0,2^63) and both host byte orders", "why_tests_cant": "boundary and endianness behaviour for every length; CI runs on one endianness", "anchors": ["src/oatpp-websocket/WebSocket.cpp:writeFrameHeader", "src/oatpp-websocket/Frame.cpp:packHeaderBits"]}
{"id": "C03", "title": "Header write/read round-trip under any I/O chunking", "statement": "A header written with writeFrameHeader and read by the peer gives an equal header (flags, opcode, mask, length), consumes exactly the bytes written and no more, whatever sizes the transport's partial writes and reads have and however many retries it asks for.", "quantifier": "every header with 0<=length<2^63 and opcode<16, every partial read/write schedule, every following byte stream", "why_tests_cant": "the schedules are unbounded", "anchors": ["src/oatpp-websocket/WebSocket.cpp:readFrameHeader", "src/oatpp-websocket/WebSocket.cpp:writeFrameHeader"]}
{"id": "C04", "title": "One send call emits exactly one RFC frame", "statement": "When sendOneFrame (or text/binary/ping/pong/close) succeeds, the bytes appended to the connection are exactly one RFC 6455 frame with the requested FIN and opcode, RSV bits 0, and the message as payload, masked with the frame's key iff outgoing masking is configured; nothing else is written.", "quantifier": "every message, opcode, FIN, configuration, mask bytes and every partial-write schedule", "why_tests_cant": "all messages and all partial-write schedules", "anchors": ["src/oatpp-websocket/WebSocket.cpp:sendOneFrame", "src/oatpp-websocket/WebSocket.cpp:sendFrameHeader"]}
{"id": "C05", "title": "Masking is transparent and position based", "statement": "Un-masking is the inverse of masking for every key, and a receiver that un-masks a payload piecewise, with any split into chunks, obtains the same bytes as un-masking it at once.", "quantifier": "every key, payload and every split of the payload into read chunks", "why_tests_cant": "splits not aligned to 4 bytes are exponentially many", "anchors": ["src/oatpp-websocket/WebSocket.cpp:readPayload", "src/oatpp-websocket/WebSocket.cpp:sendOneFrame"]}
{"id": "C06", "title": "Delivered content does not depend on I/O chunking or the read buffer size", "statement": "For a given incoming byte stream, the listener callbacks are the same (up to how data is cut into chunks) for every schedule of partial reads and retries and for every positive read buffer size: they are those of a simple chunk-free interpreter run on the bytes that were actually received.", "quantifier": "every byte stream, every read schedule (partial, retry, EOF, broken pipe at any point), every readBufferSize >= 1, both masked and unmasked frames", "why_tests_cant": "infinitely many schedules and streams", "anchors": ["src/oatpp-websocket/WebSocket.cpp:listen", "src/oatpp-websocket/WebSocket.cpp:readPayload"]}
{"id": "C07", "title": "Data chunk sizes; size 0 means end of message and nothing else", "statement": "Every data callback carries between 1 and readBufferSize bytes; readMessage with size 0 is made exactly for the end of a FIN data frame, after all of its data, and never for data.", "quantifier": "every byte stream, schedule and readBufferSize >= 1", "why_tests_cant": "listeners treat size 0 as end of message; one wrong zero chunk on any schedule breaks them", "anchors": ["src/oatpp-websocket/WebSocket.cpp:readPayload", "src/oatpp-websocket/WebSocket.hpp:Listener::readMessage"]}
{"id": "C08", "title": "End-of-message marker exactly once per completed message", "statement": "For any sequence of complete data frames received, the number of end-of-message callbacks equals the number of FIN data frames, each one follows all data of its message and precedes the data of the next; non-FIN frames and control frames produce none.", "quantifier": "every sequence of frames, every schedule", "why_tests_cant": "unbounded frame sequences", "anchors": ["src/oatpp-websocket/WebSocket.cpp:readPayload", "src/oatpp-websocket/WebSocket.cpp:handleFrame"]}
{"id": "C09", "title": "Control frames arrive whole, in one callback, and do not disturb fragmented messages", "statement": "A ping, pong or close frame with payload at most 125 bytes yields exactly one onPing/onPong/onClose with exactly its payload, also when it arrives between the fragments of a message, and the fragmented message continues unaffected.", "quantifier": "every payload of 0..125 bytes, every schedule, every receive state", "why_tests_cant": "all interleavings and splits", "anchors": ["src/oatpp-websocket/WebSocket.cpp:handleFrame"]}
{"id": "C10", "title": "Oversized control frames are rejected without side effects", "statement": "A ping, pong or close frame that announces a payload of 126 or more bytes (up to 2^63-1) makes listening end with an error: no callback is made for it and none of its payload is consumed.", "quantifier": "every announced length in [126,2^63), every state and schedule", "why_tests_cant": "2^63 lengths", "anchors": ["src/oatpp-websocket/WebSocket.cpp:readPayload"]}
{"id": "C11", "title": "Unknown opcodes are rejected without callbacks", "statement": "A frame with opcode 3-7 or 11-15 ends listening with an error; no callback is made for it and no payload byte is consumed.", "quantifier": "every reserved opcode, flags, length, receive state and schedule", "why_tests_cant": "all states and streams", "anchors": ["src/oatpp-websocket/WebSocket.cpp:handleFrame"]}
{"id": "C12", "title": "Fragmentation protocol violations are rejected", "statement": "A continuation frame with no message in progress and a new text/binary frame while a fragmented message is in progress end listening with an error and produce no callback for that frame.", "quantifier": "every such frame in every receive state, every schedule", "why_tests_cant": "all histories leading to the state", "anchors": ["src/oatpp-websocket/WebSocket.cpp:handleFrame", "src/oatpp-websocket/WebSocket.cpp:checkForContinuation"]}
{"id": "C13", "title": "After a fragmented message completes a new message can be received", "statement": "After the final (FIN) continuation frame of a fragmented message, the socket is back in its initial receive state: the next text/binary frame is accepted and a further continuation frame is rejected.", "quantifier": "every valid fragmented message followed by any valid message", "why_tests_cant": "all fragmentations and histories; (the code does NOT satisfy this: the negation is proved)", "anchors": ["src/oatpp-websocket/WebSocket.cpp:handleFrame", "src/oatpp-websocket/WebSocket.cpp:checkForContinuation", "src/oatpp-websocket/AsyncWebSocket.cpp:handleFrameAsync"]}
{"id": "C14", "title": "readMessage reports the message opcode", "statement": "readMessage's opcode argument is TEXT or BINARY, the type of the message being received (WebSocket.hpp:85), for every callback of the message including those for its continuation frames.", "quantifier": "every message, fragmented or not, every schedule", "why_tests_cant": "all fragmentations; (false of the code for continuation frames: negation proved, true for single-frame messages)", "anchors": ["src/oatpp-websocket/WebSocket.hpp:Listener::readMessage", "src/oatpp-websocket/WebSocket.cpp:readPayload"]}
{"id": "C15", "title": "A truncated or failing stream never fabricates an event", "statement": "If the connection fails, ends or stalls at any byte, the callbacks made are those of the bytes received so far: complete frames as usual, then possibly data callbacks whose concatenation is a prefix of the cut frame's payload; no end-of-message and no ping/pong/close callback for a frame that was not completely received.", "quantifier": "every stream and every failure point, every schedule", "why_tests_cant": "every byte offset of every stream", "anchors": ["src/oatpp-websocket/WebSocket.cpp:readPayload", "src/oatpp-websocket/WebSocket.cpp:readFrameHeader"]}
{"id": "C16", "title": "A close frame ends listening and nothing after it is read", "statement": "When a close frame is handled, onClose is the last callback, listen() returns, and the bytes following the close frame are left unread on the connection.", "quantifier": "every stream containing a close frame after any valid frames, every schedule", "why_tests_cant": "all streams", "anchors": ["src/oatpp-websocket/WebSocket.cpp:listen", "src/oatpp-websocket/AsyncWebSocket.cpp:listenAsync"]}
{"id": "C17", "title": "stopListening takes effect at the frame boundary", "statement": "If a callback calls stopListening, the frame being handled is completed and no further frame is read: no byte beyond that frame is consumed. A stop requested before listen() starts has no effect.", "quantifier": "every stream, every point at which a callback stops, every schedule", "why_tests_cant": "all histories", "anchors": ["src/oatpp-websocket/WebSocket.cpp:listen", "src/oatpp-websocket/WebSocket.cpp:stopListening"]}
{"id": "C18", "title": "listen never throws; iterateFrame reports errors", "statement": "listen() returns normally (or blocks) whatever bytes arrive and whatever the listener throws; iterateFrame() on the same input throws exactly in the cases in which listen() ends because of an error, with the same callbacks made.", "quantifier": "every stream, listener, schedule and state without memory errors", "why_tests_cant": "all inputs", "anchors": ["src/oatpp-websocket/WebSocket.cpp:listen", "src/oatpp-websocket/WebSocket.cpp:iterateFrame"]}
{"id": "C19", "title": "64-bit lengths with the top bit set are rejected", "statement": "A frame announcing a 64-bit payload length with the most significant bit set (forbidden by RFC 6455 5.2) ends listening with an error.", "quantifier": "every such frame, every state", "why_tests_cant": "2^63 lengths; (false of the code: the frame is taken as an empty one; negation proved, and what happens instead is proved)", "anchors": ["src/oatpp-websocket/WebSocket.cpp:readFrameHeader", "src/oatpp-websocket/WebSocket.cpp:readPayload"]}
{"id": "C20", "title": "Received data never overruns the receive buffer", "statement": "Reading a frame never writes beyond the receive buffer allocated for it, whatever the peer sends, provided the configuration is not changed while a frame is being received; a configuration change to a larger readBufferSize from inside a callback can overrun it.", "quantifier": "every stream, schedule, listener and configuration", "why_tests_cant": "memory safety for all inputs", "anchors": ["src/oatpp-websocket/WebSocket.cpp:readPayload", "src/oatpp-websocket/AsyncWebSocket.cpp:readPayloadAsync"]}
{"id": "C21", "title": "Send result is truthful", "statement": "sendOneFrame returns true only if the whole frame was handed to the connection; it returns false or throws only if it was not, and in that case what was written is a proper prefix of the frame.", "quantifier": "every message, configuration and write schedule (failure at any byte)", "why_tests_cant": "every failure point", "anchors": ["src/oatpp-websocket/WebSocket.cpp:sendOneFrame", "src/oatpp-websocket/WebSocket.cpp:writeFrameHeader"]}
{"id": "C22", "title": "A failed send stops the listen loop", "statement": "When sendPing/sendPong/sendClose/sendOneFrameText/sendOneFrameBinary fails, it throws and the listen loop is told to stop.", "quantifier": "every send call, message and failure point", "why_tests_cant": "every failure point; (false when the failure hits the frame header: it throws without stopping; true when it hits the payload)", "anchors": ["src/oatpp-websocket/WebSocket.cpp:sendPing", "src/oatpp-websocket/WebSocket.cpp:writeFrameHeader"]}
{"id": "C23", "title": "Null and empty messages are the same empty frame", "statement": "Sending a null string and sending an empty string emit the same bytes: a frame with payload length 0 (masked iff configured).", "quantifier": "every FIN, opcode, configuration, schedule", "why_tests_cant": "all schedules", "anchors": ["src/oatpp-websocket/WebSocket.cpp:sendOneFrame"]}
{"id": "C24", "title": "End-to-end: sent messages arrive in order, exactly once, unchanged", "statement": "If one endpoint makes any sequence of successful sends of single-frame text/binary messages and pings/pongs of at most 125 bytes, ended or not by a close with a reason of at most 123 bytes, and the other endpoint listens on those bytes, its callbacks report exactly these messages, in that order, each once, with equal content; with masking on or off.", "quantifier": "every sequence of messages of any sizes, every mask bytes, every write schedule of the sender and read schedule and buffer size of the receiver", "why_tests_cant": "unbounded sequences and schedules", "anchors": ["src/oatpp-websocket/WebSocket.cpp:sendOneFrame", "src/oatpp-websocket/WebSocket.cpp:listen"]}
{"id": "C25", "title": "Close code and reason round-trip", "statement": "sendClose(code, reason) with a reason of at most 123 bytes makes the peer's onClose report the same code and reason; sendClose() and a close frame with fewer than two payload bytes report code 0 and an empty reason.", "quantifier": "every 16-bit code, every reason up to 123 bytes, any host byte order, any schedule", "why_tests_cant": "65536 codes times all reasons", "anchors": ["src/oatpp-websocket/WebSocket.cpp:sendClose", "src/oatpp-websocket/WebSocket.cpp:handleFrame"]}
{"id": "C26", "title": "Everything the send API accepts is receivable by the peer", "statement": "Every ping/pong/close that the send API transmits without an error is delivered to the peer's listener.", "quantifier": "every control message", "why_tests_cant": "all sizes; (false: control messages above 125 bytes are sent but rejected by the receiver; negation proved)", "anchors": ["src/oatpp-websocket/WebSocket.cpp:sendPing", "src/oatpp-websocket/WebSocket.cpp:readPayload"]}
{"id": "C27", "title": "Masked sends have no undefined behaviour below 2^31 bytes", "statement": "Sending a masked message of fewer than 2^31 bytes executes no undefined behaviour; at 2^31 bytes or more the 32-bit loop index overflows.", "quantifier": "every message size", "why_tests_cant": "2 GiB messages are not tested", "anchors": ["src/oatpp-websocket/WebSocket.cpp:sendOneFrame"]}
{"id": "C28", "title": "Async and blocking listeners see the same events", "statement": "For the same incoming bytes, the same results of the low-level reads and writes and the same listener reactions, AsyncWebSocket::listenAsync makes exactly the same sequence of callbacks and leaves the same bytes unread as WebSocket::listen.", "quantifier": "every incoming byte stream, every result of the low-level reads and writes, every positive read buffer size and every listener whose callbacks only use operations with the same meaning in both APIs (change the configuration, send without catching failures, throw)", "why_tests_cant": "two implementations over all inputs", "anchors": ["src/oatpp-websocket/AsyncWebSocket.cpp:listenAsync", "src/oatpp-websocket/WebSocket.cpp:listen"]}
{"id": "C29", "title": "Async and blocking sends write the same bytes", "statement": "For the same message, configuration, mask and write schedule, sendOneFrameAsync writes exactly the bytes sendOneFrame writes and fails exactly when it fails.", "quantifier": "every message, configuration, schedule", "why_tests_cant": "all schedules", "anchors": ["src/oatpp-websocket/AsyncWebSocket.cpp:sendOneFrameAsync", "src/oatpp-websocket/WebSocket.cpp:sendOneFrame"]}
{"id": "C30", "title": "listenAsync ends only on close or error, and reports the error", "statement": "The listenAsync coroutine finishes normally only after handling a close frame; any protocol, I/O or listener error is propagated to the awaiting coroutine as an error (never as a normal finish).", "quantifier": "every stream, schedule and listener", "why_tests_cant": "all executions", "anchors": ["src/oatpp-websocket/AsyncWebSocket.cpp:listenAsync"]}
{"id": "C31", "title": "Replacing the async listener while waiting for a frame", "statement": "If the listener is replaced while listenAsync waits for the next frame, that frame's callbacks all go to the new listener.", "quantifier": "every frame kind and replacement time", "why_tests_cant": "timing dependent; (false: data frames go to the new listener but ping/pong/close of that frame go to the old one; both proved)", "anchors": ["src/oatpp-websocket/AsyncWebSocket.cpp:handleFrameAsync", "src/oatpp-websocket/AsyncWebSocket.cpp:readPayloadAsync"]}
{"id": "C32", "title": "Lifetime of the data pointer in async readMessage", "statement": "The data pointer given to an async listener is valid during the readMessage call itself; it is still valid while the coroutine returned by readMessage runs only for unmasked frames: for masked frames the buffer is already freed. This holds with any number of tasks receiving at the same time: no task frees or overwrites a buffer of another.", "quantifier": "every data frame, chunk, schedule and number of tasks", "why_tests_cant": "use-after-free depends on the allocator", "anchors": ["src/oatpp-websocket/AsyncWebSocket.cpp:readPayloadAsync"]}
{"id": "C33", "title": "Concurrent senders", "statement": "If send calls are serialised, the connection carries the frames of the calls one after another in call order; without serialisation two concurrent sends can interleave on the wire into bytes that are not the two frames in either order.", "quantifier": "every set of senders and every interleaving of their low-level writes", "why_tests_cant": "interleavings", "anchors": ["src/oatpp-websocket/WebSocket.cpp:sendOneFrame", "src/oatpp-websocket/AsyncWebSocket.cpp:sendOneFrameAsync"]}
{"id": "C34", "title": "SHA-1 is FIPS 180-4 SHA-1", "statement": "For every byte string shorter than 2^61 bytes, update followed by finalBinary returns the FIPS 180-4 SHA-1 digest of the string (20 bytes).", "quantifier": "every message below the FIPS length limit, both host byte orders", "why_tests_cant": "all messages, all padding cases", "anchors": ["src/oatpp-websocket/SHA1.cpp:update", "src/oatpp-websocket/SHA1.cpp:finalBinary", "src/oatpp-websocket/SHA1.cpp:transform"]}
{"id": "C35", "title": "SHA-1 updates are incremental and the object is reusable", "statement": "Feeding a message in any number of update calls, from strings or from an input stream, with any split gives the same digest as one update; after finalBinary the object is in its initial state and can be reused.", "quantifier": "every split of every message, any history of uses", "why_tests_cant": "all splits", "anchors": ["src/oatpp-websocket/SHA1.cpp:update", "src/oatpp-websocket/SHA1.cpp:reset", "src/oatpp-websocket/SHA1.cpp:fromFile"]}
{"id": "C36", "title": "Server handshake accepts exactly the valid upgrade requests", "statement": "serversideHandshake produces a 101 response iff the request has Upgrade equal (case-insensitively) to websocket, a Connection header whose token list contains upgrade (case-insensitively), Sec-WebSocket-Version equal to 13 and a non-empty Sec-WebSocket-Key; the response carries Upgrade: websocket, Connection: Upgrade, the upgrade handler, and Sec-WebSocket-Accept = base64(SHA-1(key + GUID)). Otherwise it throws a 400 error and no upgrade happens.", "quantifier": "every set of request headers", "why_tests_cant": "all header combinations", "anchors": ["src/oatpp-websocket/Handshaker.cpp:serversideHandshake"]}
{"id": "C37", "title": "Client handshake confirmation accepts exactly the matching responses", "statement": "clientsideConfirmHandshake returns OK iff the status is 101, there is no Sec-WebSocket-Version header, Upgrade is websocket and Connection is upgrade (both case-insensitively) and Sec-WebSocket-Accept equals base64(SHA-1(sent key + GUID)); a wrong accept value, wrong headers, a wrong status give WRONG_KEY, UNKNOWN_PROTOCOL and SERVER_ERROR respectively.", "quantifier": "every client header set and every response", "why_tests_cant": "all responses", "anchors": ["src/oatpp-websocket/Handshaker.cpp:clientsideConfirmHandshake"]}
{"id": "C38", "title": "Client and server handshakes agree", "statement": "The server accepts the request headers the client prepares, and the client confirms the response the server makes for them, for every random key, provided the user's extra headers do not themselves define the handshake headers.", "quantifier": "every random key and every set of extra headers", "why_tests_cant": "all keys; (with a conflicting user header the handshake can fail: witness proved)", "anchors": ["src/oatpp-websocket/Handshaker.cpp:clientsideHandshake", "src/oatpp-websocket/Handshaker.cpp:serversideHandshake", "src/oatpp-websocket/Handshaker.cpp:clientsideConfirmHandshake"]}
{"id": "C39", "title": "Connector returns a connection only after a confirmed handshake", "statement": "connect returns the provider's connection exactly when the provider supplied one, the request executor answered and the handshake was confirmed, and otherwise throws; connectAsync, however far it gets, has returned a connection exactly when the provider supplied it, the request went out over it and the handshake was confirmed, and it has failed once the provider or the request failed or the handshake was not confirmed. The request sent is one GET on the path carrying exactly the user's headers plus the four handshake headers.", "quantifier": "every provider result, header set and server response", "why_tests_cant": "all responses", "anchors": ["src/oatpp-websocket/Connector.cpp:connect", "src/oatpp-websocket/Connector.cpp:connectAsync"]}
{"id": "C40", "title": "Socket instance listener calls are paired (threaded server)", "statement": "For each accepted connection onAfterCreate is called once, before anything is read, and, if it did not throw, onBeforeDestroy is called exactly once, after listening has ended, on the same live socket, however often the task object is moved on its way to the thread and also when the thread cannot be started.", "quantifier": "every listener, number of moves, stream and outcome", "why_tests_cant": "number of moves is up to the standard library; failure points", "anchors": ["src/oatpp-websocket/ConnectionHandler.cpp:handleConnection"]}
{"id": "C41", "title": "Socket instance listener calls are paired (async server)", "statement": "For each async connection onBeforeDestroy_NonBlocking is called exactly once iff onAfterCreate_NonBlocking was, on the same socket, after it; a coroutine destroyed before its first step gets neither.", "quantifier": "every point at which the coroutine finishes, fails or is dropped by the executor", "why_tests_cant": "destruction at any step", "anchors": ["src/oatpp-websocket/AsyncConnectionHandler.cpp:handleConnection"]}
{"id": "C42", "title": "Server sockets do not mask; client frames are masked with fresh bytes", "statement": "Every frame sent through a server-side socket (not reconfigured) has MASK=0. With masking configured every frame has MASK=1 and uses four new bytes from the random source, none reused from an earlier frame.", "quantifier": "every sequence of sends", "why_tests_cant": "unbounded sequences", "anchors": ["src/oatpp-websocket/ConnectionHandler.cpp:handleConnection", "src/oatpp-websocket/WebSocket.cpp:sendFrameHeader", "src/oatpp-websocket/Utils.cpp:generateMaskForFrame"]}
{"id": "C43", "title": "No state leaks from one frame header to the next", "statement": "What a received frame does depends only on its own bytes and on whether a fragmented message is open, never on stale header fields (for instance an earlier frame's mask) of frames received before. Two sockets that differ in everything else they have received before behave alike on the same further bytes.", "quantifier": "every pair of streams, every stale header content, every pair of pasts, every listener that does not itself remember its past", "why_tests_cant": "all histories", "anchors": ["src/oatpp-websocket/WebSocket.cpp:listen", "src/oatpp-websocket/WebSocket.cpp:readFrameHeader"]}
{"id": "C44", "title": "Receiving terminates and makes progress", "statement": "listen() makes at least one low-level read per frame it handles and handles no frame without consuming at least two bytes: on a finite sequence of read results it always ends or blocks, and it never spins.", "quantifier": "every stream and schedule", "why_tests_cant": "non-termination is not observable by tests", "anchors": ["src/oatpp-websocket/WebSocket.cpp:listen", "src/oatpp-websocket/WebSocket.cpp:readPayload"]}
{"id": "C45", "title": "A listener that is absent changes nothing on the wire", "statement": "With no listener installed frames are still read, checked and consumed exactly as with one; only the callbacks are missing. The same holds for the asynchronous socket.", "quantifier": "every stream, schedule and configuration, both APIs", "why_tests_cant": "all streams", "anchors": ["src/oatpp-websocket/WebSocket.cpp:readPayload", "src/oatpp-websocket/WebSocket.cpp:handleFrame", "src/oatpp-websocket/AsyncWebSocket.cpp:listenAsync"]}
{"id": "C46", "title": "Client key is 16 random bytes in base64", "statement": "The Sec-WebSocket-Key the client generates is the base64 text of 16 random bytes: 24 characters that decode back to those bytes.", "quantifier": "every random draw", "why_tests_cant": "2^128 keys", "anchors": ["src/oatpp-websocket/Utils.cpp:generateKey", "src/oatpp-websocket/Handshaker.cpp:clientsideHandshake"]}
{"id": "C47", "title": "Async listening among other tasks", "statement": "While listenAsync runs, other coroutines of the application may send, replace the listener and change the configuration between any two of its steps. Still, the callbacks made are exactly a rendering of the complete frames consumed from the connection, in order, each frame to listeners and in chunk sizes that were configured; listenAsync ends normally only after a close frame, and fails only for a reason the bytes consumed justify.", "quantifier": "every set of other tasks, every interleaving, every byte stream and low-level schedule", "why_tests_cant": "interleavings are unbounded", "anchors": ["src/oatpp-websocket/AsyncWebSocket.cpp:listenAsync", "src/oatpp-websocket/AsyncWebSocket.cpp:handleFrameAsync", "src/oatpp-websocket/AsyncWebSocket.cpp:readPayloadAsync"]}
{"id": "C48", "title": "An absent connection is reported", "statement": "If the connection provider supplies no connection (a null handle), connect and connectAsync fail with an error without sending anything.", "quantifier": "every request and provider result", "why_tests_cant": "all requests; which providers give a null handle is up to the provider (false for connectAsync: it passes the null handle on to the request executor)", "anchors": ["src/oatpp-websocket/Connector.cpp:connect", "src/oatpp-websocket/Connector.cpp:connectAsync"]}
{"id": "C49", "title": "A frame is refused exactly for these reasons", "statement": "iterateFrame reports a protocol error only for a continuation frame with no message open, a text or binary frame with one open, a control frame announcing 126 or more bytes (up to 2^63-1), or a reserved opcode - the error naming the reason - and always for those, once the header has arrived. Nothing else about the frame, the listener or the configuration matters. A refused frame leaves the socket unchanged: no callback, no write, only the header consumed.", "quantifier": "every listener behaviour, configuration, header, byte stream and low-level schedule", "why_tests_cant": "all headers in all states with all listeners", "anchors": ["src/oatpp-websocket/WebSocket.cpp:handleFrame", "src/oatpp-websocket/WebSocket.cpp:iterateFrame", "src/oatpp-websocket/WebSocket.cpp:readPayload"]}
{"id": "C50", "title": "The fragmentation rule, exactly", "statement": "After any history of a socket, a continuation frame is accepted iff some frame received before was a non-final text or binary frame, and a text or binary frame is accepted iff none was (whether or not that fragmented message has been completed since). Sends, listener and configuration changes and failures in between do not matter.", "quantifier": "every history of received frames, application calls in between, byte streams and schedules", "why_tests_cant": "histories are unbounded", "anchors": ["src/oatpp-websocket/WebSocket.cpp:checkForContinuation", "src/oatpp-websocket/WebSocket.cpp:handleFrame"]}
{"id": "C51", "title": "Answering from inside callbacks", "statement": "A listener may send from inside its callbacks: as long as the writes succeed, listen ends the same way, makes the same callbacks, consumes the same bytes and leaves the same socket state as with the same listener without the sends, and what is written is exactly the frames of those sends in the order they were made. In particular a listener that answers each ping with a pong hears everything, and every received ping is answered by exactly one pong with the same payload, in order, and nothing else is written.", "quantifier": "every listener behaviour (reacting to the whole history of callbacks) whose single sends are below 2^31 bytes, configuration, byte stream, read and write schedule", "why_tests_cant": "listeners, streams and schedules are unbounded", "anchors": ["src/oatpp-websocket/WebSocket.cpp:listen", "src/oatpp-websocket/WebSocket.cpp:handleFrame", "src/oatpp-websocket/WebSocket.cpp:sendOneFrame", "src/oatpp-websocket/WebSocket.cpp:sendPong"]}
{"id": "C52", "title": "A message sent in fragments arrives as one message", "statement": "If a sender sends any messages and then one message in fragments with sendOneFrame (first fragment text or binary without FIN, any number of continuation fragments with pings and pongs between them, a last continuation with FIN), all calls succeeding, the peer's listener puts together the earlier messages, the pings and pongs in order, and exactly one message whose data is the concatenation of all fragments, with nothing left over.", "quantifier": "all messages, fragment counts and contents, interleaved control messages, masking, schedules and buffer sizes", "why_tests_cant": "splits, interleavings and schedules are unbounded", "anchors": ["src/oatpp-websocket/WebSocket.cpp:sendOneFrame", "src/oatpp-websocket/WebSocket.cpp:handleFrame", "src/oatpp-websocket/WebSocket.cpp:readPayload"]}
{"id": "C53", "title": "Ping and pong between two peers", "statement": "A sends any texts, binaries, pings and pongs; B listens with a listener that answers each ping with a pong; A listens on what B wrote. B has then heard exactly A's messages, and A hears exactly one pong for each of its pings, with the same payload, in the order the pings were sent, and nothing else.", "quantifier": "all message sequences, masking, buffer sizes, read and write schedules that do not fail", "why_tests_cant": "sequences and schedules are unbounded", "anchors": ["src/oatpp-websocket/WebSocket.cpp:sendPing", "src/oatpp-websocket/WebSocket.cpp:sendPong", "src/oatpp-websocket/WebSocket.cpp:listen"]}
{"id": "C54", "title": "Stopping and resuming loses nothing", "statement": "A listener may call stopListening in any callbacks; if listen is called again each time it returns for that reason, then in the end outcome, callbacks (in order), consumed bytes and socket state are the same as after one call of listen with the same listener without the stops. Such a session always comes to an end when the connection has no more data. If the listener also sends, the same holds as long as the writes do not fail, and what is written is exactly the frames of its sends in the order made.", "quantifier": "every listener behaviour (stops, listener and configuration changes, exceptions; with sends: every listener that keeps listener and configuration, single sends below 2^31 bytes), byte stream, read and write schedule", "why_tests_cant": "every stopping pattern, stream and schedule", "anchors": ["src/oatpp-websocket/WebSocket.cpp:listen", "src/oatpp-websocket/WebSocket.cpp:stopListening"]}
{"id": "C55", "title": "A replaced listener takes over at the next callback", "statement": "Whatever is done in the callbacks, every callback goes to the listener that is set at that moment: the one set last with setListener in an earlier callback, or else the one set before. A change made inside a callback takes effect at the very next callback, even within the same frame; while the listener is null no callback is made.", "quantifier": "every byte stream, fragmentation, read schedule, configuration and every listener behaviour (including sends, exceptions, stops, configuration changes and any sequence of setListener calls)", "why_tests_cant": "The set of points at which a listener can be replaced, and what arrives around them, is unbounded.", "anchors": ["src/oatpp-websocket/WebSocket.cpp: readPayload, handleFrame, listen", "src/oatpp-websocket/WebSocket.hpp: setListener"]}
{"id": "C56", "title": "Every async send writes exactly its own frame, whatever is interleaved with it", "statement": "When any number of coroutines (listeners, senders) share an async socket and their steps are interleaved in any way, each send writes a beginning of one frame that carries its opcode, FIN and payload, in order: the whole frame when the send coroutine completes, a proper part when it fails; sends of one coroutine never overlap, and no byte is written to the connection that does not belong to a send.", "quantifier": "all numbers of tasks, interleavings, listener behaviours, configuration changes between steps, transport behaviours (partial writes, retries, failures), messages, random sources", "why_tests_cant": "the interleavings of coroutine steps and of partial writes are unbounded", "anchors": ["src/oatpp-websocket/AsyncWebSocket.cpp:sendFrameHeaderAsync", "src/oatpp-websocket/AsyncWebSocket.cpp:writeFrameHeaderAsync", "src/oatpp-websocket/AsyncWebSocket.cpp:sendOneFrameAsync"]}
{"id": "C57", "title": "Serialised async sends of any number of coroutines are heard by the peer in call order", "statement": "If the sends of several coroutines on one async socket are serialised (as with a lock) and none fails, a peer that listens on the bytes written receives exactly the messages of the calls, each once and unchanged, in the order of the calls, whatever else runs in between.", "quantifier": "all numbers of tasks, messages, interleavings, masking on either side, write and read schedules, buffer sizes", "why_tests_cant": "the interleavings and schedules on both sides are unbounded", "anchors": ["src/oatpp-websocket/AsyncWebSocket.cpp:sendFrameHeaderAsync", "src/oatpp-websocket/WebSocket.cpp:listen"]}
{"id": "C58", "title": "Every send of every thread on a blocking socket writes exactly its own frame, whatever other threads do", "statement": "When any number of threads use one blocking WebSocket (one or more in listen(), sending from callbacks; others sending by themselves, changing listener or configuration, stopping), and their accesses to the socket and the connection interleave in any way, each send writes a beginning of one frame that carries its opcode, FIN and payload, in order: the whole frame when it returns normally, a proper part when it fails; the sends of one thread never overlap and no byte is written that does not belong to a send. If the application serialises its sends with a lock and none fails, a peer that listens on the bytes written hears exactly the messages of the calls, in call order, each once and unchanged.", "quantifier": "all numbers of threads, programs of threads, interleavings of single accesses, listener behaviours, configuration changes, transport behaviours (partial writes, retries, failures), messages, random sources", "why_tests_cant": "the interleavings of threads and of partial writes are unbounded and a test only ever sees the schedules the machine happens to take", "anchors": ["src/oatpp-websocket/WebSocket.cpp:sendFrameHeader", "src/oatpp-websocket/WebSocket.cpp:writeFrameHeader", "src/oatpp-websocket/WebSocket.cpp:sendOneFrame", "src/oatpp-websocket/WebSocket.cpp:listen"]}
{"id": "C59", "title": "Other threads do not disturb reception", "statement": "While one thread is in listen() of a blocking WebSocket, any number of other threads may send on the socket, stop it, replace its listener and its configuration (same read buffer size), and callbacks may do the same, all interleaved in any way. Whenever listen() waits for input, writes from a callback, or has returned, the bytes consumed are a sequence of complete frames followed by part of one more, no byte lost or read twice; the callbacks made are exactly those of the frames and partial frame, in order, each to a listener that was installed; listen() has returned only because the peer closed, violated the protocol, the connection broke, listening was switched off, or a callback threw. If nothing fails or stops, every frame the peer sent has been heard.", "quantifier": "all numbers and programs of other threads, all interleavings of single accesses, all inputs, read schedules, listener behaviours, buffer sizes", "why_tests_cant": "interleavings of threads with partial reads are unbounded; a test sees only the few schedules the machine takes", "anchors": ["src/oatpp-websocket/WebSocket.cpp:listen", "src/oatpp-websocket/WebSocket.cpp:iterateFrame", "src/oatpp-websocket/WebSocket.cpp:readPayload", "src/oatpp-websocket/WebSocket.cpp:handleFrame", "src/oatpp-websocket/WebSocket.hpp:setListener"]}
{"id": "C60", "title": "Stopping from another thread", "statement": "If listening is switched off by any thread (stopListening, or a failed send) after listen() has begun, then listen() receives at most the rest of the frame it is at, or one more frame, and returns: every frame but the last one it ever receives had been received completely when it was stopped. A stop that comes before listen() has begun is lost.", "quantifier": "all interleavings, all threads that stop, all inputs, read schedules, listener behaviours", "why_tests_cant": "the moment of the stop ranges over all interleavings of single accesses", "anchors": ["src/oatpp-websocket/WebSocket.cpp:listen", "src/oatpp-websocket/WebSocket.cpp:stopListening"]}
{"id": "C61", "title": "Threads on one blocking socket wait for nothing but the connection", "statement": "When any number of threads listen, send, stop and change settings on one blocking WebSocket, no thread ever waits for another one: at any moment each thread has finished, or can go on at once whatever the others do, or is in a read or write of the connection that does not answer. No call goes on for ever without the connection: if the connection answers finitely often, every execution is finite, and every thread finishes or waits in such a call.", "quantifier": "all numbers and programs of threads, all interleavings, inputs, transport behaviours, listener behaviours", "why_tests_cant": "absence of deadlock and of endless loops is a statement about all schedules", "anchors": ["src/oatpp-websocket/WebSocket.cpp:listen", "src/oatpp-websocket/WebSocket.cpp:readPayload", "src/oatpp-websocket/WebSocket.cpp:sendOneFrame"]}
{"id": "C62", "title": "Which uses of one blocking socket by several threads are free of data races", "statement": "The library does no locking and its members are not atomic. When one thread calls listen() and others use the same WebSocket, no two threads ever access the input of the connection or the state of fragmented messages at the same time, whatever code the others and the callbacks run. If moreover the other threads only call send methods, callbacks do not change the configuration, no send is called while one of another thread is in progress, and no write fails, then there is no data race on anything. None of these conditions can be dropped: stopListening, setListener or a change of the configuration from another thread, a callback that changes the configuration while another thread sends, a failing send of another thread, and overlapping sends do race.", "quantifier": "all numbers of threads, user code, callbacks, interleavings, inputs and transport behaviours", "why_tests_cant": "freedom from races is a statement about all interleavings; tests and race detectors see some", "anchors": ["src/oatpp-websocket/WebSocket.hpp:m_listening", "src/oatpp-websocket/WebSocket.hpp:setListener", "src/oatpp-websocket/WebSocket.hpp:stopListening", "src/oatpp-websocket/WebSocket.cpp:listen", "src/oatpp-websocket/WebSocket.cpp:sendOneFrame"]}
{"id": "C63", "title": "Full duplex between two endpoints with several threads each: what is sent is heard, in order, exactly once", "statement": "Two endpoints are connected: what one writes arrives at the other, in pieces of any size and with any delay. At each endpoint one thread listens, other threads and callbacks send (serialised at their own endpoint only; the two endpoints send at the same time). If no send has failed and the calls were text, binary, ping and pong messages (ended or not by a close), then, whenever the listening thread of the peer is about to read or has returned, its listener has heard exactly the messages of the first n calls, in the order of the calls, each once and unchanged, followed by at most a proper part of the data of the next one. Without a send in progress and without unread bytes, n is the number of all calls. If reads do not fail and listening was not stopped, listen returns only after all messages and the close were heard.", "quantifier": "all pairs of endpoints, all numbers of threads and programs of them, all callbacks (that keep the listener and the buffer size), all interleavings of steps of both endpoints, all splittings and delays of bytes, all states reached, both directions at once", "why_tests_cant": "The orders of steps of all threads of both endpoints, together with the sizes of reads and writes, are too many; a reply from a callback while the peer sends is where a bug would show, rarely.", "anchors": ["src/oatpp-websocket/WebSocket.cpp: WebSocket::listen, iterateFrame, sendOneFrameText, sendPong, sendClose", "src/oatpp-websocket/WebSocket.hpp: WebSocket"]}
{"id": "C64", "title": "What the servers do with a connection: I/O mode and lifetime", "statement": "Whatever I/O modes a connection was in when handed over, both of its directions are in blocking mode (ConnectionHandler) or asynchronous mode (AsyncConnectionHandler) at every callback of the socket instance listener and whenever listening begins or ends, unless somebody else changes them after handing it over. The handler keeps the connection as long as the socket made for it exists (threaded) or its coroutine has not been destroyed (async), and afterwards keeps neither, whatever happened before (exceptions in onAfterCreate, a thread that cannot be started, coroutines destroyed early).", "quantifier": "all numbers of connections, all interleavings of the handlers' operations on them, all listeners installed or replaced, all modes before", "why_tests_cant": "A leak or an early release shows only in rare orders of moves, thread starts, exceptions and destructions.", "anchors": ["src/oatpp-websocket/ConnectionHandler.cpp: ConnectionHandler::handleConnection, Task", "src/oatpp-websocket/AsyncConnectionHandler.cpp: AsyncConnectionHandler::handleConnection, SocketCoroutine"]}
{"id": "C65", "title": "CPUs of worker threads", "statement": "On a machine with n >= 2 CPUs the threads of the threaded server are bound to CPUs 0..n-2, with one CPU to CPU 0: never to a CPU that does not exist and never to no CPU at all. (If the number of CPUs is unknown, reported as 0, the range is empty.)", "quantifier": "all numbers of CPUs", "why_tests_cant": "A test runs on one machine.", "anchors": ["src/oatpp-websocket/ConnectionHandler.cpp: ConnectionHandler::handleConnection"]}
{"id": "C66", "title": "Conversation between any two endpoints, blocking or async", "statement": "Two endpoints are connected; each is a blocking socket used by any number of threads or an async socket used by any number of tasks, in any mixture. One thread or task listens at the receiver; its callbacks and other threads or tasks may send. If at the sender sends are serialised, none has failed and the calls were messages, possibly ended by a close, then whenever the listening thread or task is about to read, or has ended normally, the listener has heard exactly the messages of the first calls, in the order of the calls, each once, unchanged, and at most a proper part of the data of the next one; all of them when no send is in progress and there is nothing more to read, and all of them when listening has ended by itself, in which case the last call was a close. When both sides listen and nothing moves any more, each has heard exactly what the other has sent.", "quantifier": "all kinds of endpoints on either side, all programs of the threads and tasks, all interleavings of their steps, all arrival times and fragmentations of the bytes, all listeners, all messages", "why_tests_cant": "The interleavings of two event loops or sets of threads with a transport that cuts bytes anywhere are infinitely many.", "anchors": ["src/oatpp-websocket/WebSocket.cpp: listen, sendOneFrameText, sendPing, sendClose", "src/oatpp-websocket/AsyncWebSocket.cpp: listenAsync, sendOneFrameTextAsync, sendPingAsync, sendCloseAsync"]}
{"id": "C67", "title": "Async tasks wait for nothing but the connection and all come to an end", "statement": "However tasks that listen or send on the same asynchronous WebSocket are interleaved, every task that has not ended either can go on at once or waits for the connection to become ready; no task ever waits for another one, for a lock or for a flag. There is no infinite execution when the connection becomes ready finitely often, whatever the callbacks do: parsing, sending and listening loops never spin without using up an event of the connection. Therefore, if the executor goes on with the tasks as long as it can, each one ends or comes to wait for a connection that never becomes ready again.", "quantifier": "all sets of tasks, all listeners and callbacks, all received bytes, all behaviours of the connection, all interleavings", "why_tests_cant": "Absence of deadlock and of livelock is a statement about all schedules and about infinite executions.", "anchors": ["src/oatpp-websocket/AsyncWebSocket.cpp: readFrameHeaderAsync, readPayloadAsync, handleFrameAsync, listenAsync, writeFrameHeaderAsync, sendFrameHeaderAsync, sendOneFrameAsync"]}
{"id": "C68", "title": "Connected endpoints come to rest with every message heard", "statement": "Two connected endpoints, each a blocking socket used by threads or an async socket used by tasks, have no infinite execution (each connection becomes ready finitely often), and every execution goes on to one after which no thread or task can make a step. If sends at one side were serialised, none failed, the calls were messages possibly ended by a close, and the connections still work when nobody can make a step any more, then the listener at the other side has been told exactly all the messages sent, in order, unchanged, each once, and it still listens, or has ended because of the close. With only messages sent this holds in both directions at once.", "quantifier": "all kinds of endpoints on either side, all programs of the threads and tasks, all interleavings, all fragmentations and arrival times, all listeners, all messages", "why_tests_cant": "That nothing is left stuck in between is a statement about every schedule of two programs and a transport, and about infinite executions.", "anchors": ["src/oatpp-websocket/WebSocket.cpp: listen, iterateFrame, sendFrameHeader, sendOneFrameText, sendPing, sendClose", "src/oatpp-websocket/AsyncWebSocket.cpp: listenAsync, sendOneFrameTextAsync, sendPingAsync, sendCloseAsync"]}
{"id": "C69", "title": "A whole session on a server", "statement": "A client is connected to a threaded server, whose handler calls onAfterCreate, listen and onBeforeDestroy on the socket of the session. However early the client sends (before the server has begun with the session, before onAfterCreate has installed a listener, while it is still sending), the installed listener hears exactly the messages of the client, in the order of the calls, each once, unchanged, and at most a proper part of the next; when nobody can make a step any more it has heard all of them, and the session is over, onBeforeDestroy included, exactly if the client has sent a close. In the other direction the client hears exactly what was sent at the server, in the order of the calls; as long as no send fails, the thread of the session calls the sends of onAfterCreate, then callback by callback those of the listener, then those of onBeforeDestroy. Sends that are all called by one thread or task need no lock. A new session of the asynchronous server is a listening endpoint of the kind of C66 and C68.", "quantifier": "all clients (any number of threads, or tasks of an asynchronous socket), all user code of the session, all interleavings, all behaviours of the two connections", "why_tests_cant": "How much of the client's data has arrived when the session starts depends on the schedule; a test sees a few schedules and a few listeners.", "anchors": ["src/oatpp-websocket/ConnectionHandler.cpp: WebSocketConnectionHandler::Task", "src/oatpp-websocket/AsyncConnectionHandler.cpp: SocketCoroutine", "src/oatpp-websocket/WebSocket.cpp: listen, sendOneFrame"]}
{"id": "C70", "title": "At any moment, whatever breaks", "statement": "Two endpoints, each with any number of threads (or tasks of an asynchronous socket), are connected. At the sending side the calls of the send methods do not overlap, they are messages and at most one close at the end, and after a send that has failed (the connection may break at any byte of any frame) nobody sends again. At the receiving side one thread or task listens; there reads may fail, its own sends may fail, callbacks may throw, send, or not yet have returned, listening may have been stopped. At every moment of every execution the listener has heard exactly the messages of the first n calls of the sender, in the order of the calls, each once, unchanged, and of the next call at most a beginning of its data, and that only if it is a text or binary message. The same holds for the whole session of a threaded server, from before onAfterCreate to after onBeforeDestroy.", "quantifier": "all pairs of endpoints (threaded or asynchronous), all user code, all interleavings, all behaviours of the two connections including failure at any byte, all moments", "why_tests_cant": "The guarantee is about every prefix of every execution with a failure at any position; a test breaks the connection at a few chosen places.", "anchors": ["src/oatpp-websocket/WebSocket.cpp: WebSocket::sendFrameHeader, WebSocket::sendOneFrame, WebSocket::listen, WebSocket::readPayload, WebSocket::handleFrame", "src/oatpp-websocket/AsyncWebSocket.cpp: ListenCoroutine, SendFrameCoroutine", "src/oatpp-websocket/ConnectionHandler.cpp: WebSocketConnectionHandler::Task"]}
{"id": "C71", "title": "A message in fragments between two endpoints, with other frames between the fragments", "statement": "Two endpoints, each with any number of threads (or tasks of an asynchronous socket), are connected. At the sending side the calls of the send methods do not overlap; they are whole text and binary messages, then perhaps one message in fragments (sendOneFrame: first text or binary without FIN, then opcode 0, the last with FIN), with pings and pongs of any thread, task or callback also between the fragments, and perhaps a close at the end. At every moment, even if a send, a read or a callback has failed, the peer's listener has heard exactly what the first n calls say and at most a beginning of the data of the next: the pings and pongs in their places, and the fragments put together as one message. When nobody can make a step any more, the connection working, everything has been heard, nothing is left over, and the peer has stopped listening exactly if the last call was a close. The same holds for whole sessions of a threaded server. (Only one message per connection can be sent in fragments, and no other after it: C13; its opcode is reported as 0: C14.)", "quantifier": "all pairs of endpoints (threaded or asynchronous), all user code, numbers, sizes and contents of fragments, frames between them, interleavings, behaviours of the connections, all moments", "why_tests_cant": "Which control frames fall between which fragments depends on the schedule of two programs; a test sees a few of them.", "anchors": ["src/oatpp-websocket/WebSocket.cpp: WebSocket::sendOneFrame, WebSocket::handleFrame, WebSocket::checkForContinuation, WebSocket::readPayload", "src/oatpp-websocket/AsyncWebSocket.cpp: HandleFrameCoroutine, SendFrameCoroutine"]}
{"id": "C72", "title": "Nothing undefined happens, with any number of threads or tasks", "statement": "A socket is used by any number of threads (blocking) or tasks (asynchronous): several may listen at once, send, install listeners, change whether to mask, in callbacks as well. If nobody changes the size of the read buffer while the socket is in use and no send has 2 GiB or more, then in no execution, whatever the peer sends and the connection does, any undefined behaviour is reached: no byte is stored beyond the end of a read buffer, no index overflows, no negative number of bytes is requested (listeners that cease to exist during a callback: C74). In a session of a threaded server onAfterCreate may still choose the size. The restriction is needed: setConfig with a larger readBufferSize from another task during a frame makes the reading task write beyond its buffer.", "quantifier": "all numbers of threads or tasks, all user code within the restriction, all byte streams, behaviours of the connection, interleavings, moments", "why_tests_cant": "A buffer overrun depends on the interleaving of setConfig with the steps of a read; tests (even with sanitizers) exercise a few interleavings.", "anchors": ["src/oatpp-websocket/WebSocket.cpp: WebSocket::readPayload, WebSocket::sendOneFrame", "src/oatpp-websocket/AsyncWebSocket.cpp: ReadPayloadCoroutine, SendFrameCoroutine", "src/oatpp-websocket/WebSocket.hpp: WebSocket::Config::readBufferSize"]}
{"id": "C73", "title": "A frame written by the application: sendFrameHeader, then the payload in pieces", "statement": "sendFrameHeader, whatever the header object passed in contains, writes exactly the header of one frame with the FIN, opcode and size asked for, no reserved bits, masked if configured with four fresh random bytes, and leaves these in the header object; if it does not return a proper part of that was written. When the application then writes a payload of that size to the connection in pieces, however cut (masked with the key in the header, the position in the payload going on from piece to piece), exactly the frame is on the wire that sendOneFrame writes for the whole payload; nothing undefined happens also with 2 GiB and more, masked, which sendOneFrame cannot send (C27). sendFrameHeaderAsync does the same as sendFrameHeader. With several threads, such a frame is a send as any other (C58-C63, C66, C68-C72), and the threads may run any code that uses the socket by listen, iterateFrame, send methods and such frames, depending on results and catching exceptions.", "quantifier": "all header objects, sizes below 2^63, payloads, cuts into pieces (empty ones too), configurations, random sources, transport behaviours; all programs of threads, all interleavings", "why_tests_cant": "The position in the mask has to be right for every cut of every payload; interleavings and transport behaviours are unbounded, and payloads of 2 GiB are not tested.", "anchors": ["src/oatpp-websocket/WebSocket.cpp: WebSocket::sendFrameHeader, WebSocket::writeFrameHeader, WebSocket::generateMaskForFrame", "src/oatpp-websocket/AsyncWebSocket.cpp: AsyncWebSocket::sendFrameHeaderAsync", "src/oatpp-websocket/WebSocket.hpp: WebSocket::getConnection"]}
{"id": "C74", "title": "A listener replaced while one of its callbacks runs", "statement": "Asynchronous socket: a coroutine returned by a callback of a listener always has below it, for as long as it exists, a coroutine of the library that has a shared pointer to that listener, whoever installs whatever listener meanwhile; so a listener is never destroyed while one of its callbacks is under way. Blocking socket: the socket itself has the only shared pointer of the library. Therefore: if nobody installs another listener while the socket is in use, the socket owns the one listener it calls at every moment; if the application keeps shared pointers to all listeners it installs, every listener called is one it keeps; otherwise a callback that installs another listener (or another thread that does) leaves the rest of the callback running in a listener that nobody owns.", "quantifier": "all numbers of tasks or threads, all user code (any operations, in callbacks too), all byte streams, behaviours of the connection, interleavings", "why_tests_cant": "A use after free depends on who replaces the listener at which moment of a callback; tests exercise a few schedules and do not notice freed memory that still has its contents.", "anchors": ["src/oatpp-websocket/WebSocket.cpp: WebSocket::readPayload, WebSocket::handleFrame (calls through m_listener)", "src/oatpp-websocket/WebSocket.hpp: WebSocket::setListener", "src/oatpp-websocket/AsyncWebSocket.cpp: ReadPayloadCoroutine, HandleFrameCoroutine (member m_listener)"]}
{"id": "C75", "title": "Which uses of one asynchronous socket by tasks on several worker threads are free of data races", "statement": "Coroutines of one executor run on several worker threads at the same time; the library does no locking and the members of AsyncWebSocket are not atomic. When one task runs listenAsync() and others use the same socket, no two tasks ever access the input of the connection or the state of fragmented messages at the same time, whatever code the others and the callbacks run. If moreover the other tasks only call send methods, callbacks do not change the configuration, and no send is called while one of another task is in progress, then there is no data race on anything - unlike with the blocking socket, also when writes fail. None of these conditions can be dropped: setListener or a change of the configuration from another task, a callback that changes the configuration while another task sends, overlapping sends, and two listening tasks do race.", "quantifier": "all numbers of tasks, user code, callbacks, interleavings of function calls of coroutines, inputs and transport behaviours", "why_tests_cant": "freedom from races is a statement about all interleavings; tests and race detectors see some", "anchors": ["src/oatpp-websocket/AsyncWebSocket.cpp: ListenCoroutine, HandleFrameCoroutine, ReadPayloadCoroutine, SendFrameCoroutine, sendFrameHeaderAsync, checkForContinuation", "src/oatpp-websocket/AsyncWebSocket.hpp: AsyncWebSocket::setListener, AsyncWebSocket::getConfig"]}
{"id": "C76", "title": "Receiving takes little memory, whatever the peer announces", "statement": "Asynchronous socket, any number of tasks, if nobody ever configures a read buffer of more than B bytes: at every moment each task consists of at most six coroutine objects, has at most one receive buffer, of at most B bytes, and has collected at most 125 bytes of a control frame, whatever lengths (up to 2^64) frame headers have announced and however long messages are. No callback is given more than B bytes of a data frame or 125 bytes of a control frame. The receive buffers that exist are exactly those of the running tasks; there are never more of them than listening tasks, and none when all tasks are over.", "quantifier": "all numbers and kinds of tasks, user code, callbacks, interleavings, byte streams, transport behaviours, buffer sizes", "why_tests_cant": "a bound on memory is a statement about every moment of every execution on every (hostile) byte stream", "anchors": ["src/oatpp-websocket/AsyncWebSocket.cpp: ReadPayloadCoroutine (constructor, destructor, onDataRead), readPayloadAsync, HandleFrameCoroutine, ListenCoroutine"]}
{"id": "C77", "title": "What is heard is determined by the bytes alone, across both APIs and all interleavings", "statement": "For any sequence of received bytes there is one sequence of deliveries, one number of consumed bytes and one outcome, such that every receiver of these bytes that is left alone until it ends hears exactly these deliveries and leaves exactly the bytes behind them: listen on its own, listen in a thread while other threads send, and listenAsync among other coroutines that send, whatever the order of their steps, the size of the read buffer, the way the bytes arrive and the answers sent from callbacks. In particular any two of them have heard the same messages in the same order, and two listenAsync have ended the same way (both normally, or with the same protocol error).", "quantifier": "all byte sequences, all pairs of receivers (blocking alone, blocking among threads, asynchronous among tasks), all read buffer sizes, schedules of partial reads and retries, interleavings and other senders", "why_tests_cant": "It compares any two executions of two different implementations on every byte sequence; tests compare a few executions on a few inputs.", "anchors": ["src/oatpp-websocket/WebSocket.cpp: listen, handleFrame, readPayload", "src/oatpp-websocket/AsyncWebSocket.cpp: listenAsync, handleFrameAsync, readPayloadAsync"]}
{"id": "C78", "title": "All frames of an endpoint are masked, or none, in every execution", "statement": "An endpoint has a socket created to mask outgoing messages (client) or not to (server, as both connection handlers create it), and no thread, task, callback or session code changes maskOutgoingMessages. Then, with any number of threads or tasks at both connected endpoints, in any interleaving and whatever the connections do, the bytes of every send (from a callback, another thread, a coroutine, in pieces) are those of a frame whose MASK bit is the configured one, complete when the send completes. A socket that does not mask never takes a byte from the random source; one that masks takes four bytes of its own for each frame. If sends are serialised and none failed, the connection carries whole frames, all with that MASK bit, and perhaps a beginning of one more. In particular, between a client socket and a session of either server every frame to the server is masked and no frame to the client is.", "quantifier": "every pair of endpoints (threads or tasks, client or session of a server), every program of the application, every interleaving, every behaviour of the connections", "why_tests_cant": "the MASK bit is decided anew at every send from a member that is shared by all threads and tasks; a test sees a few interleavings", "anchors": ["src/oatpp-websocket/WebSocket.cpp: sendFrameHeader, sendOneFrame, setConfig", "src/oatpp-websocket/AsyncWebSocket.cpp: sendFrameHeaderAsync, SendFrameCoroutine", "src/oatpp-websocket/ConnectionHandler.cpp: Task", "src/oatpp-websocket/AsyncConnectionHandler.cpp: SocketCoroutine"]}
{"id": "C79", "title": "Many sockets in one process: each behaves as if it were alone", "statement": "A process has any number of blocking sockets, each connected to a peer of its own (blocking or async), and any number of threads: sessions of a server, threads that listen, threads of the application. User code, also in callbacks, may use all sockets (a chat server: a callback of one session sends on the sockets of others), deciding on anything it knows. Then, whatever the interleaving, what happens at one socket and its peer is an execution of a process that has that socket only, in which threads and callbacks do with it what they did. Hence, for each socket: its sends are masked as it was created to do; if the sends on this socket (not those on others) are serialised, its peer's listener hears at every moment exactly what the first calls on this socket said, in order, and all of it once nothing is in progress; its own listener hears exactly what its peer said, in order; and no thread reaches undefined behaviour whatever all peers send, if user code sends less than 2 GiB at a time and leaves the sizes of the read buffers.", "quantifier": "every number of sockets, threads and peers, every user code (nondeterministic, over all sockets), every interleaving, every behaviour of the connections", "why_tests_cant": "user code of one session runs inside the library's code of another one; a test sees a few programs and interleavings of a few sockets", "anchors": ["src/oatpp-websocket/WebSocket.cpp: listen, iterateFrame, handleFrame, readPayload, sendOneFrame", "src/oatpp-websocket/WebSocket.hpp: Listener", "src/oatpp-websocket/ConnectionHandler.cpp: Task"]}
{"id": "C80", "title": "Many async sockets in one process: each behaves as if it were alone", "statement": "A process has any number of async sockets, each connected to a peer of its own (blocking or async), and any number of tasks on an executor: tasks that listen on a socket, tasks of the application. Coroutines of the user, also those returned by callbacks, may use all sockets (a chat server: a callback of one session sends on the sockets of others), deciding on anything they know; errors propagate through the stack of coroutines of all the sockets involved. Then, whatever the interleaving, what happens at one socket and its peer is an execution of a process that has that socket only, in which tasks and callbacks do with it what they did. Hence, for each socket: its sends are masked as it was created to do; if the sends on this socket (not those on others) are serialised, its peer's listener hears at every moment exactly what the first calls on this socket said, in order, and all of it once nothing is in progress; its own listener hears exactly what its peer said, in order; and no task reaches undefined behaviour whatever all peers send, if user code sends less than 2 GiB at a time and leaves the sizes of the read buffers.", "quantifier": "every number of sockets, tasks and peers, every user code (nondeterministic, over all sockets), every interleaving, every behaviour of the connections", "why_tests_cant": "coroutines of one socket run on stacks of another one, and errors unwind through both; a test sees a few programs and interleavings of a few sockets", "anchors": ["src/oatpp-websocket/AsyncWebSocket.cpp: listenAsync, handleFrameAsync, readFrameHeaderAsync, readPayloadAsync, sendOneFrameAsync, writeFrameHeaderAsync", "src/oatpp-websocket/AsyncWebSocket.hpp: Listener", "src/oatpp-websocket/AsyncConnectionHandler.cpp: SocketCoroutine"]}
{"id": "C81", "title": "No socket holds up another", "statement": "In a process with any number of sockets (blocking or async) whose threads or tasks and callbacks use all of them as they like: at every moment of every execution each thread or task has ended, or its next step is possible at once, or it waits for the connection of the one socket it is using at this moment (it reads and nothing has come, or the connection does not answer). No thread or task ever waits for another one, and a connection that stalls holds up only those that are using its socket.", "quantifier": "every number of sockets, threads or tasks and peers, every user code (nondeterministic, over all sockets), every interleaving, every behaviour of the connections", "why_tests_cant": "absence of deadlocks across sockets is about all interleavings and all moments at which a connection may stall", "anchors": ["src/oatpp-websocket/WebSocket.cpp: listen, sendOneFrame, readFrameHeader, readPayload, writeFrameHeader", "src/oatpp-websocket/AsyncWebSocket.cpp: listenAsync, sendOneFrameAsync, writeFrameHeaderAsync, readFrameHeaderAsync, readPayloadAsync"]}
{"id": "C82", "title": "Answers from callbacks; a service answers every message, in order", "statement": "Whatever a listener sends from its callbacks is sent in the order of the callbacks and, within a callback, in the order of the calls: at every moment, whatever has failed, the sends called by the listening thread or task are a beginning of those its callbacks call, and exactly these whenever it is about to read again. Hence a server whose listener answers every message it has been told completely (f of the message), connected to any client: at every moment the client's listener has heard exactly a beginning of the answers to what the client has sent, in order, and nothing else; when everything has come to rest with the connection still working, all of them. In particular the client of an echo server hears exactly its own messages, in order.", "quantifier": "blocking and async clients and servers (listening sockets, sessions of the threaded server), every answer function f, every sequence of messages (one of them perhaps in fragments) of any threads, tasks and callbacks of the client, every interleaving of both sides, every behaviour of the connections", "why_tests_cant": "that no interleaving, chunking, short read or write, and no failure ever swaps, loses or invents an answer is about all executions", "anchors": ["src/oatpp-websocket/WebSocket.cpp: listen, iterateFrame, handleFrame, readPayload, sendOneFrame", "src/oatpp-websocket/AsyncWebSocket.cpp: listenAsync, handleFrameAsync, readPayloadAsync, sendOneFrameAsync", "src/oatpp-websocket/ConnectionHandler.cpp: handleConnection, SocketTask::run"]}
{"id": "C83", "title": "A process with several sockets that has come to rest has said and heard everything", "statement": "A server process with any number of WebSockets, whose threads or tasks use any of the sockets (a chat server), has come to rest: none of its threads and tasks can make a step any more, though its connections still work and nothing undefined has happened. Then each of them has ended or waits for input on the socket on which it listens, and no send is in progress on any socket. For each socket whose peer has come to rest too: if sends on it were serialised and none failed, the peer's listener has heard exactly what all the calls on this socket say, in order, whichever threads, tasks and callbacks have sent; and if the peer's sends were serialised and none failed, the thread or task that listens on the socket has ended, or its listener has heard exactly all the peer has sent, and it waits for more.", "quantifier": "every number of sockets, threads, tasks and peers (blocking or async), everything user code does with any sockets at any time, every interleaving, every behaviour of the connections", "why_tests_cant": "that nothing is ever left behind in a buffer or coroutine when several sockets are used from each other's callbacks is about all executions", "anchors": ["src/oatpp-websocket/WebSocket.cpp: listen, iterateFrame, handleFrame, readPayload, sendOneFrame, writeFrameHeader, readFrameHeader", "src/oatpp-websocket/AsyncWebSocket.cpp: listenAsync, readFrameHeaderAsync, handleFrameAsync, readPayloadAsync, sendOneFrameAsync", "src/oatpp-websocket/ConnectionHandler.cpp: handleConnection, SocketTask::run", "src/oatpp-websocket/AsyncConnectionHandler.cpp: handleConnection"]}
{"id": "C84", "title": "Every receiver, in either API and among any threads or tasks, refuses a frame exactly for these reasons", "statement": "A receiver refuses a frame exactly if its header has an unknown opcode, or is a continuation with no fragmented message open, or text or binary with one open, or a ping, pong or close that announces 126 to 2^63 - 1 bytes (a longer announcement counts as negative: C49); nothing else in the header (reserved bits, FIN on control frames, masking, minimal length encoding) and nothing in a payload matters, and neither do the other threads, tasks and callbacks. If listenAsync has failed with a protocol error, among any other tasks, then exactly the complete frames and the header of a frame to be refused with this error have been consumed, and the callbacks made are those for the complete frames. Conversely, if complete frames are followed by the header of a frame to be refused, no receiver of either API ever consumes anything behind this header; listenAsync does not end normally, and the only protocol error it can end with is that of the refused frame; a receiver that is left alone hears exactly the complete frames, and (async) ends with this error. In particular, a continuation frame is refused exactly if no text or binary frame before it was non-final, and a text or binary frame exactly if one was (also if that message has been completed since: see C13).", "quantifier": "every sequence of frames and bytes behind it, every way they arrive, every buffer size, all other threads and tasks, all callbacks, every interleaving", "why_tests_cant": "exactly these reasons is a claim about every header, and that no interleaving of other threads or tasks can make a receiver accept a bad frame or refuse a good one is about all executions", "anchors": ["src/oatpp-websocket/WebSocket.cpp: listen, iterateFrame, handleFrame, checkForContinuation", "src/oatpp-websocket/AsyncWebSocket.cpp: listenAsync, handleFrameAsync, checkForContinuation"]}
{"id": "C85", "title": "A process with several sockets and its peers come to rest", "statement": "A server process with any number of WebSockets, whose threads or tasks use any of the sockets, and its peers, finitely many of which have something to do. Threads: there is no infinite execution, whatever user code does in callbacks and in between (each piece of user code does finitely many things). Tasks: in an infinite execution user code does something with the sockets again and again; the library on its own never goes on for ever: no loop of coroutines that wake each other, no retry without the connection, no callback repeated. However an execution has gone so far, it goes on to one at which no thread or task, of the process or of a peer, can make a step: each thread of the process has ended or waits for the connection of a socket that has nothing to read or does not answer; and an execution cannot be continued exactly if this is so (and then C83 says what has been heard).", "quantifier": "every number of sockets, threads, tasks and peers, everything user code does, every interleaving, every (finite) behaviour of the connections", "why_tests_cant": "that no execution is infinite is not observable in any finite test", "anchors": ["src/oatpp-websocket/WebSocket.cpp: listen, iterateFrame, handleFrame, readPayload, sendOneFrame", "src/oatpp-websocket/AsyncWebSocket.cpp: listenAsync, readFrameHeaderAsync, handleFrameAsync, readPayloadAsync, sendFrameHeaderAsync, sendOneFrameAsync", "src/oatpp-websocket/ConnectionHandler.cpp: SocketTask::run", "src/oatpp-websocket/AsyncConnectionHandler.cpp: handleConnection"]}
{"id": "C86", "title": "A process that passes messages on from one socket to others (relay, chat room)", "statement": "A server process with any number of WebSockets. The user code of the thread (or task) that serves socket k passes messages on: as soon as its callbacks have told it a message completely, it calls the sends it has for this message, on whichever sockets, and sends nothing else. (1) At every moment, what it has called on socket j is a beginning of what is to be passed on of the messages that have been completely told; and it is all of it whenever the thread waits for more to read, or has ended calmly. (2) If k's peer and the sends to j are serialised and stop at a failure, the listener of j's peer hears, at every moment, a beginning of what is to be passed on of what k's peer said: in order, unchanged, nothing twice, nothing else. (3) When the process and both peers have come to rest, the connections still working and no send having failed, exactly all of it has been heard, or the thread that passes it on has ended. (4) A chat room: any number of threads pass messages on to each other's sockets; at rest each peer has heard exactly what has been called on its socket, and what each thread has called there is exactly what is to be passed on of all its own peer has said.", "quantifier": "every number of sockets, threads, tasks and peers, every function from messages to sends, everything else user code does, every interleaving, every behaviour of the connections, every message sequence", "why_tests_cant": "end-to-end delivery through two connections, for every interleaving of the threads of the process and the peers, every cutting of messages into frames and reads", "anchors": ["src/oatpp-websocket/WebSocket.cpp: listen, iterateFrame, handleFrame, readPayload, sendOneFrame", "src/oatpp-websocket/AsyncWebSocket.cpp: listenAsync, handleFrameAsync, readPayloadAsync, sendOneFrameAsync", "src/oatpp-websocket/ConnectionHandler.cpp: SocketTask::run", "src/oatpp-websocket/AsyncConnectionHandler.cpp: handleConnection"]}
{"id": "C87", "title": "A client from connect to conversation, and what the server says right behind its handshake response", "statement": "connect and connectAsync give the caller the connection as the HTTP executor left it, exactly if the request was answered and the handshake confirmed; between a client and a server of this library this happens for every key. A WebSocket made on it, with a listener installed, hears exactly what the server sends behind the bytes that the executor has consumed: everything, unchanged and in order, if the executor has read nothing behind the response; if the executor has read ahead the frames of the server's first sends (for instance a greeting sent in onAfterCreate), exactly these messages are lost, without any error; if it has read ahead just the header of an unmasked message, the content of this message is taken for frames, so that the client can hear messages nobody has sent to it. With listen and with listenAsync. A client made in this way is a listening endpoint of the kind that the properties about conversations (C63 - C73, C79 - C86) are about.", "quantifier": "every key, header set, message sequence, split of the bytes between executor and WebSocket at a frame boundary or behind a frame's header, settings, buffer size and read schedule", "why_tests_cant": "how much the executor reads ahead depends on the timing of the network; tests on a fast local connection see one timing", "anchors": ["src/oatpp-websocket/Connector.cpp: connect, connectAsync", "src/oatpp-websocket/WebSocket.cpp: WebSocket, listen", "src/oatpp-websocket/AsyncWebSocket.cpp: AsyncWebSocket, listenAsync", "src/oatpp-websocket/Handshaker.cpp: clientsideHandshake, clientsideConfirmHandshake, serversideHandshake"]}
{"id": "C88", "title": "Calling listen again after it has returned", "statement": "listen always returns without saying why (C18). When it is called again it goes on exactly where the earlier call stopped: behind a close frame, with the frames after it; behind a frame it refused, with the first byte after the frame's header, so that the payload of the refused frame is taken for frames (a peer that sends, say, a ping of 126 bytes that are themselves encodings of frames makes the application hear messages that were never sent, followed by the frames after the ping); at the end of the stream, with nothing: no callback is made and nothing is sent. Any number of calls together hear exactly the frames of the stream shared out in this way, in order, and the state needed for fragmented messages is carried on from call to call. If a callback threw, the exception came from the last callback made, the frame counts as received, and the next call starts with the part of its payload that was not yet read (nothing if the exception came from onPing, onPong, the end-of-message callback or the last piece of data) and then the following frames. listenAsync called again and again shares out the bytes in the same way.", "quantifier": "every stream of frames, refused header, number of calls, read schedule, buffer size, fragmentation state; for exceptions every listener that leaves listener and configuration alone", "why_tests_cant": "the next call's behaviour depends on where in any byte stream and read schedule the former call ended, and for what reason", "anchors": ["src/oatpp-websocket/WebSocket.cpp: listen, iterateFrame, handleFrame, readPayload, readFrameHeader", "src/oatpp-websocket/AsyncWebSocket.cpp: listenAsync"]}
{"id": "C89", "title": "What a receiver does not look at", "statement": "The application hears the same frames whatever the reserved bits RSV1-RSV3 are, whether frames are masked or not and with which keys (so a server takes unmasked frames and a client masked ones), whether a length is written in the shortest way or not (a payload of 3 bytes may come with its length in the second octet, in two or in eight further octets), and whether ping, pong and close frames have FIN set; RFC 6455 demands that a connection with any of these be failed. For frames that are otherwise acceptable, written in any of these ways, listen and listenAsync make exactly the callbacks of the frames, in order, leave no byte unread (behind a close frame: exactly the bytes behind it), and two streams that differ only in these respects give the same messages to any two receivers, blocking or asynchronous, alone or among threads or tasks.", "quantifier": "every sequence of acceptable frames, every choice of reserved bits, key, length field that can hold the length, and FIN of control frames, frame by frame; every read schedule, buffer size, receiver, interleaving with other threads or tasks", "why_tests_cant": "every combination of 8 reserved bit patterns, 2^32 keys, three length fields and FIN for each frame of any sequence; an encoder used in a test writes only one of them", "anchors": ["src/oatpp-websocket/WebSocket.cpp: WebSocket::readFrameHeader, WebSocket::readPayload, WebSocket::handleFrame", "src/oatpp-websocket/AsyncWebSocket.cpp: AsyncWebSocket::readFrameHeaderAsync, AsyncWebSocket::readPayloadAsync, AsyncWebSocket::handleFrameAsync"]}
{"id": "C90", "title": "Frames that a coroutine of the application writes itself", "statement": "A coroutine of the application may call sendFrameHeaderAsync and then write the payload to the connection in pieces (masked with the key the header object carries, from the right offset) instead of calling sendOneFrameAsync. Whatever of its frames it writes so, in whatever pieces (also empty ones), with whatever header object, and whatever other coroutines do meanwhile, nothing observable differs from an execution in which sendOneFrameAsync was called: the same bytes are written by the same tasks, the same calls are recorded with the same outcomes, the same callbacks are made. So every such frame is written whole or is the last one of the task's that is cut off by a write error, with the FIN, opcode, length and payload it should have; the listener of the peer hears at any moment exactly the messages so far, and all of them when both sides have come to rest; a coroutine in the middle of a frame waits for nothing but the connection, no task ever waits for another one, and nothing goes on for ever; and no undefined behaviour is met.", "quantifier": "every pool of tasks, every choice which frames (below 2^31 bytes) are written by the application itself, every division into pieces, every header object, every schedule of tasks, of writes and of reads, every peer (blocking or asynchronous)", "why_tests_cant": "divisions of a payload into pieces, split again by the connection, interleaved with the steps of all other tasks", "anchors": ["src/oatpp-websocket/AsyncWebSocket.cpp: AsyncWebSocket::sendFrameHeaderAsync, WriteFrameCoroutine, AsyncWebSocket::sendOneFrameAsync", "src/oatpp-websocket/AsyncWebSocket.hpp: AsyncWebSocket::getConnection", "src/oatpp-websocket/Frame.hpp: Frame::Header"]}
{"id": "C91", "title": "Driving the socket frame by frame with iterateFrame", "statement": "Instead of listen, an application may call iterateFrame(frameHeader) in a loop of its own. A call that returns has handled exactly one frame: it made exactly this frame's callbacks, read no byte behind the frame, and the caller's header object holds the frame's FIN, RSV bits, opcode, masking key and length, whatever it contained before. So n calls on n acceptable frames hear exactly these frames and report their headers one after the other. A close frame is a frame as any other (the next call reads behind it, unlike listen), and neither the listening flag nor stopListening has any effect. A call on a frame that is refused throws the reason, makes no callback and has consumed that frame's header and nothing else; the header object then says which header was refused; it also contains the frame's header when a callback threw or the payload could not be read, what the first two bytes say when the header broke off behind them, and what it contained before when not even these could be read. A call at the end of the stream throws an error of reading and changes nothing. iterateFrame and listen may be mixed: after any number of calls that returned, none of them with a close frame, listen (with callbacks that neither send nor stop it) does exactly what is left of a listen called at the beginning. Other threads may send, mask or not and call stopListening meanwhile, in any interleaving: when the loop is over exactly these frames were heard, and no call throws unless reading fails or a callback throws.", "quantifier": "every number of calls, every sequence of valid frames, every chunking of the stream into reads, every initial content of the header object, every position in a fragmented message, every read buffer size, every listener whose callbacks return; every interleaving with other threads that send and stop listening", "why_tests_cant": "unbounded sequences of frames, of reads per frame and of calls, with all header contents and listeners", "anchors": ["src/oatpp-websocket/WebSocket.cpp: WebSocket::iterateFrame, WebSocket::listen, WebSocket::handleFrame, WebSocket::readFrameHeader", "src/oatpp-websocket/WebSocket.hpp: WebSocket::iterateFrame"]}
{"id": "C92", "title": "A client and a server of this library, from connect to the last message", "statement": "A client and a server of this library, on machines of any byte order and with any correct oatpp core, get to know each other and talk. For every key the client may draw, whatever headers the user adds and however proxies reorder, re-case or add headers: if the request of the handshake reaches the server it answers 101, and if this response reaches the client, connect and connectAsync both return the connection. If nothing behind the response was read ahead, then on this connection, whatever kinds of sockets the two sides use (WebSocket with threads or AsyncWebSocket with coroutines on either side, masking or not, any listener, read buffer size, onAfterCreate and onBeforeDestroy), at any moment the listener of each side has heard exactly what the first calls of the other side say (messages, one perhaps in fragments, pings, pongs, a close), and at most a beginning of the next one; from every moment the conversation can come to rest, and at rest, if no send failed, each side has heard all of the other's calls, and listens still unless the last of these was a close, in which case its listening has ended.", "quantifier": "every key, header set, byte order, kind of socket on either side, application code of threads, coroutines and callbacks, schedule, division of the stream into reads and writes", "why_tests_cant": "the product of all keys, headers, schedules and message sequences; a test connects a few times on one machine", "anchors": ["src/oatpp-websocket/Connector.cpp: connect, connectAsync", "src/oatpp-websocket/Handshaker.cpp: serversideHandshake, clientsideHandshake, clientsideConfirmHandshake", "src/oatpp-websocket/ConnectionHandler.cpp: handleConnection", "src/oatpp-websocket/AsyncConnectionHandler.cpp: handleConnection", "src/oatpp-websocket/WebSocket.cpp: listen, sendOneFrame", "src/oatpp-websocket/AsyncWebSocket.cpp: listenAsync, sendOneFrameAsync"]}
{"id": "C93", "title": "The project's own asynchronous test passes, for all messages and schedules", "statement": "The application of the project's FullAsyncTest: a client whose coroutine sends messages (the test: 'hello!' any number of times) and then a close while another coroutine listens, and a server whose listener collects the pieces of a message in a buffer, answers each complete message with 'Hello from oatpp!: ' and the message, pings with pongs, a close with a close. For all messages (any contents, empty ones too, less than 2^31 bytes with the greeting), any schedule of the coroutines of both sides and any division of the streams into reads and writes: at any moment, even if the connection fails, the server's listener has been told exactly the first i messages and at most a beginning of the next one, the client's listener exactly the greetings of the first j <= i of those and at most a beginning of the next one; if the connection does not fail, nothing ever fails and nothing undefined happens, and when neither side can make a step any more (C68: every execution gets there), the server has been told all messages and the close, the client all greetings and the close, each once and in order, every coroutine has finished, and the client's counter is the number of messages sent.", "quantifier": "every list of messages, schedule of the coroutines of both sides, partial read and write, retry and failure", "why_tests_cant": "this is what the test itself checks, for one message, a few counts and the schedules that happen; the claim is about all messages and all schedules", "anchors": ["test/oatpp-websocket/FullAsyncTest.cpp: ClientSocketListener, ClientSenderCoroutine, ClientCoroutine", "test/oatpp-websocket/app/AsyncWebSocketListener.hpp: AsyncWebSocketListener, AsyncWebSocketInstanceListener", "src/oatpp-websocket/AsyncWebSocket.cpp: listenAsync, readPayloadAsync, handleFrameAsync, sendOneFrameTextAsync, sendCloseAsync"]}
{"id": "C94", "title": "Over a connection that does not fail, nothing fails and everything sent is heard", "statement": "If the connection's low-level calls only ever move some bytes or ask to be retried, no send fails, whatever the applications do, and with any number of threads and coroutines. If moreover a client (of either kind) and a server session (of either kind) have applications that do nothing to end listening (callbacks, threads and coroutines send messages, and may set listener, configuration and masking again as long as the listener and the read buffer's size stay; they do not throw, and do not call stopListening; they need not catch what sends throw), then at any moment nothing undefined has happened, and, if sends at a side do not overlap, its peer's listener has heard exactly what its first calls say and at most a beginning of the next one's data; and if the connection lasts for the bytes of all frames, then once neither side can make a step (every execution gets there, C68), each side's listener has heard exactly and completely what was sent at the other side, and either waits for more and no close was sent at the other side, or its listening is over and the last call at the other side was a close. It makes no difference whether callbacks catch what sends throw.", "quantifier": "every client and server of both kinds, application, schedule of the threads and coroutines of both sides, division of the streams into reads and writes, and retry", "why_tests_cant": "a test runs a few conversations under a few schedules; that nothing is lost, that nothing fails by itself, and that no exception appears is about all applications, interleavings and partial transfers", "anchors": ["src/oatpp-websocket/WebSocket.cpp: WebSocket::listen, WebSocket::iterateFrame, WebSocket::sendFrameHeader", "src/oatpp-websocket/AsyncWebSocket.cpp: AsyncWebSocket::listenAsync, AsyncWebSocket::sendFrameHeaderAsync", "src/oatpp-websocket/ConnectionHandler.cpp: ConnectionHandler::handleConnection", "src/oatpp-websocket/AsyncConnectionHandler.cpp: AsyncConnectionHandler::handleConnection"]}
{"id": "C95", "title": "Over a connection that does not fail, a server answers every message, and the client hears every answer", "statement": "A client (of either kind, as in C94) and a server session (of either kind) whose listener answers each completely received message m by calling the sends f(m) and sends nothing else (callbacks need not catch what sends throw), over a connection whose low-level calls only move some bytes or ask to be retried. If the client's sends do not overlap, then at any moment no send has failed, nothing undefined has happened, the server's listener has heard exactly what the client's first calls say, and the client's listener exactly the first of the answers to what the client has sent (and at most a beginning of the next one's data). If the connection lasts for the bytes of all frames, then once neither side can make a step (every execution gets there, C68) the server has sent exactly the answers to everything the client has sent, in order, the server's listener has heard everything the client has sent and the client's listener all the answers; a side whose peer's last call was a close has stopped listening, otherwise it waits for more. In particular an echo server sends back every text and binary message, and the server of the project's blocking test answers each text m with 'Hello from oatpp! Your message was: ' + m, exactly once and in order, for every list of messages.", "quantifier": "every client of both kinds, answering server of both kinds, list of messages, schedule of the threads and coroutines of both sides, division of the streams into reads and writes, and retry", "why_tests_cant": "a test runs a few conversations under a few schedules; that no message stays unanswered and no answer is lost, doubled or reordered is about all services, histories, interleavings and partial transfers", "anchors": ["src/oatpp-websocket/WebSocket.cpp: WebSocket::listen, WebSocket::iterateFrame, WebSocket::sendOneFrame", "src/oatpp-websocket/AsyncWebSocket.cpp: AsyncWebSocket::listenAsync, AsyncWebSocket::sendOneFrameAsync", "src/oatpp-websocket/ConnectionHandler.cpp: ConnectionHandler::handleConnection", "src/oatpp-websocket/AsyncConnectionHandler.cpp: AsyncConnectionHandler::handleConnection", "test/oatpp-websocket/app/WebSocketListener.hpp: WebSocketListener, WebSocketInstanceListener", "test/oatpp-websocket/FullTest.cpp: TestComponent, ClientWebSocketListener"]}
{"id": "C96", "title": "Reading frames from inside callbacks is reading them one after the other", "statement": "A listener that keeps a pointer to its (blocking) socket may call iterateFrame and listen of the same socket inside callbacks, to any depth, as long as it does so in callbacks that are made when a frame has been read completely (onPing, onPong, onClose, and readMessage with size 0). The outermost iterateFrame or listen then has exactly the effects of reading frames one after the other outside of callbacks, with the operations the listener does after its nested reads in between, in the same order; it returns or throws what this does. On a stream of acceptable frames the listener hears the frames of the stream in order, each once and completely; nothing is skipped, doubled or mixed. If the listener calls stopListening in onClose and does nothing more in callbacks afterwards, no callback is made after onClose, at whatever depth the close frame was read; without stopListening a close frame read inside a callback does not end the listen around it. Reading inside readMessage with data takes the rest of the payload for a frame. Reads nested in callbacks, in the middle of frames too, do nothing undefined as long as the listener's messages are shorter than 2^31 bytes and it leaves the configuration alone, and if it does a bounded number of operations other than reads in each callback (of reads any number), the thread never waits for itself or goes on for ever: listen returns unless its connection will not do any more reads or writes, and each iterateFrame that returns has used up at least one read.", "quantifier": "every listener (what it does in callbacks is any function of all callbacks so far), every depth and number of nested reads, every exception thrown and caught in between, every byte stream and division into reads", "why_tests_cant": "nesting has no bound, and what a nested read leaves for the read around it depends on the stream, on exceptions, on flags changed meanwhile; a test tries a few nestings", "anchors": ["src/oatpp-websocket/WebSocket.cpp: WebSocket::iterateFrame, WebSocket::listen, WebSocket::readPayload, WebSocket::handleFrame, WebSocket::readFrameHeader", "src/oatpp-websocket/WebSocket.hpp: WebSocket::iterateFrame, WebSocket::listen, WebSocket::stopListening, WebSocket::Listener"]}
{"id": "C97", "title": "One thread may read from a socket inside callbacks of another, in the middle of a frame too", "statement": "A thread with any number of (blocking) sockets reads from some of them inside callbacks of others: a gateway that, while it receives a message of a client, asks a back end and reads its answer. Sockets are in layers; in callbacks of a socket the thread calls iterateFrame and listen only of sockets of higher layers, to any depth; sends and stopListening it may call on all sockets at any time; it leaves listeners and configurations alone and catches exceptions. Then each call of iterateFrame that comes to an end returns or throws what it would if callbacks did nothing, has made the same callbacks on its socket and left the same bytes unread, for every stream; and the sockets of the same and lower layers, those in the middle of a frame among them, are as before except for what was written to them. When the thread has come to its end, each socket has heard exactly the first of the acceptable frames that came on its own connection, in order, each once and completely, and nothing behind them has been read (or it has heard all of them before anything else). On each socket whose writes do not fail, what the thread has written is exactly the frames of its calls, one after the other in the order of the calls, none torn by another, however reads are nested (on the same socket too) and wherever it sends; only when it has not come to its end may the last one be incomplete. So a peer that listens on what was written to a socket hears exactly the messages of the calls on it, in order, each once. Nesting holds nothing up: with a bounded number of operations in each callback and finitely many layers, or (without layers, also when a callback reads from its own socket) finitely many sockets and in each callback a bounded number of operations other than reads, the thread goes on until its end unless a connection does no more reads or writes; and with any code whose sends are shorter than 2^31 bytes and that leaves configurations alone, in layers or not, nothing undefined happens, and the buffers of the calls inside each other are not overrun. The list of all callbacks that the code decides by has each callback of each socket once, in the order of the socket.", "quantifier": "every number of sockets and layers, every user code (what it does is any function of all callbacks so far), every depth of nesting, every byte stream and division into reads on each connection; for what is written: every nesting, also on the same socket, every behaviour of the input, every division of the writes", "why_tests_cant": "which socket is read in the middle of which frame of which other socket depends on how the streams are divided into reads; a test tries a few divisions and a few nestings", "anchors": ["src/oatpp-websocket/WebSocket.cpp: WebSocket::iterateFrame, WebSocket::listen, WebSocket::readPayload, WebSocket::handleFrame, WebSocket::readFrameHeader, WebSocket::sendOneFrame", "src/oatpp-websocket/WebSocket.hpp: WebSocket, WebSocket::Listener"]}
