# Formal model of oatpp-websocket in Lean 4

Source: /repo (oatpp-websocket 1.4.0), read as text; nothing is built or run.

## Layout

| module | contents |
|---|---|
| `Verif/Model/Bytes.lean`    | bytes, host byte order, `htons/ntohs/htonl/ntohl` and raw loads/stores |
| `Verif/Model/Frame.lean`    | `Frame.hpp`, `Frame.cpp` |
| `Verif/Model/Stream.lean`   | oatpp core streams as used here (external code: assumed contract) |
| `Verif/Model/WebSocket.lean`| `WebSocket.cpp` (blocking API) |
| `Verif/Model/Async.lean`    | `AsyncWebSocket.cpp` as coroutine stack machine |
| `Verif/Model/SHA1.lean`     | `SHA1.cpp` |
| `Verif/Model/Handshake.lean`, `Connector.lean` | `Handshaker.cpp`, `Utils.cpp` (key), `Connector.cpp` |
| `Verif/Model/ConnectionHandler.lean` | `ConnectionHandler.cpp`: tasks moved to threads |
| `Verif/Model/AsyncConnectionHandler.lean` | `AsyncConnectionHandler.cpp`: coroutines given to the executor |
| `Verif/Model/Threads.lean`  | `WebSocket.cpp` once more, statement by statement, for several threads |
| `Verif/Model/Session.lean`  | a session of either server: the handler's calls with the effect of user code on the socket |
| `Verif/Model/Client.lean`   | a client: `connect` over a connection with a state, then a socket on it |
| `Verif/Model/Process.lean`  | several sockets in one process: the programs of `Model/Threads`, user code that uses all sockets |
| `Verif/Model/Polling.lean`  | `iterateFrame` with the caller's header object, store by store (WebSocket.cpp:71-107, 275-278) |
| `Verif/Model/AsyncProcess.lean`  | several async sockets in one process: the coroutines of `Model/Async`, user coroutines that use all sockets |
| `Verif/Model/AsyncStream.lean`  | coroutines of the application that call `sendFrameHeaderAsync` and write the payload themselves |
| `Verif/Model/ConnectionIO.lean` | I/O modes that the two handlers set, and what their objects keep; the CPU range |
| `Verif/Model/ThreadCalls.lean` | calls of the send methods as programs of threads, and frames written by the application |
| `Verif/Model/TestApp.lean` | the listeners and sessions of the project's own tests |
| `Verif/Model/Reentrant.lean` | the receiving functions with user code that reads from the socket inside its callbacks |
| `Verif/Model/Gateway.lean` | the same for several sockets of one thread |
| `Verif/Spec/*.lean`         | specifications written from the RFCs, not using model functions |
| `Verif/Proofs/*.lean`       | helper lemmas |
| `Verif/Props/*.lean`        | the property theorems and, beside each, non-vacuity examples |

## Modelling approach

* A C++ call is a function from state to `Exit α × State`, `Exit` being: returned a value, threw, is blocked
  in the transport for ever, or executed undefined behaviour. UB is a distinct outcome, never assumed away.
* The transport (external) is: the bytes that the peer ever sends, plus a *schedule*: the list of outcomes the
  environment chooses for the successive low-level `read` (`write`) calls - deliver up to n bytes, ask for a
  retry, return 0, broken pipe. When the schedule is used up the call blocks for ever. All theorems quantify over
  all byte streams and all schedules.
* The listener (user code) is an arbitrary function from the history of callbacks to the list of operations it
  performs inside the callback (send, stopListening, setListener, setConfig, throw).
* Random bytes are an arbitrary infinite sequence.
* Async: the coroutines of AsyncWebSocket.cpp are stack frames with a program counter, one transition per
  coroutine step, so that schedules may interleave several coroutine stacks on one socket.
* SHA-1: the 80 macro-like round calls are transcribed as a literal table; proved equal to the FIPS 180-4
  definition (80-word schedule, rotating registers).

## Plan per property

| id | what is modelled, how proved |
|---|---|
| C01 | `Frame::packHeaderBits/unpackHeaderBits` on 16-bit words; bit-level lemmas |
| C02 | `writeFrameHeader` bytes = RFC layout given by arithmetic spec, for both endiannesses |
| C03 | write then read under arbitrary schedules; exact-read loop lemma by induction on the schedule |
| C04 | `sendOneFrame` success implies appended bytes = spec encoding; induction on write schedule |
| C05 | list lemma on xor with key index (offset + i) mod 4 |
| C06 | refinement of `listen` to a chunk-free interpreter on the consumed bytes; induction |
| C07-C09 | corollaries of the refinement relation / interpreter |
| C10-C12 | one-step theorems about handling a frame in any state |
| C13, C14 | false of the code: negation with witness; `_partial` theorem for sequences without data behind a fragmented message. C13 also has the general fact (`C13_actual_refused`, `C13_actual_stray`, Props/Reuse.lean): *every* sequence the RFC allows with data behind a fragmented message is refused there, by every receiver of either API, and a stray continuation is accepted; likewise C14, C19 and C26 (`_actual_any_receiver`, Props/PartialAnywhere.lean) |
| C15 | corollary of C06 (interpreter applied to a prefix) |
| C16, C17 | invariants of the listen loop |
| C18 | case analysis on Exit |
| C19 | negation and exact behaviour |
| C20 | UB outcome unreachable when config is constant; witness when it is not |
| C21-C23 | exact-write loop lemma |
| C24-C26 | composition of C04 and C06 |
| C27 | UB outcome of the masked send loop |
| C28-C30 | forward simulation between coroutine machine and blocking functions |
| C31, C32 | coroutine machine with captured listener / buffer lifetime (C32 also for any number of receiving tasks: who owns which buffer, Proofs/Buffers, Proofs/Pointers) |
| C33 | pool of sender stacks; serialised schedules proved for any number of tasks of any kind (`C33_any_tasks`, see C56), witness for interleaving |
| C34, C35 | refinement to FIPS 180-4 |
| C36-C39 | decision logic over header multimaps; base64 and token parser are parameters |
| C40, C41 | object lifetime machines |
| C42-C46 | invariants / corollaries; C43 also by a relation between two runs with different pasts (`Proofs/Forget`); C45 for `listenAsync` (`Props/AsyncMute`) by C28 from the blocking one |
| C47 | pool machine: any other tasks run between the steps of `listenAsync`; invariant over all executions |
| C48 | false of the code for `connectAsync`: negation, exact behaviour, part for `connect` |
| C49 | for any listener: header read, then case analysis against the table `refusal`; no other source of protocol errors |
| C50 | invariant of `m_lastOpcode` over arbitrary histories (frames, application calls, network) |
| C51 | simulation between a listener and the same listener with its sends removed (`Proofs/Answers`), composed with C08/C09 |
| C52 | `contentOf` (chunk- and key-free content of frames) composed with C08/C09 and C42 |
| C53 | composition of C51, C24's frame lemmas and C08/C09 |
| C54 | lock-step simulation (`Proofs/Lockstep`) of a listener and the same without stops; induction over the session; for listeners that send (`C54_with_sends`, `Proofs/ResumeSends`) a two-run simulation carrying the answers written so far |
| C55 | `currentListener` (spec) computes the listener from the callbacks made; exit-aware invariant over `iterateFrame` and the loop (`Props/Replace`) |
| C56 | record of an execution of a pool (call, bytes, completion, failure per step; `Spec/Concurrent`); per-task invariant over coroutine stacks in the middle of a send (`Mid`), one-step lemmas for it and for all other stacks (`Proofs/Concurrent*`), induction over the execution |
| C57 | C33_any_tasks (wire = frames in call order) composed with C08/C09 |
| C58 | `Model/Threads`: the methods of WebSocket.cpp as trees of single accesses to shared data, interleaved by `Pool.Step`; each tree run alone is proved equal to the sequential model (`Proofs/ThreadsAlone`); a predicate `Ok` on trees (what may come next in the middle of a send), proved for every method, gives an invariant over all executions (`Props/ThreadSends`); serialised case as C57 |
| C59 | weakest preconditions for the programs of `Model/Threads` relative to what other threads may do between two steps (`Proofs/ThreadWp`), proved for header, payload, frame, loop (`Proofs/ThreadHeader`, `ThreadUser`, `ThreadPayload`, `ThreadFrame`, `ThreadListen`) against the specification of C01/C07 (`OneFrame`, `Complete`), then an invariant over all executions (`Proofs/ThreadPool`, `Props/ThreadListen`) |
| C60 | the view of the listening thread remembers how many bytes were left when listening was switched off; invariant as for C59; the early stop by the first step of `listenT` |
| C61 | `Live` on the programs of `Model/Threads` (reads and writes left bound the repetitions, so the artificial `stuck` is never reached), proved for every method; executions are finite since programs are well-founded trees (`Proofs/ThreadLive`, `Props/ThreadLive`) |
| C62 | accesses of each step of `Model/Threads` to members and connection (`Spec/Races`); which steps every method can make, by induction on its program (`Proofs/ThreadRaces`); output by the phases of C58 (`Props/ThreadRaces`); concrete races for each condition |
| C63 | `Spec/Link`: two pools of threads, what a step of one writes is appended to the input of the other (`Linked`). A run of the receiver with bytes arriving is a run with all bytes there from the beginning and adjusted outcomes of reads (`Fed.logged`), so C58 (what is written) and C59 (what is heard) compose; the part received is a prefix of the frames (C15's prefix lemma). |
| C64 | `Model/ConnectionIO`: the operations of C40/C41 with the mode calls, in one trace with the callbacks; what is kept is read off the objects in memory. Invariants over any history of operations (those of C40, C41 extended). |
| C65 | `cpuRange`: the arithmetic of :89-96; a CPU is in the range iff it is 0 or below n-1. |
| C66 | `Spec/Network`: two endpoints, each `Model/Threads` or `Model/Async`, what one writes arrives at the other. An endpoint fed step by step does the same as one with all bytes there (for a suitable transport behaviour), so C58/C59 (threads) and C33/C47/C56 (tasks) apply; at a read the invariant of C47 says what was told. |
| C67 | A well-founded rank on the stack of coroutines of a task (events of the connection left, then pending reads and writes of the frames on the stack); every step of `Model/Async` lowers it or uses up an event, so the step relation of the pool is well-founded; a task that cannot step is at a read or write the connection does not grant. |
| C68 | `Spec/Rest`: a step of either endpoint. A pair of well-founded measures (threads: structure of the programs, C61; tasks: C67) gives termination; at rest no send is in progress (no deadlock, C61/C67, and the connection takes bytes) and the listening thread or task waits at a read with nothing more to read or has ended, so C66 applies. |
| C69 | `Model/Session`: the program of the session's thread is the sequence of the user code of `onAfterCreate`, `listen`, and that of `onBeforeDestroy`, made of the programs of `Model/Threads`. Steps of a sequence are split (`steps_andThen`); before `listen` the program does not touch the input and leaves the settings to be checked, so the theorems on reception (C57, C63) apply from the state in which `listen` is called; what has arrived before is input of `listen`. A weakest-precondition calculus for calls and callbacks gives what is said. |
| C70 | The invariants of the listening thread (C57, C63) and task (C66, C68) hold in the middle of a callback too: at each moment the callbacks are those of the frames decoded from a prefix `got` of the bytes received, the last frame perhaps in part (`Hears`). What the sender has written is a prefix of the wire image of the frames its calls stand for (`Lawful.wire_some`: the failed send is the last one). Prefixes of a wire image decode to a prefix of the frames and a beginning of one more (`Talk.heard_some`). |
| C71 | `told` (Spec/Speech) says what a sequence of calls says; `C71_told` spells it out for messages, one message in fragments, control messages and a close. The frames of the calls are accepted one after the other (`Flow.shape`) and callbacks for a beginning of them say what the first calls say (`Flow.says`, `Flow.cut`); the rest is as in C68, C69 and C70. |
| C72 | The undefined behaviours are results of the model (`UB`). Threads: a predicate on programs (`Steady`: nothing undefined as long as every `getConfig` gives the same size and a read gives at most what was asked for), preserved by steps of all threads; sessions: `Sound`, which follows the size that the session's own thread sets. Tasks: an invariant of every coroutine object (the capacity of the buffer is the size, the read in progress wants no more). The exception is an execution, `C72_overrun`. |
| C73 | `streamFrame` (user code around the model of `sendFrameHeader`) writes header and pieces; the bytes of each piece are those of the masked payload at its offset (induction over the pieces), so `C73_frame` has the same shape as C21. `streamT`, `callT` are the same as programs of threads; `C73_alone`: run alone they do the same. The codes of threads in C58-C63, C66-C72 are `AppCode`/`HelperCode`/`CarefulCode`: closed under sequence with results and catching, with `listen`, `iterateFrame`, sends and streams as atoms. Async: `C73_async_header` by the simulation of C29. Not modelled: a streaming coroutine among other tasks. |
| C74 | `Spec/Lifetime.lean`: which coroutine objects have a shared pointer (`Co.holds`), which were returned by a listener (`Co.of`, ghost field `self` of user coroutines), `Owned` for blocking sockets. `C74_tasks`, `C74_callback`: invariant of coroutine stacks, preserved by each step of each coroutine and by unwinding. `C74_threads_kept`, `C74_threads_fixed`: the programs of the threads call only listeners that they read from the socket (`Calls`, over all codes), invariant of pools. `C74_replaced`, `C74_replaced_by_thread`: executions where nobody owns the running listener. C72 (nothing undefined) leaves the lifetime of listeners to this. |
| C75 | `Spec/AsyncRaces.lean`: what one function call of each coroutine accesses (`Co.touches`), `Race`, `Team`. `C75_reads`, `C75_writes`: the model accesses nothing else (the step commutes with replacing what is at any other place). `C75_receiving`, `C75_listener`, `C75_config`, `C75_listening`: invariant on the operations of all user coroutines on all stacks (`Roles`); `C75_output` from the invariant of sends of C42; `C75_no_race` together; `C75_setListener_races`, `C75_setConfig_races`, `C75_sends_race`, `C75_two_listen_race`: executions with races |
| C76 | `Spec/Memory.lean`: `Sized` (tasks as started, sizes configured at most B), `Co.buffer`, `Event.Little`. `C76_tasks`, `C76_callbacks`: invariant of stacks (coroutines call only coroutines of lower levels: at most six; what has been collected of a control frame is what was read of its announced length, which was checked). `C76_buffers`, `C76_total`, `C76_released`: the buffers that exist are a permutation of those of the coroutines on all stacks |
| C77 | three propositions in `Spec/Determined.lean` describe a finished reception of given bytes (alone, among tasks, among threads); each is shown to follow the one course that `Receives` has for these bytes (C06, C47, C59 and determinism of `Receives`); `C77_determined_by_the_bytes`, `C77_same_messages`, `C77_same_outcome` |
| C78 | Threads: a second phase discipline (`KeyOk`: in the middle of a send, key taken or not) for all programs of the library and of applications, under the assumption that reading the configuration gives `m`; tasks: invariant on the send in progress (`KeyInv`) and on the operations coroutines may still do (`Co.Only`); with the invariants of C56/C58 this gives the frame of every send (`Sent.MaskedAs`); the wire by induction over the record (`Lawful.wire_of`) |
| C79 | Model: programs over numbered sockets (`Process.Code`), the library's own programs of `Model/Threads` put on a socket (`on`), user code woven in after each callback (`weave`), its decisions a nondeterministic `choose`. Projection: each thread's sequence of steps restricted to socket `k` is a run of a single-socket program (`job_resolve`), namely `listenT`/`sessionT` itself for the thread that listens on `k` (as `listen` is its own code with callbacks that do nothing, with `react` plugged in: `listenLoopT_plug`) and helper code otherwise; the results of callbacks are pairwise distinct (`Distinct`), so that one `react` explains all of them; then `Linked` step by step (`Net.Runs.seen`), and C71, C72, C78 apply |
| C80 | Model: stacks with coroutines of numbered sockets and of the user (`AsyncProcess.Coro`); each step of the library is `coStep` of `Model/Async` on that socket (`move`), user coroutines do any operation on any socket, or end, nondeterministically; errors unwind through all of them (`unwindM`). Projection: a relation `Rel` between a stack of the process and its view by socket `k` (coroutines of other sockets removed, user coroutines given the operations they will do with `k`, and a failure if an error came from elsewhere), and a backward simulation: given what user code does later, what it does from now on (`lib_here`, `lib_else`, `does_here`, `does_else`, `ends_view`); then `Linked` step by step (`Net.Runs.seen`), and C71, C72, C78 apply; records agree up to steps in which nothing happened (`said`) |
| C81 | About the executions of C79 and C80. Small specification in `Spec/Waits` (ended; next step possible, i.e. the preconditions of a step of `Net.Runs`; waits for the connection of socket `k`). Threads: fuel is never used up (`stuck` is seen by the socket, C79, and C61 excludes it there); otherwise `exec_or_waits`. Tasks: a coroutine is blocked only at the connection (`coStep_does`), what it writes is appended (`coStep_grows`), and no stack is empty (`Net.Runs.alive`) |
| C82 | About the executions of C66-C71 (two endpoints of any kind). Small specification in `Spec/Service` (`completes`, `Env.Serves f`, `answersTo`, `echo`). What the listening thread owes: `Owes env q p` (`Proofs/ThreadAnswers`), an invariant of the code of `listen` with the sends still to be called before the next read; tasks: `Says`/`Shape` on the stack of coroutines (`Proofs/AsyncAnswers`). No assumption about failures. `C82_service`/`C82_service_complete` compose this with C71 in both directions |
| C83 | About the executions of C79 and C80. `AtRest`, `Works`, `Idle` in `Spec/ProcessRest`. Threads: an invariant of the code of a thread (`Orderly`, `Proofs/ProcessOrder`): in the middle of a send it is in code of that socket that sends and never reads, and it reads from no socket but its own. Tasks: through what each socket sees of the execution (C80; `Tracks.elsewhere`, `Alone.home`). With C81 (each has ended, goes or waits) no send is in progress; then C71 resp. C79/C80 |
| C84 | `refusal` (`Spec/Refusal`) gives the error of a header. Bytes received determine the course (`OneFrame.refused`, `OneFrame.within`, `Receives.refused`: induction over the complete frames before); with C47 (tasks), C59 (threads) and C77 (any receiver left alone). The rule in terms of the frames before it: `AcceptedAll.opened`, by induction |
| C85 | `Net.Step` and `Finite` in `Spec/ProcessLive`. Well-founded induction (`Proofs/ProcessLive`): threads by their code, then the peers (finitely many: those used so far); tasks by what the connections of the sockets in use can still answer, then the weights of their coroutines (as C67, `coStep_does`), then the peers |
| C86 | `Net.Noted` (runs with notes of what user code is told and decides), `PassesOn`, `passedOn` in `Spec/Relay`. Invariant of each thread's code (`OwesM`, `Proofs/ProcessRelay`): the sends still to be called are those decided and not yet called; while it reads there are none, and the last callback has been followed by its decision. Then C79/C83 for the socket it listens on and the socket it sends on. Tasks: `Spec/AsyncRelay` (`duty`: what a coroutine returned by a callback still has to say), invariant `Kept` of the stacks and the notes (`Proofs/AsyncProcessRelay`), then C80/C83 |
| C87 | `Model/Client`: `connect` over a connection with a state; the executor (external) is a parameter that says what it has read ahead (`Exchange`), `Spec/Client`: `ReadAhead`. From C38, C39 (handshake), C24 (what a listener hears of bytes), C28 (async) |
| C88 | `Spec/Again`: `listens` (calls one after the other), `Parts` (how they share out the bytes), `Begun`. Each call leaves the receiver in the state `Undisturbed` that all theorems about receiving start from (low-level reads are paid for by bytes: `Thrifty`), so that they apply to the next call; induction over `Parts`; exceptions by the frame loop (`Proofs/Thrown`); async from C28 |
| C89 | `Spec/Style`: `encodeAs` writes a frame with any of the three length fields, `SameContents` = same opcodes and payloads (and FIN of data frames); the header parser reads all of them alike (`parseHdr_encodeAs`); with C77 (the course of a receiver is determined by the bytes) for all receivers |
| C90 | `Model/AsyncStream`: tasks of `Model/Async` whose top coroutine may be in the middle of a frame it writes itself (payload below 2^31 bytes). `asSends` maps each state to the state of a program that called `sendOneFrameAsync`; a simulation with the same record of calls and bytes, where only the outcomes of the coming writes differ (`Proofs/AsyncStream*`): a step is matched by none, one or several. Then C56, C66, C71, C72 carry over |
| C91 | `polls` (`Spec/Polling`) = n calls of the modelled `iterateFrame` with the same header object. One call: `interpretFrame_accepted` and `iterateFrame_over` (determinism of the frame semantics), header from `iterateFrame_header`; n calls by induction over the frames; `C91_then_listen` by induction over the calls, each one being the first round of the loop of `listen`; among threads by a weakest precondition (`Wp`) for the polling thread, stable under the steps of the others |
| C92 | `ClientOn`, `SessionOn` (`Spec/Together`): the sockets both sides make on the connection, of either kind. Composition: C87 (connect succeeds; the client is a listening endpoint), C69 (sessions), C71 (any moment, all heard, with fragments), C68 (rest) |
| C93 | `Model/TestApp`: the test's two listener classes as state machines, its sender and its endpoints. `Spec/TestApp`: the service (`greet`), what is to be heard (`conversation`), enough outcomes (`traffic`, `Sound`). Proof: they are a `Dialogue` (`Props/Dialogue`; only the sender sends at the client, by induction over the joint execution with C71 and C82), on a sound connection no coroutine object ever gets to an error or undefined behaviour (`Proofs/AsyncHealthy`), and what is written stays below the schedules (`Props/DialogueHealthy`); then C71, C82 and C68 |
| C94 | `Spec/Working`: applications that do nothing to end listening (`Client`, `Session`), connections that do not fail (`Reliable`) and last (`Lasts`). Proof: an invariant of threads says that nothing but undisturbed results comes back to user code (`Proofs/ThreadHealthy`, `ThreadHealthyPool`), the same for coroutines (`AsyncHealthy`, `AsyncOut`); code that does not catch behaves as the same code that does, by simulation (`ThreadCatches`, `NetworkCatches`); what is written stays below the schedules; then C92 |
| C95 | `Spec/Answering`: an answering server (`Answering`, with C82's `Serves`), calls that can be made one after the other (`Sayable`). Model: the blocking test's listener and session (`Model/TestApp`). Proof: the answers the listener gives depend on the callbacks so far only; a server whose listener is replaced by one that agrees on the callbacks that occur makes the same steps (`Proofs/ThreadReacts`, `NetworkReacts`), so the listener can be cut to answers that fit; then C94 and C82's bookkeeping of answers |
| C96 | `Spec/Reentrant`: a program outside of callbacks (`inTurn`), when code reads between frames (`BetweenFrames`), `Heard`, `StopsAtClose`. Model: the receiving functions with the callback as a parameter, user code in a callback that goes on with nested reads (`Model/Reentrant`). Proof: such callbacks are the last thing their frame does, so what they add can be moved behind the frame (`Proofs/Reentrant`, induction on depth, steps and frames); an invariant for the close (`ReentrantClose`); the bounds of the model are monotone (`ReentrantBound`). `C96_waits`, `C96_ends`, `C96_defined` (for reads in the middle of frames too): as for C97, by induction on the reads left, and on depth with the configuration kept (`ReentrantEnds`) |
| C97 | `Spec/Gateway`: layers (`Layered`), `Careful` code, `Like` (same receiving side), and C96's `Heard`. Model: the receiving functions on one of several sockets, with user code in callbacks and outside that picks the next operation of any socket (`Model/Gateway`). Proof: induction on depth; a callback of a socket follows the callback that does nothing (`Follow`), sockets of lower layers keep their receiving side, those of higher ones an invariant; then C91 frame by frame. What is written (`C97_written`, without layers): an invariant of the sending side of one socket (`Whole`: the frames of exactly the sends the thread has done (`World.did`, recorded when each begins), in order, with the random bytes in turn) that all receiving functions keep (`Tidy`), and `Proofs/SendFine`: over a connection that does not fail a send writes its frame or waits. The peer (`C97_peer`): the receiver of C24 on these frames. `C97_waits`, `C97_ends`: each function on a socket uses up reads and waits only for a connection (`Live`), by induction on depth, which the layers bound; without layers (`C97_waits_any`), the reads left bound it. `C97_told`: the list of all callbacks that the code decides by is, for each socket, what it has heard (`GatewayLog`). `C97_defined`: configurations stay, so each buffer is as long as what is read into it (`Defined`) |

None of the properties is "not applicable"; those touching the runtime are modelled at the logic level and
what the model cannot show is stated with the claim.

## Trusted base

### Logic

* The Lean 4.33.0 kernel. No axioms are added. Every theorem depends on a subset of Lean's three standard axioms `propext`,
  `Classical.choice`, `Quot.sound`; AXIOMS.md lists the set for each theorem of MANIFEST.json (generated by tools/axioms.py).
* No compiled evaluation is trusted: `decide` and `decide +kernel` are evaluated by the kernel.
* The specifications in `Verif/Spec` say what the English means (RFC 6455 frame layout and parser, FIPS 180-4, RFC 4648,
  deliveries and callbacks, schedules, histories). They do not call model functions, with two exceptions that are needed to talk about
  executions at all: `Spec/Loop`, `Spec/Fragmentation` (repeated `iterateFrame` calls) and `Spec/Async`, `Spec/Exec` (executions of the pool machine).
* The reading of /repo as text. Each model definition cites the lines it stands for.

### Modelled code

| file | modelled | not modelled |
|---|---|---|
| Frame.hpp, Frame.cpp | constants, `packHeaderBits`, `unpackHeaderBits` | - |
| Config.hpp | both members and defaults | - |
| Utils.cpp | `generateMaskForFrame`, `generateKey` | the quality of `Random` (the bytes are a parameter) |
| WebSocket.hpp/.cpp | constructors, `setConfig`, `setListener`, `readFrameHeader`, `writeFrameHeader`, `readPayload`, `checkForContinuation`, `handleFrame`, `iterateFrame`, `listen`, `stopListening`, `sendFrameHeader`, all sends | logging, `getConnection`, `getConfig`, `getListener` (plain accessors); failure of `new`/`std::string` allocation (only the `new[]` of a negative size is modelled); the size of the C++ stack (callbacks inside each other, C96); data races: accesses are atomic in the programs of threads, and C62 says which uses have no race |
| AsyncWebSocket.hpp/.cpp | all coroutines as a machine of stacks, one transition per coroutine function; `sendOneFrameAsync` and its wrappers; `listenAsync` | sockets over a null connection (undefined in the code); `setListener` from another thread in the middle of one step; `std::shared_ptr` counts (ownership: "alive while the stack exists") |
| SHA1.hpp/.cpp | everything: 16-word blocks, the 80 rounds in place, padding, both `update`s, `fromFile`, `finalBinary`, reset | read errors of a `std::istream`; `update` of a null string; messages of 2^61 bytes and more (the 64-bit bit count) |
| Handshaker.cpp | `serversideHandshake`, `clientsideHandshake`, `clientsideConfirmHandshake`, with the exact headers, status codes and the connection handler put into the response | logging |
| Connector.cpp | `connect`, `connectAsync` | `HttpRequestExecutor` and connection provider (their results are parameters, their calls recorded) |
| ConnectionHandler.cpp | the life of `Task` objects: construction, moves, run, destruction; which callbacks; I/O modes; what the objects keep; the CPU range; a session's effect on the socket (`Model/Session`) | what the OS does with the CPU range, `detach`, `stop()` (empty) |
| test/oatpp-websocket (FullAsyncTest, AsyncWebSocketListener, FullTest, WebSocketListener) | the listeners of both tests' servers and clients, and what their sessions do (`Model/TestApp`; C92, C93, C95) | the test runner, components, endpoints and printing; assertions on handshake parameters |
| AsyncConnectionHandler.cpp | the life of `SocketCoroutine`s given to the executor; I/O modes; what the coroutines keep | `stop()` (the executor destroys coroutines: allowed at any time in C41, C64), the two constructors' choice of executor |

### Contracts of external code (oatpp core, C++ library), assumed

* Streams (`Model/Stream.lean`): bytes arrive in order; a low-level call moves 1..n bytes, or retries, returns 0, or fails; the exact-size
  loops. A call for which the environment has no further outcome waits for ever.
* Coroutines and executor (`Model/Async.lean`): the order of `start`, `next`, `finish`, propagation of errors, inline I/O;
  steps of one executor thread do not overlap. The executor's legality for socket coroutines: `Model/AsyncConnectionHandler.lean`.
* `oatpp::async::Lock` is not used by the code; nothing is assumed about fairness except where a theorem says so.
* HTTP header maps and `parseHeaderValueData` (`Spec/Http.lean`: `Http.Core`, a structure of laws; `Spec/HttpExample.lean` builds an
  instance, so the laws are consistent), Base64 = RFC 4648.
* `HttpRequestExecutor` (`Model/Client.lean`): answers with a response and may have read any number of bytes behind its head, which stay with the response
  object; only C87 depends on it, and says what happens for which read-ahead.
* `std::thread` may move the task any number of times, then runs it once on a new thread, and destroys all objects (`Model/ConnectionHandler.lean`).
* Integers: `v_int32`, `v_int64`, `v_uint16`, ... have their named sizes; conversions to narrower unsigned types are modulo; conversion of
  values of 2^63 and more to `v_int64` wraps (implementation-defined before C++20). Host byte order is a parameter, both orders are covered.

### What a theorem does and does not say

* "blocked" means: waiting in the transport for ever under this schedule. Time is not modelled.
* Theorems marked `_partial` prove less than the property; the full statement stands beside them as `Cnn_statement`, with `Cnn_violated`
  (its negation, proved from a concrete run) because the code does not have the property. `Cnn_actual` says what holds instead, for all inputs.
