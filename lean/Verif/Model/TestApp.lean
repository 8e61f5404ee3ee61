import Verif.Model.Client
import Verif.Model.Session
/-! The application of the project's own asynchronous test: test/oatpp-websocket/FullAsyncTest.cpp and test/oatpp-websocket/app/AsyncWebSocketListener.hpp. -/

namespace OatWS.TestApp
open Async

/-- A listener class (subclass of `AsyncWebSocket::Listener`, AsyncWebSocket.hpp:56-120): its data members, and what a callback does with them and starts on the socket.
Simplified: what a callback returns (a `CoroutineStarter`) is the list of sends it starts. -/
structure ListenerClass (σ : Type) where
  init : σ
  on : σ → Event → σ × List UserOp

/-- The members of a listener after the callbacks `tr`. Not from /repo: C++ member updates. -/
def ListenerClass.state {σ : Type} (c : ListenerClass σ) (tr : List Event) : σ := tr.foldl (fun s e => (c.on s e).1) c.init

/-- The run with a listener of this class installed. Not from /repo: virtual dispatch to the installed object (AsyncWebSocket.cpp:272, 301, 312, 405, 412, 419). -/
def ListenerClass.env {σ : Type} (c : ListenerClass σ) (base : Env) : Env := { base with react := fun tr =>
  match tr.getLast? with
  | some e => (c.on (c.state tr.dropLast) e).2
  | none => [] }

/-- The literal "Hello from oatpp!: " (test/oatpp-websocket/app/AsyncWebSocketListener.hpp:34). -/
def hello : List UInt8 := "Hello from oatpp!: ".toList.map fun c => UInt8.ofNat c.toNat

/-- The server's listener (test/oatpp-websocket/app/AsyncWebSocketListener.hpp:13-41); the state is `m_messageBuffer`.
Simplified: the buffer grows without limit of memory. -/
def AsyncWebSocketListener : ListenerClass (List UInt8) where
  init := []
  on buffer
    | .onPing _ message => (buffer, [.send (.pong (some message)) false])
    | .onPong _ _ => (buffer, [])
    | .onClose _ _ _ => (buffer, [.send .closeEmpty false])
    | .readMessage _ _ data =>
      if data.length = 0 then ([], [.send (.text (some (hello ++ buffer))) false])
      else (buffer ++ data, [])

/-- The client's listener (test/oatpp-websocket/FullAsyncTest.cpp:111-154); the state is `m_messageBuffer` and `m_messageCounter` (a `v_int32`, here unbounded).
Left out: printing. -/
def ClientSocketListener : ListenerClass (List UInt8 × Nat) where
  init := ([], 0)
  on s
    | .onPing _ message => (s, [.send (.pong (some message)) false])
    | .onPong _ _ => (s, [])
    | .onClose _ _ _ => (s, [])
    | .readMessage _ _ data =>
      if data.length = 0 then (([], s.2 + 1), [])
      else ((s.1 ++ data, s.2), [])

/-- The client's `ClientSenderCoroutine` (test/oatpp-websocket/FullAsyncTest.cpp:156-177): one text message after the other, then a close. More general: the messages are any `ms`, not all "hello!". -/
def senderOps (ms : List (List UInt8)) : List UserOp := (ms.map fun m => .send (.text (some m)) false) ++ [.send .closeEmpty false]

/-- The literal "hello!" (test/oatpp-websocket/FullAsyncTest.cpp:172). -/
def helloMessage : List UInt8 := "hello!".toList.map fun c => UInt8.ofNat c.toNat

/-- What the test's `ClientSenderCoroutine` sends with `m_messagesPerClient = n` (test/oatpp-websocket/FullAsyncTest.cpp:169-175). -/
def testMessages (n : Nat) : List (List UInt8) := List.replicate n helloMessage

/-- `ClientCoroutine::onConnected` (test/oatpp-websocket/FullAsyncTest.cpp:200-206): a masking socket on the connection `c`, its listener (number `l`), the sender in its own task, and `listenAsync`.
Simplified: `ClientCoroutine` itself, below `listenAsync` on the stack of the first task, is left out; it goes on with `onFinishListen` (:208-212) when `listenAsync` has finished. -/
def client (l : Nat) (h : Header) (ms : List (List UInt8)) (c : Client.Conn) : Pool := Client.tasks true [.listener (some l)] h [.run (userTask (senderOps ms))] c

/-- The server's session: `AsyncWebSocketInstanceListener::onAfterCreate_NonBlocking` installs the listener (test/oatpp-websocket/app/AsyncWebSocketListener.hpp:70-79); the library starts `listenAsync` (AsyncConnectionHandler.cpp:80-86).
Left out: the test's counter of connections and its assertions on the handshake's parameters. -/
def server (l : Nat) (h : Header) (sched : List IoOutcome) (out : OutStream) : Pool := newSession [.listener (some l)] h [] ⟨[], sched⟩ out

/-! The application of the project's own blocking test: test/oatpp-websocket/FullTest.cpp and test/oatpp-websocket/app/WebSocketListener.hpp. -/

/-- The literal "Hello from oatpp! Your message was: " (test/oatpp-websocket/app/WebSocketListener.hpp:45, test/oatpp-websocket/FullTest.cpp:127). -/
def yourMessage : List UInt8 := "Hello from oatpp! Your message was: ".toList.map fun c => UInt8.ofNat c.toNat

/-- The listener of the blocking test (test/oatpp-websocket/app/WebSocketListener.hpp:15-52; the client's, test/oatpp-websocket/FullTest.cpp:97-134, is the same); the state is `m_messageBuffer`.
Simplified: the buffer grows without limit of memory; when the send throws, the buffer is not emptied (:46 is not reached), but then the exception leaves `listen` and there is no further callback. -/
def WebSocketListener : ListenerClass (List UInt8) where
  init := []
  on buffer
    | .onPing _ _ => (buffer, [.send (.pong (some [])) false])
    | .onPong _ _ => (buffer, [])
    | .onClose _ _ _ => (buffer, [])
    | .readMessage _ _ data =>
      if data.length = 0 then ([], [.send (.text (some (yourMessage ++ buffer))) false])
      else (buffer ++ data, [])

/-- The blocking server's session: `WebSocketInstanceListener::onAfterCreate` installs the listener, `onBeforeDestroy` only logs (test/oatpp-websocket/app/WebSocketListener.hpp:54-78, test/oatpp-websocket/FullTest.cpp:75-79);
the library listens in the thread of the connection (ConnectionHandler.cpp:45-56, 64-72, 87). -/
def threadedServer (env : Env) (fuel l : Nat) (h : Header) (sched : List IoOutcome) (out : OutStream) : Threads.Pool := Threads.newSession env fuel [.setListener (some l)] h [] [] ⟨[], sched⟩ out

end OatWS.TestApp
