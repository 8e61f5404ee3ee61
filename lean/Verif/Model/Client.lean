import Verif.Model.Connector
import Verif.Model.Session
/-!
# From `connect` to the WebSocket of a client

What the application of a client does (README.md of the project: `connector->connect(...)`, `WebSocket::createShared(connection, true)`,
`setListener`, `listen`), over a connection with a state: bytes that have arrived and bytes written.

External (oatpp core): `HttpRequestExecutor::execute` writes the request to the connection and reads the response from it. It reads in portions; what it
has read behind the response's head stays with the `Response` object (its body stream). It is a parameter here (`Exchange`).
-/

namespace OatWS.Client
open Http Handshake Connector

/-- A connection, as its two streams. External (`oatpp::data::stream::IOStream`). -/
structure Conn where
  inp : InStream
  out : OutStream

/-- What `m_requestExecutor.execute` / `executeAsync` (Connector.cpp:55, :111; external) returns and leaves behind: the response, the bytes it has taken from the connection behind
the head of the response, and the connection. -/
structure Exchange where
  response : Response
  ahead : List UInt8
  after : Conn

/-- `Connector::connect` (Connector.cpp:37-71) over the connection `c0`: the connection as the caller gets it, `none` if an exception is thrown. The connection is only touched by the executor;
the `response`, with what was read ahead, is a local variable (:55) that is dropped. -/
def connectOver (core : Core) (host : Endian) (c0 : Conn) (execute : Ev Conn → Except String Exchange) (random : List UInt8) (path : Str) (headers : Headers) : Option Conn :=
  match connect core host (.ok (some c0)) (fun request => (execute request).map Exchange.response) random path headers with
  | ([_, request], .returned (some _)) =>
    match execute request with
    | .ok x => some x.after
    | .error _ => none
  | _ => none

/-- The same for `connectAsync` (Connector.cpp:73-134): `m_connection` is stored in :105 and returned in :118; `response` is dropped at the end of `onServerResponse`. -/
def connectOverAsync (core : Core) (host : Endian) (c0 : Conn) (execute : Ev Conn → Except String Exchange) (random : List UInt8) (path : Str) (headers : Headers) : Option Conn :=
  let request := Ev.request "GET" path (allHeaders headers random) (some c0)
  match connectAsync core host random path headers [.start, .provided (.ok (some c0)), .responded ((execute request).map Exchange.response)] with
  | some (.ended (.returned (some _)), _) =>
    match execute request with
    | .ok x => some x.after
    | .error _ => none
  | _ => none

/-- `WebSocket::createShared(connection, mask)` / `AsyncWebSocket::createShared(connection, mask)` (WebSocket.hpp:153-155, WebSocket.cpp:46-53, AsyncWebSocket.hpp:183-185, AsyncWebSocket.cpp:45-52), then any `setListener`, `setConfig` (WebSocket.cpp:55-57, WebSocket.hpp:175-177, AsyncWebSocket.cpp:54-56, AsyncWebSocket.hpp:205-207). -/
def socket (mask : Bool) (settings : List Async.Setting) (c : Conn) : St :=
  { sock := settings.foldl Async.Setting.apply (Sock.newMask mask c.out), inp := c.inp }

/-- A client's threads: one calls `listen` (WebSocket.cpp:280-296), others use the socket. -/
def threads (env : Env) (fuel : Nat) (mask : Bool) (settings : List Async.Setting) (h : Header) (others : List (Threads.Prog Unit)) (c : Conn) : Threads.Pool :=
  ⟨Threads.listenT env fuel h :: others, socket mask settings c⟩

/-- A client's tasks: one is `listenAsync` (AsyncWebSocket.cpp:430-460), others use the socket. -/
def tasks (mask : Bool) (settings : List Async.Setting) (h : Header) (others : List Async.Outcome) (c : Conn) : Async.Pool :=
  ⟨.run (Async.listenTask h) :: others, { st := socket mask settings c }⟩

end OatWS.Client
