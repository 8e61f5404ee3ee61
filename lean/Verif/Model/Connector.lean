import Verif.Model.Handshake
/-!
# `Connector.cpp`

External (oatpp core): `ClientConnectionProvider::get/getAsync` and `HttpRequestExecutor::execute/executeAsync`. Their results are parameters;
what is passed to them is recorded (`Ev`). A `ResourceHandle` is `Option C` (`none`: the null handle); `ConnectionProxy` and
`HttpConnectionHandle` (core) only wrap it.
-/

namespace OatWS.Connector
open Http Handshake

/-- Calls into oatpp core, with their arguments. Connector.cpp:39, 55, 100, 111. -/
inductive Ev (C : Type) where
  /-- `m_connectionProvider->get()` / `getAsync()` -/
  | getConnection
  /-- `m_requestExecutor.execute(method, path, headers, nullptr, handle)` / `executeAsync` -/
  | request (method : String) (path : Str) (headers : Headers) (connection : Option C)
deriving DecidableEq, Repr

/-- How a call ends. Connector.cpp:41, 59, 62-68. -/
inductive Outcome (C : Type) where
  | returned (connection : Option C)
  | threw (message : String)
deriving DecidableEq, Repr

/-- Connector.cpp:47-52 and 90-95: the application's headers are copied (`put` one by one). `clientsideHandshake` (:54, :109) then adds its four. -/
def allHeaders (headers : Headers) (random : List UInt8) : Headers := clientsideHandshake headers random

/-- Connector.cpp:58-69 -/
def finish (core : Core) (host : Endian) (sent : Headers) (response : Response) (connection : Option C) : Outcome C :=
  match clientsideConfirmHandshake core host sent response with
  | .ok => .returned connection
  | .serverError => .threw "[oatpp::web::client::Connector::connectAndHandshake()]: Server responded with invalid code"
  | .serverWrongKey => .threw "[oatpp::web::client::Connector::connectAndHandshake()]: Server wrong handshake key"
  | .unknownProtocolSuggested => .threw "[oatpp::web::client::Connector::connectAndHandshake()]: Server response contains unexpected headers"

/-- `Connector::connect` (Connector.cpp:37-71). `provided`: the result of `get()` (`error`: it throws); `execute`: what the request executor answers
(`error`: it throws). -/
def connect (core : Core) (host : Endian) (provided : Except String (Option C)) (execute : Ev C → Except String Response) (random : List UInt8)
    (path : Str) (headers : Headers) : List (Ev C) × Outcome C :=
  match provided with                                                              -- :39
  | .error e => ([.getConnection], .threw e)
  | .ok none =>                                                                    -- :40-42
    ([.getConnection], .threw "[oatpp::web::client::Connector::connectAndHandshake()]: Can't connect. Call to ConnectionProvider::get() failed.")
  | .ok (some c) =>
    let sent := allHeaders headers random                                          -- :47-54
    let request := Ev.request "GET" path sent (some c)                             -- :55
    match execute request with
    | .error e => ([.getConnection, request], .threw e)
    | .ok response => ([.getConnection, request], finish core host sent response (some c))   -- :56-69

/-! ## `connectAsync` -/

/-- The coroutine's methods (`act`, `onConnected`, `onServerResponse`: Connector.cpp:99-130) are called one after the other; in between the
coroutine waits for oatpp core. -/
inductive Stage (C : Type) where
  /-- constructed (:86-97): the application's headers are copied -/
  | created
  /-- waiting for `getAsync()` (:100) -/
  | connecting
  /-- waiting for `executeAsync` (:111): the headers sent and the connection stored -/
  | requesting (sent : Headers) (connection : Option C)
  | ended (o : Outcome C)
deriving DecidableEq, Repr

/-- What the executor and oatpp core do with the coroutine.
External; what it calls is Connector.cpp:99, 103, 115. -/
inductive Input (C : Type) where
  /-- the executor calls `act` -/
  | start
  /-- `getAsync()` ends: with a handle, or with an error -/
  | provided (r : Except String (Option C))
  /-- `executeAsync` ends: with a response, or with an error -/
  | responded (r : Except String Response)

/-- `onServerResponse` (Connector.cpp:115-130). -/
def finishAsync (core : Core) (host : Endian) (sent : Headers) (response : Response) (connection : Option C) : Outcome C :=
  match clientsideConfirmHandshake core host sent response with
  | .ok => .returned connection
  | .serverError => .threw "[oatpp::web::client::Connector::connectAsync(){ConnectCoroutine}]: Server responded with invalid code"
  | .serverWrongKey => .threw "[oatpp::web::client::Connector::connectAsync(){ConnectCoroutine}]: Server wrong handshake key"
  | .unknownProtocolSuggested => .threw "[oatpp::web::client::Connector::connectAsync(){ConnectCoroutine}]: Server response contains unexpected headers"

/-- One step. `none`: it does not happen (oatpp core calls the methods in this order; an error of a called coroutine ends the calling one, which
has no `handleError`). -/
def step (core : Core) (host : Endian) (random : List UInt8) (path : Str) (headers : Headers) : Stage C → Input C → Option (Stage C × List (Ev C))
  | .created, .start => some (.connecting, [.getConnection])                        -- :99-101
  | .connecting, .provided (.error e) => some (.ended (.threw e), [])
  | .connecting, .provided (.ok connection) =>                                      -- :103-113
    let sent := allHeaders headers random
    some (.requesting sent connection, [.request "GET" path sent connection])
  | .requesting _ _, .responded (.error e) => some (.ended (.threw e), [])
  | .requesting sent connection, .responded (.ok response) => some (.ended (finishAsync core host sent response connection), [])
  | _, _ => none

/-- A run of the coroutine, from its construction; it may stop anywhere (the executor may drop it).
Connector.cpp:75-130. -/
def run (core : Core) (host : Endian) (random : List UInt8) (path : Str) (headers : Headers) : Stage C → List (Input C) → Option (Stage C × List (Ev C))
  | s, [] => some (s, [])
  | s, i :: is =>
    match step core host random path headers s i with
    | none => none
    | some (s', ev) =>
      match run core host random path headers s' is with
      | none => none
      | some (s'', ev') => some (s'', ev ++ ev')

/-- `connectAsync` (Connector.cpp:73-134). -/
def connectAsync (core : Core) (host : Endian) (random : List UInt8) (path : Str) (headers : Headers) (is : List (Input C)) :
    Option (Stage C × List (Ev C)) := run core host random path headers .created is

end OatWS.Connector
