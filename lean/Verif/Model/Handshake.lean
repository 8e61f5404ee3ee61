import Verif.Model.SHA1
import Verif.Spec.Http
import Verif.Spec.RFC4648
/-!
# `Handshaker.hpp`, `Handshaker.cpp`, `Utils::generateKey`

External: `Base64::encode` (oatpp core) is taken to be RFC 4648's base 64; `Headers`, `parseHeaderValueData`: `Http.Core`;
`Random::randomBytes`: the bytes are a parameter. Errors of memory allocation are not modelled.
-/

namespace OatWS.Handshake
open Http

/-- `MAGIC_UUID` (Handshaker.cpp:34) -/
def magicUUID : Str := ascii "258EAFA5-E914-47DA-95CA-C5AB0DC85B11"

/-- Lines 52-55 and 103-106: `SHA1 sha1; sha1.update(key + MAGIC_UUID); Base64::encode(sha1.finalBinary())`.
Handshaker.cpp:52-55, 104-107. -/
def acceptFor (host : Endian) (key : Str) : Str :=
  RFC4648.encode (SHA1.finalBinary host (SHA1.update host SHA1.reset (key ++ magicUUID))).1

/-- What `serversideHandshake` makes: a response, or an `HttpError`. `handler`: the `ConnectionHandler` given (`H` is whatever identifies
it). Handshaker.cpp:36-80. -/
inductive ServerResult (H : Type) where
  | response (status : Nat) (headers : Headers) (upgradeHandler : H)
  | error (status : Nat) (message : String)

/-- `Handshaker::serversideHandshake` (Handshaker.cpp:36-80). -/
def serversideHandshake (core : Core) (host : Endian) (request : Headers) (handler : H) : ServerResult H :=
  let version := core.get request "Sec-WebSocket-Version"                          -- :38
  let upgrade := core.get request "Upgrade"                                        -- :39
  let connection := core.get request "Connection"                                  -- :40
  let key := core.get request "Sec-WebSocket-Key"                                  -- :41
  match upgrade, connection, version, key with
  | some upgrade, some connection, some version, some key =>
    if key.length > 0 ∧ Same upgrade (ascii "websocket") then                      -- :43
      if ∃ t ∈ core.tokens connection, Same t (ascii "Upgrade") then               -- :45-48
        if version = ascii "13" then                                               -- :50
          .response 101                                                            -- :57
            [(ascii "Upgrade", ascii "websocket"),                                 -- :59
             (ascii "Connection", ascii "Upgrade"),                                -- :60-61
             (ascii "Sec-WebSocket-Accept", acceptFor host key)] handler           -- :62-63
        else .error 400 "Websocket upgrade unsupported protocol version. Supported websocket versions: [13]"     -- :69-70
      else .error 400 "Websocket upgrade 'Upgrade' header missing"                 -- :74
    else .error 400 "Websocket upgrade invalid headers."                           -- :78
  | _, _, _, _ => .error 400 "Websocket upgrade invalid headers."                  -- :78

/-- `Utils::generateKey` (Utils.cpp:35-39). `random`: the 16 bytes from `Random::randomBytes`. -/
def generateKey (random : List UInt8) : Str := RFC4648.encode random

/-- `Handshaker::clientsideHandshake` (Handshaker.cpp:82-87): `put` inserts into the multimap (it does not replace). -/
def clientsideHandshake (request : Headers) (random : List UInt8) : Headers :=
  request ++ [(ascii "Upgrade", ascii "websocket"), (ascii "Connection", ascii "Upgrade"), (ascii "Sec-WebSocket-Version", ascii "13"),
    (ascii "Sec-WebSocket-Key", generateKey random)]

/-- The statuses of Handshaker.hpp:45-61. -/
inductive Status where
  | ok | serverError | serverWrongKey | unknownProtocolSuggested
deriving DecidableEq, Repr

/-- The `v_int32` (Handshaker.hpp:45-61). -/
def Status.code : Status → Int
  | .ok => 0 | .serverError => 1 | .serverWrongKey => 2 | .unknownProtocolSuggested => 3

/-- The incoming response: status code and headers. Used at Handshaker.cpp:89-121. -/
structure Response where
  status : Int
  headers : Headers

/-- `Handshaker::clientsideConfirmHandshake` (Handshaker.cpp:89-123). -/
def clientsideConfirmHandshake (core : Core) (host : Endian) (client : Headers) (response : Response) : Status :=
  if response.status = 101 then                                                    -- :91
    let version := core.get response.headers "Sec-WebSocket-Version"               -- :95
    let upgrade := core.get response.headers "Upgrade"                             -- :96
    let connection := core.get response.headers "Connection"                       -- :97
    let accept := core.get response.headers "Sec-WebSocket-Accept"                 -- :98
    let clientKey := core.get client "Sec-WebSocket-Key"                           -- :100
    match version, upgrade, connection, accept, clientKey with                     -- :102
    | none, some upgrade, some connection, some accept, some clientKey =>
      if Same upgrade (ascii "websocket") ∧ Same connection (ascii "upgrade") then
        if acceptFor host clientKey = accept then .ok                              -- :104-110
        else .serverWrongKey                                                       -- :112
      else .unknownProtocolSuggested                                               -- :116
    | _, _, _, _, _ => .unknownProtocolSuggested                                   -- :116
  else .serverError                                                                -- :120

end OatWS.Handshake
