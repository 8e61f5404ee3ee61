import Verif.Spec.Http
import Verif.Spec.FIPS180
import Verif.Spec.RFC4648
/-!
# The opening handshake (RFC 6455, sections 1.3 and 4), for the statements
-/

namespace OatWS.Http

/-- RFC 6455, 4.2.2 (5.4): the value of `Sec-WebSocket-Accept` for a key. -/
def acceptValue (key : Str) : Str :=
  RFC4648.encode (FIPS180.sha1 (key ++ ascii "258EAFA5-E914-47DA-95CA-C5AB0DC85B11"))

/-- The field occurs at most once. -/
def Once (h : Headers) (name : String) : Prop := (values h name).length ≤ 1

/-- The fields of a valid upgrade request (RFC 6455, 4.2.1, items 3-6; of the key only that it is there and not empty). -/
structure ValidRequest (core : Core) (h : Headers) : Prop where
  upgrade : ∃ v ∈ values h "Upgrade", Same v (ascii "websocket")
  connection : ∃ v ∈ values h "Connection", ∃ t ∈ core.tokens v, Same t (ascii "upgrade")
  version : ascii "13" ∈ values h "Sec-WebSocket-Version"
  key : ∃ k ∈ values h "Sec-WebSocket-Key", k ≠ []

/-- The names that matter in a request. -/
def requestNames : List String := ["Upgrade", "Connection", "Sec-WebSocket-Version", "Sec-WebSocket-Key"]

/-- The names that matter in a response. -/
def responseNames : List String := ["Upgrade", "Connection", "Sec-WebSocket-Version", "Sec-WebSocket-Accept"]

/-- The fields with these names have arrived as they were sent, in any order; others may have been added, changed or lost on the way. -/
def Carried (names : List String) (sent received : Headers) : Prop :=
  ∀ n ∈ names, (values received n).Perm (values sent n)

/-- The headers of the response for a key (RFC 6455, 4.2.2). -/
def responseHeaders (key : Str) : Headers :=
  [(ascii "Upgrade", ascii "websocket"), (ascii "Connection", ascii "Upgrade"), (ascii "Sec-WebSocket-Accept", acceptValue key)]

/-- The fields that must be there: no version, the right `Upgrade` and `Connection`, an accept value, and a key in the request. -/
structure Fields (client : Headers) (response : Headers) : Prop where
  version : values response "Sec-WebSocket-Version" = []
  upgrade : ∃ v ∈ values response "Upgrade", Same v (ascii "websocket")
  connection : ∃ v ∈ values response "Connection", Same v (ascii "upgrade")
  accept : values response "Sec-WebSocket-Accept" ≠ []
  key : values client "Sec-WebSocket-Key" ≠ []

end OatWS.Http
