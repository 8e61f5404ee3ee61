import Verif.Model.Client
import Verif.Props.Send
import Verif.Spec.Messages
/-! # A client: what the HTTP executor has read behind the response -/

namespace OatWS.Client
open RFC6455

/-- The socket of the server (`s`, when its response has been written) makes the sends `cs1`, then `cs2` and perhaps a close (`last`), all successful. All it has written has arrived at the client, whose executor has read
everything up to the response, and behind it exactly the frames of `cs1`. -/
structure ReadAhead (envS : Env) (s : Sock) (cs1 cs2 last : List SendCall) (x : Exchange) : Prop where
  messages : ∀ c ∈ cs2, c.isMessage
  close : last = [] ∨ ∃ c, last = [c] ∧ c.isClose
  sent : ∃ s1 s2, SucceedAll envS cs1 s s1 ∧ SucceedAll envS (cs2 ++ last) s1 s2 ∧ s1.out.written = s.out.written ++ x.ahead ∧
    s2.out.written = s.out.written ++ x.ahead ++ x.after.inp.bytes

/-- The first bytes of an unmasked frame, up to its payload: 2, 4 or 10. -/
def headerBytes (n : Nat) : Nat := if n ≤ 125 then 2 else if n ≤ 65535 then 4 else 10

end OatWS.Client
