import Verif.Spec.Session
/-! # What has been heard at any moment, whatever breaks -/

namespace OatWS

/-- Nobody calls a send after one has failed. -/
def Async.Resigned (log : List Async.Entry) : Prop := ∀ x e y, log = x ++ e :: y → e.failed = true → ∀ e' ∈ y, e'.called = none

/-- The callbacks `evs`, all of listener `l`, say exactly the messages of the first `n` calls, in order, and at most a part from the beginning (perhaps all: then only the end is not yet told) of
the data of the next one, which then is a text or binary message. -/
structure Network.HeardSome (calls : List SendCall) (l n : Nat) (evs : List Event) : Prop where
  to : ∀ e ∈ evs, e.to = l
  le : n ≤ calls.length
  messages : (reassemble [] evs).1 = (calls.take n).map SendCall.msg
  part : (reassemble [] evs).2 = [] ∨ ∃ c d, calls[n]? = some c ∧ (c.msg = .text d ∨ c.msg = .binary d) ∧ (reassemble [] evs).2 <+: d

end OatWS
