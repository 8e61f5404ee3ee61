import Verif.Spec.Moment
/-! # Messages in fragments: what a sequence of calls says -/

namespace OatWS

/-- What may be called next, if a message in fragments has been begun before (`begun`) or not: a ping or pong of at most 125 bytes always; a text or binary message, whole or its first fragment,
if not; a further fragment if so. (The library refuses a second message after one in fragments, also after the last fragment: C13, C50.) -/
def SendCall.fits (begun : Bool) : SendCall → Prop
  | .text _ => begun = false
  | .binary _ => begun = false
  | .ping m => (m.getD []).length ≤ 125
  | .pong m => (m.getD []).length ≤ 125
  | .oneFrame _ op _ => (op = 0 ∧ begun = true) ∨ ((op = 1 ∨ op = 2) ∧ begun = false)
  | _ => False

/-- Does the call begin a message in fragments? -/
def SendCall.begins : SendCall → Bool
  | .oneFrame fin _ _ => !fin
  | _ => false

/-- The calls, one after the other. -/
def FitAll : Bool → List SendCall → Prop
  | _, [] => True
  | begun, c :: cs => c.fits begun ∧ FitAll (begun || c.begins) cs

/-- Messages, one of them perhaps in fragments, pings and pongs; ended or not by a close. -/
structure Speech (cs last : List SendCall) : Prop where
  fits : FitAll false cs
  ends : last = [] ∨ ∃ c, last = [c] ∧ c.isClose
  small : ∀ c ∈ cs ++ last, c.content.2.2.length < 2 ^ 63

/-- What the calls say, if `acc` is the data of the fragments before: the messages, in the order in which they are complete, and the data of a message that is not. (The opcode is that of the
last fragment, 0: C14.) -/
def told : List UInt8 → List SendCall → List Msg × List UInt8
  | acc, [] => ([], acc)
  | acc, .oneFrame false _ m :: r => told (acc ++ m.getD []) r
  | acc, .oneFrame true op m :: r => (.data op (acc ++ m.getD []) :: (told [] r).1, (told [] r).2)
  | acc, c :: r => (c.msg :: (told acc r).1, (told acc r).2)

/-- The data of a text or binary message, or of a fragment. -/
def SendCall.data : SendCall → Option (List UInt8)
  | .text m => some (m.getD [])
  | .binary m => some (m.getD [])
  | .oneFrame _ _ m => some (m.getD [])
  | _ => none

namespace Network

/-- The callbacks `evs`, all of listener `l`, say exactly what the first `n` calls say, and then `part`, which is at most a part from the beginning of the data of the next one. -/
structure HeardUpTo (calls : List SendCall) (l n : Nat) (part : List UInt8) (evs : List Event) : Prop where
  to : ∀ e ∈ evs, e.to = l
  le : n ≤ calls.length
  heard : reassemble [] evs = ((told [] (calls.take n)).1, (told [] (calls.take n)).2 ++ part)
  part : part = [] ∨ ∃ c d, calls[n]? = some c ∧ c.data = some d ∧ part <+: d

/-- The callbacks `evs`, all of listener `l`, say exactly what the calls say. -/
structure HeardWhole (calls : List SendCall) (l : Nat) (evs : List Event) : Prop where
  to : ∀ e ∈ evs, e.to = l
  heard : reassemble [] evs = told [] calls

end Network
end OatWS
