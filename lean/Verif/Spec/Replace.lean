import Verif.Spec.Messages
/-! # Which listener is current -/

namespace OatWS

/-- The listener after the operations of a callback, when it was `l` before: the one set last. -/
def lastSet : Option Nat → List UserOp → Option Nat
  | l, [] => l
  | _, .setListener l' :: ops => lastSet l' ops
  | l, .stopListening :: ops => lastSet l ops
  | l, .setConfig _ :: ops => lastSet l ops
  | l, .send _ _ :: ops => lastSet l ops
  | l, .throw :: ops => lastSet l ops

/-- The listener after the callbacks `evs` (made after those in `tr`) and everything done in them, when it was `l` before. -/
def currentListener (env : Env) : Option Nat → List Event → List Event → Option Nat
  | l, _, [] => l
  | l, tr, e :: evs => currentListener env (lastSet l (env.react (tr ++ [e]))) (tr ++ [e]) evs

end OatWS
