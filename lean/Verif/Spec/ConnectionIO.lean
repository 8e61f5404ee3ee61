import Verif.Spec.Sockets
/-!
# I/O modes of connections (for C64)

External (oatpp core): a connection has an input and an output mode, which anyone who has it can set.
-/

namespace OatWS.Server

inductive IOMode where
  | blocking | asynchronous
deriving DecidableEq, Repr

inductive Dir where
  | input | output
deriving DecidableEq, Repr

/-- What happens to connections and sockets. -/
inductive IoEv (L P : Type) where
  /-- `setInputStreamIOMode` / `setOutputStreamIOMode` of the connection -/
  | mode (connection : Nat) (d : Dir) (m : IOMode)
  | ev (e : Ev L P)
deriving DecidableEq, Repr

/-- An operation of the handler, or somebody else sets a mode. -/
inductive Act (O : Type) where
  | op (o : O)
  | outside (connection : Nat) (d : Dir) (m : IOMode)

/-- The handler's operations. -/
def ops : List (Act O) → List O
  | [] => []
  | .op o :: as => o :: ops as
  | .outside _ _ _ :: as => ops as

/-- The mode the connection's direction `d` is in after `tr`, if it was set at all. -/
def lastMode (c : Nat) (d : Dir) : List (IoEv L P) → Option IOMode
  | [] => none
  | e :: tr =>
    match lastMode c d tr with
    | some m => some m
    | none => match e with
      | .mode c' d' m => if c' = c ∧ d' = d then some m else none
      | .ev _ => none

/-- Nobody else sets the modes of a connection after it has been handed to the handler (`handedOver`: the connections given to the handler by a list of operations). -/
def LeftAlone (handedOver : List O → List Nat) (as : List (Act O)) : Prop :=
  ∀ before c d m after, as = before ++ .outside c d m :: after → c ∉ handedOver (ops before)

end OatWS.Server
