import Verif.Spec.Sockets
/-!
# `ConnectionHandler.cpp`: the threaded server

`handleConnection` makes a `Task` object and gives it to `std::thread`, which moves it to where the new thread finds it. The model has the `Task` objects
in memory, and the operations on them one by one; which operations the standard library does, and when, is up to it (`legal`).

The I/O modes (ConnectionHandler.cpp:83-84) and thread affinity (:89-96) are in `Model/ConnectionIO`. Not modelled: `detach` (:98: the thread object does not own the task). A listener's
exception in `onBeforeDestroy` or out of `listen()` ends the program (`std::terminate`).
-/

namespace OatWS.Server

/-- `class Task` (ConnectionHandler.cpp:36-40). `m_params` is never read after construction. `none`: null. Sockets and connections are shared pointers:
numbers here. -/
structure Task (L : Type) where
  connection : Option Nat
  listener : Option L
  socket : Option Nat
deriving DecidableEq, Repr

/-- The handler's `m_listener` (ConnectionHandler.hpp), the `Task` objects in memory, and the sockets created so far (the connection of each).
ConnectionHandler.hpp:71; ConnectionHandler.cpp:36-51. -/
structure Mem (L : Type) where
  listener : Option L
  slots : Nat → Option (Task L)
  sockets : List Nat

/-- Operations. `slot`, `src`, `dst`: where in memory. -/
inductive Op (L P : Type) where
  /-- `setSocketInstanceListener` (ConnectionHandler.hpp) -/
  | setListener (l : Option L)
  /-- `Task(connection, params, m_listener)` (:87): a temporary at `slot`; `throws`: the constructor throws (the listener's `onAfterCreate` does) -/
  | construct (slot : Nat) (connection : Nat) (params : P) (throws : Bool)
  | moveConstruct (src dst : Nat)
  | moveAssign (src dst : Nat)
  /-- the new thread calls `run` on the object -/
  | runBegin (slot : Nat)
  /-- ... and it returns -/
  | runEnd (slot : Nat)
  | destroy (slot : Nat)

/-- Not from /repo: a `Task` object (ConnectionHandler.cpp:36-81) is changed, created or destroyed. -/
def Mem.set (m : Mem L) (slot : Nat) (t : Option (Task L)) : Mem L := { m with slots := fun i => if i = slot then t else m.slots i }

/-- The empty (moved-from) task: moving from a `shared_ptr` or a `ResourceHandle` leaves it null.
ConnectionHandler.cpp:58-62, 74-79 move from `other`. -/
def Task.empty : Task L := ⟨none, none, none⟩

/-- One operation; `none`: undefined behaviour (an operation on an object that is not there, construction over an object, null dereference). -/
def step (m : Mem L) : Op L P → Option (Mem L × List (Ev L P))
  | .setListener l => some ({ m with listener := l }, [])
  | .construct slot connection params throws =>                                     -- :45-56
    match m.slots slot with
    | some _ => none
    | none =>
      let k := m.sockets.length
      let m' := { m with sockets := m.sockets ++ [connection] }                     -- :51: make_shared<WebSocket>(connection, false)
      match m.listener with
      | some l =>                                                                   -- :53-55
        if throws then some (m', [.afterCreate l k params true])                    -- the constructor does not complete: no destructor
        else some (m'.set slot (some ⟨some connection, some l, some k⟩), [.afterCreate l k params false])
      | none =>
        if throws then some (m', [])
        else some (m'.set slot (some ⟨some connection, none, some k⟩), [])
  | .moveConstruct src dst =>                                                       -- :58-62
    match m.slots src, m.slots dst with
    | some t, none => some ((m.set dst (some t)).set src (some Task.empty), [])
    | _, _ => none
  | .moveAssign src dst =>                                                          -- :74-79
    match m.slots src, m.slots dst with
    | some t, some _ => some ((m.set dst (some t)).set src (some Task.empty), [])
    | _, _ => none
  | .runBegin slot =>                                                               -- :70-72
    match m.slots slot with
    | some ⟨_, _, some k⟩ => some (m, [.listenBegin k])
    | _ => none
  | .runEnd slot =>
    match m.slots slot with
    | some ⟨_, _, some k⟩ => some (m, [.listenEnd k])
    | _ => none
  | .destroy slot =>                                                                -- :64-68
    match m.slots slot with
    | none => none
    | some t =>
      match t.listener with
      | none => some (m.set slot none, [])
      | some l =>
        match t.socket with
        | none => none
        | some k => some (m.set slot none, [.beforeDestroy l k])

/-- Not from /repo: operations on the `Task` objects of ConnectionHandler.cpp:36-87 one after the other. -/
def run (m : Mem L) : List (Op L P) → Option (Mem L × List (Ev L P))
  | [] => some (m, [])
  | o :: os =>
    match step m o with
    | none => none
    | some (m', tr) =>
      match run m' os with
      | none => none
      | some (m'', tr') => some (m'', tr ++ tr')

/-- A new handler (:30-32), no tasks. -/
def Mem.init : Mem L := ⟨none, fun _ => none, []⟩

/-! ## What the standard library may do -/

/-- An address: no object; an object that has been moved from; an object that has the task: new, running, or done.
Not from /repo: what the standard library does with the `Task` objects of ConnectionHandler.cpp:87. -/
inductive Status where
  | free | movedFrom | fresh | running | ran
deriving DecidableEq, Repr

/-- External (C++ standard): `std::thread(f, task)` constructs copies (by move) of what it is given, as many as it likes, starts a thread that calls `f` on the last
of them, once, or throws if it cannot start a thread; every object is destroyed some time after it was moved from, or, for the last one, after the call
(or without a call, if the thread was not started). Other connections' tasks are at other addresses. Moved-from objects could also be move-assigned to.
The objects are those of ConnectionHandler.cpp:87. -/
def legal (st : Nat → Status) : Op L P → Option (Nat → Status)
  | .setListener _ => some st
  | .construct slot _ _ throws => if st slot = .free then some (fun i => if i = slot then (if throws then .free else .fresh) else st i) else none
  | .moveConstruct src dst =>
    if st src = .fresh ∧ st dst = .free then some (fun i => if i = src then .movedFrom else if i = dst then .fresh else st i) else none
  | .moveAssign src dst =>
    if st src = .fresh ∧ st dst = .movedFrom then some (fun i => if i = src then .movedFrom else if i = dst then .fresh else st i) else none
  | .runBegin slot => if st slot = .fresh then some (fun i => if i = slot then .running else st i) else none
  | .runEnd slot => if st slot = .running then some (fun i => if i = slot then .ran else st i) else none
  | .destroy slot =>
    if st slot = .fresh ∨ st slot = .ran ∨ st slot = .movedFrom then some (fun i => if i = slot then .free else st i) else none

/-- Not from /repo: `legal` for all operations (ConnectionHandler.cpp:87). -/
def legalRun (st : Nat → Status) : List (Op L P) → Option (Nat → Status)
  | [] => some st
  | o :: os =>
    match legal st o with
    | none => none
    | some st' => legalRun st' os

/-- At first there are no objects.
Not from /repo (before the first ConnectionHandler.cpp:87). -/
def noObjects : Nat → Status := fun _ => .free

end OatWS.Server
