import Verif.Spec.Concurrent
import Verif.Spec.Races
/-!
# Data races on the members of an asynchronous socket

An executor of oatpp has several worker threads; coroutines on different workers run at the same time. What one function call of a coroutine accesses of what
coroutines share is given here, read off AsyncWebSocket.cpp; `C75_reads`, `C75_writes` prove that the model accesses nothing else.
-/

namespace OatWS.Async
open Threads (Loc)

/-- What one function call of the coroutine accesses, and whether it changes it (`true`) or only reads it. The buffers for received data belong to one coroutine each; the random source and
the allocator are thread safe; calls of the listener are the user's own code. -/
def Co.touches (l : Local) : Co → List (Loc × Bool)
  | .listen => if l.hdr.opcode ≠ OPCODE_CLOSE then [(.listener, false)] else []                        -- AsyncWebSocket.cpp:445-450, 349
  | .readFrame c =>                                                                                    -- :93-143
    match c.pc with
    | .act => [(.input, true)]
    | .readLen => [(.input, true)]
    | .readMask => [(.input, true)]
    | _ => []
  | .handleFrame c =>                                                                                  -- :352-392, with 58-68, 236-252
    match c.pc with
    | .act =>
      if l.hdr.opcode = OPCODE_CONTINUATION then [(.lastOpcode, false), (.config, false), (.listener, false)]
      else if l.hdr.opcode = OPCODE_TEXT ∨ l.hdr.opcode = OPCODE_BINARY then [(.lastOpcode, true), (.config, false), (.listener, false)]
      else [(.config, false), (.listener, false)]
    | _ => []
  | .readPayload c =>                                                                                  -- :258-324
    match c.pc with
    | .act => [(.config, false)]
    | .readData => [(.input, true)]
    | _ => []
  | .user c =>
    match c.ops with
    | .setListener _ :: _ => [(.listener, true)]                                                       -- AsyncWebSocket.hpp setListener
    | .setConfig _ :: _ => [(.config, true)]                                                           -- AsyncWebSocket.cpp:54-56
    | _ => []
  | .sendFrame c =>                                                                                    -- :510-533, with 462-479
    match c.pc with
    | .act => [(.config, false)]
    | .writeMessage => [(.output, true)]
    | _ => []
  | .writeFrame c =>                                                                                   -- :179-211
    match c.pc with
    | .act => [(.output, true)]
    | .writeMessageLen => [(.output, true)]
    | .writeMask => [(.output, true)]
    | _ => []

/-- What the next step of the task accesses. -/
def Task.touches (t : Task) : List (Loc × Bool) :=
  match t.stack with
  | [] => []
  | c :: _ => c.touches t.loc

/-- `w`, but with what `w0` has at `x`. -/
def World.with (w : World) (x : Loc) (w0 : World) : World :=
  match x with
  | .config => w.setSock { w.st.sock with config := w0.st.sock.config }
  | .listener => w.setSock { w.st.sock with listener := w0.st.sock.listener }
  | .lastOpcode => w.setSock { w.st.sock with lastOpcode := w0.st.sock.lastOpcode }
  | .listening => w.setSock { w.st.sock with listening := w0.st.sock.listening }
  | .input => w.setInp w0.st.inp
  | .output => w.setOut w0.st.sock.out

/-- The two have the same at `x`. -/
def SameAt (x : Loc) (w w' : World) : Prop :=
  match x with
  | .config => w'.st.sock.config = w.st.sock.config
  | .listener => w'.st.sock.listener = w.st.sock.listener
  | .lastOpcode => w'.st.sock.lastOpcode = w.st.sock.lastOpcode
  | .listening => w'.st.sock.listening = w.st.sock.listening
  | .input => w'.st.inp = w.st.inp
  | .output => w'.st.sock.out = w.st.sock.out

/-- A data race (there is no synchronisation in the library): the next steps of two tasks access `x`, at least one of them changes it. -/
def Race (p : Pool) (x : Loc) : Prop :=
  ∃ (i j : Nat) (t t' : Task) (b b' : Bool), i ≠ j ∧ p.tasks[i]? = some (.run t) ∧ p.tasks[j]? = some (.run t') ∧ (x, b) ∈ t.touches ∧ (x, b') ∈ t'.touches ∧ (b || b') = true

/-- One task listens, the others are coroutines of the application (of operations `O`) that do not receive; callbacks consist of operations `O'`. -/
structure Team (env : Env) (O O' : UserOp → Prop) (p : Pool) : Prop where
  one : ∃ h others, p.tasks = .run (listenTask h) :: others ∧ ∀ o ∈ others, ∃ ops, o = .run (userTask ops) ∧ ∀ op ∈ ops, O op
  callbacks : ∀ tr, ∀ op ∈ env.react tr, O' op

end OatWS.Async
