import Verif.Model.Async
/-! # Runs of a single task, and how they are compared with the blocking API -/

namespace OatWS.Async

/-- Run alone to its end, the task ends with `o` in world `w'` (it never ends if there is no such `o`; `blocked` means that it
waits for the transport for ever). -/
inductive Runs (env : Env) : Task → World → Outcome → World → Prop
  | last {t w o w'} : step env t w = (o, w') → (∀ t', o ≠ .run t') → Runs env t w o w'
  | next {t w t' w' o w''} : step env t w = (.run t', w') → Runs env t' w' o w'' → Runs env t w o w''

/-- Errors that come from the connection. -/
def isIoErr : Err → Bool
  | .headerRead | .len2Read | .len3Read | .maskRead | .headerWrite | .len2Write | .len3Write | .maskWrite
  | .connectionState | .sendFailed => true
  | _ => false

/-- An exception of the blocking API and the error of the async API that corresponds to it: errors of the connection
correspond to I/O errors, all others are the same. (End of the stream inside a payload is an exception in both: `connectionState`.) -/
inductive ErrMatch : Err → AErr → Prop
  | io {e} : isIoErr e = true → ErrMatch e .io
  | same {e} : isIoErr e = false ∨ e = .connectionState → ErrMatch e (.thrown e)

/-- Equal but for the flag `m_listening`, which the async socket never uses. -/
def SameSt (a b : St) : Prop := { a with sock := { a.sock with listening := b.sock.listening } } = b

/-- How the end of a blocking call corresponds to the end of a task: normal return - finished; exception - failed with a
corresponding error; blocked for ever - the same; undefined behaviour - the same. -/
def EndMatch : Exit Unit → Outcome → Prop
  | .ret _, .finished => True
  | .throw e, .failed ae => ErrMatch e ae
  | .block, .blocked => True
  | .ub u, .ub u' => u = u'
  | _, _ => False

/-- The same for `sendOneFrame`, which reports failure also by the result `false`. -/
def SendMatch : Exit Bool → Outcome → Prop
  | .ret true, .finished => True
  | .ret false, .failed ae => ae = .io
  | .throw e, .failed ae => ErrMatch e ae
  | .block, .blocked => True
  | .ub u, .ub u' => u = u'
  | _, _ => False

/-- Operations of user code that mean the same in both APIs: a change of the configuration (with a positive buffer size), a send
whose failure is not caught (not `sendOneFrame`, whose blocking form reports failure by a result that the caller may
ignore), an exception. -/
def PlainOp : UserOp → Prop
  | .setConfig c => 0 < c.readBufferSize
  | .send (.oneFrame _ _ _) _ => False
  | .send _ catches => catches = false
  | .throw => True
  | .setListener _ => False
  | .stopListening => False

/-- A listener that does only such things. -/
def PlainListener (env : Env) : Prop := ∀ tr, ∀ op ∈ env.react tr, PlainOp op

end OatWS.Async
