import Verif.Spec.Receive
/-! # The history of a socket that receives frames one by one -/

namespace OatWS

/-- `Handled env st hs st'`: from `st` to `st'`, frames with the headers `hs` were received one after the other by `iterateFrame`
calls that returned; between the calls the application did whatever it liked with the socket (also sends that failed), and the
network whatever it liked with the bytes still to come. -/
inductive Handled (env : Env) : St → List Header → St → Prop
  | start {st} : Handled env st [] st
  | frame {st hs st' h h' st''} : Handled env st hs st' → iterateFrame env h st' = (.ret h', st'') → Handled env st (hs ++ [h']) st''
  | user {st hs st' ops x s} : Handled env st hs st' → runUserOps env ops st'.sock = (x, s) → Handled env st hs { st' with sock := s }
  | network {st hs st' i} : Handled env st hs st' → Handled env st hs { st' with inp := i }

/-- The header begins a fragmented message: a text or binary frame that is not final. -/
def Header.begins (h : Header) : Prop := (h.opcode = 1 ∨ h.opcode = 2) ∧ h.fin = false

instance (h : Header) : Decidable h.begins := by unfold Header.begins; exact inferInstance

end OatWS
