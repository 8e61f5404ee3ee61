import Verif.Spec.Messages
import Verif.Spec.Frames
/-! # What a listener sends from inside its callbacks -/

namespace OatWS
open RFC6455

/-- The sends among the operations of one callback; nothing is done behind a throw. -/
def sendsOf : List UserOp → List SendCall
  | [] => []
  | .throw :: _ => []
  | .send c _ :: ops => c :: sendsOf ops
  | .stopListening :: ops => sendsOf ops
  | .setListener _ :: ops => sendsOf ops
  | .setConfig _ :: ops => sendsOf ops

/-- All sends made in reaction to the callbacks `evs`, in order, when the callbacks `tr` had been made before. -/
def answers (env : Env) : List Event → List Event → List SendCall
  | _, [] => []
  | tr, e :: evs => sendsOf (env.react (tr ++ [e])) ++ answers env (tr ++ [e]) evs

def UserOp.isSend : UserOp → Bool
  | .send _ _ => true
  | _ => false

/-- The same listener, but not sending anything. -/
def Env.silent (env : Env) : Env := { env with react := fun tr => (env.react tr).filter fun op => !op.isSend }

/-- What the listener sends is below 2^31 bytes each. -/
def Env.SmallSends (env : Env) : Prop := ∀ tr c b, UserOp.send c b ∈ env.react tr → c.content.2.2.length < 2 ^ 31

end OatWS
