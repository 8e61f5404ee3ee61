import Verif.Proofs.ReadHeader
import Verif.Proofs.HandleFrame
/-! The header object the caller passes to `readFrameHeader` does not matter. -/

namespace OatWS

/-- Forget the mask of an unmasked header, taking that of `g` instead. -/
def Header.restale (g h : Header) : Header := { h with mask := if h.hasMask then h.mask else g.mask }

def Exit.map {α β} (f : α → β) : Exit α → Exit β
  | .ret a => .ret (f a)
  | .throw e => .throw e
  | .block => .block
  | .ub u => .ub u

theorem P.bind_map {σ α β γ : Type} (m : P σ α) (f : α → P σ β) (f' : α → P σ γ) (g : β → γ) (s : σ)
    (h : ∀ a s', f' a s' = ((f a s').1.map g, (f a s').2)) :
    P.bind m f' s = ((P.bind m f s).1.map g, (P.bind m f s).2) := by
  rw [P.bind_apply, P.bind_apply]
  rcases m s with ⟨(a | _ | _ | _), s'⟩
  · exact h a s'
  all_goals rfl

theorem readFrameHeader_stale (env : Env) (g g' : Header) (st : St) :
    readFrameHeader env g' st = ((readFrameHeader env g st).1.map g'.restale, (readFrameHeader env g st).2) := by
  unfold readFrameHeader
  rw [P.bind_def, P.bind_def]
  refine P.bind_map _ _ _ _ _ fun bs s1 => ?_
  match bs with
  | [] => rfl
  | [_] => rfl
  | b0 :: b1 :: _ :: _ => rfl
  | [b0, b1] =>
    simp only [unpackHeaderBits_eq]
    refine P.bind_map _ _ _ _ _ fun len s2 => ?_
    split
    · rename_i hm
      refine P.bind_map _ _ _ _ _ fun ms s3 => ?_
      match ms with
      | [m0, m1, m2, m3] =>
        show (_, _) = (_, _)
        congr 1
        show Exit.ret _ = Exit.ret _
        congr 1
        simp [Header.restale, hm]
      | [] => rfl
      | [_] => rfl
      | [_, _] => rfl
      | [_, _, _] => rfl
      | _ :: _ :: _ :: _ :: _ :: _ => rfl
    · rename_i hm
      show (_, _) = (_, _)
      congr 1
      show Exit.ret _ = Exit.ret _
      congr 1
      simp [Header.restale, hm]

/-- An unmasked header leaves the mask bytes of the object alone. -/
theorem readFrameHeader_keeps_mask (env : Env) (g : Header) (st : St) (h : Header)
    (e : (readFrameHeader env g st).1 = .ret h) : h.hasMask = false → h.mask = g.mask := by
  intro hm
  have := congrArg Prod.fst (readFrameHeader_stale env g g st)
  simp only [] at this
  rw [e] at this
  injection this with this
  rw [Header.restale, hm] at this
  have h2 := congrArg Header.mask this
  exact h2

end OatWS
