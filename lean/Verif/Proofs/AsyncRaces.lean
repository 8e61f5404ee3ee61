import Verif.Spec.AsyncRaces
/-! The steps of coroutines access what `Co.touches` says, and nothing else. -/

namespace OatWS.Async
open Threads (Loc)

section With
variable {x : Loc} (w w0 : World)

theorem with_inp (h : x ≠ .input) : (w.with x w0).st.inp = w.st.inp := by cases x <;> first | rfl | exact absurd rfl h
theorem with_out (h : x ≠ .output) : (w.with x w0).st.sock.out = w.st.sock.out := by cases x <;> first | rfl | exact absurd rfl h
theorem with_config (h : x ≠ .config) : (w.with x w0).st.sock.config = w.st.sock.config := by cases x <;> first | rfl | exact absurd rfl h
theorem with_listener (h : x ≠ .listener) : (w.with x w0).st.sock.listener = w.st.sock.listener := by cases x <;> first | rfl | exact absurd rfl h
theorem with_last (h : x ≠ .lastOpcode) : (w.with x w0).st.sock.lastOpcode = w.st.sock.lastOpcode := by cases x <;> first | rfl | exact absurd rfl h
theorem with_rng : (w.with x w0).st.sock.rngPos = w.st.sock.rngPos := by cases x <;> rfl
theorem with_setInp (h : x ≠ .input) (i : InStream) : (w.with x w0).setInp i = (w.setInp i).with x w0 := by cases x <;> first | rfl | exact absurd rfl h
theorem with_setOut (h : x ≠ .output) (o : OutStream) : (w.with x w0).setOut o = (w.setOut o).with x w0 := by cases x <;> first | rfl | exact absurd rfl h
theorem with_setRng (n : Nat) : (w.with x w0).setSock { (w.with x w0).st.sock with rngPos := n } = (w.setSock { w.st.sock with rngPos := n }).with x w0 := by cases x <;> rfl
theorem with_free (id : Nat) : (w.with x w0).free id = (w.free id).with x w0 := by cases x <;> rfl
theorem with_store (id : Nat) (c : List UInt8) : (w.with x w0).store id c = (w.store id c).with x w0 := by cases x <;> rfl
theorem with_alloc (c : List UInt8) : (w.with x w0).alloc c = ((w.alloc c).1, (w.alloc c).2.with x w0) := by cases x <;> rfl
theorem with_callback (env : Env) (e : Event) (ptr : Option Nat) (d : List UInt8) :
    callback env e ptr d (w.with x w0) = ((callback env e ptr d w).1, (callback env e ptr d w).2.with x w0) := by cases x <;> rfl
theorem with_destroy (c : Co) : destroy c (w.with x w0) = (destroy c w).with x w0 := by cases c <;> first | rfl | exact with_free _ _ _

end With

/-- The step gives the same, whatever is at `x`, and leaves that alone. -/
def Blind (x : Loc) (w0 : World) (f : World → Act × Local × World) : Prop := ∀ w, f (w.with x w0) = ((f w).1, (f w).2.1, (f w).2.2.with x w0)

variable {x : Loc} {w0 : World}

theorem blind_const (a : Act) (l : Local) : Blind x w0 fun w => (a, l, w) := fun _ => rfl

theorem blind_readStep (h : x ≠ .input) (need got l again) (cont : List UInt8 → World → Act × Local × World) (hc : ∀ g, Blind x w0 (cont g)) :
    Blind x w0 fun w => readStep need got l w again cont := by
  intro w
  dsimp only
  unfold readStep
  rw [with_inp w w0 h]
  rcases readInline need got w.st.inp with ⟨(g | g | _ | _), i⟩ <;> dsimp only <;> rw [with_setInp _ _ h]
  exact hc g _

theorem blind_writeStep (h : x ≠ .output) (left l again cont) : Blind x w0 fun w => writeStep left l w again cont := by
  intro w
  dsimp only
  unfold writeStep
  rw [with_out w w0 h]
  rcases writeInline left w.st.sock.out with ⟨(g | g | _ | _), i⟩ <;> dsimp only <;> rw [with_setOut _ _ h]

theorem blind_header (env : Env) (h : Header) (fin op n) (hx : x ≠ .config) (w : World) : sendFrameHeaderAsync env h fin op n (w.with x w0) =
    ((sendFrameHeaderAsync env h fin op n w).1, (sendFrameHeaderAsync env h fin op n w).2.1, (sendFrameHeaderAsync env h fin op n w).2.2.with x w0) := by
  unfold sendFrameHeaderAsync
  rw [with_config w w0 hx, with_rng]
  dsimp only
  split
  · rw [with_setRng]
  · rfl

theorem blind_startPayload (c short pc l) (h1 : x ≠ .config) (h2 : x ≠ .listener) : Blind x w0 fun w => startPayload c short pc l w := by
  intro w
  dsimp only
  unfold startPayload readPayloadAsync
  rw [with_config w w0 h1]
  split
  · rename_i co w' he
    split at he
    · cases he
    · split at he
      · cases he
      · rename_i n1 n2
        rw [if_neg n1, if_neg n2]
        rw [with_alloc] at he
        injection he with he
        injection he with he he'
        subst he he'
        dsimp only
        rw [with_listener _ _ h2, with_config _ _ h1]
  · rename_i e he
    split at he
    · rename_i n1
      injection he with he; subst he
      rw [if_pos n1]
    · split at he
      · rename_i n1 n2
        injection he with he; subst he
        rw [if_neg n1, if_pos n2]
      · cases he

theorem blind_startData (c l) (h1 : x ≠ .config) (h2 : x ≠ .listener) (h3 : x ≠ .lastOpcode) : Blind x w0 fun w => startData c l w := by
  intro w
  dsimp only
  have key : checkForContinuationA l.hdr (w.with x w0).st.sock = ((checkForContinuationA l.hdr w.st.sock).1, ((w.setSock (checkForContinuationA l.hdr w.st.sock).2).with x w0).st.sock) := by
    unfold checkForContinuationA
    rw [with_last w w0 h3]
    split
    · rfl
    · split <;> (cases x <;> first | rfl | exact absurd rfl h3)
  have hset : ∀ s, (w.with x w0).setSock ((w.setSock s).with x w0).st.sock = (w.setSock s).with x w0 := by
    intro s; cases x <;> rfl
  unfold startData
  rw [key]
  rcases checkForContinuationA l.hdr w.st.sock with ⟨b, s⟩
  cases b
  · dsimp only; rw [hset]
  · dsimp only; rw [hset]; exact blind_startPayload _ _ _ _ h1 h2 _

theorem blind_control (env : Env) (c mk l) : Blind x w0 fun w => controlCallback env c mk l w := by
  intro w
  dsimp only
  unfold controlCallback
  split
  · rw [with_callback]
  · rfl

theorem blind_coStep (env : Env) (c : Co) (l : Local) (h : ∀ b, (x, b) ∉ c.touches l) : Blind x w0 fun w => coStep env c l w := by
  cases c with
  | listen =>
    intro w
    simp only [coStep, listenStep]
    split
    · rename_i hc
      have hx : x ≠ .listener := by
        rintro rfl
        refine h false ?_
        simp only [Co.touches]
        rw [if_pos hc]
        exact .head _
      rw [with_listener w w0 hx]
    · rfl
  | readFrame c =>
    intro w
    simp only [Co.touches] at h
    simp only [coStep, readFrameStep]
    split
    · rename_i hc
      rw [hc] at h
      exact blind_readStep (by rintro rfl; exact h true (.head _)) _ _ _ _ _ (fun _ => blind_const _ _) w
    · split
      · split
        · rfl
        · split <;> rfl
      · rfl
    · rename_i hc
      rw [hc] at h
      exact blind_readStep (by rintro rfl; exact h true (.head _)) _ _ _ _ _ (fun _ => blind_const _ _) w
    · split <;> rfl
    · rename_i hc
      rw [hc] at h
      refine blind_readStep (by rintro rfl; exact h true (.head _)) _ _ _ _ _ (fun g w => ?_) w
      split <;> rfl
  | handleFrame c =>
    intro w
    simp only [Co.touches] at h
    simp only [coStep, handleFrameStep]
    split
    · rename_i hc
      rw [hc] at h
      dsimp only at h
      split
      · rename_i h0
        rw [if_pos h0] at h
        rw [with_last w w0 (by rintro rfl; exact h false (.head _))]
        split
        · rfl
        · exact blind_startPayload _ _ _ _ (by rintro rfl; exact h false (.tail _ (.head _))) (by rintro rfl; exact h false (.tail _ (.tail _ (.head _)))) w
      · rename_i h0
        rw [if_neg h0] at h
        split
        · rename_i h1
          rw [if_pos (.inl h1)] at h
          exact blind_startData _ _ (by rintro rfl; exact h false (.tail _ (.head _))) (by rintro rfl; exact h false (.tail _ (.tail _ (.head _)))) (by rintro rfl; exact h true (.head _)) w
        · rename_i h1
          split
          · rename_i h2
            rw [if_pos (.inr h2)] at h
            exact blind_startData _ _ (by rintro rfl; exact h false (.tail _ (.head _))) (by rintro rfl; exact h false (.tail _ (.tail _ (.head _)))) (by rintro rfl; exact h true (.head _)) w
          · rename_i h2
            rw [if_neg (fun hh => hh.elim h1 h2)] at h
            have hp : ∀ pc l, Blind x w0 fun w => startPayload c true pc l w := fun pc l =>
              blind_startPayload _ _ _ _ (by rintro rfl; exact h false (.head _)) (by rintro rfl; exact h false (.tail _ (.head _)))
            split
            · exact hp _ _ w
            · split
              · exact hp _ _ w
              · split
                · exact hp _ _ w
                · rfl
    · exact blind_control _ _ _ _ w
    · exact blind_control _ _ _ _ w
    · exact blind_control _ _ _ _ w
    · rfl
  | readPayload c =>
    intro w
    simp only [Co.touches] at h
    simp only [coStep, readPayloadStep]
    split
    · rename_i hc
      rw [hc] at h
      split
      · rw [with_config w w0 (by rintro rfl; exact h false (.head _))]
      · split
        · split
          · rw [with_callback]
          · rfl
        · rfl
    · rename_i hc
      rw [hc] at h
      have hx : x ≠ .input := by rintro rfl; exact h true (.head _)
      rw [with_inp w w0 hx]
      split
      · rfl
      · split
        · rfl
        · split
          · split
            · rw [with_setInp _ _ hx]
            · rw [with_setInp _ _ hx, with_store]
          · rw [with_setInp _ _ hx]
          · rw [with_setInp _ _ hx]
          · rw [with_setInp _ _ hx]
    · split
      · split
        · split
          · rfl
          · split
            · rw [with_alloc]
              dsimp only
              rw [with_callback]
              dsimp only
              rw [with_free]
            · rfl
        · split
          · rfl
          · split
            · rw [with_callback]
            · rfl
      · rfl
    · rfl
  | user c =>
    intro w
    simp only [Co.touches] at h
    simp only [coStep, userStep]
    split
    · rfl
    · rfl
    · rename_i hc
      rw [hc] at h
      cases x <;> first | rfl | exact absurd (.head _) (h true)
    · rename_i hc
      rw [hc] at h
      cases x <;> first | rfl | exact absurd (.head _) (h true)
    · rfl
    · rfl
  | sendFrame c =>
    intro w
    simp only [Co.touches] at h
    simp only [coStep, sendFrameStep]
    split
    · rename_i hc
      rw [hc] at h
      split <;> rw [blind_header _ _ _ _ _ (by rintro rfl; exact h false (.head _))]
    · split
      · split <;> rfl
      · rfl
    · rename_i hc
      rw [hc] at h
      exact blind_writeStep (by rintro rfl; exact h true (.head _)) _ _ _ _ w
    · rfl
  | writeFrame c =>
    intro w
    simp only [Co.touches] at h
    simp only [coStep, writeFrameStep]
    split
    · rename_i hc
      rw [hc] at h
      exact blind_writeStep (by rintro rfl; exact h true (.head _)) _ _ _ _ w
    · split
      · rfl
      · split <;> rfl
    · rename_i hc
      rw [hc] at h
      exact blind_writeStep (by rintro rfl; exact h true (.head _)) _ _ _ _ w
    · split <;> rfl
    · rename_i hc
      rw [hc] at h
      exact blind_writeStep (by rintro rfl; exact h true (.head _)) _ _ _ _ w

theorem blind_unwind (e : AErr) (rest : List Co) (l : Local) (w : World) : unwind e rest l (w.with x w0) = ((unwind e rest l w).1, (unwind e rest l w).2.with x w0) := by
  induction rest generalizing w with
  | nil => rfl
  | cons c rest ih =>
    cases c with
    | user c =>
      simp only [unwind]
      split
      · rfl
      · exact ih w
    | _ => simp only [unwind]; rw [with_destroy]; exact ih _

theorem blind_step (env : Env) (t : Task) (h : ∀ b, (x, b) ∉ t.touches) (w : World) : step env t (w.with x w0) = ((step env t w).1, (step env t w).2.with x w0) := by
  unfold step
  unfold Task.touches at h
  split
  · rename_i he
    rfl
  · rename_i c rest he
    rw [he] at h
    have hb : coStep env c t.loc (w.with x w0) = _ := blind_coStep env c t.loc h w
    rw [hb]
    dsimp only
    rcases coStep env c t.loc w with ⟨a, l, w1⟩
    cases a with
    | finish =>
      dsimp only
      rw [with_destroy]
      split <;> rfl
    | error e =>
      dsimp only
      rw [with_destroy]
      exact blind_unwind _ _ _ _
    | _ => rfl

/-! ## Changes -/

theorem SameAt.refl (x : Loc) (w : World) : SameAt x w w := by cases x <;> rfl
theorem SameAt.trans {w w' w'' : World} (h : SameAt x w w') (h' : SameAt x w' w'') : SameAt x w w'' := by
  cases x <;> exact Eq.trans h' h

theorem same_with (w w' : World) (h : w'.with x w = w') : SameAt x w w' := by
  cases x with
  | config => exact (congrArg (fun w : World => w.st.sock.config) h).symm
  | listener => exact (congrArg (fun w : World => w.st.sock.listener) h).symm
  | lastOpcode => exact (congrArg (fun w : World => w.st.sock.lastOpcode) h).symm
  | listening => exact (congrArg (fun w : World => w.st.sock.listening) h).symm
  | input => exact (congrArg (fun w : World => w.st.inp) h).symm
  | output => exact (congrArg (fun w : World => w.st.sock.out) h).symm

theorem with_self (w : World) : w.with x w = w := by cases x <;> rfl

theorem destroy_same (c : Co) (w : World) : SameAt x w (destroy c w) := by cases c <;> cases x <;> rfl

theorem unwind_same (e : AErr) (rest : List Co) (l : Local) (w : World) : SameAt x w (unwind e rest l w).2 := by
  induction rest generalizing w with
  | nil => exact .refl _ _
  | cons c rest ih =>
    cases c with
    | user c =>
      simp only [unwind]
      split
      · exact .refl _ _
      · exact ih w
    | _ => simp only [unwind]; exact (destroy_same _ _).trans (ih _)

/-- The locations that are read only: `config`, `listener`, and `lastOpcode` (continuation frames). -/
theorem reads_same (env : Env) (c : Co) (l : Local) (w : World) (h1 : (x, false) ∈ c.touches l) (h2 : (x, true) ∉ c.touches l) : SameAt x w (coStep env c l w).2.2 := by
  have hp : x = .config ∨ x = .listener ∨ x = .lastOpcode → ∀ c short pc l, SameAt x w (startPayload c short pc l w).2.2 := by
    intro hx c short pc l
    unfold startPayload readPayloadAsync
    split
    · rename_i co w' he
      split at he
      · cases he
      · split at he
        · cases he
        · injection he with he
          injection he with he he'
          subst he he'
          rcases hx with rfl | rfl | rfl <;> rfl
    · exact .refl _ _
  cases c with
  | listen =>
    simp only [coStep, listenStep]
    split <;> exact .refl _ _
  | readFrame c =>
    simp only [Co.touches] at h1
    split at h1
    · simp at h1
    · simp at h1
    · simp at h1
    · simp at h1
  | handleFrame c =>
    simp only [Co.touches] at h1 h2
    simp only [coStep, handleFrameStep]
    split
    · rename_i hc
      rw [hc] at h1 h2
      dsimp only at h1 h2
      split
      · rename_i h0
        rw [if_pos h0] at h1
        split
        · exact .refl _ _
        · refine hp ?_ _ _ _ _
          simp only [List.mem_cons, Prod.mk.injEq, and_true, List.not_mem_nil, or_false] at h1
          rcases h1 with h | h | h
          · exact .inr (.inr h)
          · exact .inl h
          · exact .inr (.inl h)
      · rename_i h0
        rw [if_neg h0] at h1 h2
        have hd : l.hdr.opcode = OPCODE_TEXT ∨ l.hdr.opcode = OPCODE_BINARY → SameAt x w (startData c l w).2.2 := by
          intro ho
          rw [if_pos ho] at h1 h2
          simp only [List.mem_cons, Prod.mk.injEq, and_true, List.not_mem_nil, or_false] at h1
          have hx : x = .config ∨ x = .listener := by
            rcases h1 with h | h | h
            · exact absurd h.2 (by decide)
            · exact .inl h
            · exact .inr h
          have hset : ∀ s, s = (checkForContinuationA l.hdr w.st.sock).2 → SameAt x w (w.setSock s) := by
            intro s hs
            subst hs
            unfold checkForContinuationA
            split
            · rcases hx with rfl | rfl <;> rfl
            · split <;> (rcases hx with rfl | rfl <;> rfl)
          unfold startData
          rcases hk : checkForContinuationA l.hdr w.st.sock with ⟨b, s⟩
          have hs := hset s (by rw [hk])
          cases b
          · exact hs
          · refine hs.trans ?_
            dsimp only
            clear hp
            unfold startPayload readPayloadAsync
            split
            · rename_i co w' he
              split at he
              · cases he
              · split at he
                · cases he
                · injection he with he
                  injection he with he he'
                  subst he he'
                  rcases hx with rfl | rfl <;> rfl
            · exact .refl _ _
        split
        · rename_i h1'
          exact hd (.inl h1')
        · rename_i n1
          split
          · rename_i h2'
            exact hd (.inr h2')
          · rename_i n2
            rw [if_neg (fun hh => hh.elim n1 n2)] at h1
            have hx : x = .config ∨ x = .listener ∨ x = .lastOpcode := by
              simp only [List.mem_cons, Prod.mk.injEq, and_true, List.not_mem_nil, or_false] at h1
              rcases h1 with h | h
              · exact .inl h
              · exact .inr (.inl h)
            split
            · exact hp hx _ _ _ _
            · split
              · exact hp hx _ _ _ _
              · split
                · exact hp hx _ _ _ _
                · exact .refl _ _
    · rename_i hc; rw [hc] at h1; simp at h1
    · rename_i hc; rw [hc] at h1; simp at h1
    · rename_i hc; rw [hc] at h1; simp at h1
    · exact .refl _ _
  | readPayload c =>
    simp only [Co.touches] at h1
    simp only [coStep, readPayloadStep]
    split
    · rename_i hc
      rw [hc] at h1
      have hx : x = .config := by simpa using h1
      subst hx
      split
      · exact .refl _ _
      · split
        · split <;> rfl
        · exact .refl _ _
    · rename_i hc; rw [hc] at h1; simp at h1
    · rename_i hc; rw [hc] at h1; simp at h1
    · exact .refl _ _
  | user c =>
    simp only [Co.touches] at h1
    split at h1 <;> simp at h1
  | sendFrame c =>
    simp only [Co.touches] at h1
    simp only [coStep, sendFrameStep]
    split
    · rename_i hc
      rw [hc] at h1
      have hx : x = .config := by simpa using h1
      subst hx
      have : ∀ h fin op n, SameAt .config w (sendFrameHeaderAsync env h fin op n w).2.2 := by
        intro h fin op n
        unfold sendFrameHeaderAsync
        dsimp only
        split <;> rfl
      split <;> exact this _ _ _ _
    · rename_i hc; rw [hc] at h1; simp at h1
    · rename_i hc; rw [hc] at h1; simp at h1
    · exact .refl _ _
  | writeFrame c =>
    simp only [Co.touches] at h1
    split at h1 <;> simp at h1

theorem same_coStep (env : Env) (c : Co) (l : Local) (w : World) (h : (x, true) ∉ c.touches l) : SameAt x w (coStep env c l w).2.2 := by
  by_cases h1 : (x, false) ∈ c.touches l
  · exact reads_same env c l w h1 h
  · have := blind_coStep (w0 := w) env c l (fun b => by cases b <;> assumption) w
    rw [with_self] at this
    exact same_with _ _ (congrArg (fun r => r.2.2) this).symm

theorem same_step (env : Env) (t : Task) (h : (x, true) ∉ t.touches) (w : World) : SameAt x w (step env t w).2 := by
  unfold step
  unfold Task.touches at h
  split
  · exact .refl _ _
  · rename_i c rest he
    rw [he] at h
    have hk := same_coStep env c t.loc w h
    revert hk
    rcases coStep env c t.loc w with ⟨a, l, w1⟩
    intro hk
    cases a with
    | finish =>
      dsimp only
      split <;> exact hk.trans (destroy_same _ _)
    | error e => exact (hk.trans (destroy_same _ _)).trans (unwind_same _ _ _ _)
    | _ => exact hk

end OatWS.Async
