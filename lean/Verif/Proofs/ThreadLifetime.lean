import Verif.Spec.Lifetime
import Verif.Proofs.ThreadRaces
/-! Which listeners the threads of a blocking socket call. -/

namespace OatWS.Threads
open Prog

variable {α β : Type}

/-- What a step gives the program, if the listener of the socket is in `I`. -/
def Gets (I : Option Nat → Prop) (a : Act) (r : a.Res) : Prop :=
  Yields False a r ∧ match a, r with
    | .getListener, l => I l
    | _, _ => True

/-- The steps that keep the listener of the socket in `I`, and call only listeners in `I`. -/
def InI (I : Option Nat → Prop) : Act → Prop
  | .setListener l => I l
  | .callback e => I (some e.to)
  | _ => True

/-- The program installs and calls only such listeners, provided only such are installed by others. -/
def Calls (I : Option Nat → Prop) : Prog α → Prop
  | .act a k => InI I a ∧ ∀ r, Gets I a r → Calls I (k r)
  | _ => True

variable {I : Option Nat → Prop}

theorem Calls.seq {p : Prog α} {f : α → Prog β} (h : Calls I p) (hf : ∀ x, Calls I (f x)) : Calls I (Prog.andThen p f) := by
  induction p with
  | ret x => exact hf x
  | act a k ih => exact ⟨h.1, fun r hr => ih r (h.2 r hr)⟩
  | _ => trivial

theorem Calls.catching {p : Prog α} {f : Err → Prog α} (h : Calls I p) (hf : ∀ e, Calls I (f e)) : Calls I (Prog.catching p f) := by
  induction p with
  | throw e => exact hf e
  | act a k ih => exact ⟨h.1, fun r hr => ih r (h.2 r hr)⟩
  | _ => trivial

theorem Calls.of {p : Prog α} {Q : α → Prop} (h : Uses False (OpAct False (UserOp.Installs I)) p Q) : Calls I p := by
  induction p with
  | act a k ih =>
    refine ⟨?_, fun r hr => ih r (h.2 r hr.1)⟩
    have := h.1
    cases a with
    | setListener l => exact this
    | callback e => exact this.elim
    | _ => trivial
  | _ => trivial

theorem calls_userOps (env : Env) (fuel : Nat) (ops : List UserOp) (h : ∀ op ∈ ops, op.Installs I) : Calls I (userOpsT env fuel ops) :=
  .of (uses_userOps env fuel ops h)

section
variable (env : Env) (fuel : Nat) (henv : env.Installs I)
include henv

theorem calls_callListener (mk : Nat → Event) (hmk : ∀ l, (mk l).to = l) : Calls I (callListenerT env fuel mk) := by
  refine ⟨trivial, fun l hl => ?_⟩
  cases l with
  | none => trivial
  | some l => exact ⟨(by show I (some (mk l).to); rw [hmk]; exact hl.2), fun tr _ => calls_userOps _ _ _ (henv _)⟩

omit henv in
theorem calls_readExact (fuel need : Nat) (acc : List UInt8) : Calls I (readExactT fuel need acc) := by
  induction fuel generalizing need acc with
  | zero => cases need <;> trivial
  | succ fuel ih =>
    cases need with
    | zero => trivial
    | succ need =>
      refine ⟨trivial, fun r _ => ?_⟩
      cases r with
      | data bs => exact ih _ _
      | retry => exact ih _ _
      | zero => trivial
      | broken => trivial

omit henv in
theorem calls_readFrameHeader (h : Header) : Calls I (readFrameHeaderT env fuel h) := by
  refine Calls.seq (calls_readExact _ _ _) fun bs => ?_
  split
  · refine Calls.seq (p := readLengthT _ _ _) ?_ fun len => ?_
    · unfold readLengthT
      split
      · trivial
      · split
        · refine Calls.seq (calls_readExact _ _ _) fun bs => ?_
          split <;> trivial
        · refine Calls.seq (calls_readExact _ _ _) fun bs => ?_
          split <;> trivial
    · split
      · refine Calls.seq (calls_readExact _ _ _) fun ms => ?_
        split <;> trivial
      · trivial
  · trivial

theorem calls_readPayloadLoop (h : Header) (short : Bool) (cap : Nat) (k : Nat) (progress : Int) (acc : List UInt8) :
    Calls I (readPayloadLoopT env fuel h short cap k progress acc) := by
  induction k generalizing progress acc with
  | zero =>
    unfold readPayloadLoopT
    split <;> trivial
  | succ k ih =>
    unfold readPayloadLoopT
    split
    · refine ⟨trivial, fun c _ => ?_⟩
      dsimp only
      generalize (if (c : Config).readBufferSize > h.payloadLength - progress then h.payloadLength - progress else (c : Config).readBufferSize) = want
      split
      · exact ⟨trivial, fun _ _ => trivial⟩
      · refine ⟨trivial, fun r _ => ?_⟩
        cases r with
        | data bs =>
          dsimp only
          split
          · trivial
          · split
            · exact ih _ _
            · exact Calls.seq (calls_callListener env fuel henv _ fun _ => rfl) fun _ => ih _ _
        | retry => exact ih _ _
        | zero => trivial
        | broken => trivial
    · trivial

theorem calls_readPayload (h : Header) (short : Bool) : Calls I (readPayloadT env fuel h short) := by
  unfold readPayloadT
  split
  · trivial
  · refine ⟨trivial, fun c _ => ?_⟩
    dsimp only
    split
    · trivial
    · refine Calls.seq (calls_readPayloadLoop env fuel henv _ _ _ _ _ _) fun acc => Calls.seq (p := endMarkerT _ _ _ _) ?_ fun _ => trivial
      unfold endMarkerT
      split
      · exact calls_callListener env fuel henv _ fun _ => rfl
      · trivial

omit henv in
theorem calls_checkForContinuation (h : Header) : Calls I (checkForContinuationT h) := by
  refine ⟨trivial, fun v _ => ?_⟩
  show Calls _ (if (v : Int) = _ ∨ _ then _ else _)
  split
  · trivial
  · split
    · exact ⟨trivial, fun _ _ => trivial⟩
    · exact ⟨trivial, fun _ _ => trivial⟩

theorem calls_handleFrame (h : Header) : Calls I (handleFrameT env fuel h) := by
  have hd : Calls I (Prog.andThen (readPayloadT env fuel h false) fun _ => .ret ()) :=
    Calls.seq (calls_readPayload env fuel henv _ _) fun _ => trivial
  have hc : ∀ mk : List UInt8 → Nat → Event, (∀ d l, (mk d l).to = l) → Calls I (Prog.andThen (readPayloadT env fuel h true) fun data => callListenerT env fuel (mk data)) :=
    fun mk hmk => Calls.seq (calls_readPayload env fuel henv _ _) fun _ => calls_callListener env fuel henv _ (hmk _)
  have hs : Calls I (Prog.andThen (checkForContinuationT h) fun ok => if ok then Prog.andThen (readPayloadT env fuel h false) fun _ => .ret () else .throw .continuationExpected) :=
    Calls.seq (calls_checkForContinuation h) fun ok => by
      cases ok
      · trivial
      · exact hd
  unfold handleFrameT
  split
  · refine ⟨trivial, fun v _ => ?_⟩
    show Calls _ (if (v : Int) < 0 then _ else _)
    split
    · trivial
    · exact hd
  · split
    · exact hs
    · split
      · exact hs
      · split
        · exact hc (fun data l => .onClose l (closeArgs env data).1 (closeArgs env data).2) fun _ _ => rfl
        · split
          · exact hc (fun data l => .onPing l data) fun _ _ => rfl
          · split
            · exact hc (fun data l => .onPong l data) fun _ _ => rfl
            · trivial

theorem calls_listenLoop (k : Nat) (h : Header) : Calls I (listenLoopT env fuel k h) := by
  induction k generalizing h with
  | zero => trivial
  | succ k ih =>
    refine Calls.seq (p := iterateFrameT _ _ _) ?_ fun h' => ?_
    · exact Calls.seq (calls_readFrameHeader env fuel h) fun h' => Calls.seq (calls_handleFrame env fuel henv h') fun _ => trivial
    · split
      · refine ⟨trivial, fun b _ => ?_⟩
        show Calls _ (if (b : Bool) then _ else _)
        split
        · exact ih _
        · trivial
      · trivial

theorem calls_listen (h : Header) : Calls I (listenT env fuel h) :=
  Calls.catching (p := .act (.setListening true) fun _ => listenLoopT env fuel fuel h) ⟨trivial, fun _ _ => calls_listenLoop env fuel henv _ _⟩ fun _ => trivial

end

theorem calls_code {env : Env} {fuel : Nat} (henv : env.Installs I) {α : Type} {p : Prog α} (h : CodeOf (UserOp.Installs I) env fuel p) : Calls I p := by
  induction h with
  | helper h => exact .of (uses_helper h)
  | bind _ _ h1 h2 => exact h1.seq h2
  | catching _ _ h1 h2 => exact h1.catching h2
  | listen h => exact calls_listen env fuel henv h
  | iterate h => exact Calls.seq (calls_readFrameHeader env fuel h) fun h' => Calls.seq (calls_handleFrame env fuel henv h') fun _ => trivial
  | getListener => exact ⟨trivial, fun _ _ => trivial⟩

/-- The threads keep to `I`, the socket has a listener in `I`, and since `tr` only such have been called. -/
structure Keeping (I : Option Nat → Prop) (tr : List Event) (p : Pool) : Prop where
  threads : ∀ q ∈ p.threads, Calls I q
  now : I p.st.sock.listener
  told : ∃ new, p.st.sock.trace = tr ++ new ∧ ∀ e ∈ new, I (some e.to)

theorem exec_keeps {env : Env} {a : Act} {st st' : St} {r : a.Res} (he : exec env a st = some (r, st')) (ha : InI I a) (h : I st.sock.listener) :
    Gets I a r ∧ I st'.sock.listener ∧ (st'.sock.trace = st.sock.trace ∨ ∃ e : Event, st'.sock.trace = st.sock.trace ++ [e] ∧ I (some e.to)) := by
  have hy := (exec_yields (F := False) he False.elim).1
  cases a with
  | write d =>
    refine ⟨⟨hy, trivial⟩, ?_⟩
    dsimp only [exec] at he
    split at he
    · cases he
    · split at he <;> (injection he with he; injection he with h1 h2; subst h2; exact ⟨h, .inl rfl⟩)
  | read n =>
    refine ⟨⟨hy, trivial⟩, ?_⟩
    dsimp only [exec] at he
    split at he
    · cases he
    · injection he with he
      injection he with h1 h2
      subst h2
      exact ⟨h, .inl rfl⟩
  | setListener l =>
    dsimp only [exec] at he
    injection he with he
    injection he with h1 h2
    subst h2
    exact ⟨⟨hy, trivial⟩, ha, .inl rfl⟩
  | callback e =>
    dsimp only [exec] at he
    injection he with he
    injection he with h1 h2
    subst h2
    exact ⟨⟨hy, trivial⟩, h, .inr ⟨e, rfl, ha⟩⟩
  | getListener =>
    dsimp only [exec] at he
    injection he with he
    injection he with h1 h2
    subst h1 h2
    exact ⟨⟨hy, h⟩, h, .inl rfl⟩
  | _ =>
    dsimp only [exec] at he
    injection he with he
    injection he with h1 h2
    subst h2
    exact ⟨⟨hy, trivial⟩, h, .inl rfl⟩

theorem Keeping.steps {env : Env} {tr : List Event} {p p' : Pool} (h : Keeping I tr p) (hs : Pool.Steps env p p') : Keeping I tr p' := by
  induction hs with
  | refl => exact h
  | tail _ hs ih =>
    cases hs with
    | @mk ts st i a k r st' hi he =>
      have hq := ih.threads _ (List.mem_of_getElem? hi)
      obtain ⟨hg, hn, ht⟩ := exec_keeps he hq.1 ih.now
      refine ⟨fun q hm => ?_, hn, ?_⟩
      · rcases List.mem_or_eq_of_mem_set hm with hm | hm
        · exact ih.threads q hm
        · subst hm; exact hq.2 r hg
      · obtain ⟨new, h1, h2⟩ := ih.told
        rcases ht with ht | ⟨e, ht, hI⟩
        · exact ⟨new, ht.trans h1, h2⟩
        · refine ⟨new ++ [e], ?_, fun x hx => ?_⟩
          · show st'.sock.trace = _
            rw [ht, ← List.append_assoc]
            exact congrArg (· ++ [e]) h1
          · rcases List.mem_append.mp hx with hx | hx
            · exact h2 x hx
            · rw [List.mem_singleton] at hx; subst hx; exact hI

end OatWS.Threads
