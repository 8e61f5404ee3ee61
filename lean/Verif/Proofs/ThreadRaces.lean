import Verif.Spec.Races
/-! Which accesses the programs of the library make. -/

namespace OatWS.Threads
open RFC6455 Async Prog

variable {α β : Type}

/-- Possible results of a step; `F`: no write fails. -/
def Yields (F : Prop) : (a : Act) → a.Res → Prop
  | .write d, .wrote k => k ≤ d.length
  | .write _, .zero => ¬ F
  | .write _, .broken => ¬ F
  | _, _ => True

/-- All steps of the program are in `S`; `Q` holds when it returns. -/
def Uses (F : Prop) (S : Act → Prop) : Prog α → (α → Prop) → Prop
  | .ret x, Q => Q x
  | .throw _, _ => True
  | .ub _, _ => True
  | .stuck, _ => True
  | .act a k, Q => S a ∧ ∀ r, Yields F a r → Uses F S (k r) Q

/-- Nothing is said about the result. -/
def All (_ : α) : Prop := True

variable {F : Prop} {S : Act → Prop}

theorem Uses.mono {p : Prog α} {Q Q' : α → Prop} (h : Uses F S p Q) (hq : ∀ x, Q x → Q' x) : Uses F S p Q' := by
  induction p with
  | ret x => exact hq _ h
  | act a k ih => exact ⟨h.1, fun r hr => ih r (h.2 r hr)⟩
  | _ => trivial

theorem Uses.weaken {p : Prog α} {Q : α → Prop} {S' : Act → Prop} (h : Uses F S p Q) (hs : ∀ a, S a → S' a) : Uses F S' p Q := by
  induction p with
  | ret x => exact h
  | act a k ih => exact ⟨hs _ h.1, fun r hr => ih r (h.2 r hr)⟩
  | _ => trivial

theorem Uses.andThen {p : Prog α} {f : α → Prog β} {Q} (h : Uses F S p fun x => Uses F S (f x) Q) : Uses F S (Prog.andThen p f) Q := by
  induction p with
  | ret x => exact h
  | act a k ih => exact ⟨h.1, fun r hr => ih r (h.2 r hr)⟩
  | _ => trivial

theorem Uses.seq {p : Prog α} {f : α → Prog β} {Q} (h : Uses F S p All) (hf : ∀ x, Uses F S (f x) Q) : Uses F S (Prog.andThen p f) Q :=
  Uses.andThen (h.mono fun x _ => hf x)

theorem Uses.catching {p : Prog α} {f : Err → Prog α} {Q} (h : Uses F S p Q) (hf : ∀ e, Uses F S (f e) Q) : Uses F S (Prog.catching p f) Q := by
  induction p with
  | ret x => exact h
  | throw e => exact hf e
  | act a k ih => exact ⟨h.1, fun r hr => ih r (h.2 r hr)⟩
  | _ => trivial

/-- Steps of user code of operations `O`. -/
def OpAct (F : Prop) (O : UserOp → Prop) : Act → Prop
  | .write _ => True
  | .getConfig => True
  | .random => True
  | .call _ => True
  | .returned _ => True
  | .setListening b => b = false ∧ (O .stopListening ∨ ¬ F)
  | .setListener l => O (.setListener l)
  | .setConfig c => O (.setConfig c)
  | _ => False

variable {O : UserOp → Prop}

theorem uses_writeExact (fuel : Nat) (data : List UInt8) (n : Nat) : Uses F (OpAct F O) (writeExactT fuel data n) fun m => F → m = n + data.length := by
  induction fuel generalizing data n with
  | zero =>
    cases data with
    | nil => exact fun _ => rfl
    | cons b bs => trivial
  | succ fuel ih =>
    cases data with
    | nil => exact fun _ => rfl
    | cons b bs =>
      refine ⟨trivial, fun r hr => ?_⟩
      cases r with
      | wrote k =>
        have hr : k ≤ (b :: bs).length := hr
        refine (ih _ _).mono fun m hm hF => ?_
        rw [hm hF, List.length_drop]
        omega
      | retry => exact ih _ _
      | zero => exact fun hF => absurd hF hr
      | broken => exact fun hF => absurd hF hr

theorem uses_writeExpect (fuel : Nat) (data : List UInt8) (size : Nat) (e : Err) : Uses F (OpAct F O) (writeExpectT fuel data size e) All := by
  refine Uses.andThen ((uses_writeExact fuel data 0).mono fun x _ => ?_)
  split <;> trivial

theorem uses_writeFrameHeader (env : Env) (fuel : Nat) (h : Header) : Uses F (OpAct F O) (writeFrameHeaderT env fuel h) All := by
  refine Uses.seq (uses_writeExpect _ _ _ _) fun _ => Uses.seq ?_ fun _ => ?_
  · unfold writeLengthT
    split
    · exact uses_writeExpect _ _ _ _
    · split
      · exact uses_writeExpect _ _ _ _
      · trivial
  · unfold writeMaskT
    split
    · exact uses_writeExpect _ _ _ _
    · trivial

theorem uses_sendFrameHeader (env : Env) (fuel : Nat) (h : Header) (fin : Bool) (op : UInt8) (size : Int) :
    Uses F (OpAct F O) (sendFrameHeaderT env fuel h fin op size) All := by
  refine ⟨trivial, fun c _ => ?_⟩
  show Uses _ _ (if (c : Config).maskOutgoingMessages then _ else _) _
  split
  · exact ⟨trivial, fun k _ => Uses.seq (uses_writeFrameHeader _ _ _) fun _ => trivial⟩
  · exact Uses.seq (uses_writeFrameHeader _ _ _) fun _ => trivial

theorem xorMask_len (m : Mask) (k : Nat) (bs : List UInt8) : (xorMask m k bs).length = bs.length := by
  induction bs generalizing k with
  | nil => rfl
  | cons b bs ih => simp [xorMask, ih]

theorem uses_sendOneFrame (env : Env) (fuel : Nat) (fin : Bool) (op : UInt8) (msg : Option (List UInt8)) :
    Uses F (OpAct F O) (sendOneFrameT env fuel fin op msg) fun ok => F → ok = true := by
  have hw : ∀ (d : List UInt8) (s : Nat), d.length = s → Uses F (OpAct F O) (Prog.andThen (writeExactT fuel d 0) fun res => .ret (decide (res = s))) fun ok => F → ok = true := by
    intro d s hs
    refine Uses.andThen ((uses_writeExact fuel d 0).mono fun x hx hF => ?_)
    have := hx hF
    exact decide_eq_true (by omega)
  rcases msg with _ | _ | ⟨b, bs⟩
  · exact Uses.seq (uses_sendFrameHeader _ _ _ _ _ _) fun _ _ => rfl
  · exact Uses.seq (uses_sendFrameHeader _ _ _ _ _ _) fun _ _ => rfl
  · refine Uses.seq (uses_sendFrameHeader _ _ _ _ _ _) fun h => ?_
    split
    · split
      · trivial
      · exact hw _ _ (xorMask_len _ _ _)
    · exact hw _ _ rfl

theorem uses_sendOrStop (env : Env) (fuel : Nat) (op : UInt8) (msg : Option (List UInt8)) : Uses F (OpAct F O) (sendOrStopT env fuel op msg) All := by
  refine Uses.andThen ((uses_sendOneFrame env fuel true op msg).mono fun ok hok => ?_)
  cases ok with
  | true => trivial
  | false => exact ⟨⟨rfl, .inr fun hF => (by cases hok hF)⟩, fun _ _ => trivial⟩

theorem uses_send (env : Env) (fuel : Nat) (c : SendCall) : Uses F (OpAct F O) (sendT env fuel c) All := by
  cases c with
  | oneFrame fin op msg => exact (uses_sendOneFrame _ _ _ _ _).mono fun _ _ => trivial
  | _ => exact uses_sendOrStop _ _ _ _

theorem uses_userOp (env : Env) (fuel : Nat) (op : UserOp) (h : O op) : Uses F (OpAct F O) (userOpT env fuel op) All := by
  cases op with
  | stopListening => exact ⟨⟨rfl, .inl h⟩, fun _ _ => trivial⟩
  | setListener l => exact ⟨h, fun _ _ => trivial⟩
  | setConfig c => exact ⟨h, fun _ _ => trivial⟩
  | throw => trivial
  | send c catches =>
    refine ⟨trivial, fun _ _ => ?_⟩
    refine Uses.seq (Uses.catching (Uses.seq (uses_send _ _ _) fun _ => ⟨trivial, fun _ _ => trivial⟩) fun _ => ⟨trivial, fun _ _ => trivial⟩) fun r => ?_
    cases r with
    | none => trivial
    | some e => cases catches <;> trivial

theorem uses_userOps (env : Env) (fuel : Nat) (ops : List UserOp) (h : ∀ op ∈ ops, O op) : Uses F (OpAct F O) (userOpsT env fuel ops) All := by
  induction ops with
  | nil => trivial
  | cons op ops ih => exact Uses.seq (uses_userOp _ _ _ (h op (.head _))) fun _ => ih fun x hx => h x (.tail _ hx)

theorem uses_writePieces (fuel : Nat) (h : Header) (n : Nat) (pieces : List (List UInt8)) : Uses F (OpAct F O) (writePiecesT fuel h n pieces) All := by
  induction pieces generalizing n with
  | nil => trivial
  | cons p ps ih =>
    refine Uses.andThen ((uses_writeExact fuel _ 0).mono fun x _ => ?_)
    split
    · exact ih _
    · trivial

theorem uses_marked {p : Prog Bool} (c : SendCall) (h : Uses F (OpAct F O) p All) :
    Uses F (OpAct F O) (.act (.call c) fun _ => Prog.catching (Prog.andThen p fun ok => .act (.returned ok) fun _ => .ret ok)
      (fun e => .act (.returned false) fun _ => .throw e)) All :=
  ⟨trivial, fun _ _ => Uses.catching (Uses.seq h fun _ => ⟨trivial, fun _ _ => trivial⟩) fun _ => ⟨trivial, fun _ _ => trivial⟩⟩

theorem uses_helper {env : Env} {fuel : Nat} {α : Type} {q : Prog α} (h : HelperCode O env fuel q) : Uses F (OpAct F O) q All := by
  induction h with
  | ret a => trivial
  | throw e => trivial
  | bind _ _ h1 h2 => exact Uses.seq h1 h2
  | catching _ _ h1 h2 => exact Uses.catching h1 h2
  | code ops ho => exact uses_userOps env fuel ops ho
  | send c _ => exact uses_marked c (uses_send env fuel c)
  | stream c h pieces _ _ => exact uses_marked c (Uses.seq (uses_sendFrameHeader _ _ _ _ _ _) fun _ => uses_writePieces _ _ _ _)

/-! ## Listening -/

/-- Steps of a thread that listens, whose callbacks are operations `O`. -/
def ListenAct (F : Prop) (O : UserOp → Prop) : Act → Prop
  | .read _ => True
  | .getListener => True
  | .callback _ => True
  | .getLastOpcode => True
  | .setLastOpcode _ => True
  | .getListening => True
  | .setListening _ => True
  | a => OpAct F O a

theorem ListenAct.of {a : Act} (h : OpAct F O a) : ListenAct F O a := by
  cases a <;> first | exact h | trivial

section
variable (env : Env) (fuel : Nat) (henv : ∀ tr, ∀ op ∈ env.react tr, O op)
include henv

theorem uses_callListener (mk : Nat → Event) : Uses F (ListenAct F O) (callListenerT env fuel mk) All := by
  refine ⟨trivial, fun l _ => ?_⟩
  cases l with
  | none => trivial
  | some l => exact ⟨trivial, fun tr _ => (uses_userOps _ _ _ (henv _)).weaken fun _ h => ListenAct.of h⟩

omit henv in
theorem uses_readExact (fuel need : Nat) (acc : List UInt8) : Uses F (ListenAct F O) (readExactT fuel need acc) All := by
  induction fuel generalizing need acc with
  | zero => cases need <;> trivial
  | succ fuel ih =>
    cases need with
    | zero => trivial
    | succ need =>
      refine ⟨trivial, fun r _ => ?_⟩
      cases r with
      | data bs => exact ih _ _
      | retry => exact ih _ _
      | zero => trivial
      | broken => trivial

omit henv in
theorem uses_readFrameHeader (h : Header) : Uses F (ListenAct F O) (readFrameHeaderT env fuel h) All := by
  refine Uses.seq (uses_readExact _ _ _) fun bs => ?_
  split
  · refine Uses.seq (p := readLengthT _ _ _) ?_ fun len => ?_
    · unfold readLengthT
      split
      · trivial
      · split
        · refine Uses.seq (uses_readExact _ _ _) fun bs => ?_
          split <;> trivial
        · refine Uses.seq (uses_readExact _ _ _) fun bs => ?_
          split <;> trivial
    · split
      · refine Uses.seq (uses_readExact _ _ _) fun ms => ?_
        split <;> trivial
      · trivial
  · trivial

theorem uses_readPayloadLoop (h : Header) (short : Bool) (cap : Nat) (k : Nat) (progress : Int) (acc : List UInt8) :
    Uses F (ListenAct F O) (readPayloadLoopT env fuel h short cap k progress acc) All := by
  induction k generalizing progress acc with
  | zero =>
    unfold readPayloadLoopT
    split <;> trivial
  | succ k ih =>
    unfold readPayloadLoopT
    split
    · refine ⟨trivial, fun c _ => ?_⟩
      dsimp only
      generalize (if (c : Config).readBufferSize > h.payloadLength - progress then h.payloadLength - progress else (c : Config).readBufferSize) = want
      split
      · exact ⟨trivial, fun _ _ => trivial⟩
      · refine ⟨trivial, fun r _ => ?_⟩
        cases r with
        | data bs =>
          dsimp only
          split
          · trivial
          · split
            · exact ih _ _
            · exact Uses.seq (uses_callListener env fuel henv _) fun _ => ih _ _
        | retry => exact ih _ _
        | zero => trivial
        | broken => trivial
    · trivial

theorem uses_readPayload (h : Header) (short : Bool) : Uses F (ListenAct F O) (readPayloadT env fuel h short) All := by
  unfold readPayloadT
  split
  · trivial
  · refine ⟨trivial, fun c _ => ?_⟩
    dsimp only
    split
    · trivial
    · refine Uses.seq (uses_readPayloadLoop env fuel henv _ _ _ _ _ _) fun acc => Uses.seq (p := endMarkerT _ _ _ _) ?_ fun _ => trivial
      unfold endMarkerT
      split
      · exact uses_callListener env fuel henv _
      · trivial

omit henv in
theorem uses_checkForContinuation (h : Header) : Uses F (ListenAct F O) (checkForContinuationT h) All := by
  refine ⟨trivial, fun v _ => ?_⟩
  show Uses _ _ (if (v : Int) = _ ∨ _ then _ else _) _
  split
  · trivial
  · split
    · exact ⟨trivial, fun _ _ => trivial⟩
    · exact ⟨trivial, fun _ _ => trivial⟩

theorem uses_handleFrame (h : Header) : Uses F (ListenAct F O) (handleFrameT env fuel h) All := by
  have hd : Uses F (ListenAct F O) (Prog.andThen (readPayloadT env fuel h false) fun _ => .ret ()) All :=
    Uses.seq (uses_readPayload env fuel henv _ _) fun _ => trivial
  have hc : ∀ mk : List UInt8 → Nat → Event, Uses F (ListenAct F O) (Prog.andThen (readPayloadT env fuel h true) fun data => callListenerT env fuel (mk data)) All :=
    fun mk => Uses.seq (uses_readPayload env fuel henv _ _) fun _ => uses_callListener env fuel henv _
  have hs : Uses F (ListenAct F O) (Prog.andThen (checkForContinuationT h) fun ok => if ok then Prog.andThen (readPayloadT env fuel h false) fun _ => .ret () else .throw .continuationExpected) All :=
    Uses.seq (uses_checkForContinuation h) fun ok => by
      cases ok
      · trivial
      · exact hd
  unfold handleFrameT
  split
  · refine ⟨trivial, fun v _ => ?_⟩
    show Uses _ _ (if (v : Int) < 0 then _ else _) _
    split
    · trivial
    · exact hd
  · split
    · exact hs
    · split
      · exact hs
      · split
        · exact hc fun data l => .onClose l (closeArgs env data).1 (closeArgs env data).2
        · split
          · exact hc fun data l => .onPing l data
          · split
            · exact hc fun data l => .onPong l data
            · trivial

theorem uses_listenLoop (k : Nat) (h : Header) : Uses F (ListenAct F O) (listenLoopT env fuel k h) All := by
  induction k generalizing h with
  | zero => trivial
  | succ k ih =>
    refine Uses.seq (p := iterateFrameT _ _ _) ?_ fun h' => ?_
    · exact Uses.seq (uses_readFrameHeader env fuel h) fun h' => Uses.seq (uses_handleFrame env fuel henv h') fun _ => trivial
    · split
      · refine ⟨trivial, fun b _ => ?_⟩
        show Uses _ _ (if (b : Bool) then _ else _) _
        split
        · exact ih _
        · trivial
      · trivial

theorem uses_listen (h : Header) : Uses F (ListenAct F O) (listenT env fuel h) All :=
  Uses.catching (p := .act (.setListening true) fun _ => listenLoopT env fuel fuel h) ⟨trivial, fun _ _ => uses_listenLoop env fuel henv _ _⟩ fun _ => trivial

end

/-! ## Executions -/

/-- No write fails. -/
def WritesFine (st : St) : Prop := ∀ o ∈ st.sock.out.sched, o.fine = true

theorem exec_yields {env : Env} {a : Act} {st st' : St} {r : a.Res} (he : exec env a st = some (r, st')) (hF : F → WritesFine st) :
    Yields F a r ∧ (F → WritesFine st') := by
  cases a with
  | write d =>
    dsimp only [exec] at he
    split at he
    · cases he
    · rename_i o sched hs
      have hfine : F → o.fine = true ∧ ∀ x ∈ sched, x.fine = true := fun h => by
        have := hF h
        unfold WritesFine at this
        rw [hs] at this
        exact ⟨this o (.head _), fun x hx => this x (.tail _ hx)⟩
      cases o with
      | upTo m =>
        dsimp only [lowWrite] at he
        injection he with he
        injection he with h1 h2
        subst h1 h2
        exact ⟨Nat.min_le_right _ _, fun h => (hfine h).2⟩
      | retry =>
        dsimp only [lowWrite] at he
        injection he with he
        injection he with h1 h2
        subst h1 h2
        exact ⟨trivial, fun h => (hfine h).2⟩
      | zero =>
        dsimp only [lowWrite] at he
        injection he with he
        injection he with h1 h2
        subst h1 h2
        exact ⟨fun h => (by have := (hfine h).1; cases this), fun h => (hfine h).2⟩
      | broken =>
        dsimp only [lowWrite] at he
        injection he with he
        injection he with h1 h2
        subst h1 h2
        exact ⟨fun h => (by have := (hfine h).1; cases this), fun h => (hfine h).2⟩
  | read n =>
    dsimp only [exec] at he
    split at he
    · cases he
    · injection he with he
      injection he with h1 h2
      subst h2
      exact ⟨trivial, hF⟩
  | _ =>
    dsimp only [exec] at he
    injection he with he
    injection he with h1 h2
    subst h2
    exact ⟨trivial, hF⟩

/-- Which steps the threads still make. -/
structure Roles (F : Prop) (O O' : UserOp → Prop) (p : Pool) : Prop where
  first : ∀ q, p.threads[0]? = some q → Uses F (ListenAct F O') q All
  others : ∀ i q, p.threads[i + 1]? = some q → Uses F (OpAct F O) q All
  fine : F → WritesFine p.st

theorem Team.roles {env : Env} {fuel : Nat} {O O' : UserOp → Prop} {p : Pool} (h : Team env fuel O O' p) (hF : F → WritesFine p.st) : Roles F O O' p := by
  obtain ⟨⟨hd, others, e, ho⟩, hcb⟩ := h
  refine ⟨fun q hq => ?_, fun i q hq => ?_, hF⟩
  · rw [e] at hq
    injection hq with hq
    subst hq
    exact uses_listen env fuel hcb hd
  · rw [e] at hq
    exact uses_helper (ho q (List.mem_of_getElem? hq))

theorem Roles.steps {env : Env} {O O' : UserOp → Prop} {p p' : Pool} (h : Roles F O O' p) (hs : Pool.Steps env p p') : Roles F O O' p' := by
  induction hs with
  | refl => exact h
  | tail _ hs ih =>
    cases hs with
    | @mk ts st i a k r st' hi he =>
      obtain ⟨hy, hf⟩ := exec_yields he ih.fine
      have hlt : i < ts.length := (List.getElem?_eq_some_iff.mp hi).1
      refine ⟨fun q hq => ?_, fun j q hq => ?_, hf⟩
      · have hq : (ts.set i (k r))[0]? = some q := hq
        by_cases e : i = 0
        · subst e
          rw [List.getElem?_set_self hlt] at hq
          injection hq with hq
          subst hq
          exact (ih.first _ hi).2 r hy
        · rw [List.getElem?_set_ne e] at hq
          exact ih.first q hq
      · have hq : (ts.set i (k r))[j + 1]? = some q := hq
        by_cases e : i = j + 1
        · subst e
          rw [List.getElem?_set_self hlt] at hq
          injection hq with hq
          subst hq
          exact (ih.others j _ hi).2 r hy
        · rw [List.getElem?_set_ne e] at hq
          exact ih.others j q hq

end OatWS.Threads
