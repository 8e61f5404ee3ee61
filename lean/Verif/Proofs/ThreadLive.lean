import Verif.Spec.Threads
/-! Threads wait for nothing but the connection, and do not run for ever. -/

namespace OatWS.Threads
open RFC6455 Async Prog

/-- Reads left after the step. -/
def Act.readsLeft (a : Act) (m m' : Nat) : Prop :=
  match a with
  | .read _ => m' < m
  | _ => m' ≤ m

/-- Writes left after the step. -/
def Act.writesLeft (a : Act) (n n' : Nat) : Prop :=
  match a with
  | .write _ => n' < n
  | _ => n' ≤ n

/-- With at most `m` more reads and `n` more writes (of all threads) the program is not stuck; `Q` holds when it returns. -/
def Live {α : Type} : Prog α → Nat → Nat → (α → Nat → Nat → Prop) → Prop
  | .ret x, m, n, Q => Q x m n
  | .throw _, _, _, _ => True
  | .ub _, _, _, _ => True
  | .stuck, _, _, _ => False
  | .act a k, m, n, Q => ∀ m' n', a.readsLeft m m' → a.writesLeft n n' → ∀ r, Live (k r) m' n' Q

variable {α β : Type}

theorem Act.readsLeft_le {a : Act} {m m'} (h : a.readsLeft m m') : m' ≤ m := by
  cases a <;> first | exact h | exact Nat.le_of_lt h

theorem Act.writesLeft_le {a : Act} {m m'} (h : a.writesLeft m m') : m' ≤ m := by
  cases a <;> first | exact h | exact Nat.le_of_lt h

theorem Act.readsLeft_anti {a : Act} {m1 m m'} (h : a.readsLeft m1 m') (hm : m1 ≤ m) : a.readsLeft m m' := by
  cases a <;> first | exact Nat.le_trans h hm | exact Nat.lt_of_lt_of_le h hm

theorem Act.writesLeft_anti {a : Act} {m1 m m'} (h : a.writesLeft m1 m') (hm : m1 ≤ m) : a.writesLeft m m' := by
  cases a <;> first | exact Nat.le_trans h hm | exact Nat.lt_of_lt_of_le h hm

/-- What is used up stays used up. -/
def Down (Q : α → Nat → Nat → Prop) : Prop := ∀ x m n m' n', Q x m n → m' ≤ m → n' ≤ n → Q x m' n'

theorem Live.down {p : Prog α} {m n m' n' Q} (h : Live p m n Q) (hQ : Down Q) (hm : m' ≤ m) (hn : n' ≤ n) : Live p m' n' Q := by
  cases p with
  | ret x => exact hQ _ _ _ _ _ h hm hn
  | throw e => trivial
  | ub u => trivial
  | stuck => exact h
  | act a k => exact fun m'' n'' h1 h2 r => h m'' n'' (Act.readsLeft_anti h1 hm) (Act.writesLeft_anti h2 hn) r

theorem Live.mono {p : Prog α} {m n} {Q Q' : α → Nat → Nat → Prop} (h : Live p m n Q) (hq : ∀ x m' n', m' ≤ m → n' ≤ n → Q x m' n' → Q' x m' n') : Live p m n Q' := by
  induction p generalizing m n with
  | ret x => exact hq _ _ _ (Nat.le_refl _) (Nat.le_refl _) h
  | throw e => trivial
  | ub u => trivial
  | stuck => exact h
  | act a k ih =>
    intro m' n' h1 h2 r
    exact ih r (h m' n' h1 h2 r) fun x m'' n'' g1 g2 => hq x m'' n'' (Nat.le_trans g1 (Act.readsLeft_le h1)) (Nat.le_trans g2 (Act.writesLeft_le h2))

theorem Live.andThen {p : Prog α} {f : α → Prog β} {m n Q} (h : Live p m n fun x m' n' => Live (f x) m' n' Q) : Live (Prog.andThen p f) m n Q := by
  induction p generalizing m n with
  | ret x => exact h
  | throw e => trivial
  | ub u => trivial
  | stuck => exact h
  | act a k ih => exact fun m' n' h1 h2 r => ih r (h m' n' h1 h2 r)

theorem Live.catching {p : Prog α} {f : Err → Prog α} {m n Q} (h : Live p m n Q) (hf : ∀ e m' n', m' ≤ m → n' ≤ n → Live (f e) m' n' Q) :
    Live (Prog.catching p f) m n Q := by
  induction p generalizing m n with
  | ret x => exact h
  | throw e => exact hf e m n (Nat.le_refl _) (Nat.le_refl _)
  | ub u => trivial
  | stuck => exact h
  | act a k ih => exact fun m' n' h1 h2 r => ih r (h m' n' h1 h2 r) fun e m'' n'' g1 g2 => hf e m'' n'' (Nat.le_trans g1 (Act.readsLeft_le h1)) (Nat.le_trans g2 (Act.writesLeft_le h2))

/-- Nothing is said about the result. -/
def Any (_ : α) (_ _ : Nat) : Prop := True

/-- Sequencing, where both are fine whatever is left. -/
theorem Live.seq {p : Prog α} {f : α → Prog β} {m n} (h : Live p m n Any) (hf : ∀ x m' n', m' ≤ m → n' ≤ n → Live (f x) m' n' Any) :
    Live (Prog.andThen p f) m n Any :=
  Live.andThen (h.mono fun x m' n' h1 h2 _ => hf x m' n' h1 h2)

theorem live_writeExact (fuel : Nat) (data : List UInt8) (k m n : Nat) (hn : n < fuel) : Live (writeExactT fuel data k) m n Any := by
  induction fuel generalizing data k m n with
  | zero => omega
  | succ fuel ih =>
    cases data with
    | nil => trivial
    | cons b bs =>
      intro m' n' h1 h2 r
      have h2 : n' < n := h2
      cases r with
      | wrote k => exact ih _ _ _ _ (by omega)
      | retry => exact ih _ _ _ _ (by omega)
      | zero => trivial
      | broken => trivial

theorem live_writeExpect (fuel : Nat) (data : List UInt8) (size : Nat) (e : Err) (m n : Nat) (hn : n < fuel) : Live (writeExpectT fuel data size e) m n Any := by
  refine Live.seq (live_writeExact fuel data 0 m n hn) fun x _ _ _ _ => ?_
  split <;> trivial

theorem live_writeFrameHeader (env : Env) (fuel : Nat) (h : Header) (m n : Nat) (hn : n < fuel) : Live (writeFrameHeaderT env fuel h) m n Any := by
  refine Live.seq (live_writeExpect _ _ _ _ _ _ hn) fun _ m' n' _ h2 => Live.seq ?_ fun _ m'' n'' _ h3 => ?_
  · unfold writeLengthT
    split
    · exact live_writeExpect _ _ _ _ _ _ (by omega)
    · split
      · exact live_writeExpect _ _ _ _ _ _ (by omega)
      · trivial
  · unfold writeMaskT
    split
    · exact live_writeExpect _ _ _ _ _ _ (by omega)
    · trivial

theorem live_sendFrameHeader (env : Env) (fuel : Nat) (h : Header) (fin : Bool) (op : UInt8) (size : Int) (m n : Nat) (hn : n < fuel) :
    Live (sendFrameHeaderT env fuel h fin op size) m n Any := by
  intro m' n' _ h2 c
  have h2 : n' ≤ n := h2
  show Live (if (c : Config).maskOutgoingMessages then _ else _) _ _ _
  split
  · intro m'' n'' _ h3 k
    have h3 : n'' ≤ n' := h3
    exact Live.seq (live_writeFrameHeader _ _ _ _ _ (by omega)) fun _ _ _ _ _ => trivial
  · exact Live.seq (live_writeFrameHeader _ _ _ _ _ (by omega)) fun _ _ _ _ _ => trivial

theorem live_sendOneFrame (env : Env) (fuel : Nat) (fin : Bool) (op : UInt8) (msg : Option (List UInt8)) (m n : Nat) (hn : n < fuel) :
    Live (sendOneFrameT env fuel fin op msg) m n Any := by
  have hw : ∀ (d : List UInt8) (s m' n' : Nat), n' ≤ n → Live (Prog.andThen (writeExactT fuel d 0) fun res => .ret (decide (res = s))) m' n' Any := by
    intro d s m' n' h2
    exact Live.seq (live_writeExact _ _ _ _ _ (by omega)) fun _ _ _ _ _ => trivial
  rcases msg with _ | _ | ⟨b, bs⟩
  · exact Live.seq (live_sendFrameHeader _ _ _ _ _ _ _ _ hn) fun _ _ _ _ _ => trivial
  · exact Live.seq (live_sendFrameHeader _ _ _ _ _ _ _ _ hn) fun _ _ _ _ _ => trivial
  · refine Live.seq (live_sendFrameHeader _ _ _ _ _ _ _ _ hn) fun h m' n' _ h2 => ?_
    split
    · split
      · trivial
      · exact hw _ _ _ _ h2
    · exact hw _ _ _ _ h2

theorem live_sendOrStop (env : Env) (fuel : Nat) (op : UInt8) (msg : Option (List UInt8)) (m n : Nat) (hn : n < fuel) :
    Live (sendOrStopT env fuel op msg) m n Any := by
  refine Live.seq (live_sendOneFrame _ _ _ _ _ _ _ hn) fun ok m' n' _ h2 => ?_
  cases ok
  · exact fun _ _ _ _ _ => trivial
  · trivial

theorem live_send (env : Env) (fuel : Nat) (c : SendCall) (m n : Nat) (hn : n < fuel) : Live (sendT env fuel c) m n Any := by
  cases c with
  | oneFrame fin op msg => exact live_sendOneFrame _ _ _ _ _ _ _ hn
  | _ => exact live_sendOrStop _ _ _ _ _ _ hn

theorem live_userOp (env : Env) (fuel : Nat) (op : UserOp) (m n : Nat) (hn : n < fuel) : Live (userOpT env fuel op) m n Any := by
  cases op with
  | stopListening => exact fun _ _ _ _ _ => trivial
  | setListener l => exact fun _ _ _ _ _ => trivial
  | setConfig c => exact fun _ _ _ _ _ => trivial
  | throw => trivial
  | send c catches =>
    intro m' n' _ h2 _
    have h2 : n' ≤ n := h2
    refine Live.seq (Live.catching (Live.seq (live_send _ _ _ _ _ (by omega)) fun _ _ _ _ _ => fun _ _ _ _ _ => trivial)
      fun _ _ _ _ _ => fun _ _ _ _ _ => trivial) fun r _ _ _ _ => ?_
    cases r with
    | none => trivial
    | some e => cases catches <;> trivial

theorem live_userOps (env : Env) (fuel : Nat) (ops : List UserOp) (m n : Nat) (hn : n < fuel) : Live (userOpsT env fuel ops) m n Any := by
  induction ops generalizing m n with
  | nil => trivial
  | cons op ops ih => exact Live.seq (live_userOp _ _ _ _ _ hn) fun _ m' n' _ h2 => ih m' n' (by omega)

theorem live_callListener (env : Env) (fuel : Nat) (mk : Nat → Event) (m n : Nat) (hn : n < fuel) : Live (callListenerT env fuel mk) m n Any := by
  intro m' n' _ h2 l
  have h2 : n' ≤ n := h2
  cases l with
  | none => trivial
  | some l =>
    intro m'' n'' _ h3 tr
    have h3 : n'' ≤ n' := h3
    exact live_userOps _ _ _ _ _ (by omega)

/-- A read of at least one byte is at least one low-level read. -/
theorem live_readExact (fuel : Nat) (need : Nat) (acc : List UInt8) (m n : Nat) (hm : m < fuel) :
    Live (readExactT fuel need acc) m n fun _ m' _ => 0 < need → m' < m := by
  induction fuel generalizing need acc m n with
  | zero => omega
  | succ fuel ih =>
    cases need with
    | zero => exact fun h => absurd h (by omega)
    | succ need =>
      intro m' n' h1 h2 r
      have h1 : m' < m := h1
      cases r with
      | data bs => exact (ih _ _ m' n' (by omega)).mono fun _ m'' _ h3 _ _ _ => Nat.lt_of_le_of_lt h3 h1
      | retry => exact (ih _ _ m' n' (by omega)).mono fun _ m'' _ h3 _ _ _ => Nat.lt_of_le_of_lt h3 h1
      | zero => exact fun _ => h1
      | broken => exact fun _ => h1

theorem live_readExact' (fuel : Nat) (need : Nat) (acc : List UInt8) (m n : Nat) (hm : m < fuel) : Live (readExactT fuel need acc) m n Any :=
  (live_readExact fuel need acc m n hm).mono fun _ _ _ _ _ _ => trivial

theorem live_readLength (env : Env) (fuel : Nat) (l : UInt8) (m n : Nat) (hm : m < fuel) : Live (readLengthT env fuel l) m n Any := by
  unfold readLengthT
  split
  · trivial
  · split
    · refine Live.seq (live_readExact' _ _ _ _ _ hm) fun bs _ _ _ _ => ?_
      split <;> trivial
    · refine Live.seq (live_readExact' _ _ _ _ _ hm) fun bs _ _ _ _ => ?_
      split <;> trivial

theorem live_readFrameHeader (env : Env) (fuel : Nat) (h : Header) (m n : Nat) (hm : m < fuel) :
    Live (readFrameHeaderT env fuel h) m n fun _ m' _ => m' < m := by
  refine Live.andThen ((live_readExact fuel 2 [] m n hm).mono fun bs m' n' h1 h2 h3 => ?_)
  have h3 : m' < m := h3 (by omega)
  refine Live.mono (Q := Any) ?_ fun _ m'' _ h4 _ _ => Nat.lt_of_le_of_lt h4 h3
  split
  · refine Live.seq (live_readLength _ _ _ _ _ (by omega)) fun len m'' n'' h4 _ => ?_
    split
    · refine Live.seq (live_readExact' _ _ _ _ _ (by omega)) fun ms _ _ _ _ => ?_
      split <;> trivial
    · trivial
  · trivial

theorem live_readPayloadLoop (env : Env) (fuel : Nat) (h : Header) (short : Bool) (cap : Nat) (k : Nat) (progress : Int) (acc : List UInt8) (m n : Nat)
    (hk : m < k) (hn : n < fuel) : Live (readPayloadLoopT env fuel h short cap k progress acc) m n Any := by
  induction k generalizing progress acc m n with
  | zero => omega
  | succ k ih =>
    unfold readPayloadLoopT
    split
    · intro m1 n1 h1 h2 c
      have h1 : m1 ≤ m := h1
      have h2 : n1 ≤ n := h2
      dsimp only
      generalize (if (c : Config).readBufferSize > h.payloadLength - progress then h.payloadLength - progress else (c : Config).readBufferSize) = want
      split
      · exact fun _ _ _ _ _ => trivial
      · intro m2 n2 h3 h4 r
        have h3 : m2 < m1 := h3
        have h4 : n2 ≤ n1 := h4
        cases r with
        | data bs =>
          dsimp only
          split
          · trivial
          · split
            · exact ih _ _ _ _ (by omega) (by omega)
            · refine Live.seq (live_callListener _ _ _ _ _ (by omega)) fun _ m3 n3 h5 h6 => ih _ _ _ _ (by omega) (by omega)
        | retry => exact ih _ _ _ _ (by omega) (by omega)
        | zero => trivial
        | broken => trivial
    · trivial

theorem live_readPayload (env : Env) (fuel : Nat) (h : Header) (short : Bool) (m n : Nat) (hm : m < fuel) (hn : n < fuel) :
    Live (readPayloadT env fuel h short) m n Any := by
  unfold readPayloadT
  split
  · trivial
  · intro m1 n1 h1 h2 c
    have h1 : m1 ≤ m := h1
    have h2 : n1 ≤ n := h2
    dsimp only
    split
    · trivial
    · refine Live.seq (live_readPayloadLoop _ _ _ _ _ _ _ _ _ _ (by omega) (by omega)) fun acc m2 n2 h3 h4 => Live.seq ?_ fun _ _ _ _ _ => trivial
      unfold endMarkerT
      split
      · exact live_callListener _ _ _ _ _ (by omega)
      · trivial

theorem live_checkForContinuation (h : Header) (m n : Nat) : Live (checkForContinuationT h) m n Any := by
  intro m1 n1 h1 h2 v
  show Live (if (v : Int) = _ ∨ _ then _ else _) _ _ _
  split
  · trivial
  · split
    · exact fun _ _ _ _ _ => trivial
    · exact fun _ _ _ _ _ => trivial

theorem live_handleFrame (env : Env) (fuel : Nat) (h : Header) (m n : Nat) (hm : m < fuel) (hn : n < fuel) : Live (handleFrameT env fuel h) m n Any := by
  have hp : ∀ short m' n', m' ≤ m → n' ≤ n → Live (readPayloadT env fuel h short) m' n' Any := fun short m' n' h1 h2 => live_readPayload _ _ _ _ _ _ (by omega) (by omega)
  have hd : ∀ m' n', m' ≤ m → n' ≤ n → Live (Prog.andThen (readPayloadT env fuel h false) fun _ => .ret ()) m' n' Any :=
    fun m' n' h1 h2 => Live.seq (hp _ _ _ h1 h2) fun _ _ _ _ _ => trivial
  have hc : ∀ mk : List UInt8 → Nat → Event, Live (Prog.andThen (readPayloadT env fuel h true) fun data => callListenerT env fuel (mk data)) m n Any :=
    fun mk => Live.seq (hp _ _ _ (Nat.le_refl _) (Nat.le_refl _)) fun _ _ _ _ _ => live_callListener _ _ _ _ _ (by omega)
  have hs : Live (Prog.andThen (checkForContinuationT h) fun ok => if ok then Prog.andThen (readPayloadT env fuel h false) fun _ => .ret () else .throw .continuationExpected) m n Any :=
    Live.seq (live_checkForContinuation h m n) fun ok m' n' h1 h2 => by
      cases ok
      · trivial
      · exact hd _ _ h1 h2
  unfold handleFrameT
  split
  · intro m1 n1 h1 h2 v
    have h1 : m1 ≤ m := h1
    have h2 : n1 ≤ n := h2
    show Live (if (v : Int) < 0 then _ else _) _ _ _
    split
    · trivial
    · exact hd _ _ h1 h2
  · split
    · exact hs
    · split
      · exact hs
      · split
        · exact hc fun data l => .onClose l (closeArgs env data).1 (closeArgs env data).2
        · split
          · exact hc fun data l => .onPing l data
          · split
            · exact hc fun data l => .onPong l data
            · trivial

theorem live_listenLoop (env : Env) (fuel : Nat) (k : Nat) (h : Header) (m n : Nat) (hk : m < k) (hm : m < fuel) (hn : n < fuel) :
    Live (listenLoopT env fuel k h) m n Any := by
  induction k generalizing h m n with
  | zero => omega
  | succ k ih =>
    refine Live.andThen (Live.mono (Q := fun _ m' _ => m' < m) ?_ fun h' m' n' h1 h2 h3 => ?_)
    · refine Live.andThen ((live_readFrameHeader env fuel h m n hm).mono fun h' m' n' h1 h2 h3 => ?_)
      refine Live.andThen ((live_handleFrame env fuel h' m' n' (by omega) (by omega)).mono fun _ m'' _ h4 _ _ => ?_)
      exact Nat.lt_of_le_of_lt h4 h3
    · split
      · intro m'' n'' h4 h5 b
        have h4 : m'' ≤ m' := h4
        have h5 : n'' ≤ n' := h5
        show Live (if (b : Bool) then _ else _) _ _ _
        split
        · exact ih _ _ _ (by omega) (by omega) (by omega)
        · trivial
      · trivial

theorem live_listen (env : Env) (fuel : Nat) (h : Header) (m n : Nat) (hm : m < fuel) (hn : n < fuel) : Live (listenT env fuel h) m n Any := by
  refine Live.catching ?_ fun _ _ _ _ _ => trivial
  intro m' n' h1 h2 _
  have h1 : m' ≤ m := h1
  have h2 : n' ≤ n := h2
  exact live_listenLoop _ _ _ _ _ _ (by omega) (by omega) (by omega)

theorem live_iterateFrame (env : Env) (fuel : Nat) (h : Header) (m n : Nat) (hm : m < fuel) (hn : n < fuel) : Live (iterateFrameT env fuel h) m n Any := by
  refine Live.seq ((live_readFrameHeader env fuel h m n hm).mono fun _ _ _ _ _ _ => trivial) fun h' m' n' h1 h2 => ?_
  exact Live.seq (live_handleFrame _ _ _ _ _ (by omega) (by omega)) fun _ _ _ _ _ => trivial

theorem live_marked {p : Prog Bool} (c : SendCall) (m n : Nat) (h : ∀ m' n', m' ≤ m → n' ≤ n → Live p m' n' Any) :
    Live (.act (.call c) fun _ => Prog.catching (Prog.andThen p fun ok => .act (.returned ok) fun _ => .ret ok)
      (fun e => .act (.returned false) fun _ => .throw e)) m n Any := by
  intro m' n' h1 h2 _
  exact Live.catching (Live.seq (h m' n' h1 h2) fun _ _ _ _ _ => fun _ _ _ _ _ => trivial) fun _ _ _ _ _ => fun _ _ _ _ _ => trivial

theorem live_writePieces (fuel : Nat) (h : Header) (k : Nat) (pieces : List (List UInt8)) (m n : Nat) (hn : n < fuel) : Live (writePiecesT fuel h k pieces) m n Any := by
  induction pieces generalizing k m n with
  | nil => trivial
  | cons p ps ih =>
    refine Live.seq (live_writeExact _ _ _ _ _ hn) fun res m' n' _ h2 => ?_
    split
    · exact ih _ _ _ (by omega)
    · trivial

theorem AppCode.live {env : Env} {fuel : Nat} {α : Type} {q : Prog α} (h : AppCode env fuel q) (m n : Nat) (hm : m < fuel) (hn : n < fuel) : Live q m n Any := by
  induction h generalizing m n with
  | ret a => trivial
  | throw e => trivial
  | bind _ _ ih1 ih2 => exact Live.seq (ih1 m n hm hn) fun x m' n' h1 h2 => ih2 x m' n' (by omega) (by omega)
  | catching _ _ ih1 ih2 => exact Live.catching (ih1 m n hm hn) fun e m' n' h1 h2 => ih2 e m' n' (by omega) (by omega)
  | listen h => exact live_listen _ _ _ _ _ hm hn
  | iterate h => exact live_iterateFrame _ _ _ _ _ hm hn
  | code ops => exact live_userOps _ _ _ _ _ hn
  | send c => exact live_marked c m n fun m' n' _ h2 => live_send _ _ _ _ _ (by omega)
  | stream c h pieces hp =>
    exact live_marked c m n fun m' n' _ h2 => Live.seq (live_sendFrameHeader _ _ _ _ _ _ _ _ (by omega)) fun _ m'' n'' _ h3 =>
      live_writePieces _ _ _ _ _ _ (by omega)
  | getListener => exact fun _ _ _ _ _ => trivial

theorem AppThread.live {env : Env} {fuel : Nat} {q : Prog Unit} (h : AppThread env fuel q) (m n : Nat) (hm : m < fuel) (hn : n < fuel) : Live q m n Any :=
  AppCode.live h m n hm hn

/-! ## Pools -/

theorem exec_left {env : Env} {a : Act} {st st' : St} {r : a.Res} (h : exec env a st = some (r, st')) :
    a.readsLeft st.inp.sched.length st'.inp.sched.length ∧ a.writesLeft st.sock.out.sched.length st'.sock.out.sched.length := by
  cases a with
  | read n =>
    dsimp only [exec] at h
    split at h
    · cases h
    · rename_i o sched hs
      injection h with h
      injection h with h1 h2
      subst h1 h2
      exact ⟨by show sched.length < _; rw [hs]; simp, Nat.le_refl _⟩
  | write d =>
    dsimp only [exec] at h
    split at h
    · cases h
    · rename_i o sched hs
      split at h
      · injection h with h
        injection h with h1 h2
        subst h1 h2
        exact ⟨Nat.le_refl _, by show sched.length < _; rw [hs]; simp⟩
      · injection h with h
        injection h with h1 h2
        subst h1 h2
        exact ⟨Nat.le_refl _, by show sched.length < _; rw [hs]; simp⟩
  | _ =>
    injection h with h
    injection h with h1 h2
    subst h1 h2
    exact ⟨Nat.le_refl _, Nat.le_refl _⟩

def AllLive (p : Pool) : Prop := ∀ q ∈ p.threads, Live q p.st.inp.sched.length p.st.sock.out.sched.length Any

theorem any_down : Down (Any (α := Unit)) := fun _ _ _ _ _ _ _ _ => trivial

theorem AllLive.step {env : Env} {p p' : Pool} (h : AllLive p) (hs : Pool.Step env p p') : AllLive p' := by
  cases hs with
  | @mk ts st i a k r st' hi he =>
    obtain ⟨h1, h2⟩ := exec_left he
    intro q hq
    rcases List.mem_or_eq_of_mem_set hq with hq | rfl
    · exact (h q hq).down any_down (Act.readsLeft_le h1) (Act.writesLeft_le h2)
    · exact h _ (List.mem_of_getElem? hi) _ _ h1 h2 r

theorem AllLive.steps {env : Env} {p p' : Pool} (h : AllLive p) (hs : Pool.Steps env p p') : AllLive p' := by
  induction hs with
  | refl => exact h
  | tail _ hs ih => exact ih.step hs

/-! ## No infinite execution -/

/-- A program after one of its steps. -/
inductive After1 {α : Type} : Prog α → Prog α → Prop
  | mk {a k} (r) : After1 (k r) (.act a k)

theorem after1_acc {α : Type} (p : Prog α) : Acc After1 p := by
  induction p with
  | act a k ih => exact ⟨_, fun q h => by cases h with | mk r => exact ih r⟩
  | _ => exact ⟨_, fun q h => by cases h⟩

/-- One of the programs makes a step. -/
inductive One : List (Prog Unit) → List (Prog Unit) → Prop
  | head {q q' ts} : After1 q' q → One (q' :: ts) (q :: ts)
  | tail {q ts ts'} : One ts' ts → One (q :: ts') (q :: ts)

theorem one_acc (ts : List (Prog Unit)) : Acc One ts := by
  induction ts with
  | nil => exact ⟨_, fun q h => by cases h⟩
  | cons q ts ih =>
    have hq := after1_acc q
    induction hq generalizing ts with
    | intro q _ ihq =>
      induction ih with
      | intro ts hts iht =>
        refine ⟨_, fun x hx => ?_⟩
        cases hx with
        | head h => exact ihq _ h ts ⟨_, hts⟩
        | tail h => exact iht _ h

theorem one_of_set {ts : List (Prog Unit)} {i a k} (h : ts[i]? = some (.act a k)) (r : a.Res) : One (ts.set i (k r)) ts := by
  induction ts generalizing i with
  | nil => cases h
  | cons q ts ih =>
    cases i with
    | zero =>
      injection h with h
      subst h
      exact .head ⟨r⟩
    | succ i => exact .tail (ih h)

theorem step_acc (env : Env) (p : Pool) : Acc (fun q p => Pool.Step env p q) p := by
  have h := one_acc p.threads
  generalize hts : p.threads = ts at h
  induction h generalizing p with
  | intro ts _ ih =>
    refine ⟨_, fun q hq => ?_⟩
    subst hts
    cases hq with
    | @mk ts st i a k r st' hi he => exact ih _ (one_of_set hi r) _ rfl

end OatWS.Threads
