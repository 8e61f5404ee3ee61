import Verif.Spec.Session
import Verif.Spec.Schedule
import Verif.Spec.Threads
import Verif.Proofs.SendFrame
/-! Threads on a connection that does not fail. -/

namespace OatWS.Threads
open Prog

/-- What a step may give on a connection whose writes do not fail. -/
def Gives (S : Prop) : (a : Act) → a.Res → Prop
  | .getConfig, (c : Config) => S → 0 < c.readBufferSize
  | .write d, (r : LowWrite) => r = .retry ∨ ∃ k, r = .wrote k ∧ 0 < k ∧ k ≤ d.length
  | _, _ => True

/-- No send ever fails. If `S`: nobody stops listening, the read buffer always has a size, reads are for at least one byte, and only after `listen` has begun (`b`). -/
def Well (S : Prop) {α : Type} : Prog α → Bool → (Bool → α → Prop) → (Bool → Err → Prop) → Prop
  | .ret a, b, Q, _ => Q b a
  | .throw e, b, _, E => E b e
  | .act (.read n) k, b, Q, E => (S → b = true ∧ 0 < n) ∧ ∀ r : (Act.read n).Res, Well S (k r) b Q E
  | .act (.setListening v) k, b, Q, E => (S → v = true) ∧ ∀ r : (Act.setListening v).Res, Well S (k r) (b || v) Q E
  | .act (.setConfig c) k, b, Q, E => (S → 0 < c.readBufferSize) ∧ ∀ r : (Act.setConfig c).Res, Well S (k r) b Q E
  | .act (.write d) k, b, Q, E => d ≠ [] ∧ ∀ r : (Act.write d).Res, Gives S (.write d) r → Well S (k r) b Q E
  | .act (.returned v) k, b, Q, E => v = true ∧ ∀ r : (Act.returned v).Res, Well S (k r) b Q E
  | .act a k, b, Q, E => ∀ r : a.Res, Gives S a r → Well S (k r) b Q E
  | _, _, _, _ => True

variable {S : Prop} {α β : Type} {b : Bool}

theorem Well.mono {p : Prog α} {Q Q' : Bool → α → Prop} {E E' : Bool → Err → Prop} (h : Well S p b Q E) (hQ : ∀ b x, Q b x → Q' b x) (hE : ∀ b e, E b e → E' b e) : Well S p b Q' E' := by
  induction p generalizing b with
  | ret a => exact hQ _ _ h
  | throw e => exact hE _ _ h
  | ub u => trivial
  | stuck => trivial
  | act a k ih =>
    cases a with
    | read n => exact ⟨h.1, fun r => ih r (h.2 r)⟩
    | setListening v => exact ⟨h.1, fun r => ih r (h.2 r)⟩
    | setConfig c => exact ⟨h.1, fun r => ih r (h.2 r)⟩
    | write d => exact ⟨h.1, fun r hr => ih r (h.2 r hr)⟩
    | returned v => exact ⟨h.1, fun r => ih r (h.2 r)⟩
    | _ => exact fun r hr => ih r (h r hr)

theorem Well.andThen {p : Prog α} {f : α → Prog β} {Q : Bool → β → Prop} {E : Bool → Err → Prop} (h : Well S p b (fun b x => Well S (f x) b Q E) E) : Well S (Prog.andThen p f) b Q E := by
  induction p generalizing b with
  | ret a => exact h
  | throw e => exact h
  | ub u => trivial
  | stuck => trivial
  | act a k ih =>
    cases a with
    | read n => exact ⟨h.1, fun r => ih r (h.2 r)⟩
    | setListening v => exact ⟨h.1, fun r => ih r (h.2 r)⟩
    | setConfig c => exact ⟨h.1, fun r => ih r (h.2 r)⟩
    | write d => exact ⟨h.1, fun r hr => ih r (h.2 r hr)⟩
    | returned v => exact ⟨h.1, fun r => ih r (h.2 r)⟩
    | _ => exact fun r hr => ih r (h r hr)

theorem Well.catching {p : Prog α} {f : Err → Prog α} {Q : Bool → α → Prop} {E : Bool → Err → Prop} (h : Well S p b Q (fun b e => Well S (f e) b Q E)) : Well S (Prog.catching p f) b Q E := by
  induction p generalizing b with
  | ret a => exact h
  | throw e => exact h
  | ub u => trivial
  | stuck => trivial
  | act a k ih =>
    cases a with
    | read n => exact ⟨h.1, fun r => ih r (h.2 r)⟩
    | setListening v => exact ⟨h.1, fun r => ih r (h.2 r)⟩
    | setConfig c => exact ⟨h.1, fun r => ih r (h.2 r)⟩
    | write d => exact ⟨h.1, fun r hr => ih r (h.2 r hr)⟩
    | returned v => exact ⟨h.1, fun r => ih r (h.2 r)⟩
    | _ => exact fun r hr => ih r (h r hr)

/-! ## Sending -/

theorem well_writeExact (fuel : Nat) (data : List UInt8) (n : Nat) {Q : Bool → Nat → Prop} {E} (hQ : Q b (n + data.length)) : Well S (writeExactT fuel data n) b Q E := by
  induction fuel generalizing data n with
  | zero => cases data with
    | nil => exact hQ
    | cons => trivial
  | succ fuel ih => cases data with
    | nil => exact hQ
    | cons x xs =>
      refine ⟨List.cons_ne_nil _ _, fun r hr => ?_⟩
      rcases hr with rfl | ⟨k, rfl, h1, h2⟩
      · exact ih _ _ hQ
      · refine ih _ _ ?_
        rw [List.length_drop, Nat.add_assoc, Nat.add_sub_cancel' h2]
        exact hQ

theorem well_writeExpect (fuel : Nat) (data : List UInt8) (size : Nat) (e : Err) (hs : data.length = size) {Q : Bool → Unit → Prop} {E} (hQ : Q b ()) : Well S (writeExpectT fuel data size e) b Q E := by
  refine .andThen (well_writeExact _ _ _ ?_)
  rw [Nat.zero_add, if_neg (fun h => h hs)]
  exact hQ

theorem well_writeFrameHeader (env : Env) (fuel : Nat) (h : Header) {Q : Bool → Unit → Prop} {E} (hQ : Q b ()) : Well S (writeFrameHeaderT env fuel h) b Q E := by
  refine .andThen (well_writeExpect _ _ _ _ (by cases env.host <;> rfl) (.andThen ?_))
  have hm : Well S (writeMaskT fuel h) b Q E := by
    unfold writeMaskT
    split
    · exact well_writeExpect _ _ _ _ rfl hQ
    · exact hQ
  unfold writeLengthT
  split
  · exact well_writeExpect _ _ _ _ (by cases env.host <;> rfl) hm
  · split
    · exact well_writeExpect _ _ _ _ (by rw [List.length_append]; cases env.host <;> rfl) hm
    · exact hm

theorem well_sendFrameHeader (env : Env) (fuel : Nat) (h : Header) (fin : Bool) (op : UInt8) (size : Int) {Q : Bool → Header → Prop} {E} (hQ : ∀ h, Q b h) : Well S (sendFrameHeaderT env fuel h fin op size) b Q E := by
  intro c _
  dsimp only
  split
  · exact fun m _ => .andThen (well_writeFrameHeader _ _ _ (hQ _))
  · exact .andThen (well_writeFrameHeader _ _ _ (hQ _))

theorem well_sendOneFrame (env : Env) (fuel : Nat) (fin : Bool) (op : UInt8) (message : Option (List UInt8)) {Q : Bool → Bool → Prop} {E} (hQ : Q b true) : Well S (sendOneFrameT env fuel fin op message) b Q E := by
  unfold sendOneFrameT
  split
  · rename_i x xs
    refine .andThen (well_sendFrameHeader _ _ _ _ _ _ fun h => ?_)
    split
    · split
      · trivial
      · refine .andThen (well_writeExact _ _ _ ?_)
        rw [Nat.zero_add, xorMask_length, decide_eq_true rfl]
        exact hQ
    · refine .andThen (well_writeExact _ _ _ ?_)
      rw [Nat.zero_add, decide_eq_true rfl]
      exact hQ
  · exact .andThen (well_sendFrameHeader _ _ _ _ _ _ fun h => hQ)

theorem well_sendOrStop (env : Env) (fuel : Nat) (op : UInt8) (message : Option (List UInt8)) {Q : Bool → Bool → Prop} {E} (hQ : Q b true) : Well S (sendOrStopT env fuel op message) b Q E :=
  .andThen (well_sendOneFrame _ _ _ _ _ hQ)

theorem well_send (env : Env) (fuel : Nat) (c : SendCall) {Q : Bool → Bool → Prop} {E} (hQ : Q b true) : Well S (sendT env fuel c) b Q E := by
  cases c with
  | oneFrame => exact well_sendOneFrame _ _ _ _ _ hQ
  | _ => exact well_sendOrStop _ _ _ _ hQ

theorem well_call (env : Env) (fuel : Nat) (c : SendCall) {Q : Bool → Bool → Prop} {E} (hQ : Q b true) : Well S (callT env fuel c) b Q E := by
  intro _ _
  exact .catching (.andThen (well_send _ _ _ ⟨rfl, fun _ => hQ⟩))

theorem well_userSend (env : Env) (fuel : Nat) (c : SendCall) (catches : Bool) {Q : Bool → Unit → Prop} {E} (hQ : Q b ()) : Well S (userSendT env fuel c catches) b Q E := by
  intro _ _
  exact .andThen (.catching (.andThen (well_send _ _ _ ⟨rfl, fun _ => hQ⟩)))

theorem pieceBytes_length' (h : Header) (n : Nat) (piece : List UInt8) : (pieceBytes h n piece).length = piece.length := by
  unfold pieceBytes
  split
  · exact xorMask_length _ _ _
  · rfl

theorem well_writePieces (fuel : Nat) (h : Header) (n : Nat) (pieces : List (List UInt8)) {Q : Bool → Bool → Prop} {E} (hQ : Q b true) : Well S (writePiecesT fuel h n pieces) b Q E := by
  induction pieces generalizing n with
  | nil => exact hQ
  | cons piece pieces ih =>
    refine .andThen (well_writeExact _ _ _ ?_)
    rw [Nat.zero_add, pieceBytes_length', if_pos rfl]
    exact ih _

theorem well_stream (env : Env) (fuel : Nat) (c : SendCall) (h : Header) (fin : Bool) (op : UInt8) (pieces : List (List UInt8)) {Q : Bool → Bool → Prop} {E} (hQ : Q b true) :
    Well S (streamT env fuel c h fin op pieces) b Q E := by
  intro _ _
  exact .catching (.andThen (.andThen (well_sendFrameHeader _ _ _ _ _ _ fun h => well_writePieces _ _ _ _ ⟨rfl, fun _ => hQ⟩)))

/-- The operation does not stop listening, and leaves the read buffer a size. -/
def Fair : UserOp → Prop
  | .stopListening => False
  | .setConfig c => 0 < c.readBufferSize
  | _ => True

theorem well_userOp (env : Env) (fuel : Nat) (op : UserOp) (h : S → Fair op) {Q : Bool → Unit → Prop} {E} (hQ : Q b ()) (hE : op = .throw → E b .user) : Well S (userOpT env fuel op) b Q E := by
  cases op with
  | stopListening => exact ⟨fun s => (h s).elim, fun _ => by rw [Bool.or_false]; exact hQ⟩
  | setListener l => exact fun _ _ => hQ
  | setConfig c => exact ⟨h, fun _ => hQ⟩
  | send c catches => exact well_userSend _ _ _ _ hQ
  | throw => exact hE rfl

theorem well_userOps (env : Env) (fuel : Nat) (ops : List UserOp) (h : S → ∀ op ∈ ops, Fair op) {Q : Bool → Unit → Prop} {E} (hQ : Q b ()) (hE : UserOp.throw ∈ ops → E b .user) : Well S (userOpsT env fuel ops) b Q E := by
  induction ops with
  | nil => exact hQ
  | cons op ops ih =>
    refine .andThen (well_userOp _ _ _ (fun s => h s op (List.mem_cons_self ..)) (ih (fun s o ho => h s o (List.mem_cons_of_mem _ ho)) fun ht => hE (List.mem_cons_of_mem _ ht)) ?_)
    rintro rfl
    exact hE (List.mem_cons_self ..)

/-- Callbacks are fair. -/
def FairEnv (S : Prop) (env : Env) : Prop := S → ∀ tr, ∀ op ∈ env.react tr, Fair op

theorem well_callListener {env : Env} (henv : FairEnv S env) (fuel : Nat) (mk : Nat → Event) {Q : Bool → Unit → Prop} {E} (hQ : Q b ()) (hE : ∀ e, E b e) : Well S (callListenerT env fuel mk) b Q E := by
  intro l _
  cases l with
  | none => exact hQ
  | some l => exact fun tr _ => well_userOps _ _ _ (fun s => henv s tr) hQ fun _ => hE _

/-! ## Receiving -/

theorem well_readExact (hb : S → b = true) (fuel need : Nat) (acc : List UInt8) {Q : Bool → List UInt8 → Prop} {E} (hQ : ∀ x, Q b x) : Well S (readExactT fuel need acc) b Q E := by
  induction fuel generalizing need acc with
  | zero => cases need with
    | zero => exact hQ _
    | succ => trivial
  | succ fuel ih => cases need with
    | zero => exact hQ _
    | succ need =>
      refine ⟨fun s => ⟨hb s, Nat.succ_pos _⟩, fun r => ?_⟩
      cases r with
      | data bs => exact ih _ _
      | retry => exact ih _ _
      | zero => exact hQ _
      | broken => exact hQ _

theorem well_readLength (hb : S → b = true) (env : Env) (fuel : Nat) (l : UInt8) {Q : Bool → Int → Prop} {E} (hQ : ∀ x, Q b x) (hE : ∀ e, E b e) : Well S (readLengthT env fuel l) b Q E := by
  unfold readLengthT
  split
  · exact hQ _
  · split
    · refine .andThen (well_readExact hb _ _ _ fun bs => ?_)
      split
      · exact hQ _
      · exact hE _
    · refine .andThen (well_readExact hb _ _ _ fun bs => ?_)
      split
      · exact hQ _
      · exact hE _

theorem well_readFrameHeader (hb : S → b = true) (env : Env) (fuel : Nat) (h : Header) {Q : Bool → Header → Prop} {E} (hQ : ∀ x, Q b x) (hE : ∀ e, E b e) : Well S (readFrameHeaderT env fuel h) b Q E := by
  refine .andThen (well_readExact hb _ _ _ fun bs => ?_)
  split
  · refine .andThen (well_readLength hb _ _ _ (fun len => ?_) hE)
    split
    · refine .andThen (well_readExact hb _ _ _ fun ms => ?_)
      split
      · exact hQ _
      · exact hE _
    · exact hQ _
  · exact hE _

theorem well_loop (hb : S → b = true) {env : Env} (henv : FairEnv S env) (fuel : Nat) (h : Header) (short : Bool) (cap n : Nat) (progress : Int) (acc : List UInt8) {Q : Bool → List UInt8 → Prop} {E} (hQ : ∀ x, Q b x) (hE : ∀ e, E b e) :
    Well S (readPayloadLoopT env fuel h short cap n progress acc) b Q E := by
  induction n generalizing progress acc with
  | zero =>
    unfold readPayloadLoopT
    split
    · trivial
    · exact hQ _
  | succ n ih =>
    unfold readPayloadLoopT
    split
    · rename_i hlt
      intro c hc
      have hc : S → 0 < c.readBufferSize := hc
      have hpos : S → 0 < (if c.readBufferSize > h.payloadLength - progress then h.payloadLength - progress else c.readBufferSize) := by
        intro s
        have := hc s
        split <;> omega
      dsimp only
      generalize (if c.readBufferSize > h.payloadLength - progress then h.payloadLength - progress else c.readBufferSize) = d at hpos ⊢
      split
      · exact ⟨fun s => absurd (hpos s) (by omega), fun _ => trivial⟩
      · refine ⟨fun s => ⟨hb s, by have := hpos s; omega⟩, fun r => ?_⟩
        cases r with
        | data bs =>
          dsimp only
          split
          · trivial
          · split
            · exact ih _ _
            · exact .andThen (well_callListener henv _ _ (ih _ _) hE)
        | retry => exact ih _ _
        | zero => exact hE _
        | broken => exact hE _
    · exact hQ _

theorem well_readPayload (hb : S → b = true) {env : Env} (henv : FairEnv S env) (fuel : Nat) (h : Header) (short : Bool) {Q : Bool → List UInt8 → Prop} {E} (hQ : ∀ x, Q b x) (hE : ∀ e, E b e) :
    Well S (readPayloadT env fuel h short) b Q E := by
  unfold readPayloadT
  split
  · exact hE _
  · intro c _
    dsimp only
    split
    · exact hE _
    · refine .andThen (well_loop hb henv _ _ _ _ _ _ _ (fun acc => .andThen ?_) hE)
      unfold endMarkerT
      split
      · exact well_callListener henv _ _ (hQ _) hE
      · exact hQ _

theorem well_check (h : Header) {Q : Bool → Bool → Prop} {E} (hQ : ∀ x, Q b x) : Well S (checkForContinuationT h) b Q E := by
  intro v _
  dsimp only
  split
  · exact hQ _
  · split
    · exact fun _ _ => hQ _
    · exact fun _ _ => hQ _

theorem well_handleFrame (hb : S → b = true) {env : Env} (henv : FairEnv S env) (fuel : Nat) (h : Header) {Q : Bool → Unit → Prop} {E} (hQ : ∀ x, Q b x) (hE : ∀ e, E b e) : Well S (handleFrameT env fuel h) b Q E := by
  have hp : ∀ short (f : List UInt8 → Prog Unit), (∀ d, Well S (f d) b Q E) → Well S (Prog.andThen (readPayloadT env fuel h short) f) b Q E := fun short f hf => .andThen (well_readPayload hb henv _ _ _ hf hE)
  unfold handleFrameT
  split
  · intro v _
    dsimp only
    split
    · exact hE _
    · exact hp _ _ fun _ => hQ _
  · split
    · refine .andThen (well_check _ fun ok => ?_)
      split
      · exact hp _ _ fun _ => hQ _
      · exact hE _
    · split
      · refine .andThen (well_check _ fun ok => ?_)
        split
        · exact hp _ _ fun _ => hQ _
        · exact hE _
      · split
        · exact hp _ _ fun _ => well_callListener henv _ _ (hQ _) hE
        · split
          · exact hp _ _ fun _ => well_callListener henv _ _ (hQ _) hE
          · split
            · exact hp _ _ fun _ => well_callListener henv _ _ (hQ _) hE
            · exact hE _

theorem well_iterate (hb : S → b = true) {env : Env} (henv : FairEnv S env) (fuel : Nat) (h : Header) {Q : Bool → Header → Prop} {E} (hQ : ∀ x, Q b x) (hE : ∀ e, E b e) : Well S (iterateFrameT env fuel h) b Q E :=
  .andThen (well_readFrameHeader hb _ _ _ (fun h => .andThen (well_handleFrame hb henv _ _ (fun _ => hQ _) hE)) hE)

theorem well_listenLoop (hb : S → b = true) {env : Env} (henv : FairEnv S env) (fuel n : Nat) (h : Header) {Q : Bool → Unit → Prop} {E} (hQ : ∀ x, Q b x) (hE : ∀ e, E b e) : Well S (listenLoopT env fuel n h) b Q E := by
  induction n generalizing h with
  | zero => trivial
  | succ n ih =>
    refine .andThen (well_iterate hb henv _ _ (fun h' => ?_) hE)
    split
    · intro v _
      dsimp only
      split
      · exact ih _
      · exact hQ _
    · exact hQ _

theorem well_listen {env : Env} (henv : FairEnv S env) (fuel : Nat) (h : Header) {Q : Bool → Unit → Prop} {E} (hQ : Q true ()) : Well S (listenT env fuel h) b Q E :=
  .catching ⟨fun _ => rfl, fun _ => by rw [Bool.or_true]; exact well_listenLoop (fun _ => rfl) henv _ _ _ (fun _ => hQ) fun _ => hQ⟩

/-- Code that does not receive. -/
theorem well_helper {O : UserOp → Prop} {env : Env} {fuel : Nat} {α : Type} {q : Prog α} (hO : ∀ op, O op → S → Fair op) (h : HelperCode O env fuel q) {Q : Bool → α → Prop} {E : Bool → Err → Prop} (hQ : ∀ b x, Q b x) (hE : ∀ b e, E b e) :
    Well S q b Q E := by
  induction h generalizing b E with
  | ret a => exact hQ _ _
  | throw e => exact hE _ _
  | bind _ _ h1 h2 => exact .andThen (h1 (fun _ _ => h2 _ hQ hE) hE)
  | catching _ _ h1 h2 => exact .catching (h1 hQ fun _ _ => h2 _ hQ hE)
  | code ops ho => exact well_userOps _ _ _ (fun s op h => hO op (ho op h) s) (hQ _ _) fun _ => hE _ _
  | send c ho => exact well_call _ _ _ (hQ _ _)
  | stream c h pieces ho hp => exact well_stream _ _ _ _ _ _ _ (hQ _ _)

/-- Any code of an application, if only sends matter. -/
theorem well_app {env : Env} {fuel : Nat} {α : Type} {q : Prog α} (h : AppCode env fuel q) {Q : Bool → α → Prop} {E : Bool → Err → Prop} (hQ : ∀ b x, Q b x) (hE : ∀ b e, E b e) : Well False q b Q E := by
  have henv : FairEnv False env := fun s => s.elim
  induction h generalizing b E with
  | ret a => exact hQ _ _
  | throw e => exact hE _ _
  | bind _ _ h1 h2 => exact .andThen (h1 (fun _ _ => h2 _ hQ hE) hE)
  | catching _ _ h1 h2 => exact .catching (h1 hQ fun _ _ => h2 _ hQ hE)
  | listen h => exact well_listen henv _ _ (hQ _ _)
  | iterate h => exact well_iterate (fun s => s.elim) henv _ _ (fun _ => hQ _ _) fun _ => hE _ _
  | code ops => exact well_userOps _ _ _ (fun s => s.elim) (hQ _ _) fun _ => hE _ _
  | send c => exact well_call _ _ _ (hQ _ _)
  | stream c h pieces hp => exact well_stream _ _ _ _ _ _ _ (hQ _ _)
  | getListener => exact fun _ _ => hQ _ _

/-- The session of a threaded server whose hooks do not throw. -/
theorem well_session {env : Env} (henv : FairEnv S env) (fuel : Nat) (created : List UserOp) (h : Header) (destroyed : List UserOp) (hc : S → ∀ op ∈ created, Fair op) (hd : S → ∀ op ∈ destroyed, Fair op)
    (ht : UserOp.throw ∉ created) {Q : Bool → Unit → Prop} {E : Bool → Err → Prop} (hQ : Q true ()) (hE : ∀ e, E true e) : Well S (sessionT env fuel created h destroyed) b Q E :=
  .andThen (well_userOps _ _ _ hc (.andThen (well_listen henv _ _ (well_userOps _ _ _ hd hQ fun _ => hE _))) fun h => absurd h ht)

end OatWS.Threads
