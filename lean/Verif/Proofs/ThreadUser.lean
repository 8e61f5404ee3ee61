import Verif.Proofs.ThreadHeader
/-! User code and callbacks of a listening thread. -/

namespace OatWS.Threads
open RFC6455 Async Prog

/-- It returns or throws; the undefined behaviour of masked sends needs 2 GiB. -/
def Tries {α : Type} (n : Nat) (x : Out α) : Prop := (∃ a, x = .ret a) ∨ (∃ e, x = .throw e) ∨ (x = .ub .indexOverflow ∧ 2 ^ 31 ≤ n)

theorem by_writeExact (C : Rules) (fuel : Nat) (data : List UInt8) (n : Nat) :
    By C (writeExactT fuel data n) fun x => ∃ a, x = .ret a := by
  induction fuel generalizing data n with
  | zero => cases data <;> first | exact ⟨_, rfl⟩ | trivial
  | succ fuel ih =>
    cases data with
    | nil => exact ⟨_, rfl⟩
    | cons b bs =>
      refine ⟨trivial, fun r => ?_⟩
      cases r with
      | wrote k => exact ih _ _
      | retry => exact ih _ _
      | zero => exact ⟨_, rfl⟩
      | broken => exact ⟨_, rfl⟩

theorem by_writeExpect (C : Rules) (m fuel : Nat) (data : List UInt8) (size : Nat) (e : Err) : By C (writeExpectT fuel data size e) (Tries m) := by
  refine By.andThen (By.mono (by_writeExact C fuel data 0) ?_)
  rintro x ⟨a, rfl⟩
  show By C (if a ≠ size then .throw e else .ret ()) _
  split
  · exact .inr (.inl ⟨_, rfl⟩)
  · exact .inl ⟨_, rfl⟩

/-- Sequencing of code that tries. -/
theorem By.tries {α β : Type} {C : Rules} {m : Nat} {p : Prog α} {f : α → Prog β} (h : By C p (Tries m)) (h' : ∀ a, By C (f a) (Tries m)) :
    By C (Prog.andThen p f) (Tries m) := by
  refine By.andThen (By.mono h ?_)
  rintro x (⟨a, rfl⟩ | ⟨e, rfl⟩ | ⟨rfl, hm⟩)
  · exact h' a
  · exact .inr (.inl ⟨_, rfl⟩)
  · exact .inr (.inr ⟨rfl, hm⟩)

theorem by_writeFrameHeader (C : Rules) (m : Nat) (env : Env) (fuel : Nat) (h : Header) : By C (writeFrameHeaderT env fuel h) (Tries m) := by
  refine By.tries (by_writeExpect ..) fun _ => By.tries ?_ fun _ => ?_
  · unfold writeLengthT
    split
    · exact by_writeExpect ..
    · split
      · exact by_writeExpect ..
      · exact .inl ⟨_, rfl⟩
  · unfold writeMaskT
    split
    · exact by_writeExpect ..
    · exact .inl ⟨_, rfl⟩

theorem by_sendFrameHeader (C : Rules) (m : Nat) (env : Env) (fuel : Nat) (h : Header) (fin : Bool) (op : UInt8) (size : Int) :
    By C (sendFrameHeaderT env fuel h fin op size) (Tries m) := by
  refine ⟨trivial, fun (c : Config) => ?_⟩
  dsimp only
  split
  · exact ⟨trivial, fun _ => By.tries (by_writeFrameHeader ..) fun _ => .inl ⟨_, rfl⟩⟩
  · exact By.tries (by_writeFrameHeader ..) fun _ => .inl ⟨_, rfl⟩

theorem by_sendOneFrame (C : Rules) (env : Env) (fuel : Nat) (fin : Bool) (op : UInt8) (msg : Option (List UInt8)) :
    By C (sendOneFrameT env fuel fin op msg) (Tries (msg.getD []).length) := by
  have hw : ∀ (d : List UInt8) (n m : Nat), By C (Prog.andThen (writeExactT fuel d 0) fun res => .ret (decide (res = n))) (Tries (α := Bool) m) := by
    intro d n m
    refine By.andThen (By.mono (by_writeExact C fuel d 0) ?_)
    rintro x ⟨a, rfl⟩
    exact .inl ⟨_, rfl⟩
  rcases msg with _ | _ | ⟨b, bs⟩
  · exact By.tries (by_sendFrameHeader ..) fun _ => .inl ⟨_, rfl⟩
  · exact By.tries (by_sendFrameHeader ..) fun _ => .inl ⟨_, rfl⟩
  · refine By.tries (by_sendFrameHeader ..) fun h => ?_
    split
    · split
      · rename_i hlen; exact .inr (.inr ⟨rfl, hlen⟩)
      · exact hw _ _ _
    · exact hw _ _ _

theorem by_sendOrStop (C : Rules) (env : Env) (fuel : Nat) (op : UInt8) (msg : Option (List UInt8)) :
    By C (sendOrStopT env fuel op msg) (Tries (msg.getD []).length) := by
  refine By.tries (by_sendOneFrame ..) fun ok => ?_
  cases ok
  · exact ⟨rfl, fun _ => .inr (.inl ⟨_, rfl⟩)⟩
  · exact .inl ⟨_, rfl⟩

theorem store16_len (e : Endian) (x : UInt16) : (store16 e x).length = 2 := by cases e <;> rfl

theorem by_send (C : Rules) (env : Env) (fuel : Nat) (c : SendCall) : By C (sendT env fuel c) (Tries c.content.2.2.length) := by
  cases c with
  | oneFrame fin op msg => exact by_sendOneFrame ..
  | close code msg =>
    have := by_sendOrStop C env fuel OPCODE_CLOSE (some (store16 env.host (hton16 env.host code) ++ msg.getD []))
    have hl : (Option.getD (some (store16 env.host (hton16 env.host code) ++ msg.getD [])) []).length = (SendCall.close code msg).content.2.2.length := by
      show (store16 _ _ ++ _).length = (bigEndian 2 _ ++ _).length
      rw [List.length_append, List.length_append, store16_len]
      rfl
    rw [hl] at this
    exact this
  | closeEmpty => exact by_sendOrStop C env fuel OPCODE_CLOSE none
  | ping m => exact by_sendOrStop ..
  | pong m => exact by_sendOrStop ..
  | text m => exact by_sendOrStop ..
  | binary m => exact by_sendOrStop ..

/-- How user code ends. -/
def UserEnds (calm : Prop) (x : Out Unit) : Prop := x = .ret () ∨ ¬ calm ∧ ((∃ e, x = .throw e) ∨ x = .ub .indexOverflow)

theorem by_userOp (C : Rules) (env : Env) (fuel : Nat) (op : UserOp) (hop : C.Op op) : By C (userOpT env fuel op) (UserEnds op.calm) := by
  cases op with
  | stopListening => exact ⟨rfl, fun _ => .inl rfl⟩
  | setListener l => exact ⟨hop, fun _ => .inl rfl⟩
  | setConfig c => exact ⟨hop, fun _ => .inl rfl⟩
  | throw => exact .inr ⟨fun h => h, .inl ⟨_, rfl⟩⟩
  | send c catches =>
    refine ⟨trivial, fun _ => By.andThen (By.catching (By.andThen (By.mono (by_send C env fuel c) ?_)))⟩
    rintro x (⟨ok, rfl⟩ | ⟨e, rfl⟩ | ⟨rfl, hm⟩)
    · exact ⟨trivial, fun _ => .inl rfl⟩
    · refine ⟨trivial, fun _ => ?_⟩
      cases catches
      · exact .inr ⟨fun h => Bool.noConfusion h.1, .inl ⟨_, rfl⟩⟩
      · exact .inl rfl
    · refine .inr ⟨fun h => ?_, .inr rfl⟩
      have := h.2
      omega

theorem by_userOps (C : Rules) (env : Env) (fuel : Nat) (ops : List UserOp) (hop : ∀ op ∈ ops, C.Op op) :
    By C (userOpsT env fuel ops) (UserEnds (∀ op ∈ ops, op.calm)) := by
  induction ops with
  | nil => exact .inl rfl
  | cons op ops ih =>
    refine By.andThen (By.mono (by_userOp C env fuel op (hop _ (List.mem_cons_self ..))) ?_)
    rintro x (rfl | ⟨hc, hx⟩)
    · refine By.mono (ih fun o ho => hop o (List.mem_cons_of_mem _ ho)) ?_
      rintro x (rfl | ⟨hc, hx⟩)
      · exact .inl rfl
      · exact .inr ⟨fun h => hc fun o ho => h o (List.mem_cons_of_mem _ ho), hx⟩
    · rcases hx with ⟨e, rfl⟩ | rfl
      · exact .inr ⟨fun h => hc (h op (List.mem_cons_self ..)), .inl ⟨_, rfl⟩⟩
      · exact .inr ⟨fun h => hc (h op (List.mem_cons_self ..)), .inr rfl⟩

/-- The thread has not returned from a callback. -/
def Breaks {α : Type} (env : Env) (x : Out α) : Prop := x = .writing ∨ ¬ env.Calm ∧ ((∃ e, x = .throw e) ∨ x = .ub .indexOverflow)

theorem callListenerT_wp (C : Rules) (env : Env) (henv : C.Reacts env) (fuel : Nat) (mk : Nat → Event) (v : View) :
    Wp C (callListenerT env fuel mk) v fun x w => ∃ l, C.listener l ∧ After v 0 [mk l] w ∧ w.last = v.last ∧
      (x = .ret () ∨ Breaks env x) := by
  refine ⟨trivial, (fun ⟨_, e⟩ => by cases e), (fun ⟨_, e⟩ => by cases e), ?_⟩
  rintro u hu r v' ⟨⟨l, rfl, hl⟩, rfl⟩
  refine ⟨trivial, (fun ⟨_, e⟩ => by cases e), (fun ⟨_, e⟩ => by cases e), ?_⟩
  rintro u2 hu2 tr v2 ⟨rfl, rfl⟩
  have h1 := After.or hu
  have h2 := After.or hu2
  have ha : After v 0 [mk l] { u2 with trace := u2.trace ++ [mk l] } := by
    refine (h1.1.zero h2.1).zero ⟨by omega, by simp, rfl, .inl rfl⟩
  have hlast : u2.last = v.last := h2.2.trans h1.2
  refine (by_userOps C env fuel _ (henv (u2.trace ++ [mk l]))).wp _ _ (.inl rfl) ?_
  intro x w hw hx
  have h3 := After.or hw
  refine ⟨l, hl, ha.to h3.1, h3.2.trans hlast, ?_⟩
  rcases hx with (rfl | ⟨hc, hx⟩) | rfl
  · exact .inl rfl
  · exact .inr (.inr ⟨fun h => hc (h _), hx⟩)
  · exact .inr (.inl rfl)

/-! ## Any code that does not receive -/

/-- Nothing about how it ends. -/
def Anyhow {α : Type} (_ : Out α) : Prop := True

theorem By.anyhow {C : Rules} {α : Type} {p : Prog α} {E} (h : By C p E) : By C p Anyhow := h.mono fun _ _ => trivial

theorem By.seq {C : Rules} {α β : Type} {p : Prog α} {f : α → Prog β} (h : By C p Anyhow) (h' : ∀ a, By C (f a) Anyhow) : By C (Prog.andThen p f) Anyhow := by
  refine By.andThen (h.mono fun x _ => ?_)
  cases x with
  | ret a => exact h' a
  | _ => trivial

theorem By.guarded {C : Rules} {α : Type} {p : Prog α} {f : Err → Prog α} (h : By C p Anyhow) (h' : ∀ e, By C (f e) Anyhow) : By C (Prog.catching p f) Anyhow := by
  refine By.catching (h.mono fun x _ => ?_)
  cases x with
  | throw e => exact h' e
  | _ => trivial

theorem by_marked {C : Rules} {p : Prog Bool} (c : SendCall) (h : By C p Anyhow) :
    By C (.act (.call c) fun _ => Prog.catching (Prog.andThen p fun ok => .act (.returned ok) fun _ => .ret ok)
      (fun e => .act (.returned false) fun _ => .throw e)) Anyhow :=
  ⟨trivial, fun _ => By.guarded (By.seq h fun _ => ⟨trivial, fun _ => trivial⟩) fun _ => ⟨trivial, fun _ => trivial⟩⟩

theorem by_writePieces (C : Rules) (fuel : Nat) (h : Header) (n : Nat) (pieces : List (List UInt8)) : By C (writePiecesT fuel h n pieces) Anyhow := by
  induction pieces generalizing n with
  | nil => trivial
  | cons p ps ih =>
    refine By.seq (by_writeExact C fuel _ 0).anyhow fun res => ?_
    split
    · exact ih _
    · trivial

theorem by_helper {C : Rules} {env : Env} {fuel : Nat} {α : Type} {q : Prog α} (h : HelperCode C.Op env fuel q) : By C q fun _ => True := by
  show By C q Anyhow
  induction h with
  | ret a => trivial
  | throw e => trivial
  | bind _ _ h1 h2 => exact By.seq h1 h2
  | catching _ _ h1 h2 => exact By.guarded h1 h2
  | code ops ho => exact (by_userOps C env fuel ops ho).anyhow
  | send c _ => exact by_marked c (by_send C env fuel c).anyhow
  | stream c h pieces _ _ => exact by_marked c (By.seq (by_sendFrameHeader C 0 env fuel h _ _ _).anyhow fun h' => by_writePieces C fuel h' 0 pieces)

end OatWS.Threads
