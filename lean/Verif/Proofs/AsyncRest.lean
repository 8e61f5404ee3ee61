import Verif.Proofs.AsyncLink
/-! Tasks wait for nothing but the connection, and do not go on for ever. -/

namespace OatWS.Async

/-- The next step of the coroutine needs the connection. -/
def Co.reading : Co → Bool
  | .readFrame c => match c.pc with
    | .act | .readLen | .readMask => decide (c.got.length < c.need)
    | _ => false
  | .readPayload c => match c.pc with
    | .readData => decide (0 < c.want)
    | _ => false
  | _ => false

def Co.writing : Co → Bool
  | .sendFrame c => match c.pc with
    | .writeMessage => decide (c.left ≠ [])
    | _ => false
  | .writeFrame c => match c.pc with
    | .act | .writeMessageLen | .writeMask => decide (c.left ≠ [])
    | _ => false
  | _ => false

def Co.stops (c : Co) : Bool := c.reading || c.writing

/-- How many functions of a receiving coroutine can still run without the connection (at most). -/
def Co.recvWeight : Co → Nat
  | .listen => 1
  | .readFrame c => match c.pc with
    | .act => 5
    | .onBbRead => 4
    | .readLen => 3
    | .onLenRead => 2
    | .readMask => 1
  | .handleFrame c => match c.pc with
    | .act => 6
    | .done => 1
    | _ => 2
  | .readPayload c => match c.pc with
    | .act => 3
    | .readData => if c.got = [] then 2 else 5
    | .onDataRead => if c.got = [] then 1 else 4
    | .done => 1
  | _ => 0

/-- The same for user code and sends. -/
def Co.sendWeight : Co → Nat
  | .user c => 2 * c.ops.length + 1
  | .sendFrame c => match c.pc with
    | .prepareWriteMessage => 2
    | _ => 1
  | .writeFrame c => match c.pc with
    | .act => 5
    | .onBbWritten => 4
    | .writeMessageLen => 3
    | .onLenWritten => 2
    | .writeMask => 1
  | _ => 0

abbrev Rank := Nat × Nat

def Rank.Less (x y : Rank) : Prop := x.1 < y.1 ∨ x.1 = y.1 ∧ x.2 < y.2

theorem Rank.acc (x : Rank) : Acc Rank.Less x := by
  rcases x with ⟨a, b⟩
  induction a using Nat.strongRecOn generalizing b with
  | ind a iha =>
    induction b using Nat.strongRecOn with
    | ind b ihb =>
      refine ⟨_, ?_⟩
      rintro ⟨a', b'⟩ h
      rcases h with h | ⟨h1, h2⟩
      · exact iha a' h b'
      · dsimp only at h1
        subst h1
        exact ihb b' h2

def weights : List Co → Rank
  | [] => (0, 0)
  | c :: cs => (c.recvWeight + (weights cs).1, c.sendWeight + (weights cs).2)

/-- What the task can do without the connection. -/
def rank : List Co → Rank
  | [] => (0, 0)
  | c :: cs => if c.stops then (0, 0) else weights (c :: cs)

theorem weight_pos (c : Co) : 0 < c.recvWeight + c.sendWeight := by
  cases c with
  | listen => exact Nat.one_pos
  | readFrame c => rcases c with ⟨pc, a, b, d⟩; cases pc <;> (dsimp only [Co.recvWeight, Co.sendWeight]; omega)
  | handleFrame c => rcases c with ⟨pc, a⟩; cases pc <;> (dsimp only [Co.recvWeight, Co.sendWeight]; omega)
  | readPayload c =>
    rcases c with ⟨pc, a, b, d, e, f, g, h⟩
    cases pc with
    | readData => dsimp only [Co.recvWeight, Co.sendWeight]; split <;> omega
    | onDataRead => dsimp only [Co.recvWeight, Co.sendWeight]; split <;> omega
    | _ => dsimp only [Co.recvWeight, Co.sendWeight]; omega
  | user c => dsimp only [Co.recvWeight, Co.sendWeight]; omega
  | sendFrame c => rcases c with ⟨pc, a, b, d, e, f⟩; cases pc <;> (dsimp only [Co.recvWeight, Co.sendWeight]; omega)
  | writeFrame c => rcases c with ⟨pc, a, b, d⟩; cases pc <;> (dsimp only [Co.recvWeight, Co.sendWeight]; omega)

theorem rank_le (cs : List Co) : (rank cs).1 ≤ (weights cs).1 ∧ (rank cs).2 ≤ (weights cs).2 := by
  cases cs with
  | nil => exact ⟨Nat.le_refl _, Nat.le_refl _⟩
  | cons c cs =>
    have h : rank (c :: cs) = if c.stops then (0, 0) else weights (c :: cs) := rfl
    rw [h]
    cases c.stops with
    | true => exact ⟨Nat.zero_le _, Nat.zero_le _⟩
    | false => exact ⟨Nat.le_refl _, Nat.le_refl _⟩

theorem weights_append (cs ds : List Co) : weights (cs ++ ds) = ((weights cs).1 + (weights ds).1, (weights cs).2 + (weights ds).2) := by
  induction cs with
  | nil => simp [weights]
  | cons c cs ih =>
    show (c.recvWeight + (weights (cs ++ ds)).1, c.sendWeight + (weights (cs ++ ds)).2) =
      (c.recvWeight + (weights cs).1 + (weights ds).1, c.sendWeight + (weights cs).2 + (weights ds).2)
    rw [ih]
    dsimp only
    rw [Nat.add_assoc, Nat.add_assoc]

/-- Steps that are left of the connection. -/
def World.left (w : World) : Nat := w.st.inp.sched.length + w.st.sock.out.sched.length

/-- How a function of coroutine `c` can end that did not use the connection. -/
def Act.Small (c : Co) : Act → Prop
  | .goto c' => c'.stops = true ∨ Rank.Less (weights [c']) (weights [c])
  | .call cs c' => (∃ d ds, cs = d :: ds ∧ d.stops = true) ∨ Rank.Less (weights (cs ++ [c'])) (weights [c])
  | .blocked => False
  | _ => True

/-- What a function of a coroutine does to the connection. -/
def CoDoes (c : Co) (w : World) (x : Act × Local × World) : Prop :=
  (c.stops = true ∧ x.2.2.left < w.left ∧ x.1 ≠ .blocked) ∨ (c.stops = false ∧ x.2.2.st.inp.sched = w.st.inp.sched ∧ x.2.2.st.sock.out.sched = w.st.sock.out.sched ∧ x.1.Small c) ∨
    (x.1 = .blocked ∧ x.2.2 = w ∧ ((c.reading = true ∧ w.st.inp.sched = []) ∨ (c.writing = true ∧ w.st.sock.out.sched = [])))

theorem does_readStep {c : Co} {need : Nat} {got : List UInt8} {l : Local} {w : World} {again cont} (hr : c.stops = decide (got.length < need)) (hr2 : c.reading = c.stops)
    (hc : ∀ g w', (cont g w').2.2.st.inp = w'.st.inp ∧ (cont g w').2.2.st.sock.out.sched = w'.st.sock.out.sched ∧ (cont g w').1 ≠ .blocked)
    (hsmall : need ≤ got.length → (cont got w).1.Small c) : CoDoes c w (readStep need got l w again cont) := by
  unfold readStep readInline
  by_cases hn : need ≤ got.length
  · rw [if_pos hn]
    have hc' := hc got w
    refine .inr (.inl ⟨by rw [hr]; simp; omega, congrArg InStream.sched hc'.1, hc'.2.1, hsmall hn⟩)
  · rw [if_neg hn]
    have hs : c.stops = true := by rw [hr]; simp; omega
    cases hq : w.st.inp.sched with
    | nil => exact .inr (.inr ⟨rfl, rfl, .inl ⟨by rw [hr2]; exact hs, hq⟩⟩)
    | cons o sched =>
      refine .inl ⟨hs, ?_⟩
      have base : ∀ bytes, (w.setInp ⟨bytes, sched⟩).left < w.left := by
        intro bytes
        show sched.length + _ < w.st.inp.sched.length + _
        rw [hq, List.length_cons]
        exact Nat.add_lt_add_right (Nat.lt_succ_self _) _
      dsimp only
      rcases lowRead o w.st.inp.bytes (need - got.length) with ⟨r, bytes⟩
      cases r with
      | data bs =>
        dsimp only
        split
        · rename_i e; split at e <;> cases e
          exact ⟨base _, by nofun⟩
        · rename_i e; split at e <;> cases e
          have := hc (got ++ bs) (w.setInp ⟨bytes, sched⟩)
          show (cont _ _).2.2.left < _ ∧ (cont _ _).1 ≠ _
          unfold World.left
          rw [this.1, this.2.1]
          exact ⟨base _, this.2.2⟩
        · rename_i e; split at e <;> cases e
        · rename_i e; split at e <;> cases e
      | retry => exact ⟨base _, by nofun⟩
      | zero => exact ⟨base _, by nofun⟩
      | broken => exact ⟨base _, by nofun⟩

theorem does_writeStep {c : Co} {left : List UInt8} {l : Local} {w : World} {again} {cont : Act} (hr : c.stops = decide (left ≠ [])) (hr2 : c.writing = c.stops)
    (hsmall : left = [] → cont.Small c) (hnb : cont ≠ .blocked) : CoDoes c w (writeStep left l w again cont) := by
  unfold writeStep
  cases left with
  | nil => exact .inr (.inl ⟨by rw [hr]; rfl, rfl, rfl, hsmall rfl⟩)
  | cons b bs =>
    have hs : c.stops = true := by rw [hr]; rfl
    cases hq : w.st.sock.out.sched with
    | nil =>
      refine .inr (.inr ?_)
      unfold writeInline
      rw [hq]
      exact ⟨rfl, rfl, .inr ⟨by rw [hr2]; exact hs, rfl⟩⟩
    | cons o sched =>
      refine .inl ⟨hs, ?_⟩
      have base : ∀ out : OutStream, out.sched = sched → (w.setOut out).left < w.left := by
        intro out ho
        show _ + out.sched.length < _ + w.st.sock.out.sched.length
        rw [hq, ho, List.length_cons]
        exact Nat.add_lt_add_left (Nat.lt_succ_self _) _
      unfold writeInline
      rw [hq]
      dsimp only
      cases o with
      | upTo m =>
        dsimp only
        split
        · rename_i e; split at e <;> cases e
          exact ⟨base _ rfl, by nofun⟩
        · rename_i e; split at e <;> cases e
          exact ⟨base _ rfl, hnb⟩
        · rename_i e; split at e <;> cases e
        · rename_i e; split at e <;> cases e
      | retry => exact ⟨base _ rfl, by nofun⟩
      | zero => exact ⟨base _ rfl, by nofun⟩
      | broken => exact ⟨base _ rfl, by nofun⟩

/-- A function that does not use the connection. -/
theorem does_inner {c : Co} {w : World} {x : Act × Local × World} (h : c.stops = false) (h1 : x.2.2.st.inp = w.st.inp) (h2 : x.2.2.st.sock.out = w.st.sock.out)
    (h3 : x.1.Small c) : CoDoes c w x := .inr (.inl ⟨h, by rw [h1], by rw [h2], h3⟩)

theorem less_recv {a b c d : Nat} (h : a < c) : Rank.Less (a, b) (c, d) := .inl h
theorem less_send {a b d : Nat} (h : b < d) : Rank.Less (a, b) (a, d) := .inr ⟨rfl, h⟩

theorem does_listen (l : Local) (w : World) : CoDoes .listen w (listenStep l w) := by
  unfold listenStep
  split
  · exact does_inner rfl rfl rfl (.inl ⟨_, _, rfl, rfl⟩)
  · exact does_inner rfl rfl rfl trivial

theorem does_readFrame (env : Env) (c : ReadFrameCo) (l : Local) (w : World) : CoDoes (.readFrame c) w (readFrameStep env c l w) := by
  rcases c with ⟨pc, lt, need, got⟩
  unfold readFrameStep
  cases pc with
  | act => exact does_readStep (by simp [Co.stops, Co.reading, Co.writing]) (by simp [Co.stops, Co.writing]) (fun _ _ => ⟨rfl, rfl, by nofun⟩) (fun _ => .inr (less_recv (Nat.le_of_ble_eq_true rfl)))
  | readLen => exact does_readStep (by simp [Co.stops, Co.reading, Co.writing]) (by simp [Co.stops, Co.writing]) (fun _ _ => ⟨rfl, rfl, by nofun⟩) (fun _ => .inr (less_recv (Nat.le_of_ble_eq_true rfl)))
  | readMask =>
    refine does_readStep (by simp [Co.stops, Co.reading, Co.writing]) (by simp [Co.stops, Co.writing]) ?_ ?_
    · intro g w'
      dsimp only
      split <;> exact ⟨rfl, rfl, by nofun⟩
    · intro _
      dsimp only
      split <;> trivial
  | onBbRead =>
    dsimp only
    split
    · generalize unpackHeaderBits _ _ = u
      rcases u with ⟨h, m⟩
      dsimp only
      split
      · exact does_inner rfl rfl rfl (.inr (less_recv (Nat.le_of_ble_eq_true rfl)))
      · split
        · exact does_inner rfl rfl rfl (.inl rfl)
        · exact does_inner rfl rfl rfl (.inl rfl)
    · exact does_inner rfl rfl rfl trivial
  | onLenRead =>
    dsimp only
    split
    · exact does_inner rfl rfl rfl (.inl rfl)
    · exact does_inner rfl rfl rfl trivial

theorem does_writeFrame (env : Env) (c : WriteFrameCo) (l : Local) (w : World) : CoDoes (.writeFrame c) w (writeFrameStep env c l w) := by
  rcases c with ⟨pc, h, sc, left⟩
  unfold writeFrameStep
  cases pc with
  | act => exact does_writeStep (by simp [Co.stops, Co.reading, Co.writing]) (by simp [Co.stops, Co.reading]) (fun _ => .inr (less_send (Nat.le_of_ble_eq_true rfl))) (by nofun)
  | writeMessageLen => exact does_writeStep (by simp [Co.stops, Co.reading, Co.writing]) (by simp [Co.stops, Co.reading]) (fun _ => .inr (less_send (Nat.le_of_ble_eq_true rfl))) (by nofun)
  | writeMask => exact does_writeStep (by simp [Co.stops, Co.reading, Co.writing]) (by simp [Co.stops, Co.reading]) (fun _ => trivial) (by nofun)
  | onBbWritten =>
    dsimp only
    split
    · refine does_inner rfl rfl rfl (.inl ?_)
      cases env.host <;> rfl
    · split
      · refine does_inner rfl rfl rfl (.inl ?_)
        cases env.host <;> rfl
      · exact does_inner rfl rfl rfl (.inr (less_send (Nat.le_of_ble_eq_true rfl)))
  | onLenWritten =>
    dsimp only
    split
    · exact does_inner rfl rfl rfl (.inl rfl)
    · exact does_inner rfl rfl rfl trivial

theorem newWriteFrame_stops (env : Env) (h : Header) : (newWriteFrame env h).stops = true := by
  unfold newWriteFrame
  cases env.host <;> rfl

theorem sendFrameHeaderAsync_does (env : Env) (h : Header) (fin : Bool) (op : UInt8) (n : Int) (w : World) :
    (sendFrameHeaderAsync env h fin op n w).2.1.stops = true ∧ (sendFrameHeaderAsync env h fin op n w).2.2.st.inp = w.st.inp ∧
      (sendFrameHeaderAsync env h fin op n w).2.2.st.sock.out = w.st.sock.out := by
  unfold sendFrameHeaderAsync
  dsimp only
  split
  · exact ⟨newWriteFrame_stops _ _, rfl, rfl⟩
  · exact ⟨newWriteFrame_stops _ _, rfl, rfl⟩

theorem does_sendFrame (env : Env) (c : SendFrameCo) (l : Local) (w : World) : CoDoes (.sendFrame c) w (sendFrameStep env c l w) := by
  rcases c with ⟨pc, fin, op, msg, h, left⟩
  unfold sendFrameStep
  cases pc with
  | act =>
    have key : ∀ n, CoDoes (.sendFrame ⟨.act, fin, op, msg, h, left⟩) w (match sendFrameHeaderAsync env h fin op n w with
        | (h', co, w) => (.call [co] (.sendFrame ⟨.prepareWriteMessage, fin, op, msg, h', left⟩), l, w)) ∧
      CoDoes (.sendFrame ⟨.act, fin, op, msg, h, left⟩) w (match sendFrameHeaderAsync env h fin op n w with
        | (h', co, w) => (.call [co] (.sendFrame ⟨.done, fin, op, msg, h', left⟩), l, w)) := by
      intro n
      have := sendFrameHeaderAsync_does env h fin op n w
      revert this
      rcases sendFrameHeaderAsync env h fin op n w with ⟨h', co, w'⟩
      intro this
      exact ⟨does_inner rfl this.2.1 this.2.2 (.inl ⟨_, _, rfl, this.1⟩), does_inner rfl this.2.1 this.2.2 (.inl ⟨_, _, rfl, this.1⟩)⟩
    rcases msg with _ | _ | ⟨b, bs⟩
    · exact (key 0).2
    · exact (key 0).2
    · exact (key (b :: bs).length).1
  | prepareWriteMessage =>
    dsimp only
    split
    · split
      · exact does_inner rfl rfl rfl trivial
      · exact does_inner rfl rfl rfl (.inr (less_send (Nat.le_of_ble_eq_true rfl)))
    · exact does_inner rfl rfl rfl (.inr (less_send (Nat.le_of_ble_eq_true rfl)))
  | writeMessage => exact does_writeStep (by simp [Co.stops, Co.reading, Co.writing]) (by simp [Co.stops, Co.reading]) (fun _ => trivial) (by nofun)
  | done => exact does_inner rfl rfl rfl trivial

theorem sendAsync_weights (env : Env) (c : SendCall) : (sendAsync env c).recvWeight = 0 ∧ (sendAsync env c).sendWeight = 1 := by
  cases c <;> exact ⟨rfl, rfl⟩

theorem does_user (env : Env) (c : UserCo) (l : Local) (w : World) : CoDoes (.user c) w (userStep env c l w) := by
  rcases c with ⟨ops, catching, ptr, data, self⟩
  unfold userStep
  cases ops with
  | nil => exact does_inner rfl rfl rfl trivial
  | cons op ops =>
    have hgo : ∀ b, Act.Small (.user ⟨op :: ops, catching, ptr, data, self⟩) (.goto (.user ⟨ops, b, ptr, data, self⟩)) := by
      intro b
      refine .inr (less_send ?_)
      show 2 * ops.length + 1 + 0 < 2 * (ops.length + 1) + 1 + 0
      omega
    cases op with
    | stopListening => exact does_inner rfl rfl rfl (hgo _)
    | setListener l' => exact does_inner rfl rfl rfl (hgo _)
    | setConfig cfg => exact does_inner rfl rfl rfl (hgo _)
    | send call catches =>
      refine does_inner rfl rfl rfl (.inr ?_)
      have := sendAsync_weights env call
      show Rank.Less ((sendAsync env call).recvWeight + (0 + 0), (sendAsync env call).sendWeight + (2 * ops.length + 1 + 0)) (0 + 0, 2 * (ops.length + 1) + 1 + 0)
      rw [this.1, this.2]
      exact less_send (by omega)
    | throw => exact does_inner rfl rfl rfl trivial

theorem callback_does (env : Env) (ev : Event) (ptr : Option Nat) (data : List UInt8) (w : World) :
    (callback env ev ptr data w).1.recvWeight = 0 ∧ (callback env ev ptr data w).2.st.inp = w.st.inp ∧ (callback env ev ptr data w).2.st.sock.out = w.st.sock.out := ⟨rfl, rfl, rfl⟩

theorem does_call {c : Co} {w : World} {l : Local} {u c' : Co} {w' : World} (hs : c.stops = false) (h0 : u.recvWeight = 0) (h1 : w'.st.inp = w.st.inp)
    (h2 : w'.st.sock.out = w.st.sock.out) (h3 : c'.recvWeight < c.recvWeight) : CoDoes c w (.call [u] c', l, w') := by
  refine does_inner hs h1 h2 (.inr ?_)
  show Rank.Less (u.recvWeight + (c'.recvWeight + 0), _) (c.recvWeight + 0, _)
  exact less_recv (by omega)

theorem does_readPayload (env : Env) (c : ReadPayloadCo) (l : Local) (w : World) : CoDoes (.readPayload c) w (readPayloadStep env c l w) := by
  rcases c with ⟨pc, lis, short, cap, buf, prog, want, got⟩
  unfold readPayloadStep
  cases pc with
  | act =>
    dsimp only
    split
    · exact does_inner rfl rfl rfl (.inr (less_recv (Nat.le_of_ble_eq_true rfl)))
    · split
      · split
        · exact does_call rfl rfl rfl rfl (Nat.le_of_ble_eq_true rfl)
        · exact does_inner rfl rfl rfl trivial
      · exact does_inner rfl rfl rfl trivial
  | readData =>
    dsimp only
    split
    · rename_i hw
      refine does_inner (by simp [Co.stops, Co.reading, Co.writing]; omega) rfl rfl (.inr (less_recv ?_))
      show (if got = [] then 1 else 4) + 0 < (if got = [] then 2 else 5) + 0
      split <;> exact Nat.le_of_ble_eq_true rfl
    · rename_i hw
      have hr : (Co.readPayload ⟨.readData, lis, short, cap, buf, prog, want, got⟩).reading = true := by simp [Co.reading]; omega
      have hs : (Co.readPayload ⟨.readData, lis, short, cap, buf, prog, want, got⟩).stops = true := by unfold Co.stops; rw [hr]; rfl
      cases hq : w.st.inp.sched with
      | nil => exact .inr (.inr ⟨rfl, rfl, .inl ⟨hr, hq⟩⟩)
      | cons o sched =>
        refine .inl ⟨hs, ?_⟩
        have base : ∀ bytes, (w.setInp ⟨bytes, sched⟩).left < w.left := by
          intro bytes
          show sched.length + _ < w.st.inp.sched.length + _
          rw [hq, List.length_cons]
          exact Nat.add_lt_add_right (Nat.lt_succ_self _) _
        dsimp only
        rcases lowRead o w.st.inp.bytes want.toNat with ⟨r, bytes⟩
        cases r with
        | data bs =>
          dsimp only
          split <;> exact ⟨base _, by nofun⟩
        | retry => exact ⟨base _, by nofun⟩
        | zero => exact ⟨base _, by nofun⟩
        | broken => exact ⟨base _, by nofun⟩
  | onDataRead =>
    dsimp only
    split
    · rename_i hg
      have hw : (Co.readPayload ⟨.onDataRead, lis, short, cap, buf, prog, want, got⟩).recvWeight = 4 := if_neg hg
      have hgo : ∀ l' : Local, CoDoes (.readPayload ⟨.onDataRead, lis, short, cap, buf, prog, want, got⟩) w
          (.goto (.readPayload ⟨.act, lis, short, cap, buf, prog + got.length, want, got⟩), l', w) := by
        intro l'
        refine does_inner rfl rfl rfl (.inr (less_recv ?_))
        rw [hw]
        exact Nat.le_of_ble_eq_true rfl
      split
      · split
        · exact hgo _
        · split
          · exact does_call rfl rfl rfl rfl (by rw [hw]; exact Nat.le_of_ble_eq_true rfl)
          · exact hgo _
      · split
        · exact hgo _
        · split
          · exact does_call rfl rfl rfl rfl (by rw [hw]; exact Nat.le_of_ble_eq_true rfl)
          · exact hgo _
    · exact does_inner rfl rfl rfl trivial
  | done => exact does_inner rfl rfl rfl trivial

theorem does_startPayload (c : HandleFrameCo) (hc : c.pc = .act) (short : Bool) (pc : HandleFramePc) (hpc : pc ≠ .act) (l : Local) (w w0 : World)
    (h1 : w.st.inp = w0.st.inp) (h2 : w.st.sock.out = w0.st.sock.out) : CoDoes (.handleFrame c) w0 (startPayload c short pc l w) := by
  unfold startPayload readPayloadAsync
  rcases c with ⟨cpc, lis⟩
  dsimp only at hc
  subst hc
  by_cases e1 : short = true ∧ l.hdr.payloadLength > 125
  · rw [if_pos e1]
    exact does_inner rfl h1 h2 trivial
  · rw [if_neg e1]
    by_cases e2 : w.st.sock.config.readBufferSize < 0
    · rw [if_pos e2]
      exact does_inner rfl h1 h2 trivial
    · rw [if_neg e2]
      refine does_inner rfl h1 h2 (.inr (less_recv ?_))
      cases pc with
      | act => exact absurd rfl hpc
      | _ => exact Nat.le_of_ble_eq_true rfl

theorem does_startData (c : HandleFrameCo) (hc : c.pc = .act) (l : Local) (w : World) : CoDoes (.handleFrame c) w (startData c l w) := by
  unfold startData checkForContinuationA
  by_cases e1 : w.st.sock.lastOpcode = OPCODE_TEXT.toNat ∨ w.st.sock.lastOpcode = OPCODE_BINARY.toNat
  · rw [if_pos e1]
    refine does_inner ?_ rfl rfl trivial
    rfl
  · rw [if_neg e1]
    by_cases e2 : l.hdr.fin
    · rw [if_pos e2]
      exact does_startPayload c hc _ _ (by nofun) _ _ _ (by rfl) (by rfl)
    · rw [if_neg e2]
      exact does_startPayload c hc _ _ (by nofun) _ _ _ (by rfl) (by rfl)

theorem does_control (env : Env) (c : HandleFrameCo) (hc : Co.recvWeight (.handleFrame c) = 2) (mk : Nat → Event) (l : Local) (w : World) :
    CoDoes (.handleFrame c) w (controlCallback env c mk l w) := by
  unfold controlCallback
  split
  · exact does_call rfl rfl rfl rfl (by rw [hc]; exact Nat.lt_succ_self 1)
  · exact does_inner rfl rfl rfl trivial

theorem does_handleFrame (env : Env) (c : HandleFrameCo) (l : Local) (w : World) : CoDoes (.handleFrame c) w (handleFrameStep env c l w) := by
  rcases c with ⟨pc, lis⟩
  unfold handleFrameStep
  cases pc with
  | act =>
    dsimp only
    split
    · split
      · exact does_inner rfl rfl rfl trivial
      · exact does_startPayload _ (by rfl) _ _ (by nofun) _ _ _ (by rfl) (by rfl)
    · split
      · exact does_startData _ rfl _ _
      · split
        · exact does_startData _ rfl _ _
        · split
          · exact does_startPayload _ (by rfl) _ _ (by nofun) _ _ _ (by rfl) (by rfl)
          · split
            · exact does_startPayload _ (by rfl) _ _ (by nofun) _ _ _ (by rfl) (by rfl)
            · split
              · exact does_startPayload _ (by rfl) _ _ (by nofun) _ _ _ (by rfl) (by rfl)
              · exact does_inner rfl rfl rfl trivial
  | done => exact does_inner rfl rfl rfl trivial
  | onClose => exact does_control env _ rfl _ _ _
  | onPing => exact does_control env _ rfl _ _ _
  | onPong => exact does_control env _ rfl _ _ _

theorem coStep_does (env : Env) (c : Co) (l : Local) (w : World) : CoDoes c w (coStep env c l w) := by
  cases c with
  | listen => exact does_listen l w
  | readFrame c => exact does_readFrame env c l w
  | handleFrame c => exact does_handleFrame env c l w
  | readPayload c => exact does_readPayload env c l w
  | user c => exact does_user env c l w
  | sendFrame c => exact does_sendFrame env c l w
  | writeFrame c => exact does_writeFrame env c l w

/-! ## Tasks -/

/-- The task has ended, or can do less without the connection. -/
def Outcome.Less (o : Outcome) (cs : List Co) : Prop :=
  match o with
  | .run t => Rank.Less (rank t.stack) (rank cs)
  | .blocked => False
  | _ => True

theorem rank_less {cs ds : List Co} {c : Co} {rest : List Co} (hc : c.stops = false) (hd : ds = c :: rest) (h : Rank.Less (weights cs) (weights ds)) :
    Rank.Less (rank cs) (rank ds) := by
  subst hd
  have e : rank (c :: rest) = weights (c :: rest) := by
    show (if c.stops then _ else _) = _
    rw [hc]
    rfl
  rw [e]
  have := rank_le cs
  rcases h with h | ⟨h1, h2⟩
  · exact .inl (by omega)
  · rcases Nat.lt_or_ge (rank cs).1 (weights (c :: rest)).1 with h | h
    · exact .inl h
    · exact .inr ⟨by omega, by omega⟩

theorem rank_stops {cs : List Co} {c : Co} {rest ds : List Co} (hc : c.stops = false) (hd : cs = c :: rest) {d : Co} (hs : d.stops = true) :
    Rank.Less (rank (d :: ds)) (rank cs) := by
  subst hd
  have e : rank (c :: rest) = weights (c :: rest) := by
    show (if c.stops then _ else _) = _
    rw [hc]
    rfl
  have e' : rank (d :: ds) = (0, 0) := by
    show (if d.stops then _ else _) = _
    rw [hs]
    rfl
  rw [e, e']
  have := weight_pos c
  rcases Nat.eq_zero_or_pos (weights (c :: rest)).1 with h | h
  · refine .inr ⟨h.symm, ?_⟩
    show 0 < c.sendWeight + _
    have h : c.recvWeight + _ = 0 := h
    omega
  · exact .inl h

theorem weights_tail (c : Co) {cs rest : List Co} (h : (weights cs).1 ≤ (weights rest).1 ∧ (weights cs).2 ≤ (weights rest).2) : Rank.Less (weights cs) (weights (c :: rest)) := by
  have := weight_pos c
  show _ < c.recvWeight + (weights rest).1 ∨ _ = c.recvWeight + (weights rest).1 ∧ _ < c.sendWeight + (weights rest).2
  omega

theorem weights_under {cs : List Co} {c : Co} (rest : List Co) (h : Rank.Less (weights cs) (weights [c])) : Rank.Less (weights (cs ++ rest)) (weights (c :: rest)) := by
  rw [weights_append]
  have h : (weights cs).1 < c.recvWeight + 0 ∨ (weights cs).1 = c.recvWeight + 0 ∧ (weights cs).2 < c.sendWeight + 0 := h
  show (weights cs).1 + (weights rest).1 < c.recvWeight + (weights rest).1 ∨ (weights cs).1 + (weights rest).1 = c.recvWeight + (weights rest).1 ∧
    (weights cs).2 + (weights rest).2 < c.sendWeight + (weights rest).2
  omega

theorem unwind_less (e : AErr) (rest : List Co) (l : Local) (w : World) (c0 : Co) (below : List Co) (hs : c0.stops = false)
    (hle : (weights rest).1 ≤ (weights below).1 ∧ (weights rest).2 ≤ (weights below).2) : (unwind e rest l w).1.Less (c0 :: below) := by
  induction rest generalizing w with
  | nil => exact trivial
  | cons c rest ih =>
    have hle' : (weights rest).1 ≤ (weights below).1 ∧ (weights rest).2 ≤ (weights below).2 := by
      have h : c.recvWeight + (weights rest).1 ≤ (weights below).1 ∧ c.sendWeight + (weights rest).2 ≤ (weights below).2 := hle
      omega
    cases c with
    | user u =>
      dsimp only [unwind]
      split
      · exact rank_less hs rfl (weights_tail c0 hle)
      · exact ih w hle'
    | _ =>
      dsimp only [unwind]
      exact ih _ hle'

theorem unwind_not_blocked (e : AErr) (rest : List Co) (l : Local) (w : World) : (unwind e rest l w).1 ≠ .blocked := by
  induction rest generalizing w with
  | nil => nofun
  | cons c rest ih =>
    cases c with
    | user u =>
      dsimp only [unwind]
      split
      · nofun
      · exact ih w
    | _ =>
      dsimp only [unwind]
      exact ih _

theorem left_of_st {w w' : World} (h : w.st = w'.st) : w.left = w'.left := by unfold World.left; rw [h]

/-- What a step of a task does: it uses the connection; or it is a step towards the end or the next use of the connection; or the connection
does not answer. -/
theorem step_does (env : Env) (t : Task) (w : World) :
    ((step env t w).2.left < w.left ∧ (step env t w).1 ≠ .blocked) ∨ ((step env t w).2.left = w.left ∧ (step env t w).1.Less t.stack) ∨
      ((step env t w).1 = .blocked ∧ ∃ c rest, t.stack = c :: rest ∧ ((c.reading = true ∧ w.st.inp.sched = []) ∨ (c.writing = true ∧ w.st.sock.out.sched = []))) := by
  unfold step
  cases ht : t.stack with
  | nil => exact .inr (.inl ⟨rfl, trivial⟩)
  | cons c rest =>
    dsimp only
    have h := coStep_does env c t.loc w
    revert h
    generalize coStep env c t.loc w = x
    intro h
    rcases x with ⟨a, l, w'⟩
    rcases h with ⟨_, h, hnb⟩ | ⟨hs, h1, h2, h⟩ | ⟨h1, _, h2⟩
    · refine .inl ?_
      have h : w'.left < w.left := h
      cases a with
      | goto => exact ⟨h, by nofun⟩
      | call => exact ⟨h, by nofun⟩
      | finish =>
        cases rest with
        | nil => dsimp only; rw [left_of_st (destroy_st c w')]; exact ⟨h, by nofun⟩
        | cons => dsimp only; rw [left_of_st (destroy_st c w')]; exact ⟨h, by nofun⟩
      | error e =>
        dsimp only
        rw [left_of_st (unwind_st e rest l _), left_of_st (destroy_st c w')]
        exact ⟨h, unwind_not_blocked _ _ _ _⟩
      | blocked => exact absurd rfl hnb
      | ub u => exact ⟨h, by nofun⟩
    · refine .inr (.inl ?_)
      have hl : w'.left = w.left := by
        unfold World.left
        rw [show w'.st.inp.sched = w.st.inp.sched from h1, show w'.st.sock.out.sched = w.st.sock.out.sched from h2]
      cases a with
      | goto c' =>
        refine ⟨hl, ?_⟩
        rcases h with h | h
        · exact rank_stops hs rfl h
        · exact rank_less hs rfl (weights_under rest h)
      | call cs c' =>
        refine ⟨hl, ?_⟩
        rcases h with ⟨d, ds, rfl, h⟩ | h
        · exact rank_stops hs rfl h
        · refine rank_less hs rfl ?_
          have := weights_under rest h
          rw [List.append_assoc] at this
          exact this
      | finish =>
        cases rest with
        | nil => exact ⟨by dsimp only; rw [left_of_st (destroy_st c w')]; exact hl, trivial⟩
        | cons d ds =>
          refine ⟨by dsimp only; rw [left_of_st (destroy_st c w')]; exact hl, ?_⟩
          exact rank_less hs rfl (weights_tail c ⟨Nat.le_refl _, Nat.le_refl _⟩)
      | error e =>
        refine ⟨by dsimp only; rw [left_of_st (unwind_st e rest l _), left_of_st (destroy_st c w')]; exact hl, ?_⟩
        exact unwind_less e rest l _ c rest hs ⟨Nat.le_refl _, Nat.le_refl _⟩
      | blocked => exact h.elim
      | ub u => exact ⟨hl, trivial⟩
    · have h1 : a = .blocked := h1
      subst h1
      exact .inr (.inr ⟨rfl, c, rest, rfl, h2⟩)

/-! ## No infinite execution -/

/-- A task after a step without the connection. -/
def Down1 (o' o : Outcome) : Prop := ∃ t, o = .run t ∧ o'.Less t.stack

theorem down1_acc (o : Outcome) : Acc Down1 o := by
  have key : ∀ x, Acc Rank.Less x → ∀ t : Task, rank t.stack = x → Acc Down1 (.run t) := by
    intro x hx
    induction hx with
    | intro x _ ih =>
      rintro t rfl
      refine ⟨_, ?_⟩
      rintro o' ⟨t', e, h⟩
      injection e with e
      subst e
      cases o' with
      | run t' => exact ih _ h t' rfl
      | blocked => exact h.elim
      | finished => exact ⟨_, fun _ ⟨_, e, _⟩ => (by cases e)⟩
      | failed => exact ⟨_, fun _ ⟨_, e, _⟩ => (by cases e)⟩
      | ub => exact ⟨_, fun _ ⟨_, e, _⟩ => (by cases e)⟩
  cases o with
  | run t => exact key _ (Rank.acc _) t rfl
  | _ => exact ⟨_, fun _ ⟨_, e, _⟩ => (by cases e)⟩

/-- One of the tasks makes such a step. -/
inductive OneDown : List Outcome → List Outcome → Prop
  | head {q q' ts} : Down1 q' q → OneDown (q' :: ts) (q :: ts)
  | tail {q ts ts'} : OneDown ts' ts → OneDown (q :: ts') (q :: ts)

theorem oneDown_acc (ts : List Outcome) : Acc OneDown ts := by
  induction ts with
  | nil => exact ⟨_, fun q h => by cases h⟩
  | cons q ts ih =>
    have hq := down1_acc q
    induction hq generalizing ts with
    | intro q _ ihq =>
      induction ih with
      | intro ts hts iht =>
        refine ⟨_, fun x hx => ?_⟩
        cases hx with
        | head h => exact ihq _ h ts ⟨_, hts⟩
        | tail h => exact iht _ h

theorem oneDown_set {ts : List Outcome} {i : Nat} {t : Task} {o : Outcome} (h : ts[i]? = some (.run t)) (hl : o.Less t.stack) : OneDown (ts.set i o) ts := by
  induction ts generalizing i with
  | nil => cases h
  | cons q ts ih =>
    cases i with
    | zero =>
      injection h with h
      subst h
      exact .head ⟨_, rfl, hl⟩
    | succ i => exact .tail (ih h)

/-- What tasks and connection can still do. -/
def PoolDown (x y : Nat × List Outcome) : Prop := x.1 < y.1 ∨ x.1 = y.1 ∧ OneDown x.2 y.2

theorem poolDown_acc (x : Nat × List Outcome) : Acc PoolDown x := by
  rcases x with ⟨n, ts⟩
  induction n using Nat.strongRecOn generalizing ts with
  | ind n ihn =>
    have h := oneDown_acc ts
    induction h with
    | intro ts _ ih =>
      refine ⟨_, ?_⟩
      rintro ⟨n', ts'⟩ h
      rcases h with h | ⟨h1, h2⟩
      · exact ihn n' h ts'
      · dsimp only at h1
        subst h1
        exact ih ts' h2

theorem poolDown_step {env : Env} {ts : List Outcome} {w : World} {i : Nat} {t : Task} {o : Outcome} {w' : World} (h : ts[i]? = some (.run t))
    (hs : step env t w = (o, w')) (hb : o ≠ .blocked) : PoolDown (w'.left, ts.set i o) (w.left, ts) := by
  have := step_does env t w
  rw [hs] at this
  rcases this with ⟨h1, _⟩ | ⟨h1, h2⟩ | ⟨h1, _⟩
  · exact .inl h1
  · exact .inr ⟨h1, oneDown_set h h2⟩
  · exact absurd h1 hb

end OatWS.Async
