import Verif.Spec.Concurrent
import Verif.Proofs.AsyncSend
import Verif.Proofs.SendFrame
/-! Sends of several tasks: what the steps of a send write. -/

namespace OatWS.Async
open RFC6455

/-! ### Header bytes, piece by piece -/

/-- The first two bytes as written. -/
def bbBytes (env : Env) (h : Header) : List UInt8 := store16 env.host (hton16 env.host (packHeaderBits h).1)

/-- The extended length field as written. -/
def lenBytes (env : Env) (h : Header) : List UInt8 :=
  if (packHeaderBits h).2 = 2 then store16 env.host (hton16 env.host (UInt16.ofNat (h.payloadLength % 65536).toNat))
  else if (packHeaderBits h).2 = 3 then
    store32 env.host (hton32 env.host (UInt32.ofNat (h.payloadLength / 4294967296 % 4294967296).toNat)) ++
    store32 env.host (hton32 env.host (UInt32.ofNat (h.payloadLength % 4294967296).toNat))
  else []

/-- The masking key as written. -/
def keyBytes (h : Header) : List UInt8 := if h.hasMask then h.mask.bytes else []

/-- The payload as written. -/
def payBytes (h : Header) (m : Option (List UInt8)) : List UInt8 :=
  if h.hasMask then xorMask h.mask 0 (m.getD []) else m.getD []

theorem keyBytes_eq (h : Header) : keyBytes h = h.key.getD [] := by
  unfold keyBytes Header.key; cases h.hasMask <;> rfl

theorem bbBytes_eq (env : Env) (h : Header) (n : Nat) (hn : h.payloadLength = n) :
    bbBytes env h = [UInt8.ofNat (flag h.fin 128 + flag h.rsv1 64 + flag h.rsv2 32 + flag h.rsv3 16
          + h.opcode.toNat % 16), UInt8.ofNat (flag h.key.isSome 128 + (lengthField n).1)] := by
  unfold bbBytes
  rw [store16_hton16, pack_bits_toNat h]
  have hlc : lenCode h.payloadLength = (lengthField n).1 := by
    unfold lenCode lengthField
    rw [hn]
    by_cases c1 : n ≤ 125
    · have c1' : (n : Int) < 126 := by omega
      rw [if_pos c1, if_pos c1']; show _ = n; omega
    · have c1' : ¬ (n : Int) < 126 := by omega
      rw [if_neg c1, if_neg c1']
      by_cases c2 : n ≤ 65535
      · have c2' : (n : Int) < 65536 := by omega
        rw [if_pos c2, if_pos c2']
      · have c2' : ¬ (n : Int) < 65536 := by omega
        rw [if_neg c2, if_neg c2']
  have hlt := lenCode_lt h.payloadLength
  rw [hlc] at hlt ⊢
  have hk : h.key.isSome = h.hasMask := by unfold Header.key; cases h.hasMask <;> rfl
  rw [hk]
  have ho : h.opcode.toNat % 16 < 16 := Nat.mod_lt _ (by decide)
  have hm : flag h.hasMask 128 ≤ 128 := by cases h.hasMask <;> decide
  have f1 : flag h.fin 32768 = 256 * flag h.fin 128 := by cases h.fin <;> rfl
  have f2 : flag h.rsv1 16384 = 256 * flag h.rsv1 64 := by cases h.rsv1 <;> rfl
  have f3 : flag h.rsv2 8192 = 256 * flag h.rsv2 32 := by cases h.rsv2 <;> rfl
  have f4 : flag h.rsv3 4096 = 256 * flag h.rsv3 16 := by cases h.rsv3 <;> rfl
  simp only [f1, f2, f3, f4, List.cons.injEq, and_true]
  constructor <;> congr 1 <;> omega

theorem lenBytes_eq (env : Env) (h : Header) (n : Nat) (hn : h.payloadLength = n) (h1 : n < 2 ^ 63) :
    lenBytes env h = (lengthField n).2 := by
  unfold lenBytes lengthField
  rw [pack_scenario, hn]
  by_cases c1 : n ≤ 125
  · have c1' : (n : Int) < 126 := by omega
    rw [if_pos c1, if_pos c1']; rfl
  · have c1' : ¬ (n : Int) < 126 := by omega
    rw [if_neg c1, if_neg c1']
    by_cases c2 : n ≤ 65535
    · have c2' : (n : Int) < 65536 := by omega
      rw [if_pos c2, if_pos c2', if_pos rfl]
      rw [store16_hton16, bigEndian_two, ofNat16 (by omega)]
      simp only [List.cons.injEq, and_true]
      constructor <;> congr 1 <;> omega
    · have c2' : ¬ (n : Int) < 65536 := by omega
      rw [if_neg c2, if_neg c2', if_neg (by decide), if_pos rfl]
      have hq : ((n : Int) / 4294967296 % 4294967296).toNat = n / 4294967296 := by omega
      have hr : ((n : Int) % 4294967296).toNat = n % 4294967296 := by omega
      rw [bigEndian_eight n (by omega), store32_hton32, store32_hton32, hq, hr]
      rfl

theorem rawHeader (env : Env) (h : Header) (n : Nat) (hn : h.payloadLength = n) (h1 : n < 2 ^ 63) :
    bbBytes env h ++ (lenBytes env h ++ keyBytes h) = h.wire := by
  rw [bbBytes_eq env h n hn, lenBytes_eq env h n hn h1, keyBytes_eq]
  have : h.payloadLength.toNat = n := by omega
  rw [Header.wire, this, encodeHeader, List.append_assoc]

/-- Everything a send writes. -/
def rawBytes (env : Env) (h : Header) (m : Option (List UInt8)) : List UInt8 :=
  bbBytes env h ++ (lenBytes env h ++ (keyBytes h ++ payBytes h m))

theorem rawBytes_eq (env : Env) (s : Sock) (fin opcode) (m : Option (List UInt8)) (hl : (m.getD []).length < 2 ^ 63) :
    rawBytes env (filledHeader env s fin opcode (m.getD []).length) m = (frameFor env s fin opcode (some (m.getD []))).encode := by
  rw [← filledHeader_wire, ← rawHeader env _ _ rfl hl]
  unfold rawBytes
  simp only [List.append_assoc]
  congr 3
  unfold payBytes Header.key
  cases (filledHeader env s fin opcode (m.getD []).length).hasMask
  · rfl
  · simp only [if_pos, applyKey?, applyKey, xorMask_eq]

/-! ### Stacks -/

def QuietCo (co : Co) : Prop := (∀ c, co ≠ .sendFrame c) ∧ (∀ c, co ≠ .writeFrame c)

theorem quietCo_user (c) : QuietCo (.user c) := ⟨fun _ h => (by cases h), fun _ h => (by cases h)⟩
theorem quietCo_readFrame (c) : QuietCo (.readFrame c) := ⟨fun _ h => (by cases h), fun _ h => (by cases h)⟩
theorem quietCo_handleFrame (c) : QuietCo (.handleFrame c) := ⟨fun _ h => (by cases h), fun _ h => (by cases h)⟩
theorem quietCo_readPayload (c) : QuietCo (.readPayload c) := ⟨fun _ h => (by cases h), fun _ h => (by cases h)⟩
theorem quietCo_listen : QuietCo .listen := ⟨fun _ h => (by cases h), fun _ h => (by cases h)⟩

abbrev Quiet (st : List Co) : Prop := ∀ co ∈ st, QuietCo co

theorem quiet_iff {t : Task} : (Outcome.run t).quiet ↔ Quiet t.stack := Iff.rfl

/-- `SendFrameCoroutine` during its send. -/
abbrev sf (fin : Bool) (opcode : UInt8) (m : Option (List UInt8)) (h : Header) (pc : SendFramePc) (left : List UInt8) : Co :=
  .sendFrame ⟨pc, fin, opcode, m, h, left⟩

/-- Where it goes on when the header is written. -/
def nextPc : Option (List UInt8) → SendFramePc
  | some (_ :: _) => .prepareWriteMessage
  | _ => .done

/-- The stack of a task in the middle of a send, and the bytes still to be written. -/
inductive Mid (env : Env) (fin : Bool) (op : UInt8) (m : Option (List UInt8)) (h : Header) (rest : List Co) : List Co → List UInt8 → Prop
  | act (left) : Mid env fin op m h rest (wf .act h left :: sf fin op m h (nextPc m) [] :: rest)
      (left ++ (lenBytes env h ++ (keyBytes h ++ payBytes h m)))
  | onBb (g) : Mid env fin op m h rest (wf .onBbWritten h g :: sf fin op m h (nextPc m) [] :: rest)
      (lenBytes env h ++ (keyBytes h ++ payBytes h m))
  | len (left) : Mid env fin op m h rest (wf .writeMessageLen h left :: sf fin op m h (nextPc m) [] :: rest)
      (left ++ (keyBytes h ++ payBytes h m))
  | onLen (g) : Mid env fin op m h rest (wf .onLenWritten h g :: sf fin op m h (nextPc m) [] :: rest)
      (keyBytes h ++ payBytes h m)
  | mask (left) : Mid env fin op m h rest (wf .writeMask h left :: sf fin op m h (nextPc m) [] :: rest)
      (left ++ payBytes h m)
  | prepare : Mid env fin op m h rest (sf fin op m h .prepareWriteMessage [] :: rest) (payBytes h m)
  | body (left) : Mid env fin op m h rest (sf fin op m h .writeMessage left :: rest) left
  | done (g) : Mid env fin op m h rest (sf fin op m h .done g :: rest) []

theorem mid_next (env : Env) (fin op m h rest) : Mid env fin op m h rest (sf fin op m h (nextPc m) [] :: rest) (payBytes h m) := by
  match m with
  | none =>
    have : payBytes h none = [] := by unfold payBytes; cases h.hasMask <;> rfl
    rw [this]; exact .done _
  | some [] =>
    have : payBytes h (some []) = [] := by unfold payBytes; cases h.hasMask <;> rfl
    rw [this]; exact .done _
  | some (b :: bs) => exact .prepare

/-- The side of the socket that sends change. -/
def wr (w : World) : OutStream × Nat := (w.st.sock.out, w.st.sock.rngPos)

theorem unwind_quiet (e : AErr) (rest : List Co) (l : Local) (w : World) (hq : Quiet rest) :
    (unwind e rest l w).1.quiet ∧ wr (unwind e rest l w).2 = wr w := by
  induction rest generalizing w with
  | nil => exact ⟨trivial, rfl⟩
  | cons c rest ih =>
    have hq' : Quiet rest := fun co h => hq co (List.mem_cons_of_mem _ h)
    cases c with
    | user u =>
      unfold unwind
      split
      · refine ⟨?_, rfl⟩
        intro co h
        rcases List.mem_cons.mp h with rfl | h
        · exact quietCo_user _
        · exact hq' co h
      · exact ih w hq'
    | readPayload c => exact ih (w.free c.buf) hq'
    | listen => exact ih w hq'
    | readFrame c => exact ih w hq'
    | handleFrame c => exact ih w hq'
    | sendFrame c => exact absurd rfl ((hq _ (by simp)).1 c)
    | writeFrame c => exact absurd rfl ((hq _ (by simp)).2 c)

/-- What one step of an exact write does. -/
theorem writeInline_cases (left : List UInt8) (out : OutStream) : ∃ d sc,
    (writeInline left out = (.done [], ⟨out.written ++ d, sc⟩) ∧ left = d) ∨
    (∃ g, writeInline left out = (.again g, ⟨out.written ++ d, sc⟩) ∧ left = d ++ g) ∨
    (writeInline left out = (.failed, ⟨out.written ++ d, sc⟩) ∧ d = [] ∧ left ≠ []) ∨
    writeInline left out = (.blocked, ⟨out.written ++ d, sc⟩) := by
  unfold writeInline
  split
  · exact ⟨[], out.sched, .inl ⟨by simp, rfl⟩⟩
  · exact ⟨[], out.sched, .inr (.inr (.inr (by simp)))⟩
  · rename_i b bs o sched _
    cases o with
    | upTo n =>
      simp only []
      refine ⟨(b :: bs).take (min (n + 1) (b :: bs).length), sched, ?_⟩
      split
      · rename_i hd
        refine .inl ⟨rfl, ?_⟩
        have := List.take_append_drop (min (n + 1) (b :: bs).length) (b :: bs)
        rw [hd, List.append_nil] at this
        exact this.symm
      · exact .inr (.inl ⟨_, rfl, (List.take_append_drop ..).symm⟩)
    | retry => exact ⟨[], sched, .inr (.inl ⟨b :: bs, by simp, rfl⟩)⟩
    | zero => exact ⟨[], sched, .inr (.inr (.inl ⟨by simp, rfl, nofun⟩))⟩
    | broken => exact ⟨[], sched, .inr (.inr (.inl ⟨by simp, rfl, nofun⟩))⟩

/-- Result of a step in the middle of a send: it goes on, is completed, fails, or (masked, 2^31 bytes or more) is undefined. -/
inductive MidResult (env : Env) (fin : Bool) (op : UInt8) (m : Option (List UInt8)) (h : Header) (rest : List Co) (l : Local)
    (left d : List UInt8) (o : Outcome) (completes fails : Bool) : Prop
  | goes (st' left') : o = .run ⟨st', l⟩ → Mid env fin op m h rest st' left' → left = d ++ left' → completes = false → fails = false →
      MidResult env fin op m h rest l left d o completes fails
  | completed : o.quiet → left = d → completes = true → fails = false → MidResult env fin op m h rest l left d o completes fails
  | failed (r) : o.quiet → r ≠ [] → left = d ++ r → completes = false → fails = true → MidResult env fin op m h rest l left d o completes fails
  | undefined (u) : o = .ub u → d = [] → completes = false → fails = false → MidResult env fin op m h rest l left d o completes fails

theorem setOut_out (w : World) (o : OutStream) : (w.setOut o).st.sock.out = o := rfl

/-- A step of a coroutine of the send that writes. -/
theorem step_write (env : Env) (mk : List UInt8 → Co) (rest : List Co) (l : Local) (cont : Act)
    (hstep : ∀ left w, coStep env (mk left) l w = writeStep left l w mk cont) (hd : ∀ g w, destroy (mk g) w = w)
    (left : List UInt8) (w : World) : ∃ d sc,
    (coStep env (mk left) l w = (cont, l, w.setOut ⟨w.st.sock.out.written ++ d, sc⟩) ∧ left = d) ∨
    (∃ g, coStep env (mk left) l w = (.goto (mk g), l, w.setOut ⟨w.st.sock.out.written ++ d, sc⟩) ∧ left = d ++ g) ∨
    (coStep env (mk left) l w = (.error .io, l, w.setOut ⟨w.st.sock.out.written ++ d, sc⟩) ∧ d = [] ∧ left ≠ []) ∨
    coStep env (mk left) l w = (.blocked, l, w.setOut ⟨w.st.sock.out.written ++ d, sc⟩) := by
  rw [hstep]
  unfold writeStep
  obtain ⟨d, sc, ⟨e, h1⟩ | ⟨g, e, h1⟩ | ⟨e, h1⟩ | e⟩ := writeInline_cases left w.st.sock.out <;> rw [e]
  · exact ⟨d, sc, .inl ⟨rfl, h1⟩⟩
  · exact ⟨d, sc, .inr (.inl ⟨g, rfl, h1⟩)⟩
  · exact ⟨d, sc, .inr (.inr (.inl ⟨rfl, h1⟩))⟩
  · exact ⟨d, sc, .inr (.inr (.inr rfl))⟩

theorem step_eq (env : Env) (c : Co) (rest : List Co) (l : Local) (w : World) : step env ⟨c :: rest, l⟩ w =
    match coStep env c l w with
    | (.goto c', l, w') => (.run ⟨c' :: rest, l⟩, w')
    | (.call cs c', l, w') => (.run ⟨cs ++ c' :: rest, l⟩, w')
    | (.finish, l, w') =>
      match rest with
      | [] => (.finished, destroy c w')
      | _ :: _ => (.run ⟨rest, l⟩, destroy c w')
    | (.error e, l, w') => unwind e rest l (destroy c w')
    | (.blocked, _, w') => (.blocked, w')
    | (.ub u, _, w') => (.ub u, w') := rfl

/-- A step of `WriteFrameCoroutine` that writes, in the middle of a send. -/
theorem wf_write (env : Env) (fin op m h) (rest : List Co) (hq : Quiet rest) (l : Local) (pc : WriteFramePc) (cont : Act) (tail : List UInt8)
    (hstep : ∀ left w, coStep env (wf pc h left) l w = writeStep left l w (wf pc h) cont)
    (hmid : ∀ left, Mid env fin op m h rest (wf pc h left :: sf fin op m h (nextPc m) [] :: rest) (left ++ tail))
    (hcont : (∃ c', cont = .goto c' ∧ Mid env fin op m h rest (c' :: sf fin op m h (nextPc m) [] :: rest) tail) ∨
      cont = .finish ∧ Mid env fin op m h rest (sf fin op m h (nextPc m) [] :: rest) tail)
    (left : List UInt8) (w : World) (o w') (t : Task) (ht : t = ⟨wf pc h left :: sf fin op m h (nextPc m) [] :: rest, l⟩)
    (he : step env t w = (o, w')) (hb : o ≠ .blocked) :
    ∃ d, w'.st.sock.out.written = w.st.sock.out.written ++ d ∧ w'.st.sock.rngPos = w.st.sock.rngPos ∧
      MidResult env fin op m h rest l (left ++ tail) d o (t.completes env w) (t.fails env w) := by
  subst ht
  rw [step_eq] at he
  have hc : Task.completes env ⟨wf pc h left :: sf fin op m h (nextPc m) [] :: rest, l⟩ w = false := rfl
  have hf : Task.fails env ⟨wf pc h left :: sf fin op m h (nextPc m) [] :: rest, l⟩ w =
    match coStep env (wf pc h left) l w with | (.error _, _) => true | _ => false := rfl
  rw [hc, hf]
  obtain ⟨d, sc, ⟨e, h1⟩ | ⟨g, e, h1⟩ | ⟨e, h1, h2⟩ | e⟩ := step_write env (wf pc h) (sf fin op m h (nextPc m) [] :: rest) l cont hstep (fun _ _ => rfl) left w <;>
    rw [e] at he ⊢
  · rcases hcont with ⟨c', rfl, hm⟩ | ⟨rfl, hm⟩
    · simp only [Prod.mk.injEq] at he
      obtain ⟨rfl, rfl⟩ := he
      exact ⟨d, rfl, rfl, .goes _ _ rfl hm (by rw [h1]) rfl rfl⟩
    · simp only [Prod.mk.injEq] at he
      obtain ⟨rfl, rfl⟩ := he
      exact ⟨d, rfl, rfl, .goes _ _ rfl hm (by rw [h1]) rfl rfl⟩
  · simp only [Prod.mk.injEq] at he
    obtain ⟨rfl, rfl⟩ := he
    exact ⟨d, rfl, rfl, .goes _ _ rfl (hmid g) (by rw [h1, List.append_assoc]) rfl rfl⟩
  · have hu := unwind_quiet .io rest l (w.setOut ⟨w.st.sock.out.written ++ d, sc⟩) hq
    simp only [unwind, destroy] at he
    rw [he] at hu
    refine ⟨d, congrArg (fun x => x.1.written) hu.2, congrArg Prod.snd hu.2, .failed (left ++ tail) hu.1 (by simp [h2]) (by rw [h1]; rfl) rfl rfl⟩
  · simp only [Prod.mk.injEq] at he
    exact absurd he.1.symm hb

theorem mid_step (env : Env) (fin op m h) (rest : List Co) (hq : Quiet rest) (l : Local) (st left) (hm : Mid env fin op m h rest st left)
    (w : World) (o w') (he : step env ⟨st, l⟩ w = (o, w')) (hb : o ≠ .blocked) :
    ∃ d, w'.st.sock.out.written = w.st.sock.out.written ++ d ∧ w'.st.sock.rngPos = w.st.sock.rngPos ∧
      MidResult env fin op m h rest l left d o (Task.completes env ⟨st, l⟩ w) (Task.fails env ⟨st, l⟩ w) := by
  cases hm with
  | act left =>
    exact wf_write env fin op m h rest hq l .act (.goto (wf .onBbWritten h [])) _ (fun _ _ => rfl) (fun left => .act left)
      (.inl ⟨_, rfl, .onBb []⟩) left w o w' _ rfl he hb
  | onBb g =>
    rw [step_eq] at he
    have hf : Task.fails env ⟨wf .onBbWritten h g :: sf fin op m h (nextPc m) [] :: rest, l⟩ w =
      match coStep env (wf .onBbWritten h g) l w with | (.error _, _) => true | _ => false := rfl
    rw [hf]
    unfold lenBytes
    by_cases h2 : (packHeaderBits h).2 = 2
    · simp only [coStep, writeFrameStep, if_pos h2] at he ⊢
      obtain ⟨rfl, rfl⟩ := he
      exact ⟨[], by simp, rfl, .goes _ _ rfl (.len _) rfl rfl rfl⟩
    · by_cases h3 : (packHeaderBits h).2 = 3
      · simp only [coStep, writeFrameStep, if_neg h2, if_pos h3] at he ⊢
        obtain ⟨rfl, rfl⟩ := he
        exact ⟨[], by simp, rfl, .goes _ _ rfl (.len _) rfl rfl rfl⟩
      · simp only [coStep, writeFrameStep, if_neg h2, if_neg h3] at he ⊢
        obtain ⟨rfl, rfl⟩ := he
        exact ⟨[], by simp, rfl, .goes _ _ rfl (.onLen _) rfl rfl rfl⟩
  | len left =>
    exact wf_write env fin op m h rest hq l .writeMessageLen (.goto (wf .onLenWritten h [])) _ (fun _ _ => rfl) (fun left => .len left)
      (.inl ⟨_, rfl, .onLen []⟩) left w o w' _ rfl he hb
  | onLen g =>
    rw [step_eq] at he
    have hf : Task.fails env ⟨wf .onLenWritten h g :: sf fin op m h (nextPc m) [] :: rest, l⟩ w =
      match coStep env (wf .onLenWritten h g) l w with | (.error _, _) => true | _ => false := rfl
    rw [hf]
    unfold keyBytes
    by_cases hm : h.hasMask = true
    · simp only [coStep, writeFrameStep, if_pos hm] at he ⊢
      obtain ⟨rfl, rfl⟩ := he
      exact ⟨[], by simp, rfl, .goes _ _ rfl (.mask _) rfl rfl rfl⟩
    · simp only [coStep, writeFrameStep, if_neg hm] at he ⊢
      obtain ⟨rfl, rfl⟩ := he
      exact ⟨[], by simp [destroy], rfl, .goes _ _ rfl (mid_next env fin op m h rest) rfl rfl rfl⟩
  | mask left =>
    exact wf_write env fin op m h rest hq l .writeMask .finish _ (fun _ _ => rfl) (fun left => .mask left)
      (.inr ⟨rfl, mid_next env fin op m h rest⟩) left w o w' _ rfl he hb
  | prepare =>
    rw [step_eq] at he
    have hf : Task.fails env ⟨sf fin op m h .prepareWriteMessage [] :: rest, l⟩ w =
      match coStep env (sf fin op m h .prepareWriteMessage []) l w with | (.error _, _) => true | _ => false := rfl
    have hc : Task.completes env ⟨sf fin op m h .prepareWriteMessage [] :: rest, l⟩ w =
      match coStep env (sf fin op m h .prepareWriteMessage []) l w with | (.finish, _) => true | _ => false := rfl
    rw [hf, hc]
    unfold payBytes
    by_cases hm : h.hasMask = true
    · by_cases hbig : (m.getD []).length ≥ 2 ^ 31
      · simp only [coStep, sendFrameStep, if_pos hm, if_pos hbig] at he ⊢
        obtain ⟨rfl, rfl⟩ := he
        exact ⟨[], by simp, rfl, .undefined _ rfl rfl rfl rfl⟩
      · simp only [coStep, sendFrameStep, if_pos hm, if_neg hbig] at he ⊢
        obtain ⟨rfl, rfl⟩ := he
        exact ⟨[], by simp, rfl, .goes _ _ rfl (.body _) rfl rfl rfl⟩
    · simp only [coStep, sendFrameStep, if_neg hm] at he ⊢
      obtain ⟨rfl, rfl⟩ := he
      exact ⟨[], by simp, rfl, .goes _ _ rfl (.body _) rfl rfl rfl⟩
  | body =>
    rw [step_eq] at he
    have hf : Task.fails env ⟨sf fin op m h .writeMessage left :: rest, l⟩ w =
      match coStep env (sf fin op m h .writeMessage left) l w with | (.error _, _) => true | _ => false := rfl
    have hc : Task.completes env ⟨sf fin op m h .writeMessage left :: rest, l⟩ w =
      match coStep env (sf fin op m h .writeMessage left) l w with | (.finish, _) => true | _ => false := rfl
    rw [hf, hc]
    obtain ⟨d, sc, ⟨e, h1⟩ | ⟨g, e, h1⟩ | ⟨e, h1, h2⟩ | e⟩ := step_write env (sf fin op m h .writeMessage) rest l .finish (fun _ _ => rfl) (fun _ _ => rfl) left w <;>
      rw [e] at he ⊢
    · cases rest with
      | nil =>
        simp only [Prod.mk.injEq] at he
        obtain ⟨rfl, rfl⟩ := he
        exact ⟨d, rfl, rfl, .completed trivial h1 rfl rfl⟩
      | cons r rest =>
        simp only [Prod.mk.injEq] at he
        obtain ⟨rfl, rfl⟩ := he
        exact ⟨d, rfl, rfl, .completed hq h1 rfl rfl⟩
    · simp only [Prod.mk.injEq] at he
      obtain ⟨rfl, rfl⟩ := he
      exact ⟨d, rfl, rfl, .goes _ _ rfl (.body g) h1 rfl rfl⟩
    · have hu := unwind_quiet .io rest l (w.setOut ⟨w.st.sock.out.written ++ d, sc⟩) hq
      simp only [destroy] at he
      rw [he] at hu
      exact ⟨d, congrArg (fun x => x.1.written) hu.2, congrArg Prod.snd hu.2, .failed left hu.1 h2 (by rw [h1]; rfl) rfl rfl⟩
    · simp only [Prod.mk.injEq] at he
      exact absurd he.1.symm hb
  | done g =>
    cases rest with
    | nil =>
      have he : (Outcome.finished, w) = (o, w') := he
      cases he
      exact ⟨[], by simp, rfl, .completed trivial rfl rfl rfl⟩
    | cons r rest =>
      have he : (Outcome.run ⟨r :: rest, l⟩, w) = (o, w') := he
      cases he
      exact ⟨[], by simp, rfl, .completed hq rfl rfl rfl⟩

end OatWS.Async
