import Verif.Spec.Network
import Verif.Props.AsyncSends
import Verif.Props.AsyncPool
/-! An async endpoint that receives bytes as they come does the same as one for which all of them are there from the beginning. -/

namespace OatWS.Async
open RFC6455

/-- A low-level read goes the same way with more bytes, for a suitable behaviour of the transport. -/
theorem lowRead_more {o : IoOutcome} {bytes : List UInt8} {n : Nat} (hn : 0 < n) (hr : ∀ m, o = .upTo m → bytes ≠ []) (more : List UInt8) :
    ∃ o', lowRead o' (bytes ++ more) n = ((lowRead o bytes n).1, (lowRead o bytes n).2 ++ more) := by
  cases o with
  | upTo m =>
    have hpos : 0 < bytes.length := List.length_pos_iff.mpr (hr m rfl)
    have hk : min (m + 1) (min n bytes.length) ≠ 0 := by omega
    refine ⟨.upTo (min (m + 1) (min n bytes.length) - 1), ?_⟩
    dsimp only [lowRead]
    have e : min (min (m + 1) (min n bytes.length) - 1 + 1) (min n (bytes ++ more).length) = min (m + 1) (min n bytes.length) := by
      rw [List.length_append]
      omega
    rw [e, if_neg hk, if_neg hk]
    rw [List.take_append_of_le_length (by omega), List.drop_append_of_le_length (by omega)]
  | retry => exact ⟨.retry, rfl⟩
  | zero => exact ⟨.zero, rfl⟩
  | broken => exact ⟨.broken, rfl⟩

/-- The result with another input. -/
def reInp (i : InStream) (x : Act × Local × World) : Act × Local × World := (x.1, x.2.1, x.2.2.setInp i)

theorem destroy_setInp (c : Co) (w : World) (i : InStream) : destroy c (w.setInp i) = (destroy c w).setInp i := by
  cases c <;> rfl

theorem unwind_setInp (e : AErr) (rest : List Co) (l : Local) (w : World) (i : InStream) :
    unwind e rest l (w.setInp i) = ((unwind e rest l w).1, (unwind e rest l w).2.setInp i) := by
  induction rest generalizing w with
  | nil => rfl
  | cons c rest ih =>
    cases c with
    | user u =>
      dsimp only [unwind]
      split
      · rfl
      · exact ih w
    | _ =>
      dsimp only [unwind]
      rw [destroy_setInp]
      exact ih _

theorem after_setInp (c : Co) (rest : List Co) (x : Act × Local × World) (i : InStream) :
    after c rest (reInp i x) = ((after c rest x).1, (after c rest x).2.setInp i) := by
  rcases x with ⟨a, l, w⟩
  cases a with
  | goto c' => rfl
  | call cs c' => rfl
  | finish =>
    cases rest with
    | nil => dsimp only [after, reInp]; rw [destroy_setInp]
    | cons => dsimp only [after, reInp]; rw [destroy_setInp]
  | error e => dsimp only [after, reInp]; rw [destroy_setInp, unwind_setInp]
  | blocked => rfl
  | ub u => rfl

theorem writeStep_setInp (left : List UInt8) (l : Local) (w : World) (again : List UInt8 → Co) (cont : Act) (i : InStream) :
    writeStep left l (w.setInp i) again cont = reInp i (writeStep left l w again cont) := by
  unfold writeStep
  have e : (w.setInp i).st.sock.out = w.st.sock.out := rfl
  rw [e]
  rcases writeInline left w.st.sock.out with ⟨_ | _ | _ | _, o⟩ <;> rfl

theorem sendFrameHeaderAsync_setInp (env : Env) (h : Header) (fin : Bool) (op : UInt8) (n : Int) (w : World) (i : InStream) :
    sendFrameHeaderAsync env h fin op n (w.setInp i) =
      ((sendFrameHeaderAsync env h fin op n w).1, (sendFrameHeaderAsync env h fin op n w).2.1, (sendFrameHeaderAsync env h fin op n w).2.2.setInp i) := by
  unfold sendFrameHeaderAsync
  have e : (w.setInp i).st.sock = w.st.sock := rfl
  rw [e]
  dsimp only
  split <;> rfl

theorem startPayload_setInp (c : HandleFrameCo) (short : Bool) (pc : HandleFramePc) (l : Local) (w : World) (i : InStream) :
    startPayload c short pc l (w.setInp i) = reInp i (startPayload c short pc l w) := by
  unfold startPayload readPayloadAsync
  have e : (w.setInp i).st.sock = w.st.sock := rfl
  rw [e]
  by_cases h1 : short = true ∧ l.hdr.payloadLength > 125
  · rw [if_pos h1, if_pos h1]
    rfl
  · rw [if_neg h1, if_neg h1]
    by_cases h2 : w.st.sock.config.readBufferSize < 0
    · rw [if_pos h2, if_pos h2]
      rfl
    · rw [if_neg h2, if_neg h2]
      rfl

theorem startData_setInp (c : HandleFrameCo) (l : Local) (w : World) (i : InStream) :
    startData c l (w.setInp i) = reInp i (startData c l w) := by
  unfold startData
  have e : (w.setInp i).st.sock = w.st.sock := rfl
  rw [e]
  rcases checkForContinuationA l.hdr w.st.sock with ⟨_ | _, s⟩
  · rfl
  · exact startPayload_setInp c false .done l (w.setSock s) i

theorem controlCallback_setInp (env : Env) (c : HandleFrameCo) (mk : Nat → Event) (l : Local) (w : World) (i : InStream) :
    controlCallback env c mk l (w.setInp i) = reInp i (controlCallback env c mk l w) := by
  unfold controlCallback
  cases c.listener <;> rfl

theorem handleFrameStep_setInp (env : Env) (c : HandleFrameCo) (l : Local) (w : World) (i : InStream) :
    handleFrameStep env c l (w.setInp i) = reInp i (handleFrameStep env c l w) := by
  have e : (w.setInp i).st.sock = w.st.sock := rfl
  unfold handleFrameStep
  rw [e]
  cases c.pc with
  | act =>
    dsimp only
    split
    · split
      · rfl
      · exact startPayload_setInp ..
    · split
      · exact startData_setInp ..
      · split
        · exact startData_setInp ..
        · split
          · exact startPayload_setInp ..
          · split
            · exact startPayload_setInp ..
            · split
              · exact startPayload_setInp ..
              · rfl
  | done => rfl
  | _ => exact controlCallback_setInp ..

theorem sendFrameStep_setInp (env : Env) (c : SendFrameCo) (l : Local) (w : World) (i : InStream) :
    sendFrameStep env c l (w.setInp i) = reInp i (sendFrameStep env c l w) := by
  unfold sendFrameStep
  cases c.pc with
  | act =>
    dsimp only
    rcases c.message with _ | _ | ⟨b, bs⟩
    · dsimp only
      rw [sendFrameHeaderAsync_setInp]
      rfl
    · dsimp only
      rw [sendFrameHeaderAsync_setInp]
      rfl
    · dsimp only
      rw [sendFrameHeaderAsync_setInp]
      rfl
  | prepareWriteMessage =>
    dsimp only
    split
    · split <;> rfl
    · rfl
  | writeMessage => exact writeStep_setInp ..
  | done => rfl

theorem writeFrameStep_setInp (env : Env) (c : WriteFrameCo) (l : Local) (w : World) (i : InStream) :
    writeFrameStep env c l (w.setInp i) = reInp i (writeFrameStep env c l w) := by
  unfold writeFrameStep
  cases c.pc with
  | onBbWritten =>
    dsimp only
    split
    · rfl
    · split <;> rfl
  | onLenWritten =>
    dsimp only
    split <;> rfl
  | _ => exact writeStep_setInp ..

theorem userStep_setInp (env : Env) (c : UserCo) (l : Local) (w : World) (i : InStream) :
    userStep env c l (w.setInp i) = reInp i (userStep env c l w) := by
  unfold userStep
  split <;> rfl

theorem listenStep_setInp (l : Local) (w : World) (i : InStream) : listenStep l (w.setInp i) = reInp i (listenStep l w) := by
  unfold listenStep
  split <;> rfl

theorem readStep_full (need : Nat) (got : List UInt8) (l : Local) (w : World) (again : List UInt8 → Co)
    (cont : List UInt8 → World → Act × Local × World) (h : need ≤ got.length) : readStep need got l w again cont = cont got w := by
  unfold readStep readInline
  rw [if_pos h]
  rfl

theorem readFrameStep_setInp (env : Env) (c : ReadFrameCo) (rest : List Co) (l : Local) (w : World) (i : InStream) (hc : Task.reads ⟨.readFrame c :: rest, l⟩ = false) :
    readFrameStep env c l (w.setInp i) = reInp i (readFrameStep env c l w) := by
  unfold Task.reads at hc
  dsimp only at hc
  unfold readFrameStep
  cases hp : c.pc with
  | onBbRead =>
    dsimp only
    split
    · split
      · rfl
      · split <;> rfl
    · rfl
  | onLenRead =>
    dsimp only
    split <;> rfl
  | readMask =>
    rw [hp] at hc
    dsimp only at hc
    have : c.need ≤ c.got.length := by have := of_decide_eq_false hc; omega
    dsimp only
    rw [readStep_full _ _ _ _ _ _ this, readStep_full _ _ _ _ _ _ this]
    split <;> rfl
  | _ =>
    rw [hp] at hc
    dsimp only at hc
    have : c.need ≤ c.got.length := by have := of_decide_eq_false hc; omega
    dsimp only
    rw [readStep_full _ _ _ _ _ _ this, readStep_full _ _ _ _ _ _ this]
    rfl

theorem readPayloadStep_setInp (env : Env) (c : ReadPayloadCo) (rest : List Co) (l : Local) (w : World) (i : InStream) (hc : Task.reads ⟨.readPayload c :: rest, l⟩ = false) :
    readPayloadStep env c l (w.setInp i) = reInp i (readPayloadStep env c l w) := by
  unfold Task.reads at hc
  dsimp only at hc
  have e : (w.setInp i).st.sock = w.st.sock := rfl
  unfold readPayloadStep
  cases hp : c.pc with
  | act =>
    dsimp only
    split
    · rfl
    · cases c.listener with
      | none => rfl
      | some to =>
        dsimp only
        split <;> rfl
  | readData =>
    rw [hp] at hc
    dsimp only at hc
    have h : c.want ≤ 0 := by have := of_decide_eq_false hc; omega
    dsimp only
    rw [if_pos h, if_pos h]
    rfl
  | onDataRead =>
    dsimp only
    split
    · split
      · split
        · rfl
        · cases c.listener <;> rfl
      · split
        · rfl
        · cases c.listener <;> rfl
    · rfl
  | done => rfl

/-- A step that does not read goes the same way with another input. -/
theorem coStep_setInp (env : Env) (c : Co) (rest : List Co) (l : Local) (w : World) (i : InStream) (hc : Task.reads ⟨c :: rest, l⟩ = false) :
    coStep env c l (w.setInp i) = reInp i (coStep env c l w) := by
  cases c with
  | listen => exact listenStep_setInp ..
  | readFrame c => exact readFrameStep_setInp env c rest l w i hc
  | handleFrame c => exact handleFrameStep_setInp ..
  | readPayload c => exact readPayloadStep_setInp env c rest l w i hc
  | user c => exact userStep_setInp ..
  | sendFrame c => exact sendFrameStep_setInp ..
  | writeFrame c => exact writeFrameStep_setInp ..

theorem inp_reInp (x : Act × Local × World) : reInp x.2.2.st.inp x = x := rfl

theorem after_inp (c : Co) (rest : List Co) (x : Act × Local × World) : (after c rest x).2.st.inp = x.2.2.st.inp := by
  have h := after_setInp c rest x x.2.2.st.inp
  rw [inp_reInp] at h
  rw [h]
  rfl

theorem coStep_inp (env : Env) (c : Co) (rest : List Co) (l : Local) (w : World) (hc : Task.reads ⟨c :: rest, l⟩ = false) :
    (coStep env c l w).2.2.st.inp = w.st.inp := by
  have h := coStep_setInp env c rest l w w.st.inp hc
  have e : w.setInp w.st.inp = w := rfl
  rw [e] at h
  rw [h]
  rfl

theorem readStep_more {need : Nat} {got : List UInt8} {l : Local} {w : World} {again : List UInt8 → Co} {cont : List UInt8 → World → Act × Local × World}
    (hc : ∀ g w i, cont g (w.setInp i) = reInp i (cont g w)) (hn : got.length < need) {o : IoOutcome} {sched : List IoOutcome} (hs : w.st.inp.sched = o :: sched)
    (hr : ∀ m, o = .upTo m → w.st.inp.bytes ≠ []) (more : List UInt8) (tail : List IoOutcome) :
    ∃ used, readStep need got l (w.setInp ⟨w.st.inp.bytes ++ more, used ++ tail⟩) again cont =
      reInp ⟨(readStep need got l w again cont).2.2.st.inp.bytes ++ more, tail⟩ (readStep need got l w again cont) := by
  obtain ⟨o', ho⟩ := lowRead_more (o := o) (bytes := w.st.inp.bytes) (n := need - got.length) (by omega) hr more
  refine ⟨[o'], ?_⟩
  have hi : ∀ g w, (cont g w).2.2.st.inp = w.st.inp := by
    intro g w
    have h := hc g w w.st.inp
    have e : w.setInp w.st.inp = w := rfl
    rw [e] at h
    rw [h]
    rfl
  have hn' : ¬ need ≤ got.length := by omega
  unfold readStep readInline
  rw [if_neg hn', if_neg hn', hs]
  have e1 : (w.setInp ⟨w.st.inp.bytes ++ more, [o'] ++ tail⟩).st.inp = ⟨w.st.inp.bytes ++ more, o' :: tail⟩ := rfl
  rw [e1]
  dsimp only
  rw [ho]
  rcases lowRead o w.st.inp.bytes (need - got.length) with ⟨d | _ | _ | _, bs⟩
  · dsimp only
    by_cases hd : need ≤ (got ++ d).length
    · rw [if_pos hd, if_pos hd]
      dsimp only
      rw [hi, ← hc]
      rfl
    · rw [if_neg hd, if_neg hd]
      rfl
  · rfl
  · rfl
  · rfl

theorem coStep_more {env : Env} {c : Co} {rest : List Co} {l : Local} {w : World} (hc : Task.reads ⟨c :: rest, l⟩ = true)
    {o : IoOutcome} {sched : List IoOutcome} (hs : w.st.inp.sched = o :: sched)
    (hr : ∀ m, o = .upTo m → w.st.inp.bytes ≠ []) (more : List UInt8) (tail : List IoOutcome) :
    ∃ used, coStep env c l (w.setInp ⟨w.st.inp.bytes ++ more, used ++ tail⟩) =
      reInp ⟨(coStep env c l w).2.2.st.inp.bytes ++ more, tail⟩ (coStep env c l w) := by
  unfold Task.reads at hc
  cases c with
  | readFrame c =>
    dsimp only at hc
    dsimp only [coStep, readFrameStep]
    cases hp : c.pc with
    | readMask =>
      rw [hp] at hc
      refine readStep_more ?_ (of_decide_eq_true hc) hs hr more tail
      intro g w i
      split <;> rfl
    | onBbRead => rw [hp] at hc; cases hc
    | onLenRead => rw [hp] at hc; cases hc
    | _ =>
      rw [hp] at hc
      exact readStep_more (fun _ _ _ => rfl) (of_decide_eq_true hc) hs hr more tail
  | readPayload c =>
    dsimp only at hc
    dsimp only [coStep]
    unfold readPayloadStep
    cases hp : c.pc with
    | readData =>
      rw [hp] at hc
      have hw : ¬ c.want ≤ 0 := by have := of_decide_eq_true hc; omega
      obtain ⟨o', ho⟩ := lowRead_more (o := o) (bytes := w.st.inp.bytes) (n := c.want.toNat) (by omega) hr more
      refine ⟨[o'], ?_⟩
      dsimp only
      rw [if_neg hw, if_neg hw, hs]
      have e1 : (w.setInp ⟨w.st.inp.bytes ++ more, [o'] ++ tail⟩).st.inp = ⟨w.st.inp.bytes ++ more, o' :: tail⟩ := rfl
      rw [e1]
      dsimp only
      rw [ho]
      rcases lowRead o w.st.inp.bytes c.want.toNat with ⟨_ | _ | _ | _, bs⟩
      · dsimp only
        split <;> rfl
      · rfl
      · rfl
      · rfl
    | act => rw [hp] at hc; cases hc
    | onDataRead => rw [hp] at hc; cases hc
    | done => rw [hp] at hc; cases hc
  | listen => cases hc
  | handleFrame c => cases hc
  | user c => cases hc
  | sendFrame c => cases hc
  | writeFrame c => cases hc

theorem coStep_reads_nil {env : Env} {c : Co} {rest : List Co} {l : Local} {w : World} (hc : Task.reads ⟨c :: rest, l⟩ = true) (hs : w.st.inp.sched = []) :
    (coStep env c l w).1 = .blocked := by
  unfold Task.reads at hc
  cases c with
  | readFrame c =>
    dsimp only at hc
    dsimp only [coStep, readFrameStep]
    cases hp : c.pc with
    | onBbRead => rw [hp] at hc; cases hc
    | onLenRead => rw [hp] at hc; cases hc
    | _ =>
      rw [hp] at hc
      have : ¬ c.need ≤ c.got.length := by have := of_decide_eq_true hc; omega
      dsimp only [readStep, readInline]
      rw [if_neg this, hs]
  | readPayload c =>
    dsimp only at hc
    dsimp only [coStep]
    unfold readPayloadStep
    cases hp : c.pc with
    | readData =>
      rw [hp] at hc
      have hw : ¬ c.want ≤ 0 := by have := of_decide_eq_true hc; omega
      dsimp only
      rw [if_neg hw, hs]
    | act => rw [hp] at hc; cases hc
    | onDataRead => rw [hp] at hc; cases hc
    | done => rw [hp] at hc; cases hc
  | listen => cases hc
  | handleFrame c => cases hc
  | user c => cases hc
  | sendFrame c => cases hc
  | writeFrame c => cases hc

/-- A step goes the same way with more bytes in the input, for a suitable behaviour of the transport. -/
theorem step_more {env : Env} {t : Task} {w w' : World} {o : Outcome} (h : step env t w = (o, w')) (ho : o ≠ .blocked) (hr : t.ready w = true) (more : List UInt8)
    (tail : List IoOutcome) :
    ∃ used, step env t (w.setInp ⟨w.st.inp.bytes ++ more, used ++ tail⟩) = (o, w'.setInp ⟨w'.st.inp.bytes ++ more, tail⟩) := by
  rcases t with ⟨_ | ⟨c, rest⟩, l⟩
  · refine ⟨[], ?_⟩
    injection h with h1 h2
    subst h1 h2
    rfl
  · rw [step_cons] at h
    have h1 : (after c rest (coStep env c l w)).1 = o := by rw [h]
    have h2 : (after c rest (coStep env c l w)).2 = w' := by rw [h]
    have h3 := after_inp c rest (coStep env c l w)
    rw [h2] at h3
    cases hc : Task.reads ⟨c :: rest, l⟩ with
    | false =>
      refine ⟨[], ?_⟩
      rw [step_cons, coStep_setInp env c rest l w _ hc, after_setInp, h1, h2, h3, coStep_inp env c rest l w hc]
      rfl
    | true =>
      cases hs : w.st.inp.sched with
      | nil =>
        have hb := coStep_reads_nil (env := env) hc hs
        rcases hx : coStep env c l w with ⟨a, l', w''⟩
        rw [hx] at hb h1
        dsimp only at hb
        subst hb
        exact absurd h1.symm ho
      | cons oc sched =>
        have hr' : ∀ m, oc = .upTo m → w.st.inp.bytes ≠ [] := by
          intro m hm
          unfold Task.ready at hr
          rw [hc, hs, hm] at hr
          simpa using hr
        obtain ⟨used, hu⟩ := coStep_more (env := env) hc hs hr' more tail
        refine ⟨used, ?_⟩
        rw [step_cons, hu, after_setInp, h1, h2, h3]

theorem completes_setInp (env : Env) (t : Task) (w : World) (i : InStream) : t.completes env (w.setInp i) = t.completes env w := by
  rcases t with ⟨_ | ⟨c, rest⟩, l⟩
  · rfl
  · cases c with
    | sendFrame c =>
      unfold Task.completes
      dsimp only
      rw [coStep_setInp env (.sendFrame c) rest l w i rfl]
      rcases coStep env (.sendFrame c) l w with ⟨_ | _ | _ | _ | _ | _, x⟩ <;> rfl
    | _ => rfl

theorem fails_setInp (env : Env) (t : Task) (w : World) (i : InStream) : t.fails env (w.setInp i) = t.fails env w := by
  rcases t with ⟨_ | ⟨c, rest⟩, l⟩
  · rfl
  · cases c with
    | sendFrame c =>
      unfold Task.fails
      dsimp only
      rw [coStep_setInp env (.sendFrame c) rest l w i rfl]
      rcases coStep env (.sendFrame c) l w with ⟨_ | _ | _ | _ | _ | _, x⟩ <;> rfl
    | writeFrame c =>
      unfold Task.fails
      dsimp only
      rw [coStep_setInp env (.writeFrame c) rest l w i rfl]
      rcases coStep env (.writeFrame c) l w with ⟨_ | _ | _ | _ | _ | _, x⟩ <;> rfl
    | _ => rfl

theorem entryOf_setInp (env : Env) (k : Nat) (t : Task) (w w' : World) (bs : List UInt8) (i i' : InStream) :
    entryOf env k t (w.setInp i) (w'.setInp i') bs = entryOf env k t w w' bs := by
  unfold entryOf
  rw [completes_setInp, fails_setInp]
  rfl

/-- Steps of one endpoint, while bytes arrive. -/
inductive Fed (env : Env) (p : Pool) : List Entry → List UInt8 → Pool → Prop
  | refl : Fed env p [] [] p
  | own {log fed} {q : Pool} {i t o w' bs} : Fed env p log fed q → q.tasks[i]? = some (.run t) → t.ready q.world = true → step env t q.world = (o, w') → o ≠ .blocked →
      w'.st.sock.out.written = q.world.st.sock.out.written ++ bs → Fed env p (log ++ [entryOf env i t q.world w' bs]) fed ⟨q.tasks.set i o, w'⟩
  | feed {log fed q} (bs : List UInt8) : Fed env p log fed q → Fed env p log (fed ++ bs) (q.receive bs)

/-- The same state with other input. -/
def withInp (p : Pool) (bytes : List UInt8) (sched : List IoOutcome) : Pool := ⟨p.tasks, p.world.setInp ⟨bytes, sched⟩⟩

/-- All bytes there from the beginning, `more` of which is never read. -/
theorem Fed.logged {env : Env} {p q : Pool} {log fed} (h : Fed env p log fed q) (more : List UInt8) (tail : List IoOutcome) :
    ∃ used, Pool.Logged env (withInp p (p.world.st.inp.bytes ++ fed ++ more) (used ++ tail)) log (withInp q (q.world.st.inp.bytes ++ more) tail) := by
  induction h generalizing more tail with
  | refl => exact ⟨[], by rw [List.append_nil]; exact .refl⟩
  | @own log fed q i t o w' bs hf h1 h2 h3 h4 h5 ih =>
    obtain ⟨u, hu⟩ := step_more h3 h4 h2 more tail
    obtain ⟨used, hl⟩ := ih more (u ++ tail)
    refine ⟨used ++ u, ?_⟩
    rw [show (used ++ u) ++ tail = used ++ (u ++ tail) from List.append_assoc ..]
    have := Pool.Logged.tail (i := i) (t := t) (bs := bs) hl h1 hu h4 h5
    have e := entryOf_setInp env i t q.world w' bs ⟨q.world.st.inp.bytes ++ more, u ++ tail⟩ ⟨w'.st.inp.bytes ++ more, tail⟩
    rw [← e]
    exact this
  | @feed log fed q bs _ ih =>
    obtain ⟨used, hl⟩ := ih (bs ++ more) tail
    refine ⟨used, ?_⟩
    have e1 : p.world.st.inp.bytes ++ (fed ++ bs) ++ more = p.world.st.inp.bytes ++ fed ++ (bs ++ more) := by simp
    have e2 : withInp (q.receive bs) ((q.receive bs).world.st.inp.bytes ++ more) tail = withInp q (q.world.st.inp.bytes ++ (bs ++ more)) tail := by
      show withInp q (q.world.st.inp.bytes ++ bs ++ more) tail = _
      rw [List.append_assoc]
    rw [e1, e2]
    exact hl

end OatWS.Async
