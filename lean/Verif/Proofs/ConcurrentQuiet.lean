import Verif.Proofs.Concurrent
/-! Steps outside sends write nothing; the first step of a send. -/

namespace OatWS.Async
open RFC6455

/-- What a function of a coroutine that is not part of a send returns: it starts no send, writes nothing. -/
def QuietAct : Act → Prop
  | .goto c => QuietCo c
  | .call cs c => Quiet cs ∧ QuietCo c
  | _ => True

def QuietRes (w : World) (r : Act × Local × World) : Prop := QuietAct r.1 ∧ wr r.2.2 = wr w

theorem quiet_readStep (need got l) (w : World) (again : List UInt8 → Co) (cont : List UInt8 → World → Act × Local × World)
    (ha : ∀ g, QuietCo (again g)) (hc : ∀ g i, QuietRes w (cont g (w.setInp i))) : QuietRes w (readStep need got l w again cont) := by
  unfold readStep
  split
  · exact ⟨ha _, rfl⟩
  · exact hc _ _
  · exact ⟨trivial, rfl⟩
  · exact ⟨trivial, rfl⟩

theorem quiet_readFrame (env c l w) : QuietRes w (readFrameStep env c l w) := by
  unfold readFrameStep
  split
  · exact quiet_readStep _ _ _ _ _ _ (fun _ => quietCo_readFrame _) (fun _ _ => ⟨quietCo_readFrame _, rfl⟩)
  · split
    · simp only []
      split
      · exact ⟨quietCo_readFrame _, rfl⟩
      · split <;> exact ⟨quietCo_readFrame _, rfl⟩
    · exact ⟨trivial, rfl⟩
  · exact quiet_readStep _ _ _ _ _ _ (fun _ => quietCo_readFrame _) (fun _ _ => ⟨quietCo_readFrame _, rfl⟩)
  · simp only []
    split
    · exact ⟨quietCo_readFrame _, rfl⟩
    · exact ⟨trivial, rfl⟩
  · refine quiet_readStep _ _ _ _ _ _ (fun _ => quietCo_readFrame _) (fun _ _ => ?_)
    split <;> exact ⟨trivial, rfl⟩

theorem quiet_one {c} (h : QuietCo c) : Quiet [c] := by
  intro co hc
  rw [List.mem_singleton] at hc
  rw [hc]; exact h

theorem quiet_startPayload (c short pc l w) : QuietRes w (startPayload c short pc l w) := by
  unfold startPayload readPayloadAsync
  split
  · rename_i e
    split at e
    · cases e
    · split at e
      · cases e
      · cases e
        exact ⟨⟨quiet_one (quietCo_readPayload _), quietCo_handleFrame _⟩, rfl⟩
  · exact ⟨trivial, rfl⟩

theorem quiet_startData (c l w) : QuietRes w (startData c l w) := by
  unfold startData checkForContinuationA
  split
  · rename_i e
    have := quiet_startPayload c false .done l (w.setSock ‹_›)
    refine ⟨this.1, this.2.trans ?_⟩
    split at e
    · cases e
    · split at e <;> cases e <;> rfl
  · rename_i e
    refine ⟨trivial, ?_⟩
    split at e
    · cases e; rfl
    · split at e <;> cases e

theorem quiet_control (env c mk l w) : QuietRes w (controlCallback env c mk l w) := by
  unfold controlCallback
  split
  · exact ⟨⟨quiet_one (quietCo_user _), quietCo_handleFrame _⟩, rfl⟩
  · exact ⟨trivial, rfl⟩

theorem quiet_handleFrame (env c l w) : QuietRes w (handleFrameStep env c l w) := by
  unfold handleFrameStep
  split
  · split
    · split
      · exact ⟨trivial, rfl⟩
      · exact quiet_startPayload ..
    · split
      · exact quiet_startData ..
      · split
        · exact quiet_startData ..
        · split
          · exact quiet_startPayload ..
          · split
            · exact quiet_startPayload ..
            · split
              · exact quiet_startPayload ..
              · exact ⟨trivial, rfl⟩
  · exact quiet_control ..
  · exact quiet_control ..
  · exact quiet_control ..
  · exact ⟨trivial, rfl⟩

theorem quiet_readPayload (env c l w) : QuietRes w (readPayloadStep env c l w) := by
  unfold readPayloadStep
  split
  · split
    · exact ⟨quietCo_readPayload _, rfl⟩
    · split
      · split
        · exact ⟨⟨quiet_one (quietCo_user _), quietCo_readPayload _⟩, rfl⟩
        · exact ⟨trivial, rfl⟩
      · exact ⟨trivial, rfl⟩
  · split
    · exact ⟨quietCo_readPayload _, rfl⟩
    · split
      · exact ⟨trivial, rfl⟩
      · split
        · split
          · exact ⟨trivial, rfl⟩
          · exact ⟨quietCo_readPayload _, rfl⟩
        · exact ⟨quietCo_readPayload _, rfl⟩
        · exact ⟨quietCo_readPayload _, rfl⟩
        · exact ⟨trivial, rfl⟩
  · split
    · simp only []
      split
      · split
        · exact ⟨quietCo_readPayload _, rfl⟩
        · split
          · exact ⟨⟨quiet_one (quietCo_user _), quietCo_readPayload _⟩, rfl⟩
          · exact ⟨quietCo_readPayload _, rfl⟩
      · split
        · exact ⟨quietCo_readPayload _, rfl⟩
        · split
          · exact ⟨⟨quiet_one (quietCo_user _), quietCo_readPayload _⟩, rfl⟩
          · exact ⟨quietCo_readPayload _, rfl⟩
    · exact ⟨trivial, rfl⟩
  · exact ⟨trivial, rfl⟩

theorem destroy_out (c : Co) (w : World) : wr (destroy c w) = wr w := by
  cases c <;> rfl

/-- From the result of the function to the result of the step. -/
theorem quiet_step_of (env : Env) (c : Co) (rest : List Co) (hq : Quiet rest) (l : Local) (w : World) (hr : QuietRes w (coStep env c l w)) :
    (step env ⟨c :: rest, l⟩ w).1.quiet ∧ wr (step env ⟨c :: rest, l⟩ w).2 = wr w := by
  rw [step_eq]
  revert hr
  rcases coStep env c l w with ⟨a, l', w'⟩
  rintro ⟨h1, h2⟩
  cases a with
  | goto c' =>
    refine ⟨?_, h2⟩
    intro co hc
    rcases List.mem_cons.mp hc with rfl | hc
    · exact h1
    · exact hq co hc
  | call cs c' =>
    refine ⟨?_, h2⟩
    intro co hc
    rcases List.mem_append.mp hc with hc | hc
    · exact h1.1 co hc
    · rcases List.mem_cons.mp hc with rfl | hc
      · exact h1.2
      · exact hq co hc
  | finish =>
    cases rest with
    | nil => exact ⟨trivial, (destroy_out ..).trans h2⟩
    | cons r rest => exact ⟨hq, (destroy_out ..).trans h2⟩
  | error e =>
    have := unwind_quiet e rest l' (destroy c w') hq
    exact ⟨this.1, this.2.trans ((destroy_out ..).trans h2)⟩
  | blocked => exact ⟨trivial, h2⟩
  | ub u => exact ⟨trivial, h2⟩

/-- A step of a task that is not in the middle of a send: it writes nothing; it may begin a send. -/
theorem quiet_step (env : Env) (t : Task) (hq : Quiet t.stack) (w : World) (o w') (he : step env t w = (o, w')) :
    wr w' = wr w ∧ t.completes env w = false ∧ t.fails env w = false ∧
    ((t.calls = none ∧ o.quiet) ∨ ∃ c rest l, t.calls = some c ∧ o = .run ⟨sendAsync env c :: rest, l⟩ ∧ Quiet rest) := by
  rcases t with ⟨st, l⟩
  cases st with
  | nil =>
    have he : (Outcome.finished, w) = (o, w') := he
    cases he
    exact ⟨rfl, rfl, rfl, .inl ⟨rfl, trivial⟩⟩
  | cons c rest =>
    have hq' : Quiet rest := fun co h => hq co (List.mem_cons_of_mem _ h)
    have gen : QuietRes w (coStep env c l w) → o.quiet ∧ wr w' = wr w := by
      intro hr
      have := quiet_step_of env c rest hq' l w hr
      rw [he] at this
      exact this
    cases c with
    | sendFrame c => exact absurd rfl ((hq _ (by simp)).1 c)
    | writeFrame c => exact absurd rfl ((hq _ (by simp)).2 c)
    | listen =>
      obtain ⟨h1, h2⟩ := gen (by
        show QuietRes w (listenStep l w)
        unfold listenStep
        split
        · refine ⟨⟨?_, quietCo_listen⟩, rfl⟩
          intro co hc
          simp only [List.mem_cons, List.not_mem_nil, or_false] at hc
          rcases hc with rfl | rfl
          · exact quietCo_readFrame _
          · exact quietCo_handleFrame _
        · exact ⟨trivial, rfl⟩)
      exact ⟨h2, rfl, rfl, .inl ⟨rfl, h1⟩⟩
    | readFrame c =>
      obtain ⟨h1, h2⟩ := gen (quiet_readFrame env c l w)
      exact ⟨h2, rfl, rfl, .inl ⟨rfl, h1⟩⟩
    | handleFrame c =>
      obtain ⟨h1, h2⟩ := gen (quiet_handleFrame env c l w)
      exact ⟨h2, rfl, rfl, .inl ⟨rfl, h1⟩⟩
    | readPayload c =>
      obtain ⟨h1, h2⟩ := gen (quiet_readPayload env c l w)
      exact ⟨h2, rfl, rfl, .inl ⟨rfl, h1⟩⟩
    | user u =>
      rcases u with ⟨ops, ca, ptr, data, self⟩
      match ops with
      | [] =>
        obtain ⟨h1, h2⟩ := gen ⟨trivial, rfl⟩
        exact ⟨h2, rfl, rfl, .inl ⟨rfl, h1⟩⟩
      | .stopListening :: ops =>
        obtain ⟨h1, h2⟩ := gen ⟨quietCo_user _, rfl⟩
        exact ⟨h2, rfl, rfl, .inl ⟨rfl, h1⟩⟩
      | .setListener l' :: ops =>
        obtain ⟨h1, h2⟩ := gen ⟨quietCo_user _, rfl⟩
        exact ⟨h2, rfl, rfl, .inl ⟨rfl, h1⟩⟩
      | .setConfig l' :: ops =>
        obtain ⟨h1, h2⟩ := gen ⟨quietCo_user _, rfl⟩
        exact ⟨h2, rfl, rfl, .inl ⟨rfl, h1⟩⟩
      | .throw :: ops =>
        obtain ⟨h1, h2⟩ := gen ⟨trivial, rfl⟩
        exact ⟨h2, rfl, rfl, .inl ⟨rfl, h1⟩⟩
      | .send c b :: ops =>
        have he : (Outcome.run ⟨sendAsync env c :: .user ⟨ops, b, ptr, data, self⟩ :: rest, l⟩, w) = (o, w') := he
        cases he
        refine ⟨rfl, rfl, rfl, .inr ⟨c, _, l, rfl, rfl, ?_⟩⟩
        intro co hc
        rcases List.mem_cons.mp hc with rfl | hc
        · exact quietCo_user _
        · exact hq' co hc

theorem sendAsync_is (env : Env) (c : SendCall) : ∃ m, sendAsync env c = sendOneFrameAsync c.content.1 c.content.2.1 m ∧
    m.getD [] = c.content.2.2 := by
  cases c with
  | close code m => exact ⟨_, rfl, close_payload env code m⟩
  | _ => exact ⟨_, rfl, rfl⟩

theorem sendFrameHeaderAsync_is (env : Env) (fin op n) (w : World) : ∃ w', sendFrameHeaderAsync env default fin op n w =
    (filledHeader env w.st.sock fin op n, newWriteFrame env (filledHeader env w.st.sock fin op n), w') ∧
    w'.st.sock.out = w.st.sock.out ∧
    w'.st.sock.rngPos = if w.st.sock.config.maskOutgoingMessages then w.st.sock.rngPos + 4 else w.st.sock.rngPos := by
  unfold sendFrameHeaderAsync filledHeader
  cases w.st.sock.config.maskOutgoingMessages
  · exact ⟨w, rfl, rfl, rfl⟩
  · exact ⟨_, rfl, rfl, rfl⟩

/-- The first step of a send. -/
theorem first_step (env : Env) (fin op) (m : Option (List UInt8)) (rest : List Co) (l : Local) (w : World) :
    ∃ w' , step env ⟨sendOneFrameAsync fin op m :: rest, l⟩ w =
      (.run ⟨wf .act (filledHeader env w.st.sock fin op (m.getD []).length) (bbBytes env (filledHeader env w.st.sock fin op (m.getD []).length)) ::
        sf fin op m (filledHeader env w.st.sock fin op (m.getD []).length) (nextPc m) [] :: rest, l⟩, w') ∧
      w'.st.sock.out = w.st.sock.out ∧
      w'.st.sock.rngPos = if w.st.sock.config.maskOutgoingMessages then w.st.sock.rngPos + 4 else w.st.sock.rngPos := by
  obtain ⟨w', e, h⟩ := sendFrameHeaderAsync_is env fin op (m.getD []).length w
  refine ⟨w', ?_, h⟩
  rw [step_eq]
  match m with
  | none =>
    have e : sendFrameHeaderAsync env default fin op 0 w = _ := e
    simp only [sendOneFrameAsync, coStep, sendFrameStep, e]; rfl
  | some [] =>
    have e : sendFrameHeaderAsync env default fin op 0 w = _ := e
    simp only [sendOneFrameAsync, coStep, sendFrameStep, e]; rfl
  | some (b :: bs) =>
    have e : sendFrameHeaderAsync env default fin op (b :: bs).length w = _ := e
    simp only [sendOneFrameAsync, coStep, sendFrameStep, e]; rfl

end OatWS.Async
