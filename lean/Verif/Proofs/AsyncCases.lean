import Verif.Proofs.AsyncListenData
/-! What each coroutine of a listening task can do in one step. -/

namespace OatWS.Async

theorem readStep_cases (need got l w again) (cont : List UInt8 → World → Act × Local × World) :
    ∃ i, (∃ g, readStep need got l w again cont = (.goto (again g), l, w.setInp i)) ∨
      (∃ g, readStep need got l w again cont = cont g (w.setInp i)) ∨
      readStep need got l w again cont = (.error .io, l, w.setInp i) ∨ readStep need got l w again cont = (.blocked, l, w.setInp i) := by
  unfold readStep
  rcases readInline need got w.st.inp with ⟨(g | g | _ | _), i⟩
  · exact ⟨i, .inl ⟨g, rfl⟩⟩
  · exact ⟨i, .inr (.inl ⟨g, rfl⟩)⟩
  · exact ⟨i, .inr (.inr (.inl rfl))⟩
  · exact ⟨i, .inr (.inr (.inr rfl))⟩

/-- A step of the coroutine that reads a header. -/
theorem readFrame_cases (env : Env) (c : ReadFrameCo) (l : Local) (w : World) : ∃ i l' a, coStep env (.readFrame c) l w = (a, l', w.setInp i) ∧
    ((∃ c', a = .goto (.readFrame c')) ∨ a = .finish ∨ a = .error .io ∨ a = .blocked) := by
  have hself : w = w.setInp w.st.inp := rfl
  have hr : ∀ need got again, (∀ g, ∃ c', again g = .readFrame c') → ∀ cont : List UInt8 → World → Act × Local × World,
      (∀ g w', ∃ l' a, cont g w' = (a, l', w') ∧ ((∃ c', a = .goto (.readFrame c')) ∨ a = .finish ∨ a = .error .io ∨ a = .blocked)) →
      ∃ i l' a, readStep need got l w again cont = (a, l', w.setInp i) ∧
        ((∃ c', a = .goto (.readFrame c')) ∨ a = .finish ∨ a = .error .io ∨ a = .blocked) := by
    intro need got again ha cont hc
    obtain ⟨i, ⟨g, e⟩ | ⟨g, e⟩ | e | e⟩ := readStep_cases need got l w again cont
    · obtain ⟨c', e'⟩ := ha g
      exact ⟨i, l, _, e, .inl ⟨c', by rw [e']⟩⟩
    · obtain ⟨l', a, e', h⟩ := hc g (w.setInp i)
      exact ⟨i, l', a, e.trans e', h⟩
    · exact ⟨i, l, _, e, .inr (.inr (.inl rfl))⟩
    · exact ⟨i, l, _, e, .inr (.inr (.inr rfl))⟩
  simp only [coStep, readFrameStep]
  split
  · exact hr _ _ _ (fun g => ⟨_, rfl⟩) _ (fun g w' => ⟨_, _, rfl, .inl ⟨_, rfl⟩⟩)
  · split
    · split
      · exact ⟨w.st.inp, _, _, rfl, .inl ⟨_, rfl⟩⟩
      · split <;> exact ⟨w.st.inp, _, _, rfl, .inl ⟨_, rfl⟩⟩
    · exact ⟨w.st.inp, _, _, rfl, .inr (.inr (.inl rfl))⟩
  · exact hr _ _ _ (fun g => ⟨_, rfl⟩) _ (fun g w' => ⟨_, _, rfl, .inl ⟨_, rfl⟩⟩)
  · split
    · exact ⟨w.st.inp, _, _, rfl, .inl ⟨_, rfl⟩⟩
    · exact ⟨w.st.inp, _, _, rfl, .inr (.inl rfl)⟩
  · refine hr _ _ _ (fun g => ⟨_, rfl⟩) _ (fun g w' => ?_)
    split
    · exact ⟨_, _, rfl, .inr (.inl rfl)⟩
    · exact ⟨_, _, rfl, .inr (.inr (.inl rfl))⟩

/-- Starting the payload. -/
theorem startPayload_cases (hl short pc) (l : Local) (w : World) : (∃ p w', startPayload ⟨.act, hl⟩ short pc l w = (.call [.readPayload p] (.handleFrame ⟨pc, hl⟩), l, w') ∧
      p.listener = w.st.sock.listener ∧ p.pc = .act ∧ p.buf = w.nextBuf ∧ w' = (w.alloc []).2) ∨ ∃ e, startPayload ⟨.act, hl⟩ short pc l w = (.error e, l, w) := by
  unfold startPayload readPayloadAsync
  split
  · rename_i co w' h
    split at h
    · cases h
    · split at h
      · cases h
      · injection h with h
        injection h with h1 h2
        subst h1
        exact .inl ⟨_, _, rfl, rfl, rfl, rfl, h2.symm⟩
  · exact .inr ⟨_, rfl⟩

/-- A payload coroutine was started: a buffer was allocated. -/
def Started (w : World) (p : ReadPayloadCo) (w' : World) : Prop :=
  p.pc = .act ∧ p.buf = w.nextBuf ∧ ∃ s : Sock, s.trace = w.st.sock.trace ∧ w' = ((w.setSock s).alloc []).2

/-- `HandleFrameCoroutine::act`. -/
theorem handleAct_cases (env hl) (l : Local) (w : World) : ∃ l', (∃ p pc w', coStep env (.handleFrame ⟨.act, hl⟩) l w = (.call [.readPayload p] (.handleFrame ⟨pc, hl⟩), l', w') ∧
      pc ≠ .act ∧ p.listener = w.st.sock.listener ∧ Started w p w') ∨
      ∃ e s, coStep env (.handleFrame ⟨.act, hl⟩) l w = (.error e, l', w.setSock s) ∧ s.trace = w.st.sock.trace := by
  have hp' : ∀ short pc (l' : Local) (s : Sock), pc ≠ .act → s.listener = w.st.sock.listener → s.trace = w.st.sock.trace →
      ∃ l2, (∃ p pc' w', startPayload ⟨.act, hl⟩ short pc l' (w.setSock s) = (.call [.readPayload p] (.handleFrame ⟨pc', hl⟩), l2, w') ∧
        pc' ≠ .act ∧ p.listener = w.st.sock.listener ∧ Started w p w') ∨
      ∃ e s', startPayload ⟨.act, hl⟩ short pc l' (w.setSock s) = (.error e, l2, w.setSock s') ∧ s'.trace = w.st.sock.trace := by
    intro short pc l' s hpc h1 h2
    refine ⟨l', ?_⟩
    rcases startPayload_cases hl short pc l' (w.setSock s) with ⟨p, w', e, e2, e3, e4, e5⟩ | ⟨e, h⟩
    · exact .inl ⟨p, pc, w', e, hpc, e2.trans h1, e3, e4, s, h2, e5⟩
    · exact .inr ⟨e, s, h, h2⟩
  have hself : w.setSock w.st.sock = w := rfl
  have hd : ∃ l2, (∃ p pc' w', startData ⟨.act, hl⟩ l w = (.call [.readPayload p] (.handleFrame ⟨pc', hl⟩), l2, w') ∧
        pc' ≠ .act ∧ p.listener = w.st.sock.listener ∧ Started w p w') ∨
      ∃ e s', startData ⟨.act, hl⟩ l w = (.error e, l2, w.setSock s') ∧ s'.trace = w.st.sock.trace := by
    unfold startData checkForContinuationA
    split
    · rename_i s h
      split at h
      · cases h
      · split at h <;> (injection h with _ h; subst h; exact hp' _ _ _ _ (by nofun) rfl rfl)
    · rename_i s h
      split at h
      · injection h with _ h; subst h; exact ⟨_, .inr ⟨_, _, rfl, rfl⟩⟩
      · split at h <;> cases h
  simp only [coStep, handleFrameStep]
  split
  · split
    · exact ⟨_, .inr ⟨_, w.st.sock, rfl, rfl⟩⟩
    · exact hp' _ _ _ w.st.sock (by nofun) rfl rfl
  · split
    · exact hd
    · split
      · exact hd
      · split
        · exact hp' _ _ _ w.st.sock (by nofun) rfl rfl
        · split
          · exact hp' _ _ _ w.st.sock (by nofun) rfl rfl
          · split
            · exact hp' _ _ _ w.st.sock (by nofun) rfl rfl
            · exact ⟨_, .inr ⟨_, w.st.sock, rfl, rfl⟩⟩

/-- Later functions of `HandleFrameCoroutine`. -/
theorem handleRest_cases (env hl pc) (l : Local) (w : World) (hpc : pc ≠ .act) :
    (∃ pc' u w' ev to, coStep env (.handleFrame ⟨pc, hl⟩) l w = (.call [.user u] (.handleFrame ⟨pc', hl⟩), l, w') ∧
      pc' ≠ .act ∧ hl = some to ∧ ev.listener = to ∧ ev.isMessage = false ∧ (.user u, w') = callback env ev none [] w) ∨
      coStep env (.handleFrame ⟨pc, hl⟩) l w = (.finish, l, w) := by
  have hc : ∀ mk : Nat → Event, (∀ t, (mk t).listener = t ∧ (mk t).isMessage = false) →
      (∃ pc' u w' ev to, controlCallback env ⟨pc, hl⟩ mk l w = (.call [.user u] (.handleFrame ⟨pc', hl⟩), l, w') ∧
      pc' ≠ .act ∧ hl = some to ∧ ev.listener = to ∧ ev.isMessage = false ∧ (.user u, w') = callback env ev none [] w) ∨
      controlCallback env ⟨pc, hl⟩ mk l w = (.finish, l, w) := by
    intro mk h
    unfold controlCallback
    cases hl with
    | none => exact .inr rfl
    | some to => exact .inl ⟨.done, _, _, mk to, to, rfl, by nofun, rfl, (h to).1, (h to).2, rfl⟩
  cases pc with
  | act => exact absurd rfl hpc
  | onClose => exact hc _ (fun t => ⟨rfl, rfl⟩)
  | onPing => exact hc _ (fun t => ⟨rfl, rfl⟩)
  | onPong => exact hc _ (fun t => ⟨rfl, rfl⟩)
  | done => exact .inr rfl

/-- `ReadPayloadCoroutine`. -/
theorem payload_cases (env) (p : ReadPayloadCo) (l : Local) (w : World) : ∃ a l' w', coStep env (.readPayload p) l w = (a, l', w') ∧
    ((∃ p' u to op d, a = .call [.user u] (.readPayload p') ∧ p'.listener = p.listener ∧ p.listener = some to ∧
        w'.st.sock.trace = w.st.sock.trace ++ [.readMessage to op d]) ∨
      (w'.st.sock.trace = w.st.sock.trace ∧ ((∃ p', a = .goto (.readPayload p') ∧ p'.listener = p.listener) ∨ a = .finish ∨ (∃ e, a = .error e) ∨
        a = .blocked ∨ ∃ u, a = .ub u))) := by
  simp only [coStep, readPayloadStep]
  split
  · split
    · exact ⟨_, _, _, rfl, .inr ⟨rfl, .inl ⟨_, rfl, rfl⟩⟩⟩
    · split
      · rename_i to hto
        split
        · exact ⟨_, _, _, rfl, .inl ⟨_, _, to, _, _, rfl, rfl, hto, rfl⟩⟩
        · exact ⟨_, _, _, rfl, .inr ⟨rfl, .inr (.inl rfl)⟩⟩
      · exact ⟨_, _, _, rfl, .inr ⟨rfl, .inr (.inl rfl)⟩⟩
  · split
    · exact ⟨_, _, _, rfl, .inr ⟨rfl, .inl ⟨_, rfl, rfl⟩⟩⟩
    · split
      · exact ⟨_, _, _, rfl, .inr ⟨rfl, .inr (.inr (.inr (.inl rfl)))⟩⟩
      · split
        · split
          · exact ⟨_, _, _, rfl, .inr ⟨rfl, .inr (.inr (.inr (.inr ⟨_, rfl⟩)))⟩⟩
          · exact ⟨_, _, _, rfl, .inr ⟨rfl, .inl ⟨_, rfl, rfl⟩⟩⟩
        · exact ⟨_, _, _, rfl, .inr ⟨rfl, .inl ⟨_, rfl, rfl⟩⟩⟩
        · exact ⟨_, _, _, rfl, .inr ⟨rfl, .inl ⟨_, rfl, rfl⟩⟩⟩
        · exact ⟨_, _, _, rfl, .inr ⟨rfl, .inr (.inr (.inl ⟨_, rfl⟩))⟩⟩
  · split
    · split
      · split
        · exact ⟨_, _, _, rfl, .inr ⟨rfl, .inl ⟨_, rfl, rfl⟩⟩⟩
        · split
          · rename_i to hto
            exact ⟨_, _, _, rfl, .inl ⟨_, _, to, _, _, rfl, rfl, hto, rfl⟩⟩
          · exact ⟨_, _, _, rfl, .inr ⟨rfl, .inl ⟨_, rfl, rfl⟩⟩⟩
      · split
        · exact ⟨_, _, _, rfl, .inr ⟨rfl, .inl ⟨_, rfl, rfl⟩⟩⟩
        · split
          · rename_i to hto
            exact ⟨_, _, _, rfl, .inl ⟨_, _, to, _, _, rfl, rfl, hto, rfl⟩⟩
          · exact ⟨_, _, _, rfl, .inr ⟨rfl, .inl ⟨_, rfl, rfl⟩⟩⟩
    · exact ⟨_, _, _, rfl, .inr ⟨rfl, .inr (.inr (.inl ⟨_, rfl⟩))⟩⟩
  · exact ⟨_, _, _, rfl, .inr ⟨rfl, .inr (.inl rfl)⟩⟩

end OatWS.Async
