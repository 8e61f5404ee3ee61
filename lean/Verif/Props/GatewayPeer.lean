import Verif.Props.GatewayWrites
import Verif.Props.EndToEnd
/-! # C97: what the peer hears of a thread whose reads are nested in callbacks -/

namespace OatWS
open RFC6455

/-- The receiver of C24, for bytes that are the frames of calls. -/
theorem calls_heard (envS : Env) (m : Bool) (pos : Nat) (cs last : List SendCall) (hcs : ∀ c ∈ cs, c.isMessage) (hlast : last = [] ∨ ∃ c, last = [c] ∧ c.isClose) (hlen : ∀ c ∈ cs ++ last, c.content.2.2.length < 2 ^ 63)
    (envR : Env) (h : Header) (st : St) (l B : Nat) (hU : Undisturbed envR st l B false) (hw : st.inp.bytes = wireOf (framesFrom envS m pos (cs ++ last))) :
    ∃ evs st', listen envR h st = (.ret (), st') ∧ st'.sock.trace = st.sock.trace ++ evs ∧ (∀ e ∈ evs, e.to = l) ∧ reassemble [] evs = ((cs ++ last).map SendCall.msg, []) ∧ st'.inp.bytes = [] := by
  obtain ⟨a1, a2, a3⟩ := framesFrom_accepted envS m cs hcs (fun c hc => hlen c (by simp [hc])) pos
  rcases hlast with rfl | ⟨c, rfl, hc⟩
  · rw [List.append_nil] at hw ⊢
    obtain ⟨evs, st', e, htr, hf, hbytes⟩ := C08_C09_frames_heard envR h st l B false false hU _ a1 hw
    refine ⟨evs, st', e, htr, events_to hf, ?_, hbytes⟩
    have := reassemble_frames a1 a2 hf []
    rw [List.append_nil] at this
    rw [this, a3]; simp [reassemble]
  · rw [framesFrom_append] at hw
    obtain ⟨code, reason, hmsg, h8, h125, hdrop, hcode⟩ := close_args envS m (pos + 4 * cs.length) c hc
    have hv := callFrame_valid envS m (pos + 4 * cs.length) c (hlen c (by simp))
    obtain ⟨evs, code', st', _, e, hf, htr, hbytes, hcode'⟩ := C16_close_ends_listening envR h st l B false false hU _ a1 _ hv h8 h125 []
      (by rw [hw, wireOf_append, List.append_nil]; exact congrArg (_ ++ ·) (wireOf_one _))
    rw [hcode] at hcode'
    have : code' = code := UInt16.toNat_inj.mp hcode'
    subst this
    refine ⟨_, st', e, htr, ?_, ?_, hbytes⟩
    · intro e he
      rcases List.mem_append.mp he with he | he
      · exact events_to hf e he
      · simp at he; rw [he]; rfl
    · rw [reassemble_frames a1 a2 hf, a3, hdrop]
      simp [reassemble, hmsg]

end OatWS

namespace OatWS.Gateway
open RFC6455
open Reentrant (NestedOp)

/-- All that has been done is something the code does. -/
theorem did_known (c : Code) (steps depth : Nat) (w : World) (hd : w.did = []) : ∀ x ∈ (main c steps depth w).2.did, ∃ tr i now, c.next tr i now = some (x.1, .op x.2) := by
  have hJ : Side 0 (fun w => ∀ x ∈ w.did, ∃ tr i now, c.next tr i now = some (x.1, .op x.2)) (fun w => ∀ x ∈ w.did, ∃ tr i now, c.next tr i now = some (x.1, .op x.2)) :=
    ⟨fun w w' _ h hw => h ▸ hw, fun _ h => h⟩
  refine (main_tidy hJ ?_ steps depth w (by rw [hd]; exact fun _ h => absurd h List.not_mem_nil)).1
  intro tr i now j u hn call w hw
  refine tidy_of hJ (w' := (nestedOn (c.env j) call j (.op u) w).2) ?_ _
  intro x hx
  rcases List.mem_append.mp (show x ∈ w.did ++ [(j, u)] from hx) with hx | hx
  · exact hw x hx
  · rw [List.mem_singleton.mp hx]
    exact ⟨tr, i, now, hn⟩

theorem sends_modest (c : Code) (k : Nat) (hm : c.Modest k) (ops : List (Nat × UserOp)) (h : ∀ x ∈ ops, ∃ tr i now, c.next tr i now = some (x.1, .op x.2)) : ∀ call ∈ sendsOn k ops, call.content.2.2.length < 2 ^ 31 := by
  intro call hc
  obtain ⟨⟨j, u⟩, hx, he⟩ := List.mem_filterMap.mp hc
  cases u with
  | send call' catches =>
    dsimp only at he
    split at he
    · rename_i hj
      subst hj
      injection he with he
      subst he
      obtain ⟨tr, i, now, hn⟩ := h _ hx
      exact hm.1 _ ⟨tr, i, now, catches, hn⟩
    · cases he
  | _ => cases he

/-- **C97** (what the peers hear). A thread as in `C97_written` has come to its end, and what it has sent on socket `k` are texts, binary messages and pings and pongs of at most 125 bytes, and perhaps at last a close. A peer that listens on what was written to this socket hears exactly
these messages, in the order of the calls, each once and with its content, whatever the thread read meanwhile and in whose callbacks it called. -/
theorem C97_peer (c : Code) (k : Nat) (hm : c.Modest k) (steps depth : Nat) (w : World) (hf : ∀ o ∈ (w.socks k).sock.out.sched, o.fine = true) (hd : w.did = []) (hend : ¬ Stops (main c steps depth w).1)
    (cs last : List SendCall) (hcs : ∀ c ∈ cs, c.isMessage) (hlast : last = [] ∨ ∃ c, last = [c] ∧ c.isClose) (hsent : sendsOn k (main c steps depth w).2.did = cs ++ last)
    (envR : Env) (h : Header) (st : St) (l B : Nat) (hU : Undisturbed envR st l B false) (hb : ((main c steps depth w).2.socks k).sock.out.written = (w.socks k).sock.out.written ++ st.inp.bytes) :
    ∃ evs st', listen envR h st = (.ret (), st') ∧ st'.sock.trace = st.sock.trace ++ evs ∧ (∀ e ∈ evs, e.to = l) ∧ reassemble [] evs = ((cs ++ last).map SendCall.msg, []) ∧ st'.inp.bytes = [] := by
  obtain ⟨ops, bs, h1, h2, -, -, h5⟩ := C97_written c k hm steps depth w hf
  rw [hd, List.nil_append] at h1
  have hk := did_known c steps depth w hd
  rw [hb] at h2
  have h2 := List.append_cancel_left h2
  rw [h5 hend] at h2
  unfold FramesOf at h2
  rw [← h1, hsent] at h2
  refine calls_heard (c.env k) _ _ cs last hcs hlast ?_ envR h st l B hU h2
  intro call hc
  exact Nat.lt_trans (sends_modest c k hm _ hk call (hsent ▸ hc)) (by decide)

/-- The back end of the gateway hears the five questions. -/
example : ∃ evs st', listen Fixture.env default (Fixture.receiving [129, 1, 1, 129, 1, 1, 129, 1, 1, 129, 1, 1, 129, 1, 1]) = (.ret (), st') ∧ st'.sock.trace = [] ++ evs ∧ (∀ e ∈ evs, e.to = 7) ∧
    reassemble [] evs = ([.text [1], .text [1], .text [1], .text [1], .text [1]], []) ∧ st'.inp.bytes = [] :=
  C97_peer exCode 1 (exCode_modest 1) 5 5 exWorld (by decide) rfl (not_stops exRun.1) (List.replicate 5 (.text (some [1]))) [] (fun c hc => by rw [(List.mem_replicate.mp hc).2]; trivial) (.inl rfl)
    (by decide +kernel) Fixture.env default (Fixture.receiving [129, 1, 1, 129, 1, 1, 129, 1, 1, 129, 1, 1, 129, 1, 1]) 7 2 (Fixture.undisturbed _ (by decide +kernel)) (by decide +kernel)

end OatWS.Gateway
