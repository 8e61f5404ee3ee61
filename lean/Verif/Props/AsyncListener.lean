import Verif.Proofs.AsyncListenData
import Verif.Proofs.AsyncCases
import Verif.Spec.Fixtures
/-! # C31: replacing the listener while `listenAsync` waits for a frame -/

namespace OatWS.Async
open RFC6455

/-- Waiting for a frame or reading its header. -/
def Task.waits (t : Task) : Prop := ∃ c rest, t.stack = .readFrame c :: rest

/-- Other tasks leave the listener alone. -/
def KeepListener (w w' : World) : Prop := OthersDo w w' ∧ w'.st.sock.listener = w.st.sock.listener

/-- The situation of C31. `listenAsync` is between two frames while `old` is installed, and starts to wait; other tasks replace
the listener, at any moment before the header is complete: it is `new` when the task is `t` (still waiting) in `w1`, and nobody
else replaces it again; the frame is received, up to any point (`w2`). -/
structure Replaced (env : Env) (old new : Option Nat) (w1 w2 : World) : Prop where
  run : ∃ (l : Local) (w0 : World) (t0 t1 : Task) (wa : World) (out : Outcome),
    w0.st.sock.listener = old ∧
    step env ⟨[.listen], l⟩ w0 = (.run t0, wa) ∧
    Exec env OthersDo Task.waits (.run t0, wa) (.run t1, w1) ∧ t1.waits ∧ w1.st.sock.listener = new ∧
    Exec env KeepListener (fun t => t.stack ≠ [.listen]) (.run t1, w1) (out, w2)

/-- The callbacks made between. -/
def newEvents (w1 w2 : World) : List Event := w2.st.sock.trace.drop w1.st.sock.trace.length

/-- What C31 claims: all callbacks of the frame go to the new listener. -/
def C31_statement : Prop := ∀ env old new w1 w2, Replaced env old new w1 w2 → ∀ ev ∈ newEvents w1 w2, new = some ev.listener

/-- Data callbacks go to `new`, control callbacks to `old`. -/
def GoesTo (old new : Option Nat) (ev : Event) : Prop := if ev.isMessage then new = some ev.listener else old = some ev.listener

/-- States of the task while the frame is received. -/
inductive FrameAt (old new : Option Nat) : List Co → World → Prop
  | head {c w} : w.st.sock.listener = new → FrameAt old new [.readFrame c, .handleFrame ⟨.act, old⟩, .listen] w
  | act {w} : w.st.sock.listener = new → FrameAt old new [.handleFrame ⟨.act, old⟩, .listen] w
  | payload {ss p pc w} : (∀ c ∈ ss, c.sends) → p.listener = new → pc ≠ .act →
      FrameAt old new (ss ++ [.readPayload p, .handleFrame ⟨pc, old⟩, .listen]) w
  | handle {ss pc w} : (∀ c ∈ ss, c.sends) → pc ≠ .act → FrameAt old new (ss ++ [.handleFrame ⟨pc, old⟩, .listen]) w
  | idle {w} : FrameAt old new [.listen] w

/-- The invariant. -/
def FrameOk (old new : Option Nat) (tr : List Event) (out : Outcome) (w : World) : Prop :=
  (∃ evs, w.st.sock.trace = tr ++ evs ∧ ∀ ev ∈ evs, GoesTo old new ev) ∧ ∀ t, out = .run t → FrameAt old new t.stack w

variable {env : Env} {old new : Option Nat} {tr : List Event}

theorem unwind_failed (e : AErr) (c : Co) (base : List Co) (h : NoUser base) (l : Local) (w : World) {evs}
    (ht : w.st.sock.trace = tr ++ evs) (hg : ∀ ev ∈ evs, GoesTo old new ev) :
    FrameOk old new tr (after c base (.error e, l, w)).1 (after c base (.error e, l, w)).2 := by
  obtain ⟨w', e1, e2⟩ := after_error e c base h l w
  rw [e1]
  exact ⟨⟨evs, by rw [e2]; exact ht, hg⟩, nofun⟩

/-- Above a receiving coroutine. -/
theorem frame_above {s : Co} {ss base : List Co} (hs : ∀ c ∈ s :: ss, c.sends) (hb : base ≠ []) (hnu : NoUser base) (l : Local) (w : World)
    {evs} (ht : w.st.sock.trace = tr ++ evs) (hg : ∀ ev ∈ evs, GoesTo old new ev)
    (hin : ∀ ss' w', (∀ c ∈ ss', c.sends) → FrameAt old new (ss' ++ base) w') :
    FrameOk old new tr (step env ⟨s :: ss ++ base, l⟩ w).1 (step env ⟨s :: ss ++ base, l⟩ w).2 := by
  rcases step_above env lasting_true noCare_true s ss base (fun c hc => (Co.ok_true c).mpr (hs c hc)) l w hb with
    ⟨ss', w', e1, e2, e3⟩ | ⟨e, w', e1, e2, e3⟩ | ⟨w', e1, e2⟩ | ⟨u, w', e1, e2⟩
  · rw [e3]
    exact ⟨⟨evs, by rw [e2.trace]; exact ht, hg⟩, fun t h => by injection h with h; rw [← h]; exact hin ss' w' (fun c hc => (e1 c hc).sends)⟩
  · obtain ⟨w2, e4, e5⟩ := unwind_base e base hnu l w'
    rw [e3, e4]
    exact ⟨⟨evs, by rw [e5, e1.trace]; exact ht, hg⟩, nofun⟩
  · rw [e2]
    exact ⟨⟨evs, by rw [e1.trace]; exact ht, hg⟩, nofun⟩
  · rw [e2]
    exact ⟨⟨evs, by rw [e1.trace]; exact ht, hg⟩, nofun⟩

theorem run_ok {s : List Co} {l : Local} {w : World} {evs} (ht : w.st.sock.trace = tr ++ evs) (hg : ∀ ev ∈ evs, GoesTo old new ev)
    (hf : FrameAt old new s w) : FrameOk old new tr (.run ⟨s, l⟩) w :=
  ⟨⟨evs, ht, hg⟩, fun t h => by injection h with h; rw [← h]; exact hf⟩

/-- The invariant is kept by steps. -/
theorem FrameOk.step {t : Task} {w : World} (h : FrameOk old new tr (.run t) w) (hg : t.stack ≠ [.listen]) :
    FrameOk old new tr (Async.step env t w).1 (Async.step env t w).2 := by
  obtain ⟨⟨evs, ht, hev⟩, hf⟩ := h
  replace hf := hf t rfl
  rcases t with ⟨stack, l⟩
  simp only [] at hf hg
  cases hf with
  | @head c _ hl =>
    rw [step_cons]
    obtain ⟨i, l', a, e, ⟨c', rfl⟩ | rfl | rfl | rfl⟩ := readFrame_cases env c l w <;> rw [e]
    · exact run_ok (w := w.setInp i) ht hev (.head hl)
    · exact run_ok (w := w.setInp i) ht hev (.act hl)
    · exact unwind_failed _ _ _ (noUser_handle _) _ (w.setInp i) ht hev
    · exact ⟨⟨evs, ht, hev⟩, nofun⟩
  | act hl =>
    rw [step_cons]
    obtain ⟨l', ⟨p, pc, w', e, e2, e3, -, -, s, e4, e5⟩ | ⟨e, s, h, e4⟩⟩ := handleAct_cases env old l w
    · rw [e]
      exact run_ok (w := w') (by rw [e5]; exact e4.trans ht) hev (.payload (ss := []) (by simp) (e3.trans hl) e2)
    · rw [h]
      exact unwind_failed _ _ _ noUser_listen _ (w.setSock s) (e4.trans ht) hev
  | @payload ss p pc _ hs hp hpc =>
    cases ss with
    | cons s ss => exact frame_above hs (by simp) (noUser_payload _ _) l w ht hev (fun ss' w' h => .payload h hp hpc)
    | nil =>
      rw [List.nil_append, step_cons]
      obtain ⟨a, l', w', e, ⟨p', u, to, op, d, rfl, e1, e2, e3⟩ | ⟨e3, ⟨p', rfl, e2⟩ | rfl | ⟨er, rfl⟩ | rfl | ⟨u, rfl⟩⟩⟩ := payload_cases env p l w <;> rw [e]
      · refine run_ok (w := w') (evs := evs ++ [.readMessage to op d]) (by rw [e3, ht, List.append_assoc]) ?_
          (.payload (ss := [.user u]) (by simp [Co.sends]) (e1.trans hp) hpc)
        intro ev hev'
        rcases List.mem_append.mp hev' with hev' | hev'
        · exact hev ev hev'
        · rw [List.mem_singleton] at hev'
          subst hev'
          show new = some to
          rw [← hp]; exact e2
      · exact run_ok (e3.trans ht) hev (.payload (ss := []) (by simp) (e2.trans hp) hpc)
      · exact run_ok (w := destroy (.readPayload p) w') (e3.trans ht) hev (.handle (ss := []) (by simp) hpc)
      · exact unwind_failed _ _ _ (noUser_handle _) _ _ (e3.trans ht) hev
      · exact ⟨⟨evs, e3.trans ht, hev⟩, nofun⟩
      · exact ⟨⟨evs, e3.trans ht, hev⟩, nofun⟩
  | @handle ss pc _ hs hpc =>
    cases ss with
    | cons s ss => exact frame_above hs (by simp) (noUser_handle _) l w ht hev (fun ss' w' h => .handle h hpc)
    | nil =>
      rw [List.nil_append, step_cons]
      rcases handleRest_cases env old pc l w hpc with ⟨pc', u, w', ev, to, e, e1, e2, e3, e4, e5⟩ | e <;> rw [e]
      · refine run_ok (w := w') (evs := evs ++ [ev]) (by injection e5 with _ e5; rw [e5]; show w.st.sock.trace ++ [ev] = _; rw [ht, List.append_assoc]) ?_ (.handle (ss := [.user u]) (by simp [Co.sends]) e1)
        intro ev' hev'
        rcases List.mem_append.mp hev' with hev' | hev'
        · exact hev ev' hev'
        · rw [List.mem_singleton] at hev'
          subst hev'
          unfold GoesTo
          rw [if_neg (by rw [e4]; simp), e2, e3]
      · exact run_ok ht hev .idle
  | idle => exact absurd rfl hg

theorem FrameOk.others {out w w'} (h : FrameOk old new tr out w) (hw : KeepListener w w') : FrameOk old new tr out w' := by
  obtain ⟨⟨evs, ht, hev⟩, hf⟩ := h
  refine ⟨⟨evs, hw.1.trace.trans ht, hev⟩, fun t e => ?_⟩
  have := hf t e
  revert this
  generalize t.stack = s
  intro this
  cases this with
  | head h => exact .head (hw.2.trans h)
  | act h => exact .act (hw.2.trans h)
  | payload h1 h2 h3 => exact .payload h1 h2 h3
  | handle h1 h2 => exact .handle h1 h2
  | idle => exact .idle

/-- While waiting, the stack is known. -/
theorem waits_stack {t0 : Task} {wa : World} (h0 : ∃ c, t0.stack = [.readFrame c, .handleFrame ⟨.act, old⟩, .listen]) {q}
    (h : Exec env OthersDo Task.waits (.run t0, wa) q) : ∀ t, q.1 = .run t → t.waits →
      ∃ c, t.stack = [.readFrame c, .handleFrame ⟨.act, old⟩, .listen] := by
  revert h
  generalize hp : (Outcome.run t0, wa) = p
  intro h
  induction h with
  | refl => intro t e _; rw [← hp] at e; injection e with e; rw [← e]; exact h0
  | @own t w q _ hw hs ih =>
    intro t' e hw'
    obtain ⟨c, hc⟩ := ih t rfl hw
    rcases t with ⟨stack, l⟩
    subst hc
    rw [step_cons] at hs
    obtain ⟨i, l', a, e2, ⟨c', rfl⟩ | rfl | rfl | rfl⟩ := readFrame_cases env c l w <;> rw [e2] at hs <;> subst hs
    · injection e with e; subst e; exact ⟨c', rfl⟩
    · injection e with e; subst e
      obtain ⟨c, rest, hw'⟩ := hw'
      cases hw'
    · obtain ⟨w', e4, e5⟩ := after_error .io (.readFrame c) [.handleFrame ⟨.act, old⟩, .listen] (noUser_handle _) l' (w.setInp i)
      rw [e4] at e; cases e
    · cases e
  | other _ _ ih => exact ih

/-- **C31**, what is true: the callbacks for the data of the frame go to the new listener, those of a control frame to the old one. -/
theorem C31_actual {w1 w2 : World} (h : Replaced env old new w1 w2) : ∀ ev ∈ newEvents w1 w2, GoesTo old new ev := by
  obtain ⟨l, w0, t0, t1, wa, out, h0, hs, hex, hw, hl, hex2⟩ := h.run
  have ht0 : ∃ c, t0.stack = [.readFrame c, .handleFrame ⟨.act, old⟩, .listen] := by
    rw [step_cons] at hs
    simp only [coStep, listenStep] at hs
    split at hs
    · injection hs with hs _; injection hs with hs; rw [← hs, h0]; exact ⟨_, rfl⟩
    · cases hs
  obtain ⟨c, hc⟩ := waits_stack ht0 hex t1 rfl hw
  have hstart : FrameOk old new w1.st.sock.trace (.run t1) w1 :=
    ⟨⟨[], by simp, by simp⟩, fun t e => by injection e with e; rw [← e, hc]; exact .head hl⟩
  have hend : FrameOk old new w1.st.sock.trace out w2 := by
    have key : ∀ q, Exec env KeepListener (fun t => t.stack ≠ [.listen]) (.run t1, w1) q → FrameOk old new w1.st.sock.trace q.1 q.2 := by
      generalize hp : (Outcome.run t1, w1) = p
      intro q hq
      induction hq with
      | refl => rw [← hp]; exact hstart
      | own _ hg hs ih => rw [← hs]; exact FrameOk.step ih hg
      | other _ hr ih => exact ih.others hr
    exact key _ hex2
  obtain ⟨⟨evs, e1, e2⟩, -⟩ := hend
  unfold newEvents
  rw [e1, List.drop_left]
  exact e2

/-- **C31** for data frames: the callbacks go to the new listener. Missing: control frames (see `C31_violated`). -/
theorem C31_partial {w1 w2 : World} (h : Replaced env old new w1 w2) : ∀ ev ∈ newEvents w1 w2, ev.isMessage = true → new = some ev.listener := by
  intro ev hev hd
  have := C31_actual h ev hev
  unfold GoesTo at this
  rwa [if_pos hd] at this

/-! ## The claim is false for control frames, and the hypotheses are met -/

/-- Steps of a task until it is between two frames. -/
def go (env : Env) : Nat → Outcome × World → Outcome × World
  | 0, p => p
  | n + 1, (.run t, w) => if t.stack = [.listen] then (.run t, w) else go env n (step env t w)
  | _ + 1, p => p

theorem go_exec (env : Env) (R) (n : Nat) (p : Outcome × World) : Exec env R (fun t => t.stack ≠ [.listen]) p (go env n p) := by
  induction n generalizing p with
  | zero => exact .refl
  | succ n ih =>
    rcases p with ⟨o, w⟩
    cases o with
    | run t =>
      rw [go]
      split
      · exact .refl
      · rename_i h
        exact .trans (.own .refl h rfl) (ih _)
    | _ => exact .refl

/-- A frame arrives at a socket with listener 7; while the task waits for it, listener 8 is installed. -/
theorem replaced_example (bs : List UInt8) (n : Nat) :
    let w0 : World := { st := Fixture.receiving bs }
    let w1 : World := w0.setSock { w0.st.sock with listener := some 8 }
    Replaced Fixture.env (some 7) (some 8) w1
      (go Fixture.env n (.run ⟨[.readFrame {}, .handleFrame ⟨.act, some 7⟩, .listen], (listenTask default).loc⟩, w1)).2 := by
  intro w0 w1
  exact ⟨(listenTask default).loc, w0, _, _, w0, _, rfl, rfl, .other .refl ⟨rfl, rfl, rfl, rfl, rfl, rfl⟩, ⟨_, _, rfl⟩, rfl,
    go_exec _ _ n _⟩

/-- The claim does not hold: a ping is reported to the old listener. -/
theorem C31_violated : ¬ C31_statement := by
  intro h
  have := h _ _ _ _ _ (replaced_example (wireOf [Fixture.ping]) 60) (.onPing 7 [0x21]) (by decide +kernel)
  cases this

/-- The hypotheses of `C31_partial` are met by a text frame; its data goes to listener 8. -/
example : newEvents { st := { Fixture.receiving (wireOf [Fixture.hel]) with
      sock := { (Fixture.receiving []).sock with listener := some 8 } } }
    (go Fixture.env 60 (.run ⟨[.readFrame {}, .handleFrame ⟨.act, some 7⟩, .listen], (listenTask default).loc⟩,
      { st := { Fixture.receiving (wireOf [Fixture.hel]) with sock := { (Fixture.receiving []).sock with listener := some 8 } } })).2
    = [.readMessage 8 1 [0x48], .readMessage 8 1 [0x65], .readMessage 8 1 [0x6c]] := by
  decide +kernel

end OatWS.Async
