import Verif.Proofs.AsyncListenData
import Verif.Spec.Fixtures
/-! # C30, C47: listening while other tasks of the application are active -/

namespace OatWS.Async
open RFC6455

/-! ## C47 -/

/-- **C47.** `listenAsync` in an application in which any number of other tasks send and replace listener and configuration at
any moments between its steps: when it has finished, the bytes consumed are complete frames of which the last is a close frame,
and all callbacks are what a receiver tells about these frames; when it has failed, likewise for the bytes consumed up to the
error, the error is the one that belongs to the reason. (`S`: the listeners and buffer sizes that anybody installs; only if a
negative buffer size is among them, the allocation can fail.) -/
theorem C47_among_other_tasks (env : Env) (S : Settings) (hS : S.Env env) (h : Header) (w : World) (o : Bool)
    (ho : OpenIs o w.st.sock.lastOpcode) (hw : S.In w) (others : List Outcome) (hothers : ∀ t ∈ others, S.Task t)
    (p : Pool) (hp : Pool.Steps env ⟨.run (listenTask h) :: others, w⟩ p) :
    (p.tasks[0]? = some .finished → Told S o w p.world .closed) ∧
    (∀ e, p.tasks[0]? = some (.failed e) → (∃ r, FailsLike r e ∧ Told S o w p.world r) ∨
      e = .thrown .badAlloc ∧ ∃ B, B < 0 ∧ S.size B) := by
  obtain ⟨out, ts, e1, -, he⟩ := pool_exec hothers hp
  have hok := listening_ok hS h ho hw he
  rw [e1]
  constructor
  · intro e
    rw [List.getElem?_cons_zero] at e
    injection e with e
    rw [e] at hok
    exact hok
  · intro er e
    rw [List.getElem?_cons_zero] at e
    injection e with e
    rw [e] at hok
    exact hok

theorem renders_fixed {l B evs ds} (h : RendersMix (fixedSettings l B) evs ds) : Renders l B.toNat evs ds := by
  induction h with
  | nil => exact .nil
  | snoc _ h1 h2 h3 ih =>
    have h1 : _ = some l := h1
    have h2 : _ = B := h2
    subst h1 h2
    exact ih.append h3

/-- **C47** when nobody replaces the listener or the buffer size: the callbacks are exactly those of the frames, with data in
pieces of 1..B bytes, whatever the other tasks send and whenever. -/
theorem C47_only_senders (env : Env) (l : Nat) (B : Int) (hB : 0 < B) (hS : (fixedSettings l B).Env env) (h : Header) (w : World) (o : Bool)
    (ho : OpenIs o w.st.sock.lastOpcode) (hl : w.st.sock.listener = some l) (hs : w.st.sock.config.readBufferSize = B)
    (others : List Outcome) (hothers : ∀ t ∈ others, (fixedSettings l B).Task t)
    (p : Pool) (hp : Pool.Steps env ⟨.run (listenTask h) :: others, w⟩ p) (out : Outcome) (hout : p.tasks[0]? = some out)
    (hend : out = .finished ∨ ∃ e, out = .failed e) :
    ∃ consumed ds r evs, w.st.inp.bytes = consumed ++ p.world.st.inp.bytes ∧ Receives o consumed ds r ∧
      p.world.st.sock.trace = w.st.sock.trace ++ evs ∧ Renders l B.toNat evs ds ∧
      (out = .finished ↔ r = .closed) ∧ ∀ e, out = .failed e → FailsLike r e := by
  obtain ⟨h1, h2⟩ := C47_among_other_tasks env _ hS h w o ho ⟨hl, hs⟩ others hothers p hp
  rcases hend with rfl | ⟨e, rfl⟩
  · obtain ⟨c, ds, evs, e1, e2, e3, e4⟩ := h1 hout
    exact ⟨c, ds, .closed, evs, e1, e3, e2, renders_fixed e4, by simp, nofun⟩
  · rcases h2 e hout with ⟨r, hf, c, ds, evs, e1, e2, e3, e4⟩ | ⟨_, B', hlt, hB'⟩
    · refine ⟨c, ds, r, evs, e1, e3, e2, renders_fixed e4, ?_, ?_⟩
      · constructor
        · nofun
        · rintro rfl; exact hf.elim
      · intro e' he; injection he with he; rw [← he]; exact hf
    · have hB' : B' = B := hB'
      omega

/-! ## C30 -/

/-- **C30** (normal end). Whatever the listeners do and whatever other tasks do at any moments: if `listenAsync` has finished
normally, the bytes it consumed are complete frames, the last one a close frame. -/
theorem C30_finishes_only_on_close (env : Env) (h : Header) (w : World) (o : Bool) (ho : OpenIs o w.st.sock.lastOpcode)
    (others : List Outcome) (hothers : ∀ t ∈ others, t.sends) (p : Pool)
    (hp : Pool.Steps env ⟨.run (listenTask h) :: others, w⟩ p) (hf : p.tasks[0]? = some .finished) :
    ∃ frames close ds o' d, w.st.inp.bytes = frames ++ close ++ p.world.st.inp.bytes ∧ Complete o frames ds o' ∧
      OneFrame o' close d (.over .closed) := by
  have hS : anySettings.Env env := by
    intro tr op _
    cases op <;> trivial
  have hts : ∀ t ∈ others, anySettings.Task t := by
    intro t ht
    have := hothers t ht
    cases t with
    | run t => exact fun c hc => ⟨this c hc, fun u _ op _ => by cases op <;> trivial⟩
    | _ => trivial
  obtain ⟨c, ds, evs, e1, -, e2, -⟩ := (C47_among_other_tasks env anySettings hS h w o ho ⟨trivial, trivial⟩ others hts p hp).1 hf
  have key : ∀ {o c ds r}, Receives o c ds r → r = .closed → ∃ frames close ds o' d, c = frames ++ close ∧ Complete o frames ds o' ∧
      OneFrame o' close d (.over .closed) := by
    intro o c ds r hr hrc
    have hc : ∀ {o bs ds o' bs' ds' o''}, OneFrame o bs ds (.next o') → Complete o' bs' ds' o'' → Complete o (bs ++ bs') (ds ++ ds') o'' := by
      intro o bs ds o' bs' ds' o'' h1 h2
      induction h2 with
      | nil =>
        have := Complete.snoc (Complete.nil (o := o)) h1
        simpa using this
      | snoc _ h ih =>
        rw [← List.append_assoc, ← List.append_assoc]
        exact .snoc ih h
    induction hr with
    | @last o bs ds r hf => subst hrc; exact ⟨[], bs, [], o, ds, rfl, .nil, hf⟩
    | stop => cases hrc
    | more h1 _ ih =>
      obtain ⟨fr, cl, ds, o', d, rfl, i1, i2⟩ := ih hrc
      exact ⟨_, cl, _, o', d, (List.append_assoc _ _ _).symm, hc h1 i1, i2⟩
  obtain ⟨fr, cl, ds, o', d, rfl, i1, i2⟩ := key e2 rfl
  exact ⟨fr, cl, ds, o', d, e1, i1, i2⟩

/-- **C30** (errors of the library). Whenever a receiving function of the library fails with an error - refused frame, failed or
ended connection -, the whole `listenAsync` fails with this error at once; it is not swallowed. -/
theorem C30_error_propagates (env : Env) (h : Header) (w : World) (o : Bool) (ho : OpenIs o w.st.sock.lastOpcode) (t : Task) (w' : World)
    (he : Exec env OthersDo (fun _ => True) (.run (listenTask h), w) (.run t, w')) (c : Co) (rest : List Co) (ht : t.stack = c :: rest)
    (hc : c.receives) (e : AErr) (herr : (coStep env c t.loc w').1 = .error e) : (step env t w').1 = .failed e := by
  have hS : anySettings.Env env := by
    intro tr op _
    cases op <;> trivial
  have hok := listening_ok (o0 := o) hS h ho ⟨trivial, trivial⟩
    (he.mono (fun _ _ h => ⟨h, fun _ => ⟨trivial, trivial⟩⟩) (fun _ h => h))
  have hns : NoUser rest := by
    rcases t with ⟨stack, l⟩
    simp only [] at ht
    subst ht
    generalize hx : (⟨c :: rest, l⟩ : Task) = t at hok
    have hok : LAt env anySettings o w t w' := hok
    cases hok with
    | idle => injection hx with hx; injection hx with _ hx; rw [hx]; exact noUser_rec (by simp)
    | closed => injection hx with hx; injection hx with _ hx; rw [hx]; exact noUser_rec (by simp)
    | head => injection hx with hx; injection hx with _ hx; rw [hx]; exact noUser_rec (by simp)
    | handle => injection hx with hx; injection hx with _ hx; rw [hx]; exact noUser_rec (by simp)
    | @data _ _ _ _ _ _ _ _ _ ss _ _ _ _ _ _ _ _ _ _ h6 =>
      injection hx with hx
      cases ss with
      | nil => injection hx with _ hx; rw [hx]; exact noUser_rec (by simp)
      | cons s ss => injection hx with hx _; rw [hx] at hc; exact absurd (h6 s (by simp)).sends hc
    | short => injection hx with hx; injection hx with _ hx; rw [hx]; exact noUser_rec (by simp)
    | control => injection hx with hx; injection hx with _ hx; rw [hx]; exact noUser_rec (by simp)
    | @frame _ _ _ _ _ _ _ _ _ ss _ _ _ _ _ _ h6 =>
      injection hx with hx
      cases ss with
      | nil => injection hx with _ hx; rw [hx]; exact noUser_rec (by simp)
      | cons s ss => injection hx with hx _; rw [hx] at hc; exact absurd (h6 s (by simp)).sends hc
  rcases t with ⟨stack, l⟩
  simp only [] at ht
  subst ht
  rw [step_cons]
  revert herr
  rcases coStep env c l w' with ⟨a, l', w1⟩
  intro herr
  replace herr : a = .error e := herr
  subst herr
  obtain ⟨w2, e1, -⟩ := after_error e c rest hns l' w1
  rw [e1]

/-- **C30** (errors of user code). An error of user code or of a send, not handled by user code on the stack, makes the task
fail with this error. -/
theorem C30_uncaught_error (env : Env) (c : Co) (rest : List Co) (l : Local) (w : World) (e : AErr)
    (hnc : ∀ u, Co.user u ∈ rest → u.catching = false) (herr : (coStep env c l w).1 = .error e) :
    (step env ⟨c :: rest, l⟩ w).1 = .failed e := by
  rw [step_cons]
  revert herr
  rcases coStep env c l w with ⟨a, l', w1⟩
  intro herr
  replace herr : a = .error e := herr
  subst herr
  simp only [after]
  obtain ⟨w2, e1, -⟩ := unwind_noCatch e rest l' (destroy c w1) hnc
  rw [e1]

/-! ## The hypotheses are met -/

/-- A listener that answers pings; a task that sends a text message; a fragmented message around a ping and a close frame arrive
byte by byte. -/
def exStart : World := { st := { Fixture.receiving (wireOf [Fixture.hel, Fixture.ping, Fixture.lo, Fixture.closing]) with
  sock := { (Fixture.receiving []).sock with out := ⟨[], Fixture.slow 20⟩ } } }

def exEnv : Env := { Fixture.env with react := fun tr => match tr.getLast? with
  | some (.onPing _ m) => [.send (.pong (some m)) false]
  | _ => [] }

def exOthers : List Outcome := [.run (userTask [.send (.text (some [7, 8])) false])]

def exSchedule : List Nat := [0, 1, 1, 0, 1, 1, 1, 1, 1, 0, 1, 0, 1, 1, 1, 1, 1] ++ List.replicate 119 0

theorem exEnv_fixed : (fixedSettings 7 2).Env exEnv := by
  intro tr op hop
  simp only [exEnv] at hop
  split at hop
  · rw [List.mem_singleton] at hop; subst hop; trivial
  · cases hop

theorem exOthers_fixed : ∀ t ∈ exOthers, (fixedSettings 7 2).Task t := by
  intro t ht
  rw [exOthers, List.mem_singleton] at ht
  subst ht
  intro c hc
  rw [userTask, List.mem_singleton] at hc
  subst hc
  refine ⟨trivial, ?_⟩
  intro u hu op hop
  injection hu with hu
  subst hu
  rw [List.mem_singleton] at hop
  subst hop
  trivial

/-- The interleaved execution exists, `listenAsync` finishes, both sends were made. -/
example : ∃ p, Pool.Steps exEnv ⟨.run (listenTask default) :: exOthers, exStart⟩ p ∧ p.tasks[0]? = some .finished ∧
    p.world.st.sock.trace.length = 8 ∧ p.world.st.sock.out.written = [0x81, 2, 7, 8, 0x8a, 1, 0x21] ∧
    (fixedSettings 7 2).In exStart ∧ OpenIs false exStart.st.sock.lastOpcode := by
  have h : (Pool.exec exEnv exSchedule ⟨.run (listenTask default) :: exOthers, exStart⟩).isSome = true := by decide +kernel
  have h2 : ∀ p, Pool.exec exEnv exSchedule ⟨.run (listenTask default) :: exOthers, exStart⟩ = some p → p.tasks[0]? = some .finished ∧
    p.world.st.sock.trace.length = 8 ∧ p.world.st.sock.out.written = [0x81, 2, 7, 8, 0x8a, 1, 0x21] := by
    have h3 : ((Pool.exec exEnv exSchedule ⟨.run (listenTask default) :: exOthers, exStart⟩).map fun p =>
        (p.tasks[0]?, p.world.st.sock.trace.length, p.world.st.sock.out.written))
        = some (some .finished, 8, [0x81, 2, 7, 8, 0x8a, 1, 0x21]) := by decide +kernel
    intro p hp
    rw [hp] at h3
    injection h3 with h3
    injection h3 with e1 h3
    injection h3 with e2 e3
    exact ⟨e1, e2, e3⟩
  obtain ⟨p, hp⟩ := Option.isSome_iff_exists.mp h
  obtain ⟨e1, e2, e3⟩ := h2 p hp
  exact ⟨p, Pool.exec_steps hp, e1, e2, e3, ⟨rfl, rfl⟩, rfl⟩

/-- A case of `C30_error_propagates`: waiting for a frame when the connection breaks. -/
def brokenStart : World := { st := { (Fixture.receiving []) with inp := ⟨[], [.broken]⟩ } }

example : ∃ t w', Exec Fixture.env OthersDo (fun _ => True) (.run (listenTask default), brokenStart) (.run t, w') ∧
    t.stack = [.readFrame {}, .handleFrame ⟨.act, some 7⟩, .listen] ∧ (step Fixture.env t w').1 = .failed .io :=
  ⟨_, _, .own .refl trivial rfl, rfl, by decide +kernel⟩

end OatWS.Async
