import Verif.Props.AsyncSends
import Verif.Props.Fragments
import Verif.Props.AsyncPool
/-! # C57: serialised sends of any number of tasks are heard by the peer -/

namespace OatWS.Async
open RFC6455

theorem Carries.is {env c f} (h : Carries env c f) : ∃ masked pos, f = callFrame env masked pos c := by
  obtain ⟨h1, h2, ⟨h3, h4, h5⟩, h6, h7⟩ := h
  rcases f with ⟨fin, r1, r2, r3, op, key, pay⟩
  simp only at h1 h2 h3 h4 h5 h6 h7
  subst h1 h2 h3 h4 h5 h6
  rcases h7 with rfl | ⟨p, rfl⟩
  · exact ⟨false, 0, rfl⟩
  · exact ⟨true, p, rfl⟩

theorem carryAll_accepted (env : Env) (cs : List SendCall) (fs : List Frame) (hm : ∀ c ∈ cs, c.isMessage)
    (hl : ∀ c ∈ cs, c.content.2.2.length < 2 ^ 63) (h : CarryAll env cs fs) :
    AcceptedAll false fs false ∧ (∀ f ∈ fs, f.fin = true) ∧ fs.map frameMsg = cs.map SendCall.msg := by
  induction cs generalizing fs with
  | nil =>
    cases fs with
    | nil => exact ⟨.nil, nofun, rfl⟩
    | cons _ _ => exact h.elim
  | cons c cs ih =>
    cases fs with
    | nil => exact h.elim
    | cons f fs =>
      obtain ⟨h1, h2⟩ := h
      obtain ⟨masked, pos, rfl⟩ := h1.is
      obtain ⟨i1, i2, i3⟩ := ih fs (fun c hc => hm c (by simp [hc])) (fun c hc => hl c (by simp [hc])) h2
      obtain ⟨a1, a2, a3⟩ := framesFrom_accepted env masked [c] (fun d hd => hm d (by simp at hd; simp [hd]))
        (fun d hd => hl d (by simp at hd; simp [hd])) pos
      have e : framesFrom env masked pos [c] = [callFrame env masked pos c] := rfl
      rw [e] at a1 a2 a3
      refine ⟨a1.append i1, ?_, ?_⟩
      · intro f hf
        rcases List.mem_cons.mp hf with rfl | hf
        · exact a2 _ (by simp)
        · exact i2 f hf
      · rw [List.map_cons, List.map_cons, i3]
        injection a3 with a3 _
        rw [a3]

/-- **C57.** Any number of tasks of an application share an async socket: they send text and binary messages, pings and pongs, from
callbacks of the listener or by themselves, serialised (as with a lock), in any interleaving with everything else. When no send
has failed and none is in progress, a peer that listens on the bytes written puts together exactly the messages of the calls, in the
order in which they were called, each once, unchanged. -/
theorem C57_heard (envS : Env) (p : Pool) (hq : ∀ t ∈ p.tasks, Outcome.quiet t) (log : List Entry) (p' : Pool)
    (h : Pool.Logged envS p log p') (hser : Serialised log) (hok : ∀ e ∈ log, e.failed = false)
    (hcs : ∀ c ∈ callsOf log, c.isMessage ∧ c.content.2.2.length < 2 ^ 63) (hdone : ∀ j, ¬ Sending j log)
    (envR : Env) (hd : Header) (st : St) (l B : Nat) (hU : Undisturbed envR st l B false)
    (hb : p'.world.st.sock.out.written = p.world.st.sock.out.written ++ st.inp.bytes) :
    ∃ evs st', listen envR hd st = (.ret (), st') ∧ st'.sock.trace = st.sock.trace ++ evs ∧ (∀ e ∈ evs, e.to = l) ∧
      reassemble [] evs = ((callsOf log).map SendCall.msg, []) ∧ st'.inp.bytes = [] := by
  rcases C33_any_tasks envS p hq log p' h hser hok (fun c hc => (hcs c hc).2) with ⟨fs, h1, _, h3⟩ | ⟨cs, c, fs, f, part, j, _, _, _, _, h6, _⟩
  · rw [hb] at h3
    have h3 := List.append_cancel_left h3
    obtain ⟨a1, a2, a3⟩ := carryAll_accepted envS _ fs (fun c hc => (hcs c hc).1) (fun c hc => (hcs c hc).2) h1
    obtain ⟨evs, st', e, htr, hf, hbytes⟩ := C08_C09_frames_heard envR hd st l B false false hU _ a1 h3
    refine ⟨evs, st', e, htr, events_to hf, ?_, hbytes⟩
    have := reassemble_frames a1 a2 hf []
    rw [List.append_nil] at this
    rw [this, a3]; simp [reassemble]
  · exact absurd h6 (hdone j)

/-! ## Concrete executions -/

theorem logged_trans {env p log q log' r} (h : Pool.Logged env p log q) (h' : Pool.Logged env q log' r) : Pool.Logged env p (log ++ log') r := by
  induction h' with
  | refl => rw [List.append_nil]; exact h
  | tail _ h1 h2 h3 h4 ih => rw [← List.append_assoc]; exact .tail ih h1 h2 h3 h4

theorem execLog_logged {env is p log q} (h : Pool.execLog env is p = some (log, q)) : Pool.Logged env p log q := by
  induction is generalizing p log with
  | nil => injection h with h; injection h with h1 h2; subst h1 h2; exact .refl
  | cons i is ih =>
    unfold Pool.execLog at h
    split at h
    · rename_i t ht
      split at h
      · cases h
      · rename_i o w hne hs
        dsimp only at h
        split at h
        · rename_i hw
          split at h
          · rename_i log' q' he
            injection h with h
            injection h with h1 h2
            subst h1 h2
            have h1 := Pool.Logged.tail (p := p) (log := []) (ts := p.tasks) (w := p.world) (i := i) .refl ht hs (fun e => hne e) hw
            exact logged_trans h1 (ih he)
          · cases h
        · cases h
    · cases h

theorem Sending.snoc {j log e} (h : Sending j (log ++ [e])) :
    (e.called.isSome ∧ j = e.task) ∨ (e.called = none ∧ Sending j log ∧ ¬ (j = e.task ∧ (e.completed || e.failed) = true)) ∨
      (e.called.isSome ∧ j ≠ e.task ∧ Sending j log) := by
  obtain ⟨s, r, h1, h2⟩ := h
  rw [sendsOf_snoc] at h1
  by_cases hj : e.task = j
  · rw [if_pos hj] at h1
    unfold feed at h1
    cases hc : e.called with
    | some c => exact .inl ⟨rfl, hj.symm⟩
    | none =>
      rw [hc] at h1
      simp only at h1
      refine .inr (.inl ⟨rfl, ?_⟩)
      split at h1
      · cases h1
      · rename_i s' ss' he
        injection h1 with h1 h1'
        subst h1
        simp only at h2
        by_cases hcm : e.completed = true
        · rw [if_pos hcm] at h2; cases h2
        · rw [if_neg hcm] at h2
          by_cases hf : e.failed = true
          · rw [if_pos hf] at h2; cases h2
          · rw [if_neg hf] at h2
            refine ⟨⟨s', ss', he, h2⟩, ?_⟩
            rintro ⟨-, h⟩
            simp [hcm, hf] at h
  · rw [if_neg hj] at h1
    cases hc : e.called with
    | some c => exact .inr (.inr ⟨rfl, fun e => hj e.symm, ⟨s, r, h1, h2⟩⟩)
    | none => exact .inr (.inl ⟨rfl, ⟨s, r, h1, h2⟩, fun h => hj h.1.symm⟩)

theorem serialCheck_from (busy : Option Nat) (pre log : List Entry) (h : serialCheck busy log = true) (hb : ∀ j, Sending j pre → busy = some j) :
    ∀ a e b, log = a ++ e :: b → e.called.isSome → ∀ j, j ≠ e.task → ¬ Sending j (pre ++ a) := by
  induction log generalizing busy pre with
  | nil => intro a e b h; cases a <;> cases h
  | cons x log ih =>
    unfold serialCheck at h
    intro a e b hl hc j hj hs
    cases a with
    | nil =>
      injection hl with h1 h2
      subst h1
      rw [List.append_nil] at hs
      cases hx : x.called with
      | none => rw [hx] at hc; cases hc
      | some c =>
        rw [hx] at h
        rw [hb j hs] at h
        have : (some j == some x.task) = false := by simpa using hj
        simp [this] at h
    | cons y a =>
      injection hl with h1 h2
      subst h1
      have e1 : pre ++ x :: a = (pre ++ [x]) ++ a := by simp
      rw [e1] at hs
      cases hx : x.called with
      | some c =>
        rw [hx] at h
        simp only [Bool.and_eq_true] at h
        refine ih (some x.task) (pre ++ [x]) h.2 ?_ a e b h2 hc j hj hs
        intro k hk
        rcases hk.snoc with ⟨_, h⟩ | ⟨h, _⟩ | ⟨_, hne, hp⟩
        · rw [h]
        · rw [hx] at h; cases h
        · have := hb k hp
          rw [this] at h
          have : (some k == some x.task) = false := by simpa using hne
          simp [this] at h
      | none =>
        rw [hx] at h
        simp only at h
        refine ih _ (pre ++ [x]) h ?_ a e b h2 hc j hj hs
        intro k hk
        rcases hk.snoc with ⟨h, _⟩ | ⟨_, hp, hn⟩ | ⟨h, _⟩
        · rw [hx] at h; cases h
        · have := hb k hp
          rw [this, if_neg]
          intro h
          apply hn
          simpa using h
        · rw [hx] at h; cases h

theorem serialCheck_sound {log} (h : serialCheck none log = true) : Serialised log :=
  serialCheck_from none [] log h (by rintro j ⟨s, r, e, _⟩; cases e)

/-- A listening task that answers a ping, and a task that sends a text message, as in `Verif.Props.AsyncPool`. -/
def exPool : Pool := ⟨.run (listenTask default) :: exOthers, exStart⟩

theorem exPool_quiet : ∀ t ∈ exPool.tasks, Outcome.quiet t := by
  intro t ht
  simp only [exPool, exOthers, List.mem_cons, List.not_mem_nil, or_false] at ht
  rcases ht with rfl | rfl <;>
  · intro co hco
    rw [List.mem_singleton.mp hco]
    exact ⟨fun _ h => (by cases h), fun _ h => (by cases h)⟩

/-- Every fact about a given execution that is needed below. -/
structure ExView where
  serial : Bool
  calls : List SendCall
  fine : Bool
  wire : List UInt8
  sends0 : List Sent
  sends1 : List Sent
deriving DecidableEq

def exView (r : Option (List Entry × Pool)) : Option ExView :=
  r.map fun (l, q) => ⟨serialCheck none l, callsOf l, l.all (fun e => !e.failed && (e.task == 0 || e.task == 1)), q.world.st.sock.out.written, sendsOf 0 l, sendsOf 1 l⟩

/-- Text first, then pong. -/
theorem exSerial : exView (Pool.execLog exEnv exSchedule exPool) = some ⟨true, [.text (some [7, 8]), .pong (some [0x21])], true,
    [0x81, 2, 7, 8, 0x8a, 1, 0x21], [⟨.pong (some [0x21]), [0x8a, 1, 0x21], none, .completed⟩], [⟨.text (some [7, 8]), [0x81, 2, 7, 8], none, .completed⟩]⟩ := by
  decide +kernel

/-- The text is sent while the pong is: the bytes on the wire are mixed, those of each send are right. -/
def exMixed : List Nat := List.replicate 60 0 ++ List.replicate 13 1 ++ List.replicate 20 0

theorem exOverlap : exView (Pool.execLog exEnv exMixed exPool) = some ⟨false, [.pong (some [0x21]), .text (some [7, 8])], true,
    [0x8a, 0x81, 2, 7, 8, 1, 0x21], [⟨.pong (some [0x21]), [0x8a, 1, 0x21], none, .completed⟩], [⟨.text (some [7, 8]), [0x81, 2, 7, 8], none, .completed⟩]⟩ := by
  decide +kernel

/-- The hypotheses of C56 are met by an execution with two overlapping sends. -/
example : ∃ log p', Pool.Logged exEnv exPool log p' ∧ (∀ t ∈ exPool.tasks, Outcome.quiet t) ∧
    sendsOf 0 log = [⟨.pong (some [0x21]), [0x8a, 1, 0x21], none, .completed⟩] ∧ sendsOf 1 log = [⟨.text (some [7, 8]), [0x81, 2, 7, 8], none, .completed⟩] ∧
    p'.world.st.sock.out.written = [0x8a, 0x81, 2, 7, 8, 1, 0x21] := by
  have h := exOverlap
  rcases he : Pool.execLog exEnv exMixed exPool with _ | ⟨log, p'⟩
  · rw [he] at h; cases h
  · rw [he] at h
    injection h with h
    injection h with h1 h2 h3 h4 h5 h6
    exact ⟨log, p', execLog_logged he, exPool_quiet, h5, h6, h4⟩

/-- Two tasks that send masked messages, their steps alternating. -/
def exMasked : Pool := ⟨[.run (userTask [.send (.text (some [7])) false]), .run (userTask [.send (.binary (some [9])) false])],
  { st := { Fixture.receiving [] with sock := { (Fixture.receiving []).sock with config := { maskOutgoingMessages := true } } } }⟩

def exKeys (r : Option (List Entry × Pool)) : Option (List Nat × List (Option Nat) × List (Option Nat)) :=
  r.map fun (l, _) => (drawn l, (sendsOf 0 l).map Sent.key, (sendsOf 1 l).map Sent.key)

theorem exMaskedKeys : exKeys (Pool.execLog Fixture.env [0, 1, 1, 0] exMasked) = some ([0, 4], [some 4], [some 0]) := by
  decide +kernel

/-- The hypotheses of `C42_async_keys` are met, with two keys drawn. -/
example : ∃ log p', Pool.Logged Fixture.env exMasked log p' ∧ (∀ t ∈ exMasked.tasks, Outcome.quiet t) ∧ drawn log = [0, 4] := by
  have h := exMaskedKeys
  rcases he : Pool.execLog Fixture.env [0, 1, 1, 0] exMasked with _ | ⟨log, p'⟩
  · rw [he] at h; cases h
  · rw [he] at h
    injection h with h
    injection h with h1 h2
    refine ⟨log, p', execLog_logged he, ?_, h1⟩
    intro t ht
    simp only [exMasked, List.mem_cons, List.not_mem_nil, or_false] at ht
    rcases ht with rfl | rfl <;>
    · intro co hco
      rw [List.mem_singleton.mp hco]
      exact ⟨fun _ h => (by cases h), fun _ h => (by cases h)⟩

theorem exNotSending {log : List Entry} (h : log.all (fun e => !e.failed && (e.task == 0 || e.task == 1)) = true) {a b : Sent} {as bs : List Sent}
    (h0 : sendsOf 0 log = a :: as) (h1 : sendsOf 1 log = b :: bs) (ha : a.state = .completed) (hb : b.state = .completed) (j : Nat) : ¬ Sending j log := by
  rintro ⟨s, ss, e, hs⟩
  rcases Nat.lt_or_ge j 2 with hj | hj
  · rcases (by omega : j = 0 ∨ j = 1) with rfl | rfl
    · rw [h0] at e; injection e with e _; rw [← e, ha] at hs; cases hs
    · rw [h1] at e; injection e with e _; rw [← e, hb] at hs; cases hs
  · have : log.filter (fun e => e.task == j) = [] := by
      rw [List.filter_eq_nil_iff]
      intro x hx hj'
      have := List.all_eq_true.mp h x hx
      simp at this hj'
      omega
    unfold sendsOf at e
    rw [this] at e
    cases e

/-- The hypotheses of C33 and C57 are met: two serialised sends, and a peer with a read buffer of two bytes that receives byte by byte. -/
example : ∃ log p', Pool.Logged exEnv exPool log p' ∧ Serialised log ∧ (∀ e ∈ log, e.failed = false) ∧
    (∀ c ∈ callsOf log, c.isMessage ∧ c.content.2.2.length < 2 ^ 63) ∧ (∀ j, ¬ Sending j log) ∧
    callsOf log = [.text (some [7, 8]), .pong (some [0x21])] ∧
    Undisturbed Fixture.env (Fixture.receiving [0x81, 2, 7, 8, 0x8a, 1, 0x21]) 7 2 false ∧
    p'.world.st.sock.out.written = exPool.world.st.sock.out.written ++ (Fixture.receiving [0x81, 2, 7, 8, 0x8a, 1, 0x21]).inp.bytes := by
  have h := exSerial
  rcases he : Pool.execLog exEnv exSchedule exPool with _ | ⟨log, p'⟩
  · rw [he] at h; cases h
  · rw [he] at h
    injection h with h
    injection h with h1 h2 h3 h4 h5 h6
    refine ⟨log, p', execLog_logged he, serialCheck_sound h1, ?_, ?_, exNotSending h3 h5 h6 rfl rfl, h2, ?_, h4⟩
    · intro e hm
      have := List.all_eq_true.mp h3 e hm
      simp at this
      exact this.1
    · rw [show callsOf log = _ from h2]
      intro c hc
      simp only [List.mem_cons, List.not_mem_nil, or_false] at hc
      rcases hc with rfl | rfl
      · exact ⟨trivial, by decide⟩
      · exact ⟨(by decide : 1 ≤ 125), by decide⟩
    · exact Fixture.undisturbed _ (by decide)

end OatWS.Async
