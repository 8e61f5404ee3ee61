import Verif.Proofs.ThreadRaces
import Verif.Props.ThreadListen
/-! # C62: data races -/

namespace OatWS.Threads
open RFC6455 Async Prog

theorem Race.symm_cases {p : Pool} {l : Loc} (h : Race p l) : ∃ (i j : Nat) (q q' : Prog Unit), i ≠ j ∧ p.threads[i]? = some q ∧ p.threads[j]? = some q' ∧
    Accesses q l true ∧ ∃ w, Accesses q' l w := by
  obtain ⟨i, j, q, q', w, w', hne, h1, h2, h3, h4, hw⟩ := h
  cases w with
  | true => exact ⟨i, j, q, q', hne, h1, h2, h3, w', h4⟩
  | false =>
    cases w' with
    | true => exact ⟨j, i, q', q, hne.symm, h2, h1, h4, false, h3⟩
    | false => cases hw

theorem Uses.accesses {F : Prop} {S : Act → Prop} {q : Prog Unit} {l : Loc} {w : Bool} (h : Uses F S q All) (ha : Accesses q l w) :
    ∃ a, S a ∧ a.touches = some (l, w) := by
  obtain ⟨a, k, rfl, ht⟩ := ha
  exact ⟨a, h.1, ht⟩

/-- A race of such a team is one of two of the other threads, or of the first one with one of the others. -/
theorem Roles.race {F : Prop} {O O' : UserOp → Prop} {p : Pool} {l : Loc} (h : Roles F O O' p) (hr : Race p l) :
    (∃ a, OpAct F O a ∧ a.touches = some (l, true)) ∨
    ((∃ w a, OpAct F O a ∧ a.touches = some (l, w)) ∧ ∃ a, ListenAct F O' a ∧ a.touches = some (l, true)) := by
  obtain ⟨i, j, q, q', hne, h1, h2, h3, w, h4⟩ := hr.symm_cases
  cases i with
  | succ i => exact .inl ((h.others i q h1).accesses h3)
  | zero =>
    cases j with
    | zero => exact absurd rfl hne
    | succ j => exact .inr ⟨⟨w, (h.others j q' h2).accesses h4⟩, (h.first q h1).accesses h3⟩

/-- **C62** (receiving). One thread listens, others run any user code: there is never a race on the input of the connection, nor on
the state of fragmented messages, whatever callbacks and other threads do. -/
theorem C62_receiving (env : Env) (fuel : Nat) (p p' : Pool) (ht : Team env fuel UserOp.any UserOp.any p) (hs : Pool.Steps env p p') :
    ¬ Race p' .input ∧ ¬ Race p' .lastOpcode := by
  have h : Roles False UserOp.any UserOp.any p' := (ht.roles (fun h => h.elim)).steps hs
  constructor
  all_goals
    intro hr
    rcases h.race hr with ⟨a, h1, h2⟩ | ⟨⟨w, a, h1, h2⟩, -⟩
    · cases a <;> first | exact h1.elim | cases h2
    · cases a <;> first | exact h1.elim | cases h2

/-- **C62** (the listener). If no other thread changes the listener, there is no race on it; callbacks may change it. -/
theorem C62_listener (env : Env) (fuel : Nat) (p p' : Pool) (ht : Team env fuel UserOp.keepsListener UserOp.any p) (hs : Pool.Steps env p p') :
    ¬ Race p' .listener := by
  have h : Roles False UserOp.keepsListener UserOp.any p' := (ht.roles (fun h => h.elim)).steps hs
  intro hr
  rcases h.race hr with ⟨a, h1, h2⟩ | ⟨⟨w, a, h1, h2⟩, -⟩
  · cases a <;> first | exact h1.elim | (cases h2; done) | exact h1 _ rfl
  · cases a <;> first | exact h1.elim | (cases h2; done) | exact h1 _ rfl

/-- **C62** (the configuration). If neither other threads nor callbacks change the configuration, there is no race on it. -/
theorem C62_config (env : Env) (fuel : Nat) (p p' : Pool) (ht : Team env fuel UserOp.keepsConfig UserOp.keepsConfig p) (hs : Pool.Steps env p p') :
    ¬ Race p' .config := by
  have h : Roles False UserOp.keepsConfig UserOp.keepsConfig p' := (ht.roles (fun h => h.elim)).steps hs
  intro hr
  rcases h.race hr with ⟨a, h1, h2⟩ | ⟨-, a, h1, h2⟩
  · cases a <;> first | exact h1.elim | (cases h2; done) | exact h1 _ rfl
  · cases a <;> first | exact h1.elim | (cases h2; done) | exact h1 _ rfl

/-- **C62** (whether to listen). If no other thread calls `stopListening`, and no write fails, there is no race on whether to listen;
callbacks may call it. -/
theorem C62_listening (env : Env) (fuel : Nat) (p p' : Pool) (ht : Team env fuel UserOp.keepsListening UserOp.any p)
    (hw : ∀ o ∈ p.st.sock.out.sched, o.fine = true) (hs : Pool.Steps env p p') : ¬ Race p' .listening := by
  have h : Roles True UserOp.keepsListening UserOp.any p' := (ht.roles (fun _ => hw)).steps hs
  intro hr
  rcases h.race hr with ⟨a, h1, h2⟩ | ⟨⟨w, a, h1, h2⟩, -⟩
  · cases a <;> first | exact h1.elim | (cases h2; done) | exact h1.2.elim (fun h => h rfl) fun h => h trivial
  · cases a <;> first | exact h1.elim | (cases h2; done) | exact h1.2.elim (fun h => h rfl) fun h => h trivial

/-- Of serialised sends at most one is in progress. -/
theorem one_sending {log : List Entry} (h : Serialised log) (i j : Nat) (hi : Sending i log) (hj : Sending j log) : i = j := by
  generalize hn : log.length = n
  induction n generalizing log with
  | zero =>
    obtain ⟨s, ss, e, -⟩ := hi
    rw [List.length_eq_zero_iff.mp hn] at e
    cases e
  | succ n ih =>
    obtain ⟨log, e, rfl⟩ : ∃ l x, log = l ++ [x] := by
      rcases List.eq_nil_or_concat log with rfl | ⟨l, x, rfl⟩
      · cases hn
      · exact ⟨l, x, List.concat_eq_append⟩
    have hn : log.length = n := by simpa using hn
    have hback : e.called = none → ∀ k, Sending k (log ++ [e]) → Sending k log := by
      intro hc k hk
      by_cases hk' : e.task = k
      · obtain ⟨s, ss, e1, e2⟩ := hk
        rw [sendsOf_snoc, if_pos hk'] at e1
        unfold feed at e1
        rw [hc] at e1
        dsimp only at e1
        cases hss : sendsOf k log with
        | nil => rw [hss] at e1; cases e1
        | cons s0 r0 =>
          rw [hss] at e1
          injection e1 with e1 _
          subst e1
          refine ⟨s0, r0, hss, ?_⟩
          dsimp only at e2
          split at e2
          · cases e2
          · split at e2
            · cases e2
            · exact e2
      · exact (sending_iff_call e hk').mp hk
    cases hc : e.called with
    | none => exact ih h.init (hback hc i hi) (hback hc j hj) hn
    | some c =>
      have hno : ∀ k, k ≠ e.task → ¬ Sending k (log ++ [e]) := fun k hk hs =>
        h log e [] rfl (by rw [hc]; rfl) k hk ((sending_iff_call e (Ne.symm hk)).mp hs)
      have h1 : i = e.task := Classical.byContradiction fun hne => hno i hne hi
      have h2 : j = e.task := Classical.byContradiction fun hne => hno j hne hj
      rw [h1, h2]

/-- **C62** (the output). Any threads (several may listen); if no send is called while another thread's send is in progress, there is no race on
the output of the connection. -/
theorem C62_output (env : Env) (fuel : Nat) (p : Pool) (hp : ∀ t ∈ p.threads, AppThread env fuel t) (log : List Entry) (p' : Pool)
    (h : Pool.Logged env p log p') (hser : Serialised log) : ¬ Race p' .output := by
  have hI := pool_inv env p fuel hp log p' h
  have key : ∀ (i : Nat) (q : Prog Unit) (w : Bool), p'.threads[i]? = some q → Accesses q .output w → Sending i log := by
    intro i q w hq ha
    obtain ⟨a, k, rfl, ht⟩ := ha
    obtain ⟨⟨ph, hg, hok⟩, -, -⟩ := hI.threads i _ hq
    cases a with
    | write d =>
      obtain ⟨⟨s, rfl, -⟩, -⟩ := hok .retry 0 trivial
      obtain ⟨r, hr⟩ := hg
      exact ⟨_, r, hr, rfl⟩
    | _ => cases ht
  rintro ⟨i, j, q, q', w, w', hne, h1, h2, h3, h4, -⟩
  exact hne (one_sending hser i j (key i q w h1 h3) (key j q' w' h2 h4))

theorem Team.app {env : Env} {fuel : Nat} {O O' : UserOp → Prop} {p : Pool} (h : Team env fuel O O' p) : ∀ t ∈ p.threads, AppThread env fuel t := by
  obtain ⟨⟨hd, others, e, ho⟩, -⟩ := h
  intro t ht
  rw [e] at ht
  rcases List.mem_cons.mp ht with rfl | ht
  · exact .listen _
  · exact (ho t ht).app

theorem Team.weaken {env : Env} {fuel : Nat} {O O' P P' : UserOp → Prop} {p : Pool} (h : Team env fuel O O' p) (h1 : ∀ op, O op → P op) (h2 : ∀ op, O' op → P' op) :
    Team env fuel P P' p := by
  obtain ⟨⟨hd, others, e, ho⟩, hc⟩ := h
  refine ⟨⟨hd, others, e, fun q hq => ?_⟩, fun tr op hop => h2 op (hc tr op hop)⟩
  exact (ho q hq).weaken h1

/-- **C62.** One thread listens, others only send; callbacks may send, stop listening and change the listener, but not the configuration; no
send is called while another thread's send is in progress; no write fails. Then no execution has a data race on anything. -/
theorem C62_no_race (env : Env) (fuel : Nat) (p : Pool) (ht : Team env fuel UserOp.sends UserOp.keepsConfig p)
    (hw : ∀ o ∈ p.st.sock.out.sched, o.fine = true) (log : List Entry) (p' : Pool) (h : Pool.Logged env p log p') (hser : Serialised log) (l : Loc) :
    ¬ Race p' l := by
  have hs : Pool.Steps env p p' := by
    clear hser
    induction h with
    | refl => exact .refl
    | tail _ h1 h2 ih => exact .tail ih (.mk h1 h2)
  have hany : ∀ op, UserOp.keepsConfig op → UserOp.any op := fun _ _ => trivial
  cases l with
  | config => exact C62_config env fuel p p' (ht.weaken (fun _ h => h.2.1) fun _ h => h) hs
  | listener => exact C62_listener env fuel p p' (ht.weaken (fun _ h => h.1) hany) hs
  | lastOpcode => exact (C62_receiving env fuel p p' (ht.weaken (fun _ _ => trivial) hany) hs).2
  | listening => exact C62_listening env fuel p p' (ht.weaken (fun _ h => h.2.2) hany) hw hs
  | input => exact (C62_receiving env fuel p p' (ht.weaken (fun _ _ => trivial) hany) hs).1
  | output => exact C62_output env fuel p ht.app log p' h hser

/-! ## None of the conditions can be left out -/

/-- What the thread is about to access. -/
def nextTouch (q : Option (Prog Unit)) : Option (Loc × Bool) :=
  match q with
  | some (.act a _) => a.touches
  | _ => none

theorem nextTouch_some {q : Option (Prog Unit)} {l : Loc} {w : Bool} (h : nextTouch q = some (l, w)) : ∃ q', q = some q' ∧ Accesses q' l w := by
  cases q with
  | none => cases h
  | some q =>
    cases q with
    | act a k => exact ⟨_, rfl, a, k, rfl, h⟩
    | _ => cases h

/-- What the first two threads are about to access after the given steps. -/
def touchesAfter (env : Env) (is : List Nat) (p : Pool) : Option (Option (Loc × Bool) × Option (Loc × Bool)) :=
  (Pool.execLog env is p).map fun r => (nextTouch r.2.threads[0]?, nextTouch r.2.threads[1]?)

theorem race_after {env : Env} {is : List Nat} {p : Pool} {l : Loc} {w w' : Bool} (hw : (w || w') = true)
    (h : touchesAfter env is p = some (some (l, w), some (l, w'))) : ∃ p', Pool.Steps env p p' ∧ Race p' l := by
  unfold touchesAfter at h
  rcases he : Pool.execLog env is p with _ | ⟨log, p'⟩
  · rw [he] at h; cases h
  · rw [he] at h
    injection h with h
    injection h with h1 h2
    obtain ⟨q, e1, a1⟩ := nextTouch_some h1
    obtain ⟨q', e2, a2⟩ := nextTouch_some h2
    exact ⟨p', execLog_steps_from _ _ _ _ .refl he, 0, 1, q, q', w, w', by decide, e1, e2, a1, a2, hw⟩

/-- A thread listens (and answers a ping) while another one runs the given code. -/
def exRacing (ops : List UserOp) (out : List IoOutcome) : Pool := ⟨[listenT exEnv 40 default, userOpsT exEnv 40 ops],
  { sock := { Sock.new { readBufferSize := 2 } ⟨[], out⟩ with listener := some 7 }
    inp := ⟨[0x89, 0x01, 0x21], Fixture.slow 4⟩ }⟩

/-- **C62** (`stopListening`). Another thread calls `stopListening` while a thread listens: a data race, on a `bool` that is not atomic. -/
theorem C62_stop_races : ∃ p', Pool.Steps exEnv (exRacing [.stopListening] (Fixture.slow 9)) p' ∧ Race p' .listening :=
  race_after (w := false) (w' := true) (is := List.replicate 21 0) rfl (by decide +kernel)

/-- **C62** (failing sends). A send of another thread that fails is a data race with `listen`, too. -/
theorem C62_failed_send_races : ∃ p', Pool.Steps exEnv (exRacing [.send (.text (some [7])) true] [.upTo 9, .upTo 9, .upTo 9, .broken]) p' ∧ Race p' .listening :=
  race_after (w := false) (w' := true) (is := List.replicate 17 0 ++ List.replicate 4 1) rfl (by decide +kernel)

/-- **C62** (`setListener`). -/
theorem C62_setListener_races : ∃ p', Pool.Steps exEnv (exRacing [.setListener none] (Fixture.slow 9)) p' ∧ Race p' .listener :=
  race_after (w := false) (w' := true) (is := List.replicate 10 0) rfl (by decide +kernel)

/-- **C62** (`getConfig`, through which the configuration is changed). -/
theorem C62_setConfig_races : ∃ p', Pool.Steps exEnv (exRacing [.setConfig {}] (Fixture.slow 9)) p' ∧ Race p' .config :=
  race_after (w := false) (w' := true) (is := List.replicate 5 0) rfl (by decide +kernel)

/-- A listener whose callbacks change the configuration, while another thread sends. -/
def exReconfigure : Env := { Fixture.env with react := fun _ => [.setConfig {}] }

def exReconfiguring : Pool := ⟨[listenT exReconfigure 40 default, userOpsT exReconfigure 40 [.send (.text (some [7])) true]],
  { sock := { Sock.new { readBufferSize := 2 } ⟨[], Fixture.slow 9⟩ with listener := some 7 }
    inp := ⟨[0x89, 0x01, 0x21], Fixture.slow 4⟩ }⟩

/-- **C62** (a callback that changes the configuration). It races with a send of another thread, which looks at it. -/
theorem C62_callback_setConfig_races : ∃ p', Pool.Steps exReconfigure exReconfiguring p' ∧ Race p' .config :=
  race_after (w := true) (w' := false) (is := List.replicate 12 0 ++ [1]) rfl (by decide +kernel)

/-- **C62** (overlapping sends). -/
theorem C62_sends_race : ∃ p', Pool.Steps exEnv (exRacing [.send (.text (some [7])) true] (Fixture.slow 9)) p' ∧ Race p' .output :=
  race_after (w := true) (w' := true) (is := List.replicate 15 0 ++ List.replicate 2 1) rfl (by decide +kernel)

/-- The hypotheses of `C62_no_race` (and, with it, of the others) are met: a thread listens and answers a ping, another one sends; the answer
follows when the send is over. -/
example : ∃ log p', Team exEnv 40 UserOp.sends UserOp.keepsConfig exThreads ∧ (∀ o ∈ exThreads.st.sock.out.sched, o.fine = true) ∧
    Pool.Logged exEnv exThreads log p' ∧ Serialised log ∧ p'.st.sock.out.written = [0x81, 2, 7, 8, 0x8a, 1, 0x21] := by
  have h := exSerial
  rcases he : Pool.execLog exEnv (List.replicate 11 1 ++ List.replicate 21 0) exThreads with _ | ⟨log, p'⟩
  · rw [he] at h; cases h
  · rw [he] at h
    injection h with h
    injection h with h1 h2 h3 h4 h5 h6
    refine ⟨log, p', ⟨⟨_, _, rfl, fun q hq => ?_⟩, fun tr op hop => ?_⟩, by decide, execLog_logged he, serialCheck_sound h1, h4⟩
    · rw [List.mem_singleton] at hq
      subst hq
      refine .code _ fun op hop => ?_
      rw [List.mem_singleton] at hop
      subst hop
      exact ⟨fun _ h => (by cases h), fun _ h => (by cases h), fun h => (by cases h)⟩
    · have hop : op ∈ Async.exEnv.react tr := hop
      intro c hc
      subst hc
      revert hop
      unfold exEnv
      dsimp only
      split <;> simp

/-- The undefined behaviour the thread has reached. -/
def ubOf (q : Option (Prog Unit)) : Option UB :=
  match q with
  | some (.ub u) => some u
  | _ => none

/-- A thread listens with a read buffer of two bytes, another one sets the size to 100; a text message of five bytes arrives at once. -/
def exResize : Pool := ⟨[listenT exEnv 40 default, userOpsT exEnv 40 [.setConfig { readBufferSize := 100 }]],
  { sock := { Sock.new { readBufferSize := 2 } ⟨[], []⟩ with listener := some 7 }
    inp := ⟨[0x81, 0x05, 1, 2, 3, 4, 5], [.upTo 9, .upTo 9, .upTo 9]⟩ }⟩

/-- **C20** (threads). The same change of the configuration, made by another thread between the allocation of the read buffer and the read, writes beyond the end
of the buffer. -/
theorem C20_overrun_from_thread : ∃ p', Pool.Steps exEnv exResize p' ∧ p'.threads[0]? = some (.ub .bufferOverflow) := by
  have h : (Pool.execLog exEnv [0, 0, 0, 0, 0, 1, 0, 0] exResize).map (fun r => ubOf r.2.threads[0]?) = some (some .bufferOverflow) := by decide +kernel
  rcases he : Pool.execLog exEnv [0, 0, 0, 0, 0, 1, 0, 0] exResize with _ | ⟨log, p'⟩
  · rw [he] at h; cases h
  · rw [he] at h
    injection h with h
    refine ⟨p', execLog_steps_from _ _ _ _ .refl he, ?_⟩
    dsimp only at h
    generalize p'.threads[0]? = q at h
    rcases q with _ | q
    · cases h
    · cases q with
      | ub u => injection h with h; rw [h]
      | _ => cases h

end OatWS.Threads
