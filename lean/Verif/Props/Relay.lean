import Verif.Proofs.ProcessRelay
import Verif.Props.ProcessRest
/-! # C86: messages passed on from one socket of a process to others -/

namespace OatWS.Process
open RFC6455 Async Network

variable {env penv : Nat → Env} {may : Nat → UserOp → Prop} {fuel : Nat} {jobs : List Job} {socks : Nat → St} {peers : Nat → Endpoint} {la lb : List (Nat × Entry)} {ns : List (Nat × Note)}
  {n : Net}

theorem onto_append (j : Nat) (xs ys : List (Nat × SendCall)) : onto j (xs ++ ys) = onto j xs ++ onto j ys := by simp [onto]

theorem onto_flatMap (j : Nat) (f : Msg → List (Nat × SendCall)) (ms : List Msg) : onto j (ms.flatMap f) = ms.flatMap fun m => onto j (f m) := by
  induction ms with
  | nil => rfl
  | cons m ms ih => rw [List.flatMap_cons, onto_append, ih, List.flatMap_cons]

theorem onto_prefix (j : Nat) {xs ys : List (Nat × SendCall)} (h : xs <+: ys) : onto j xs <+: onto j ys := by
  obtain ⟨t, rfl⟩ := h
  rw [onto_append]
  exact List.prefix_append ..

/-- The calls of thread `i` on socket `j`, from the record of this socket. -/
theorem onto_callsBy (i j : Nat) (log : List (Nat × Entry)) : callsOf ((of j log).filter fun e => e.task == i) = onto j (callsBy i log) := by
  induction log with
  | nil => rfl
  | cons x log ih =>
    rw [show x :: log = [x] ++ log from rfl, callsBy_append, onto_append, ← ih]
    have : of j ([x] ++ log) = of j [x] ++ of j log := by simp only [of, List.filter_append, List.map_append]
    rw [this, List.filter_append]
    show List.filterMap Entry.called _ = _
    rw [List.filterMap_append]
    show _ = _ ++ List.filterMap Entry.called _
    congr 1
    obtain ⟨k, e⟩ := x
    by_cases hk : k = j
    · subst hk
      by_cases ht : e.task = i
      · cases hc : e.called <;> simp [of, callsBy, onto, ht, hc]
      · simp [of, callsBy, onto, ht]
    · by_cases ht : e.task = i
      · cases hc : e.called <;> simp [of, callsBy, onto, ht, hc, hk]
      · simp [of, callsBy, onto, ht, hk]

/-- **C86** (what is passed on). Thread `i` of a process with any number of sockets is the session of socket `k`, or listens on it, and no other thread does; its user code passes messages on: when it has been
told all of a message `m`, it calls the sends `f m`, on whichever sockets. At every moment, whatever has failed, whatever other threads do: what the thread has called on socket `j` is a beginning of what `f` says
about the messages its listener has been told; exactly this whenever the thread is about to read again, and, if user code does not throw, when it has ended. -/
theorem C86_passes_on (h : Net.Noted env penv may ⟨jobs.map (Job.code env fuel), socks, peers⟩ la lb ns n) (k i j : Nat) (hd : Header)
    (hi : jobs[i]? = some (.listens k hd) ∨ jobs[i]? = some (.session k hd)) (hother : ∀ j J, jobs[j]? = some J → J.socket = some k → j = i)
    (f : Msg → List (Nat × SendCall)) (hp : PassesOn f (notesOf i ns)) :
    ∃ evs, (n.socks k).sock.trace = (socks k).sock.trace ++ evs ∧
      callsOf ((of j la).filter fun e => e.task == i) <+: (reassemble [] evs).1.flatMap (fun m => onto j (f m)) ∧
      ((∃ c x, n.threads[i]? = some (.act k (.read c) x)) ∨ ((n.threads[i]? = some (.ret ()) ∨ ∃ e, n.threads[i]? = some (.throw e)) ∧ ∀ cs, .chose cs ∈ notesOf i ns → ∀ x ∈ cs, x.2.calm) →
        callsOf ((of j la).filter fun e => e.task == i) = (reassemble [] evs).1.flatMap (fun m => onto j (f m))) := by
  obtain ⟨J, hJ, hk⟩ : ∃ J, jobs[i]? = some J ∧ J.socket = some k := by
    rcases hi with hi | hi <;> exact ⟨_, hi, rfl⟩
  refine ⟨toldIn (notesOf i ns), h.told_alone hJ hk hother, ?_⟩
  rw [onto_callsBy, ← onto_flatMap]
  obtain ⟨hlen, how⟩ := h.owing (Q := CalmNotes (notesOf i ns))
  have hil : i < n.threads.length := hlen ▸ (List.getElem?_eq_some_iff.mp hJ).1
  have hg : n.threads[i]? = some n.threads[i] := List.getElem?_eq_getElem hil
  generalize n.threads[i] = g at hg
  obtain ⟨ha, p, hp1, hp2⟩ := how i J g hJ hg hp.quiet id
  obtain ⟨d1, d2⟩ := hp.decides ha
  have hpre : decided (notesOf i ns) <+: (reassemble [] (toldIn (notesOf i ns))).1.flatMap f := by
    cases hdue : dueIn (notesOf i ns) with
    | true => exact ⟨_, d2 hdue⟩
    | false => rw [d1 hdue]; exact List.prefix_refl _
  refine ⟨onto_prefix j ((List.prefix_append _ p).trans (hp2 ▸ hpre)), fun hw => ?_⟩
  suffices hx : dueIn (notesOf i ns) = false ∧ p = [] by
    rw [← d1 hx.1, ← hp2, hx.2, List.append_nil]
  rw [hg] at hw
  rcases hw with ⟨c, x, hw⟩ | ⟨hw | ⟨e, hw⟩, hc⟩
  · injection hw with hw
    subst hw
    exact ⟨hp1.1, hp1.2.1⟩
  · injection hw with hw
    subst hw
    exact ⟨hp1.1, hp1.2 hc⟩
  · injection hw with hw
    subst hw
    exact ⟨hp1.1, hp1.2 hc⟩

/-- What is heard of the first calls is heard of all of them. -/
theorem HeardUpTo.extend {calls all : List SendCall} {l m : Nat} {part : List UInt8} {evs : List Event} (h : HeardUpTo calls l m part evs) (hp : calls <+: all) : HeardUpTo all l m part evs := by
  obtain ⟨r, rfl⟩ := hp
  refine ⟨h.to, ?_, ?_, ?_⟩
  · rw [List.length_append]; exact Nat.le_trans h.le (Nat.le_add_right ..)
  · rw [List.take_append_of_le_length h.le]; exact h.heard
  · rcases h.part with hp | ⟨c, d, g1, g2⟩
    · exact .inl hp
    · refine .inr ⟨c, d, ?_, g2⟩
      rw [List.getElem?_append_left (List.getElem?_eq_some_iff.mp g1).1]
      exact g1

theorem only_calls {i : Nat} {log : List Entry} (h : ∀ e ∈ log, e.called.isSome → e.task = i) : callsOf (log.filter fun e => e.task == i) = callsOf log := by
  unfold callsOf
  induction log with
  | nil => rfl
  | cons e log ih =>
    have ih := ih fun x hx => h x (List.mem_cons_of_mem _ hx)
    have he := h e List.mem_cons_self
    by_cases ht : e.task = i
    · rw [List.filter_cons_of_pos (by simp [ht])]
      simp only [List.filterMap_cons, ih]
    · rw [List.filter_cons_of_neg (by simp [ht])]
      cases hc : e.called with
      | none => rw [ih, List.filterMap_cons_none hc]
      | some c => exact absurd (he (by rw [hc]; rfl)) ht

/-- **C86** (a relay, at every moment). Three parties: the peer of socket `k` says something (messages, one of them perhaps in fragments, pings and pongs, ended or not by a close); thread `i` of the process, which
listens on socket `k`, passes it on; only this thread sends on socket `j`, to whose peer it passes the messages on. Anything may fail, but nobody calls a send after one of that endpoint has failed. At every moment the
listener of the peer of socket `j` has heard exactly a beginning of what is to be passed on of what the peer of socket `k` has said, in order, unchanged. -/
theorem C86_relay (h : Net.Noted env penv may ⟨jobs.map (Job.code env fuel), socks, peers⟩ la lb ns n) (k i j fuelA l B : Nat) (hd : Header)
    (hi : jobs[i]? = some (.listens k hd) ∨ jobs[i]? = some (.session k hd)) (hother : ∀ j J, jobs[j]? = some J → J.socket = some k → j = i)
    (hm : ∀ op, may k op → (Threads.steady l B).Op op) (hB : 0 < B) (h0 : (Threads.steady l B).In false (socks k)) (hno : (socks k).inp.bytes = [])
    (hf1 : (socks k).inp.sched.length < fuel) (hf2 : (socks k).sock.out.sched.length < fuel) (hA : (peers k).App (penv k) fuelA)
    (hser : Serialised (of k lb)) (hres : Resigned (of k lb)) (cs last : List SendCall) (hc : callsOf (of k lb) = cs ++ last) (ht : Speech cs last)
    (f : Msg → List (Nat × SendCall)) (hp : PassesOn f (notesOf i ns)) (honly : ∀ e ∈ of j la, e.called.isSome → e.task = i) (hresJ : Resigned (of j la))
    (fuelJ lJ BJ : Nat) (hJ : (peers j).Listening (penv j) fuelJ lJ BJ) (hfJ : (peers j).Enough fuelJ)
    (csJ lastJ : List SendCall) (hcJ : passedOn f j (callsOf (of k lb)) = csJ ++ lastJ) (htJ : Speech csJ lastJ) :
    ∃ evs m part, (n.peers j).st.sock.trace = (peers j).st.sock.trace ++ evs ∧ HeardUpTo (passedOn f j (callsOf (of k lb))) lJ m part evs := by
  obtain ⟨evs, e1, e2, _⟩ := C86_passes_on h k i j hd hi hother f hp
  obtain ⟨evs', m, part, e3, e4⟩ := (C79_process_hears h.runs k i fuelA l B hd hi hother hm hB h0 hno hf1 hf2 hA hser hres cs last hc ht).1
  have he : evs' = evs := List.append_cancel_left (e3.symm.trans e1)
  subst he
  rw [only_calls honly] at e2
  have hpre : callsOf (of j la) <+: passedOn f j (callsOf (of k lb)) := by
    refine e2.trans (flatMap_prefix ?_)
    rw [e4.heard]
    exact told_prefix (List.take_prefix ..)
  obtain ⟨cs', last', hc', ht'⟩ := Speech.prefix htJ (hcJ ▸ hpre)
  obtain ⟨evs, m, part, k1, k2⟩ := (C79_peer_hears h.runs j fuelJ lJ BJ hJ hfJ (C69_one_sender _ ⟨i, honly⟩) hresJ cs' last' hc' ht').1
  exact ⟨evs, m, part, k1, HeardUpTo.extend k2 hpre⟩

/-- **C86** (all is passed on). The process and the peer of socket `k` have come to rest, the connections still working. If the peer's sends were serialised and none of them failed, then the thread that listens on
socket `k` has ended, or it has called, on each socket, exactly what is to be passed on of all that the peer has said. -/
theorem C86_all_passed_on (h : Net.Noted env penv may ⟨jobs.map (Job.code env fuel), socks, peers⟩ la lb ns n)
    (hf : ∀ k, (socks k).inp.sched.length < fuel ∧ (socks k).sock.out.sched.length < fuel) (hrest : n.AtRest env) (hw : n.Works) (k i j fuelA l B : Nat) (hd : Header)
    (hi : jobs[i]? = some (.listens k hd) ∨ jobs[i]? = some (.session k hd)) (hother : ∀ j J, jobs[j]? = some J → J.socket = some k → j = i)
    (hm : ∀ op, may k op → (Threads.steady l B).Op op) (hB : 0 < B) (h0 : (Threads.steady l B).In false (socks k)) (hno : (socks k).inp.bytes = [])
    (hA : (peers k).App (penv k) fuelA) (hfA : (peers k).Enough fuelA) (hrA : (n.peers k).AtRest (penv k)) (hdA : (n.peers k).Defined) (hwA : (n.peers k).Writable)
    (hser : Serialised (of k lb)) (hok : ∀ e ∈ of k lb, e.failed = false) (cs last : List SendCall) (hc : callsOf (of k lb) = cs ++ last) (ht : Speech cs last)
    (f : Msg → List (Nat × SendCall)) (hp : PassesOn f (notesOf i ns)) (g : Code Unit) (hg : n.threads[i]? = some g) :
    Ended g ∨ callsOf ((of j la).filter fun e => e.task == i) = passedOn f j (callsOf (of k lb)) := by
  rcases C83_process_heard_all h.runs hf hrest hw k i fuelA l B hd hi hother hm hB h0 hno hA hfA hrA hdA hwA hser hok cs last hc ht g hg with h1 | ⟨⟨evs', e3, e4⟩, ⟨m, c, rfl⟩, _⟩
  · exact .inl h1
  · obtain ⟨evs, e1, _, e2⟩ := C86_passes_on h k i j hd hi hother f hp
    have he : evs' = evs := List.append_cancel_left (e3.symm.trans e1)
    subst he
    right
    rw [e2 (.inl ⟨m, c, hg⟩), e4.heard]
    rfl

/-- **C86** (a relay, at rest). When the process and both peers have come to rest, the connections still working, and no send has failed, the listener of the peer of socket `j` has heard exactly all that is to be
passed on of all the peer of socket `k` has said, in order, unchanged (unless the thread that passes it on has ended). -/
theorem C86_relay_complete (h : Net.Noted env penv may ⟨jobs.map (Job.code env fuel), socks, peers⟩ la lb ns n)
    (hf : ∀ k, (socks k).inp.sched.length < fuel ∧ (socks k).sock.out.sched.length < fuel) (hrest : n.AtRest env) (hw : n.Works) (hub : ∀ k u, .ub k u ∉ n.threads) (k i j fuelA l B : Nat) (hd : Header)
    (hi : jobs[i]? = some (.listens k hd) ∨ jobs[i]? = some (.session k hd)) (hother : ∀ j J, jobs[j]? = some J → J.socket = some k → j = i)
    (hm : ∀ op, may k op → (Threads.steady l B).Op op) (hB : 0 < B) (h0 : (Threads.steady l B).In false (socks k)) (hno : (socks k).inp.bytes = [])
    (hA : (peers k).App (penv k) fuelA) (hfA : (peers k).Enough fuelA) (hrA : (n.peers k).AtRest (penv k)) (hdA : (n.peers k).Defined) (hwA : (n.peers k).Writable)
    (hser : Serialised (of k lb)) (hok : ∀ e ∈ of k lb, e.failed = false) (cs last : List SendCall) (hc : callsOf (of k lb) = cs ++ last) (ht : Speech cs last)
    (f : Msg → List (Nat × SendCall)) (hp : PassesOn f (notesOf i ns)) (g : Code Unit) (hg : n.threads[i]? = some g)
    (honly : ∀ e ∈ of j la, e.called.isSome → e.task = i) (hokJ : ∀ e ∈ of j la, e.failed = false) (fuelJ lJ BJ : Nat) (hJ : (peers j).Listening (penv j) fuelJ lJ BJ) (hfJ : (peers j).Enough fuelJ)
    (hrJ : (n.peers j).AtRest (penv j)) (hwJ : (n.peers j).Writable) (hrdJ : (n.peers j).Readable) (hn : Endpoint.Unbroken (penv j) (peers j) (n.peers j))
    (csJ lastJ : List SendCall) (hcJ : passedOn f j (callsOf (of k lb)) = csJ ++ lastJ) (htJ : Speech csJ lastJ) :
    Ended g ∨ ∃ evs, (n.peers j).st.sock.trace = (peers j).st.sock.trace ++ evs ∧ HeardWhole (passedOn f j (callsOf (of k lb))) lJ evs := by
  rcases C86_all_passed_on h hf hrest hw k i j fuelA l B hd hi hother hm hB h0 hno hA hfA hrA hdA hwA hser hok cs last hc ht f hp g hg with h1 | h1
  · exact .inl h1
  · rw [only_calls honly] at h1
    obtain ⟨evs, e1, e2, _⟩ := C83_peer_heard_all h.runs hf hrest hw hub j fuelJ lJ BJ hJ hfJ hrJ hwJ hrdJ hn (C69_one_sender _ ⟨i, honly⟩) hokJ csJ lastJ (h1.trans hcJ) htJ
    exact .inr ⟨evs, e1, h1 ▸ e2⟩

/-- **C86** (a chat room, at rest). Any number of threads of the process pass messages on; those that send on socket `j` do it one after the other, and no send has failed. At rest the listener of the peer of socket `j`
has heard exactly what has been called on this socket, in order; and what each thread has called there is exactly what is to be passed on of all that its own peer has said (unless the thread has ended). So
each member hears each message of each other member exactly once, those of one member in order. -/
theorem C86_room (h : Net.Noted env penv may ⟨jobs.map (Job.code env fuel), socks, peers⟩ la lb ns n)
    (hf : ∀ k, (socks k).inp.sched.length < fuel ∧ (socks k).sock.out.sched.length < fuel) (hrest : n.AtRest env) (hw : n.Works) (hub : ∀ k u, .ub k u ∉ n.threads)
    (j fuelJ lJ BJ : Nat) (hJ : (peers j).Listening (penv j) fuelJ lJ BJ) (hfJ : (peers j).Enough fuelJ)
    (hrJ : (n.peers j).AtRest (penv j)) (hwJ : (n.peers j).Writable) (hrdJ : (n.peers j).Readable) (hn : Endpoint.Unbroken (penv j) (peers j) (n.peers j))
    (hserJ : Serialised (of j la)) (hokJ : ∀ e ∈ of j la, e.failed = false) (csJ lastJ : List SendCall) (hcJ : callsOf (of j la) = csJ ++ lastJ) (htJ : Speech csJ lastJ) :
    (∃ evs, (n.peers j).st.sock.trace = (peers j).st.sock.trace ++ evs ∧ HeardWhole (callsOf (of j la)) lJ evs) ∧
    ∀ (k i fuelA l B : Nat) (hd : Header) (f : Msg → List (Nat × SendCall)) (g : Code Unit),
      (jobs[i]? = some (.listens k hd) ∨ jobs[i]? = some (.session k hd)) → (∀ j J, jobs[j]? = some J → J.socket = some k → j = i) →
      (∀ op, may k op → (Threads.steady l B).Op op) → 0 < B → (Threads.steady l B).In false (socks k) → (socks k).inp.bytes = [] →
      (peers k).App (penv k) fuelA → (peers k).Enough fuelA → (n.peers k).AtRest (penv k) → (n.peers k).Defined → (n.peers k).Writable →
      Serialised (of k lb) → (∀ e ∈ of k lb, e.failed = false) → (∃ cs last, callsOf (of k lb) = cs ++ last ∧ Speech cs last) →
      PassesOn f (notesOf i ns) → n.threads[i]? = some g →
      Ended g ∨ callsOf ((of j la).filter fun e => e.task == i) = passedOn f j (callsOf (of k lb)) := by
  obtain ⟨evs, e1, e2, _⟩ := C83_peer_heard_all h.runs hf hrest hw hub j fuelJ lJ BJ hJ hfJ hrJ hwJ hrdJ hn hserJ hokJ csJ lastJ hcJ htJ
  refine ⟨⟨evs, e1, e2⟩, ?_⟩
  rintro k i fuelA l B hd f g hi hother hm hB h0 hno hA hfA hrA hdA hwA hser hok ⟨cs, last, hc, ht⟩ hp hg
  exact C86_all_passed_on h hf hrest hw k i j fuelA l B hd hi hother hm hB h0 hno hA hfA hrA hdA hwA hser hok cs last hc ht f hp g hg

/-! ## A concrete case: the chat of C79 and C83 -/

/-- As `Net.turn`, with the notes. -/
def Net.jot (env : Nat → Env) (t : Turn) (n : Net) : List (Nat × Note) :=
  match t with
  | .own i =>
    match n.threads[i]? with
    | some (.act k a _) =>
      match Threads.Ready a (n.socks k), Threads.exec (env k) a (n.socks k) with
      | true, some _ => noteAt i k a
      | _, _ => []
    | _ => []
  | .chooses i cs =>
    match n.threads[i]? with
    | some (.choose _) => [(i, .chose cs)]
    | _ => []
  | .peer _ _ => []

def Net.jots (env penv : Nat → Env) : List Turn → List (Nat × Note) → List (Nat × Entry) × List (Nat × Entry) × Net → List (Nat × Note)
  | [], ns, _ => ns
  | t :: ts, ns, x => Net.jots env penv ts (ns ++ Net.jot env t x.2.2) (Net.turn env penv t x)

theorem Net.turn_noted {n0 : Net} (t : Turn) (ht : ∀ i cs, t = .chooses i cs → ∀ x ∈ cs, may x.1 x.2) {x : List (Nat × Entry) × List (Nat × Entry) × Net} {ns : List (Nat × Note)}
    (h : Net.Noted env penv may n0 x.1 x.2.1 ns x.2.2) : Net.Noted env penv may n0 (Net.turn env penv t x).1 (Net.turn env penv t x).2.1 (ns ++ Net.jot env t x.2.2) (Net.turn env penv t x).2.2 := by
  obtain ⟨la, lb, n⟩ := x
  cases t with
  | own i =>
    cases e : n.threads[i]? with
    | none => simp only [Net.turn, Net.jot, e, List.append_nil]; exact h
    | some g =>
      cases g with
      | act k a c =>
        cases e1 : Threads.Ready a (n.socks k) with
        | false => simp only [Net.turn, Net.jot, e, e1, List.append_nil]; exact h
        | true =>
          cases e2 : Threads.exec (env k) a (n.socks k) with
          | none => simp only [Net.turn, Net.jot, e, e1, e2, List.append_nil]; exact h
          | some y =>
            obtain ⟨r, st'⟩ := y
            simp only [Net.turn, Net.jot, e, e1, e2]
            exact .own h e e1 e2
      | _ => simp only [Net.turn, Net.jot, e, List.append_nil]; exact h
  | chooses i cs =>
    cases e : n.threads[i]? with
    | none => simp only [Net.turn, Net.jot, e, List.append_nil]; exact h
    | some g =>
      cases g with
      | choose c =>
        simp only [Net.turn, Net.jot, e]
        exact .chooses h e (ht i cs rfl)
      | _ => simp only [Net.turn, Net.jot, e, List.append_nil]; exact h
  | peer k i =>
    dsimp only [Net.turn, Net.jot]
    rw [List.append_nil]
    split
    · rename_i e b he
      exact .peer h (Endpoint.turn_step he)
    · exact h

theorem Net.play_noted {n0 : Net} (ts : List Turn) (ht : ∀ i cs, .chooses i cs ∈ ts → ∀ x ∈ cs, may x.1 x.2) {x : List (Nat × Entry) × List (Nat × Entry) × Net} {ns : List (Nat × Note)}
    (h : Net.Noted env penv may n0 x.1 x.2.1 ns x.2.2) : Net.Noted env penv may n0 (Net.play env penv ts x).1 (Net.play env penv ts x).2.1 (Net.jots env penv ts ns x) (Net.play env penv ts x).2.2 := by
  induction ts generalizing x ns with
  | nil => exact h
  | cons t ts ih => exact ih (fun i cs hm => ht i cs (List.mem_cons_of_mem _ hm)) (Net.turn_noted t (fun i cs e => ht i cs (by rw [e]; exact List.mem_cons_self ..)) h)

/-- A check of `PassesOn`. -/
def passesNow (f : Msg → List (Nat × SendCall)) : List Note → List Note → Bool
  | _, [] => true
  | pre, .told k e :: ns => passesNow f (pre ++ [.told k e]) ns
  | pre, .chose cs :: ns => decide (saidM cs = dueAfter f pre) && passesNow f (pre ++ [.chose cs]) ns

theorem passesNow_sound {f : Msg → List (Nat × SendCall)} {ns : List Note} (h : passesNow f [] ns = true) : PassesOn f ns := by
  have key : ∀ (ns pre : List Note), passesNow f pre ns = true → ∀ q cs, q ++ [.chose cs] <+: pre ++ ns → q ++ [.chose cs] <+: pre ∨ saidM cs = dueAfter f q := by
    intro ns
    induction ns with
    | nil => intro pre _ q cs hq; rw [List.append_nil] at hq; exact .inl hq
    | cons x ns ih =>
      intro pre hx q cs hq
      have hq : q ++ [.chose cs] <+: (pre ++ [x]) ++ ns := by rw [List.append_assoc]; exact hq
      cases x with
      | told k e =>
        rcases ih _ hx q cs hq with h1 | h1
        · rcases snoc_prefix_snoc h1 with h2 | ⟨_, h2⟩
          · exact .inl h2
          · cases h2
        · exact .inr h1
      | chose ds =>
        unfold passesNow at hx
        rw [Bool.and_eq_true] at hx
        rcases ih _ hx.2 q cs hq with h1 | h1
        · rcases snoc_prefix_snoc h1 with h2 | ⟨rfl, h2⟩
          · exact .inl h2
          · injection h2 with h2
            exact .inr (h2 ▸ of_decide_eq_true hx.1)
        · exact .inr h1
  intro q cs hq
  rcases key ns [] h q cs (by simpa using hq) with h1 | h1
  · obtain ⟨t, ht⟩ := h1
    have := congrArg List.length ht
    simp at this
  · exact h1

/-- What the callback of the first session does with a text message: it says it to the second client and answers the first one. -/
def exPass : Msg → List (Nat × SendCall)
  | .text d => [(1, .text (some d)), (0, .text (some [33]))]
  | _ => []

def exRelayTurns : List Turn := exChatTurns ++ [.chooses 0 []] ++ List.replicate 3 (.own 0) ++ List.replicate 3 (.own 1) ++ List.replicate 3 (.peer 0 0) ++ List.replicate 3 (.peer 0 1) ++ List.replicate 3 (.peer 1 0) ++
  List.replicate 3 (.peer 1 1)

def exRelayNotes := Net.jots (fun _ => Fixture.env) (fun _ => Fixture.env) exRelayTurns [] ([], [], ⟨exChatJobs.map (Job.code (fun _ => Fixture.env) 100), exChatSocks, exChatPeers⟩)

theorem exRelay_notes : notesOf 0 exRelayNotes = [.chose [], .told 0 (.readMessage 7 1 [104]), .chose [], .told 0 (.readMessage 7 1 [105]), .chose [], .told 0 (.readMessage 7 1 []),
    .chose [(1, .send (.text (some [104, 105])) true), (0, .send (.text (some [33])) true)]] := by decide +kernel

theorem exChatEnd_eq : exChatEnd = Net.play (fun _ => Fixture.env) (fun _ => Fixture.env) exRelayTurns ([], [], ⟨exChatJobs.map (Job.code (fun _ => Fixture.env) 100), exChatSocks, exChatPeers⟩) := by
  unfold exChatEnd exRelayTurns
  rfl

theorem exRelay_noted : Net.Noted (fun _ => Fixture.env) (fun _ => Fixture.env) exChatMay ⟨exChatJobs.map (Job.code (fun _ => Fixture.env) 100), exChatSocks, exChatPeers⟩ exChatEnd.1 exChatEnd.2.1 exRelayNotes exChatEnd.2.2 := by
  rw [exChatEnd_eq]
  unfold exRelayNotes
  refine Net.play_noted exRelayTurns (fun i cs h => ?_) .refl
  simp only [exRelayTurns, exChatTurns, List.mem_append, List.mem_cons, List.mem_replicate, List.not_mem_nil, reduceCtorEq, and_false, or_false, Turn.chooses.injEq] at h
  rcases h with ((((⟨_, rfl⟩ | ⟨_, rfl⟩) | ⟨_, rfl⟩) | ⟨_, rfl⟩) | ⟨_, rfl⟩) | ⟨_, rfl⟩
  · nofun
  · nofun
  · nofun
  · nofun
  · intro x hx
    simp only [List.mem_cons, List.not_mem_nil, or_false] at hx
    rcases hx with rfl | rfl <;> exact ⟨_, rfl, by decide⟩
  · nofun

theorem exRelay_passes : PassesOn exPass (notesOf 0 exRelayNotes) := by
  rw [exRelay_notes]
  exact passesNow_sound (by decide +kernel)

theorem exRelay_only : (of 1 exChatEnd.1).all (fun e => e.called.isNone || e.task == 0) = true := by decide +kernel

theorem only_sound {i : Nat} {l : List Entry} (h : l.all (fun e => e.called.isNone || e.task == i) = true) : ∀ e ∈ l, e.called.isSome → e.task = i := by
  intro e hm hc
  have := List.all_eq_true.mp h e hm
  cases h : e.called with
  | none => rw [h] at hc; cases hc
  | some c => simpa [h] using this

theorem exRelay_other : ∀ (j : Nat) (J : Job), exChatJobs[j]? = some J → J.socket = some 0 → j = 0 := fun j J hj hs => by
  match j, hj with
  | 0, _ => rfl
  | 1, hj => injection hj with hj; subst hj; cases hs

/-- The first client has said "hi" to its session; the session has passed it on, to the second client, who has heard it; and has answered the first client. -/
example : ∃ la lb ns n, Net.Noted (fun _ => Fixture.env) (fun _ => Fixture.env) exChatMay ⟨exChatJobs.map (Job.code (fun _ => Fixture.env) 100), exChatSocks, exChatPeers⟩ la lb ns n ∧
    PassesOn exPass (notesOf 0 ns) ∧ callsOf (of 0 lb) = [.text (some [104, 105])] ∧
    callsOf ((of 0 la).filter fun e => e.task == 0) = [.text (some [33])] ∧ passedOn exPass 1 (callsOf (of 0 lb)) = [.text (some [104, 105])] ∧
    HeardWhole (passedOn exPass 1 (callsOf (of 0 lb))) 2 (n.peers 1).st.sock.trace ∧
    (∃ evs m part, (n.peers 1).st.sock.trace = evs ∧ HeardUpTo (passedOn exPass 1 (callsOf (of 0 lb))) 2 m part evs) ∧
    (∃ evs, (n.socks 0).sock.trace = evs ∧ callsOf ((of 1 la).filter fun e => e.task == 0) = (reassemble [] evs).1.flatMap (fun m => onto 1 (exPass m))) ∧
    ∃ evs, (n.peers 1).st.sock.trace = evs ∧ HeardWhole (callsOf (of 1 la)) 2 evs ∧ callsOf ((of 1 la).filter fun e => e.task == 0) = passedOn exPass 1 (callsOf (of 0 lb)) := by
  have hN := exRelay_noted
  have hl := exChatEnd_runs
  have hA := exChatEnd_said
  have hB := exChatEnd_heard
  have hR := exChatEnd_rest
  have hP := exRelay_passes
  have ho := exRelay_only
  generalize exChatEnd.1 = la, exChatEnd.2.1 = lb, exChatEnd.2.2 = n, exRelayNotes = ns at hl hA hB hR hN hP ho
  injection hA with a1 a2 a3 a4 a5 a6 a7 a8
  injection hB with b1 b2 b3 b4 b5 b6 b7 b8
  injection hR with r1 hR
  injection hR with r2 hR
  injection hR with r3 hR
  injection hR with r4 r5
  injection r3 with p1 p2
  injection p2 with p2 p3
  injection p3 with p3 p4
  injection r4 with q1 q2
  injection q2 with q2 q3
  injection q3 with q3 q4
  have ho := only_sound ho
  have hrest := goesNow_sound r1
  have hw := hl.works (fun k => ⟨fun h => (by cases h), fun h => (by cases h)⟩) r2
  have hub := C79_defined hl (fun _ => 2) (fun k op ho => by obtain ⟨m, rfl, hm⟩ := ho; exact Nat.lt_of_le_of_lt hm (by decide)) fun k => rfl
  have hf : ∀ k, (exChatSocks k).inp.sched.length < 100 ∧ (exChatSocks k).sock.out.sched.length < 100 := fun k => ⟨Nat.le_of_ble_eq_true rfl, Nat.le_of_ble_eq_true rfl⟩
  have uB : Endpoint.Unbroken Fixture.env (exChatPeers 1) (n.peers 1) := by
    obtain ⟨react, v, v', h⟩ := hl.alone 1 id (fun _ => rfl) fun _ h => h
    obtain ⟨q, e, _⟩ := Fed.threads h.linked.fed.2
    rw [e] at q4 ⊢
    exact ⟨fun _ _ h => (by cases h), q4, by decide⟩
  have h0 : ∃ m c, n.threads[0]? = some (.act 0 (.read m) c) := by
    cases h : n.threads[0]? with
    | none => rw [h] at r5; cases r5
    | some g =>
      rw [h] at r5
      injection r5 with r5
      obtain ⟨c, x, rfl⟩ := readsNow_sound r5
      exact ⟨c, x, rfl⟩
  obtain ⟨m, c, h0⟩ := h0
  have hpass : passedOn exPass 1 (callsOf (of 0 lb)) = [.text (some [104, 105])] := by rw [show callsOf (of 0 lb) = _ from b3]; decide
  have hm : ∀ op, exChatMay 0 op → (Threads.steady 7 2).Op op := fun op ho => by obtain ⟨m, rfl, _⟩ := ho; trivial
  have hin : (Threads.steady 7 2).In false (exChatSocks 0) := ⟨⟨7, rfl, rfl⟩, rfl, fun _ _ => trivial, rfl⟩
  have hcalls : callsOf (of 0 lb) = [.text (some [104, 105])] ++ [] := by rw [show callsOf (of 0 lb) = _ from b3]; rfl
  obtain ⟨evs, g1, g2⟩ := (C86_relay_complete hN hf hrest hw hub 0 0 1 100 7 2 default (.inr rfl) exRelay_other hm (by decide) hin rfl (exChat_peer 0).app (show (exChatPeers 0).Enough 100 from ⟨by decide, by decide⟩)
    (restNow_sound p1) (definedNow_sound p2) (worksNow_sound p3).1 (serialCheck_sound b1) (okNow b2) _ [] hcalls exChat_speech exPass hP _ h0 ho (okNow a2) 100 2 2 (exChat_peer 1) ⟨by decide, by decide⟩
    (restNow_sound q1) (worksNow_sound q3).1 (worksNow_sound q3).2 uB _ [] hpass exChat_speech).resolve_left fun h1 => by rcases h1 with h1 | ⟨e, h1⟩ | ⟨k, u, h1⟩ <;> cases h1
  have hall := (C86_all_passed_on hN hf hrest hw 0 0 0 100 7 2 default (.inr rfl) exRelay_other hm (by decide) hin rfl (exChat_peer 0).app (show (exChatPeers 0).Enough 100 from ⟨by decide, by decide⟩)
    (restNow_sound p1) (definedNow_sound p2) (worksNow_sound p3).1 (serialCheck_sound b1) (okNow b2) _ [] hcalls exChat_speech exPass hP _ h0).resolve_left fun h1 => by
      rcases h1 with h1 | ⟨e, h1⟩ | ⟨k, u, h1⟩ <;> cases h1
  have res : ∀ {l : List Entry}, (∀ e ∈ l, e.failed = false) → Resigned l := fun h x e y he hf => by
    rw [h e (by rw [he]; simp)] at hf
    cases hf
  obtain ⟨evs', m', part, g3, g4⟩ := C86_relay hN 0 0 1 100 7 2 default (.inr rfl) exRelay_other hm (by decide) hin rfl (hf 0).1 (hf 0).2 (exChat_peer 0).app (serialCheck_sound b1) (res (okNow b2)) _ [] hcalls exChat_speech
    exPass hP ho (res (okNow a2)) 100 2 2 (exChat_peer 1) ⟨by decide, by decide⟩ _ [] hpass exChat_speech
  have g1 : (n.peers 1).st.sock.trace = evs := g1
  have g3 : (n.peers 1).st.sock.trace = evs' := g3
  have hro : ∃ evs, (n.peers 1).st.sock.trace = evs ∧ HeardWhole (callsOf (of 1 la)) 2 evs ∧ callsOf ((of 1 la).filter fun e => e.task == 0) = passedOn exPass 1 (callsOf (of 0 lb)) := by
    obtain ⟨⟨evs, z1, z2⟩, z3⟩ := C86_room hN hf hrest hw hub 1 100 2 2 (exChat_peer 1) ⟨by decide, by decide⟩ (restNow_sound q1) (worksNow_sound q3).1 (worksNow_sound q3).2 uB
      (C69_one_sender _ ⟨0, ho⟩) (okNow a2) _ [] (show callsOf (of 1 la) = [.text (some [104, 105])] ++ [] from by rw [show callsOf (of 1 la) = _ from a3]; rfl) exChat_speech
    refine ⟨evs, z1, z2, (z3 0 0 100 7 2 default exPass _ (.inr rfl) exRelay_other hm (by decide) hin rfl (exChat_peer 0).app (show (exChatPeers 0).Enough 100 from ⟨by decide, by decide⟩)
      (restNow_sound p1) (definedNow_sound p2) (worksNow_sound p3).1 (serialCheck_sound b1) (okNow b2) ⟨_, [], hcalls, exChat_speech⟩ hP h0).resolve_left fun h1 => ?_⟩
    rcases h1 with h1 | ⟨e, h1⟩ | ⟨k, u, h1⟩ <;> cases h1
  obtain ⟨evs2, y1, _, y2⟩ := C86_passes_on hN 0 0 1 default (.inr rfl) exRelay_other exPass hP
  refine ⟨la, lb, ns, n, hN, hP, b3, ?_, hpass, g1 ▸ g2, ⟨evs', m', part, g3, g4⟩, ⟨evs2, y1, y2 (.inl ⟨m, c, h0⟩)⟩, hro⟩
  rw [hall, show callsOf (of 0 lb) = _ from b3]
  decide

end OatWS.Process
