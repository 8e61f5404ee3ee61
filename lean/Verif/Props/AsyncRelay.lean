import Verif.Proofs.AsyncProcessRelay
import Verif.Props.Relay
/-! # C86: messages passed on from one socket of an async process to others -/

namespace OatWS.AsyncProcess
open RFC6455 Async Network
open Process (of callsBy onto passedOn onto_callsBy onto_flatMap onto_prefix only_calls HeardUpTo.extend)

variable {env penv : Nat → Env} {may : Nat → UserOp → Prop} {jobs : List Job} {socks : Nat → World} {peers : Nat → Endpoint} {la lb : List (Nat × Entry)} {ns : List (Nat × Note)} {n : Net}

/-- **C86** (what is passed on; tasks). Task `i` of a process with any number of async sockets listens on socket `k`, and no other task does; its user code passes messages on: when it has been told a message `m`
completely, the coroutine that the callback has returned calls the sends `f m`. At every moment, what it has called on socket `j` is a beginning of what is to be passed on of the messages that have been told; and it
is all of it whenever the task waits for input on its socket, or has finished. -/
theorem C86_tasks_passes_on (h : Net.Noted env penv may ⟨jobs.map Job.start, socks, peers⟩ la lb ns n) (k i j : Nat) (hd : Header)
    (hi : jobs[i]? = some (.listens k hd)) (hother : ∀ j J, jobs[j]? = some J → J.socket = some k → j = i) (f : Msg → List (Nat × SendCall)) (hp : PassesOn f (notesOf i ns)) :
    ∃ evs, (n.socks k).st.sock.trace = (socks k).st.sock.trace ++ evs ∧
      callsOf ((of j la).filter fun e => e.task == i) <+: (reassemble [] evs).1.flatMap (fun m => onto j (f m)) ∧
      (WaitsOn k n.tasks[i]? ∨ n.tasks[i]? = some .finished → callsOf ((of j la).filter fun e => e.task == i) = (reassemble [] evs).1.flatMap (fun m => onto j (f m))) := by
  have hk := h.kept
  refine ⟨toldIn (notesOf i ns), hk.told_alone hi rfl hother, ?_⟩
  rw [onto_callsBy, ← onto_flatMap, hk.calls i]
  have hil : i < n.tasks.length := hk.length ▸ (List.getElem?_eq_some_iff.mp hi).1
  have hs : n.tasks[i]? = some n.tasks[i] := List.getElem?_eq_getElem hil
  generalize n.tasks[i] = s at hs
  obtain ⟨o, h1, h2⟩ := hk.stk i _ s hi hs
  have h2 := h2 f hp
  refine ⟨onto_prefix j ⟨_, h2.all⟩, fun hw => ?_⟩
  suffices ho : o = false by
    rw [← h2.all, h2.over ho, List.append_nil]
  rw [hs] at hw
  rcases hw with ⟨c, rest, l, hw, hr⟩ | hw
  · injection hw with hw
    subst hw
    rcases h1.at_lib with ⟨_, h, _⟩ | ⟨_, h, _⟩
    · exact h
    · exact absurd h (in_not_out (isIn_of_reads hr))
  · injection hw with hw
    subst hw
    cases h1
    rfl

/-- **C86** (a relay, at every moment; tasks). As `Process.C86_relay`, for a process with async sockets. -/
theorem C86_tasks_relay (h : Net.Noted env penv may ⟨jobs.map Job.start, socks, peers⟩ la lb ns n) (k i j fuelA l B : Nat) (hd : Header)
    (hi : jobs[i]? = some (.listens k hd)) (hother : ∀ j J, jobs[j]? = some J → J.socket = some k → j = i)
    (hm : ∀ op, may k op → (fixedSettings l B).Op op) (hB : 0 < B) (h0 : (fixedSettings l B).In (socks k)) (hopen : OpenIs false (socks k).st.sock.lastOpcode) (hno : (socks k).st.inp.bytes = [])
    (hA : (peers k).App (penv k) fuelA) (hser : Serialised (of k lb)) (hres : Resigned (of k lb)) (cs last : List SendCall) (hc : callsOf (of k lb) = cs ++ last) (ht : Speech cs last)
    (f : Msg → List (Nat × SendCall)) (hp : PassesOn f (notesOf i ns)) (honly : ∀ e ∈ of j la, e.called.isSome → e.task = i) (hresJ : Resigned (of j la))
    (fuelJ lJ BJ : Nat) (hJ : (peers j).Listening (penv j) fuelJ lJ BJ) (hfJ : (peers j).Enough fuelJ)
    (csJ lastJ : List SendCall) (hcJ : passedOn f j (callsOf (of k lb)) = csJ ++ lastJ) (htJ : Speech csJ lastJ) :
    ∃ evs m part, (n.peers j).st.sock.trace = (peers j).st.sock.trace ++ evs ∧ HeardUpTo (passedOn f j (callsOf (of k lb))) lJ m part evs := by
  obtain ⟨evs, e1, e2, _⟩ := C86_tasks_passes_on h k i j hd hi hother f hp
  obtain ⟨evs', m, part, e3, e4⟩ := (C80_process_hears h.runs k i fuelA l B hd hi hother hm hB h0 hopen hno hA hser hres cs last hc ht).1
  have he : evs' = evs := List.append_cancel_left (e3.symm.trans e1)
  subst he
  rw [only_calls honly] at e2
  have hpre : callsOf (of j la) <+: passedOn f j (callsOf (of k lb)) := by
    refine e2.trans (flatMap_prefix ?_)
    rw [e4.heard]
    exact told_prefix (List.take_prefix ..)
  obtain ⟨cs', last', hc', ht'⟩ := Speech.prefix htJ (hcJ ▸ hpre)
  obtain ⟨evs, m, part, k1, k2⟩ := (C80_peer_hears h.runs j fuelJ lJ BJ hJ hfJ (C69_one_sender _ ⟨i, honly⟩) hresJ cs' last' hc' ht').1
  exact ⟨evs, m, part, k1, HeardUpTo.extend k2 hpre⟩

/-- **C86** (all is passed on; tasks). As `Process.C86_all_passed_on`, for a process with async sockets. -/
theorem C86_tasks_all_passed_on (h : Net.Noted env penv may ⟨jobs.map Job.start, socks, peers⟩ la lb ns n) (hrest : n.AtRest env) (hw : n.Works) (k i j fuelA l B : Nat) (hd : Header)
    (hi : jobs[i]? = some (.listens k hd)) (hother : ∀ j J, jobs[j]? = some J → J.socket = some k → j = i)
    (hm : ∀ op, may k op → (fixedSettings l B).Op op) (hB : 0 < B) (h0 : (fixedSettings l B).In (socks k)) (hopen : OpenIs false (socks k).st.sock.lastOpcode) (hno : (socks k).st.inp.bytes = [])
    (hA : (peers k).App (penv k) fuelA) (hfA : (peers k).Enough fuelA) (hrA : (n.peers k).AtRest (penv k)) (hdA : (n.peers k).Defined) (hwA : (n.peers k).Writable)
    (hser : Serialised (of k lb)) (hok : ∀ e ∈ of k lb, e.failed = false) (cs last : List SendCall) (hc : callsOf (of k lb) = cs ++ last) (ht : Speech cs last)
    (f : Msg → List (Nat × SendCall)) (hp : PassesOn f (notesOf i ns)) (s : State) (hs : n.tasks[i]? = some s) :
    Ended s ∨ callsOf ((of j la).filter fun e => e.task == i) = passedOn f j (callsOf (of k lb)) := by
  rcases C83_tasks_process_heard_all h.runs hrest hw k i fuelA l B hd hi hother hm hB h0 hopen hno hA hfA hrA hdA hwA hser hok cs last hc ht s hs with h1 | ⟨⟨evs', e3, e4⟩, hwo, _⟩
  · exact .inl h1
  · obtain ⟨evs, e1, _, e2⟩ := C86_tasks_passes_on h k i j hd hi hother f hp
    have he : evs' = evs := List.append_cancel_left (e3.symm.trans e1)
    subst he
    right
    rw [e2 (.inl (hs ▸ hwo)), e4.heard]
    rfl

/-- **C86** (a relay, at rest; tasks). As `Process.C86_relay_complete`, for a process with async sockets. -/
theorem C86_tasks_relay_complete (h : Net.Noted env penv may ⟨jobs.map Job.start, socks, peers⟩ la lb ns n) (hrest : n.AtRest env) (hw : n.Works) (hub : ∀ k u, .ub k u ∉ n.tasks)
    (k i j fuelA l B : Nat) (hd : Header) (hi : jobs[i]? = some (.listens k hd)) (hother : ∀ j J, jobs[j]? = some J → J.socket = some k → j = i)
    (hm : ∀ op, may k op → (fixedSettings l B).Op op) (hB : 0 < B) (h0 : (fixedSettings l B).In (socks k)) (hopen : OpenIs false (socks k).st.sock.lastOpcode) (hno : (socks k).st.inp.bytes = [])
    (hA : (peers k).App (penv k) fuelA) (hfA : (peers k).Enough fuelA) (hrA : (n.peers k).AtRest (penv k)) (hdA : (n.peers k).Defined) (hwA : (n.peers k).Writable)
    (hser : Serialised (of k lb)) (hok : ∀ e ∈ of k lb, e.failed = false) (cs last : List SendCall) (hc : callsOf (of k lb) = cs ++ last) (ht : Speech cs last)
    (f : Msg → List (Nat × SendCall)) (hp : PassesOn f (notesOf i ns)) (s : State) (hs : n.tasks[i]? = some s)
    (honly : ∀ e ∈ of j la, e.called.isSome → e.task = i) (hokJ : ∀ e ∈ of j la, e.failed = false) (fuelJ lJ BJ : Nat) (hJ : (peers j).Listening (penv j) fuelJ lJ BJ) (hfJ : (peers j).Enough fuelJ)
    (hrJ : (n.peers j).AtRest (penv j)) (hwJ : (n.peers j).Writable) (hrdJ : (n.peers j).Readable) (hn : Endpoint.Unbroken (penv j) (peers j) (n.peers j))
    (csJ lastJ : List SendCall) (hcJ : passedOn f j (callsOf (of k lb)) = csJ ++ lastJ) (htJ : Speech csJ lastJ) :
    Ended s ∨ ∃ evs, (n.peers j).st.sock.trace = (peers j).st.sock.trace ++ evs ∧ HeardWhole (passedOn f j (callsOf (of k lb))) lJ evs := by
  rcases C86_tasks_all_passed_on h hrest hw k i j fuelA l B hd hi hother hm hB h0 hopen hno hA hfA hrA hdA hwA hser hok cs last hc ht f hp s hs with h1 | h1
  · exact .inl h1
  · rw [only_calls honly] at h1
    obtain ⟨evs, e1, e2, _⟩ := C83_tasks_peer_heard_all h.runs hrest hw hub j fuelJ lJ BJ hJ hfJ hrJ hwJ hrdJ hn (C69_one_sender _ ⟨i, honly⟩) hokJ csJ lastJ (h1.trans hcJ) htJ
    exact .inr ⟨evs, e1, h1 ▸ e2⟩

/-- **C86** (a chat room, at rest; tasks). As `Process.C86_room`, for a process with async sockets. -/
theorem C86_tasks_room (h : Net.Noted env penv may ⟨jobs.map Job.start, socks, peers⟩ la lb ns n) (hrest : n.AtRest env) (hw : n.Works) (hub : ∀ k u, .ub k u ∉ n.tasks)
    (j fuelJ lJ BJ : Nat) (hJ : (peers j).Listening (penv j) fuelJ lJ BJ) (hfJ : (peers j).Enough fuelJ)
    (hrJ : (n.peers j).AtRest (penv j)) (hwJ : (n.peers j).Writable) (hrdJ : (n.peers j).Readable) (hn : Endpoint.Unbroken (penv j) (peers j) (n.peers j))
    (hserJ : Serialised (of j la)) (hokJ : ∀ e ∈ of j la, e.failed = false) (csJ lastJ : List SendCall) (hcJ : callsOf (of j la) = csJ ++ lastJ) (htJ : Speech csJ lastJ) :
    (∃ evs, (n.peers j).st.sock.trace = (peers j).st.sock.trace ++ evs ∧ HeardWhole (callsOf (of j la)) lJ evs) ∧
    ∀ (k i fuelA l B : Nat) (hd : Header) (f : Msg → List (Nat × SendCall)) (s : State),
      jobs[i]? = some (.listens k hd) → (∀ j J, jobs[j]? = some J → J.socket = some k → j = i) →
      (∀ op, may k op → (fixedSettings l B).Op op) → 0 < B → (fixedSettings l B).In (socks k) → OpenIs false (socks k).st.sock.lastOpcode → (socks k).st.inp.bytes = [] →
      (peers k).App (penv k) fuelA → (peers k).Enough fuelA → (n.peers k).AtRest (penv k) → (n.peers k).Defined → (n.peers k).Writable →
      Serialised (of k lb) → (∀ e ∈ of k lb, e.failed = false) → (∃ cs last, callsOf (of k lb) = cs ++ last ∧ Speech cs last) →
      PassesOn f (notesOf i ns) → n.tasks[i]? = some s →
      Ended s ∨ callsOf ((of j la).filter fun e => e.task == i) = passedOn f j (callsOf (of k lb)) := by
  obtain ⟨evs, e1, e2, _⟩ := C83_tasks_peer_heard_all h.runs hrest hw hub j fuelJ lJ BJ hJ hfJ hrJ hwJ hrdJ hn hserJ hokJ csJ lastJ hcJ htJ
  refine ⟨⟨evs, e1, e2⟩, ?_⟩
  rintro k i fuelA l B hd f s hi hother hm hB h0 hopen hno hA hfA hrA hdA hwA hser hok ⟨cs, last, hc, ht⟩ hp hs
  exact C86_tasks_all_passed_on h hrest hw k i j fuelA l B hd hi hother hm hB h0 hopen hno hA hfA hrA hdA hwA hser hok cs last hc ht f hp s hs

/-! ## A concrete case: the chat of C80 and C83 -/

/-- The notes of a turn. -/
def Net.jot (env : Nat → Env) (t : Turn) (n : Net) : List (Nat × Note) :=
  match t with
  | .lib i =>
    match n.tasks[i]? with
    | some (.run ⟨.lib k c :: rest, l⟩) =>
      match Task.ready ⟨[c], l⟩ (n.socks k), move env k c rest l n.socks with
      | true, some (_, ws) =>
        if (ws k).st.sock.out.written = (n.socks k).st.sock.out.written ++ (ws k).st.sock.out.written.drop (n.socks k).st.sock.out.written.length then
          ((ws k).st.sock.trace.drop (n.socks k).st.sock.trace.length).map fun e => (i, .told k e)
        else []
      | _, _ => []
    | _ => []
  | .does i k op =>
    match n.tasks[i]? with
    | some (.run ⟨.user _ :: rest, l⟩) =>
      match move env k (.user { ops := [op] }) rest l n.socks with
      | some _ => [(i, .did k op)]
      | none => []
    | _ => []
  | .ends i =>
    match n.tasks[i]? with
    | some (.run ⟨.user _ :: _, _⟩) => [(i, .done)]
    | _ => []
  | .peer _ _ => []

def Net.jots (env penv : Nat → Env) : List Turn → List (Nat × Note) → List (Nat × Entry) × List (Nat × Entry) × Net → List (Nat × Note)
  | [], ns, _ => ns
  | t :: ts, ns, x => Net.jots env penv ts (ns ++ Net.jot env t x.2.2) (Net.turn env penv t x)

theorem Net.turn_noted (t : Turn) (ht : ∀ i k op, t = .does i k op → may k op) {x : List (Nat × Entry) × List (Nat × Entry) × Net} {ns : List (Nat × Note)}
    (h : Net.Noted env penv may ⟨jobs.map Job.start, socks, peers⟩ x.1 x.2.1 ns x.2.2) :
    Net.Noted env penv may ⟨jobs.map Job.start, socks, peers⟩ (Net.turn env penv t x).1 (Net.turn env penv t x).2.1 (ns ++ Net.jot env t x.2.2) (Net.turn env penv t x).2.2 := by
  obtain ⟨la, lb, n⟩ := x
  have h : Net.Noted env penv may ⟨jobs.map Job.start, socks, peers⟩ la lb ns n := h
  cases t with
  | lib i =>
    dsimp only [Net.turn, Net.jot]
    split
    · rename_i k c rest l e
      simp only [e]
      split
      · rename_i s ws e1 e2
        simp only [e1, e2]
        split
        · rename_i e3
          refine .lib h e e1 e2 e3 ?_
          have hk := h.kept
          have hil : i < jobs.length := hk.length ▸ (List.getElem?_eq_some_iff.mp e).1
          obtain ⟨o0, hk0, _⟩ := hk.stk _ _ _ (List.getElem?_eq_getElem hil) e
          rcases hk0.lib e2 with ⟨g, _⟩ | ⟨_, g, _⟩ <;> rw [g] <;> simp
        · rw [List.append_nil]; exact h
      · rename_i hne
        cases e1 : Task.ready ⟨[c], l⟩ (n.socks k) with
        | false => simp only [List.append_nil]; exact h
        | true =>
          cases e2 : move env k c rest l n.socks with
          | none => simp only [List.append_nil]; exact h
          | some y => exact absurd e2 (hne y.1 y.2 e1)
    · rename_i hne
      split
      · rename_i e; exact (hne _ _ _ _ e).elim
      · rw [List.append_nil]; exact h
  | does i k op =>
    dsimp only [Net.turn, Net.jot]
    split
    · rename_i b rest l e
      simp only [e]
      split
      · rename_i s ws e1
        simp only [e1]
        exact .does h e (ht i k op rfl) e1
      · rename_i e1
        simp only [e1, List.append_nil]
        exact h
    · rename_i hne
      split
      · rename_i e; exact (hne _ _ _ e).elim
      · rw [List.append_nil]; exact h
  | ends i =>
    dsimp only [Net.turn, Net.jot]
    split
    · rename_i b rest l e
      simp only [e]
      exact .ends h e
    · rename_i hne
      split
      · rename_i e; exact (hne _ _ _ e).elim
      · rw [List.append_nil]; exact h
  | peer k i =>
    dsimp only [Net.turn, Net.jot]
    rw [List.append_nil]
    split
    · rename_i e b he
      exact .peer h (Endpoint.turn_step he)
    · exact h

theorem Net.play_noted (ts : List Turn) (ht : ∀ i k op, .does i k op ∈ ts → may k op) {x : List (Nat × Entry) × List (Nat × Entry) × Net} {ns : List (Nat × Note)}
    (h : Net.Noted env penv may ⟨jobs.map Job.start, socks, peers⟩ x.1 x.2.1 ns x.2.2) :
    Net.Noted env penv may ⟨jobs.map Job.start, socks, peers⟩ (Net.play env penv ts x).1 (Net.play env penv ts x).2.1 (Net.jots env penv ts ns x) (Net.play env penv ts x).2.2 := by
  induction ts generalizing x ns with
  | nil => exact h
  | cons t ts ih => exact ih (fun i k op hm => ht i k op (List.mem_cons_of_mem _ hm)) (Net.turn_noted t (fun i k op e => ht i k op (by rw [e]; exact List.mem_cons_self ..)) h)

/-- A check of `PassesOn`. -/
def passesNow (f : Msg → List (Nat × SendCall)) : List Note → List Note → Bool
  | _, [] => true
  | pre, .did k (.send c x) :: ns => decide ((duty f [] [] pre).head? = some (k, c)) && passesNow f (pre ++ [.did k (.send c x)]) ns
  | pre, .done :: ns => decide (duty f [] [] pre = []) && passesNow f (pre ++ [.done]) ns
  | pre, x :: ns => passesNow f (pre ++ [x]) ns

/-- What `PassesOn` says of one note. -/
def OneGood (f : Msg → List (Nat × SendCall)) (pre : List Note) (x : Note) : Prop :=
  (∀ k c y, x = .did k (.send c y) → (duty f [] [] pre).head? = some (k, c)) ∧ (x = .done → duty f [] [] pre = [])

theorem passesNow_sound {f : Msg → List (Nat × SendCall)} {ns : List Note} (h : passesNow f [] ns = true) : PassesOn f ns := by
  have key : ∀ (ns pre : List Note), passesNow f pre ns = true → ∀ q y, q ++ [y] <+: pre ++ ns → q ++ [y] <+: pre ∨ OneGood f q y := by
    intro ns
    induction ns with
    | nil => intro pre _ q y hq; rw [List.append_nil] at hq; exact .inl hq
    | cons x ns ih =>
      intro pre hx q y hq
      have hq : q ++ [y] <+: (pre ++ [x]) ++ ns := by rw [List.append_assoc]; exact hq
      have hgood : OneGood f pre x ∧ passesNow f (pre ++ [x]) ns = true := by
        cases x with
        | told k e => exact ⟨⟨nofun, nofun⟩, hx⟩
        | did k op =>
          cases op with
          | send c z =>
            unfold passesNow at hx
            rw [Bool.and_eq_true] at hx
            refine ⟨⟨fun k' c' y' e => ?_, nofun⟩, hx.2⟩
            injection e with e1 e2
            injection e2 with e2 _
            subst e1 e2
            exact of_decide_eq_true hx.1
          | _ => exact ⟨⟨nofun, nofun⟩, hx⟩
        | done =>
          unfold passesNow at hx
          rw [Bool.and_eq_true] at hx
          exact ⟨⟨nofun, fun _ => of_decide_eq_true hx.1⟩, hx.2⟩
      rcases ih _ hgood.2 q y hq with h1 | h1
      · rcases Process.snoc_prefix_snoc h1 with h2 | ⟨rfl, rfl⟩
        · exact .inl h2
        · exact .inr hgood.1
      · exact .inr h1
  have all : ∀ q y, q ++ [y] <+: ns → OneGood f q y := fun q y hq => by
    rcases key ns [] h q y hq with h1 | h1
    · obtain ⟨t, ht⟩ := h1
      have := congrArg List.length ht
      simp at this
    · exact h1
  exact ⟨fun pre k c x hq => (all _ _ hq).1 k c x rfl, fun pre hq => (all _ _ hq).2 rfl⟩

/-- What the coroutine returned by a callback of the first session does with a text message: it says it to the second client. -/
def exPassed : Msg → List (Nat × SendCall)
  | .text d => [(1, .text (some d))]
  | _ => []

def exPassTurns : List Turn :=
  exRoomTurns ++ [.ends 0] ++ List.replicate 3 (.lib 0) ++ List.replicate 3 (.lib 1) ++ List.replicate 3 (.peer 0 0) ++ List.replicate 3 (.peer 0 1) ++ List.replicate 3 (.peer 1 0) ++ List.replicate 3 (.peer 1 1)

def exPassNotes := Net.jots (fun _ => Fixture.env) (fun _ => Fixture.env) exPassTurns [] ([], [], ⟨exRoomJobs.map Job.start, exRoomSocks, Process.exChatPeers⟩)

theorem exPass_notes : notesOf 0 exPassNotes = [.told 0 (.readMessage 7 1 [104]), .done, .told 0 (.readMessage 7 1 [105]), .done, .told 0 (.readMessage 7 1 []),
    .did 1 (.send (.text (some [104, 105])) true), .done] := by decide +kernel

theorem exRoomEnd_eq : exRoomEnd = Net.play (fun _ => Fixture.env) (fun _ => Fixture.env) exPassTurns ([], [], ⟨exRoomJobs.map Job.start, exRoomSocks, Process.exChatPeers⟩) := by
  unfold exRoomEnd exPassTurns
  rfl

theorem exPass_noted : Net.Noted (fun _ => Fixture.env) (fun _ => Fixture.env) Process.exChatMay ⟨exRoomJobs.map Job.start, exRoomSocks, Process.exChatPeers⟩ exRoomEnd.1 exRoomEnd.2.1 exPassNotes exRoomEnd.2.2 := by
  rw [exRoomEnd_eq]
  unfold exPassNotes
  refine Net.play_noted exPassTurns (fun i k op h => ?_) .refl
  simp only [exPassTurns, exRoomTurns, List.mem_append, List.mem_cons, List.mem_replicate, List.not_mem_nil, reduceCtorEq, and_false, or_false, false_or, Turn.does.injEq] at h
  rcases h with ⟨_, _, rfl⟩ | ⟨_, _, rfl⟩ <;> exact ⟨_, rfl, (by decide)⟩

theorem exPass_passes : PassesOn exPassed (notesOf 0 exPassNotes) := by
  rw [exPass_notes]
  exact passesNow_sound (by decide +kernel)

theorem exPass_only : (of 1 exRoomEnd.1).all (fun e => e.called.isNone || e.task == 0) = true := by decide +kernel

theorem exPass_other : ∀ (j : Nat) (J : Job), exRoomJobs[j]? = some J → J.socket = some 0 → j = 0 := fun j J hj hs => by
  match j, hj with
  | 0, _ => rfl
  | 1, hj => injection hj with hj; subst hj; cases hs
  | 2, hj => injection hj with hj; subst hj; cases hs

/-- The first client has said "hi" to its session; the coroutine that the callback has returned has passed it on, to the second client, who has heard it. -/
example : ∃ la lb ns n, Net.Noted (fun _ => Fixture.env) (fun _ => Fixture.env) Process.exChatMay ⟨exRoomJobs.map Job.start, exRoomSocks, Process.exChatPeers⟩ la lb ns n ∧
    PassesOn exPassed (notesOf 0 ns) ∧ callsOf (of 0 lb) = [.text (some [104, 105])] ∧ passedOn exPassed 1 (callsOf (of 0 lb)) = [.text (some [104, 105])] ∧
    HeardWhole (passedOn exPassed 1 (callsOf (of 0 lb))) 2 (n.peers 1).st.sock.trace ∧
    callsOf ((of 1 la).filter fun e => e.task == 0) = passedOn exPassed 1 (callsOf (of 0 lb)) ∧
    (∃ evs m part, (n.peers 1).st.sock.trace = evs ∧ HeardUpTo (passedOn exPassed 1 (callsOf (of 0 lb))) 2 m part evs) ∧
    (∃ evs, (n.socks 0).st.sock.trace = evs ∧ callsOf ((of 1 la).filter fun e => e.task == 0) = (reassemble [] evs).1.flatMap (fun m => onto 1 (exPassed m))) ∧
    ∃ evs, (n.peers 1).st.sock.trace = evs ∧ HeardWhole (callsOf (of 1 la)) 2 evs ∧ callsOf ((of 1 la).filter fun e => e.task == 0) = passedOn exPassed 1 (callsOf (of 0 lb)) := by
  have hN := exPass_noted
  have hl := exRoomEnd_runs
  have hA := exRoomEnd_said
  have hB := exRoomEnd_heard
  have hR := exRoomEnd_rest
  have hP := exPass_passes
  have ho := exPass_only
  generalize exRoomEnd.1 = la, exRoomEnd.2.1 = lb, exRoomEnd.2.2 = n, exPassNotes = ns at hl hA hB hR hN hP ho
  injection hA with a1 a2 a3 a4 a5 a6 a7 a8
  injection hB with b1 b2 b3 b4 b5 b6 b7 b8
  injection hR with r1 hR
  injection hR with r2 hR
  injection hR with r3 hR
  injection hR with r4 r5
  injection r3 with p1 p2
  injection p2 with p2 p3
  injection p3 with p3 p4
  injection r4 with q1 q2
  injection q2 with q2 q3
  injection q3 with q3 q4
  have ho := Process.only_sound ho
  have hrest := goesNow_sound r1
  have hw := hl.works (fun k => ⟨fun h => (by cases h), fun h => (by cases h)⟩) r2
  have hub := C80_defined hl (fun _ => 2) (fun k op ho => by obtain ⟨m, rfl, hm⟩ := ho; exact Nat.lt_of_le_of_lt hm (by decide)) fun k => rfl
  have uB : Endpoint.Unbroken Fixture.env (Process.exChatPeers 1) (n.peers 1) := by
    obtain ⟨react, v, v', log, h⟩ := hl.alone 1 id (fun _ => rfl) fun _ h => h
    obtain ⟨q, e, _⟩ := Fed.threads h.linked.fed.2
    rw [e] at q4 ⊢
    exact ⟨fun _ _ h => (by cases h), q4, by decide⟩
  have hwo := waitsOnNow_sound r5
  obtain ⟨c, rest, l, h0, hc⟩ := hwo
  have hwo : WaitsOn 0 n.tasks[0]? := ⟨c, rest, l, h0, hc⟩
  have alive : ¬ Ended (.run ⟨.lib 0 c :: rest, l⟩) := fun h1 => by rcases h1 with h1 | ⟨e, h1⟩ | ⟨k, u, h1⟩ <;> cases h1
  have hpass : passedOn exPassed 1 (callsOf (of 0 lb)) = [.text (some [104, 105])] := by rw [show callsOf (of 0 lb) = _ from b3]; decide
  have hm : ∀ op, Process.exChatMay 0 op → (fixedSettings 7 2).Op op := fun op ho => by obtain ⟨m, rfl, _⟩ := ho; trivial
  have hin : (fixedSettings 7 2).In (exRoomSocks 0) := ⟨rfl, rfl⟩
  have hcalls : callsOf (of 0 lb) = [.text (some [104, 105])] ++ [] := by rw [show callsOf (of 0 lb) = _ from b3]; rfl
  have hE : (Process.exChatPeers 0).Enough 100 := ⟨by decide, by decide⟩
  obtain ⟨evs, g1, g2⟩ := (C86_tasks_relay_complete hN hrest hw hub 0 0 1 100 7 2 default rfl exPass_other hm (by decide) hin rfl rfl (Process.exChat_peer 0).app hE
    (restNow_sound p1) (definedNow_sound p2) (worksNow_sound p3).1 (serialCheck_sound b1) (Process.okNow b2) _ [] hcalls Process.exChat_speech exPassed hP _ h0 ho (Process.okNow a2) 100 2 2 (Process.exChat_peer 1)
    ⟨by decide, by decide⟩ (restNow_sound q1) (worksNow_sound q3).1 (worksNow_sound q3).2 uB _ [] hpass Process.exChat_speech).resolve_left alive
  have hall := (C86_tasks_all_passed_on hN hrest hw 0 0 1 100 7 2 default rfl exPass_other hm (by decide) hin rfl rfl (Process.exChat_peer 0).app hE
    (restNow_sound p1) (definedNow_sound p2) (worksNow_sound p3).1 (serialCheck_sound b1) (Process.okNow b2) _ [] hcalls Process.exChat_speech exPassed hP _ h0).resolve_left alive
  have res : ∀ {l : List Entry}, (∀ e ∈ l, e.failed = false) → Resigned l := fun h x e y he hf => by
    rw [h e (by rw [he]; simp)] at hf
    cases hf
  obtain ⟨evs', m', part, g3, g4⟩ := C86_tasks_relay hN 0 0 1 100 7 2 default rfl exPass_other hm (by decide) hin rfl rfl (Process.exChat_peer 0).app (serialCheck_sound b1) (res (Process.okNow b2)) _ [] hcalls
    Process.exChat_speech exPassed hP ho (res (Process.okNow a2)) 100 2 2 (Process.exChat_peer 1) ⟨by decide, by decide⟩ _ [] hpass Process.exChat_speech
  obtain ⟨⟨evs3, z1, z2⟩, z3⟩ := C86_tasks_room hN hrest hw hub 1 100 2 2 (Process.exChat_peer 1) ⟨by decide, by decide⟩ (restNow_sound q1) (worksNow_sound q3).1 (worksNow_sound q3).2 uB
    (C69_one_sender _ ⟨0, ho⟩) (Process.okNow a2) _ [] (show callsOf (of 1 la) = [.text (some [104, 105])] ++ [] from by rw [show callsOf (of 1 la) = _ from a3]; rfl) Process.exChat_speech
  have z4 := (z3 0 0 100 7 2 default exPassed _ rfl exPass_other hm (by decide) hin rfl rfl (Process.exChat_peer 0).app hE
      (restNow_sound p1) (definedNow_sound p2) (worksNow_sound p3).1 (serialCheck_sound b1) (Process.okNow b2) ⟨_, [], hcalls, Process.exChat_speech⟩ hP h0).resolve_left alive
  obtain ⟨evs2, y1, _, y2⟩ := C86_tasks_passes_on hN 0 0 1 default rfl exPass_other exPassed hP
  have g1 : (n.peers 1).st.sock.trace = evs := g1
  have g3 : (n.peers 1).st.sock.trace = evs' := g3
  exact ⟨la, lb, ns, n, hN, hP, b3, hpass, g1 ▸ g2, hall, ⟨evs', m', part, g3, g4⟩, ⟨evs2, y1, y2 (.inl hwo)⟩, evs3, z1, z2, z4⟩

end OatWS.AsyncProcess
