import Verif.Spec.AsyncRelay
import Verif.Proofs.AsyncProcessUser
import Verif.Proofs.ProcessRelay
/-! What tasks of an async process send is what the coroutines returned by callbacks do, one after the other. -/

namespace OatWS.AsyncProcess
open Async
open Network (reassemble_append)
open Process (of withReact callsBy)

/-- The coroutines below one of the user. -/
def Base : Option Nat → List Coro → Prop
  | none, low => low = []
  | some k, low => ∃ cs : List Co, cs ≠ [] ∧ (∀ c ∈ cs, isIn c = true) ∧ low = cs.map (.lib k)

/-- The coroutines of a task; `home`: the socket on which it listens; the flag: there is a coroutine of the user. -/
inductive Stk (home : Option Nat) : Bool → State → Prop
  | below {k} {low : List Co} {l} : home = some k → low ≠ [] → (∀ c ∈ low, isIn c = true) → Stk home false (.run ⟨low.map (.lib k), l⟩)
  | user {j} {up : List Co} {b low l} : (∀ c ∈ up, isOut c = true) → Base home low → Stk home true (.run ⟨up.map (.lib j) ++ .user b :: low, l⟩)
  | finished : Stk home false .finished
  | failed {o e} : Stk home o (.failed e)
  | ub {o k u} : Stk home o (.ub k u)

theorem none_out : ∀ c ∈ ([] : List Co), isOut c = true := fun _ h => absurd h List.not_mem_nil

theorem Base.unwind {home : Option Nat} {low : List Coro} (h : Base home low) (e : AErr) (l : Local) (ws : Nat → World) : ∃ ws', unwindM e low l ws = (.failed e, ws') := by
  cases home with
  | none => subst h; exact ⟨_, rfl⟩
  | some k =>
    obtain ⟨cs, _, _, rfl⟩ := h
    exact ⟨_, unwindM_in k e l ws⟩

theorem Stk.at_user {home o b rest l} (h : Stk home o (.run ⟨.user b :: rest, l⟩)) : o = true ∧ Base home rest := by
  generalize hs : State.run ⟨.user b :: rest, l⟩ = s at h
  cases h with
  | @below k low l' h1 h2 h3 =>
    injection hs with hs; injection hs with hs _
    cases low <;> cases hs
  | @user j up b' low l' h1 h2 =>
    injection hs with hs; injection hs with hs _
    cases up with
    | nil => injection hs with _ hs; exact ⟨rfl, hs ▸ h2⟩
    | cons => cases hs
  | finished => cases hs
  | failed => cases hs
  | ub => cases hs

theorem Stk.at_lib {home o k c rest l} (h : Stk home o (.run ⟨.lib k c :: rest, l⟩)) :
    (home = some k ∧ o = false ∧ isIn c = true ∧ ∃ low : List Co, (∀ c ∈ low, isIn c = true) ∧ rest = low.map (.lib k)) ∨
    (o = true ∧ isOut c = true ∧ ∃ (up : List Co) (b : Bool) (low : List Coro), (∀ c ∈ up, isOut c = true) ∧ Base home low ∧ rest = up.map (.lib k) ++ .user b :: low) := by
  generalize hs : State.run ⟨.lib k c :: rest, l⟩ = s at h
  cases h with
  | @below k' low l' h1 h2 h3 =>
    injection hs with hs; injection hs with hs _
    cases low with
    | nil => cases hs
    | cons c' low =>
      injection hs with hs e
      injection hs with e1 e2
      subst e1 e2
      exact .inl ⟨h1, rfl, h3 _ List.mem_cons_self, low, fun x hx => h3 x (List.mem_cons_of_mem _ hx), e⟩
  | @user j up b' low l' h1 h2 =>
    injection hs with hs; injection hs with hs _
    cases up with
    | nil => cases hs
    | cons c' up =>
      injection hs with hs e
      injection hs with e1 e2
      subst e1 e2
      exact .inr ⟨rfl, h1 _ List.mem_cons_self, up, b', low, fun x hx => h1 x (List.mem_cons_of_mem _ hx), h2, e⟩
  | finished => cases hs
  | failed => cases hs
  | ub => cases hs

/-- A step of the library. -/
theorem Stk.lib {env : Nat → Env} {home : Option Nat} {o : Bool} {k : Nat} {c : Co} {rest : List Coro} {l : Local} {ws ws' : Nat → World} {s : State} (h : Stk home o (.run ⟨.lib k c :: rest, l⟩))
    (hm : move env k c rest l ws = some (s, ws')) :
    ((ws' k).st.sock.trace = (ws k).st.sock.trace ∧ Stk home o s) ∨ (∃ e, (ws' k).st.sock.trace = (ws k).st.sock.trace ++ [e] ∧ home = some k ∧ o = false ∧ Stk home true s) := by
  have hst := congrArg (fun st => st.sock.trace) (move_st hm).1
  unfold move at hm
  rcases h.at_lib with ⟨h1, rfl, h2, low, h3, rfl⟩ | ⟨rfl, h2, up, b, low, h3, h4, rfl⟩
  · cases in_step (env k) c h2 l (ws k) with
    | plain a l' w' e hw htr =>
      have e0 : coStep (env k) c l (ws k) = (a, l', w') := e (env k).react
      rw [e0] at hst hm
      refine .inl ⟨hst.trans htr, ?_⟩
      cases a with
      | goto c2 =>
        dsimp only at hm
        injection hm with hm; injection hm with hm _
        subst hm
        rw [place_in hw]
        exact .below (low := c2 :: low) h1 (by nofun) (forall_cons hw h3)
      | call cs c2 =>
        dsimp only at hm
        injection hm with hm; injection hm with hm _
        subst hm
        rw [place_in hw.2, map_place_in hw.1]
        have := Stk.below (low := cs ++ c2 :: low) (l := l') h1 (by simp) (forall_append hw.1 (forall_cons hw.2 h3))
        rw [List.map_append] at this
        exact this
      | finish =>
        dsimp only at hm
        cases low with
        | nil =>
          injection hm with hm; injection hm with hm _
          subst hm
          exact .finished
        | cons c2 low =>
          injection hm with hm; injection hm with hm _
          subst hm
          exact .below (low := c2 :: low) h1 (by nofun) h3
      | error err =>
        dsimp only at hm
        rw [unwindM_in] at hm
        injection hm with hm; injection hm with hm _
        subst hm
        exact .failed
      | blocked => cases hm
      | ub u =>
        dsimp only at hm
        injection hm with hm; injection hm with hm _
        subst hm
        exact .ub
    | told ev u c' l' w' e hu hc' htr =>
      have e0 : coStep (env k) c l (ws k) = (.call [.user { u with ops := (env k).react ((ws k).st.sock.trace ++ [ev]) }] c', l', w') := e (env k).react
      rw [e0] at hst hm
      refine .inr ⟨ev, hst.trans htr, h1, rfl, ?_⟩
      dsimp only at hm
      injection hm with hm; injection hm with hm _
      subst hm
      rw [place_in hc']
      subst h1
      exact .user (j := k) (up := []) none_out ⟨c' :: low, List.cons_ne_nil _ _, forall_cons hc' h3, rfl⟩
  · obtain ⟨a, w', e, hw, htr⟩ := out_step (env k) c h2 (ws k)
    have e0 : coStep (env k) c l (ws k) = (a, l, w') := e (env k).react l
    rw [e0] at hst hm
    refine .inl ⟨hst.trans htr, ?_⟩
    cases a with
    | goto c2 =>
      dsimp only at hm
      injection hm with hm; injection hm with hm _
      subst hm
      rw [place_out hw]
      exact .user (up := c2 :: up) (forall_cons hw h3) h4
    | call cs c2 =>
      dsimp only at hm
      injection hm with hm; injection hm with hm _
      subst hm
      rw [place_out hw.2, map_place_out hw.1]
      have := Stk.user (home := home) (j := k) (b := b) (up := cs ++ c2 :: up) (l := l) (forall_append hw.1 (forall_cons hw.2 h3)) h4
      rw [List.map_append, List.append_assoc] at this
      exact this
    | finish =>
      dsimp only at hm
      split at hm
      · rename_i e
        cases up <;> cases e
      · injection hm with hm; injection hm with hm _
        subst hm
        exact .user h3 h4
    | error err =>
      dsimp only at hm
      rw [unwindM_out h3] at hm
      unfold unwindM at hm
      cases b with
      | true =>
        rw [if_pos rfl] at hm
        injection hm with hm; injection hm with hm _
        subst hm
        exact .user (j := k) (up := []) none_out h4
      | false =>
        rw [if_neg Bool.false_ne_true] at hm
        obtain ⟨ws2, e⟩ := h4.unwind err l (put ws k (destroy c w'))
        rw [e] at hm
        injection hm with hm; injection hm with hm _
        subst hm
        exact .failed
    | blocked => cases hm
    | ub u =>
      dsimp only at hm
      injection hm with hm; injection hm with hm _
      subst hm
      exact .ub

/-- User code does something. -/
theorem Stk.does {env : Nat → Env} {home : Option Nat} {o b : Bool} {k : Nat} {op : UserOp} {rest : List Coro} {l : Local} {ws ws' : Nat → World} {s : State} (h : Stk home o (.run ⟨.user b :: rest, l⟩))
    (hm : move env k (.user { ops := [op] }) rest l ws = some (s, ws')) : Stk home o s := by
  obtain ⟨rfl, hb⟩ := h.at_user
  unfold move at hm
  cases op with
  | stopListening =>
    dsimp only [coStep, userStep] at hm
    injection hm with hm; injection hm with hm _
    subst hm
    exact .user (j := k) (up := []) none_out hb
  | setListener x =>
    dsimp only [coStep, userStep] at hm
    injection hm with hm; injection hm with hm _
    subst hm
    exact .user (j := k) (up := []) none_out hb
  | setConfig x =>
    dsimp only [coStep, userStep] at hm
    injection hm with hm; injection hm with hm _
    subst hm
    exact .user (j := k) (up := []) none_out hb
  | send call catches =>
    dsimp only [coStep, userStep] at hm
    injection hm with hm; injection hm with hm _
    subst hm
    rw [map_place_out (cs := [sendAsync (env k) call]) (only_out _ call)]
    exact .user (up := [sendAsync (env k) call]) (b := catches) (only_out _ call) hb
  | throw =>
    dsimp only [coStep, userStep, destroy] at hm
    obtain ⟨ws2, e⟩ := hb.unwind (.thrown .user) l (put ws k (ws k))
    rw [e] at hm
    injection hm with hm; injection hm with hm _
    subst hm
    exact .failed

theorem Stk.ends {home : Option Nat} {o b : Bool} {rest : List Coro} {l : Local} (h : Stk home o (.run ⟨.user b :: rest, l⟩)) : Stk home false (if rest = [] then .finished else .run ⟨rest, l⟩) := by
  obtain ⟨rfl, hb⟩ := h.at_user
  cases home with
  | none =>
    rw [if_pos (show rest = [] from hb)]
    exact .finished
  | some k =>
    obtain ⟨cs, h1, h2, rfl⟩ := hb
    rw [if_neg fun e => h1 (List.map_eq_nil_iff.mp e)]
    exact .below rfl h1 h2

/-! ## The notes -/

/-- The sends among what user code does. -/
def sendsIn (ns : List Note) : List (Nat × SendCall) := ns.filterMap fun
  | .did k (.send c _) => some (k, c)
  | _ => none

/-- What is told of socket `k`. -/
def toldOn (k : Nat) (ns : List (Nat × Note)) : List Event := ns.filterMap fun x =>
  match x.2 with
  | .told k' e => if k' = k then some e else none
  | _ => none

theorem notesOf_append (i : Nat) (xs ys : List (Nat × Note)) : notesOf i (xs ++ ys) = notesOf i xs ++ notesOf i ys := by simp [notesOf]

theorem notesOf_one (i : Nat) (x : Note) : notesOf i [(i, x)] = [x] := by simp [notesOf]

theorem notesOf_other {i j : Nat} (h : j ≠ i) (x : Note) : notesOf i [(j, x)] = [] := by simp [notesOf, h]

theorem toldOn_append (k : Nat) (xs ys : List (Nat × Note)) : toldOn k (xs ++ ys) = toldOn k xs ++ toldOn k ys := by simp [toldOn]

theorem toldIn_append (xs ys : List Note) : toldIn (xs ++ ys) = toldIn xs ++ toldIn ys := by simp [toldIn]

theorem sendsIn_append (xs ys : List Note) : sendsIn (xs ++ ys) = sendsIn xs ++ sendsIn ys := by simp [sendsIn]

theorem duty_append (f : Msg → List (Nat × SendCall)) (told : List Event) (due : List (Nat × SendCall)) (xs ys : List Note) :
    duty f told due (xs ++ ys) = duty f (told ++ toldIn xs) (duty f told due xs) ys := by
  induction xs generalizing told due with
  | nil => rw [show toldIn [] = [] from rfl, List.append_nil]; rfl
  | cons x xs ih =>
    cases x with
    | told k e =>
      show duty f (told ++ [e]) _ (xs ++ ys) = _
      rw [ih, List.append_assoc]
      rfl
    | did k op => cases op <;> exact ih ..
    | done => exact ih ..

/-- What follows from the notes if user code passes messages on. -/
structure Flow (f : Msg → List (Nat × SendCall)) (o : Bool) (ms : List Note) : Prop where
  over : o = false → duty f [] [] ms = []
  all : sendsIn ms ++ duty f [] [] ms = (reassemble [] (toldIn ms)).1.flatMap f

theorem PassesOn.shorter {f : Msg → List (Nat × SendCall)} {xs ys : List Note} (h : PassesOn f (xs ++ ys)) : PassesOn f xs :=
  ⟨fun pre k c x hp => h.1 pre k c x (hp.trans (List.prefix_append ..)), fun pre hp => h.2 pre (hp.trans (List.prefix_append ..))⟩

theorem Flow.told {f : Msg → List (Nat × SendCall)} {ms : List Note} (h : Flow f false ms) (k : Nat) (e : Event) : Flow f true (ms ++ [.told k e]) := by
  refine ⟨nofun, ?_⟩
  have ha := h.all
  rw [h.over rfl, List.append_nil] at ha
  rw [sendsIn_append, duty_append, toldIn_append, reassemble_append, List.flatMap_append, ← ha]
  show sendsIn ms ++ [] ++ (completes ([] ++ toldIn ms) e).flatMap f = _
  rw [List.append_nil, List.nil_append]
  rfl

theorem Flow.did {f : Msg → List (Nat × SendCall)} {o : Bool} {ms : List Note} (h : Flow f o ms) {k : Nat} {op : UserOp} (hp : PassesOn f (ms ++ [.did k op])) (ho : o = true) :
    Flow f o (ms ++ [.did k op]) := by
  subst ho
  refine ⟨nofun, ?_⟩
  rw [sendsIn_append, duty_append, toldIn_append]
  show _ = (reassemble [] (toldIn ms ++ [])).1.flatMap f
  rw [List.append_nil, ← h.all]
  cases op with
  | send c x =>
    have hh := hp.1 ms k c x (List.prefix_refl _)
    show sendsIn ms ++ [(k, c)] ++ (duty f [] [] ms).tail = _
    cases hd : duty f [] [] ms with
    | nil => rw [hd] at hh; cases hh
    | cons y ys =>
      rw [hd] at hh
      injection hh with hh
      rw [hh, List.append_assoc]
      rfl
  | _ => exact congrArg (· ++ _) (List.append_nil _)

theorem Flow.done {f : Msg → List (Nat × SendCall)} {o : Bool} {ms : List Note} (h : Flow f o ms) (hp : PassesOn f (ms ++ [.done])) : Flow f false (ms ++ [.done]) := by
  have hd : duty f [] [] (ms ++ [.done]) = duty f [] [] ms := by rw [duty_append]; rfl
  refine ⟨fun _ => hd.trans (hp.2 ms (List.prefix_refl _)), ?_⟩
  rw [hd, sendsIn_append, toldIn_append]
  show sendsIn ms ++ [] ++ _ = (reassemble [] (toldIn ms ++ [])).1.flatMap f
  rw [List.append_nil, List.append_nil, h.all]

theorem Flow.any {f : Msg → List (Nat × SendCall)} {o : Bool} {ms : List Note} (h : Flow f o ms) : Flow f true ms := ⟨nofun, h.all⟩

variable {env penv : Nat → Env} {may : Nat → UserOp → Prop} {jobs : List Job} {socks : Nat → World} {peers : Nat → Network.Endpoint} {la lb : List (Nat × Entry)} {ns : List (Nat × Note)} {n : Net}

theorem callsBy_append (i : Nat) (xs ys : List (Nat × Entry)) : callsBy i (xs ++ ys) = callsBy i xs ++ callsBy i ys := by simp [callsBy]

theorem calls_lib {c : Co} (h : isIn c = true ∨ isOut c = true) (l : Local) : Task.calls ⟨[c], l⟩ = none := by
  cases c <;> first | rfl | (rcases h with h | h <;> cases h)

theorem Net.Noted.runs {n0 : Net} (h : Net.Noted env penv may n0 la lb ns n) : Net.Runs env penv may n0 la lb n := by
  induction h with
  | refl => exact .refl
  | lib _ h1 h2 h3 h4 _ ih => exact .lib ih h1 h2 h3 h4
  | does _ h1 h2 h3 ih => exact .does ih h1 h2 h3
  | ends _ h1 ih => exact .ends ih h1
  | peer _ h1 ih => exact .peer ih h1

/-- The tasks, and the notes on them. -/
structure Kept (jobs : List Job) (socks : Nat → World) (la : List (Nat × Entry)) (ns : List (Nat × Note)) (n : Net) : Prop where
  length : n.tasks.length = jobs.length
  stk : ∀ (i : Nat) J s, jobs[i]? = some J → n.tasks[i]? = some s → ∃ o, Stk J.socket o s ∧ ∀ f, PassesOn f (notesOf i ns) → Flow f o (notesOf i ns)
  calls : ∀ i, callsBy i la = sendsIn (notesOf i ns)
  from_ : ∀ x ∈ ns, ∀ k e, x.2 = .told k e → ∃ J, jobs[x.1]? = some J ∧ J.socket = some k
  trace : ∀ k, (n.socks k).st.sock.trace = (socks k).st.sock.trace ++ toldOn k ns

theorem Stk.start (J : Job) : ∃ o, Stk J.socket o J.start ∧ ∀ f, Flow f o [] := by
  cases J with
  | app => exact ⟨true, .user (j := 0) (up := []) none_out rfl, fun f => ⟨nofun, rfl⟩⟩
  | listens k h => exact ⟨false, .below (low := [.listen]) rfl (by nofun) (fun c hc => by rw [List.mem_singleton.mp hc]; rfl), fun f => ⟨fun _ => rfl, rfl⟩⟩

/-- Something happens to task `i` only. -/
theorem Kept.at_ {i : Nat} {s0 s' : State} {xs : List Note} (h : Kept jobs socks la ns n) (hi : n.tasks[i]? = some s0)
    (hx : ∀ J o, jobs[i]? = some J → Stk J.socket o s0 → ∃ o', Stk J.socket o' s' ∧ ∀ f, PassesOn f (notesOf i ns ++ xs) → Flow f o (notesOf i ns) → Flow f o' (notesOf i ns ++ xs)) :
    (n.tasks.set i s').length = jobs.length ∧
    ∀ (j : Nat) J s, jobs[j]? = some J → (n.tasks.set i s')[j]? = some s → ∃ o, Stk J.socket o s ∧ ∀ f, PassesOn f (notesOf j (ns ++ xs.map fun x => (i, x))) → Flow f o (notesOf j (ns ++ xs.map fun x => (i, x))) := by
  have hself : notesOf i (xs.map fun x => (i, x)) = xs := by
    simp [notesOf, List.filter_map, Function.comp_def]
  refine ⟨by rw [List.length_set, h.length], fun j J s hJ hs => ?_⟩
  rw [notesOf_append]
  by_cases hj : j = i
  · subst hj
    rw [List.getElem?_set_self (List.getElem?_eq_some_iff.mp hi).1] at hs
    injection hs with hs
    subst hs
    obtain ⟨o, h1, h2⟩ := h.stk _ J _ hJ hi
    obtain ⟨o', h3, h4⟩ := hx J o hJ h1
    rw [hself]
    exact ⟨o', h3, fun f hp => h4 f hp (h2 f hp.shorter)⟩
  · rw [List.getElem?_set_ne (Ne.symm hj)] at hs
    have hno : notesOf j (xs.map fun x => (i, x)) = [] := by
      simp [notesOf, List.filter_map, Function.comp_def, Ne.symm hj]
    rw [hno, List.append_nil]
    exact h.stk _ J _ hJ hs

theorem notesOf_all (j i : Nat) (xs : List Note) : notesOf j (xs.map fun x => (i, x)) = if i = j then xs else [] := by
  by_cases h : i = j
  · simp [notesOf, List.filter_map, Function.comp_def, h]
  · simp [notesOf, List.filter_map, Function.comp_def, h]

theorem Net.Noted.kept (h : Net.Noted env penv may ⟨jobs.map Job.start, socks, peers⟩ la lb ns n) : Kept jobs socks la ns n := by
  induction h with
  | refl =>
    refine ⟨by simp, fun i J s hJ hs => ?_, fun i => rfl, fun x hx => absurd hx List.not_mem_nil, fun k => (List.append_nil _).symm⟩
    have hs : (jobs.map Job.start)[i]? = some s := hs
    rw [List.getElem?_map, hJ] at hs
    injection hs with hs
    subst hs
    obtain ⟨o, h1, h2⟩ := Stk.start J
    exact ⟨o, h1, fun f _ => h2 f⟩
  | @peer la lb ns n k0 e b _ _ ih =>
    refine ⟨ih.length, ih.stk, ih.calls, ih.from_, fun k => ?_⟩
    rw [← ih.trace k]
    show (put n.socks k0 (reach (n.socks k0) e.wrote) k).st.sock.trace = _
    unfold put
    split
    · rename_i e; subst e; rfl
    · rfl
  | @ends la lb ns n i b rest l _ h1 ih =>
    have key := ih.at_ (xs := [.done]) h1 (s' := if rest = [] then .finished else .run ⟨rest, l⟩) fun J o hJ hk => ⟨false, hk.ends, fun f hp hf => hf.done hp⟩
    refine ⟨key.1, key.2, fun j => ?_, fun x hx k e hxe => ?_, fun k => ?_⟩
    · rw [ih.calls j, notesOf_append, sendsIn_append]
      by_cases hj : i = j
      · subst hj; rw [notesOf_one]; exact (List.append_nil _).symm
      · rw [notesOf_other hj]; exact (List.append_nil _).symm
    · rcases List.mem_append.mp hx with hx | hx
      · exact ih.from_ x hx k e hxe
      · rw [List.mem_singleton.mp hx] at hxe; cases hxe
    · rw [toldOn_append]
      exact (ih.trace k).trans (by simp [toldOn])
  | @does la lb ns n i b rest l k op s ws _ h1 h2 h3 ih =>
    have key := ih.at_ (xs := [.did k op]) h1 (s' := s) fun J o hJ hk => ⟨o, hk.does h3, fun f hp hf => hf.did hp hk.at_user.1⟩
    refine ⟨key.1, key.2, fun j => ?_, fun x hx k e hxe => ?_, fun k' => ?_⟩
    · rw [callsBy_append, ih.calls j, notesOf_append, sendsIn_append]
      congr 1
      by_cases hj : i = j
      · subst hj
        rw [notesOf_one]
        cases op <;> simp [callsBy, sendsIn, entryOf, Task.calls]
      · rw [notesOf_other hj]
        simp [callsBy, sendsIn, entryOf, hj]
    · rcases List.mem_append.mp hx with hx | hx
      · exact ih.from_ x hx k e hxe
      · rw [List.mem_singleton.mp hx] at hxe; cases hxe
    · rw [toldOn_append]
      refine Eq.trans ?_ ((ih.trace k').trans (by simp [toldOn]))
      show (ws k').st.sock.trace = _
      by_cases hk : k' = k
      · subst hk
        rw [(move_st h3).1, user_trace]
      · rw [(move_st h3).2 k' hk]
  | @lib la lb ns n i k c rest l s ws bs evs _ h1 h2 h3 h4 h5 ih =>
    have hil : i < jobs.length := ih.length ▸ (List.getElem?_eq_some_iff.mp h1).1
    have hJi : jobs[i]? = some jobs[i] := List.getElem?_eq_getElem hil
    obtain ⟨o0, hk0, _⟩ := ih.stk _ _ _ hJi h1
    have hhome : evs = [] ∨ ∃ e, evs = [e] ∧ jobs[i].socket = some k := by
      rcases hk0.lib h3 with ⟨e1, _⟩ | ⟨e, e1, e2, _⟩
      · exact .inl (List.append_cancel_left (h5.symm.trans (e1.trans (List.append_nil _).symm)))
      · exact .inr ⟨e, List.append_cancel_left (h5.symm.trans e1), e2⟩
    have key := ih.at_ (xs := evs.map fun e => .told k e) h1 (s' := s) fun J o hJ hk => by
      rcases hk.lib h3 with ⟨e1, e2⟩ | ⟨e, e1, e2, rfl, e3⟩
      · have he : evs = [] := List.append_cancel_left (h5.symm.trans (e1.trans (List.append_nil _).symm))
        subst he
        exact ⟨o, e2, fun f hp hf => by rw [List.map_nil, List.append_nil]; exact hf⟩
      · have he : evs = [e] := List.append_cancel_left (h5.symm.trans e1)
        subst he
        exact ⟨true, e3, fun f hp hf => hf.told k e⟩
    have hmap : (evs.map fun e => Note.told k e).map (fun x => (i, x)) = evs.map fun e => (i, Note.told k e) := by rw [List.map_map]; rfl
    rw [hmap] at key
    refine ⟨key.1, key.2, fun j => ?_, fun x hx k' e hxe => ?_, fun k' => ?_⟩
    · rw [callsBy_append, ih.calls j, notesOf_append, sendsIn_append, ← hmap, notesOf_all]
      congr 1
      have hc : Task.calls ⟨[c], l⟩ = none := by
        refine calls_lib ?_ l
        rcases hk0.at_lib with ⟨_, _, h, _⟩ | ⟨_, h, _⟩
        · exact .inl h
        · exact .inr h
      have e1 : callsBy j [(k, entryOf (env k) i ⟨[c], l⟩ (n.socks k) (ws k) bs)] = [] := by
        simp [callsBy, entryOf, hc]
      rw [e1]
      split
      · rcases hhome with rfl | ⟨e, rfl, _⟩ <;> rfl
      · rfl
    · rcases List.mem_append.mp hx with hx | hx
      · exact ih.from_ x hx k' e hxe
      · rcases hhome with rfl | ⟨e', rfl, hh⟩
        · exact absurd hx List.not_mem_nil
        · rw [List.mem_singleton.mp hx] at hxe ⊢
          injection hxe with e1 e2
          exact ⟨_, hJi, e1 ▸ hh⟩
    · rw [toldOn_append, ← List.append_assoc, ← ih.trace k']
      show (ws k').st.sock.trace = _
      by_cases hk : k' = k
      · subst hk
        rw [h5]
        congr 1
        rcases hhome with rfl | ⟨e, rfl, _⟩ <;> simp [toldOn]
      · rw [(move_st h3).2 k' hk]
        rcases hhome with rfl | ⟨e, rfl, _⟩ <;> simp [toldOn, Ne.symm hk]

theorem toldOn_eq {i k : Nat} {ns : List (Nat × Note)} (h : ∀ x ∈ ns, ∀ k' e, x.2 = .told k' e → (k' = k ↔ x.1 = i)) : toldOn k ns = toldIn (notesOf i ns) := by
  induction ns with
  | nil => rfl
  | cons x ns ih =>
    have ih := ih fun y hy => h y (List.mem_cons_of_mem _ hy)
    have hx := h x List.mem_cons_self
    rw [show x :: ns = [x] ++ ns from rfl, toldOn_append, notesOf_append, ih, toldIn_append]
    congr 1
    obtain ⟨j, y⟩ := x
    by_cases hj : j = i
    · subst hj
      rw [notesOf_one]
      cases y with
      | told k' e =>
        have : k' = k := (hx k' e rfl).mpr rfl
        simp [toldOn, toldIn, this]
      | did => rfl
      | done => rfl
    · rw [notesOf_other hj]
      cases y with
      | told k' e =>
        have : ¬ k' = k := fun h => hj ((hx k' e rfl).mp h)
        simp [toldOn, toldIn, this]
      | did => rfl
      | done => rfl

/-- If only task `i` listens on socket `k`, it is told what the listener of this socket hears. -/
theorem Kept.told_alone (h : Kept jobs socks la ns n) {i k : Nat} {J : Job} (hJ : jobs[i]? = some J) (hk : J.socket = some k) (hother : ∀ j J, jobs[j]? = some J → J.socket = some k → j = i) :
    (n.socks k).st.sock.trace = (socks k).st.sock.trace ++ toldIn (notesOf i ns) := by
  rw [h.trace k, toldOn_eq fun x hx k' e hxe => ?_]
  obtain ⟨J', h5, h6⟩ := h.from_ x hx k' e hxe
  refine ⟨fun h => hother _ J' h5 (h ▸ h6), fun h => ?_⟩
  rw [h, hJ] at h5
  injection h5 with h5
  rw [← h5, hk] at h6
  injection h6 with h6
  exact h6.symm

/-- Each run has notes. -/
theorem Net.Runs.noted (h : Net.Runs env penv may ⟨jobs.map Job.start, socks, peers⟩ la lb n) : ∃ ns, Net.Noted env penv may ⟨jobs.map Job.start, socks, peers⟩ la lb ns n := by
  induction h with
  | refl => exact ⟨_, .refl⟩
  | peer _ h1 ih => obtain ⟨ns, ih⟩ := ih; exact ⟨_, .peer ih h1⟩
  | ends _ h1 ih => obtain ⟨ns, ih⟩ := ih; exact ⟨_, .ends ih h1⟩
  | does _ h1 h2 h3 ih => obtain ⟨ns, ih⟩ := ih; exact ⟨_, .does ih h1 h2 h3⟩
  | @lib la lb n i k c rest l s ws bs _ h1 h2 h3 h4 ih =>
    obtain ⟨ns, ih⟩ := ih
    have hk := ih.kept
    have hil : i < jobs.length := hk.length ▸ (List.getElem?_eq_some_iff.mp h1).1
    obtain ⟨o0, hk0, _⟩ := hk.stk _ _ _ (List.getElem?_eq_getElem hil) h1
    rcases hk0.lib h3 with ⟨e1, _⟩ | ⟨e, e1, _⟩
    · exact ⟨_, .lib ih h1 h2 h3 h4 (evs := []) (e1.trans (List.append_nil _).symm)⟩
    · exact ⟨_, .lib ih h1 h2 h3 h4 e1⟩

end OatWS.AsyncProcess
