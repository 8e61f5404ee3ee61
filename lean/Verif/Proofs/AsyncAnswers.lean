import Verif.Spec.Session
import Verif.Proofs.SessionSays
import Verif.Proofs.AsyncLink
import Verif.Proofs.Exec
/-! What a listening task calls in its callbacks, at any moment. -/

namespace OatWS.Async

/-- 0: it sends; 1: of the user; 2: it receives. -/
def Co.kind : Co → Nat
  | .sendFrame _ => 0
  | .writeFrame _ => 0
  | .user _ => 1
  | _ => 2

/-- What the coroutine will still call, if all goes well. -/
def Co.owes : Co → List SendCall
  | .user u => said u.ops
  | _ => []

/-- What it calls in its next step. -/
def Co.calls : Co → List SendCall
  | .user u => match u.ops with
    | .send c _ :: _ => [c]
    | _ => []
  | _ => []

def SameTrace (w w' : World) : Prop := w'.st.sock.trace = w.st.sock.trace

/-- What a step of coroutine `c` says. -/
def Speaks (env : Env) (c : Co) (w : World) (x : Act × Local × World) : Prop :=
  match x.1 with
  | .goto c' => SameTrace w x.2.2 ∧ c'.kind = c.kind ∧ c.calls ++ c'.owes = c.owes
  | .call cs c' => c'.kind = c.kind ∧ c.calls ++ c'.owes = c.owes ∧
      ((SameTrace w x.2.2 ∧ ∀ d ∈ cs, d.kind = 0 ∨ (d.kind = 2 ∧ c.kind = 2)) ∨
       (c.kind = 2 ∧ ∃ e u, x.2.2.st.sock.trace = w.st.sock.trace ++ [e] ∧ cs = [.user u] ∧ u.ops = env.react (w.st.sock.trace ++ [e]) ∧ u.catching = false))
  | .finish => SameTrace w x.2.2 ∧ c.calls = [] ∧ c.owes = []
  | .error _ => SameTrace w x.2.2 ∧ c.calls = [] ∧ c.owes = []
  | .blocked => True
  | .ub _ => SameTrace w x.2.2 ∧ c.calls = []

variable {env : Env}

theorem speaks_readStep {c : Co} {w : World} (hk : c.kind = 2) (ho : c.calls = [] ∧ c.owes = []) (need got l again) (cont : List UInt8 → World → Act × Local × World)
    (h1 : ∀ g, (again g).kind = 2 ∧ (again g).owes = []) (h2 : ∀ g i, Speaks env c (w.setInp i) (cont g (w.setInp i))) : Speaks env c w (readStep need got l w again cont) := by
  unfold readStep
  rcases readInline need got w.st.inp with ⟨(g | g | _ | _), i⟩
  · exact ⟨rfl, by rw [(h1 g).1, hk], by rw [ho.1, ho.2, (h1 g).2]; rfl⟩
  · exact h2 g i
  · exact ⟨rfl, ho⟩
  · exact trivial

theorem speaks_writeStep {c : Co} {w : World} (hk : c.kind = 0) (ho : c.calls = [] ∧ c.owes = []) (left l again) (cont : Act)
    (h1 : ∀ g, (again g).kind = 0 ∧ (again g).owes = []) (h2 : ∀ o, Speaks env c w (cont, l, w.setOut o)) : Speaks env c w (writeStep left l w again cont) := by
  unfold writeStep
  rcases writeInline left w.st.sock.out with ⟨(_ | g | _ | _), i⟩
  all_goals first | exact h2 _ | exact ⟨rfl, by rw [(h1 _).1, hk], by rw [ho.1, ho.2, (h1 _).2]; rfl⟩ | exact ⟨rfl, ho⟩ | trivial

theorem speaks_coStep (env : Env) (c : Co) (l : Local) (w : World) : Speaks env c w (coStep env c l w) := by
  cases c with
  | listen =>
    simp only [coStep, listenStep]
    split
    · refine ⟨rfl, rfl, .inl ⟨rfl, fun d hd => .inr ⟨?_, rfl⟩⟩⟩
      simp only [List.mem_cons, List.not_mem_nil, or_false] at hd
      rcases hd with rfl | rfl <;> rfl
    · exact ⟨rfl, rfl, rfl⟩
  | readFrame c =>
    simp only [coStep, readFrameStep]
    split
    · exact speaks_readStep rfl ⟨rfl, rfl⟩ _ _ _ _ _ (fun _ => ⟨rfl, rfl⟩) fun _ _ => ⟨rfl, rfl, rfl⟩
    · split
      · split
        · exact ⟨rfl, rfl, rfl⟩
        · split <;> exact ⟨rfl, rfl, rfl⟩
      · exact ⟨rfl, rfl, rfl⟩
    · exact speaks_readStep rfl ⟨rfl, rfl⟩ _ _ _ _ _ (fun _ => ⟨rfl, rfl⟩) fun _ _ => ⟨rfl, rfl, rfl⟩
    · split <;> exact ⟨rfl, rfl, rfl⟩
    · refine speaks_readStep rfl ⟨rfl, rfl⟩ _ _ _ _ _ (fun _ => ⟨rfl, rfl⟩) fun _ _ => ?_
      split <;> exact ⟨rfl, rfl, rfl⟩
  | handleFrame c =>
    have hs : ∀ short pc l w', w'.st.sock.trace = w.st.sock.trace → Speaks env (.handleFrame c) w (startPayload c short pc l w') := by
      intro short pc l w' hw1
      unfold startPayload readPayloadAsync
      split
      · rename_i co w1 h
        split at h
        · cases h
        · split at h
          · cases h
          · injection h with h; injection h with h h'; subst h h'
            refine ⟨rfl, rfl, .inl ⟨hw1, fun d hd => .inr ⟨?_, rfl⟩⟩⟩
            rw [List.mem_singleton.mp hd]
            rfl
      · exact ⟨hw1, rfl, rfl⟩
    have hd : ∀ l, Speaks env (.handleFrame c) w (startData c l w) := by
      intro l
      unfold startData checkForContinuationA
      split
      · rename_i s h
        split at h
        · cases h
        · split at h <;> (injection h with _ h; subst h; exact hs _ _ _ _ rfl)
      · rename_i s h
        split at h
        · injection h with _ h; subst h; exact ⟨rfl, rfl, rfl⟩
        · split at h <;> cases h
    have hcb : ∀ mk : Nat → Event, ∀ l, Speaks env (.handleFrame c) w (controlCallback env c mk l w) := by
      intro mk l
      unfold controlCallback
      split
      · exact ⟨rfl, rfl, .inr ⟨rfl, _, _, rfl, rfl, rfl, rfl⟩⟩
      · exact ⟨rfl, rfl, rfl⟩
    simp only [coStep, handleFrameStep]
    split
    · split
      · split
        · exact ⟨rfl, rfl, rfl⟩
        · exact hs _ _ _ _ rfl
      · split
        · exact hd _
        · split
          · exact hd _
          · split
            · exact hs _ _ _ _ rfl
            · split
              · exact hs _ _ _ _ rfl
              · split
                · exact hs _ _ _ _ rfl
                · exact ⟨rfl, rfl, rfl⟩
    · exact hcb _ _
    · exact hcb _ _
    · exact hcb _ _
    · exact ⟨rfl, rfl, rfl⟩
  | readPayload c =>
    simp only [coStep, readPayloadStep]
    split
    · split
      · exact ⟨rfl, rfl, rfl⟩
      · split
        · split
          · exact ⟨rfl, rfl, .inr ⟨rfl, _, _, rfl, rfl, rfl, rfl⟩⟩
          · exact ⟨rfl, rfl, rfl⟩
        · exact ⟨rfl, rfl, rfl⟩
    · split
      · exact ⟨rfl, rfl, rfl⟩
      · split
        · trivial
        · split
          · split
            · exact ⟨rfl, rfl⟩
            · exact ⟨rfl, rfl, rfl⟩
          · exact ⟨rfl, rfl, rfl⟩
          · exact ⟨rfl, rfl, rfl⟩
          · exact ⟨rfl, rfl, rfl⟩
    · split
      · split
        · split
          · exact ⟨rfl, rfl, rfl⟩
          · split
            · exact ⟨rfl, rfl, .inr ⟨rfl, _, _, rfl, rfl, rfl, rfl⟩⟩
            · exact ⟨rfl, rfl, rfl⟩
        · split
          · exact ⟨rfl, rfl, rfl⟩
          · split
            · exact ⟨rfl, rfl, .inr ⟨rfl, _, _, rfl, rfl, rfl, rfl⟩⟩
            · exact ⟨rfl, rfl, rfl⟩
      · exact ⟨rfl, rfl, rfl⟩
    · exact ⟨rfl, rfl, rfl⟩
  | user c =>
    rcases c with ⟨ops⟩
    dsimp only [coStep, userStep]
    cases ops with
    | nil => exact ⟨rfl, rfl, rfl⟩
    | cons op ops =>
      cases op with
      | send call b =>
        refine ⟨rfl, rfl, .inl ⟨rfl, fun d hd => .inl ?_⟩⟩
        rw [List.mem_singleton.mp hd]
        cases call <;> rfl
      | _ => exact ⟨rfl, rfl, rfl⟩
  | sendFrame c =>
    have hw : ∀ h fin op n, SameTrace w (sendFrameHeaderAsync env h fin op n w).2.2 ∧ (sendFrameHeaderAsync env h fin op n w).2.1.kind = 0 := by
      intro h fin op n
      unfold sendFrameHeaderAsync
      dsimp only
      split <;> exact ⟨rfl, rfl⟩
    simp only [coStep, sendFrameStep]
    split
    · split
      · refine ⟨rfl, rfl, .inl ⟨(hw ..).1, fun d hd => .inl ?_⟩⟩
        rw [List.mem_singleton.mp hd]
        exact (hw ..).2
      · refine ⟨rfl, rfl, .inl ⟨(hw ..).1, fun d hd => .inl ?_⟩⟩
        rw [List.mem_singleton.mp hd]
        exact (hw ..).2
    · split
      · split
        · exact ⟨rfl, rfl⟩
        · exact ⟨rfl, rfl, rfl⟩
      · exact ⟨rfl, rfl, rfl⟩
    · exact speaks_writeStep rfl ⟨rfl, rfl⟩ _ _ _ _ (fun _ => ⟨rfl, rfl⟩) fun _ => ⟨rfl, rfl, rfl⟩
    · exact ⟨rfl, rfl, rfl⟩
  | writeFrame c =>
    simp only [coStep, writeFrameStep]
    split
    · exact speaks_writeStep rfl ⟨rfl, rfl⟩ _ _ _ _ (fun _ => ⟨rfl, rfl⟩) fun _ => ⟨rfl, rfl, rfl⟩
    · split
      · exact ⟨rfl, rfl, rfl⟩
      · split <;> exact ⟨rfl, rfl, rfl⟩
    · exact speaks_writeStep rfl ⟨rfl, rfl⟩ _ _ _ _ (fun _ => ⟨rfl, rfl⟩) fun _ => ⟨rfl, rfl, rfl⟩
    · split <;> exact ⟨rfl, rfl, rfl⟩
    · exact speaks_writeStep rfl ⟨rfl, rfl⟩ _ _ _ _ (fun _ => ⟨rfl, rfl⟩) fun _ => ⟨rfl, rfl, rfl⟩

/-- What the coroutines will still call, if all goes well. -/
def owes (cs : List Co) : List SendCall := cs.flatMap Co.owes

/-- Only coroutines that send are above one of the user. -/
def Shape : List Co → Prop
  | [] => True
  | c :: cs => (c.kind ≠ 0 → NoUser cs) ∧ Shape cs

theorem owes_of_kind {c : Co} (h : c.kind ≠ 1) : c.owes = [] := by
  cases c with
  | user u => exact absurd rfl h
  | _ => rfl

theorem owes_noUser {cs : List Co} (h : NoUser cs) : owes cs = [] := by
  unfold owes
  rw [List.flatMap_eq_nil_iff]
  intro c hc
  cases c with
  | user u => exact absurd hc (h u)
  | _ => rfl

theorem owes_cons (c : Co) (cs : List Co) : owes (c :: cs) = c.owes ++ owes cs := rfl

theorem NoUser.cons {c : Co} {cs : List Co} (hc : c.kind ≠ 1) (h : NoUser cs) : NoUser (c :: cs) := by
  intro u hu
  rcases List.mem_cons.mp hu with rfl | hu
  · exact hc rfl
  · exact h u hu

/-- What a listening task has called (`cs`), and will call, if the callbacks `evs` were made since there had been `tr0`. -/
def Says (env : Env) (tr0 evs : List Event) (cs : List SendCall) : Outcome → Prop
  | .run t => Shape t.stack ∧ cs ++ owes t.stack = replies env tr0 evs
  | .finished => cs = replies env tr0 evs
  | .failed _ => cs <+: replies env tr0 evs
  | .ub _ => cs <+: replies env tr0 evs
  | .blocked => False

theorem Says.pre {tr0 evs : List Event} {cs : List SendCall} {o : Outcome} (h : Says env tr0 evs cs o) : cs <+: replies env tr0 evs := by
  cases o with
  | run t => exact ⟨_, h.2⟩
  | finished => exact ⟨[], by rw [List.append_nil]; exact h⟩
  | failed e => exact h
  | ub u => exact h
  | blocked => exact h.elim

theorem says_unwind {tr0 evs : List Event} {cs : List SendCall} (e : AErr) (rest : List Co) (l : Local) (w : World) (h1 : Shape rest) (h2 : cs ++ owes rest = replies env tr0 evs) :
    Says env tr0 evs cs (unwind e rest l w).1 := by
  have key : ∀ (rest : List Co) (w : World), Shape rest → cs ++ owes rest = replies env tr0 evs ∨ (NoUser rest ∧ cs <+: replies env tr0 evs) → Says env tr0 evs cs (unwind e rest l w).1 := by
    intro rest
    induction rest with
    | nil =>
      intro w _ h
      rcases h with h | h
      · exact ⟨_, h⟩
      · exact h.2
    | cons c rest ih =>
      intro w hs h
      cases c with
      | user u =>
        rcases h with h | h
        · dsimp only [unwind]
          split
          · exact ⟨⟨hs.1, hs.2⟩, h⟩
          · exact ih w hs.2 (.inr ⟨hs.1 Nat.one_ne_zero, ⟨_, h⟩⟩)
        · exact absurd (List.mem_cons_self ..) (h.1 u)
      | _ =>
        refine ih _ hs.2 ?_
        rcases h with h | h
        · exact .inl h
        · exact .inr ⟨fun u hu => h.1 u (List.mem_cons_of_mem _ hu), h.2⟩
  exact key rest w h1 (.inl h2)

theorem unwind_sameTrace (e : AErr) (rest : List Co) (l : Local) (w : World) : SameTrace w (unwind e rest l w).2 := by
  induction rest generalizing w with
  | nil => rfl
  | cons c rest ih =>
    cases c with
    | user u =>
      dsimp only [unwind]
      split
      · rfl
      · exact ih w
    | _ => exact ih _

theorem destroy_sameTrace (c : Co) (w : World) : SameTrace w (destroy c w) := by cases c <;> rfl

theorem calls_top {t : Task} {c : Co} {rest : List Co} (h : t.stack = c :: rest) : t.calls.toList = c.calls := by
  unfold Task.calls
  rw [h]
  cases c with
  | user u =>
    rcases u with ⟨ops⟩
    cases ops with
    | nil => rfl
    | cons op ops => cases op <;> rfl
  | _ => rfl

theorem says_step {tr0 evs : List Event} {cs : List SendCall} {t : Task} {w w' : World} {o : Outcome} (h : Says env tr0 evs cs (.run t)) (hw : w.st.sock.trace = tr0 ++ evs)
    (hs : step env t w = (o, w')) (hb : o ≠ .blocked) : ∃ es, w'.st.sock.trace = w.st.sock.trace ++ es ∧ Says env tr0 (evs ++ es) (cs ++ t.calls.toList) o := by
  rcases t with ⟨stack, l⟩
  rcases stack with _ | ⟨c, rest⟩
  · injection hs with h1 h2
    subst h1 h2
    refine ⟨[], by simp, ?_⟩
    have h := h.2
    rw [List.append_nil]
    show cs ++ [] = _
    exact h
  · obtain ⟨hsh, hq⟩ := h
    have hsp := speaks_coStep env c l w
    rw [calls_top (t := ⟨c :: rest, l⟩) rfl]
    unfold step at hs
    dsimp only at hs hsh hq
    rcases he : coStep env c l w with ⟨a, l', w1⟩
    rw [he] at hs hsp
    rw [owes_cons] at hq
    cases a with
    | goto c' =>
      injection hs with h1 h2
      subst h1 h2
      obtain ⟨e1, e2, e3⟩ := hsp
      refine ⟨[], by rw [List.append_nil]; exact e1, ⟨⟨fun hk => hsh.1 (e2 ▸ hk), hsh.2⟩, ?_⟩⟩
      rw [List.append_nil, owes_cons, ← hq, ← e3]
      simp only [List.append_assoc]
    | call ds c' =>
      injection hs with h1 h2
      subst h1 h2
      obtain ⟨e2, e3, e4⟩ := hsp
      have hbase : Shape (c' :: rest) := ⟨fun hk => hsh.1 (e2 ▸ hk), hsh.2⟩
      rcases e4 with ⟨e1, e5⟩ | ⟨hk, e, u, e1, rfl, e5, -⟩
      · have hds : owes (ds ++ c' :: rest) = owes (c' :: rest) ∧ Shape (ds ++ c' :: rest) := by
          clear hq he e1 hb
          induction ds with
          | nil => exact ⟨rfl, hbase⟩
          | cons d ds ih =>
            have hd := e5 d (List.mem_cons_self ..)
            obtain ⟨i1, i2⟩ := ih fun x hx => e5 x (List.mem_cons_of_mem _ hx)
            have hk1 : d.kind ≠ 1 := by rcases hd with hd | hd <;> omega
            refine ⟨?_, ⟨fun hk => ?_, i2⟩⟩
            · rw [List.cons_append, owes_cons, owes_of_kind hk1]
              exact i1
            · rcases hd with hd | ⟨hd, hc⟩
              · exact absurd hd hk
              · clear ih i1 i2 hk hd
                have hb : NoUser (c' :: rest) := NoUser.cons (by omega) (hsh.1 (by omega))
                have : ∀ x ∈ ds, x.kind ≠ 1 := fun x hx => by
                  rcases e5 x (List.mem_cons_of_mem _ hx) with h | h <;> omega
                intro u hu
                rcases List.mem_append.mp hu with hu | hu
                · exact this _ hu rfl
                · exact hb u hu
        refine ⟨[], by rw [List.append_nil]; exact e1, ⟨hds.2, ?_⟩⟩
        dsimp only
        rw [List.append_nil, hds.1, owes_cons, ← hq, ← e3]
        simp only [List.append_assoc]
      · have hno : NoUser rest := hsh.1 (by omega)
        have hc1 : c.owes = [] := owes_of_kind (by omega)
        have hc2 : c'.owes = [] := owes_of_kind (by omega)
        have hc3 : c.calls = [] := by
          rw [hc2, hc1, List.append_nil] at e3
          exact e3
        refine ⟨[e], e1, ⟨⟨fun _ => NoUser.cons (by omega) hno, hbase⟩, ?_⟩⟩
        dsimp only
        rw [List.singleton_append, owes_cons, owes_cons, hc2, owes_noUser hno, hc3, replies_snoc, ← hq, hc1, owes_noUser hno, ← hw]
        show cs ++ [] ++ (said u.ops ++ []) = _
        rw [e5]
        simp
    | finish =>
      obtain ⟨e1, e2, e3⟩ := hsp
      have hq' : cs ++ c.calls ++ owes rest = replies env tr0 (evs ++ []) := by
        rw [List.append_nil, e2, List.append_nil, ← hq, e3]
        rfl
      cases rest with
      | nil =>
        injection hs with h1 h2
        subst h1 h2
        refine ⟨[], by rw [List.append_nil]; exact (destroy_sameTrace c w1).trans e1, ?_⟩
        show _ = _
        rw [← hq']
        simp [owes]
      | cons d rest =>
        injection hs with h1 h2
        subst h1 h2
        exact ⟨[], by rw [List.append_nil]; exact (destroy_sameTrace c w1).trans e1, ⟨hsh.2, hq'⟩⟩
    | error e =>
      obtain ⟨e1, e2, e3⟩ := hsp
      have hq' : cs ++ c.calls ++ owes rest = replies env tr0 (evs ++ []) := by
        rw [List.append_nil, e2, List.append_nil, ← hq, e3]
        rfl
      have h1 := says_unwind e rest l' (destroy c w1) hsh.2 hq'
      have h2 := unwind_sameTrace e rest l' (destroy c w1)
      dsimp only at hs
      rw [hs] at h1 h2
      exact ⟨[], by rw [List.append_nil]; exact (h2.trans (destroy_sameTrace c w1)).trans e1, h1⟩
    | blocked =>
      injection hs with h1 h2
      exact absurd h1.symm hb
    | ub u =>
      injection hs with h1 h2
      subst h1 h2
      obtain ⟨e1, e2⟩ := hsp
      refine ⟨[], by rw [List.append_nil]; exact e1, ?_⟩
      show _ <+: _
      rw [e2, List.append_nil, List.append_nil, ← hq]
      exact ⟨_, rfl⟩

/-- Tasks that do not receive. -/
def NoRecv : Outcome → Prop
  | .run t => ∀ c ∈ t.stack, c.kind ≠ 2
  | _ => True

theorem noRecv_unwind (e : AErr) (rest : List Co) (l : Local) (w : World) (h : ∀ c ∈ rest, c.kind ≠ 2) : NoRecv (unwind e rest l w).1 := by
  induction rest generalizing w with
  | nil => trivial
  | cons c rest ih =>
    have h' := fun x hx => h x (List.mem_cons_of_mem _ hx)
    cases c with
    | user u =>
      dsimp only [unwind]
      split
      · intro c hc
        rcases List.mem_cons.mp hc with rfl | hc
        · exact h (.user u) (List.mem_cons_self ..)
        · exact h' c hc
      · exact ih w h'
    | _ => exact ih _ h'

theorem noRecv_step {t : Task} {w w' : World} {o : Outcome} (h : NoRecv (.run t)) (hs : step env t w = (o, w')) (hb : o ≠ .blocked) : SameTrace w w' ∧ NoRecv o := by
  rcases t with ⟨stack, l⟩
  rcases stack with _ | ⟨c, rest⟩
  · injection hs with h1 h2
    subst h1 h2
    exact ⟨rfl, trivial⟩
  · have hc := h c (List.mem_cons_self ..)
    have hr : ∀ d ∈ rest, d.kind ≠ 2 := fun d hd => h d (List.mem_cons_of_mem _ hd)
    have hsp := speaks_coStep env c l w
    unfold step at hs
    dsimp only at hs
    rcases he : coStep env c l w with ⟨a, l', w1⟩
    rw [he] at hs hsp
    have hcons : ∀ d ds, d.kind ≠ 2 → (∀ x ∈ ds, x.kind ≠ 2) → ∀ x ∈ d :: ds, Co.kind x ≠ 2 := by
      intro d ds h1 h2 x hx
      rcases List.mem_cons.mp hx with rfl | hx
      · exact h1
      · exact h2 x hx
    cases a with
    | goto c' =>
      injection hs with h1 h2
      subst h1 h2
      exact ⟨hsp.1, hcons _ _ (by rw [hsp.2.1]; exact hc) hr⟩
    | call ds c' =>
      injection hs with h1 h2
      subst h1 h2
      obtain ⟨e2, -, ⟨e1, e5⟩ | ⟨hk, _⟩⟩ := hsp
      · refine ⟨e1, fun x hx => ?_⟩
        rcases List.mem_append.mp hx with hx | hx
        · rcases e5 x hx with h | h <;> omega
        · exact hcons _ _ (by rw [e2]; exact hc) hr x hx
      · exact absurd hk hc
    | finish =>
      cases rest with
      | nil =>
        injection hs with h1 h2
        subst h1 h2
        exact ⟨(destroy_sameTrace c w1).trans hsp.1, trivial⟩
      | cons d rest =>
        injection hs with h1 h2
        subst h1 h2
        exact ⟨(destroy_sameTrace c w1).trans hsp.1, hr⟩
    | error e =>
      have h1 := noRecv_unwind e rest l' (destroy c w1) hr
      have h2 := unwind_sameTrace e rest l' (destroy c w1)
      dsimp only at hs
      rw [hs] at h1 h2
      exact ⟨(h2.trans (destroy_sameTrace c w1)).trans hsp.1, h1⟩
    | blocked =>
      injection hs with h1 h2
      exact absurd h1.symm hb
    | ub u =>
      injection hs with h1 h2
      subst h1 h2
      exact ⟨hsp.1, trivial⟩

/-- What the first task has called, at any moment. -/
theorem Fed.says {p q : Pool} {log fed} (h : Fed env p log fed q) {o0 : Outcome} {others : List Outcome} (hts : p.tasks = o0 :: others) (h0 : Says env p.world.st.sock.trace [] [] o0)
    (hoth : ∀ o ∈ others, NoRecv o) :
    ∃ evs o others', q.world.st.sock.trace = p.world.st.sock.trace ++ evs ∧ q.tasks = o :: others' ∧ Says env p.world.st.sock.trace evs (callsOf (log.filter fun e => e.task == 0)) o ∧
      ∀ o ∈ others', NoRecv o := by
  induction h with
  | refl => exact ⟨[], o0, others, (List.append_nil _).symm, hts, h0, hoth⟩
  | @own log fed q i t o w' bs _ h1 h2 h3 h4 h5 ih =>
    obtain ⟨evs, x, others', e1, e2, e3, e4⟩ := ih
    rw [List.filter_append]
    rw [e2] at h1
    cases i with
    | zero =>
      simp only [List.getElem?_cons_zero, Option.some.injEq] at h1
      subst h1
      obtain ⟨es, k1, k2⟩ := says_step e3 e1 h3 h4
      refine ⟨evs ++ es, o, others', by dsimp only; rw [k1, e1, List.append_assoc], by dsimp only; rw [e2]; rfl, ?_, e4⟩
      have : callsOf (log.filter (fun e => e.task == 0) ++ [entryOf env 0 t q.world w' bs].filter fun e => e.task == 0) = callsOf (log.filter fun e => e.task == 0) ++ t.calls.toList := by
        rw [show [entryOf env 0 t q.world w' bs].filter (fun e => e.task == 0) = [entryOf env 0 t q.world w' bs] from rfl]
        unfold callsOf
        rw [List.filterMap_append]
        congr 1
      rw [this]
      exact k2
    | succ i =>
      have h1 : others'[i]? = some (.run t) := h1
      obtain ⟨k1, k2⟩ := noRecv_step (e4 _ (List.mem_of_getElem? h1)) h3 h4
      refine ⟨evs, x, others'.set i o, by dsimp only; rw [k1]; exact e1, by dsimp only; rw [e2]; rfl, ?_, fun y hy => ?_⟩
      · rw [show [entryOf env (i + 1) t q.world w' bs].filter (fun e => e.task == 0) = [] from rfl, List.append_nil]
        exact e3
      · rcases List.mem_or_eq_of_mem_set hy with hy | rfl
        · exact e4 y hy
        · exact k2
  | feed bs _ ih => exact ih

end OatWS.Async
