import Verif.Props.Service
/-! Tasks of an async socket that only send, and do not handle errors of sends. -/

namespace OatWS.Async

/-- User code that only sends, and does not handle errors. -/
def Co.Plain : Co → Prop
  | .user u => u.catching = false ∧ ∀ op ∈ u.ops, ∃ c, op = .send c false
  | _ => True

def PlainEnv (env : Env) : Prop := ∀ tr, ∀ op ∈ env.react tr, ∃ c, op = .send c false

theorem plain_of_kind {c : Co} (h : c.kind ≠ 1) : c.Plain := by
  cases c with
  | user u => exact absurd rfl h
  | _ => trivial

variable {env : Env}

theorem plain_coStep (henv : PlainEnv env) (c : Co) (hc : c.Plain) (l : Local) (w : World) :
    match (coStep env c l w).1 with
    | .goto c' => c'.Plain
    | .call cs c' => c'.Plain ∧ ∀ d ∈ cs, d.Plain
    | .error _ => c.kind ≠ 1
    | _ => True := by
  by_cases hk : c.kind = 1
  · cases c with
    | user u =>
      rcases u with ⟨ops, catching, ptr, data, self⟩
      dsimp only [coStep, userStep]
      cases ops with
      | nil => trivial
      | cons op ops =>
        obtain ⟨c, rfl⟩ := hc.2 op (List.mem_cons_self ..)
        refine ⟨⟨rfl, fun x hx => hc.2 x (List.mem_cons_of_mem _ hx)⟩, fun d hd => ?_⟩
        rw [List.mem_singleton.mp hd]
        exact plain_of_kind (by cases c <;> exact Nat.zero_ne_one)
    | _ => cases hk
  · have hsp := speaks_coStep env c l w
    rcases he : coStep env c l w with ⟨a, l', w1⟩
    rw [he] at hsp
    cases a with
    | goto c' => exact plain_of_kind (by rw [hsp.2.1]; exact hk)
    | call cs c' =>
      refine ⟨plain_of_kind (by rw [hsp.1]; exact hk), ?_⟩
      rcases hsp.2.2 with ⟨_, h⟩ | ⟨_, e, u, _, rfl, h1, h2⟩
      · intro d hd
        exact plain_of_kind (by rcases h d hd with h | h <;> omega)
      · intro d hd
        rw [List.mem_singleton.mp hd]
        exact ⟨h2, by rw [h1]; exact henv _⟩
    | error e => exact hk
    | _ => trivial

def PlainStack (cs : List Co) : Prop := ∀ c ∈ cs, c.Plain

theorem PlainStack.noCatch {cs : List Co} (h : PlainStack cs) : NoCatch cs := fun u hu => (h (.user u) hu).1

/-- A step of such a task. -/
theorem plain_step (henv : PlainEnv env) {t : Task} (ht : PlainStack t.stack) {w w' : World} {o : Outcome} (hs : step env t w = (o, w')) (hb : o ≠ .blocked) :
    (∀ t', o = .run t' → PlainStack t'.stack ∧ t.fails env w = false) ∧ (o = .finished → t.fails env w = false) ∧ ((∀ c ∈ t.stack, c.kind ≠ 2) → ∀ e, o = .failed e → t.fails env w = true) := by
  rcases t with ⟨stack, l⟩
  rcases stack with _ | ⟨c, rest⟩
  · injection hs with h1 h2
    subst h1 h2
    exact ⟨fun _ h => (by cases h), fun _ => rfl, fun _ _ h => (by cases h)⟩
  · have hc := ht c (List.mem_cons_self ..)
    have hr : PlainStack rest := fun d hd => ht d (List.mem_cons_of_mem _ hd)
    have hp := plain_coStep henv c hc l w
    unfold step at hs
    dsimp only at hs
    have hf : ∀ {a l1 w1}, coStep env c l w = (a, l1, w1) → (∀ e, a ≠ .error e) → Task.fails env ⟨c :: rest, l⟩ w = false := by
      intro a l1 w1 he hne
      unfold Task.fails
      dsimp only
      cases c with
      | sendFrame c =>
        dsimp only
        rw [he]
        cases a with
        | error e => exact absurd rfl (hne e)
        | _ => rfl
      | writeFrame c =>
        dsimp only
        rw [he]
        cases a with
        | error e => exact absurd rfl (hne e)
        | _ => rfl
      | _ => rfl
    rcases he : coStep env c l w with ⟨a, l', w1⟩
    rw [he] at hs hp
    cases a with
    | goto c' =>
      injection hs with h1 h2
      subst h1 h2
      refine ⟨fun t' h => ?_, fun h => (by cases h), fun _ _ h => (by cases h)⟩
      injection h with h
      subst h
      refine ⟨fun d hd => ?_, hf he (fun _ h => (by cases h))⟩
      rcases List.mem_cons.mp hd with rfl | hd
      · exact hp
      · exact hr d hd
    | call cs c' =>
      injection hs with h1 h2
      subst h1 h2
      refine ⟨fun t' h => ?_, fun h => (by cases h), fun _ _ h => (by cases h)⟩
      injection h with h
      subst h
      refine ⟨fun d hd => ?_, hf he (fun _ h => (by cases h))⟩
      rcases List.mem_append.mp hd with hd | hd
      · exact hp.2 d hd
      · rcases List.mem_cons.mp hd with rfl | hd
        · exact hp.1
        · exact hr d hd
    | finish =>
      have hf := hf he (fun _ h => (by cases h))
      cases rest with
      | nil =>
        injection hs with h1 h2
        subst h1 h2
        exact ⟨fun _ h => (by cases h), fun _ => hf, fun _ _ h => (by cases h)⟩
      | cons d rest =>
        injection hs with h1 h2
        subst h1 h2
        refine ⟨fun t' h => ?_, fun _ => hf, fun _ _ h => (by cases h)⟩
        injection h with h
        subst h
        exact ⟨hr, hf⟩
    | error e =>
      obtain ⟨w2, h1, -⟩ := unwind_noCatch e rest l' (destroy c w1) hr.noCatch
      dsimp only at hs
      rw [h1] at hs
      injection hs with h1 h2
      subst h1 h2
      refine ⟨fun _ h => (by cases h), fun h => (by cases h), fun hk _ _ => ?_⟩
      have hk := hk c (List.mem_cons_self ..)
      have hp : c.kind ≠ 1 := hp
      unfold Task.fails
      dsimp only
      cases c with
      | sendFrame c => dsimp only; rw [he]
      | writeFrame c => dsimp only; rw [he]
      | user u => exact absurd rfl hp
      | _ => exact absurd rfl hk
    | blocked =>
      injection hs with h1 h2
      exact absurd h1.symm hb
    | ub u =>
      injection hs with h1 h2
      subst h1 h2
      exact ⟨fun _ h => (by cases h), fun h => (by cases h), fun _ _ h => (by cases h)⟩

/-- What a task that does not listen has called (`cs`) of all it is to call, and whether a send of it has failed. -/
def Owing (total cs : List SendCall) (failed : Bool) : Outcome → Prop
  | .run t => Shape t.stack ∧ (∀ c ∈ t.stack, c.kind ≠ 2) ∧ PlainStack t.stack ∧ cs ++ owes t.stack = total
  | .finished => cs = total
  | .failed _ => cs <+: total ∧ failed = true
  | .ub _ => cs <+: total
  | .blocked => False

theorem owing_step (henv : PlainEnv env) {total cs : List SendCall} {b : Bool} {t : Task} (h : Owing total cs b (.run t)) {w w' : World} {o : Outcome} (hs : step env t w = (o, w')) (hb : o ≠ .blocked) :
    Owing total (cs ++ t.calls.toList) (b || t.fails env w) o := by
  obtain ⟨hsh, hk2, hpl, hq⟩ := h
  have hplain := plain_step henv hpl hs hb
  rcases t with ⟨stack, l⟩
  rcases stack with _ | ⟨c, rest⟩
  · injection hs with h1 h2
    subst h1 h2
    show cs ++ [] = total
    exact hq
  · have hnr : NoRecv (.run ⟨c :: rest, l⟩) := hk2
    have hrecv := (noRecv_step hnr hs hb).2
    have hsp := speaks_coStep env c l w
    have hc2 : c.kind ≠ 2 := hk2 c (List.mem_cons_self ..)
    rw [calls_top (t := ⟨c :: rest, l⟩) rfl]
    unfold step at hs
    dsimp only at hs hsh hq
    rcases he : coStep env c l w with ⟨a, l', w1⟩
    rw [he] at hs hsp
    rw [owes_cons] at hq
    cases a with
    | goto c' =>
      injection hs with h1 h2
      subst h1 h2
      obtain ⟨e1, e2, e3⟩ := hsp
      refine ⟨⟨fun hk => hsh.1 (e2 ▸ hk), hsh.2⟩, hrecv, (hplain.1 _ rfl).1, ?_⟩
      rw [owes_cons, ← hq, ← e3]
      simp only [List.append_assoc]
    | call ds c' =>
      injection hs with h1 h2
      subst h1 h2
      obtain ⟨e2, e3, ⟨e1, e5⟩ | ⟨hk, _⟩⟩ := hsp
      · have hds : owes (ds ++ c' :: rest) = owes (c' :: rest) ∧ Shape (ds ++ c' :: rest) := by
          have : ∀ ds : List Co, (∀ d ∈ ds, d.kind = 0) → owes (ds ++ c' :: rest) = owes (c' :: rest) ∧ Shape (ds ++ c' :: rest) := by
            intro ds
            induction ds with
            | nil => intro _; exact ⟨rfl, fun hk => hsh.1 (e2 ▸ hk), hsh.2⟩
            | cons d ds ih =>
              intro hd
              obtain ⟨i1, i2⟩ := ih fun x hx => hd x (List.mem_cons_of_mem _ hx)
              have hk := hd d (List.mem_cons_self ..)
              refine ⟨?_, fun h => absurd hk h, i2⟩
              rw [List.cons_append, owes_cons, owes_of_kind (by omega)]
              exact i1
          exact this ds fun d hd => by
            rcases e5 d hd with h | h
            · exact h
            · exact absurd h.2 hc2
        refine ⟨hds.2, hrecv, (hplain.1 _ rfl).1, ?_⟩
        dsimp only
        rw [hds.1, owes_cons, ← hq, ← e3]
        simp only [List.append_assoc]
      · exact absurd hk hc2
    | finish =>
      obtain ⟨e1, e2, e3⟩ := hsp
      have hq' : cs ++ c.calls ++ owes rest = total := by
        rw [e2, List.append_nil, ← hq, e3]
        rfl
      cases rest with
      | nil =>
        injection hs with h1 h2
        subst h1 h2
        show _ = _
        rw [← hq']
        simp [owes]
      | cons d rest =>
        injection hs with h1 h2
        subst h1 h2
        exact ⟨hsh.2, hrecv, (hplain.1 _ rfl).1, hq'⟩
    | error e =>
      obtain ⟨e1, e2, e3⟩ := hsp
      obtain ⟨w2, h1, -⟩ := unwind_noCatch e rest l' (destroy c w1) (PlainStack.noCatch fun d hd => hpl d (List.mem_cons_of_mem _ hd))
      dsimp only at hs
      rw [h1] at hs
      injection hs with h1 h2
      subst h1 h2
      refine ⟨?_, ?_⟩
      · rw [e2, List.append_nil, ← hq]
        exact ⟨_, rfl⟩
      · rw [hplain.2.2 hk2 e rfl, Bool.or_true]
    | blocked =>
      injection hs with h1 h2
      exact absurd h1.symm hb
    | ub u =>
      injection hs with h1 h2
      subst h1 h2
      show _ <+: _
      rw [hsp.2, List.append_nil, ← hq]
      exact ⟨_, rfl⟩

/-- Whether a send of task `i` has failed. -/
def failedOf (i : Nat) (log : List Entry) : Bool := (log.filter fun e => e.task == i).any Entry.failed

/-- What task `i` has called, at any moment, if it does not listen. -/
theorem Fed.owing (henv : PlainEnv env) {p q : Pool} {log fed} (h : Fed env p log fed q) {i : Nat} {o0 : Outcome} {total : List SendCall} (h0 : p.tasks[i]? = some o0) (hT : Owing total [] false o0) :
    ∃ o, q.tasks[i]? = some o ∧ Owing total (callsOf (log.filter fun e => e.task == i)) (failedOf i log) o := by
  induction h with
  | refl => exact ⟨o0, h0, hT⟩
  | @own log fed q j t o w' bs _ h1 h2 h3 h4 h5 ih =>
    obtain ⟨x, e1, e2⟩ := ih
    have hlen := (List.getElem?_eq_some_iff.mp h1).1
    by_cases hj : j = i
    · subst hj
      rw [e1] at h1
      injection h1 with h1
      subst h1
      refine ⟨o, by simp [hlen], ?_⟩
      have := owing_step henv e2 h3 h4
      have hfil : (log ++ [entryOf env j t q.world w' bs]).filter (fun e => e.task == j) = log.filter (fun e => e.task == j) ++ [entryOf env j t q.world w' bs] := by
        rw [List.filter_append]
        congr 1
        simp [entryOf]
      have hc : callsOf ((log ++ [entryOf env j t q.world w' bs]).filter fun e => e.task == j) = callsOf (log.filter fun e => e.task == j) ++ t.calls.toList := by
        rw [hfil]
        unfold callsOf
        rw [List.filterMap_append]
        congr 1
      have hfl : failedOf j (log ++ [entryOf env j t q.world w' bs]) = (failedOf j log || t.fails env q.world) := by
        unfold failedOf
        rw [hfil, List.any_append]
        simp [entryOf]
      rw [hc, hfl]
      exact this
    · refine ⟨x, by dsimp only; rw [List.getElem?_set_ne hj]; exact e1, ?_⟩
      have hfil : (log ++ [entryOf env j t q.world w' bs]).filter (fun e => e.task == i) = log.filter (fun e => e.task == i) := by
        rw [List.filter_append]
        simp [entryOf, hj]
      unfold failedOf
      rw [hfil]
      exact e2
  | feed bs _ ih => exact ih

/-- A task in which a send has failed has ended. -/
theorem Fed.failed_over (henv : PlainEnv env) {p q : Pool} {log fed} (h : Fed env p log fed q) (hp : ∀ t, Outcome.run t ∈ p.tasks → PlainStack t.stack) :
    (∀ t, Outcome.run t ∈ q.tasks → PlainStack t.stack) ∧ ∀ i t, q.tasks[i]? = some (.run t) → failedOf i log = false := by
  induction h with
  | refl => exact ⟨hp, fun _ _ _ => rfl⟩
  | @own log fed q j t o w' bs _ h1 h2 h3 h4 h5 ih =>
    have hlen := (List.getElem?_eq_some_iff.mp h1).1
    have hst := plain_step henv (ih.1 t (List.mem_of_getElem? h1)) h3 h4
    refine ⟨fun t' ht' => ?_, fun i t' ht' => ?_⟩
    · rcases List.mem_or_eq_of_mem_set ht' with h | h
      · exact ih.1 t' h
      · exact (hst.1 t' h.symm).1
    · have ht' : (q.tasks.set j o)[i]? = some (.run t') := ht'
      by_cases hj : j = i
      · subst hj
        rw [List.getElem?_set_self hlen] at ht'
        injection ht' with ht'
        have := ih.2 j t h1
        unfold failedOf at this ⊢
        rw [List.filter_append, List.any_append, this]
        simp [entryOf, (hst.1 t' ht').2]
      · rw [List.getElem?_set_ne hj] at ht'
        have := ih.2 i t' ht'
        unfold failedOf at this ⊢
        rw [List.filter_append, List.any_append, this]
        simp [entryOf, hj]
  | feed bs _ ih => exact ih

theorem feeds_nil {l : List Entry} (h : ∀ x ∈ l, x.called = none) : l.foldl feed [] = [] := by
  induction l with
  | nil => rfl
  | cons x l ih =>
    rw [List.foldl_cons]
    have : feed [] x = [] := by
      unfold feed
      rw [h x (List.mem_cons_self ..)]
    rw [this]
    exact ih fun y hy => h y (List.mem_cons_of_mem _ hy)

theorem called_of_sends {i : Nat} {log : List Entry} (h : sendsOf i log ≠ []) : ∃ e ∈ log, e.task = i ∧ e.called.isSome := by
  by_cases hc : ∃ e ∈ log, e.task = i ∧ e.called.isSome
  · exact hc
  · refine absurd (feeds_nil fun x hx => ?_) h
    obtain ⟨h1, h2⟩ := List.mem_filter.mp hx
    cases hx' : x.called with
    | none => rfl
    | some c => exact absurd ⟨x, h1, eq_of_beq h2, by rw [hx']; rfl⟩ hc

/-- A send that fails was called. -/
theorem Fed.failed_called {p q : Pool} {log fed} (h : Fed env p log fed q) (hp : ∀ t ∈ p.tasks, Outcome.quiet t) : ∀ e ∈ log, e.failed = true → ∃ e' ∈ log, e'.task = e.task ∧ e'.called.isSome := by
  induction h with
  | refl => intro e he; cases he
  | @own log fed q j t o w' bs hf h1 h2 h3 h4 h5 ih =>
    intro e he hfail
    rcases List.mem_append.mp he with he | he
    · obtain ⟨e', k1, k2⟩ := ih e he hfail
      exact ⟨e', List.mem_append_left _ k1, k2⟩
    · rw [List.mem_singleton.mp he] at hfail ⊢
      have hT := hf.inv hp j _ h1
      have hs : sendsOf j log ≠ [] := by
        rcases hT.head with ⟨hq, _⟩ | ⟨s, r, e1, _⟩
        · have hfail : t.fails env q.world = true := hfail
          unfold Task.fails at hfail
          split at hfail
          · rename_i c rest hst
            exact absurd rfl ((hq _ (by rw [hst]; exact List.mem_cons_self ..)).1 c)
          · rename_i c rest hst
            exact absurd rfl ((hq _ (by rw [hst]; exact List.mem_cons_self ..)).2 c)
          · cases hfail
        · rw [e1]; exact fun h => (by cases h)
      obtain ⟨e', k1, k2⟩ := called_of_sends hs
      exact ⟨e', List.mem_append_left _ k1, k2⟩
  | feed bs _ ih => exact ih

/-- If one task sends, and does not handle errors, nobody calls a send after one has failed. -/
theorem Fed.resigned (henv : PlainEnv env) {p q : Pool} {log fed} (h : Fed env p log fed q) (hq : ∀ t ∈ p.tasks, Outcome.quiet t) (hp : ∀ t, Outcome.run t ∈ p.tasks → PlainStack t.stack) {i : Nat}
    (hone : ∀ e ∈ log, e.called.isSome → e.task = i) : Resigned log := by
  induction h with
  | refl =>
    intro x e y hx
    cases x <;> cases hx
  | @own log fed q j t o w' bs hf h1 h2 h3 h4 h5 ih =>
    have hone' : ∀ e ∈ log, e.called.isSome → e.task = i := fun e he => hone e (List.mem_append_left _ he)
    have ih := ih hone'
    intro x e y hx hfail
    rcases List.eq_nil_or_concat y with rfl | ⟨y', e', rfl⟩
    · intro e' he'; cases he'
    · rw [List.concat_eq_append] at hx ⊢
      have hx2 : log ++ [entryOf env j t q.world w' bs] = (x ++ e :: y') ++ [e'] := by rw [hx]; simp
      obtain ⟨hl, he'⟩ := List.append_inj' hx2 rfl
      injection he' with he'
      intro e'' he''
      rcases List.mem_append.mp he'' with hm | hm
      · exact ih x e y' hl hfail e'' hm
      · rw [List.mem_singleton.mp hm, ← he']
        cases hcalled : (entryOf env j t q.world w' bs).called with
        | none => rfl
        | some c =>
          have hj : j = i := hone _ (List.mem_append_right _ (List.mem_singleton_self _)) (by rw [hcalled]; rfl)
          have he : e ∈ log := by rw [hl]; simp
          obtain ⟨e1, k1, k2, k3⟩ := hf.failed_called hq e he hfail
          have hei : e.task = i := by rw [← k2]; exact hone' e1 k1 k3
          have hno := (hf.failed_over henv hp).2 j t h1
          have : failedOf j log = true := by
            unfold failedOf
            rw [List.any_eq_true]
            exact ⟨e, List.mem_filter.mpr ⟨he, by rw [hei, hj]; exact beq_self_eq_true i⟩, hfail⟩
          rw [this] at hno
          cases hno
  | feed bs _ ih => exact ih hone

end OatWS.Async
