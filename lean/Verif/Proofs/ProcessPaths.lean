import Verif.Spec.Process
/-! # What a thread of a process with several sockets does, as one of the sockets sees it -/

namespace OatWS.Process
open Threads

/-- A step of a thread, with its result. -/
inductive Ev where
  | act (k : Nat) (a : Act) (r : a.Res)
  | chose (cs : List (Nat × UserOp))

/-- A step on one socket. -/
abbrev Mv : Type := Σ a : Act, a.Res

variable {α β : Type}

/-- The code makes these steps, with these results. -/
inductive GPath : Code α → List Ev → Code α → Prop
  | nil {g} : GPath g [] g
  | act {k a c r es g} : GPath (c r) es g → GPath (.act k a c) (.act k a r :: es) g
  | choose {c cs es g} : GPath (c cs) es g → GPath (.choose c) (.chose cs :: es) g

inductive Path : Prog α → List Mv → Prog α → Prop
  | nil {p} : Path p [] p
  | act {a c r es q} : Path (c r) es q → Path (.act a c) (⟨a, r⟩ :: es) q

/-- What socket `k` sees. -/
def loc (k : Nat) : List Ev → List Mv
  | [] => []
  | .act j a r :: es => if j = k then ⟨a, r⟩ :: loc k es else loc k es
  | .chose _ :: es => loc k es

/-- The results of its callbacks. -/
def tracesOf : List Mv → List (List Event)
  | [] => []
  | ⟨.callback _, tr⟩ :: es => tr :: tracesOf es
  | _ :: es => tracesOf es

theorem loc_append (k : Nat) (e1 e2 : List Ev) : loc k (e1 ++ e2) = loc k e1 ++ loc k e2 := by
  induction e1 with
  | nil => rfl
  | cons e es ih =>
    cases e with
    | act j a r =>
      simp only [List.cons_append, loc]
      split
      · rw [ih]; rfl
      · exact ih
    | chose cs => simpa only [List.cons_append, loc] using ih

theorem tracesOf_append (e1 e2 : List Mv) : tracesOf (e1 ++ e2) = tracesOf e1 ++ tracesOf e2 := by
  induction e1 with
  | nil => rfl
  | cons e es ih =>
    obtain ⟨a, r⟩ := e
    cases a <;> simp only [List.cons_append, tracesOf, ih]

theorem GPath.snoc_act {g g1 : Code α} {es k a c r} (h : GPath g es g1) (e : g1 = .act k a c) : GPath g (es ++ [.act k a r]) (c r) := by
  induction h with
  | nil => subst e; exact .act .nil
  | act _ ih => exact .act (ih e)
  | choose _ ih => exact .choose (ih e)

theorem GPath.snoc_choose {g g1 : Code α} {es c cs} (h : GPath g es g1) (e : g1 = .choose c) : GPath g (es ++ [.chose cs]) (c cs) := by
  induction h with
  | nil => subst e; exact .choose .nil
  | act _ ih => exact .act (ih e)
  | choose _ ih => exact .choose (ih e)

theorem Path.trans {p q r : Prog α} {e1 e2} (h1 : Path p e1 q) (h2 : Path q e2 r) : Path p (e1 ++ e2) r := by
  induction h1 with
  | nil => exact h2
  | act _ ih => exact .act (ih h2)

theorem Path.empty {p q : Prog α} {es : List Mv} (h : Path p es q) (e : es = []) : q = p := by
  cases h with
  | nil => rfl
  | act h => cases e

/-- The last step. -/
theorem Path.last {p q : Prog α} : ∀ {es : List Mv} {a : Act} {r : a.Res}, Path p (es ++ [⟨a, r⟩]) q → ∃ c, Path p es (.act a c) ∧ q = c r := by
  intro es
  induction es generalizing p with
  | nil =>
    intro a r h
    cases h with
    | act h => exact ⟨_, .nil, h.empty rfl⟩
  | cons m es ih =>
    intro a r h
    cases h with
    | act h =>
      obtain ⟨c, h1, h2⟩ := ih h
      exact ⟨c, .act h1, h2⟩

/-! ## Sequences and exceptions -/

theorem GPath.andThen_inv {p : Code α} {F : α → Code β} : ∀ {es g}, GPath (p.andThen F) es g →
    (∃ p', GPath p es p' ∧ (∀ a, p' ≠ .ret a) ∧ g = p'.andThen F) ∨ ∃ a e1 e2, es = e1 ++ e2 ∧ GPath p e1 (.ret a) ∧ GPath (F a) e2 g := by
  induction p with
  | ret a => intro es g h; exact .inr ⟨a, [], es, rfl, .nil, h⟩
  | throw e => intro es g h; cases h; exact .inl ⟨_, .nil, nofun, rfl⟩
  | ub j u => intro es g h; cases h; exact .inl ⟨_, .nil, nofun, rfl⟩
  | stuck => intro es g h; cases h; exact .inl ⟨_, .nil, nofun, rfl⟩
  | act k a c ih =>
    intro es g h
    cases h with
    | nil => exact .inl ⟨_, .nil, nofun, rfl⟩
    | act h =>
      rcases ih _ h with ⟨p', h1, h2, h3⟩ | ⟨x, e1, e2, h1, h2, h3⟩
      · exact .inl ⟨p', .act h1, h2, h3⟩
      · exact .inr ⟨x, _ :: e1, e2, by rw [h1]; rfl, .act h2, h3⟩
  | choose c ih =>
    intro es g h
    cases h with
    | nil => exact .inl ⟨_, .nil, nofun, rfl⟩
    | choose h =>
      rcases ih _ h with ⟨p', h1, h2, h3⟩ | ⟨x, e1, e2, h1, h2, h3⟩
      · exact .inl ⟨p', .choose h1, h2, h3⟩
      · exact .inr ⟨x, _ :: e1, e2, by rw [h1]; rfl, .choose h2, h3⟩

theorem GPath.catching_inv {p : Code α} {H : Err → Code α} : ∀ {es g}, GPath (p.catching H) es g →
    (∃ p', GPath p es p' ∧ (∀ e, p' ≠ .throw e) ∧ g = p'.catching H) ∨ ∃ e e1 e2, es = e1 ++ e2 ∧ GPath p e1 (.throw e) ∧ GPath (H e) e2 g := by
  induction p with
  | throw e => intro es g h; exact .inr ⟨e, [], es, rfl, .nil, h⟩
  | ret a => intro es g h; cases h; exact .inl ⟨_, .nil, nofun, rfl⟩
  | ub j u => intro es g h; cases h; exact .inl ⟨_, .nil, nofun, rfl⟩
  | stuck => intro es g h; cases h; exact .inl ⟨_, .nil, nofun, rfl⟩
  | act k a c ih =>
    intro es g h
    cases h with
    | nil => exact .inl ⟨_, .nil, nofun, rfl⟩
    | act h =>
      rcases ih _ h with ⟨p', h1, h2, h3⟩ | ⟨x, e1, e2, h1, h2, h3⟩
      · exact .inl ⟨p', .act h1, h2, h3⟩
      · exact .inr ⟨x, _ :: e1, e2, by rw [h1]; rfl, .act h2, h3⟩
  | choose c ih =>
    intro es g h
    cases h with
    | nil => exact .inl ⟨_, .nil, nofun, rfl⟩
    | choose h =>
      rcases ih _ h with ⟨p', h1, h2, h3⟩ | ⟨x, e1, e2, h1, h2, h3⟩
      · exact .inl ⟨p', .choose h1, h2, h3⟩
      · exact .inr ⟨x, _ :: e1, e2, by rw [h1]; rfl, .choose h2, h3⟩

theorem Path.andThen_left {p p' : Prog α} {es} (F : α → Prog β) (h : Path p es p') : Path (p.andThen F) es (p'.andThen F) := by
  induction h with
  | nil => exact .nil
  | act _ ih => exact .act ih

theorem Path.andThen_right {p : Prog α} {F : α → Prog β} {x e1 e2 q} (h : Path p e1 (.ret x)) (h2 : Path (F x) e2 q) : Path (p.andThen F) (e1 ++ e2) q :=
  (h.andThen_left F).trans h2

theorem Path.catching_left {p p' : Prog α} {es} (H : Err → Prog α) (h : Path p es p') : Path (p.catching H) es (p'.catching H) := by
  induction h with
  | nil => exact .nil
  | act _ ih => exact .act ih

theorem Path.catching_right {p : Prog α} {H : Err → Prog α} {e e1 e2 q} (h : Path p e1 (.throw e)) (h2 : Path (H e) e2 q) : Path (p.catching H) (e1 ++ e2) q :=
  (h.catching_left H).trans h2

theorem Tracks.andThen {k : Nat} {g : Code α} {q : Prog α} (h : Tracks k g q) (hr : ∀ a, g ≠ .ret a) (F : α → Code β) (F' : α → Prog β) : Tracks k (g.andThen F) (q.andThen F') := by
  cases g with
  | ret a => exact absurd rfl (hr a)
  | throw e =>
    obtain ⟨e', rfl⟩ := h.throw e rfl
    exact ⟨nofun, nofun, fun _ _ => ⟨e', rfl⟩, nofun, nofun⟩
  | ub j u =>
    refine ⟨nofun, nofun, nofun, fun u' e => ?_, nofun⟩
    injection e with e1 e2
    subst e1
    rw [h.ub u rfl, e2]
    rfl
  | stuck j =>
    refine ⟨nofun, nofun, nofun, nofun, fun e => ?_⟩
    injection e with e
    subst e
    rw [h.stuck rfl]
    rfl
  | choose c => exact ⟨nofun, nofun, nofun, nofun, nofun⟩
  | act j a c =>
    refine ⟨fun a' c' e => ?_, nofun, nofun, nofun, nofun⟩
    injection e with e1 e2 e3
    subst e1; subst e2
    obtain ⟨c', rfl⟩ := h.act a c rfl
    exact ⟨_, rfl⟩

theorem Tracks.catching {k : Nat} {g : Code α} {q : Prog α} (h : Tracks k g q) (hr : ∀ e, g ≠ .throw e) (F : Err → Code α) (F' : Err → Prog α) : Tracks k (g.catching F) (q.catching F') := by
  cases g with
  | ret a =>
    have := h.ret a rfl
    subst this
    exact ⟨nofun, fun x hx => by injection hx with hx; subst hx; rfl, nofun, nofun, nofun⟩
  | throw e => exact absurd rfl (hr e)
  | ub j u =>
    refine ⟨nofun, nofun, nofun, fun u' e => ?_, nofun⟩
    injection e with e1 e2
    subst e1
    rw [h.ub u rfl, e2]
    rfl
  | stuck j =>
    refine ⟨nofun, nofun, nofun, nofun, fun e => ?_⟩
    injection e with e
    subst e
    rw [h.stuck rfl]
    rfl
  | choose c => exact ⟨nofun, nofun, nofun, nofun, nofun⟩
  | act j a c =>
    refine ⟨fun a' c' e => ?_, nofun, nofun, nofun, nofun⟩
    injection e with e1 e2 e3
    subst e1; subst e2
    obtain ⟨c', rfl⟩ := h.act a c rfl
    exact ⟨_, rfl⟩

/-! ## User code -/

theorem GPath.on_inv {j : Nat} {p : Prog α} : ∀ {es g}, GPath (Code.on j p) es g → ∃ p', g = Code.on j p' ∧ ∀ k, (j = k → Path p (loc k es) p') ∧ (j ≠ k → loc k es = []) := by
  induction p with
  | ret a => intro es g h; cases h; exact ⟨_, rfl, fun k => ⟨fun _ => .nil, fun _ => rfl⟩⟩
  | throw e => intro es g h; cases h; exact ⟨_, rfl, fun k => ⟨fun _ => .nil, fun _ => rfl⟩⟩
  | ub u => intro es g h; cases h; exact ⟨_, rfl, fun k => ⟨fun _ => .nil, fun _ => rfl⟩⟩
  | stuck => intro es g h; cases h; exact ⟨_, rfl, fun k => ⟨fun _ => .nil, fun _ => rfl⟩⟩
  | act a c ih =>
    intro es g h
    cases h with
    | nil => exact ⟨.act a c, rfl, fun k => ⟨fun _ => .nil, fun _ => rfl⟩⟩
    | act h =>
      obtain ⟨p', h1, h2⟩ := ih _ h
      refine ⟨p', h1, fun k => ⟨fun hk => ?_, fun hk => ?_⟩⟩
      · simp only [loc, if_pos hk]
        exact .act ((h2 k).1 hk)
      · simp only [loc, if_neg hk]
        exact (h2 k).2 hk

theorem tracks_on (k : Nat) (q : Prog α) : Tracks k (Code.on k q) q := by
  cases q with
  | act a c => exact ⟨fun a' c' e => by injection e with _ e2; subst e2; exact ⟨_, rfl⟩, nofun, nofun, nofun, nofun⟩
  | ret a => exact ⟨nofun, fun x hx => by injection hx with hx; subst hx; rfl, nofun, nofun, nofun⟩
  | throw e => exact ⟨nofun, nofun, fun _ _ => ⟨e, rfl⟩, nofun, nofun⟩
  | ub u => exact ⟨nofun, nofun, nofun, fun _ e => by injection e with _ e; rw [e], nofun⟩
  | stuck => exact ⟨nofun, nofun, nofun, nofun, fun _ => rfl⟩

/-- Sequences of operations: those on socket `k`, up to an exception that comes from another one. -/
theorem ops_resolve (env : Nat → Env) (fuel k : Nat) : ∀ (cs : List (Nat × UserOp)) {es g}, GPath (opsM env fuel cs) es g →
    ∃ ops, (∀ op ∈ ops, (k, op) ∈ cs ∨ op = .throw) ∧ ∃ q, Path (userOpsT (env k) fuel ops) (loc k es) q ∧ Tracks k g q := by
  intro cs
  induction cs with
  | nil =>
    intro es g h
    cases h
    exact ⟨[], nofun, .ret (), .nil, nofun, fun _ _ => rfl, nofun, nofun, nofun⟩
  | cons x cs ih =>
    obtain ⟨j, op⟩ := x
    intro es g h
    rcases h.andThen_inv with ⟨p', h1, h2, h3⟩ | ⟨⟨⟩, e1, e2, h1, h2, h3⟩
    · obtain ⟨q0, rfl, h4⟩ := h1.on_inv
      by_cases hj : j = k
      · subst hj
        refine ⟨[op], fun o ho => .inl (by rw [List.mem_singleton.mp ho]; exact List.mem_cons_self ..), _, ((h4 j).1 rfl).andThen_left _, ?_⟩
        rw [h3]
        exact (tracks_on j q0).andThen h2 _ _
      · rw [(h4 k).2 hj, h3]
        cases q0 with
        | ret a => exact absurd rfl (h2 a)
        | throw e =>
          exact ⟨[.throw], fun o ho => .inr (List.mem_singleton.mp ho), _, .nil, nofun, nofun, fun _ _ => ⟨.user, rfl⟩, nofun, nofun⟩
        | ub u => exact ⟨[], nofun, _, .nil, nofun, nofun, nofun, fun _ e => by injection e with e; exact absurd e hj, nofun⟩
        | stuck => exact ⟨[], nofun, _, .nil, nofun, nofun, nofun, nofun, fun e => by injection e with e; exact absurd e hj⟩
        | act a c => exact ⟨[], nofun, _, .nil, fun _ _ e => by injection e with e; exact absurd e hj, nofun, nofun, nofun, nofun⟩
    · obtain ⟨q0, h5, h4⟩ := h2.on_inv
      have h5 : q0 = .ret () := by cases q0 <;> first | rfl | (injection h5)
      subst h5
      obtain ⟨ops, h6, q, h7, h8⟩ := ih h3
      rw [h1, loc_append]
      by_cases hj : j = k
      · subst hj
        refine ⟨op :: ops, fun o ho => ?_, q, ((h4 j).1 rfl).andThen_right h7, h8⟩
        rcases List.mem_cons.mp ho with rfl | ho
        · exact .inl (List.mem_cons_self ..)
        · exact (h6 o ho).imp (List.mem_cons_of_mem _) id
      · rw [(h4 k).2 hj]
        exact ⟨ops, fun o ho => (h6 o ho).imp (List.mem_cons_of_mem _) id, q, h7, h8⟩

/-- All choices are allowed. -/
def Allowed (may : Nat → UserOp → Prop) (es : List Ev) : Prop := ∀ cs, .chose cs ∈ es → ∀ x ∈ cs, may x.1 x.2

theorem Allowed.left {may : Nat → UserOp → Prop} {e1 e2 : List Ev} (h : Allowed may (e1 ++ e2)) : Allowed may e1 := fun cs hc => h cs (List.mem_append_left _ hc)

theorem Allowed.right {may : Nat → UserOp → Prop} {e1 e2 : List Ev} (h : Allowed may (e1 ++ e2)) : Allowed may e2 := fun cs hc => h cs (List.mem_append_right _ hc)

theorem Allowed.tail {may : Nat → UserOp → Prop} {e : Ev} {es : List Ev} (h : Allowed may (e :: es)) : Allowed may es := fun cs hc => h cs (List.mem_cons_of_mem _ hc)

theorem user_resolve (env : Nat → Env) (may : Nat → UserOp → Prop) (fuel k : Nat) {es g} (h : GPath (userM env fuel) es g) (ha : Allowed may es) :
    ∃ ops, (∀ op ∈ ops, OrThrows (may k) op) ∧ ∃ q, Path (userOpsT (env k) fuel ops) (loc k es) q ∧ Tracks k g q := by
  cases h with
  | nil => exact ⟨[], nofun, _, .nil, nofun, nofun, nofun, nofun, nofun⟩
  | choose h =>
    obtain ⟨ops, h1, h2⟩ := ops_resolve env fuel k _ h
    exact ⟨ops, fun op ho => (h1 op ho).imp (fun hm => ha _ (List.mem_cons_self ..) _ hm) id, h2⟩

end OatWS.Process
