import Verif.Proofs.ProcessPlug
/-! # The threads of a process, as one of the sockets sees them -/

namespace OatWS.Process
open Threads

variable {α β : Type}

theorem tracks_stop (k : Nat) (g : Code α) (q : Prog α) (h : ∀ j a c, g = .act j a c → j ≠ k) (h1 : ∀ a, g ≠ .ret a) (h2 : ∀ e, g ≠ .throw e) (h3 : ∀ u, g ≠ .ub k u) (h4 : g ≠ .stuck k) : Tracks k g q :=
  ⟨fun a c e => absurd rfl (h k a c e), fun x e => absurd e (h1 x), fun x e => absurd e (h2 x), fun x e => absurd e (h3 x), fun e => absurd e h4⟩

/-- User code followed by something else, as socket `k` sees it. -/
theorem user_then (env : Nat → Env) (may : Nat → UserOp → Prop) (fuel k : Nat) (F : Unit → Code β) {es g} (h : GPath ((userM env fuel).andThen F) es g) (ha : Allowed may es) :
    ∃ ops, (∀ op ∈ ops, OrThrows (may k) op) ∧
      ((∀ F' : Unit → Prog β, ∃ q, Path ((userOpsT (env k) fuel ops).andThen F') (loc k es) q ∧ Tracks k g q) ∨
      ∃ e1 e2, es = e1 ++ e2 ∧ GPath (F ()) e2 g ∧ Path (userOpsT (env k) fuel ops) (loc k e1) (.ret ())) := by
  rcases h.andThen_inv with ⟨p', h1, h2, h3⟩ | ⟨⟨⟩, e1, e2, h1, h2, h3⟩
  · obtain ⟨ops, h4, q, h5, h6⟩ := user_resolve env may fuel k h1 ha
    refine ⟨ops, h4, .inl fun F' => ⟨_, h5.andThen_left F', ?_⟩⟩
    rw [h3]
    exact h6.andThen h2 _ _
  · obtain ⟨ops, h4, q, h5, h6⟩ := user_resolve env may fuel k h2 (h1 ▸ ha).left
    rw [h6.ret () rfl] at h5
    exact ⟨ops, h4, .inr ⟨e1, e2, h1, h3, h5⟩⟩

/-- A method of socket `k` that calls the listener. `D`: what the callbacks have been seen to do with the socket. -/
theorem weave_own (env : Nat → Env) (may : Nat → UserOp → Prop) (fuel k : Nat) (p : Prog α) : ∀ {es g}, GPath (Code.weave k (userM env fuel) p) es g → Allowed may es →
    ∃ D : List (List Event × List UserOp), (D.map Prod.fst).Sublist (tracesOf (loc k es)) ∧ (∀ d ∈ D, ∀ op ∈ d.2, OrThrows (may k) op) ∧
      ∀ user : List Event → Prog Unit, (∀ d ∈ D, user d.1 = userOpsT (env k) fuel d.2) → ∃ q, Path (plug user p) (loc k es) q ∧ Tracks k g q := by
  induction p with
  | ret a => intro es g h _; cases h; exact ⟨[], List.nil_sublist _, nofun, fun _ _ => ⟨_, .nil, nofun, fun _ e => by injection e with e; rw [e]; rfl, nofun, nofun, nofun⟩⟩
  | throw e => intro es g h _; cases h; exact ⟨[], List.nil_sublist _, nofun, fun _ _ => ⟨_, .nil, nofun, nofun, fun _ _ => ⟨e, rfl⟩, nofun, nofun⟩⟩
  | ub u => intro es g h _; cases h; exact ⟨[], List.nil_sublist _, nofun, fun _ _ => ⟨_, .nil, nofun, nofun, nofun, fun _ e => by injection e with _ e; rw [e]; rfl, nofun⟩⟩
  | stuck => intro es g h _; cases h; exact ⟨[], List.nil_sublist _, nofun, fun _ _ => ⟨_, .nil, nofun, nofun, nofun, nofun, fun _ => rfl⟩⟩
  | act a c ih =>
    intro es g h ha
    by_cases hcb : ∃ e, a = .callback e
    · obtain ⟨e, rfl⟩ := hcb
      cases h with
      | nil => exact ⟨[], List.nil_sublist _, nofun, fun _ _ => ⟨_, .nil, fun _ _ e => by injection e with _ e; subst e; exact ⟨_, rfl⟩, nofun, nofun, nofun, nofun⟩⟩
      | @act _ _ _ tr es _ h =>
        have hl : loc k (.act k (.callback e) tr :: es) = ⟨.callback e, tr⟩ :: loc k es := if_pos rfl
        rw [hl]
        obtain ⟨ops, h1, h2 | ⟨e1, e2, h2, h3, h4⟩⟩ := user_then env may fuel k _ h ha.tail
        · refine ⟨[(tr, ops)], (List.nil_sublist _).cons_cons tr, fun d hd => ?_, fun user hu => ?_⟩
          · rw [List.mem_singleton.mp hd]; exact h1
          · obtain ⟨q, h5, h6⟩ := h2 fun _ => plug user (c tr)
            refine ⟨q, .act ?_, h6⟩
            rw [hu _ (List.mem_singleton.mpr rfl)]
            exact h5
        · subst h2
          obtain ⟨D, h5, h6, h7⟩ := ih tr h3 ha.tail.right
          rw [loc_append]
          refine ⟨(tr, ops) :: D, ?_, fun d hd => ?_, fun user hu => ?_⟩
          · show List.Sublist (tr :: D.map Prod.fst) (tr :: tracesOf (loc k e1 ++ loc k e2))
            rw [tracesOf_append]
            exact (h5.trans (List.sublist_append_right _ _)).cons_cons tr
          · rcases List.mem_cons.mp hd with rfl | hd
            · exact h1
            · exact h6 d hd
          · obtain ⟨q, h8, h9⟩ := h7 user fun d hd => hu d (List.mem_cons_of_mem _ hd)
            refine ⟨q, .act (Path.andThen_right (x := ()) ?_ h8), h9⟩
            rw [hu _ (List.mem_cons_self ..)]
            exact h4
    · have e1 : Code.weave k (userM env fuel) (.act a c) = .act k a fun r => Code.weave k (userM env fuel) (c r) := by
        cases a <;> first | rfl | exact absurd ⟨_, rfl⟩ hcb
      have e2 : ∀ user, plug user (.act a c) = .act a fun r => plug user (c r) := fun user => by
        cases a <;> first | rfl | exact absurd ⟨_, rfl⟩ hcb
      rw [e1] at h
      cases h with
      | nil => exact ⟨[], List.nil_sublist _, nofun, fun user _ => ⟨_, .nil, fun _ _ e => by injection e with _ e; subst e; exact ⟨_, e2 user⟩, nofun, nofun, nofun, nofun⟩⟩
      | @act _ _ _ r es _ h =>
        have hl : loc k (.act k a r :: es) = ⟨a, r⟩ :: loc k es := if_pos rfl
        rw [hl]
        obtain ⟨D, h5, h6, h7⟩ := ih r h ha.tail
        refine ⟨D, ?_, h6, fun user hu => ?_⟩
        · have : tracesOf (⟨a, r⟩ :: loc k es) = tracesOf (loc k es) := by cases a <;> first | rfl | exact absurd ⟨_, rfl⟩ hcb
          rw [this]
          exact h5
        · obtain ⟨q, h8, h9⟩ := h7 user hu
          rw [e2]
          exact ⟨q, .act h8, h9⟩

/-- The same method of another socket. -/
theorem weave_other (env : Nat → Env) (may : Nat → UserOp → Prop) (fuel k j : Nat) (hj : j ≠ k) (env' : Env) (he : ∀ ops, userOpsT env' fuel ops = userOpsT (env k) fuel ops)
    (p : Prog α) : ∀ {es g}, GPath (Code.weave j (userM env fuel) p) es g → Allowed may es →
    ∃ q0 q, HelperCode (OrThrows (may k)) env' fuel q0 ∧ Path q0 (loc k es) q ∧ Tracks k g q := by
  have hstop : ∀ {a : Act} {c : a.Res → Code α}, ∃ q0 q, HelperCode (OrThrows (may k)) env' fuel q0 ∧ Path q0 [] q ∧ Tracks k (.act j a c) q := fun {a c} =>
    ⟨.throw .user, _, .throw _, .nil, tracks_stop _ _ _ (fun _ _ _ e => by injection e with e; rw [← e]; exact hj) nofun nofun nofun nofun⟩
  induction p with
  | ret a => intro es g h _; cases h; exact ⟨.ret a, _, .ret a, .nil, nofun, fun _ e => by injection e with e; rw [e], nofun, nofun, nofun⟩
  | throw e => intro es g h _; cases h; exact ⟨.throw e, _, .throw e, .nil, nofun, nofun, fun _ _ => ⟨e, rfl⟩, nofun, nofun⟩
  | ub u => intro es g h _; cases h; exact ⟨.throw .user, _, .throw _, .nil, nofun, nofun, nofun, fun _ e => by injection e with e; exact absurd e hj, nofun⟩
  | stuck => intro es g h _; cases h; exact ⟨.throw .user, _, .throw _, .nil, nofun, nofun, nofun, nofun, fun e => by injection e with e; exact absurd e hj⟩
  | act a c ih =>
    intro es g h ha
    by_cases hcb : ∃ e, a = .callback e
    · obtain ⟨e, rfl⟩ := hcb
      cases h with
      | nil => exact hstop
      | @act _ _ _ tr es _ h =>
        have hl : loc k (.act j (.callback e) tr :: es) = loc k es := if_neg hj
        rw [hl]
        obtain ⟨ops, h1, h2 | ⟨e1, e2, h2, h3, h4⟩⟩ := user_then env may fuel k _ h ha.tail
        · obtain ⟨q, h5, h6⟩ := h2 fun _ => .throw .user
          rw [← he] at h5
          exact ⟨_, q, .bind (.code ops h1) fun _ => .throw _, h5, h6⟩
        · subst h2
          obtain ⟨q0, q, h5, h6, h7⟩ := ih tr h3 ha.tail.right
          rw [← he] at h4
          rw [loc_append]
          exact ⟨_, q, .bind (.code ops h1) fun _ => h5, h4.andThen_right (F := fun _ => q0) h6, h7⟩
    · have e1 : Code.weave j (userM env fuel) (.act a c) = .act j a fun r => Code.weave j (userM env fuel) (c r) := by
        cases a <;> first | rfl | exact absurd ⟨_, rfl⟩ hcb
      rw [e1] at h
      cases h with
      | nil => exact hstop
      | @act _ _ _ r es _ h =>
        have hl : loc k (.act j a r :: es) = loc k es := if_neg hj
        rw [hl]
        exact ih r h ha.tail

/-- The other socket's `listen`. -/
theorem listen_other (env : Nat → Env) (may : Nat → UserOp → Prop) (fuel k j : Nat) (hj : j ≠ k) (env' : Env) (he : ∀ ops, userOpsT env' fuel ops = userOpsT (env k) fuel ops)
    (hd : Header) {es g} (h : GPath (listenM env fuel j hd) es g) (ha : Allowed may es) : ∃ q0 q, HelperCode (OrThrows (may k)) env' fuel q0 ∧ Path q0 (loc k es) q ∧ Tracks k g q := by
  rcases h.catching_inv with ⟨p', h1, h2, h3⟩ | ⟨e, e1, e2, h1, h2, h3⟩
  · obtain ⟨q0, q, h4, h5, h6⟩ := weave_other env may fuel k j hj env' he _ h1 ha
    subst h3
    exact ⟨_, _, .catching h4 fun _ => .ret (), h5.catching_left fun _ => .ret (), h6.catching h2 _ _⟩
  · subst h1
    obtain ⟨q0, q, h4, h5, h6⟩ := weave_other env may fuel k j hj env' he _ h2 ha.left
    obtain ⟨e', rfl⟩ := h6.throw _ rfl
    cases h3
    rw [List.append_nil]
    exact ⟨_, _, .catching h4 fun _ => .ret (), h5.catching_left fun _ => .ret (), nofun, fun _ _ => rfl, nofun, nofun, nofun⟩

/-- With these callbacks. -/
abbrev withReact (env : Env) (react : List Event → List UserOp) : Env := { env with react := react }

/-- Its own `listen`. -/
theorem listen_own (env : Nat → Env) (may : Nat → UserOp → Prop) (fuel k : Nat) (hd : Header) {es g} (h : GPath (listenM env fuel k hd) es g) (ha : Allowed may es) :
    ∃ D : List (List Event × List UserOp), (D.map Prod.fst).Sublist (tracesOf (loc k es)) ∧ (∀ d ∈ D, ∀ op ∈ d.2, OrThrows (may k) op) ∧
      ∀ react : List Event → List UserOp, (∀ d ∈ D, react d.1 = d.2) → ∃ q, Path (listenT (withReact (env k) react) fuel hd) (loc k es) q ∧ Tracks k g q := by
  have hp : ∀ react, plug (reacts (withReact (env k) react) fuel) (.act (.setListening true) fun _ => listenLoopT (mute (env k)) fuel fuel hd) =
      .act (.setListening true) fun _ => listenLoopT (withReact (env k) react) fuel fuel hd := fun react => by
    show Prog.act _ _ = _
    congr 1
    funext _
    exact listenLoopT_plug (withReact (env k) react) fuel fuel hd
  have hr : ∀ react, ∀ D : List (List Event × List UserOp), (∀ d ∈ D, react d.1 = d.2) → ∀ d ∈ D, reacts (withReact (env k) react) fuel d.1 = userOpsT (env k) fuel d.2 := by
    intro react D hD d hd
    show userOpsT _ fuel (react d.1) = _
    rw [hD d hd, userOpsT_react]
  rcases h.catching_inv with ⟨p', h1, h2, h3⟩ | ⟨e, e1, e2, h1, h2, h3⟩
  · obtain ⟨D, h4, h5, h6⟩ := weave_own env may fuel k _ h1 ha
    subst h3
    refine ⟨D, h4, h5, fun react hD => ?_⟩
    obtain ⟨q, h7, h8⟩ := h6 _ (hr react D hD)
    rw [hp] at h7
    exact ⟨_, h7.catching_left fun _ => .ret (), h8.catching h2 _ _⟩
  · subst h1
    obtain ⟨D, h4, h5, h6⟩ := weave_own env may fuel k _ h2 ha.left
    cases h3
    rw [List.append_nil]
    refine ⟨D, h4, h5, fun react hD => ?_⟩
    obtain ⟨q, h7, h8⟩ := h6 _ (hr react D hD)
    rw [hp] at h7
    obtain ⟨e', rfl⟩ := h8.throw _ rfl
    exact ⟨_, h7.catching_left fun _ => .ret (), nofun, fun _ _ => rfl, nofun, nofun, nofun⟩

/-- A thread. -/
theorem job_resolve (env : Nat → Env) (may : Nat → UserOp → Prop) (fuel k : Nat) (J : Job) {es g} (h : GPath (J.code env fuel) es g) (ha : Allowed may es) :
    ∃ D : List (List Event × List UserOp), (D.map Prod.fst).Sublist (tracesOf (loc k es)) ∧ (∀ d ∈ D, ∀ op ∈ d.2, OrThrows (may k) op) ∧
      ∀ react : List Event → List UserOp, (∀ d ∈ D, react d.1 = d.2) →
        ∃ q0 q, J.SeenAs (OrThrows (may k)) (withReact (env k) react) fuel k q0 ∧ Path q0 (loc k es) q ∧ Tracks k g q := by
  have he : ∀ react ops, userOpsT (withReact (env k) react) fuel ops = userOpsT (env k) fuel ops := fun react ops => userOpsT_react _ _ _ _
  cases J with
  | app =>
    obtain ⟨ops, h1, q, h2, h3⟩ := user_resolve env may fuel k h ha
    refine ⟨[], List.nil_sublist _, nofun, fun react _ => ?_⟩
    rw [← he react] at h2
    exact ⟨_, q, .code ops h1, h2, h3⟩
  | listens j hd =>
    by_cases hj : j = k
    · subst hj
      obtain ⟨D, h1, h2, h3⟩ := listen_own env may fuel j hd h ha
      refine ⟨D, h1, h2, fun react hD => ?_⟩
      obtain ⟨q, h4, h5⟩ := h3 react hD
      exact ⟨_, q, .inl ⟨rfl, rfl⟩, h4, h5⟩
    · refine ⟨[], List.nil_sublist _, nofun, fun react _ => ?_⟩
      obtain ⟨q0, q, h1, h2, h3⟩ := listen_other env may fuel k j hj (withReact (env k) react) (he react) hd h ha
      exact ⟨q0, q, .inr ⟨hj, h1⟩, h2, h3⟩
  | session j hd =>
    obtain ⟨ops, h1, h2 | ⟨e1, e2, rfl, h3, h4⟩⟩ := user_then env may fuel k _ h ha
    · refine ⟨[], List.nil_sublist _, nofun, fun react _ => ?_⟩
      by_cases hj : j = k
      · obtain ⟨q, h5, h6⟩ := h2 fun _ => (listenT (withReact (env k) react) fuel hd).andThen fun _ => userOpsT (withReact (env k) react) fuel []
        rw [← he react] at h5
        exact ⟨_, q, .inl ⟨hj, ops, [], by rw [List.append_nil]; exact h1, rfl⟩, h5, h6⟩
      · obtain ⟨q, h5, h6⟩ := h2 fun _ => .throw .user
        rw [← he react] at h5
        exact ⟨_, q, .inr ⟨hj, .bind (.code ops h1) fun _ => .throw _⟩, h5, h6⟩
    · rw [loc_append, tracesOf_append]
      rcases h3.andThen_inv with ⟨p', k1, k2, k3⟩ | ⟨⟨⟩, e3, e4, rfl, k2, k3⟩
      · by_cases hj : j = k
        · subst hj
          obtain ⟨D, h5, h6, h7⟩ := listen_own env may fuel j hd k1 ha.right
          refine ⟨D, h5.trans (List.sublist_append_right _ _), h6, fun react hD => ?_⟩
          obtain ⟨q, h8, h9⟩ := h7 react hD
          rw [← he react] at h4
          subst k3
          exact ⟨_, _, .inl ⟨rfl, ops, [], by rw [List.append_nil]; exact h1, rfl⟩, h4.andThen_right (h8.andThen_left _), h9.andThen k2 _ _⟩
        · refine ⟨[], List.nil_sublist _, nofun, fun react _ => ?_⟩
          obtain ⟨q0, q, h5, h6, h7⟩ := listen_other env may fuel k j hj (withReact (env k) react) (he react) hd k1 ha.right
          rw [← he react] at h4
          subst k3
          exact ⟨_, _, .inr ⟨hj, .bind (.code ops h1) fun _ => .bind h5 fun _ => .throw .user⟩, h4.andThen_right (F := fun _ => q0.andThen fun _ => .throw .user) (h6.andThen_left _), h7.andThen k2 _ _⟩
      · obtain ⟨ops', m1, q', m2, m3⟩ := user_resolve env may fuel k k3 ha.right.right
        rw [loc_append, tracesOf_append]
        by_cases hj : j = k
        · subst hj
          obtain ⟨D, h5, h6, h7⟩ := listen_own env may fuel j hd k2 ha.right.left
          refine ⟨D, (h5.trans (List.sublist_append_left _ _)).trans (List.sublist_append_right _ _), h6, fun react hD => ?_⟩
          obtain ⟨q, h8, h9⟩ := h7 react hD
          rw [h9.ret () rfl] at h8
          rw [← he react] at h4 m2
          refine ⟨_, _, .inl ⟨rfl, ops, ops', fun op ho => ?_, rfl⟩, h4.andThen_right (h8.andThen_right m2), m3⟩
          rcases List.mem_append.mp ho with ho | ho
          · exact h1 op ho
          · exact m1 op ho
        · refine ⟨[], List.nil_sublist _, nofun, fun react _ => ?_⟩
          obtain ⟨q0, q, h5, h6, h7⟩ := listen_other env may fuel k j hj (withReact (env k) react) (he react) hd k2 ha.right.left
          rw [h7.ret () rfl] at h6
          rw [← he react] at h4 m2
          exact ⟨_, _, .inr ⟨hj, .bind (.code ops h1) fun _ => .bind h5 fun _ => .code ops' m1⟩,
            h4.andThen_right (F := fun _ => q0.andThen fun _ => userOpsT (withReact (env k) react) fuel ops') (h6.andThen_right (F := fun _ => userOpsT _ fuel ops') m2), m3⟩

end OatWS.Process
