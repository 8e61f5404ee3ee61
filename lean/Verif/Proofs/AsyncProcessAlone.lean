import Verif.Proofs.AsyncProcessUser
import Verif.Proofs.ProcessAlone
import Verif.Spec.Moment
/-! # Each async socket of a process behaves as if it were alone -/

namespace OatWS.AsyncProcess
open Async Network
open Process (withReact of renumber OrThrows)

theorem receive_nil (b : Endpoint) : b.receive [] = b := by
  cases b with
  | threads p =>
    show Endpoint.threads (p.receive []) = _
    unfold Threads.Pool.receive
    rw [List.append_nil]
  | tasks p =>
    show Endpoint.tasks (p.receive []) = _
    unfold Pool.receive
    rw [List.append_nil]
    rfl

theorem said_append (a b : List Entry) : said (a ++ b) = said a ++ said b := List.filter_append ..

/-- The tasks (numbered by `φ`), as socket `q` sees them. -/
structure Views (q : Nat) (homes : Nat → Option Nat) (φ : Nat → Nat) (F : Nat → List UserOp) (n : Net) (v : Pool) : Prop where
  world : v.world = n.socks q
  tasks : ∀ (i : Nat) s, n.tasks[i]? = some s → ∃ o, v.tasks[φ i]? = some o ∧ Rel q (homes i) (F i) s o

theorem advance {env' penv' : Env} {a0 b0 b : Endpoint} {logA logB : List Entry} {q : Nat} {homes : Nat → Option Nat} {φ : Nat → Nat} {F' F : Nat → List UserOp} {n : Net} {v : Pool} {i : Nat} {s s' : State}
    {ws : Nat → World} {peers : Nat → Endpoint} {es : Nat → List Entry} (hφ : ∀ i j, φ i = φ j → i = j)
    (hl : Linked env' penv' a0 b0 logA logB (.tasks v) b) (hv : Views q homes φ F' n v) (hi : n.tasks[i]? = some s)
    (hs : Sim env' q (homes i) (F' i) s (n.socks q) es (F i) s' (ws q)) (hF : ∀ j, j ≠ i → F' j = F j) :
    ∃ v' logA', Linked env' penv' a0 b0 logA' logB (.tasks v') (b.receive ((es (φ i)).flatMap Entry.wrote)) ∧ Views q homes φ F ⟨n.tasks.set i s', ws, peers⟩ v' ∧ said logA' = said logA ++ said (es (φ i)) := by
  obtain ⟨o, h1, h2⟩ := hv.tasks i s hi
  obtain ⟨o', h3, h4⟩ := hs (φ i) o h2
  have hil := (List.getElem?_eq_some_iff.mp hi).1
  have hol := (List.getElem?_eq_some_iff.mp h1).1
  have hviews : ∀ w, w = ws q → Views q homes φ F ⟨n.tasks.set i s', ws, peers⟩ ⟨v.tasks.set (φ i) o', w⟩ := by
    intro w hw
    refine ⟨hw, fun j s1 hj => ?_⟩
    by_cases hji : j = i
    · subst hji
      rw [show (⟨n.tasks.set j s', ws, peers⟩ : Net).tasks = n.tasks.set j s' from rfl, List.getElem?_set_self hil] at hj
      injection hj with hj
      subst hj
      exact ⟨o', List.getElem?_set_self hol, h3⟩
    · rw [show (⟨n.tasks.set i s', ws, peers⟩ : Net).tasks = n.tasks.set i s' from rfl, List.getElem?_set_ne (Ne.symm hji)] at hj
      obtain ⟨o1, k1, k2⟩ := hv.tasks j s1 hj
      rw [hF j hji] at k2
      exact ⟨o1, by rw [List.getElem?_set_ne fun e => hji (hφ _ _ e).symm]; exact k1, k2⟩
  cases h4 with
  | stay e1 e2 =>
    rw [e2]
    refine ⟨v, logA, by rw [List.flatMap_nil, receive_nil]; exact hl, ?_, (List.append_nil _).symm⟩
    have := hviews v.world (hv.world.trans e1.symm)
    have hself : v.tasks.set (φ i) o = v.tasks := by
      obtain ⟨hlt, he⟩ := List.getElem?_eq_some_iff.mp h1
      rw [← he]
      exact List.set_getElem_self hlt
    rw [hself] at this
    exact this
  | @step t _ bs e1 e2 e3 e4 e5 e6 e7 =>
    subst e1
    have hst : Endpoint.Step env' (.tasks v) (entryOf env' (φ i) t v.world (ws q) bs) (.tasks ⟨v.tasks.set (φ i) o', ws q⟩) := by
      rw [← hv.world] at e2 e3 e5
      exact .task h1 e2 e3 e4 e5
    have hw : (entryOf env' (φ i) t v.world (ws q) bs).wrote = (es (φ i)).flatMap Entry.wrote := e6
    rw [← hw]
    refine ⟨_, _, Linked.left hl hst, hviews _ rfl, ?_⟩
    rw [said_append, hv.world, e7]

theorem of_snoc_same (k : Nat) (la : List (Nat × Entry)) (e : Entry) : of k (la ++ [(k, e)]) = of k la ++ [e] := by
  unfold of
  rw [List.filter_append, List.map_append]
  simp

theorem of_snoc_else {k j : Nat} (h : j ≠ k) (la : List (Nat × Entry)) (e : Entry) : of k (la ++ [(j, e)]) = of k la := by
  unfold of
  rw [List.filter_append, List.map_append]
  simp [h]

theorem renumber_snoc (φ : Nat → Nat) (log : List Entry) (e : Entry) : renumber φ (log ++ [e]) = renumber φ log ++ [{ e with task := φ e.task }] := by
  unfold renumber
  rw [List.map_append]
  rfl

/-- `f`, but `x` at `i`. -/
theorem put_cases {α : Type} {P : α → Prop} {f : Nat → α} {i : Nat} {x : α} (hx : P x) (hf : ∀ j, P (f j)) (j : Nat) : P (put f i x j) := by
  unfold put
  split
  · exact hx
  · exact hf j

theorem elseFuture_ok {O : UserOp → Prop} {f : List UserOp} {s : State} (h : ∀ op ∈ f, O op) (ht : O .throw) : ∀ op ∈ elseFuture f s, O op := by
  intro op ho
  cases s with
  | run t => exact h op ho
  | finished => cases ho
  | failed e => rw [List.mem_singleton.mp ho]; exact ht
  | ub => exact h op ho

/-- The execution as socket `q` sees it, given what user code will do after it. -/
theorem Net.Runs.seen {env penv : Nat → Env} {may : Nat → UserOp → Prop} {n0 : Net} {la lb : List (Nat × Entry)} {n : Net} (h : Net.Runs env penv may n0 la lb n) (q : Nat) (homes : Nat → Option Nat)
    (φ : Nat → Nat) (hφ : ∀ i j, φ i = φ j → i = j) (F : Nat → List UserOp) (R : List Event → List UserOp) (hF : ∀ i, ∀ op ∈ F i, OrThrows (may q) op) (hR : ∀ tr, ∀ op ∈ R tr, OrThrows (may q) op) :
    ∃ (F0 : Nat → List UserOp) (R0 : List Event → List UserOp), (∀ i, ∀ op ∈ F0 i, OrThrows (may q) op) ∧ (∀ tr, ∀ op ∈ R0 tr, OrThrows (may q) op) ∧
      ∀ react : List Event → List UserOp, (∀ tr, (n0.socks q).st.sock.trace.length < tr.length → react tr = R0 tr) →
        (∀ tr, (n.socks q).st.sock.trace.length < tr.length → react tr = R tr) ∧
        ∀ v0, Views q homes φ F0 n0 v0 → ∃ v logA, Linked (withReact (env q) react) (penv q) (.tasks v0) (n0.peers q) logA (of q lb) (.tasks v) (n.peers q) ∧ Views q homes φ F n v ∧
          said logA = said (renumber φ (of q la)) := by
  induction h generalizing F R with
  | refl => exact ⟨F, R, hF, hR, fun react hr => ⟨hr, fun v0 hv => ⟨v0, [], .refl, hv, rfl⟩⟩⟩
  | @lib la lb n i k c rest l s ws bs h hi hready hm hbs ih =>
    by_cases hk : k = q
    · subst hk
      obtain ⟨R1, g1, g2⟩ := lib_here hm hready hbs (homes i) (F i) R
      have hR1 : ∀ tr, ∀ op ∈ R1 tr, OrThrows (may k) op := by
        intro tr op ho
        rcases g1 tr with e | e
        · rw [e] at ho; exact hR tr op ho
        · rw [e] at ho; exact hF i op ho
      obtain ⟨F0, R0, k1, k2, k3⟩ := ih F R1 hF hR1
      refine ⟨F0, R0, k1, k2, fun react hr => ?_⟩
      obtain ⟨k4, k5⟩ := k3 react hr
      obtain ⟨g3, g4⟩ := g2 react k4
      refine ⟨g3, fun v0 hv0 => ?_⟩
      obtain ⟨v, logA, k6, k7, k8⟩ := k5 v0 hv0
      obtain ⟨v', logA', m1, m2, m3⟩ := advance (peers := put n.peers k ((n.peers k).receive bs)) hφ k6 k7 hi g4 (fun _ _ => rfl)
      refine ⟨v', logA', ?_, m2, ?_⟩
      · rw [show (([entryOf (env k) (φ i) ⟨[c], l⟩ (n.socks k) (ws k) bs] : List Entry).flatMap Entry.wrote) = bs by simp [entryOf]] at m1
        show Linked _ _ _ _ _ _ _ (put n.peers k ((n.peers k).receive bs) k)
        rw [put_same]
        exact m1
      · rw [m3, k8, of_snoc_same, renumber_snoc, said_append]
        rfl
    · have hst := (move_st hm).2 q (Ne.symm hk)
      have hs := fun react => lib_else hk hm (withReact (env q) react) (homes i) (F i)
      obtain ⟨F0, R0, k1, k2, k3⟩ := ih (put F i (elseFuture (F i) s)) R (fun j => put_cases (P := fun f => ∀ op ∈ f, OrThrows (may q) op) (elseFuture_ok (hF i) (.inr rfl)) hF j) hR
      refine ⟨F0, R0, k1, k2, fun react hr => ?_⟩
      obtain ⟨k4, k5⟩ := k3 react hr
      refine ⟨fun tr ht => k4 tr (by rw [← hst]; exact ht), fun v0 hv0 => ?_⟩
      obtain ⟨v, logA, k6, k7, k8⟩ := k5 v0 hv0
      obtain ⟨v', logA', m1, m2, m3⟩ := advance (peers := put n.peers k ((n.peers k).receive bs)) (F := F) (ws := ws) hφ k6 k7 hi (by rw [put_same]; exact hs react) (fun j hj => put_else _ _ hj)
      refine ⟨v', logA', ?_, m2, ?_⟩
      · rw [List.flatMap_nil, receive_nil] at m1
        show Linked _ _ _ _ _ _ _ (put n.peers k ((n.peers k).receive bs) q)
        rw [put_else _ _ (Ne.symm hk)]
        exact m1
      · rw [m3, k8, of_snoc_else hk]
        exact List.append_nil _
  | @does la lb n i b rest l k op s ws h hi hmay hm ih =>
    by_cases hk : k = q
    · subst hk
      have hst : (ws k).st.sock.trace = (n.socks k).st.sock.trace := by
        rw [(move_st hm).1]
        exact user_trace ..
      have hs := fun react => does_here (b := b) hm react (homes i) (F i)
      obtain ⟨F0, R0, k1, k2, k3⟩ := ih (put F i (op :: F i)) R
        (fun j => put_cases (P := fun f => ∀ op ∈ f, OrThrows (may k) op)
          (fun op' ho => by
            rcases List.mem_cons.mp ho with e | ho
            · rw [e]; exact .inl hmay
            · exact hF i op' ho) hF j) hR
      refine ⟨F0, R0, k1, k2, fun react hr => ?_⟩
      obtain ⟨k4, k5⟩ := k3 react hr
      refine ⟨fun tr ht => k4 tr (by rw [← hst]; exact ht), fun v0 hv0 => ?_⟩
      obtain ⟨v, logA, k6, k7, k8⟩ := k5 v0 hv0
      obtain ⟨v', logA', m1, m2, m3⟩ := advance (peers := n.peers) (F := F) (ws := ws) hφ k6 k7 hi (by rw [put_same]; exact hs react) (fun j hj => put_else _ _ hj)
      refine ⟨v', logA', ?_, m2, ?_⟩
      · rw [show (([entryOf (env k) (φ i) ⟨[.user { ops := [op] }], l⟩ (n.socks k) (ws k) []] : List Entry).flatMap Entry.wrote) = [] by simp [entryOf], receive_nil] at m1
        exact m1
      · rw [m3, k8, of_snoc_same, renumber_snoc, said_append]
        rfl
    · have hst := (move_st hm).2 q (Ne.symm hk)
      have hs := fun react => does_else (b := b) hk hm (withReact (env q) react) (homes i) (F i)
      obtain ⟨F0, R0, k1, k2, k3⟩ := ih (put F i (elseFuture (F i) s)) R (fun j => put_cases (P := fun f => ∀ op ∈ f, OrThrows (may q) op) (elseFuture_ok (hF i) (.inr rfl)) hF j) hR
      refine ⟨F0, R0, k1, k2, fun react hr => ?_⟩
      obtain ⟨k4, k5⟩ := k3 react hr
      refine ⟨fun tr ht => k4 tr (by rw [← hst]; exact ht), fun v0 hv0 => ?_⟩
      obtain ⟨v, logA, k6, k7, k8⟩ := k5 v0 hv0
      obtain ⟨v', logA', m1, m2, m3⟩ := advance (peers := n.peers) (F := F) (ws := ws) hφ k6 k7 hi (by rw [put_same]; exact hs react) (fun j hj => put_else _ _ hj)
      refine ⟨v', logA', ?_, m2, ?_⟩
      · rw [List.flatMap_nil, receive_nil] at m1
        exact m1
      · rw [m3, k8, of_snoc_else hk]
        exact List.append_nil _
  | @ends la lb n i b rest l h hi ih =>
    have hs := fun react => ends_view (q := q) (b := b) (rest := rest) (l := l) (withReact (env q) react) (n.socks q) (homes i) (F i)
    obtain ⟨F0, R0, k1, k2, k3⟩ := ih (put F i (endFuture q (homes i) rest (F i))) R
      (fun j => put_cases (P := fun f => ∀ op ∈ f, OrThrows (may q) op)
        (fun op ho => by
          unfold endFuture at ho
          split at ho
          · cases ho
          · exact hF i op ho) hF j) hR
    refine ⟨F0, R0, k1, k2, fun react hr => ?_⟩
    obtain ⟨k4, k5⟩ := k3 react hr
    refine ⟨k4, fun v0 hv0 => ?_⟩
    obtain ⟨v, logA, k6, k7, k8⟩ := k5 v0 hv0
    obtain ⟨v', logA', m1, m2, m3⟩ := advance (peers := n.peers) (F := F) (ws := n.socks) hφ k6 k7 hi (by rw [put_same]; exact hs react) (fun j hj => put_else _ _ hj)
    refine ⟨v', logA', ?_, m2, ?_⟩
    · rw [List.flatMap_nil, receive_nil] at m1
      exact m1
    · rw [m3, k8]
      exact List.append_nil _
  | @peer la lb n k e b h hp ih =>
    obtain ⟨F0, R0, k1, k2, k3⟩ := ih F R hF hR
    refine ⟨F0, R0, k1, k2, fun react hr => ?_⟩
    obtain ⟨k4, k5⟩ := k3 react hr
    by_cases hk : k = q
    · subst hk
      have hsame : put n.socks k (reach (n.socks k) e.wrote) k = reach (n.socks k) e.wrote := put_same ..
      refine ⟨fun tr ht => k4 tr (by dsimp only at ht; rw [hsame] at ht; exact ht), fun v0 hv0 => ?_⟩
      obtain ⟨v, logA, k6, k7, k8⟩ := k5 v0 hv0
      refine ⟨v.receive e.wrote, logA, ?_, ⟨?_, k7.tasks⟩, k8⟩
      · rw [of_snoc_same]
        show Linked _ _ _ _ _ _ _ (put n.peers k b k)
        rw [put_same]
        exact .right k6 hp
      · show _ = put n.socks k (reach (n.socks k) e.wrote) k
        rw [hsame, ← k7.world]
        rfl
    · have hsame : put n.socks k (reach (n.socks k) e.wrote) q = n.socks q := put_else _ _ (Ne.symm hk)
      refine ⟨fun tr ht => k4 tr (by dsimp only at ht; rw [hsame] at ht; exact ht), fun v0 hv0 => ?_⟩
      obtain ⟨v, logA, k6, k7, k8⟩ := k5 v0 hv0
      refine ⟨v, logA, ?_, ⟨k7.world.trans hsame.symm, k7.tasks⟩, k8⟩
      rw [of_snoc_else hk]
      show Linked _ _ _ _ _ _ _ (put n.peers k b q)
      rw [put_else _ _ (Ne.symm hk)]
      exact k6

/-- The task when it is started, as socket `q` sees it, if its user code will do `f` with the socket. -/
def Job.view (q : Nat) (f : List UserOp) : Job → Outcome
  | .app => .run (userTask f)
  | .listens k h => if k = q then .run (listenTask h) else .run (userTask f)

theorem Job.view_rel (q : Nat) (f : List UserOp) (J : Job) : Rel q J.socket f J.start (J.view q f) := by
  have hl : ∀ c ∈ [Co.listen], isIn c = true := fun c hc => by rw [List.mem_singleton.mp hc]; rfl
  cases J with
  | app => exact .user (b := false) (u := { ops := f }) .app rfl
  | listens k h =>
    dsimp only [Job.view]
    by_cases hk : k = q
    · subst hk
      rw [if_pos rfl]
      exact .below (low := [.listen]) rfl (by nofun) hl
    · rw [if_neg hk]
      exact .away (low := [.listen]) (u := { ops := f }) rfl hk (by nofun) hl rfl

theorem Job.view_seen (q : Nat) (f : List UserOp) (O : UserOp → Prop) (hf : ∀ op ∈ f, O op) (J : Job) : J.SeenAs O q (J.view q f) := by
  cases J with
  | app => exact ⟨f, hf, rfl⟩
  | listens k h =>
    dsimp only [Job.view]
    by_cases hk : k = q
    · exact .inl ⟨hk, if_pos hk⟩
    · exact .inr ⟨hk, f, hf, if_neg hk⟩

theorem Rel.tracks {q : Nat} {home : Option Nat} {f : List UserOp} {s : State} {o : Outcome} (h : Rel q home f s o) : Tracks q s o := by
  refine ⟨fun c rest l e => ?_, fun j c rest l hj e => ?_, fun u e => ?_, fun e => ?_, fun er e => ?_⟩
  · subst e
    generalize hs0 : State.run ⟨.lib q c :: rest, l⟩ = s0 at h
    cases h with
    | @below low l' _ h2 _ =>
      injection hs0 with hs0
      injection hs0 with hs0 _
      cases low with
      | nil => cases hs0
      | cons =>
        injection hs0 with hs0 _
        injection hs0 with _ hs0
        subst hs0
        exact ⟨_, _, rfl⟩
    | @away j low l' u lv h1 h2 h3 h4 h5 =>
      injection hs0 with hs0
      injection hs0 with hs0 _
      cases low with
      | nil => cases hs0
      | cons => injection hs0 with hs0 _; injection hs0 with hs0 _; exact absurd hs0.symm h2
    | user => injection hs0 with hs0; injection hs0 with hs0 _; cases hs0
    | @sendsHere up b u low l' lowv lv hun h1 h2 h5 h6 =>
      injection hs0 with hs0
      injection hs0 with hs0 _
      cases up with
      | nil => exact absurd rfl h1
      | cons =>
        injection hs0 with hs0 _
        injection hs0 with _ hs0
        subst hs0
        exact ⟨_, _, rfl⟩
    | @sendsThere j up b u low l' lowv lv hun h0 h1 h2 h5 =>
      injection hs0 with hs0
      injection hs0 with hs0 _
      cases up with
      | nil => exact absurd rfl h1
      | cons => injection hs0 with hs0 _; injection hs0 with hs0 _; exact absurd hs0.symm h0
    | finished => cases hs0
    | failed => cases hs0
    | ub => cases hs0
    | ubElse => cases hs0
  · subst e
    generalize hs0 : State.run ⟨.lib j c :: rest, l⟩ = s0 at h
    cases h with
    | @below low l' _ h2 _ =>
      injection hs0 with hs0
      injection hs0 with hs0 _
      cases low with
      | nil => cases hs0
      | cons => injection hs0 with hs0 _; injection hs0 with hs0 _; exact absurd hs0 hj
    | away => exact ⟨_, _, _, rfl⟩
    | user => injection hs0 with hs0; injection hs0 with hs0 _; cases hs0
    | @sendsHere up b u low l' lowv lv hun h1 h2 h5 h6 =>
      injection hs0 with hs0
      injection hs0 with hs0 _
      cases up with
      | nil => exact absurd rfl h1
      | cons => injection hs0 with hs0 _; injection hs0 with hs0 _; exact absurd hs0 hj
    | sendsThere => exact ⟨_, _, _, rfl⟩
    | finished => cases hs0
    | failed => cases hs0
    | ub => cases hs0
    | ubElse => cases hs0
  · subst e
    cases h with
    | ub => rfl
    | ubElse h => exact absurd rfl h
  · subst e
    cases h
    rfl
  · subst e
    cases h
    exact ⟨_, rfl⟩

theorem Rel.home {q : Nat} {home : Option Nat} {f : List UserOp} {c : Co} {rest : List Coro} {l : Local} {o : Outcome} (h : Rel q home f (.run ⟨.lib q c :: rest, l⟩) o) (hc : isIn c = true) : home = some q := by
  generalize hs0 : State.run ⟨.lib q c :: rest, l⟩ = s0 at h
  cases h with
  | below h => exact h
  | @away j low l' u lv h1 h2 h3 h4 h5 =>
    injection hs0 with hs0
    injection hs0 with hs0 _
    cases low with
    | nil => cases hs0
    | cons => injection hs0 with hs0 _; injection hs0 with hs0 _; exact absurd hs0.symm h2
  | user => injection hs0 with hs0; injection hs0 with hs0 _; cases hs0
  | @sendsHere up b u low l' lowv lv hun h1 h2 h5 h6 =>
    injection hs0 with hs0
    injection hs0 with hs0 _
    cases up with
    | nil => exact absurd rfl h1
    | cons x up =>
      injection hs0 with hs0 _
      injection hs0 with _ hs0
      subst hs0
      have := h2 c (List.mem_cons_self ..)
      cases c <;> first | exact absurd hc Bool.false_ne_true | exact absurd this Bool.false_ne_true
  | @sendsThere j up b u low l' lowv lv hun h0 h1 h2 h5 =>
    injection hs0 with hs0
    injection hs0 with hs0 _
    cases up with
    | nil => exact absurd rfl h1
    | cons => injection hs0 with hs0 _; injection hs0 with hs0 _; exact absurd hs0.symm h0
  | finished => cases hs0
  | failed => cases hs0
  | ub => cases hs0
  | ubElse => cases hs0

/-- The execution, with socket `q` alone; the tasks numbered by `φ`. -/
structure Alone (env penv : Nat → Env) (may : Nat → UserOp → Prop) (jobs : List Job) (socks : Nat → World) (peers : Nat → Endpoint) (la lb : List (Nat × Entry)) (n : Net)
    (q : Nat) (φ : Nat → Nat) (react : List Event → List UserOp) (views views' : List Outcome) (log : List Entry) : Prop where
  callbacks : ∀ tr, ∀ op ∈ react tr, OrThrows (may q) op
  length : views.length = jobs.length
  seen : ∀ (i : Nat) J, jobs[i]? = some J → ∃ o, views[φ i]? = some o ∧ J.SeenAs (OrThrows (may q)) q o
  tracks : ∀ (i : Nat) s, n.tasks[i]? = some s → ∃ o, views'[φ i]? = some o ∧ Tracks q s o
  home : ∀ (i : Nat) J c rest l, jobs[i]? = some J → n.tasks[i]? = some (.run ⟨.lib q c :: rest, l⟩) → isIn c = true → J.socket = some q
  linked : Linked (withReact (env q) react) (penv q) (.tasks ⟨views, socks q⟩) (peers q) log (of q lb) (.tasks ⟨views', n.socks q⟩) (n.peers q)
  record : said log = said (renumber φ (of q la))

theorem Net.Runs.alone {env penv : Nat → Env} {may : Nat → UserOp → Prop} {jobs : List Job} {socks : Nat → World} {peers : Nat → Endpoint} {la lb : List (Nat × Entry)} {n : Net}
    (h : Net.Runs env penv may ⟨jobs.map Job.start, socks, peers⟩ la lb n) (q : Nat) (φ : Nat → Nat) (hφ : ∀ i, φ (φ i) = i) (hlt : ∀ i, i < jobs.length → φ i < jobs.length) :
    ∃ react views views' log, Alone env penv may jobs socks peers la lb n q φ react views views' log := by
  obtain ⟨F0, R0, h1, h2, h3⟩ := h.seen q (fun i => (jobs[i]?).bind Job.socket) φ (fun i j e => by have := congrArg φ e; rwa [hφ, hφ] at this) (fun _ => []) (fun _ => []) (fun _ _ h => by cases h) (fun _ _ h => by cases h)
  obtain ⟨-, h4⟩ := h3 R0 fun _ _ => rfl
  let views := (List.range jobs.length).map fun m => ((jobs[φ m]?).map (Job.view q (F0 (φ m)))).getD .finished
  have hget : ∀ i J, jobs[i]? = some J → views[φ i]? = some (J.view q (F0 i)) := by
    intro i J hi
    have := hlt i (List.getElem?_eq_some_iff.mp hi).1
    show ((List.range jobs.length).map _)[φ i]? = _
    rw [List.getElem?_map, List.getElem?_range this, Option.map_some, hφ, hi]
    rfl
  obtain ⟨v, log, h5, h6, h7⟩ := h4 ⟨views, socks q⟩ ⟨rfl, fun i s hi => by
    have hi : (jobs.map Job.start)[i]? = some s := hi
    rw [List.getElem?_map] at hi
    cases hJ : jobs[i]? with
    | none => rw [hJ] at hi; cases hi
    | some J =>
      rw [hJ] at hi
      injection hi with hi
      subst hi
      exact ⟨_, hget i J hJ, J.view_rel q (F0 i)⟩⟩
  refine ⟨R0, views, v.tasks, log, h2, by simp [views], fun i J hJ => ⟨_, hget i J hJ, J.view_seen q _ _ (h1 i)⟩, fun i s hs => ?_, fun i J c rest l hJ hs hc => ?_, ?_, h7⟩
  · obtain ⟨o, k1, k2⟩ := h6.tasks i s hs
    exact ⟨o, k1, k2.tracks⟩
  · obtain ⟨o, k1, k2⟩ := h6.tasks i _ hs
    have := k2.home hc
    rwa [hJ] at this
  · rw [← h6.world]
    exact h5

/-! ## Records up to steps in which nothing happened -/

theorem feed_idle {e : Entry} (h : idle e = true) (ss : List Sent) : feed ss e = ss := by
  obtain ⟨t, c, w, d, co, f⟩ := e
  unfold idle at h
  simp only [Bool.and_eq_true, Option.isNone_iff_eq_none, List.isEmpty_iff, Bool.not_eq_true'] at h
  obtain ⟨⟨⟨⟨rfl, rfl⟩, rfl⟩, rfl⟩, rfl⟩ := h
  unfold feed
  dsimp only
  cases ss with
  | nil => rfl
  | cons s ss => simp

theorem sendsOf_said (i : Nat) (log : List Entry) : sendsOf i (said log) = sendsOf i log := by
  unfold sendsOf said
  generalize hss : ([] : List Sent) = ss
  clear hss
  induction log generalizing ss with
  | nil => rfl
  | cons e log ih =>
    cases he : idle e with
    | true =>
      rw [List.filter_cons_of_neg (by rw [he]; exact Bool.false_ne_true), ih]
      by_cases hi : (e.task == i) = true
      · rw [List.filter_cons_of_pos (l := log) (p := fun e : Entry => e.task == i) hi, List.foldl_cons, feed_idle he]
      · rw [List.filter_cons_of_neg (l := log) (p := fun e : Entry => e.task == i) hi]
    | false =>
      rw [List.filter_cons_of_pos (by rw [he]; rfl)]
      by_cases hi : (e.task == i) = true
      · rw [List.filter_cons_of_pos (p := fun e : Entry => e.task == i) hi, List.filter_cons_of_pos (l := log) (p := fun e : Entry => e.task == i) hi, List.foldl_cons, List.foldl_cons, ih]
      · rw [List.filter_cons_of_neg (p := fun e : Entry => e.task == i) hi, List.filter_cons_of_neg (l := log) (p := fun e : Entry => e.task == i) hi, ih]

theorem sending_said (i : Nat) (log : List Entry) : Sending i (said log) ↔ Sending i log := by
  unfold Sending
  rw [sendsOf_said]

theorem callsOf_said (log : List Entry) : callsOf (said log) = callsOf log := by
  induction log with
  | nil => rfl
  | cons e log ih =>
    unfold said
    cases he : idle e with
    | true =>
      rw [List.filter_cons_of_neg (by rw [he]; exact Bool.false_ne_true)]
      have hc : e.called = none := by
        unfold idle at he
        simp only [Bool.and_eq_true, Option.isNone_iff_eq_none] at he
        exact he.1.1.1.1
      refine ih.trans ?_
      unfold callsOf
      rw [List.filterMap_cons_none hc]
    | false =>
      rw [List.filter_cons_of_pos (by rw [he]; rfl)]
      unfold callsOf at ih ⊢
      rw [List.filterMap_cons, List.filterMap_cons, show List.filter (fun e => !idle e) log = said log from rfl, ih]

theorem called_not_idle {e : Entry} (h : e.called.isSome = true) : idle e = false := by
  unfold idle
  cases hc : e.called with
  | none => rw [hc] at h; cases h
  | some c => rfl

theorem failed_not_idle {e : Entry} (h : e.failed = true) : idle e = false := by
  unfold idle
  rw [h]
  simp

theorem serialised_said (log : List Entry) : Serialised (said log) ↔ Serialised log := by
  constructor
  · intro h a e b hl hc j hj hs
    refine h (said a) e (said b) ?_ hc j hj ((sending_said j a).mpr hs)
    rw [hl, said_append]
    unfold said
    rw [List.filter_cons_of_pos (by rw [called_not_idle hc]; rfl)]
  · intro h a e b hl hc j hj hs
    obtain ⟨a', r, h1, h2, h3⟩ := List.filter_eq_append_iff.mp hl
    obtain ⟨x, b', h4, h5, h6, h7⟩ := List.filter_eq_cons_iff.mp h3
    refine h (a' ++ x) e b' (by rw [h1, h4, List.append_assoc]) hc j hj ?_
    rw [← sending_said, said_append]
    have hx : said x = [] := List.filter_eq_nil_iff.mpr h5
    rw [hx, List.append_nil]
    show Sending j (List.filter _ a')
    rw [h2]
    exact hs

theorem resigned_said (log : List Entry) : Resigned (said log) ↔ Resigned log := by
  constructor
  · intro h a e b hl hf e' he'
    cases hc : e'.called with
    | none => rfl
    | some c =>
      have := h (said a) e (said b) (by
        rw [hl, said_append]
        unfold said
        rw [List.filter_cons_of_pos (by rw [failed_not_idle hf]; rfl)]) hf e' (List.mem_filter.mpr ⟨he', by rw [called_not_idle (by rw [hc]; rfl)]; rfl⟩)
      rw [hc] at this
      cases this
  · intro h a e b hl hf e' he'
    obtain ⟨a', r, h1, h2, h3⟩ := List.filter_eq_append_iff.mp hl
    obtain ⟨x, b', h4, h5, h6, h7⟩ := List.filter_eq_cons_iff.mp h3
    refine h (a' ++ x) e b' (by rw [h1, h4, List.append_assoc]) hf e' ?_
    rw [← h7] at he'
    exact (List.mem_filter.mp he').1

theorem noFailed_said (log : List Entry) : (∀ e ∈ said log, e.failed = false) ↔ ∀ e ∈ log, e.failed = false := by
  constructor
  · intro h e he
    cases hf : e.failed with
    | false => rfl
    | true =>
      have := h e (List.mem_filter.mpr ⟨he, by rw [failed_not_idle hf]; rfl⟩)
      rw [hf] at this
      cases this
  · exact fun h e he => h e (List.mem_filter.mp he).1

end OatWS.AsyncProcess
