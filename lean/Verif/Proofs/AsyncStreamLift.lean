import Verif.Proofs.AsyncStreamSim
/-!
# From one task to all tasks, and to two connected endpoints
-/

namespace OatWS.Streams
open Async

theorem set_self {α : Type} {ts : List α} {i : Nat} {o : α} (h : ts[i]? = some o) : ts.set i o = ts := by
  apply List.ext_getElem?
  intro j
  rw [List.getElem?_set]
  split
  · rename_i e; subst e
    split
    · exact h.symm
    · rename_i hl; rw [List.getElem?_eq_none (by omega)] at h; cases h
  · rfl

theorem lt_of_some {α : Type} {ts : List α} {i : Nat} {o : α} (h : ts[i]? = some o) : i < ts.length := by
  rcases Nat.lt_or_ge i ts.length with h' | h'
  · exact h'
  · rw [List.getElem?_eq_none h'] at h; cases h

theorem TSteps.logged {env : Env} {i : Nat} {o o' : Outcome} {w w' : World} {es : List Entry} (h : TSteps False env i o w es o' w') {p : Pool} {log : List Entry} {ts : List Outcome}
    (hl : Pool.Logged env p log ⟨ts, w⟩) (hi : ts[i]? = some o) : Pool.Logged env p (log ++ es) ⟨ts.set i o', w'⟩ := by
  induction h generalizing log ts with
  | refl => rw [set_self hi, List.append_nil]; exact hl
  | @head t o1 o2 w w1 w2 bs es h1 h2 h3 h4 _ ih =>
    have := ih (Pool.Logged.tail hl hi h2 h3 h4) (List.getElem?_set_self (lt_of_some hi))
    rw [List.set_set, List.append_assoc] at this
    exact this

theorem receive_append (b : Network.Endpoint) (x y : List UInt8) : (b.receive x).receive y = b.receive (x ++ y) := by
  cases b with
  | threads p =>
    show Network.Endpoint.threads ((p.receive x).receive y) = .threads (p.receive (x ++ y))
    unfold Threads.Pool.receive
    simp only [List.append_assoc]
  | tasks p =>
    show Network.Endpoint.tasks ((p.receive x).receive y) = .tasks (p.receive (x ++ y))
    unfold Async.Pool.receive World.setInp
    simp only [List.append_assoc]

theorem TSteps.left {env envB : Env} {i : Nat} {o o' : Outcome} {w w' : World} {es : List Entry} (h : TSteps True env i o w es o' w') {a0 b0 b : Network.Endpoint} {la lb : List Entry}
    {ts : List Outcome} (hl : Network.Linked env envB a0 b0 la lb (.tasks ⟨ts, w⟩) b) (hi : ts[i]? = some o) :
    Network.Linked env envB a0 b0 (la ++ es) lb (.tasks ⟨ts.set i o', w'⟩) (b.receive (es.flatMap Entry.wrote)) := by
  induction h generalizing la ts b with
  | refl => rw [set_self hi, List.append_nil]; erw [AsyncProcess.receive_nil]; exact hl
  | @head t o1 o2 w w1 w2 bs es h1 h2 h3 h4 _ ih =>
    have := ih (Network.Linked.left hl (.task hi (h1 trivial) h2 h3 h4)) (List.getElem?_set_self (lt_of_some hi))
    rw [List.set_set, List.append_assoc, receive_append] at this
    exact this

theorem TSteps.right {env envA : Env} {i : Nat} {o o' : Outcome} {w w' : World} {es : List Entry} (h : TSteps True env i o w es o' w') {a0 b0 a : Network.Endpoint} {la lb : List Entry}
    {ts : List Outcome} (hl : Network.Linked envA env a0 b0 la lb a (.tasks ⟨ts, w⟩)) (hi : ts[i]? = some o) :
    Network.Linked envA env a0 b0 la (lb ++ es) (a.receive (es.flatMap Entry.wrote)) (.tasks ⟨ts.set i o', w'⟩) := by
  induction h generalizing lb ts a with
  | refl => rw [set_self hi, List.append_nil]; erw [AsyncProcess.receive_nil]; exact hl
  | @head t o1 o2 w w1 w2 bs es h1 h2 h3 h4 _ ih =>
    have := ih (Network.Linked.right hl (.task hi (h1 trivial) h2 h3 h4)) (List.getElem?_set_self (lt_of_some hi))
    rw [List.set_set, List.append_assoc, receive_append] at this
    exact this

theorem ok_of_plain {x : XTask} (h : x.Plain) : x.Ok := by
  cases x with
  | plain o => trivial
  | streaming s => exact h.elim

theorem asSends_set {p p' : XPool} {i : Nat} {x' : XTask} (s : List IoOutcome) (h : p'.tasks = p.tasks.set i x') :
    p'.asSends s = ⟨(p.tasks.map XTask.asSend).set i x'.asSend, p'.world.sch s⟩ := by
  unfold XPool.asSends
  rw [h, List.map_set]

theorem map_getElem? {p : XPool} {i : Nat} {x : XTask} (h : p.tasks[i]? = some x) : (p.tasks.map XTask.asSend)[i]? = some x.asSend := by
  rw [List.getElem?_map, h]; rfl

theorem logged_sim {env : Env} {p p' : XPool} {log : List Entry} (h : XPool.Logged env p log p') (hp : ∀ x ∈ p.tasks, x.Ok) :
    (∀ x ∈ p'.tasks, x.Ok) ∧ ∀ s', ∃ s, Pool.Logged env (p.asSends s) log (p'.asSends s') := by
  induction h with
  | refl => exact ⟨hp, fun s' => ⟨s', .refl⟩⟩
  | @tail q r log i x x' bs _ h2 h3 h4 h5 ih =>
    obtain ⟨hq, ih⟩ := ih
    refine ⟨step_ok h2 hq, fun s' => ?_⟩
    obtain ⟨hset, s1, ht⟩ := task_sim False h2 hq h3 h4 (fun h => h.elim) h5 s'
    obtain ⟨s, hs⟩ := ih s1
    refine ⟨s, ?_⟩
    rw [asSends_set s' hset]
    exact ht.logged hs (map_getElem? h3)

def XEndpoint.Ok : XEndpoint → Prop
  | .streams p => ∀ x ∈ p.tasks, x.Ok
  | .other _ => True

theorem receive_asSends (e : XEndpoint) (bs : List UInt8) (s : List IoOutcome) : (e.receive bs).asSends s = (e.asSends s).receive bs := by cases e <;> rfl
theorem receive_ok (e : XEndpoint) (bs : List UInt8) (h : e.Ok) : (e.receive bs).Ok := by cases e <;> exact h

theorem linked_sim {envA envB : Env} {a0 b0 a b : XEndpoint} {la lb : List Entry} (h : XLinked envA envB a0 b0 la lb a b) (ha : a0.Ok) (hb : b0.Ok) :
    a.Ok ∧ b.Ok ∧ ∀ sa' sb', ∃ sa sb, Network.Linked envA envB (a0.asSends sa) (b0.asSends sb) la lb (a.asSends sa') (b.asSends sb') := by
  induction h with
  | refl => exact ⟨ha, hb, fun sa' sb' => ⟨sa', sb', .refl⟩⟩
  | @left la lb a b a' es _ h2 ih =>
    obtain ⟨oa, ob, ih⟩ := ih
    cases h2 with
    | @streams p p' i x x' bs e1 e2 e3 e4 e5 =>
      refine ⟨step_ok e1 oa, receive_ok b _ ob, fun sa' sb' => ?_⟩
      obtain ⟨hset, s1, ht⟩ := task_sim True e1 oa e2 e3 (fun _ => e4) e5 sa'
      obtain ⟨sa, sb, hs⟩ := ih s1 sb'
      refine ⟨sa, sb, ?_⟩
      rw [receive_asSends, show (XEndpoint.streams p').asSends sa' = .tasks (p'.asSends sa') from rfl, asSends_set sa' hset]
      exact ht.left hs (map_getElem? e2)
    | @other e e' a h3 =>
      refine ⟨trivial, receive_ok b _ ob, fun sa' sb' => ?_⟩
      obtain ⟨sa, sb, hs⟩ := ih sa' sb'
      refine ⟨sa, sb, ?_⟩
      rw [receive_asSends, show ([a].flatMap Entry.wrote) = a.wrote by simp]
      exact .left hs h3
  | @right la lb a b b' es _ h2 ih =>
    obtain ⟨oa, ob, ih⟩ := ih
    cases h2 with
    | @streams p p' i x x' bs e1 e2 e3 e4 e5 =>
      refine ⟨receive_ok a _ oa, step_ok e1 ob, fun sa' sb' => ?_⟩
      obtain ⟨hset, s1, ht⟩ := task_sim True e1 ob e2 e3 (fun _ => e4) e5 sb'
      obtain ⟨sa, sb, hs⟩ := ih sa' s1
      refine ⟨sa, sb, ?_⟩
      rw [receive_asSends, show (XEndpoint.streams p').asSends sb' = .tasks (p'.asSends sb') from rfl, asSends_set sb' hset]
      exact ht.right hs (map_getElem? e2)
    | @other e e' a h3 =>
      refine ⟨receive_ok _ _ oa, trivial, fun sa' sb' => ?_⟩
      obtain ⟨sa, sb, hs⟩ := ih sa' sb'
      refine ⟨sa, sb, ?_⟩
      rw [receive_asSends, show ([a].flatMap Entry.wrote) = a.wrote by simp]
      exact .right hs h3

end OatWS.Streams
