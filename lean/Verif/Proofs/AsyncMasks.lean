import Verif.Spec.Masking
import Verif.Props.AsyncSends
import Verif.Proofs.AsyncInstalled
/-! Tasks of certain operations: what the configuration can become; every frame is masked, or none. -/

namespace OatWS.Async
open RFC6455

/-- User code only of these operations. -/
def Co.Only (O : UserOp → Prop) : Co → Prop
  | .user c => ∀ op ∈ c.ops, O op
  | _ => True

def Act.Only (O : UserOp → Prop) : Act → Prop
  | .goto c => c.Only O
  | .call cs c => (∀ d ∈ cs, d.Only O) ∧ c.Only O
  | _ => True

structure StepOnly (O : UserOp → Prop) (C : Config → Prop) (r : OatWS.Async.Act × Local × World) : Prop where
  act : r.1.Only O
  config : C r.2.2.st.sock.config

variable {O : UserOp → Prop} {C : Config → Prop}

theorem only_one {d c' : Co} (h : d.Only O) (h' : c'.Only O) : (Act.call [d] c').Only O :=
  ⟨fun x hx => by rw [List.mem_singleton] at hx; subst hx; exact h, h'⟩

theorem only_readStep {w : World} (hw : C w.st.sock.config) (need got l again) (cont : List UInt8 → World → OatWS.Async.Act × Local × World) (h1 : ∀ g, (again g).Only O)
    (h2 : ∀ g i, StepOnly O C (cont g (w.setInp i))) : StepOnly O C (readStep need got l w again cont) := by
  unfold readStep
  rcases readInline need got w.st.inp with ⟨(g | g | _ | _), i⟩
  · exact ⟨h1 g, hw⟩
  · exact ⟨(h2 g i).1, (h2 g i).2⟩
  · exact ⟨trivial, hw⟩
  · exact ⟨trivial, hw⟩

theorem only_writeStep {w : World} (hw : C w.st.sock.config) (left l again) (cont : OatWS.Async.Act) (h1 : ∀ g, (again g).Only O) (h2 : cont.Only O) :
    StepOnly O C (writeStep left l w again cont) := by
  unfold writeStep
  rcases writeInline left w.st.sock.out with ⟨(_ | g | _ | _), i⟩
  all_goals first | exact ⟨h2, hw⟩ | exact ⟨h1 _, hw⟩ | exact ⟨trivial, hw⟩

theorem only_coStep {env : Env} (henv : ∀ tr, ∀ op ∈ env.react tr, O op) (hO : ∀ c, O (.setConfig c) → C c) {c : Co} (hc : c.Only O) (l : Local) {w : World}
    (hw : C w.st.sock.config) : StepOnly O C (coStep env c l w) := by
  cases c with
  | listen =>
    simp only [coStep, listenStep]
    split
    · refine ⟨⟨fun d hd => ?_, trivial⟩, hw⟩
      simp only [List.mem_cons, List.not_mem_nil, or_false] at hd
      rcases hd with rfl | rfl <;> trivial
    · exact ⟨trivial, hw⟩
  | readFrame c =>
    simp only [coStep, readFrameStep]
    split
    · exact only_readStep hw _ _ _ _ _ (fun _ => trivial) (fun _ _ => ⟨trivial, hw⟩)
    · split
      · split
        · exact ⟨trivial, hw⟩
        · split <;> exact ⟨trivial, hw⟩
      · exact ⟨trivial, hw⟩
    · exact only_readStep hw _ _ _ _ _ (fun _ => trivial) (fun _ _ => ⟨trivial, hw⟩)
    · split
      · exact ⟨trivial, hw⟩
      · exact ⟨trivial, hw⟩
    · refine only_readStep hw _ _ _ _ _ (fun _ => trivial) (fun _ _ => ?_)
      split <;> exact ⟨trivial, hw⟩
  | handleFrame c =>
    have hs : ∀ short pc l w', w'.st.sock.config = w.st.sock.config → StepOnly O C (startPayload c short pc l w') := by
      intro short pc l w' hw2
      have hw' : C w'.st.sock.config := by rw [hw2]; exact hw
      unfold startPayload readPayloadAsync
      split
      · rename_i co w1 h
        split at h
        · cases h
        · split at h
          · cases h
          · injection h with h; injection h with h h'; subst h h'
            exact ⟨only_one trivial trivial, hw'⟩
      · exact ⟨trivial, hw'⟩
    have hd : ∀ l, StepOnly O C (startData c l w) := by
      intro l
      unfold startData checkForContinuationA
      split
      · rename_i s h
        split at h
        · cases h
        · split at h <;> (injection h with _ h; subst h; exact hs _ _ _ _ rfl)
      · rename_i s h
        split at h
        · injection h with _ h; subst h; exact ⟨trivial, hw⟩
        · split at h <;> cases h
    have hcb : ∀ mk : Nat → Event, ∀ l, StepOnly O C (controlCallback env c mk l w) := by
      intro mk l
      unfold controlCallback
      split
      · exact ⟨only_one (fun op hop => henv _ op hop) trivial, hw⟩
      · exact ⟨trivial, hw⟩
    simp only [coStep, handleFrameStep]
    split
    · split
      · split
        · exact ⟨trivial, hw⟩
        · exact hs _ _ _ _ rfl
      · split
        · exact hd _
        · split
          · exact hd _
          · split
            · exact hs _ _ _ _ rfl
            · split
              · exact hs _ _ _ _ rfl
              · split
                · exact hs _ _ _ _ rfl
                · exact ⟨trivial, hw⟩
    · exact hcb _ _
    · exact hcb _ _
    · exact hcb _ _
    · exact ⟨trivial, hw⟩
  | readPayload c =>
    have hcb : ∀ (e : Event) (data : List UInt8) (ptr : Option Nat) (w1 w2 : World) (l : Local) (c' : ReadPayloadCo),
        w1.st = w.st → w2.st.sock = (callback env e ptr data w1).2.st.sock →
        StepOnly O C (.call [(callback env e ptr data w1).1] (.readPayload c'), l, w2) := by
      intro e data ptr w1 w2 l c' h3 h4
      refine ⟨only_one (fun op hop => henv _ op hop) trivial, ?_⟩
      show C w2.st.sock.config
      rw [h4]
      show C w1.st.sock.config
      rw [h3]; exact hw
    simp only [coStep, readPayloadStep]
    split
    · split
      · exact ⟨trivial, hw⟩
      · split
        · split
          · exact hcb _ _ _ _ _ _ _ rfl rfl
          · exact ⟨trivial, hw⟩
        · exact ⟨trivial, hw⟩
    · split
      · exact ⟨trivial, hw⟩
      · split
        · exact ⟨trivial, hw⟩
        · split
          · split
            · exact ⟨trivial, hw⟩
            · exact ⟨trivial, hw⟩
          · exact ⟨trivial, hw⟩
          · exact ⟨trivial, hw⟩
          · exact ⟨trivial, hw⟩
    · split
      · split
        · split
          · exact ⟨trivial, hw⟩
          · split
            · exact hcb _ _ _ _ _ _ _ rfl rfl
            · exact ⟨trivial, hw⟩
        · split
          · exact ⟨trivial, hw⟩
          · split
            · exact hcb _ _ _ _ _ _ _ rfl rfl
            · exact ⟨trivial, hw⟩
      · exact ⟨trivial, hw⟩
    · exact ⟨trivial, hw⟩
  | user c =>
    have hc : ∀ op ∈ c.ops, O op := hc
    simp only [coStep, userStep]
    split
    · exact ⟨trivial, hw⟩
    · rename_i he; rw [he] at hc; exact ⟨fun op ho => hc op (List.mem_cons_of_mem _ ho), hw⟩
    · rename_i he; rw [he] at hc; exact ⟨fun op ho => hc op (List.mem_cons_of_mem _ ho), hw⟩
    · rename_i c' _ he; rw [he] at hc; exact ⟨fun op ho => hc op (List.mem_cons_of_mem _ ho), hO c' (hc (.setConfig c') (by simp))⟩
    · rename_i call _ _ he
      rw [he] at hc
      exact ⟨only_one (by cases call <;> trivial) (fun op ho => hc op (List.mem_cons_of_mem _ ho)), hw⟩
    · exact ⟨trivial, hw⟩
  | sendFrame c =>
    have hh : ∀ h fin op n, (sendFrameHeaderAsync env h fin op n w).2.1.Only O ∧ C (sendFrameHeaderAsync env h fin op n w).2.2.st.sock.config := by
      intro h fin op n
      unfold sendFrameHeaderAsync
      dsimp only
      split
      · exact ⟨trivial, hw⟩
      · exact ⟨trivial, hw⟩
    simp only [coStep, sendFrameStep]
    split
    · split
      · exact ⟨only_one (hh _ _ _ _).1 trivial, (hh _ _ _ _).2⟩
      · exact ⟨only_one (hh _ _ _ _).1 trivial, (hh _ _ _ _).2⟩
    · split
      · split
        · exact ⟨trivial, hw⟩
        · exact ⟨trivial, hw⟩
      · exact ⟨trivial, hw⟩
    · exact only_writeStep hw _ _ _ _ (fun _ => trivial) trivial
    · exact ⟨trivial, hw⟩
  | writeFrame c =>
    simp only [coStep, writeFrameStep]
    split
    · exact only_writeStep hw _ _ _ _ (fun _ => trivial) trivial
    · split
      · exact ⟨trivial, hw⟩
      · split <;> exact ⟨trivial, hw⟩
    · exact only_writeStep hw _ _ _ _ (fun _ => trivial) trivial
    · split
      · exact ⟨trivial, hw⟩
      · exact ⟨trivial, hw⟩
    · exact only_writeStep hw _ _ _ _ (fun _ => trivial) trivial

def Outcome.Only (O : UserOp → Prop) (o : Outcome) : Prop := ∀ t, o = .run t → ∀ c ∈ t.stack, c.Only O

theorem only_unwind (e : AErr) (rest : List Co) (l : Local) (w : World) (h : ∀ c ∈ rest, c.Only O) : (unwind e rest l w).1.Only O := by
  induction rest generalizing w with
  | nil => exact fun _ h => (by cases h)
  | cons c rest ih =>
    have h' := fun d hd => h d (List.mem_cons_of_mem _ hd)
    cases c with
    | user c =>
      rw [unwind]
      split
      · intro t ht
        injection ht with ht
        subst ht
        intro d hd
        rcases List.mem_cons.mp hd with rfl | hd
        · exact h (.user c) (by simp)
        · exact h' d hd
      · exact ih _ h'
    | _ => rw [unwind]; exact ih _ h'; nofun

theorem only_step {env : Env} (henv : ∀ tr, ∀ op ∈ env.react tr, O op) (hO : ∀ c, O (.setConfig c) → C c) {t : Task} {w : World} {o : Outcome} {w' : World}
    (h : ∀ c ∈ t.stack, c.Only O) (hw : C w.st.sock.config) (hs : step env t w = (o, w')) : o.Only O ∧ C w'.st.sock.config := by
  unfold step at hs
  split at hs
  · injection hs with h1 h2; subst h1 h2; exact ⟨fun _ h => (by cases h), hw⟩
  · rename_i c rest he
    rw [he] at h
    have hr := fun d hd => h d (List.mem_cons_of_mem _ hd)
    have hk := only_coStep henv hO (h c (by simp)) t.loc hw
    revert hs hk
    rcases coStep env c t.loc w with ⟨a, l, w1⟩
    intro hs hk
    have hact := hk.act
    have hon := hk.config
    dsimp only at hact hon
    cases a with
    | goto c' =>
      injection hs with h1 h2; subst h1 h2
      refine ⟨fun t ht => ?_, hon⟩
      injection ht with ht; subst ht
      intro d hd
      rcases List.mem_cons.mp hd with rfl | hd
      · exact hact
      · exact hr d hd
    | call cs c' =>
      injection hs with h1 h2; subst h1 h2
      refine ⟨fun t ht => ?_, hon⟩
      injection ht with ht; subst ht
      intro d hd
      rcases List.mem_append.mp hd with hd | hd
      · exact hact.1 d hd
      · rcases List.mem_cons.mp hd with rfl | hd
        · exact hact.2
        · exact hr d hd
    | finish =>
      dsimp only at hs
      split at hs
      · injection hs with h1 h2; subst h1 h2
        exact ⟨fun _ h => (by cases h), by rw [destroy_sock]; exact hon⟩
      · injection hs with h1 h2; subst h1 h2
        refine ⟨fun t ht => ?_, by rw [destroy_sock]; exact hon⟩
        injection ht with ht; subst ht
        exact hr
    | error e =>
      have h1 := only_unwind e rest l (destroy c w1) hr
      have h2 := unwind_sock e rest l (destroy c w1)
      have hs : unwind e rest l (destroy c w1) = (o, w') := hs
      rw [hs] at h1 h2
      rw [destroy_sock] at h2
      exact ⟨h1, by rw [show w'.st.sock = w1.st.sock from h2]; exact hon⟩
    | blocked => injection hs with h1 h2; subst h1 h2; exact ⟨fun _ h => (by cases h), hon⟩
    | ub u => injection hs with h1 h2; subst h1 h2; exact ⟨fun _ h => (by cases h), hon⟩

/-! ## Keys -/

/-- A send has a key, if and only if it needs one, as soon as anything of it can be seen. -/
def Sent.KeyedAs (m : Bool) (s : Sent) : Prop :=
  (s.key.isSome → m = true) ∧ (s.bytes ≠ [] ∨ s.state = .completed → s.key.isSome = m)

/-- The top coroutine is a send that has not made a step yet. -/
def Unbegun : List Co → Prop
  | .sendFrame c :: _ => c.pc = .act
  | _ => False

/-- The sends of a task, and the send in progress. -/
structure KeyInv (m : Bool) (o : Outcome) (ss : List Sent) : Prop where
  sends : ∀ s ∈ ss, s.KeyedAs m
  head : ∀ t, o = .run t → ∀ s r, ss = s :: r → s.state = .inProgress → ¬ Unbegun t.stack → s.key.isSome = m

theorem key_step (m : Bool) (env : Env) (i : Nat) (t : Task) (ss : List Sent) (hI : TaskInv env (.run t) ss) (hk : KeyInv m (.run t) ss) (w : World) (o w')
    (hc : w.st.sock.config.maskOutgoingMessages = m) (he : step env t w = (o, w')) (hb : o ≠ .blocked) (d : List UInt8)
    (hd : w'.st.sock.out.written = w.st.sock.out.written ++ d) :
    KeyInv m o (feed ss ⟨i, t.calls, d, drewAt w.st.sock w'.st.sock, t.completes env w, t.fails env w⟩) := by
  have over : ∀ {s r}, HeadOver ss → ss = s :: r → s.state = .inProgress → False := fun h e hs => h _ _ e hs
  rcases hI.head with ⟨hq, hd0⟩ | ⟨s, r, rfl, hs, hin⟩
  · obtain ⟨h1, h2, h3, h4⟩ := quiet_step env t hq w o w' he
    have ho : w'.st.sock.out = w.st.sock.out := congrArg Prod.fst h1
    have hr : w'.st.sock.rngPos = w.st.sock.rngPos := congrArg Prod.snd h1
    rw [ho] at hd
    have hd : d = [] := by simpa using hd
    rw [h2, h3, drewAt_none hr, hd]
    rcases h4 with ⟨h4, h5⟩ | ⟨c, rest, l, h4, rfl, h6⟩
    · have hf : feed ss ⟨i, t.calls, [], none, false, false⟩ = ss := by
        unfold feed
        rw [h4]
        cases ss with
        | nil => rfl
        | cons s r => simp [Option.or_none]
      rw [hf]
      exact ⟨hk.sends, fun _ _ s r e hs => (over hd0 e hs).elim⟩
    · have hf : feed ss ⟨i, t.calls, [], none, false, false⟩ = ⟨c, [], none, .inProgress⟩ :: ss := by
        unfold feed
        rw [h4]
      rw [hf]
      refine ⟨fun s hs => ?_, fun t ht s r e hs hu => ?_⟩
      · rcases List.mem_cons.mp hs with rfl | hs
        · exact ⟨nofun, fun h => h.elim (absurd rfl) nofun⟩
        · exact hk.sends s hs
      · injection ht with ht
        subst ht
        refine absurd ?_ hu
        obtain ⟨m', e, -⟩ := sendAsync_is env c
        rw [e]
        rfl
  · obtain ⟨m', rest, hm, hq, ⟨hst, hb0, hk0⟩ | ⟨sk, left, hmid, hbl, hkey⟩⟩ := hin
    · rcases t with ⟨st, l⟩
      simp only at hst
      subst hst
      obtain ⟨w1, e, ho, hr⟩ := first_step env s.call.content.1 s.call.content.2.1 m' rest l w
      have hcm : Task.completes env ⟨sendOneFrameAsync s.call.content.1 s.call.content.2.1 m' :: rest, l⟩ w = false ∧
          Task.fails env ⟨sendOneFrameAsync s.call.content.1 s.call.content.2.1 m' :: rest, l⟩ w = false := by
        unfold Task.completes Task.fails
        clear he hb e hm hI hk
        match m' with
        | none => exact ⟨rfl, rfl⟩
        | some [] => exact ⟨rfl, rfl⟩
        | some (_ :: _) => exact ⟨rfl, rfl⟩
      rw [e] at he
      injection he with he1 he2
      subst he1 he2
      rw [hcm.1, hcm.2]
      have hdr : (drewAt w.st.sock w1.st.sock).isSome = m := by
        unfold drewAt
        rw [hr, ← hc]
        cases w.st.sock.config.maskOutgoingMessages
        · simp
        · rw [if_neg (by show ¬ (w.st.sock.rngPos + 4 = w.st.sock.rngPos); omega)]; rfl
      rw [ho] at hd
      have hd : d = [] := by simpa using hd
      have hf : feed (s :: r) ⟨i, Task.calls ⟨sendOneFrameAsync s.call.content.1 s.call.content.2.1 m' :: rest, l⟩, d,
          drewAt w.st.sock w1.st.sock, false, false⟩ = ⟨s.call, s.bytes, drewAt w.st.sock w1.st.sock, s.state⟩ :: r := by
        simp [feed, Task.calls, sendOneFrameAsync, hk0, hd]
      rw [hf]
      refine ⟨fun x hx => ?_, fun t ht x r' ex _ _ => ?_⟩
      · rcases List.mem_cons.mp hx with rfl | hx
        · exact ⟨fun h => hdr.symm.trans h, fun _ => hdr⟩
        · exact hk.sends x (List.mem_cons_of_mem _ hx)
      · injection ex with ex _
        subst ex
        exact hdr
    · rcases t with ⟨st, l⟩
      have hcalls := hmid.calls l
      have hnew : ¬ Unbegun st := by cases hmid <;> nofun
      have hkm := hk.head _ rfl s r rfl hs hnew
      obtain ⟨d', hw, hr, hres⟩ := mid_step env _ _ m' _ rest hq l st left hmid w o w' he hb
      rw [hcalls, drewAt_none hr]
      have hf : ∀ c f, feed (s :: r) ⟨i, none, d, none, c, f⟩ =
          ⟨s.call, s.bytes ++ d, s.key, if c then .completed else if f then .failed else s.state⟩ :: r := by
        intro c f
        simp [feed]
      rw [hf]
      refine ⟨fun x hx => ?_, fun t ht x r' ex _ _ => ?_⟩
      · rcases List.mem_cons.mp hx with rfl | hx
        · exact ⟨fun h => hkm.symm.trans h, fun _ => hkm⟩
        · exact hk.sends x (List.mem_cons_of_mem _ hx)
      · injection ex with ex _
        subst ex
        exact hkm

/-- All tasks. -/
structure KeyPool (m : Bool) (log : List Entry) (p : Pool) : Prop where
  tasks : ∀ i o, p.tasks[i]? = some o → KeyInv m o (sendsOf i log)
  sends : ∀ i, ∀ s ∈ sendsOf i log, s.KeyedAs m
  only : ∀ o ∈ p.tasks, o.Only (UserOp.MasksAs m)
  config : p.world.st.sock.config.maskOutgoingMessages = m

theorem key_inv {m : Bool} {env : Env} (henv : env.MasksAs m) (p : Pool) (hq : ∀ t ∈ p.tasks, Outcome.quiet t) (ho : ∀ o ∈ p.tasks, o.Only (UserOp.MasksAs m))
    (hc : p.world.st.sock.config.maskOutgoingMessages = m) (log : List Entry) (p' : Pool) (h : Pool.Logged env p log p') : KeyPool m log p' := by
  induction h with
  | refl => exact ⟨fun i o _ => ⟨fun s hs => (by cases hs), fun _ _ s r e => (by cases e)⟩, fun i s hs => (by cases hs), ho, hc⟩
  | @tail log ts w i t o w' bs hlog ht he hb hw ih =>
    have hI := (pool_inv env p hq log _ hlog).tasks i _ ht
    have hk := key_step m env i t _ hI (ih.tasks i _ ht) w o w' ih.config he hb bs hw
    obtain ⟨o1, o2⟩ := only_step (O := UserOp.MasksAs m) (C := fun c => c.maskOutgoingMessages = m) henv (fun _ h => h) (ih.only _ (List.mem_of_getElem? ht) t rfl) ih.config he
    refine ⟨fun j oj hj => ?_, fun j => ?_, fun q hq => ?_, o2⟩
    · rw [sendsOf_snoc]
      by_cases hji : i = j
      · subst hji
        rw [if_pos rfl]
        have hlt : i < ts.length := by
          rw [List.getElem?_eq_some_iff] at ht; exact ht.1
        rw [List.getElem?_set_self hlt] at hj
        injection hj with hj
        rw [← hj]; exact hk
      · rw [if_neg hji]
        rw [List.getElem?_set_ne hji] at hj
        exact ih.tasks j oj hj
    · rw [sendsOf_snoc]
      by_cases hji : i = j
      · subst hji
        rw [if_pos rfl]; exact hk.sends
      · rw [if_neg hji]; exact ih.sends j
    · rcases List.mem_or_eq_of_mem_set hq with hq | rfl
      · exact ih.only q hq
      · exact o1

theorem TaskOf.only {O : UserOp → Prop} {env : Env} {t : Task} (h : TaskOf O env t) : (Outcome.run t).Only O := by
  intro t' ht
  injection ht with ht
  subst ht
  cases h with
  | listen h => intro c hc; rw [show c = .listen from List.mem_singleton.mp hc]; trivial
  | user ops hops => intro x hx; rw [show x = _ from List.mem_singleton.mp hx]; exact hops

theorem TaskOf.quiet {O : UserOp → Prop} {env : Env} {t : Task} (h : TaskOf O env t) : (Outcome.run t).quiet := by
  cases h with
  | listen h => intro c hc; rw [show c = .listen from List.mem_singleton.mp hc]; exact quietCo_listen
  | user ops hops => intro x hx; rw [show x = _ from List.mem_singleton.mp hx]; exact quietCo_user _

end OatWS.Async
