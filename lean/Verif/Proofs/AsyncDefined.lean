import Verif.Spec.Defined
import Verif.Proofs.AsyncCases
import Verif.Proofs.SendFrame
/-! Tasks that keep to the size of the read buffer never do anything undefined. -/

namespace OatWS.Async

/-- What holds of every coroutine object. -/
def Co.Fine (B : Int) : Co → Prop
  | .readPayload c => c.cap = B.toNat ∧ (c.pc = .readData → c.want ≤ B)
  | .user c => ∀ op ∈ c.ops, op.Careful B
  | .sendFrame c => (c.message.getD []).length < 2 ^ 31
  | _ => True

/-- Size of the read buffer. -/
def World.size (w : World) : Int := w.st.sock.config.readBufferSize

/-- What a coroutine function may return. -/
def Act.Fine (B : Int) : Act → Prop
  | .goto c => c.Fine B
  | .call cs c => (∀ x ∈ cs, x.Fine B) ∧ c.Fine B
  | .ub _ => False
  | _ => True

/-- Result of a coroutine function. -/
def Good (B : Int) (x : Act × Local × World) : Prop := x.1.Fine B ∧ x.2.2.size = B

variable {B : Int}

theorem Good.mk {a : Act} {l : Local} {w : World} (ha : a.Fine B) (hw : w.size = B) : Good B (a, l, w) := ⟨ha, hw⟩

theorem good_readStep {need got l w again} {cont : List UInt8 → World → Act × Local × World} (hw : w.size = B) (ha : ∀ g, (again g).Fine B)
    (hc : ∀ g w', w'.size = B → Good B (cont g w')) : Good B (readStep need got l w again cont) := by
  obtain ⟨i, ⟨g, e⟩ | ⟨g, e⟩ | e | e⟩ := readStep_cases need got l w again cont
  · rw [e]; exact ⟨ha g, hw⟩
  · rw [e]; exact hc g _ hw
  · rw [e]; exact ⟨trivial, hw⟩
  · rw [e]; exact ⟨trivial, hw⟩

theorem good_writeStep {left l w again cont} (hw : w.size = B) (ha : ∀ g, Co.Fine B (again g)) (hc : Act.Fine B cont) : Good B (writeStep left l w again cont) := by
  unfold writeStep
  rcases writeInline left w.st.sock.out with ⟨(g | g | _ | _), o⟩
  · exact ⟨ha g, hw⟩
  · exact ⟨hc, hw⟩
  · exact ⟨trivial, hw⟩
  · exact ⟨trivial, hw⟩

theorem good_readFrame (env : Env) (c : ReadFrameCo) (l : Local) (w : World) (hw : w.size = B) : Good B (readFrameStep env c l w) := by
  obtain ⟨i, l', a, e, h⟩ := readFrame_cases env c l w
  have e : readFrameStep env c l w = _ := e
  rw [e]
  refine ⟨?_, hw⟩
  rcases h with ⟨c', rfl⟩ | rfl | rfl | rfl <;> trivial

theorem good_writeFrame (env : Env) (c : WriteFrameCo) (l : Local) (w : World) (hw : w.size = B) : Good B (writeFrameStep env c l w) := by
  unfold writeFrameStep
  split
  · exact good_writeStep hw (fun _ => trivial) trivial
  · split
    · exact ⟨trivial, hw⟩
    · split <;> exact ⟨trivial, hw⟩
  · exact good_writeStep hw (fun _ => trivial) trivial
  · split <;> exact ⟨trivial, hw⟩
  · exact good_writeStep hw (fun _ => trivial) trivial

theorem fine_sendFrameHeaderAsync (env : Env) (h : Header) (fin : Bool) (op : UInt8) (n : Int) (w : World) :
    (sendFrameHeaderAsync env h fin op n w).2.1.Fine B ∧ (sendFrameHeaderAsync env h fin op n w).2.2.size = w.size := by
  unfold sendFrameHeaderAsync
  dsimp only
  split <;> exact ⟨trivial, rfl⟩

theorem good_sendFrame (env : Env) (c : SendFrameCo) (l : Local) (w : World) (hc : (c.message.getD []).length < 2 ^ 31) (hw : w.size = B) : Good B (sendFrameStep env c l w) := by
  unfold sendFrameStep
  split
  · split
    · rename_i b bs hm
      have := fine_sendFrameHeaderAsync (B := B) env c.hdr c.fin c.opcode (b :: bs).length w
      generalize sendFrameHeaderAsync env c.hdr c.fin c.opcode (b :: bs).length w = x at this
      obtain ⟨h, co, w'⟩ := x
      refine ⟨⟨fun x hx => ?_, hc⟩, this.2.trans hw⟩
      rw [List.mem_singleton] at hx
      exact hx ▸ this.1
    · have := fine_sendFrameHeaderAsync (B := B) env c.hdr c.fin c.opcode 0 w
      generalize sendFrameHeaderAsync env c.hdr c.fin c.opcode 0 w = x at this
      obtain ⟨h, co, w'⟩ := x
      refine ⟨⟨fun x hx => ?_, hc⟩, this.2.trans hw⟩
      rw [List.mem_singleton] at hx
      exact hx ▸ this.1
  · dsimp only
    split
    · rw [if_neg (Nat.not_le.mpr hc)]
      exact ⟨hc, hw⟩
    · exact ⟨hc, hw⟩
  · exact good_writeStep hw (fun _ => hc) trivial
  · exact ⟨trivial, hw⟩

theorem fine_sendAsync (env : Env) (c : SendCall) (hs : c.content.2.2.length < 2 ^ 31) : (sendAsync env c).Fine B := by
  cases c with
  | close code message =>
    show (store16 env.host (hton16 env.host code) ++ message.getD []).length < 2 ^ 31
    rw [close_payload]
    exact hs
  | _ => exact hs

theorem good_user (env : Env) (c : UserCo) (l : Local) (w : World) (hc : ∀ op ∈ c.ops, op.Careful B) (hw : w.size = B) : Good B (userStep env c l w) := by
  unfold userStep
  have ht : ∀ op ops, c.ops = op :: ops → ∀ o ∈ ops, o.Careful B := fun op ops e o ho => hc o (by rw [e]; exact List.mem_cons_of_mem _ ho)
  have hh : ∀ op ops, c.ops = op :: ops → op.Careful B := fun op ops e => hc op (by rw [e]; exact List.mem_cons_self ..)
  split
  · exact ⟨trivial, hw⟩
  · rename_i e; exact ⟨ht _ _ e, hw⟩
  · rename_i e; exact ⟨ht _ _ e, hw⟩
  · rename_i e; exact ⟨ht _ _ e, hh _ _ e⟩
  · rename_i e
    refine ⟨⟨fun x hx => ?_, ht _ _ e⟩, hw⟩
    rw [List.mem_singleton] at hx
    exact hx ▸ fine_sendAsync env _ (hh _ _ e)
  · exact ⟨trivial, hw⟩

theorem good_callback (env : Env) (hc : env.Careful B) (ev : Event) (ptr : Option Nat) (data : List UInt8) (w : World) (hw : w.size = B) (c : Co) (hf : c.Fine B) (l : Local) :
    Good B (.call [(callback env ev ptr data w).1] c, l, (callback env ev ptr data w).2) := by
  refine ⟨⟨fun x hx => ?_, hf⟩, hw⟩
  rw [List.mem_singleton] at hx
  subst hx
  exact hc _

theorem good_readPayload (env : Env) (he : env.Careful B) (c : ReadPayloadCo) (l : Local) (w : World) (hc : (Co.readPayload c).Fine B) (hw : w.size = B) : Good B (readPayloadStep env c l w) := by
  obtain ⟨h1, h2⟩ := hc
  have ha : ∀ p g, (Co.readPayload { c with pc := .act, progress := p, got := g }).Fine B := fun p g => ⟨h1, fun h => (by cases h)⟩
  unfold readPayloadStep
  split
  · split
    · refine ⟨⟨h1, fun _ => ?_⟩, hw⟩
      dsimp only
      have hw : w.st.sock.config.readBufferSize = B := hw
      rw [hw]
      split <;> omega
    · split
      · split
        · exact good_callback env he _ _ _ _ hw (.readPayload { c with pc := .done }) ⟨h1, fun h => (by cases h)⟩ _
        · exact ⟨trivial, hw⟩
      · exact ⟨trivial, hw⟩
  · rename_i hpc
    split
    · exact ⟨⟨h1, fun h => (by cases h)⟩, hw⟩
    · split
      · exact ⟨trivial, hw⟩
      · rename_i o sched _
        have hl : ∀ bs bytes, lowRead o w.st.inp.bytes c.want.toNat = (.data bs, bytes) → bs.length ≤ c.want.toNat := by
          intro bs bytes hb
          revert hb
          unfold lowRead
          cases o with
          | upTo m =>
            dsimp only
            split
            · exact fun hb => (by cases hb)
            · intro hb
              injection hb with hb _
              injection hb with hb
              subst hb
              rw [List.length_take]
              omega
          | _ => exact fun hb => (by cases hb)
        split
        · rename_i bs bytes hr
          have := hl bs bytes hr
          have := h2 hpc
          rw [if_neg (by omega)]
          exact ⟨⟨h1, fun h => (by cases h)⟩, hw⟩
        · exact ⟨⟨h1, h2⟩, hw⟩
        · exact ⟨⟨h1, fun h => (by cases h)⟩, hw⟩
        · exact ⟨trivial, hw⟩
  · split
    · dsimp only
      split
      · split
        · exact ⟨ha _ _, hw⟩
        · split
          · refine ⟨⟨fun x hx => ?_, ha _ _⟩, hw⟩
            rw [List.mem_singleton] at hx
            subst hx
            exact he _
          · exact ⟨ha _ _, hw⟩
      · split
        · exact ⟨ha _ _, hw⟩
        · split
          · exact good_callback env he _ _ _ _ hw _ (ha _ _) _
          · exact ⟨ha _ _, hw⟩
    · exact ⟨trivial, hw⟩
  · exact ⟨trivial, hw⟩

theorem good_startPayload (c : HandleFrameCo) (short : Bool) (pc : HandleFramePc) (l : Local) (w : World) (hw : w.size = B) : Good B (startPayload c short pc l w) := by
  unfold startPayload
  split
  · rename_i co w' h
    unfold readPayloadAsync at h
    split at h
    · cases h
    · split at h
      · cases h
      · injection h with h
        injection h with h h'
        subst h h'
        refine ⟨⟨fun x hx => ?_, trivial⟩, hw⟩
        rw [List.mem_singleton] at hx
        subst hx
        refine ⟨?_, fun h => (by cases h)⟩
        show w.size.toNat = _
        rw [hw]
  · exact ⟨trivial, hw⟩

theorem good_startData (c : HandleFrameCo) (l : Local) (w : World) (hw : w.size = B) : Good B (startData c l w) := by
  have hs : (checkForContinuationA l.hdr w.st.sock).2.config = w.st.sock.config := by
    unfold checkForContinuationA
    split
    · rfl
    · split <;> rfl
  unfold startData
  generalize checkForContinuationA l.hdr w.st.sock = x at hs
  obtain ⟨b, s⟩ := x
  have hs : s.config = w.st.sock.config := hs
  have hw' : (w.setSock s).size = B := by
    show s.config.readBufferSize = B
    rw [hs]; exact hw
  cases b with
  | true => exact good_startPayload c false .done l _ hw'
  | false => exact ⟨trivial, hw'⟩

theorem good_control (env : Env) (he : env.Careful B) (c : HandleFrameCo) (mk : Nat → Event) (l : Local) (w : World) (hw : w.size = B) : Good B (controlCallback env c mk l w) := by
  unfold controlCallback
  split
  · exact good_callback env he _ _ _ _ hw (.handleFrame { c with pc := .done }) trivial _
  · exact ⟨trivial, hw⟩

theorem good_handleFrame (env : Env) (he : env.Careful B) (c : HandleFrameCo) (l : Local) (w : World) (hw : w.size = B) : Good B (handleFrameStep env c l w) := by
  unfold handleFrameStep
  split
  · split
    · split
      · exact ⟨trivial, hw⟩
      · exact good_startPayload _ _ _ _ _ hw
    · split
      · exact good_startData _ _ _ hw
      · split
        · exact good_startData _ _ _ hw
        · split
          · exact good_startPayload _ _ _ _ _ hw
          · split
            · exact good_startPayload _ _ _ _ _ hw
            · split
              · exact good_startPayload _ _ _ _ _ hw
              · exact ⟨trivial, hw⟩
  · exact good_control env he _ _ _ _ hw
  · exact good_control env he _ _ _ _ hw
  · exact good_control env he _ _ _ _ hw
  · exact ⟨trivial, hw⟩

theorem good_coStep (env : Env) (he : env.Careful B) (c : Co) (hc : c.Fine B) (l : Local) (w : World) (hw : w.size = B) : Good B (coStep env c l w) := by
  cases c with
  | listen =>
    show Good B (listenStep l w)
    unfold listenStep
    split
    · refine ⟨⟨fun x hx => ?_, trivial⟩, hw⟩
      simp only [List.mem_cons, List.not_mem_nil, or_false] at hx
      rcases hx with rfl | rfl <;> trivial
    · exact ⟨trivial, hw⟩
  | readFrame c => exact good_readFrame env c l w hw
  | handleFrame c => exact good_handleFrame env he c l w hw
  | readPayload c => exact good_readPayload env he c l w hc hw
  | user c => exact good_user env c l w hc hw
  | sendFrame c => exact good_sendFrame env c l w hc hw
  | writeFrame c => exact good_writeFrame env c l w hw

theorem destroy_size (c : Co) (w : World) : (destroy c w).size = w.size := by
  cases c <;> rfl

/-- All coroutine objects of the task. -/
def Outcome.Fine (B : Int) : Outcome → Prop
  | .run t => ∀ c ∈ t.stack, c.Fine B
  | .ub _ => False
  | _ => True

theorem fine_unwind (e : AErr) (cs : List Co) (hcs : ∀ c ∈ cs, c.Fine B) (l : Local) (w : World) (hw : w.size = B) :
    (unwind e cs l w).1.Fine B ∧ (unwind e cs l w).2.size = B := by
  induction cs generalizing w with
  | nil => exact ⟨trivial, hw⟩
  | cons c cs ih =>
    have ih := fun w hw => ih (fun x hx => hcs x (List.mem_cons_of_mem _ hx)) w hw
    have hc := hcs c (List.mem_cons_self ..)
    have htl : ∀ x ∈ cs, x.Fine B := fun x hx => hcs x (List.mem_cons_of_mem _ hx)
    cases c with
    | user c =>
      unfold unwind
      split
      · refine ⟨fun x hx => ?_, hw⟩
        rcases List.mem_cons.mp hx with rfl | hx
        · exact hc
        · exact htl x hx
      · exact ih w hw
    | _ => exact ih _ ((destroy_size _ _).trans hw)

theorem fine_step (env : Env) (he : env.Careful B) (t : Task) (ht : (Outcome.run t).Fine B) (w : World) (hw : w.size = B) :
    (step env t w).1.Fine B ∧ (step env t w).2.size = B := by
  obtain ⟨stack, loc⟩ := t
  cases stack with
  | nil => exact ⟨trivial, hw⟩
  | cons c rest =>
    have htl : ∀ x ∈ rest, x.Fine B := fun x hx => ht x (List.mem_cons_of_mem _ hx)
    have := good_coStep env he c (ht c (List.mem_cons_self ..)) loc w hw
    unfold step
    dsimp only
    generalize coStep env c loc w = x at this
    obtain ⟨a, l, w'⟩ := x
    obtain ⟨h1, h2⟩ := this
    cases a with
    | goto c' =>
      refine ⟨fun x hx => ?_, h2⟩
      rcases List.mem_cons.mp hx with rfl | hx
      · exact h1
      · exact htl x hx
    | call cs c' =>
      refine ⟨fun x hx => ?_, h2⟩
      rcases List.mem_append.mp hx with hx | hx
      · exact h1.1 x hx
      · rcases List.mem_cons.mp hx with rfl | hx
        · exact h1.2
        · exact htl x hx
    | finish =>
      cases rest with
      | nil => exact ⟨trivial, (destroy_size _ _).trans h2⟩
      | cons => exact ⟨htl, (destroy_size _ _).trans h2⟩
    | error e => exact fine_unwind e rest htl l _ ((destroy_size _ _).trans h2)
    | blocked => exact ⟨trivial, h2⟩
    | ub u => exact absurd h1 id

/-- All tasks. -/
structure FinePool (B : Int) (p : Pool) : Prop where
  tasks : ∀ o ∈ p.tasks, o.Fine B
  size : p.world.size = B

theorem FinePool.step {env : Env} (he : env.Careful B) {ts : List Outcome} {w w' : World} {i : Nat} {t : Task} {o : Outcome} (h : FinePool B ⟨ts, w⟩)
    (hi : ts[i]? = some (.run t)) (hs : Async.step env t w = (o, w')) : FinePool B ⟨ts.set i o, w'⟩ := by
  have := fine_step env he t (h.tasks _ (List.mem_of_getElem? hi)) w h.size
  rw [hs] at this
  refine ⟨fun q hq => ?_, this.2⟩
  rcases List.mem_or_eq_of_mem_set hq with hq | rfl
  · exact h.tasks q hq
  · exact this.1

theorem FinePool.steps {env : Env} (he : env.Careful B) {p p' : Pool} (h : FinePool B p) (hs : Pool.Steps env p p') : FinePool B p' := by
  induction hs with
  | refl => exact h
  | tail _ hs ih => cases hs with | mk hi he' _ => exact ih.step he hi he'

theorem FinePool.defined {p : Pool} (h : FinePool B p) (u : UB) : Outcome.ub u ∉ p.tasks := fun hu => h.tasks _ hu

theorem CarefulTask.fine {env : Env} {t : Task} (h : CarefulTask env B t) : (Outcome.run t).Fine B := by
  cases h with
  | listen h => intro c hc; rw [show c = .listen from List.mem_singleton.mp hc]; trivial
  | send c hs => intro x hx; rw [show x = _ from List.mem_singleton.mp hx]; exact fine_sendAsync env c hs
  | code ops hops => intro x hx; rw [show x = _ from List.mem_singleton.mp hx]; exact hops

end OatWS.Async
