import Verif.Spec.Exec
import Verif.Proofs.AsyncBase
/-! Executions of tasks in pools. -/

namespace OatWS.Async

theorem Pool.Steps.trans {env : Env} {p q r : Pool} (h : Pool.Steps env p q) (h' : Pool.Steps env q r) : Pool.Steps env p r := by
  induction h' with
  | refl => exact h
  | tail _ s ih => exact .tail ih s

theorem Pool.exec_steps {env : Env} {is : List Nat} {p q : Pool} (h : Pool.exec env is p = some q) : Pool.Steps env p q := by
  induction is generalizing p with
  | nil => injection h with h; rw [h]; exact .refl
  | cons i is ih =>
    unfold Pool.exec at h
    split at h
    · rename_i t ht
      split at h
      · cases h
      · rename_i o w hne hs
        have hb : o ≠ .blocked := by rintro rfl; exact hne rfl
        exact .trans (.tail .refl (.mk ht hs hb)) (ih h)
    · cases h

theorem Exec.trans {env R G} {p q r : Outcome × World} (h : Exec env R G p q) (h' : Exec env R G q r) : Exec env R G p r := by
  induction h' with
  | refl => exact h
  | own _ g s ih => exact .own ih g s
  | other _ hr ih => exact .other ih hr

theorem Exec.mono {env R R' G G'} {p q : Outcome × World} (h : Exec env R G p q) (hR : ∀ w w', R w w' → R' w w')
    (hG : ∀ t, G t → G' t) : Exec env R' G' p q := by
  induction h with
  | refl => exact .refl
  | own _ g s ih => exact .own ih (hG _ g) s
  | other _ hr ih => exact .other ih (hR _ _ hr)

theorem OthersDo.refl (w : World) : OthersDo w w := ⟨rfl, rfl, rfl, rfl, rfl, rfl⟩
theorem OthersDo.trans {a b c : World} (h : OthersDo a b) (h' : OthersDo b c) : OthersDo a c :=
  ⟨h'.heap.trans h.heap, h'.nextBuf.trans h.nextBuf, h'.calls.trans h.calls, h'.inp.trans h.inp, h'.trace.trans h.trace,
    h'.lastOpcode.trans h.lastOpcode⟩

theorem writeStep_others (left : List UInt8) (l : Local) (w : World) (again : List UInt8 → Co) (cont : Act) :
    OthersDo w (writeStep left l w again cont).2.2 ∧ (writeStep left l w again cont).2.1 = l := by
  unfold writeStep
  rcases writeInline left w.st.sock.out with ⟨(_ | _ | _ | _), o⟩ <;> exact ⟨⟨rfl, rfl, rfl, rfl, rfl, rfl⟩, rfl⟩

theorem writeStep_act (left : List UInt8) (l : Local) (w : World) (again : List UInt8 → Co) (cont : Act) :
    (∃ g, (writeStep left l w again cont).1 = .goto (again g)) ∨ (writeStep left l w again cont).1 = cont ∨
    (writeStep left l w again cont).1 = .error .io ∨ (writeStep left l w again cont).1 = .blocked := by
  unfold writeStep
  rcases writeInline left w.st.sock.out with ⟨(g | _ | _ | _), o⟩
  · exact .inl ⟨g, rfl⟩
  · exact .inr (.inl rfl)
  · exact .inr (.inr (.inl rfl))
  · exact .inr (.inr (.inr rfl))

/-- A coroutine that does not listen, whose user code satisfies `K`. -/
def Co.ok (K : UserCo → Prop) : Co → Prop
  | .user u => K u
  | .sendFrame _ => True
  | .writeFrame _ => True
  | _ => False

/-- `K` is kept by user code as it goes on. -/
def Lasting (K : UserCo → Prop) : Prop := ∀ u op ops b, u.ops = op :: ops → K u → K { u with ops := ops, catching := b }

/-- `K` does not speak of `catching`. -/
def NoCare (K : UserCo → Prop) : Prop := ∀ u b, K u → K { u with catching := b }

theorem Co.ok_true (c : Co) : c.ok (fun _ => True) ↔ c.sends := by cases c <;> exact Iff.rfl

theorem Co.ok.sends {K} {c : Co} (h : c.ok K) : c.sends := by cases c <;> first | trivial | exact h.elim

theorem Co.ok.mono {K K' : UserCo → Prop} {c : Co} (h : c.ok K) (hk : ∀ u, K u → K' u) : c.ok K' := by
  cases c <;> first | trivial | exact h.elim | exact hk _ h

theorem sendFrameHeaderAsync_others (env : Env) (h : Header) (fin op n) (w : World) (K) :
    OthersDo w (sendFrameHeaderAsync env h fin op n w).2.2 ∧ (sendFrameHeaderAsync env h fin op n w).2.1.ok K := by
  unfold sendFrameHeaderAsync
  simp only []
  split <;> exact ⟨⟨rfl, rfl, rfl, rfl, rfl, rfl⟩, trivial⟩

/-- What a coroutine that does not listen returns: again such coroutines. -/
def Act.ok (K : UserCo → Prop) : Act → Prop
  | .goto c => c.ok K
  | .call cs c => (∀ d ∈ cs, d.ok K) ∧ c.ok K
  | .error e => e = .io ∨ e = .thrown .user
  | _ => True

/-- A step of a coroutine that does not listen. -/
theorem coStep_ok (env : Env) {K} (hK : Lasting K) (c : Co) (hc : c.ok K) (l : Local) (w : World) :
    OthersDo w (coStep env c l w).2.2 ∧ (coStep env c l w).2.1 = l ∧ (coStep env c l w).1.ok K := by
  have hw : ∀ left again cont, (∀ g, (again g : Co).ok K) → cont.ok K →
      OthersDo w (writeStep left l w again cont).2.2 ∧ (writeStep left l w again cont).2.1 = l ∧
      (writeStep left l w again cont).1.ok K := by
    intro left again cont ha hcont
    refine ⟨(writeStep_others ..).1, (writeStep_others ..).2, ?_⟩
    rcases writeStep_act left l w again cont with ⟨g, e⟩ | e | e | e <;> rw [e]
    · exact ha g
    · exact hcont
    · exact .inl rfl
    · trivial
  have hr : OthersDo w w := OthersDo.refl w
  cases c with
  | listen => exact hc.elim
  | readFrame c => exact hc.elim
  | handleFrame c => exact hc.elim
  | readPayload c => exact hc.elim
  | user c =>
    simp only [coStep, userStep]
    split
    · exact ⟨hr, rfl, trivial⟩
    · exact ⟨hr, rfl, hK _ _ _ _ ‹_› hc⟩
    · exact ⟨⟨rfl, rfl, rfl, rfl, rfl, rfl⟩, rfl, hK _ _ _ _ ‹_› hc⟩
    · exact ⟨⟨rfl, rfl, rfl, rfl, rfl, rfl⟩, rfl, hK _ _ _ _ ‹_› hc⟩
    · refine ⟨hr, rfl, ?_, hK _ _ _ _ ‹_› hc⟩
      intro d hd
      rw [List.mem_singleton] at hd
      subst hd
      rename_i call _ _ _
      cases call <;> trivial
    · exact ⟨hr, rfl, .inr rfl⟩
  | sendFrame c =>
    simp only [coStep, sendFrameStep]
    split
    · split
      · rename_i b bs _
        have := sendFrameHeaderAsync_others env c.hdr c.fin c.opcode (b :: bs).length w K
        revert this
        rcases sendFrameHeaderAsync env c.hdr c.fin c.opcode (b :: bs).length w with ⟨h, co, w'⟩
        intro this
        exact ⟨this.1, rfl, by intro d hd; rw [List.mem_singleton] at hd; subst hd; exact this.2, trivial⟩
      · have := sendFrameHeaderAsync_others env c.hdr c.fin c.opcode 0 w K
        revert this
        rcases sendFrameHeaderAsync env c.hdr c.fin c.opcode 0 w with ⟨h, co, w'⟩
        intro this
        exact ⟨this.1, rfl, by intro d hd; rw [List.mem_singleton] at hd; subst hd; exact this.2, trivial⟩
    · split
      · split
        · exact ⟨hr, rfl, trivial⟩
        · exact ⟨hr, rfl, trivial⟩
      · exact ⟨hr, rfl, trivial⟩
    · exact hw _ _ _ (fun _ => trivial) trivial
    · exact ⟨hr, rfl, trivial⟩
  | writeFrame c =>
    simp only [coStep, writeFrameStep]
    split
    · exact hw _ _ _ (fun _ => trivial) trivial
    · split
      · exact ⟨hr, rfl, trivial⟩
      · split <;> exact ⟨hr, rfl, trivial⟩
    · exact hw _ _ _ (fun _ => trivial) trivial
    · split <;> exact ⟨hr, rfl, trivial⟩
    · exact hw _ _ _ (fun _ => trivial) trivial

/-- A step of a coroutine that does not listen, and the settings. -/
theorem coStep_settings (env : Env) (S : Settings) (c : Co) (hc : c.ok fun u => ∀ op ∈ u.ops, S.Op op) (l : Local) (w : World)
    (hw : S.In w) : S.In (coStep env c l w).2.2 := by
  have hwr : ∀ left again cont, S.In (writeStep left l w again cont).2.2 := by
    intro left again cont
    unfold writeStep
    rcases writeInline left w.st.sock.out with ⟨(_ | _ | _ | _), o⟩ <;> exact hw
  have hsf : ∀ h fin op n, S.In (sendFrameHeaderAsync env h fin op n w).2.2 := by
    intro h fin op n
    unfold sendFrameHeaderAsync
    simp only []
    split <;> exact hw
  cases c with
  | listen => exact hc.elim
  | readFrame c => exact hc.elim
  | handleFrame c => exact hc.elim
  | readPayload c => exact hc.elim
  | user c =>
    have hc : ∀ op ∈ c.ops, S.Op op := hc
    simp only [coStep, userStep]
    split
    · exact hw
    · exact hw
    · rename_i l' ops h; exact ⟨hc (.setListener l') (by rw [h]; simp), hw.2⟩
    · rename_i cfg ops h; exact ⟨hw.1, hc (.setConfig cfg) (by rw [h]; simp)⟩
    · exact hw
    · exact hw
  | sendFrame c =>
    simp only [coStep, sendFrameStep]
    split
    · split
      · rename_i b bs _
        have := hsf c.hdr c.fin c.opcode (b :: bs).length
        revert this
        rcases sendFrameHeaderAsync env c.hdr c.fin c.opcode (b :: bs).length w with ⟨h, co, w'⟩
        exact id
      · have := hsf c.hdr c.fin c.opcode 0
        revert this
        rcases sendFrameHeaderAsync env c.hdr c.fin c.opcode 0 w with ⟨h, co, w'⟩
        exact id
    · split
      · split <;> exact hw
      · exact hw
    · exact hwr _ _ _
    · exact hw
  | writeFrame c =>
    simp only [coStep, writeFrameStep]
    split
    · exact hwr _ _ _
    · split
      · exact hw
      · split <;> exact hw
    · exact hwr _ _ _
    · split <;> exact hw
    · exact hwr _ _ _

theorem destroy_sends {c : Co} (hc : c.sends) (w : World) : destroy c w = w := by
  cases c <;> first | rfl | exact hc.elim

/-- An error among coroutines that do not listen: caught there, or going on below. -/
theorem unwind_ok {K} (hN : NoCare K) (e : AErr) (ss base : List Co) (h : ∀ c ∈ ss, c.ok K) (l : Local) (w : World) :
    (∃ ss', (∀ c ∈ ss', c.ok K) ∧ ss' ≠ [] ∧ unwind e (ss ++ base) l w = (.run ⟨ss' ++ base, l⟩, w)) ∨
    unwind e (ss ++ base) l w = unwind e base l w := by
  induction ss with
  | nil => exact .inr rfl
  | cons c ss ih =>
    have hr : ∀ c ∈ ss, c.ok K := fun d hd => h d (by simp [hd])
    have hc := h c (by simp)
    cases c with
    | user u =>
      by_cases hu : u.catching
      · left
        refine ⟨.user { u with catching := false } :: ss, ?_, by simp, ?_⟩
        · intro d hd
          rcases List.mem_cons.mp hd with rfl | hd
          · exact hN u false hc
          · exact hr d hd
        · rw [List.cons_append, unwind, if_pos hu]; rfl
      · rw [List.cons_append, unwind, if_neg hu]; exact ih hr
    | sendFrame c => rw [List.cons_append, unwind]; exact ih hr; nofun
    | writeFrame c => rw [List.cons_append, unwind]; exact ih hr; nofun
    | _ => exact hc.elim

/-- No user code. -/
def NoUser (base : List Co) : Prop := ∀ u, Co.user u ∉ base

theorem unwind_noUser (e : AErr) (base : List Co) (h : NoUser base) (l : Local) (w : World) :
    unwind e base l w = (.failed e, base.foldl (fun w c => destroy c w) w) := by
  induction base generalizing w with
  | nil => rfl
  | cons c base ih =>
    have hr : NoUser base := fun u hu => h u (by simp [hu])
    cases c with
    | user u => exact absurd (by simp) (h u)
    | _ => rw [unwind]; exact ih hr _; nofun

/-- A step of a task whose top coroutine does not listen: below the coroutines that do not listen nothing changes, unless there
is an error. -/
theorem step_above (env : Env) {K} (hK : Lasting K) (hN : NoCare K) (s : Co) (ss base : List Co) (hs : ∀ c ∈ s :: ss, c.ok K) (l : Local)
    (w : World) (hb : base ≠ []) :
    (∃ ss' w', (∀ c ∈ ss', c.ok K) ∧ OthersDo w w' ∧ step env ⟨s :: ss ++ base, l⟩ w = (.run ⟨ss' ++ base, l⟩, w')) ∨
    (∃ e w', OthersDo w w' ∧ (e = .io ∨ e = .thrown .user) ∧ step env ⟨s :: ss ++ base, l⟩ w = unwind e base l w') ∨
    (∃ w', OthersDo w w' ∧ step env ⟨s :: ss ++ base, l⟩ w = (.blocked, w')) ∨
    (∃ u w', OthersDo w w' ∧ step env ⟨s :: ss ++ base, l⟩ w = (.ub u, w')) := by
  have hr : ∀ c ∈ ss, c.ok K := fun d hd => hs d (by simp [hd])
  have h0 := hs s (by simp)
  rw [List.cons_append, step_cons]
  have hc := coStep_ok env hK s h0 l w
  revert hc
  rcases coStep env s l w with ⟨a, l', w'⟩
  rintro ⟨h1, h2, h3⟩
  replace h2 : l' = l := h2
  subst h2
  cases a with
  | goto c' =>
    left
    refine ⟨c' :: ss, w', ?_, h1, rfl⟩
    intro d hd
    rcases List.mem_cons.mp hd with rfl | hd
    · exact h3
    · exact hr d hd
  | call cs c' =>
    left
    refine ⟨cs ++ c' :: ss, w', ?_, h1, by simp [after]⟩
    intro d hd
    rcases List.mem_append.mp hd with hd | hd
    · exact h3.1 d hd
    · rcases List.mem_cons.mp hd with rfl | hd
      · exact h3.2
      · exact hr d hd
  | finish =>
    left
    refine ⟨ss, w', hr, h1, ?_⟩
    simp only [after]
    rw [destroy_sends h0.sends]
    cases hx : ss ++ base with
    | nil => exact absurd (List.append_eq_nil_iff.mp hx).2 hb
    | cons => rfl
  | error e =>
    simp only [after]
    rw [destroy_sends h0.sends]
    rcases unwind_ok hN e ss base hr l' w' with ⟨ss', h4, -, h5⟩ | h5
    · exact .inl ⟨ss', w', h4, h1, h5⟩
    · exact .inr (.inl ⟨e, w', h1, h3, h5⟩)
  | blocked => exact .inr (.inr (.inl ⟨w', h1, rfl⟩))
  | ub u => exact .inr (.inr (.inr ⟨u, w', h1, rfl⟩))

theorem unwind_st (e : AErr) (ss : List Co) (l : Local) (w : World) : (unwind e ss l w).2.st = w.st := by
  induction ss generalizing w with
  | nil => rfl
  | cons c ss ih =>
    cases c with
    | user u =>
      by_cases hu : u.catching
      · rw [unwind, if_pos hu]
      · rw [unwind, if_neg hu]; exact ih _
    | _ => rw [unwind, ih, destroy_st]; nofun

/-- The settings after such a step. -/
theorem step_settings (env : Env) (S : Settings) (s : Co) (ss base : List Co)
    (hs : s.ok fun u => ∀ op ∈ u.ops, S.Op op) (l : Local)
    (w : World) (hw : S.In w) :
    S.In (step env ⟨s :: ss ++ base, l⟩ w).2 := by
  rw [List.cons_append, step_cons]
  have hc := coStep_settings env S s hs l w hw
  revert hc
  rcases coStep env s l w with ⟨a, l', w'⟩
  intro hc
  cases a with
  | error e => simp only [after]; rw [destroy_sends hs.sends]; unfold Settings.In; rw [unwind_st]; exact hc
  | finish =>
    simp only [after]
    rw [destroy_sends hs.sends]
    split <;> exact hc
  | _ => exact hc

theorem lasting_true : Lasting (fun _ => True) := fun _ _ _ _ _ _ => trivial
theorem noCare_true : NoCare (fun _ => True) := fun _ _ _ => trivial

/-- What is left of a task. -/
def Outcome.ok (K : UserCo → Prop) : Outcome → Prop
  | .run t => ∀ c ∈ t.stack, c.ok K
  | _ => True

/-- A step of a task that does not listen. -/
theorem step_ok (env : Env) {K} (hK : Lasting K) (hN : NoCare K) (t : Task) (h : ∀ c ∈ t.stack, c.ok K) (w : World) :
    OthersDo w (step env t w).2 ∧ (step env t w).1.ok K := by
  rcases t with ⟨stack, l⟩
  cases stack with
  | nil => exact ⟨OthersDo.refl _, trivial⟩
  | cons c rest =>
    have hr : ∀ c ∈ rest, c.ok K := fun d hd => h d (by simp [hd])
    have h0 := h c (by simp)
    rw [step_cons]
    have hc := coStep_ok env hK c h0 l w
    revert hc
    rcases coStep env c l w with ⟨a, l', w'⟩
    rintro ⟨h1, h2, h3⟩
    cases a with
    | goto c' =>
      refine ⟨h1, ?_⟩
      intro d hd
      rcases List.mem_cons.mp hd with rfl | hd
      · exact h3
      · exact hr d hd
    | call cs c' =>
      refine ⟨h1, ?_⟩
      intro d hd
      rcases List.mem_append.mp hd with hd | hd
      · exact h3.1 d hd
      · rcases List.mem_cons.mp hd with rfl | hd
        · exact h3.2
        · exact hr d hd
    | finish =>
      simp only [after]
      cases rest with
      | nil => rw [destroy_sends h0.sends]; exact ⟨h1, trivial⟩
      | cons d rest => rw [destroy_sends h0.sends]; exact ⟨h1, hr⟩
    | error e =>
      simp only [after]
      rw [destroy_sends h0.sends]
      have := unwind_ok hN e rest [] hr l' w'
      rw [List.append_nil] at this
      rcases this with ⟨ss', h4, -, h5⟩ | h5
      · rw [h5]
        refine ⟨h1, ?_⟩
        intro d hd
        rw [List.append_nil] at hd
        exact h4 d hd
      · rw [h5]; exact ⟨h1, trivial⟩
    | blocked => exact ⟨h1, trivial⟩
    | ub u => exact ⟨h1, trivial⟩

/-- User code that installs only settings of `S`. -/
def Uses (S : Settings) (u : UserCo) : Prop := ∀ op ∈ u.ops, S.Op op

theorem uses_lasting (S : Settings) : Lasting (Uses S) := by
  intro u op ops b hu h op' hop'
  exact h op' (by rw [hu]; exact List.mem_cons_of_mem _ hop')

theorem uses_noCare (S : Settings) : NoCare (Uses S) := fun _ _ h => h

theorem Settings.task_iff (S : Settings) (o : Outcome) : S.Task o ↔ o.ok (Uses S) := by
  have hco : ∀ c : Co, (c.sends ∧ ∀ u, c = .user u → ∀ op ∈ u.ops, S.Op op) ↔ c.ok (Uses S) := by
    intro c
    constructor
    · rintro ⟨h1, h2⟩
      cases c with
      | user u => exact h2 u rfl
      | sendFrame => trivial
      | writeFrame => trivial
      | _ => exact h1.elim
    · intro h
      refine ⟨h.sends, ?_⟩
      rintro u rfl
      exact h
  cases o with
  | run t => exact ⟨fun h c hc => (hco c).mp (h c hc), fun h c hc => (hco c).mpr (h c hc)⟩
  | _ => exact Iff.rfl

/-- In a pool whose other tasks do not listen, the first task is executed with only such things happening in between. -/
theorem pool_exec {env : Env} {S : Settings} {o0 : Outcome} {ts : List Outcome} {w0 : World} {p : Pool} (hts : ∀ o ∈ ts, S.Task o)
    (h : Pool.Steps env ⟨o0 :: ts, w0⟩ p) :
    ∃ o ts', p.tasks = o :: ts' ∧ (∀ o ∈ ts', S.Task o) ∧ Exec env S.Others (fun _ => True) (o0, w0) (o, p.world) := by
  induction h with
  | refl => exact ⟨o0, ts, rfl, hts, .refl⟩
  | tail _ s ih =>
    obtain ⟨o, ts', e1, e2, e3⟩ := ih
    cases s with
    | @mk ts2 w i t o' w' hi hs hb =>
      simp only [] at e1 e3 ⊢
      subst e1
      cases i with
      | zero =>
        rw [List.getElem?_cons_zero] at hi
        injection hi with hi
        subst hi
        exact ⟨o', ts', rfl, e2, .own e3 trivial hs⟩
      | succ i =>
        rw [List.getElem?_cons_succ] at hi
        have hm := List.mem_of_getElem? hi
        have hok := (S.task_iff _).mp (e2 _ hm)
        have := step_ok env (uses_lasting S) (uses_noCare S) t hok w
        have hset : S.In w → S.In w' := by
          intro hw
          rcases t with ⟨stack, l⟩
          cases stack with
          | nil => have : (Outcome.finished, w) = (o', w') := hs; injection this with _ this; rw [← this]; exact hw
          | cons s ss =>
            have := step_settings env S s ss [] (hok s (by simp)) l w hw
            rw [List.append_nil, hs] at this
            exact this
        rw [hs] at this
        refine ⟨o, ts'.set i o', rfl, ?_, .other e3 ⟨this.1, hset⟩⟩
        intro d hd
        rcases List.mem_or_eq_of_mem_set hd with hd | rfl
        · exact e2 d hd
        · exact (S.task_iff _).mpr this.2

end OatWS.Async
