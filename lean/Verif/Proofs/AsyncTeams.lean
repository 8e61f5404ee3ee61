import Verif.Proofs.AsyncRaces
import Verif.Proofs.Exec
/-! Which operations the coroutines of a pool can perform. -/

namespace OatWS.Async
open Threads (Loc)

/-- If it is user code, it consists of operations `O`. -/
def Co.opsIn (O : UserOp → Prop) : Co → Prop
  | .user u => ∀ op ∈ u.ops, O op
  | _ => True

/-- The same of all coroutines a step starts or goes on with. -/
def Act.opsIn (O : UserOp → Prop) : Act → Prop
  | .goto c => c.opsIn O
  | .call cs c => (∀ d ∈ cs, d.opsIn O) ∧ c.opsIn O
  | _ => True

/-- The same of a task. -/
def Outcome.opsIn (O : UserOp → Prop) : Outcome → Prop
  | .run t => ∀ c ∈ t.stack, c.opsIn O
  | _ => True

variable {O : UserOp → Prop}

theorem opsIn_one {d c : Co} (h : d.opsIn O) (h' : c.opsIn O) : (Act.call [d] c).opsIn O :=
  ⟨fun x hx => by rw [List.mem_singleton] at hx; subst hx; exact h, h'⟩

theorem opsIn_readStep (need got l) (w : World) (again : List UInt8 → Co) (cont : List UInt8 → World → Act × Local × World) (h1 : ∀ g, (again g).opsIn O)
    (h2 : ∀ g w, (cont g w).1.opsIn O) : (readStep need got l w again cont).1.opsIn O := by
  unfold readStep
  rcases readInline need got w.st.inp with ⟨(g | g | _ | _), i⟩
  · exact h1 g
  · exact h2 g _
  · trivial
  · trivial

theorem opsIn_writeStep (left l) (w : World) (again : List UInt8 → Co) (cont : Act) (h1 : ∀ g, (again g).opsIn O) (h2 : cont.opsIn O) :
    (writeStep left l w again cont).1.opsIn O := by
  rcases writeStep_act left l w again cont with ⟨g, e⟩ | e | e | e <;> rw [e]
  · exact h1 g
  · exact h2
  · trivial
  · trivial

theorem opsIn_coStep (env : Env) (he : ∀ tr, ∀ op ∈ env.react tr, O op) (c : Co) (l : Local) (w : World) (h : c.opsIn O) : (coStep env c l w).1.opsIn O := by
  cases c with
  | listen =>
    simp only [coStep, listenStep]
    split
    · refine ⟨fun d hd => ?_, trivial⟩
      simp only [List.mem_cons, List.not_mem_nil, or_false] at hd
      rcases hd with rfl | rfl <;> trivial
    · trivial
  | readFrame c =>
    simp only [coStep, readFrameStep]
    split
    · exact opsIn_readStep _ _ _ _ _ _ (fun _ => trivial) (fun _ _ => trivial)
    · split
      · split
        · trivial
        · split <;> trivial
      · trivial
    · exact opsIn_readStep _ _ _ _ _ _ (fun _ => trivial) (fun _ _ => trivial)
    · split <;> trivial
    · refine opsIn_readStep _ _ _ _ _ _ (fun _ => trivial) (fun _ _ => ?_)
      split <;> trivial
  | handleFrame c =>
    have hs : ∀ short pc l w', (startPayload c short pc l w').1.opsIn O := by
      intro short pc l w'
      unfold startPayload readPayloadAsync
      split
      · rename_i co w1 h
        split at h
        · cases h
        · split at h
          · cases h
          · injection h with h; injection h with h h'; subst h h'; exact opsIn_one trivial trivial
      · trivial
    have hd : ∀ l, (startData c l w).1.opsIn O := by
      intro l
      unfold startData
      split
      · exact hs _ _ _ _
      · trivial
    have hc : ∀ (mk : Nat → Event) l, (controlCallback env c mk l w).1.opsIn O := by
      intro mk l
      unfold controlCallback
      split
      · exact opsIn_one (he _) trivial
      · trivial
    simp only [coStep, handleFrameStep]
    split
    · split
      · split
        · trivial
        · exact hs _ _ _ _
      · split
        · exact hd _
        · split
          · exact hd _
          · split
            · exact hs _ _ _ _
            · split
              · exact hs _ _ _ _
              · split
                · exact hs _ _ _ _
                · trivial
    · exact hc _ _
    · exact hc _ _
    · exact hc _ _
    · trivial
  | readPayload c =>
    have hcb : ∀ ev ptr d w1, (callback env ev ptr d w1).1.opsIn O := fun _ _ _ _ => he _
    simp only [coStep, readPayloadStep]
    split
    · split
      · trivial
      · split
        · split
          · exact opsIn_one (hcb _ _ _ _) trivial
          · trivial
        · trivial
    · split
      · trivial
      · split
        · trivial
        · split
          · split <;> trivial
          · trivial
          · trivial
          · trivial
    · split
      · split
        · split
          · trivial
          · split
            · exact opsIn_one (hcb _ _ _ _) trivial
            · trivial
        · split
          · trivial
          · split
            · exact opsIn_one (hcb _ _ _ _) trivial
            · trivial
      · trivial
    · trivial
  | user c =>
    have h : ∀ op ∈ c.ops, O op := h
    have hr : ∀ {op ops}, c.ops = op :: ops → ∀ o ∈ ops, O o := fun e o ho => h o (by rw [e]; exact List.mem_cons_of_mem _ ho)
    simp only [coStep, userStep]
    split
    · trivial
    · rename_i e; exact hr e
    · rename_i e; exact hr e
    · rename_i e; exact hr e
    · rename_i call _ _ e
      refine opsIn_one ?_ (hr e)
      cases call <;> trivial
    · trivial
  | sendFrame c =>
    have hh : ∀ h fin op n w, (sendFrameHeaderAsync env h fin op n w).2.1.opsIn O := by
      intro h fin op n w
      unfold sendFrameHeaderAsync
      dsimp only
      split <;> trivial
    simp only [coStep, sendFrameStep]
    split
    · split <;> exact opsIn_one (hh _ _ _ _ _) trivial
    · split
      · split <;> trivial
      · trivial
    · exact opsIn_writeStep _ _ _ _ _ (fun _ => trivial) trivial
    · trivial
  | writeFrame c =>
    simp only [coStep, writeFrameStep]
    split
    · exact opsIn_writeStep _ _ _ _ _ (fun _ => trivial) trivial
    · split
      · trivial
      · split <;> trivial
    · exact opsIn_writeStep _ _ _ _ _ (fun _ => trivial) trivial
    · split <;> trivial
    · exact opsIn_writeStep _ _ _ _ _ (fun _ => trivial) trivial

theorem opsIn_unwind (e : AErr) (rest : List Co) (l : Local) (w : World) (h : ∀ c ∈ rest, c.opsIn O) : (unwind e rest l w).1.opsIn O := by
  induction rest generalizing w with
  | nil => trivial
  | cons c rest ih =>
    have hr : ∀ c ∈ rest, c.opsIn O := fun d hd => h d (List.mem_cons_of_mem _ hd)
    cases c with
    | user c =>
      simp only [unwind]
      split
      · intro d hd
        rcases List.mem_cons.mp hd with rfl | hd
        · exact h (.user c) (.head _)
        · exact hr d hd
      · exact ih w hr
    | _ => simp only [unwind]; exact ih _ hr

theorem opsIn_step (env : Env) (he : ∀ tr, ∀ op ∈ env.react tr, O op) (t : Task) (w : World) (h : ∀ c ∈ t.stack, c.opsIn O) : (step env t w).1.opsIn O := by
  unfold step
  split
  · trivial
  · rename_i c rest hs
    rw [hs] at h
    have hr : ∀ c ∈ rest, c.opsIn O := fun d hd => h d (List.mem_cons_of_mem _ hd)
    have hk := opsIn_coStep env he c t.loc w (h c (.head _))
    revert hk
    rcases coStep env c t.loc w with ⟨a, l, w1⟩
    intro hk
    cases a with
    | goto c' =>
      intro d hd
      rcases List.mem_cons.mp hd with rfl | hd
      · exact hk
      · exact hr d hd
    | call cs c' =>
      intro d hd
      rcases List.mem_append.mp hd with hd | hd
      · exact hk.1 d hd
      · rcases List.mem_cons.mp hd with rfl | hd
        · exact hk.2
        · exact hr d hd
    | finish =>
      dsimp only
      split
      · trivial
      · exact hr
    | error e => exact opsIn_unwind e rest l _ hr
    | blocked => trivial
    | ub u => trivial

/-! ## What can be accessed -/

/-- What the next step of a task changes, if it is not the listening one. -/
theorem touch_ok {K : UserCo → Prop} {t : Task} (h : ∀ c ∈ t.stack, c.ok K) {x : Loc} {b : Bool} (ht : (x, b) ∈ t.touches) :
    (x = .listener ∧ b = true ∧ ∃ u l ops, K u ∧ u.ops = .setListener l :: ops) ∨ (x = .config ∧ b = true ∧ ∃ u c ops, K u ∧ u.ops = .setConfig c :: ops) ∨
    (x = .config ∧ b = false) ∨ (x = .output ∧ b = true) := by
  unfold Task.touches at ht
  split at ht
  · cases ht
  · rename_i c rest hs
    rw [hs] at h
    have hc := h c (.head _)
    cases c with
    | user u =>
      simp only [Co.touches] at ht
      split at ht
      · rename_i l ops e
        rw [List.mem_singleton] at ht
        injection ht with h1 h2
        exact .inl ⟨h1, h2, u, l, ops, hc, e⟩
      · rename_i l ops e
        rw [List.mem_singleton] at ht
        injection ht with h1 h2
        exact .inr (.inl ⟨h1, h2, u, l, ops, hc, e⟩)
      · cases ht
    | sendFrame c =>
      simp only [Co.touches] at ht
      split at ht
      · rw [List.mem_singleton] at ht
        injection ht with h1 h2
        exact .inr (.inr (.inl ⟨h1, h2⟩))
      · rw [List.mem_singleton] at ht
        injection ht with h1 h2
        exact .inr (.inr (.inr ⟨h1, h2⟩))
      · cases ht
    | writeFrame c =>
      simp only [Co.touches] at ht
      split at ht
      all_goals first | (cases ht; done) | (rw [List.mem_singleton] at ht; injection ht with h1 h2; exact .inr (.inr (.inr ⟨h1, h2⟩)))
    | _ => exact hc.elim

/-- What the next step of any task changes. -/
theorem touch_opsIn {t : Task} (h : ∀ c ∈ t.stack, c.opsIn O) {x : Loc} {b : Bool} (ht : (x, b) ∈ t.touches) :
    x ≠ .listening ∧ (x = .listener → b = true → ∃ l, O (.setListener l)) ∧ (x = .config → b = true → ∃ c, O (.setConfig c)) := by
  unfold Task.touches at ht
  split at ht
  · cases ht
  · rename_i c rest hs
    rw [hs] at h
    have hc := h c (.head _)
    cases c with
    | user u =>
      have hc : ∀ op ∈ u.ops, O op := hc
      simp only [Co.touches] at ht
      split at ht
      · rename_i l ops e
        rw [List.mem_singleton] at ht
        injection ht with h1 h2
        subst h1
        exact ⟨nofun, fun _ _ => ⟨l, hc _ (by rw [e]; exact .head _)⟩, nofun⟩
      · rename_i l ops e
        rw [List.mem_singleton] at ht
        injection ht with h1 h2
        subst h1
        exact ⟨nofun, nofun, fun _ _ => ⟨l, hc _ (by rw [e]; exact .head _)⟩⟩
      · cases ht
    | _ =>
      simp only [Co.touches] at ht
      repeat' split at ht
      all_goals
        refine ⟨?_, ?_, ?_⟩
        · rintro rfl; simp at ht
        · rintro rfl rfl; simp at ht
        · rintro rfl rfl; simp at ht

/-- The roles of the tasks, at any time. -/
structure Roles (O O' : UserOp → Prop) (p : Pool) : Prop where
  first : ∀ t, p.tasks[0]? = some (Outcome.run t) → ∀ c ∈ t.stack, c.opsIn O'
  others : ∀ (i : Nat) t, p.tasks[i + 1]? = some (Outcome.run t) → ∀ c ∈ t.stack, c.ok fun u => ∀ op ∈ u.ops, O op

theorem opsLasting (O : UserOp → Prop) : Lasting fun u => ∀ op ∈ u.ops, O op := by
  intro u op ops b hu h op' hop'
  exact h op' (by rw [hu]; exact List.mem_cons_of_mem _ hop')

theorem Team.roles {env : Env} {O O' : UserOp → Prop} {p : Pool} (h : Team env O O' p) : Roles O O' p := by
  obtain ⟨⟨hd, others, e, ho⟩, -⟩ := h
  constructor
  · intro t ht
    rw [e] at ht
    injection ht with ht
    injection ht with ht
    subst ht
    intro c hc
    unfold listenTask at hc
    rw [List.mem_singleton] at hc
    subst hc
    trivial
  · intro i t ht
    rw [e] at ht
    have hm : Outcome.run t ∈ others := List.mem_of_getElem? (i := i) (by simpa using ht)
    obtain ⟨ops, e1, e2⟩ := ho _ hm
    injection e1 with e1
    subst e1
    intro c hc
    unfold userTask at hc
    rw [List.mem_singleton] at hc
    subst hc
    exact e2

theorem Roles.step {env : Env} {O O' : UserOp → Prop} {p p' : Pool} (he : ∀ tr, ∀ op ∈ env.react tr, O' op) (h : Roles O O' p) (hs : Pool.Step env p p') : Roles O O' p' := by
  cases hs with
  | @mk ts w i t o w' ht hs hb =>
    constructor
    · intro t' ht'
      by_cases hi : i = 0
      · subst hi
        have hlt := (List.getElem?_eq_some_iff.mp ht).1
        have ht' : (ts.set 0 o)[0]? = some (Outcome.run t') := ht'
        rw [List.getElem?_set_self hlt] at ht'
        injection ht' with ht'
        have := opsIn_step env he t w (h.first t ht)
        rw [hs, ht'] at this
        exact this
      · have ht' : (ts.set i o)[0]? = some (Outcome.run t') := ht'
        rw [List.getElem?_set_ne hi] at ht'
        exact h.first t' ht'
    · intro j t' ht'
      by_cases hi : i = j + 1
      · subst hi
        have hlt := (List.getElem?_eq_some_iff.mp ht).1
        have ht' : (ts.set (j + 1) o)[j + 1]? = some (Outcome.run t') := ht'
        rw [List.getElem?_set_self hlt] at ht'
        injection ht' with ht'
        have := (step_ok env (opsLasting O) (fun _ _ h => h) t (h.others j t ht) w).2
        rw [hs, ht'] at this
        exact this
      · have ht' : (ts.set i o)[j + 1]? = some (Outcome.run t') := ht'
        rw [List.getElem?_set_ne hi] at ht'
        exact h.others j t' ht'

theorem Roles.steps {env : Env} {O O' : UserOp → Prop} {p p' : Pool} (he : ∀ tr, ∀ op ∈ env.react tr, O' op) (h : Roles O O' p) (hs : Pool.Steps env p p') : Roles O O' p' := by
  induction hs with
  | refl => exact h
  | tail _ s ih => exact ih.step he s

end OatWS.Async
