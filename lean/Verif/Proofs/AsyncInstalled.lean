import Verif.Proofs.AsyncLifetime
/-! Coroutines have pointers only to listeners that are or were installed in the socket, and only those are called. -/

namespace OatWS.Async

/-- The coroutine has pointers only to such listeners, and installs only such ones. -/
def Co.From (I : Option Nat → Prop) : Co → Prop
  | .user c => ∀ op ∈ c.ops, op.Installs I
  | .readPayload c => I c.listener
  | .handleFrame c => I c.listener
  | _ => True

def Act.From (I : Option Nat → Prop) : Act → Prop
  | .goto c => c.From I
  | .call cs c => (∀ d ∈ cs, d.From I) ∧ c.From I
  | _ => True

/-- From one state to another: only such listeners are called and installed. -/
def Onward (I : Option Nat → Prop) (s s' : Sock) : Prop :=
  I s'.listener ∧ (s'.trace = s.trace ∨ ∃ e, s'.trace = s.trace ++ [e] ∧ I (some e.to))

structure StepFrom (I : Option Nat → Prop) (w : World) (r : OatWS.Async.Act × Local × World) : Prop where
  act : r.1.From I
  onward : Onward I w.st.sock r.2.2.st.sock

variable {I : Option Nat → Prop}

theorem Onward.same {s s' : Sock} (h : I s.listener) (h1 : s'.listener = s.listener) (h2 : s'.trace = s.trace) : Onward I s s' := ⟨by rw [h1]; exact h, .inl h2⟩

theorem from_one {d c' : Co} (h : d.From I) (h' : c'.From I) : (Act.call [d] c').From I :=
  ⟨fun x hx => by rw [List.mem_singleton] at hx; subst hx; exact h, h'⟩

theorem from_readStep {w : World} (hw : I w.st.sock.listener) (need got l again) (cont : List UInt8 → World → OatWS.Async.Act × Local × World) (h1 : ∀ g, (again g).From I)
    (h2 : ∀ g i, StepFrom I (w.setInp i) (cont g (w.setInp i))) : StepFrom I w (readStep need got l w again cont) := by
  unfold readStep
  rcases readInline need got w.st.inp with ⟨(g | g | _ | _), i⟩
  · exact ⟨h1 g, .same hw rfl rfl⟩
  · exact ⟨(h2 g i).1, (h2 g i).2⟩
  · exact ⟨trivial, .same hw rfl rfl⟩
  · exact ⟨trivial, .same hw rfl rfl⟩

theorem from_writeStep {w : World} (hw : I w.st.sock.listener) (left l again) (cont : OatWS.Async.Act) (h1 : ∀ g, (again g).From I) (h2 : cont.From I) :
    StepFrom I w (writeStep left l w again cont) := by
  unfold writeStep
  rcases writeInline left w.st.sock.out with ⟨(_ | g | _ | _), i⟩
  all_goals first | exact ⟨h2, .same hw rfl rfl⟩ | exact ⟨h1 _, .same hw rfl rfl⟩ | exact ⟨trivial, .same hw rfl rfl⟩

theorem from_coStep {env : Env} (henv : env.Installs I) {c : Co} (hc : c.From I) (l : Local) {w : World} (hw : I w.st.sock.listener) : StepFrom I w (coStep env c l w) := by
  have ok : Onward I w.st.sock w.st.sock := .same hw rfl rfl
  cases c with
  | listen =>
    simp only [coStep, listenStep]
    split
    · refine ⟨⟨fun d hd => ?_, trivial⟩, ok⟩
      simp only [List.mem_cons, List.not_mem_nil, or_false] at hd
      rcases hd with rfl | rfl
      · trivial
      · exact hw
    · exact ⟨trivial, ok⟩
  | readFrame c =>
    simp only [coStep, readFrameStep]
    split
    · exact from_readStep hw _ _ _ _ _ (fun _ => trivial) (fun _ _ => ⟨trivial, ok⟩)
    · split
      · split
        · exact ⟨trivial, ok⟩
        · split <;> exact ⟨trivial, ok⟩
      · exact ⟨trivial, ok⟩
    · exact from_readStep hw _ _ _ _ _ (fun _ => trivial) (fun _ _ => ⟨trivial, ok⟩)
    · split
      · exact ⟨trivial, ok⟩
      · exact ⟨trivial, ok⟩
    · refine from_readStep hw _ _ _ _ _ (fun _ => trivial) (fun _ _ => ?_)
      split <;> exact ⟨trivial, ok⟩
  | handleFrame c =>
    have hc : I c.listener := hc
    have hs : ∀ short pc l w', w'.st.sock.trace = w.st.sock.trace → w'.st.sock.listener = w.st.sock.listener → StepFrom I w (startPayload c short pc l w') := by
      intro short pc l w' hw1 hw2
      have hw' : I w'.st.sock.listener := by rw [hw2]; exact hw
      unfold startPayload readPayloadAsync
      split
      · rename_i co w1 h
        split at h
        · cases h
        · split at h
          · cases h
          · injection h with h; injection h with h h'; subst h h'
            exact ⟨from_one (show I w'.st.sock.listener from hw') hc, .same hw hw2 hw1⟩
      · exact ⟨trivial, .same hw hw2 hw1⟩
    have hd : ∀ l, StepFrom I w (startData c l w) := by
      intro l
      unfold startData checkForContinuationA
      split
      · rename_i s h
        split at h
        · cases h
        · split at h <;> (injection h with _ h; subst h; exact hs _ _ _ _ rfl rfl)
      · rename_i s h
        split at h
        · injection h with _ h; subst h; exact ⟨trivial, ok⟩
        · split at h <;> cases h
    have hcb : ∀ mk : Nat → Event, (∀ t, (mk t).to = t) → ∀ l, StepFrom I w (controlCallback env c mk l w) := by
      intro mk hmk l
      unfold controlCallback
      split
      · rename_i to hto
        refine ⟨from_one (fun op hop => henv _ op hop) hc, hw, .inr ⟨mk to, rfl, ?_⟩⟩
        rw [hmk, ← hto]; exact hc
      · exact ⟨trivial, ok⟩
    simp only [coStep, handleFrameStep]
    split
    · split
      · split
        · exact ⟨trivial, ok⟩
        · exact hs _ _ _ _ rfl rfl
      · split
        · exact hd _
        · split
          · exact hd _
          · split
            · exact hs _ _ _ _ rfl rfl
            · split
              · exact hs _ _ _ _ rfl rfl
              · split
                · exact hs _ _ _ _ rfl rfl
                · exact ⟨trivial, ok⟩
    · exact hcb _ (fun _ => rfl) _
    · exact hcb _ (fun _ => rfl) _
    · exact hcb _ (fun _ => rfl) _
    · exact ⟨trivial, ok⟩
  | readPayload c =>
    have hc : I c.listener := hc
    have hcb : ∀ (to : Nat) (op : UInt8) (data : List UInt8) (ptr : Option Nat) (w1 w2 : World) (l : Local) (c' : ReadPayloadCo), c.listener = some to → c'.listener = c.listener →
        w1.st = w.st → w2.st.sock = (callback env (.readMessage to op data) ptr data w1).2.st.sock →
        StepFrom I w (.call [(callback env (.readMessage to op data) ptr data w1).1] (.readPayload c'), l, w2) := by
      intro to op data ptr w1 w2 l c' h1 h2 h3 h4
      refine ⟨from_one (fun op hop => henv _ op hop) (show I c'.listener by rw [h2]; exact hc), ?_, .inr ⟨.readMessage to op data, ?_, ?_⟩⟩
      · show I w2.st.sock.listener
        rw [h4]
        show I w1.st.sock.listener
        rw [h3]; exact hw
      · show w2.st.sock.trace = _
        rw [h4]
        show w1.st.sock.trace ++ _ = _
        rw [h3]
      · show I (some to)
        rw [← h1]; exact hc
    simp only [coStep, readPayloadStep]
    split
    · split
      · exact ⟨hc, ok⟩
      · split
        · rename_i to hto
          split
          · exact hcb _ _ _ _ _ _ _ _ hto rfl rfl rfl
          · exact ⟨trivial, ok⟩
        · exact ⟨trivial, ok⟩
    · split
      · exact ⟨hc, ok⟩
      · split
        · exact ⟨trivial, ok⟩
        · split
          · split
            · exact ⟨trivial, ok⟩
            · exact ⟨hc, ok⟩
          · exact ⟨hc, ok⟩
          · exact ⟨hc, ok⟩
          · exact ⟨trivial, ok⟩
    · split
      · split
        · split
          · exact ⟨hc, ok⟩
          · split
            · rename_i to hto
              exact hcb _ _ _ _ _ _ _ _ hto rfl rfl rfl
            · exact ⟨hc, ok⟩
        · split
          · exact ⟨hc, ok⟩
          · split
            · rename_i to hto
              exact hcb _ _ _ _ _ _ _ _ hto rfl rfl rfl
            · exact ⟨hc, ok⟩
      · exact ⟨trivial, ok⟩
    · exact ⟨trivial, ok⟩
  | user c =>
    have hc : ∀ op ∈ c.ops, op.Installs I := hc
    simp only [coStep, userStep]
    split
    · exact ⟨trivial, ok⟩
    · rename_i he; rw [he] at hc; exact ⟨fun op ho => hc op (List.mem_cons_of_mem _ ho), ok⟩
    · rename_i l' _ he
      rw [he] at hc
      exact ⟨fun op ho => hc op (List.mem_cons_of_mem _ ho), hc (.setListener l') (by simp), .inl rfl⟩
    · rename_i he; rw [he] at hc; exact ⟨fun op ho => hc op (List.mem_cons_of_mem _ ho), ok⟩
    · rename_i call _ _ he
      rw [he] at hc
      exact ⟨from_one (by cases call <;> trivial) (fun op ho => hc op (List.mem_cons_of_mem _ ho)), ok⟩
    · exact ⟨trivial, ok⟩
  | sendFrame c =>
    have hh : ∀ h fin op n, (sendFrameHeaderAsync env h fin op n w).2.1.From I ∧ Onward I w.st.sock (sendFrameHeaderAsync env h fin op n w).2.2.st.sock := by
      intro h fin op n
      unfold sendFrameHeaderAsync
      dsimp only
      split
      · exact ⟨trivial, .same hw rfl rfl⟩
      · exact ⟨trivial, ok⟩
    simp only [coStep, sendFrameStep]
    split
    · split
      · exact ⟨from_one (hh _ _ _ _).1 trivial, (hh _ _ _ _).2⟩
      · exact ⟨from_one (hh _ _ _ _).1 trivial, (hh _ _ _ _).2⟩
    · split
      · split
        · exact ⟨trivial, ok⟩
        · exact ⟨trivial, ok⟩
      · exact ⟨trivial, ok⟩
    · exact from_writeStep hw _ _ _ _ (fun _ => trivial) trivial
    · exact ⟨trivial, ok⟩
  | writeFrame c =>
    simp only [coStep, writeFrameStep]
    split
    · exact from_writeStep hw _ _ _ _ (fun _ => trivial) trivial
    · split
      · exact ⟨trivial, ok⟩
      · split <;> exact ⟨trivial, ok⟩
    · exact from_writeStep hw _ _ _ _ (fun _ => trivial) trivial
    · split
      · exact ⟨trivial, ok⟩
      · exact ⟨trivial, ok⟩
    · exact from_writeStep hw _ _ _ _ (fun _ => trivial) trivial

def Outcome.From (I : Option Nat → Prop) (o : Outcome) : Prop := ∀ t, o = .run t → ∀ c ∈ t.stack, c.From I

theorem from_unwind (e : AErr) (rest : List Co) (l : Local) (w : World) (h : ∀ c ∈ rest, c.From I) : (unwind e rest l w).1.From I := by
  induction rest generalizing w with
  | nil => exact fun _ h => (by cases h)
  | cons c rest ih =>
    have h' := fun d hd => h d (List.mem_cons_of_mem _ hd)
    cases c with
    | user c =>
      rw [unwind]
      split
      · intro t ht
        injection ht with ht
        subst ht
        intro d hd
        rcases List.mem_cons.mp hd with rfl | hd
        · exact h (.user c) (by simp)
        · exact h' d hd
      · exact ih _ h'
    | _ => rw [unwind]; exact ih _ h'; nofun

theorem destroy_sock (c : Co) (w : World) : (destroy c w).st.sock = w.st.sock := by
  cases c <;> rfl

theorem unwind_sock (e : AErr) (rest : List Co) (l : Local) (w : World) : (unwind e rest l w).2.st.sock = w.st.sock := by
  induction rest generalizing w with
  | nil => rfl
  | cons c rest ih =>
    cases c with
    | user c =>
      rw [unwind]
      split
      · rfl
      · exact ih _
    | readPayload c => exact ih _
    | _ => exact ih _

theorem from_step {env : Env} (henv : env.Installs I) {t : Task} {w : World} {o : Outcome} {w' : World} (h : ∀ c ∈ t.stack, c.From I) (hw : I w.st.sock.listener)
    (hs : step env t w = (o, w')) : o.From I ∧ Onward I w.st.sock w'.st.sock := by
  unfold step at hs
  split at hs
  · injection hs with h1 h2; subst h1 h2; exact ⟨fun _ h => (by cases h), .same hw rfl rfl⟩
  · rename_i c rest he
    rw [he] at h
    have hr := fun d hd => h d (List.mem_cons_of_mem _ hd)
    have hk := from_coStep henv (h c (by simp)) t.loc hw
    revert hs hk
    rcases coStep env c t.loc w with ⟨a, l, w1⟩
    intro hs hk
    have hact := hk.act
    have hon := hk.onward
    dsimp only at hact hon
    cases a with
    | goto c' =>
      injection hs with h1 h2; subst h1 h2
      refine ⟨fun t ht => ?_, hon⟩
      injection ht with ht; subst ht
      intro d hd
      rcases List.mem_cons.mp hd with rfl | hd
      · exact hact
      · exact hr d hd
    | call cs c' =>
      injection hs with h1 h2; subst h1 h2
      refine ⟨fun t ht => ?_, hon⟩
      injection ht with ht; subst ht
      intro d hd
      rcases List.mem_append.mp hd with hd | hd
      · exact hact.1 d hd
      · rcases List.mem_cons.mp hd with rfl | hd
        · exact hact.2
        · exact hr d hd
    | finish =>
      dsimp only at hs
      split at hs
      · injection hs with h1 h2; subst h1 h2
        exact ⟨fun _ h => (by cases h), by rw [destroy_sock]; exact hon⟩
      · injection hs with h1 h2; subst h1 h2
        refine ⟨fun t ht => ?_, by rw [destroy_sock]; exact hon⟩
        injection ht with ht; subst ht
        exact hr
    | error e =>
      have h1 := from_unwind e rest l (destroy c w1) hr
      have h2 := unwind_sock e rest l (destroy c w1)
      have hs : unwind e rest l (destroy c w1) = (o, w') := hs
      rw [hs] at h1 h2
      rw [destroy_sock] at h2
      exact ⟨h1, by rw [show w'.st.sock = w1.st.sock from h2]; exact hon⟩
    | blocked => injection hs with h1 h2; subst h1 h2; exact ⟨fun _ h => (by cases h), hon⟩
    | ub u => injection hs with h1 h2; subst h1 h2; exact ⟨fun _ h => (by cases h), hon⟩

theorem from_steps {env : Env} (henv : env.Installs I) {p p' : Pool} (h : ∀ o ∈ p.tasks, o.From I) (h0 : I p.world.st.sock.listener) (hs : Pool.Steps env p p') :
    (∀ o ∈ p'.tasks, o.From I) ∧ I p'.world.st.sock.listener ∧
      ∃ new, p'.world.st.sock.trace = p.world.st.sock.trace ++ new ∧ ∀ e ∈ new, I (some e.to) := by
  induction hs with
  | refl => exact ⟨h, h0, [], (List.append_nil _).symm, fun _ h => absurd h List.not_mem_nil⟩
  | tail _ hs ih =>
    obtain ⟨i1, i2, new, i3, i4⟩ := ih
    cases hs with
    | @mk ts w i t o w' hi hst _ =>
      obtain ⟨j1, j2, j3⟩ := from_step henv (i1 _ (List.mem_of_getElem? hi) t rfl) i2 hst
      refine ⟨fun o' ho => ?_, j2, ?_⟩
      · rcases List.mem_or_eq_of_mem_set ho with ho | ho
        · exact i1 o' ho
        · subst ho; exact j1
      · rcases j3 with j3 | ⟨e, j3, j4⟩
        · exact ⟨new, by rw [← i3]; exact j3, i4⟩
        · refine ⟨new ++ [e], by rw [← List.append_assoc, ← i3]; exact j3, fun x hx => ?_⟩
          rcases List.mem_append.mp hx with hx | hx
          · exact i4 x hx
          · rw [List.mem_singleton] at hx; subst hx; exact j4

end OatWS.Async
