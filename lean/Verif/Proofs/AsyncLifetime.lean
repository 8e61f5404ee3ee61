import Verif.Spec.Lifetime
/-! The listener of every coroutine returned by a callback is held by a coroutine below it. -/

namespace OatWS.Async

/-- Every coroutine of a listener has one below it that holds the listener. -/
def Held : List Co → Prop
  | [] => True
  | c :: rest => (∀ l, c.of = some l → ∃ d ∈ rest, d.holds = some l) ∧ Held rest

theorem Held.split {above : List Co} {c : Co} {below : List Co} (h : Held (above ++ c :: below)) {l : Nat} (hl : c.of = some l) : ∃ d ∈ below, d.holds = some l := by
  induction above with
  | nil => exact h.1 l hl
  | cons a above ih => exact ih h.2

/-- What a coroutine does with itself and those it starts. -/
def Act.Keeps (c : Co) : Act → Prop
  | .goto c' => c'.of = c.of
  | .call cs c' => c'.of = c.of ∧ ∀ d ∈ cs, ∀ l, d.of = some l → c'.holds = some l
  | _ => True

/-- A callback is made only with the coroutine that makes it holding the listener, and the returned coroutine starts above it. -/
def Tells (w : World) (r : OatWS.Async.Act × Local × World) : Prop :=
  r.2.2.st.sock.trace = w.st.sock.trace ∨
  ∃ u e c', r.1 = .call [.user u] c' ∧ r.2.2.st.sock.trace = w.st.sock.trace ++ [e] ∧ u.self = some e.to ∧ c'.holds = some e.to

/-- Both. -/
def Both (c : Co) (w : World) (r : OatWS.Async.Act × Local × World) : Prop := r.1.Keeps c ∧ Tells w r

theorem keeps_one {c d c' : Co} (h : c'.of = c.of) (h' : ∀ l, d.of = some l → c'.holds = some l) : (Act.call [d] c').Keeps c :=
  ⟨h, fun x hx l hl => by rw [List.mem_singleton] at hx; subst hx; exact h' l hl⟩

theorem keeps_readStep {c : Co} (need got l w again) (cont : List UInt8 → World → OatWS.Async.Act × Local × World) (h1 : ∀ g, (again g).of = c.of)
    (h2 : ∀ g i, Both c (w.setInp i) (cont g (w.setInp i))) : Both c w (readStep need got l w again cont) := by
  unfold readStep
  rcases readInline need got w.st.inp with ⟨(g | g | _ | _), i⟩
  · exact ⟨h1 g, .inl rfl⟩
  · exact h2 g i
  · exact ⟨trivial, .inl rfl⟩
  · exact ⟨trivial, .inl rfl⟩

theorem keeps_writeStep {c : Co} (left l w again) (cont : OatWS.Async.Act) (h1 : ∀ g, (again g).of = c.of) (h2 : cont.Keeps c) :
    Both c w (writeStep left l w again cont) := by
  unfold writeStep
  rcases writeInline left w.st.sock.out with ⟨(_ | g | _ | _), i⟩
  all_goals first | exact ⟨h2, .inl rfl⟩ | exact ⟨h1 _, .inl rfl⟩ | exact ⟨trivial, .inl rfl⟩

theorem keeps_coStep (env : Env) (c : Co) (l : Local) (w : World) : Both c w (coStep env c l w) := by
  cases c with
  | listen =>
    simp only [coStep, listenStep]
    split
    · refine ⟨⟨rfl, fun d hd l hl => ?_⟩, .inl rfl⟩
      simp only [List.mem_cons, List.not_mem_nil, or_false] at hd
      rcases hd with rfl | rfl <;> cases hl
    · exact ⟨trivial, .inl rfl⟩
  | readFrame c =>
    simp only [coStep, readFrameStep]
    split
    · exact keeps_readStep _ _ _ _ _ _ (fun _ => rfl) (fun _ _ => ⟨rfl, .inl rfl⟩)
    · split
      · split
        · exact ⟨rfl, .inl rfl⟩
        · split <;> exact ⟨rfl, .inl rfl⟩
      · exact ⟨trivial, .inl rfl⟩
    · exact keeps_readStep _ _ _ _ _ _ (fun _ => rfl) (fun _ _ => ⟨rfl, .inl rfl⟩)
    · split
      · exact ⟨rfl, .inl rfl⟩
      · exact ⟨trivial, .inl rfl⟩
    · refine keeps_readStep _ _ _ _ _ _ (fun _ => rfl) (fun _ _ => ?_)
      split <;> exact ⟨trivial, .inl rfl⟩
  | handleFrame c =>
    have hs : ∀ short pc l w', w'.st.sock.trace = w.st.sock.trace → Both (.handleFrame c) w (startPayload c short pc l w') := by
      intro short pc l w' hw
      unfold startPayload readPayloadAsync
      split
      · rename_i co w1 h
        split at h
        · cases h
        · split at h
          · cases h
          · injection h with h; injection h with h h'; subst h h'; exact ⟨keeps_one rfl fun x hx => (by cases hx), .inl hw⟩
      · exact ⟨trivial, .inl hw⟩
    have hd : ∀ l, Both (.handleFrame c) w (startData c l w) := by
      intro l
      unfold startData checkForContinuationA
      split
      · rename_i s h
        split at h
        · cases h
        · split at h <;> (injection h with _ h; subst h; exact hs _ _ _ _ rfl)
      · rename_i s h
        split at h
        · injection h with _ h; subst h; exact ⟨trivial, .inl rfl⟩
        · split at h <;> cases h
    have hc : ∀ mk : Nat → Event, (∀ t, (mk t).to = t) → ∀ l, Both (.handleFrame c) w (controlCallback env c mk l w) := by
      intro mk hmk l
      unfold controlCallback
      split
      · rename_i to hto
        refine ⟨keeps_one rfl fun x hx => ?_, .inr ⟨_, mk to, _, rfl, rfl, rfl, ?_⟩⟩
        · have hx : some (mk to).to = some x := hx
          rw [hmk] at hx
          rw [← hx]
          exact hto
        · rw [hmk]; exact hto
      · exact ⟨trivial, .inl rfl⟩
    simp only [coStep, handleFrameStep]
    split
    · split
      · split
        · exact ⟨trivial, .inl rfl⟩
        · exact hs _ _ _ _ rfl
      · split
        · exact hd _
        · split
          · exact hd _
          · split
            · exact hs _ _ _ _ rfl
            · split
              · exact hs _ _ _ _ rfl
              · split
                · exact hs _ _ _ _ rfl
                · exact ⟨trivial, .inl rfl⟩
    · exact hc _ (fun _ => rfl) _
    · exact hc _ (fun _ => rfl) _
    · exact hc _ (fun _ => rfl) _
    · exact ⟨trivial, .inl rfl⟩
  | readPayload c =>
    have hc : ∀ (to : Nat) (op : UInt8) (data : List UInt8) (ptr : Option Nat) (w1 w2 : World) (l : Local) (c' : ReadPayloadCo), c.listener = some to → c'.listener = c.listener →
        w1.st = w.st → w2.st.sock.trace = (callback env (.readMessage to op data) ptr data w1).2.st.sock.trace →
        Both (.readPayload c) w (.call [(callback env (.readMessage to op data) ptr data w1).1] (.readPayload c'), l, w2) := by
      intro to op data ptr w1 w2 l c' h1 h2 h3 h4
      refine ⟨keeps_one rfl fun x hx => ?_, .inr ⟨_, .readMessage to op data, _, rfl, ?_, rfl, ?_⟩⟩
      · have hx : some to = some x := hx
        rw [← hx, ← h1]
        exact h2
      · refine Eq.trans h4 ?_
        show w1.st.sock.trace ++ _ = _
        rw [h3]
      · exact h2.trans h1
    simp only [coStep, readPayloadStep]
    split
    · split
      · exact ⟨rfl, .inl rfl⟩
      · split
        · rename_i to hto
          split
          · exact hc _ _ _ _ _ _ _ _ hto rfl rfl rfl
          · exact ⟨trivial, .inl rfl⟩
        · exact ⟨trivial, .inl rfl⟩
    · split
      · exact ⟨rfl, .inl rfl⟩
      · split
        · exact ⟨trivial, .inl rfl⟩
        · split
          · split
            · exact ⟨trivial, .inl rfl⟩
            · exact ⟨rfl, .inl rfl⟩
          · exact ⟨rfl, .inl rfl⟩
          · exact ⟨rfl, .inl rfl⟩
          · exact ⟨trivial, .inl rfl⟩
    · split
      · split
        · split
          · exact ⟨rfl, .inl rfl⟩
          · split
            · rename_i to hto
              exact hc _ _ _ _ _ _ _ _ hto rfl rfl rfl
            · exact ⟨rfl, .inl rfl⟩
        · split
          · exact ⟨rfl, .inl rfl⟩
          · split
            · rename_i to hto
              exact hc _ _ _ _ _ _ _ _ hto rfl rfl rfl
            · exact ⟨rfl, .inl rfl⟩
      · exact ⟨trivial, .inl rfl⟩
    · exact ⟨trivial, .inl rfl⟩
  | user c =>
    simp only [coStep, userStep]
    split
    · exact ⟨trivial, .inl rfl⟩
    · exact ⟨rfl, .inl rfl⟩
    · exact ⟨rfl, .inl rfl⟩
    · exact ⟨rfl, .inl rfl⟩
    · rename_i call _ _ _
      refine ⟨keeps_one rfl fun x hx => ?_, .inl rfl⟩
      cases call <;> cases hx
    · exact ⟨trivial, .inl rfl⟩
  | sendFrame c =>
    have hh : ∀ h fin op n w, (sendFrameHeaderAsync env h fin op n w).2.1.of = none ∧ (sendFrameHeaderAsync env h fin op n w).2.2.st.sock.trace = w.st.sock.trace := by
      intro h fin op n w
      unfold sendFrameHeaderAsync
      dsimp only
      split <;> exact ⟨rfl, rfl⟩
    simp only [coStep, sendFrameStep]
    split
    · split
      · exact ⟨keeps_one rfl fun x hx => (by rw [(hh _ _ _ _ _).1] at hx; cases hx), .inl (hh _ _ _ _ _).2⟩
      · exact ⟨keeps_one rfl fun x hx => (by rw [(hh _ _ _ _ _).1] at hx; cases hx), .inl (hh _ _ _ _ _).2⟩
    · split
      · split
        · exact ⟨trivial, .inl rfl⟩
        · exact ⟨rfl, .inl rfl⟩
      · exact ⟨rfl, .inl rfl⟩
    · exact keeps_writeStep _ _ _ _ _ (fun _ => rfl) trivial
    · exact ⟨trivial, .inl rfl⟩
  | writeFrame c =>
    simp only [coStep, writeFrameStep]
    split
    · exact keeps_writeStep _ _ _ _ _ (fun _ => rfl) rfl
    · split
      · exact ⟨rfl, .inl rfl⟩
      · split <;> exact ⟨rfl, .inl rfl⟩
    · exact keeps_writeStep _ _ _ _ _ (fun _ => rfl) rfl
    · split
      · exact ⟨rfl, .inl rfl⟩
      · exact ⟨trivial, .inl rfl⟩
    · exact keeps_writeStep _ _ _ _ _ (fun _ => rfl) trivial

theorem held_unwind (e : AErr) (rest : List Co) (l : Local) (w : World) (h : Held rest) {t w'} (hs : unwind e rest l w = (.run t, w')) : Held t.stack := by
  induction rest generalizing w with
  | nil => cases hs
  | cons c rest ih =>
    cases c with
    | user c =>
      rw [unwind] at hs
      split at hs
      · injection hs with hs; injection hs with hs; subst hs; exact h
      · exact ih _ h.2 hs
    | _ => rw [unwind] at hs; exact ih _ h.2 hs; nofun

theorem held_call {c c' : Co} {rest : List Co} (cs : List Co) (h : Held (c :: rest)) (h1 : c'.of = c.of) (h2 : ∀ d ∈ cs, ∀ l, d.of = some l → c'.holds = some l) :
    Held (cs ++ c' :: rest) := by
  induction cs with
  | nil => exact ⟨fun l hl => h.1 l (h1 ▸ hl), h.2⟩
  | cons d cs ih =>
    refine ⟨fun l hl => ⟨c', by simp, h2 d (by simp) l hl⟩, ih fun d hd => h2 d (by simp [hd])⟩

theorem held_step (env : Env) {t : Task} {w : World} {t' : Task} {w' : World} (h : Held t.stack) (hs : step env t w = (.run t', w')) : Held t'.stack := by
  unfold step at hs
  split at hs
  · cases hs
  · rename_i c rest he
    rw [he] at h
    have hk := (keeps_coStep env c t.loc w).1
    revert hs hk
    rcases coStep env c t.loc w with ⟨a, l, w1⟩
    intro hs hk
    cases a with
    | goto c' =>
      injection hs with hs; injection hs with hs; subst hs
      exact held_call [] h hk fun _ hd => absurd hd List.not_mem_nil
    | call cs c' =>
      injection hs with hs; injection hs with hs; subst hs
      exact held_call cs h hk.1 hk.2
    | finish =>
      dsimp only at hs
      split at hs
      · cases hs
      · injection hs with hs; injection hs with hs; subst hs; exact h.2
    | error e => exact held_unwind e rest l _ h.2 hs
    | blocked => cases hs
    | ub u => cases hs

theorem unwind_trace (e : AErr) (rest : List Co) (l : Local) (w : World) : (unwind e rest l w).2.st.sock.trace = w.st.sock.trace := by
  induction rest generalizing w with
  | nil => rfl
  | cons c rest ih =>
    cases c with
    | user c =>
      rw [unwind]
      split
      · rfl
      · exact ih _
    | readPayload c => exact ih _
    | _ => exact ih _

theorem destroy_trace (c : Co) (w : World) : (destroy c w).st.sock.trace = w.st.sock.trace := by
  cases c <;> rfl

/-- In a step at most one callback is made; then its coroutine runs next, directly above the one that has called and holds the listener. -/
theorem told_step (env : Env) (t : Task) (w : World) {o : Outcome} {w' : World} (hs : step env t w = (o, w')) :
    w'.st.sock.trace = w.st.sock.trace ∨
    ∃ u c rest l e, o = .run ⟨.user u :: c :: rest, l⟩ ∧ w'.st.sock.trace = w.st.sock.trace ++ [e] ∧ u.self = some e.to ∧ c.holds = some e.to := by
  unfold step at hs
  split at hs
  · injection hs with _ hs; subst hs; exact .inl rfl
  · rename_i c rest he
    have hk := (keeps_coStep env c t.loc w).2
    revert hs hk
    rcases coStep env c t.loc w with ⟨a, l, w1⟩
    intro hs hk
    rcases hk with hk | ⟨u, e, c', h1, h2, h3, h4⟩
    · have hk : w1.st.sock.trace = w.st.sock.trace := hk
      left
      rw [← hk]
      cases a with
      | goto c' => injection hs with _ hs; subst hs; rfl
      | call cs c' => injection hs with _ hs; subst hs; rfl
      | finish =>
        dsimp only at hs
        split at hs <;> (injection hs with _ hs; subst hs; exact destroy_trace _ _)
      | error e =>
        have := unwind_trace e rest l (destroy c w1)
        have hs : unwind e rest l (destroy c w1) = (o, w') := hs
        rw [hs, destroy_trace] at this
        exact this
      | blocked => injection hs with _ hs; subst hs; rfl
      | ub u => injection hs with _ hs; subst hs; rfl
    · have h1 : a = .call [.user u] c' := h1
      subst h1
      injection hs with hs hs'
      subst hs hs'
      exact .inr ⟨u, c', rest, l, e, rfl, h2, h3, h4⟩

end OatWS.Async
