import Verif.Spec.Session
import Verif.Props.ThreadListen
/-! A session: code, then `listen`, then code. -/

namespace OatWS.Threads
open RFC6455 Async Prog

/-- Steps of a pool whose first thread is `q; f`: it is in `q`, or it has returned from `q` and is in `f`. -/
theorem steps_andThen {env : Env} {q : Prog Unit} {f : Unit → Prog Unit} {ts : List (Prog Unit)} {st : St} {p : Pool}
    (h : Pool.Steps env ⟨Prog.andThen q f :: ts, st⟩ p) :
    (∃ q' ts', p.threads = Prog.andThen q' f :: ts' ∧ Pool.Steps env ⟨q :: ts, st⟩ ⟨q' :: ts', p.st⟩) ∨
    (∃ ts' st', Pool.Steps env ⟨q :: ts, st⟩ ⟨.ret () :: ts', st'⟩ ∧ Pool.Steps env ⟨f () :: ts', st'⟩ p) := by
  generalize hp0 : (⟨Prog.andThen q f :: ts, st⟩ : Pool) = p0 at h
  induction h with
  | refl => subst hp0; exact .inl ⟨q, ts, rfl, .refl⟩
  | tail h1 h2 ih =>
    subst hp0
    rcases ih with ⟨q', ts', e, hs⟩ | ⟨ts', st', hs, hf⟩
    · cases h2 with
      | @mk ts1 st1 i a k r st' hi he =>
        dsimp only at e hs
        subst e
        cases i with
        | zero =>
          simp only [List.getElem?_cons_zero, Option.some.injEq] at hi
          cases q' with
          | ret u =>
            refine .inr ⟨ts', st1, hs, ?_⟩
            have hi : f () = .act a k := hi
            exact .tail .refl (.mk (i := 0) (a := a) (k := k) (by rw [hi]; rfl) he)
          | throw e => cases hi
          | ub u => cases hi
          | stuck => cases hi
          | act a' k' =>
            have hi : Prog.act a' (fun r => Prog.andThen (k' r) f) = .act a k := hi
            injection hi with ha hk
            subst ha
            have hk := eq_of_heq hk
            subst hk
            exact .inl ⟨k' r, ts', rfl, .tail hs (.mk (i := 0) (a := a') (k := k') rfl he)⟩
        | succ i =>
          refine .inl ⟨q', ts'.set i (k r), rfl, ?_⟩
          exact .tail hs (.mk (i := i + 1) (a := a) (k := k) hi he)
    · exact .inr ⟨ts', st', hs, .tail hf h2⟩

/-- What happens to listener and size until the program returns: `ln`, `sz`: they are as they should be. -/
def Leads (l B : Nat) {α : Type} : Prog α → Prop → Prop → Prop
  | .ret _, ln, sz => ln ∧ sz
  | .act (.setListener x) k, _, sz => ∀ r, Leads l B (k r) (x = some l) sz
  | .act (.setConfig c) k, ln, _ => ∀ r, Leads l B (k r) ln (c.readBufferSize = B)
  | .act (.read _) _, _, _ => False
  | .act (.callback _) _, _, _ => False
  | .act (.setLastOpcode _) _, _, _ => False
  | .act _ k, ln, sz => ∀ r, Leads l B (k r) ln sz
  | _, _, _ => True

theorem Leads.mono {l B : Nat} {α : Type} {q : Prog α} {ln sz ln' sz' : Prop} (h : Leads l B q ln sz) (h1 : ln → ln') (h2 : sz → sz') : Leads l B q ln' sz' := by
  induction q generalizing ln sz ln' sz' with
  | ret a => exact ⟨h1 h.1, h2 h.2⟩
  | act a k ih =>
    cases a with
    | setListener x => exact fun r => ih r (h r) id h2
    | setConfig c => exact fun r => ih r (h r) h1 id
    | read _ => exact h
    | callback _ => exact h
    | setLastOpcode _ => exact h
    | _ => exact fun r => ih r (h r) h1 h2
  | _ => trivial

/-- Code that does not touch the settings. -/
def Neutral {α : Type} : Prog α → Prop
  | .act (.setListener _) _ => False
  | .act (.setConfig _) _ => False
  | .act (.read _) _ => False
  | .act (.callback _) _ => False
  | .act (.setLastOpcode _) _ => False
  | .act _ k => ∀ r, Neutral (k r)
  | _ => True

theorem Neutral.leads {l B : Nat} {α β : Type} {q : Prog α} {f : α → Prog β} {ln sz : Prop} (h : Neutral q) (hf : ∀ a, Leads l B (f a) ln sz) : Leads l B (Prog.andThen q f) ln sz := by
  induction q with
  | ret a => exact hf a
  | act a k ih =>
    cases a with
    | setListener x => exact h.elim
    | setConfig c => exact h.elim
    | read _ => exact h.elim
    | callback _ => exact h.elim
    | setLastOpcode _ => exact h.elim
    | _ => exact fun r => ih r (h r)
  | _ => trivial

theorem By.neutral {α : Type} {q : Prog α} {E E' : Out α → Prop} (h : By ⟨fun _ => False, 0, fun _ => True⟩ q E) (h' : By ⟨fun _ => False, 1, fun _ => True⟩ q E') : Neutral q := by
  induction q with
  | act a k ih =>
    obtain ⟨h1, h2⟩ := h
    obtain ⟨g1, g2⟩ := h'
    cases a with
    | setListener x => obtain ⟨_, _, h⟩ := h1; exact h
    | setConfig c =>
      have h1 : c.readBufferSize = ((0 : Nat) : Int) := h1
      have g1 : c.readBufferSize = ((1 : Nat) : Int) := g1
      rw [h1] at g1
      cases g1
    | read _ => exact h1
    | callback _ => exact h1
    | setLastOpcode _ => exact h1
    | _ => exact fun r => ih r (h2 r) (g2 r)
  | _ => trivial

theorem leads_userOps (env : Env) (fuel l B : Nat) (ops : List UserOp) (cur : Option Nat) (n : Int) (h1 : listenerAfter ops cur = some l) (h2 : sizeAfter ops n = B) :
    Leads l B (userOpsT env fuel ops) (cur = some l) (n = B) := by
  induction ops generalizing cur n with
  | nil => exact ⟨h1, h2⟩
  | cons op ops ih =>
    cases op with
    | stopListening => exact fun _ => ih cur n h1 h2
    | setListener x => exact fun _ => ih x n h1 h2
    | setConfig c => exact fun _ => ih cur c.readBufferSize h1 h2
    | throw => trivial
    | send c catches =>
      exact Neutral.leads (By.neutral (by_userOp _ env fuel (.send c catches) trivial) (by_userOp _ env fuel (.send c catches) trivial)) fun _ => ih cur n h1 h2

/-- The effect of a step that does not listen, whatever the settings are. -/
theorem exec_quiet {C : Rules} {env : Env} {a : Act} {st st' : St} {r : a.Res} (hs : Side C a) (he : exec env a st = some (r, st')) :
    st'.inp = st.inp ∧ st'.sock.trace = st.sock.trace ∧ st'.sock.lastOpcode = st.sock.lastOpcode ∧
      (st.sock.listening = false → st'.sock.listening = false) ∧
      (st'.sock.listener = st.sock.listener ∨ ∃ i, st'.sock.listener = some i ∧ C.listener i) ∧
      (st'.sock.config.readBufferSize = st.sock.config.readBufferSize ∨ st'.sock.config.readBufferSize = C.size) := by
  cases a with
  | read n => exact hs.elim
  | callback e => exact hs.elim
  | setLastOpcode x => exact hs.elim
  | getListening => exact hs.elim
  | write d =>
    dsimp only [exec] at he
    split at he
    · cases he
    · split at he <;>
      · injection he with he
        injection he with h1 h2
        subst h2
        exact ⟨rfl, rfl, rfl, id, .inl rfl, .inl rfl⟩
  | setConfig c => injection he with he; injection he with h1 h2; subst h2; exact ⟨rfl, rfl, rfl, id, .inl rfl, .inr hs⟩
  | setListener x => injection he with he; injection he with h1 h2; subst h2; exact ⟨rfl, rfl, rfl, id, .inr hs, .inl rfl⟩
  | setListening b =>
    have hs : b = false := hs
    subst hs
    injection he with he; injection he with h1 h2; subst h2; exact ⟨rfl, rfl, rfl, fun _ => rfl, .inl rfl, .inl rfl⟩
  | _ => injection he with he; injection he with h1 h2; subst h2; exact ⟨rfl, rfl, rfl, id, .inl rfl, .inl rfl⟩

/-- Before `listen` is called. -/
structure Before (C : Rules) (l B : Nat) (st0 : St) (p : Pool) : Prop where
  first : ∃ q ts, p.threads = q :: ts ∧ Leads l B q (p.st.sock.listener = some l) (p.st.sock.config.readBufferSize = B) ∧
    ∀ t ∈ ts, By C t fun _ => True
  inp : p.st.inp = st0.inp
  trace : p.st.sock.trace = st0.sock.trace
  last : p.st.sock.lastOpcode = st0.sock.lastOpcode

theorem Before.step {C : Rules} {env : Env} {l B : Nat} (hl : C.listener = (· = l)) (hB : C.size = B) {st0 : St} {p p' : Pool} (h : Before C l B st0 p) (hs : Pool.Step env p p') : Before C l B st0 p' := by
  obtain ⟨⟨q, ts, e, hq, hts⟩, h1, h2, h3⟩ := h
  cases hs with
  | @mk ts1 st1 i a k r st' hi he =>
    dsimp only at e hq h1 h2 h3
    subst e
    cases i with
    | zero =>
      simp only [List.getElem?_cons_zero, Option.some.injEq] at hi
      subst hi
      have same : st'.inp = st1.inp → st'.sock.trace = st1.sock.trace → st'.sock.lastOpcode = st1.sock.lastOpcode →
          Leads l B (k r) (st'.sock.listener = some l) (st'.sock.config.readBufferSize = B) → Before C l B st0 ⟨(Prog.act a k :: ts).set 0 (k r), st'⟩ :=
        fun e1 e2 e3 e4 => ⟨⟨k r, ts, rfl, e4, hts⟩, e1.trans h1, e2.trans h2, e3.trans h3⟩
      cases a with
      | read n => exact hq.elim
      | callback e => exact hq.elim
      | setLastOpcode x => exact hq.elim
      | write d =>
        dsimp only [exec] at he
        split at he
        · cases he
        · split at he <;>
          · injection he with he
            injection he with g1 g2
            subst g2
            exact same rfl rfl rfl (hq r)
      | _ => injection he with he; injection he with g1 g2; subst g2; exact same rfl rfl rfl (hq r)
    | succ i =>
      have hi : ts[i]? = some (.act a k) := hi
      have hby := hts _ (List.mem_of_getElem? hi)
      obtain ⟨g1, g2, g3, g4, g5, g6⟩ := exec_quiet hby.1 he
      refine ⟨⟨q, ts.set i (k r), rfl, hq.mono ?_ ?_, ?_⟩, g1.trans h1, g2.trans h2, g3.trans h3⟩
      · intro e
        rcases g5 with g5 | ⟨j, g5, gj⟩
        · rw [show (Pool.st _).sock.listener = _ from g5]; exact e
        · rw [hl] at gj
          have gj : j = l := gj
          rw [show (Pool.st _).sock.listener = _ from g5, gj]
      · intro e
        rcases g6 with g6 | g6
        · rw [show (Pool.st _).sock.config.readBufferSize = _ from g6]; exact e
        · rw [show (Pool.st _).sock.config.readBufferSize = _ from g6, hB]
      · intro t ht
        rcases List.mem_or_eq_of_mem_set ht with ht | rfl
        · exact hts t ht
        · exact hby.2 r

theorem Before.steps {C : Rules} {env : Env} {l B : Nat} (hl : C.listener = (· = l)) (hB : C.size = B) {st0 : St} {p p' : Pool} (h : Before C l B st0 p) (hs : Pool.Steps env p p') : Before C l B st0 p' := by
  induction hs with
  | refl => exact h
  | tail _ hs ih => exact ih.step hl hB hs

/-- No thread listens any more. -/
structure Beyond (C : Rules) (E : Out Unit → Prop) (st0 : St) (p : Pool) : Prop where
  first : ∃ q ts, p.threads = q :: ts ∧ By C q E ∧ ∀ t ∈ ts, By C t fun _ => True
  inp : p.st.inp = st0.inp
  trace : p.st.sock.trace = st0.sock.trace
  listening : st0.sock.listening = false → p.st.sock.listening = false

theorem Beyond.step {C : Rules} {env : Env} {E : Out Unit → Prop} {st0 : St} {p p' : Pool} (h : Beyond C E st0 p) (hs : Pool.Step env p p') : Beyond C E st0 p' := by
  obtain ⟨⟨q, ts, e, hq, hts⟩, h1, h2, h3⟩ := h
  cases hs with
  | @mk ts1 st1 i a k r st' hi he =>
    dsimp only at e hq h1 h2 h3
    subst e
    cases i with
    | zero =>
      simp only [List.getElem?_cons_zero, Option.some.injEq] at hi
      subst hi
      obtain ⟨g1, g2, _, g4, _⟩ := exec_quiet hq.1 he
      exact ⟨⟨k r, ts, rfl, hq.2 r, hts⟩, g1.trans h1, g2.trans h2, fun h => g4 (h3 h)⟩
    | succ i =>
      have hi : ts[i]? = some (.act a k) := hi
      have hby := hts _ (List.mem_of_getElem? hi)
      obtain ⟨g1, g2, _, g4, _⟩ := exec_quiet hby.1 he
      refine ⟨⟨q, ts.set i (k r), rfl, hq, ?_⟩, g1.trans h1, g2.trans h2, fun h => g4 (h3 h)⟩
      intro t ht
      rcases List.mem_or_eq_of_mem_set ht with ht | rfl
      · exact hts t ht
      · exact hby.2 r

theorem Beyond.steps {C : Rules} {env : Env} {E : Out Unit → Prop} {st0 : St} {p p' : Pool} (h : Beyond C E st0 p) (hs : Pool.Steps env p p') : Beyond C E st0 p' := by
  induction hs with
  | refl => exact h
  | tail _ hs ih => exact ih.step hs

/-- A program that neither throws nor has undefined behaviour. -/
def Mild {α : Type} : Prog α → Prop
  | .throw _ => False
  | .ub _ => False
  | .act _ k => ∀ r, Mild (k r)
  | _ => True

theorem By.mild {C : Rules} {α : Type} {q : Prog α} {E : Out α → Prop} (h : By C q E) (hE : ∀ x, E x → ∃ a, x = .ret a) : Mild q := by
  induction q with
  | throw e => obtain ⟨a, h⟩ := hE _ h; cases h
  | ub u => obtain ⟨a, h⟩ := hE _ h; cases h
  | act a k ih => exact fun r => ih r (h.2 r)
  | _ => trivial

theorem Mild.andThen {α β : Type} {q : Prog α} {f : α → Prog β} (h : Mild q) (hf : ∀ a, Mild (f a)) : Mild (Prog.andThen q f) := by
  induction q with
  | ret a => exact hf a
  | throw e => exact h.elim
  | ub u => exact h.elim
  | stuck => trivial
  | act a k ih => exact fun r => ih r (h r)

theorem mild_userOps (env : Env) (fuel : Nat) (ops : List UserOp) (hc : ∀ op ∈ ops, op.calm) : Mild (userOpsT env fuel ops) := by
  induction ops with
  | nil => trivial
  | cons op ops ih =>
    have ih := ih fun o ho => hc o (List.mem_cons_of_mem _ ho)
    have hop := hc op (List.mem_cons_self ..)
    cases op with
    | stopListening => exact fun _ => ih
    | setListener x => exact fun _ => ih
    | setConfig c => exact fun _ => ih
    | throw => exact hop.elim
    | send c catches =>
      refine Mild.andThen (By.mild (by_userOp ⟨fun _ => False, 0, fun _ => True⟩ env fuel (.send c catches) trivial) ?_) fun _ => ih
      rintro x (h | ⟨h, _⟩)
      · exact ⟨_, h⟩
      · exact absurd hop h

theorem mild_steps {env : Env} {p p' : Pool} {q : Prog Unit} {ts : List (Prog Unit)} (hs : Pool.Steps env p p') (e : p.threads = q :: ts) (h : Mild q) :
    ∃ q' ts', p'.threads = q' :: ts' ∧ Mild q' := by
  induction hs with
  | refl => exact ⟨q, ts, e, h⟩
  | tail _ h2 ih =>
    obtain ⟨q', ts', e', h'⟩ := ih
    cases h2 with
    | @mk ts1 st1 i a k r st' hi he =>
      dsimp only at e'
      subst e'
      cases i with
      | zero =>
        simp only [List.getElem?_cons_zero, Option.some.injEq] at hi
        subst hi
        exact ⟨k r, ts', rfl, h' r⟩
      | succ i => exact ⟨q', ts'.set i (k r), rfl, h'⟩

/-- Where a thread in `q; f` is, if it is still in `q`. -/
theorem isAt_andThen {q : Prog Unit} {f : Unit → Prog Unit} {x : Out Unit} (hx : IsAt (Prog.andThen q f) x) : (q = .ret () ∧ IsAt (f ()) x) ∨ (q ≠ .ret () ∧ IsAt q x) := by
  cases q with
  | ret u => exact .inl ⟨rfl, hx⟩
  | throw e => exact .inr ⟨nofun, hx⟩
  | ub u => exact .inr ⟨nofun, hx⟩
  | stuck => exact .inr ⟨nofun, hx⟩
  | act a k =>
    refine .inr ⟨nofun, ?_⟩
    cases a <;> exact hx

theorem Leads.isAt {l B : Nat} {q : Prog Unit} {ln sz : Prop} (h : Leads l B q ln sz) (hm : Mild q) {x : Out Unit} (hx : IsAt q x) (hne : q ≠ .ret ()) : x = .writing := by
  cases q with
  | ret u => exact absurd rfl hne
  | throw e => exact hm.elim
  | ub u => exact hm.elim
  | stuck => exact hx.elim
  | act a k =>
    cases a with
    | read n => exact h.elim
    | write d => exact hx
    | _ => exact hx.elim

theorem Leads.not_reading {l B : Nat} {q : Prog Unit} {ln sz : Prop} (h : Leads l B q ln sz) {x : Out Unit} (hx : IsAt q x) (hne : q ≠ .ret ()) : x ≠ .reading ∧ x ≠ .ret () := by
  cases q with
  | ret u => exact absurd rfl hne
  | throw e => have hx : x = _ := hx; subst hx; exact ⟨nofun, nofun⟩
  | ub u => have hx : x = _ := hx; subst hx; exact ⟨nofun, nofun⟩
  | stuck => exact hx.elim
  | act a k =>
    cases a with
    | read n => exact h.elim
    | write d => have hx : x = _ := hx; subst hx; exact ⟨nofun, nofun⟩
    | _ => exact hx.elim

theorem By.isAt {C : Rules} {q : Prog Unit} {E : Out Unit → Prop} (h : By C q E) {x : Out Unit} (hx : IsAt q x) : x = .writing ∨ x ≠ .reading ∧ E x := by
  cases q with
  | ret u => have hx : x = _ := hx; subst hx; exact .inr ⟨nofun, h⟩
  | throw e => have hx : x = _ := hx; subst hx; exact .inr ⟨nofun, h⟩
  | ub u => have hx : x = _ := hx; subst hx; exact .inr ⟨nofun, h⟩
  | stuck => exact hx.elim
  | act a k =>
    cases a with
    | read n => exact h.1.elim
    | write d => exact .inl hx
    | _ => exact hx.elim

theorem ListenShows.later {C : Rules} {env : Env} {fe : FrameEnd} {st st' : St} (h : ListenShows C env fe st (.ret ())) (h1 : st'.inp = st.inp)
    (h2 : st.sock.listening = false → st'.sock.listening = false) : ListenShows C env fe st' (.ret ()) := by
  cases fe with
  | next o => exact ⟨h.1, h2 h.2⟩
  | over r =>
    cases r with
    | incomplete =>
      rcases h with h | ⟨h, g⟩
      · exact .inl h
      · exact .inr ⟨h, by rw [h1]; exact g⟩
    | _ => exact h

/-- A session in which everybody keeps to the rules once `onAfterCreate` is over: what has been heard, wherever the thread is; when it is about to read, and when it is over, why. -/
theorem session_reception (C : Rules) (env : Env) (o : Bool) (fuel l : Nat) (created : List UserOp) (h : Header) (destroyed : List UserOp) (others : List (Prog Unit)) (st : St) (p : Pool)
    (henv : C.Reacts env) (hB : 0 < C.size) (hl : C.listener = (· = l)) (hsched : ∀ x ∈ st.inp.sched, C.outcome x) (ho : OpenIs o st.sock.lastOpcode)
    (h1 : listenerAfter created st.sock.listener = some l) (h2 : sizeAfter created st.sock.config.readBufferSize = C.size)
    (hd : ∀ op ∈ destroyed, C.Op op) (hoth : ∀ q ∈ others, C.Helper env fuel q)
    (hs : Pool.Steps env ⟨sessionT env fuel created h destroyed :: others, st⟩ p) (q : Prog Unit) (hq : p.threads[0]? = some q) (x : Out Unit) (hx : IsAt q x) :
    (∃ whole part fe, Heard C o st p.st whole part fe ∧ (x = .reading ∨ x = .ret () → ListenShows C env fe p.st x)) ∧
    (env.Calm → (∀ op ∈ created, op.calm) → (∀ op ∈ destroyed, op.calm) → x = .ret () ∨ x = .reading ∨ x = .writing) := by
  have hby : ∀ t ∈ others, By C t fun _ => True := by
    intro t ht
    exact by_helper (hoth t ht)
  have hbef : Before C l C.size st ⟨userOpsT env fuel created :: others, st⟩ :=
    ⟨⟨_, _, rfl, leads_userOps env fuel l C.size created _ _ h1 h2, hby⟩, rfl, rfl, rfl⟩
  rcases steps_andThen hs with ⟨q', ts', e, hs1⟩ | ⟨ts1, st1, hs1, hs2⟩
  · -- in `onAfterCreate`
    obtain ⟨⟨q2, ts2, e2, hq2, _⟩, b1, b2, _⟩ := hbef.steps hl rfl hs1
    obtain ⟨rfl, rfl⟩ := List.cons.inj e2
    rw [e] at hq
    simp only [List.getElem?_cons_zero, Option.some.injEq] at hq
    subst hq
    rcases isAt_andThen hx with ⟨_, hx⟩ | ⟨hne, hx⟩
    · exact hx.elim
    · refine ⟨⟨[], [], .over .incomplete, ⟨?_, [], o, [], [], .nil, .noHeader rfl, ?_, .nil⟩, fun hx' => ?_⟩, fun _ hm _ => ?_⟩
      · exact (congrArg InStream.bytes b1).symm
      · rw [List.append_nil]; exact b2
      · have := hq2.not_reading hx hne
        rcases hx' with hx' | hx'
        · exact absurd hx' this.1
        · exact absurd hx' this.2
      · obtain ⟨q3, ts3, e3, hm⟩ := mild_steps hs1 rfl (mild_userOps env fuel created hm)
        obtain ⟨rfl, rfl⟩ := List.cons.inj e3
        exact .inr (.inr (hq2.isAt hm hx hne))
  · obtain ⟨⟨q2, ts2, e2, hq2, hts2⟩, b1, b2, b3⟩ := hbef.steps hl rfl hs1
    obtain ⟨rfl, rfl⟩ := List.cons.inj e2
    have hin : C.In o st1 := by
      refine ⟨⟨l, hq2.1, by rw [hl]⟩, hq2.2, ?_, ?_⟩
      · rw [show st1.inp = _ from b1]; exact hsched
      · rw [show st1.sock.lastOpcode = _ from b3]; exact ho
    have hinv : ListenInv C env o (startView st1) (listenT env fuel h) none ⟨listenT env fuel h :: ts1, st1⟩ :=
      ⟨⟨_, rfl, .before rfl rfl rfl rfl rfl hin⟩, fun i q hq => hts2 q (List.mem_of_getElem? hq)⟩
    have hback : ∀ {st' whole part fe}, Heard C o st1 st' whole part fe → Heard C o st st' whole part fe := by
      rintro st' whole part fe ⟨g1, g2⟩
      rw [show st1.inp = _ from b1] at g1
      rw [show st1.sock.trace = _ from b2] at g2
      exact ⟨g1, g2⟩
    have heard : ∀ {q' ts' st'}, Pool.Steps env ⟨listenT env fuel h :: ts1, st1⟩ ⟨q' :: ts', st'⟩ → ∀ x, IsAt q' x →
        ∃ whole part fe, Heard C o st st' whole part fe ∧ ListenShows C env fe st' x := by
      intro q' ts' st' hs x hx
      obtain ⟨q3, e3, hph⟩ := (hinv.steps henv hB rfl hs).first
      simp only [List.getElem?_cons_zero, Option.some.injEq] at e3
      subst e3
      cases hph with
      | before _ hql => subst hql; exact hx.elim
      | going v hv =>
        obtain ⟨whole, part, fe, k1, k2, _⟩ := hv.heard hx
        exact ⟨whole, part, fe, hback k1, k2⟩
    -- in `onBeforeDestroy`, or after it
    have after : ∀ {ts' st'}, Pool.Steps env ⟨listenT env fuel h :: ts1, st1⟩ ⟨.ret () :: ts', st'⟩ → Pool.Steps env ⟨userOpsT env fuel destroyed :: ts', st'⟩ p →
        (∃ whole part fe, Heard C o st p.st whole part fe ∧ (x = .reading ∨ x = .ret () → ListenShows C env fe p.st x)) ∧
        (env.Calm → (∀ op ∈ created, op.calm) → (∀ op ∈ destroyed, op.calm) → x = .ret () ∨ x = .reading ∨ x = .writing) := by
      intro ts' st' hs3 hs4
      obtain ⟨whole, part, fe, k1, k2⟩ := heard hs3 (.ret ()) rfl
      have hoth' := (hinv.steps henv hB rfl hs3).others
      have hbey : Beyond C (UserEnds (∀ op ∈ destroyed, op.calm)) st' ⟨userOpsT env fuel destroyed :: ts', st'⟩ := by
        refine ⟨⟨_, _, rfl, by_userOps C env fuel destroyed hd, ?_⟩, rfl, rfl, id⟩
        intro t ht
        obtain ⟨i, hi⟩ := List.getElem?_of_mem ht
        exact hoth' i t hi
      obtain ⟨⟨q3, ts3, e3, hq3, _⟩, c1, c2, c3⟩ := hbey.steps hs4
      rw [e3] at hq
      simp only [List.getElem?_cons_zero, Option.some.injEq] at hq
      subst hq
      have k3 : Heard C o st p.st whole part fe := ⟨by rw [c1]; exact k1.bytes, by rw [c2]; exact k1.told⟩
      rcases hq3.isAt hx with rfl | ⟨hne, hE⟩
      · exact ⟨⟨whole, part, fe, k3, fun h => (by rcases h with h | h <;> cases h)⟩, fun _ _ _ => .inr (.inr rfl)⟩
      · refine ⟨⟨whole, part, fe, k3, fun hx' => ?_⟩, fun _ _ hm => ?_⟩
        · rcases hx' with hx' | rfl
          · exact absurd hx' hne
          · exact k2.later c1 c3
        · rcases hE with rfl | ⟨hc, _⟩
          · exact .inl rfl
          · exact absurd hm hc
    rcases steps_andThen hs2 with ⟨q', ts', e, hs3⟩ | ⟨ts', st', hs3, hs4⟩
    · have hp : p = ⟨Prog.andThen q' (fun _ => userOpsT env fuel destroyed) :: ts', p.st⟩ := by rw [← e]
      rw [e] at hq
      simp only [List.getElem?_cons_zero, Option.some.injEq] at hq
      subst hq
      rcases isAt_andThen hx with ⟨rfl, hx⟩ | ⟨hne, hx⟩
      · refine after hs3 ?_
        rw [hp]
        exact .refl
      · obtain ⟨whole, part, fe, k1, k2⟩ := heard hs3 x hx
        refine ⟨⟨whole, part, fe, k1, fun _ => k2⟩, fun hcalm _ _ => ?_⟩
        cases fe with
        | next o => exact .inl k2.1
        | over r =>
          cases r with
          | stopped => exact k2.elim
          | incomplete => rcases k2 with h | ⟨h, _⟩; exact .inr (.inl h); exact .inl h
          | interrupted => rcases k2 with h | ⟨h, _⟩; exact .inr (.inr h); exact absurd hcalm h
          | _ => exact .inl k2
    · exact after hs3 hs4

end OatWS.Threads
