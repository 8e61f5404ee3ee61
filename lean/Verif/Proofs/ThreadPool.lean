import Verif.Proofs.ThreadListen
/-! One thread listens, others send, stop, replace listener and configuration. -/

namespace OatWS.Threads
open RFC6455 Async Prog

/-- The view of the listening thread is right. -/
structure Sees (C : Rules) (st : St) (v : View) : Prop where
  bytes : st.inp.bytes = v.bytes
  trace : st.sock.trace = v.trace
  last : st.sock.lastOpcode = v.last
  listening : st.sock.listening = v.off.isNone
  size : st.sock.config.readBufferSize = C.size
  listener : ∃ i, st.sock.listener = some i ∧ C.listener i
  sched : ∀ o ∈ st.inp.sched, C.outcome o

theorem View.lower_isNone (v : View) : v.lower.off.isNone = false := by
  unfold View.lower
  cases v.off <;> rfl

theorem exec_does {C : Rules} {env : Env} {a : Act} {st st' : St} {r : a.Res} {v : View} (hs : Sees C st v) (hl : Legal C a)
    (h : exec env a st = some (r, st')) : ∃ v', Makes C a v r v' ∧ Sees C st' v' := by
  cases a with
  | read n =>
    dsimp only [exec] at h
    split at h
    · cases h
    · rename_i o sched hsch
      injection h with h
      injection h with h1 h2
      subst h1 h2
      refine ⟨{ v with bytes := (lowRead o st.inp.bytes n).2 }, ⟨o, hs.sched o (by rw [hsch]; exact List.mem_cons_self ..), by rw [← hs.bytes], rfl⟩, ?_⟩
      exact ⟨rfl, hs.trace, hs.last, hs.listening, hs.size, hs.listener, fun x hx => hs.sched x (by rw [hsch]; exact List.mem_cons_of_mem _ hx)⟩
  | write d =>
    dsimp only [exec] at h
    split at h
    · cases h
    · split at h
      · injection h with h
        injection h with h1 h2
        subst h1 h2
        exact ⟨v, rfl, hs.bytes, hs.trace, hs.last, hs.listening, hs.size, hs.listener, hs.sched⟩
      · injection h with h
        injection h with h1 h2
        subst h1 h2
        exact ⟨v, rfl, hs.bytes, hs.trace, hs.last, hs.listening, hs.size, hs.listener, hs.sched⟩
  | getConfig =>
    injection h with h; injection h with h1 h2; subst h1 h2
    exact ⟨v, ⟨hs.size, rfl⟩, hs⟩
  | setConfig c =>
    injection h with h; injection h with h1 h2; subst h1 h2
    exact ⟨v, rfl, hs.bytes, hs.trace, hs.last, hs.listening, hl, hs.listener, hs.sched⟩
  | getListener =>
    injection h with h; injection h with h1 h2; subst h1 h2
    exact ⟨v, ⟨hs.listener, rfl⟩, hs⟩
  | setListener l =>
    injection h with h; injection h with h1 h2; subst h1 h2
    exact ⟨v, rfl, hs.bytes, hs.trace, hs.last, hs.listening, hs.size, hl, hs.sched⟩
  | getLastOpcode =>
    injection h with h; injection h with h1 h2; subst h1 h2
    exact ⟨v, ⟨hs.last, rfl⟩, hs⟩
  | setLastOpcode x =>
    injection h with h; injection h with h1 h2; subst h1 h2
    exact ⟨_, rfl, hs.bytes, hs.trace, rfl, hs.listening, hs.size, hs.listener, hs.sched⟩
  | getListening =>
    injection h with h; injection h with h1 h2; subst h1 h2
    exact ⟨v, ⟨hs.listening, rfl⟩, hs⟩
  | setListening b =>
    have hl : b = false := hl
    subst hl
    injection h with h; injection h with h1 h2; subst h1 h2
    exact ⟨_, rfl, hs.bytes, hs.trace, hs.last, (View.lower_isNone v).symm, hs.size, hs.listener, hs.sched⟩
  | random =>
    injection h with h; injection h with h1 h2; subst h1 h2
    exact ⟨v, rfl, hs.bytes, hs.trace, hs.last, hs.listening, hs.size, hs.listener, hs.sched⟩
  | callback e =>
    injection h with h; injection h with h1 h2; subst h1 h2
    exact ⟨{ v with trace := v.trace ++ [e] }, ⟨by rw [hs.trace], rfl⟩, hs.bytes, by show st.sock.trace ++ [e] = _; rw [hs.trace], hs.last, hs.listening, hs.size, hs.listener, hs.sched⟩
  | call c =>
    injection h with h; injection h with h1 h2; subst h1 h2
    exact ⟨v, rfl, hs⟩
  | returned c =>
    injection h with h; injection h with h1 h2; subst h1 h2
    exact ⟨v, rfl, hs⟩

theorem exec_side {C : Rules} {env : Env} {a : Act} {st st' : St} {r : a.Res} {v : View} (hs : Sees C st v) (hl : Side C a)
    (h : exec env a st = some (r, st')) : Sees C st' v ∨ Sees C st' v.lower := by
  obtain ⟨v', hd, hs'⟩ := exec_does hs hl.legal h
  rcases hl.does hd with rfl | rfl
  · exact .inl hs'
  · exact .inr hs'

/-- `off`, once set, stays; at most so many bytes are left then. -/
theorem Makes.off {C : Rules} {a u r v'} (h : Makes C a u r v') : (∀ n, u.off = some n → v'.off = some n) ∧
    ((∀ n, u.off = some n → u.bytes.length ≤ n) → ∀ n, v'.off = some n → v'.bytes.length ≤ n) := by
  have same : v' = u → (∀ n, u.off = some n → v'.off = some n) ∧ ((∀ n, u.off = some n → u.bytes.length ≤ n) → ∀ n, v'.off = some n → v'.bytes.length ≤ n) := by
    rintro rfl; exact ⟨fun _ h => h, fun h => h⟩
  cases a with
  | read n =>
    obtain ⟨o, _, h1, h2⟩ := h
    rw [h2]
    refine ⟨fun _ h => h, fun hu m hm => ?_⟩
    have := hu m hm
    have hle : v'.bytes.length ≤ u.bytes.length := by
      have hb := congrArg Prod.snd h1
      dsimp only at hb
      rw [← hb]
      unfold lowRead
      cases o <;> dsimp only
      · split
        · exact Nat.le_refl _
        · dsimp only; rw [List.length_drop]; omega
      all_goals exact Nat.le_refl _
    exact Nat.le_trans hle this
  | getConfig => exact same h.2
  | getListener => exact same h.2
  | getLastOpcode => exact same h.2
  | getListening => exact same h.2
  | setLastOpcode x => rw [show v' = _ from h]; exact ⟨fun _ h => h, fun h => h⟩
  | callback e => rw [h.2]; exact ⟨fun _ h => h, fun h => h⟩
  | setListening b =>
    rw [show v' = _ from h]
    unfold View.lower
    cases hu : u.off with
    | none =>
      refine ⟨fun n h => (by cases h), fun _ n hn => ?_⟩
      injection hn with hn
      exact Nat.le_of_eq hn
    | some m => exact ⟨fun _ h => h, fun h => h⟩
  | write d => exact same h
  | setConfig c => exact same h
  | setListener c => exact same h
  | random => exact same h
  | call c => exact same h
  | returned c => exact same h

theorem Side.off {C : Rules} {v : View} : (∀ n, v.off = some n → v.lower.off = some n) ∧
    ((∀ n, v.off = some n → v.bytes.length ≤ n) → ∀ n, v.lower.off = some n → v.lower.bytes.length ≤ n) :=
  Makes.off (C := C) (a := .setListening false) (r := ()) rfl

/-- Program and view of the listening thread, after `listen` has set the flag. `n?`: listening has been switched off when this many bytes were left. -/
structure Going (C : Rules) (env : Env) (o : Bool) (v0 : View) (n? : Option Nat) (q : Prog Unit) (st : St) (v : View) : Prop where
  sees : Sees C st v
  wp : Wp C q v fun x w => LoopPost C env o v0 x w ∧ ∀ e, x ≠ .throw e
  left : ∀ n, v.off = some n → v.bytes.length ≤ n
  off : ∀ n, n? = some n → v.off = some n

theorem Going.own {C env o v0 n? a k st v} {r : a.Res} {st'} (h : Going C env o v0 n? (.act a k) st v) (he : exec env a st = some (r, st')) :
    ∃ v', Going C env o v0 n? (k r) st' v' := by
  obtain ⟨h1, h2, h3, h4⟩ := h.wp
  obtain ⟨v', hd, hs⟩ := exec_does h.sees h1 he
  have := Makes.off hd
  exact ⟨v', hs, h4 v (.inl rfl) r v' hd, this.2 h.left, fun n hn => this.1 n (h.off n hn)⟩

theorem Going.other {C : Rules} {env o v0 n? q st v} {a : Act} {r : a.Res} {st'} (h : Going C env o v0 n? q st v) (hs : Side C a)
    (he : exec env a st = some (r, st')) : ∃ v', Going C env o v0 n? q st' v' := by
  rcases exec_side h.sees hs he with h1 | h1
  · exact ⟨v, h1, h.wp, h.left, h.off⟩
  · have := Side.off (C := C) (v := v)
    exact ⟨v.lower, h1, h.wp.lower fun x w hx => ⟨hx.1.lower, hx.2⟩, this.2 h.left, fun n hn => this.1 n (h.off n hn)⟩

/-- The thread has not called `listen` yet, or it is listening. -/
inductive Phase (C : Rules) (env : Env) (o : Bool) (v0 : View) (l : Prog Unit) (n? : Option Nat) (q : Prog Unit) (st : St) : Prop
  | before : n? = none → q = l → st.inp.bytes = v0.bytes → st.sock.trace = v0.trace → st.sock.lastOpcode = v0.last → C.In o st → Phase C env o v0 l n? q st
  | going (v : View) : Going C env o v0 n? q st v → Phase C env o v0 l n? q st

structure ListenInv (C : Rules) (env : Env) (o : Bool) (v0 : View) (l : Prog Unit) (n? : Option Nat) (p : Pool) : Prop where
  first : ∃ q, p.threads[0]? = some q ∧ Phase C env o v0 l n? q p.st
  others : ∀ i q, p.threads[i + 1]? = some q → By C q fun _ => True

theorem In.side {C : Rules} {env o st st'} {a : Act} {r : a.Res} (h : C.In o st) (hs : Side C a) (he : exec env a st = some (r, st')) :
    st'.inp.bytes = st.inp.bytes ∧ st'.sock.trace = st.sock.trace ∧ st'.sock.lastOpcode = st.sock.lastOpcode ∧ C.In o st' := by
  have hsee : ∃ off : Option Nat, Sees C st ⟨st.inp.bytes, st.sock.trace, st.sock.lastOpcode, off⟩ := by
    cases hl : st.sock.listening with
    | true => exact ⟨none, rfl, rfl, rfl, hl, h.size, h.listener, h.sched⟩
    | false => exact ⟨some 0, rfl, rfl, rfl, hl, h.size, h.listener, h.sched⟩
  obtain ⟨off, hsee⟩ := hsee
  rcases exec_side hsee hs he with h1 | h1
  · exact ⟨h1.bytes, h1.trace, h1.last, h1.listener, h1.size, h1.sched, by rw [h1.last]; exact h.opened⟩
  · exact ⟨h1.bytes, h1.trace, h1.last, h1.listener, h1.size, h1.sched, by rw [h1.last]; exact h.opened⟩

theorem listenT_starts {C env o fuel h v0 st st'} {a : Act} {k : a.Res → Prog Unit} {r : a.Res} (henv : C.Reacts env) (hB : 0 < C.size)
    (hl : listenT env fuel h = .act a k) (he : exec env a st = some (r, st')) (hoff : v0.off = none)
    (h1 : st.inp.bytes = v0.bytes) (h2 : st.sock.trace = v0.trace) (h3 : st.sock.lastOpcode = v0.last) (h4 : C.In o st) :
    ∃ v, Going C env o v0 none (k r) st' v := by
  have hl : Prog.act (.setListening true) (fun _ => catching (listenLoopT env fuel fuel h) fun _ => .ret ()) = .act a k := hl
  injection hl with ha hk
  subst ha
  have hk := eq_of_heq hk
  subst hk
  injection he with he
  injection he with _ he
  subst he
  refine ⟨v0, ⟨h1, h2, h3, by rw [hoff]; rfl, h4.size, h4.listener, h4.sched⟩, ?_, by rw [hoff]; exact fun _ h => (by cases h), fun _ h => (by cases h)⟩
  refine Wp.catching (Wp.mono (listenLoopT_wp C env henv hB fuel fuel h v0 o (by rw [← h3]; exact h4.opened) (by rw [hoff]; exact fun _ h => (by cases h))) ?_)
  intro x w hx
  obtain ⟨k0, k, ds0, o0, ds1, fe, evs, g1, g2, g3, g4, g5, g6, g7⟩ := hx
  cases x with
  | throw e =>
    refine ⟨⟨k0, k, ds0, o0, ds1, fe, evs, g1, g2, g3, g4, g5, g6, ?_⟩, fun _ h => (by cases h)⟩
    cases fe with
    | next o => cases g7.1
    | over r =>
      cases r with
      | stopped => exact g7
      | incomplete =>
        rcases g7 with h | h
        · cases h
        · exact .inr ⟨.inl rfl, h.2⟩
      | interrupted =>
        rcases g7 with h | ⟨hc, h⟩
        · cases h
        · exact .inr ⟨hc, .inl (.inl rfl)⟩
      | _ => exact .inl rfl
  | _ => exact ⟨⟨k0, k, ds0, o0, ds1, fe, evs, g1, g2, g3, g4, g5, g6, g7⟩, fun _ h => (by cases h)⟩

variable {C : Rules} {env : Env} {o : Bool} {v0 : View} {fuel : Nat} {h : Header} {n? : Option Nat}

theorem ListenInv.step {p p' : Pool} (henv : C.Reacts env) (hB : 0 < C.size) (hoff : v0.off = none)
    (hi : ListenInv C env o v0 (listenT env fuel h) n? p) (hs : Pool.Step env p p') : ListenInv C env o v0 (listenT env fuel h) n? p' := by
  cases hs with
  | @mk ts st i a k r st' hi' he =>
    obtain ⟨q, hq, hph⟩ := hi.first
    have hlen : i < ts.length := by
      by_cases hc : i < ts.length
      · exact hc
      · rw [List.getElem?_eq_none (by omega)] at hi'; cases hi'
    cases i with
    | zero =>
      refine ⟨⟨k r, by simp [hlen], ?_⟩, ?_⟩
      · rw [show ts[0]? = some q from hq] at hi'
        injection hi' with hi'
        subst hi'
        cases hph with
        | before hn hql h1 h2 h3 h4 =>
          obtain ⟨v, hv⟩ := listenT_starts henv hB hql.symm he hoff h1 h2 h3 h4
          subst hn
          exact .going v hv
        | going v hv =>
          obtain ⟨v', hv'⟩ := hv.own he
          exact .going v' hv'
      · intro j q' hq'
        have : (ts.set 0 (k r))[j + 1]? = ts[j + 1]? := by rw [List.getElem?_set_ne (by omega)]
        exact hi.others j q' (by rw [← this]; exact hq')
    | succ i =>
      have hby := hi.others i _ hi'
      refine ⟨⟨q, ?_, ?_⟩, ?_⟩
      · show (ts.set (i + 1) (k r))[0]? = _
        rw [List.getElem?_set_ne (by omega)]; exact hq
      · cases hph with
        | before hn hql h1 h2 h3 h4 =>
          obtain ⟨g1, g2, g3, g4⟩ := In.side h4 hby.1 he
          exact .before hn hql (g1.trans h1) (g2.trans h2) (g3.trans h3) g4
        | going v hv =>
          obtain ⟨v', hv'⟩ := hv.other hby.1 he
          exact .going v' hv'
      · intro j q' hq'
        by_cases hj : i = j
        · subst hj
          have : (ts.set (i + 1) (k r))[i + 1]? = some (k r) := by simp [hlen]
          rw [show (ts.set (i + 1) (k r))[i + 1]? = some q' from hq'] at this
          injection this with this
          subst this
          exact hby.2 r
        · have : (ts.set (i + 1) (k r))[j + 1]? = ts[j + 1]? := by rw [List.getElem?_set_ne (by omega)]
          exact hi.others j q' (by rw [← this]; exact hq')

theorem ListenInv.steps {p p' : Pool} (henv : C.Reacts env) (hB : 0 < C.size) (hoff : v0.off = none)
    (hi : ListenInv C env o v0 (listenT env fuel h) n? p) (hs : Pool.Steps env p p') : ListenInv C env o v0 (listenT env fuel h) n? p' := by
  induction hs with
  | refl => exact hi
  | tail _ hs ih => exact ih.step henv hB hoff hs

/-- What the listening thread sees at first. -/
def startView (st : St) : View := ⟨st.inp.bytes, st.sock.trace, st.sock.lastOpcode, none⟩

theorem ListenInv.start {st : St} {others : List (Prog Unit)} (hin : C.In o st) (hoth : ∀ q ∈ others, C.Helper env fuel q) :
    ListenInv C env o (startView st) (listenT env fuel h) none ⟨listenT env fuel h :: others, st⟩ := by
  refine ⟨⟨_, rfl, .before rfl rfl rfl rfl rfl hin⟩, ?_⟩
  intro i q hq
  exact by_helper (hoth q (List.mem_of_getElem? hq))

/-- The place where a thread is, in the logic. -/
theorem Wp.isAt {α : Type} {C : Rules} {q : Prog α} {v Q x} (h : Wp C q v Q) (hx : IsAt q x) : Q x v := by
  cases q with
  | ret a => have hx : x = _ := hx; subst hx; exact h
  | throw e => have hx : x = _ := hx; subst hx; exact h
  | ub u => have hx : x = _ := hx; subst hx; exact h
  | stuck => exact hx.elim
  | act a k =>
    cases a with
    | read n => have hx : x = _ := hx; subst hx; exact h.2.1 ⟨_, rfl⟩
    | write d => have hx : x = _ := hx; subst hx; exact h.2.2.1 ⟨_, rfl⟩
    | _ => exact hx.elim

theorem Going.heard {C env o n? q} {st0 st : St} {v x} (hg : Going C env o (startView st0) n? q st v) (hx : IsAt q x) :
    ∃ whole part fe, Heard C o st0 st whole part fe ∧ ListenShows C env fe st x ∧
      ∀ n, n? = some n → whole.length + n ≤ st0.inp.bytes.length := by
  obtain ⟨⟨k0, k, ds0, o0, ds1, fe, evs, g1, g2, g3, g4, g5, g6, g7⟩, hnt⟩ := hg.wp.isAt hx
  refine ⟨_, _, fe, ⟨?_, ds0, o0, ds1, evs, g3, g4, ?_, g5⟩, ?_, ?_⟩
  · have hk : List.take k st0.inp.bytes ++ List.drop k st0.inp.bytes = st0.inp.bytes := List.take_append_drop ..
    rw [hg.sees.bytes, g2.bytes]
    show st0.inp.bytes = List.take k0 st0.inp.bytes ++ List.drop k0 (List.take k st0.inp.bytes) ++ List.drop k st0.inp.bytes
    have h0 : List.take k0 st0.inp.bytes = List.take k0 (List.take k st0.inp.bytes) := by rw [List.take_take, Nat.min_eq_left g1]
    rw [h0, List.take_append_drop, hk]
  · rw [hg.sees.trace]; exact g2.trace
  · have ends : Ends x → x = .ret () := by
      rintro (h | ⟨e, h⟩)
      · exact h
      · exact absurd h (hnt e)
    cases fe with
    | next o' =>
      refine ⟨g7.1, ?_⟩
      rw [hg.sees.listening]
      cases hoff : v.off with
      | none => exact absurd hoff g7.2
      | some n => rfl
    | over r =>
      cases r with
      | stopped => exact g7
      | incomplete =>
        rcases g7 with h | ⟨h, hb⟩
        · exact .inl h
        · exact .inr ⟨ends h, fun hf => by rw [hg.sees.bytes]; exact hb hf⟩
      | interrupted =>
        rcases g7 with h | ⟨hc, h | h⟩
        · exact .inl h
        · exact .inr ⟨hc, .inl (ends h)⟩
        · exact .inr ⟨hc, .inr h⟩
      | closed => exact ends g7
      | badControl => exact ends g7
      | badContinuation => exact ends g7
      | badStart => exact ends g7
      | badOpcode => exact ends g7
  · intro n hn
    have h1 := g6 n (hg.off n hn)
    have h2 := g2.le
    have h3 : (startView st0).bytes = st0.inp.bytes := rfl
    rw [h3] at h1 h2 ⊢
    rw [List.length_take]
    omega

end OatWS.Threads
