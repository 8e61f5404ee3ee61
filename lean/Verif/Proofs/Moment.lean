import Verif.Spec.Moment
import Verif.Props.Session
/-! What has been heard at any moment: beginnings of callbacks. -/

namespace OatWS.Threads
open RFC6455 Async Prog

theorem prefix_append_cases {α : Type} {x a b : List α} (h : x <+: a ++ b) : x <+: a ∨ ∃ t, x = a ++ t ∧ t <+: b := by
  obtain ⟨r, hr⟩ := h
  rcases List.append_eq_append_iff.mp hr with ⟨t, h1, h2⟩ | ⟨t, h1, h2⟩
  · exact .inl ⟨t, h1.symm⟩
  · exact .inr ⟨t, h1, ⟨r, h2.symm⟩⟩

theorem _root_.OatWS.DataCallbacks.cut {l B op d evs evs'} (h : DataCallbacks l B op d evs) (hp : evs' <+: evs) : ∃ d', d' <+: d ∧ DataCallbacks l B op d' evs' := by
  obtain ⟨opc, chunks, h1, rfl, hc, rfl⟩ := h
  have := List.prefix_iff_eq_take.mp hp
  rw [this, ← List.map_take]
  refine ⟨(chunks.take evs'.length).flatten, ?_, opc, chunks.take evs'.length, h1, rfl, fun c h => hc c (List.mem_of_mem_take h), rfl⟩
  refine ⟨(chunks.drop evs'.length).flatten, ?_⟩
  rw [← List.flatten_append, List.take_append_drop]

theorem _root_.OatWS.DataCallbacks.to {l B op d evs} (h : DataCallbacks l B op d evs) : ∀ e ∈ evs, e.to = l := by
  obtain ⟨opc, chunks, _, _, _, rfl⟩ := h
  intro e he
  obtain ⟨c, _, rfl⟩ := List.mem_map.mp he
  rfl

/-- A beginning of the callbacks of one frame: all of them, or nothing but data. -/
theorem frame_cut {l B : Nat} {f : Frame} {evs evs' : List Event} (h : FrameEvents l B f evs) (hp : evs' <+: evs) (ho : ∃ o, Accepted o f) :
    evs' = evs ∨ ∃ d, reassemble [] evs' = ([], d) ∧ (d = [] ∨ isDataOpcode f.opcode ∧ d <+: f.payload) := by
  have one : ∀ e : Event, evs = [e] → evs' = evs ∨ ∃ d, reassemble [] evs' = ([], d) ∧ (d = [] ∨ isDataOpcode f.opcode ∧ d <+: f.payload) := by
    rintro e rfl
    cases evs' with
    | nil => exact .inr ⟨[], rfl, .inl rfl⟩
    | cons x xs =>
      obtain ⟨t, ht⟩ := hp
      injection ht with h1 h2
      subst h1
      rw [(List.append_eq_nil_iff.mp h2).1]
      exact .inl rfl
  unfold FrameEvents at h
  split at h
  · exact one _ h
  · rename_i h9
    split at h
    · exact one _ h
    · rename_i h10
      split at h
      · obtain ⟨c, _, h⟩ := h
        exact one _ h
      · rename_i h8
        obtain ⟨pieces, hd, rfl⟩ := h
        have hdata : isDataOpcode f.opcode := by
          obtain ⟨o, ho⟩ := ho
          unfold Accepted at ho
          rcases ho with ⟨h, _⟩ | ⟨h, _⟩
          · exact h
          · unfold isControlOpcode at h
            omega
        have data : evs' <+: pieces → ∃ d, reassemble [] evs' = ([], d) ∧ (d = [] ∨ isDataOpcode f.opcode ∧ d <+: f.payload) := by
          intro hp
          obtain ⟨d, h1, h2⟩ := hd.cut hp
          have := reassemble_pieces h2 [] []
          rw [List.append_nil] at this
          exact ⟨d, this, .inr ⟨hdata, h1⟩⟩
        split at hp
        · rw [List.prefix_concat_iff] at hp
          rcases hp with hp | hp
          · rename_i hf
            left
            rw [hp, if_pos hf]
          · exact .inr (data hp)
        · rw [List.append_nil] at hp
          exact .inr (data hp)

/-- A beginning of the callbacks of frames that carry calls. -/
theorem says_cut {env C fs} (hs : ∀ c ∈ C, ∀ f, Carries env c f → Says c f ∧ (∃ o, Accepted o f) ∧ (isDataOpcode f.opcode → ∃ d, (c.msg = .text d ∨ c.msg = .binary d) ∧ f.payload = d))
    (h : CarryAll env C fs) (n : Nat) (l B : Nat) (evs evs' : List Event)
    (he : FramesEvents l B (fs.take n) evs) (hp : evs' <+: evs) : ∃ n', Network.HeardSome C l n' evs' := by
  suffices main : ∃ n', n' ≤ C.length ∧ (reassemble [] evs').1 = (C.take n').map SendCall.msg ∧
      ((reassemble [] evs').2 = [] ∨ ∃ c d, C[n']? = some c ∧ (c.msg = .text d ∨ c.msg = .binary d) ∧ (reassemble [] evs').2 <+: d) by
    obtain ⟨n', h1, h2, h3⟩ := main
    exact ⟨n', fun e h => events_to he e (hp.subset h), h1, h2, h3⟩
  induction C generalizing fs n evs evs' with
  | nil => cases fs with
    | nil =>
      rw [List.take_nil] at he
      rw [show evs = [] from he] at hp
      rw [List.prefix_nil.mp hp]
      exact ⟨0, Nat.zero_le _, rfl, .inl rfl⟩
    | cons => exact h.elim
  | cons c C ih => cases fs with
    | nil => exact h.elim
    | cons f fs =>
      cases n with
      | zero =>
        rw [show evs = [] from he] at hp
        rw [List.prefix_nil.mp hp]
        exact ⟨0, Nat.zero_le _, rfl, .inl rfl⟩
      | succ n =>
        rw [List.take_succ_cons] at he
        obtain ⟨e, es, rfl, h1, h2⟩ := he
        obtain ⟨k1, k2, k3⟩ := hs c (by simp) f h.1
        have cutHead : evs' <+: e → evs' ≠ e → ∃ n', n' ≤ (c :: C).length ∧ (reassemble [] evs').1 = ((c :: C).take n').map SendCall.msg ∧
            ((reassemble [] evs').2 = [] ∨ ∃ c' d, (c :: C)[n']? = some c' ∧ (c'.msg = .text d ∨ c'.msg = .binary d) ∧ (reassemble [] evs').2 <+: d) := by
          intro hp hne
          rcases frame_cut h1 hp k2 with h | ⟨d, h, hd⟩
          · exact absurd h hne
          · refine ⟨0, Nat.zero_le _, by rw [h]; rfl, ?_⟩
            rcases hd with rfl | ⟨hd, hpre⟩
            · exact .inl (by rw [h])
            · obtain ⟨m, hm, em⟩ := k3 hd
              exact .inr ⟨c, m, rfl, hm, by rw [h, ← em]; exact hpre⟩
        rcases prefix_append_cases hp with hp | ⟨t, rfl, ht⟩
        · by_cases hne : evs' = e
          · subst hne
            have := k1 l B evs' [] h1
            rw [List.append_nil] at this
            exact ⟨1, by simp, by rw [this]; rfl, .inl (by rw [this]; rfl)⟩
          · exact cutHead hp hne
        · obtain ⟨n', g1, g2, g3⟩ := ih (fun c hc => hs c (by simp [hc])) h.2 n es t h2 ht
          have := k1 l B e t h1
          refine ⟨n' + 1, by simpa using g1, by rw [this, g2]; rfl, ?_⟩
          rw [this]
          exact g3

theorem Talk.each {env : Env} {cs last : List SendCall} (ht : Talk cs last) : ∀ c ∈ cs ++ last, ∀ f, Carries env c f →
    Says c f ∧ (∃ o, Accepted o f) ∧ (isDataOpcode f.opcode → ∃ d, (c.msg = .text d ∨ c.msg = .binary d) ∧ f.payload = d) := by
  intro c hc f hf
  rcases List.mem_append.mp hc with hc' | hc'
  · obtain ⟨_, h1, _, _, h2⟩ := says_message hf (ht.messages c hc') (ht.small c hc)
    exact ⟨h2, ⟨_, h1⟩, fun h => ht.data hc hf h⟩
  · rcases ht.ends with e | ⟨d, e, hd⟩
    · rw [e] at hc'; cases hc'
    · rw [e, List.mem_singleton] at hc'
      subst hc'
      obtain ⟨_, h1, _, h2⟩ := says_close hf hd (ht.small c hc)
      exact ⟨h2, ⟨_, h1⟩, fun h => ht.data hc hf h⟩

/-- From the calls to a beginning of the callbacks. -/
theorem Talk.heard_some {env : Env} {cs last : List SendCall} (ht : Talk cs last) {F : List Frame} (hF : CarryAll env (cs ++ last) F) {got : List UInt8} (hpre : got <+: wireOf F)
    {ds : List Delivery} {r : Reason} (hr : Receives false got ds r) (hrne : r ≠ .interrupted) {l B : Nat} {evs evs' : List Event} (h4 : Renders l B evs ds) (hp : evs' <+: evs) :
    ∃ n, Network.HeardSome (cs ++ last) l n evs' := by
  rcases ht.shape hF with ⟨e, el⟩ | ⟨F', f, e, ha, hv, hacc, h8⟩
  · subst e
    rw [show wireOf [] = [] from rfl] at hpre
    rw [List.prefix_nil.mp hpre] at hr
    rw [hr.nil.1] at h4
    have e3 := h4.nil_inv
    subst e3
    rw [List.prefix_nil.mp hp]
    exact ⟨0, fun _ h => (by cases h), Nat.zero_le _, rfl, .inl rfl⟩
  · subst e
    obtain ⟨n, D, hn, e1, k1, k2, k3⟩ := hr.prefix ha hv hacc hpre hrne
    rw [e1] at h4
    obtain ⟨ew, ec, rfl, hw, hcut⟩ := h4.split
    have hmem : ∀ g ∈ F' ++ [f], ∃ o, Accepted o g := by
      intro g hg
      rcases List.mem_append.mp hg with hg | hg
      · exact ha.mem g hg
      · rw [List.mem_singleton.mp hg]; exact ⟨_, hacc⟩
    have hw := deliveries_framesEvents (fun g hg => hmem g (List.mem_of_mem_take hg)) hw
    rcases prefix_append_cases hp with hp' | ⟨t, rfl, hp'⟩
    · exact says_cut ht.each hF n l B ew evs' hw hp'
    · clear hp
      have hp := hp'
      have hsay := ht.says hF n l B ew t hw
      have hlen := hF.length
      have none : ec = [] → ∃ n, Network.HeardSome (cs ++ last) l n (ew ++ t) := by
        rintro rfl
        rw [List.prefix_nil.mp hp] at hsay ⊢
        refine ⟨n, ?_, by omega, by rw [hsay]; simp [reassemble], .inl (by rw [hsay]; rfl)⟩
        rw [List.append_nil]
        exact events_to hw
      rcases Nat.lt_or_ge n (F' ++ [f]).length with hlt | hge
      · rcases (k2 _ (List.getElem?_eq_getElem hlt)).2 with rfl | ⟨hd, d, hpd, hl, rfl⟩
        · exact none hcut.nil_inv
        · obtain ⟨e, es, rfl, hdc, hes⟩ := hcut.data_inv
          have hes := hes.nil_inv
          subst hes
          rw [List.append_nil] at hp
          obtain ⟨d', hd', hdc'⟩ := hdc.cut hp
          have hre := reassemble_pieces hdc' [] []
          rw [List.append_nil] at hre
          have hre : reassemble [] t = ([], d') := hre
          obtain ⟨c, hc', hcar⟩ := hF.get n _ (List.getElem?_eq_getElem hlt)
          obtain ⟨m, hm, em⟩ := ht.data (List.mem_of_getElem? hc') hcar hd
          refine ⟨n, ?_, by omega, by rw [hsay, hre]; simp, .inr ⟨c, m, hc', hm, ?_⟩⟩
          · intro e he
            rcases List.mem_append.mp he with he | he
            · exact events_to hw e he
            · exact hdc'.to e he
          · rw [hsay, hre, ← em]
            exact hd'.trans hpd
      · have := k3 (by omega)
        subst this
        exact none hcut.nil_inv

/-- A callback that has not returned: the bytes say at most the end of the message more. -/
theorem _root_.OatWS.OneFrame.go_on {o : Bool} {bs : List UInt8} {ds : List Delivery} {fe : FrameEnd} (h : OneFrame o bs ds fe) : ∃ ds' fe', OneFrame o bs ds' fe' ∧ fe' ≠ .over .interrupted ∧
    (ds' = ds ∨ ∃ op : UInt8, ds' = ds ++ [.endOfMessage op.toNat]) := by
  cases h with
  | interruptedData h1 h2 h3 h4 h5 =>
    rename_i hd rest
    rcases Nat.lt_or_ge rest.length (effectiveLen hd.len) with hlt | hge
    · exact ⟨_, _, .cutData h1 h2 h3 hlt, nofun, .inl rfl⟩
    · refine ⟨_, _, .data h1 h2 h3 (by omega), nofun, ?_⟩
      cases hd.fin with
      | false => exact .inl rfl
      | true =>
        refine .inr ⟨UInt8.ofNat hd.opcode, ?_⟩
        have : (UInt8.ofNat hd.opcode).toNat = hd.opcode := by
          rcases h2 with h | h | h <;> rw [h] <;> rfl
        rw [this]
        rfl
  | interruptedEnd h1 h2 h3 h4 h5 => 
    refine ⟨_, _, .data h1 h2 h3 h4, nofun, .inl ?_⟩
    rw [h5]
    rfl
  | interruptedControl h1 h2 h3 h4 =>
    rcases h2 with h | h | h
    · exact ⟨_, _, .close h1 h h3 h4, nofun, .inl rfl⟩
    · exact ⟨_, _, .pingPong h1 (.inl h) h3 h4, nofun, .inl rfl⟩
    · exact ⟨_, _, .pingPong h1 (.inr h) h3 h4, nofun, .inl rfl⟩
  | noHeader h1 => exact ⟨_, _, .noHeader h1, nofun, .inl rfl⟩
  | badOpcode h1 h2 h3 => exact ⟨_, _, .badOpcode h1 h2 h3, nofun, .inl rfl⟩
  | badContinuation h1 h2 h3 => exact ⟨_, _, .badContinuation h1 h2 h3, nofun, .inl rfl⟩
  | badStart h1 h2 h3 => exact ⟨_, _, .badStart h1 h2 h3, nofun, .inl rfl⟩
  | cutData h1 h2 h3 h4 => exact ⟨_, _, .cutData h1 h2 h3 h4, nofun, .inl rfl⟩
  | data h1 h2 h3 h4 => exact ⟨_, _, .data h1 h2 h3 h4, nofun, .inl rfl⟩
  | badControl h1 h2 h3 => exact ⟨_, _, .badControl h1 h2 h3, nofun, .inl rfl⟩
  | cutControl h1 h2 h3 h4 => exact ⟨_, _, .cutControl h1 h2 h3 h4, nofun, .inl rfl⟩
  | close h1 h2 h3 h4 => exact ⟨_, _, .close h1 h2 h3 h4, nofun, .inl rfl⟩
  | pingPong h1 h2 h3 h4 => exact ⟨_, _, .pingPong h1 h2 h3 h4, nofun, .inl rfl⟩

/-- The callbacks are a beginning of what the bytes say. -/
def Hears (l B : Nat) (got : List UInt8) (evs : List Event) : Prop :=
  ∃ ds r evs', Receives false got ds r ∧ r ≠ .interrupted ∧ Renders l B evs' ds ∧ evs <+: evs'

theorem hears_frames {l B : Nat} {whole part : List UInt8} {ds ds' : List Delivery} {o : Bool} {fe : FrameEnd} {evs evs' : List Event} (h1 : Complete false whole ds o) (h2 : OneFrame o part ds' fe)
    (h3 : Renders l B evs (ds ++ ds')) (h4 : evs' <+: evs) : Hears l B (whole ++ part) evs' := by
  obtain ⟨ds2, fe2, g1, g2, g3⟩ := h2.go_on
  have hren : ∃ evs2, Renders l B evs2 (ds ++ ds2) ∧ evs <+: evs2 := by
    rcases g3 with rfl | ⟨op, rfl⟩
    · exact ⟨evs, h3, List.prefix_refl _⟩
    · refine ⟨evs ++ [.readMessage l op []], ?_, List.prefix_append _ _⟩
      rw [← List.append_assoc]
      exact h3.append (.endOfMessage .nil)
  obtain ⟨evs2, h5, h6⟩ := hren
  cases fe2 with
  | next o' => exact ⟨_, _, evs2, h1.receives (.stop g1), nofun, h5, h4.trans h6⟩
  | over r => exact ⟨_, r, evs2, h1.receives (.last g1), fun e => g2 (by rw [e]), h5, h4.trans h6⟩

/-- The first thread can go on, without any input, until it is at one of the places of `IsAt`. -/
theorem Fed.onward {env : Env} {p q : Pool} {log fed} (h : Fed env p log fed q) (t : Prog Unit) (ht : q.threads[0]? = some t) :
    ∃ log' q' t' evs, Fed env p log' fed q' ∧ q'.threads[0]? = some t' ∧ (t' = .stuck ∨ ∃ x, IsAt t' x) ∧ q'.st.inp = q.st.inp ∧ q'.st.sock.trace = q.st.sock.trace ++ evs := by
  induction t generalizing log q with
  | ret a => exact ⟨log, q, _, [], h, ht, .inr ⟨_, rfl⟩, rfl, (List.append_nil _).symm⟩
  | throw e => exact ⟨log, q, _, [], h, ht, .inr ⟨_, rfl⟩, rfl, (List.append_nil _).symm⟩
  | ub u => exact ⟨log, q, _, [], h, ht, .inr ⟨_, rfl⟩, rfl, (List.append_nil _).symm⟩
  | stuck => exact ⟨log, q, _, [], h, ht, .inl rfl, rfl, (List.append_nil _).symm⟩
  | act a k ih =>
    have hlen : 0 < q.threads.length := by
      cases hq : q.threads with
      | nil => rw [hq] at ht; cases ht
      | cons => simp
    have go : ∀ (r : a.Res) (st' : St) (evs : List Event), Ready a q.st = true → exec env a q.st = some (r, st') → st'.inp = q.st.inp → st'.sock.trace = q.st.sock.trace ++ evs →
        ∃ log' q' t' evs, Fed env p log' fed q' ∧ q'.threads[0]? = some t' ∧ (t' = .stuck ∨ ∃ x, IsAt t' x) ∧ q'.st.inp = q.st.inp ∧ q'.st.sock.trace = q.st.sock.trace ++ evs := by
      intro r st' evs h1 h2 h3 h4
      obtain ⟨log', q', t', evs', g1, g2, g3, g4, g5⟩ := ih r (.own h ht h1 h2) (by
        show (q.threads.set 0 (k r))[0]? = some (k r)
        rw [List.getElem?_set_self hlen])
      exact ⟨log', q', t', evs ++ evs', g1, g2, g3, g4.trans h3, by rw [g5, ← List.append_assoc, ← h4]⟩
    cases a with
    | read n => exact ⟨log, q, _, [], h, ht, .inr ⟨_, rfl⟩, rfl, (List.append_nil _).symm⟩
    | write d => exact ⟨log, q, _, [], h, ht, .inr ⟨_, rfl⟩, rfl, (List.append_nil _).symm⟩
    | callback e => exact go _ _ [e] rfl rfl rfl rfl
    | _ => exact go _ _ [] rfl rfl rfl (List.append_nil _).symm

theorem hears_of_heard {p0 p : Pool} {sent : List UInt8} {used : List IoOutcome} {l B : Nat} {whole part : List UInt8} {fe : FrameEnd} {R : Rules} (hl : R.listener = (· = l)) (hB : R.size = B)
    (hh : Heard R false { p0.st with inp := ⟨sent ++ [0], used⟩ } (withInp p (p.st.inp.bytes ++ [0]) []).st whole part fe) :
    ∃ evs, whole ++ part <+: sent ∧ p.st.sock.trace = p0.st.sock.trace ++ evs ∧ Hears l B (whole ++ part) evs := by
  obtain ⟨ds, o1, ds', evs, h1, h2, h3, h4⟩ := hh.told
  rw [hl, hB] at h4
  refine ⟨evs, ⟨p.st.inp.bytes, ?_⟩, h3, hears_frames h1 h2 h4.renders (List.prefix_refl _)⟩
  have : sent ++ [0] = whole ++ part ++ (p.st.inp.bytes ++ [0]) := hh.bytes
  rw [← List.append_assoc] at this
  exact (List.append_cancel_right this).symm

/-- From a later moment to an earlier one. -/
theorem hears_earlier {q q' p0 : Pool} {l B : Nat} {sent : List UInt8} {evs : List Event} (h : q'.st.sock.trace = q.st.sock.trace ++ evs)
    (hstart : ∃ x, q.st.sock.trace = p0.st.sock.trace ++ x) (h' : ∃ got evs, got <+: sent ∧ q'.st.sock.trace = p0.st.sock.trace ++ evs ∧ Hears l B got evs) :
    ∃ got evs, got <+: sent ∧ q.st.sock.trace = p0.st.sock.trace ++ evs ∧ Hears l B got evs := by
  obtain ⟨got, evs2, h1, h2, ds, r, evs3, h3, h4, h5, h6⟩ := h'
  obtain ⟨x, hx⟩ := hstart
  refine ⟨got, x, h1, hx, ds, r, evs3, h3, h4, h5, List.IsPrefix.trans ⟨evs, ?_⟩ h6⟩
  rw [h, hx, List.append_assoc] at h2
  exact List.append_cancel_left h2

theorem exec_grows {env : Env} {a : Act} {st st' : St} {r : a.Res} (he : exec env a st = some (r, st')) : ∃ x, st'.sock.trace = st.sock.trace ++ x := by
  cases a with
  | read n =>
    dsimp only [exec] at he
    split at he
    · cases he
    · injection he with he
      injection he with h1 h2
      subst h2
      exact ⟨[], (List.append_nil _).symm⟩
  | write d =>
    dsimp only [exec] at he
    split at he
    · cases he
    · split at he <;>
      · injection he with he
        injection he with h1 h2
        subst h2
        exact ⟨[], (List.append_nil _).symm⟩
  | callback e => injection he with he; injection he with h1 h2; subst h2; exact ⟨[e], rfl⟩
  | _ => injection he with he; injection he with h1 h2; subst h2; exact ⟨[], (List.append_nil _).symm⟩

theorem Fed.grows {env : Env} {p q : Pool} {log fed} (h : Fed env p log fed q) : ∃ x, q.st.sock.trace = p.st.sock.trace ++ x := by
  induction h with
  | refl => exact ⟨[], (List.append_nil _).symm⟩
  | own _ _ _ he ih =>
    obtain ⟨x, hx⟩ := ih
    obtain ⟨y, hy⟩ := exec_grows he
    exact ⟨x ++ y, by rw [← List.append_assoc, ← hx]; exact hy⟩
  | feed _ _ ih => exact ih

/-- What a listening thread has heard, at any moment. -/
theorem Fed.moment {env : Env} {p0 p : Pool} {log sent} (hfed : Fed env p0 log sent p) {fuel l B : Nat} (hB : Listening env fuel l B p0) (hl : AllLive p0) :
    ∃ got evs, got <+: sent ∧ p.st.sock.trace = p0.st.sock.trace ++ evs ∧ Hears l B got evs := by
  obtain ⟨hd, others, hts, hoth⟩ := hB.threads
  have hlen : 0 < p.threads.length := by rw [hfed.indices.1, hts]; simp
  obtain ⟨log', q', t', evs, h1, h2, h3, h4, h5⟩ := hfed.onward _ (List.getElem?_eq_getElem hlen)
  refine hears_earlier h5 hfed.grows ?_
  rcases h3 with rfl | ⟨x, hx⟩
  · exact (h1.live hl _ (List.mem_of_getElem? h2)).elim
  · obtain ⟨used, hlog, hused⟩ := h1.logged [0] []
    rw [hB.nothing, List.nil_append, List.append_nil] at hlog
    have hin : (fineRules l B p0.st).In false { p0.st with inp := ⟨sent ++ [0], used⟩ } := ⟨hB.start.listener, hB.start.size, fineRules_sched hused, hB.start.opened⟩
    have hsteps : Pool.Steps env ⟨listenT env fuel hd :: others, { p0.st with inp := ⟨sent ++ [0], used⟩ }⟩ (withInp q' (q'.st.inp.bytes ++ [0]) []) := by
      have := hlog.steps
      unfold withInp at this
      rw [hts] at this
      exact this
    obtain ⟨whole, part, fe, g1, _⟩ := C59_reception _ env false fuel hd _ others _ (fun tr op h => fineRules_op op (hB.callbacks tr op h)) hB.size hin
      (fun q h => (hoth q h).weaken fineRules_op) hsteps t' h2 x hx
    obtain ⟨evs, g⟩ := hears_of_heard rfl rfl g1
    exact ⟨_, evs, g⟩

/-- What a session has heard, at any moment. -/
theorem Fed.session_moment {env : Env} {p0 p : Pool} {log sent} (hfed : Fed env p0 log sent p) {fuel l B : Nat} {created destroyed : List UserOp}
    (hB : Session env fuel l B created destroyed p0) (hl : AllLive p0) :
    ∃ got evs, got <+: sent ∧ p.st.sock.trace = p0.st.sock.trace ++ evs ∧ Hears l B got evs := by
  obtain ⟨hd, others, hts, hoth⟩ := hB.threads
  have hlen : 0 < p.threads.length := by rw [hfed.indices.1, hts]; simp
  obtain ⟨log', q', t', evs, h1, h2, h3, h4, h5⟩ := hfed.onward _ (List.getElem?_eq_getElem hlen)
  refine hears_earlier h5 hfed.grows ?_
  rcases h3 with rfl | ⟨x, hx⟩
  · exact (h1.live hl _ (List.mem_of_getElem? h2)).elim
  · obtain ⟨used, hlog, hused⟩ := h1.logged [0] []
    rw [hB.nothing, List.nil_append, List.append_nil] at hlog
    have hsteps : Pool.Steps env ⟨sessionT env fuel created hd destroyed :: others, { p0.st with inp := ⟨sent ++ [0], used⟩ }⟩
        (withInp q' (q'.st.inp.bytes ++ [0]) []) := by
      have := hlog.steps
      unfold withInp at this
      rw [hts] at this
      exact this
    obtain ⟨whole, part, fe, g1, _⟩ := (session_reception (fineRules l B p0.st) env false fuel l created hd destroyed others { p0.st with inp := ⟨sent ++ [0], used⟩ } _ (fun tr op h => fineRules_op op (hB.callbacks tr op h)) hB.size rfl
      (fineRules_sched hused) hB.noMessage hB.listener hB.bufferSize (fun op ho => fineRules_op op (hB.destroyed op ho))
      (fun q h => (hoth q h).weaken fineRules_op) hsteps t' h2 x hx).1
    obtain ⟨evs, g⟩ := hears_of_heard rfl rfl g1
    exact ⟨_, evs, g⟩

end OatWS.Threads
