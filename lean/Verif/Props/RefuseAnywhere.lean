import Verif.Props.Determined
import Verif.Props.Refuse
/-! # C84: every receiver refuses a frame exactly for the reasons of C49 -/

namespace OatWS
open RFC6455 Async

theorem refusal_data {o : Bool} {hd : Hdr} {e : Err} (hr : refusal o hd = some e) (h1 : isDataOpcode hd.opcode) (h2 : mayStart o hd.opcode) : False := by
  unfold refusal at hr
  unfold mayStart at h2
  rcases h1 with h | h | h <;> rw [h] at hr h2 <;> cases o <;> simp at hr h2

theorem refusal_control {o : Bool} {hd : Hdr} {e : Err} (hr : refusal o hd = some e) (h1 : isControlOpcode hd.opcode) (h2 : effectiveLen hd.len ≤ 125) : False := by
  unfold refusal at hr
  unfold effectiveLen at h2
  rcases h1 with h | h | h <;> rw [h] at hr <;> simp at hr <;> rw [if_pos hr.1.2] at h2 <;> omega

/-- A frame that is refused: only its header is consumed. -/
theorem OneFrame.refused {o : Bool} {T rest b : List UInt8} {hd : Hdr} {e : Err} {d : List Delivery} {fe : FrameEnd} (hp : parseHdr T = some (hd, rest)) (hr : refusal o hd = some e) (hb : b <+: T)
    (h : OneFrame o b d fe) :
    d = [] ∧ ((fe = .over .incomplete ∧ ∃ y, T = b ++ (y ++ rest)) ∨ (T = b ++ rest ∧ ∃ r, fe = .over r ∧ r ≠ .incomplete ∧ r ≠ .closed ∧ r ≠ .stopped ∧ r ≠ .interrupted ∧ FailsLike r (.thrown e))) := by
  obtain ⟨x, rfl⟩ := hb
  have same : ∀ {h r}, parseHdr b = some (h, r) → h = hd ∧ r ++ x = rest := fun {h r} hh => by
    have := parseHdr_append x hh
    rw [hp] at this
    injection this with this
    injection this with h1 h2
    exact ⟨h1.symm, h2.symm⟩
  have bad : ∀ {r : Reason}, parseHdr b = some (hd, []) → FailsLike r (.thrown e) → r ≠ .incomplete → r ≠ .closed → r ≠ .stopped → r ≠ .interrupted → OneFrame o b [] (.over r) →
      (FrameEnd.over r = .over .incomplete ∧ ∃ y, b ++ x = b ++ (y ++ rest)) ∨ (b ++ x = b ++ rest ∧ ∃ r', FrameEnd.over r = .over r' ∧ r' ≠ .incomplete ∧ r' ≠ .closed ∧ r' ≠ .stopped ∧ r' ≠ .interrupted ∧ FailsLike r' (.thrown e)) :=
    fun {r} h1 h2 h3 h4 h5 h6 _ => by
      have := (same h1).2
      rw [List.nil_append] at this
      rw [this]
      exact .inr ⟨rfl, r, rfl, h3, h4, h5, h6, h2⟩
  cases h with
  | noHeader h1 =>
    refine ⟨rfl, .inl ⟨rfl, ?_⟩⟩
    obtain ⟨a, ha, hall⟩ := parseHdr_prefix hp
    rcases Nat.lt_or_ge b.length a.length with hl | hl
    · have : b <+: a := List.prefix_of_prefix_length_le (List.prefix_append b x) (by rw [ha]; exact List.prefix_append _ _) (Nat.le_of_lt hl)
      obtain ⟨y, rfl⟩ := this
      refine ⟨y, ?_⟩
      rw [ha, List.append_assoc]
    · have : a <+: b := List.prefix_of_prefix_length_le (l₃ := b ++ x) (by rw [ha]; exact List.prefix_append _ _) (List.prefix_append _ _) hl
      obtain ⟨y, rfl⟩ := this
      rw [hall y] at h1
      cases h1
  | badOpcode h1 h2 h3 =>
    obtain ⟨rfl, _⟩ := same h1
    refine ⟨rfl, bad h1 ?_ nofun nofun nofun nofun (.badOpcode h1 h2 h3)⟩
    unfold refusal at hr
    unfold isDataOpcode at h2
    unfold isControlOpcode at h3
    rw [if_neg (by omega), if_neg (by omega), if_neg h3] at hr
    injection hr with hr
    exact congrArg _ hr.symm
  | badContinuation h1 h2 h3 =>
    obtain ⟨rfl, _⟩ := same h1
    refine ⟨rfl, bad h1 ?_ nofun nofun nofun nofun (.badContinuation h1 h2 h3)⟩
    unfold refusal at hr
    rw [if_pos h2, h3] at hr
    injection hr with hr
    exact congrArg _ hr.symm
  | badStart h1 h2 h3 =>
    obtain ⟨rfl, _⟩ := same h1
    refine ⟨rfl, bad h1 ?_ nofun nofun nofun nofun (.badStart h1 h2 h3)⟩
    unfold refusal at hr
    rw [if_neg (by omega), if_pos h2, h3] at hr
    injection hr with hr
    exact congrArg _ hr.symm
  | badControl h1 h2 h3 =>
    obtain ⟨rfl, _⟩ := same h1
    refine ⟨rfl, bad h1 ?_ nofun nofun nofun nofun (.badControl h1 h2 h3)⟩
    unfold isControlOpcode at h2
    unfold refusal at hr
    rw [if_neg (by omega), if_neg (by omega), if_pos h2] at hr
    split at hr
    · injection hr with hr
      exact congrArg _ hr.symm
    · cases hr
  | cutData h1 h2 h3 => obtain ⟨rfl, _⟩ := same h1; exact (refusal_data hr h2 h3).elim
  | data h1 h2 h3 => obtain ⟨rfl, _⟩ := same h1; exact (refusal_data hr h2 h3).elim
  | interruptedData h1 h2 h3 => obtain ⟨rfl, _⟩ := same h1; exact (refusal_data hr h2 h3).elim
  | interruptedEnd h1 h2 h3 => obtain ⟨rfl, _⟩ := same h1; exact (refusal_data hr h2 h3).elim
  | cutControl h1 h2 h3 => obtain ⟨rfl, _⟩ := same h1; exact (refusal_control hr h2 h3).elim
  | close h1 h2 h3 => obtain ⟨rfl, _⟩ := same h1; exact (refusal_control hr (.inl h2) h3).elim
  | pingPong h1 h2 h3 => obtain ⟨rfl, _⟩ := same h1; exact (refusal_control hr (.inr h2) h3).elim
  | interruptedControl h1 h2 h3 => obtain ⟨rfl, _⟩ := same h1; exact (refusal_control hr h2 h3).elim

/-- A frame that is complete: a receiver consumes it, or ends within it. -/
theorem OneFrame.within {o o1 : Bool} {T b b' : List UInt8} {d d' : List Delivery} {fe : FrameEnd} (h : OneFrame o b d (.next o1)) (hb : b <+: T) (h' : OneFrame o b' d' fe) (hb' : b' <+: T) :
    (b' = b ∧ d' = d ∧ fe = .next o1) ∨ (b' <+: b ∧ (fe = .over .incomplete ∨ fe = .over .interrupted)) := by
  have e1 := oneFrame_interpret h hb nofun nofun
  by_cases hi : fe = .over .incomplete ∨ fe = .over .interrupted
  · refine .inr ⟨?_, hi⟩
    refine List.prefix_of_prefix_length_le hb' hb ?_
    obtain ⟨x, rfl⟩ := hb
    obtain ⟨y, hy⟩ := hb'
    have head : ∃ hd r, parseHdr b = some (hd, r) ∧ r.length = effectiveLen hd.len := by
      cases h with
      | data h1 _ _ h4 => exact ⟨_, _, h1, h4⟩
      | pingPong h1 _ _ h4 => exact ⟨_, _, h1, h4⟩
    obtain ⟨hd, r, p1, p2⟩ := head
    have q1 := parseHdr_append x p1
    have less : ∀ {hd' r'}, parseHdr b' = some (hd', r') → r'.length ≤ effectiveLen hd'.len → b'.length ≤ b.length := fun {hd' r'} k1 k2 => by
      have k3 := parseHdr_append y k1
      rw [hy, q1] at k3
      injection k3 with k3
      injection k3 with k3 k4
      subst k3
      have l1 := congrArg List.length hy
      have l2 := congrArg List.length k4
      simp only [List.length_append] at l1 l2
      omega
    cases h' with
    | noHeader h1 =>
      rcases Nat.lt_or_ge b.length b'.length with hl | hl
      · have : b <+: b' := List.prefix_of_prefix_length_le (l₃ := b ++ x) (List.prefix_append _ _) ⟨y, hy⟩ (Nat.le_of_lt hl)
        obtain ⟨z, rfl⟩ := this
        rw [parseHdr_append z p1] at h1
        cases h1
      · exact hl
    | cutData h1 _ _ h4 => exact less h1 (Nat.le_of_lt h4)
    | cutControl h1 _ _ h4 => exact less h1 (Nat.le_of_lt h4)
    | interruptedData h1 _ _ _ h4 => exact less h1 h4
    | interruptedEnd h1 _ _ h4 => exact less h1 (Nat.le_of_eq h4)
    | interruptedControl h1 _ _ h4 => exact less h1 (Nat.le_of_eq h4)
    | _ => rcases hi with hi | hi <;> cases hi
  · have e2 := oneFrame_interpret h' hb' (fun e => hi (.inr e)) (fun e => absurd (.inl e) hi)
    rw [← e1] at e2
    injection e2 with e2 e3
    injection e3 with e3 e4
    exact .inl ⟨e2, e3, e4⟩

/-- Complete frames begin with one. -/
theorem _root_.OatWS.Async.Complete.uncons {o o' : Bool} {bs : List UInt8} {ds : List Delivery} (h : Complete o bs ds o') :
    (bs = [] ∧ ds = [] ∧ o' = o) ∨ ∃ b d o1 bs' ds', OneFrame o b d (.next o1) ∧ Complete o1 bs' ds' o' ∧ bs = b ++ bs' ∧ ds = d ++ ds' := by
  induction h with
  | nil => exact .inl ⟨rfl, rfl, rfl⟩
  | snoc h1 h2 ih =>
    refine .inr ?_
    rcases ih with ⟨rfl, rfl, rfl⟩ | ⟨b, d, o1, bs', ds', k1, k2, rfl, rfl⟩
    · exact ⟨_, _, _, [], [], h2, .nil, by simp, by simp⟩
    · exact ⟨b, d, o1, _, _, k1, .snoc k2 h2, by rw [List.append_assoc], by rw [List.append_assoc]⟩

/-- A receiver of complete frames and one that is refused. -/
theorem Receives.refused {o o' : Bool} {frames tail rest bs : List UInt8} {ds D : List Delivery} {hd : Hdr} {e : Err} {r : Reason} (hc : Complete o frames ds o') (hp : parseHdr tail = some (hd, rest))
    (hr : refusal o' hd = some e) (h : Receives o bs D r) (hb : bs <+: frames ++ tail) :
    (∃ y, frames ++ tail = bs ++ (y ++ rest)) ∧ r ≠ .closed ∧ (∀ e', FailsLike r (.thrown e') → e'.isProtocol → e' = e ∧ frames ++ tail = bs ++ rest ∧ D = ds) ∧ (frames ++ tail = bs ++ rest → D = ds) := by
  obtain ⟨a, ha, hall⟩ := parseHdr_prefix hp
  have ha2 : 2 ≤ a.length := by
    have := hall []
    obtain ⟨a', h1, h2⟩ := parseHdr_suffix this
    simp at h1
    rw [h1]; exact h2
  induction h generalizing frames ds with
  | @last o bs D r h =>
    rcases hc.uncons with ⟨rfl, rfl, rfl⟩ | ⟨b, d, o1, bs', ds', k1, k2, rfl, rfl⟩
    · obtain ⟨rfl, ⟨he, y, hy⟩ | ⟨hy, r', he, n1, n2, n3, n4, hf⟩⟩ := h.refused hp hr hb
      · injection he with he
        subst he
        exact ⟨⟨y, hy⟩, nofun, fun e' hf hpr => (by rcases hf with hf | hf <;> cases hf; cases hpr), fun _ => rfl⟩
      · injection he with he
        subst he
        refine ⟨⟨[], hy⟩, n2, fun e' hf' _ => ⟨?_, hy, rfl⟩, fun _ => rfl⟩
        cases r <;> first | exact absurd rfl n1 | exact absurd rfl n2 | exact absurd rfl n3 | exact absurd rfl n4 | (cases hf; cases hf'; rfl)
    · rcases k1.within (T := b ++ bs' ++ tail) (by rw [List.append_assoc]; exact List.prefix_append _ _) h hb with ⟨_, _, e3⟩ | ⟨⟨z, rfl⟩, e3⟩
      · cases e3
      · refine ⟨⟨z ++ (bs' ++ a), by rw [ha]; simp⟩, ?_, fun e' hf hpr => ?_, fun he => ?_⟩
        · rcases e3 with e3 | e3 <;> injection e3 with e3 <;> subst e3 <;> nofun
        · rcases e3 with e3 | e3 <;> injection e3 with e3 <;> subst e3 <;> rcases hf with hf | hf <;> cases hf <;> cases hpr
        · rw [ha] at he
          have := congrArg List.length he
          simp only [List.length_append] at this
          omega
  | @stop o bs D o2 h =>
    rcases hc.uncons with ⟨rfl, rfl, rfl⟩ | ⟨b, d, o1, bs', ds', k1, k2, rfl, rfl⟩
    · obtain ⟨rfl, ⟨he, y, hy⟩ | ⟨hy, r', he, _⟩⟩ := h.refused hp hr hb <;> cases he
    · rcases k1.within (T := b ++ bs' ++ tail) (by rw [List.append_assoc]; exact List.prefix_append _ _) h hb with ⟨rfl, _, _⟩ | ⟨_, e3 | e3⟩
      · refine ⟨⟨bs' ++ a, by rw [ha]; simp⟩, nofun, fun e' hf => hf.elim, fun he => ?_⟩
        rw [ha] at he
        have := congrArg List.length he
        simp only [List.length_append] at this
        omega
      · cases e3
      · cases e3
  | @more o bs D o2 bs2 D2 r h _ ih =>
    have hb1 : bs <+: frames ++ tail := List.IsPrefix.trans (List.prefix_append _ _) hb
    rcases hc.uncons with ⟨rfl, rfl, rfl⟩ | ⟨b, d, o1, bs', ds', k1, k2, rfl, rfl⟩
    · obtain ⟨rfl, ⟨he, y, hy⟩ | ⟨hy, r', he, _⟩⟩ := h.refused hp hr hb1 <;> cases he
    · rcases k1.within (T := b ++ bs' ++ tail) (by rw [List.append_assoc]; exact List.prefix_append _ _) h hb1 with ⟨rfl, rfl, e3⟩ | ⟨_, e3 | e3⟩
      · injection e3 with e3
        subst e3
        rw [List.append_assoc] at hb
        obtain ⟨⟨y, h1⟩, h2, h3, h4⟩ := ih k2 ((List.prefix_append_right_inj _).mp hb)
        refine ⟨⟨y, by rw [List.append_assoc, h1, List.append_assoc]⟩, h2, fun e' hf hpr => ?_, fun he => ?_⟩
        · obtain ⟨g1, g2, g3⟩ := h3 e' hf hpr
          exact ⟨g1, by rw [List.append_assoc, g2, List.append_assoc], by rw [g3]⟩
        · rw [List.append_assoc, List.append_assoc] at he
          rw [h4 (List.append_cancel_left he)]
      · cases e3
      · cases e3

/-- A receiver that refuses a frame has a reason. -/
theorem Receives.reason {o : Bool} {bs : List UInt8} {D : List Delivery} {r : Reason} {e : Err} (h : Receives o bs D r) (hf : FailsLike r (.thrown e)) (hpr : e.isProtocol) :
    ∃ frames hdr o' hd, bs = frames ++ hdr ∧ Complete o frames D o' ∧ parseHdr hdr = some (hd, []) ∧ refusal o' hd = some e := by
  induction h with
  | @last o bs D r h =>
    refine ⟨[], bs, o, ?_⟩
    have : ∃ hd, D = [] ∧ parseHdr bs = some (hd, []) ∧ refusal o hd = some e := by
      cases h with
      | noHeader => rcases hf with hf | hf <;> cases hf; cases hpr
      | cutData => rcases hf with hf | hf <;> cases hf; cases hpr
      | cutControl => rcases hf with hf | hf <;> cases hf; cases hpr
      | close => exact hf.elim
      | interruptedData => rcases hf with hf | hf <;> cases hf; cases hpr
      | interruptedEnd => rcases hf with hf | hf <;> cases hf; cases hpr
      | interruptedControl => rcases hf with hf | hf <;> cases hf; cases hpr
      | badOpcode h1 h2 h3 =>
        cases hf
        unfold isDataOpcode at h2
        unfold isControlOpcode at h3
        exact ⟨_, rfl, h1, by unfold refusal; rw [if_neg (by omega), if_neg (by omega), if_neg h3]⟩
      | badContinuation h1 h2 h3 =>
        cases hf
        exact ⟨_, rfl, h1, by unfold refusal; rw [if_pos h2, h3]; rfl⟩
      | badStart h1 h2 h3 =>
        cases hf
        exact ⟨_, rfl, h1, by unfold refusal; rw [if_neg (by omega), if_pos h2, h3]; rfl⟩
      | badControl h1 h2 h3 =>
        cases hf
        unfold isControlOpcode at h2
        refine ⟨_, rfl, h1, ?_⟩
        unfold effectiveLen at h3
        unfold refusal
        split at h3
        · rename_i h4
          rw [if_neg (by omega), if_neg (by omega), if_pos h2, if_pos ⟨h3, h4⟩]
        · omega
    obtain ⟨hd, rfl, h1, h2⟩ := this
    exact ⟨hd, rfl, .nil, h1, h2⟩
  | stop => exact hf.elim
  | more h _ ih =>
    obtain ⟨frames, hdr, o', hd, rfl, h2, h3, h4⟩ := ih hf
    exact ⟨_, hdr, o', hd, by rw [List.append_assoc], Threads.complete_cons h h2, h3, h4⟩

/-! ## `listenAsync` among any other tasks -/

namespace Async

/-- **C84** (async, only for these reasons). `listenAsync` among any other tasks and with any callbacks (as C47), in any order: if it has failed with a protocol error `e`, then it has consumed complete frames and the
header of one more, which is to be refused with `e` (`refusal`, as C49), and nothing behind this header; and the callbacks made are those for the complete frames. -/
theorem C84_async_only_for_reason (env : Env) (S : Settings) (hS : S.Env env) (h : Header) (w : World) (o : Bool) (ho : OpenIs o w.st.sock.lastOpcode) (hw : S.In w)
    (others : List Outcome) (hothers : ∀ t ∈ others, S.Task t) (p : Pool) (hp : Pool.Steps env ⟨.run (listenTask h) :: others, w⟩ p)
    (e : Err) (he : e.isProtocol) (hf : p.tasks[0]? = some (.failed (.thrown e))) :
    ∃ frames hdr ds o' hd evs, w.st.inp.bytes = frames ++ hdr ++ p.world.st.inp.bytes ∧ Complete o frames ds o' ∧ parseHdr hdr = some (hd, []) ∧ refusal o' hd = some e ∧
      p.world.st.sock.trace = w.st.sock.trace ++ evs ∧ RendersMix S evs ds := by
  rcases (C47_among_other_tasks env S hS h w o ho hw others hothers p hp).2 _ hf with ⟨r, h1, c, ds, evs, h2, h3, h4, h5⟩ | ⟨h1, _⟩
  · obtain ⟨frames, hdr, o', hd, rfl, k1, k2, k3⟩ := h4.reason h1 he
    exact ⟨frames, hdr, ds, o', hd, evs, h2, k1, k2, k3, h3, h5⟩
  · injection h1 with h1
    subst h1
    cases he

/-- **C84** (async, always for these reasons). The bytes to be received are complete frames, then the header of a frame that is to be refused with `e`, and more. Then `listenAsync`, among any other tasks and with
any callbacks, in any order, does not end normally and does not consume anything behind this header; if it fails with a protocol error, it is `e`, the header has been consumed, and the callbacks made are
those for the complete frames. (It may fail before: the connection or a callback may.) -/
theorem C84_async_refused (env : Env) (S : Settings) (hS : S.Env env) (h : Header) (w : World) (o o' : Bool) (ho : OpenIs o w.st.sock.lastOpcode) (hw : S.In w)
    (others : List Outcome) (hothers : ∀ t ∈ others, S.Task t) (p : Pool) (hp : Pool.Steps env ⟨.run (listenTask h) :: others, w⟩ p)
    (frames tail rest : List UInt8) (ds : List Delivery) (hd : Hdr) (e : Err) (hb : w.st.inp.bytes = frames ++ tail) (hc : Complete o frames ds o') (ht : parseHdr tail = some (hd, rest)) (hr : refusal o' hd = some e) :
    p.tasks[0]? ≠ some .finished ∧
    ∀ e', p.tasks[0]? = some (.failed e') →
      ((e' = .thrown .badAlloc ∧ ∃ B, B < 0 ∧ S.size B) ∨ rest <:+ p.world.st.inp.bytes) ∧
      ∀ x, e' = .thrown x → x.isProtocol → x = e ∧ p.world.st.inp.bytes = rest ∧ ∃ evs, p.world.st.sock.trace = w.st.sock.trace ++ evs ∧ RendersMix S evs ds := by
  obtain ⟨h1, h2⟩ := C47_among_other_tasks env S hS h w o ho hw others hothers p hp
  rw [Told, hb] at h1
  constructor
  · intro hf
    obtain ⟨c, D, evs, k1, k2, k3, k4⟩ := h1 hf
    exact (k3.refused hc ht hr (by rw [k1]; exact List.prefix_append _ _)).2.1 rfl
  · intro e' hf
    rcases h2 e' hf with ⟨r, h2, c, D, evs, k1, k2, k3, k4⟩ | h2
    · rw [hb] at k1
      obtain ⟨⟨y, g1⟩, _, g3, _⟩ := k3.refused hc ht hr (by rw [k1]; exact List.prefix_append _ _)
      rw [k1] at g1
      have g1 := List.append_cancel_left g1
      refine ⟨.inr ⟨y, g1.symm⟩, fun x hx hpr => ?_⟩
      subst hx
      obtain ⟨rfl, j2, rfl⟩ := g3 x h2 hpr
      rw [k1] at j2
      exact ⟨rfl, List.append_cancel_left j2, evs, k2, k4⟩
    · refine ⟨.inl h2, fun x hx hpr => ?_⟩
      rw [h2.1] at hx
      injection hx with hx
      subst hx
      cases hpr

end Async

/-! ## `listen` among any other threads -/

/-- **C84** (threads). The same bytes; one thread runs `listen`, any others do what C59 allows, in any order. Whenever the listening thread has ended, or is about to read or to write, nothing behind the header of
the frame to be refused has been consumed; and if all of the header has been, the callbacks made are those for the complete frames. -/
theorem Threads.C84_threads_refused (C : Threads.Rules) (env : Env) (o o' : Bool) (fuel : Nat) (h : Header) (st : St) (others : List (Threads.Prog Unit)) (p : Threads.Pool)
    (henv : C.Reacts env) (hB : 0 < C.size) (hin : C.In o st) (hoth : ∀ q ∈ others, C.Helper env fuel q)
    (hs : Threads.Pool.Steps env ⟨Threads.listenT env fuel h :: others, st⟩ p) (q : Threads.Prog Unit) (hq : p.threads[0]? = some q) (x : Threads.Out Unit) (hx : Threads.IsAt q x)
    (frames tail rest : List UInt8) (ds : List Delivery) (hd : Hdr) (e : Err) (hb : st.inp.bytes = frames ++ tail) (hc : Complete o frames ds o') (ht : parseHdr tail = some (hd, rest)) (hr : refusal o' hd = some e) :
    rest <:+ p.st.inp.bytes ∧ (p.st.inp.bytes = rest → ∃ evs, p.st.sock.trace = st.sock.trace ++ evs ∧ Threads.RendersBy C.listener C.size evs ds) := by
  obtain ⟨whole, part, fe, hh, _⟩ := Threads.C59_reception C env o fuel h st others p henv hB hin hoth hs q hq x hx
  obtain ⟨ds1, o1, ds2, evs, k1, k2, k3, k4⟩ := hh.told
  have hrec : ∃ r, Receives o (whole ++ part) (ds1 ++ ds2) r := by
    cases fe with
    | next o2 => exact ⟨_, k1.receives (.stop k2)⟩
    | over r => exact ⟨_, k1.receives (.last k2)⟩
  obtain ⟨r, hrec⟩ := hrec
  have hbytes := hh.bytes
  rw [hb] at hbytes
  obtain ⟨⟨y, g1⟩, _, _, g4⟩ := hrec.refused hc ht hr (by rw [hbytes]; exact List.prefix_append _ _)
  rw [hbytes] at g1
  refine ⟨⟨y, (List.append_cancel_left g1).symm⟩, fun hl => ⟨evs, k3, ?_⟩⟩
  rw [← g4 (by rw [hbytes, hl])]
  exact k4

/-! ## Any receiver that is left alone -/

/-- **C84** (any receiver). The same bytes, received by any receiver of either API that is left alone (as C77): it hears exactly the complete frames, and leaves exactly what follows the header of the frame to be
refused. -/
theorem C84_any_receiver (o o' : Bool) (frames tail rest : List UInt8) (ds : List Delivery) (hd : Hdr) (e : Err) (hc : Complete o frames ds o') (ht : parseHdr tail = some (hd, rest)) (hr : refusal o' hd = some e)
    (l B : Nat) (evs : List Event) (left : List UInt8) (hB : 0 < B) (h : HeardBy o (frames ++ tail) l B evs left) : Renders l B evs ds ∧ left = rest := by
  obtain ⟨k, D, r, ⟨h1, h2, h3, h4⟩, h5, h6⟩ := h.course hB
  obtain ⟨⟨y, g1⟩, g2, g3, g4⟩ := h2.refused hc ht hr (List.take_prefix _ _)
  have hl : left = y ++ rest := by
    rw [h6]
    exact List.append_cancel_left ((List.take_append_drop k (frames ++ tail)).trans g1)
  have : y = [] := by
    cases r with
    | closed => exact absurd rfl g2
    | stopped => exact h3.elim
    | interrupted => exact h3.elim
    | incomplete =>
      rw [h6, h4 rfl, List.drop_length] at hl
      exact (List.append_eq_nil_iff.mp hl.symm).1
    | badControl => exact tight g1 (g3 _ rfl trivial).2.1
    | badContinuation => exact tight g1 (g3 _ rfl trivial).2.1
    | badStart => exact tight g1 (g3 _ rfl trivial).2.1
    | badOpcode => exact tight g1 (g3 _ rfl trivial).2.1
  subst this
  rw [List.nil_append] at hl
  refine ⟨?_, hl⟩
  rw [← g4 g1]
  exact h5
where
  tight {T bs y rest : List UInt8} (h1 : T = bs ++ (y ++ rest)) (h2 : T = bs ++ rest) : y = [] := by
    rw [h2] at h1
    have := congrArg List.length (List.append_cancel_left h1)
    simp only [List.length_append] at this
    exact List.length_eq_zero_iff.mp (by omega)

/-- **C84** (the error). A `listenAsync` that is left alone (as C77) ends with exactly the error of the refused frame. -/
theorem C84_async_error (o o' : Bool) (frames tail rest : List UInt8) (ds : List Delivery) (hd : Hdr) (e : Err) (hc : Complete o frames ds o') (ht : parseHdr tail = some (hd, rest)) (hr : refusal o' hd = some e)
    (l B : Nat) (evs : List Event) (left : List UInt8) (out : Async.Outcome) (hB : 0 < B) (h : HeardAmongTasks o (frames ++ tail) l B evs left out) : out = .failed (.thrown e) := by
  obtain ⟨k, D, r, ⟨h1, h2, h3, h4⟩, h5, h6, h7, h8, h9⟩ := h.course hB
  obtain ⟨_, g2, g3, _⟩ := h2.refused hc ht hr (List.take_prefix _ _)
  rcases h9 with rfl | ⟨x, hx, rfl⟩
  · exact absurd (h7.mp rfl) g2
  · rw [(g3 x (h8 _ rfl) (by cases x <;> first | trivial | cases hx)).1]

/-! ## The fragmentation rule -/


/-- A message is open exactly if one of the frames has begun one in fragments (it does not matter whether it has been completed). -/
theorem AcceptedAll.opened {o o' : Bool} {fs : List Frame} (h : AcceptedAll o fs o') : o' = (o || fs.any Frame.begins) := by
  induction h with
  | nil => simp
  | @cons o f fs o' hv ha h8 _ ih =>
    rw [ih, List.any_cons, ← Bool.or_assoc]
    congr 1
    unfold openAfterFrame Frame.begins
    rcases ha with ⟨hd, hm⟩ | ⟨hc, _⟩
    · rcases hd with h | h | h <;> rw [h] at hm ⊢ <;> simp [mayStart] at hm ⊢ <;> simp [hm]
    · rcases hc with h | h | h <;> rw [h] <;> simp

theorem oneFrame_of_accepted {o : Bool} {f : Frame} (hv : f.Valid) (ha : Accepted o f) (h8 : f.opcode ≠ 8) : OneFrame o f.encode (frameDeliveries f) (.next (openAfterFrame o f)) := by
  have hp := parseHdr_encode f hv []
  rw [List.append_nil, List.append_nil] at hp
  have hlen : effectiveLen (hdrOfFrame f).len = f.payload.length := effectiveLen_small hv.2.2
  have hl : (applyKey? f.maskKey f.payload).length = effectiveLen (hdrOfFrame f).len := by rw [hlen, applyKey?_length]
  unfold frameDeliveries
  rcases ha with ⟨hd, hm⟩ | ⟨hc, h125⟩
  · have := OneFrame.data hp hd hm hl
    rw [show (hdrOfFrame f).maskKey = f.maskKey from rfl, applyKey?_involutive, openAfter_frame hd] at this
    rw [if_pos (show f.opcode = 0 ∨ f.opcode = 1 ∨ f.opcode = 2 from hd)]
    exact this
  · unfold isControlOpcode at hc
    have := OneFrame.pingPong (isOpen := o) hp (show f.opcode = 9 ∨ f.opcode = 10 by omega) (by rw [hlen]; exact h125) hl
    rw [show (hdrOfFrame f).maskKey = f.maskKey from rfl, applyKey?_involutive] at this
    rw [if_neg (by omega), openAfterFrame, if_neg (by omega)]
    exact this

theorem AcceptedAll.complete {o o' : Bool} {fs : List Frame} (h : AcceptedAll o fs o') : Complete o (wireOf fs) (deliveriesOf fs) o' := by
  induction h with
  | nil => exact .nil
  | @cons o f fs o' hv ha h8 _ ih =>
    rw [wireOf_cons]
    exact Threads.complete_cons (o1 := openAfterFrame o f) (oneFrame_of_accepted hv ha h8) ih

/-- **C84** (the fragmentation rule). Frames that are accepted one after the other, then a frame of which the header arrives. A continuation frame is refused exactly if none of the frames before it was a text or binary
frame that was not final; a text or binary frame, exactly if one was: every receiver that is left alone hears the frames before it, and
leaves what follows the header; `listenAsync` ends with the error of the rule. -/
theorem C84_fragmentation_rule (o' : Bool) (fs : List Frame) (tail rest : List UInt8) (hd : Hdr) (hfs : AcceptedAll false fs o') (ht : parseHdr tail = some (hd, rest))
    (e : Err) (hr : (hd.opcode = 0 ∧ (∀ f ∈ fs, f.begins = false) ∧ e = .continuationState) ∨ ((hd.opcode = 1 ∨ hd.opcode = 2) ∧ (∃ f ∈ fs, f.begins = true) ∧ e = .continuationExpected))
    (l B : Nat) (evs : List Event) (left : List UInt8) (hB : 0 < B) (h : HeardBy false (wireOf fs ++ tail) l B evs left) :
    Renders l B evs (deliveriesOf fs) ∧ left = rest ∧ ∀ out, HeardAmongTasks false (wireOf fs ++ tail) l B evs left out → out = .failed (.thrown e) := by
  have hop := hfs.opened
  rw [Bool.false_or] at hop
  have hr : refusal o' hd = some e := by
    rcases hr with ⟨h1, h2, rfl⟩ | ⟨h1, ⟨f, h2, h3⟩, rfl⟩
    · unfold refusal
      have : o' = false := by
        rw [hop, List.any_eq_false]
        exact fun f hf => by rw [h2 f hf]; exact Bool.false_ne_true
      rw [if_pos h1, this]
      rfl
    · unfold refusal
      have : o' = true := by
        rw [hop, List.any_eq_true]
        exact ⟨f, h2, h3⟩
      rw [if_neg (by omega), if_pos h1, this]
      rfl
  obtain ⟨h1, h2⟩ := C84_any_receiver false o' _ tail rest _ hd e hfs.complete ht hr l B evs left hB h
  exact ⟨h1, h2, fun out ho => C84_async_error false o' _ tail rest _ hd e hfs.complete ht hr l B evs left out hB ho⟩

/-! ## Cases -/

/-- A text message in two fragments with a ping in between, then a frame with the unknown opcode 3. -/
theorem exBytes_complete : Complete false (wireOf [Fixture.hel, Fixture.ping, Fixture.lo]) (deliveriesOf [Fixture.hel, Fixture.ping, Fixture.lo]) true := Fixture.accepted.complete

/-- `listenAsync` among another task that sends: the connection brings these bytes three at a time. -/
theorem exTaskRefused : ∃ p, Async.Pool.Steps Async.exEnv exTaskPool p ∧ p.tasks[0]? = some (.failed (.thrown .unknownFrame)) ∧ p.world.st.inp.bytes = [0x55] := by
  have h := exTaskRun
  rcases hp : Async.Pool.exec Async.exEnv ([0, 1, 1, 0, 1, 1, 1, 1, 1, 0, 1, 0, 1, 1, 1, 1, 1] ++ List.replicate 51 0) exTaskPool with _ | p
  · rw [hp] at h; cases h
  · rw [hp] at h
    injection h with h
    injection h with h1 h; injection h with h2 h3
    exact ⟨p, Async.Pool.exec_steps hp, h1, h3⟩

theorem exTaskAny : anySettings.Env Async.exEnv ∧ anySettings.In exTaskPool.world ∧ ∀ t ∈ Async.exOthers, anySettings.Task t := by
  refine ⟨fun _ op _ => by cases op <;> trivial, ⟨trivial, trivial⟩, ?_⟩
  intro t ht
  rw [Async.exOthers, List.mem_singleton] at ht
  subst ht
  intro c hc
  rw [Async.userTask, List.mem_singleton] at hc
  subst hc
  exact ⟨trivial, fun _ _ op _ => by cases op <;> trivial⟩

/-- The hypotheses of both theorems are met there. -/
example : ∃ p, Async.Pool.Steps Async.exEnv exTaskPool p ∧ ∃ frames hdr ds o' hd evs, exTaskPool.world.st.inp.bytes = frames ++ hdr ++ p.world.st.inp.bytes ∧ Complete false frames ds o' ∧
    parseHdr hdr = some (hd, []) ∧ refusal o' hd = some .unknownFrame ∧ p.world.st.sock.trace = exTaskPool.world.st.sock.trace ++ evs ∧ RendersMix anySettings evs ds := by
  obtain ⟨p, h1, h2, _⟩ := exTaskRefused
  exact ⟨p, h1, Async.C84_async_only_for_reason Async.exEnv anySettings exTaskAny.1 default exTaskPool.world false rfl exTaskAny.2.1 Async.exOthers exTaskAny.2.2 p h1 .unknownFrame trivial h2⟩

example : ∃ p, Async.Pool.Steps Async.exEnv exTaskPool p ∧ p.tasks[0]? = some (.failed (.thrown .unknownFrame)) ∧
    ∃ evs, p.world.st.sock.trace = exTaskPool.world.st.sock.trace ++ evs ∧ RendersMix anySettings evs (deliveriesOf [Fixture.hel, Fixture.ping, Fixture.lo]) := by
  obtain ⟨p, h1, h2, _⟩ := exTaskRefused
  have := Async.C84_async_refused Async.exEnv anySettings exTaskAny.1 default exTaskPool.world false true rfl exTaskAny.2.1 Async.exOthers exTaskAny.2.2 p h1
    _ [0x83, 0x00, 0x55] [0x55] _ ⟨true, false, false, false, 3, none, 0⟩ .unknownFrame rfl exBytes_complete (by decide) (by decide)
  exact ⟨p, h1, h2, ((this.2 _ h2).2 _ rfl trivial).2.2⟩

/-- `listen` in a thread while another one sends. -/
example : ∃ p, Threads.Pool.Steps Fixture.env exThreadPool p ∧ p.st.inp.bytes = [0x55] ∧
    ∃ evs, p.st.sock.trace = exThreadPool.st.sock.trace ++ evs ∧ Threads.RendersBy (· = 9) 2 evs (deliveriesOf [Fixture.hel, Fixture.ping, Fixture.lo]) := by
  obtain ⟨log, p, e, h1, h2, h3, h4, h5⟩ := Threads.viewOf_some exThreadRun
  have hst := Threads.execLog_steps_from _ _ _ _ .refl e
  have hx := Threads.placeOf_ret h5
  refine ⟨p, hst, h1, (Threads.C84_threads_refused ⟨(· = 9), 2, fun o => o.fine = true⟩ Fixture.env false true 60 default exThreadPool.st _ p (fun _ _ h => (by cases h)) (by decide) ?_ ?_ hst _ hx (.ret ()) rfl
    _ [0x83, 0x00, 0x55] [0x55] _ ⟨true, false, false, false, 3, none, 0⟩ .unknownFrame rfl exBytes_complete (by decide) (by decide)).2 h1⟩
  · exact ⟨⟨9, rfl, rfl⟩, rfl, fun x hx => List.all_eq_true.mp (by decide +kernel : exThreadPool.st.inp.sched.all IoOutcome.fine = true) x hx, rfl⟩
  · intro q hq
    rw [List.mem_singleton] at hq
    subst hq
    exact .code _ (by
      intro op hop
      rw [List.mem_singleton] at hop
      subst hop; trivial)

/-- Receivers of each kind that are left alone. -/
example : Renders 7 2 (exHeardOf 7) (deliveriesOf [Fixture.hel, Fixture.ping, Fixture.lo]) :=
  (C84_any_receiver false true _ [0x83, 0x00, 0x55] [0x55] _ ⟨true, false, false, false, 3, none, 0⟩ .unknownFrame exBytes_complete (by decide) (by decide) 7 2 _ _ (by decide) (.inl exAlone)).1

example : Renders 9 2 (exHeardOf 9) (deliveriesOf [Fixture.hel, Fixture.ping, Fixture.lo]) :=
  (C84_any_receiver false true _ [0x83, 0x00, 0x55] [0x55] _ ⟨true, false, false, false, 3, none, 0⟩ .unknownFrame exBytes_complete (by decide) (by decide) 9 2 _ _ (by decide) (.inr (.inr exAmongThreads))).1

example : Async.Outcome.failed (.thrown .unknownFrame) = .failed (.thrown .unknownFrame) :=
  C84_async_error false true _ [0x83, 0x00, 0x55] [0x55] _ ⟨true, false, false, false, 3, none, 0⟩ .unknownFrame exBytes_complete (by decide) (by decide) 4 3 _ _ _ (by decide) exAmongTasks

/-- A fragmented message, complete, and then a text frame: it is refused. -/
def exSecond : List UInt8 := wireOf [Fixture.hel, Fixture.ping, Fixture.lo] ++ [0x81, 0x00, 0x55]

theorem exSecondTrace : (listen Fixture.env default (Fixture.receiving exSecond)).2.sock.trace = exHeardOf 7 := by decide +kernel

theorem exSecondLeft : (listen Fixture.env default (Fixture.receiving exSecond)).2.inp.bytes = [0x55] := by decide +kernel

theorem exSecondAlone : HeardAlone false exSecond 7 2 (exHeardOf 7) [0x55] := by
  have hU : Undisturbed Fixture.env (Fixture.receiving exSecond) 7 2 false := Fixture.undisturbed _ (by decide +kernel)
  obtain ⟨k, ds, r, _, _, hall⟩ := C06_independent_of_chunking false exSecond
  obtain ⟨evs, st', e, _, _, _⟩ := hall Fixture.env default (Fixture.receiving exSecond) 7 2 hU rfl
  have h1 := exSecondTrace
  have h2 := exSecondLeft
  rw [e] at h1 h2
  exact ⟨Fixture.env, default, Fixture.receiving exSecond, st', hU.tame, hU.passive, rfl, rfl, rfl, hU.healthy, rfl, e, h1, h2⟩

example : Renders 7 2 (exHeardOf 7) (deliveriesOf [Fixture.hel, Fixture.ping, Fixture.lo]) :=
  (C84_fragmentation_rule true [Fixture.hel, Fixture.ping, Fixture.lo] [0x81, 0x00, 0x55] [0x55] ⟨true, false, false, false, 1, none, 0⟩ Fixture.accepted (by decide) .continuationExpected
    (.inr ⟨.inl rfl, ⟨Fixture.hel, List.mem_cons_self, rfl⟩, rfl⟩) 7 2 _ _ (by decide) (.inl exSecondAlone)).1

end OatWS
