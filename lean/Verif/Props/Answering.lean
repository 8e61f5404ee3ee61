import Verif.Proofs.Answering
/-! # C95: over a connection that does not fail, a server answers every message -/

namespace OatWS.Together
open Network

variable {envA envB : Env} {fuelA fuelB lA BA lB BB : Nat} {f : Msg → List SendCall} {c : OatWS.Client.Conn} {schedB : List IoOutcome} {outB : OutStream} {a0 b0 a b : Endpoint} {logA logB : List Async.Entry}

/-- The server's calls, so far, are a beginning of the answers; it has been told what the client's first calls say. -/
theorem answers_begin (hc : c.inp.bytes = []) (hA : Client envA fuelA lA BA c a0) (hB : Answering envB fuelB lB BB f schedB outB b0) (hfA : a0.Enough fuelA) (hfB : b0.Enough fuelB) (hrA : Reliable a0) (hrB : Reliable b0)
    (h : Linked envA envB a0 b0 logA logB a b) (hoA : Orderly logA) (hs : Sayable (answersTo f (Async.callsOf logA))) :
    ((∀ e ∈ logA, e.failed = false) ∧ ∀ e ∈ logB, e.failed = false) ∧ OnlyListener logB ∧ Async.callsOf logB <+: answersTo f (Async.callsOf logA) ∧ Orderly logB ∧
    (∃ n part, HeardUpTo (Async.callsOf logA) lB n part b.st.sock.trace) ∧ ∀ tr, tr <+: b.st.sock.trace → tr ≠ [] → envB.brief tr = envB.react tr := by
  obtain ⟨o1, s1⟩ := hB.on
  have k1 := sends_fine (hA.app hc hrA) hrA.2 h
  have k2 := sends_fine o1.app.1 hrB.2 h.swap
  have only : OnlyListener logB := fun e he _ => (only_listener hB.one h).2 e he
  obtain ⟨n, part, hn⟩ := (C92_any_moment hc hA.on o1 hfA hfB h).1 hoA (resigned_of k1)
  have hpre : (reassemble [] b.st.sock.trace).1.flatMap f <+: answersTo f (Async.callsOf logA) := by
    refine flatMap_prefix ?_
    rw [hn.heard]
    exact told_prefix (List.take_prefix ..)
  have hcalls := (s1.answers h hB.serves.2 o1.app.2 only).1.trans hpre
  refine ⟨⟨k1, k2⟩, only, hcalls, ?_, ⟨n, part, hn⟩, brief_of hB.serves.1 hB.serves.2 fun c hc => hs.2 c (hpre.subset hc)⟩
  obtain ⟨⟨cs, last, e1, e2⟩, -⟩ := hs
  obtain ⟨cs', last', e3, e4⟩ := Speech.prefix e2 (e1 ▸ hcalls)
  exact ⟨C69_one_sender _ ⟨0, only⟩, cs', last', e3, e4⟩

theorem _root_.OatWS.Network.HeardUpTo.extend {calls calls' : List SendCall} {l n : Nat} {part : List UInt8} {evs : List Event} (hp : calls <+: calls') (h : HeardUpTo calls l n part evs) : HeardUpTo calls' l n part evs := by
  obtain ⟨r, hr⟩ := hp
  refine ⟨h.to, ?_, ?_, ?_⟩
  · rw [← hr, List.length_append]; exact Nat.le_trans h.le (Nat.le_add_right ..)
  · rw [← hr, List.take_append_of_le_length h.le]; exact h.heard
  · rcases h.part with hp | ⟨c, d, g1, g2⟩
    · exact .inl hp
    · refine .inr ⟨c, d, ?_, g2⟩
      rw [← hr, List.getElem?_append_left (List.getElem?_eq_some_iff.mp g1).1]
      exact g1

/-! ## A concrete case: an async echo server, and an async client that sends a text and a binary message -/

def exParrot : Env := service (echo 1000) Fixture.env
def exTalks : List UserOp := [.send (.text (some [104])) false, .send (.binary (some [1, 2])) false]
def exTalker : Endpoint := .tasks (OatWS.Client.tasks true [.listener (some 1), .config { readBufferSize := 2, maskOutgoingMessages := true }] default ([exTalks].map fun ops => .run (Async.userTask ops)) exLine)
def exParrots : Endpoint := .tasks (Async.newSession [.listener (some 7)] default [] ⟨[], Fixture.slow 60⟩ ⟨[], Fixture.slow 60⟩)
def exTalk := run exFrank exParrot (List.replicate 60 (false, 1) ++ List.replicate 200 (true, 0) ++ List.replicate 100 (false, 0)) [] [] exTalker exParrots

theorem exTalk_view : (Async.serialCheck none exTalk.1, Async.callsOf exTalk.1, restNow exFrank exTalk.2.2.1, restNow exParrot exTalk.2.2.2) =
    (true, [.text (some [104]), .binary (some [1, 2])], true, true) := by decide +kernel

theorem exTalker_on : Client exFrank 200 1 2 exLine exTalker := by
  refine Client.tasks true _ default [exTalks] rfl rfl (by decide) (exFrank_keeps 1 2) fun ops ho op hop => ?_
  rw [List.mem_singleton.mp ho] at hop
  simp only [exTalks, List.mem_cons, List.not_mem_nil, or_false] at hop
  rcases hop with rfl | rfl
  · exact (show 1 < 2 ^ 31 by decide)
  · exact (show 2 < 2 ^ 31 by decide)

theorem exParrots_on : Answering exParrot 200 7 1024 (echo 1000) (Fixture.slow 60) ⟨[], Fixture.slow 60⟩ exParrots := by
  refine Answering.tasks [.listener (some 7)] default rfl rfl (by decide) (fun tr op hop => ?_) (C82_serves _ _)
  have hop : op ∈ (match tr.getLast? with
    | some e => ((completes tr.dropLast e).flatMap (echo 1000)).map fun c => UserOp.send c true
    | none => []) := hop
  split at hop
  · obtain ⟨c, -, rfl⟩ := List.mem_map.mp hop
    exact ⟨c, true, rfl⟩
  · cases hop

theorem exTalker_enough : exTalker.Enough 200 := fun o h => by
  simp only [OatWS.Client.tasks, List.map_cons, List.map_nil, List.mem_cons, List.not_mem_nil, or_false] at h
  rcases h with rfl | rfl <;> exact fun e => (by cases e)

theorem exParrots_enough : exParrots.Enough 200 := fun o h => by
  simp only [Async.newSession, List.mem_cons, List.not_mem_nil, or_false] at h
  rw [h]; exact fun e => (by cases e)

theorem exTalk_reliable : Reliable exTalker ∧ Reliable exParrots := ⟨⟨exSlow_fine 60, exSlow_fine 60⟩, exSlow_fine 60, exSlow_fine 60⟩

theorem exTalk_data : Data 1000 [.text (some [104]), .binary (some [1, 2])] := by
  intro c hc
  simp only [List.mem_cons, List.not_mem_nil, or_false] at hc
  rcases hc with rfl | rfl
  · exact ⟨.inl ⟨_, rfl⟩, show 1 ≤ 1000 by decide⟩
  · exact ⟨.inr ⟨_, rfl⟩, show 2 ≤ 1000 by decide⟩

theorem exTalk_lasts : LastsFor exTalker exParrots [.text (some [104]), .binary (some [1, 2])] [.text (some [104]), .binary (some [1, 2])] := ⟨by decide +kernel, by decide +kernel, by decide +kernel, by decide +kernel⟩

theorem exParroted : ∃ a b logA logB, Linked exFrank exParrot exTalker exParrots logA logB a b ∧ Async.Serialised logA ∧ Async.callsOf logA = [.text (some [104]), .binary (some [1, 2])] ∧ a.AtRest exFrank ∧ b.AtRest exParrot := by
  have hl : Linked exFrank exParrot exTalker exParrots exTalk.1 exTalk.2.1 exTalk.2.2.1 exTalk.2.2.2 := by
    unfold exTalk
    exact run_linked _ .refl
  have hv := exTalk_view
  generalize exTalk.1 = logA, exTalk.2.1 = logB, exTalk.2.2.1 = a, exTalk.2.2.2 = b at hl hv
  injection hv with h1 hv
  injection hv with h2 hv
  injection hv with h3 h4
  exact ⟨a, b, logA, logB, hl, Async.serialCheck_sound h1, h2, restNow_sound h3, restNow_sound h4⟩

theorem exTalk_orderly {log : List Async.Entry} (h1 : Async.Serialised log) (h2 : Async.callsOf log = [.text (some [104]), .binary (some [1, 2])]) : Orderly log ∧ Sayable (answersTo (echo 1000) (Async.callsOf log)) := by
  have hd : Data 1000 (Async.callsOf log) := h2 ▸ exTalk_data
  exact ⟨⟨h1, _, [], (List.append_nil _).symm, hd.speech (by decide)⟩, ⟨_, [], (List.append_nil _).symm, hd.echoed.1.speech (by decide)⟩, fun c hc => Nat.lt_of_le_of_lt (hd.echoed.1 c hc).2 (by decide)⟩

/-- **C95** (any moment). A client as in C94 and a server whose listener answers each message `m` with `f m` (of either kind), over a connection that does not fail: at any moment, if the client keeps order, no send has failed, nothing undefined
has happened, the server's listener has heard exactly what the client's first calls say, the client's listener exactly the first of the answers to what the client has sent, and each at most a beginning of the next one's data. -/
theorem C95_any_moment (hc : c.inp.bytes = []) (hA : Client envA fuelA lA BA c a0) (hB : Answering envB fuelB lB BB f schedB outB b0) (hfA : a0.Enough fuelA) (hfB : b0.Enough fuelB) (hrA : Reliable a0) (hrB : Reliable b0)
    (h : Linked envA envB a0 b0 logA logB a b) (hoA : Orderly logA) (hs : Sayable (answersTo f (Async.callsOf logA))) :
    ((∀ e ∈ logA, e.failed = false) ∧ ∀ e ∈ logB, e.failed = false) ∧ (a.Defined ∧ b.Defined) ∧
    (∃ n part, HeardUpTo (Async.callsOf logA) lB n part b.st.sock.trace) ∧ ∃ n part, HeardUpTo (answersTo f (Async.callsOf logA)) lA n part a.st.sock.trace := by
  obtain ⟨k1, only, k2, k3, k4, k5⟩ := answers_begin hc hA hB hfA hfB hrA hrB h hoA hs
  obtain ⟨b0', envB', b0'', ob, lb, sb, -, -⟩ := hB.calm hrB
  obtain ⟨envA', a0', la, ca⟩ := hA.calm hrA
  obtain ⟨b', h1, ob'⟩ := h.obeys ob k5
  obtain ⟨a', b'', h2, la', lb'⟩ := h1.like la lb
  have rB : Reliable b0'' := by unfold Reliable; rw [lb.st, ob.st]; exact hrB
  have fB : b0''.Enough fuelB := enough_like (enough_obeys hfB ob) lb
  obtain ⟨-, ⟨m1, m2⟩, -, m3⟩ := calm_any_moment hc ca sb (enough_like hfA la) fB (hrA.like la) rB h2
  refine ⟨k1, ⟨la'.defined m1, ob'.defined (lb'.defined m2)⟩, k4, ?_⟩
  obtain ⟨n, part, m⟩ := m3 k3
  rw [la'.st] at m
  exact ⟨n, part, m.extend k2⟩

example : ∃ a b logA logB, Linked exFrank exParrot exTalker exParrots logA logB a b ∧ (Async.callsOf logA).length = 2 ∧ ∃ n part, HeardUpTo (answersTo (echo 1000) (Async.callsOf logA)) 1 n part a.st.sock.trace := by
  obtain ⟨a, b, logA, logB, hl, h1, h2, -, -⟩ := exParroted
  exact ⟨a, b, logA, logB, hl, by rw [h2]; rfl, (C95_any_moment rfl exTalker_on exParrots_on exTalker_enough exParrots_enough exTalk_reliable.1 exTalk_reliable.2 hl (exTalk_orderly h1 h2).1 (exTalk_orderly h1 h2).2).2.2.2⟩

/-- **C95** (everything is answered). If moreover the connection lasts for what the client sends and the answers, then, when it has come to rest, the server's listener has heard exactly what the client has sent, the server has sent exactly the
answers, in order, and the client's listener has heard exactly these; the client waits for more, or its listening has ended and the last answer was a close; the server waits for more, or its listening has ended and the client's last call was a close. -/
theorem C95_all_answered (hc : c.inp.bytes = []) (hA : Client envA fuelA lA BA c a0) (hB : Answering envB fuelB lB BB f schedB outB b0) (hfA : a0.Enough fuelA) (hfB : b0.Enough fuelB) (hrA : Reliable a0) (hrB : Reliable b0)
    (h : Linked envA envB a0 b0 logA logB a b) (hoA : Orderly logA) (hs : Sayable (answersTo f (Async.callsOf logA))) (hl : LastsFor a0 b0 (Async.callsOf logA) (answersTo f (Async.callsOf logA)))
    (hrest : a.AtRest envA ∧ b.AtRest envB) :
    Async.callsOf logB = answersTo f (Async.callsOf logA) ∧
    (HeardWhole (Async.callsOf logA) lB b.st.sock.trace ∧ ((b.Waits ∧ ¬ ClosesLast (Async.callsOf logA)) ∨ (Over b ∧ ClosesLast (Async.callsOf logA)))) ∧
    (HeardWhole (answersTo f (Async.callsOf logA)) lA a.st.sock.trace ∧ ((a.Waits ∧ ¬ ClosesLast (answersTo f (Async.callsOf logA))) ∨ (Over a ∧ ClosesLast (answersTo f (Async.callsOf logA))))) := by
  obtain ⟨k1, only, k2, k3, k4, k5⟩ := answers_begin hc hA hB hfA hfB hrA hrB h hoA hs
  obtain ⟨b0', envB', b0'', ob, lb, sb, srv, sv⟩ := hB.calm hrB
  obtain ⟨envA', a0', la, ca⟩ := hA.calm hrA
  obtain ⟨b', h1, ob'⟩ := h.obeys ob k5
  obtain ⟨a', b'', h2, la', lb'⟩ := h1.like la lb
  have stB : b0''.st = b0.st := lb.st.trans ob.st
  have rB : Reliable b0'' := by unfold Reliable; rw [stB]; exact hrB
  have fB : b0''.Enough fuelB := enough_like (enough_obeys hfB ob) lb
  have hsub : atMost (Async.callsOf logB) ≤ atMost (answersTo f (Async.callsOf logA)) := atMost_prefix k2
  have hl' : Lasts a0' b0'' logA logB := ⟨by rw [la.st]; exact hl.takesA, by rw [stB]; exact Nat.lt_of_le_of_lt hsub hl.takesB, by rw [la.st]; exact Nat.lt_of_le_of_lt hsub hl.givesA, by rw [stB]; exact hl.givesB⟩
  have rest : a'.AtRest envA' ∧ b''.AtRest envB' := ⟨la'.rest hrest.1, lb'.rest (ob'.rest hrest.2)⟩
  obtain ⟨⟨m1, m2⟩, m3, m4⟩ := calm_all_heard hc ca sb (enough_like hfA la) fB (hrA.like la) rB h2 hoA k3 hl' rest
  have hall : Async.callsOf logB = answersTo f (Async.callsOf logA) := by
    have := (srv.answers h2 sv sb.on.app.2 only).2 (m2.imp (fun x => x.1) fun x => x.1)
    rw [this, m1.heard]
    exact answers_briefly hs.2
  rw [la'.st] at m3
  rw [lb'.st, ob'.st] at m1
  rw [← hall]
  exact ⟨rfl, ⟨m1, m2.imp (fun x => ⟨ob'.waits (lb'.waits x.1), x.2⟩) fun x => ⟨over_obeys ob' (over_like lb' x.1), x.2⟩⟩, m3, m4.imp (fun x => ⟨la'.waits x.1, x.2⟩) fun x => ⟨over_like la' x.1, x.2⟩⟩

example : ∃ a b logA logB, Linked exFrank exParrot exTalker exParrots logA logB a b ∧ Async.callsOf logB = [.text (some [104]), .binary (some [1, 2])] ∧ HeardWhole [.text (some [104]), .binary (some [1, 2])] 1 a.st.sock.trace := by
  obtain ⟨a, b, logA, logB, hl, h1, h2, h3, h4⟩ := exParroted
  have he : answersTo (echo 1000) (Async.callsOf logA) = [.text (some [104]), .binary (some [1, 2])] := by rw [h2]; rfl
  obtain ⟨k1, -, k2, -⟩ := C95_all_answered (c := exLine) rfl exTalker_on exParrots_on exTalker_enough exParrots_enough exTalk_reliable.1 exTalk_reliable.2 hl (exTalk_orderly h1 h2).1 (exTalk_orderly h1 h2).2
    (by rw [he, h2]; exact exTalk_lasts) ⟨h3, h4⟩
  rw [he] at k1 k2
  exact ⟨a, b, logA, logB, hl, k1, k2⟩

end OatWS.Together
