import Verif.Proofs.Working
import Verif.Props.Together
/-! # C94: over a connection that does not fail, nothing fails, and everything is heard -/

namespace OatWS.Together
open Network RFC6455

/-! ## User code that does not catch what sends throw -/

theorem keeps_catching {l B : Nat} {op : UserOp} (h : op.Keeps l B) : op.catching.Keeps l B ∧ op.catching.calm := by
  cases op with
  | send c catches => exact ⟨h, rfl, h⟩
  | throw => exact h.elim
  | _ => exact ⟨h, trivial⟩

theorem starts_catching {op : UserOp} (h : op.Starts) : op.catching.Starts ∧ op.catching.calm := by
  cases op with
  | send c catches => exact ⟨h, rfl, h⟩
  | throw => exact h.elim
  | _ => exact ⟨h, trivial⟩

theorem env_catching {l B : Nat} {env : Env} (h : env.Keeps l B) : env.catching.Keeps l B ∧ env.catching.Calm := by
  constructor <;> intro tr op hop <;> (obtain ⟨x, hx, rfl⟩ := List.mem_map.mp hop)
  · exact (keeps_catching (h tr x hx)).1
  · exact (keeps_catching (h tr x hx)).2

theorem listenerAfter_catching (ops : List UserOp) (l : Option Nat) : listenerAfter (ops.map UserOp.catching) l = listenerAfter ops l := by
  induction ops generalizing l with
  | nil => rfl
  | cons op ops ih => cases op <;> exact ih _

theorem sizeAfter_catching (ops : List UserOp) (n : Int) : sizeAfter (ops.map UserOp.catching) n = sizeAfter ops n := by
  induction ops generalizing n with
  | nil => rfl
  | cons op ops ih => cases op <;> exact ih _

theorem like_of {env : Env} {fuel : Nat} {t t' : Threads.Prog Unit} {others : List (Threads.Prog Unit)} {st : St} (hf : ∀ o ∈ st.sock.out.sched, o.fine = true) (happ : ∀ q ∈ t :: others, Threads.AppThread env fuel q)
    (h : Threads.Same t t') : Like env env.catching (.threads ⟨t :: others, st⟩) (.threads ⟨t' :: others, st⟩) := by
  refine .threads ⟨hf, fun s => s.elim, fun i t ht => ⟨false, fun s => s.elim, Threads.well_app (happ t (List.mem_of_getElem? ht)) (fun _ _ s => s.elim) fun _ _ s => s.elim⟩⟩ rfl rfl fun i q hq => ?_
  cases i with
  | zero => injection hq with hq; subst hq; exact ⟨t', rfl, h⟩
  | succ i => exact ⟨q, hq, .refl q⟩

theorem _root_.OatWS.Network.Like.tasks_eq {env env' : Env} {p : Async.Pool} {e : Endpoint} (h : Like env env' (.tasks p) e) : e = .tasks p := by
  cases h with
  | tasks => rfl

theorem Client.calm {env : Env} {fuel l B : Nat} {c : OatWS.Client.Conn} {a : Endpoint} (h : Client env fuel l B c a) (hf : Reliable a) : ∃ env' a', Like env env' a a' ∧ ClientCalm env' fuel l B c a' := by
  cases h with
  | threads mask settings h others h1 h2 h3 h4 h5 =>
    obtain ⟨k1, k2⟩ := env_catching h4
    refine ⟨env.catching, .threads (OatWS.Client.threads env.catching fuel mask settings h others c), ?_, .threads mask settings h others h1 h2 h3 k1 k2 fun q hq => Threads.helper_catching env fuel (h5 q hq)⟩
    refine like_of (fuel := fuel) hf.2 (fun q hq => ?_) (Threads.same_listen env fuel h)
    rcases List.mem_cons.mp hq with rfl | hq
    · exact .listen h
    · exact (h5 q hq).app
  | tasks mask settings h others h1 h2 h3 h4 h5 => exact ⟨env, _, .tasks, .tasks mask settings h others h1 h2 h3 h4 h5⟩

theorem Session.calm {env : Env} {fuel l B : Nat} {sched : List IoOutcome} {out : OutStream} {b : Endpoint} (h : Session env fuel l B sched out b) (hf : Reliable b) :
    ∃ env' b', Like env env' b b' ∧ SessionCalm env' fuel l B sched out b' := by
  cases h with
  | threads created destroyed h others h1 h2 h3 h4 h5 h6 h7 =>
    obtain ⟨k1, k2⟩ := env_catching h6
    have hs : ∀ op ∈ created.map UserOp.catching, op.Starts ∧ op.calm := by
      intro op hop
      obtain ⟨x, hx, rfl⟩ := List.mem_map.mp hop
      exact starts_catching (h4 x hx)
    have hd : ∀ op ∈ destroyed.map UserOp.catching, op.Keeps l B ∧ op.calm := by
      intro op hop
      obtain ⟨x, hx, rfl⟩ := List.mem_map.mp hop
      exact keeps_catching (h5 x hx)
    refine ⟨env.catching, .threads (Threads.newSession env.catching fuel (created.map UserOp.catching) h (destroyed.map UserOp.catching) others ⟨[], sched⟩ out), ?_,
      .threads (created.map UserOp.catching) (destroyed.map UserOp.catching) h others ((listenerAfter_catching _ _).trans h1) ((sizeAfter_catching _ _).trans h2) h3 hs hd k1 k2 fun q hq => Threads.helper_catching env fuel (h7 q hq)⟩
    refine like_of (fuel := fuel) hf.2 (fun q hq => ?_) (Threads.same_session env fuel created h destroyed)
    rcases List.mem_cons.mp hq with rfl | hq
    · exact .bind (.code created) fun _ => .bind (.listen h) fun _ => .code destroyed
    · exact (h7 q hq).app
  | tasks created h others h1 h2 h3 h4 h5 => exact ⟨env, _, .tasks, .tasks created h others h1 h2 h3 h4 h5⟩

theorem Reliable.like {env env' : Env} {e e' : Endpoint} (h : Reliable e) (hl : Like env env' e e') : Reliable e' := by
  unfold Reliable
  rw [hl.st]
  exact h

theorem enough_like {env env' : Env} {e e' : Endpoint} {fuel : Nat} (h : e.Enough fuel) (hl : Like env env' e e') : e'.Enough fuel := by
  cases hl with
  | @threads p p' _ hs =>
    show p'.st.inp.sched.length < fuel ∧ p'.st.sock.out.sched.length < fuel
    rw [hs]
    exact h
  | tasks => exact h

theorem over_like {env env' : Env} {e e' : Endpoint} (hl : Like env env' e e') (h : e'.Ended env') : Over e := by
  cases hl with
  | threads _ _ h3 h4 =>
    obtain ⟨q, h1, h2, -⟩ := h
    exact Like.first h3 h4 h1 h2
  | tasks => exact h

theorem Client.app {env : Env} {fuel l B : Nat} {c : OatWS.Client.Conn} {a : Endpoint} (h : Client env fuel l B c a) (hc : c.inp.bytes = []) (hf : Reliable a) : a.App env fuel := by
  cases h with
  | threads mask settings h others h1 h2 h3 h4 h5 =>
    intro q hq
    rcases List.mem_cons.mp hq with rfl | hq
    · exact .listen h
    · exact (h5 q hq).app
  | tasks mask settings h others h1 h2 h3 h4 h5 => exact ((ClientCalm.tasks mask settings h others h1 h2 h3 h4 h5).side hc hf).app

/-! ## A concrete case: an async client and a threaded server, whose applications do not catch what sends throw -/

/-- A listener that answers pings, and does not catch what sends throw. -/
def exFrank : Env := { Fixture.env with react := fun tr => match tr.getLast? with
  | some (.onPing _ m) => [.send (.pong (some (m.take 125))) false]
  | _ => [] }

/-- Every second low-level call asks to retry, the others move one byte. -/
def exLine : OatWS.Client.Conn := ⟨⟨[], Fixture.slow 60⟩, ⟨[], Fixture.slow 60⟩⟩

def exSaying : List UserOp := [.send (.text (some [7, 8])) false, .send (.ping (some [0x21])) false, .send (.close 1000 (some [])) false]

def exGreets : List UserOp := [.send (.text (some [1, 2])) false, .setListener (some 7), .setConfig { readBufferSize := 2 }]

def exCaller : Endpoint := .tasks (OatWS.Client.tasks true [.listener (some 1), .config { readBufferSize := 2, maskOutgoingMessages := true }] default
  ([exSaying].map fun ops => .run (Async.userTask ops)) exLine)

def exCallee : Endpoint := .threads (Threads.newSession exFrank 200 exGreets default [.send .closeEmpty false] [] ⟨[], Fixture.slow 60⟩ ⟨[], Fixture.slow 60⟩)

theorem exFrank_keeps (l B : Nat) : exFrank.Keeps l B := by
  intro tr op h
  unfold exFrank at h
  dsimp only at h
  split at h
  · rw [List.mem_singleton.mp h]
    exact Nat.lt_of_le_of_lt (List.length_take_le ..) (by decide)
  · cases h

theorem exCaller_on : Client exFrank 200 1 2 exLine exCaller := by
  refine Client.tasks true _ default [exSaying] rfl rfl (by decide) (exFrank_keeps 1 2) fun ops ho op hop => ?_
  rw [List.mem_singleton.mp ho] at hop
  simp only [exSaying, List.mem_cons, List.not_mem_nil, or_false] at hop
  rcases hop with rfl | rfl | rfl
  · exact (show 2 < 2 ^ 31 by decide)
  · exact (show 1 < 2 ^ 31 by decide)
  · exact (show 2 < 2 ^ 31 by decide)

theorem exCallee_on : Session exFrank 200 7 2 (Fixture.slow 60) ⟨[], Fixture.slow 60⟩ exCallee := by
  refine Session.threads exGreets [.send .closeEmpty false] default [] rfl rfl (by decide) (fun op hop => ?_) (fun op hop => ?_) (exFrank_keeps 7 2) fun _ h => (by cases h)
  · simp only [exGreets, List.mem_cons, List.not_mem_nil, or_false] at hop
    rcases hop with rfl | rfl | rfl
    · exact (show 2 < 2 ^ 31 by decide)
    · trivial
    · exact (show (0 : Int) < 2 by decide)
  · rw [List.mem_singleton.mp hop]
    exact (show 0 < 2 ^ 31 by decide)

theorem exSlow_fine (n : Nat) : ∀ o ∈ Fixture.slow n, o.fine = true := by
  intro o h
  obtain ⟨x, hx, ho⟩ := List.mem_flatten.mp h
  rw [(List.mem_replicate.mp hx).2] at ho
  simp only [List.mem_cons, List.not_mem_nil, or_false] at ho
  rcases ho with rfl | rfl <;> rfl

theorem exReliable : Reliable exCaller ∧ Reliable exCallee := ⟨⟨exSlow_fine 60, exSlow_fine 60⟩, exSlow_fine 60, exSlow_fine 60⟩

def exCall := run exFrank exFrank (List.replicate 60 (false, 1) ++ List.replicate 80 (true, 0) ++ List.replicate 100 (false, 1) ++ List.replicate 200 (true, 0) ++ List.replicate 100 (false, 0)) [] [] exCaller exCallee

theorem exCall_caller : restView exFrank exCall.1 exCall.2.2.1 =
    ⟨⟨true, true, [.text (some [7, 8]), .ping (some [0x21]), .close 1000 (some [])], [], [.completed, .completed, .completed],
      [.readMessage 1 1 [1], .readMessage 1 1 [2], .readMessage 1 1 [], .onPong 1 [0x21], .onClose 1 0 []], [], false⟩, true, true, true, false⟩ := by decide +kernel

theorem exCall_callee : restView exFrank exCall.2.1 exCall.2.2.2 =
    ⟨⟨true, true, [.text (some [1, 2]), .pong (some [0x21]), .closeEmpty], [.completed, .completed, .completed], [],
      [.readMessage 7 1 [7], .readMessage 7 1 [8], .readMessage 7 1 [], .onPing 7 [0x21], .onClose 7 1000 []], [], false⟩, true, true, true, true⟩ := by decide +kernel

/-- The hypotheses of `C94_any_moment` and `C94_all_heard` are met: greeting, text, ping, pong, close, close. -/
theorem exCalled : ∃ a b logA logB, Linked exFrank exFrank exCaller exCallee logA logB a b ∧ Orderly logA ∧ Orderly logB ∧ Lasts exCaller exCallee logA logB ∧ a.AtRest exFrank ∧ b.AtRest exFrank ∧
    Async.callsOf logA = [.text (some [7, 8]), .ping (some [0x21]), .close 1000 (some [])] ∧ Async.callsOf logB = [.text (some [1, 2]), .pong (some [0x21]), .closeEmpty] := by
  have hl : Linked exFrank exFrank exCaller exCallee exCall.1 exCall.2.1 exCall.2.2.1 exCall.2.2.2 := by
    unfold exCall
    exact run_linked _ .refl
  have hA := exCall_caller
  have hB := exCall_callee
  generalize exCall.1 = logA, exCall.2.1 = logB, exCall.2.2.1 = a, exCall.2.2.2 = b at hl hA hB
  injection hA with hA ar
  injection hA with a1 a2 a3
  injection hB with hB br
  injection hB with b1 b2 b3
  have tA : Speech [.text (some [7, 8]), .ping (some [0x21])] [.close 1000 (some [])] := by
    refine ⟨⟨rfl, (show 1 ≤ 125 by decide), trivial⟩, .inr ⟨_, rfl, Nat.zero_le _⟩, ?_⟩
    intro c hc
    simp only [List.cons_append, List.nil_append, List.mem_cons, List.not_mem_nil, or_false] at hc
    rcases hc with rfl | rfl | rfl <;> exact exSmall _ (by decide)
  have tB : Speech [.text (some [1, 2]), .pong (some [0x21])] [.closeEmpty] := by
    refine ⟨⟨rfl, (show 1 ≤ 125 by decide), trivial⟩, .inr ⟨_, rfl, trivial⟩, ?_⟩
    intro c hc
    simp only [List.cons_append, List.nil_append, List.mem_cons, List.not_mem_nil, or_false] at hc
    rcases hc with rfl | rfl | rfl <;> exact exSmall _ (by decide)
  have ha3 : Async.callsOf logA = [.text (some [7, 8]), .ping (some [0x21]), .close 1000 (some [])] := a3
  have hb3 : Async.callsOf logB = [.text (some [1, 2]), .pong (some [0x21]), .closeEmpty] := b3
  refine ⟨a, b, logA, logB, hl, ⟨Async.serialCheck_sound a1, _, _, a3, tA⟩, ⟨Async.serialCheck_sound b1, _, _, b3, tB⟩, ⟨?_, ?_, ?_, ?_⟩, restNow_sound ar, restNow_sound br, a3, b3⟩
  · rw [ha3]; decide +kernel
  · rw [hb3]; decide +kernel
  · rw [hb3]; decide +kernel
  · rw [ha3]; decide +kernel

theorem exEnough : exCaller.Enough 200 ∧ exCallee.Enough 200 := ⟨(fun o h => by simp only [OatWS.Client.tasks, List.map_cons, List.map_nil, List.mem_cons, List.not_mem_nil, or_false] at h; rcases h with rfl | rfl <;> exact fun e => (by cases e)), ⟨by decide +kernel, by decide +kernel⟩⟩

/-! ## The theorems -/

variable {envA envB : Env} {fuelA fuelB lA BA lB BB : Nat} {c : OatWS.Client.Conn} {schedB : List IoOutcome} {outB : OutStream} {a0 b0 a b : Endpoint} {logA logB : List Async.Entry}

/-- **C94** (sends). If low-level writes do not fail, no send fails: whatever the application does, with any number of threads and coroutines, over any history. -/
theorem C94_sends (hA : a0.App envA fuelA) (hf : ∀ o ∈ a0.st.sock.out.sched, o.fine = true) (h : Linked envA envB a0 b0 logA logB a b) : ∀ e ∈ logA, e.failed = false := sends_fine hA hf h

/-- The hypotheses of `C94_sends` are met, by a client and a server that make three sends each. -/
example : ∃ a b logA logB, Linked exFrank exFrank exCaller exCallee logA logB a b ∧ (∀ e ∈ logA, e.failed = false) ∧ (Async.callsOf logA).length = 3 := by
  obtain ⟨a, b, logA, logB, hl, -, -, -, -, -, cA, -⟩ := exCalled
  exact ⟨a, b, logA, logB, hl, C94_sends (exCaller_on.app rfl exReliable.1) exReliable.1.2 hl, by rw [cA]; rfl⟩

/-- **C94** (any moment). A client and a server as in C92 whose applications do nothing to end listening, over a connection that does not fail: at any moment no send has failed, nothing undefined has happened, and each side's listener has heard exactly what
the first calls at the other side say, and at most a beginning of the next one's data. -/
theorem C94_any_moment (hc : c.inp.bytes = []) (hA : Client envA fuelA lA BA c a0) (hB : Session envB fuelB lB BB schedB outB b0) (hfA : a0.Enough fuelA) (hfB : b0.Enough fuelB) (hrA : Reliable a0) (hrB : Reliable b0)
    (h : Linked envA envB a0 b0 logA logB a b) :
    ((∀ e ∈ logA, e.failed = false) ∧ ∀ e ∈ logB, e.failed = false) ∧ (a.Defined ∧ b.Defined) ∧
    (Orderly logA → ∃ n part, HeardUpTo (Async.callsOf logA) lB n part b.st.sock.trace) ∧ (Orderly logB → ∃ n part, HeardUpTo (Async.callsOf logB) lA n part a.st.sock.trace) := by
  obtain ⟨envA', a0', lA', cA⟩ := hA.calm hrA
  obtain ⟨envB', b0', lB', cB⟩ := hB.calm hrB
  obtain ⟨a', b', h', la, lb⟩ := h.like lA' lB'
  obtain ⟨k1, ⟨k2, k3⟩, k4, k5⟩ := calm_any_moment hc cA cB (enough_like hfA lA') (enough_like hfB lB') (hrA.like lA') (hrB.like lB') h'
  rw [la.st] at k5
  rw [lb.st] at k4
  exact ⟨k1, ⟨la.defined k2, lb.defined k3⟩, k4, k5⟩

/-- At the end of the conversation of the example. -/
example : ∃ a b logA logB, Linked exFrank exFrank exCaller exCallee logA logB a b ∧ (∃ n part, HeardUpTo (Async.callsOf logA) 7 n part b.st.sock.trace) ∧ (Async.callsOf logA).length = 3 := by
  obtain ⟨a, b, logA, logB, hl, oA, -, -, -, -, cA, -⟩ := exCalled
  exact ⟨a, b, logA, logB, hl, (C94_any_moment rfl exCaller_on exCallee_on exEnough.1 exEnough.2 exReliable.1 exReliable.2 hl).2.2.1 oA, by rw [cA]; rfl⟩

/-- **C94** (everything is heard). A client and a server as in C92 whose applications do nothing to end listening, over a connection that does not fail and lasts: when it has come to rest, each side's listener has heard exactly what was sent at the other
side; it waits for more, or its listening has ended and the last call at the other side was a close. -/
theorem C94_all_heard (hc : c.inp.bytes = []) (hA : Client envA fuelA lA BA c a0) (hB : Session envB fuelB lB BB schedB outB b0) (hfA : a0.Enough fuelA) (hfB : b0.Enough fuelB) (hrA : Reliable a0) (hrB : Reliable b0)
    (h : Linked envA envB a0 b0 logA logB a b) (hoA : Orderly logA) (hoB : Orderly logB) (hl : Lasts a0 b0 logA logB) (hrest : a.AtRest envA ∧ b.AtRest envB) :
    (HeardWhole (Async.callsOf logA) lB b.st.sock.trace ∧ ((b.Waits ∧ ¬ SaidClose logA) ∨ (Over b ∧ SaidClose logA))) ∧
    (HeardWhole (Async.callsOf logB) lA a.st.sock.trace ∧ ((a.Waits ∧ ¬ SaidClose logB) ∨ (Over a ∧ SaidClose logB))) := by
  obtain ⟨envA', a0', lA', cA⟩ := hA.calm hrA
  obtain ⟨envB', b0', lB', cB⟩ := hB.calm hrB
  obtain ⟨a', b', h', la, lb⟩ := h.like lA' lB'
  have hl' : Lasts a0' b0' logA logB := ⟨by rw [lA'.st]; exact hl.takesA, by rw [lB'.st]; exact hl.takesB, by rw [lA'.st]; exact hl.givesA, by rw [lB'.st]; exact hl.givesB⟩
  obtain ⟨⟨k1, k2⟩, k3, k4⟩ := calm_all_heard hc cA cB (enough_like hfA lA') (enough_like hfB lB') (hrA.like lA') (hrB.like lB') h' hoA hoB hl' ⟨la.rest hrest.1, lb.rest hrest.2⟩
  rw [la.st] at k3
  rw [lb.st] at k1
  exact ⟨⟨k1, k2.imp (fun x => ⟨lb.waits x.1, x.2⟩) fun x => ⟨over_like lb x.1, x.2⟩⟩, k3, k4.imp (fun x => ⟨la.waits x.1, x.2⟩) fun x => ⟨over_like la x.1, x.2⟩⟩

/-- Here: both sides close, both listeners have heard everything, and both have stopped listening. -/
example : ∃ a b logA logB, Linked exFrank exFrank exCaller exCallee logA logB a b ∧ HeardWhole (Async.callsOf logA) 7 b.st.sock.trace ∧ HeardWhole (Async.callsOf logB) 1 a.st.sock.trace ∧ Over a ∧ Over b ∧
    (Async.callsOf logA).length = 3 ∧ (Async.callsOf logB).length = 3 := by
  obtain ⟨a, b, logA, logB, hl, oA, oB, ls, ra, rb, cA, cB⟩ := exCalled
  obtain ⟨⟨h1, h2⟩, h3, h4⟩ := C94_all_heard rfl exCaller_on exCallee_on exEnough.1 exEnough.2 exReliable.1 exReliable.2 hl oA oB ls ⟨ra, rb⟩
  have sA : SaidClose logA := ⟨.close 1000 (some []), Nat.zero_le _, by rw [cA]; rfl⟩
  have sB : SaidClose logB := ⟨.closeEmpty, trivial, by rw [cB]; rfl⟩
  refine ⟨a, b, logA, logB, hl, h1, h3, ?_, ?_, by rw [cA]; rfl, by rw [cB]; rfl⟩
  · rcases h4 with h | h
    · exact absurd sB h.2
    · exact h.1
  · rcases h2 with h | h
    · exact absurd sA h.2
    · exact h.1

/-- **C94** (catching makes no difference). Over a connection that does not fail it makes no difference whether callbacks catch what sends throw: whatever a client whose listener lets them through does, the same client whose listener catches them all can do, with the same record and the same state. -/
theorem C94_catching {pB : Async.Pool} (mask : Bool) (settings : List Async.Setting) (hd : Header) (others : List (Threads.Prog Unit)) (hs : ∀ q ∈ others, Threads.HelperCode (fun _ => True) envA fuelA q) (hf : ∀ o ∈ c.out.sched, o.fine = true)
    (h : Linked envA envB (.threads (OatWS.Client.threads envA fuelA mask settings hd others c)) (.tasks pB) logA logB a b) :
    ∃ a', Linked envA.catching envB (.threads (OatWS.Client.threads envA.catching fuelA mask settings hd others c)) (.tasks pB) logA logB a' b ∧ a'.st = a.st ∧ (a.AtRest envA → a'.AtRest envA.catching) := by
  have ho : (OatWS.Client.socket mask settings c).sock.out = c.out := by
    unfold OatWS.Client.socket
    have : ∀ (cs : List Async.Setting) (s : Sock), (cs.foldl Async.Setting.apply s).out = s.out := by
      intro cs
      induction cs with
      | nil => intro _; rfl
      | cons x cs ih => intro s; rw [List.foldl_cons, ih]; cases x <;> rfl
    exact this _ _
  have hl : Like envA envA.catching (.threads (OatWS.Client.threads envA fuelA mask settings hd others c)) (.threads (OatWS.Client.threads envA.catching fuelA mask settings hd others c)) := by
    refine like_of (fuel := fuelA) (by rw [ho]; exact hf) (fun q hq => ?_) (Threads.same_listen envA fuelA hd)
    rcases List.mem_cons.mp hq with rfl | hq
    · exact .listen hd
    · exact (hs q hq).app
  obtain ⟨a', b', h', la, lb⟩ := h.like hl .tasks
  obtain ⟨pB', hb, -⟩ := h.fed.2.tasks
  subst hb
  have := lb.tasks_eq
  subst this
  exact ⟨a', h', la.st, la.rest⟩

/-- A threaded client whose listener answers a ping, and does not catch what the send throws, with an async server that pings it. -/
def exFrankSettings : List Async.Setting := [.listener (some 1), .config { readBufferSize := 2, maskOutgoingMessages := true }]
def exFrankClient : Endpoint := .threads (OatWS.Client.threads exFrank 200 true exFrankSettings default [] exLine)
def exFrankServer : Async.Pool := Async.newSession [.listener (some 7)] default [.run (Async.userTask [.send (.ping (some [0x21])) false])] ⟨[], Fixture.slow 60⟩ ⟨[], Fixture.slow 60⟩
def exFrankRun := run exFrank exFrank (List.replicate 60 (true, 1) ++ List.replicate 80 (false, 0) ++ List.replicate 80 (true, 0)) [] [] exFrankClient (.tasks exFrankServer)

theorem exFrankRun_view : (Async.callsOf exFrankRun.1, exFrankRun.2.2.2.st.sock.trace) = ([.pong (some [0x21])], [.onPong 7 [0x21]]) := by decide +kernel

example : ∃ a b logA logB a', Linked exFrank exFrank (.threads (OatWS.Client.threads exFrank 200 true exFrankSettings default [] exLine)) (.tasks exFrankServer) logA logB a b ∧
    Linked exFrank.catching exFrank (.threads (OatWS.Client.threads exFrank.catching 200 true exFrankSettings default [] exLine)) (.tasks exFrankServer) logA logB a' b ∧ a'.st = a.st ∧
    Async.callsOf logA = [.pong (some [0x21])] ∧ b.st.sock.trace = [.onPong 7 [0x21]] := by
  have hl : Linked exFrank exFrank exFrankClient (.tasks exFrankServer) exFrankRun.1 exFrankRun.2.1 exFrankRun.2.2.1 exFrankRun.2.2.2 := by
    unfold exFrankRun
    exact run_linked _ .refl
  have hv := exFrankRun_view
  generalize exFrankRun.1 = logA, exFrankRun.2.1 = logB, exFrankRun.2.2.1 = a, exFrankRun.2.2.2 = b at hl hv
  injection hv with h1 h2
  obtain ⟨a', k1, k2, -⟩ := C94_catching true exFrankSettings default [] (fun _ h => (by cases h)) (exSlow_fine 60) hl
  exact ⟨a, b, logA, logB, a', hl, k1, k2, h1, h2⟩

end OatWS.Together
