import Verif.Proofs.Gateway
import Verif.Proofs.GatewayBound
import Verif.Props.Polling
import Verif.Props.Replace
import Verif.Props.Again
/-! # C97: one thread that reads from sockets inside callbacks of other sockets -/

namespace OatWS.Gateway
open RFC6455
open Reentrant (NestedOp Heard)

/-! ## A case: a gateway -/

/-- In the layer 0 is a client, in the layer 1 a back end. The thread reads three frames of the client. When data of the client arrive (in the middle of a frame), a text is sent to the back end and a frame of it is read; when a ping of the back end is heard there,
a pong is sent to the client. -/
def exCode : Code where
  env _ := Fixture.env
  next tr i _ := match tr.getLast? with
    | none => if i < 3 then some (0, .iterate true) else none
    | some (0, .readMessage _ _ (_ :: _)) => if i = 0 then some (1, .op (.send (.text (some [1])) true)) else if i = 1 then some (1, .iterate true) else none
    | some (1, .onPing _ _) => if i = 0 then some (0, .op (.send (.pong (some [2])) true)) else none
    | _ => none

theorem exCode_layered : exCode.Layered id := by
  intro tr k e i now j op hn hr
  dsimp only [exCode] at hn
  rw [List.getLast?_concat] at hn
  split at hn
  · cases ‹some _ = none›
  · rename_i h
    injection h with h
    injection h with h1 h2
    subst h1
    split at hn
    · injection hn with hn
      injection hn with _ hn
      subst hn
      exact hr.elim
    · split at hn
      · injection hn with hn
        injection hn with hn _
        subst hn
        exact Nat.zero_lt_one
      · cases hn
  · split at hn
    · injection hn with hn
      injection hn with _ hn
      subst hn
      exact hr.elim
    · cases hn
  · cases hn

theorem exCode_careful : exCode.Careful := by
  intro tr i now j op hn
  dsimp only [exCode] at hn
  split at hn
  · split at hn
    · injection hn with hn
      injection hn with _ hn
      subst hn
      rfl
    · cases hn
  · split at hn
    · injection hn with hn
      injection hn with _ hn
      subst hn
      exact ⟨trivial, nofun, nofun⟩
    · split at hn
      · injection hn with hn
        injection hn with _ hn
        subst hn
        rfl
      · cases hn
  · split at hn
    · injection hn with hn
      injection hn with _ hn
      subst hn
      exact ⟨trivial, nofun, nofun⟩
    · cases hn
  · cases hn

/-- Both have the stream of `exPolled`: a text in two frames with a ping between them, a close, a ping. -/
def exSock : St := { exPolled [] with sock := { (exPolled []).sock with out := ⟨[], Fixture.slow 40⟩ } }

def exWorld : World := ⟨fun _ => exSock, [], []⟩

theorem exSock_ready : Ready (silent Fixture.env) exSock 7 2 false :=
  ⟨fun _ _ h => absurd h List.not_mem_nil, fun _ s => ⟨s, rfl⟩, rfl, rfl, by decide, rfl, by decide⟩

/-- The thread has come to its end; it has heard three frames of the client and, inside them, all five of the back end. -/
theorem exRun : (main exCode 5 5 exWorld).1.isRet = true ∧ (main exCode 5 5 exWorld).2.log.map (·.1) = [0, 1, 1, 1, 0, 1, 0, 1, 1, 1, 0, 0, 1, 0, 1, 0] ∧
    ((main exCode 5 5 exWorld).2.socks 0).sock.trace = [.readMessage 7 1 [72], .readMessage 7 1 [101], .readMessage 7 1 [108], .onPing 7 [33], .readMessage 7 0 [108], .readMessage 7 0 [111], .readMessage 7 0 []] ∧
    ((main exCode 5 5 exWorld).2.socks 0).sock.out.written = [138, 1, 2, 138, 1, 2] := by
  refine ⟨?_, ?_, ?_, ?_⟩ <;> decide +kernel

/-! ## The theorems -/

/-- **C97** (as if it were alone). A call of `iterateFrame` of a socket, with user code in callbacks that uses other sockets, reads from those of higher layers, and may send on all: unless it does not come to an end, it returns or throws what it would if callbacks did nothing,
it has made the same callbacks and left the same bytes unread; and the sockets of the same and lower layers (those in whose callbacks this call is made among them) are as before, except for what has been written to them. This is so for every stream. -/
theorem C97_alone (c : Code) (layer : Nat → Nat) (hl : c.Layered layer) (hc : c.Careful) (steps depth k : Nat) (h : Header) (w : World) :
    Stops (iterateOn (c.env k) (callback c steps depth) k h w).1 ∨
      ((iterateOn (c.env k) (callback c steps depth) k h w).1 = (iterateFrame (silent (c.env k)) h (w.socks k)).1 ∧
        Like ((iterateOn (c.env k) (callback c steps depth) k h w).2.socks k) (iterateFrame (silent (c.env k)) h (w.socks k)).2 ∧
        ∀ j, j ≠ k → layer j ≤ layer k → Like ((iterateOn (c.env k) (callback c steps depth) k h w).2.socks j) (w.socks j)) := by
  have hk : Kept c.env fun _ _ => True := ⟨fun _ _ _ _ _ => trivial, fun _ _ _ _ => trivial⟩
  rw [← silent_iterate]
  rcases iterate_follow (callback_follow hk rfl hc hl steps depth k) h w (w.socks k) (.refl _) with g | ⟨g1, g2, g3⟩
  · exact .inl g
  · refine .inr ⟨g1, g2, fun j hj hle => ?_⟩
    have := g3 j hj
    rw [if_neg (Nat.not_lt.mpr hle)] at this
    exact this

example : Stops (iterateOn (exCode.env 0) (callback exCode 5 5) 0 default exWorld).1 ∨
    ((iterateOn (exCode.env 0) (callback exCode 5 5) 0 default exWorld).1 = (iterateFrame (silent (exCode.env 0)) default (exWorld.socks 0)).1 ∧
      Like ((iterateOn (exCode.env 0) (callback exCode 5 5) 0 default exWorld).2.socks 0) (iterateFrame (silent (exCode.env 0)) default (exWorld.socks 0)).2 ∧
      ∀ j, j ≠ 0 → id j ≤ id 0 → Like ((iterateOn (exCode.env 0) (callback exCode 5 5) 0 default exWorld).2.socks j) (exWorld.socks j)) :=
  C97_alone exCode id exCode_layered exCode_careful 5 5 0 default exWorld

/-- What is known of a socket during the run. -/
def Known (env : Env) (l B : Nat) (o' : Bool) (fs : List Frame) (tail : List UInt8) (t0 : List Event) (st : St) : Prop :=
  (∃ n evs o, n ≤ fs.length ∧ st.sock.trace = t0 ++ evs ∧ FramesEvents l B (fs.take n) evs ∧ st.inp.bytes = wireOf (fs.drop n) ++ tail ∧ Ready (silent env) st l B o ∧ Pollable o (fs.drop n) o') ∨
    ∃ e1 e2, st.sock.trace = t0 ++ (e1 ++ e2) ∧ FramesEvents l B fs e1

theorem known_like {env : Env} {l B : Nat} {o' : Bool} {fs : List Frame} {tail : List UInt8} {t0 : List Event} {s s' : St} (h : Like s' s) (hk : Known env l B o' fs tail t0 s) : Known env l B o' fs tail t0 s' := by
  unfold Known
  rw [h.trace, h.inp]
  rcases hk with ⟨n, evs, o, h1, h2, h3, h4, h5, h6⟩ | hk
  · exact .inl ⟨n, evs, o, h1, h2, h3, h4, ⟨h5.tame, h5.returns, h.listener.trans h5.listener, by rw [h.config]; exact h5.size, h5.pos, by rw [h.lastOpcode]; exact h5.isOpen, by rw [h.inp]; exact h5.healthy⟩, h6⟩
  · exact .inr hk

theorem known_frame {env : Env} {l B : Nat} {o' : Bool} {fs : List Frame} {tail : List UInt8} {t0 : List Event} {s : St} (h : Header) (hk : Known env l B o' fs tail t0 s) : Known env l B o' fs tail t0 (iterateFrame (silent env) h s).2 := by
  obtain ⟨more, hm, -⟩ := C55_frame (silent env) h s
  rcases hk with ⟨n, evs, o, h1, h2, h3, h4, h5, h6⟩ | ⟨e1, e2, h1, h2⟩
  · by_cases hn : n < fs.length
    · have hd := List.drop_eq_getElem_cons hn
      rw [hd] at h4 h6
      cases h6 with
      | cons hv ha hp =>
        have h4 : s.inp.bytes = (fs[n]).encode ++ (wireOf (fs.drop (n + 1)) ++ tail) := by
          rw [h4, ← List.append_assoc]
          rfl
        obtain ⟨h', e, st', g1, -, g2, g3, g4, g5⟩ := C91_one_frame (silent env) h s l B o h5 _ hv ha _ h4
        rw [g1]
        refine .inl ⟨n + 1, evs ++ e, _, hn, ?_, ?_, g4, g5, hp⟩
        · show st'.sock.trace = _
          rw [g2, h2, List.append_assoc]
        · rw [List.take_succ_eq_append_getElem hn]
          exact framesEvents_append h3 ⟨e, [], (List.append_nil _).symm, g3, rfl⟩
    · rw [List.take_of_length_le (Nat.not_lt.mp hn)] at h3
      exact .inr ⟨evs, more, by rw [hm, h2, List.append_assoc], h3⟩
  · exact .inr ⟨e1, e2 ++ more, by rw [hm, h1]; simp only [List.append_assoc], h2⟩

/-- **C97** (what is heard). One thread with any number of sockets; in callbacks of a socket it may call `iterateFrame` and `listen` of sockets of higher layers, in the middle of a frame too, to any depth, and use all sockets otherwise; it leaves listeners and configurations alone, and catches
exceptions. When it has come to its end, each socket on which acceptable frames came has heard exactly the first of them, in order, each once and completely, and nothing behind them has been read; or it has heard all of them before anything else. -/
theorem C97_heard (c : Code) (layer : Nat → Nat) (hl : c.Layered layer) (hc : c.Careful) (steps depth : Nat) (w : World) (hend : ¬ Stops (main c steps depth w).1) :
    (main c steps depth w).1 = .ret () ∧
      ∀ k l B o o' fs tail, Ready (silent (c.env k)) (w.socks k) l B o → Pollable o fs o' → (w.socks k).inp.bytes = wireOf fs ++ tail → Heard l B fs tail (w.socks k) ((main c steps depth w).2.socks k) := by
  refine ⟨?_, fun k l B o o' fs tail hR hp hw => ?_⟩
  · have hk : Kept c.env fun _ _ => True := ⟨fun _ _ _ _ _ => trivial, fun _ _ _ _ => trivial⟩
    exact ((main_keeps hk rfl hc hl steps depth w).resolve_left hend).1
  · have hk : Kept c.env fun j st => j = k → Known (c.env j) l B o' fs tail (w.socks k).sock.trace st :=
      ⟨fun j s s' h g e => known_like h (g e), fun j h s g e => known_frame h (g e)⟩
    have := ((main_keeps hk rfl hc hl steps depth w).resolve_left hend).2 k (fun _ => .inl ⟨0, [], o, Nat.zero_le _, (List.append_nil _).symm, rfl, hw, hR, hp⟩) rfl
    rcases this with ⟨n, evs, _, h1, h2, h3, h4, -⟩ | ⟨e1, e2, h1, h2⟩
    · exact ⟨evs, h2, .inl ⟨n, h1, h3, h4⟩⟩
    · exact ⟨e1 ++ e2, h1, .inr ⟨e1, e2, rfl, h2⟩⟩

theorem not_stops {α : Type} {e : Exit α} (h : e.isRet = true) : ¬ Stops e := by
  cases e with
  | ret a => exact id
  | throw e => exact id
  | block => cases h
  | ub u => cases h

/-- The hypotheses are met by the gateway above: client and back end have been heard. -/
example : ∀ k, Heard 7 2 [Fixture.hel, Fixture.ping, Fixture.lo, Fixture.closing, Fixture.ping] [] (exWorld.socks k) ((main exCode 5 5 exWorld).2.socks k) :=
  fun k => (C97_heard exCode id exCode_layered exCode_careful 5 5 exWorld (not_stops exRun.1)).2 k 7 2 false true _ [] (by exact exSock_ready) exPolled_pollable (by rfl)

/-- **C97** (the bounds do not matter). A run of the thread that ends within some bounds on depth and number of operations is the same within all larger ones. -/
theorem C97_bound (c : Code) (steps steps' depth depth' : Nat) (hs : steps ≤ steps') (hd : depth ≤ depth') (w : World) (h : (main c steps depth w).1 ≠ .block) : main c steps' depth' w = main c steps depth w := by
  obtain ⟨n, rfl⟩ := Nat.exists_eq_add_of_le hs
  obtain ⟨d, rfl⟩ := Nat.exists_eq_add_of_le hd
  exact (code_goes c (callback_goes c steps n depth d) [] steps n 0 w).resolve_left h

example (n d : Nat) : main exCode (5 + n) (5 + d) exWorld = main exCode 5 5 exWorld :=
  C97_bound exCode 5 (5 + n) 5 (5 + d) (Nat.le_add_right ..) (Nat.le_add_right ..) exWorld fun h => by
    have := exRun.1
    rw [h] at this
    cases this

end OatWS.Gateway
