import Verif.Proofs.ReentrantEnds
import Verif.Props.Reentrant
/-! # C96: a thread that reads inside callbacks comes to its end -/

namespace OatWS.Reentrant
open RFC6455

/-- **C96** (nothing but the connection holds the thread up). In each callback, code does a bounded number of operations other than reads; of reads it may do any number. Then reads nested in callbacks, in the middle of frames too, cannot make the thread wait for itself or go on for ever: when `iterateFrame` or `listen` does not go
on, the connection will not do any more reads, or any more writes. Callbacks are at most as deep in each other as the connection has reads left, and there are as many operations in each at most, besides the `n` others. This is so for every stream, and if sends fail, the listener is replaced or the configuration is changed. -/
theorem C96_waits (c : Code) (n : Nat) (hb : c.Brief n) (h : Header) (st : St) (steps depth : Nat) (hs : n + st.inp.sched.length ≤ steps) (hd : st.inp.sched.length ≤ depth) :
    ((iterateFrame c steps depth h st).1 = .block → Waiting (iterateFrame c steps depth h st).2) ∧ ((listen c steps depth h st).1 = .block → Waiting (listen c steps depth h st).2) :=
  ⟨(iterate_live (callback_live c hb steps depth _ hd hs) c.env h st (Nat.le_succ _)).1, (listen_live (callback_live c hb steps depth _ hd hs) c.env h st (Nat.le_succ _)).1⟩

/-- **C96** (nothing undefined). If what the code sends is shorter than 2^31 bytes and it leaves the configuration alone, reads nested in callbacks, in any depth and in the middle of frames too, do nothing undefined: received data never overrun the buffer of any of the calls that are inside each other. This is so for every
stream, any configuration and any code. -/
theorem C96_defined (c : Code) (hm : c.Modest) (steps depth : Nat) (h : Header) (st : St) (u : UB) : (iterateFrame c steps depth h st).1 ≠ .ub u ∧ (listen c steps depth h st).1 ≠ .ub u :=
  ⟨(iterate_defined (conf := st.sock.config) (callback_defined c hm steps depth) c.env h st rfl).1 u, (listen_defined (conf := st.sock.config) (callback_defined c hm steps depth) c.env h st rfl).1 u⟩

/-- `listen` throws nothing of its own accord, nor what a callback throws. -/
theorem listen_no_throw (c : Code) (steps depth : Nat) (h : Header) (st : St) (e : Err) : (listen c steps depth h st).1 ≠ .throw e := by
  unfold listen listenWith
  dsimp only
  split
  · exact nofun
  · rename_i hn
    intro he
    rcases hr : listenLoopWith c.env (callback c steps depth) (st.inp.sched.length + 1) h { st with sock := { st.sock with listening := true } } with ⟨r, st'⟩
    rw [hr] at he
    exact hn e st' (by rw [hr]; exact congrArg (·, st') he)

/-- **C96** (`listen` returns). With both, `listen` returns, unless the connection holds it up. -/
theorem C96_ends (c : Code) (hm : c.Modest) (n : Nat) (hb : c.Brief n) (h : Header) (st : St) (steps depth : Nat) (hs : n + st.inp.sched.length ≤ steps) (hd : st.inp.sched.length ≤ depth) :
    (listen c steps depth h st).1 = .ret () ∨ Waiting (listen c steps depth h st).2 := by
  have h1 := (C96_waits c n hb h st steps depth hs hd).2
  have h2 := fun u => (C96_defined c hm steps depth h st u).2
  have h3 := listen_no_throw c steps depth h st
  rcases hr : listen c steps depth h st with ⟨r, st'⟩
  rw [hr] at h1 h2 h3
  cases r with
  | ret a => exact .inl rfl
  | throw e => exact absurd rfl (h3 e)
  | block => exact .inr (h1 rfl)
  | ub u => exact absurd rfl (h2 u)

/-- **C96** (a frame costs a read). With such code, a call of `iterateFrame` or `listen` that returns, or throws, has used up at least one read of the connection, and no such call brings reads back. -/
theorem C96_progress (c : Code) (n : Nat) (hb : c.Brief n) (h : Header) (st : St) (steps depth : Nat) (hs : n + st.inp.sched.length ≤ steps) (hd : st.inp.sched.length ≤ depth) :
    ((iterateFrame c steps depth h st).2.inp.sched.length ≤ st.inp.sched.length ∧ ((iterateFrame c steps depth h st).1 ≠ .block → (iterateFrame c steps depth h st).2.inp.sched.length < st.inp.sched.length)) ∧
      (listen c steps depth h st).2.inp.sched.length ≤ st.inp.sched.length ∧ ((listen c steps depth h st).1 ≠ .block → (listen c steps depth h st).2.inp.sched.length < st.inp.sched.length) :=
  ⟨(iterate_live (callback_live c hb steps depth _ hd hs) c.env h st (Nat.le_succ _)).2, (listen_live (callback_live c hb steps depth _ hd hs) c.env h st (Nat.le_succ _)).2⟩

/-! ## Cases -/

/-- Reads until there is a pong, then up to three sends. -/
theorem exCode_brief : exCode.Brief 3 := by
  intro tr i now u hi h
  dsimp only [exCode] at h
  split at h
  · split at h
    · rw [if_neg (by omega)] at h
      cases h
    · cases h
  · cases h

theorem exCode_modest : exCode.Modest := by
  refine ⟨fun tr u hu => (nomatch hu), fun tr i now u h => ?_⟩
  dsimp only [exCode] at h
  split at h
  · split at h
    · split at h
      · injection h with h
        injection h with h
        subst h
        refine ⟨fun call catches h => ?_, nofun⟩
        injection h with h _
        subst h
        decide
      · cases h
    · cases h
  · cases h

/-- There are 80 reads. -/
example := C96_waits exCode 3 exCode_brief default exSt 83 80 (by decide +kernel) (by decide +kernel)
example := C96_ends exCode exCode_modest 3 exCode_brief default exSt 83 80 (by decide +kernel) (by decide +kernel)
example := C96_progress exCode 3 exCode_brief default exSt 83 80 (by decide +kernel) (by decide +kernel)
example (st : St) (u : UB) := C96_defined exCode exCode_modest 83 80 default st u

/-- If the pong does not come, `listen` waits in the callback of the ping, with any number of operations done in it. -/
def exNoPong : St := { exSt with inp := ⟨[0x89, 0x00, 0x81, 0x00, 0x81, 0x00, 0x81, 0x00], Fixture.slow 8⟩ }

example : (listen exCode 19 16 default exNoPong).1 = .block ∧ (listen exCode 19 16 default exNoPong).2.inp.sched = [] ∧ (listen exCode 19 16 default exNoPong).2.sock.trace.length = 4 := by
  refine ⟨?_, ?_, ?_⟩ <;> decide +kernel

theorem exMid_brief : exMid.Brief 0 := by
  intro tr i now u _ h
  dsimp only [exMid] at h
  split at h <;> cases h

/-- Reading in the middle of a frame, with any stream. -/
example (st : St) := C96_waits exMid 0 exMid_brief default st st.inp.sched.length st.inp.sched.length (Nat.le_of_eq (Nat.zero_add _)) (Nat.le_refl _)

theorem exMid_modest : exMid.Modest := by
  refine ⟨fun tr u hu => (nomatch hu), fun tr i now u h => ?_⟩
  dsimp only [exMid] at h
  split at h <;> cases h

example (st : St) (u : UB) := C96_defined exMid exMid_modest 1 st.inp.sched.length default st u

example (st : St) := C96_ends exMid exMid_modest 0 exMid_brief default st st.inp.sched.length st.inp.sched.length (Nat.le_of_eq (Nat.zero_add _)) (Nat.le_refl _)

/-- With twelve of its reads the connection has delivered a part of the text, the frame inside it, and one more byte: then `listen` waits. -/
def exMidShort : St := { exMidSt with inp := ⟨exMidSt.inp.bytes, exMidSt.inp.sched.take 12⟩ }

example : (listen exMid 12 12 default exMidShort).1 = .block ∧ (listen exMid 12 12 default exMidShort).2.inp.sched = [] ∧ (listen exMid 12 12 default exMidShort).2.sock.trace = [.readMessage 1 1 [0x68], .onPing 1 [], .readMessage 1 1 [0x81]] := by
  refine ⟨?_, ?_, ?_⟩ <;> decide +kernel

/-- Code that does not stop: in each callback, operation after operation. -/
def exEndless : Code where
  env := Fixture.env
  next _ _ _ := some (.op .stopListening)

/-- Why the number of operations other than reads has to be bounded: the thread goes on for ever in the first callback, within any bound, and the connection would go on. -/
example : (listen exEndless 3 80 default exMidSt).1 = .block ∧ ¬ Waiting (listen exEndless 3 80 default exMidSt).2 := by
  refine ⟨by decide +kernel, fun h => ?_⟩
  have : (listen exEndless 3 80 default exMidSt).2.inp.sched.length ≠ 0 ∧ (listen exEndless 3 80 default exMidSt).2.sock.out.sched.length ≠ 0 := by decide +kernel
  rcases h with h | h
  · exact this.1 (by rw [h]; rfl)
  · exact this.2 (by rw [h]; rfl)

end OatWS.Reentrant
