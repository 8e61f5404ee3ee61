import Verif.Proofs.GatewayWaits
import Verif.Proofs.GatewayDefined
import Verif.Props.GatewayWrites
/-! # C97: what a thread that reads inside callbacks may wait for -/

namespace OatWS.Gateway
open RFC6455
open Reentrant (NestedOp)

/-- **C97** (nothing but a connection holds the thread up). Sockets are in finitely many layers, and code does a bounded number of operations in each callback. Then reads nested in callbacks, in the middle of frames too, cannot make the thread wait for itself or go on for ever: when it does not go on, there is a
connection that will not do any more reads or writes. This is so for every stream, and if sends fail, listeners are replaced or configurations are changed. -/
theorem C97_waits (c : Code) (layer : Nat → Nat) (hl : c.Layered layer) (D : Nat) (hD : ∀ j, layer j ≤ D) (steps : Nat) (hb : c.Brief steps) (depth : Nat) (hd : D < depth) (w : World) (h : (main c steps depth w).1 = .block) :
    Waiting (main c steps depth w).2 :=
  (code_live (k := 0) (call := callback c steps depth) down_any down_any c [] (fun _ _ j _ _ _ => ⟨steps_any, callback_live c layer hl D hD steps hb depth j (Nat.lt_of_lt_of_le hd (Nat.le_add_right ..))⟩) steps 0 (fun now => by rw [Nat.zero_add]; exact hb _ now) w trivial).1 h

/-- **C97** (nothing but a connection holds the thread up, without layers). The same when sockets are not in layers: code reads from any of finitely many sockets in callbacks of any of them, of the same one too. In each callback it does a bounded number of operations other than reads; of reads it may do any number.
Callbacks are at most as deep in each other as the connections have reads left, and there are as many operations in each at most, besides the `b` others. -/
theorem C97_waits_any (c : Code) (n : Nat) (hn : c.ReadsBelow n) (b : Nat) (hb : c.BriefBesides b) (steps depth : Nat) (w : World) (hs : b + readsLeft n w ≤ steps) (hd : readsLeft n w ≤ depth) (h : (main c steps depth w).1 = .block) : Waiting (main c steps depth w).2 :=
  main_few c n hn hb steps depth w hs hd h

/-- **C97** (nothing undefined). If what the code sends is shorter than 2^31 bytes and it leaves the configurations alone, reads nested in callbacks, on the same or other sockets, in any depth, do nothing undefined: received data never overrun the buffer of any of the calls that are inside each other. This is so for
every stream, any configuration and any code, in layers or not. -/
theorem C97_defined (c : Code) (hm : ∀ k, c.Modest k) (steps depth : Nat) (w : World) (u : UB) : (main c steps depth w).1 ≠ .ub u :=
  (main_defined (conf := fun j => (w.socks j).sock.config) c hm steps depth w fun _ => rfl).1 u

/-- **C97** (the thread comes to its end). With both, a thread comes to its end, in a return or an exception of the code's own or one it does not catch, unless a connection holds it up. -/
theorem C97_ends (c : Code) (hm : ∀ k, c.Modest k) (layer : Nat → Nat) (hl : c.Layered layer) (D : Nat) (hD : ∀ j, layer j ≤ D) (steps : Nat) (hb : c.Brief steps) (depth : Nat) (hd : D < depth) (w : World) :
    (main c steps depth w).1 = .ret () ∨ (∃ e, (main c steps depth w).1 = .throw e) ∨ Waiting (main c steps depth w).2 := by
  have h1 := C97_waits c layer hl D hD steps hb depth hd w
  have h2 := C97_defined c hm steps depth w
  rcases hr : main c steps depth w with ⟨r, w'⟩
  rw [hr] at h1 h2
  cases r with
  | ret a => exact .inl rfl
  | throw e => exact .inr (.inl ⟨e, rfl⟩)
  | block => exact .inr (.inr (h1 rfl))
  | ub u => exact absurd rfl (h2 u)

/-- **C97** (the thread comes to its end, without layers). -/
theorem C97_ends_any (c : Code) (hm : ∀ k, c.Modest k) (n : Nat) (hn : c.ReadsBelow n) (b : Nat) (hb : c.BriefBesides b) (steps depth : Nat) (w : World) (hs : b + readsLeft n w ≤ steps) (hd : readsLeft n w ≤ depth) :
    (main c steps depth w).1 = .ret () ∨ (∃ e, (main c steps depth w).1 = .throw e) ∨ Waiting (main c steps depth w).2 := by
  have h1 := C97_waits_any c n hn b hb steps depth w hs hd
  have h2 := C97_defined c hm steps depth w
  rcases hr : main c steps depth w with ⟨r, w'⟩
  rw [hr] at h1 h2
  cases r with
  | ret a => exact .inl rfl
  | throw e => exact .inr (.inl ⟨e, rfl⟩)
  | block => exact .inr (.inr (h1 rfl))
  | ub u => exact absurd rfl (h2 u)

/-- **C97** (a frame costs a read). With such code, a call of `iterateFrame` that returns, or throws, has used up at least one read of the connection of its socket, and no operation brings reads back on any socket, however calls are nested. -/
theorem C97_progress (c : Code) (layer : Nat → Nat) (hl : c.Layered layer) (D : Nat) (hD : ∀ j, layer j ≤ D) (steps : Nat) (hb : c.Brief steps) (depth : Nat) (hd : D < depth) (k : Nat) (h : Header) (w : World) :
    (∀ j, ((iterateOn (c.env k) (callback c steps depth) k h w).2.socks j).inp.sched.length ≤ (w.socks j).inp.sched.length) ∧
      ((iterateOn (c.env k) (callback c steps depth) k h w).1 ≠ .block → ((iterateOn (c.env k) (callback c steps depth) k h w).2.socks k).inp.sched.length < (w.socks k).inp.sched.length) := by
  obtain ⟨-, h2, h3⟩ := iterate_live down_any steps_any (callback_live c layer hl D hD steps hb depth k (Nat.lt_of_lt_of_le hd (Nat.le_add_right ..))) (c.env k) h w trivial
  exact ⟨h2, h3⟩

/-! ## Cases -/

/-- Two sockets, and in each callback of each, a frame of the other. -/
def exPair : Code where
  env _ := Fixture.env
  next tr i _ := match tr.getLast? with
    | none => if i < 2 then some (0, .listen) else none
    | some (k, _) => if i = 0 then some (1 - k, .iterate true) else none

theorem exPair_reads : exPair.ReadsBelow 2 := by
  intro tr i now j op hn _
  dsimp only [exPair] at hn
  split at hn
  · split at hn
    · injection hn with hn; injection hn with hn _; subst hn; exact Nat.zero_lt_two
    · cases hn
  · split at hn
    · injection hn with hn; injection hn with hn _; subst hn; omega
    · cases hn

theorem exPair_brief : exPair.BriefBesides 0 := by
  intro tr i now j u _ hn
  dsimp only [exPair] at hn
  split at hn
  · split at hn <;> cases hn
  · split at hn <;> cases hn

example (w : World) (h : (main exPair (readsLeft 2 w) (readsLeft 2 w) w).1 = .block) : Waiting (main exPair (readsLeft 2 w) (readsLeft 2 w) w).2 :=
  C97_waits_any exPair 2 exPair_reads 0 exPair_brief _ _ w (Nat.le_of_eq (Nat.zero_add _)) (Nat.le_refl _) h

/-- In this case it waits: reading from a socket in the middle of a frame of the same socket has taken payload for headers, until the connection has no reads left. -/
example : (main exPair 148 148 exWorld).1 = .block ∧ readsLeft 2 exWorld = 148 ∧ ((main exPair 148 148 exWorld).2.socks 0).inp.sched = [] ∧ (main exPair 148 148 exWorld).2.log.map (·.1) = [0, 1, 1, 0, 1, 0, 1] := by
  refine ⟨?_, ?_, ?_, ?_⟩ <;> decide +kernel

theorem exCode_two : exCode.Layered (fun k => if k = 0 then 0 else 1) := by
  intro tr k e i now j op hn hr
  dsimp only [exCode] at hn
  rw [List.getLast?_concat] at hn
  split at hn
  · cases ‹some _ = none›
  · rename_i h
    injection h with h
    injection h with h1 h2
    subst h1
    split at hn
    · injection hn with hn
      injection hn with _ hn
      subst hn
      exact hr.elim
    · split at hn
      · injection hn with hn
        injection hn with hn _
        subst hn
        exact Nat.zero_lt_one
      · cases hn
  · split at hn
    · injection hn with hn
      injection hn with _ hn
      subst hn
      exact hr.elim
    · cases hn
  · cases hn

theorem exCode_brief : exCode.Brief 3 := by
  intro tr now
  dsimp only [exCode]
  split <;> rfl

/-- The gateway waits for its connections only; a bound of 3 operations and 2 callbacks inside each other is enough for it. -/
example (w : World) (h : (main exCode 3 2 w).1 = .block) : Waiting (main exCode 3 2 w).2 :=
  C97_waits exCode _ exCode_two 1 (fun j => by split <;> omega) 3 exCode_brief 2 (by omega) w h

/-- When the client's connection has only the reads for a part of its first frame, the thread does wait; it has heard two pieces of data and, in these two callbacks, frames of the back end. -/
def exShort : World := ⟨fun k => if k = 0 then { exSock with inp := ⟨exSock.inp.bytes, exSock.inp.sched.take 16⟩ } else exSock, [], []⟩

example : (main exCode 3 2 exShort).1 = .block ∧ ((main exCode 3 2 exShort).2.socks 0).inp.sched = [] ∧ (main exCode 3 2 exShort).2.log.map (·.1) = [0, 1, 1, 1, 0, 1] := by
  refine ⟨?_, ?_, ?_⟩ <;> decide +kernel

example (w : World) (u : UB) : (main exCode 3 2 w).1 ≠ .ub u := C97_defined exCode exCode_modest 3 2 w u

example (w : World) := C97_ends exCode exCode_modest _ exCode_two 1 (fun j => by split <;> omega) 3 exCode_brief 2 (by omega) w

/-- The pair of sockets sends nothing. -/
theorem exPair_modest (k : Nat) : exPair.Modest k := by
  have key : ∀ tr i now j u, exPair.next tr i now ≠ some (j, .op u) := by
    intro tr i now j u hn
    dsimp only [exPair] at hn
    split at hn
    · split at hn <;> cases hn
    · split at hn <;> cases hn
  exact ⟨fun call ⟨tr, i, now, catches, hn⟩ => absurd hn (key _ _ _ _ _), fun tr i now cfg => key _ _ _ _ _⟩

example := C97_ends_any exPair exPair_modest 2 exPair_reads 0 exPair_brief 148 148 exWorld (by decide +kernel) (by decide +kernel)

example (w : World) := C97_progress exCode _ exCode_two 1 (fun j => by split <;> omega) 3 exCode_brief 2 (by omega) 0 default w

end OatWS.Gateway
