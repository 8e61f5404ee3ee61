import Verif.Model.Connector
import Verif.Props.Handshake
/-! # C39, C48: the client connector -/

namespace OatWS.Connector
open Http Handshake

/-- The request of C39: a GET on the path, over this connection, with exactly the application's header fields and the four handshake fields. -/
def handshakeRequest (path : Str) (headers : Headers) (key : Str) (connection : Option C) : Ev C :=
  .request "GET" path (headers ++ [(ascii "Upgrade", ascii "websocket"), (ascii "Connection", ascii "Upgrade"),
    (ascii "Sec-WebSocket-Version", ascii "13"), (ascii "Sec-WebSocket-Key", key)]) connection

/-- The headers of a request. -/
def Ev.headers : Ev C → Headers
  | .getConnection => []
  | .request _ _ h _ => h

/-- **C39** (`connect`). It returns a connection exactly if the provider supplied this one, the request executor answered the request sent over it and
the handshake was confirmed. -/
theorem C39_connect_iff (core : Core) (host : Endian) (provided : Except String (Option C)) (execute : Ev C → Except String Response)
    (random : List UInt8) (path : Str) (headers : Headers) (r : Option C) :
    (connect core host provided execute random path headers).2 = .returned r ↔
    ∃ c, r = some c ∧ provided = .ok (some c) ∧ ∃ response, execute (handshakeRequest path headers (generateKey random) (some c)) = .ok response ∧
      clientsideConfirmHandshake core host (handshakeRequest path headers (generateKey random) (some c)).headers response = .ok := by
  unfold connect
  rcases provided with e | c
  · simp
  · cases c with
    | none => simp
    | some c =>
      simp only []
      have hreq : Ev.request "GET" path (allHeaders headers random) (some c) = handshakeRequest path headers (generateKey random) (some c) := rfl
      rw [hreq]
      cases he : execute (handshakeRequest path headers (generateKey random) (some c)) with
      | error e =>
        simp only [reduceCtorEq, Except.ok.injEq, Option.some.injEq, false_iff]
        rintro ⟨x, -, rfl, y, hy, -⟩
        rw [he] at hy
        cases hy
      | ok response =>
        simp only [finish]
        have hs : (handshakeRequest path headers (generateKey random) (some c)).headers = allHeaders headers random := rfl
        constructor
        · intro h
          refine ⟨c, ?_, rfl, response, he, ?_⟩
          · revert h; split <;> intro h <;> first | (injection h with h; exact h.symm) | cases h
          · rw [hs]; revert h; split <;> intro h <;> first | assumption | cases h
        · rintro ⟨c', rfl, h1, response', h2, h3⟩
          injection h1 with h1
          injection h1 with h1
          subst h1
          rw [he] at h2
          injection h2 with h2
          subst h2
          rw [hs] at h3
          rw [h3]

/-- **C39** (`connect`). Otherwise it throws. -/
theorem C39_connect_throws (core : Core) (host : Endian) (provided : Except String (Option C)) (execute : Ev C → Except String Response)
    (random : List UInt8) (path : Str) (headers : Headers) :
    (∃ c, (connect core host provided execute random path headers).2 = .returned (some c)) ∨
    ∃ m, (connect core host provided execute random path headers).2 = .threw m := by
  cases h : (connect core host provided execute random path headers).2 with
  | returned r =>
    obtain ⟨c, hc, -⟩ := (C39_connect_iff core host provided execute random path headers r).mp h
    exact .inl ⟨c, by rw [hc]⟩
  | threw m => exact .inr ⟨m, rfl⟩

/-- **C39** (`connect`). What it does: it asks the provider once, and sends the handshake request, over the connection supplied, if there is one; nothing
else. -/
theorem C39_connect_request (core : Core) (host : Endian) (provided : Except String (Option C)) (execute : Ev C → Except String Response)
    (random : List UInt8) (path : Str) (headers : Headers) :
    (connect core host provided execute random path headers).1 =
      match provided with
      | .ok (some c) => [.getConnection, handshakeRequest path headers (generateKey random) (some c)]
      | _ => [.getConnection] := by
  unfold connect
  rcases provided with e | c
  · rfl
  · cases c with
    | none => rfl
    | some c =>
      simp only []
      split <;> rfl

/-! ## `connectAsync` -/

/-- All runs of the coroutine. -/
theorem run_cases (core : Core) (host : Endian) (random : List UInt8) (path : Str) (headers : Headers) (is : List (Input C)) {s : Stage C} {evs : List (Ev C)}
    (h : connectAsync core host random path headers is = some (s, evs)) :
    (is = [] ∧ s = .created ∧ evs = []) ∨
    (is = [.start] ∧ s = .connecting ∧ evs = [.getConnection]) ∨
    (∃ e, is = [.start, .provided (.error e)] ∧ s = .ended (.threw e) ∧ evs = [.getConnection]) ∨
    (∃ c, is = [.start, .provided (.ok c)] ∧ s = .requesting (allHeaders headers random) c ∧
      evs = [.getConnection, handshakeRequest path headers (generateKey random) c]) ∨
    (∃ c e, is = [.start, .provided (.ok c), .responded (.error e)] ∧ s = .ended (.threw e) ∧
      evs = [.getConnection, handshakeRequest path headers (generateKey random) c]) ∨
    (∃ c r, is = [.start, .provided (.ok c), .responded (.ok r)] ∧ s = .ended (finishAsync core host (allHeaders headers random) r c) ∧
      evs = [.getConnection, handshakeRequest path headers (generateKey random) c]) := by
  have hend : ∀ o is (s : Stage C) evs, run core host random path headers (.ended o) is = some (s, evs) → is = [] ∧ s = .ended o ∧ evs = [] := by
    intro o is s evs h
    cases is with
    | nil => simp only [run, Option.some.injEq, Prod.mk.injEq] at h; exact ⟨rfl, h.1.symm, h.2.symm⟩
    | cons i is => cases i <;> simp [run, step] at h
  unfold connectAsync at h
  rcases is with _ | ⟨i, is⟩
  · simp only [run, Option.some.injEq, Prod.mk.injEq] at h
    exact .inl ⟨rfl, h.1.symm, h.2.symm⟩
  right
  cases i with
  | provided r => simp [run, step] at h
  | responded r => simp [run, step] at h
  | start =>
    rw [run, step] at h
    simp only [] at h
    cases h1 : run core host random path headers (Stage.connecting (C := C)) is with
    | none => rw [h1] at h; cases h
    | some p1 =>
      obtain ⟨s1, ev1⟩ := p1
      rw [h1] at h
      simp only [Option.some.injEq, Prod.mk.injEq] at h
      obtain ⟨rfl, rfl⟩ := h
      rcases is with _ | ⟨i, is⟩
      · simp only [run, Option.some.injEq, Prod.mk.injEq] at h1
        exact .inl ⟨rfl, h1.1.symm, by rw [← h1.2]; rfl⟩
      right
      cases i with
      | start => simp [run, step] at h1
      | responded r => simp [run, step] at h1
      | provided r =>
        rcases r with e | c
        · rw [run, step] at h1
          simp only [] at h1
          cases h2 : run core host random path headers (Stage.ended (.threw e) : Stage C) is with
          | none => rw [h2] at h1; cases h1
          | some p2 =>
            obtain ⟨s2, ev2⟩ := p2
            rw [h2] at h1
            simp only [Option.some.injEq, Prod.mk.injEq] at h1
            obtain ⟨q1, q2, q3⟩ := hend _ _ _ _ h2
            exact .inl ⟨e, by rw [q1], by rw [← h1.1, q2], by rw [← h1.2, q3]; rfl⟩
        · right
          rw [run, step] at h1
          simp only [] at h1
          cases h2 : run core host random path headers (Stage.requesting (allHeaders headers random) c : Stage C) is with
          | none => rw [h2] at h1; cases h1
          | some p2 =>
            obtain ⟨s2, ev2⟩ := p2
            rw [h2] at h1
            simp only [Option.some.injEq, Prod.mk.injEq] at h1
            obtain ⟨rfl, rfl⟩ := h1
            rcases is with _ | ⟨i, is⟩
            · simp only [run, Option.some.injEq, Prod.mk.injEq] at h2
              exact .inl ⟨c, rfl, h2.1.symm, by rw [← h2.2]; rfl⟩
            right
            cases i with
            | start => simp [run, step] at h2
            | provided r => simp [run, step] at h2
            | responded r =>
              rcases r with e | r
              · rw [run, step] at h2
                simp only [] at h2
                cases h3 : run core host random path headers (Stage.ended (.threw e) : Stage C) is with
                | none => rw [h3] at h2; cases h2
                | some p3 =>
                  obtain ⟨s3, ev3⟩ := p3
                  rw [h3] at h2
                  simp only [Option.some.injEq, Prod.mk.injEq] at h2
                  obtain ⟨q1, q2, q3⟩ := hend _ _ _ _ h3
                  exact .inl ⟨c, e, by rw [q1], by rw [← h2.1, q2], by rw [← h2.2, q3]; rfl⟩
              · rw [run, step] at h2
                simp only [] at h2
                cases h3 : run core host random path headers (Stage.ended (finishAsync core host (allHeaders headers random) r c) : Stage C) is with
                | none => rw [h3] at h2; cases h2
                | some p3 =>
                  obtain ⟨s3, ev3⟩ := p3
                  rw [h3] at h2
                  simp only [Option.some.injEq, Prod.mk.injEq] at h2
                  obtain ⟨q1, q2, q3⟩ := hend _ _ _ _ h3
                  exact .inr ⟨c, r, by rw [q1], by rw [← h2.1, q2], by rw [← h2.2, q3]; rfl⟩

theorem finishAsync_returned {core : Core} {host : Endian} {sent : Headers} {r : Response} {c c' : Option C} :
    finishAsync core host sent r c = .returned c' ↔ clientsideConfirmHandshake core host sent r = .ok ∧ c' = c := by
  unfold finishAsync
  cases clientsideConfirmHandshake core host sent r <;> simp [eq_comm]

/-- **C39** (`connectAsync`). However far it gets: it has returned a connection exactly if the provider supplied this one, the request was sent over
it, the request executor answered and the handshake was confirmed. -/
theorem C39_async_iff (core : Core) (host : Endian) (random : List UInt8) (path : Str) (headers : Headers) (is : List (Input C)) {s : Stage C}
    {evs : List (Ev C)} (h : connectAsync core host random path headers is = some (s, evs)) (c : Option C) :
    s = .ended (.returned c) ↔
    ∃ response, is = [.start, .provided (.ok c), .responded (.ok response)] ∧ handshakeRequest path headers (generateKey random) c ∈ evs ∧
      clientsideConfirmHandshake core host (handshakeRequest path headers (generateKey random) c).headers response = .ok := by
  have hs : ∀ c : Option C, (handshakeRequest path headers (generateKey random) c).headers = allHeaders headers random := fun _ => rfl
  rw [hs]
  rcases run_cases core host random path headers is h with ⟨rfl, rfl, rfl⟩ | ⟨rfl, rfl, rfl⟩ | ⟨e, rfl, rfl, rfl⟩ | ⟨c', rfl, rfl, rfl⟩ |
    ⟨c', e, rfl, rfl, rfl⟩ | ⟨c', r, rfl, rfl, rfl⟩
  · simp
  · simp
  · simp
  · simp
  · simp
  · simp only [Stage.ended.injEq, finishAsync_returned, List.cons.injEq, Input.provided.injEq, Except.ok.injEq, Input.responded.injEq, and_true, true_and]
    constructor
    · rintro ⟨h1, rfl⟩
      exact ⟨r, ⟨rfl, rfl⟩, by simp, h1⟩
    · rintro ⟨r', ⟨rfl, rfl⟩, -, h1⟩
      exact ⟨h1, rfl⟩

/-- **C39** (`connectAsync`). What it does, however far it gets: it asks the provider at most once, and sends the handshake request at most once, over what the
provider supplied. -/
theorem C39_async_request (core : Core) (host : Endian) (random : List UInt8) (path : Str) (headers : Headers) (is : List (Input C)) {s : Stage C}
    {evs : List (Ev C)} (h : connectAsync core host random path headers is = some (s, evs)) :
    evs = [] ∨ evs = [.getConnection] ∨
    ∃ c, Input.provided (.ok c) ∈ is ∧ evs = [.getConnection, handshakeRequest path headers (generateKey random) c] := by
  rcases run_cases core host random path headers is h with ⟨rfl, rfl, rfl⟩ | ⟨rfl, rfl, rfl⟩ | ⟨e, rfl, rfl, rfl⟩ | ⟨c', rfl, rfl, rfl⟩ |
    ⟨c', e, rfl, rfl, rfl⟩ | ⟨c', r, rfl, rfl, rfl⟩
  · exact .inl rfl
  · exact .inr (.inl rfl)
  · exact .inr (.inl rfl)
  · exact .inr (.inr ⟨c', by simp, rfl⟩)
  · exact .inr (.inr ⟨c', by simp, rfl⟩)
  · exact .inr (.inr ⟨c', by simp, rfl⟩)

/-- **C39** (`connectAsync`). Once the provider or the request executor has failed, or the handshake was not confirmed, it has failed. -/
theorem C39_async_fails (core : Core) (host : Endian) (random : List UInt8) (path : Str) (headers : Headers) (is : List (Input C)) {s : Stage C}
    {evs : List (Ev C)} (h : connectAsync core host random path headers is = some (s, evs))
    (hf : (∃ e, Input.provided (.error e) ∈ is) ∨ (∃ e, Input.responded (.error e) ∈ is) ∨
      ∃ r, Input.responded (.ok r) ∈ is ∧ clientsideConfirmHandshake core host (allHeaders headers random) r ≠ .ok) :
    ∃ m, s = .ended (.threw m) := by
  rcases run_cases core host random path headers is h with ⟨rfl, rfl, rfl⟩ | ⟨rfl, rfl, rfl⟩ | ⟨e, rfl, rfl, rfl⟩ | ⟨c', rfl, rfl, rfl⟩ |
    ⟨c', e, rfl, rfl, rfl⟩ | ⟨c', r, rfl, rfl, rfl⟩
  · simp at hf
  · simp at hf
  · exact ⟨_, rfl⟩
  · simp at hf
  · exact ⟨_, rfl⟩
  · simp only [List.mem_cons, List.not_mem_nil, or_false, reduceCtorEq, Input.provided.injEq, Input.responded.injEq, Except.ok.injEq, false_or, or_false,
      exists_const, exists_eq_left] at hf
    cases hr : finishAsync core host (allHeaders headers random) r c' with
    | threw m => exact ⟨m, rfl⟩
    | returned x => exact absurd (finishAsync_returned.mp hr).1 (by simpa using hf)

/-- **C39.** With a provider that supplies a connection, `connect` and `connectAsync` do the same and, up to the error text, end the same. -/
theorem C39_same (core : Core) (host : Endian) (random : List UInt8) (path : Str) (headers : Headers) (c : C) (execute : Ev C → Except String Response) :
    ∃ s, connectAsync core host random path headers [.start, .provided (.ok (some c)),
        .responded (execute (handshakeRequest path headers (generateKey random) (some c)))]
      = some (s, (connect core host (.ok (some c)) execute random path headers).1) ∧
    ∀ r, s = .ended (.returned r) ↔ (connect core host (.ok (some c)) execute random path headers).2 = .returned r := by
  have hreq : Ev.request "GET" path (allHeaders headers random) (some c) = handshakeRequest path headers (generateKey random) (some c) := rfl
  cases he : execute (handshakeRequest path headers (generateKey random) (some c)) with
  | error e =>
    refine ⟨.ended (.threw e), ?_, fun r => ?_⟩
    · rw [C39_connect_request]; rfl
    · rw [C39_connect_iff]
      simp only [reduceCtorEq, Stage.ended.injEq, false_iff]
      rintro ⟨c', -, h1, r, h2, -⟩
      injection h1 with h1
      injection h1 with h1
      subst h1
      rw [he] at h2; cases h2
  | ok response =>
    refine ⟨.ended (finishAsync core host (allHeaders headers random) response (some c)), ?_, fun r => ?_⟩
    · rw [C39_connect_request]; rfl
    · rw [C39_connect_iff, Stage.ended.injEq, finishAsync_returned]
      constructor
      · rintro ⟨h1, rfl⟩
        exact ⟨c, rfl, rfl, response, he, h1⟩
      · rintro ⟨c', rfl, h1, r, h2, h3⟩
        injection h1 with h1
        injection h1 with h1
        subst h1
        rw [he] at h2
        injection h2 with h2
        subst h2
        exact ⟨h3, rfl⟩

/-! ## C48 -/

/-- **C48, as it should be**: if the provider supplies no connection, `connectAsync` fails without sending anything. -/
def C48_claim : Prop :=
  ∀ (core : Core) (host : Endian) (random : List UInt8) (path : Str) (headers : Headers) (s : Stage Nat) (evs : List (Ev Nat)), core.Sound →
    connectAsync core host random path headers [.start, .provided (.ok none)] = some (s, evs) →
    (∃ m, s = .ended (.threw m)) ∧ evs = [.getConnection]

/-- **C48 is false**: for every request, `connectAsync` hands the null handle to the request executor. -/
theorem C48_violated : ¬ C48_claim := by
  intro h
  have := h firstCore .little (List.replicate 16 7) (ascii "ws") [] _ _ firstCore_sound rfl
  obtain ⟨⟨m, hm⟩, -⟩ := this
  cases hm

/-- What happens instead, always. -/
theorem C48_actual (core : Core) (host : Endian) (random : List UInt8) (path : Str) (headers : Headers) :
    connectAsync (C := C) core host random path headers [.start, .provided (.ok none)]
      = some (.requesting (allHeaders headers random) none, [.getConnection, handshakeRequest path headers (generateKey random) none]) := rfl

/-- **C48** for `connect`: it throws, and nothing is sent. -/
theorem C48_partial (core : Core) (host : Endian) (execute : Ev C → Except String Response) (random : List UInt8) (path : Str) (headers : Headers) :
    ∃ m, connect core host (.ok none) execute random path headers = ([.getConnection], .threw m) := ⟨_, rfl⟩

/-! ## Concrete case -/

/-- A server that answers every request as `serversideHandshake` does. -/
def server : Ev Nat → Except String Response
  | .request _ _ h _ =>
    match serversideHandshake firstCore .big h () with
    | .response s hs _ => .ok ⟨s, hs⟩
    | .error s _ => .ok ⟨s, []⟩
  | _ => .error "no request"

/-- With it, `connect` returns the provider's connection for every key, path and application fields other than the handshake's. -/
example (random : List UInt8) (hr : random.length = 16) (path : Str) (user : Headers) (hu : ∀ n ∈ requestNames, values user n = []) :
    (connect lastCore .little (.ok (some 5)) server random path user).2 = .returned (some 5) := by
  rw [C39_connect_iff]
  obtain ⟨hs, h1, h2⟩ := C38_agree lastCore_sound firstCore_sound .little .big random hr user hu () (clientsideHandshake user random)
    (fun n _ => List.Perm.refl _)
  refine ⟨5, rfl, rfl, ⟨101, hs⟩, ?_, h2 hs (fun n _ => List.Perm.refl _)⟩
  show (match serversideHandshake firstCore .big (clientsideHandshake user random) () with
    | .response s hs _ => Except.ok (Response.mk s hs)
    | .error s _ => Except.ok ⟨s, []⟩) = _
  rw [h1]
  rfl

end OatWS.Connector
