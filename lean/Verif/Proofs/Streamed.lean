import Verif.Proofs.SendFrame
import Verif.Proofs.ThreadSends
/-! Lemmas about frames written in pieces after `sendFrameHeader`. -/

namespace OatWS
open RFC6455
open Threads (pieceBytes_append pieceBytes_length)

/-- The header object after `sendFrameHeader`: without masking, the key of the caller's object stays in it. -/
def givenHeader (env : Env) (s : Sock) (h0 : Header) (fin : Bool) (opcode : UInt8) (size : Int) : Header :=
  { filledHeader env s fin opcode size with
    mask := if s.config.maskOutgoingMessages
      then ⟨env.rng s.rngPos, env.rng (s.rngPos + 1), env.rng (s.rngPos + 2), env.rng (s.rngPos + 3)⟩
      else h0.mask }

theorem givenHeader_key (env s h0 fin opcode size) :
    (givenHeader env s h0 fin opcode size).key = (filledHeader env s fin opcode size).key := by
  unfold givenHeader Header.key filledHeader
  cases s.config.maskOutgoingMessages <;> rfl

theorem givenHeader_wire (env s h0 fin opcode size) :
    (givenHeader env s h0 fin opcode size).wire = (filledHeader env s fin opcode size).wire := by
  unfold Header.wire
  rw [givenHeader_key]
  rfl

theorem sendFrameHeader_wrote_any (env : Env) (h : Header) (fin opcode) (size : Int) (h0 : 0 ≤ size) (h1 : size < 2 ^ 63) (s : Sock) :
    Wrote s.drawn (filledHeader env s fin opcode size).wire (givenHeader env s h fin opcode size)
      (sendFrameHeader env h fin opcode size s) := by
  have key : sendFrameHeader env h fin opcode size s
      = P.bind (writeFrameHeader env (givenHeader env s h fin opcode size))
          (fun _ => Pure.pure (givenHeader env s h fin opcode size)) s.drawn := by
    unfold sendFrameHeader givenHeader filledHeader Sock.drawn
    cases hm : s.config.maskOutgoingMessages <;> simp [hm, bind, P.bind, P.get, pure, P.pure, generateMaskForFrame]
  rw [key]
  have := Wrote.bind (f := fun _ => (Pure.pure (givenHeader env s h fin opcode size) : P Sock Header))
    (writeFrameHeader_wrote env (givenHeader env s h fin opcode size) h0 h1 s.drawn)
    (fun sc => Wrote.pure _ _)
  rw [List.append_nil] at this
  rw [← givenHeader_wire env s h]
  exact this

theorem pieceBytes_eq (h : Header) (data : List UInt8) : pieceBytes h 0 data = applyKey? h.key data := by
  unfold pieceBytes Header.key
  cases h.hasMask
  · rfl
  · show xorMask h.mask 0 data = _
    rw [xorMask_eq]
    rfl

/-- Everything that can happen while the pieces are written. -/
structure WroteRest (s : Sock) (bs : List UInt8) (r : Exit Bool × Sock) : Prop where
  outcome : (∃ sc, r = (.ret true, s.wrote bs sc)) ∨
    (∃ k sc, k < bs.length ∧ (r = (.block, s.wrote (bs.take k) sc) ∨ r = (.ret false, s.wrote (bs.take k) sc)))
  live : ∀ m, Healthy (bs.length + m) s.out.sched → ∃ sc, Healthy m sc ∧ r = (.ret true, s.wrote bs sc)

theorem writePieces_wrote (h : Header) (offset : Nat) (pieces : List (List UInt8)) (s : Sock) :
    WroteRest s (pieceBytes h offset pieces.flatten) (writePieces h offset pieces s) := by
  induction pieces generalizing offset s with
  | nil =>
    have e : pieceBytes h offset ([] : List (List UInt8)).flatten = [] := by unfold pieceBytes; cases h.hasMask <;> rfl
    rw [e]
    constructor
    · exact .inl ⟨s.out.sched, by rw [s.wrote_nil]; rfl⟩
    · intro m hm
      exact ⟨s.out.sched, by simpa using hm, by rw [s.wrote_nil]; rfl⟩
  | cons p ps ih =>
    rw [List.flatten_cons, pieceBytes_append]
    have hb : writePieces h offset (p :: ps) s = P.bind (connWriteExact (pieceBytes h offset p))
        (fun res => if res = p.length then writePieces h (offset + p.length) ps else pure false) s := rfl
    have hl : (pieceBytes h offset p).length = p.length := pieceBytes_length h offset p
    generalize hq : pieceBytes h offset p = q at *
    constructor
    · obtain ⟨k, sc, hk, h' | ⟨hlt, h'⟩⟩ := writeExact_spec s.out.sched s.out.written q 0
      · rw [hb, P.bind, connWriteExact_eq, h']
        by_cases hkl : k = p.length
        · have hs : ({ s with out := ⟨s.out.written ++ q.take k, sc⟩ } : Sock) = s.wrote q sc := by
            rw [List.take_of_length_le (by omega)]; rfl
          simp only [Nat.zero_add, hkl, if_true]
          rw [← hkl, hs]
          rcases (ih (offset + k) (s.wrote q sc)).outcome with ⟨sc', e⟩ | ⟨j, sc', hj, e⟩
          · exact .inl ⟨sc', by rw [e, Sock.wrote_wrote]⟩
          · refine .inr ⟨q.length + j, sc', by rw [List.length_append]; omega, ?_⟩
            rw [List.take_length_add_append, ← Sock.wrote_wrote s q _ sc]
            exact e
        · refine .inr ⟨k, sc, by rw [List.length_append]; omega, .inr ?_⟩
          simp only [Nat.zero_add, hkl, if_false]
          rw [List.take_append_of_le_length (by omega)]
          rfl
      · rw [hb, P.bind, connWriteExact_eq, h']
        refine .inr ⟨k, sc, by rw [List.length_append]; omega, .inl ?_⟩
        rw [List.take_append_of_le_length (by omega)]
        rfl
    · intro m hm
      rw [List.length_append, Nat.add_assoc] at hm
      obtain ⟨sc, hsc, h'⟩ := writeExact_live s.out.sched s.out.written q 0 _ hm
      obtain ⟨sc', hsc', e⟩ := (ih (offset + p.length) (s.wrote q sc)).live m hsc
      refine ⟨sc', hsc', ?_⟩
      rw [hb, P.bind, connWriteExact_eq, h']
      simp only [Nat.zero_add, hl, if_true]
      rw [← Sock.wrote_wrote s q _ sc]
      exact e

theorem streamFrame_sent (env : Env) (h0 : Header) (fin : Bool) (opcode : UInt8) (pieces : List (List UInt8)) (s : Sock)
    (hlen : pieces.flatten.length < 2 ^ 63) :
    SentOne s.drawn (frameFor env s fin opcode (some pieces.flatten)) (streamFrame env h0 fin opcode pieces s) := by
  generalize hmsg : pieces.flatten = msg at *
  have h := sendFrameHeader_wrote_any env h0 fin opcode msg.length (by omega) (by omega) s
  have hw := filledHeader_wire env s fin opcode msg
  have hl := filledHeader_wire_length env s fin opcode msg
  have hb : streamFrame env h0 fin opcode pieces s = P.bind (sendFrameHeader env h0 fin opcode msg.length) (fun h => writePieces h 0 pieces) s := by
    rw [← hmsg]; rfl
  have hp := fun s1 => writePieces_wrote (givenHeader env s h0 fin opcode msg.length) 0 pieces s1
  rw [hmsg] at hp
  simp only [pieceBytes_eq, givenHeader_key] at hp
  generalize (filledHeader env s fin opcode msg.length).wire = W at *
  generalize applyKey? (filledHeader env s fin opcode msg.length).key msg = D at *
  rw [hb]
  constructor
  · rcases h.outcome with ⟨sc, e⟩ | ⟨k, sc, hk, e | ⟨er, her, e⟩⟩
    · rw [P.bind, e]
      dsimp only
      rcases (hp (s.drawn.wrote W sc)).outcome with ⟨sc', e'⟩ | ⟨k, sc', hk, e'⟩
      · exact .inl ⟨sc', by rw [e', Sock.wrote_wrote, hw]⟩
      · refine .inr (.inr ⟨W.length + k, sc', by omega, by rw [← hw, List.length_append]; omega, ?_⟩)
        rw [← hw, List.take_length_add_append, ← Sock.wrote_wrote s.drawn W _ sc]
        exact e'
    · refine .inr (.inl ⟨k, sc, by omega, .inl ?_⟩)
      rw [P.bind, e, ← hw, List.take_append_of_le_length (by omega)]
    · refine .inr (.inl ⟨k, sc, by omega, .inr ⟨er, her, ?_⟩⟩)
      rw [P.bind, e, ← hw, List.take_append_of_le_length (by omega)]
  · intro m hh
    rw [← hw, List.length_append, Nat.add_assoc] at hh
    obtain ⟨sc, hsc, e⟩ := h.live _ hh
    obtain ⟨sc', hsc', e'⟩ := (hp (s.drawn.wrote W sc)).live m hsc
    refine ⟨sc', hsc', ?_⟩
    rw [P.bind, e]
    dsimp only
    rw [e', Sock.wrote_wrote, hw]

end OatWS
