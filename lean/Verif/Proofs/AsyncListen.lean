import Verif.Proofs.AsyncHead
import Verif.Proofs.HandleFrame
/-! Listening with other tasks active: the invariant. -/

namespace OatWS.Async
open RFC6455

theorem Complete.receives {o bs ds o' bs' ds' r} (h : Complete o bs ds o') (h' : Receives o' bs' ds' r) :
    Receives o (bs ++ bs') (ds ++ ds') r := by
  induction h generalizing bs' ds' with
  | nil => exact h'
  | snoc _ hf ih =>
    rw [List.append_assoc, List.append_assoc]
    exact ih (.more hf h')

theorem RendersMix.snoc' {S : Settings} {evs ds l? B e d} (h : RendersMix S evs ds) (hl : S.listener l?) (hB : S.size B)
    (hr : RendersFor l? B.toNat e d) : RendersMix S (evs ++ e) (ds ++ d) := .snoc h hl hB hr

section
variable (env : Env) (S : Settings) (o0 : Bool) (w0 : World)

/-- What happened up to now: complete frames `fb`, told by `evs`; then the bytes `cur` of the present frame, told by `fe`. -/
structure Past (fb : List UInt8) (ds : List Delivery) (evs : List Event) (o : Bool) (cur : List UInt8) (fe : List Event)
    (w : World) : Prop where
  frames : Complete o0 fb ds o
  mix : RendersMix S evs ds
  bytes : w0.st.inp.bytes = fb ++ cur ++ w.st.inp.bytes
  trace : w.st.sock.trace = w0.st.sock.trace ++ evs ++ fe
  sets : S.In w

/-- Reading the payload of a data frame: `pb` are the payload bytes consumed, `chunks` were given to the listener, `em` is the end
marker, `ss` are the coroutines above. -/
inductive DataAt (hd : Hdr) (l : Local) (ss : List Co) (pb : List UInt8) (chunks : List (List UInt8)) : ReadPayloadCo → List Event → Prop
  | act {to cap buf want got} : pb.length ≤ l.hdr.payloadLength.toNat → chunks.flatten = decodeFrom hd.maskKey 0 pb →
      (ss ≠ [] → pb ≠ []) → DataAt hd l ss pb chunks ⟨.act, to, false, cap, buf, pb.length, want, got⟩ []
  | read {to cap buf want} : ss = [] → pb.length < l.hdr.payloadLength.toNat → chunks.flatten = decodeFrom hd.maskKey 0 pb →
      want ≤ l.hdr.payloadLength - pb.length → DataAt hd l ss pb chunks ⟨.readData, to, false, cap, buf, pb.length, want, []⟩ []
  | got {to cap buf want pb' got} : ss = [] → pb = pb' ++ got → pb.length ≤ l.hdr.payloadLength.toNat →
      pb'.length < l.hdr.payloadLength.toNat → got.length ≤ cap → chunks.flatten = decodeFrom hd.maskKey 0 pb' →
      DataAt hd l ss pb chunks ⟨.onDataRead, to, false, cap, buf, pb'.length, want, got⟩ []
  | done {to cap buf progress want got} : pb.length = l.hdr.payloadLength.toNat → chunks.flatten = decodeFrom hd.maskKey 0 pb →
      l.hdr.fin = true → DataAt hd l ss pb chunks ⟨.done, some to, false, cap, buf, progress, want, got⟩ [.readMessage to l.hdr.opcode []]

/-- Reading the payload of a control frame. -/
inductive ShortAt (hd : Hdr) (l : Local) (pb : List UInt8) : ReadPayloadCo → Prop
  | act {to cap buf want got} : pb.length ≤ l.hdr.payloadLength.toNat → l.short = decodeFrom hd.maskKey 0 pb →
      ShortAt hd l pb ⟨.act, to, true, cap, buf, pb.length, want, got⟩
  | read {to cap buf want} : pb.length < l.hdr.payloadLength.toNat → l.short = decodeFrom hd.maskKey 0 pb →
      want ≤ l.hdr.payloadLength - pb.length → ShortAt hd l pb ⟨.readData, to, true, cap, buf, pb.length, want, []⟩
  | got {to cap buf want pb' got} : pb = pb' ++ got → pb.length ≤ l.hdr.payloadLength.toNat →
      pb'.length < l.hdr.payloadLength.toNat → l.short = decodeFrom hd.maskKey 0 pb' →
      ShortAt hd l pb ⟨.onDataRead, to, true, cap, buf, pb'.length, want, got⟩

/-- The function that handles a control frame after its payload. -/
def controlPc (op : Nat) : HandleFramePc := if op = 9 then .onPing else if op = 10 then .onPong else .onClose

/-- The states of a listening task. -/
inductive LAt : Task → World → Prop
  | idle {l w fb ds evs o} : Past S o0 w0 fb ds evs o [] [] w → OpenIs o w.st.sock.lastOpcode → l.hdr.opcode ≠ OPCODE_CLOSE →
      LAt ⟨[.listen], l⟩ w
  | closed {l w fb ds evs o cur fe d} : Past S o0 w0 fb ds evs o cur fe w → OneFrame o cur d (.over .closed) →
      RendersMix S (evs ++ fe) (ds ++ d) → l.hdr.opcode = OPCODE_CLOSE → LAt ⟨[.listen], l⟩ w
  | head {l w fb ds evs o cur c hl} : Past S o0 w0 fb ds evs o cur [] w → OpenIs o w.st.sock.lastOpcode →
      HeadAt env cur c l.hdr → S.listener hl → LAt ⟨[.readFrame c, .handleFrame ⟨.act, hl⟩, .listen], l⟩ w
  | handle {l w fb ds evs o hb hd hl} : Past S o0 w0 fb ds evs o hb [] w → OpenIs o w.st.sock.lastOpcode →
      HeadDone hb hd l.hdr → S.listener hl → LAt ⟨[.handleFrame ⟨.act, hl⟩, .listen], l⟩ w
  | data {l w fb ds evs o hb hd pb ss p chunks em hl B} :
      Past S o0 w0 fb ds evs o (hb ++ pb) (chunkEvents p.listener l.hdr.opcode chunks ++ em) w →
      HeadDone hb hd l.hdr → isDataOpcode hd.opcode → mayStart o hd.opcode → OpenIs (openAfter o hd) w.st.sock.lastOpcode →
      (∀ c ∈ ss, c.ok (Uses S)) → S.listener p.listener → S.size B → p.cap = B.toNat →
      (∀ c ∈ chunks, 0 < c.length ∧ c.length ≤ p.cap) → DataAt hd l ss pb chunks p em →
      LAt ⟨ss ++ [.readPayload p, .handleFrame ⟨.done, hl⟩, .listen], l⟩ w
  | short {l w fb ds evs o hb hd pb p hl} : Past S o0 w0 fb ds evs o (hb ++ pb) [] w → OpenIs o w.st.sock.lastOpcode →
      HeadDone hb hd l.hdr → isControlOpcode hd.opcode → l.hdr.payloadLength ≤ 125 → S.listener hl → ShortAt hd l pb p →
      LAt ⟨[.readPayload p, .handleFrame ⟨controlPc hd.opcode, hl⟩, .listen], l⟩ w
  | control {l w fb ds evs o hb hd pb hl} : Past S o0 w0 fb ds evs o (hb ++ pb) [] w → OpenIs o w.st.sock.lastOpcode →
      HeadDone hb hd l.hdr → isControlOpcode hd.opcode → l.hdr.payloadLength ≤ 125 → S.listener hl →
      pb.length = l.hdr.payloadLength.toNat → l.short = decodeFrom hd.maskKey 0 pb →
      LAt ⟨[.handleFrame ⟨controlPc hd.opcode, hl⟩, .listen], l⟩ w
  | frame {l w fb ds evs o cur fe d ss hl e} : Past S o0 w0 fb ds evs o cur fe w → OneFrame o cur d e →
      RendersMix S (evs ++ fe) (ds ++ d) →
      (e = .over .closed ∧ l.hdr.opcode = OPCODE_CLOSE ∨ ∃ o', e = .next o' ∧ OpenIs o' w.st.sock.lastOpcode ∧ l.hdr.opcode ≠ OPCODE_CLOSE) →
      (∀ c ∈ ss, c.ok (Uses S)) → (ss ≠ [] → OneFrame o cur d (.over .interrupted)) →
      LAt ⟨ss ++ [.handleFrame ⟨.done, hl⟩, .listen], l⟩ w

/-- What is true of a listening task after any number of steps. -/
def LOk : Outcome × World → Prop
  | (.run t, w) => LAt env S o0 w0 t w
  | (.finished, w) => Told S o0 w0 w .closed
  | (.failed e, w) => (∃ r, FailsLike r e ∧ Told S o0 w0 w r) ∨ e = .thrown .badAlloc ∧ ∃ B, B < 0 ∧ S.size B
  | (.blocked, w) => Told S o0 w0 w .incomplete ∨ Told S o0 w0 w .interrupted
  | (.ub _, _) => True
end

variable {env : Env} {S : Settings} {o0 : Bool} {w0 : World}

theorem Past.told {fb ds evs o cur fe w d r} {w' : World} (h : Past S o0 w0 fb ds evs o cur fe w) (hf : OneFrame o cur d (.over r))
    (hm : RendersMix S (evs ++ fe) (ds ++ d)) (hw : w'.st = w.st) : Told S o0 w0 w' r := by
  refine ⟨fb ++ cur, ds ++ d, evs ++ fe, ?_, ?_, h.frames.receives (.last hf), hm⟩
  · rw [hw]; exact h.bytes
  · rw [hw, h.trace, List.append_assoc]

theorem Past.told_nil {fb ds evs o cur w r} {w' : World} (h : Past S o0 w0 fb ds evs o cur [] w) (hf : OneFrame o cur [] (.over r))
    (hw : w'.st = w.st) : Told S o0 w0 w' r :=
  h.told hf (by simpa using h.mix) hw

/-- Other tasks. -/
theorem Past.others {fb ds evs o cur fe w w'} (h : Past S o0 w0 fb ds evs o cur fe w) (hw : OthersDo w w') (hs : S.In w') :
    Past S o0 w0 fb ds evs o cur fe w' :=
  ⟨h.frames, h.mix, by rw [hw.inp]; exact h.bytes, by rw [hw.trace]; exact h.trace, hs⟩

theorem Past.st {fb ds evs o cur fe w} {w' : World} (h : Past S o0 w0 fb ds evs o cur fe w) (hw : w'.st = w.st) :
    Past S o0 w0 fb ds evs o cur fe w' :=
  ⟨h.frames, h.mix, by rw [hw]; exact h.bytes, by rw [hw]; exact h.trace, by unfold Settings.In; rw [hw]; exact h.sets⟩

/-- Bytes are read. -/
theorem Past.read {fb ds evs o cur fe w nb} {i : InStream} {w' : World} (h : Past S o0 w0 fb ds evs o cur fe w)
    (hb : w.st.inp.bytes = nb ++ i.bytes) (hw : w'.st = (w.setInp i).st) :
    Past S o0 w0 fb ds evs o (cur ++ nb) fe w' := by
  refine ⟨h.frames, h.mix, ?_, ?_, ?_⟩
  · rw [hw, h.bytes, hb]; simp [World.setInp]
  · rw [hw]; exact h.trace
  · unfold Settings.In; rw [hw]; exact h.sets

/-- A callback is made. -/
theorem Past.callback {fb ds evs o cur fe w ev} {w' : World} (h : Past S o0 w0 fb ds evs o cur fe w)
    (hw : w'.st = { w.st with sock := { w.st.sock with trace := w.st.sock.trace ++ [ev] } }) :
    Past S o0 w0 fb ds evs o cur (fe ++ [ev]) w' := by
  refine ⟨h.frames, h.mix, ?_, ?_, ?_⟩
  · rw [hw]; exact h.bytes
  · rw [hw]; simp only []; rw [h.trace]; simp
  · unfold Settings.In; rw [hw]; exact h.sets

theorem LAt.others {t w w'} (h : LAt env S o0 w0 t w) (hw : OthersDo w w') (hs : S.In w') : LAt env S o0 w0 t w' := by
  cases h with
  | idle h1 h2 h3 => exact .idle (h1.others hw hs) (by rw [hw.lastOpcode]; exact h2) h3
  | closed h1 h2 h3 h4 => exact .closed (h1.others hw hs) h2 h3 h4
  | head h1 h2 h3 h4 => exact .head (h1.others hw hs) (by rw [hw.lastOpcode]; exact h2) h3 h4
  | handle h1 h2 h3 h4 => exact .handle (h1.others hw hs) (by rw [hw.lastOpcode]; exact h2) h3 h4
  | data h1 h2 h3 h4 h5 h6 h7 h8 h9 h10 h11 => exact .data (h1.others hw hs) h2 h3 h4 (by rw [hw.lastOpcode]; exact h5) h6 h7 h8 h9 h10 h11
  | short h1 h2 h3 h4 h5 h6 h7 => exact .short (h1.others hw hs) (by rw [hw.lastOpcode]; exact h2) h3 h4 h5 h6 h7
  | control h1 h2 h3 h4 h5 h6 h7 h8 => exact .control (h1.others hw hs) (by rw [hw.lastOpcode]; exact h2) h3 h4 h5 h6 h7 h8
  | frame h1 h2 h3 h4 h5 h6 => exact .frame (h1.others hw hs) h2 h3 (by rw [hw.lastOpcode]; exact h4) h5 h6

theorem LAt.sets {t w} (h : LAt env S o0 w0 t w) : S.In w := by
  cases h <;> exact Past.sets ‹_›

theorem noUser2 {c d : Co} (h1 : ∀ u, c ≠ .user u) (h2 : ∀ u, d ≠ .user u) : NoUser [c, d] := by
  intro u hu
  simp only [List.mem_cons, List.not_mem_nil, or_false] at hu
  rcases hu with hu | hu
  · exact h1 u hu.symm
  · exact h2 u hu.symm

theorem unwind_base (e : AErr) (base : List Co) (h : NoUser base) (l : Local) (w : World) :
    ∃ w', unwind e base l w = (.failed e, w') ∧ w'.st = w.st := by
  refine ⟨_, unwind_noUser e base h l w, ?_⟩
  clear h
  induction base generalizing w with
  | nil => rfl
  | cons c base ih => rw [List.foldl_cons, ih, destroy_st]

/-- An error of a receiving coroutine. -/
theorem after_error (e : AErr) (c : Co) (base : List Co) (h : NoUser base) (l : Local) (w : World) :
    ∃ w', after c base (.error e, l, w) = (.failed e, w') ∧ w'.st = w.st := by
  obtain ⟨w', h1, h2⟩ := unwind_base e base h l (destroy c w)
  exact ⟨w', h1, by rw [h2, destroy_st]⟩

theorem noUser_rec {base : List Co} (h : ∀ c ∈ base, c = .listen ∨ (∃ x, c = .handleFrame x) ∨ ∃ x, c = .readPayload x) : NoUser base := by
  intro u hu
  rcases h _ hu with h | ⟨x, h⟩ | ⟨x, h⟩ <;> cases h

theorem noUser_listen : NoUser [.listen] := noUser_rec (by simp)
theorem noUser_handle (hl) : NoUser [.handleFrame hl, .listen] := noUser_rec (by simp)
theorem noUser_payload (p hl) : NoUser [.readPayload p, .handleFrame hl, .listen] := noUser_rec (by simp)

end OatWS.Async
