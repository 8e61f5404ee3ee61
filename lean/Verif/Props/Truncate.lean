import Verif.Proofs.Truncate
import Verif.Props.Receive
/-! # C15: truncated and failing streams -/

namespace OatWS
open RFC6455

theorem deliveries_framesEvents {l B : Nat} {gs : List Frame} {evs} (hacc : ∀ g ∈ gs, ∃ o, Accepted o g)
    (h : Renders l B evs (deliveriesOf gs)) : FramesEvents l B gs evs := by
  induction gs generalizing evs with
  | nil => exact h.nil_inv
  | cons g gs ih =>
    unfold deliveriesOf at h
    rw [List.flatMap_cons] at h
    obtain ⟨e1, e2, rfl, h1, h2⟩ := h.split
    obtain ⟨o, ho⟩ := hacc g (by simp)
    exact ⟨e1, e2, rfl, h1.frame ho, ih (fun g hg => hacc g (by simp [hg])) h2⟩

theorem AcceptedAll.mem {o fs o'} (h : AcceptedAll o fs o') : ∀ g ∈ fs, ∃ o, Accepted o g := by
  induction h with
  | nil => intro g hg; cases hg
  | cons hv ha h8 _ ih =>
    intro g hg
    rcases List.mem_cons.mp hg with rfl | hg
    · exact ⟨_, ha⟩
    · exact ih g hg

/-- **C15.** The peer sends the frames `fs` and then the frame `f` (possibly a close), but only some of the bytes arrive
(`hpre`), and the reads may fail, end or stall anywhere (no assumption on the schedule). Then for some `n`, exactly the first
`n` frames were completely consumed; the callbacks are those of these frames, followed for the frame that was cut by at most
pieces of a strict prefix of its payload: no end-of-message and no ping, pong or close callback for it. -/
theorem C15_truncated (env : Env) (ht : env.Tame) (hret : env.Returns) (l B : Nat) (hB : 0 < B) (h : Header) (st : St)
    (hl : st.sock.listener = some l) (hs : st.sock.config.readBufferSize = B) (o o' : Bool)
    (ho : OpenIs o st.sock.lastOpcode) (fs : List Frame) (ha : AcceptedAll o fs o') (f : Frame) (hv : f.Valid)
    (hacc : Accepted o' f) (hpre : st.inp.bytes <+: wireOf (fs ++ [f])) :
    ∃ n k whole cut x st', listenBody env h st = (x, st') ∧ st'.sock.trace = st.sock.trace ++ (whole ++ cut) ∧
      k ≤ st.inp.bytes.length ∧ st'.inp.bytes = st.inp.bytes.drop k ∧ n ≤ (fs ++ [f]).length ∧
      (wireOf ((fs ++ [f]).take n)).length ≤ k ∧
      (∀ g, (fs ++ [f])[n]? = some g → k < (wireOf ((fs ++ [f]).take (n + 1))).length) ∧
      FramesEvents l B ((fs ++ [f]).take n) whole ∧
      (∀ g, (fs ++ [f])[n]? = some g → CutEvents l B g cut) ∧ (n = (fs ++ [f]).length → cut = []) := by
  obtain ⟨k, ds, r, evs, x, st', e, hL⟩ := listenBody_receives env ht B hB h st hs o ho
  have hr : r ≠ .interrupted := fun e => (hL.user e).2 hret
  have hle : k ≤ st.inp.bytes.length := hL.le
  have hrec : Receives o (st.inp.bytes.take k) ds r := hL.receives
  obtain ⟨n, D, hn, e1, h1, h2, h3⟩ := hrec.prefix ha hv hacc (List.IsPrefix.trans (List.take_prefix _ _) hpre) hr
  rw [List.length_take, Nat.min_eq_left hle] at h1
  have hren : RendersFor (some l) B evs ds := by have := hL.renders; rw [← hl]; exact this
  rw [e1] at hren
  obtain ⟨whole, cut, rfl, hw, hc⟩ := Renders.split (show Renders l B evs (_ ++ _) from hren)
  refine ⟨n, k, whole, cut, x, st', e, hL.sock.trace, hle, hL.bytes, hn, h1, ?_, ?_, ?_, ?_⟩
  · intro g hg
    have := (h2 g hg).1
    rw [List.length_take, Nat.min_eq_left hle] at this
    exact this
  · refine deliveries_framesEvents (fun g hg => ?_) hw
    rcases List.mem_append.mp (List.mem_of_mem_take hg) with hg | hg
    · exact ha.mem g hg
    · rw [List.mem_singleton.mp hg]; exact ⟨_, hacc⟩
  · intro g hg
    rcases (h2 g hg).2 with rfl | ⟨hd, d, hp, hlt, rfl⟩
    · exact .inl hc.nil_inv
    · obtain ⟨e, es, rfl, hdc, hes⟩ := hc.data_inv
      rw [hes.nil_inv, List.append_nil]
      exact .inr ⟨hd, d, hp, hlt, hdc⟩
  · intro hn
    have := h3 hn
    subst this
    exact hc.nil_inv

/-- A masked text message in two fragments with a ping in between, cut inside the last fragment; the connection breaks one
byte before that, after a retry. -/
def Fixture.cutOff : St :=
  { sock := (Fixture.receiving []).sock
    inp := ⟨(wireOf [Fixture.hel, Fixture.ping, Fixture.lo]).take 23, [.upTo 100, .retry] ++ List.replicate 30 (.upTo 2) ++ [.broken]⟩ }

example : ∃ n k whole cut x st', listenBody Fixture.env default Fixture.cutOff = (x, st') ∧
      st'.sock.trace = [] ++ (whole ++ cut) ∧
      k ≤ Fixture.cutOff.inp.bytes.length ∧ st'.inp.bytes = Fixture.cutOff.inp.bytes.drop k ∧ n ≤ 3 ∧
      (wireOf ([Fixture.hel, Fixture.ping, Fixture.lo].take n)).length ≤ k ∧
      (∀ g, [Fixture.hel, Fixture.ping, Fixture.lo][n]? = some g →
        k < (wireOf ([Fixture.hel, Fixture.ping, Fixture.lo].take (n + 1))).length) ∧
      FramesEvents 7 2 ([Fixture.hel, Fixture.ping, Fixture.lo].take n) whole ∧
      (∀ g, [Fixture.hel, Fixture.ping, Fixture.lo][n]? = some g → CutEvents 7 2 g cut) ∧ (n = 3 → cut = []) := by
  have key : ∀ (f : Frame) k, f.maskKey = some k → (∀ k, f.maskKey = some k → k.length = 4) → k.length = 4 :=
    fun f k hk h => h k hk
  refine C15_truncated Fixture.env Fixture.env_quiet.tame Fixture.env_quiet.passive.returns 7 2 (by decide) default
    Fixture.cutOff rfl rfl false true rfl [Fixture.hel, Fixture.ping] ?_ Fixture.lo ⟨by decide, ?_, by decide⟩
    (.inl ⟨.inl rfl, rfl⟩) (List.take_prefix _ _)
  · refine .cons ⟨by decide, ?_, by decide⟩ (.inl ⟨.inr (.inl rfl), rfl⟩) (by decide) (.cons ⟨by decide, ?_, by decide⟩
      (.inr ⟨.inr (.inl rfl), by decide⟩) (by decide) .nil)
    all_goals (intro k hk; injection hk with hk; rw [← hk]; rfl)
  · intro k hk; injection hk with hk; rw [← hk]; rfl

/-- In that case the listener hears the first fragment, the ping and one byte of the last fragment. -/
example : (listenBody Fixture.env default Fixture.cutOff).2.sock.trace =
    [.readMessage 7 1 [0x48, 0x65], .readMessage 7 1 [0x6c], .onPing 7 [0x21], .readMessage 7 0 [0x6c]] := by decide +kernel

end OatWS
