import Verif.Proofs.Buffers
import Verif.Props.AsyncPointer
/-! What buffers contain while several tasks receive: a task touches its own buffers only. -/

namespace OatWS.Async

variable {R : List Nat}

/-- What the buffer contains; `none`: there is no such buffer. -/
def World.look (w : World) (id : Nat) : Option (List UInt8) := w.heap.lookup id

theorem look_none {w : World} {id : Nat} : w.look id = none ↔ id ∉ w.ids := by
  unfold World.look World.ids
  rw [List.lookup_eq_none_iff]
  constructor
  · intro h hm
    obtain ⟨p, hp, e⟩ := List.mem_map.mp hm
    have := h p hp
    rw [e] at this
    simp at this
  · intro h p hp
    have : p.1 ≠ id := fun e => h (List.mem_map.mpr ⟨p, hp, e⟩)
    simpa using fun e => this e.symm

theorem look_alloc_new (w : World) (d : List UInt8) : (w.alloc d).2.look w.nextBuf = some d := by
  show List.lookup w.nextBuf ((w.nextBuf, d) :: w.heap) = some d
  simp [List.lookup]

theorem lookup_cons_ne {id k : Nat} {d : List UInt8} {h : List (Nat × List UInt8)} (hne : id ≠ k) : List.lookup id ((k, d) :: h) = List.lookup id h := by
  have : (id == k) = false := by simpa using hne
  simp [List.lookup, this]

theorem lookup_cons_self {id : Nat} {d : List UInt8} {h : List (Nat × List UInt8)} : List.lookup id ((id, d) :: h) = some d := by
  simp [List.lookup]

theorem look_alloc_old (w : World) (d : List UInt8) {id : Nat} (h : id ≠ w.nextBuf) : (w.alloc d).2.look id = w.look id := lookup_cons_ne h

theorem look_store_other (w : World) (k : Nat) (d : List UInt8) {id : Nat} (h : id ≠ k) : (w.store k d).look id = w.look id := by
  show List.lookup id (w.heap.map fun p => if p.1 = k then (k, d) else p) = List.lookup id w.heap
  induction w.heap with
  | nil => rfl
  | cons p ps ih =>
    rcases p with ⟨a, b⟩
    rw [List.map_cons]
    dsimp only
    split
    · rename_i ha; subst ha
      rw [lookup_cons_ne h, lookup_cons_ne h]; exact ih
    · by_cases ha : id = a
      · subst ha; rw [lookup_cons_self, lookup_cons_self]
      · rw [lookup_cons_ne ha, lookup_cons_ne ha]; exact ih

theorem look_store_same (w : World) (k : Nat) (d : List UInt8) (h : k ∈ w.ids) : (w.store k d).look k = some d := by
  show List.lookup k (w.heap.map fun p => if p.1 = k then (k, d) else p) = some d
  have h : k ∈ w.heap.map Prod.fst := h
  revert h
  induction w.heap with
  | nil => intro h; exact absurd h List.not_mem_nil
  | cons p ps ih =>
    rcases p with ⟨a, b⟩
    intro h
    rw [List.map_cons]
    dsimp only
    split
    · exact lookup_cons_self
    · rename_i ha
      rw [lookup_cons_ne (fun e => ha e.symm)]
      rcases List.mem_cons.mp h with h | h
      · exact absurd h.symm ha
      · exact ih h

theorem look_free_same (w : World) (k : Nat) : (w.free k).look k = none := by
  rw [look_none, ids_free]
  intro h
  have := (List.mem_filter.mp h).2
  simp at this

theorem look_free_other (w : World) (k : Nat) {id : Nat} (h : id ≠ k) : (w.free k).look id = w.look id := by
  show List.lookup id (w.heap.filter fun p => p.1 ≠ k) = List.lookup id w.heap
  induction w.heap with
  | nil => rfl
  | cons p ps ih =>
    rcases p with ⟨a, b⟩
    by_cases ha : a = k
    · subst ha
      rw [List.filter_cons_of_neg (by simp), lookup_cons_ne h]; exact ih
    · rw [List.filter_cons_of_pos (by simpa using ha)]
      by_cases hi : id = a
      · subst hi; rw [lookup_cons_self, lookup_cons_self]
      · rw [lookup_cons_ne hi, lookup_cons_ne hi]; exact ih

/-! ## A task leaves the other buffers -/

/-- Buffers other than `own` are as before. -/
structure Spares (own : List Nat) (w w' : World) : Prop where
  next : w.nextBuf ≤ w'.nextBuf
  look : ∀ id, id < w.nextBuf → id ∉ own → w'.look id = w.look id

theorem Spares.refl (own : List Nat) (w : World) : Spares own w w := ⟨Nat.le_refl _, fun _ _ _ => rfl⟩

theorem Spares.same {own : List Nat} {w w' : World} (h1 : w'.heap = w.heap) (h2 : w'.nextBuf = w.nextBuf) : Spares own w w' :=
  ⟨Nat.le_of_eq h2.symm, fun id _ _ => by unfold World.look; rw [h1]⟩

theorem Spares.trans {own : List Nat} {w w' w'' : World} (h : Spares own w w') (h' : Spares own w' w'') : Spares own w w'' :=
  ⟨Nat.le_trans h.next h'.next, fun id h1 h2 => (h'.look id (Nat.lt_of_lt_of_le h1 h.next) h2).trans (h.look id h1 h2)⟩

theorem Spares.mono {own own' : List Nat} {w w' : World} (h : Spares own w w') (hs : ∀ i ∈ own, i ∈ own') : Spares own' w w' :=
  ⟨h.next, fun id h1 h2 => h.look id h1 fun hm => h2 (hs id hm)⟩

theorem spares_alloc (own : List Nat) (w : World) (d : List UInt8) : Spares own w (w.alloc d).2 :=
  ⟨Nat.le_succ _, fun id h _ => look_alloc_old w d (Nat.ne_of_lt h)⟩

theorem spares_destroy (c : Co) (w : World) : Spares (bufs [c]) w (destroy c w) := by
  cases c with
  | readPayload c => exact ⟨Nat.le_refl _, fun id _ h => look_free_other w c.buf (fun e => h (by rw [e]; exact List.mem_singleton.mpr rfl))⟩
  | _ => exact .refl _ _

theorem spares_readStep {own : List Nat} (need got l) (w : World) (again : List UInt8 → Co) (cont : List UInt8 → World → Act × Local × World)
    (h : ∀ g w, Spares own w (cont g w).2.2) : Spares own w (readStep need got l w again cont).2.2 := by
  unfold readStep
  rcases readInline need got w.st.inp with ⟨(g | g | _ | _), i⟩
  · exact .same rfl rfl
  · exact .trans (.same (w' := w.setInp i) rfl rfl) (h g _)
  · exact .same rfl rfl
  · exact .same rfl rfl

theorem spares_startPayload {own : List Nat} {c : HandleFrameCo} (short pc l) (w : World) : Spares own w (startPayload c short pc l w).2.2 := by
  unfold startPayload readPayloadAsync
  split
  · rename_i co w' he
    split at he
    · cases he
    · split at he
      · cases he
      · injection he with he; injection he with he he'; subst he he'
        exact spares_alloc _ _ _
  · exact .refl _ _

theorem spares_coStep (env : Env) (c : Co) (l : Local) (w : World) : Spares (bufs [c]) w (coStep env c l w).2.2 := by
  cases c with
  | listen => simp only [coStep, listenStep]; split <;> exact .refl _ _
  | readFrame c =>
    simp only [coStep, readFrameStep]
    split
    · exact spares_readStep _ _ _ _ _ _ (fun _ _ => .refl _ _)
    · split
      · split
        · exact .refl _ _
        · split <;> exact .refl _ _
      · exact .refl _ _
    · exact spares_readStep _ _ _ _ _ _ (fun _ _ => .refl _ _)
    · split <;> exact .refl _ _
    · refine spares_readStep _ _ _ _ _ _ (fun _ _ => ?_)
      split <;> exact .refl _ _
  | handleFrame c =>
    have hd : Spares (bufs [.handleFrame c]) w (startData c l w).2.2 := by
      unfold startData
      split
      · rename_i s _
        have := spares_startPayload (own := bufs [.handleFrame c]) (c := c) false .done l (w.setSock s)
        exact ⟨this.next, this.look⟩
      · exact .same rfl rfl
    have hc : ∀ mk : Nat → Event, Spares (bufs [.handleFrame c]) w (controlCallback env c mk l w).2.2 := by
      intro mk
      unfold controlCallback
      split
      · exact .same rfl rfl
      · exact .refl _ _
    simp only [coStep, handleFrameStep]
    split
    · split
      · split
        · exact .refl _ _
        · exact spares_startPayload _ _ _ _
      · split
        · exact hd
        · split
          · exact hd
          · split
            · exact spares_startPayload _ _ _ _
            · split
              · exact spares_startPayload _ _ _ _
              · split
                · exact spares_startPayload _ _ _ _
                · exact .refl _ _
    · exact hc _
    · exact hc _
    · exact hc _
    · exact .refl _ _
  | readPayload c =>
    simp only [coStep, readPayloadStep]
    split
    · split
      · exact .refl _ _
      · split
        · split
          · exact .same rfl rfl
          · exact .refl _ _
        · exact .refl _ _
    · split
      · exact .refl _ _
      · split
        · exact .refl _ _
        · split
          · split
            · exact .same rfl rfl
            · exact ⟨Nat.le_refl _, fun id _ h => look_store_other (w.setInp _) c.buf _ fun e => h (by rw [e]; exact List.mem_singleton.mpr rfl)⟩
          · exact .same rfl rfl
          · exact .same rfl rfl
          · exact .same rfl rfl
    · split
      · split
        · split
          · exact .refl _ _
          · split
            · refine ⟨Nat.le_succ _, fun id h _ => ?_⟩
              exact (look_free_other (callback env _ _ _ (w.alloc _).2).2 w.nextBuf (Nat.ne_of_lt h)).trans (look_alloc_old w _ (Nat.ne_of_lt h))
            · exact .refl _ _
        · split
          · exact .refl _ _
          · split
            · exact .same rfl rfl
            · exact .refl _ _
      · exact .refl _ _
    · exact .refl _ _
  | user c => have h := (coStep_ok env (K := fun _ => True) (fun _ _ _ _ _ h => h) (.user c) trivial l w).1; exact .same h.heap h.nextBuf
  | sendFrame c => have h := (coStep_ok env (K := fun _ => True) (fun _ _ _ _ _ h => h) (.sendFrame c) trivial l w).1; exact .same h.heap h.nextBuf
  | writeFrame c => have h := (coStep_ok env (K := fun _ => True) (fun _ _ _ _ _ h => h) (.writeFrame c) trivial l w).1; exact .same h.heap h.nextBuf

theorem spares_unwind (e : AErr) (rest : List Co) (l : Local) (w : World) : Spares (bufs rest) w (unwind e rest l w).2 := by
  induction rest generalizing w with
  | nil => exact .refl _ _
  | cons c rest ih =>
    have hr : ∀ w, Spares (bufs (c :: rest)) w (unwind e rest l w).2 := fun w => (ih w).mono fun i hi => by
      rw [bufs_cons]; exact List.mem_append.mpr (.inr hi)
    cases c with
    | user c =>
      simp only [unwind]
      split
      · exact .refl _ _
      · exact hr w
    | readPayload c =>
      simp only [unwind]
      refine .trans ((spares_destroy (.readPayload c) w).mono fun i hi => ?_) (hr _)
      rw [bufs_cons]; exact List.mem_append.mpr (.inl hi)
    | _ => simp only [unwind]; exact hr _

/-- A step of a task leaves the buffers of the others as they are. -/
theorem spares_step (env : Env) (t : Task) (w : World) : Spares (bufs t.stack) w (step env t w).2 := by
  unfold step
  split
  · exact .refl _ _
  · rename_i c rest hs
    have h1 : ∀ i ∈ bufs [c], i ∈ bufs t.stack := fun i hi => by rw [hs, bufs_cons]; exact List.mem_append.mpr (.inl hi)
    have h2 : ∀ i ∈ bufs rest, i ∈ bufs t.stack := fun i hi => by rw [hs, bufs_cons]; exact List.mem_append.mpr (.inr hi)
    have hk := (spares_coStep env c t.loc w).mono h1
    revert hk
    rcases coStep env c t.loc w with ⟨a, l, w1⟩
    intro hk
    cases a with
    | finish =>
      have := hk.trans ((spares_destroy c w1).mono h1)
      dsimp only
      split <;> exact this
    | error e => exact (hk.trans ((spares_destroy c w1).mono h1)).trans ((spares_unwind e rest l _).mono h2)
    | _ => exact hk

/-! ## The pointers of one task -/

/-- The pointer of user code above a coroutine with buffer `buf`. -/
def PtrAt (masked : Bool) (buf : Nat) (w : World) (u : UserCo) : Prop :=
  u.ptr = none ∨ ∃ id, u.ptr = some id ∧ if masked then id < w.nextBuf ∧ w.look id = none else id = buf ∧ w.look id = some u.data

theorem ptrAt_lasting (m b w) : Lasting (PtrAt m b w) := fun _ _ _ _ _ h => h
theorem ptrAt_noCare (m b w) : NoCare (PtrAt m b w) := fun _ _ h => h

/-- The coroutines of a task and their pointers. -/
inductive PAt (l : Local) (w : World) : List Co → Prop
  | listen : PAt l w [.listen]
  | head {c hl} : PAt l w [.readFrame c, .handleFrame ⟨.act, hl⟩, .listen]
  | act {hl} : PAt l w [.handleFrame ⟨.act, hl⟩, .listen]
  | payload {ss p hf} : hf.pc ≠ .act → (p.pc = .onDataRead → p.got ≠ [] → w.look p.buf = some p.got) → (p.pc = .readData → p.got = []) →
      (∀ c ∈ ss, c.ok (PtrAt l.hdr.hasMask p.buf w)) → PAt l w (ss ++ [.readPayload p, .handleFrame hf, .listen])
  | handle {ss hf} : hf.pc ≠ .act → (∀ c ∈ ss, c.ok NoPtr) → PAt l w (ss ++ [.handleFrame hf, .listen])
  | plain {ss} : (∀ c ∈ ss, c.ok NoPtr) → PAt l w ss

/-- The same of a task in any state. -/
def Outcome.PAt (o : Outcome) (w : World) : Prop := ∀ t, o = .run t → Async.PAt t.loc w t.stack

/-- What a step of a task does to the pointers: the callbacks made find their data, and its coroutines have good pointers. -/
structure POk (w : World) (q : Outcome × World) : Prop where
  calls : ∃ cs, q.2.calls = w.calls ++ cs ∧ ∀ c ∈ cs, c.good
  at_ : q.1.PAt q.2

theorem POk.silent {w w' : World} {o : Outcome} (h : w'.calls = w.calls) (ha : o.PAt w') : POk w (o, w') := ⟨⟨[], by rw [h]; simp, by simp⟩, ha⟩
theorem POk.run {w w' : World} {t : Task} (h : w'.calls = w.calls) (ha : PAt t.loc w' t.stack) : POk w (.run t, w') :=
  .silent h fun _ e => by injection e with e; subst e; exact ha
theorem POk.call {w w' : World} {t : Task} (c : Call) (h : w'.calls = w.calls ++ [c]) (hc : c.good) (ha : PAt t.loc w' t.stack) : POk w (.run t, w') :=
  ⟨⟨[c], h, fun d hd => by rw [List.mem_singleton.mp hd]; exact hc⟩, fun _ e => by injection e with e; subst e; exact ha⟩
theorem POk.over {w w' : World} {o : Outcome} (h : w'.calls = w.calls) (ho : ∀ t, o ≠ .run t) : POk w (o, w') := .silent h fun t e => absurd e (ho t)

theorem destroy_calls (c : Co) (w : World) : (destroy c w).calls = w.calls := by cases c <;> rfl

variable {env : Env}

/-- A step of the coroutine that reads a payload. -/
theorem payload_ptr {p : ReadPayloadCo} {hf : HandleFrameCo} {l : Local} {w : World} (hO : Own R [p.buf] w) (hpc : hf.pc ≠ .act)
    (hgot : p.pc = .onDataRead → p.got ≠ [] → w.look p.buf = some p.got) (hrd : p.pc = .readData → p.got = []) :
    POk w (step env ⟨[.readPayload p, .handleFrame hf, .listen], l⟩ w) := by
  have hin : p.buf ∈ w.ids := hO.perm.mem_iff.mpr (by simp)
  have hlt : p.buf < w.nextBuf := hO.fresh _ hin
  have hgoto : ∀ (p' : ReadPayloadCo) (l' : Local) (w' : World), w'.calls = w.calls →
      (p'.pc = .onDataRead → p'.got ≠ [] → w'.look p'.buf = some p'.got) → (p'.pc = .readData → p'.got = []) →
      POk w (.run ⟨[.readPayload p', .handleFrame hf, .listen], l'⟩, w') := fun p' l' w' e1 e2 e3 => .run e1 (.payload (ss := []) hpc e2 e3 (by simp))
  have hfin : ∀ (l' : Local) (w' : World), w'.calls = w.calls → POk w (after (.readPayload p) [.handleFrame hf, .listen] (.finish, l', w')) :=
    fun l' w' e => .run e (.handle (ss := []) hpc (by simp))
  have herr : ∀ (e : AErr) (l' : Local) (w' : World), w'.calls = w.calls → POk w (after (.readPayload p) [.handleFrame hf, .listen] (.error e, l', w')) :=
    fun e l' w' e1 => .over e1 (fun t e => by cases e)
  rw [step_cons]
  simp only [coStep, readPayloadStep]
  split
  · split
    · exact hgoto _ _ _ rfl (by nofun) (fun _ => rfl)
    · split
      · rename_i to hto
        split
        · refine .call ⟨.readMessage to l.hdr.opcode [], none, none⟩ rfl (.inl ⟨rfl, rfl⟩) (.payload (ss := [.user _]) hpc (by nofun) (by nofun) ?_)
          intro c hc; rw [List.mem_singleton] at hc; subst hc; exact .inl rfl
        · exact hfin _ _ rfl
      · exact hfin _ _ rfl
  · rename_i hpc2
    have hg := hrd hpc2
    split
    · exact hgoto _ _ _ rfl (fun _ h => absurd hg h) (by nofun)
    · split
      · exact .over rfl (by nofun)
      · rename_i oc sched _
        split
        · rename_i bs bytes _
          split
          · exact .over rfl (by nofun)
          · exact hgoto _ _ _ rfl (fun _ _ => look_store_same (w.setInp ⟨bytes, sched⟩) p.buf bs hin) (by nofun)
        · exact hgoto _ _ _ rfl (by rw [hpc2]; nofun) (fun _ => hg)
        · exact hgoto _ _ _ rfl (fun _ h => absurd hg h) (by nofun)
        · exact herr _ _ _ rfl
  · rename_i hpc2
    split
    · rename_i hne
      have hcont := hgot hpc2 hne
      split
      · rename_i hmask
        split
        · exact hgoto _ _ _ rfl (by nofun) (by nofun)
        · split
          · rename_i to hto
            refine .call ⟨.readMessage to l.hdr.opcode (xorMask l.hdr.mask p.progress.toNat p.got), some w.nextBuf,
              some (xorMask l.hdr.mask p.progress.toNat p.got)⟩ ?_ (.inr ⟨by nofun, rfl⟩) (.payload (ss := [.user _]) hpc (by nofun) (by nofun) ?_)
            · have hn := look_alloc_new w (xorMask l.hdr.mask p.progress.toNat p.got)
              exact congrArg (fun x => w.calls ++ [⟨.readMessage to l.hdr.opcode (xorMask l.hdr.mask p.progress.toNat p.got), some w.nextBuf, x⟩]) hn
            · intro c hc
              rw [List.mem_singleton] at hc
              subst hc
              refine .inr ⟨w.nextBuf, rfl, ?_⟩
              simp only [] at hmask ⊢
              rw [if_pos hmask]
              exact ⟨Nat.lt_succ_self _, look_free_same _ _⟩
          · exact hgoto _ _ _ rfl (by nofun) (by nofun)
      · rename_i hmask
        split
        · exact hgoto _ _ _ rfl (by nofun) (by nofun)
        · split
          · rename_i to hto
            refine .call ⟨.readMessage to l.hdr.opcode p.got, some p.buf, some p.got⟩ ?_ (.inr ⟨by nofun, rfl⟩)
              (.payload (ss := [.user _]) hpc (by nofun) (by nofun) ?_)
            · exact congrArg (fun x => w.calls ++ [⟨.readMessage to l.hdr.opcode p.got, some p.buf, x⟩]) hcont
            · intro c hc
              rw [List.mem_singleton] at hc
              subst hc
              refine .inr ⟨p.buf, rfl, ?_⟩
              rw [if_neg hmask]
              exact ⟨rfl, hcont⟩
          · exact hgoto _ _ _ rfl (by nofun) (by nofun)
    · exact herr _ _ _ rfl
  · exact hfin _ _ rfl

/-- A step of a task that does not listen. -/
theorem plain_ptr {ss : List Co} (hs : ∀ c ∈ ss, c.ok NoPtr) (l : Local) (w : World) : POk w (step env ⟨ss, l⟩ w) := by
  cases ss with
  | nil => exact .over rfl (by nofun)
  | cons c ss =>
    have hr : ∀ c ∈ ss, c.ok NoPtr := fun d hd => hs d (by simp [hd])
    have h0 := hs c (by simp)
    rw [step_cons]
    have hc := coStep_ok env noPtr_lasting c h0 l w
    revert hc
    rcases coStep env c l w with ⟨a, l', w'⟩
    rintro ⟨h1, h2, h3⟩
    cases a with
    | goto c' => exact .run h1.calls (.plain fun d hd => by rcases List.mem_cons.mp hd with rfl | hd; exact h3; exact hr d hd)
    | call cs c' =>
      refine .run h1.calls (.plain fun d hd => ?_)
      rcases List.mem_append.mp hd with hd | hd
      · exact h3.1 d hd
      · rcases List.mem_cons.mp hd with rfl | hd
        · exact h3.2
        · exact hr d hd
    | finish =>
      simp only [after]
      split
      · exact .over ((destroy_calls c w').trans h1.calls) (by nofun)
      · exact .run ((destroy_calls c w').trans h1.calls) (.plain hr)
    | error e =>
      simp only [after]
      rcases unwind_ok noPtr_noCare e ss [] hr l' (destroy c w') with ⟨ss', h4, -, h5⟩ | h5
      · rw [List.append_nil] at h5; rw [h5]
        exact .run ((destroy_calls c w').trans h1.calls) (.plain (by simpa using h4))
      · rw [List.append_nil] at h5; rw [h5]
        exact .over ((destroy_calls c w').trans h1.calls) (by nofun)
    | blocked => exact .over h1.calls (by nofun)
    | ub u => exact .over h1.calls (by nofun)

/-- A step of any task. -/
theorem ptr_step {t : Task} {w : World} (hO : Own R (bufs t.stack) w) (ha : PAt t.loc w t.stack) : POk w (step env t w) := by
  rcases t with ⟨stack, l⟩
  simp only [] at ha hO
  cases ha with
  | listen =>
    rw [step_cons]
    simp only [coStep, listenStep]
    split
    · exact .run rfl .head
    · exact .over rfl (by nofun)
  | @head c hl =>
    rw [step_cons]
    obtain ⟨i, l', a, e, ⟨c', rfl⟩ | rfl | rfl | rfl⟩ := readFrame_cases env c l w <;> rw [e]
    · exact .run rfl .head
    · exact .run rfl .act
    · exact .over rfl (by nofun)
    · exact .over rfl (by nofun)
  | @act hl =>
    rw [step_cons]
    obtain ⟨l', ⟨p, pc, w', e, e2, e3, e6, e7, s, e4, e5⟩ | ⟨e, s, h, e4⟩⟩ := handleAct_cases env hl l w
    · rw [e]
      refine .run (w' := w') ?_ (.payload (ss := []) e2 (by rw [e6]; nofun) (by rw [e6]; nofun) (by simp))
      rw [e5]; rfl
    · rw [h]; exact .over rfl (by nofun)
  | @payload ss p hf h1 h5 h6 h7 =>
    cases ss with
    | nil => exact payload_ptr hO h1 h5 h6
    | cons s ss =>
      rcases step_above env (ptrAt_lasting _ _ _) (ptrAt_noCare _ _ _) s ss [.readPayload p, .handleFrame hf, .listen] h7 l w (by simp) with
        ⟨ss', w', e1, e2, e3⟩ | ⟨e, w', e1, e2, e3⟩ | ⟨w', e1, e2⟩ | ⟨u, w', e1, e2⟩
      · rw [e3]
        have hl : ∀ id, w'.look id = w.look id := fun id => by unfold World.look; rw [e2.heap]
        refine .run e2.calls (.payload h1 (by rw [hl]; exact h5) h6 fun c hc => (e1 c hc).mono fun u hu => ?_)
        rcases hu with hu | ⟨id, e, hu⟩
        · exact .inl hu
        · refine .inr ⟨id, e, ?_⟩
          simp only [hl, e2.nextBuf]; exact hu
      · rw [e3, unwind_payload]; exact .over e1.calls (by nofun)
      · rw [e2]; exact .over e1.calls (by nofun)
      · rw [e2]; exact .over e1.calls (by nofun)
  | @handle ss hf h1 h3 =>
    cases ss with
    | nil =>
      rw [List.nil_append, step_cons]
      rcases hf with ⟨pc, hl⟩
      rcases handleRest_cases env hl pc l w h1 with ⟨pc', u, w', ev, to, e, e1, e2, e3, e4, e5⟩ | e <;> rw [e]
      · injection e5 with e5 e6
        injection e5 with e5
        refine .call (w' := w') ⟨ev, none, none⟩ (by rw [e6]; rfl) (.inl ⟨data_control e4, rfl⟩) (.handle (ss := [.user u]) e1 ?_)
        intro c hc; rw [List.mem_singleton] at hc; subst hc; rw [e5]; rfl
      · exact .run rfl .listen
    | cons s ss =>
      rcases step_above env noPtr_lasting noPtr_noCare s ss [.handleFrame hf, .listen] h3 l w (by simp) with
        ⟨ss', w', e1, e2, e3⟩ | ⟨e, w', e1, e2, e3⟩ | ⟨w', e1, e2⟩ | ⟨u, w', e1, e2⟩
      · rw [e3]; exact .run e2.calls (.handle h1 e1)
      · rw [e3, unwind_handle]; exact .over e1.calls (by nofun)
      · rw [e2]; exact .over e1.calls (by nofun)
      · rw [e2]; exact .over e1.calls (by nofun)
  | plain h => exact plain_ptr h l w

/-- The step of another task. -/
theorem PAt.others {l : Local} {w w' : World} {s : List Co} {own : List Nat} (ha : PAt l w s) (h : Spares own w w') (hown : ∀ i ∈ own, i ∈ w.ids)
    (hb : ∀ i ∈ bufs s, i ∈ w.ids ∧ i < w.nextBuf ∧ i ∉ own) : PAt l w' s := by
  cases ha with
  | listen => exact .listen
  | head => exact .head
  | act => exact .act
  | @payload ss p hf h1 h5 h6 h7 =>
    obtain ⟨b1, b2, b3⟩ := hb p.buf (by rw [bufs_append]; exact List.mem_append.mpr (.inr (List.mem_singleton.mpr rfl)))
    refine .payload h1 (by rw [h.look _ b2 b3]; exact h5) h6 fun c hc => (h7 c hc).mono fun u hu => ?_
    rcases hu with hu | ⟨id, e, hu⟩
    · exact .inl hu
    · refine .inr ⟨id, e, ?_⟩
      revert hu
      split
      · rintro ⟨h1, h2⟩
        refine ⟨Nat.lt_of_lt_of_le h1 h.next, ?_⟩
        rw [h.look _ h1 fun hm => look_none.mp h2 (hown _ hm)]
        exact h2
      · rintro ⟨rfl, h2⟩
        refine ⟨rfl, ?_⟩
        rw [h.look _ b2 b3]
        exact h2
  | handle h1 h3 => exact .handle h1 h3
  | plain h => exact .plain h

end OatWS.Async
