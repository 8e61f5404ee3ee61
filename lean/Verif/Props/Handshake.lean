import Verif.Model.Handshake
import Verif.Spec.Handshake
import Verif.Spec.HttpExample
import Verif.Props.SHA1
/-! # C36, C37, C38, C46: the opening handshake -/

namespace OatWS.Handshake
open Http

/-! ## Basics -/

theorem same_refl (a : Str) : Same a a := rfl
theorem same_symm {a b : Str} (h : Same a b) : Same b a := Eq.symm h
theorem same_trans {a b c : Str} (h : Same a b) (h' : Same b c) : Same a c := Eq.trans h h'

theorem upgrade_ci : Same (ascii "Upgrade") (ascii "upgrade") := by decide

theorem get_once {core : Core} (hc : core.Sound) {h : Headers} {name : String} {v : Str} (hv : values h name = [v]) : core.get h name = some v := by
  cases hg : core.get h name with
  | none => rw [hc.get_none _ _ hg] at hv; cases hv
  | some w =>
    have := hc.get_some _ _ _ hg
    rw [hv] at this
    simp only [List.mem_singleton] at this
    rw [this]

theorem get_absent {core : Core} (hc : core.Sound) {h : Headers} {name : String} (hv : values h name = []) : core.get h name = none := by
  cases hg : core.get h name with
  | none => rfl
  | some w =>
    have := hc.get_some _ _ _ hg
    rw [hv] at this
    cases this

theorem once_mem {h : Headers} {name : String} {v : Str} (ho : Once h name) (hv : v ∈ values h name) : values h name = [v] := by
  unfold Once at ho
  revert ho hv
  cases values h name with
  | nil => intro _ hv; cases hv
  | cons a l =>
    intro ho hv
    simp only [List.length_cons] at ho
    have : l = [] := List.eq_nil_of_length_eq_zero (by omega)
    subst this
    simp only [List.mem_singleton] at hv
    rw [hv]

theorem acceptFor_eq (host : Endian) (key : Str) (hk : key.length < 2 ^ 60) : acceptFor host key = acceptValue key := by
  unfold acceptFor acceptValue
  rw [SHA1.C34_sha1]
  · rfl
  · rw [List.length_append]
    have : magicUUID.length = 36 := by decide
    omega

/-! ## C36 -/

/-- **C36.** If a response is made, the request had the right fields, the status is 101, the upgrade handler is the one given and the
accept value is the one for a key in the request. (Keys below 2^60 bytes.) -/
theorem C36_only_valid {core : Core} (hc : core.Sound) (host : Endian) (request : Headers) (handler : H) {status : Nat} {headers : Headers}
    {upgradeHandler : H} (hk : ∀ k ∈ values request "Sec-WebSocket-Key", k.length < 2 ^ 60)
    (h : serversideHandshake core host request handler = .response status headers upgradeHandler) :
    ValidRequest core request ∧ status = 101 ∧ upgradeHandler = handler ∧
    ∃ k ∈ values request "Sec-WebSocket-Key", k ≠ [] ∧ headers = responseHeaders k := by
  unfold serversideHandshake at h
  simp only [] at h
  split at h
  · rename_i u c v k hu hco hv hky
    split at h
    · rename_i h1
      split at h
      · rename_i h2
        split at h
        · rename_i h3
          injection h with e1 e2 e3
          have hkm := hc.get_some _ _ _ hky
          have hkne : k ≠ [] := List.length_pos_iff.mp h1.1
          refine ⟨⟨⟨u, hc.get_some _ _ _ hu, h1.2⟩, ⟨c, hc.get_some _ _ _ hco, ?_⟩, ?_, ⟨k, hkm, hkne⟩⟩, e1.symm, e3.symm, k, hkm, hkne, ?_⟩
          · obtain ⟨t, ht, hs⟩ := h2
            exact ⟨t, ht, same_trans hs upgrade_ci⟩
          · have := hc.get_some _ _ _ hv
            rw [h3] at this
            exact this
          · rw [← e2, acceptFor_eq host k (hk k hkm)]; rfl
        · cases h
      · cases h
    · cases h
  · cases h

/-- **C36.** If no field with one of the four names has a bad value, and there is one with each, a response is made: so with several
fields of the same name the outcome is only left open (by the standard library) if they disagree about validity. -/
theorem C36_all_valid {core : Core} (hc : core.Sound) (host : Endian) (request : Headers) (handler : H)
    (hu : values request "Upgrade" ≠ [] ∧ ∀ v ∈ values request "Upgrade", Same v (ascii "websocket"))
    (hco : values request "Connection" ≠ [] ∧ ∀ v ∈ values request "Connection", ∃ t ∈ core.tokens v, Same t (ascii "upgrade"))
    (hv : values request "Sec-WebSocket-Version" ≠ [] ∧ ∀ v ∈ values request "Sec-WebSocket-Version", v = ascii "13")
    (hk : values request "Sec-WebSocket-Key" ≠ [] ∧ ∀ k ∈ values request "Sec-WebSocket-Key", k ≠ [] ∧ k.length < 2 ^ 60) :
    ∃ k ∈ values request "Sec-WebSocket-Key", serversideHandshake core host request handler = .response 101 (responseHeaders k) handler := by
  have hg : ∀ name, values request name ≠ [] → ∃ v ∈ values request name, core.get request name = some v := by
    intro name hne
    cases hgg : core.get request name with
    | none => exact absurd (hc.get_none _ _ hgg) hne
    | some v => exact ⟨v, hc.get_some _ _ _ hgg, rfl⟩
  obtain ⟨u, hum, hug⟩ := hg _ hu.1
  obtain ⟨c, hcm, hcg⟩ := hg _ hco.1
  obtain ⟨v, hvm, hvg⟩ := hg _ hv.1
  obtain ⟨k, hkm, hkg⟩ := hg _ hk.1
  refine ⟨k, hkm, ?_⟩
  unfold serversideHandshake
  simp only [hug, hcg, hvg, hkg]
  obtain ⟨t, ht, hs⟩ := hco.2 c hcm
  rw [if_pos ⟨List.length_pos_iff.mpr (hk.2 k hkm).1, hu.2 u hum⟩, if_pos ⟨t, ht, same_trans hs (same_symm upgrade_ci)⟩, if_pos (hv.2 v hvm),
    acceptFor_eq host k (hk.2 k hkm).2]
  rfl

/-- **C36.** Where each of the four fields occurs at most once: a response is made exactly for the valid requests, and it is the one of
RFC 6455 for the key, with the upgrade handler given. -/
theorem C36_exactly_valid {core : Core} (hc : core.Sound) (host : Endian) (request : Headers) (handler : H)
    (once : ∀ n ∈ requestNames, Once request n) (hk : ∀ k ∈ values request "Sec-WebSocket-Key", k.length < 2 ^ 60) :
    (∃ s hs uh, serversideHandshake core host request handler = .response s hs uh) ↔ ValidRequest core request := by
  constructor
  · rintro ⟨s, hs, uh, h⟩
    exact (C36_only_valid hc host request handler hk h).1
  · rintro ⟨⟨u, hu, hus⟩, ⟨c, hcm, hcs⟩, hv, ⟨k, hkm, hkne⟩⟩
    have e1 := once_mem (once _ (by simp [requestNames])) hu
    have e2 := once_mem (once _ (by simp [requestNames])) hcm
    have e3 := once_mem (once _ (by simp [requestNames])) hv
    have e4 := once_mem (once _ (by simp [requestNames])) hkm
    obtain ⟨k', -, h⟩ := C36_all_valid hc host request handler
      (by rw [e1]; exact ⟨by simp, fun v hv => by simp only [List.mem_singleton] at hv; rw [hv]; exact hus⟩)
      (by rw [e2]; exact ⟨by simp, fun v hv => by simp only [List.mem_singleton] at hv; rw [hv]; exact hcs⟩)
      (by rw [e3]; exact ⟨by simp, fun v hv => by simpa using hv⟩)
      (by rw [e4]; exact ⟨by simp, fun v hv => by simp only [List.mem_singleton] at hv; rw [hv]; exact ⟨hkne, hk k hkm⟩⟩)
    exact ⟨_, _, _, h⟩

/-- **C36.** If no response is made, it is a 400 error. -/
theorem C36_otherwise_400 (core : Core) (host : Endian) (request : Headers) (handler : H) :
    (∃ s hs uh, serversideHandshake core host request handler = .response s hs uh) ∨
    ∃ m, serversideHandshake core host request handler = .error 400 m := by
  unfold serversideHandshake
  simp only []
  split
  · split
    · split
      · split
        · exact .inl ⟨_, _, _, rfl⟩
        · exact .inr ⟨_, rfl⟩
      · exact .inr ⟨_, rfl⟩
    · exact .inr ⟨_, rfl⟩
  · exact .inr ⟨_, rfl⟩

/-- **C36.** In terms of the list in `Connection`: with one value, a list of tokens, that the token is there means that it is one of the
members of the list (up to case). -/
theorem C36_connection_list {core : Core} (hc : core.Sound) {request : Headers} (spaces : Nat → Nat) (ts : List Str) (hts : ∀ t ∈ ts, IsToken t)
    (hv : values request "Connection" = [tokenList spaces ts]) :
    (∃ v ∈ values request "Connection", ∃ t ∈ core.tokens v, Same t (ascii "upgrade")) ↔ ∃ t ∈ ts, Same t (ascii "upgrade") := by
  rw [hv]
  simp only [List.mem_singleton, exists_eq_left]
  exact hc.tokens_list spaces ts _ hts (by refine ⟨by decide, by decide⟩)

/-! ## C37 -/

/-- **C37.** Status other than 101. -/
theorem C37_server_error (core : Core) (host : Endian) (client : Headers) (r : Response) :
    clientsideConfirmHandshake core host client r = .serverError ↔ r.status ≠ 101 := by
  unfold clientsideConfirmHandshake
  constructor
  · intro h hs
    rw [if_pos hs] at h
    simp only [] at h
    split at h
    · split at h
      · split at h <;> cases h
      · cases h
    · cases h
  · intro h
    rw [if_neg h]

/-- **C37.** OK is only returned for a matching response (fields may occur several times). -/
theorem C37_ok_only {core : Core} (hc : core.Sound) (host : Endian) (client : Headers) (r : Response)
    (hk : ∀ k ∈ values client "Sec-WebSocket-Key", k.length < 2 ^ 60) (h : clientsideConfirmHandshake core host client r = .ok) :
    r.status = 101 ∧ Fields client r.headers ∧ ∃ k ∈ values client "Sec-WebSocket-Key", acceptValue k ∈ values r.headers "Sec-WebSocket-Accept" := by
  unfold clientsideConfirmHandshake at h
  split at h
  · rename_i hs
    simp only [] at h
    split at h
    · rename_i u c a k h1 h2 h3 h4 h5
      split at h
      · rename_i hf
        split at h
        · rename_i he
          have hkm := hc.get_some _ _ _ h5
          have ha := hc.get_some _ _ _ h4
          refine ⟨hs, ⟨hc.get_none _ _ h1, ⟨u, hc.get_some _ _ _ h2, hf.1⟩, ⟨c, hc.get_some _ _ _ h3, hf.2⟩, List.ne_nil_of_mem ha,
            List.ne_nil_of_mem hkm⟩, k, hkm, ?_⟩
          rw [← acceptFor_eq host k (hk k hkm), he]
          exact ha
        · cases h
      · cases h
    · cases h
  · cases h

/-- **C37.** Where each field occurs at most once, the result for status 101: OK exactly if the fields are right and the accept value is the
one for the key that was sent, WRONG_KEY exactly if the fields are right and the accept value is another one, UNKNOWN_PROTOCOL exactly if
the fields are not right. -/
theorem C37_exactly {core : Core} (hc : core.Sound) (host : Endian) (client : Headers) (r : Response) (hs : r.status = 101)
    (once : ∀ n ∈ responseNames, Once r.headers n) (oncek : Once client "Sec-WebSocket-Key")
    (hk : ∀ k ∈ values client "Sec-WebSocket-Key", k.length < 2 ^ 60) :
    (clientsideConfirmHandshake core host client r = .ok ↔
      Fields client r.headers ∧ ∃ k ∈ values client "Sec-WebSocket-Key", acceptValue k ∈ values r.headers "Sec-WebSocket-Accept") ∧
    (clientsideConfirmHandshake core host client r = .serverWrongKey ↔
      Fields client r.headers ∧ ¬ ∃ k ∈ values client "Sec-WebSocket-Key", acceptValue k ∈ values r.headers "Sec-WebSocket-Accept") ∧
    (clientsideConfirmHandshake core host client r = .unknownProtocolSuggested ↔ ¬ Fields client r.headers) := by
  -- if the fields are right, the result is decided by the accept value
  have hright : Fields client r.headers → ∃ k a, values client "Sec-WebSocket-Key" = [k] ∧ values r.headers "Sec-WebSocket-Accept" = [a] ∧
      clientsideConfirmHandshake core host client r = if acceptValue k = a then .ok else .serverWrongKey := by
    intro hf
    obtain ⟨u, hum, hus⟩ := hf.upgrade
    obtain ⟨c, hcm, hcs⟩ := hf.connection
    have e1 := once_mem (once _ (by simp [responseNames])) hum
    have e2 := once_mem (once _ (by simp [responseNames])) hcm
    obtain ⟨a, ham⟩ := List.exists_mem_of_ne_nil _ hf.accept
    obtain ⟨k, hkm⟩ := List.exists_mem_of_ne_nil _ hf.key
    have e3 := once_mem (once _ (by simp [responseNames])) ham
    have e4 := once_mem oncek hkm
    refine ⟨k, a, e4, e3, ?_⟩
    unfold clientsideConfirmHandshake
    rw [if_pos hs]
    simp only [get_absent hc hf.version, get_once hc e1, get_once hc e2, get_once hc e3, get_once hc e4]
    rw [if_pos ⟨hus, hcs⟩, acceptFor_eq host k (hk k hkm)]
  have hwrong : ¬ Fields client r.headers → clientsideConfirmHandshake core host client r = .unknownProtocolSuggested := by
    intro hf
    unfold clientsideConfirmHandshake
    rw [if_pos hs]
    simp only []
    split
    · rename_i u c a k h1 h2 h3 h4 h5
      rw [if_neg]
      rintro ⟨q1, q2⟩
      exact hf ⟨hc.get_none _ _ h1, ⟨u, hc.get_some _ _ _ h2, q1⟩, ⟨c, hc.get_some _ _ _ h3, q2⟩,
        List.ne_nil_of_mem (hc.get_some _ _ _ h4), List.ne_nil_of_mem (hc.get_some _ _ _ h5)⟩
    · rfl
  by_cases hf : Fields client r.headers
  · obtain ⟨k, a, ek, ea, he⟩ := hright hf
    rw [he, ek, ea]
    by_cases h : acceptValue k = a <;> simp [h, hf]
  · rw [hwrong hf]
    simp [hf]

/-! ## C46 -/

/-- **C46.** The key: 24 characters that decode to the 16 random bytes. -/
theorem C46_key (random : List UInt8) (h : random.length = 16) :
    (generateKey random).length = 24 ∧ RFC4648.decode (generateKey random) = some random := by
  unfold generateKey
  rw [RFC4648.encode_length, h, RFC4648.decode_encode]
  exact ⟨rfl, rfl⟩

/-- **C46.** Different draws give different keys. -/
theorem C46_injective (r₁ r₂ : List UInt8) (h : generateKey r₁ = generateKey r₂) : r₁ = r₂ := by
  unfold generateKey at h
  have := congrArg RFC4648.decode h
  rw [RFC4648.decode_encode, RFC4648.decode_encode] at this
  exact Option.some.inj this

/-- **C46.** It is what the client sends as `Sec-WebSocket-Key`: next to the fields the application gave. -/
theorem C46_sent (request : Headers) (random : List UInt8) :
    values (clientsideHandshake request random) "Sec-WebSocket-Key" = values request "Sec-WebSocket-Key" ++ [generateKey random] := by
  unfold clientsideHandshake values
  rw [List.filter_append, List.map_append]
  congr 1

/-! ## C38 -/

theorem values_append (a b : Headers) (n : String) : values (a ++ b) n = values a n ++ values b n := by
  unfold values
  rw [List.filter_append, List.map_append]

theorem perm_single {l : List Str} {v : Str} (h : l.Perm [v]) : l = [v] := List.perm_singleton.mp h

/-- **C38.** The handshake succeeds: for every key, with any further request fields of the application (none of them with one of the four
names), on any two machines (byte order, header tables), and whatever is added to the request and to the response on the way, as long as the
handshake fields arrive. -/
theorem C38_agree {clientCore serverCore : Core} (hcc : clientCore.Sound) (hsc : serverCore.Sound) (clientHost serverHost : Endian)
    (random : List UInt8) (hr : random.length = 16) (user : Headers) (hu : ∀ n ∈ requestNames, values user n = [])
    (handler : H) (request : Headers) (hreq : Carried requestNames (clientsideHandshake user random) request) :
    ∃ headers, serversideHandshake serverCore serverHost request handler = .response 101 headers handler ∧
      ∀ received, Carried responseNames headers received →
        clientsideConfirmHandshake clientCore clientHost (clientsideHandshake user random) { status := 101, headers := received } = .ok := by
  have hlen : (generateKey random).length = 24 := (C46_key random hr).1
  have hne : generateKey random ≠ [] := by intro h; rw [h] at hlen; cases hlen
  have hsent : ∀ n ∈ requestNames, values (clientsideHandshake user random) n = values (clientsideHandshake [] random) n := by
    intro n hn
    have := hu n hn
    unfold clientsideHandshake
    rw [values_append, this, values_append]
    rfl
  have e1 : values request "Upgrade" = [ascii "websocket"] := perm_single (by
    have := hreq "Upgrade" (by simp [requestNames]); rw [hsent _ (by simp [requestNames])] at this; exact this)
  have e2 : values request "Connection" = [ascii "Upgrade"] := perm_single (by
    have := hreq "Connection" (by simp [requestNames]); rw [hsent _ (by simp [requestNames])] at this; exact this)
  have e3 : values request "Sec-WebSocket-Version" = [ascii "13"] := perm_single (by
    have := hreq "Sec-WebSocket-Version" (by simp [requestNames]); rw [hsent _ (by simp [requestNames])] at this; exact this)
  have e4 : values request "Sec-WebSocket-Key" = [generateKey random] := perm_single (by
    have := hreq "Sec-WebSocket-Key" (by simp [requestNames]); rw [hsent _ (by simp [requestNames])] at this; exact this)
  have ek : values (clientsideHandshake user random) "Sec-WebSocket-Key" = [generateKey random] := by
    rw [hsent _ (by simp [requestNames])]; rfl
  have htok : IsToken (ascii "Upgrade") := ⟨by decide, by decide⟩
  obtain ⟨k, hkm, h⟩ := C36_all_valid hsc serverHost request handler
    (by rw [e1]; exact ⟨by simp, fun v hv => by simp only [List.mem_singleton] at hv; rw [hv]; rfl⟩)
    (by rw [e2]; exact ⟨by simp, fun v hv => by
          simp only [List.mem_singleton] at hv
          rw [hv]
          have := (hsc.tokens_list (fun _ => 0) [ascii "Upgrade"] (ascii "Upgrade") (by simpa using htok) htok).mpr ⟨_, by simp, rfl⟩
          obtain ⟨t, ht, hs⟩ := this
          exact ⟨t, ht, same_trans hs upgrade_ci⟩⟩)
    (by rw [e3]; exact ⟨by simp, fun v hv => by simpa using hv⟩)
    (by rw [e4]; exact ⟨by simp, fun v hv => by simp only [List.mem_singleton] at hv; rw [hv]; exact ⟨hne, by rw [hlen]; decide⟩⟩)
  rw [e4] at hkm
  simp only [List.mem_singleton] at hkm
  subst hkm
  refine ⟨_, h, fun received hrec => ?_⟩
  have f1 : values received "Upgrade" = [ascii "websocket"] := perm_single (hrec "Upgrade" (by simp [responseNames]))
  have f2 : values received "Connection" = [ascii "Upgrade"] := perm_single (hrec "Connection" (by simp [responseNames]))
  have f3 : values received "Sec-WebSocket-Version" = [] := List.Perm.eq_nil (hrec "Sec-WebSocket-Version" (by simp [responseNames]))
  have f4 : values received "Sec-WebSocket-Accept" = [acceptValue (generateKey random)] :=
    perm_single (hrec "Sec-WebSocket-Accept" (by simp [responseNames]))
  refine ((C37_exactly hcc clientHost _ _ rfl ?_ ?_ ?_).1).mpr ⟨⟨f3, ?_, ?_, ?_, ?_⟩, ?_⟩
  · intro n hn
    simp only [responseNames, List.mem_cons, List.not_mem_nil, or_false] at hn
    rcases hn with rfl | rfl | rfl | rfl
    all_goals unfold Once; simp [f1, f2, f3, f4]
  · unfold Once; rw [ek]; simp
  · rw [ek]; intro k hk; simp only [List.mem_singleton] at hk; rw [hk, hlen]; decide
  · rw [f1]; exact ⟨_, by simp, rfl⟩
  · rw [f2]; exact ⟨_, by simp, upgrade_ci⟩
  · rw [f4]; simp
  · rw [ek]; simp
  · rw [ek, f4]; exact ⟨generateKey random, by simp, by simp⟩

/-! ## Concrete cases, and the limits of C36-C38 -/

/-- The example of RFC 6455, 1.2/1.3: the accept value of the key "dGhlIHNhbXBsZSBub25jZQ==". -/
theorem accept_example : acceptValue (ascii "dGhlIHNhbXBsZSBub25jZQ==") = ascii "s3pPLMBiTxaQ9kYGzzhZRbK+xOo=" := by
  rw [← acceptFor_eq .little _ (by decide)]
  decide +kernel

/-- A request as in RFC 6455, 1.2, with names and values in other cases and a list in `Connection`. -/
def sampleRequest : Headers :=
  [(ascii "Host", ascii "server.example.com"), (ascii "upgrade", ascii "WebSocket"), (ascii "CONNECTION", ascii "keep-alive, uPGRADE"),
   (ascii "Sec-WebSocket-Key", ascii "dGhlIHNhbXBsZSBub25jZQ=="), (ascii "sec-websocket-version", ascii "13")]

/-- It meets the hypotheses of `C36_exactly_valid` and is answered as in RFC 6455, 1.3. -/
example : (∀ n ∈ requestNames, Once sampleRequest n) ∧ ValidRequest firstCore sampleRequest ∧
    serversideHandshake firstCore .big sampleRequest () = .response 101
      [(ascii "Upgrade", ascii "websocket"), (ascii "Connection", ascii "Upgrade"),
       (ascii "Sec-WebSocket-Accept", ascii "s3pPLMBiTxaQ9kYGzzhZRbK+xOo=")] () := by
  have honce : ∀ n ∈ requestNames, Once sampleRequest n := by unfold Once; decide
  have hk : ∀ k ∈ values sampleRequest "Sec-WebSocket-Key", k.length < 2 ^ 60 := by decide
  have hv : ValidRequest firstCore sampleRequest :=
    ⟨⟨ascii "WebSocket", by decide, by decide⟩, ⟨ascii "keep-alive, uPGRADE", by decide, ascii "uPGRADE", by decide, by decide⟩, by decide,
      ⟨ascii "dGhlIHNhbXBsZSBub25jZQ==", by decide, by decide⟩⟩
  refine ⟨honce, hv, ?_⟩
  obtain ⟨s, hs, uh, h⟩ := (C36_exactly_valid firstCore_sound .big sampleRequest () honce hk).mpr hv
  obtain ⟨-, h1, -, k, hkm, -, h2⟩ := C36_only_valid firstCore_sound .big sampleRequest () hk h
  have hv : values sampleRequest "Sec-WebSocket-Key" = [ascii "dGhlIHNhbXBsZSBub25jZQ=="] := by decide
  rw [hv] at hkm
  simp only [List.mem_singleton] at hkm
  rw [h, h1, h2, hkm, responseHeaders, accept_example]

/-- A request for version 8 is refused. -/
example : serversideHandshake firstCore .little
    [(ascii "Upgrade", ascii "websocket"), (ascii "Connection", ascii "Upgrade"), (ascii "Sec-WebSocket-Version", ascii "8"),
     (ascii "Sec-WebSocket-Key", ascii "dGhlIHNhbXBsZSBub25jZQ==")] ()
    = .error 400 "Websocket upgrade unsupported protocol version. Supported websocket versions: [13]" := by rfl

/-- The client confirms the response of RFC 6455, 1.3, and refuses it with another accept value. -/
example : clientsideConfirmHandshake lastCore .little sampleRequest ⟨101, responseHeaders (ascii "dGhlIHNhbXBsZSBub25jZQ==")⟩ = .ok ∧
    clientsideConfirmHandshake lastCore .little sampleRequest ⟨101, [(ascii "Upgrade", ascii "websocket"), (ascii "Connection", ascii "Upgrade"),
      (ascii "Sec-WebSocket-Accept", ascii "s3pPLMBiTxaQ9kYGzzhZRbK+xOO=")]⟩ = .serverWrongKey := by
  constructor
  · rw [responseHeaders, accept_example]; decide +kernel
  · decide +kernel

/-- The hypotheses of `C38_agree` are met with a `Host` field of the application, and with a field added on the way. -/
example (random : List UInt8) : (∀ n ∈ requestNames, values [(ascii "Host", ascii "example.com")] n = []) ∧
    Carried requestNames (clientsideHandshake [(ascii "Host", ascii "example.com")] random)
      ([(ascii "User-Agent", ascii "x")] ++ clientsideHandshake [(ascii "Host", ascii "example.com")] random) := by
  have h : ∀ n ∈ requestNames, values [(ascii "User-Agent", ascii "x")] n = [] := by decide
  refine ⟨by decide, fun n hn => ?_⟩
  rw [values_append, h n hn]
  exact List.Perm.refl _

/-- **C38, the condition is needed.** If the application gives a handshake field itself, the field is sent twice, and it depends on the header
tables whether the handshake succeeds: with `Sec-WebSocket-Version: 8` given by the application, a server that finds the first of two fields refuses,
one that finds the last accepts. -/
theorem C38_conflict (random : List UInt8) (hr : random.length = 16) :
    (∃ m, serversideHandshake firstCore .little (clientsideHandshake [(ascii "Sec-WebSocket-Version", ascii "8")] random) () = .error 400 m) ∧
    (∃ hs, serversideHandshake lastCore .little (clientsideHandshake [(ascii "Sec-WebSocket-Version", ascii "8")] random) () = .response 101 hs ()) := by
  have hlen : (generateKey random).length = 24 := (C46_key random hr).1
  have hu : Same (ascii "websocket") (ascii "websocket") := rfl
  have ht : ∃ t ∈ runs [] (ascii "Upgrade"), Same t (ascii "Upgrade") := ⟨ascii "Upgrade", by decide, rfl⟩
  constructor
  · refine ⟨"Websocket upgrade unsupported protocol version. Supported websocket versions: [13]", ?_⟩
    show (if (generateKey random).length > 0 ∧ Same (ascii "websocket") (ascii "websocket") then _ else _) = _
    rw [if_pos ⟨by omega, hu⟩]
    show (if ∃ t ∈ runs [] (ascii "Upgrade"), Same t (ascii "Upgrade") then _ else _) = _
    rw [if_pos ht]
    rw [if_neg (by decide)]
  · refine ⟨[(ascii "Upgrade", ascii "websocket"), (ascii "Connection", ascii "Upgrade"),
      (ascii "Sec-WebSocket-Accept", acceptFor .little (generateKey random))], ?_⟩
    show (if (generateKey random).length > 0 ∧ Same (ascii "websocket") (ascii "websocket") then _ else _) = _
    rw [if_pos ⟨by omega, hu⟩]
    show (if ∃ t ∈ runs [] (ascii "Upgrade"), Same t (ascii "Upgrade") then _ else _) = _
    rw [if_pos ht]
    rw [if_pos (by rfl)]
    rfl

/-- **C37** (the numbers returned). `STATUS_OK` is 0, `STATUS_SERVER_ERROR` 1, `STATUS_SERVER_WRONG_KEY` 2, `STATUS_UNKNOWN_PROTOCOL_SUGGESTED` 3. -/
theorem C37_codes {core : Core} (hc : core.Sound) (host : Endian) (client : Headers) (r : Response)
    (once : ∀ n ∈ responseNames, Once r.headers n) (oncek : Once client "Sec-WebSocket-Key")
    (hk : ∀ k ∈ values client "Sec-WebSocket-Key", k.length < 2 ^ 60) :
    ((clientsideConfirmHandshake core host client r).code = 0 ↔ r.status = 101 ∧
      Fields client r.headers ∧ ∃ k ∈ values client "Sec-WebSocket-Key", acceptValue k ∈ values r.headers "Sec-WebSocket-Accept") ∧
    ((clientsideConfirmHandshake core host client r).code = 1 ↔ r.status ≠ 101) ∧
    ((clientsideConfirmHandshake core host client r).code = 2 ↔ r.status = 101 ∧
      Fields client r.headers ∧ ¬ ∃ k ∈ values client "Sec-WebSocket-Key", acceptValue k ∈ values r.headers "Sec-WebSocket-Accept") ∧
    ((clientsideConfirmHandshake core host client r).code = 3 ↔ r.status = 101 ∧ ¬ Fields client r.headers) := by
  have c0 : ∀ s : Status, s.code = 0 ↔ s = .ok := by intro s; cases s <;> decide
  have c1 : ∀ s : Status, s.code = 1 ↔ s = .serverError := by intro s; cases s <;> decide
  have c2 : ∀ s : Status, s.code = 2 ↔ s = .serverWrongKey := by intro s; cases s <;> decide
  have c3 : ∀ s : Status, s.code = 3 ↔ s = .unknownProtocolSuggested := by intro s; cases s <;> decide
  rw [c0, c1, c2, c3, C37_server_error]
  by_cases hs : r.status = 101
  · obtain ⟨h1, h2, h3⟩ := C37_exactly hc host client r hs once oncek hk
    rw [h1, h2, h3]
    simp [hs]
  · have := (C37_server_error core host client r).mpr hs
    rw [this]
    simp [hs]

/-- **C37, limit.** RFC 6455, 4.1 lets a server answer with a list in `Connection` that contains `Upgrade`; the client refuses every such response
unless the list is `upgrade` alone. -/
theorem C37_list_refused {core : Core} (hc : core.Sound) (host : Endian) (client : Headers) (key : Str) :
    clientsideConfirmHandshake core host client ⟨101, [(ascii "Upgrade", ascii "websocket"), (ascii "Connection", ascii "keep-alive, Upgrade"),
      (ascii "Sec-WebSocket-Accept", acceptValue key)]⟩ = .unknownProtocolSuggested := by
  unfold clientsideConfirmHandshake
  rw [if_pos rfl]
  have h3 := get_once hc (h := [(ascii "Upgrade", ascii "websocket"), (ascii "Connection", ascii "keep-alive, Upgrade"),
      (ascii "Sec-WebSocket-Accept", acceptValue key)]) (name := "Connection") (v := ascii "keep-alive, Upgrade") rfl
  simp only [h3]
  split
  · rename_i q1 q2 q3 q4 q5
    injection q3 with q3
    rw [if_neg]
    rintro ⟨-, h⟩
    rw [← q3] at h
    revert h
    decide
  · rfl

end OatWS.Handshake
