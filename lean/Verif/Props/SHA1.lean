import Verif.Proofs.SHA1
/-! # C34, C35: the SHA-1 object -/

namespace OatWS.SHA1
open FIPS180

/-! ## Blocks -/

theorem getD_range_map (g : Nat → UInt32) (j : Nat) : ((List.range 16).map g).getD j 0 = if j < 16 then g j else 0 := by
  rw [List.getD_eq_getElem?_getD, List.getElem?_map]
  by_cases h : j < 16
  · rw [List.getElem?_range h, if_pos h]; rfl
  · rw [List.getElem?_eq_none (by rw [List.length_range]; omega), if_neg h]; rfl

theorem block_word (host : Endian) (bytes : List UInt8) (hl : bytes.length = 64) : at_ (bufferToBlock host bytes) = word bytes := by
  funext j
  unfold at_ bufferToBlock
  rw [getD_range_map]
  unfold word
  split
  · apply UInt32.toNat_inj.mp
    rw [hton32_load32]
    have h := fun k => u8_lt (bytes.getD k 0)
    have h0 := h (4 * j); have h1 := h (4 * j + 1); have h2 := h (4 * j + 2); have h3 := h (4 * j + 3)
    rw [ofNat32 (by omega)]
  · have : ∀ k, 64 ≤ k → bytes.getD k 0 = 0 := by
      intro k hk
      rw [List.getD_eq_getElem?_getD, List.getElem?_eq_none (by omega)]; rfl
    rw [this _ (by omega), this _ (by omega), this _ (by omega), this _ (by omega)]
    rfl

theorem hash_short {H : Hash} {bytes : List UInt8} (h : bytes.length < 64) : hashBlocks H bytes = H := by
  rw [hashBlocks, if_neg (by omega)]

theorem hash_block {H : Hash} {b rest : List UInt8} (h : b.length = 64) : hashBlocks H (b ++ rest) = hashBlocks (compress H (word b)) rest := by
  rw [hashBlocks, if_pos (by rw [List.length_append]; omega)]
  rw [List.take_append_of_le_length (by omega), List.drop_append_of_le_length (by omega), List.take_of_length_le (by omega),
    List.drop_of_length_le (by omega), List.nil_append]

theorem hash_append {H : Hash} {full rest : List UInt8} (n : Nat) (h : full.length = 64 * n) : hashBlocks H (full ++ rest) = hashBlocks (hashBlocks H full) rest := by
  induction n generalizing H full with
  | zero =>
    have : full = [] := List.eq_nil_of_length_eq_zero (by omega)
    subst this
    rw [hash_short (H := H) (bytes := []) (by simp), List.nil_append]
  | succ n ih =>
    have hl : (full.take 64).length = 64 := by rw [List.length_take]; omega
    conv => lhs; rw [← List.take_append_drop 64 full, List.append_assoc, hash_block hl]
    conv => rhs; rw [← List.take_append_drop 64 full, hash_block hl]
    exact ih (by rw [List.length_drop]; omega)

/-! ## The object after some updates -/

/-- The object has been fed the message `m` since it was new. -/
structure Fed (st : State) (m : List UInt8) : Prop where
  parts : ∃ full n, m = full ++ st.buffer ∧ full.length = 64 * n ∧ st.digest.hash = hashBlocks H0 full ∧ st.transforms = UInt64.ofNat n
  short : st.buffer.length < 64

theorem fed_reset : Fed reset [] := ⟨⟨[], 0, rfl, rfl, (hash_short (by simp)).symm, rfl⟩, by simp [reset]⟩

theorem bufferToBlock_length (host bytes) : (bufferToBlock host bytes).length = 16 := by simp [bufferToBlock]

/-- A full buffer is processed. -/
theorem Fed.full {host : Endian} {st : State} {m s : List UInt8} (h : Fed st m) (hs : (st.buffer ++ s).length = 64) :
    Fed { (transform st (bufferToBlock host (st.buffer ++ s))).1 with buffer := [] } (m ++ s) := by
  obtain ⟨⟨full, n, h1, h2, h3, h4⟩, -⟩ := h
  refine ⟨⟨full ++ (st.buffer ++ s), n + 1, ?_, ?_, ?_, ?_⟩, by simp⟩
  · rw [h1]; simp
  · rw [List.length_append, hs]; omega
  · rw [hash_append n h2, ← h3]
    show (transformWords st.digest (bufferToBlock host (st.buffer ++ s))).1.hash = _
    rw [transform_eq _ _ (bufferToBlock_length _ _), block_word _ _ hs]
    have := hash_block (H := st.digest.hash) (rest := []) hs
    rw [List.append_nil] at this
    rw [this, hash_short (by simp)]
  · show st.transforms + 1 = _
    rw [h4, UInt64.ofNat_add]; rfl

theorem update_fed (host : Endian) (st : State) (m s : List UInt8) (h : Fed st m) : Fed (update host st s) (m ++ s) := by
  induction hk : s.length using Nat.strongRecOn generalizing st m s with
  | _ k ih =>
    unfold update
    simp only []
    split
    · rename_i hne
      have hall : s.length < 64 - st.buffer.length := by
        rw [List.length_append, List.length_take] at hne
        have := h.short
        omega
      have hmin : min (64 - st.buffer.length) s.length = s.length := by omega
      obtain ⟨⟨full, n, h1, h2, h3, h4⟩, hsh⟩ := h
      refine ⟨⟨full, n, ?_, h2, h3, h4⟩, ?_⟩
      · rw [h1, hmin, List.take_length]; simp
      · simp only []; rw [hmin, List.take_length, List.length_append]; omega
    · rename_i heq
      have heq : (st.buffer ++ s.take (min (64 - st.buffer.length) s.length)).length = 64 := by simpa using heq
      have hpos : 0 < min (64 - st.buffer.length) s.length := by
        rw [List.length_append, List.length_take] at heq
        have := h.short
        omega
      have := ih _ (by rw [List.length_drop]; omega) _ _ (s.drop (min (64 - st.buffer.length) s.length)) (h.full (host := host) heq) rfl
      rw [List.append_assoc, List.take_append_drop] at this
      exact this

theorem updateStream_eq (host : Endian) (st : State) (bytes : List UInt8) (hs : st.buffer.length < 64) :
    updateStream host st bytes = (update host st bytes, []) := by
  induction hk : bytes.length using Nat.strongRecOn generalizing st bytes with
  | _ k ih =>
    unfold updateStream update
    simp only []
    have htake : bytes.take (64 - st.buffer.length) = bytes.take (min (64 - st.buffer.length) bytes.length) := by
      by_cases h : 64 - st.buffer.length ≤ bytes.length
      · rw [Nat.min_eq_left h]
      · rw [Nat.min_eq_right (by omega), List.take_of_length_le (by omega), List.take_length]
    have hdrop : bytes.drop (64 - st.buffer.length) = bytes.drop (min (64 - st.buffer.length) bytes.length) := by
      by_cases h : 64 - st.buffer.length ≤ bytes.length
      · rw [Nat.min_eq_left h]
      · rw [Nat.min_eq_right (by omega), List.drop_of_length_le (by omega), List.drop_length]
    rw [htake, hdrop]
    split
    · rename_i hne
      rw [List.drop_of_length_le]
      rw [List.length_append, List.length_take] at hne
      omega
    · rename_i heq
      have heq : (st.buffer ++ bytes.take (min (64 - st.buffer.length) bytes.length)).length = 64 := by simpa using heq
      rw [List.length_append, List.length_take] at heq
      rw [ih _ (by rw [List.length_drop]; omega) _ _ (by simp) rfl]

/-! ## The end -/

theorem bigEndian_length (n x : Nat) : (bigEndian n x).length = n := by
  induction n generalizing x with
  | zero => rfl
  | succ n ih => rw [bigEndian, List.length_append, ih]; rfl

theorem store_bytes (host : Endian) (x : UInt32) : store32 host (hton32 host x) = bigEndian 4 x.toNat := by
  rw [store32_hton32]
  simp only [bigEndian, List.nil_append, List.cons_append]
  have h := u32_lt x
  have e1 : x.toNat / 256 / 256 / 256 % 256 = x.toNat / 16777216 := by omega
  have e2 : x.toNat / 256 / 256 % 256 = x.toNat / 65536 % 256 := by omega
  rw [e1, e2]

theorem word_append_left {x y : List UInt8} {j : Nat} (h : 4 * j + 4 ≤ x.length) : word (x ++ y) j = word x j := by
  have hg : ∀ k, k < x.length → (x ++ y).getD k 0 = x.getD k 0 := by
    intro k hk
    rw [List.getD_eq_getElem?_getD, List.getD_eq_getElem?_getD, List.getElem?_append_left hk]
  unfold word
  rw [hg _ (by omega), hg _ (by omega), hg _ (by omega), hg _ (by omega)]

theorem word_append_right {x y : List UInt8} {j k : Nat} (h : x.length = 4 * k) (hj : k ≤ j) : word (x ++ y) j = word y (j - k) := by
  have hg : ∀ i, x.length ≤ i → (x ++ y).getD i 0 = y.getD (i - x.length) 0 := by
    intro i hi
    rw [List.getD_eq_getElem?_getD, List.getD_eq_getElem?_getD, List.getElem?_append_right hi]
  unfold word
  rw [hg _ (by omega), hg _ (by omega), hg _ (by omega), hg _ (by omega)]
  have e : ∀ i, 4 * j + i - x.length = 4 * (j - k) + i := fun i => by omega
  have e0 : 4 * j - x.length = 4 * (j - k) := by omega
  rw [e, e, e, e0]

theorem be8_words (n : Nat) (hn : n < 2 ^ 64) : word (bigEndian 8 n) 0 = UInt32.ofNat (n / 4294967296) ∧
    word (bigEndian 8 n) 1 = UInt32.ofNat (n % 4294967296) := by
  have hb : ∀ x : Nat, (UInt8.ofNat (x % 256)).toNat = x % 256 := fun x => ofNat8 (by omega)
  unfold word
  simp only [bigEndian, List.nil_append, List.cons_append, List.append_assoc, List.getD_cons_zero, List.getD_cons_succ, Nat.mul_zero,
    Nat.zero_add, Nat.mul_one]
  simp only [hb]
  constructor
  · congr 1; omega
  · congr 1; omega

/-- The last block, with the length in its last two words. -/
theorem last_block (block : Block) (x : List UInt8) (n : Nat) (hl : block.length = 16) (hx : x.length = 56) (hn : n < 2 ^ 64)
    (hw : ∀ j < 14, at_ block j = word x j) :
    at_ ((block.set 15 (UInt32.ofNat (n % 4294967296))).set 14 (UInt32.ofNat (n / 4294967296))) = word (x ++ bigEndian 8 n) := by
  obtain ⟨e0, e1⟩ := be8_words n hn
  funext j
  rw [at_set (by rw [List.length_set]; omega), at_set (by omega)]
  by_cases h14 : j < 14
  · rw [if_neg (by omega), if_neg (by omega), word_append_left (by omega), hw j h14]
  · rw [word_append_right (k := 14) (by omega) (by omega)]
    by_cases h : j = 14
    · subst h; rw [if_pos rfl]; exact e0.symm
    · rw [if_neg (by omega)]
      by_cases h' : j = 15
      · subst h'; rw [if_pos rfl]; exact e1.symm
      · rw [if_neg (by omega)]
        have hz : ∀ k, 8 ≤ k → (bigEndian 8 n).getD k 0 = 0 := by
          intro k hk
          rw [List.getD_eq_getElem?_getD, List.getElem?_eq_none (by rw [bigEndian_length]; omega)]; rfl
        unfold word
        rw [hz _ (by omega), hz _ (by omega), hz _ (by omega), hz _ (by omega)]
        unfold at_
        rw [List.getD_eq_getElem?_getD, List.getElem?_eq_none (by omega)]
        rfl

theorem word_replicate (k j : Nat) : word (List.replicate k 0) j = 0 := by
  have hz : ∀ i, (List.replicate k (0 : UInt8)).getD i 0 = 0 := by
    intro i
    rw [List.getD_eq_getElem?_getD, List.getElem?_replicate]
    split <;> rfl
  unfold word
  rw [hz, hz, hz, hz]
  rfl

theorem totalBits {st : State} {m : List UInt8} (h : Fed st m) (hm : m.length < 2 ^ 61) :
    ((st.transforms * 64 + UInt64.ofNat st.buffer.length) * 8).toNat = 8 * m.length := by
  obtain ⟨⟨full, n, h1, h2, h3, h4⟩, hsh⟩ := h
  have hlen : m.length = 64 * n + st.buffer.length := by rw [h1, List.length_append, h2]
  rw [h4, UInt64.toNat_mul, UInt64.toNat_add, UInt64.toNat_mul, UInt64.toNat_ofNat', UInt64.toNat_ofNat']
  have e1 : (64 : UInt64).toNat = 64 := rfl
  have e2 : (8 : UInt64).toNat = 8 := rfl
  rw [e1, e2]
  omega

theorem transform_hash (st : State) (block : Block) (hl : block.length = 16) :
    (transform st block).1.digest.hash = compress st.digest.hash (at_ block) := transform_eq _ _ hl

theorem foldl_exec_length (cs : List Call) (s : Block × Words) : (cs.foldl Call.exec s).1.length = s.1.length := by
  induction cs generalizing s with
  | nil => rfl
  | cons c cs ih =>
    rw [List.foldl_cons, ih]
    rcases c with ⟨f, _⟩
    cases f <;> simp [Call.exec, Fn.run, R0, R1, R2, R3, R4]

theorem transform_length (st : State) (block : Block) : (transform st block).2.length = block.length := by
  unfold transform transformWords
  generalize calls = cs
  exact foldl_exec_length cs (block, st.digest)

/-- `finalBinary` after the message `m`. -/
theorem finalBinary_fed (host : Endian) (st : State) (m : List UInt8) (h : Fed st m) (hm : m.length < 2 ^ 61) :
    finalBinary host st = (sha1 m, reset) := by
  have htb := totalBits h hm
  have hb := h.short
  obtain ⟨⟨full, n, h1, h2, h3, h4⟩, -⟩ := h
  have hlen : m.length = 64 * n + st.buffer.length := by rw [h1, List.length_append, h2]
  have hmod : m.length % 64 = st.buffer.length := by omega
  have h64 : 8 * m.length < 2 ^ 64 := by omega
  -- the digest, whatever the last states are
  have hout : ∀ s : Words, (fun x => store32 host (hton32 host x)) s.a ++ (fun x => store32 host (hton32 host x)) s.b ++
      (fun x => store32 host (hton32 host x)) s.c ++ (fun x => store32 host (hton32 host x)) s.d ++
      (fun x => store32 host (hton32 host x)) s.e = s.hash.bytes := by
    intro s
    simp only [store_bytes]
    rfl
  have hsha : sha1 m = (hashBlocks st.digest.hash (st.buffer ++ [0x80] ++ List.replicate ((119 - st.buffer.length) % 64) 0 ++ bigEndian 8 (8 * m.length))).bytes := by
    unfold sha1 pad
    rw [hmod]
    conv => lhs; rw [h1]
    simp only [List.append_assoc]
    rw [hash_append n h2, ← h3]
    congr 6
    rw [h1]
  unfold finalBinary
  rw [hsha]
  simp only [htb]
  have hlp : (st.buffer ++ [0x80]).length = st.buffer.length + 1 := by simp
  rw [hlp]
  have hfull : (st.buffer ++ [0x80] ++ List.replicate (64 - (st.buffer.length + 1)) 0).length = 64 := by
    rw [List.length_append, hlp, List.length_replicate]; omega
  by_cases hbig : st.buffer.length + 1 > 56
  · rw [if_pos (by omega)]
    simp only []
    rw [hout]
    congr 2
    -- two blocks
    have hz : List.replicate ((119 - st.buffer.length) % 64) (0 : UInt8)
        = List.replicate (64 - (st.buffer.length + 1)) 0 ++ List.replicate 56 0 := by
      rw [List.replicate_append_replicate]; congr 1; omega
    have e1 : st.buffer ++ [0x80] ++ List.replicate ((119 - st.buffer.length) % 64) 0 ++ bigEndian 8 (8 * m.length)
        = (st.buffer ++ [0x80] ++ List.replicate (64 - (st.buffer.length + 1)) 0) ++ (List.replicate 56 0 ++ bigEndian 8 (8 * m.length)) := by
      rw [hz]; simp only [List.append_assoc]
    have e2 : (List.replicate 56 (0 : UInt8) ++ bigEndian 8 (8 * m.length)).length = 64 := by
      rw [List.length_append, bigEndian_length, List.length_replicate]
    rw [e1, hash_block hfull]
    have e3 := hash_block (H := compress st.digest.hash (word (st.buffer ++ [0x80] ++ List.replicate (64 - (st.buffer.length + 1)) 0))) (rest := []) e2
    rw [List.append_nil] at e3
    rw [e3, hash_short (by simp)]
    have hl2 : ∀ b : Block, b.length = 16 → (List.replicate 14 (0 : UInt32) ++ b.drop 14).length = 16 := by
      intro b hb; rw [List.length_append, List.length_replicate, List.length_drop, hb]
    rw [transform_hash _ _ (by rw [List.length_set, List.length_set]; exact hl2 _ (by rw [transform_length]; exact bufferToBlock_length _ _))]
    rw [transform_hash _ _ (bufferToBlock_length _ _), block_word _ _ hfull]
    rw [last_block _ (List.replicate 56 0) _ (hl2 _ (by rw [transform_length]; exact bufferToBlock_length _ _)) (by simp) h64]
    intro j hj
    rw [word_replicate]
    unfold at_
    rw [List.getD_eq_getElem?_getD, List.getElem?_append_left (by rw [List.length_replicate]; omega), List.getElem?_replicate, if_pos hj]
    rfl
  · rw [if_neg (by omega)]
    simp only []
    rw [hout]
    congr 2
    have hz : List.replicate (64 - (st.buffer.length + 1)) (0 : UInt8)
        = List.replicate ((119 - st.buffer.length) % 64) 0 ++ List.replicate 8 0 := by
      rw [List.replicate_append_replicate]; congr 1; omega
    have hx : (st.buffer ++ [0x80] ++ List.replicate ((119 - st.buffer.length) % 64) 0).length = 56 := by
      rw [List.length_append, hlp, List.length_replicate]; omega
    have e2 : (st.buffer ++ [0x80] ++ List.replicate ((119 - st.buffer.length) % 64) 0 ++ bigEndian 8 (8 * m.length)).length = 64 := by
      rw [List.length_append, bigEndian_length, hx]
    have e3 := hash_block (H := st.digest.hash) (rest := []) e2
    rw [List.append_nil] at e3
    rw [e3, hash_short (by simp)]
    rw [transform_hash _ _ (by rw [List.length_set, List.length_set]; exact bufferToBlock_length _ _)]
    rw [last_block _ _ _ (bufferToBlock_length _ _) hx h64]
    intro j hj
    rw [block_word _ _ hfull, hz, ← List.append_assoc, word_append_left (by omega)]

/-! ## C34, C35 -/

/-- **C34.** `update` with a message below 2^61 bytes and `finalBinary`, on a new object: the SHA-1 digest. -/
theorem C34_sha1 (host : Endian) (m : List UInt8) (hm : m.length < 2 ^ 61) : (finalBinary host (update host reset m)).1 = sha1 m := by
  rw [finalBinary_fed host _ m (update_fed host reset [] m fed_reset) hm]

/-- **C34.** The digest has 20 bytes. -/
theorem C34_length (host : Endian) (st : State) : (finalBinary host st).1.length = 20 := by
  have h : ∀ x, (store32 host x).length = 4 := by intro x; cases host <;> rfl
  unfold finalBinary
  simp only [List.length_append, h]

/-- One `update` call: with a string, or with a stream that has these bytes left. -/
inductive Feed where
  | string (s : List UInt8)
  | stream (bytes : List UInt8)

def Feed.bytes : Feed → List UInt8
  | .string s => s
  | .stream b => b

def Feed.run (host : Endian) (st : State) : Feed → State
  | .string s => update host st s
  | .stream b => (updateStream host st b).1

theorem feeds_fed (host : Endian) (st : State) (m : List UInt8) (h : Fed st m) (fs : List Feed) :
    Fed (fs.foldl (Feed.run host) st) (m ++ fs.flatMap Feed.bytes) := by
  induction fs generalizing st m with
  | nil => simpa using h
  | cons f fs ih =>
    rw [List.foldl_cons, List.flatMap_cons, ← List.append_assoc]
    refine ih _ _ ?_
    cases f with
    | string s => exact update_fed host st m s h
    | stream b =>
      show Fed (updateStream host st b).1 _
      rw [updateStream_eq host st b h.short]
      exact update_fed host st m b h

/-- One use of the object: some `update` calls and `finalBinary`. -/
def use (host : Endian) (st : State) (fs : List Feed) : List UInt8 × State := finalBinary host (fs.foldl (Feed.run host) st)

/-- Several uses, one after the other, of one object: the digests returned. -/
def uses (host : Endian) : State → List (List Feed) → List (List UInt8)
  | _, [] => []
  | st, fs :: rest => (use host st fs).1 :: uses host (use host st fs).2 rest

/-- **C35.** Any number of uses of one object, each feeding a message (below 2^61 bytes) in any number of pieces from strings and
streams: each returns the SHA-1 digest of its own message. -/
theorem C35_incremental_reusable (host : Endian) (us : List (List Feed)) (h : ∀ fs ∈ us, (fs.flatMap Feed.bytes).length < 2 ^ 61) :
    uses host reset us = us.map fun fs => sha1 (fs.flatMap Feed.bytes) := by
  induction us with
  | nil => rfl
  | cons fs us ih =>
    have hf := feeds_fed host reset [] fed_reset fs
    rw [List.nil_append] at hf
    have hu : use host reset fs = (sha1 (fs.flatMap Feed.bytes), reset) := finalBinary_fed host _ _ hf (h fs (by simp))
    rw [uses, hu, List.map_cons]
    simp only []
    rw [ih (fun g hg => h g (by simp [hg]))]

/-- **C35.** After `finalBinary` the object is as new, whatever happened before (also for longer messages). -/
theorem C35_reset (host : Endian) (st : State) : (finalBinary host st).2 = reset := rfl

/-- **C35.** A stream is read to its end. -/
theorem C35_stream_consumed (host : Endian) (fs : List Feed) (bytes : List UInt8) :
    (updateStream host (fs.foldl (Feed.run host) reset) bytes).2 = [] := by
  rw [updateStream_eq _ _ _ (feeds_fed host reset [] fed_reset fs).short]

/-- **C35** (`fromFile`). The digest of the content; for a file that cannot be opened, that of the empty message. -/
theorem C35_fromFile (host : Endian) (file : Option (List UInt8)) (h : (file.getD []).length < 2 ^ 61) :
    fromFile host file = sha1 (file.getD []) := by
  unfold fromFile
  rw [updateStream_eq _ _ _ fed_reset.short, C34_sha1 host _ h]

/-! ## Concrete cases (the test vectors of FIPS 180) -/

/-- "abc" -/
example : sha1 [0x61, 0x62, 0x63] = [0xa9, 0x99, 0x3e, 0x36, 0x47, 0x06, 0x81, 0x6a, 0xba, 0x3e, 0x25, 0x71, 0x78, 0x50, 0xc2, 0x6c,
    0x9c, 0xd0, 0xd8, 0x9d] := by
  rw [← C34_sha1 .little _ (by decide)]
  decide +kernel

/-- The empty message, on a big-endian host. -/
example : sha1 [] = [0xda, 0x39, 0xa3, 0xee, 0x5e, 0x6b, 0x4b, 0x0d, 0x32, 0x55, 0xbf, 0xef, 0x95, 0x60, 0x18, 0x90, 0xaf, 0xd8, 0x07, 0x09] := by
  rw [← C34_sha1 .big _ (by decide)]
  decide +kernel

/-- 448 bits (two padding blocks), in three pieces, one of them from a stream. -/
example : (use .little reset [.string ((List.range 30).map fun i => UInt8.ofNat (i + 48)), .stream [], .stream ((List.range 26).map fun i => UInt8.ofNat (i + 65))]).1
    = sha1 ((List.range 30).map (fun i => UInt8.ofNat (i + 48)) ++ (List.range 26).map (fun i => UInt8.ofNat (i + 65))) := by
  rw [← C34_sha1 .little _ (by decide)]
  decide +kernel

end OatWS.SHA1
