import Verif.Model.SHA1
import Verif.Spec.FIPS180
import Verif.Proofs.Bits
/-! `SHA1.cpp` computes SHA-1. -/

namespace OatWS.SHA1
open FIPS180

/-! ## The logical functions -/

theorem ch_eq (w x y : UInt32) : (w &&& (x ^^^ y)) ^^^ y = Ch w x y := by
  unfold Ch
  apply UInt32.toBitVec_inj.mp
  ext i hi
  simp only [UInt32.toBitVec_xor, UInt32.toBitVec_and, UInt32.toBitVec_not, BitVec.getElem_xor, BitVec.getElem_and, BitVec.getElem_not]
  cases w.toBitVec[i] <;> cases x.toBitVec[i] <;> cases y.toBitVec[i] <;> rfl

theorem maj_eq (w x y : UInt32) : ((w ||| x) &&& y) ||| (w &&& x) = Maj w x y := by
  unfold Maj
  apply UInt32.toBitVec_inj.mp
  ext i hi
  simp only [UInt32.toBitVec_xor, UInt32.toBitVec_and, UInt32.toBitVec_or, BitVec.getElem_xor, BitVec.getElem_and, BitVec.getElem_or]
  cases w.toBitVec[i] <;> cases x.toBitVec[i] <;> cases y.toBitVec[i] <;> rfl

/-! ## The calls -/

/-- The function of round `t`. -/
def fnAt (t : Nat) : Fn := if t < 16 then .R0 else if t < 20 then .R1 else if t < 40 then .R2 else if t < 60 then .R3 else .R4

/-- The variables that play the roles of FIPS' a, b, c, d, e in round `t`. -/
def roles (t : Nat) : Reg × Reg × Reg × Reg × Reg :=
  match t % 5 with
  | 0 => (.a, .b, .c, .d, .e)
  | 1 => (.e, .a, .b, .c, .d)
  | 2 => (.d, .e, .a, .b, .c)
  | 3 => (.c, .d, .e, .a, .b)
  | _ => (.b, .c, .d, .e, .a)

def callAt (t : Nat) : Call :=
  match roles t with
  | (v, w, x, y, z) => ⟨fnAt t, v, w, x, y, z, t % 16⟩

theorem calls_eq : calls = (List.range 80).map callAt := by decide +kernel

/-- The variables hold the FIPS working variables. -/
def Holds (t : Nat) (r : Words) (s : Hash) : Prop :=
  match roles t with
  | (v, w, x, y, z) => r.get v = s.a ∧ r.get w = s.b ∧ r.get x = s.c ∧ r.get y = s.d ∧ r.get z = s.e

/-- The block holds the last 16 words of the schedule. -/
def HoldsW (M : Nat → UInt32) (t : Nat) (block : Block) : Prop :=
  block.length = 16 ∧ ∀ s, max t 16 - 16 ≤ s → s < max t 16 → at_ block (s % 16) = W M s

theorem W_small (M : Nat → UInt32) {t : Nat} (h : t < 16) : W M t = M t := by rw [W, if_pos h]
theorem W_big (M : Nat → UInt32) {t : Nat} (h : ¬ t < 16) :
    W M t = rotl 1 (W M (t - 3) ^^^ W M (t - 8) ^^^ W M (t - 14) ^^^ W M (t - 16)) := by
  conv => lhs; rw [W, if_neg h]

theorem at_set {block : Block} {i j : Nat} {x : UInt32} (hi : i < block.length) : at_ (block.set i x) j = if i = j then x else at_ block j := by
  unfold at_
  rw [List.getD_eq_getElem?_getD, List.getD_eq_getElem?_getD, List.getElem?_set]
  split
  · rename_i h; subst h; simp [hi]
  · rfl

/-- What a call does, in FIPS' terms. -/
theorem run_eq (M : Nat → UInt32) (t : Nat) (ht : t < 80) (block : Block) (hb : HoldsW M t block) (v w x y z : UInt32) :
    ∃ block', (fnAt t).run block v w x y z (t % 16) = (block', rotl 30 w, rotl 5 v + f t w x y + z + K t + W M t) ∧ HoldsW M (t + 1) block' := by
  obtain ⟨hlen, hw⟩ := hb
  have hadd : ∀ g k u : UInt32, z + (g + u + k + rol v 5) = rotl 5 v + g + z + k + u := by
    intro g k u
    show z + (g + u + k + rotl 5 v) = _
    ac_rfl
  by_cases h16 : t < 16
  · have hval : at_ block (t % 16) = W M t := hw t (by omega) (by omega)
    refine ⟨block, ?_, hlen, fun s h1 h2 => hw s (by omega) (by omega)⟩
    unfold fnAt f K
    rw [if_pos h16, if_pos (by omega), if_pos (by omega)]
    simp only [Fn.run, R0]
    rw [hadd, hval, ch_eq]
    rfl
  · have hval : blk block (t % 16) = W M t := by
      unfold blk
      rw [W_big M h16]
      have e1 : (t % 16 + 13) % 16 = (t - 3) % 16 := by omega
      have e2 : (t % 16 + 8) % 16 = (t - 8) % 16 := by omega
      have e3 : (t % 16 + 2) % 16 = (t - 14) % 16 := by omega
      have e4 : t % 16 = (t - 16) % 16 := by omega
      rw [e1, e2, e3]
      conv => lhs; rw [e4]
      rw [hw (t - 3) (by omega) (by omega), hw (t - 8) (by omega) (by omega), hw (t - 14) (by omega) (by omega), hw (t - 16) (by omega) (by omega)]
      rfl
    have hset := fun j => at_set (block := block) (i := t % 16) (j := j) (x := blk block (t % 16)) (by omega)
    refine ⟨block.set (t % 16) (blk block (t % 16)), ?_, by rw [List.length_set]; exact hlen, fun s h1 h2 => ?_⟩
    · have hat : at_ (block.set (t % 16) (blk block (t % 16))) (t % 16) = W M t := by rw [hset, if_pos rfl, hval]
      unfold fnAt f K
      rw [if_neg h16]
      by_cases h20 : t < 20
      · rw [if_pos h20, if_pos h20, if_pos h20]
        simp only [Fn.run, R1]
        rw [hadd, hat, ch_eq]; rfl
      · rw [if_neg h20, if_neg h20, if_neg h20]
        by_cases h40 : t < 40
        · rw [if_pos h40, if_pos h40, if_pos h40]
          simp only [Fn.run, R2]
          rw [hadd, hat]; rfl
        · rw [if_neg h40, if_neg h40, if_neg h40]
          by_cases h60 : t < 60
          · rw [if_pos h60, if_pos h60, if_pos h60]
            simp only [Fn.run, R3]
            rw [hadd, hat, maj_eq]; rfl
          · rw [if_neg h60, if_neg h60, if_neg h60]
            simp only [Fn.run, R4]
            rw [hadd, hat]; rfl
    · rw [hset]
      split
      · rename_i he
        have : s = t := by omega
        rw [this, hval]
      · rename_i he
        have : s ≠ t := by rintro rfl; exact he rfl
        exact hw s (by omega) (by omega)

theorem exec_holds (M : Nat → UInt32) (t : Nat) (ht : t < 80) (block : Block) (r : Words) (s : Hash) (hb : HoldsW M t block) (hr : Holds t r s) :
    HoldsW M (t + 1) (Call.exec (block, r) (callAt t)).1 ∧ Holds (t + 1) (Call.exec (block, r) (callAt t)).2 (round M t s) := by
  have key := run_eq M t ht block hb s.a s.b s.c s.d s.e
  obtain ⟨block', e, hb'⟩ := key
  have h5 : t % 5 = 0 ∨ t % 5 = 1 ∨ t % 5 = 2 ∨ t % 5 = 3 ∨ t % 5 = 4 := by omega
  rcases h5 with h | h | h | h | h
  all_goals
    have h' : (t + 1) % 5 = (t % 5 + 1) % 5 := by omega
    rw [h] at h'
    unfold Holds roles at hr ⊢
    rw [h] at hr
    rw [h']
    obtain ⟨q1, q2, q3, q4, q5⟩ := hr
    unfold Call.exec callAt roles
    rw [h]
    simp only [q1, q2, q3, q4, q5, e]
    refine ⟨hb', ?_⟩
    simp only [Words.get] at q1 q2 q3 q4 q5
    simp [Words.get, Words.set, round, q1, q2, q3, q4, q5]

theorem fold_holds (M : Nat → UInt32) (block : Block) (digest : Words) (hb : HoldsW M 0 block) (n : Nat) (hn : n ≤ 80) :
    HoldsW M n (((List.range n).map callAt).foldl Call.exec (block, digest)).1 ∧
    Holds n (((List.range n).map callAt).foldl Call.exec (block, digest)).2 (rounds M n ⟨digest.a, digest.b, digest.c, digest.d, digest.e⟩) := by
  induction n with
  | zero => exact ⟨hb, rfl, rfl, rfl, rfl, rfl⟩
  | succ n ih =>
    obtain ⟨h1, h2⟩ := ih (by omega)
    rw [List.range_succ, List.map_append, List.foldl_append]
    simp only [List.map_cons, List.map_nil, List.foldl_cons, List.foldl_nil]
    exact exec_holds M n (by omega) _ _ _ h1 h2

/-- The hash value of five words. -/
def Words.hash (s : Words) : Hash := ⟨s.a, s.b, s.c, s.d, s.e⟩

theorem transform_eq (digest : Words) (block : Block) (hl : block.length = 16) :
    (transformWords digest block).1.hash = compress digest.hash (at_ block) := by
  have hb : HoldsW (at_ block) 0 block := ⟨hl, fun s _ h2 => by rw [Nat.mod_eq_of_lt (by omega), W_small _ (by omega)]⟩
  obtain ⟨-, h⟩ := fold_holds (at_ block) block digest hb 80 (by omega)
  rw [← calls_eq] at h
  have h' : _ ∧ _ ∧ _ ∧ _ ∧ _ := h
  obtain ⟨q1, q2, q3, q4, q5⟩ := h'
  simp only [Words.get] at q1 q2 q3 q4 q5
  unfold transformWords compress Words.hash
  simp only [q1, q2, q3, q4, q5, UInt32.add_comm]

end OatWS.SHA1
