import Verif.Model.WebSocket
import Verif.Spec.RFC6455
/-! The xor loops of the code are the masking of RFC 6455 5.3. -/

namespace OatWS
open RFC6455

theorem Mask.at_eq (m : Mask) (i : Nat) : m.at i = m.bytes.getD (i % 4) 0 := by
  have h : i % 4 < 4 := Nat.mod_lt _ (by decide)
  unfold Mask.at Mask.bytes
  generalize i % 4 = j at h ⊢
  match j, h with
  | 0, _ => rfl
  | 1, _ => rfl
  | 2, _ => rfl
  | 3, _ => rfl

theorem Mask.at_mod (m : Mask) (i : Nat) : m.at (i % 4) = m.at i := by
  unfold Mask.at; rw [Nat.mod_mod]

theorem xorMask_eq (m : Mask) (off : Nat) (data : List UInt8) :
    xorMask m off data = applyKeyFrom off m.bytes data := by
  induction data generalizing off with
  | nil => simp [xorMask, applyKeyFrom]
  | cons b bs ih =>
    rw [xorMask, ih, applyKeyFrom, applyKeyFrom, List.mapIdx_cons]
    simp only [Nat.add_zero, Mask.at_eq, List.cons.injEq, true_and]
    congr 1
    funext i b
    have : off + 1 + i = off + (i + 1) := by omega
    rw [this]

theorem xorMask_length (m : Mask) (off : Nat) (data : List UInt8) : (xorMask m off data).length = data.length := by
  induction data generalizing off with
  | nil => rfl
  | cons b bs ih => simp [xorMask, ih]

theorem xorMask_append (m : Mask) (off : Nat) (a b : List UInt8) :
    xorMask m off (a ++ b) = xorMask m off a ++ xorMask m (off + a.length) b := by
  induction a generalizing off with
  | nil => simp [xorMask]
  | cons x xs ih =>
    simp only [List.cons_append, xorMask, ih, List.length_cons, List.cons.injEq, true_and]
    congr 2
    omega

theorem xorMask_xorMask (m : Mask) (off : Nat) (a : List UInt8) : xorMask m off (xorMask m off a) = a := by
  induction a generalizing off with
  | nil => rfl
  | cons x xs ih => simp [xorMask, ih, UInt8.xor_assoc]

theorem applyKeyFrom_length (off : Nat) (k a : List UInt8) : (applyKeyFrom off k a).length = a.length := by
  simp [applyKeyFrom]

theorem applyKey?_length (k : Option (List UInt8)) (a : List UInt8) : (applyKey? k a).length = a.length := by
  cases k <;> simp [applyKey?, applyKey, applyKeyFrom]

theorem applyKeyFrom_append (off : Nat) (k a b : List UInt8) :
    applyKeyFrom off k (a ++ b) = applyKeyFrom off k a ++ applyKeyFrom (off + a.length) k b := by
  simp only [applyKeyFrom, List.mapIdx_append]
  congr 2
  funext i x
  congr 3
  omega

theorem applyKeyFrom_involutive (off : Nat) (k a : List UInt8) : applyKeyFrom off k (applyKeyFrom off k a) = a := by
  simp only [applyKeyFrom, List.mapIdx_mapIdx]
  apply List.ext_getElem <;> simp [UInt8.xor_assoc]

theorem applyKey?_involutive (k : Option (List UInt8)) (a : List UInt8) : applyKey? k (applyKey? k a) = a := by
  cases k <;> simp [applyKey?, applyKey, applyKeyFrom_involutive]

theorem applyKey?_nil (k : Option (List UInt8)) : applyKey? k [] = [] := by
  cases k <;> simp [applyKey?, applyKey, applyKeyFrom]

end OatWS
