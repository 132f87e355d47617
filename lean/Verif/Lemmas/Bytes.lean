import Verif.Model.Basic
import Verif.Spec.Bytes

namespace NT

open Spec

@[simp] theorem leBytes_length (k n : Nat) : (leBytes k n).length = k := by
  induction k generalizing n with
  | zero => rfl
  | succ k ih => simp [leBytes, ih]

theorem leNat_lt (b : Bytes) : leNat b < 256 ^ b.length := by
  induction b with
  | nil => simp [leNat]
  | cons x xs ih =>
    have := x.toNat_lt
    simp only [leNat, List.length_cons, Nat.pow_succ]
    omega

theorem leNat_lt_of_length {b : Bytes} {k : Nat} (h : b.length = k) : leNat b < 256 ^ k := by
  rw [← h]; exact leNat_lt b

theorem leNat_leBytes (k n : Nat) : leNat (leBytes k n) = n % 256 ^ k := by
  induction k generalizing n with
  | zero => simp [leBytes, leNat, Nat.mod_one]
  | succ k ih =>
    simp only [leBytes, leNat, ih]
    rw [Nat.pow_succ, Nat.mul_comm (256 ^ k) 256, Nat.mod_mul]
    simp

theorem leNat_leBytes_of_lt {k n : Nat} (h : n < 256 ^ k) : leNat (leBytes k n) = n := by
  rw [leNat_leBytes, Nat.mod_eq_of_lt h]

theorem leBytes_leNat (b : Bytes) : leBytes b.length (leNat b) = b := by
  induction b with
  | nil => rfl
  | cons x xs ih =>
    have hx := x.toNat_lt
    simp only [leNat, List.length_cons, leBytes]
    have h1 : (x.toNat + 256 * leNat xs) % 256 = x.toNat := by omega
    have h2 : (x.toNat + 256 * leNat xs) / 256 = leNat xs := by omega
    rw [h1, h2, ih]
    simp

theorem leNat_inj {a b : Bytes} (hl : a.length = b.length) (h : leNat a = leNat b) : a = b := by
  rw [← leBytes_leNat a, ← leBytes_leNat b, hl, h]

theorem leNat_append (a b : Bytes) : leNat (a ++ b) = leNat a + 256 ^ a.length * leNat b := by
  induction a with
  | nil => simp [leNat]
  | cons x xs ih =>
    simp only [List.cons_append, leNat, ih, List.length_cons, Nat.pow_succ]
    rw [Nat.mul_add, ← Nat.mul_assoc, Nat.mul_comm 256 (256 ^ xs.length)]
    omega

@[simp] theorem overwrite_length {buf : Bytes} {i : Nat} {b : Bytes} (h : i + b.length ≤ buf.length) :
    (overwrite buf i b).length = buf.length := by
  simp [overwrite]; omega

theorem overwrite_getElem? {d b : Bytes} {i : Nat} (h : i ≤ d.length) (j : Nat) :
    (overwrite d i b)[j]? =
      if j < i then d[j]? else if j < i + b.length then b[j - i]? else d[j]? := by
  unfold overwrite
  have hl : (d.take i).length = i := by simp; omega
  by_cases h1 : j < i
  · rw [if_pos h1, List.append_assoc, List.getElem?_append_left (by omega)]
    simp [h1]
  · rw [if_neg h1, List.append_assoc, List.getElem?_append_right (by omega), hl]
    by_cases h2 : j < i + b.length
    · rw [if_pos h2, List.getElem?_append_left (by omega)]
    · rw [if_neg h2, List.getElem?_append_right (by omega), List.getElem?_drop]
      congr 1; omega

theorem overwrite_nil (buf : Bytes) (i : Nat) : overwrite buf i [] = buf := by
  simp [overwrite]

theorem getRange_eq_some {d : Bytes} {a b : Nat} (h1 : a ≤ b) (h2 : b ≤ d.length) :
    getRange d a b = some ((d.drop a).take (b - a)) := by
  simp [getRange, h1, h2]

theorem getRange_isSome_iff {d : Bytes} {a b : Nat} {x : Bytes} :
    getRange d a b = some x ↔ a ≤ b ∧ b ≤ d.length ∧ x = (d.drop a).take (b - a) := by
  unfold getRange
  split
  · rename_i h; simp [h.1, h.2, eq_comm]
  · rename_i h; simp; intro h1 h2; exact absurd ⟨h1, h2⟩ h

theorem getRange_length {d : Bytes} {a b : Nat} {x : Bytes} (h : getRange d a b = some x) :
    x.length = b - a := by
  obtain ⟨h1, h2, rfl⟩ := getRange_isSome_iff.mp h
  simp; omega

theorem idxRange_ok {d : Bytes} {a b : Nat} (h1 : a ≤ b) (h2 : b ≤ d.length) :
    idxRange d a b = .ok ((d.drop a).take (b - a)) := by
  simp [idxRange, getRange_eq_some h1 h2]

theorem readLE_ok {n : Nat} {d : Bytes} {a : Nat} (h : a + n ≤ d.length) :
    readLE n d a = .ok (field d a n) := by
  simp [readLE, h, field]

theorem field_lt {d : Bytes} {a n : Nat} (h : a + n ≤ d.length) : field d a n < 256 ^ n := by
  apply leNat_lt_of_length
  simp; omega

theorem readLE_lt {n : Nat} {d : Bytes} {a x : Nat} (h : readLE n d a = .ok x) : x < 256 ^ n := by
  unfold readLE at h
  split at h
  · injection h with h; subst h
    apply leNat_lt_of_length; simp; omega
  · contradiction

end NT
