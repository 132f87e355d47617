import Verif.Model.Types
import Verif.Lemmas.Bytes

namespace NT

open Spec

/-- C36: the low 48 bits are the record number, the high 16 bits the sequence number, and together
they are the whole little-endian value. -/
theorem C36_split (b : Bytes) (hb : b.length = 8) :
    (FileRef.mk b).fileRecordNumber = leNat b % 2 ^ 48 ∧
    (FileRef.mk b).sequenceNumber = leNat b / 2 ^ 48 ∧
    (FileRef.mk b).fileRecordNumber + 2 ^ 48 * (FileRef.mk b).sequenceNumber = leNat b := by
  have h := leNat_lt_of_length hb
  have e1 : (FileRef.mk b).fileRecordNumber = leNat b % 2 ^ 48 := by
    show leNat b &&& (2 ^ 48 - 1) = _
    exact Nat.and_two_pow_sub_one_eq_mod _ _
  have e2 : (FileRef.mk b).sequenceNumber = leNat b / 2 ^ 48 := by
    show (leNat b >>> 48) % 65536 = _
    rw [Nat.shiftRight_eq_div_pow]
    omega
  refine ⟨e1, e2, ?_⟩
  rw [e1, e2]
  omega

/-- C36: the two numbers determine the reference. -/
theorem C36_injective (a b : Bytes) (ha : a.length = 8) (hb : b.length = 8)
    (h1 : (FileRef.mk a).fileRecordNumber = (FileRef.mk b).fileRecordNumber)
    (h2 : (FileRef.mk a).sequenceNumber = (FileRef.mk b).sequenceNumber) : a = b := by
  have ea := (C36_split a ha).2.2
  have eb := (C36_split b hb).2.2
  apply leNat_inj (by omega)
  rw [← ea, ← eb, h1, h2]

/-- C36: a reference written with record number `n` and sequence number `s` reads back as such. -/
theorem C36_roundtrip (n s : Nat) (hn : n < 2 ^ 48) (hs : s < 2 ^ 16) :
    (FileRef.mk (leBytes 6 n ++ leBytes 2 s)).fileRecordNumber = n ∧
    (FileRef.mk (leBytes 6 n ++ leBytes 2 s)).sequenceNumber = s := by
  have hl : (leBytes 6 n ++ leBytes 2 s).length = 8 := by simp
  have h := C36_split _ hl
  have hv : leNat (leBytes 6 n ++ leBytes 2 s) = n + 2 ^ 48 * s := by
    rw [leNat_append, leNat_leBytes_of_lt (by omega), leNat_leBytes_of_lt (by omega), leBytes_length]
  rw [hv] at h
  omega

/-- Concrete reference: record 5, sequence number 5 (the root directory). -/
example : (FileRef.mk [5, 0, 0, 0, 0, 0, 5, 0]).fileRecordNumber = 5 ∧
    (FileRef.mk [5, 0, 0, 0, 0, 0, 5, 0]).sequenceNumber = 5 :=
  C36_roundtrip 5 5 (by omega) (by omega)

example := C36_split [5, 0, 0, 0, 0, 1, 5, 2] rfl
/-- `C36_injective` on two references that differ in the sequence number only. -/
example : (FileRef.mk [5, 0, 0, 0, 0, 0, 5, 0]).sequenceNumber ≠ (FileRef.mk [5, 0, 0, 0, 0, 0, 6, 0]).sequenceNumber :=
  fun h => absurd (C36_injective [5, 0, 0, 0, 0, 0, 5, 0] [5, 0, 0, 0, 0, 0, 6, 0] rfl rfl (by decide) h) (by decide)

end NT
