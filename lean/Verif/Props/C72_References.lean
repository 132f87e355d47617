import Verif.Props.C36_FileRef
import Verif.Props.C59_Example
import Verif.Lemmas.Returns

/-! C72: a file reference leads to the file that it was made for. A reference consists of a record
number and a sequence number; the sequence number of a record changes when the record is used again
for another file. The number is always respected; the sequence number and the mark of deleted
records are not looked at, so that a stale reference silently opens another or a deleted file. -/

namespace NT

open Spec

/-- A file that was opened knows the volume and the number it was opened with. -/
theorem NFile.new_number {n : Ntfs} {p i : Nat} {d d' : Dev} {f : NFile}
    (h : NFile.new n p i d = (.ok f, d')) : f.ntfs = n ∧ f.number = i ∧ 32 ≤ f.recordData.length := by
  obtain ⟨data, h⟩ := NFile.new_ok h
  obtain ⟨_, r, _, hf, h32, _⟩ := (NFile.ofBytes_ok_iff _ _ _ _ _).1 h
  rw [hf]
  exact ⟨rfl, rfl, h32⟩

theorem Ntfs.file_number {n : Ntfs} {i : Nat} {d d' : Dev} {f : NFile}
    (h : n.file i d = (.ok f, d')) : f.ntfs = n ∧ f.number = i ∧ 32 ≤ f.recordData.length := by
  unfold Ntfs.file at h
  rw [StM.bind_ok_iff] at h
  obtain ⟨o, d1, h1, h⟩ := h
  cases hm : n.mftPosition with
  | none => rw [hm] at h; cases h
  | some p =>
    rw [hm] at h
    dsimp only at h
    rw [StM.bind_ok_iff] at h
    obtain ⟨mft, d1, h1, h⟩ := h
    rw [StM.bind_ok_iff] at h
    obtain ⟨a, d2, h2, h⟩ := h
    rw [StM.bind_ok_iff] at h
    obtain ⟨v, d2, h2, h⟩ := h
    generalize v.seek (.start o) = q at h
    obtain ⟨x, v'⟩ := q
    cases x with
    | ok x =>
      dsimp only at h
      cases hq : v'.dataPosition with
      | none => rw [hq] at h; cases h
      | some q => rw [hq] at h; exact NFile.new_number h
    | err x => cases h
    | panic x => cases h
    | diverge => cases h

namespace Spec

/-- The reference with record number `k` and sequence number `s`. -/
def refTo (k s : Nat) : Bytes := leBytes 6 k ++ leBytes 2 s

/-- The file has record number `k` and its record sequence number `s`. -/
def Is (f : NFile) (k s : Nat) : Prop := f.number = k ∧ field f.recordData 16 2 = s

/-- The record is marked as one that is in use. -/
def InUse (f : NFile) : Prop := field f.recordData 22 2 % 2 = 1

end Spec

/-- C72: the file that a reference, an index entry or an attribute list entry leads to has the record
number of the reference, on every device. -/
theorem C72_number (k s : Nat) (hk : k < 2 ^ 48) (hs : s < 2 ^ 16) (n : Ntfs) (d d' : Dev) (f : NFile) :
    ((FileRef.mk (refTo k s)).toFile n d = (.ok f, d') → f.number = k ∧ f.ntfs = n) ∧
    (∀ e : IEntry, e.slice.take 8 = refTo k s → e.toFile n d = (.ok f, d') →
      f.number = k ∧ f.ntfs = n) ∧
    (∀ e : ListEntry, e.ref.bytes = refTo k s → e.toFile n d = (.ok f, d') →
      f.number = k ∧ f.ntfs = n) := by
  have hr := (C36_roundtrip k s hk hs).1
  have key : ∀ r : FileRef, r.bytes = refTo k s → r.toFile n d = (.ok f, d') →
      f.number = k ∧ f.ntfs = n := by
    intro r hb h
    cases r with
    | mk b =>
      dsimp only at hb
      subst hb
      have := Ntfs.file_number h
      exact ⟨this.2.1.trans hr, this.1⟩
  refine ⟨key _ rfl, ?_, ?_⟩
  · intro e he h
    unfold IEntry.toFile at h
    rw [StM.bind_ok_iff] at h
    obtain ⟨r, d1, h1, h⟩ := h
    rw [StM.lift_apply] at h1
    injection h1 with h1 h2
    subst h2
    refine key r ?_ h
    unfold IEntry.fileReference at h1
    rw [Res.bind_eq_ok] at h1
    obtain ⟨b, h1, h2⟩ := h1
    cases h2
    unfold idxRange at h1
    cases hg : getRange e.slice 0 8 with
    | none => rw [hg] at h1; cases h1
    | some x =>
      rw [hg] at h1
      cases h1
      rw [← he]
      unfold getRange at hg
      split at hg
      · injection hg with hg
        rw [← hg, List.drop_zero]
      · cases hg
  · intro e he h
    exact key e.ref he h

/-- C72: if the volume stores at number `k` a record with sequence number `s`, then the reference with
these two numbers leads to it. -/
theorem C72_live (V : View) (k s : Nat) (hk : k < 2 ^ 48) (hs : s < 2 ^ 16) (hV : RecordOf V k)
    (hm : HasMft V) (hq : Spec.Is V.base k s) (d : Dev) (hd : d.Ok V.img) :
    ∃ f d', (FileRef.mk (refTo k s)).toFile V.ntfs d = (.ok f, d') ∧ Spec.Is f k s ∧ d'.Ok V.img := by
  obtain ⟨d', h, h'⟩ := hV.load hm d hd
  refine ⟨V.base, d', ?_, hq, h'⟩
  unfold FileRef.toFile
  have hr : (FileRef.mk (refTo k s)).fileRecordNumber = k := (C36_roundtrip k s hk hs).1
  rw [hr]
  exact h

/-- C72: the sequence number of a reference has no influence, on any device. -/
theorem C72_sequence_ignored (k s s' : Nat) (hk : k < 2 ^ 48) (hs : s < 2 ^ 16) (hs' : s' < 2 ^ 16)
    (n : Ntfs) (d : Dev) :
    (FileRef.mk (refTo k s)).toFile n d = (FileRef.mk (refTo k s')).toFile n d := by
  unfold FileRef.toFile
  have h1 : (FileRef.mk (refTo k s)).fileRecordNumber = k := (C36_roundtrip k s hk hs).1
  have h2 : (FileRef.mk (refTo k s')).fileRecordNumber = k := (C36_roundtrip k s' hk hs').1
  rw [h1, h2]

/-- C72, what a caller can do: the file that comes back tells its own sequence number and flags without
panicking, and it is the file that the reference was made for exactly if the number is the one in the
reference. -/
theorem C72_checked_partial (k s : Nat) (hk : k < 2 ^ 48) (hs : s < 2 ^ 16) (n : Ntfs) (d d' : Dev)
    (f : NFile) (h : (FileRef.mk (refTo k s)).toFile n d = (.ok f, d')) :
    ∃ t fl, f.sequenceNumber = .ok t ∧ f.flags = .ok fl ∧
      (Spec.Is f k s ↔ t = (FileRef.mk (refTo k s)).sequenceNumber) ∧
      (Spec.InUse f ↔ fl % 2 = 1) := by
  have hr := C36_roundtrip k s hk hs
  have hn := Ntfs.file_number h
  have hnum : f.number = k := hn.2.1.trans hr.1
  refine ⟨field f.recordData 16 2, field f.recordData 22 2 % 4, ?_, ?_, ?_, ?_⟩
  · exact readLE_ok (by omega)
  · unfold NFile.flags
    rw [readLE_ok (n := 2) (a := 22) (by omega)]
    rfl
  · unfold Spec.Is
    have : (FileRef.mk (refTo k s)).sequenceNumber = s := hr.2
    rw [this]
    exact ⟨fun h => h.2, fun h => ⟨hnum, h⟩⟩
  · unfold Spec.InUse
    omega

/-- C72: a reference can lead to a file that it was not made for. The directory entry for `f` refers to
record 12 with sequence number 3; a reference to an earlier file in this record, with sequence number
2, leads to `f`. -/
theorem C72_negation :
    ¬ ∀ (k s : Nat) (n : Ntfs) (d d' : Dev) (f : NFile), k < 2 ^ 48 → s < 2 ^ 16 → d.NoFail →
      (FileRef.mk (refTo k s)).toFile n d = (.ok f, d') → Spec.Is f k s := by
  intro h
  have hd : (⟨exDiskHead, 0, []⟩ : Dev).NoFail := by intro r hr; cases hr
  have hev : ((FileRef.mk (refTo 12 2)).toFile exDiskNtfs ⟨exDiskHead, 0, []⟩).1.bind
      (fun f => f.sequenceNumber) = .ok 3 := by
    decide +kernel
  generalize hq : (FileRef.mk (refTo 12 2)).toFile exDiskNtfs ⟨exDiskHead, 0, []⟩ = q at hev
  obtain ⟨x, d'⟩ := q
  obtain ⟨f, rfl, hf⟩ := Res.bind_eq_ok.1 hev
  have hi := (h 12 2 exDiskNtfs _ d' f (by decide) (by decide) hd hq).2
  have hn := Ntfs.file_number hq
  have hs : f.sequenceNumber = .ok (field f.recordData 16 2) := readLE_ok (by omega)
  rw [hs, hi] at hf
  cases hf

/-- The example disk after `f` was deleted: its record is marked as unused. -/
def exDeleted : Bytes := exDiskHead.set (2560 + 22) 0

/-- C72: a reference to a file that was deleted still leads to it. -/
theorem C72_deleted_negation :
    ¬ ∀ (k s : Nat) (n : Ntfs) (d d' : Dev) (f : NFile), k < 2 ^ 48 → s < 2 ^ 16 → d.NoFail →
      (FileRef.mk (refTo k s)).toFile n d = (.ok f, d') → Spec.InUse f := by
  intro h
  have hd : (⟨exDeleted, 0, []⟩ : Dev).NoFail := by intro r hr; cases hr
  have hev : ((FileRef.mk (refTo 12 3)).toFile exDiskNtfs ⟨exDeleted, 0, []⟩).1.bind
      (fun f => f.flags) = .ok 0 := by
    decide +kernel
  generalize hq : (FileRef.mk (refTo 12 3)).toFile exDiskNtfs ⟨exDeleted, 0, []⟩ = q at hev
  obtain ⟨x, d'⟩ := q
  obtain ⟨f, rfl, hf⟩ := Res.bind_eq_ok.1 hev
  have hi : field f.recordData 22 2 % 2 = 1 :=
    h 12 3 exDiskNtfs _ d' f (by decide) (by decide) hd hq
  have hn := Ntfs.file_number hq
  have hs : f.flags = .ok (field f.recordData 22 2 % 4) := by
    unfold NFile.flags
    rw [readLE_ok (n := 2) (a := 22) (by omega)]
    rfl
  rw [hs] at hf
  injection hf with hf
  omega

/-- The hypotheses of `C72_live` are met: `f` of the example disk. -/
example : RecordOf (exRec exDiskRec12 2560 12 none) 12 ∧ HasMft (exRec exDiskRec12 2560 12 none) ∧
    Spec.Is (exRec exDiskRec12 2560 12 none).base 12 3 :=
  ⟨(exRec_records none).2.2.2, exRec_hasMft _ _ _ _, rfl, by
    show field (exFixed exDiskRec12) 16 2 = 3
    decide +kernel⟩

/-- The hypotheses of `C72_number` and `C72_checked_partial` are met, with a reference that is stale. -/
example : ∃ f d', (FileRef.mk (refTo 12 2)).toFile exDiskNtfs ⟨exDiskHead, 0, []⟩ = (.ok f, d') := by
  have hev : ((FileRef.mk (refTo 12 2)).toFile exDiskNtfs ⟨exDiskHead, 0, []⟩).1.bind
      (fun f => f.sequenceNumber) = .ok 3 := by
    decide +kernel
  generalize hq : (FileRef.mk (refTo 12 2)).toFile exDiskNtfs ⟨exDiskHead, 0, []⟩ = q at hev
  obtain ⟨x, d'⟩ := q
  obtain ⟨f, rfl, hf⟩ := Res.bind_eq_ok.1 hev
  exact ⟨f, d', rfl⟩

end NT
