import Verif.Props.C71_Messages
import Verif.Props.C38_StructuredValues
import Verif.Props.C38_IndexRoot

/-!
# C71: the messages about the size of a structured value

What a reader of the message learns when a structured value is refused for its size: the type of the value, the bytes it
has and the bytes it needs. Right for four of the six kinds; for volume information, index roots and the name inside a
file name something is wrong.
-/

namespace NT
open Spec

/-- The message about a structured value of the type `ty` that has `has` bytes where `needs` are needed. -/
def Spec.saysStructured (ty : String) (p : Pos) (has needs : Nat) (l : List Char) : Prop :=
  l = "The NTFS structured value at byte position ".toList ++ posHex p ++ " of type ".toList ++ ty.toList ++
    " has ".toList ++ dec has ++ " bytes where ".toList ++ dec needs ++ " bytes were expected".toList

theorem saysStructured_iff {dbg : IoErr → List Char} {t : AttrType} {ty : String} (ht : t.debug = ty.toList) {p : Pos}
    {x y : Nat} {l : List Char} :
    Spec.saysStructured ty p y x l ↔ l = (Err.invalidStructuredValueSize p t x y).display dbg := by
  simp only [Spec.saysStructured, Err.display, Err.pieces, render, List.append_nil, List.append_assoc, ht]

/-- C71: a resident value of the wrong size is refused with a message that tells its type, its size and the size it
should have. (The position is the one that `C40` is about.) -/
theorem C71_structured (dbg : IoErr → List Char) (b : Bytes) (p : Pos) :
    (b.length < 48 → ∃ e, StdInfo.structured.ofResident (ResVal.new b p) = .err e ∧
      Spec.saysStructured "StandardInformation" (Pos.add p 0) b.length 48 (e.display dbg)) ∧
    (256 < b.length → ∃ e, VolumeName.structured.ofResident (ResVal.new b p) = .err e ∧
      Spec.saysStructured "VolumeName" (Pos.add p 0) b.length 256 (e.display dbg)) ∧
    (b.length < 16 → ∃ e, ObjectId.structured.ofResident (ResVal.new b p) = .err e ∧
      Spec.saysStructured "ObjectId" (Pos.add p 0) b.length 16 (e.display dbg)) ∧
    (b.length < 68 → ∃ e, FileName.keyFromSlice b p = .err e ∧
      Spec.saysStructured "FileName" p b.length 68 (e.display dbg)) := by
  obtain ⟨h1, h2, h3, h4, h5⟩ := C38_resident b p
  rw [h1, h3, h4, h5]
  refine ⟨fun h => ?_, fun h => ?_, fun h => ?_, fun h => ?_⟩
  · exact ⟨_, if_pos h, (saysStructured_iff (dbg := dbg) (t := .standardInformation) rfl).2 rfl⟩
  · exact ⟨_, if_pos h, (saysStructured_iff (dbg := dbg) (t := .volumeName) rfl).2 rfl⟩
  · exact ⟨_, if_pos h, (saysStructured_iff (dbg := dbg) (t := .objectId) rfl).2 rfl⟩
  · exact ⟨_, if_pos h, (saysStructured_iff (dbg := dbg) (t := .fileName) rfl).2 rfl⟩

/-- C71, what the other messages say: volume information is called standard information, an index root is said to need
16 bytes although it needs 32, and the two sizes of a file name whose name is longer than the value are swapped. -/
theorem C71_structured_partial (dbg : IoErr → List Char) (b : Bytes) (p : Pos) :
    (b.length < 12 → ∃ e, VolumeInfo.structured.ofResident (ResVal.new b p) = .err e ∧
      Spec.saysStructured "StandardInformation" (Pos.add p 0) b.length 12 (e.display dbg)) ∧
    (b.length < 32 → ∃ e, IndexRoot.new b p = .err e ∧
      Spec.saysStructured "IndexRoot" p b.length 16 (e.display dbg)) ∧
    (68 ≤ b.length → b.length < 66 + 2 * field b 64 1 → ∃ e, FileName.keyFromSlice b p = .err e ∧
      Spec.saysStructured "FileName" p (66 + 2 * field b 64 1) b.length (e.display dbg)) := by
  obtain ⟨h1, h2, h3, h4, h5⟩ := C38_resident b p
  rw [h2, h5]
  refine ⟨fun h => ?_, fun h => ?_, fun h g => ?_⟩
  · exact ⟨_, if_pos h, (saysStructured_iff (dbg := dbg) (t := .standardInformation) rfl).2 rfl⟩
  · exact ⟨_, if_pos h, (saysStructured_iff (dbg := dbg) (t := .indexRoot) rfl).2 rfl⟩
  · refine ⟨.invalidStructuredValueSize p .fileName b.length (66 + 2 * field b 64 1), ?_,
      (saysStructured_iff (dbg := dbg) (t := .fileName) rfl).2 rfl⟩
    unfold fileNameRes
    rw [if_neg (by omega), if_neg (by omega), if_pos (by omega)]

/-- C71 is violated: the message about volume information that is too short does not tell its type. -/
theorem C71_volume_information_negation (dbg : IoErr → List Char) :
    ¬ ∀ (b : Bytes) (p : Pos) (e : Err), VolumeInfo.structured.ofResident (ResVal.new b p) = .err e → b.length < 12 →
      Spec.saysStructured "VolumeInformation" (Pos.add p 0) b.length 12 (e.display dbg) := by
  intro h
  obtain ⟨e, he, hm⟩ := (C71_structured_partial dbg [3, 1] (some 4096)).1 (by decide)
  have hm' := h _ _ _ he (by decide)
  rw [saysStructured_iff (dbg := dbg) (t := .standardInformation) rfl] at hm
  rw [saysStructured_iff (dbg := dbg) (t := .volumeInformation) rfl, hm] at hm'
  have := pieces_of_display hm' rfl
  simp only [Err.pieces, List.cons.injEq, Piece.arg.injEq] at this
  exact absurd this.2.2.2.1 (by decide)

/-- C71 is violated: an index root of 20 bytes is refused because it is shorter than 32 bytes, and the message says that
it has 20 bytes where 16 were expected. -/
theorem C71_index_root_negation (dbg : IoErr → List Char) :
    ¬ ∀ (b : Bytes) (p : Pos) (e : Err), IndexRoot.new b p = .err e → b.length < 32 →
      Spec.saysStructured "IndexRoot" p b.length 32 (e.display dbg) := by
  intro h
  obtain ⟨e, he, hm⟩ := (C71_structured_partial dbg (List.replicate 20 0) none).2.1 (by decide)
  have hm' := h _ _ _ he (by decide)
  rw [saysStructured_iff (dbg := dbg) (t := .indexRoot) rfl] at hm hm'
  rw [hm] at hm'
  have := pieces_of_display hm' rfl
  simp only [Err.pieces, List.cons.injEq, Piece.arg.injEq, dec_inj] at this
  exact absurd this.2.2.2.2.2.2.2.1 (by decide)

/-- A file name of 68 bytes whose name should have 5 characters. -/
def exLongName : Bytes := List.replicate 64 0 ++ [5, 0, 97, 0]

/-- C71 is violated: a file name value of 68 bytes whose name ends at byte 76 is said to have 76 bytes where 68 were
expected. -/
theorem C71_name_length_negation (dbg : IoErr → List Char) :
    ¬ ∀ (b : Bytes) (p : Pos) (e : Err), FileName.keyFromSlice b p = .err e → 68 ≤ b.length →
      b.length < 66 + 2 * field b 64 1 →
      Spec.saysStructured "FileName" p b.length (66 + 2 * field b 64 1) (e.display dbg) := by
  intro h
  obtain ⟨e, he, hm⟩ := (C71_structured_partial dbg exLongName none).2.2 (by decide) (by decide)
  have hm' := h _ _ _ he (by decide) (by decide)
  rw [saysStructured_iff (dbg := dbg) (t := .fileName) rfl] at hm hm'
  rw [hm] at hm'
  have := pieces_of_display hm' rfl
  simp only [Err.pieces, List.cons.injEq, Piece.arg.injEq, dec_inj] at this
  exact absurd this.2.2.2.2.2.1 (by decide)

/-- The hypotheses are met, and this is the whole message: 3 bytes of standard information. -/
example (dbg : IoErr → List Char) : ∃ e, StdInfo.structured.ofResident (ResVal.new [1, 2, 3] (some 4096)) = .err e ∧
    e.display dbg = "The NTFS structured value at byte position 0x1000 of type StandardInformation has 3 bytes where \
      48 bytes were expected".toList := by
  obtain ⟨e, he, hm⟩ := (C71_structured dbg [1, 2, 3] (some 4096)).1 (by decide)
  exact ⟨e, he, hm.trans (by decide +kernel)⟩

end NT
