import Verif.Props.C48_DirectoryIndex

/-! C38: the value of `$INDEX_ROOT`. -/

namespace NT

open Spec

/-- **C38**, the index root: for every byte string, exactly the errors of `rootErr` in that order, and
otherwise all fields from their documented offsets. -/
theorem C38_index_root (b : Bytes) (p : Pos) :
    (∀ x, rootErr b p = some x → IndexRoot.new b p = .err x) ∧
    (rootErr b p = none → ∃ r, IndexRoot.new b p = .ok r ∧ r.position = p ∧
      r.recordSize = .ok (field b 8 4) ∧ r.entriesOffset = .ok (field b 16 4) ∧
      r.dataSize = .ok (field b 20 4) ∧ r.allocatedSize = .ok (field b 24 4) ∧
      r.isLarge = .ok (field b 28 1 % 2 == 1)) := by
  unfold rootErr
  rw [IndexRoot.new_eq]
  by_cases h1 : b.length < 32
  · rw [if_pos h1, if_pos h1]
    exact ⟨fun x h => by injection h with h; rw [h], fun h => by cases h⟩
  rw [if_neg h1, if_neg h1]
  by_cases h2 : b.length ≤ 16 + field b 16 4
  · rw [if_pos h2, if_pos h2]
    exact ⟨fun x h => by injection h with h; rw [h], fun h => by cases h⟩
  rw [if_neg h2, if_neg h2]
  by_cases h3 : b.length < 16 + field b 20 4
  · rw [if_pos h3, if_pos h3]
    exact ⟨fun x h => by injection h with h; rw [h], fun h => by cases h⟩
  rw [if_neg h3, if_neg h3]
  refine ⟨fun x h => (by cases h), fun _ => ⟨_, rfl, rfl, ?_⟩⟩
  unfold IndexRoot.recordSize IndexRoot.isLarge IndexRoot.entriesOffset IndexRoot.dataSize
    IndexRoot.allocatedSize
  dsimp only
  rw [readLE_ok (n := 4) (a := 8) (by omega), readLE_ok (n := 4) (a := 16) (by omega),
    readLE_ok (n := 4) (a := 20) (by omega), readLE_ok (n := 4) (a := 24) (by omega),
    idxByte_field (by omega)]
  exact ⟨rfl, rfl, rfl, rfl, rfl⟩

/-- At the attribute: the value of a resident `$INDEX_ROOT` at `off` of a file record is decoded as
above, by `resident_structured_value` and by `structured_value`. -/
theorem C38_index_root_attribute (file : NFile) (off : Nat) (hv : (Attr.mk file off none).Valid)
    (hty : field file.recordData off 4 = 0x90) (hp : Placed file off) (d : Dev) :
    Attr.residentIndexRoot ⟨file, off, none⟩ = IndexRoot.new (valueAt file off) (rootPos file off) ∧
    Attr.indexRoot ⟨file, off, none⟩ d = (IndexRoot.new (valueAt file off) (rootPos file off), d) := by
  have ht : Attr.ty ⟨file, off, none⟩ = .ok .indexRoot := (Attr.ty_ok_iff hv.header).2 hty
  obtain ⟨h1, h2, h3⟩ := Attr.rootValue_placed hv ht hp
  refine ⟨h3, ?_⟩
  unfold Attr.indexRoot Attr.ensureTy
  rw [ht, Res.bind_ok, if_neg (by simp), StM.bind_of_ok (StM.lift_apply _ _)]
  have : Attr.value ⟨file, off, none⟩ d = (.ok (.simple (.res ⟨valueAt file off, Pos.add file.position off, 0⟩)), d) := by
    unfold Attr.value
    dsimp only
    have : Attr.simpleValue ⟨file, off, none⟩ =
        .ok (.res ⟨valueAt file off, Pos.add file.position off, 0⟩) := by
      unfold Attr.simpleValue
      rw [h1.resident, Res.bind_ok, if_pos rfl, h2]
      rfl
    rw [this]
    rfl
  rw [StM.bind_of_ok this]
  rfl

/-- A non-resident `$INDEX_ROOT` is refused. -/
theorem C38_index_root_nonresident (file : NFile) (off : Nat) (hv : (Attr.mk file off none).Valid)
    (hty : field file.recordData off 4 = 0x90) (hp : field file.recordData (off + 8) 1 ≠ 0) :
    Attr.residentIndexRoot ⟨file, off, none⟩ =
      .err (.unexpectedNonResidentAttribute (Pos.add file.position off)) := by
  have ht : Attr.ty ⟨file, off, none⟩ = .ok .indexRoot := (Attr.ty_ok_iff hv.header).2 hty
  unfold Attr.residentIndexRoot Attr.ensureTy
  rw [ht, Res.bind_ok, if_neg (by simp), Res.bind_ok, Attr.isResident_eq hv.header, Res.bind_ok]
  have : (field (Attr.recordData ⟨file, off, none⟩) (off + 8) 1 == 0) = false := by
    simpa [Attr.recordData] using hp
  simp only [this]
  rfl

/-! ### The hypotheses can be met -/

example : rootErr (part exDirRecord 88 152) (some 600) = none ∧
    rootErr (part exDirRecord 88 120) (some 600) = some (.invalidIndexRootUsedSize (some 600) 152 120) ∧
    rootErr (part exDirRecord 88 31) (some 600) =
      some (.invalidStructuredValueSize (some 600) .indexRoot 16 31) := by decide +kernel

example : Placed (exDirFile none) 56 ∧ field (exDirFile none).recordData 56 4 = 0x90 := by
  unfold Placed
  decide +kernel

/-- The index root of the example directory, and the same attribute with a header that says non-resident. -/
example (d : Dev) := C38_index_root_attribute (exDirFile none) 56
  ⟨by unfold Attr.HeaderIn; decide +kernel, by decide +kernel, by decide +kernel⟩ (by decide +kernel)
  (by unfold Placed; decide +kernel) d
example := C38_index_root_nonresident
  ⟨exDirNtfs none, ⟨exDirRecord.take 64 ++ [1] ++ exDirRecord.drop 65, some 512⟩, 30⟩ 56
  ⟨by unfold Attr.HeaderIn; decide +kernel, by decide +kernel, by decide +kernel⟩ (by decide +kernel) (by decide +kernel)

end NT
