import Verif.Lemmas.IndexRecord

/-! A small directory that the examples beside the theorems about indexes use: three nodes and the four
names "A", "b", "c", "D". The root is in the file record, the other two nodes are the records 0 and 1 of
the index allocation, in the clusters 1 and 2 of the image. -/

namespace NT

open Spec

/-- The upcase table has to be given. -/
def exDirNtfs (table : Option (List Nat)) : Ntfs :=
  { clusterSize := 512, sectorSize := 512, size := 65536, mftPosition := some 512,
    fileRecordSize := 328, serialNumber := 0, upcaseTable := table }

/-- The file record of the directory: a resident $INDEX_ROOT at 56, a non-resident $INDEX_ALLOCATION at
240. -/
def exDirRecord : Bytes :=
  [70, 73, 76, 69, 48, 0, 2, 0, 0, 0, 0, 0, 0, 0, 0, 0, 1, 0, 1, 0, 56, 0, 3, 0, 72, 1, 0,
   0, 72, 1, 0, 0, 0, 0, 0, 0, 0, 0, 0, 0, 3, 0, 0, 0, 7, 0, 0, 0, 0, 0, 0, 0, 0, 0, 0, 0,
   144, 0, 0, 0, 184, 0, 0, 0, 0, 4, 24, 0, 0, 0, 1, 0, 152, 0, 0, 0, 32, 0, 0, 0, 36, 0,
   73, 0, 51, 0, 48, 0, 48, 0, 0, 0, 1, 0, 0, 0, 0, 2, 0, 0, 1, 0, 0, 0, 16, 0, 0, 0, 136,
   0, 0, 0, 136, 0, 0, 0, 1, 0, 0, 0, 41, 0, 0, 0, 0, 0, 0, 0, 96, 0, 68, 0, 1, 0, 0, 0, 5,
   0, 0, 0, 0, 0, 5, 0, 1, 0, 0, 0, 0, 0, 0, 0, 2, 0, 0, 0, 0, 0, 0, 0, 3, 0, 0, 0, 0, 0, 0,
   0, 4, 0, 0, 0, 0, 0, 0, 0, 0, 16, 0, 0, 0, 0, 0, 0, 100, 0, 0, 0, 0, 0, 0, 0, 32, 0, 0,
   0, 0, 0, 0, 0, 1, 1, 98] ++
  List.replicate 21 0 ++
  [24, 0, 0, 0, 3, 0, 0, 0, 1, 0, 0, 0, 0, 0, 0, 0, 160, 0, 0, 0, 80, 0, 0, 0, 1, 4, 64, 0,
   0, 0, 2, 0, 0, 0, 0, 0, 0, 0, 0, 0, 1, 0, 0, 0, 0, 0, 0, 0, 72, 0, 0, 0, 0, 0, 0, 0, 0,
   4, 0, 0, 0, 0, 0, 0, 0, 4, 0, 0, 0, 0, 0, 0, 0, 4, 0, 0, 0, 0, 0, 0, 36, 0, 73, 0, 51, 0,
   48, 0, 17, 2, 1, 0, 0, 0, 0, 0, 255, 255, 255, 255, 0, 0, 0, 0]

/-- The index record with VCN 0 without its last two bytes: "A". -/
def exDirNode0 : Bytes :=
  [73, 78, 68, 88, 40, 0, 2, 0, 119] ++
  List.replicate 15 0 ++
  [24, 0, 0, 0, 128, 0, 0, 0, 232, 1, 0, 0, 0, 0, 0, 0, 9, 0, 1, 2, 0, 0, 0, 0, 40, 0, 0, 0,
   0, 0, 0, 0, 88, 0, 68, 0, 0, 0, 0, 0, 5, 0, 0, 0, 0, 0, 5, 0, 1, 0, 0, 0, 0, 0, 0, 0, 2,
   0, 0, 0, 0, 0, 0, 0, 3, 0, 0, 0, 0, 0, 0, 0, 4, 0, 0, 0, 0, 0, 0, 0, 0, 16, 0, 0, 0, 0,
   0, 0, 100, 0, 0, 0, 0, 0, 0, 0, 32, 0, 0, 0, 0, 0, 0, 0, 1, 1, 65] ++
  List.replicate 13 0 ++
  [16, 0, 0, 0, 2] ++
  List.replicate 361 0

/-- The index record with VCN 1 without its last two bytes: "c", "D". -/
def exDirNode1 : Bytes :=
  [73, 78, 68, 88, 40, 0, 2, 0, 119, 0, 0, 0, 0, 0, 0, 0, 1, 0, 0, 0, 0, 0, 0, 0, 24, 0, 0,
   0, 216, 0, 0, 0, 232, 1, 0, 0, 0, 0, 0, 0, 9, 0, 1, 2, 0, 0, 0, 0, 42, 0, 0, 0, 0, 0, 0,
   0, 88, 0, 68, 0, 0, 0, 0, 0, 5, 0, 0, 0, 0, 0, 5, 0, 1, 0, 0, 0, 0, 0, 0, 0, 2, 0, 0, 0,
   0, 0, 0, 0, 3, 0, 0, 0, 0, 0, 0, 0, 4, 0, 0, 0, 0, 0, 0, 0, 0, 16, 0, 0, 0, 0, 0, 0, 100,
   0, 0, 0, 0, 0, 0, 0, 32, 0, 0, 0, 0, 0, 0, 0, 1, 1, 99, 0, 0, 0, 0, 0, 43, 0, 0, 0, 0, 0,
   0, 0, 88, 0, 68, 0, 0, 0, 0, 0, 5, 0, 0, 0, 0, 0, 5, 0, 1, 0, 0, 0, 0, 0, 0, 0, 2, 0, 0,
   0, 0, 0, 0, 0, 3, 0, 0, 0, 0, 0, 0, 0, 4, 0, 0, 0, 0, 0, 0, 0, 0, 16, 0, 0, 0, 0, 0, 0,
   100, 0, 0, 0, 0, 0, 0, 0, 32, 0, 0, 0, 0, 0, 0, 0, 1, 1, 68] ++
  List.replicate 13 0 ++
  [16, 0, 0, 0, 2] ++
  List.replicate 273 0

/-- The volume; the last bytes of the index records are replaced by the update sequence number 9. -/
def exDirImage : Bytes := List.replicate 512 0 ++ (exDirNode0 ++ [9, 0]) ++ (exDirNode1 ++ [9, 0])

/-- The bytes of the index allocation. -/
def exDirStream : Bytes := (exDirNode0 ++ [9, 0]) ++ (exDirNode1 ++ [9, 0])

def exDirFile (table : Option (List Nat)) : NFile := ⟨exDirNtfs table, ⟨exDirRecord, some 512⟩, 30⟩

def exDirAlloc (table : Option (List Nat)) : Attr := ⟨exDirFile table, 240, none⟩

def exDirRootItem (table : Option (List Nat)) : AttrItem :=
  ⟨exDirFile table, none, 56, none⟩

def exDirAllocItem (table : Option (List Nat)) : AttrItem :=
  ⟨exDirFile table, none, 240, none⟩

/-- The entries of the index root. -/
def exDirRoot : Bytes := part exDirRecord 120 120

/-- The entry of "A". -/
def exEntA : Ent :=
  { head := [40, 0, 0, 0, 0, 0, 0, 0]
    key := [5, 0, 0, 0, 0, 0, 5, 0, 1, 0, 0, 0, 0, 0, 0, 0, 2, 0, 0, 0, 0, 0, 0, 0, 3, 0, 0, 0, 0, 0,
              0, 0, 4, 0, 0, 0, 0, 0, 0, 0, 0, 16, 0, 0, 0, 0, 0, 0, 100, 0, 0, 0, 0, 0, 0, 0, 32, 0,
              0, 0, 0, 0, 0, 0, 1, 1, 65, 0] }

/-- The entry of "b". -/
def exEntB : Ent :=
  { head := [41, 0, 0, 0, 0, 0, 0, 0]
    key := [5, 0, 0, 0, 0, 0, 5, 0, 1, 0, 0, 0, 0, 0, 0, 0, 2, 0, 0, 0, 0, 0, 0, 0, 3, 0, 0, 0, 0, 0,
              0, 0, 4, 0, 0, 0, 0, 0, 0, 0, 0, 16, 0, 0, 0, 0, 0, 0, 100, 0, 0, 0, 0, 0, 0, 0, 32, 0,
              0, 0, 0, 0, 0, 0, 1, 1, 98, 0] }

/-- The entry of "c". -/
def exEntC : Ent :=
  { head := [42, 0, 0, 0, 0, 0, 0, 0]
    key := [5, 0, 0, 0, 0, 0, 5, 0, 1, 0, 0, 0, 0, 0, 0, 0, 2, 0, 0, 0, 0, 0, 0, 0, 3, 0, 0, 0, 0, 0,
              0, 0, 4, 0, 0, 0, 0, 0, 0, 0, 0, 16, 0, 0, 0, 0, 0, 0, 100, 0, 0, 0, 0, 0, 0, 0, 32, 0,
              0, 0, 0, 0, 0, 0, 1, 1, 99, 0] }

/-- The entry of "D". -/
def exEntD : Ent :=
  { head := [43, 0, 0, 0, 0, 0, 0, 0]
    key := [5, 0, 0, 0, 0, 0, 5, 0, 1, 0, 0, 0, 0, 0, 0, 0, 2, 0, 0, 0, 0, 0, 0, 0, 3, 0, 0, 0, 0, 0,
              0, 0, 4, 0, 0, 0, 0, 0, 0, 0, 0, 16, 0, 0, 0, 0, 0, 0, 100, 0, 0, 0, 0, 0, 0, 0, 32, 0,
              0, 0, 0, 0, 0, 0, 1, 1, 68, 0] }

/-- The whole tree. -/
def exDirTree : Node :=
  .inner (.leaf exEntA .last) exEntB (.lastSub (.leaf exEntC (.leaf exEntD .last)))

theorem exDirNode_restores (A : Bytes) (hA : A.length = 510) (h4 : field A 4 2 = 40)
    (h6 : field A 6 2 = 2) (hu : (A.drop 40).take 4 = [9, 0, 1, 2]) :
    Restores (A ++ [9, 0]) (A ++ [1, 2]) 1 40 := by
  have f : ∀ o t, o + 2 ≤ 510 → field (A ++ t) o 2 = field A o 2 := by
    intro o t ho
    unfold field
    rw [List.drop_append_of_le_length (by omega), List.take_append_of_le_length (by simp; omega)]
  have g : ∀ o t, o + 2 ≤ 510 → ((A ++ t).drop o).take 2 = (A.drop o).take 2 := by
    intro o t ho
    rw [List.drop_append_of_le_length (by omega), List.take_append_of_le_length (by simp; omega)]
  have t : ∀ t : Bytes, t.length = 2 → ((A ++ t).drop 510).take 2 = t := by
    intro t ht
    rw [← hA, List.drop_left, ← ht, List.take_length]
  have u1 : (A.drop 40).take 2 = [9, 0] := by
    have := congrArg (List.take 2) hu
    rwa [List.take_take] at this
  have u2 : (A.drop 42).take 2 = [1, 2] := by
    have := congrArg (List.drop 2) hu
    rwa [List.drop_take, List.drop_drop] at this
  refine ⟨by simp, by rw [f 4 _ (by decide), h4], by rw [f 6 _ (by decide), h6], by simp [hA],
    by decide, ?_, ?_, ?_, ?_⟩
  · intro i hi; omega
  · intro i hi
    obtain rfl : i = 0 := by omega
    rw [Nat.mul_zero, Nat.zero_add, t _ rfl, g 40 _ (by decide), u1]
  · intro i hi
    obtain rfl : i = 0 := by omega
    rw [Nat.mul_zero, Nat.zero_add, t _ rfl, g 42 _ (by decide), u2]
  · intro j hj
    have := hj 0 (by omega)
    by_cases h : j < 510
    · rw [List.getElem?_append_left (by omega), List.getElem?_append_left (by omega)]
    · rw [List.getElem?_eq_none (by simp [hA]; omega), List.getElem?_eq_none (by simp [hA]; omega)]

theorem exDir_record0 : RecordAt exDirStream 512 512 0 (exDirNode0 ++ [1, 2]) 48 152 where
  inside := by decide +kernel
  signature := by decide +kernel
  restores := ⟨1, 40, by
    have e : part exDirStream ((0 : Int).toNat * 512) 512 = exDirNode0 ++ [9, 0] := by decide +kernel
    rw [e]
    exact exDirNode_restores _ (by decide +kernel) (by decide +kernel) (by decide +kernel)
      (by decide +kernel)⟩
  header := by decide
  off := by decide +kernel
  stop := by decide +kernel
  used := by decide +kernel
  allocated := by decide +kernel
  nonneg := by decide
  small := by decide
  vcn := ⟨by decide, by decide, 0, by decide +kernel⟩

theorem exDir_record1 : RecordAt exDirStream 512 512 1 (exDirNode1 ++ [1, 2]) 48 240 where
  inside := by decide +kernel
  signature := by decide +kernel
  restores := ⟨1, 40, by
    have e : part exDirStream ((1 : Int).toNat * 512) 512 = exDirNode1 ++ [9, 0] := by decide +kernel
    rw [e]
    exact exDirNode_restores _ (by decide +kernel) (by decide +kernel) (by decide +kernel)
      (by decide +kernel)⟩
  header := by decide
  off := by decide +kernel
  stop := by decide +kernel
  used := by decide +kernel
  allocated := by decide +kernel
  nonneg := by decide
  small := by decide
  vcn := ⟨by decide, by decide, 0, by decide +kernel⟩

theorem exDir_tree : NodeAt (RecordAt exDirStream 512 512) exDirRoot 0 120 exDirTree := by
  refine .inner (len := 96) (v := 0) (by decide) (by decide +kernel) ?_ exDir_record0 ?_ ?_
  · exact
      { room := by decide +kernel, length := by decide +kernel, flags := by decide +kernel
        vcn := by
          intro v hv
          cases hv
          exact ⟨by decide, by decide, 0, by decide +kernel⟩
        head := by decide +kernel, keyLength := by decide +kernel, fits := by decide +kernel
        key := by decide +kernel }
  · refine .leaf (len := 88) (by decide) (by decide +kernel) ?_
      (.last (len := 16) (by decide) (by decide +kernel) ?_)
    · exact
        { room := by decide +kernel, length := by decide +kernel, flags := by decide +kernel
          vcn := by intro v hv; cases hv
          head := by decide +kernel, keyLength := by decide +kernel, fits := by decide +kernel
          key := by decide +kernel }
    · exact
        { room := by decide +kernel, length := by decide +kernel, flags := by decide +kernel
          vcn := by intro v hv; cases hv }
  · refine .lastSub (len := 24) (v := 1) (by decide) (by decide +kernel) ?_ exDir_record1 ?_
    · exact
        { room := by decide +kernel, length := by decide +kernel, flags := by decide +kernel
          vcn := by
            intro v hv
            cases hv
            exact ⟨by decide, by decide, 0, by decide +kernel⟩ }
    · refine .leaf (len := 88) (by decide) (by decide +kernel) ?_
        (.leaf (len := 88) (by decide) (by decide +kernel) ?_
          (.last (len := 16) (by decide) (by decide +kernel) ?_))
      · exact
          { room := by decide +kernel, length := by decide +kernel, flags := by decide +kernel
            vcn := by intro v hv; cases hv
            head := by decide +kernel, keyLength := by decide +kernel, fits := by decide +kernel
            key := by decide +kernel }
      · exact
          { room := by decide +kernel, length := by decide +kernel, flags := by decide +kernel
            vcn := by intro v hv; cases hv
            head := by decide +kernel, keyLength := by decide +kernel, fits := by decide +kernel
            key := by decide +kernel }
      · exact
          { room := by decide +kernel, length := by decide +kernel, flags := by decide +kernel
            vcn := by intro v hv; cases hv }

/-- The index that `NtfsIndex::new` makes. -/
def exDirIndex (table : Option (List Nat)) : Index :=
  ⟨512, ⟨exDirRoot, 0, 120, Pos.add (some 512) 88⟩, Pos.add (some 512) 56, some (exDirAllocItem table)⟩

theorem exDirRoot_resident (table : Option (List Nat)) :
    Attr.residentIndexRoot ⟨exDirFile table, 56, none⟩ =
      .ok ⟨part exDirRecord 88 152, Pos.add (some 512) 56⟩ := by
  have e1 : Attr.ensureTy ⟨exDirFile none, 56, none⟩ .indexRoot = .ok () := by decide +kernel
  have e2 : Attr.isResident ⟨exDirFile none, 56, none⟩ = .ok true := by decide +kernel
  have e3 : Attr.residentValue ⟨exDirFile none, 56, none⟩ =
    .ok ⟨part exDirRecord 88 152, Pos.add (some 512) 56, 0⟩ := by decide +kernel
  have e4 : IndexRoot.ofResident ⟨part exDirRecord 88 152, Pos.add (some 512) 56, 0⟩ =
    .ok ⟨part exDirRecord 88 152, Pos.add (some 512) 56⟩ := by decide +kernel
  have f1 : Attr.ensureTy ⟨exDirFile table, 56, none⟩ .indexRoot = .ok () := e1
  have f2 : Attr.isResident ⟨exDirFile table, 56, none⟩ = .ok true := e2
  have f3 : Attr.residentValue ⟨exDirFile table, 56, none⟩ =
    .ok ⟨part exDirRecord 88 152, Pos.add (some 512) 56, 0⟩ := e3
  unfold Attr.residentIndexRoot
  rw [f1, Res.bind_ok, f2, Res.bind_ok, if_pos rfl, f3, Res.bind_ok, e4]

set_option maxRecDepth 20000 in
theorem exDirIndex_new (table : Option (List Nat)) :
    Index.new (exDirRootItem table) (some (exDirAllocItem table)) = .ok (exDirIndex table) := by
  have e0 : (exDirRootItem none).toAttribute = .ok ⟨exDirFile none, 56, none⟩ := by decide +kernel
  have e1 : Attr.ensureTy ⟨exDirFile none, 56, none⟩ .indexRoot = .ok () := by decide +kernel
  have e2 : (exDirAllocItem none).toAttribute = .ok (exDirAlloc none) := by decide +kernel
  have e3 : (exDirAlloc none).ensureTy .indexAllocation = .ok () := by decide +kernel
  have e4 : IndexRoot.recordSize ⟨part exDirRecord 88 152, Pos.add (some 512) 56⟩ = .ok 512 := by
    decide +kernel
  have e5 : IndexRoot.entryRanges ⟨part exDirRecord 88 152, Pos.add (some 512) 56⟩ =
    .ok ⟨exDirRoot, 0, 120, Pos.add (some 512) 88⟩ := by
    decide +kernel
  have f0 : (exDirRootItem table).toAttribute = .ok ⟨exDirFile table, 56, none⟩ := by rfl
  have f1 : Attr.ensureTy ⟨exDirFile table, 56, none⟩ .indexRoot = .ok () := e1
  have f2 : (exDirAllocItem table).toAttribute = .ok (exDirAlloc table) := by rfl
  have f3 : (exDirAlloc table).ensureTy .indexAllocation = .ok () := e3
  unfold Index.new
  rw [f0, Res.bind_ok, f1, Res.bind_ok, exDirRoot_resident, Res.bind_ok]
  unfold Index.checkAllocation
  dsimp only
  rw [f2, Res.bind_ok, f3, Res.bind_ok, e4, Res.bind_ok, e5, Res.bind_ok]
  rfl

theorem exDir_stored : StoredAs 512 exDirImage [0x11, 2, 1, 0, 0, 0, 0, 0] [⟨2, some 1⟩] where
  clusterPos := by decide
  enc := by
    refine .run 0 1 1 _ _ _ ?_ (.terminated _ [0, 0, 0, 0])
    simp [WidthsOk, FitsSigned]
  rep := by simp [Representable]
  nonZero := by simp [NonZero]
  inImage := by simp [InImage]; decide +kernel
  imgLt := by decide +kernel

theorem exDir_opens (table : Option (List Nat)) :
    (exDirAlloc table).Opens exDirImage exDirStream 1024 := by
  have e : (content 512 exDirImage [⟨2, some 1⟩]).take 1024 = exDirStream := by decide +kernel
  have := Attr.opens_nonResident exDirImage (exDirAlloc table)
    (by unfold Attr.HeaderIn; show 240 + 16 ≤ exDirRecord.length; decide +kernel) rfl
    (by show 240 + 56 ≤ exDirRecord.length; decide +kernel)
    (by show field exDirRecord 248 1 ≠ 0; decide +kernel) 72 80 1024
    (by show field exDirRecord 272 2 = _; decide +kernel)
    (by show field exDirRecord 244 4 = _; decide +kernel)
    (by show 240 + 80 ≤ exDirRecord.length; decide +kernel) (by decide)
    (by show field exDirRecord 288 8 = _; decide +kernel) [⟨2, some 1⟩] (by
      have e2 : (((exDirAlloc table).recordData.drop ((exDirAlloc table).offset + 72)).take (80 - 72)) =
        [0x11, 2, 1, 0, 0, 0, 0, 0] := by
          show (exDirRecord.drop 312).take 8 = _; decide +kernel
      rw [e2]
      exact exDir_stored)
  rw [← e]
  exact this

set_option maxRecDepth 20000 in
theorem exDir_allocated (table : Option (List Nat)) :
    (exDirIndex table).Allocated exDirImage exDirStream 512 1024 (exDirAllocItem table)
      (exDirAlloc table) where
  alloc := rfl
  attr := rfl
  ty := rfl
  opens := exDir_opens table
  nonRes := .inr ⟨by unfold Attr.HeaderIn; show 240 + 16 ≤ exDirRecord.length; decide +kernel,
    by show field exDirRecord 248 1 ≠ 0; decide +kernel⟩
  cs := rfl
  size := by show 512 < U32; decide

end NT
