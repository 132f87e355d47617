import Verif.Props.C77_RootPositions
import Verif.Props.C73_ListForms
import Verif.Props.C25_IndexOrder
import Verif.Props.C17_File

/-! C77: the theorems applied, and the places where the documented positions are wrong. -/

namespace NT

open Spec

theorem Spec.FoundAt.middle (pre b post : Bytes) : FoundAt (pre ++ b ++ post) pre.length pre.length b := by
  refine ⟨Nat.le_refl _, by simp, fun i hi _ => ?_⟩
  rw [List.append_assoc, List.getElem?_append_right (by omega), Nat.add_sub_cancel_left, List.getElem?_append_left hi]

theorem Spec.FoundAt.ofPart {img : Bytes} {p n : Nat} (h : p + n ≤ img.length) : FoundAt img p p (part img p n) := by
  refine ⟨Nat.le_refl _, by rw [part_length h]; exact h, fun i hi _ => ?_⟩
  rw [part_length h] at hi
  unfold part
  rw [List.getElem?_take, if_pos hi, List.getElem?_drop]

/-! ### Files, attributes, data runs -/

set_option maxRecDepth 20000 in
/-- A file of the example volume; it is found at the address 192. -/
theorem exPosFile : exPartsNtfs.file 1 ⟨exPartsImage, 0, []⟩ =
    (.ok (exPartsFile 192 1), (exPartsNtfs.file 1 ⟨exPartsImage, 0, []⟩).2) :=
  Prod.ext (by decide +kernel) rfl

example := C77_file exPartsNtfs 1 _ _ _ exPosFile

theorem exPos_found : FoundAt exPartsImage 192 192 (exPartsFile 192 1).recordData :=
  .ofPart (p := 192) (n := 128) (by decide +kernel)

set_option maxRecDepth 20000 in
theorem exPos_attr : Attr.new (exPartsFile 192 1) 56 none = .ok ⟨exPartsFile 192 1, 56, none⟩ := by decide +kernel

set_option maxRecDepth 20000 in
theorem exPos_runs : Attr.nonResidentValueDataAndPosition ⟨exPartsFile 192 1, 56, none⟩ =
    .ok ([17, 1, 7, 0, 0, 0, 0, 0, 0, 0, 0, 0], some 308) := by decide +kernel

example := C77_attribute exPartsImage (by decide +kernel) (exPartsFile 192 1) 192 (by decide) rfl exPos_found 56 none _
  exPos_attr
example := C77_data_runs_start exPartsImage (by decide +kernel) (exPartsFile 192 1) 192 (by decide) rfl exPos_found 56
  none _ exPos_attr _ _ exPos_runs
example := C77_attribute_errors ⟨exPartsFile 192 1, 56, none⟩ none

theorem exPos_runs_found : FoundAt exPartsImage 192 308 [17, 1, 7, 0, 0, 0, 0, 0, 0, 0, 0, 0] := by
  have h := (C77_data_runs_start exPartsImage (by decide +kernel) (exPartsFile 192 1) 192 (by decide) rfl exPos_found 56
    none _ exPos_attr _ _ exPos_runs).2
  have e : 192 + (56 + field (exPartsFile 192 1).recordData (56 + 32) 2) = 308 := by decide +kernel
  rwa [e] at h

example (n : Nat) := C77_data_runs exPartsImage (by decide +kernel) 64 _ 192 308 (by decide) exPos_runs_found n

/-! ### Index records and their entries -/

/-- The example directory on a volume that also has its file record, at the address 1536. -/
def exPosImage : Bytes := exDirImage ++ exDirRecord

def exPosDir : NFile := ⟨exDirNtfs none, ⟨exDirRecord, some 1536⟩, 30⟩

set_option maxRecDepth 20000 in
theorem exPosDir_found : FoundAt exPosImage 1536 1536 exPosDir.recordData := by
  have h := FoundAt.middle exDirImage exDirRecord []
  rw [List.append_nil, show exDirImage.length = 1536 by decide +kernel] at h
  exact h

set_option maxRecDepth 20000 in
theorem exPosImage_length : exPosImage.length < U64 := by decide +kernel

set_option maxRecDepth 20000 in
theorem exPos_stored : StoredAs 512 exPosImage [0x11, 2, 1, 0, 0, 0, 0, 0] [⟨2, some 1⟩] where
  clusterPos := exDir_stored.clusterPos
  enc := exDir_stored.enc
  rep := exDir_stored.rep
  nonZero := exDir_stored.nonZero
  inImage := by
    intro e he l hl
    have := exDir_stored.inImage e he l hl
    unfold exPosImage
    rw [List.length_append]
    omega
  imgLt := exPosImage_length

def exPosAlloc : Attr := ⟨exPosDir, 240, none⟩

def exPosIndex : Index :=
  ⟨512, ⟨exDirRoot, 0, 120, some 1624⟩, some 1592, some ⟨exPosDir, none, 240, none⟩⟩

set_option maxRecDepth 20000 in
theorem exPosIndex_new : Index.new ⟨exPosDir, none, 56, none⟩ (some ⟨exPosDir, none, 240, none⟩) = .ok exPosIndex := by
  decide +kernel

set_option maxRecDepth 20000 in
theorem exPosRoot_attr : Attr.new exPosDir 56 none = .ok ⟨exPosDir, 56, none⟩ := by decide +kernel

set_option maxRecDepth 20000 in
theorem exPosRoot_resident : Attr.residentIndexRoot ⟨exPosDir, 56, none⟩ =
    .ok ⟨part exDirRecord 88 152, some 1592⟩ := by decide +kernel

set_option maxRecDepth 20000 in
theorem exPosAlloc_runs : exPosAlloc.nonResidentValueDataAndPosition =
    .ok ([0x11, 2, 1, 0, 0, 0, 0, 0], some 1848) := by decide +kernel

set_option maxRecDepth 20000 in
/-- The index root of the example directory is at 1592 + 32, its entries at 1624 + 32. -/
example := C77_index_root_partial exPosImage exPosImage_length exPosDir 1536 (by decide) rfl exPosDir_found 56
  none _ exPosRoot_attr _ exPosRoot_resident 32 16 (by decide +kernel) (by decide +kernel)

set_option maxRecDepth 20000 in
/-- The entries of the root, one by one. -/
example (n i : Nat) (r : Res (Option IEntry)) (it : NodeEntries)
    (hit : IndexRoot.entries ⟨part exDirRecord 88 152, some 1592⟩ = .ok it)
    (h : (NodeEntries.calls n it)[i]? = some r) :
    r.Reports (· = some (1536 + 56 + (16 + 16) + shown (NodeEntries.calls i it))) := by
  obtain ⟨_, _, h3, _⟩ := C77_index_root_partial exPosImage exPosImage_length exPosDir 1536 (by decide) rfl exPosDir_found 56
    none _ exPosRoot_attr _ exPosRoot_resident 32 16 (by decide +kernel) (by decide +kernel)
  obtain ⟨h4, h5⟩ := h3 it hit
  exact (C77_node_entries exPosImage exPosImage_length 1536 _ 32 (by decide) it h4 h5 n i r h).2

set_option maxRecDepth 20000 in
theorem exPos_rootRanges : RangesFound exPosImage (field exDirRecord 76 2) exPosIndex.rootRanges :=
  (C77_index_new_partial exPosImage exPosImage_length ⟨exPosDir, none, 56, none⟩
    (some ⟨exPosDir, none, 240, none⟩) ⟨exPosDir, 56, none⟩ rfl 1536 (by decide) rfl exPosDir_found exPosRoot_attr exPosIndex
    exPosIndex_new).2

set_option maxRecDepth 20000 in
theorem exPos_opens : exPosAlloc.Opens exPosImage exDirStream 1024 := by
  have e : (content 512 exPosImage [⟨2, some 1⟩]).take 1024 = exDirStream := by decide +kernel
  rw [← e]
  refine Attr.opens_nonResident exPosImage exPosAlloc (by unfold Attr.HeaderIn; decide +kernel) rfl
    (by decide +kernel) (by decide +kernel) 72 80 1024 (by decide +kernel) (by decide +kernel)
    (by decide +kernel) (by decide) (by decide +kernel) [⟨2, some 1⟩] ?_
  have e2 : (exPosAlloc.recordData.drop (exPosAlloc.offset + 72)).take (80 - 72) = [0x11, 2, 1, 0, 0, 0, 0, 0] := by
    decide +kernel
  rw [e2]
  exact exPos_stored

theorem exPos_allocOf : AllocOf exPosImage exDirStream 1024 exPosAlloc where
  ty := by decide +kernel
  opens := exPos_opens
  nonRes := .inr ⟨by unfold Attr.HeaderIn; decide +kernel, by decide +kernel⟩

set_option maxRecDepth 20000 in
/-- `C77_subnodes` applies: each node of the example directory is one cluster of the only run. -/
theorem exPos_subnodes : SubnodesFound exPosImage exPosIndex := by
  refine C77_subnodes exPosImage exPosIndex _ exPosAlloc rfl rfl rfl _ _ exPosAlloc_runs [⟨2, some 1⟩] exPos_stored ?_
  intro vcn d sub d' hd hs
  unfold Index.subnode at hs
  have hit : (StM.lift (Res.ofOption (.missingIndexAllocation exPosIndex.rootPosition) exPosIndex.allocationItem) :
      StM Dev AttrItem) d = (.ok ⟨exPosDir, none, 240, none⟩, d) := rfl
  have ha : (StM.lift (AttrItem.toAttribute ⟨exPosDir, none, 240, none⟩) : StM Dev Attr) d = (.ok exPosAlloc, d) := rfl
  rw [StM.bind_of_ok hit, StM.bind_of_ok ha, StM.bind_ok_iff] at hs
  obtain ⟨al, d1, h1, hs⟩ := hs
  rw [StM.bind_ok_iff] at hs
  obtain ⟨r, d2, h2, hs⟩ := hs
  have h3 : exPosAlloc.recordFromVcn 512 vcn d = (.ok r, d2) := by
    unfold Attr.recordFromVcn
    rw [StM.bind_of_ok h1]
    exact h2
  obtain ⟨_, _, k1, k2, _⟩ := C30_only_that_record exPos_allocOf 512 (by decide) vcn d d2 hd r h3
  have hl : exDirStream.length = 1024 := by decide +kernel
  rw [hl] at k2
  show InOneExtent 512 [⟨2, some 1⟩] (vcn * (512 : Nat)).toNat 512
  change (vcn * (512 : Nat)).toNat = vcn.toNat * 512 at k1
  change vcn.toNat * 512 + 512 ≤ 1024 at k2
  simp only [InOneExtent]
  rw [k1, if_pos (by omega)]
  exact ⟨by simp, by omega⟩

/-- Whatever the iteration over the example directory shows is found at its position or 32 bytes after it. -/
example (fuel k i : Nat) (e : IEntry) (d : Dev) (hd : d.Ok exPosImage)
    (h : (IndexEntries.calls exPosIndex fuel k (IndexEntries.new exPosIndex, d))[i]? = some (.ok (some e))) :=
  C77_index_entries_partial exPosImage exPosImage_length _ exPosIndex exPos_rootRanges exPos_subnodes d hd fuel k i e h

/-- The same for whatever a search returns. -/
example (key : Bytes → Pos → Res Nat) (cmp : Nat → Res Ordering) (fuel : Nat) (e : IEntry) (d d' : Dev)
    (hd : d.Ok exPosImage) (h : exPosIndex.find key cmp fuel d = (.ok (some e), d')) :=
  C77_find_partial key cmp exPosImage exPosImage_length _ exPosIndex exPos_rootRanges exPos_subnodes d d' hd fuel e h

/-- Whether the entry of a call is found at its position, and at 32 bytes after it. -/
def exPosCheck (r : Res (Option IEntry)) : Option (Nat × Bool × Bool) :=
  match r with
  | .ok (some e) => e.position.map fun q =>
      (q, decide (part exPosImage q e.slice.length = e.slice), decide (part exPosImage (q + 32) e.slice.length = e.slice))
  | _ => none

set_option maxRecDepth 20000 in
/-- C77 does not hold in full. The iteration over the example directory shows four entries: one of the first node, one
of the index root, and two of the second node. The entry of the index root claims to be at 1624, but it is at 1656.
-/
theorem C77_negation_root :
    (IndexEntries.calls exPosIndex 100 5 (IndexEntries.new exPosIndex, ⟨exPosImage, 0, []⟩)).map exPosCheck =
      [some (560, true, false), some (1624, false, true), some (1072, true, false), some (1160, true, false), none] := by
  decide +kernel

theorem exPosValue : NonRes.new 512 [0x11, 2, 1, 0, 0, 0, 0, 0] (some 1848) 1024 =
    .ok ⟨512, [0x11, 2, 1, 0, 0, 0, 0, 0], some 1848,
      (DataRuns.new 512 [0x11, 2, 1, 0, 0, 0, 0, 0] (some 1848)).next.2, ⟨some ⟨some 512, 1024, 0⟩, 0, 1024⟩⟩ := by
  decide +kernel

/-- The record with VCN 1 is found at 1024. -/
example (d d' : Dev) (hd : d.Ok exPosImage) (r : IndexRecord) (v : NonRes)
    (hv : NonRes.new 512 [0x11, 2, 1, 0, 0, 0, 0, 0] (some 1848) 1024 = .ok v)
    (hr : (IndexAllocation.mk 512 (.simple (.nonRes v))).recordFromVcn 512 1 d = (.ok r, d')) :
    r.record.position = some 1024 := by
  obtain ⟨_, a, h1, _, h2⟩ := C77_index_record 512 exPosImage _ _ _ 1024 exPos_stored (by decide) v hv 512 1
    (by simp [InOneExtent]) d d' hd r hr
  rw [h2.1, ← h1]
  decide

set_option maxRecDepth 20000 in
/-- The second record of the iteration over the allocation is found there too, and its entries 48 bytes later. -/
example (v : NonRes) (hv : NonRes.new 512 [0x11, 2, 1, 0, 0, 0, 0, 0] (some 1848) 1024 = .ok v) (r : IndexRecord)
    (hr : (IndexRecords.calls 3 ((IndexAllocation.mk 512 (.simple (.nonRes v))).records 512, ⟨exPosImage, 0, []⟩))[1]? =
      some (.ok (some r))) (it : NodeEntries) (hit : r.entries = .ok it) :
    ∃ a, addressOf 512 [⟨2, some 1⟩] 512 = some a ∧ it.position = some (a + (24 + field r.record.data 24 4)) := by
  have e := exPosValue
  rw [hv] at e
  cases e
  have h1 : recordsShown (IndexRecords.calls 1 ((IndexAllocation.mk 512 (.simple (.nonRes ⟨512, [0x11, 2, 1, 0, 0, 0, 0, 0],
      some 1848, (DataRuns.new 512 [0x11, 2, 1, 0, 0, 0, 0, 0] (some 1848)).next.2,
      ⟨some ⟨some 512, 1024, 0⟩, 0, 1024⟩⟩))).records 512, ⟨exPosImage, 0, []⟩)) * 512 = 512 := by
    decide +kernel
  obtain ⟨a, k1, k2, k3⟩ := C77_index_records 512 exPosImage _ _ _ 1024 exPos_stored (by decide) _ hv 512 (by decide)
    (by decide) ⟨exPosImage, 0, []⟩ ⟨rfl, by intro x hx; cases hx⟩ 3 1 r hr _ h1.symm (by simp [InOneExtent])
  exact ⟨a, k1, (C77_record_entries exPosImage exPosImage_length r a k2 k3 it hit).1⟩

/-! ### Attribute lists -/

set_option maxRecDepth 20000 in
/-- The second entry of the example list starts at the beginning of the second run, at 128. -/
example (v : NonRes) (hv : NonRes.new 32 [0x11, 1, 2, 0x11, 1, 2, 0] (some 900) 58 = .ok v) (e : ListEntry)
    (he : (AttrList.calls 3 (.nonResident v, ⟨exListImg, 0, []⟩))[1]? = some (.ok (some e))) : e.position = some 128 := by
  have h0 : ∀ w, NonRes.new 32 [0x11, 1, 2, 0x11, 1, 2, 0] (some 900) 58 = .ok w →
      listShown (AttrList.calls 1 (.nonResident w, ⟨exListImg, 0, []⟩)) = 32 := by
    have h : ((NonRes.new 32 [0x11, 1, 2, 0x11, 1, 2, 0] (some 900) 58).bind fun w =>
        .ok (listShown (AttrList.calls 1 (.nonResident w, ⟨exListImg, 0, []⟩)))) = .ok 32 := by decide +kernel
    intro w hw
    rw [hw] at h
    exact Res.ok.inj h
  obtain ⟨_, h⟩ := C77_list_non_resident 32 exListImg _ _ (some 900) 58 exListImg_stored (by decide) v hv
    ⟨exListImg, 0, []⟩ ⟨rfl, by intro x hx; cases hx⟩ 3 1 _ he 32 (h0 v hv).symm
  rw [(h e rfl).1]
  decide

example := C77_list_entry_bytes 32 exListImg [⟨1, some 2⟩, ⟨1, some 4⟩] exListImg_stored.inImage 32 26
  (by simp [InOneExtent])

/-- A file record with a resident attribute list at 56, the value at 24 in the attribute. -/
def exPosListRecord : Bytes :=
  [0x46, 0x49, 0x4C, 0x45, 48, 0, 1, 0,  0, 0, 0, 0, 0, 0, 0, 0,
   1, 0, 1, 0, 56, 0, 1, 0,  148, 0, 0, 0, 152, 0, 0, 0,
   0, 0, 0, 0, 0, 0, 0, 0,  3, 0, 0, 0, 0, 0, 0, 0,
   0, 0, 0, 0, 0, 0, 0, 0,
   0x20, 0, 0, 0, 88, 0, 0, 0,  0, 0, 0, 0, 0, 0, 1, 0,
   58, 0, 0, 0, 24, 0, 0, 0] ++ exList ++ List.replicate 6 0 ++ [0xFF, 0xFF, 0xFF, 0xFF, 0, 0, 0, 0]

def exPosListImage : Bytes := List.replicate 64 0 ++ exPosListRecord

def exPosListFile : NFile := ⟨exPartsNtfs, ⟨exPosListRecord, some 64⟩, 9⟩

theorem exPosList_found : FoundAt exPosListImage 64 64 exPosListFile.recordData := by
  have h := FoundAt.middle (List.replicate 64 0) exPosListRecord []
  rw [List.append_nil, List.length_replicate] at h
  exact h

set_option maxRecDepth 20000 in
theorem exPosList_attr : Attr.new exPosListFile 56 none = .ok ⟨exPosListFile, 56, none⟩ := by decide +kernel

set_option maxRecDepth 20000 in
theorem exPosList_list (d : Dev) : Attr.attributeList ⟨exPosListFile, 56, none⟩ d = (.ok (.resident exList (some 120)), d) := by
  have h1 : Attr.ensureTy ⟨exPosListFile, 56, none⟩ .attributeList = .ok () := by decide +kernel
  have h2 : Attr.simpleValue ⟨exPosListFile, 56, none⟩ = .ok (.res ⟨exList, some 120, 0⟩) := by decide +kernel
  unfold Attr.attributeList
  rw [h1, StM.bind_of_ok (StM.lift_apply _ _)]
  unfold Attr.value
  dsimp only
  rw [h2]
  rfl

set_option maxRecDepth 20000 in
theorem exPosList_start : ∃ b, AttrList.resident exList (some 120) = .resident b (some 120) ∧
    FoundAt exPosListImage 64 (120 + 24) b := by
  have hf : field exPosListFile.recordData (56 + 20) 2 = 24 := by decide +kernel
  rcases C77_list_start_partial exPosListImage (by decide +kernel) exPosListFile 64 (by decide) rfl exPosList_found 56 _
      exPosList_attr ⟨[], 0, []⟩ _ _ (exPosList_list _) with ⟨b, h1, h2⟩ | ⟨b, q, v, h, _⟩
  · rw [hf] at h2; exact ⟨b, h1, h2⟩
  · cases h

example (d : Dev) (n i : Nat) (r : Res (Option ListEntry))
    (hr : (AttrList.calls n (.resident exList (some 120), d))[i]? = some r) :
    r.Reports (· = some (120 + listShown (AttrList.calls i (.resident exList (some 120), d)))) := by
  obtain ⟨b, h1, h2⟩ := exPosList_start
  cases h1
  exact (C77_list_resident_partial exPosListImage (by decide +kernel) 64 120 24 (by decide) exList h2 d n i r hr _ rfl).1

set_option maxRecDepth 20000 in
/-- C77 does not hold in full for resident attribute lists: the first entry of this one claims to be at 120, but there
is the header of the attribute; the entry is at 144. -/
theorem C77_negation_list : ∃ e, (AttrList.calls 1 (.resident exList (some 120), ⟨exPosListImage, 0, []⟩))[0]? =
      some (.ok (some e)) ∧ e.position = some 120 ∧ e.length = 32 ∧ e = entryAt (exList.take 32) (some 120) ∧
    part exPosListImage 120 32 ≠ exList.take 32 ∧ part exPosListImage 144 32 = exList.take 32 :=
  ⟨entryAt (exList.take 32) (some 120), by decide +kernel, rfl, by decide +kernel, rfl, by decide +kernel,
    by decide +kernel⟩

/-! ### Keys, and the errors of records -/

set_option maxRecDepth 20000 in
example := C77_key exPosImage exPosImage_length 1536 1624 32 (by decide) ⟨part exPosImage 1656 96, some 1624⟩ rfl
  (by
    have := exPosDir_found.sub 120 96 (by decide +kernel)
    have e : part exPosDir.recordData 120 96 = part exPosImage 1656 96 := by decide +kernel
    rw [e] at this
    exact this) (part exPosImage 1672 68) (some 1640) (by decide +kernel)

/-- An entry of a view index, with data at the offset 20. -/
def exPosView : Bytes :=
  [20, 0, 4, 0, 0, 0, 0, 0, 24, 0, 4, 0, 0, 0, 0, 0, 1, 0, 0, 0, 7, 7, 7, 7]

example := C77_entry_data (List.replicate 64 0 ++ exPosView ++ []) (by decide +kernel) 64 64 0 (by decide)
  ⟨exPosView, some 64⟩ rfl (FoundAt.middle (List.replicate 64 0) exPosView []) [7, 7, 7, 7] (some 84) (by decide +kernel)

example := C77_entry_errors ⟨exPosView, some 64⟩

set_option maxRecDepth 20000 in
theorem exTornError : (Record.mk exampleTorn (some 4096)).fixup =
    .err (.updateSequenceNumberMismatch (some 4148) [9, 0] [8, 0]) := by decide +kernel

example := C77_record_errors_partial exampleTorn (some 4096) (by decide +kernel) _ _ exTornError rfl

set_option maxRecDepth 20000 in
example := C77_file_errors_partial exPartsNtfs exampleTorn 4096 3 (by decide +kernel)
  (.updateSequenceNumberMismatch (some 4148) [9, 0] [8, 0]) (some 4148) (by decide +kernel) rfl

set_option maxRecDepth 20000 in
example := C77_index_record_errors_partial exampleTorn (some 4096) (by decide +kernel)
  (.invalidIndexSignature (some 4096) [0x46, 0x49, 0x4C, 0x45]) (some 4096) (by decide +kernel) rfl

set_option maxRecDepth 20000 in
/-- C77 does not hold in full for a mismatch of the update sequence number. The record at 512 has the bytes `[8, 0]` at
the end of its second sector, at 1534, instead of `[9, 0]`. The error says that the two bytes at 564 are `[8, 0]`, but
they are not. -/
theorem C77_negation_mismatch :
    NFile.ofBytes exPartsNtfs exampleTorn 512 3 = .err (.updateSequenceNumberMismatch (some 564) [9, 0] [8, 0]) ∧
    part (List.replicate 512 0 ++ exampleTorn) 512 1024 = exampleTorn ∧
    part (List.replicate 512 0 ++ exampleTorn) 564 2 ≠ [8, 0] ∧
    part (List.replicate 512 0 ++ exampleTorn) 1534 2 = [8, 0] := by decide +kernel

end NT
