import Verif.Props.C22_Lookup
import Verif.Props.C39_DataPosition
import Verif.Lemmas.Dev

/-! C17: `Ntfs::file(n)` returns the n-th record of the MFT stream. -/

namespace NT

open Spec

/-- `NtfsFile::new` over a device that does not fail. -/
theorem NFile.new_noFail (ntfs : Ntfs) (p number : Nat) (d : Dev) (hd : d.NoFail)
    (h0 : 0 < ntfs.fileRecordSize) :
    ∃ d', NFile.new ntfs p number d =
        (if p + ntfs.fileRecordSize ≤ d.img.length then
          NFile.ofBytes ntfs ((d.img.drop p).take ntfs.fileRecordSize) p number
         else .err (.io .unexpectedEof), d') ∧ d'.img = d.img ∧ d'.NoFail := by
  unfold NFile.new
  obtain ⟨d1, h1, h2, h3, h4⟩ := Dev.seekStart_ok p d hd
  obtain ⟨d2, h5, h6, h7⟩ := Dev.readExact_noFail ntfs.fileRecordSize d1 h4
  rw [StM.bind_of_ok h1]
  rw [h2, h3] at h5
  by_cases hin : p + ntfs.fileRecordSize ≤ d.img.length
  · rw [if_pos (Or.inr hin)] at h5
    rw [if_pos hin, StM.bind_of_ok h5]
    exact ⟨d2, rfl, by rw [h6, h2], h7⟩
  · rw [if_neg (by omega)] at h5
    rw [if_neg hin, StM.bind_of_err h5]
    exact ⟨d2, rfl, by rw [h6, h2], h7⟩

/-- How the MFT describes itself: the record at `mftPosition` is accepted as `mft`, its first $DATA
attribute (at `off`; all attributes before it are sound) is non-resident, and its data runs describe
the extents `es`. -/
structure MftStored (ntfs : Ntfs) (img : Bytes) (mft : NFile) (es : List Extent) (pre : List Nat)
    (off len start : Nat) : Prop where
  mftPos : ∃ p, ntfs.mftPosition = some p ∧ p + ntfs.fileRecordSize ≤ img.length ∧
    NFile.ofBytes ntfs ((img.drop p).take ntfs.fileRecordSize) p 0 = .ok mft
  sizePos : 0 < ntfs.fileRecordSize
  chain : Chain mft.recordData (field mft.recordData 20 2) pre off
  attr : AttrAt mft.recordData off len
  first : ∀ q ∈ pre, NotWanted mft.recordData q typeCodes 0x80 none none
  ty : field mft.recordData off 4 = 0x80
  nonRes : field mft.recordData (off + 8) 1 ≠ 0
  header : 56 ≤ len
  runsAt : field mft.recordData (off + 32) 2 = start
  runsIn : start ≤ len
  runs : StoredAs ntfs.clusterSize img ((mft.recordData.drop (off + start)).take (len - start)) es

/-- The first steps of `Ntfs::file`, on a device that does not fail. -/
theorem Ntfs.file_eq (ntfs : Ntfs) (img : Bytes) (mft : NFile) (es : List Extent) (pre : List Nat)
    (off len start : Nat) (h : MftStored ntfs img mft es pre off len start) (d : Dev) (hd : d.NoFail)
    (hi : d.img = img) (number : Nat) :
    ∃ d', ntfs.file number d =
      (if U64 ≤ number * ntfs.fileRecordSize then .err (.invalidFileRecordNumber number)
       else match addressOf ntfs.clusterSize es (number * ntfs.fileRecordSize) with
        | none => .err (.invalidFileRecordNumber number)
        | some a =>
          if a + ntfs.fileRecordSize ≤ img.length then
            NFile.ofBytes ntfs ((img.drop a).take ntfs.fileRecordSize) a number
          else .err (.io .unexpectedEof), d') ∧ d'.img = img ∧ d'.NoFail := by
  unfold Ntfs.file checkedMulU64
  by_cases hov : U64 ≤ number * ntfs.fileRecordSize
  · rw [if_pos hov, if_neg (by omega)]
    exact ⟨d, rfl, hi, hd⟩
  rw [if_neg hov, if_pos (by omega)]
  obtain ⟨p, hp, hpin, hmft⟩ := h.mftPos
  obtain ⟨d1, h1, h2, h3⟩ := NFile.new_noFail ntfs p 0 d hd h.sizePos
  rw [hi, if_pos hpin, hmft] at h1
  have hmft' := hmft
  obtain ⟨_, r, _, hmr, h32, _⟩ := (NFile.ofBytes_ok_iff _ _ _ _ _).1 hmft'
  have hnt : mft.ntfs = ntfs := by rw [hmr]
  have hl32 : 32 ≤ mft.recordData.length := by rw [hmr]; exact h32
  have hfind : mft.findResidentAttribute .data none none = .ok ⟨mft, off, none⟩ :=
    (C22_first_match mft hl32 .data none none _).2 ⟨pre, off, h.chain, ⟨len, h.attr⟩, rfl,
      ⟨h.ty, by simp, by simp⟩, h.first⟩
  have hal := h.attr.length
  have hah := h.header
  have hai := h.attr.inside
  have hHI : (Attr.mk mft off none).HeaderIn := by
    unfold Attr.HeaderIn; simp only [Attr.recordData]; omega
  have hval : (Attr.mk mft off none).simpleValue = (do
      let v ← NonRes.new ntfs.clusterSize ((mft.recordData.drop (off + start)).take (len - start))
        (Pos.add mft.position (off + start)) (field mft.recordData (off + 48) 8)
      pure (.nonRes v)) := by
    unfold Attr.simpleValue
    rw [Attr.isResident_eq hHI]
    have : (field mft.recordData (off + 8) 1 == 0) = false := by simpa using h.nonRes
    simp only [Attr.recordData, this, Res.bind_ok]
    have hrin := h.runsIn
    rw [if_neg (by simp), Attr.nonResidentValue_eq hHI h.nonRes
      (by simp only [Attr.recordData]; omega) start len h.runsAt hal hai, if_neg (by omega)]
    simp only [hnt]
  have hsz : field mft.recordData (off + 48) 8 < U64 := by
    have := field_lt (d := mft.recordData) (a := off + 48) (n := 8) (by omega)
    exact this
  obtain ⟨v, v', hv1, _, hv2, hv3⟩ := C39_fresh_seek ntfs.clusterSize img _ es
    (Pos.add mft.position (off + start)) _ h.runs hsz (.start (number * ntfs.fileRecordSize))
    (by simp only [SeekFrom.InRange]; omega) (by simp only [validTarget, seekTarget]; omega)
  have hst : (seekTarget 0 (field mft.recordData (off + 48) 8)
      (.start (number * ntfs.fileRecordSize))).toNat = number * ntfs.fileRecordSize := by
    exact Int.toNat_natCast _
  rw [hst] at hv2 hv3
  rw [hv1, Res.bind_ok, Res.pure_eq] at hval
  rw [StM.bind_of_ok (show StM.lift (Res.ofOption (Err.invalidFileRecordNumber number)
    (some (number * ntfs.fileRecordSize))) d = (.ok (number * ntfs.fileRecordSize), d) from rfl)]
  simp only [hp]
  rw [StM.bind_of_ok h1]
  rw [StM.bind_of_ok (show StM.lift (mft.findResidentAttribute .data none none) d1 =
    (.ok ⟨mft, off, none⟩, d1) by rw [StM.lift_apply, hfind])]
  rw [StM.bind_of_ok (show StM.lift (Attr.mk mft off none).simpleValue d1 =
    (.ok (SVal.nonRes v), d1) by rw [StM.lift_apply, hval])]
  simp only [SVal.seek, hv2, SVal.dataPosition, hv3]
  cases haddr : addressOf ntfs.clusterSize es (number * ntfs.fileRecordSize) with
  | none => exact ⟨d1, rfl, by rw [h2, hi], h3⟩
  | some a =>
    obtain ⟨d2, g1, g2, g3⟩ := NFile.new_noFail ntfs a number d1 h3 h.sizePos
    rw [h2, hi] at g1
    exact ⟨d2, g1, by rw [g2, h2, hi], g3⟩

/-- C17: record numbers whose offset does not fit into 64 bits, or lies behind the MFT's allocation
or in a sparse part of it, are rejected with `InvalidFileRecordNumber`. -/
theorem C17_rejected (ntfs : Ntfs) (img : Bytes) (mft : NFile) (es : List Extent) (pre : List Nat)
    (off len start : Nat) (h : MftStored ntfs img mft es pre off len start) (d : Dev) (hd : d.NoFail)
    (hi : d.img = img) (number : Nat)
    (hn : U64 ≤ number * ntfs.fileRecordSize ∨
      addressOf ntfs.clusterSize es (number * ntfs.fileRecordSize) = none) :
    (ntfs.file number d).1 = .err (.invalidFileRecordNumber number) := by
  obtain ⟨d', h1, _⟩ := Ntfs.file_eq ntfs img mft es pre off len start h d hd hi number
  rw [h1]
  by_cases hov : U64 ≤ number * ntfs.fileRecordSize
  · rw [if_pos hov]
  · rw [if_neg hov]
    rcases hn with hn | hn
    · omega
    · rw [hn]

/-- `t` and the following `n - 1` bytes of the value lie in one extent that is stored. -/
def Spec.InOneExtent (cs : Nat) : List Extent → Nat → Nat → Prop
  | [], _, _ => False
  | e :: es, t, n =>
    if t < e.count * cs then e.lcn ≠ none ∧ t + n ≤ e.count * cs
    else InOneExtent cs es (t - e.count * cs) n

theorem Spec.InOneExtent.bytes (cs : Nat) (img : Bytes) (es : List Extent) (hin : InImage cs img es)
    (t n : Nat) (h : InOneExtent cs es t n) :
    ∃ a, addressOf cs es t = some a ∧ a + n ≤ img.length ∧
      (img.drop a).take n = ((content cs img es).drop t).take n := by
  induction es generalizing t with
  | nil => exact h.elim
  | cons e es ih =>
    have hbl : (e.bytes cs img).length = e.count * cs := by
      rcases e with ⟨c, _ | l⟩
      · simp [Extent.bytes]
      · have := hin ⟨c, some l⟩ (by simp) l rfl
        simp only [Extent.bytes, List.length_take, List.length_drop] at this ⊢
        omega
    have hc : content cs img (e :: es) = e.bytes cs img ++ content cs img es := by
      simp [content]
    rw [hc]
    simp only [InOneExtent] at h
    simp only [addressOf]
    by_cases hlt : t < e.count * cs
    · rw [if_pos hlt] at h ⊢
      rcases e with ⟨c, _ | l⟩
      · exact absurd rfl h.1
      · have hil := hin ⟨c, some l⟩ (by simp) l rfl
        dsimp only at hil hlt hbl h
        refine ⟨l * cs + t, rfl, by omega, ?_⟩
        rw [List.drop_append_of_le_length (by omega), List.take_append_of_le_length
          (by rw [List.length_drop]; omega)]
        simp only [Extent.bytes]
        rw [List.drop_take, List.take_take, List.drop_drop]
        congr 1
        omega
    · rw [if_neg hlt] at h ⊢
      obtain ⟨a, h1, h2, h3⟩ := ih (fun e he => hin e (by simp [he])) _ h
      refine ⟨a, h1, h2, ?_⟩
      rw [h3, List.drop_append, List.drop_of_length_le (l := e.bytes cs img) (by omega),
        List.nil_append, hbl]

/-- C17, the part that holds: if the n-th record of the MFT stream lies in one extent, `Ntfs::file(n)`
is exactly `NtfsFile` made from the bytes of the MFT stream at `n * file_record_size` (signature,
fixup and size checks included), with record number `n`, and its position is the device address of
the record. Missing: records that straddle two extents (see `C17_negation`). -/
theorem C17_record_partial (ntfs : Ntfs) (img : Bytes) (mft : NFile) (es : List Extent) (pre : List Nat)
    (off len start : Nat) (h : MftStored ntfs img mft es pre off len start) (d : Dev) (hd : d.NoFail)
    (hi : d.img = img) (number : Nat) (hov : number * ntfs.fileRecordSize < U64)
    (hone : InOneExtent ntfs.clusterSize es (number * ntfs.fileRecordSize) ntfs.fileRecordSize) :
    ∃ a, addressOf ntfs.clusterSize es (number * ntfs.fileRecordSize) = some a ∧
      (ntfs.file number d).1 = NFile.ofBytes ntfs
        (((content ntfs.clusterSize img es).drop (number * ntfs.fileRecordSize)).take
          ntfs.fileRecordSize) a number := by
  obtain ⟨a, h1, h2, h3⟩ := hone.bytes ntfs.clusterSize img es h.runs.inImage
  refine ⟨a, h1, ?_⟩
  obtain ⟨d', h4, _⟩ := Ntfs.file_eq ntfs img mft es pre off len start h d hd hi number
  rw [h4, if_neg (by omega), h1]
  simp only
  rw [if_pos h2, h3]

/-- Whatever `Ntfs::file` returns carries the requested record number, has valid sizes and is the
fixed-up form of some bytes that start with the signature. -/
theorem C17_sound (ntfs : Ntfs) (number : Nat) (d d' : Dev) (f : NFile)
    (h : ntfs.file number d = (.ok f, d')) :
    f.number = number ∧ f.ntfs = ntfs ∧
    ∃ raw a, raw.take 4 = [0x46, 0x49, 0x4C, 0x45] ∧
      (Record.mk raw (some a)).fixup = .ok f.record ∧ 32 ≤ f.recordData.length ∧
      field f.recordData 28 4 ≤ f.recordData.length ∧
      field f.recordData 24 4 ≤ field f.recordData 28 4 := by
  have key : ∀ a d1, NFile.new ntfs a number d1 = (.ok f, d') → f.number = number ∧ f.ntfs = ntfs ∧
      ∃ raw a, raw.take 4 = [0x46, 0x49, 0x4C, 0x45] ∧
      (Record.mk raw (some a)).fixup = .ok f.record ∧ 32 ≤ f.recordData.length ∧
      field f.recordData 28 4 ≤ f.recordData.length ∧
      field f.recordData 24 4 ≤ field f.recordData 28 4 := by
    intro a d1 hnew
    obtain ⟨data, h⟩ := NFile.new_ok hnew
    obtain ⟨h1, r, h2, rfl, h3⟩ := (NFile.ofBytes_ok_iff _ _ _ _ _).1 h
    exact ⟨rfl, rfl, data, a, h1, h2, h3⟩
  unfold Ntfs.file at h
  cases hm : ntfs.mftPosition with
  | none =>
    simp only [hm, StM.bind_apply] at h
    split at h <;> cases h
  | some mp =>
    simp only [hm] at h
    rw [StM.bind_apply] at h
    split at h <;> try (cases h; done)
    rw [StM.bind_apply] at h
    split at h <;> try (cases h; done)
    rw [StM.bind_apply] at h
    split at h <;> try (cases h; done)
    rw [StM.bind_apply] at h
    split at h <;> try (cases h; done)
    generalize SVal.seek _ _ = q at h
    obtain ⟨r, v'⟩ := q
    cases r with
    | ok _ =>
      simp only at h
      cases hdp : v'.dataPosition with
      | some a => rw [hdp] at h; exact key _ _ h
      | none => rw [hdp] at h; cases h
    | err e => cases h
    | panic p => cases h
    | diverge => cases h

/-- An image with clusters of 64 bytes and records of 128 bytes. The MFT consists of clusters 1-2,
4 and 6: its second record straddles two extents. -/
def exMftImage : Bytes :=
  List.replicate 64 0 ++
  -- cluster 1, 2: record 0, with a non-resident $DATA attribute at 56
  [0x46, 0x49, 0x4C, 0x45, 48, 0, 1, 0,  0, 0, 0, 0, 0, 0, 0, 0,
   1, 0, 1, 0, 56, 0, 1, 0,  128, 0, 0, 0, 128, 0, 0, 0,
   0, 0, 0, 0, 0, 0, 0, 0,  3, 0, 0, 0, 0, 0, 0, 0,
   0, 0, 0, 0, 0, 0, 0, 0,
   0x80, 0, 0, 0, 72, 0, 0, 0,  1, 0, 0, 0, 0, 0, 1, 0,
   0, 0, 0, 0, 0, 0, 0, 0,  3, 0, 0, 0, 0, 0, 0, 0,
   60, 0, 0, 0, 0, 0, 0, 0,  0, 1, 0, 0, 0, 0, 0, 0,
   0, 1, 0, 0, 0, 0, 0, 0,  0, 0, 0, 0,
   0x11, 2, 1, 0x11, 1, 3, 0x11, 1, 2, 0, 0, 0] ++
  List.replicate 64 0 ++
  -- cluster 4: the first half of record 1
  [0x46, 0x49, 0x4C, 0x45, 48, 0, 1, 0,  0, 0, 0, 0, 0, 0, 0, 0,
   1, 0, 1, 0, 64, 0, 1, 0,  128, 0, 0, 0, 128, 0, 0, 0,
   0, 0, 0, 0, 0, 0, 0, 0,  3, 0, 0, 0, 0, 0, 0, 0,
   0, 0, 0, 0, 0, 0, 0, 0, 0, 0, 0, 0, 0, 0, 0, 0] ++
  -- cluster 5: not part of the MFT
  List.replicate 64 0x55 ++
  -- cluster 6: the second half of record 1
  List.replicate 64 0xFF

/-- The volume of `exMftImage`. -/
def exMftNtfs : Ntfs :=
  { clusterSize := 64, sectorSize := 64, size := 448, mftPosition := some 64,
    fileRecordSize := 128, serialNumber := 0, upcaseTable := none }

set_option maxRecDepth 20000 in
theorem exMftStored : ∃ mft, MftStored exMftNtfs exMftImage mft
    [⟨2, some 1⟩, ⟨1, some 4⟩, ⟨1, some 6⟩] [] 56 72 60 := by
  refine ⟨⟨exMftNtfs, ⟨(exMftImage.drop 64).take 128, some 64⟩, 0⟩, ?_⟩
  exact {
    mftPos := ⟨64, rfl, by decide, by decide⟩
    sizePos := by decide
    chain := .nil 56
    attr := ⟨by decide, by decide, by decide, by decide⟩
    first := by simp
    ty := by decide
    nonRes := by decide
    header := by decide
    runsAt := by decide
    runsIn := by decide
    runs := {
      clusterPos := by decide
      enc := by
        have hb : List.take (72 - 60) (List.drop (56 + 60)
            (NFile.recordData ⟨exMftNtfs, ⟨(exMftImage.drop 64).take 128, some 64⟩, 0⟩)) =
            [0x11, 2, 1, 0x11, 1, 3, 0x11, 1, 2, 0, 0, 0] := by decide
        rw [hb]
        refine .run 0 1 1 _ _ _ ?_ (.run _ 1 1 _ _ _ ?_ (.run _ 1 1 _ _ _ ?_ (.terminated _ [0, 0])))
        · simp [WidthsOk, FitsSigned]
        · simp [WidthsOk, FitsSigned, Extent.lcnAfter]
        · simp [WidthsOk, FitsSigned, Extent.lcnAfter]
      rep := by simp [Representable, exMftNtfs]
      nonZero := by simp [NonZero, Extent.lcnAfter]
      inImage := by
        intro e he l hl
        have : exMftImage.length = 448 := by decide
        rw [this]
        simp only [List.mem_cons, List.not_mem_nil, or_false] at he
        rcases he with rfl | rfl | rfl <;> injection hl with hl <;> subst hl <;> decide
      imgLt := by decide } }

/-- Record 0 of the example lies in one extent. -/
example : InOneExtent 64 [⟨2, some 1⟩, ⟨1, some 4⟩, ⟨1, some 6⟩] (0 * 128) 128 := by
  simp [InOneExtent]

/-- Record number 2 lies behind the allocation. -/
example : addressOf 64 [⟨2, some 1⟩, ⟨1, some 4⟩, ⟨1, some 6⟩] (2 * 128) = none := by decide

set_option maxRecDepth 20000 in
/-- C17 does not hold for records that straddle two extents: the second record of the example MFT is
assembled from cluster 4 and cluster 5 instead of cluster 4 and cluster 6. -/
theorem C17_negation : ∃ f, (exMftNtfs.file 1 ⟨exMftImage, 0, []⟩).1 = .ok f ∧
    f.recordData.drop 64 = List.replicate 64 0x55 ∧
    (((content 64 exMftImage [⟨2, some 1⟩, ⟨1, some 4⟩, ⟨1, some 6⟩]).drop 128).take 128).drop 64 =
      List.replicate 64 0xFF ∧
    (Record.mk (((content 64 exMftImage [⟨2, some 1⟩, ⟨1, some 4⟩, ⟨1, some 6⟩]).drop 128).take 128)
      (some 256)).fixup = .ok ⟨((content 64 exMftImage [⟨2, some 1⟩, ⟨1, some 4⟩,
        ⟨1, some 6⟩]).drop 128).take 128, some 256⟩ := by
  refine ⟨⟨exMftNtfs, ⟨(exMftImage.drop 256).take 128, some 256⟩, 1⟩, ?_, by decide, by decide, by decide⟩
  obtain ⟨mft, h⟩ := exMftStored
  obtain ⟨d', h1, _⟩ := Ntfs.file_eq _ _ _ _ _ _ _ _ h ⟨exMftImage, 0, []⟩ (by intro x hx; cases hx) rfl 1
  rw [h1]
  dsimp only
  decide

/-- The three theorems on this MFT. Records 2 and `2 ^ 60` do not exist, record 0 lies in one extent. -/
example := exMftStored.elim fun _ h => C17_rejected _ _ _ _ _ _ _ _ h ⟨exMftImage, 3, [.chunk 1]⟩ (by simp [Dev.NoFail]) rfl 2
  (.inr (by decide))
example := exMftStored.elim fun _ h => C17_rejected _ _ _ _ _ _ _ _ h ⟨exMftImage, 3, [.chunk 1]⟩ (by simp [Dev.NoFail]) rfl (2 ^ 60)
  (.inl (by decide))
example := exMftStored.elim fun _ h => C17_record_partial _ _ _ _ _ _ _ _ h ⟨exMftImage, 3, [.chunk 1]⟩ (by simp [Dev.NoFail]) rfl 0
  (by decide) (by simp [InOneExtent, exMftNtfs])
set_option maxRecDepth 20000 in
example : ∃ f, (exMftNtfs.file 0 ⟨exMftImage, 3, []⟩).1 = .ok f ∧ f.number = 0 := by
  have h : ∃ f, (exMftNtfs.file 0 ⟨exMftImage, 3, []⟩).1 = .ok f :=
    ⟨⟨exMftNtfs, ⟨(exMftImage.drop 64).take 128, some 64⟩, 0⟩, by decide +kernel⟩
  exact h.elim fun f h => ⟨f, h, (C17_sound _ _ _ _ f (Prod.ext h rfl)).1⟩

end NT
