import Verif.Props.C47_NameLookup
import Verif.Props.C22_Lookup
import Verif.Props.C17_File

/-! C55: `info` of a file, `volume_info` and `volume_name`. -/

namespace NT

open Spec

/-- The first attribute with type code `code` in the record is the one at `off`, and the attributes
before it are of known types. -/
def Spec.FirstOf (d : Bytes) (code off : Nat) : Prop :=
  ∃ pre, Chain d (field d 20 2) pre off ∧ (∃ len, AttrAt d off len) ∧ field d off 4 = code ∧
    ∀ p ∈ pre, field d p 4 ∈ typeCodes ∧ field d p 4 ≠ code

/-- The record has attributes of known types other than `code` only. -/
def Spec.NoneOf (d : Bytes) (code : Nat) : Prop :=
  ∃ offs fin, Chain d (field d 20 2) offs fin ∧ EndsAt d fin ∧
    ∀ p ∈ offs, field d p 4 ∈ typeCodes ∧ field d p 4 ≠ code

theorem firstOf_iff {f : NFile} (h : 32 ≤ f.recordData.length) (ty : AttrType) (a : Attr) :
    f.findResidentAttribute ty none none = .ok a ↔
      ∃ off, FirstOf f.recordData ty.code off ∧ a = ⟨f, off, none⟩ := by
  rw [C22_first_match f h]
  constructor
  · rintro ⟨pre, off, h1, h2, h3, h4, h5⟩
    refine ⟨off, ⟨pre, h1, h2, h4.ty, fun p hp => ?_⟩, h3⟩
    obtain ⟨g1, g2 | ⟨i, g2, _⟩ | ⟨s, _, g2, _⟩⟩ := h5 p hp
    · exact ⟨g1, g2⟩
    · cases g2
    · cases g2
  · rintro ⟨off, ⟨pre, h1, h2, h4, h5⟩, h3⟩
    refine ⟨pre, off, h1, h2, h3, ⟨h4, (by intro i h; cases h), (by intro s h; cases h)⟩, fun p hp => ?_⟩
    exact ⟨(h5 p hp).1, .inl (h5 p hp).2⟩

theorem noneOf_iff {f : NFile} (h : 32 ≤ f.recordData.length) (ty : AttrType) :
    f.findResidentAttribute ty none none = .err (.attributeNotFound f.position ty) ↔
      NoneOf f.recordData ty.code := by
  rw [C22_not_found_iff f h]
  constructor
  · rintro ⟨_, _, offs, fin, h1, h2, h3⟩
    refine ⟨offs, fin, h1, h2, fun p hp => ?_⟩
    obtain ⟨g1, g2 | ⟨i, g2, _⟩ | ⟨s, _, g2, _⟩⟩ := h3 p hp
    · exact ⟨g1, g2⟩
    · cases g2
    · cases g2
  · rintro ⟨offs, fin, h1, h2, h3⟩
    exact ⟨rfl, rfl, offs, fin, h1, h2, fun p hp => ⟨(h3 p hp).1, .inl (h3 p hp).2⟩⟩

theorem Spec.AttrAt.valid {f : NFile} {off len : Nat} (h : AttrAt f.recordData off len) (l : Option AttrList) :
    (Attr.mk f off l).Valid := by
  have := h.inside
  have := h.header
  exact ⟨by unfold Attr.HeaderIn Attr.recordData; dsimp only; omega,
    by simp only [Attr.recordData]; rw [h.length]; exact h.header,
    by simp only [Attr.recordData]; rw [h.length]; exact h.inside⟩

/-- **C55**: `find_resident_attribute_structured_value` succeeds exactly if the first attribute of the
type is resident, its value lies inside the attribute, and the bytes of the value decode; it gives what
they decode to. -/
theorem C55_structured_iff {α : Type} {S : Structured α} {res : Bytes → Pos → Nat → Res α}
    (hS : S.Decodes res) (f : NFile) (h : 32 ≤ f.recordData.length) (x : α) :
    f.findResidentStructured S none = .ok x ↔
      ∃ off, FirstOf f.recordData S.ty.code off ∧ Placed f off ∧
        res (valueAt f off) (Pos.add (Pos.add f.position off) 0) (field f.recordData (off + 16) 4) = .ok x := by
  unfold NFile.findResidentStructured
  rw [Res.bind_eq_ok]
  constructor
  · rintro ⟨a, h1, h2⟩
    obtain ⟨off, hf, rfl⟩ := (firstOf_iff h S.ty a).1 h1
    obtain ⟨pre, hc, ⟨len, ha⟩, ht, hp⟩ := hf
    have hv := ha.valid (f := f) none
    have hn : Attr.new f off none = .ok ⟨f, off, none⟩ := Attr.new_ok_iff.2 ⟨rfl, hv⟩
    have hty : Attr.ty ⟨f, off, none⟩ = .ok S.ty := (Attr.ty_ok_iff hv.header).2 ht
    have hpl : Placed f off := by
      have h3 := h2
      unfold Attr.residentStructuredValue at h3
      obtain ⟨_, _, h3⟩ := Res.bind_eq_ok.1 h3
      obtain ⟨b, hb, h3⟩ := Res.bind_eq_ok.1 h3
      cases b with
      | false => rw [if_neg (by decide)] at h3; cases h3
      | true =>
        rw [if_pos rfl] at h3
        obtain ⟨v, hvv, _⟩ := Res.bind_eq_ok.1 h3
        have hsv : Attr.simpleValue ⟨f, off, none⟩ = .ok (.res v) := by
          unfold Attr.simpleValue
          rw [hb, Res.bind_ok, if_pos rfl, hvv]
          rfl
        obtain ⟨k1, k2, _⟩ := C20_resident_value f off none _ v hn hsv _ _ rfl rfl
        refine ⟨k1, ?_, k2⟩
        apply Classical.byContradiction
        intro h22
        unfold Attr.residentValue Attr.validateResidentValueSizes at hvv
        rw [Attr.assertResident_ok hv.header k1, Attr.residentValueOffset_panic hv.header k1 h22,
          Attr.attributeLength_eq hv.header] at hvv
        cases hvv
    refine ⟨off, ⟨pre, hc, ⟨len, ha⟩, ht, hp⟩, hpl, ?_⟩
    rw [hS.residentStructuredValue f off none _ hn hty hpl.2.1 _ _ _ rfl rfl rfl hpl.2.2, if_pos hpl.1] at h2
    exact h2
  · rintro ⟨off, hf, hpl, hr⟩
    refine ⟨⟨f, off, none⟩, (firstOf_iff h S.ty _).2 ⟨off, hf, rfl⟩, ?_⟩
    obtain ⟨pre, hc, ⟨len, ha⟩, ht, hp⟩ := hf
    have hv := ha.valid (f := f) none
    have hn : Attr.new f off none = .ok ⟨f, off, none⟩ := Attr.new_ok_iff.2 ⟨rfl, hv⟩
    have hty : Attr.ty ⟨f, off, none⟩ = .ok S.ty := (Attr.ty_ok_iff hv.header).2 ht
    rw [hS.residentStructuredValue f off none _ hn hty hpl.2.1 _ _ _ rfl rfl rfl hpl.2.2, if_pos hpl.1]
    exact hr

theorem notFound_res_iff {α : Type} {S : Structured α} {res : Bytes → Pos → Nat → Res α}
    (hS : S.Decodes res) (hres : ∀ b p l q t, res b p l ≠ .err (.attributeNotFound q t))
    (f : NFile) (h : 32 ≤ f.recordData.length) (q : Pos) (t : AttrType) :
    f.findResidentStructured S none = .err (.attributeNotFound q t) ↔
      q = f.position ∧ t = S.ty ∧ NoneOf f.recordData S.ty.code := by
  unfold NFile.findResidentStructured
  constructor
  · intro he
    cases ha : f.findResidentAttribute S.ty none none with
    | ok a =>
      exfalso
      obtain ⟨off, hf, rfl⟩ := (firstOf_iff h S.ty a).1 ha
      obtain ⟨pre, hc, ⟨len, hat⟩, ht, hp⟩ := hf
      have hv := hat.valid (f := f) none
      have hn : Attr.new f off none = .ok ⟨f, off, none⟩ := Attr.new_ok_iff.2 ⟨rfl, hv⟩
      have hty : Attr.ty ⟨f, off, none⟩ = .ok S.ty := (Attr.ty_ok_iff hv.header).2 ht
      rw [ha, Res.bind_ok] at he
      by_cases hpl : Placed f off
      · rw [hS.residentStructuredValue f off none _ hn hty hpl.2.1 _ _ _ rfl rfl rfl hpl.2.2, if_pos hpl.1]
          at he
        exact hres _ _ _ _ _ he
      · unfold Attr.residentStructuredValue at he
        have e1 : Attr.ensureTy ⟨f, off, none⟩ S.ty = .ok () := by
          unfold Attr.ensureTy
          rw [hty, Res.bind_ok, if_neg (by simp)]
        rw [e1, Res.bind_ok, Attr.isResident_eq hv.header, Res.bind_ok] at he
        simp only [Attr.recordData] at he
        by_cases hr : field f.recordData (off + 8) 1 = 0
        · rw [hr, if_pos (by decide)] at he
          by_cases h22 : off + 22 ≤ f.recordData.length
          · rw [Attr.residentValue_eq hv.header hr h22 _ _ _ rfl rfl rfl hv.inside] at he
            simp only [Attr.recordData] at he
            split at he
            · cases he
            split at he
            · cases he
            · rename_i g1 g2
              exact hpl ⟨hr, h22, by omega⟩
          · unfold Attr.residentValue Attr.validateResidentValueSizes at he
            rw [Attr.assertResident_ok hv.header hr, Attr.residentValueOffset_panic hv.header hr h22,
              Attr.attributeLength_eq hv.header] at he
            cases he
        · have : (field f.recordData (off + 8) 1 == 0) = false := by simpa using hr
          rw [this, if_neg (by decide)] at he
          cases he
    | err e =>
      rw [ha] at he
      have he : e = .attributeNotFound q t := by
        injection he
      subst he
      obtain ⟨rfl, rfl, _⟩ := (C22_not_found_iff f h _ _ _ _ _).1 ha
      exact ⟨rfl, rfl, (noneOf_iff h S.ty).1 ha⟩
    | panic p => rw [ha] at he; cases he
    | diverge => rw [ha] at he; cases he
  · rintro ⟨rfl, rfl, hn⟩
    rw [(noneOf_iff h S.ty).2 hn]
    rfl

theorem volumeNameRes_ne (b : Bytes) (p : Pos) (l : Nat) (q : Pos) (t : AttrType) :
    volumeNameRes b p l ≠ .err (.attributeNotFound q t) := by
  unfold volumeNameRes
  intro h
  split at h
  · cases h
  split at h <;> cases h

/-- **C55**: `info` gives the fields of the first `$STANDARD_INFORMATION` of the record. -/
theorem C55_info (f : NFile) (h : 32 ≤ f.recordData.length) (x : StdInfo) :
    f.info = .ok x ↔
      ∃ off, FirstOf f.recordData 0x10 off ∧ Placed f off ∧
        48 ≤ field f.recordData (off + 16) 4 ∧
        x = stdInfoAt (valueAt f off) (decide (72 ≤ field f.recordData (off + 16) 4)) := by
  unfold NFile.info
  rw [C55_structured_iff StdInfo.decodes f h]
  refine exists_congr fun off => and_congr_right fun hf => and_congr_right fun hpl => ?_
  obtain ⟨pre, _, ⟨len, ha⟩, _⟩ := hf
  have hlen : (valueAt f off).length = field f.recordData (off + 16) 4 := by
    have := ha.inside
    have := hpl.2.2
    rw [ha.length] at this
    unfold valueAt
    rw [List.length_take, List.length_drop]
    omega
  unfold stdInfoRes
  by_cases h1 : field f.recordData (off + 16) 4 < 48
  · rw [if_pos h1]
    exact ⟨fun h => (by cases h), fun h => by omega⟩
  · rw [if_neg h1, if_neg (by rw [hlen]; split <;> omega)]
    exact ⟨fun h => ⟨by omega, (Res.ok.inj h).symm⟩, fun h => by rw [h.2]⟩

/-- **C55**: `volume_info` gives the version and flags in the first `$VOLUME_INFORMATION` of the record of
file 3. -/
theorem C55_volume_info (n : Ntfs) (d d' : Dev) (f : NFile) (hf : n.file 3 d = (.ok f, d')) (x : VolumeInfo) :
    n.volumeInfo d = (.ok x, d') ↔
      ∃ off, FirstOf f.recordData 0x70 off ∧ Placed f off ∧ 12 ≤ field f.recordData (off + 16) 4 ∧
        x.majorVersion = field (valueAt f off) 8 1 ∧ x.minorVersion = field (valueAt f off) 9 1 ∧
        x.rawFlags = field (valueAt f off) 10 2 := by
  obtain ⟨_, _, _, _, _, _, h32, _⟩ := C17_sound n 3 d d' f hf
  unfold Ntfs.volumeInfo
  rw [StM.bind_of_ok hf, StM.lift_apply]
  have : (f.findResidentStructured VolumeInfo.structured none, d') = (Res.ok x, d') ↔
      f.findResidentStructured VolumeInfo.structured none = .ok x := by simp
  rw [this, C55_structured_iff VolumeInfo.decodes f h32]
  refine exists_congr fun off => and_congr_right fun hf => and_congr_right fun hpl => ?_
  obtain ⟨pre, _, ⟨len, ha⟩, _⟩ := hf
  have hlen : (valueAt f off).length = field f.recordData (off + 16) 4 := by
    have := ha.inside
    have := hpl.2.2
    rw [ha.length] at this
    unfold valueAt
    rw [List.length_take, List.length_drop]
    omega
  unfold volumeInfoRes
  by_cases h1 : field f.recordData (off + 16) 4 < 12
  · rw [if_pos h1]
    exact ⟨fun h => (by cases h), fun h => by omega⟩
  · rw [if_neg h1, if_neg (by omega)]
    cases x
    simp only [Res.ok.injEq, VolumeInfo.mk.injEq]
    constructor
    · rintro ⟨rfl, rfl, rfl⟩; exact ⟨by omega, rfl, rfl, rfl⟩
    · rintro ⟨_, rfl, rfl, rfl⟩; exact ⟨rfl, rfl, rfl⟩

/-- **C55**: `volume_name` gives the bytes of the first `$VOLUME_NAME` of the record of file 3 (at most
256), and nothing exactly if the record has no such attribute. -/
theorem C55_volume_name (n : Ntfs) (d d' : Dev) (f : NFile) (hf : n.file 3 d = (.ok f, d')) :
    (∀ x, n.volumeName d = (.ok (some x), d') ↔
      ∃ off, FirstOf f.recordData 0x60 off ∧ Placed f off ∧ field f.recordData (off + 16) 4 ≤ 256 ∧
        x.name = valueAt f off) ∧
    (n.volumeName d = (.ok none, d') ↔ NoneOf f.recordData 0x60) := by
  obtain ⟨_, _, _, _, _, _, h32, _⟩ := C17_sound n 3 d d' f hf
  unfold Ntfs.volumeName
  rw [StM.bind_of_ok hf]
  have hiff := C55_structured_iff VolumeName.decodes f h32
  have hnone := notFound_res_iff VolumeName.decodes volumeNameRes_ne f h32
  constructor
  · intro x
    have : (∃ off, FirstOf f.recordData 0x60 off ∧ Placed f off ∧ field f.recordData (off + 16) 4 ≤ 256 ∧
        x.name = valueAt f off) ↔ f.findResidentStructured VolumeName.structured none = .ok x := by
      rw [hiff]
      refine exists_congr fun off => and_congr_right fun hf => and_congr_right fun hpl => ?_
      obtain ⟨pre, _, ⟨len, ha⟩, _⟩ := hf
      have hlen : (valueAt f off).length = field f.recordData (off + 16) 4 := by
        have := ha.inside
        have := hpl.2.2
        rw [ha.length] at this
        unfold valueAt
        rw [List.length_take, List.length_drop]
        omega
      unfold volumeNameRes
      by_cases h1 : 256 < field f.recordData (off + 16) 4
      · rw [if_pos h1]
        exact ⟨fun h => by omega, fun h => (by cases h)⟩
      · rw [if_neg h1, if_neg (by omega), ← hlen, List.take_length]
        cases x
        simp only [Res.ok.injEq, VolumeName.mk.injEq]
        exact ⟨fun h => h.2.symm, fun h => ⟨by omega, h.symm⟩⟩
    rw [this]
    cases hr : f.findResidentStructured VolumeName.structured none with
    | ok v =>
      show (Res.ok (some v), d') = _ ↔ _
      simp
    | err e =>
      cases e <;> simp [StM.fail, Pure.pure]
    | panic p => simp [StM.die]
    | diverge => simp [StM.lift]
  · rw [show NoneOf f.recordData 0x60 ↔ f.findResidentStructured VolumeName.structured none =
      .err (.attributeNotFound f.position .volumeName) from
      ⟨fun h => (hnone _ _).2 ⟨rfl, rfl, h⟩, fun h => ((hnone _ _).1 h).2.2⟩]
    cases hr : f.findResidentStructured VolumeName.structured none with
    | ok v => simp [Pure.pure]
    | err e =>
      cases e
      case attributeNotFound q t =>
        obtain ⟨rfl, rfl, _⟩ := (hnone q t).1 hr
        simp [Pure.pure]
        rfl
      all_goals simp [StM.fail]
    | panic p => simp [StM.die]
    | diverge => simp [StM.lift]

/-! ### An example volume -/

/-- Clusters of 64 bytes, records of 128 bytes. The MFT starts with three records of holes; the record of
file 3 follows in clusters 3 and 4: it has a `$VOLUME_NAME` "AB" at 56 and a `$VOLUME_INFORMATION` with
version 3.1 and flags 1 at 88. -/
def exVolImage : Bytes :=
  List.replicate 64 0 ++
  [70, 73, 76, 69, 48, 0, 1, 0, 0, 0, 0, 0, 0, 0, 0, 0,
   1, 0, 1, 0, 56, 0, 1, 0, 128, 0, 0, 0, 128, 0, 0, 0,
   0, 0, 0, 0, 0, 0, 0, 0, 3, 0, 0, 0, 0, 0, 0, 0,
   0, 0, 0, 0, 0, 0, 0, 0, 128, 0, 0, 0, 72, 0, 0, 0,
   1, 0, 0, 0, 0, 0, 1, 0, 0, 0, 0, 0, 0, 0, 0, 0,
   0, 0, 0, 0, 0, 0, 0, 0, 64, 0, 0, 0, 0, 0, 0, 0,
   0, 0, 0, 0, 0, 0, 0, 0, 0, 2, 0, 0, 0, 0, 0, 0,
   0, 0, 0, 0, 0, 0, 0, 0, 1, 6, 17, 2, 3, 0, 0, 0] ++
  [70, 73, 76, 69, 48, 0, 1, 0, 0, 0, 0, 0, 0, 0, 0, 0,
   1, 0, 1, 0, 56, 0, 1, 0, 128, 0, 0, 0, 128, 0, 0, 0,
   0, 0, 0, 0, 0, 0, 0, 0, 3, 0, 0, 0, 0, 0, 0, 0,
   0, 0, 0, 0, 0, 0, 0, 0,
   0x60, 0, 0, 0, 32, 0, 0, 0, 0, 0, 0, 0, 0, 0, 0, 0, 4, 0, 0, 0, 24, 0, 0, 0, 65, 0, 66, 0, 0, 0, 0, 0,
   0x70, 0, 0, 0, 40, 0, 0, 0, 0, 0, 0, 0, 0, 0, 1, 0, 12, 0, 0, 0, 24, 0, 0, 0,
   0, 0, 0, 0, 0, 0, 0, 0, 3, 1, 1, 0, 0, 0, 0, 0]

def exVolNtfs : Ntfs :=
  { clusterSize := 64, sectorSize := 64, size := 320, mftPosition := some 64,
    fileRecordSize := 128, serialNumber := 0, upcaseTable := none }

def exVolMft : NFile := ⟨exVolNtfs, ⟨(exVolImage.drop 64).take 128, some 64⟩, 0⟩

def exVolFile : NFile := ⟨exVolNtfs, ⟨(exVolImage.drop 192).take 128, some 192⟩, 3⟩

set_option maxRecDepth 20000 in
theorem exVolMft_stored :
    MftStored exVolNtfs exVolImage exVolMft [⟨6, none⟩, ⟨2, some 3⟩] [] 56 72 64 :=
  { mftPos := ⟨64, rfl, by decide, by decide⟩
    sizePos := by decide
    chain := .nil 56
    attr := ⟨by decide, by decide, by decide, by decide⟩
    first := by simp
    ty := by decide
    nonRes := by decide
    header := by decide
    runsAt := by decide
    runsIn := by decide
    runs := {
      clusterPos := by decide
      enc := by
        have hb : List.take (72 - 64) (List.drop (56 + 64) exVolMft.recordData) =
            [0x01, 6, 0x11, 2, 3, 0, 0, 0] := by decide
        rw [hb]
        refine .run 0 1 0 ⟨6, none⟩ _ [0x11, 2, 3, 0, 0, 0] ?_
          (.run 0 1 1 ⟨2, some 3⟩ _ [0, 0, 0] ?_ (.terminated _ _))
        · simp [WidthsOk]
        · simp [WidthsOk, FitsSigned]
      rep := by simp [Representable, exVolNtfs]
      nonZero := by simp [NonZero, Extent.lcnAfter]
      inImage := by
        intro e he l hl
        have : exVolImage.length = 320 := by decide
        rw [this]
        simp only [List.mem_cons, List.not_mem_nil, or_false] at he
        rcases he with rfl | rfl
        · cases hl
        · injection hl with hl; subst hl; decide
      imgLt := by decide } }

set_option maxRecDepth 20000 in
/-- The volume is called "AB", has version 3.1 and is dirty. -/
example (d : Dev) (hd : d.Ok exVolImage) : ∃ d',
    exVolNtfs.volumeName d = (.ok (some ⟨[65, 0, 66, 0]⟩), d') ∧
    exVolNtfs.volumeInfo d = (.ok ⟨3, 1, 1⟩, d') := by
  obtain ⟨d', e, _⟩ := Ntfs.file_eq _ _ _ _ _ _ _ _ exVolMft_stored d hd.2 hd.1 3
  have e : exVolNtfs.file 3 d = (.ok exVolFile, d') := by
    rw [e]
    congr 1
  have a1 : AttrAt exVolFile.recordData 56 32 := ⟨by decide, by decide, by decide, by decide⟩
  have a2 : AttrAt exVolFile.recordData 88 40 := ⟨by decide, by decide, by decide, by decide⟩
  have h20 : field exVolFile.recordData 20 2 = 56 := by decide
  refine ⟨d', ?_, ?_⟩
  · refine ((C55_volume_name exVolNtfs d d' _ e).1 _).2 ⟨56, ⟨[], ?_, ⟨32, a1⟩, by decide, by simp⟩,
      ⟨by decide, by decide, by decide⟩, by decide, by decide⟩
    rw [h20]; exact .nil 56
  · refine (C55_volume_info exVolNtfs d d' _ e _).2 ⟨88, ⟨[56], ?_, ⟨40, a2⟩, by decide, ?_⟩,
      ⟨by decide, by decide, by decide⟩, by decide, by decide, by decide, by decide⟩
    · rw [h20]; exact .cons a1 (.nil 88)
    · intro p hp
      simp only [List.mem_cons, List.not_mem_nil, or_false] at hp
      subst hp
      decide

/-- A record with a `$STANDARD_INFORMATION` of 48 bytes with creation time 7 and attributes 0x20. -/
def exInfoFile : NFile := ⟨exVolNtfs, ⟨
  [70, 73, 76, 69, 48, 0, 1, 0, 0, 0, 0, 0, 0, 0, 0, 0,
   1, 0, 1, 0, 56, 0, 1, 0, 128, 0, 0, 0, 128, 0, 0, 0,
   0, 0, 0, 0, 0, 0, 0, 0, 3, 0, 0, 0, 0, 0, 0, 0,
   0, 0, 0, 0, 0, 0, 0, 0,
   0x10, 0, 0, 0, 72, 0, 0, 0, 0, 0, 0, 0, 0, 0, 0, 0, 48, 0, 0, 0, 24, 0, 0, 0,
   7, 0, 0, 0, 0, 0, 0, 0] ++ List.replicate 24 1 ++ [0x20, 0, 0, 0] ++ List.replicate 12 0, some 0⟩, 9⟩

set_option maxRecDepth 20000 in
example : ∃ x, exInfoFile.info = .ok x ∧ x.creationTime = 7 ∧ x.rawFileAttributes = 0x20 ∧ x.ntfs3 = none := by
  refine ⟨_, (C55_info exInfoFile (by decide) _).2 ⟨56, ⟨[], ?_, ⟨72, by decide, by decide, by decide,
    by decide⟩, by decide, by simp⟩, ⟨by decide, by decide, by decide⟩, by decide, rfl⟩,
    by decide, by decide, by decide⟩
  rw [show field exInfoFile.recordData 20 2 = 56 by decide]
  exact .nil 56

set_option maxRecDepth 20000 in
/-- `C55_structured_iff` for the volume name of that record. -/
example := C55_structured_iff VolumeName.decodes exVolFile (by decide) ⟨[65, 0, 66, 0]⟩

end NT
