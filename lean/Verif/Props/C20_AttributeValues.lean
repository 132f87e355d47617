import Verif.Props.C18_Attributes
import Verif.Props.C08_DataRuns

/-! C20 (names and resident values are slices of the attribute), C21 (accessors on malformed
records), C40 (position of resident values). -/

namespace NT

open Spec

/-- C20: `name()` in full, for every attribute the crate hands out (`Attr.new` succeeded): empty if
the name offset or the name length is 0; an error if the name would start at or after the end of the
attribute, or end after it; otherwise exactly the `2 * count` bytes at the name offset, which lie
inside the attribute and the record. It never panics. -/
theorem C20_name (f : NFile) (off : Nat) (l : Option AttrList) (a : Attr)
    (h : Attr.new f off l = .ok a) (start count len : Nat)
    (hs : field f.recordData (off + 10) 2 = start) (hc : field f.recordData (off + 9) 1 = count)
    (hl : field f.recordData (off + 4) 4 = len) :
    off + len ≤ f.recordData.length ∧
    a.name =
      if start = 0 ∨ count = 0 then .ok []
      else if len ≤ start then .err (.invalidAttributeNameOffset a.position start len)
      else if len < start + count * 2 then
        .err (.invalidAttributeNameLength a.position (start + count * 2) len)
      else .ok ((f.recordData.drop (off + start)).take (count * 2)) := by
  obtain ⟨rfl, hv⟩ := Attr.new_ok_iff.1 h
  have hin : off + len ≤ f.recordData.length := by rw [← hl]; exact hv.inside
  exact ⟨hin, Attr.name_eq hv.header _ _ _ hs hc hl hin⟩

/-- C20: the name as a string: `name()` succeeds with the code units `s` iff the header fields
describe that name. -/
theorem C20_name_string (f : NFile) (off : Nat) (l : Option AttrList) (a : Attr)
    (h : Attr.new f off l = .ok a) (s : List Nat) :
    (∃ b, a.name = .ok b ∧ u16s b = s) ↔ NameIs f.recordData off s := by
  obtain ⟨rfl, hv⟩ := Attr.new_ok_iff.1 h
  constructor
  · rintro ⟨b, hb, rfl⟩
    exact Attr.nameIs_of_name hv.header hv.inside hb
  · intro hn
    exact Attr.name_of_nameIs hv.header hv.inside hn

section
variable {a : Attr} (h : a.HeaderIn) (hr : field a.recordData (a.offset + 8) 1 = 0)
include h hr

theorem Attr.assertResident_ok : a.assertResident = .ok () := by
  unfold Attr.assertResident
  rw [Attr.isResident_eq h, hr]; rfl

/-- Resident attributes: the extra header fields. -/
theorem Attr.residentValueLength_eq (h20 : a.offset + 20 ≤ a.recordData.length) :
    a.residentValueLength = .ok (field a.recordData (a.offset + 16) 4) := by
  unfold Attr.residentValueLength
  rw [Attr.assertResident_ok h hr, Res.bind_ok, readLE_ok (by omega)]

theorem Attr.residentValueLength_panic (h20 : ¬ a.offset + 20 ≤ a.recordData.length) :
    a.residentValueLength = .panic .slice := by
  unfold Attr.residentValueLength
  rw [Attr.assertResident_ok h hr, Res.bind_ok]
  unfold readLE; rw [if_neg (by omega)]

theorem Attr.residentValueOffset_eq (h22 : a.offset + 22 ≤ a.recordData.length) :
    a.residentValueOffset = .ok (field a.recordData (a.offset + 20) 2) := by
  unfold Attr.residentValueOffset
  rw [Attr.assertResident_ok h hr, Res.bind_ok, readLE_ok (by omega)]

theorem Attr.residentValueOffset_panic (h22 : ¬ a.offset + 22 ≤ a.recordData.length) :
    a.residentValueOffset = .panic .slice := by
  unfold Attr.residentValueOffset
  rw [Attr.assertResident_ok h hr, Res.bind_ok]
  unfold readLE; rw [if_neg (by omega)]

theorem Attr.residentValue_eq (h22 : a.offset + 22 ≤ a.recordData.length) (start length len : Nat)
    (hs : field a.recordData (a.offset + 20) 2 = start)
    (hn : field a.recordData (a.offset + 16) 4 = length)
    (hl : field a.recordData (a.offset + 4) 4 = len)
    (hin : a.offset + len ≤ a.recordData.length) :
    a.residentValue =
      if len < start then .err (.invalidResidentAttributeValueOffset a.position start len)
      else if len < start + length then
        .err (.invalidResidentAttributeValueLength a.position length start len)
      else .ok ⟨(a.recordData.drop (a.offset + start)).take length, a.position, 0⟩ := by
  have hlt : len < U32 := by
    rw [← hl]; exact field_lt (by unfold Attr.HeaderIn at h; omega)
  unfold Attr.residentValue Attr.validateResidentValueSizes
  rw [Attr.assertResident_ok h hr, Attr.residentValueOffset_eq h hr h22,
    Attr.residentValueLength_eq h hr (by omega), Attr.attributeLength_eq h, hs, hn, hl]
  simp only [Res.bind_ok]
  by_cases h1 : len < start
  · rw [if_pos h1, if_pos h1]; rfl
  · rw [if_neg h1, if_neg h1]
    by_cases h2 : len < start + length
    · rw [if_pos h2]
      by_cases h3 : start + length < U32
      · rw [if_pos h3, if_pos h2]; rfl
      · rw [if_neg h3, if_pos h2]; rfl
    · rw [if_neg h2, if_pos (by omega), if_neg h2]
      simp only [Res.bind_ok]
      rw [idxRange_ok (by omega) (by omega)]
      simp only [Res.bind_ok, ResVal.new, Res.pure_eq]
      congr 3; omega

end

/-- C20: whenever a resident value is obtained from an attribute, it is exactly the `length` bytes at
the value offset (fields at 16 and 20 of the attribute), which lie inside the attribute. -/
theorem C20_resident_value (f : NFile) (off : Nat) (l : Option AttrList) (a : Attr) (v : ResVal)
    (h : Attr.new f off l = .ok a) (hv : a.simpleValue = .ok (.res v))
    (start length : Nat) (hs : field f.recordData (off + 20) 2 = start)
    (hn : field f.recordData (off + 16) 4 = length) :
    field f.recordData (off + 8) 1 = 0 ∧
    start + length ≤ field f.recordData (off + 4) 4 ∧
    off + field f.recordData (off + 4) 4 ≤ f.recordData.length ∧
    v.data = (f.recordData.drop (off + start)).take length ∧ v.data.length = length ∧
    v.streamPosition = 0 ∧ v.position = a.position := by
  obtain ⟨rfl, hval⟩ := Attr.new_ok_iff.1 h
  unfold Attr.simpleValue at hv
  rw [Attr.isResident_eq hval.header] at hv
  simp only [Res.bind_ok] at hv
  by_cases hr : field f.recordData (off + 8) 1 = 0
  · simp only [Attr.recordData, hr, beq_self_eq_true, if_true] at hv
    rw [Res.bind_eq_ok] at hv
    obtain ⟨v', h1, h2⟩ := hv
    injection h2 with h2
    injection h2 with h2
    subst h2
    have hhd := hval.header
    have hin := hval.inside
    unfold Attr.HeaderIn at hhd
    simp only [Attr.recordData] at hhd hin
    by_cases h22 : off + 22 ≤ f.recordData.length
    · rw [Attr.residentValue_eq hval.header hr h22 start length _ hs hn rfl hval.inside] at h1
      simp only [Attr.recordData] at h1
      split at h1
      · cases h1
      split at h1
      · cases h1
      injection h1 with h1
      subst h1
      refine ⟨hr, by omega, hin, rfl, ?_, rfl, rfl⟩
      simp; omega
    · exfalso
      unfold Attr.residentValue Attr.validateResidentValueSizes at h1
      rw [Attr.assertResident_ok hval.header hr, Attr.residentValueOffset_panic hval.header hr h22,
        Attr.attributeLength_eq hval.header] at h1
      cases h1
  · exfalso
    have : (field f.recordData (off + 8) 1 == 0) = false := by simpa using hr
    simp only [Attr.recordData, this] at hv
    rw [if_neg (by simp)] at hv
    cases hnr : Attr.nonResidentValue ⟨f, off, l⟩ <;> rw [hnr] at hv <;> cases hv

/-- C20: exact outcome for a resident attribute whose extra header lies inside the record, errors
included. -/
theorem C20_resident_value_exact (f : NFile) (off : Nat) (l : Option AttrList) (a : Attr)
    (h : Attr.new f off l = .ok a) (hr : field f.recordData (off + 8) 1 = 0)
    (h22 : off + 22 ≤ f.recordData.length) (start length len : Nat)
    (hs : field f.recordData (off + 20) 2 = start) (hn : field f.recordData (off + 16) 4 = length)
    (hl : field f.recordData (off + 4) 4 = len) :
    a.simpleValue =
      if len < start then .err (.invalidResidentAttributeValueOffset a.position start len)
      else if len < start + length then
        .err (.invalidResidentAttributeValueLength a.position length start len)
      else .ok (.res ⟨(f.recordData.drop (off + start)).take length, a.position, 0⟩) := by
  obtain ⟨rfl, hval⟩ := Attr.new_ok_iff.1 h
  have hin : off + len ≤ f.recordData.length := by rw [← hl]; exact hval.inside
  unfold Attr.simpleValue
  rw [Attr.isResident_eq hval.header]
  simp only [Attr.recordData, hr, Res.bind_ok, beq_self_eq_true, if_true]
  rw [Attr.residentValue_eq hval.header hr h22 start length len hs hn hl hin]
  split
  · rfl
  split
  · rfl
  · rfl

section
variable {a : Attr} (h : a.HeaderIn) (hr : field a.recordData (a.offset + 8) 1 ≠ 0)
include h hr

theorem Attr.assertNonResident_ok : a.assertNonResident = .ok () := by
  unfold Attr.assertNonResident
  rw [Attr.isResident_eq h]
  have : (field a.recordData (a.offset + 8) 1 == 0) = false := by simpa using hr
  simp only [this]; rfl

theorem Attr.nonResidentValueDataSize_eq (h56 : a.offset + 56 ≤ a.recordData.length) :
    a.nonResidentValueDataSize = .ok (field a.recordData (a.offset + 48) 8) := by
  unfold Attr.nonResidentValueDataSize
  rw [Attr.assertNonResident_ok h hr, Res.bind_ok, readLE_ok (by omega)]

theorem Attr.nonResidentValueDataSize_panic (h56 : ¬ a.offset + 56 ≤ a.recordData.length) :
    a.nonResidentValueDataSize = .panic .slice := by
  unfold Attr.nonResidentValueDataSize
  rw [Attr.assertNonResident_ok h hr, Res.bind_ok]
  unfold readLE; rw [if_neg (by omega)]

theorem Attr.nonResidentValueDataAndPosition_eq (h34 : a.offset + 34 ≤ a.recordData.length)
    (start len : Nat) (hs : field a.recordData (a.offset + 32) 2 = start)
    (hl : field a.recordData (a.offset + 4) 4 = len) (hin : a.offset + len ≤ a.recordData.length) :
    a.nonResidentValueDataAndPosition =
      if len < start then
        .err (.invalidNonResidentValueDataRange (Pos.add a.file.position (a.offset + start))
          (a.offset + start) (a.offset + len) a.recordData.length)
      else .ok ((a.recordData.drop (a.offset + start)).take (len - start),
        Pos.add a.file.position (a.offset + start)) := by
  unfold Attr.nonResidentValueDataAndPosition Attr.nonResidentValueDataRunsOffset
  rw [Attr.assertNonResident_ok h hr, Attr.attributeLength_eq h]
  simp only [Res.bind_ok]
  rw [readLE_ok (by omega), hs, hl]
  simp only [Res.bind_ok]
  by_cases h1 : len < start
  · rw [if_pos h1]
    have : getRange a.recordData (a.offset + start) (a.offset + len) = none := by
      unfold getRange; rw [if_neg (by omega)]
    rw [this]; rfl
  · rw [if_neg h1, getRange_eq_some (by omega) (by omega)]
    simp only [Res.ofOption, Res.bind_ok, Res.pure_eq]
    congr 3; omega

theorem Attr.nonResidentValue_eq (h56 : a.offset + 56 ≤ a.recordData.length)
    (start len : Nat) (hs : field a.recordData (a.offset + 32) 2 = start)
    (hl : field a.recordData (a.offset + 4) 4 = len) (hin : a.offset + len ≤ a.recordData.length) :
    a.nonResidentValue =
      if len < start then
        .err (.invalidNonResidentValueDataRange (Pos.add a.file.position (a.offset + start))
          (a.offset + start) (a.offset + len) a.recordData.length)
      else NonRes.new a.file.ntfs.clusterSize
        ((a.recordData.drop (a.offset + start)).take (len - start))
        (Pos.add a.file.position (a.offset + start)) (field a.recordData (a.offset + 48) 8) := by
  unfold Attr.nonResidentValue
  rw [Attr.nonResidentValueDataAndPosition_eq h hr (by omega) start len hs hl hin,
    Attr.nonResidentValueDataSize_eq h hr h56]
  split
  · rfl
  · rfl

end

/-- C21, exactly: `value_length()` of an attribute handed out by the crate panics iff the record ends
inside the extra header: before byte 20 of a resident attribute, before byte 56 of a non-resident
one. Otherwise it returns the value-length field. -/
theorem C21_value_length (f : NFile) (off : Nat) (l : Option AttrList) (a : Attr)
    (h : Attr.new f off l = .ok a) :
    a.valueLength =
      if field f.recordData (off + 8) 1 = 0 then
        if off + 20 ≤ f.recordData.length then .ok (field f.recordData (off + 16) 4)
        else .panic .slice
      else
        if off + 56 ≤ f.recordData.length then .ok (field f.recordData (off + 48) 8)
        else .panic .slice := by
  obtain ⟨rfl, hval⟩ := Attr.new_ok_iff.1 h
  unfold Attr.valueLength
  rw [Attr.isResident_eq hval.header]
  simp only [Attr.recordData, Res.bind_ok]
  by_cases hr : field f.recordData (off + 8) 1 = 0
  · simp only [hr, beq_self_eq_true, if_true]
    by_cases h20 : off + 20 ≤ f.recordData.length
    · rw [if_pos h20]; exact Attr.residentValueLength_eq hval.header hr h20
    · rw [if_neg h20]; exact Attr.residentValueLength_panic hval.header hr h20
  · have : (field f.recordData (off + 8) 1 == 0) = false := by simpa using hr
    simp only [this, hr, if_false, Bool.false_eq_true]
    by_cases h56 : off + 56 ≤ f.recordData.length
    · rw [if_pos h56]; exact Attr.nonResidentValueDataSize_eq hval.header hr h56
    · rw [if_neg h56]; exact Attr.nonResidentValueDataSize_panic hval.header hr h56

theorem NonRes.new_safe (cs : Nat) (data : Bytes) (p : Pos) (size : Nat) :
    (NonRes.new cs data p size).Safe := by
  unfold NonRes.new NonRes.nextDataRun
  simp only
  have := (DataRuns.new cs data p).next_cases (by simp [DataRuns.new])
  rcases this with ⟨_, h, _⟩ | ⟨_, h⟩ | ⟨_, h, _⟩ | ⟨_, _, _, h, _⟩ <;> rw [h] <;> trivial

/-- C21, the part that holds: `value_length()` and `value()` of an attribute that the crate hands out
do not panic if the extra header (22 bytes resident, 56 bytes non-resident) lies inside the record,
in particular whenever the attribute itself is that long. Missing: shorter attributes at the very end
of the record (see `C21_negation`); `value()` of an attribute taken from an attribute list is covered
by C03. -/
theorem C21_no_panic_partial (f : NFile) (off : Nat) (l : Option AttrList) (a : Attr)
    (h : Attr.new f off l = .ok a)
    (hhdr : off + (if field f.recordData (off + 8) 1 = 0 then 22 else 56) ≤ f.recordData.length) :
    a.valueLength.Safe ∧ a.simpleValue.Safe := by
  constructor
  · rw [C21_value_length f off l a h]
    split at hhdr
    · rename_i hr; rw [if_pos hr, if_pos (by omega)]; trivial
    · rename_i hr; rw [if_neg hr, if_pos (by omega)]; trivial
  · obtain ⟨rfl, hval⟩ := Attr.new_ok_iff.1 h
    split at hhdr
    · rename_i hr
      rw [C20_resident_value_exact f off l _ h hr hhdr _ _ _ rfl rfl rfl]
      repeat' split
      all_goals trivial
    · rename_i hr
      unfold Attr.simpleValue
      rw [Attr.isResident_eq hval.header]
      have : (field f.recordData (off + 8) 1 == 0) = false := by simpa using hr
      simp only [Attr.recordData, this, Res.bind_ok]
      rw [if_neg (by simp), Attr.nonResidentValue_eq hval.header hr hhdr _ _ rfl rfl hval.inside]
      split
      · trivial
      · exact Res.safe_bind (NonRes.new_safe _ _ _ _) (fun _ _ => trivial)

/-- The example record of C18 cut off right behind the 16-byte header of its only attribute. -/
def exShortRecord : Bytes :=
  [0x46, 0x49, 0x4C, 0x45, 48, 0, 1, 0,  0, 0, 0, 0, 0, 0, 0, 0,
   1, 0, 1, 0, 56, 0, 1, 0,  72, 0, 0, 0, 72, 0, 0, 0,
   0, 0, 0, 0, 0, 0, 0, 0,  3, 0, 0, 0, 0, 0, 0, 0,
   0, 0, 0, 0, 0, 0, 0, 0,
   0x10, 0, 0, 0, 16, 0, 0, 0,  0, 0, 0, 0, 0, 0, 0, 0]

/-- C21 does not hold: the crate accepts this record and iterates its attribute, but `value_length()`
and `value()` panic. -/
theorem C21_negation : ∃ f it a, NFile.ofBytes exNtfs exShortRecord 512 7 = .ok f ∧
    f.attributesRaw = .ok it ∧ it.next.1 = some (.ok a) ∧ a.valueLength = .panic .slice ∧
    a.simpleValue = .panic .slice := by
  refine ⟨⟨exNtfs, ⟨exShortRecord, some 512⟩, 7⟩, ⟨⟨exNtfs, ⟨exShortRecord, some 512⟩, 7⟩, 56, 72⟩,
    ⟨⟨exNtfs, ⟨exShortRecord, some 512⟩, 7⟩, 56, none⟩, by decide, by decide, by decide, by decide,
    by decide⟩

/-- The second attribute of the example record: a resident value of two bytes. -/
example : ∃ a v, Attr.new ⟨exNtfs, ⟨exRecord 112, some 512⟩, 7⟩ 80 none = .ok a ∧
    a.simpleValue = .ok (.res v) ∧ v.data = [7, 9] ∧ a.name = .ok [] ∧ a.valueLength = .ok 2 ∧
    80 + 22 ≤ (exRecord 112).length :=
  ⟨_, _, rfl, rfl, by decide, by decide, by decide, by decide⟩

/-- C40, the part that holds: the position reported for a resident value that has been read up to
`k` is the position of the *attribute* plus `k`; the byte there is not the byte that is read next,
which lies exactly `value_offset` bytes further. Both are given as indices into the record, whose
first byte is at device address `p`. Missing: the position of the byte itself (see
`C40_negation`). -/
theorem C40_deviation_partial (f : NFile) (off p k : Nat) (l : Option AttrList) (a : Attr) (v : ResVal)
    (h : Attr.new f off l = .ok a) (hv : a.simpleValue = .ok (.res v)) (hp : f.position = some p)
    (h0 : 0 < p) (h64 : p + f.recordData.length < U64)
    (hk : k < v.data.length) (start : Nat) (hs : field f.recordData (off + 20) 2 = start) :
    ∃ v', v.seek (.start k) = (.ok k, v') ∧ v'.dataPosition = some (p + (off + k)) ∧
      v.data[k]? = f.recordData[off + k + start]? := by
  obtain ⟨_, h2, h3, h4, h5, h6, h7⟩ := C20_resident_value f off l a v h hv start _ hs rfl
  obtain ⟨rfl, hval⟩ := Attr.new_ok_iff.1 h
  refine ⟨{ v with streamPosition := k }, rfl, ?_, ?_⟩
  · unfold ResVal.dataPosition
    simp only [h7, Attr.position, hp]
    rw [if_pos (by simp only [ResVal.len]; omega)]
    simp only [Pos.add, Pos.new]
    have : (p + off) % U64 = p + off := by rw [Nat.mod_eq_of_lt]; omega
    rw [this, if_neg (by omega)]
    simp only
    rw [Nat.mod_eq_of_lt (by omega), if_neg (by omega)]
    congr 1; omega
  · rw [h4, List.getElem?_take, if_pos (by omega), List.getElem?_drop]
    congr 1; omega

/-- C40 does not hold: in the example record the value [7, 9] starts at device address
512 + 80 + 22, but the position reported for its first byte is 512 + 80. -/
theorem C40_negation : ∃ a v, Attr.new ⟨exNtfs, ⟨exRecord 112, some 512⟩, 7⟩ 80 none = .ok a ∧
    a.simpleValue = .ok (.res v) ∧ v.dataPosition = some 592 ∧ v.data[0]? = some 7 ∧
    (exRecord 112)[592 - 512]? = some 0x80 :=
  ⟨_, _, rfl, rfl, by decide, by decide, by decide⟩

/-! ### The theorems of this file on that attribute -/

theorem exAttr80 : Attr.new ⟨exNtfs, ⟨exRecord 112, some 512⟩, 7⟩ 80 none = .ok ⟨⟨exNtfs, ⟨exRecord 112, some 512⟩, 7⟩, 80, none⟩ := rfl

example := C20_name _ _ _ _ exAttr80 0 0 24 (by decide) (by decide) (by decide)
example := C20_name_string _ _ _ _ exAttr80 []
example := C20_resident_value _ _ _ _ _ exAttr80 rfl 22 2 (by decide) (by decide)
example := C20_resident_value_exact _ _ _ _ exAttr80 (by decide) (by decide) 22 2 24 (by decide) (by decide) (by decide)
example := C21_value_length _ _ _ _ exAttr80
example := C21_no_panic_partial _ _ _ _ exAttr80 (by decide)
example := C40_deviation_partial _ _ 512 1 _ _ _ exAttr80 rfl rfl (by decide) (by decide) (by decide) 22 (by decide)

end NT
