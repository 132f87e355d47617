import Verif.Lemmas.Tame
import Verif.Lemmas.Returns
import Verif.Props.C22_Lookup

/-! No panic on harmless volumes: file records, attributes and `Ntfs::file`. -/

namespace NT

open Spec

/-- The same volume, perhaps with its upcase table loaded (all 65536 entries of it). -/
structure Ntfs.Like (n m : Ntfs) : Prop where
  same : m = { n with upcaseTable := m.upcaseTable }
  table : ∀ t, m.upcaseTable = some t → t.length = 65536

/-- The volume `n` on the bytes `img` has none of the malformations in records of files that lead to a panic:
the record size is one that the library can handle, the $MFT has a position, and its record and every record
that `Ntfs::file` delivers are well-formed as far as `RecordOk` says. -/
structure Spec.Harmless (n : Ntfs) (img : Bytes) : Prop where
  size : 32 ≤ n.fileRecordSize ∧ n.fileRecordSize < 65536
  mft : n.mftPosition ≠ none
  table : ∀ m p d f d', n.Like m → d.img = img → n.mftPosition = some p → NFile.new m p 0 d = (.ok f, d') →
    RecordOk n.clusterSize f.recordData
  files : ∀ m k d f d', n.Like m → d.img = img → m.file k d = (.ok f, d') → RecordOk n.clusterSize f.recordData

/-- A volume and the bytes it lies on. -/
structure Vol where
  ntfs : Ntfs
  img : Bytes

/-- The volume is harmless. -/
abbrev Vol.Harmless (n : Vol) : Prop := Spec.Harmless n.ntfs n.img

/-- The fixed-up record `r` lies on the bytes `img`. -/
def Spec.OnDisk (size : Nat) (img : Bytes) (r : Record) : Prop :=
  ∃ p, p + size ≤ img.length ∧ ((img.drop p).take size).take 4 = [0x46, 0x49, 0x4C, 0x45] ∧
    (Record.mk ((img.drop p).take size) (some p)).fixup = .ok r

/-- A file of a harmless volume. -/
structure NFile.Tame (n : Vol) (f : NFile) : Prop where
  onDisk : OnDisk n.ntfs.fileRecordSize n.img f.record
  ntfs : n.ntfs.Like f.ntfs
  size : f.recordData.length = n.ntfs.fileRecordSize
  min : 32 ≤ f.recordData.length
  ok : RecordOk n.ntfs.clusterSize f.recordData

/-- An attribute list of a harmless volume. -/
def AttrList.Tame : AttrList → Prop
  | .resident _ _ => True
  | .nonResident v => v.Bounded

/-- An attribute of a harmless volume. -/
structure Attr.Tame (n : Vol) (a : Attr) : Prop where
  file : a.file.Tame n
  bound : Boundary a.recordData a.offset
  here : ∃ len, AttrAt a.recordData a.offset len
  list : ∀ l, a.list = some l → l.Tame ∧ field a.recordData (a.offset + 8) 1 ≠ 0

/-- An iterator over the attributes of one record of a harmless volume. -/
structure AttrsRaw.Tame (n : Vol) (it : AttrsRaw) : Prop where
  file : it.file.Tame n
  bound : Boundary it.file.recordData it.start

theorem Ntfs.Like.refl {n : Ntfs} (h : ∀ t, n.upcaseTable = some t → t.length = 65536) : n.Like n := ⟨rfl, h⟩

theorem Ntfs.Like.clusterSize {n m : Ntfs} (h : n.Like m) : m.clusterSize = n.clusterSize := by
  rw [h.same]

theorem Ntfs.Like.fileRecordSize {n m : Ntfs} (h : n.Like m) : m.fileRecordSize = n.fileRecordSize := by
  rw [h.same]

theorem Ntfs.Like.mftPosition {n m : Ntfs} (h : n.Like m) : m.mftPosition = n.mftPosition := by
  rw [h.same]

/-! ### Attributes -/

namespace Attr.Tame

variable {n : Vol} {a : Attr}

theorem valid (h : a.Tame n) : a.Valid := by
  obtain ⟨len, h1, h2, h3, h4⟩ := h.here
  exact ⟨by unfold Attr.HeaderIn; omega, by omega, by omega⟩

theorem attrOk (h : a.Tame n) :
    AttrOk n.ntfs.clusterSize a.recordData a.offset (field a.recordData (a.offset + 4) 4) := by
  obtain ⟨len, h1⟩ := h.here
  have := h.file.ok _ _ h.bound h1
  rw [h1.length]
  exact this

theorem isResident (h : a.Tame n) :
    a.isResident = .ok (field a.recordData (a.offset + 8) 1 == 0) := Attr.isResident_eq h.valid.header

theorem new (h : a.Tame n) : Attr.new a.file a.offset a.list = .ok a := Attr.new_ok_iff.mpr ⟨rfl, h.valid⟩

theorem simpleValue_noPanic (h : a.Tame n) : a.simpleValue.NoPanic ∧ a.valueLength.NoPanic := by
  have := C21_no_panic_partial a.file a.offset a.list a h.new (by
    split
    · exact h.attrOk.resident ‹_›
    · exact h.attrOk.nonResident ‹_›)
  exact ⟨this.2.noPanic, this.1.noPanic⟩

theorem nonResident (h : a.Tame n) (hr : field a.recordData (a.offset + 8) 1 ≠ 0) :
    a.nonResidentValueDataAndPosition.NoPanic ∧
    (∀ data p, a.nonResidentValueDataAndPosition = .ok (data, p) → RunsFit n.ntfs.clusterSize data) ∧
    a.nonResidentValueDataSize = .ok (field a.recordData (a.offset + 48) 8) ∧
    field a.recordData (a.offset + 48) 8 < U64 := by
  have h56 := h.attrOk.nonResident hr
  have hruns := h.attrOk.runs hr
  have e := Attr.nonResidentValueDataAndPosition_eq h.valid.header hr
    (by omega : a.offset + 34 ≤ a.recordData.length) _ _ rfl rfl h.valid.inside
  refine ⟨?_, ?_, Attr.nonResidentValueDataSize_eq h.valid.header hr h56, ?_⟩
  · rw [e]
    exact .ite (fun _ => Res.noPanic_err _) fun _ => Res.noPanic_ok _
  · intro data p h2
    rw [e] at h2
    split at h2
    · cases h2
    · cases h2; exact hruns
  · have := field_lt (d := a.recordData) (a := a.offset + 48) (n := 8) (by omega)
    exact this

end Attr.Tame

/-- A simple value of a harmless volume. -/
def SVal.Tame : SVal → Prop
  | .res _ => True
  | .nonRes v => v.Bounded

theorem Attr.simpleValue_tame {n : Vol} {a : Attr} (h : a.Tame n) :
    a.simpleValue.NoPanic ∧ ∀ v, a.simpleValue = .ok v → v.Tame := by
  refine ⟨h.simpleValue_noPanic.1, fun v hv => ?_⟩
  unfold Attr.simpleValue at hv
  rw [h.isResident, Res.bind_ok] at hv
  split at hv
  · rename_i hr
    obtain ⟨r, h1, h2⟩ := Res.bind_eq_ok.mp hv
    cases h2
    trivial
  · rename_i hr
    have hr : field a.recordData (a.offset + 8) 1 ≠ 0 := by simpa using hr
    obtain ⟨r, h1, h2⟩ := Res.bind_eq_ok.mp hv
    cases h2
    rw [Attr.nonResidentValue_eq h.valid.header hr (h.attrOk.nonResident hr) _ _ rfl rfl h.valid.inside] at h1
    split at h1
    · cases h1
    have h2 := h.nonResident hr
    refine (NonRes.new_tame h2.2.2.2 ?_).2 _ h1
    rw [h.file.ntfs.clusterSize]
    exact h.attrOk.runs hr

/-! ### Finding attributes of one record -/

theorem Spec.Boundary.chain {b : Bytes} {start fin : Nat} {offs : List Nat} (h : Chain b start offs fin)
    (hs : Boundary b start) : Boundary b fin := by
  induction h with
  | nil => exact hs
  | cons h1 _ ih => exact ih (.next hs h1)

theorem NFile.findResident_tame {n : Vol} {f : NFile} (h : f.Tame n) (ty : AttrType) (name : Option (List Nat))
    (i : Option Nat) :
    (f.findResidentAttribute ty name i).NoPanic ∧
      ∀ a, f.findResidentAttribute ty name i = .ok a → a.Tame n ∧ a.file = f := by
  refine ⟨(C22_no_panic f h.min ty name i).noPanic, fun a ha => ?_⟩
  obtain ⟨pre, off, hc, hat, rfl, _⟩ := (C22_first_match f h.min ty name i a).1 ha
  exact ⟨⟨h, .chain hc .first, hat, fun l hl => by cases hl⟩, rfl⟩

theorem readLE_noPanic {k : Nat} {d : Bytes} {a : Nat} (h : a + k ≤ d.length) : (readLE k d a).NoPanic := by
  rw [readLE_ok h]; exact Res.noPanic_ok _

theorem NFile.attributesRaw_tame {n : Vol} {f : NFile} (h : f.Tame n) :
    f.attributesRaw.NoPanic ∧ ∀ it, f.attributesRaw = .ok it → it.Tame n ∧ it.file = f := by
  have hm := h.min
  have e : f.attributesRaw = .ok ⟨f, field f.recordData 20 2, field f.recordData 24 4⟩ := by
    unfold NFile.attributesRaw NFile.firstAttributeOffset NFile.dataSize
    rw [readLE_ok (by omega), readLE_ok (by omega)]; rfl
  rw [e]
  exact ⟨Res.noPanic_ok _, fun it hit => by cases hit; exact ⟨⟨h, .first⟩, rfl⟩⟩

theorem AttrsRaw.next_tame {n : Vol} {it : AttrsRaw} (h : it.Tame n) :
    it.next.2.Tame n ∧ it.next.2.file = it.file ∧ ∀ r, it.next.1 = some r → r.NoPanic ∧
      ∀ a, r = .ok a → a.Tame n ∧ a.file = it.file ∧ a.list = none := by
  rcases it.next_cases with ⟨_, e⟩ | ⟨len, h1, e⟩ | ⟨_, _, e⟩ <;> rw [e]
  · exact ⟨h, rfl, fun r hr => by cases hr⟩
  · refine ⟨⟨h.file, .next h.bound h1⟩, rfl, fun r hr => ?_⟩
    cases hr
    refine ⟨Res.noPanic_ok _, fun a ha => ?_⟩
    cases ha
    exact ⟨⟨h.file, h.bound, ⟨len, h1⟩, fun l hl => by cases hl⟩, rfl, rfl⟩
  · refine ⟨h, rfl, fun r hr => ?_⟩
    cases hr
    exact ⟨Res.noPanic_err _, fun a ha => by cases ha⟩

theorem Attr.Tame.ty {n : Vol} {a : Attr} (h : a.Tame n) : a.ty.NoPanic := by
  rw [Attr.ty_eq h.valid.header]; exact .ofOption _ _

theorem Attr.Tame.ensureTy {n : Vol} {a : Attr} (h : a.Tame n) (t : AttrType) : (a.ensureTy t).NoPanic :=
  h.ty.bind fun _ _ => .ite (fun _ => Res.noPanic_err _) fun _ => Res.noPanic_ok _

theorem Attr.Tame.name {n : Vol} {a : Attr} (h : a.Tame n) : a.name.NoPanic := (Attr.name_safe h.valid).noPanic

theorem Attr.Tame.inst {n : Vol} {a : Attr} (h : a.Tame n) : a.inst.NoPanic :=
  readLE_noPanic (by have := h.valid.header; unfold Attr.HeaderIn at this; omega)

/-! ### Files -/

theorem NFile.ofBytes_noPanic {n : Ntfs} {b : Bytes} {p i : Nat} (h : 32 ≤ b.length) (h' : b.length < 65536) :
    (NFile.ofBytes n b p i).NoPanic := by
  unfold NFile.ofBytes
  refine .bind ?_ fun _ _ => .bind (C14_no_panic_partial ⟨b, some p⟩ (by dsimp only; omega) h').noPanic
    fun r hr => .bind ?_ fun _ _ => Res.noPanic_ok _
  · unfold NFile.validateSignature Record.signature
    rw [idxRange_ok (by omega) (by dsimp only; omega)]
    exact .ite (fun _ => Res.noPanic_ok _) fun _ => Res.noPanic_err _
  · have hl := (Record.fixup_length hr).1
    dsimp only at hl
    unfold NFile.validateSizes NFile.allocatedSize NFile.dataSize
    refine .bind (readLE_noPanic (by dsimp only [NFile.recordData]; omega)) fun _ _ =>
      .ite (fun _ => Res.noPanic_err _) fun _ => .bind (readLE_noPanic (by dsimp only [NFile.recordData]; omega))
      fun _ _ => .ite (fun _ => Res.noPanic_err _) fun _ => Res.noPanic_ok _

theorem NFile.new_noPanic {n : Ntfs} {img : Bytes} (hs : 32 ≤ n.fileRecordSize ∧ n.fileRecordSize < 65536)
    (p i : Nat) : StM.Tame (Dev.Has img) (NFile.new n p i) fun f => f.ntfs = n ∧ f.number = i ∧
      f.recordData.length = n.fileRecordSize ∧ OnDisk n.fileRecordSize img f.record := by
  intro d hd
  unfold NFile.new
  rw [StM.bind_apply]
  rcases Dev.seekStart_cases p d with ⟨d1, e, h, hp, _⟩ | ⟨x, d1, e, h, _, _⟩ <;> rw [e]
  case inr => exact .err (h.trans hd)
  dsimp only
  rw [StM.bind_apply]
  obtain ⟨d2, h2, ⟨e2, g⟩ | ⟨e2, g⟩⟩ := Dev.readExact_any n.fileRecordSize d1
  case inr => rw [g]; exact .err (h2.trans (h.trans hd))
  rw [e2, h, hp, hd]
  rw [h, hp, hd] at g
  dsimp only
  have hb : ((img.drop p).take n.fileRecordSize).length = n.fileRecordSize := by
    rw [List.length_take, List.length_drop]; omega
  refine ⟨NFile.ofBytes_noPanic (by omega) (by omega), h2.trans (h.trans hd), fun f hf => ?_⟩
  have hl := NFile.ofBytes_length hf
  obtain ⟨h1, r, h3, rfl, _⟩ := (NFile.ofBytes_ok_iff _ _ _ _ _).1 hf
  exact ⟨rfl, rfl, hl.trans hb, p, by omega, h1, h3⟩

theorem SVal.seek_tame {v : SVal} (h : v.Tame) (pos : SeekFrom) (hp : pos.InRange) :
    (v.seek pos).1.NoPanic ∧ (v.seek pos).2.Tame := by
  cases v with
  | res v =>
    refine ⟨?_, trivial⟩
    show (seekContiguous v.streamPosition v.len pos).1.NoPanic
    unfold seekContiguous
    repeat' split
    all_goals first | exact Res.noPanic_ok _ | exact Res.noPanic_err _
  | nonRes v => exact NonRes.seek_tame h pos hp

theorem Ntfs.file_onDisk {n : Vol} {m : Ntfs} (hn : 32 ≤ n.ntfs.fileRecordSize ∧ n.ntfs.fileRecordSize < 65536)
    (hmf : n.ntfs.mftPosition ≠ none)
    (ht : ∀ m p d f d', n.ntfs.Like m → d.img = n.img → n.ntfs.mftPosition = some p → NFile.new m p 0 d = (.ok f, d') →
      RecordOk n.ntfs.clusterSize f.recordData)
    (hm : n.ntfs.Like m) (k : Nat) :
    StM.Tame (Dev.Has n.img) (m.file k) fun f => f.ntfs = m ∧ f.number = k ∧
      f.recordData.length = m.fileRecordSize ∧ OnDisk m.fileRecordSize n.img f.record := by
  have hs : 32 ≤ m.fileRecordSize ∧ m.fileRecordSize < 65536 := by rw [hm.fileRecordSize]; exact hn
  unfold Ntfs.file
  refine .bind (Q := fun o => o < U64) (.lift (.ofOption _ _) fun o ho => ?_) fun o ho => ?_
  · unfold checkedMulU64 at ho
    split at ho
    · cases ho; assumption
    · cases ho
  rw [hm.mftPosition]
  cases hp : n.ntfs.mftPosition with
  | none => exact absurd hp hmf
  | some p =>
    dsimp only
    have hmft : StM.Tame (Dev.Has n.img) (NFile.new m p 0) fun f => f.Tame n := by
      intro d hd
      have h1 := NFile.new_noPanic (img := n.img) hs p 0 d hd
      refine ⟨h1.noPanic, h1.keeps, fun f hf => ?_⟩
      obtain ⟨e1, e2, e3, e4⟩ := h1.val f hf
      refine ⟨by rw [← hm.fileRecordSize]; exact e4, by rw [e1]; exact hm, by rw [e3, hm.fileRecordSize], by rw [e3]; exact hs.1, ?_⟩
      refine ht m p d f (NFile.new m p 0 d).2 hm hd hp ?_
      rw [← hf]
    refine .bind hmft fun f hf => .bind (.lift (NFile.findResident_tame hf _ _ _).1
      fun a ha => ((NFile.findResident_tame hf _ _ _).2 a ha).1) fun a ha =>
      .bind (.lift (Attr.simpleValue_tame ha).1 (Attr.simpleValue_tame ha).2) fun v hv => ?_
    have hq := SVal.seek_tame hv (.start o) ho
    generalize v.seek (.start o) = q at hq
    obtain ⟨x, v'⟩ := q
    cases x with
    | ok x =>
      dsimp only
      cases v'.dataPosition with
      | none => exact .fail _
      | some p => exact NFile.new_noPanic hs p k
    | err e => exact .fail _
    | panic p => exact absurd rfl (hq.1 p)
    | diverge => exact fun s hI => .diverge hI

theorem Ntfs.file_tame {n : Vol} {m : Ntfs} (H : n.Harmless) (hm : n.ntfs.Like m) (k : Nat) :
    StM.Tame (Dev.Has n.img) (m.file k) fun f => f.Tame n ∧ f.number = k ∧ f.ntfs = m := by
  have hs : 32 ≤ m.fileRecordSize ∧ m.fileRecordSize < 65536 := by rw [hm.fileRecordSize]; exact H.size
  have base := Ntfs.file_onDisk H.size H.mft H.table hm k
  intro d hd
  have h1 := base d hd
  refine ⟨h1.noPanic, h1.keeps, fun f hf => ?_⟩
  obtain ⟨e1, e2, e3, e4⟩ := h1.val f hf
  refine ⟨⟨by rw [← hm.fileRecordSize]; exact e4, by rw [e1]; exact hm, by rw [e3, hm.fileRecordSize], by rw [e3]; exact hs.1, ?_⟩, e2, e1⟩
  refine H.files m k d f (m.file k d).2 hm hd ?_
  rw [← hf]

end NT
