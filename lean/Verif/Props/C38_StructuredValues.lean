import Verif.Lemmas.Val

namespace NT

open Spec

/-! C38: where each field of a structured value comes from. `field b o n` is the little-endian number
in the `n` bytes of `b` that start at offset `o`. -/

/-- On-disk layout of `$STANDARD_INFORMATION`. -/
def Spec.stdInfoAt (b : Bytes) (long : Bool) : StdInfo :=
  { creationTime := field b 0 8
    modificationTime := field b 8 8
    mftRecordModificationTime := field b 16 8
    accessTime := field b 24 8
    rawFileAttributes := field b 32 4
    ntfs3 := if long then some
      { maximumVersions := field b 36 4
        version := field b 40 4
        classId := field b 44 4
        ownerId := field b 48 4
        securityId := field b 52 4
        quotaCharged := field b 56 8
        usn := field b 64 8 } else none }

/-- Result of reading `$STANDARD_INFORMATION` from a value of nominal length `len` with the bytes `b`. -/
def Spec.stdInfoRes (b : Bytes) (pos : Pos) (len : Nat) : Res StdInfo :=
  if len < 48 then .err (.invalidStructuredValueSize pos .standardInformation 48 len)
  else if b.length < (if 72 ≤ len then 72 else 36) then .err (.io .unexpectedEof)
  else .ok (stdInfoAt b (decide (72 ≤ len)))

/-- On-disk layout of `$FILE_NAME`. -/
def Spec.fileNameAt (b : Bytes) : FileName :=
  { parent := { bytes := b.take 8 }
    creationTime := field b 8 8
    modificationTime := field b 16 8
    mftRecordModificationTime := field b 24 8
    accessTime := field b 32 8
    allocatedSize := field b 40 8
    dataSize := field b 48 8
    rawFileAttributes := field b 56 4
    reparsePointTag := field b 60 4
    nameUnits := field b 64 1
    namespaceCode := field b 65 1
    name := (b.drop 66).take (2 * field b 64 1) }

/-- Result of reading `$FILE_NAME` from a value of nominal length `len` with the bytes `b`. -/
def Spec.fileNameRes (b : Bytes) (pos : Pos) (len : Nat) : Res FileName :=
  if len < 68 then .err (.invalidStructuredValueSize pos .fileName 68 len)
  else if b.length < 66 then .err (.io .unexpectedEof)
  else if len < 66 + 2 * field b 64 1 then
    .err (.invalidStructuredValueSize pos .fileName len (66 + 2 * field b 64 1))
  else if 4 ≤ field b 65 1 then .err (.unsupportedFileNamespace pos (field b 65 1))
  else if b.length < 66 + 2 * field b 64 1 then .err (.io .unexpectedEof)
  else .ok (fileNameAt b)

/-- Result of reading `$VOLUME_INFORMATION`. -/
def Spec.volumeInfoRes (b : Bytes) (pos : Pos) (len : Nat) : Res VolumeInfo :=
  if len < 12 then .err (.invalidStructuredValueSize pos .standardInformation 12 len)
  else if b.length < 12 then .err (.io .unexpectedEof)
  else .ok { majorVersion := field b 8 1, minorVersion := field b 9 1, rawFlags := field b 10 2 }

/-- Result of reading `$VOLUME_NAME`. -/
def Spec.volumeNameRes (b : Bytes) (pos : Pos) (len : Nat) : Res VolumeName :=
  if 256 < len then .err (.invalidStructuredValueSize pos .volumeName 256 len)
  else if b.length < len then .err (.io .unexpectedEof)
  else .ok { name := b.take len }

/-- Layout of a GUID at offset `o`. -/
def Spec.guidAt (b : Bytes) (o : Nat) : Guid :=
  { data1 := field b o 4
    data2 := field b (o + 4) 2
    data3 := field b (o + 6) 2
    data4 := (b.drop (o + 8)).take 8 }

/-- Result of reading `$OBJECT_ID`: one GUID per full 16 bytes of nominal length, at most four. -/
def Spec.objectIdRes (b : Bytes) (pos : Pos) (len : Nat) : Res ObjectId :=
  if len < 16 then .err (.invalidStructuredValueSize pos .objectId 16 len)
  else if b.length < 16 * min 4 (len / 16) then .err (.io .unexpectedEof)
  else .ok
    { objectId := guidAt b 0
      birthVolumeId := if 32 ≤ len then some (guidAt b 16) else none
      birthObjectId := if 48 ≤ len then some (guidAt b 32) else none
      domainId := if 64 ≤ len then some (guidAt b 48) else none }

section Readers

variable {σ : Type} {re : Nat → StM σ Bytes} {P : σ → Prop} {rest : σ → Bytes}

theorem StdInfo.new_eq (h : ExactLike re P rest) (pos : Pos) (len : Nat) (s : σ) (hP : P s) :
    ∃ s', P s' ∧ StdInfo.new re pos len s = (stdInfoRes (rest s) pos len, s') := by
  unfold StdInfo.new stdInfoRes
  by_cases h48 : len < 48
  · rw [if_pos h48, if_pos h48]; exact ⟨s, hP, rfl⟩
  rw [if_neg h48, if_neg h48]
  obtain ⟨b, hb⟩ : ∃ b, b = rest s := ⟨_, rfl⟩
  by_cases h36 : 36 ≤ (rest s).length
  case neg =>
    obtain ⟨s1, hP1, e1⟩ := h.bind_err hP (α := StdInfo) (show (rest s).length < 36 by omega)
    rw [if_pos (by split <;> omega)]
    exact ⟨s1, hP1, e1 _⟩
  obtain ⟨s1, hP1, hr1, e1⟩ := h.bind_ok hP (α := StdInfo) h36
  rw [e1, ← hb] at *
  have hl : (b.take 36).length = 36 := by rw [List.length_take]; omega
  have ho : StdInfo.ofBytes1 (b.take 36) = .ok (stdInfoAt b false) := by
    unfold StdInfo.ofBytes1
    rw [readLE_ok (by omega), Res.bind_ok, readLE_ok (by omega), Res.bind_ok,
      readLE_ok (by omega), Res.bind_ok, readLE_ok (by omega), Res.bind_ok,
      readLE_ok (by omega), Res.bind_ok]
    rw [field_take (by omega), field_take (by omega), field_take (by omega), field_take (by omega),
      field_take (by omega)]
    rfl
  have hh : (StM.lift (StdInfo.ofBytes1 (b.take 36)) : StM σ StdInfo) s1 =
      (.ok (stdInfoAt b false), s1) := by rw [StM.lift_apply, ho]
  rw [StM.bind_of_ok hh]
  by_cases h72 : len ≥ 72
  case neg =>
    rw [if_neg h72, if_neg (by split <;> omega), decide_eq_false (by omega)]
    exact ⟨s1, hP1, rfl⟩
  rw [if_pos h72, if_pos (show 72 ≤ len from h72)]
  have hl1 : (rest s1).length = b.length - 36 := by rw [hr1, List.length_drop]
  by_cases hl72 : 36 ≤ (rest s1).length
  case neg =>
    obtain ⟨s2, hP2, e2⟩ := h.bind_err hP1 (α := StdInfo) (show (rest s1).length < 36 by omega)
    rw [if_pos (by omega)]
    exact ⟨s2, hP2, e2 _⟩
  obtain ⟨s2, hP2, hr2, e2⟩ := h.bind_ok hP1 (α := StdInfo) hl72
  rw [e2, if_neg (by omega), hr1]
  have hl2 : ((b.drop 36).take 36).length = 36 := by rw [List.length_take, List.length_drop]; omega
  have ho3 : ∃ x, StdInfo.ofBytes3 ((b.drop 36).take 36) = .ok x ∧
      (stdInfoAt b true).ntfs3 = some x := by
    refine ⟨_, ?_, rfl⟩
    unfold StdInfo.ofBytes3
    rw [readLE_ok (by omega), Res.bind_ok, readLE_ok (by omega), Res.bind_ok,
      readLE_ok (by omega), Res.bind_ok, readLE_ok (by omega), Res.bind_ok,
      readLE_ok (by omega), Res.bind_ok, readLE_ok (by omega), Res.bind_ok,
      readLE_ok (by omega), Res.bind_ok]
    repeat rw [field_take (by omega)]
    repeat rw [field_drop]
    rfl
  obtain ⟨x, hx1, hx2⟩ := ho3
  have hh3 : (StM.lift (StdInfo.ofBytes3 ((b.drop 36).take 36)) : StM σ StdInfo3) s2 =
      (.ok x, s2) := by rw [StM.lift_apply, hx1]
  rw [StM.bind_of_ok hh3, decide_eq_true (show 72 ≤ len from h72)]
  refine ⟨s2, hP2, ?_⟩
  have : stdInfoAt b true = { stdInfoAt b false with ntfs3 := some x } := by
    rw [← hx2]; rfl
  rw [this]
  rfl

theorem fileName_ofHeader (b : Bytes) (h : 66 ≤ b.length) :
    FileName.ofHeader (b.take 66) = .ok { fileNameAt b with name := [] } := by
  have hl : (b.take 66).length = 66 := by rw [List.length_take]; omega
  unfold FileName.ofHeader
  rw [idxRange_ok (by omega) (by omega), Res.bind_ok,
    readLE_ok (by omega), Res.bind_ok, readLE_ok (by omega), Res.bind_ok,
    readLE_ok (by omega), Res.bind_ok, readLE_ok (by omega), Res.bind_ok,
    readLE_ok (by omega), Res.bind_ok, readLE_ok (by omega), Res.bind_ok,
    readLE_ok (by omega), Res.bind_ok, readLE_ok (by omega), Res.bind_ok,
    idxByte_field (by omega), Res.bind_ok, idxByte_field (by omega), Res.bind_ok]
  have hr : ((b.take 66).drop 0).take (8 - 0) = b.take 8 := by
    rw [List.drop_zero, List.take_take]; rfl
  rw [hr]
  repeat rw [field_take (by omega)]
  rfl

theorem namespace_ofCode_none {n : Nat} : Namespace.ofCode n = none ↔ 4 ≤ n := by
  match n with
  | 0 | 1 | 2 | 3 => simp [Namespace.ofCode]
  | n + 4 => simp [Namespace.ofCode]

theorem FileName.new_eq (h : ExactLike re P rest) (pos : Pos) (len : Nat) (s : σ) (hP : P s) :
    ∃ s', P s' ∧ FileName.new re pos len s = (fileNameRes (rest s) pos len, s') := by
  unfold FileName.new fileNameRes
  by_cases h68 : len < 68
  · rw [if_pos h68, if_pos h68]; exact ⟨s, hP, rfl⟩
  rw [if_neg h68, if_neg h68]
  obtain ⟨b, hb⟩ : ∃ b, b = rest s := ⟨_, rfl⟩
  by_cases h66 : 66 ≤ (rest s).length
  case neg =>
    obtain ⟨s1, hP1, e1⟩ := h.bind_err hP (α := FileName) (show (rest s).length < 66 by omega)
    rw [if_pos (by omega)]
    exact ⟨s1, hP1, e1 _⟩
  obtain ⟨s1, hP1, hr1, e1⟩ := h.bind_ok hP (α := FileName) h66
  rw [e1, if_neg (by omega), ← hb] at *
  obtain ⟨f, hf⟩ : ∃ f : FileName, f = { fileNameAt b with name := [] } := ⟨_, rfl⟩
  have hh : (StM.lift (FileName.ofHeader (b.take 66)) : StM σ FileName) s1 = (.ok f, s1) := by
    rw [StM.lift_apply, fileName_ofHeader b h66, hf]
  rw [StM.bind_of_ok hh]
  have hu : f.nameUnits = field b 64 1 := by rw [hf]; rfl
  have hc : f.namespaceCode = field b 65 1 := by rw [hf]; rfl
  unfold FileName.validateNameLength FileName.validateNamespace FileName.nameLength
  rw [hu, hc, Nat.mul_comm (field b 64 1) 2]
  by_cases hv : len < 66 + 2 * field b 64 1
  · rw [if_pos hv, if_pos (show 66 + 2 * field b 64 1 > len from hv)]
    exact ⟨s1, hP1, rfl⟩
  rw [if_neg hv, if_neg (show ¬ 66 + 2 * field b 64 1 > len from hv)]
  have hun : (StM.lift (.ok ()) : StM σ Unit) s1 = (.ok (), s1) := rfl
  rw [StM.bind_of_ok hun]
  cases hns : Namespace.ofCode (field b 65 1) with
  | none =>
    rw [if_pos (namespace_ofCode_none.1 hns)]
    exact ⟨s1, hP1, rfl⟩
  | some ns =>
    have h4 : ¬ 4 ≤ field b 65 1 := fun h4 => by
      rw [namespace_ofCode_none.2 h4] at hns; cases hns
    rw [if_neg h4]
    dsimp only
    rw [StM.bind_of_ok hun]
    have hl1 : (rest s1).length = b.length - 66 := by rw [hr1, List.length_drop]
    by_cases hl : 2 * field b 64 1 ≤ (rest s1).length
    · obtain ⟨s2, hP2, hr2, e2⟩ := h.bind_ok hP1 (α := FileName) hl
      rw [e2, if_neg (by omega), hr1]
      refine ⟨s2, hP2, ?_⟩
      subst hf
      rfl
    · obtain ⟨s2, hP2, e2⟩ := h.bind_err hP1 (α := FileName)
        (show (rest s1).length < 2 * field b 64 1 by omega)
      rw [e2, if_pos (by omega)]
      exact ⟨s2, hP2, rfl⟩

theorem VolumeInfo.new_eq (h : ExactLike re P rest) (pos : Pos) (len : Nat) (s : σ) (hP : P s) :
    ∃ s', P s' ∧ VolumeInfo.new re pos len s = (volumeInfoRes (rest s) pos len, s') := by
  unfold VolumeInfo.new volumeInfoRes
  by_cases h12 : len < 12
  · rw [if_pos h12, if_pos h12]; exact ⟨s, hP, rfl⟩
  rw [if_neg h12, if_neg h12]
  by_cases hl : 12 ≤ (rest s).length
  case neg =>
    obtain ⟨s1, hP1, e1⟩ := h.bind_err hP (α := VolumeInfo) (show (rest s).length < 12 by omega)
    rw [if_pos (by omega)]
    exact ⟨s1, hP1, e1 _⟩
  obtain ⟨s1, hP1, hr1, e1⟩ := h.bind_ok hP (α := VolumeInfo) hl
  rw [e1, if_neg (by omega)]
  have hl2 : ((rest s).take 12).length = 12 := by rw [List.length_take]; omega
  refine ⟨s1, hP1, ?_⟩
  rw [StM.lift_apply]
  unfold VolumeInfo.ofBytes
  rw [idxByte_field (by omega), Res.bind_ok, idxByte_field (by omega), Res.bind_ok,
    readLE_ok (by omega), Res.bind_ok]
  repeat rw [field_take (by omega)]
  rfl

theorem VolumeName.new_eq (h : ExactLike re P rest) (pos : Pos) (len : Nat) (s : σ) (hP : P s) :
    ∃ s', P s' ∧ VolumeName.new re pos len s = (volumeNameRes (rest s) pos len, s') := by
  unfold VolumeName.new volumeNameRes
  by_cases h1 : 256 < len
  · rw [if_pos h1, if_pos (show len > 256 from h1)]; exact ⟨s, hP, rfl⟩
  rw [if_neg h1, if_neg (show ¬ len > 256 from h1)]
  by_cases hl : len ≤ (rest s).length
  · obtain ⟨s1, hP1, hr1, e1⟩ := h.bind_ok hP (α := VolumeName) hl
    rw [e1, if_neg (by omega)]
    exact ⟨s1, hP1, rfl⟩
  · obtain ⟨s1, hP1, e1⟩ := h.bind_err hP (α := VolumeName) (show (rest s).length < len by omega)
    rw [e1, if_pos (by omega)]
    exact ⟨s1, hP1, rfl⟩

theorem guid_ofBytes (b : Bytes) (o : Nat) (h : o + 16 ≤ b.length) :
    Guid.ofBytes ((b.drop o).take 16) = .ok (guidAt b o) := by
  have hl : ((b.drop o).take 16).length = 16 := by rw [List.length_take, List.length_drop]; omega
  unfold Guid.ofBytes
  rw [readLE_ok (by omega), Res.bind_ok, readLE_ok (by omega), Res.bind_ok,
    readLE_ok (by omega), Res.bind_ok, idxRange_ok (by omega) (by omega), Res.bind_ok]
  have hr : (((b.drop o).take 16).drop 8).take (16 - 8) = (b.drop (o + 8)).take 8 := by
    rw [List.drop_take, List.take_take, List.drop_drop]; rfl
  rw [hr]
  repeat rw [field_take (by omega)]
  repeat rw [field_drop]
  rfl

theorem readGuid_ok (h : ExactLike re P rest) {s : σ} (hP : P s) (b : Bytes) (o : Nat)
    (hr : rest s = b.drop o) (hl : o + 16 ≤ b.length) :
    ∃ s', P s' ∧ rest s' = b.drop (o + 16) ∧
      ObjectId.readGuid re s = (.ok (guidAt b o), s') := by
  obtain ⟨s1, hP1, hr1, e1⟩ := h.bind_ok hP (α := Guid)
    (show 16 ≤ (rest s).length by rw [hr, List.length_drop]; omega)
  refine ⟨s1, hP1, by rw [hr1, hr, List.drop_drop], ?_⟩
  unfold ObjectId.readGuid
  rw [e1, StM.lift_apply, hr, guid_ofBytes b o hl]

theorem readGuid_err (h : ExactLike re P rest) {s : σ} (hP : P s) (b : Bytes) (o : Nat)
    (hr : rest s = b.drop o) (hl : b.length < o + 16) :
    ∃ s', P s' ∧ ObjectId.readGuid re s = (.err (.io .unexpectedEof), s') := by
  obtain ⟨s1, hP1, e1⟩ := h.bind_err hP (α := Guid) (n := 16)
    (show (rest s).length < 16 by rw [hr, List.length_drop]; omega)
  exact ⟨s1, hP1, e1 _⟩

theorem readGuidIf_true (h : ExactLike re P rest) {s : σ} (hP : P s) (b : Bytes) (o : Nat)
    (hr : rest s = b.drop o) (hl : o + 16 ≤ b.length) :
    ∃ s', P s' ∧ rest s' = b.drop (o + 16) ∧
      ObjectId.readGuidIf re true s = (.ok (some (guidAt b o)), s') := by
  obtain ⟨s1, hP1, hr1, e1⟩ := readGuid_ok h hP b o hr hl
  refine ⟨s1, hP1, hr1, ?_⟩
  unfold ObjectId.readGuidIf
  rw [if_pos rfl, StM.bind_of_ok e1]
  rfl

theorem readGuidIf_err (h : ExactLike re P rest) {s : σ} (hP : P s) (b : Bytes) (o : Nat)
    (hr : rest s = b.drop o) (hl : b.length < o + 16) :
    ∃ s', P s' ∧ ObjectId.readGuidIf re true s = (.err (.io .unexpectedEof), s') := by
  obtain ⟨s1, hP1, e1⟩ := readGuid_err h hP b o hr hl
  refine ⟨s1, hP1, ?_⟩
  unfold ObjectId.readGuidIf
  rw [if_pos rfl, StM.bind_of_err e1]

theorem ObjectId.new_eq (h : ExactLike re P rest) (pos : Pos) (len : Nat) (s : σ) (hP : P s) :
    ∃ s', P s' ∧ ObjectId.new re pos len s = (objectIdRes (rest s) pos len, s') := by
  unfold ObjectId.new objectIdRes
  obtain ⟨b, hb⟩ : ∃ b, rest s = b := ⟨_, rfl⟩
  rw [hb]
  have skip : ∀ t : σ, ObjectId.readGuidIf re false t = (.ok none, t) := fun t => rfl
  by_cases h16 : len < 16
  · rw [if_pos h16, if_pos h16]; exact ⟨s, hP, rfl⟩
  rw [if_neg h16, if_neg h16]
  by_cases l1 : b.length < 16
  · obtain ⟨s1, hP1, e1⟩ := readGuid_err h hP b 0 (by rw [hb]; rfl) (by omega)
    rw [if_pos (by omega), StM.bind_of_err e1]
    exact ⟨s1, hP1, rfl⟩
  obtain ⟨s1, hP1, hr1, e1⟩ := readGuid_ok h hP b 0 (by rw [hb]; rfl) (by omega)
  rw [StM.bind_of_ok e1]
  by_cases h32 : 32 ≤ len
  case neg =>
    rw [decide_eq_false (by omega), decide_eq_false (by omega), decide_eq_false (by omega),
      StM.bind_of_ok (skip _), StM.bind_of_ok (skip _), StM.bind_of_ok (skip _),
      if_neg (by omega), if_neg (by omega), if_neg (by omega), if_neg (by omega)]
    exact ⟨s1, hP1, rfl⟩
  rw [decide_eq_true (show len ≥ 2 * 16 by omega), if_pos h32]
  by_cases l2 : b.length < 32
  · obtain ⟨s2, hP2, e2⟩ := readGuidIf_err h hP1 b 16 hr1 (by omega)
    rw [if_pos (by omega), StM.bind_of_err e2]
    exact ⟨s2, hP2, rfl⟩
  obtain ⟨s2, hP2, hr2, e2⟩ := readGuidIf_true h hP1 b 16 hr1 (by omega)
  rw [StM.bind_of_ok e2]
  by_cases h48 : 48 ≤ len
  case neg =>
    rw [decide_eq_false (by omega), decide_eq_false (by omega),
      StM.bind_of_ok (skip _), StM.bind_of_ok (skip _),
      if_neg (by omega), if_neg (by omega), if_neg (by omega)]
    exact ⟨s2, hP2, rfl⟩
  rw [decide_eq_true (show len ≥ 3 * 16 by omega), if_pos h48]
  by_cases l3 : b.length < 48
  · obtain ⟨s3, hP3, e3⟩ := readGuidIf_err h hP2 b 32 hr2 (by omega)
    rw [if_pos (by omega), StM.bind_of_err e3]
    exact ⟨s3, hP3, rfl⟩
  obtain ⟨s3, hP3, hr3, e3⟩ := readGuidIf_true h hP2 b 32 hr2 (by omega)
  rw [StM.bind_of_ok e3]
  by_cases h64 : 64 ≤ len
  case neg =>
    rw [decide_eq_false (by omega), StM.bind_of_ok (skip _), if_neg (by omega), if_neg (by omega)]
    exact ⟨s3, hP3, rfl⟩
  rw [decide_eq_true (show len ≥ 4 * 16 by omega), if_pos h64]
  by_cases l4 : b.length < 64
  · obtain ⟨s4, hP4, e4⟩ := readGuidIf_err h hP3 b 48 hr3 (by omega)
    rw [if_pos (by omega), StM.bind_of_err e4]
    exact ⟨s4, hP4, rfl⟩
  obtain ⟨s4, hP4, hr4, e4⟩ := readGuidIf_true h hP3 b 48 hr3 (by omega)
  rw [StM.bind_of_ok e4, if_neg (by omega)]
  exact ⟨s4, hP4, rfl⟩

end Readers

/-- The structured value `S` decodes to `res`, whatever the reader. -/
def Structured.Decodes {α : Type} (S : Structured α) (res : Bytes → Pos → Nat → Res α) : Prop :=
  ∀ (σ : Type) (re : Nat → StM σ Bytes) (P : σ → Prop) (rest : σ → Bytes), ExactLike re P rest →
    ∀ pos len s, P s → ∃ s', P s' ∧ S.new re pos len s = (res (rest s) pos len, s')

theorem StdInfo.decodes : StdInfo.structured.Decodes stdInfoRes :=
  fun _ _ _ _ h pos len s hP => StdInfo.new_eq h pos len s hP

theorem FileName.decodes : FileName.structured.Decodes fileNameRes :=
  fun _ _ _ _ h pos len s hP => FileName.new_eq h pos len s hP

theorem VolumeInfo.decodes : VolumeInfo.structured.Decodes volumeInfoRes :=
  fun _ _ _ _ h pos len s hP => VolumeInfo.new_eq h pos len s hP

theorem VolumeName.decodes : VolumeName.structured.Decodes volumeNameRes :=
  fun _ _ _ _ h pos len s hP => VolumeName.new_eq h pos len s hP

theorem ObjectId.decodes : ObjectId.structured.Decodes objectIdRes :=
  fun _ _ _ _ h pos len s hP => ObjectId.new_eq h pos len s hP

theorem Structured.Decodes.ofResident {α : Type} {S : Structured α}
    {res : Bytes → Pos → Nat → Res α} (h : S.Decodes res) (v : ResVal) :
    S.ofResident v = res v.data v.dataPosition v.data.length := by
  obtain ⟨s', _, e⟩ := h Bytes cursorReadExact _ id cursor_exactLike v.dataPosition v.len v.data trivial
  unfold Structured.ofResident
  rw [e]
  rfl

theorem Structured.Decodes.ofValue {α : Type} {S : Structured α}
    {res : Bytes → Pos → Nat → Res α} (h : S.Decodes res) (img c : Bytes) (v : Val)
    (hv : v.Has img c) (hpos : v.streamPosition = 0) (d : Dev) (hd : d.Ok img) :
    ∃ d', S.ofValue v d = (res c v.dataPosition v.len, d') ∧ d'.Ok img := by
  obtain ⟨⟨v', d'⟩, ⟨_, hd'⟩, e⟩ := h _ _ _ _ (val_exactLike img c) v.dataPosition v.len (v, d) ⟨hv, hd⟩
  unfold Structured.ofValue
  rw [e]
  dsimp only
  rw [hpos]
  exact ⟨d', rfl, hd'⟩

/-- The value of the attribute `a` has the nominal length `size` and consists of the bytes `c`. -/
def Attr.Opens (img : Bytes) (a : Attr) (c : Bytes) (size : Nat) : Prop :=
  ∀ d : Dev, d.Ok img → ∃ v d', a.value d = (.ok v, d') ∧ d'.Ok img ∧ v.Has img c ∧
    v.streamPosition = 0 ∧ v.len = size

/-- A resident attribute whose value lies inside the attribute. -/
theorem Attr.opens_resident (img : Bytes) (f : NFile) (off : Nat) (a : Attr)
    (h : Attr.new f off none = .ok a) (hr : field f.recordData (off + 8) 1 = 0)
    (h22 : off + 22 ≤ f.recordData.length) (start length len : Nat)
    (hs : field f.recordData (off + 20) 2 = start) (hn : field f.recordData (off + 16) 4 = length)
    (hl : field f.recordData (off + 4) 4 = len) (hfit : start + length ≤ len) :
    a.Opens img ((f.recordData.drop (off + start)).take length) length := by
  intro d hd
  have e := C20_resident_value_exact f off none a h hr h22 start length len hs hn hl
  have hin := (C20_name f off none a h _ _ len rfl rfl hl).1
  rw [if_neg (by omega), if_neg (by omega)] at e
  obtain ⟨rfl, hv⟩ := Attr.new_ok_iff.1 h
  refine ⟨.simple (.res ⟨(f.recordData.drop (off + start)).take length,
    Attr.position ⟨f, off, none⟩, 0⟩), d, ?_, hd, rfl, rfl, ?_⟩
  · unfold Attr.value
    dsimp only
    rw [StM.bind_of_ok (a := _) (s' := d) (by rw [StM.lift_apply, e])]
    rfl
  · show ((f.recordData.drop (off + start)).take length).length = length
    rw [List.length_take, List.length_drop]; omega

/-- A non-resident attribute whose data runs describe the extents `es`. -/
theorem Attr.opens_nonResident (img : Bytes) (a : Attr) (hh : a.HeaderIn) (hal : a.list = none)
    (h56 : a.offset + 56 ≤ a.recordData.length) (hnr : field a.recordData (a.offset + 8) 1 ≠ 0)
    (start len size : Nat) (hs : field a.recordData (a.offset + 32) 2 = start)
    (hl : field a.recordData (a.offset + 4) 4 = len) (hin : a.offset + len ≤ a.recordData.length)
    (hsl : start ≤ len) (hsz : field a.recordData (a.offset + 48) 8 = size) (es : List Extent)
    (hst : StoredAs a.file.ntfs.clusterSize img
      ((a.recordData.drop (a.offset + start)).take (len - start)) es) :
    a.Opens img ((content a.file.ntfs.clusterSize img es).take size) size := by
  intro d hd
  have hsize : size < U64 := by
    rw [← hsz]
    exact field_lt (d := a.recordData) (a := a.offset + 48) (n := 8) (by omega)
  obtain ⟨v, g1, g2, g3, g4, _⟩ := NonRes.new_good hst (Pos.add a.file.position (a.offset + start))
    size hsize
  refine ⟨.simple (.nonRes v), d, ?_, hd, ⟨hst.imgLt, _, g2, ?_⟩, g4, g3⟩
  · unfold Attr.value
    rw [hal]
    dsimp only
    have e : a.simpleValue = .ok (.nonRes v) := by
      unfold Attr.simpleValue
      rw [Attr.isResident_eq hh, Res.bind_ok]
      have : (field a.recordData (a.offset + 8) 1 == 0) = false := by simpa using hnr
      rw [this, if_neg (by decide), Attr.nonResidentValue_eq hh hnr h56 start len hs hl hin,
        if_neg (by omega), hsz, g1]
      rfl
    rw [StM.bind_of_ok (a := _) (s' := d) (by rw [StM.lift_apply, e])]
    rfl
  · rw [g3, restBytes_runOf]

/-- A value split over several attributes. -/
theorem Attr.opens_list {ntfs : Ntfs} {img : Bytes} {mft : NFile} {mftEs : List Extent}
    {mpre : List Nat} {moff mlen mstart : Nat} (hm : MftStored ntfs img mft mftEs mpre moff mlen mstart)
    {inst : Nat} {ty : AttrType} (parts : List Part) (hne : parts ≠ [])
    (hp : ∀ p ∈ parts, p.Stored ntfs img mftEs inst ty) (rest : List LEntry)
    (hr : OtherValue inst ty rest) (b : Bytes)
    (h : ListEncodes (parts.map Part.entry ++ rest) b) (l : AttrList) (hh : l.Holds img b)
    (a : Attr) (hal : a.list = some l) (han : a.file.ntfs = ntfs)
    (h56 : a.offset + 56 ≤ a.recordData.length) (hanr : field a.recordData (a.offset + 8) 1 ≠ 0)
    (hai : field a.recordData (a.offset + 14) 2 = inst) (hat : field a.recordData a.offset 4 = ty.code)
    (size : Nat) (has : field a.recordData (a.offset + 48) 8 = size) :
    a.Opens img ((content ntfs.clusterSize img (parts.flatMap Part.es)).take size) size := by
  intro d hd
  obtain ⟨v, d', e, hd', hsz, hpos, gs, hg, hflat⟩ := ALVal.value_good hm parts hne hp rest hr b h l
    hh a hal han h56 hanr hai hat size has d hd.2 hd.1
  refine ⟨.list v, d', e, hd', ⟨hm.runs.imgLt, gs, hg, ?_⟩, hpos, hsz⟩
  rw [hflat, restBytes_runOf, hsz]

/-- `structured_value` on any attribute of the right type whose value can be opened. -/
theorem Structured.Decodes.structuredValue {α : Type} {S : Structured α}
    {res : Bytes → Pos → Nat → Res α} (h : S.Decodes res) (img c : Bytes) (size : Nat) (a : Attr)
    (hty : a.ty = .ok S.ty) (ha : a.Opens img c size) (d : Dev) (hd : d.Ok img) :
    ∃ pos d', a.structuredValue S d = (res c pos size, d') ∧ d'.Ok img := by
  obtain ⟨v, d1, e, hd1, hv, hpos, hlen⟩ := ha d hd
  obtain ⟨d2, e2, hd2⟩ := h.ofValue img c v hv hpos d1 hd1
  refine ⟨v.dataPosition, d2, ?_, hd2⟩
  unfold Attr.structuredValue
  have he : a.ensureTy S.ty = .ok () := by
    unfold Attr.ensureTy
    rw [hty, Res.bind_ok, if_neg (by simp)]
  rw [StM.bind_of_ok (a := ()) (s' := d) (by rw [StM.lift_apply, he]), StM.bind_of_ok e, e2, hlen]

/-- `structured_value` and `resident_structured_value` reject an attribute of another type before
looking at its value. -/
theorem C38_other_type {α : Type} (S : Structured α) (a : Attr) (t : AttrType) (hty : a.ty = .ok t)
    (hne : t ≠ S.ty) (d : Dev) :
    a.structuredValue S d = (.err (.attributeOfDifferentType a.position S.ty t), d) ∧
    a.residentStructuredValue S = .err (.attributeOfDifferentType a.position S.ty t) := by
  have he : a.ensureTy S.ty = .err (.attributeOfDifferentType a.position S.ty t) := by
    unfold Attr.ensureTy
    rw [hty, Res.bind_ok, if_pos hne]
  constructor
  · unfold Attr.structuredValue
    rw [StM.bind_of_err (e := .attributeOfDifferentType a.position S.ty t) (s' := d)
      (by rw [StM.lift_apply, he])]
  · unfold Attr.residentStructuredValue
    rw [he]; rfl

/-- `resident_structured_value` on attributes of the right type: an error for non-resident
attributes, the decoded value bytes for resident ones. -/
theorem Structured.Decodes.residentStructuredValue {α : Type} {S : Structured α}
    {res : Bytes → Pos → Nat → Res α} (h : S.Decodes res) (f : NFile) (off : Nat)
    (l : Option AttrList) (a : Attr) (hn : Attr.new f off l = .ok a) (hty : a.ty = .ok S.ty)
    (h22 : off + 22 ≤ f.recordData.length) (start length len : Nat)
    (hs : field f.recordData (off + 20) 2 = start) (hlen : field f.recordData (off + 16) 4 = length)
    (hl : field f.recordData (off + 4) 4 = len) (hfit : start + length ≤ len) :
    a.residentStructuredValue S =
      if field f.recordData (off + 8) 1 = 0 then
        res ((f.recordData.drop (off + start)).take length) (Pos.add a.position 0) length
      else .err (.unexpectedNonResidentAttribute a.position) := by
  have hin := (C20_name f off l a hn _ _ len rfl rfl hl).1
  obtain ⟨ea, hv⟩ := Attr.new_ok_iff.1 hn
  have hh : a.HeaderIn := hv.header
  have hd : a.recordData = f.recordData := by rw [ea]
  have ho : a.offset = off := by rw [ea]
  unfold Attr.residentStructuredValue
  have he : a.ensureTy S.ty = .ok () := by
    unfold Attr.ensureTy
    rw [hty, Res.bind_ok, if_neg (by simp)]
  rw [he, Res.bind_ok, Attr.isResident_eq hh, Res.bind_ok, hd, ho]
  by_cases hr : field f.recordData (off + 8) 1 = 0
  · rw [if_pos hr, hr, if_pos (by decide)]
    rw [Attr.residentValue_eq hh (by rw [hd, ho]; exact hr) (by rw [hd, ho]; exact h22) start length len
      (by rw [hd, ho]; exact hs) (by rw [hd, ho]; exact hlen) (by rw [hd, ho]; exact hl)
      (by rw [hd, ho]; exact hin), if_neg (by omega), if_neg (by omega), Res.bind_ok, h.ofResident]
    dsimp only
    have hle : ((a.recordData.drop (a.offset + start)).take length).length = length := by
      rw [hd, ho, List.length_take, List.length_drop]; omega
    have hp : (ResVal.mk ((a.recordData.drop (a.offset + start)).take length) a.position 0).dataPosition
        = Pos.add a.position 0 := by
      unfold ResVal.dataPosition
      rw [if_pos (Nat.zero_le _)]
    rw [hp, hle, hd, ho]
  · rw [if_neg hr]
    have : (field f.recordData (off + 8) 1 == 0) = false := by simpa using hr
    rw [this, if_neg (by decide)]

/-! The five kinds of values, read through `structured_value` from an attribute of any kind. -/

/-- C38, standard information. -/
theorem C38_standard_information (img c : Bytes) (size : Nat) (a : Attr)
    (hty : a.ty = .ok .standardInformation) (ha : a.Opens img c size) (d : Dev) (hd : d.Ok img) :
    ∃ pos d', a.structuredValue StdInfo.structured d = (stdInfoRes c pos size, d') ∧ d'.Ok img :=
  StdInfo.decodes.structuredValue img c size a hty ha d hd

/-- C38, file name. -/
theorem C38_file_name (img c : Bytes) (size : Nat) (a : Attr)
    (hty : a.ty = .ok .fileName) (ha : a.Opens img c size) (d : Dev) (hd : d.Ok img) :
    ∃ pos d', a.structuredValue FileName.structured d = (fileNameRes c pos size, d') ∧ d'.Ok img :=
  FileName.decodes.structuredValue img c size a hty ha d hd

/-- C38, volume information. -/
theorem C38_volume_information (img c : Bytes) (size : Nat) (a : Attr)
    (hty : a.ty = .ok .volumeInformation) (ha : a.Opens img c size) (d : Dev) (hd : d.Ok img) :
    ∃ pos d', a.structuredValue VolumeInfo.structured d = (volumeInfoRes c pos size, d') ∧ d'.Ok img :=
  VolumeInfo.decodes.structuredValue img c size a hty ha d hd

/-- C38, volume name. -/
theorem C38_volume_name (img c : Bytes) (size : Nat) (a : Attr)
    (hty : a.ty = .ok .volumeName) (ha : a.Opens img c size) (d : Dev) (hd : d.Ok img) :
    ∃ pos d', a.structuredValue VolumeName.structured d = (volumeNameRes c pos size, d') ∧ d'.Ok img :=
  VolumeName.decodes.structuredValue img c size a hty ha d hd

/-- C38, object id. -/
theorem C38_object_id (img c : Bytes) (size : Nat) (a : Attr)
    (hty : a.ty = .ok .objectId) (ha : a.Opens img c size) (d : Dev) (hd : d.Ok img) :
    ∃ pos d', a.structuredValue ObjectId.structured d = (objectIdRes c pos size, d') ∧ d'.Ok img :=
  ObjectId.decodes.structuredValue img c size a hty ha d hd

/-- C38: the same five decoded straight from a resident value, for every byte string. The length is
the real one, so a long enough byte string is always decoded and a shorter one gives the size error. -/
theorem C38_resident (b : Bytes) (p : Pos) :
    StdInfo.structured.ofResident (ResVal.new b p) = stdInfoRes b (Pos.add p 0) b.length ∧
    VolumeInfo.structured.ofResident (ResVal.new b p) = volumeInfoRes b (Pos.add p 0) b.length ∧
    VolumeName.structured.ofResident (ResVal.new b p) = volumeNameRes b (Pos.add p 0) b.length ∧
    ObjectId.structured.ofResident (ResVal.new b p) = objectIdRes b (Pos.add p 0) b.length ∧
    FileName.keyFromSlice b p = fileNameRes b p b.length := by
  have hp : (ResVal.new b p).dataPosition = Pos.add p 0 := by
    unfold ResVal.dataPosition ResVal.new
    exact if_pos (Nat.zero_le _)
  refine ⟨?_, ?_, ?_, ?_, ?_⟩
  · rw [StdInfo.decodes.ofResident, hp]; rfl
  · rw [VolumeInfo.decodes.ofResident, hp]; rfl
  · rw [VolumeName.decodes.ofResident, hp]; rfl
  · rw [ObjectId.decodes.ofResident, hp]; rfl
  · obtain ⟨s', _, e⟩ := FileName.new_eq cursor_exactLike p b.length b trivial
    unfold FileName.keyFromSlice
    rw [e]
    rfl

/-- C38: on byte strings of their own length the outcome is decided by the length and, for names, the
name length and namespace fields alone; there is no end-of-file error. -/
theorem C38_resident_ok_iff (b : Bytes) (p : Pos) :
    (48 ≤ b.length → stdInfoRes b p b.length = .ok (stdInfoAt b (decide (72 ≤ b.length)))) ∧
    (12 ≤ b.length → ∃ v, volumeInfoRes b p b.length = .ok v) ∧
    (b.length ≤ 256 → volumeNameRes b p b.length = .ok ⟨b⟩) ∧
    (16 ≤ b.length → ∃ v, objectIdRes b p b.length = .ok v ∧ v.objectId = guidAt b 0) ∧
    (68 ≤ b.length → 66 + 2 * field b 64 1 ≤ b.length → field b 65 1 < 4 →
      fileNameRes b p b.length = .ok (fileNameAt b)) := by
  refine ⟨fun h => ?_, fun h => ?_, fun h => ?_, fun h => ?_, fun h h2 h3 => ?_⟩
  · unfold stdInfoRes; rw [if_neg (by omega), if_neg (by split <;> omega)]
  · unfold volumeInfoRes; rw [if_neg (by omega), if_neg (by omega)]; exact ⟨_, rfl⟩
  · unfold volumeNameRes; rw [if_neg (by omega), if_neg (by omega), List.take_length]
  · unfold objectIdRes; rw [if_neg (by omega), if_neg (by omega)]; exact ⟨_, rfl, rfl⟩
  · unfold fileNameRes
    rw [if_neg (by omega), if_neg (by omega), if_neg (by omega), if_neg (by omega), if_neg (by omega)]

/-- C38: no byte string and no nominal length makes decoding panic. -/
theorem C38_never_panics (b : Bytes) (p : Pos) (len : Nat) :
    (stdInfoRes b p len).Safe ∧ (fileNameRes b p len).Safe ∧ (volumeInfoRes b p len).Safe ∧
    (volumeNameRes b p len).Safe ∧ (objectIdRes b p len).Safe := by
  refine ⟨?_, ?_, ?_, ?_, ?_⟩
  · unfold stdInfoRes; repeat (first | trivial | split)
  · unfold fileNameRes; repeat (first | trivial | split)
  · unfold volumeInfoRes; repeat (first | trivial | split)
  · unfold volumeNameRes; repeat (first | trivial | split)
  · unfold objectIdRes; repeat (first | trivial | split)

/-- C38: `namespace` never panics on a file name that was read, and reports what the byte says. -/
theorem C38_namespace (b : Bytes) (p : Pos) (len : Nat) (f : FileName) (h : fileNameRes b p len = .ok f) :
    f.namespace' = .ok (match field b 65 1 with
      | 0 => .posix | 1 => .win32 | 2 => .dos | _ => .win32AndDos) := by
  unfold fileNameRes at h
  split at h; · cases h
  split at h; · cases h
  split at h; · cases h
  split at h; · cases h
  split at h; · cases h
  rename_i _ _ _ h4 _
  injection h with h
  have hc : f.namespaceCode = field b 65 1 := by rw [← h]; rfl
  unfold FileName.namespace'
  rw [hc]
  revert h4
  generalize field b 65 1 = n
  intro h4
  match n, h4 with
  | 0, _ => rfl
  | 1, _ => rfl
  | 2, _ => rfl
  | 3, _ => rfl
  | n + 4, h4 => omega

/-- C38: the flag accessors keep exactly the documented bits, and `is_directory` is bit 28. -/
theorem C38_flags (i : StdInfo) (f : FileName) (v : VolumeInfo) (k : Nat) :
    i.fileAttributes.testBit k =
      (i.rawFileAttributes.testBit k && decide (k ∈ [0, 1, 2, 5, 6, 7, 8, 9, 10, 11, 12, 13, 14, 28])) ∧
    f.fileAttributes.testBit k =
      (f.rawFileAttributes.testBit k && decide (k ∈ [0, 1, 2, 5, 6, 7, 8, 9, 10, 11, 12, 13, 14, 28])) ∧
    v.flags.testBit k = (v.rawFlags.testBit k && decide (k ∈ [0, 1, 2, 3, 4, 5, 14, 15])) ∧
    f.isDirectory = f.rawFileAttributes.testBit 28 := by
  have m1 : ∀ k, Nat.testBit 0x10007FE7 k =
      decide (k ∈ [0, 1, 2, 5, 6, 7, 8, 9, 10, 11, 12, 13, 14, 28]) := by
    intro k
    by_cases hk : k < 29
    · revert k; decide
    · rw [Nat.testBit_lt_two_pow (Nat.lt_of_lt_of_le (by decide : 0x10007FE7 < 2 ^ 29)
        (Nat.pow_le_pow_right (by decide) (by omega)))]
      symm; apply decide_eq_false
      intro h; simp at h; omega
  have m2 : ∀ k, Nat.testBit 0xC03F k = decide (k ∈ [0, 1, 2, 3, 4, 5, 14, 15]) := by
    intro k
    by_cases hk : k < 16
    · revert k; decide
    · rw [Nat.testBit_lt_two_pow (Nat.lt_of_lt_of_le (by decide : 0xC03F < 2 ^ 16)
        (Nat.pow_le_pow_right (by decide) (by omega)))]
      symm; apply decide_eq_false
      intro h; simp at h; omega
  have f1 : ∀ x, fromBitsTruncate fileAttributeBits x = x &&& 0x10007FE7 := fun x => rfl
  have f2 : ∀ x, fromBitsTruncate VolumeInfo.flagBits x = x &&& 0xC03F := fun x => rfl
  refine ⟨?_, ?_, ?_, ?_⟩
  · unfold StdInfo.fileAttributes; rw [f1, Nat.testBit_and, m1]
  · unfold FileName.fileAttributes; rw [f1, Nat.testBit_and, m1]
  · unfold VolumeInfo.flags; rw [f2, Nat.testBit_and, m2]
  · unfold FileName.isDirectory FileName.fileAttributes
    rw [f1, Nat.and_assoc]
    show (f.rawFileAttributes &&& 2 ^ 28 == 2 ^ 28) = _
    rw [Bool.eq_iff_iff, beq_iff_eq]
    constructor
    · intro h
      have h := congrArg (Nat.testBit · 28) h
      rw [Nat.testBit_and, Nat.testBit_two_pow_self, Bool.and_true] at h
      exact h
    · intro h
      apply Nat.eq_of_testBit_eq
      intro j
      rw [Nat.testBit_and, Nat.testBit_two_pow]
      by_cases hj : 28 = j
      · subst hj; simp [h]
      · simp [hj]

/-- A `$FILE_NAME` value: parent record 5 with sequence number 5, a directory called "ab". -/
def exFileName : Bytes :=
  [5, 0, 0, 0, 0, 0, 5, 0,  1, 0, 0, 0, 0, 0, 0, 0,  2, 0, 0, 0, 0, 0, 0, 0,
   3, 0, 0, 0, 0, 0, 0, 0,  4, 0, 0, 0, 0, 0, 0, 0,  0, 16, 0, 0, 0, 0, 0, 0,
   0, 15, 0, 0, 0, 0, 0, 0,  0x06, 0, 0, 0x10, 7, 0, 0, 0,  2, 1,  97, 0, 98, 0]

/-- The file record data that holds it as the resident value of an attribute at offset 0. -/
def exFileNameFile : NFile :=
  { ntfs := exNtfs
    record := ⟨[0x30, 0, 0, 0, 96, 0, 0, 0,  0, 0, 24, 0, 0, 0, 0, 0,  70, 0, 0, 0, 24, 0, 0, 0] ++
      exFileName ++ [0, 0], some 512⟩
    number := 7 }

/-- The attribute opens, `structured_value` decodes it, and the accessors give what was encoded. -/
example : ∃ a, Attr.new exFileNameFile 0 none = .ok a ∧ a.ty = .ok .fileName ∧
    a.Opens [] exFileName 70 ∧
    ∀ d : Dev, d.Ok [] → ∃ f d', a.structuredValue FileName.structured d = (.ok f, d') ∧
      f.parent.fileRecordNumber = 5 ∧ f.parent.sequenceNumber = 5 ∧ f.accessTime = 4 ∧
      f.allocatedSize = 4096 ∧ f.dataSize = 3840 ∧ f.name = [97, 0, 98, 0] ∧
      f.namespace' = .ok .win32 ∧ f.isDirectory = true := by
  have ho : Attr.Opens [] ⟨exFileNameFile, 0, none⟩ exFileName 70 :=
    Attr.opens_resident [] exFileNameFile 0 _ (by decide) (by decide) (by decide) 24 70 96 (by decide)
      (by decide) (by decide) (by decide)
  refine ⟨⟨exFileNameFile, 0, none⟩, by decide, by decide, ho, fun d hd => ?_⟩
  obtain ⟨pos, d', e, _⟩ := C38_file_name [] exFileName 70 _ (by decide) ho d hd
  have e2 : fileNameRes exFileName pos 70 = .ok (fileNameAt exFileName) :=
    (C38_resident_ok_iff exFileName pos).2.2.2.2 (by decide) (by decide) (by decide)
  exact ⟨_, d', by rw [e, e2], by decide, by decide, by decide, by decide, by decide, by decide,
    by decide, by decide⟩

/-- A `$STANDARD_INFORMATION` value of 48 bytes has no NTFS 3 fields, one of 72 bytes has them, one
of 47 bytes is refused. -/
example :
    (∃ i, stdInfoRes (List.replicate 48 1) none 48 = .ok i ∧ i.usn = none) ∧
    (∃ i, stdInfoRes (List.replicate 64 0 ++ List.replicate 8 1) none 72 = .ok i ∧
      i.usn = some 0x0101010101010101 ∧ i.quotaCharged = some 0) ∧
    stdInfoRes (List.replicate 47 1) none 47 =
      .err (.invalidStructuredValueSize none .standardInformation 48 47) :=
  ⟨⟨_, rfl, rfl⟩, ⟨_, rfl, by decide, by decide⟩, rfl⟩

/-- An attribute whose value is a non-resident `$VOLUME_NAME` of 10 bytes, with the data runs of
`exampleStored`. -/
def exNonResName : Attr :=
  { file :=
      { ntfs := { exNtfs with clusterSize := 4 }
        record := ⟨[0x60, 0, 0, 0, 73, 0, 0, 0,  1, 0, 0, 0, 0, 0, 0, 0,  0, 0, 0, 0, 0, 0, 0, 0,
          0, 0, 0, 0, 0, 0, 0, 0,  64, 0, 0, 0, 0, 0, 0, 0,  12, 0, 0, 0, 0, 0, 0, 0,
          10, 0, 0, 0, 0, 0, 0, 0,  10, 0, 0, 0, 0, 0, 0, 0,
          0x11, 1, 2, 0x01, 1, 0x11, 1, 0xFF, 0], some 512⟩
        number := 7 }
    offset := 0
    list := none }

example : exNonResName.Opens [0, 1, 2, 3, 4, 5, 6, 7, 8, 9, 10, 11] [8, 9, 10, 11, 0, 0, 0, 0, 4, 5] 10 ∧
    exNonResName.ty = .ok .volumeName := by
  refine ⟨?_, by decide⟩
  exact Attr.opens_nonResident _ exNonResName (by unfold Attr.HeaderIn; decide) rfl (by decide) (by decide)
    64 73 10 (by decide) (by decide) (by decide) (by decide) (by decide) _ exampleStored

/-! ### The theorems of this file on attributes of each type -/

/-- A file record with a resident value `b` of an attribute of type `ty` at offset 0. -/
def exValueFile (ty : UInt8) (b : Bytes) : NFile :=
  { ntfs := exNtfs
    record := ⟨[ty, 0, 0, 0, 24 + UInt8.ofNat b.length, 0, 0, 0,  0, 0, 24, 0, 0, 0, 0, 0,
      UInt8.ofNat b.length, 0, 0, 0, 24, 0, 0, 0] ++ b, some 512⟩
    number := 7 }

example (d : Dev) := C38_other_type StdInfo.structured ⟨exFileNameFile, 0, none⟩ .fileName (by decide) (by decide) d
example (d : Dev) (hd : d.Ok []) := C38_standard_information [] (List.replicate 48 1) 48 ⟨exValueFile 0x10 (List.replicate 48 1), 0, none⟩ (by decide)
  (Attr.opens_resident [] (exValueFile 0x10 (List.replicate 48 1)) 0 _ (by decide) (by decide) (by decide) 24 48 72 (by decide)
    (by decide) (by decide) (by decide)) d hd
example (d : Dev) (hd : d.Ok []) := C38_volume_information [] [0, 0, 0, 0, 0, 0, 0, 0, 3, 1, 1, 0] 12
  ⟨exValueFile 0x70 [0, 0, 0, 0, 0, 0, 0, 0, 3, 1, 1, 0], 0, none⟩ (by decide)
  (Attr.opens_resident [] (exValueFile 0x70 [0, 0, 0, 0, 0, 0, 0, 0, 3, 1, 1, 0]) 0 _ (by decide) (by decide) (by decide) 24 12 36
    (by decide) (by decide) (by decide) (by decide)) d hd
example (d : Dev) (hd : d.Ok _) := C38_volume_name [0, 1, 2, 3, 4, 5, 6, 7, 8, 9, 10, 11] [8, 9, 10, 11, 0, 0, 0, 0, 4, 5] 10 exNonResName
  (by decide) (Attr.opens_nonResident _ exNonResName (by unfold Attr.HeaderIn; decide) rfl (by decide) (by decide)
    64 73 10 (by decide) (by decide) (by decide) (by decide) (by decide) _ exampleStored) d hd
example (d : Dev) (hd : d.Ok []) := C38_object_id [] (List.range 64 |>.map UInt8.ofNat) 64
  ⟨exValueFile 0x40 (List.range 64 |>.map UInt8.ofNat), 0, none⟩ (by decide)
  (Attr.opens_resident [] (exValueFile 0x40 (List.range 64 |>.map UInt8.ofNat)) 0 _ (by decide) (by decide) (by decide) 24 64 88
    (by decide) (by decide) (by decide) (by decide)) d hd
/-- `C38_namespace` on the value of the example. -/
example := C38_namespace exFileName (some 9) 70 _ ((C38_resident_ok_iff exFileName (some 9)).2.2.2.2 (by decide) (by decide) (by decide))

end NT
