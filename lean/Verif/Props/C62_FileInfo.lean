import Verif.Model.ShellInfo
import Verif.Props.C47_NameLookup
import Verif.Props.C34_Time

/-! C62: what `fileinfo` shows of a file. -/

namespace NT

open Spec

variable {V : View}

/-- The size of the value as the header of the attribute at `off` gives it. -/
def SizeAt (file : NFile) (off : Nat) : Nat :=
  if field file.recordData (off + 8) 1 = 0 then field file.recordData (off + 16) 4
  else field file.recordData (off + 48) 8

/-- What the value of the `$STANDARD_INFORMATION` attribute at `off` decodes to. -/
def stdAt (file : NFile) (off : Nat) : Res StdInfo :=
  stdInfoRes (valueAt file off) (Pos.add (Pos.add file.position off) 0) (field file.recordData (off + 16) 4)

/-- Nanoseconds since 1970 for a count of 100 ns intervals since 1601. -/
def Spec.sinceUnix (t : Nat) : Int := nanos1601 + 100 * t

/-- What is to be shown for the attribute at `off`, and the error that ends the listing there. -/
inductive InfoOf (file : NFile) (off : Nat) : List InfoLine → Option Err → Prop
  | std (i : StdInfo) : field file.recordData off 4 = 0x10 → field file.recordData (off + 8) 1 = 0 →
      stdAt file off = .ok i →
      InfoOf file off [.head .standardInformation, .std i [sinceUnix i.accessTime, sinceUnix i.creationTime,
        sinceUnix i.modificationTime, sinceUnix i.mftRecordModificationTime]] none
  | stdBad (x : Err) : field file.recordData off 4 = 0x10 → field file.recordData (off + 8) 1 = 0 →
      stdAt file off = .err x → InfoOf file off [.head .standardInformation] (some x)
  | stdOut : field file.recordData off 4 = 0x10 → field file.recordData (off + 8) 1 ≠ 0 →
      InfoOf file off [.head .standardInformation]
        (some (.unexpectedNonResidentAttribute (Pos.add file.position off)))
  | name (n : FileName) (ns : Namespace) : field file.recordData off 4 = 0x30 → nameAt file off = .ok n →
      field (valueAt file off) 65 1 = nsCode ns →
      InfoOf file off [.head .fileName,
        .fileName (lossy (u16s n.name)) ns (field (valueAt file off) 0 8 % 2 ^ 48)] none
  | nameBad (x : Err) : field file.recordData off 4 = 0x30 → nameAt file off = .err x →
      InfoOf file off [.head .fileName] (some x)
  | stream (nm : List Nat) : field file.recordData off 4 = 0x80 → NameIs file.recordData off nm →
      InfoOf file off [.head .data, .streamName (lossy nm), .streamSize (SizeAt file off)] none
  | streamBad (x : Err) : field file.recordData off 4 = 0x80 → NameBad file off x →
      InfoOf file off [.head .data] (some x)
  | other : field file.recordData off 4 ≠ 0x10 → field file.recordData off 4 ≠ 0x30 →
      field file.recordData off 4 ≠ 0x80 → InfoOf file off [] none

/-- The attribute at `off` can be shown without a panic: resident standard information and file names lie
inside their attributes (and file names are resident), and the headers of data attributes are complete. -/
def Showable (file : NFile) (off : Nat) : Prop :=
  (field file.recordData off 4 = 0x10 → field file.recordData (off + 8) 1 = 0 → Placed file off) ∧
  (field file.recordData off 4 = 0x30 → Placed file off) ∧
  (field file.recordData off 4 = 0x80 →
    off + (if field file.recordData (off + 8) 1 = 0 then 20 else 56) ≤ file.recordData.length)

/-- What `fileinfo` is to print for the attributes `steps`, if the iteration ends with `r`. -/
inductive Listing (V : View) (r : Res (Option AttrItem)) : List Step → List InfoLine → Res Unit → Prop
  | done : r = .ok none → Listing V r [] [] (.ok ())
  | broken (x : Err) : r = .err x → Listing V r [] [] (.err x)
  | fails (s : Step) (steps : List Step) (x : Err) : s.Fails V x → Listing V r (s :: steps) [] (.err x)
  | bad (s : Step) (steps : List Step) (file : NFile) (off : Nat) (l : List InfoLine) (x : Err) :
      s.At V file off → InfoOf file off l (some x) → Listing V r (s :: steps) l (.err x)
  | shown (s : Step) (steps : List Step) (file : NFile) (off : Nat) (l l' : List InfoLine) (q : Res Unit) :
      s.At V file off → InfoOf file off l none → Listing V r steps l' q →
      Listing V r (s :: steps) (l ++ l') q

theorem Time.toOffsetDateTime_eq {t : Nat} (h : t < U64) : Time.toOffsetDateTime t = .ok (sinceUnix t) := by
  obtain ⟨n, h1, h2, _⟩ := C34_roundtrip t h
  rw [h1, h2]; rfl

/-- A `$FILE_NAME` attribute read as a structured value. -/
theorem Attr.structuredValue_name {file : NFile} {off : Nat} {l : Option AttrList}
    (hv : (Attr.mk file off l).Valid) (hl : field file.recordData (off + 8) 1 = 0 → l = none)
    (ety : Attr.ty ⟨file, off, l⟩ = .ok .fileName) (hp : Placed file off) {img : Bytes} (d : Dev)
    (hd : d.Ok img) :
    ∃ d', Attr.structuredValue FileName.structured ⟨file, off, l⟩ d = (nameAt file off, d') ∧ d'.Ok img := by
  obtain ⟨p1, p2, p3⟩ := hp
  obtain rfl := hl p1
  have hin := hv.inside
  simp only [Attr.recordData] at hin
  have ev := C20_resident_value_exact file off none ⟨file, off, none⟩
    (Attr.new_ok_iff.2 ⟨rfl, hv⟩) p1 p2 _ _ _ rfl rfl rfl
  rw [if_neg (by omega), if_neg (by omega)] at ev
  obtain ⟨b, hb⟩ : ∃ b, b = valueAt file off := ⟨_, rfl⟩
  have hblen : b.length = field file.recordData (off + 16) 4 := by
    rw [hb]
    unfold valueAt
    rw [List.length_take, List.length_drop]; omega
  have hval : Attr.value ⟨file, off, none⟩ d =
      (.ok (.simple (.res ⟨b, Pos.add file.position off, 0⟩)), d) := by
    unfold Attr.value
    dsimp only
    rw [StM.bind_of_ok (a := _) (s' := d) (by rw [StM.lift_apply, ev])]
    rw [hb]
    rfl
  have hdp : (Val.simple (.res ⟨b, Pos.add file.position off, 0⟩)).dataPosition =
      Pos.add (Pos.add file.position off) 0 := by
    unfold Val.dataPosition SVal.dataPosition
    dsimp only
    unfold ResVal.dataPosition
    exact if_pos (Nat.zero_le _)
  obtain ⟨d', e, hd'⟩ := FileName.decodes.ofValue img b
    (.simple (.res ⟨b, Pos.add file.position off, 0⟩)) rfl rfl d hd
  refine ⟨d', ?_, hd'⟩
  unfold Attr.structuredValue
  have he : Attr.ensureTy ⟨file, off, none⟩ FileName.structured.ty = .ok () := by
    unfold Attr.ensureTy
    rw [ety, Res.bind_ok, if_neg (by intro h; exact h rfl)]
  rw [StM.bind_of_ok (a := ()) (s' := d) (by rw [StM.lift_apply, he]), StM.bind_of_ok hval, e, hdp]
  show (fileNameRes b _ b.length, d') = _
  rw [hblen, hb]
  rfl

/-- One attribute. -/
theorem fileinfoAttr_spec {file : NFile} {off : Nat} {l : Option AttrList}
    (hv : (Attr.mk file off l).Valid) (hl : field file.recordData (off + 8) 1 = 0 → l = none)
    (hs : Showable file off) {img : Bytes} (d : Dev) (hd : d.Ok img) :
    ∃ out d', d'.Ok img ∧
      ((fileinfoAttr ⟨file, off, l⟩ d = (.ok (), out, d') ∧ InfoOf file off out none) ∨
       ∃ x, fileinfoAttr ⟨file, off, l⟩ d = (.err x, out, d') ∧ InfoOf file off out (some x)) := by
  unfold fileinfoAttr
  by_cases hty : field file.recordData off 4 ∈ typeCodes
  case neg =>
    rw [Attr.ty_bad hv.header hty]
    refine ⟨[], d, hd, .inl ⟨rfl, .other ?_ ?_ ?_⟩⟩ <;>
      (intro h; rw [h] at hty; exact hty (by decide))
  obtain ⟨t, htc⟩ := (typeCodes_iff _).1 hty
  have ety : Attr.ty ⟨file, off, l⟩ = .ok t := (Attr.ty_ok_iff (a := ⟨file, off, l⟩) hv.header).2 htc
  have hnew : Attr.new file off l = .ok ⟨file, off, l⟩ := Attr.new_ok_iff.2 ⟨rfl, hv⟩
  have other : t ≠ .standardInformation → t ≠ .fileName → t ≠ .data → InfoOf file off [] none := by
    intro h1 h2 h3
    refine .other ?_ ?_ ?_
    · intro h; rw [htc] at h; exact h1 (AttrType.code_inj (t := .standardInformation) h)
    · intro h; rw [htc] at h; exact h2 (AttrType.code_inj (t := .fileName) h)
    · intro h; rw [htc] at h; exact h3 (AttrType.code_inj (t := .data) h)
  rw [ety]
  by_cases t1 : t = .standardInformation
  · subst t1
    dsimp only
    have hc : field file.recordData off 4 = 0x10 := htc
    by_cases hr : field file.recordData (off + 8) 1 = 0
    case neg =>
      have e : Attr.residentStructuredValue StdInfo.structured ⟨file, off, l⟩ =
          .err (.unexpectedNonResidentAttribute (Pos.add file.position off)) := by
        unfold Attr.residentStructuredValue
        have he : Attr.ensureTy ⟨file, off, l⟩ StdInfo.structured.ty = .ok () := by
          unfold Attr.ensureTy
          rw [ety, Res.bind_ok, if_neg (by intro h; exact h rfl)]
        rw [he, Res.bind_ok, Attr.isResident_eq hv.header, Res.bind_ok]
        have : (field file.recordData (off + 8) 1 == 0) = false := by simpa using hr
        simp only [Attr.recordData, this]
        rfl
      refine ⟨_, d, hd, .inr ⟨_, ?_, .stdOut hc hr⟩⟩
      unfold fileinfoStd
      rw [e]
      rfl
    obtain ⟨p1, p2, p3⟩ := hs.1 hc hr
    have e : Attr.residentStructuredValue StdInfo.structured ⟨file, off, l⟩ = stdAt file off := by
      rw [StdInfo.decodes.residentStructuredValue file off l _ hnew ety p2 _ _ _ rfl rfl rfl p3, if_pos hr]
      rfl
    cases hq : stdAt file off with
    | ok i =>
      rw [hq] at e
      obtain ⟨k1, k2, k3, k4⟩ : i.accessTime < U64 ∧ i.creationTime < U64 ∧ i.modificationTime < U64 ∧
          i.mftRecordModificationTime < U64 := by
        have hi : ∃ b, 36 ≤ (valueAt file off).length ∧ stdInfoAt (valueAt file off) b = i := by
          unfold stdAt stdInfoRes at hq
          split at hq; · cases hq
          split at hq
          · split at hq
            · cases hq
            · injection hq with hq
              exact ⟨_, by omega, hq⟩
          · split at hq
            · cases hq
            · injection hq with hq
              exact ⟨_, by omega, hq⟩
        obtain ⟨b, h3, rfl⟩ := hi
        exact ⟨field_lt (a := 24) (n := 8) (by omega), field_lt (a := 0) (n := 8) (by omega),
          field_lt (a := 8) (n := 8) (by omega), field_lt (a := 16) (n := 8) (by omega)⟩
      refine ⟨_, d, hd, .inl ⟨?_, .std i hc hr hq⟩⟩
      unfold fileinfoStd
      rw [e, Res.bind_ok, Time.toOffsetDateTime_eq k1, Res.bind_ok, Time.toOffsetDateTime_eq k2, Res.bind_ok,
        Time.toOffsetDateTime_eq k3, Res.bind_ok, Time.toOffsetDateTime_eq k4, Res.bind_ok]
      rfl
    | err x =>
      rw [hq] at e
      refine ⟨_, d, hd, .inr ⟨x, ?_, .stdBad x hc hr hq⟩⟩
      unfold fileinfoStd
      rw [e]
      rfl
    | panic p =>
      have := (C38_never_panics (valueAt file off) (Pos.add (Pos.add file.position off) 0)
        (field file.recordData (off + 16) 4)).1
      unfold stdAt at hq
      rw [hq] at this
      exact this.elim
    | diverge =>
      have := (C38_never_panics (valueAt file off) (Pos.add (Pos.add file.position off) 0)
        (field file.recordData (off + 16) 4)).1
      unfold stdAt at hq
      rw [hq] at this
      exact this.elim
  by_cases t2 : t = .fileName
  · subst t2
    dsimp only
    have hc : field file.recordData off 4 = 0x30 := htc
    obtain ⟨d', e, hd'⟩ := Attr.structuredValue_name hv hl ety (hs.2.1 hc) d hd
    unfold fileinfoFilename
    cases hq : nameAt file off with
    | ok n =>
      rw [hq] at e
      have hf : ∃ ns, n.namespace' = .ok ns ∧ field (valueAt file off) 65 1 = nsCode ns := by
        have hns := C38_namespace _ _ _ n hq
        have hlt : field (valueAt file off) 65 1 < 4 := by
          have h := hq
          unfold nameAt fileNameRes at h
          split at h; · cases h
          split at h; · cases h
          split at h; · cases h
          split at h; · cases h
          split at h; · cases h
          rename_i _ _ _ h4 _
          omega
        revert hns hlt
        generalize field (valueAt file off) 65 1 = k
        intro hns hlt
        match k, hlt with
        | 0, _ => exact ⟨_, hns, rfl⟩
        | 1, _ => exact ⟨_, hns, rfl⟩
        | 2, _ => exact ⟨_, hns, rfl⟩
        | 3, _ => exact ⟨_, hns, rfl⟩
        | k + 4, h4 => omega
      obtain ⟨ns, n1, n2⟩ := hf
      have hpar : n.parent.fileRecordNumber = field (valueAt file off) 0 8 % 2 ^ 48 := by
        have h := hq
        unfold nameAt fileNameRes at h
        split at h; · cases h
        split at h; · cases h
        split at h; · cases h
        split at h; · cases h
        split at h; · cases h
        injection h with h
        subst h
        exact Nat.and_two_pow_sub_one_eq_mod _ 48
      refine ⟨_, d', hd', .inl ⟨?_, .name n ns hc hq n2⟩⟩
      rw [StM.bind_of_ok e, StM.bind_of_ok (a := ns) (s' := d') (by rw [StM.lift_apply, n1]), hpar]
      rfl
    | err x =>
      rw [hq] at e
      refine ⟨_, d', hd', .inr ⟨x, ?_, .nameBad x hc hq⟩⟩
      rw [StM.bind_of_err e]
    | panic p =>
      have := (C38_never_panics (valueAt file off) (Pos.add (Pos.add file.position off) 0)
        (field file.recordData (off + 16) 4)).2.1
      unfold nameAt at hq
      rw [hq] at this
      exact this.elim
    | diverge =>
      have := (C38_never_panics (valueAt file off) (Pos.add (Pos.add file.position off) 0)
        (field file.recordData (off + 16) 4)).2.1
      unfold nameAt at hq
      rw [hq] at this
      exact this.elim
  by_cases t3 : t = .data
  · subst t3
    dsimp only
    have hc : field file.recordData off 4 = 0x80 := htc
    unfold fileinfoData
    rcases Attr.name_cases hv with ⟨b, nm, e1, e2, e3, e4⟩ | ⟨x, e1, e2⟩
    · have hlen : Attr.valueLength ⟨file, off, l⟩ = .ok (SizeAt file off) := by
        have h3 := hs.2.2 hc
        rw [C21_value_length file off l _ hnew]
        unfold SizeAt
        by_cases hr : field file.recordData (off + 8) 1 = 0
        · rw [if_pos hr] at h3 ⊢
          rw [if_pos hr, if_pos h3]
        · rw [if_neg hr] at h3 ⊢
          rw [if_neg hr, if_pos h3]
      refine ⟨_, d, hd, .inl ⟨?_, .stream nm hc e3⟩⟩
      rw [e1]
      dsimp only
      rw [hlen, e2]
    · refine ⟨_, d, hd, .inr ⟨x, ?_, .streamBad x hc e2⟩⟩
      rw [e1]
  refine ⟨[], d, hd, .inl ⟨?_, other t1 t2 t3⟩⟩
  cases t <;> first | rfl | exact absurd rfl t1 | exact absurd rfl t2 | exact absurd rfl t3

theorem fileinfoLoop_spec (steps : List Step) (r : Res (Option AttrItem)) (hr : r = .ok none ∨ ∃ x, r = .err x)
    (hs : ∀ s ∈ steps, ∀ file off, s.At V file off → Showable file off)
    (it : Attrs) (hw : Attrs.Walk V.img it (steps.map (Step.Result V) ++ [(· = r)])) (fuel : Nat)
    (hfuel : steps.length < fuel) (out : List InfoLine) (d : Dev) (hd : d.Ok V.img) :
    ∃ q l d', fileinfoLoop fuel out (it, d) = (q, out ++ l, d') ∧ d'.Ok V.img ∧ Listing V r steps l q := by
  induction steps generalizing it fuel d out with
  | nil =>
    obtain ⟨fuel, rfl⟩ : ∃ k, fuel = k + 1 := ⟨fuel - 1, by simp at hfuel; omega⟩
    obtain ⟨r', it', d', h1, rfl, h3, _⟩ := hw d hd
    rcases hr with rfl | ⟨x, rfl⟩
    · exact ⟨.ok (), [], d', by rw [fileinfoLoop, h1, List.append_nil], h3, .done rfl⟩
    · exact ⟨.err x, [], d', by rw [fileinfoLoop, h1, List.append_nil], h3, .broken x rfl⟩
  | cons s steps ih =>
    obtain ⟨fuel, rfl⟩ : ∃ k, fuel = k + 1 := ⟨fuel - 1, by simp at hfuel; omega⟩
    obtain ⟨r', it', d', h1, h2, h3, h4⟩ := hw d hd
    rcases Step.result_cases h2 with ⟨i, rfl⟩ | ⟨x, rfl, hx⟩
    · obtain ⟨file, g1, g2, g3, g4⟩ := Step.item h2
      obtain ⟨o, d2, k1, ⟨k2, k3⟩ | ⟨x, k2, k3⟩⟩ := fileinfoAttr_spec g3 g4 (hs s (by simp) file _ g1) d' h3
      · obtain ⟨q, l, d3, i1, i2, i3⟩ := ih (fun s hs' => hs s (by simp [hs'])) it' h4 fuel
          (by simp at hfuel; omega) (out ++ o) d2 k1
        refine ⟨q, o ++ l, d3, ?_, i2, .shown s steps file _ o l q g1 k3 i3⟩
        rw [fileinfoLoop, h1]
        dsimp only
        rw [g2]
        dsimp only
        rw [k2]
        dsimp only
        rw [i1, List.append_assoc]
      · refine ⟨.err x, o, d2, ?_, k1, .bad s steps file _ o x g1 k3⟩
        rw [fileinfoLoop, h1]
        dsimp only
        rw [g2]
        dsimp only
        rw [k2]
    · exact ⟨.err x, [], d', by rw [fileinfoLoop, h1, List.append_nil], h3, .fails s steps x hx⟩

/-- What the header of the file record says. -/
def headerLine (f : NFile) : InfoLine :=
  .record (field f.recordData 28 4) f.position (field f.recordData 24 4) (field f.recordData 18 2)
    (decide (field f.recordData 22 2 / 2 % 2 = 1)) f.number (field f.recordData 16 2)

theorem NFile.infoLine_eq {f : NFile} (h : 32 ≤ f.recordData.length) : f.infoLine = .ok (headerLine f) := by
  unfold NFile.infoLine NFile.allocatedSize NFile.dataSize NFile.hardLinkCount NFile.isDirectory NFile.flags
    NFile.sequenceNumber
  rw [readLE_ok (by omega), Res.bind_ok, readLE_ok (by omega), Res.bind_ok, readLE_ok (by omega), Res.bind_ok,
    readLE_ok (by omega), Res.bind_ok, Res.pure_eq, Res.bind_ok, Res.pure_eq, Res.bind_ok,
    readLE_ok (by omega), Res.bind_ok, Res.pure_eq]
  unfold headerLine
  have : (field f.recordData 22 2 % 4 / 2 % 2 == 1) = decide (field f.recordData 22 2 / 2 % 2 = 1) := by
    have e : field f.recordData 22 2 % 4 / 2 % 2 = field f.recordData 22 2 / 2 % 2 := by omega
    rw [e]
    by_cases h : field f.recordData 22 2 / 2 % 2 = 1
    · rw [h]; rfl
    · rw [decide_eq_false h]
      simpa using h
  rw [this]

/-- **C62**: `fileinfo` shows the header of the record and then, for all flattened attributes in order, what
the standard information, file names and data attributes say, and nothing else. It ends with an error
exactly if an attribute cannot be loaded or decoded, after everything before it was shown. -/
theorem C62_fileinfo {steps : List Step} {r : Res (Option AttrItem)} (h : Flattened V steps r)
    (hs : ∀ s ∈ steps, ∀ file off, s.At V file off → Showable file off)
    (fuel : Nat) (hfuel : steps.length < fuel) (d : Dev) (hd : d.Ok V.img) :
    ∃ q l d', V.base.fileinfo fuel d = (q, headerLine V.base :: l, d') ∧ d'.Ok V.img ∧ Listing V r steps l q := by
  obtain ⟨it, h1, h2⟩ := h.walk
  have hr : r = .ok none ∨ ∃ x, r = .err x := by
    cases h with
    | plain _ _ _ _ _ _ he => exact he.elim (fun h => .inl h.2) (fun h => .inr ⟨_, h.2.2⟩)
    | listed _ _ _ _ _ _ _ _ _ _ _ _ _ _ _ _ _ he =>
      exact he.elim (fun h => .inl h.2) (fun h => .inr ⟨_, h.2.2⟩)
  have h32 : 32 ≤ V.base.recordData.length := by
    cases h with
    | plain _ _ _ h32 => exact h32
    | listed _ _ _ _ _ _ _ _ _ _ h32 => exact h32
  obtain ⟨q, l, d', g1, g2, g3⟩ := fileinfoLoop_spec steps r hr hs it h2 fuel hfuel [headerLine V.base] d hd
  refine ⟨q, l, d', ?_, g2, g3⟩
  unfold NFile.fileinfo
  rw [NFile.infoLine_eq h32, Res.bind_ok, h1, Res.bind_ok]
  exact g1

end NT
