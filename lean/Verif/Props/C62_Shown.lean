import Verif.Props.C62_FileInfo
import Verif.Props.C55_Volume
import Verif.Props.C59_Example

/-! C62: consequences for the user of the shell, `fsinfo`, and examples. -/

namespace NT

open Spec

variable {V : View}

theorem nsCode_inj {a b : Namespace} (h : nsCode a = nsCode b) : a = b := by
  cases a <;> cases b <;> first | rfl | exact absurd h (by decide)

/-- The description of one attribute leaves no choice. -/
theorem InfoOf.unique {file : NFile} {off : Nat} {l l' : List InfoLine} {o o' : Option Err}
    (h : InfoOf file off l o) (h' : InfoOf file off l' o') : l = l' ∧ o = o' := by
  have bad : ∀ {a b : Nat}, field file.recordData off 4 = a → field file.recordData off 4 = b → a ≠ b →
      l = l' ∧ o = o' := fun h1 h2 h3 => absurd (h1.symm.trans h2) h3
  cases h with
  | std i a1 a2 a3 =>
    cases h' with
    | std j b1 b2 b3 => rw [a3] at b3; injection b3 with b3; subst b3; exact ⟨rfl, rfl⟩
    | stdBad x b1 b2 b3 => rw [a3] at b3; cases b3
    | stdOut b1 b2 => exact absurd a2 b2
    | name n ns b1 => exact bad a1 b1 (by decide)
    | nameBad x b1 => exact bad a1 b1 (by decide)
    | stream nm b1 => exact bad a1 b1 (by decide)
    | streamBad x b1 => exact bad a1 b1 (by decide)
    | other b1 => exact absurd a1 b1
  | stdBad x a1 a2 a3 =>
    cases h' with
    | std j b1 b2 b3 => rw [a3] at b3; cases b3
    | stdBad y b1 b2 b3 => rw [a3] at b3; injection b3 with b3; subst b3; exact ⟨rfl, rfl⟩
    | stdOut b1 b2 => exact absurd a2 b2
    | name n ns b1 => exact bad a1 b1 (by decide)
    | nameBad x b1 => exact bad a1 b1 (by decide)
    | stream nm b1 => exact bad a1 b1 (by decide)
    | streamBad x b1 => exact bad a1 b1 (by decide)
    | other b1 => exact absurd a1 b1
  | stdOut a1 a2 =>
    cases h' with
    | std j b1 b2 b3 => exact absurd b2 a2
    | stdBad y b1 b2 b3 => exact absurd b2 a2
    | stdOut b1 b2 => exact ⟨rfl, rfl⟩
    | name n ns b1 => exact bad a1 b1 (by decide)
    | nameBad x b1 => exact bad a1 b1 (by decide)
    | stream nm b1 => exact bad a1 b1 (by decide)
    | streamBad x b1 => exact bad a1 b1 (by decide)
    | other b1 => exact absurd a1 b1
  | name n ns a1 a2 a3 =>
    cases h' with
    | std j b1 => exact bad a1 b1 (by decide)
    | stdBad y b1 => exact bad a1 b1 (by decide)
    | stdOut b1 => exact bad a1 b1 (by decide)
    | name n' ns' b1 b2 b3 =>
      rw [a2] at b2
      injection b2 with b2
      rw [nsCode_inj (a3.symm.trans b3), b2]
      exact ⟨rfl, rfl⟩
    | nameBad x b1 b2 => rw [a2] at b2; cases b2
    | stream nm b1 => exact bad a1 b1 (by decide)
    | streamBad x b1 => exact bad a1 b1 (by decide)
    | other b1 b2 => exact absurd a1 b2
  | nameBad x a1 a2 =>
    cases h' with
    | std j b1 => exact bad a1 b1 (by decide)
    | stdBad y b1 => exact bad a1 b1 (by decide)
    | stdOut b1 => exact bad a1 b1 (by decide)
    | name n' ns' b1 b2 => rw [a2] at b2; cases b2
    | nameBad x b1 b2 => rw [a2] at b2; injection b2 with b2; subst b2; exact ⟨rfl, rfl⟩
    | stream nm b1 => exact bad a1 b1 (by decide)
    | streamBad x b1 => exact bad a1 b1 (by decide)
    | other b1 b2 => exact absurd a1 b2
  | stream nm a1 a2 =>
    cases h' with
    | std j b1 => exact bad a1 b1 (by decide)
    | stdBad y b1 => exact bad a1 b1 (by decide)
    | stdOut b1 => exact bad a1 b1 (by decide)
    | name n' ns' b1 => exact bad a1 b1 (by decide)
    | nameBad x b1 => exact bad a1 b1 (by decide)
    | stream nm' b1 b2 => rw [nameIs_unique a2 b2]; exact ⟨rfl, rfl⟩
    | streamBad x b1 b2 => exact absurd a2 (b2.not_nameIs _)
    | other b1 b2 b3 => exact absurd a1 b3
  | streamBad x a1 a2 =>
    cases h' with
    | std j b1 => exact bad a1 b1 (by decide)
    | stdBad y b1 => exact bad a1 b1 (by decide)
    | stdOut b1 => exact bad a1 b1 (by decide)
    | name n' ns' b1 => exact bad a1 b1 (by decide)
    | nameBad x b1 => exact bad a1 b1 (by decide)
    | stream nm' b1 b2 => exact absurd b2 (a2.not_nameIs _)
    | streamBad y b1 b2 =>
      obtain ⟨_, _, _, rfl⟩ := a2
      obtain ⟨_, _, _, rfl⟩ := b2
      exact ⟨rfl, rfl⟩
    | other b1 b2 b3 => exact absurd a1 b3
  | other a1 a2 a3 =>
    cases h' with
    | std j b1 => exact absurd b1 a1
    | stdBad y b1 => exact absurd b1 a1
    | stdOut b1 => exact absurd b1 a1
    | name n' ns' b1 => exact absurd b1 a2
    | nameBad x b1 => exact absurd b1 a2
    | stream nm' b1 => exact absurd b1 a3
    | streamBad x b1 => exact absurd b1 a3
    | other => exact ⟨rfl, rfl⟩

/-- **C62**: what is to be printed is determined by the attributes. -/
theorem C62_determined {r : Res (Option AttrItem)} {steps : List Step} {l l' : List InfoLine} {q q' : Res Unit}
    (hk : ∀ s ∈ steps, ∀ e after, s = .entry e after → ∃ t : AttrType, e.ty = t.code)
    (h : Listing V r steps l q) (h' : Listing V r steps l' q') : l = l' ∧ q = q' := by
  induction h generalizing l' q' with
  | done a =>
    cases h' with
    | done => exact ⟨rfl, rfl⟩
    | broken x b => rw [a] at b; cases b
  | broken x a =>
    cases h' with
    | done b => rw [a] at b; cases b
    | broken x b => rw [a] at b; injection b with b; rw [b]; exact ⟨rfl, rfl⟩
  | fails s steps x a =>
    cases h' with
    | fails _ _ y b => rw [a.unique b]; exact ⟨rfl, rfl⟩
    | bad _ _ file off l y b => exact absurd a b.not_fails
    | shown _ _ file off l l' q b => exact absurd a b.not_fails
  | bad s steps file off l x a c =>
    cases h' with
    | fails _ _ y b => exact absurd b a.not_fails
    | bad _ _ file' off' l y b c' =>
      obtain ⟨rfl, rfl⟩ := a.unique b (hk s (by simp))
      obtain ⟨rfl, g⟩ := c.unique c'
      injection g with g
      rw [g]; exact ⟨rfl, rfl⟩
    | shown _ _ file' off' l l' q b c' =>
      obtain ⟨rfl, rfl⟩ := a.unique b (hk s (by simp))
      exact absurd (c.unique c').2 (by simp)
  | shown s steps file off l1 l2 q a c _ ih =>
    cases h' with
    | fails _ _ y b => exact absurd b a.not_fails
    | bad _ _ file' off' l y b c' =>
      obtain ⟨rfl, rfl⟩ := a.unique b (hk s (by simp))
      exact absurd (c.unique c').2 (by simp)
    | shown _ _ file' off' l1' l2' q b c' e =>
      obtain ⟨rfl, rfl⟩ := a.unique b (hk s (by simp))
      obtain ⟨rfl, _⟩ := c.unique c'
      obtain ⟨rfl, rfl⟩ := ih (fun s hs => hk s (by simp [hs])) e
      exact ⟨rfl, rfl⟩

theorem Listing.all {r : Res (Option AttrItem)} {steps : List Step} {l : List InfoLine}
    (h : Listing V r steps l (.ok ())) :
    r = .ok none ∧ ∀ s ∈ steps, ∃ file off l0, s.At V file off ∧ InfoOf file off l0 none ∧ l0 <:+: l := by
  generalize hq : (Res.ok () : Res Unit) = q at h
  induction h with
  | done a => exact ⟨a, by simp⟩
  | broken x a => cases hq
  | fails s steps x a => cases hq
  | bad s steps file off l x a c => cases hq
  | shown s steps file off l1 l2 q a c _ ih =>
    obtain ⟨h1, h2⟩ := ih hq
    refine ⟨h1, fun s' hs' => ?_⟩
    rcases List.mem_cons.1 hs' with rfl | hs'
    · exact ⟨file, off, l1, a, c, ⟨[], l2, rfl⟩⟩
    · obtain ⟨f, o, l0, g1, g2, g3⟩ := h2 s' hs'
      refine ⟨f, o, l0, g1, g2, ?_⟩
      obtain ⟨x, y, g3⟩ := g3
      exact ⟨l1 ++ x, y, by rw [← g3]; simp⟩

/-- **C62**: if `fileinfo` ends without an error, every stream of the file is in what it printed, with its
size, and every name of the file, with its namespace and its parent. -/
theorem C62_nothing_hidden {r : Res (Option AttrItem)} {steps : List Step} {l : List InfoLine}
    (hk : ∀ s ∈ steps, ∀ e after, s = .entry e after → ∃ t : AttrType, e.ty = t.code)
    (h : Listing V r steps l (.ok ())) (s : Step) (hs : s ∈ steps) (file : NFile) (off : Nat)
    (hat : s.At V file off) :
    (∀ nm, field file.recordData off 4 = 0x80 → NameIs file.recordData off nm →
      [.head .data, .streamName (lossy nm), .streamSize (SizeAt file off)] <:+: l) ∧
    (∀ n ns, field file.recordData off 4 = 0x30 → nameAt file off = .ok n →
      field (valueAt file off) 65 1 = nsCode ns →
      [.head .fileName, .fileName (lossy (u16s n.name)) ns (field (valueAt file off) 0 8 % 2 ^ 48)] <:+: l) := by
  obtain ⟨_, h2⟩ := h.all
  obtain ⟨f, o, l0, g1, g2, g3⟩ := h2 s hs
  obtain ⟨rfl, rfl⟩ := g1.unique hat (hk s hs)
  constructor
  · intro nm h1 h2
    rw [← (g2.unique (.stream nm h1 h2)).1]
    exact g3
  · intro n ns h1 h2 h3
    rw [← (g2.unique (.name n ns h1 h2 h3)).1]
    exact g3

/-- **C62**: a stream that `fileinfo` showed is found by `data` under the name that is stored, so `get` can
open it. The types of all attributes must be known: `fileinfo` passes over an attribute of an unknown type,
while `data` ends at it with an error. -/
theorem C62_shown_is_found {r : Res (Option AttrItem)} {steps : List Step} {l : List InfoLine}
    (hf : Flattened V steps r) (h : Listing V r steps l (.ok ())) (s : Step) (hs : s ∈ steps) (file : NFile)
    (off : Nat) (hat : s.At V file off) (nm : List Nat) (hty : field file.recordData off 4 = 0x80)
    (hn : NameIs file.recordData off nm) (hu : Units nm)
    (ht : nm ≠ [] → ∃ t, V.base.ntfs.upcaseTable = some t ∧ TableOk t)
    (hknown : ∀ s ∈ steps, ∀ file off, s.At V file off → field file.recordData off 4 ∈ typeCodes)
    (fuel : Nat) (hfuel : steps.length < fuel) (d : Dev) (hd : d.Ok V.img) :
    ∃ i d', V.base.dataItem nm fuel d = (.ok (some i), d') ∧ d'.Ok V.img := by
  obtain ⟨q, d', e, hd', hq⟩ := C46_data hf nm hu ht fuel hfuel d hd
  obtain ⟨_, hall⟩ := h.all
  rcases hq.safe with ⟨o, rfl⟩ | ⟨x, rfl⟩
  · cases o with
    | some i => exact ⟨i, d', e, hd'⟩
    | none =>
      obtain ⟨_, h2⟩ := hq.none_iff.1 rfl
      obtain ⟨f, o, g1, g2, g3⟩ := h2 s hs
      obtain ⟨rfl, rfl⟩ := g1.unique hat (hf.known s hs)
      obtain ⟨nm', g4, g5⟩ := g3 hty
      rw [nameIs_unique g4 hn] at g5
      refine absurd ?_ g5
      unfold StreamMatch
      split
      · assumption
      · rename_i hne
        obtain ⟨t, t1, t2⟩ := ht hne
        obtain ⟨u, hu⟩ := upper_exists t nm t2 hu
        exact ⟨t, u, t1, hu, hu⟩
  · rcases (hq.err_iff x).1 rfl with ⟨pre, p, post, rfl, _, hp | ⟨f, o, g1, g2⟩⟩ | ⟨rfl, _⟩
    · obtain ⟨f, o, _, g1, _⟩ := hall p (by simp)
      exact absurd hp g1.not_fails
    · obtain ⟨f', o', l0, k1, k2, _⟩ := hall p (by simp)
      obtain ⟨rfl, rfl⟩ := k1.unique g1 (hf.known p (by simp))
      rcases g2 with ⟨g2, _⟩ | ⟨g2, g3⟩
      · exact absurd (hknown p (by simp) _ _ k1) g2
      · exact absurd (k2.unique (.streamBad x g2 g3)).2 (by simp)
    · exact absurd (Listing.all h).1 (by simp)

/-- **C62**: `fileinfo` in the shell, for an argument that names the file `F`. -/
theorem C62_command (s : Shell) {F : View} (arg : List Char) (fuel : Nat) (d d1 : Dev) (hd1 : d1.Ok F.img)
    (hparse : s.parseFileArg arg fuel d = (.ok (.ok F.base), d1))
    {steps : List Step} {r : Res (Option AttrItem)} (hfl : Flattened F steps r)
    (hs : ∀ s ∈ steps, ∀ file off, s.At F file off → Showable file off) (hf : steps.length < fuel) :
    (∀ l, Listing F r steps l (.ok ()) →
      ∃ d', s.fileinfo arg fuel d = (.ok (.ok ()), headerLine F.base :: l, d') ∧ d'.Ok F.img) ∧
    (∀ l x, Listing F r steps l (.err x) →
      ∃ d', s.fileinfo arg fuel d = (.err x, headerLine F.base :: l, d') ∧ d'.Ok F.img) := by
  obtain ⟨q, l, d2, h1, h2, h3⟩ := C62_fileinfo hfl hs fuel hf d1 hd1
  constructor
  · intro l' hl
    obtain ⟨rfl, rfl⟩ := C62_determined hfl.known h3 hl
    exact ⟨d2, by unfold Shell.fileinfo; rw [hparse]; dsimp only; rw [h1], h2⟩
  · intro l' x hl
    obtain ⟨rfl, rfl⟩ := C62_determined hfl.known h3 hl
    exact ⟨d2, by unfold Shell.fileinfo; rw [hparse]; dsimp only; rw [h1], h2⟩

/-- The label as record 3 stores it. -/
def LabelIs (f : NFile) (label : Bytes) : Prop :=
  ∃ off, FirstOf f.recordData 0x60 off ∧ Placed f off ∧ field f.recordData (off + 16) 4 ≤ 256 ∧
    label = valueAt f off

/-- The version as record 3 stores it. -/
def VersionIs (f : NFile) (major minor : Nat) : Prop :=
  ∃ off, FirstOf f.recordData 0x70 off ∧ Placed f off ∧ 12 ≤ field f.recordData (off + 16) 4 ∧
    major = field (valueAt f off) 8 1 ∧ minor = field (valueAt f off) 9 1

/-- What `fsinfo` is to print for a volume. -/
def fsLines (g : Geometry) (major minor : Nat) (label : Option Bytes) : List FsLine :=
  [.layout (g.sectorsPerCluster * g.sectorSize) g.fileRecordSize
    (some (g.mftLcn * (g.sectorsPerCluster * g.sectorSize))), .version major minor,
   .size g.sectorSize g.serial (g.totalSectors * g.sectorSize), .label label]

/-- **C62**: `fsinfo` shows the geometry in the boot sector, the version and the label in record 3. With no
label, or one that cannot be read, it shows none. It succeeds if the version is stored and the label is
stored or absent, and whenever it succeeds it has shown exactly this. If there is no version it ends with an
error, and whenever it ends with an error it has shown the layout of the volume and no more. -/
theorem C62_fsinfo {g : Geometry} {t : Option (List Nat)}
    (hg : V.ntfs = { Ntfs.ofGeometry g with upcaseTable := t }) (h3 : RecordOf V 3) (hm : HasMft V) (d : Dev)
    (hd : d.Ok V.img) :
    (∀ major minor label, VersionIs V.base major minor → LabelIs V.base label →
      ∃ d', V.ntfs.fsinfo d = (.ok (), fsLines g major minor (some label), d') ∧ d'.Ok V.img) ∧
    (∀ major minor, VersionIs V.base major minor → NoneOf V.base.recordData 0x60 →
      ∃ d', V.ntfs.fsinfo d = (.ok (), fsLines g major minor none, d') ∧ d'.Ok V.img) ∧
    (∀ out d', V.ntfs.fsinfo d = (.ok (), out, d') → ∃ major minor label, VersionIs V.base major minor ∧
      out = fsLines g major minor label ∧ ∀ x, label = some x ↔ LabelIs V.base x) ∧
    (NoneOf V.base.recordData 0x70 →
      (V.ntfs.fsinfo d).1 = .err (.attributeNotFound V.base.position .volumeInformation)) ∧
    (∀ x out d', V.ntfs.fsinfo d = (.err x, out, d') → out = (fsLines g 0 0 none).take 1) := by
  obtain ⟨d1, e1, hd1⟩ := h3.load hm d hd
  obtain ⟨d2, e2, hd2⟩ := h3.load hm d1 hd1
  have hi := C55_volume_info V.ntfs d d1 V.base e1
  obtain ⟨hn1, hn2⟩ := C55_volume_name V.ntfs d1 d2 V.base e2
  have hfs : ∀ major minor flags q, V.ntfs.volumeInfo d = (.ok ⟨major, minor, flags⟩, d1) →
      V.ntfs.volumeName d1 = (q, d2) → (∀ x, q ≠ .panic x) → q ≠ .diverge →
      V.ntfs.fsinfo d = (.ok (), fsLines g major minor
        (match q with | .ok (some x) => some x.name | _ => none), d2) := by
    intro major minor flags q k1 k2 k3 k4
    unfold Ntfs.fsinfo
    rw [k1]
    dsimp only
    rw [k2, hg]
    cases q with
    | ok o => cases o <;> rfl
    | err e => rfl
    | panic p => exact absurd rfl (k3 p)
    | diverge => exact absurd rfl k4
  have hv : ∀ major minor, VersionIs V.base major minor →
      ∃ flags, V.ntfs.volumeInfo d = (.ok ⟨major, minor, flags⟩, d1) := by
    rintro major minor ⟨off, k1, k2, k3, k4, k5⟩
    exact ⟨_, (hi ⟨major, minor, _⟩).2 ⟨off, k1, k2, k3, k4, k5, rfl⟩⟩
  refine ⟨?_, ?_, ?_, ?_, ?_⟩
  · intro major minor label k1 k2
    obtain ⟨flags, k1⟩ := hv _ _ k1
    exact ⟨d2, hfs major minor flags _ k1 ((hn1 ⟨label⟩).2 k2) (by simp) (by simp), hd2⟩
  · intro major minor k1 k2
    obtain ⟨flags, k1⟩ := hv _ _ k1
    exact ⟨d2, hfs major minor flags _ k1 (hn2.2 k2) (by simp) (by simp), hd2⟩
  · intro out d' ho
    have hvd : (V.ntfs.volumeInfo d).2 = d1 := by
      unfold Ntfs.volumeInfo
      rw [StM.bind_of_ok e1, StM.lift_apply]
    have hnd : (V.ntfs.volumeName d1).2 = d2 := by
      unfold Ntfs.volumeName
      rw [StM.bind_of_ok e2]
      cases V.base.findResidentStructured VolumeName.structured none with
      | ok v => rfl
      | err e => cases e <;> rfl
      | panic p => rfl
      | diverge => rfl
    cases k1 : V.ntfs.volumeInfo d with
    | mk a b =>
      rw [k1] at hvd
      dsimp only at hvd
      subst hvd
      cases k2 : V.ntfs.volumeName b with
      | mk q c =>
        rw [k2] at hnd
        dsimp only at hnd
        subst hnd
        cases a with
        | ok v =>
          have safe : (∀ x, q ≠ .panic x) ∧ q ≠ .diverge := by
            unfold Ntfs.fsinfo at ho
            rw [k1] at ho
            dsimp only at ho
            rw [k2] at ho
            constructor
            · rintro x rfl; injection ho with ho; cases ho
            · rintro rfl; injection ho with ho; cases ho
          obtain ⟨major, minor, flags⟩ := v
          have hx := hfs major minor flags q k1 k2 safe.1 safe.2
          rw [ho] at hx
          injection hx with _ hx
          injection hx with hx _
          subst hx
          obtain ⟨off, j1, j2, j3, j4, j5, _⟩ := (hi _).1 k1
          refine ⟨major, minor, _, ⟨off, j1, j2, j3, j4, j5⟩, rfl, fun x => ?_⟩
          show _ ↔ LabelIs V.base (VolumeName.mk x).name
          unfold LabelIs
          rw [← hn1 ⟨x⟩, k2]
          cases q with
          | ok o =>
            cases o with
            | none => simp
            | some y => cases y; simp
          | err e => simp
          | panic p => simp
          | diverge => simp
        | err e =>
          unfold Ntfs.fsinfo at ho
          rw [k1] at ho
          injection ho with ho
          cases ho
        | panic p =>
          unfold Ntfs.fsinfo at ho
          rw [k1] at ho
          injection ho with ho
          cases ho
        | diverge =>
          unfold Ntfs.fsinfo at ho
          rw [k1] at ho
          injection ho with ho
          cases ho
  · intro hno
    obtain ⟨_, _, _, _, _, _, h32, _⟩ := C17_sound V.ntfs 3 d d1 V.base e1
    have k : V.ntfs.volumeInfo d = (.err (.attributeNotFound V.base.position .volumeInformation), d1) := by
      unfold Ntfs.volumeInfo
      rw [StM.bind_of_ok e1, StM.lift_apply]
      unfold NFile.findResidentStructured
      rw [(noneOf_iff h32 VolumeInfo.structured.ty).2 hno]
      rfl
    unfold Ntfs.fsinfo
    rw [k]
  · intro x out d' ho
    have key : out = [FsLine.layout V.ntfs.clusterSize V.ntfs.fileRecordSize V.ntfs.mftPosition] := by
      unfold Ntfs.fsinfo at ho
      dsimp only at ho
      generalize V.ntfs.volumeInfo d = k at ho
      obtain ⟨a, b⟩ := k
      cases a with
      | ok v =>
        dsimp only at ho
        generalize V.ntfs.volumeName b = k at ho
        obtain ⟨q, c⟩ := k
        cases q with
        | ok o => cases o <;> (injection ho with ho; cases ho)
        | err e => injection ho with ho; cases ho
        | panic p => injection ho with ho; cases ho
        | diverge => injection ho with ho; cases ho
      | err e =>
        injection ho with _ ho
        injection ho with ho _
        exact ho.symm
      | panic p => injection ho with ho; cases ho
      | diverge => injection ho with ho; cases ho
    rw [key, hg]
    rfl

/-- The argument names no file, for the reason `m`: there is none, it is a slash that no record number
follows, or it is a name that no entry of the directory `t` has. -/
inductive Spec.NoFile (tab : List Nat) (t : Node) : List Char → ShellMsg → Prop
  | missing : NoFile tab t [] .missingArgument
  | number (n : List Char) : parseRecordNumber n = none → NoFile tab t ('/' :: n) (.badRecordNumber n)
  | name (arg : List Char) : arg ≠ [] → arg.head? ≠ some '/' →
      (∀ e ∈ t.inorder, ¬ ∃ u, Upper tab (utf16 arg) u ∧ UpperName tab e u) →
      NoFile tab t arg (.noSuchFile arg)

theorem Spec.NoFile.parse (s : Shell) {D : View} {rest : List NFile} (hs : s.stack = D.base :: rest)
    {steps : List Step} {t : Node} {tab : List Nat} (hD : DirOf D steps t tab)
    (hn : s.ntfs.upcaseTable = some tab) (ht : TableOk tab) {arg : List Char} {m : ShellMsg}
    (h : NoFile tab t arg m)
    (fuel : Nat) (hf1 : steps.length < fuel) (hf2 : t.entries + t.nodes ≤ fuel) (d : Dev) (hd : d.Ok D.img) :
    ∃ d', s.parseFileArg arg fuel d = (.ok (.error m), d') ∧ d'.Ok D.img := by
  cases h with
  | missing => exact ⟨d, by unfold Shell.parseFileArg; rw [if_pos rfl]; rfl, hd⟩
  | number n h =>
    refine ⟨d, ?_, hd⟩
    unfold Shell.parseFileArg
    have hst : stripPrefix ['/'] ('/' :: n) = some n := by
      unfold stripPrefix
      simp
    rw [if_neg (by simp), hst]
    dsimp only
    rw [h]
    rfl
  | name arg h1 h2 h3 => exact C59_no_such_file s hs hD hn ht arg h1 h2 h3 fuel hf1 hf2 d hd

/-- **C62**: an argument that names no file is reported as such, and nothing is shown. -/
theorem C62_no_file (s : Shell) {D : View} {rest : List NFile} (hs : s.stack = D.base :: rest)
    {steps : List Step} {t : Node} {tab : List Nat} (hD : DirOf D steps t tab)
    (hn : s.ntfs.upcaseTable = some tab) (ht : TableOk tab) {arg : List Char} {m : ShellMsg}
    (h : NoFile tab t arg m)
    (fuel : Nat) (hf1 : steps.length < fuel) (hf2 : t.entries + t.nodes ≤ fuel) (d : Dev) (hd : d.Ok D.img) :
    ∃ d', s.fileinfo arg fuel d = (.ok (.error m), [], d') ∧ d'.Ok D.img := by
  obtain ⟨d', e, hd'⟩ := h.parse s hs hD hn ht fuel hf1 hf2 d hd
  exact ⟨d', by unfold Shell.fileinfo; rw [e], hd'⟩

/-! ### Examples -/

/-- Record 3 of the volume of C55. -/
def exFsView : View := ⟨exVolNtfs, exVolImage, [⟨6, none⟩, ⟨2, some 3⟩], exVolFile⟩

set_option maxRecDepth 20000 in
example (d : Dev) (hd : d.Ok exVolImage) : ∃ d', exVolNtfs.fsinfo d =
    (.ok (), [.layout 64 128 (some 64), .version 3 1, .size 64 0 320, .label (some [65, 0, 66, 0])], d') := by
  have a1 : AttrAt exVolFile.recordData 56 32 := ⟨by decide, by decide, by decide, by decide⟩
  have a2 : AttrAt exVolFile.recordData 88 40 := ⟨by decide, by decide, by decide, by decide⟩
  have h20 : field exVolFile.recordData 20 2 = 56 := by decide
  have h := (C62_fsinfo (V := exFsView) (g := ⟨64, 1, 128, 5, 1, 0⟩) (t := none) rfl
    ⟨by decide, 192, by decide, by decide, by decide⟩ ⟨_, _, _, _, _, exVolMft_stored⟩ d hd).1 3 1 [65, 0, 66, 0]
    ⟨88, ⟨[56], by rw [show field exFsView.base.recordData 20 2 = 56 from h20]; exact .cons a1 (.nil 88), ⟨40, a2⟩,
      by decide, by decide⟩, ⟨by decide, by decide, by decide⟩, by decide, by decide, by decide⟩
    ⟨56, ⟨[], by rw [show field exFsView.base.recordData 20 2 = 56 from h20]; exact .nil 56, ⟨32, a1⟩, by decide,
      by simp⟩, ⟨by decide, by decide, by decide⟩, by decide, by decide⟩
  obtain ⟨d', h, _⟩ := h
  exact ⟨d', h⟩

/-- "f" on the example volume: one name, the unnamed stream of 1100 bytes and the stream "s" of 2 bytes. -/
def exInfoLines : List InfoLine :=
  [.head .fileName, .fileName ['f'] .win32 5, .head .data, .streamName [], .streamSize 1100,
   .head .data, .streamName ['s'], .streamSize 2]

theorem exFile_showable : ∀ s ∈ [Step.own 56, .own 152, .own 232], ∀ file off, s.At exFile file off →
    Showable file off := by
  intro s hs file off hat
  simp only [List.mem_cons, List.not_mem_nil, or_false] at hs
  have : ∀ o ∈ [56, 152, 232], Showable exFile.base o := by
    show ∀ o ∈ [56, 152, 232], _
    intro o ho
    simp only [List.mem_cons, List.not_mem_nil, or_false] at ho
    unfold Showable Placed
    show (field (exFixed exDiskRec12) o 4 = _ → field (exFixed exDiskRec12) (o + 8) 1 = 0 →
      field (exFixed exDiskRec12) (o + 8) 1 = 0 ∧ o + 22 ≤ (exFixed exDiskRec12).length ∧
      field (exFixed exDiskRec12) (o + 20) 2 + field (exFixed exDiskRec12) (o + 16) 4 ≤
        field (exFixed exDiskRec12) (o + 4) 4) ∧
      (field (exFixed exDiskRec12) o 4 = _ →
      field (exFixed exDiskRec12) (o + 8) 1 = 0 ∧ o + 22 ≤ (exFixed exDiskRec12).length ∧
      field (exFixed exDiskRec12) (o + 20) 2 + field (exFixed exDiskRec12) (o + 16) 4 ≤
        field (exFixed exDiskRec12) (o + 4) 4) ∧
      (field (exFixed exDiskRec12) o 4 = _ →
        o + (if field (exFixed exDiskRec12) (o + 8) 1 = 0 then 20 else 56) ≤ (exFixed exDiskRec12).length)
    rcases ho with rfl | rfl | rfl <;> decide +kernel
  rcases hs with rfl | rfl | rfl <;>
    (obtain ⟨rfl, rfl, _⟩ := hat; exact this _ (by simp))

/-- The record of "f". -/
def exFileNF : NFile := ⟨exVol (some exTable), ⟨exFixed exDiskRec12, some 2560⟩, 12⟩

set_option maxRecDepth 20000 in
theorem exFile_listing : Listing exFile (.ok none) [.own 56, .own 152, .own 232] exInfoLines (.ok ()) := by
  have hv : valueAt exFileNF 56 = ((exFixed exDiskRec12).drop 80).take 68 := by
    show (((exFixed exDiskRec12).drop (56 + field (exFixed exDiskRec12) (56 + 20) 2)).take
      (field (exFixed exDiskRec12) (56 + 16) 4)) = _
    decide +kernel
  have a : InfoOf exFileNF 56 [.head .fileName, .fileName ['f'] .win32 5] none := by
    have hn : nameAt exFileNF 56 = .ok (fileNameAt (valueAt exFileNF 56)) := by
      unfold nameAt
      rw [hv]
      show fileNameRes _ _ (field (exFixed exDiskRec12) (56 + 16) 4) = _
      decide +kernel
    have h := InfoOf.name (file := exFileNF) (off := 56) _ .win32
      (by show field (exFixed exDiskRec12) 56 4 = _; decide +kernel) hn
      (by rw [hv]; decide +kernel)
    rw [hv] at h
    have e : lossy (u16s (fileNameAt (((exFixed exDiskRec12).drop 80).take 68)).name) = ['f'] := by decide +kernel
    have e' : field (((exFixed exDiskRec12).drop 80).take 68) 0 8 % 2 ^ 48 = 5 := by decide +kernel
    rw [e, e'] at h
    exact h
  have b : InfoOf exFileNF 152 [.head .data, .streamName [], .streamSize 1100] none := by
    have h := InfoOf.stream (file := exFileNF) (off := 152) []
      (by show field (exFixed exDiskRec12) 152 4 = _; decide +kernel) exFile_names.1
    have e : SizeAt exFileNF 152 = 1100 := by
      show (if field (exFixed exDiskRec12) (152 + 8) 1 = 0 then field (exFixed exDiskRec12) (152 + 16) 4
        else field (exFixed exDiskRec12) (152 + 48) 8) = _
      decide +kernel
    rw [e] at h
    exact h
  have c : InfoOf exFileNF 232 [.head .data, .streamName ['s'], .streamSize 2] none := by
    have h := InfoOf.stream (file := exFileNF) (off := 232) [115]
      (by show field (exFixed exDiskRec12) 232 4 = _; decide +kernel) exFile_names.2
    have e : SizeAt exFileNF 232 = 2 := by
      show (if field (exFixed exDiskRec12) (232 + 8) 1 = 0 then field (exFixed exDiskRec12) (232 + 16) 4
        else field (exFixed exDiskRec12) (232 + 48) 8) = _
      decide +kernel
    rw [e, show lossy [115] = ['s'] by decide +kernel] at h
    exact h
  exact .shown (V := exFile) (.own 56) _ exFileNF 56 _ _ _ ⟨rfl, rfl, _, exFile_attrs.1⟩ a
    (.shown (V := exFile) (.own 152) _ exFileNF 152 _ _ _ ⟨rfl, rfl, _, exFile_attrs.2.1⟩ b
    (.shown (V := exFile) (.own 232) _ exFileNF 232 _ _ _ ⟨rfl, rfl, _, exFile_attrs.2.2⟩ c (.done rfl)))

/-- `fileinfo F` in the root directory of the example volume. -/
example (d : Dev) (hd : d.Ok exDisk) : ∃ d', (Shell.mk [exRoot.base] [] (exVol (some exTable))).fileinfo ['F'] 20 d =
    (.ok (.ok ()), headerLine exFile.base :: exInfoLines, d') := by
  obtain ⟨d1, e1, hd1⟩ := C59_by_name (D := exRoot) (F := exFile) (Shell.mk [exRoot.base] [] (exVol (some exTable)))
    rfl exRoot_dir rfl exTable_length ['F'] (by decide) (by decide) exNames_file (exRec_records _).2.2.2
    (exRec_hasMft _ _ _ _) rfl rfl 20 (by decide) (by decide) d hd
  obtain ⟨d2, e2, _⟩ := (C62_command (F := exFile) _ ['F'] 20 d d1 hd1 e1 exFile_flattened exFile_showable (by decide)).1 _
    exFile_listing
  exact ⟨d2, e2⟩

/-- The streams shown above are found. -/
example (d : Dev) (hd : d.Ok exDisk) : ∃ i d', exFile.base.dataItem [115] 20 d = (.ok (some i), d') := by
  obtain ⟨i, d', e, _⟩ := C62_shown_is_found exFile_flattened exFile_listing (.own 232) (by simp) exFile.base 232
    ⟨rfl, rfl, _, exFile_attrs.2.2⟩ [115]
    (by show field (exFixed exDiskRec12) 232 4 = _; decide +kernel) exFile_names.2 (by unfold Spec.Units; decide)
    (fun _ => ⟨exTable, rfl, exTable_length⟩) (by
      intro s hs file off hat
      simp only [List.mem_cons, List.not_mem_nil, or_false] at hs
      rcases hs with rfl | rfl | rfl <;> obtain ⟨rfl, rfl, _⟩ := hat <;>
        (show field (exFixed exDiskRec12) _ 4 ∈ _; decide +kernel))
    20 (by decide) d hd
  exact ⟨i, d', e⟩

/-- A record with `$STANDARD_INFORMATION` alone: the times are those of the record. -/
def exInfoView : View := ⟨exVolNtfs, [], [], exInfoFile⟩

set_option maxRecDepth 20000 in
example (d : Dev) (hd : d.Ok []) : ∃ i d', exInfoView.base.fileinfo 3 d = (.ok (),
    [.record 128 (some 0) 128 1 false 9 1, .head .standardInformation,
     .std i [nanos1601 + 100 * 0x0101010101010101, nanos1601 + 700, nanos1601 + 100 * 0x0101010101010101,
       nanos1601 + 100 * 0x0101010101010101]], d') ∧ i.rawFileAttributes = 0x20 := by
  have hat : AttrAt exInfoFile.recordData 56 72 := ⟨by decide, by decide, by decide, by decide⟩
  have hfl : Flattened exInfoView [.own 56] (.ok none) :=
    .plain (V := exInfoView) [56] 128 (.ok none) (by decide) (.cons hat (.nil 128)) (by decide)
      (.inl ⟨fun h => absurd h (by decide), rfl⟩)
  obtain ⟨q, l, d', h1, h2, h3⟩ := C62_fileinfo hfl (by
    intro s hs file off hat
    simp only [List.mem_cons, List.not_mem_nil, or_false] at hs
    subst hs
    obtain ⟨rfl, rfl, _⟩ := hat
    exact ⟨fun _ _ => ⟨by decide, by decide, by decide⟩, fun h => absurd h (by decide),
      fun h => absurd h (by decide)⟩) 3 (by decide) d hd
  have hi : stdAt exInfoFile 56 = .ok (stdInfoAt (valueAt exInfoFile 56) false) := by decide +kernel
  have hl : Listing exInfoView (.ok none) [.own 56] _ (.ok ()) :=
    .shown (.own 56) [] exInfoFile 56 _ _ _ ⟨rfl, rfl, _, hat⟩ (.std _ (by decide) (by decide) hi) (.done rfl)
  obtain ⟨rfl, rfl⟩ := C62_determined hfl.known h3 hl
  refine ⟨stdInfoAt (valueAt exInfoFile 56) false, d', ?_, by decide +kernel⟩
  have e0 : headerLine exInfoView.base = .record 128 (some 0) 128 1 false 9 1 := by decide +kernel
  have e1 : (stdInfoAt (valueAt exInfoFile 56) false).accessTime = 0x0101010101010101 := by decide +kernel
  have e2 : (stdInfoAt (valueAt exInfoFile 56) false).creationTime = 7 := by decide +kernel
  have e3 : (stdInfoAt (valueAt exInfoFile 56) false).modificationTime = 0x0101010101010101 := by decide +kernel
  have e4 : (stdInfoAt (valueAt exInfoFile 56) false).mftRecordModificationTime = 0x0101010101010101 := by
    decide +kernel
  rw [h1, e0, e1, e2, e3, e4]
  rfl

/-- "z" is not in the root directory of the example volume. -/
theorem exNoFile : NoFile exTable exRootTree ['z'] (.noSuchFile ['z']) := by
  refine .name _ (by decide) (by decide) ?_
  intro e he
  have he : e = exEntSub ∨ e = exEntFile := by
    simpa [exRootTree, Node.inorder] using he
  rintro ⟨u, h1, h2⟩
  have h1 := upper_unique h1 (exUpper 122 (by decide) .nil)
  rcases he with rfl | rfl
  · rw [h2.unique exRoot_upper.1] at h1; exact absurd h1 (by decide)
  · rw [h2.unique exRoot_upper.2] at h1; exact absurd h1 (by decide)

example (d : Dev) (hd : d.Ok exDisk) : ∃ d', (Shell.mk [exRoot.base] [] (exVol (some exTable))).fileinfo ['z'] 20 d =
    (.ok (.error (.noSuchFile ['z'])), [], d') := by
  obtain ⟨d', h, _⟩ := C62_no_file (D := exRoot) (Shell.mk [exRoot.base] [] (exVol (some exTable))) rfl exRoot_dir rfl
    exTable_length exNoFile 20 (by decide) (by decide) d hd
  exact ⟨d', h⟩

/-- Everything of the file of the example is listed. -/
example (file : NFile) (off : Nat) (h : (Step.own 152).At exFile file off) :=
  C62_nothing_hidden (by intro s hs e after he; simp at hs; rcases hs with rfl | rfl | rfl <;> cases he)
    exFile_listing (.own 152) (by simp) file off h

end NT
