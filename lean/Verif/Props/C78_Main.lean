import Verif.Lemmas.LocalMain
import Verif.Props.C78_Volume
import Verif.Props.C15_Boot

/-! C78, continued: the shell from its start. -/

namespace NT

open Spec

/-- C78: all that the shell prints and saves, from the opening of the volume on, depends only on the boot sector and
the places that the volume uses. -/
theorem C78_shell (img : Bytes) (S : Nat → Prop) (hb : ∀ a < 512, S a)
    (hc : ∀ n d d', d.img = img → Ntfs.new d = (.ok n, d') → Covers n img S) (fuel : Nat)
    (lines : List (Option (List Char))) (host : Host) (d e : Dev) (hd : d.img = img) (hs : SameOn S d e) :
    (shellMain fuel lines host d).1 = (shellMain fuel lines host e).1 ∧
    (shellMain fuel lines host d).2.1 = (shellMain fuel lines host e).2.1 ∧
    (shellMain fuel lines host d).2.2.1 = (shellMain fuel lines host e).2.2.1 := by
  obtain ⟨b, d', e', k1, k2, _⟩ := shellMain_on (S := S) (fun i hi => by simpa using hb i hi) hc fuel lines host d e hd hs
  dsimp only at k1 k2
  rw [k1, k2]
  exact ⟨rfl, rfl, rfl⟩

/-! ### An example: a volume with an MFT of eleven records, of which three are in use -/

/-- Sectors and clusters of 512 bytes, records of 1024 bytes, the MFT at cluster 1. -/
def exMainBoot : Bytes :=
  List.replicate 11 0 ++ [0x00, 0x02, 1] ++ List.replicate 26 0 ++ [0x00, 0x10, 0, 0, 0, 0, 0, 0] ++
  [1, 0, 0, 0, 0, 0, 0, 0] ++ List.replicate 8 0 ++ [0xF6, 0, 0, 0, 0xF4, 0, 0, 0] ++
  [1, 2, 3, 4, 5, 6, 7, 8] ++ List.replicate 430 0 ++ [0x55, 0xAA]

theorem exMainBoot_ok : BootSector exMainBoot ⟨512, 1, 1024, 4096, 1, 0x0807060504030201⟩ where
  length := by decide +kernel
  signature := by decide +kernel
  sectorSize := ⟨by decide +kernel, 9, by decide, by decide, by decide⟩
  cluster := .inl ⟨0, by decide, by decide +kernel, by decide⟩
  clusterSize := by decide
  record := .inr ⟨10, by decide, by decide, by decide +kernel, by decide⟩
  totalSectors := by decide +kernel
  mft := by decide +kernel
  serial := by decide +kernel

def exMainNtfs : Ntfs := Ntfs.ofGeometry ⟨512, 1, 1024, 4096, 1, 0x0807060504030201⟩

def exMainHeader (flags : UInt8) : Bytes :=
  [0x46, 0x49, 0x4C, 0x45, 48, 0, 3, 0,  0, 0, 0, 0, 0, 0, 0, 0,
   1, 0, 1, 0, 56, 0, flags, 0,  136, 0, 0, 0, 0, 4, 0, 0,
   0, 0, 0, 0, 0, 0, 0, 0,  3, 0, 0, 0, 0, 0, 0, 0,
   0, 0, 0, 0, 0, 0, 0, 0]

/-- A non-resident $DATA attribute. -/
def exMainData (size runs : Bytes) : Bytes :=
  [0x80, 0, 0, 0, 72, 0, 0, 0,  1, 0, 0, 0, 0, 0, 1, 0,
   0, 0, 0, 0, 0, 0, 0, 0,  3, 0, 0, 0, 0, 0, 0, 0,
   60, 0, 0, 0, 0, 0, 0, 0,  0, 1, 0, 0, 0, 0, 0, 0] ++ size ++ [0, 0, 0, 0] ++ runs

/-- Record 0: the MFT, 22 clusters from cluster 1 on. -/
def exMain0 : Bytes :=
  exMainHeader 1 ++ exMainData [0, 0x2C, 0, 0, 0, 0, 0, 0] [0x11, 22, 1, 0, 0, 0, 0, 0, 0, 0, 0, 0] ++
    [0xFF, 0xFF, 0xFF, 0xFF] ++ List.replicate 892 0

/-- Record 5: the root directory, without any attributes. -/
def exMain5 : Bytes := exMainHeader 3 ++ [0xFF, 0xFF, 0xFF, 0xFF] ++ List.replicate 964 0

/-- Record 10: the upcase table, all of it sparse. -/
def exMain10 : Bytes :=
  exMainHeader 1 ++ exMainData [0, 0, 2, 0, 0, 0, 0, 0] [0x02, 0, 1, 0, 0, 0, 0, 0, 0, 0, 0, 0] ++
    [0xFF, 0xFF, 0xFF, 0xFF] ++ List.replicate 892 0

/-- The volume, followed by free space. -/
def exMainImage : Bytes :=
  exMainBoot ++ exMain0 ++ List.replicate 4096 0 ++ exMain5 ++ List.replicate 4096 0 ++ exMain10 ++ List.replicate 2048 0x33

def exMainFile (number : Nat) (data : Bytes) : NFile := ⟨exMainNtfs, ⟨data, some (512 + number * 1024)⟩, number⟩

set_option maxRecDepth 100000 in
theorem exMainStored : MftStored exMainNtfs exMainImage (exMainFile 0 exMain0) [⟨22, some 1⟩] [] 56 72 60 where
  mftPos := ⟨512, rfl, by decide +kernel, by decide +kernel⟩
  sizePos := by decide +kernel
  chain := .nil 56
  attr := ⟨by decide +kernel, by decide +kernel, by decide +kernel, by decide +kernel⟩
  first := by simp
  ty := by decide +kernel
  nonRes := by decide +kernel
  header := by decide +kernel
  runsAt := by decide +kernel
  runsIn := by decide +kernel
  runs := {
    clusterPos := by decide +kernel
    enc := by
      have hb : List.take (72 - 60) (List.drop (56 + 60) (exMainFile 0 exMain0).recordData) =
          [0x11, 22, 1, 0, 0, 0, 0, 0, 0, 0, 0, 0] := by decide +kernel
      rw [hb]
      refine .run 0 1 1 _ _ _ ?_ (.terminated _ _)
      simp [WidthsOk, FitsSigned]
    rep := by
      simp [Representable, exMainNtfs, Ntfs.ofGeometry]
      decide
    nonZero := by simp [NonZero]
    inImage := by
      intro e he l hl
      have : exMainImage.length = 13824 := by decide +kernel
      rw [this]
      simp only [List.mem_cons, List.not_mem_nil, or_false] at he
      subst he
      injection hl with hl; subst hl; decide +kernel
    imgLt := by decide +kernel }

set_option maxRecDepth 100000 in
theorem exMain_files : ∀ k < 11, NFile.ofBytes exMainNtfs ((exMainImage.drop (512 + k * 1024)).take 1024)
      (512 + k * 1024) k =
    if k = 0 then .ok (exMainFile 0 exMain0) else if k = 5 then .ok (exMainFile 5 exMain5)
    else if k = 10 then .ok (exMainFile 10 exMain10)
    else .err (.invalidFileSignature (some (512 + k * 1024)) [0, 0, 0, 0]) := by
  decide +kernel

/-- What the iteration over the attributes shows: one attribute, or none. -/
theorem Own.one {f : NFile} {it it' : AttrsRaw} {b : Attr} (h1 : f.attributesRaw = .ok it)
    (h2 : it.next = (some (.ok b), it')) (h3 : it'.next = (none, it')) {o : Nat} (h : Own f o) : o = b.offset := by
  obtain ⟨j, a, g1, g2, g3⟩ := h
  rw [h1] at g1
  cases g1
  rcases g2.next with ⟨it', e⟩ | e
  · rw [h2] at e
    cases e
    exact g3.symm
  · rw [h2] at e
    exact absurd e (Spec.Shows.stuck h3)

theorem Own.none {f : NFile} {it : AttrsRaw} (h1 : f.attributesRaw = .ok it) (h2 : it.next = (none, it)) {o : Nat} :
    ¬ Own f o := by
  rintro ⟨j, a, g1, g2, g3⟩
  rw [h1] at g1
  cases g1
  exact Spec.Shows.stuck h2 g2

/-- The boot sector and the records: everything up to the free space. -/
def exMainUsed (a : Nat) : Prop := a < 11776

theorem exMain_address (number q : Nat) (h : addressOf 512 [⟨22, some 1⟩] (number * 1024) = some q) :
    number < 11 ∧ q = 512 + number * 1024 := by
  simp only [addressOf] at h
  split at h
  · cases h
    exact ⟨by omega, by show 1 * 512 + number * 1024 = _; omega⟩
  · cases h

theorem FileIn.one {n : Ntfs} {S : Nat → Prop} {f : NFile} (hn : f.ntfs = n) {it it' : AttrsRaw} {b : Attr}
    (h1 : f.attributesRaw = .ok it) (h2 : it.next = (some (.ok b), it')) (h3 : it'.next = (none, it')) {data : Bytes}
    {p : Pos} (h4 : Attr.nonResidentValueDataAndPosition ⟨f, b.offset, none⟩ = .ok (data, p))
    (h5 : RunsIn S (DataRuns.new n.clusterSize data p)) : FileIn n S f := by
  refine ⟨hn, fun a ha ho data' p' h => ?_⟩
  have : Attr.nonResidentValueDataAndPosition ⟨f, b.offset, none⟩ = .ok (data', p') := by
    rw [← h]
    exact Attr.nonResident_same ha.symm (Own.one h1 h2 h3 ho).symm
  rw [h4] at this
  cases this
  exact h5

set_option maxRecDepth 100000 in
theorem exMain_covers : Covers exMainNtfs exMainImage exMainUsed := by
  refine Spec.Covers.ofStored exMainStored ?_ ?_
  · rintro number a (⟨p, hp, g1, g2⟩ | ⟨q, hq, g1, g2⟩)
    · cases hp
      change a < 512 + 1024 at g2
      show a < 11776
      omega
    · obtain ⟨hn, rfl⟩ := exMain_address number q hq
      change a < 512 + number * 1024 + 1024 at g2
      show a < 11776
      omega
  · intro number q f hq hf
    obtain ⟨hn, rfl⟩ := exMain_address number q hq
    have := exMain_files number hn
    rw [show exMainNtfs.fileRecordSize = 1024 from rfl, this] at hf
    by_cases h0 : number = 0
    · rw [if_pos h0] at hf
      cases hf
      refine FileIn.one (it := ⟨exMainFile 0 exMain0, 56, 136⟩) (it' := ⟨exMainFile 0 exMain0, 128, 136⟩)
        (b := ⟨exMainFile 0 exMain0, 56, none⟩) (data := [0x11, 22, 1, 0, 0, 0, 0, 0, 0, 0, 0, 0]) (p := some 628) rfl
        (by decide +kernel) (by decide +kernel) (by decide +kernel) (by decide +kernel) ?_
      refine RunsIn.ofEncoded (es := [⟨22, some 1⟩]) (by decide) (.run 0 1 1 _ _ _ (by simp [WidthsOk, FitsSigned])
        (.terminated _ _)) exMainStored.runs.rep (by simp [NonZero]) ?_
      rintro a ⟨x, hx, l, hl, g1, g2⟩
      simp only [List.mem_cons, List.not_mem_nil, or_false] at hx
      subst hx
      cases hl
      exact g2
    rw [if_neg h0] at hf
    by_cases h5 : number = 5
    · rw [if_pos h5] at hf
      cases hf
      refine ⟨rfl, fun a ha ho => absurd ho (Own.none (it := ⟨exMainFile 5 exMain5, 56, 136⟩) ?_ ?_)⟩
      · decide +kernel
      · decide +kernel
    rw [if_neg h5] at hf
    by_cases h10 : number = 10
    · rw [if_pos h10] at hf
      cases hf
      refine FileIn.one (it := ⟨exMainFile 10 exMain10, 56, 136⟩) (it' := ⟨exMainFile 10 exMain10, 128, 136⟩)
        (b := ⟨exMainFile 10 exMain10, 56, none⟩) (data := [0x02, 0, 1, 0, 0, 0, 0, 0, 0, 0, 0, 0]) (p := some 10868) rfl
        (by decide +kernel) (by decide +kernel) (by decide +kernel) (by decide +kernel) ?_
      refine RunsIn.ofEncoded (es := [⟨256, none⟩]) (by decide) (.run 0 2 0 _ _ _ (by simp [WidthsOk])
        (.terminated _ _)) (by simp [Representable]; decide) (by simp [NonZero]) ?_
      rintro a ⟨x, hx, l, hl, g1, g2⟩
      simp only [List.mem_cons, List.not_mem_nil, or_false] at hx
      subst hx
      cases hl
    rw [if_neg h10] at hf
    cases hf

/-- The geometry is settled by the boot sector, also when the device fails now and then. -/
theorem Ntfs.new_settled {img : Bytes} {g : Geometry} (h : BootSector img g) {d d' : Dev} {n : Ntfs}
    (hd : d.img.take 512 = img.take 512) (hn : Ntfs.new d = (.ok n, d')) : n = Ntfs.ofGeometry g := by
  have key : Ntfs.ofBoot (Boot.parse ((d.img.drop 0).take 512)) = .ok n := by
    unfold Ntfs.new at hn
    rcases Dev.seekStart_cases 0 d with ⟨d1, e1, h1, h2, h3⟩ | ⟨e, d1, e1, h1, h2, h3⟩
    · rw [StM.bind_of_ok e1] at hn
      obtain ⟨d2, _, ⟨e2, hl⟩ | ⟨e, e2⟩⟩ := Dev.readExact_any 512 d1
      · rw [StM.bind_of_ok e2, h1, h2] at hn
        simp only [StM.lift_apply, Prod.mk.injEq] at hn
        exact hn.1
      · rw [StM.bind_of_err e2] at hn
        simp at hn
    · rw [StM.bind_of_err e1] at hn
      simp at hn
  rw [List.drop_zero, hd] at key
  obtain ⟨g', hg', rfl⟩ := (ofBoot_iff img h.length n).mp key
  have e1 := Ntfs.new_ok h ⟨img, 0, []⟩ ⟨rfl, by simp [Dev.NoFail]⟩
  have e2 := Ntfs.new_ok hg' ⟨img, 0, []⟩ ⟨rfl, by simp [Dev.NoFail]⟩
  obtain ⟨d1, e1, _⟩ := e1
  obtain ⟨d2, e2, _⟩ := e2
  rw [e1] at e2
  simp only [Prod.mk.injEq, Res.ok.injEq] at e2
  exact e2.1.symm

/-- The shell on a copy of this volume without the free space behind it, whatever is typed. -/
example (fuel : Nat) (lines : List (Option (List Char))) (host : Host) (free : Bytes) (sched : List Resp) :=
  C78_shell exMainImage exMainUsed (fun a ha => by show a < 11776; omega)
    (fun n d d' hd hn => by
      have : n = exMainNtfs := Ntfs.new_settled exMainBoot_ok (by rw [hd]; decide +kernel) hn
      subst this
      exact exMain_covers) fuel lines host ⟨exMainImage, 0, sched⟩ ⟨exMainImage.take 11776 ++ free, 0, sched⟩ rfl
    ⟨rfl, rfl, fun a ha => by
      change a < 11776 at ha
      have hl : exMainImage.length = 13824 := by decide +kernel
      show exMainImage[a]? = (exMainImage.take 11776 ++ free)[a]?
      rw [List.getElem?_append_left (by simp; omega), List.getElem?_take_of_lt ha]⟩

end NT
