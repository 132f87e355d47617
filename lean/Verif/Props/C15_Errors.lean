import Verif.Props.C15_Boot

/-! C15: which error `Ntfs::new` reports for a boot sector that is not supported. -/

namespace NT
open Spec

/-- Specification: the first problem of a boot sector, in the order signature, sectors per cluster, sector
size, cluster size, total number of sectors, file record size, position of the MFT. -/
inductive BootProblem (img : Bytes) : Err → Prop
  | short (h : img.length < 512) : BootProblem img (.io .unexpectedEof)
  | signature {a b : UInt8} (ha : img[510]? = some a) (hb : img[511]? = some b)
      (h : ¬ (a = 0x55 ∧ b = 0xAA)) : BootProblem img (.invalidTwoByteSignature [a, b])
  | sectorsPerCluster (hs : img[510]? = some 0x55 ∧ img[511]? = some 0xAA)
      (h : ∀ n, ¬ SectorsPerClusterField (field img 13 1) n) :
      BootProblem img (.invalidSectorsPerCluster (field img 13 1))
  | sectorSize {spc : Nat} (hs : img[510]? = some 0x55 ∧ img[511]? = some 0xAA)
      (hc : SectorsPerClusterField (field img 13 1) spc)
      (h : field img 11 2 ∉ [512, 1024, 2048, 4096]) :
      BootProblem img (.unsupportedSectorSize 512 4096 (field img 11 2))
  | clusterSize {spc : Nat} (hs : img[510]? = some 0x55 ∧ img[511]? = some 0xAA)
      (hc : SectorsPerClusterField (field img 13 1) spc)
      (hss : field img 11 2 ∈ [512, 1024, 2048, 4096]) (h : 2 * 1024 * 1024 < spc * field img 11 2) :
      BootProblem img (.unsupportedClusterSize 512 2097152 (spc * field img 11 2))
  | totalSectors {spc : Nat} (hs : img[510]? = some 0x55 ∧ img[511]? = some 0xAA)
      (hc : SectorsPerClusterField (field img 13 1) spc)
      (hss : field img 11 2 ∈ [512, 1024, 2048, 4096]) (hcs : spc * field img 11 2 ≤ 2 * 1024 * 1024)
      (h : 2 ^ 64 ≤ field img 40 8 * field img 11 2) :
      BootProblem img (.totalSectorsTooBig (field img 40 8))
  | recordSize {spc : Nat} (hs : img[510]? = some 0x55 ∧ img[511]? = some 0xAA)
      (hc : SectorsPerClusterField (field img 13 1) spc)
      (hss : field img 11 2 ∈ [512, 1024, 2048, 4096]) (hcs : spc * field img 11 2 ≤ 2 * 1024 * 1024)
      (ht : field img 40 8 * field img 11 2 < 2 ^ 64) {i : Int}
      (hi : (-128 ≤ i ∧ i < 128) ∧ ∃ k : Int, (field img 64 1 : Int) = i + 256 * k)
      (h : i ≤ 0 ∧ i ∉ [-10, -11, -12]) :
      BootProblem img (.invalidRecordSizeInfo i (spc * field img 11 2))
  | mftZero {spc frs : Nat} (hs : img[510]? = some 0x55 ∧ img[511]? = some 0xAA)
      (hc : SectorsPerClusterField (field img 13 1) spc)
      (hss : field img 11 2 ∈ [512, 1024, 2048, 4096]) (hcs : spc * field img 11 2 ≤ 2 * 1024 * 1024)
      (ht : field img 40 8 * field img 11 2 < 2 ^ 64)
      (hr : RecordSizeField (field img 64 1) (spc * field img 11 2) frs) (h : field img 48 8 = 0) :
      BootProblem img .invalidMftLcn
  | mftFar {spc frs : Nat} (hs : img[510]? = some 0x55 ∧ img[511]? = some 0xAA)
      (hc : SectorsPerClusterField (field img 13 1) spc)
      (hss : field img 11 2 ∈ [512, 1024, 2048, 4096]) (hcs : spc * field img 11 2 ≤ 2 * 1024 * 1024)
      (ht : field img 40 8 * field img 11 2 < 2 ^ 64)
      (hr : RecordSizeField (field img 64 1) (spc * field img 11 2) frs)
      (h : 2 ^ 64 ≤ field img 48 8 * (spc * field img 11 2)) :
      BootProblem img (.lcnTooBig (field img 48 8))

theorem sizes_iff (n : Nat) : n ∈ [512, 1024, 2048, 4096] ↔ ∃ e, 9 ≤ e ∧ e ≤ 12 ∧ n = 2 ^ e := by
  constructor
  · intro h
    simp only [List.mem_cons, List.not_mem_nil, or_false] at h
    rcases h with rfl | rfl | rfl | rfl
    · exact ⟨9, by omega, by omega, rfl⟩
    · exact ⟨10, by omega, by omega, rfl⟩
    · exact ⟨11, by omega, by omega, rfl⟩
    · exact ⟨12, by omega, by omega, rfl⟩
  · rintro ⟨e, h1, h2, rfl⟩
    have : e = 9 ∨ e = 10 ∨ e = 11 ∨ e = 12 := by omega
    rcases this with rfl | rfl | rfl | rfl <;> simp

theorem sectorSize_refuse {b : Boot} (h : ∀ n, b.sectorSize ≠ .ok n) :
    b.sectorSize = .err (.unsupportedSectorSize 512 4096 b.sectorSizeRaw) := by
  unfold Boot.sectorSize at *
  split
  · rfl
  · rename_i h'; rw [if_neg h'] at h; exact absurd rfl (h _)

theorem sectorsPerCluster_refuse {b : Boot} (h : ∀ n, b.sectorsPerCluster ≠ .ok n) :
    b.sectorsPerCluster = .err (.invalidSectorsPerCluster b.sectorsPerClusterRaw) := by
  unfold Boot.sectorsPerCluster at *
  dsimp only at *
  split
  · rename_i h1
    rw [if_pos h1] at h
    split
    · rfl
    · rename_i h2; rw [if_neg h2] at h; exact absurd rfl (h _)
  · rename_i h1
    rw [if_neg h1] at h
    split
    · rfl
    · rename_i h2; rw [if_neg h2] at h; exact absurd rfl (h _)

theorem fileRecordSize_refuse {b : Boot} {cs : Nat} (hcs : b.clusterSize = .ok cs)
    (h : ∀ n, b.fileRecordSize ≠ .ok n) :
    b.fileRecordSize = .err (.invalidRecordSizeInfo b.fileRecordSizeInfo cs) := by
  unfold Boot.fileRecordSize Boot.recordSize at *
  rw [hcs, Res.bind_ok] at *
  dsimp only at *
  split
  · rename_i h1
    rw [if_pos h1] at h
    split
    · rename_i h2; rw [if_pos h2] at h; exact absurd rfl (h _)
    · rfl
  · rename_i h1
    rw [if_neg h1] at h
    split
    · rfl
    · rename_i h2; rw [if_neg h2] at h; exact absurd rfl (h _)

theorem bootSector_parse (img : Bytes) : Boot.parse (img.take 512) = {
      sectorSizeRaw := field img 11 2, sectorsPerClusterRaw := field img 13 1,
      totalSectors := field img 40 8, mftLcnRaw := field img 48 8,
      fileRecordSizeInfo := toI8 (field img 64 1), serialNumber := field img 72 8,
      signature := (img.drop 510).take 2 } := by
  have hf : ∀ off k, off + k ≤ 512 → ((img.take 512).drop off).take k = (img.drop off).take k := by
    intro off k h
    rw [List.drop_take, List.take_take]
    congr 1
    omega
  simp only [Boot.parse, field]
  rw [hf 11 2 (by omega), hf 13 1 (by omega), hf 40 8 (by omega), hf 48 8 (by omega),
    hf 64 1 (by omega), hf 72 8 (by omega), hf 510 2 (by omega)]

theorem signature_of {img : Bytes} {a b : UInt8} (ha : img[510]? = some a) (hb : img[511]? = some b) :
    (img.drop 510).take 2 = [a, b] := by
  have h1 : (img.drop 510)[0]? = some a := by simpa using ha
  have h2 : (img.drop 510)[1]? = some b := by simpa using hb
  match h : img.drop 510 with
  | [] => rw [h] at h1; simp at h1
  | [x] => rw [h] at h2; simp at h2
  | x :: y :: z =>
    rw [h] at h1 h2
    simp at h1 h2
    simp [h1, h2]

theorem notSigned {a b : UInt8} (h : ¬ (a = 0x55 ∧ b = 0xAA)) : ¬ ([a, b] = [0x55, 0xAA]) := by
  intro e
  injection e with e1 e2
  injection e2 with e2 _
  exact h ⟨e1, e2⟩

theorem field1_lt (img : Bytes) (o : Nat) : field img o 1 < 256 := by
  have h := leNat_lt ((img.drop o).take 1)
  refine Nat.lt_of_lt_of_le h ?_
  have : ((img.drop o).take 1).length ≤ 1 := by simp; omega
  exact Nat.pow_le_pow_right (n := 256) (j := 1) (by omega) this

theorem spc_of_ok {img : Bytes} {spc : Nat} (h : SectorsPerClusterField (field img 13 1) spc) {b : Boot}
    (hb : b.sectorsPerClusterRaw = field img 13 1) : b.sectorsPerCluster = .ok spc := by
  rw [sectorsPerCluster_ok_iff b spc (by rw [hb]; exact field1_lt img 13), hb]
  exact h

theorem ss_of_ok {img : Bytes} (h : field img 11 2 ∈ [512, 1024, 2048, 4096]) {b : Boot}
    (hb : b.sectorSizeRaw = field img 11 2) : b.sectorSize = .ok (field img 11 2) := by
  rw [sectorSize_ok_iff, hb]
  exact ⟨rfl, (sizes_iff _).1 h⟩

theorem spc_pos {x spc : Nat} (h : SectorsPerClusterField x spc) : 1 ≤ spc := by
  rcases h with ⟨e, _, _, h⟩ | ⟨e, _, _, _, h⟩ <;> rw [h] <;> exact Nat.one_le_two_pow

theorem ss_pos {n : Nat} (h : n ∈ [512, 1024, 2048, 4096]) : 512 ≤ n := by
  simp only [List.mem_cons, List.not_mem_nil, or_false] at h
  omega

theorem cs_of_ok {img : Bytes} {spc : Nat} (h : SectorsPerClusterField (field img 13 1) spc)
    (hs : field img 11 2 ∈ [512, 1024, 2048, 4096]) (hcs : spc * field img 11 2 ≤ 2 * 1024 * 1024) {b : Boot}
    (hb : b.sectorsPerClusterRaw = field img 13 1) (hb' : b.sectorSizeRaw = field img 11 2) :
    b.clusterSize = .ok (spc * field img 11 2) := by
  rw [clusterSize_ok_iff]
  refine ⟨_, _, spc_of_ok h hb, ss_of_ok hs hb', rfl, ?_, by omega⟩
  have := Nat.mul_le_mul (spc_pos h) (ss_pos hs)
  omega

theorem toI8_of {x : Nat} (hx : x < 256) {i : Int} (h : (-128 ≤ i ∧ i < 128) ∧ ∃ k : Int, (x : Int) = i + 256 * k) :
    toI8 x = i := by
  obtain ⟨⟨h1, h2⟩, k, h3⟩ := h
  unfold toI8
  split <;> omega

theorem ofBoot_problem {img : Bytes} (hl : 512 ≤ img.length) {e : Err} (h : BootProblem img e) :
    Ntfs.ofBoot (Boot.parse (img.take 512)) = .err e := by
  rw [bootSector_parse]
  generalize hbb : (Boot.mk _ _ _ _ _ _ _) = b
  have b1 : b.sectorsPerClusterRaw = field img 13 1 := by rw [← hbb]
  have b2 : b.sectorSizeRaw = field img 11 2 := by rw [← hbb]
  have b3 : b.totalSectors = field img 40 8 := by rw [← hbb]
  have b4 : b.mftLcnRaw = field img 48 8 := by rw [← hbb]
  have b5 : b.fileRecordSizeInfo = toI8 (field img 64 1) := by rw [← hbb]
  have b6 : b.signature = (img.drop 510).take 2 := by rw [← hbb]
  have h13 : field img 13 1 < 256 := field_lt (n := 1) (by omega)
  have h64 : field img 64 1 < 256 := field_lt (n := 1) (by omega)
  have val : (img[510]? = some 0x55 ∧ img[511]? = some 0xAA) → b.validate = .ok () := by
    intro h
    unfold Boot.validate
    rw [b6, if_pos ((take2_eq img hl).mpr h)]
  have tot : ∀ ss, field img 40 8 * ss < 2 ^ 64 →
      checkedMulU64 b.totalSectors ss = some (field img 40 8 * ss) := by
    intro ss h
    unfold checkedMulU64
    rw [b3, if_pos (by simpa using h)]
  unfold Ntfs.ofBoot
  cases h with
  | short h => omega
  | @signature x y ha hb h =>
    have : b.validate = .err (.invalidTwoByteSignature [x, y]) := by
      unfold Boot.validate
      rw [b6, signature_of ha hb, if_neg (notSigned h)]
    rw [this]; rfl
  | sectorsPerCluster hs h =>
    have : b.sectorsPerCluster = .err (.invalidSectorsPerCluster (field img 13 1)) := by
      rw [← b1]
      refine sectorsPerCluster_refuse fun n hn => ?_
      rw [sectorsPerCluster_ok_iff _ _ (by rw [b1]; exact h13), b1] at hn
      exact h n hn
    rw [val hs, Res.bind_ok, Boot.clusterSize, this]; rfl
  | sectorSize hs hc h =>
    have : b.sectorSize = .err (.unsupportedSectorSize 512 4096 (field img 11 2)) := by
      rw [← b2]
      refine sectorSize_refuse fun n hn => ?_
      rw [sectorSize_ok_iff] at hn
      exact h ((sizes_iff _).2 (by rw [← b2, hn.1]; exact hn.2))
    rw [val hs, Res.bind_ok, Boot.clusterSize, spc_of_ok hc b1, Res.bind_ok, this]; rfl
  | clusterSize hs hc hss h =>
    rw [val hs, Res.bind_ok, Boot.clusterSize, spc_of_ok hc b1, Res.bind_ok, ss_of_ok hss b2, Res.bind_ok,
      if_pos (by omega)]
    rfl
  | totalSectors hs hc hss hcs h =>
    rw [val hs, Res.bind_ok, cs_of_ok hc hss hcs b1 b2, Res.bind_ok, ss_of_ok hss b2, Res.bind_ok]
    unfold checkedMulU64
    rw [b3, if_neg (by omega)]
    rfl
  | recordSize hs hc hss hcs ht hi h =>
    have hcs' := cs_of_ok hc hss hcs b1 b2
    have hi' := toI8_of h64 hi
    rw [val hs, Res.bind_ok, hcs', Res.bind_ok, ss_of_ok hss b2, Res.bind_ok, tot _ ht]
    have : b.fileRecordSize = .err (.invalidRecordSizeInfo _ _) := fileRecordSize_refuse hcs' fun n hn => by
      rw [fileRecordSize_ok_iff b _ n h64 b5 _ hcs'] at hn
      obtain ⟨h1, h2⟩ := h
      simp only [List.mem_cons, List.not_mem_nil, or_false, not_or] at h2
      rw [toI8] at hi'
      rcases hn with ⟨g1, g2, _⟩ | ⟨e, g1, g2, g3, _⟩
      · rw [if_pos (by omega)] at hi'
        omega
      · rw [if_neg (by omega)] at hi'
        omega
    simp only [Res.ofOption, Res.bind_ok]
    rw [this, b5, hi']; rfl
  | mftZero hs hc hss hcs ht hr h =>
    have hcs' := cs_of_ok hc hss hcs b1 b2
    have hfr := (fileRecordSize_ok_iff b _ _ h64 b5 _ hcs').2 hr
    rw [val hs, Res.bind_ok, hcs', Res.bind_ok, ss_of_ok hss b2, Res.bind_ok, tot _ ht]
    simp only [Res.ofOption, Res.bind_ok]
    rw [hfr, Res.bind_ok, Boot.mftLcn, b4, if_neg (by omega)]; rfl
  | mftFar hs hc hss hcs ht hr h =>
    have hcs' := cs_of_ok hc hss hcs b1 b2
    have hfr := (fileRecordSize_ok_iff b _ _ h64 b5 _ hcs').2 hr
    rw [val hs, Res.bind_ok, hcs', Res.bind_ok, ss_of_ok hss b2, Res.bind_ok, tot _ ht]
    simp only [Res.ofOption, Res.bind_ok]
    have h0 : field img 48 8 ≠ 0 := by
      intro h0
      rw [h0, Nat.zero_mul] at h
      omega
    rw [hfr, Res.bind_ok, Boot.mftLcn, b4, if_pos (by omega), Res.bind_ok, Lcn.position, checkedMulU64,
      if_neg (by omega)]
    rfl

/-- Every image starts with a supported boot sector, or its boot sector has a problem. -/
theorem bootSector_or_problem (img : Bytes) : (∃ g, BootSector img g) ∨ ∃ e, BootProblem img e := by
  by_cases hl : img.length < 512
  · exact .inr ⟨_, .short hl⟩
  obtain ⟨a, ha⟩ : ∃ a, img[510]? = some a := ⟨_, List.getElem?_eq_getElem (by omega)⟩
  obtain ⟨b, hb⟩ : ∃ b, img[511]? = some b := ⟨_, List.getElem?_eq_getElem (by omega)⟩
  by_cases hs : a = 0x55 ∧ b = 0xAA
  rotate_left
  · exact .inr ⟨_, .signature ha hb hs⟩
  obtain ⟨rfl, rfl⟩ := hs
  have hs := And.intro ha hb
  by_cases hc : ∃ spc, SectorsPerClusterField (field img 13 1) spc
  rotate_left
  · exact .inr ⟨_, .sectorsPerCluster hs fun n hn => hc ⟨n, hn⟩⟩
  obtain ⟨spc, hc⟩ := hc
  by_cases hss : field img 11 2 ∈ [512, 1024, 2048, 4096]
  rotate_left
  · exact .inr ⟨_, .sectorSize hs hc hss⟩
  by_cases hcs : spc * field img 11 2 ≤ 2 * 1024 * 1024
  rotate_left
  · exact .inr ⟨_, .clusterSize hs hc hss (by omega)⟩
  by_cases ht : field img 40 8 * field img 11 2 < 2 ^ 64
  rotate_left
  · exact .inr ⟨_, .totalSectors hs hc hss hcs (by omega)⟩
  have h64 : field img 64 1 < 256 := field_lt (n := 1) (by omega)
  by_cases hr : ∃ frs, RecordSizeField (field img 64 1) (spc * field img 11 2) frs
  rotate_left
  · right
    by_cases h : field img 64 1 < 128
    · refine ⟨_, .recordSize hs hc hss hcs ht (i := field img 64 1) ⟨by omega, 0, by omega⟩ ?_⟩
      have : field img 64 1 = 0 := by
        rcases Nat.eq_zero_or_pos (field img 64 1) with h0 | h0
        · exact h0
        · exact absurd ⟨_, .inl ⟨h0, by omega, rfl⟩⟩ hr
      rw [this]
      decide
    · refine ⟨_, .recordSize hs hc hss hcs ht (i := field img 64 1 - 256) ⟨by omega, 1, by omega⟩ ⟨by omega, ?_⟩⟩
      intro hm
      simp only [List.mem_cons, List.not_mem_nil, or_false] at hm
      exact hr ⟨_, .inr ⟨256 - field img 64 1, by omega, by omega, by omega, rfl⟩⟩
  obtain ⟨frs, hr⟩ := hr
  by_cases h0 : field img 48 8 = 0
  · exact .inr ⟨_, .mftZero hs hc hss hcs ht hr h0⟩
  by_cases hm : field img 48 8 * (spc * field img 11 2) < 2 ^ 64
  rotate_left
  · exact .inr ⟨_, .mftFar hs hc hss hcs ht hr (by omega)⟩
  exact .inl ⟨⟨field img 11 2, spc, frs, field img 40 8, field img 48 8, field img 72 8⟩, {
    length := by omega
    signature := hs
    sectorSize := ⟨rfl, (sizes_iff _).1 hss⟩
    cluster := hc
    clusterSize := hcs
    record := hr
    totalSectors := ⟨rfl, ht⟩
    mft := ⟨rfl, Nat.pos_of_ne_zero h0, hm⟩
    serial := rfl }⟩

/-- **C15**, the refused ones: on a device whose calls do not fail, `Ntfs::new` reports an error iff the boot
sector has a problem, and then it reports the first one, with the values found and the limits. -/
theorem C15_refuse_iff (d : Dev) (h : d.NoFail) (e : Err) :
    (∃ d', Ntfs.new d = (.err e, d')) ↔ BootProblem d.img e := by
  have key : ∀ e, BootProblem d.img e → ∃ d', Ntfs.new d = (.err e, d') := by
    intro e hp
    unfold Ntfs.new
    obtain ⟨d1, e1, h1, h2, h3⟩ := Dev.seekStart_ok 0 d h
    rw [StM.bind_of_ok e1]
    obtain ⟨d2, e2, h4, h5⟩ := Dev.readExact_noFail 512 d1 h3
    rw [h2, h1] at e2
    by_cases hl : 512 ≤ d.img.length
    · rw [if_pos (by omega)] at e2
      rw [StM.bind_of_ok e2]
      simp only [StM.lift_apply, List.drop_zero]
      rw [ofBoot_problem hl hp]
      exact ⟨_, rfl⟩
    · rw [if_neg (by omega)] at e2
      rw [StM.bind_of_err e2]
      cases hp with
      | short => exact ⟨_, rfl⟩
      | signature _ hb =>
        have := (List.getElem?_eq_some_iff.1 hb).1
        omega
      | _ hs =>
        have := (List.getElem?_eq_some_iff.1 hs.2).1
        omega
  refine ⟨?_, key e⟩
  rintro ⟨d', he⟩
  rcases bootSector_or_problem d.img with ⟨g, hg⟩ | ⟨e', hp⟩
  · obtain ⟨d2, h2⟩ := (C15_accept_iff d h _).2 ⟨g, hg, rfl⟩
    rw [h2] at he
    cases he
  · obtain ⟨d2, h2⟩ := key e' hp
    rw [h2] at he
    injection he with he _
    injection he with he
    exact he ▸ hp

/-- The example boot sector of `C15_Boot` with a byte replaced. -/
def exampleBootWith (i : Nat) (b : UInt8) : Bytes := exampleBoot.set i b

/-- Nine sectors per cluster, on a device with short reads. -/
example : ∃ d', Ntfs.new ⟨exampleBootWith 13 9, 77, [.chunk 0, .chunk 99]⟩ =
    (.err (.invalidSectorsPerCluster 9), d') := by
  refine (C15_refuse_iff ⟨exampleBootWith 13 9, 77, [.chunk 0, .chunk 99]⟩
    (by intro r hr e; simp at hr; rcases hr with rfl | rfl <;> simp) _).2 ?_
  have hf : field (exampleBootWith 13 9) 13 1 = 9 := by decide +kernel
  rw [← hf]
  refine .sectorsPerCluster (by decide +kernel) fun n hn => ?_
  rw [hf] at hn
  rcases hn with ⟨e, h1, h2, _⟩ | ⟨e, h1, h2, h3, _⟩
  · exact (by decide : ∀ e ≤ 7, 9 ≠ 2 ^ e) e h1 h2
  · omega

/-- Sectors of 768 bytes. -/
example : ∃ d', Ntfs.new ⟨exampleBootWith 12 3, 0, []⟩ = (.err (.unsupportedSectorSize 512 4096 768), d') := by
  refine (C15_refuse_iff ⟨exampleBootWith 12 3, 0, []⟩ (by intro r hr; cases hr) _).2 ?_
  have hf : field (exampleBootWith 12 3) 11 2 = 768 := by decide +kernel
  rw [← hf]
  exact .sectorSize (spc := 8) (by decide +kernel) (.inl ⟨3, by omega, by decide +kernel, rfl⟩)
    (by rw [hf]; decide)

/-- File records of 2^9 bytes. -/
example : ∃ d', Ntfs.new ⟨exampleBootWith 64 0xF7, 0, []⟩ = (.err (.invalidRecordSizeInfo (-9) 4096), d') := by
  refine (C15_refuse_iff ⟨exampleBootWith 64 0xF7, 0, []⟩ (by intro r hr; cases hr) _).2 ?_
  have hf : 8 * field (exampleBootWith 64 0xF7) 11 2 = 4096 := by decide +kernel
  rw [← hf]
  exact .recordSize (spc := 8) (by decide +kernel) (.inl ⟨3, by omega, by decide +kernel, rfl⟩)
    (by decide +kernel) (by decide +kernel) (by decide +kernel) ⟨by decide, 1, by decide +kernel⟩ (by decide)

end NT
