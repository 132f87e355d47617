import Verif.Model.Boot
import Verif.Spec.Boot
import Verif.Lemmas.Dev

namespace NT

open Spec

/-- The `Ntfs` object for a geometry. -/
def Ntfs.ofGeometry (g : Geometry) : Ntfs where
  clusterSize := g.clusterSize
  sectorSize := g.sectorSize
  size := g.totalSectors * g.sectorSize
  mftPosition := some (g.mftLcn * g.clusterSize)
  fileRecordSize := g.fileRecordSize
  serialNumber := g.serial
  upcaseTable := none

theorem isPow2_iff (n : Nat) : isPow2 n = true ↔ ∃ e, n = 2 ^ e := by
  have := Nat.ne_zero_and_sub_one_eq_zero_iff_isPowerOfTwo (n := n)
  simpa [isPow2, Nat.isPowerOfTwo] using this

theorem isPow2_range (x : Nat) (h1 : x ≤ 4096) (h2 : 512 ≤ x) :
    isPow2 x = true ↔ x ∈ [2 ^ 9, 2 ^ 10, 2 ^ 11, 2 ^ 12] := by
  rw [isPow2_iff]
  constructor
  · rintro ⟨e, rfl⟩
    have a : e ≤ 12 := (Nat.pow_le_pow_iff_right (by omega : 1 < 2)).mp (by simpa using h1)
    have b : 9 ≤ e := (Nat.pow_le_pow_iff_right (by omega : 1 < 2)).mp (by simpa using h2)
    have : e = 9 ∨ e = 10 ∨ e = 11 ∨ e = 12 := by omega
    rcases this with rfl | rfl | rfl | rfl <;> simp
  · intro h
    simp only [List.mem_cons, List.not_mem_nil, or_false] at h
    rcases h with h | h | h | h <;> exact ⟨_, h⟩

theorem sectorSize_ok_iff (b : Boot) (n : Nat) :
    b.sectorSize = .ok n ↔ b.sectorSizeRaw = n ∧ ∃ e, 9 ≤ e ∧ e ≤ 12 ∧ n = 2 ^ e := by
  unfold Boot.sectorSize
  generalize b.sectorSizeRaw = x
  have key : ∀ x ≤ 4096, 512 ≤ x → (isPow2 x = true ↔ x ∈ [2 ^ 9, 2 ^ 10, 2 ^ 11, 2 ^ 12]) := by
    intro x h1 h2; exact isPow2_range x h1 h2
  split
  · rename_i h
    simp only [false_iff, reduceCtorEq]
    rintro ⟨rfl, e, h1, h2, rfl⟩
    have : e = 9 ∨ e = 10 ∨ e = 11 ∨ e = 12 := by omega
    rcases this with rfl | rfl | rfl | rfl <;> revert h <;> decide
  · rename_i h
    simp only [not_or, Decidable.not_not] at h
    have h3 := (key x h.1.2 h.1.1).mp h.2
    simp only [List.mem_cons, List.not_mem_nil, or_false] at h3
    simp only [Res.ok.injEq]
    constructor
    · rintro rfl
      refine ⟨rfl, ?_⟩
      rcases h3 with h | h | h | h
      · exact ⟨9, by omega, by omega, h⟩
      · exact ⟨10, by omega, by omega, h⟩
      · exact ⟨11, by omega, by omega, h⟩
      · exact ⟨12, by omega, by omega, h⟩
    · exact fun h => h.1

theorem sectorsPerCluster_ok_iff (b : Boot) (n : Nat) (hb : b.sectorsPerClusterRaw < 256) :
    b.sectorsPerCluster = .ok n ↔ SectorsPerClusterField b.sectorsPerClusterRaw n := by
  unfold Boot.sectorsPerCluster SectorsPerClusterField
  generalize b.sectorsPerClusterRaw = x at *
  have key : ∀ x ≤ 128, isPow2 x = true → ∃ e ≤ 7, x = 2 ^ e := by decide +kernel
  have key2 : ∀ e ≤ 7, isPow2 (2 ^ e) = true := by decide +kernel
  split
  · rename_i h
    dsimp only
    split
    · rename_i h2
      simp only [false_iff, reduceCtorEq]
      rintro (⟨e, he, rfl, rfl⟩ | ⟨e, h3, h4, h5, rfl⟩)
      · have : 2 ^ e ≤ 2 ^ 7 := Nat.pow_le_pow_right (by omega) he
        omega
      · omega
    · rename_i h2
      rw [Nat.one_shiftLeft]
      simp only [Res.ok.injEq]
      constructor
      · rintro rfl
        exact .inr ⟨256 - x, by omega, by omega, by omega, rfl⟩
      · rintro (⟨e, he, rfl, rfl⟩ | ⟨e, h3, h4, h5, rfl⟩)
        · have : 2 ^ e ≤ 2 ^ 7 := Nat.pow_le_pow_right (by omega) he
          omega
        · congr 1; omega
  · rename_i h
    split
    · rename_i h2
      simp only [false_iff, reduceCtorEq]
      rintro (⟨e, he, rfl, rfl⟩ | ⟨e, h3, h4, h5, rfl⟩)
      · have := key2 e he
        have : 0 < 2 ^ e := Nat.pow_pos (by omega)
        simp_all
      · omega
    · rename_i h2
      simp only [not_or, Decidable.not_not] at h2
      obtain ⟨e, he, rfl⟩ := key x (by omega) h2.2
      simp only [Res.ok.injEq]
      constructor
      · rintro rfl; exact .inl ⟨e, he, rfl, rfl⟩
      · rintro (⟨e', he', h3, rfl⟩ | ⟨e', h3, h4, h5, rfl⟩)
        · exact h3
        · omega

theorem clusterSize_ok_iff (b : Boot) (n : Nat) :
    b.clusterSize = .ok n ↔
      ∃ spc ss, b.sectorsPerCluster = .ok spc ∧ b.sectorSize = .ok ss ∧ n = spc * ss ∧
        512 ≤ n ∧ n ≤ 2097152 := by
  unfold Boot.clusterSize
  rw [Res.bind_eq_ok]
  constructor
  · rintro ⟨spc, h1, h2⟩
    rw [Res.bind_eq_ok] at h2
    obtain ⟨ss, h2, h3⟩ := h2
    split at h3
    · contradiction
    · injection h3 with h3
      exact ⟨spc, ss, h1, h2, h3.symm, by omega, by omega⟩
  · rintro ⟨spc, ss, h1, h2, rfl, h3, h4⟩
    refine ⟨spc, h1, ?_⟩
    rw [Res.bind_eq_ok]
    exact ⟨ss, h2, by rw [if_neg (by omega)]⟩

theorem fileRecordSize_ok_iff (b : Boot) (x n : Nat) (hx : x < 256)
    (hb : b.fileRecordSizeInfo = toI8 x) (cs : Nat) (hcs : b.clusterSize = .ok cs) :
    b.fileRecordSize = .ok n ↔ RecordSizeField x cs n := by
  have hc : cs ≤ 2097152 := by
    obtain ⟨_, _, _, _, _, _, h⟩ := (clusterSize_ok_iff b cs).mp hcs
    exact h
  unfold Boot.fileRecordSize Boot.recordSize RecordSizeField
  rw [hcs, Res.bind_ok, hb]
  unfold toI8
  by_cases hx1 : x < 128
  · simp only [if_pos hx1]
    by_cases h0 : 0 < x
    · rw [if_pos (by omega)]
      have hm : cs * x ≤ 2097152 * 127 := Nat.mul_le_mul hc (by omega)
      have ht : ((x : Nat) : Int).toNat = x := by omega
      rw [ht, if_pos (by omega)]
      simp only [Res.ok.injEq]
      constructor
      · rintro rfl; exact .inl ⟨by omega, by omega, Nat.mul_comm _ _⟩
      · rintro (⟨_, _, rfl⟩ | ⟨e, _, _, _, rfl⟩)
        · exact Nat.mul_comm _ _
        · omega
    · rw [if_neg (by omega)]
      have : x = 0 := by omega
      subst this
      simp
      omega
  · simp only [if_neg hx1]
    rw [if_neg (by omega)]
    have hn : ((x : Int) - 256).natAbs = 256 - x := by omega
    rw [hn, Nat.one_shiftLeft]
    by_cases he : 10 ≤ 256 - x ∧ 256 - x ≤ 12
    · rw [if_neg (by omega)]
      simp only [Res.ok.injEq]
      constructor
      · rintro rfl
        exact .inr ⟨256 - x, he.1, he.2, by omega, rfl⟩
      · rintro (⟨_, _, rfl⟩ | ⟨e, _, _, _, rfl⟩)
        · omega
        · congr 1; omega
    · rw [if_pos he]
      simp only [false_iff, reduceCtorEq]
      rintro (⟨_, _, rfl⟩ | ⟨e, _, _, _, rfl⟩) <;> omega

theorem take2_eq (d : Bytes) (h : 512 ≤ d.length) :
    (d.drop 510).take 2 = [0x55, 0xAA] ↔ d[510]? = some 0x55 ∧ d[511]? = some 0xAA := by
  have h1 : d[510]? = (d.drop 510)[0]? := by simp
  have h2 : d[511]? = (d.drop 510)[1]? := by simp
  rw [h1, h2]
  have hl : 2 ≤ (d.drop 510).length := by simp; omega
  match hd : d.drop 510 with
  | [] => simp [hd] at hl
  | [a] => simp [hd] at hl
  | a :: b :: c => simp

/-- Everything after the boot sector has been read, as one condition. -/
theorem ofBoot_iff (img : Bytes) (hl : 512 ≤ img.length) (n : Ntfs) :
    Ntfs.ofBoot (Boot.parse (img.take 512)) = .ok n ↔
      ∃ g, BootSector img g ∧ n = Ntfs.ofGeometry g := by
  have hf : ∀ off k, off + k ≤ 512 → ((img.take 512).drop off).take k = (img.drop off).take k := by
    intro off k h
    rw [List.drop_take, List.take_take]
    congr 1
    omega
  have hb : Boot.parse (img.take 512) = {
      sectorSizeRaw := field img 11 2, sectorsPerClusterRaw := field img 13 1,
      totalSectors := field img 40 8, mftLcnRaw := field img 48 8,
      fileRecordSizeInfo := toI8 (field img 64 1), serialNumber := field img 72 8,
      signature := (img.drop 510).take 2 } := by
    simp only [Boot.parse, field]
    rw [hf 11 2 (by omega), hf 13 1 (by omega), hf 40 8 (by omega), hf 48 8 (by omega),
      hf 64 1 (by omega), hf 72 8 (by omega), hf 510 2 (by omega)]
  rw [hb]
  generalize hbb : (Boot.mk _ _ _ _ _ _ _) = b
  have h13 : field img 13 1 < 256 := field_lt (n := 1) (by omega)
  have h64 : field img 64 1 < 256 := field_lt (n := 1) (by omega)
  unfold Ntfs.ofBoot
  constructor
  · intro h
    rw [Res.bind_eq_ok] at h; obtain ⟨_, hv, h⟩ := h
    rw [Res.bind_eq_ok] at h; obtain ⟨cs, hcs, h⟩ := h
    rw [Res.bind_eq_ok] at h; obtain ⟨ss, hss, h⟩ := h
    rw [Res.bind_eq_ok] at h; obtain ⟨size, hsize, h⟩ := h
    rw [Res.bind_eq_ok] at h; obtain ⟨frs, hfrs, h⟩ := h
    rw [Res.bind_eq_ok] at h; obtain ⟨lcn, hlcn, h⟩ := h
    rw [Res.bind_eq_ok] at h; obtain ⟨mp, hmp, h⟩ := h
    simp only [Res.pure_eq, Res.ok.injEq] at h
    have hcs' := hcs
    rw [clusterSize_ok_iff] at hcs
    obtain ⟨spc, ss', hspc, hss', rfl, hc1, hc2⟩ := hcs
    rw [hss] at hss'; injection hss' with hss'; subst hss'
    rw [sectorsPerCluster_ok_iff b spc (by rw [← hbb]; exact h13)] at hspc
    rw [fileRecordSize_ok_iff b (field img 64 1) frs h64 (by rw [← hbb]) _ hcs'] at hfrs
    rw [sectorSize_ok_iff] at hss
    subst hbb
    simp only [Boot.validate] at hv
    split at hv
    case isFalse => contradiction
    rename_i hsig
    simp only [Boot.mftLcn] at hlcn
    split at hlcn
    case isFalse => contradiction
    rename_i hlpos
    injection hlcn with hlcn; subst hlcn
    simp only [checkedMulU64] at hsize
    split at hsize
    case isFalse => contradiction
    rename_i hs64
    simp only [Res.ofOption, Res.ok.injEq] at hsize
    simp only [Lcn.position, checkedMulU64] at hmp
    split at hmp
    · rename_i v heq
      split at heq
      case isFalse => contradiction
      rename_i hm64
      injection heq with heq
      injection hmp with hmp
      refine ⟨⟨ss, spc, frs, field img 40 8, field img 48 8, field img 72 8⟩, ?_, ?_⟩
      · exact {
          length := hl
          signature := (take2_eq img hl).mp hsig
          sectorSize := hss
          cluster := hspc
          clusterSize := by simpa [Geometry.clusterSize] using hc2
          record := hfrs
          totalSectors := ⟨rfl, by simpa using hs64⟩
          mft := ⟨rfl, hlpos, by simpa [Geometry.clusterSize] using hm64⟩
          serial := rfl }
      · subst h hsize hmp heq
        simp only [Ntfs.ofGeometry, Geometry.clusterSize, Pos.new]
        rw [if_neg]
        have : 0 < field img 48 8 * (spc * ss) := Nat.mul_pos hlpos (by omega)
        omega
    · contradiction
  · rintro ⟨g, hg, rfl⟩
    have hss : b.sectorSize = .ok g.sectorSize := by
      rw [sectorSize_ok_iff, ← hbb]; exact hg.sectorSize
    have hspc : b.sectorsPerCluster = .ok g.sectorsPerCluster := by
      rw [sectorsPerCluster_ok_iff _ _ (by rw [← hbb]; exact h13), ← hbb]; exact hg.cluster
    have hss512 : 512 ≤ g.sectorSize := by
      obtain ⟨e, h1, _, h2⟩ := hg.sectorSize.2
      rw [h2]
      exact Nat.pow_le_pow_right (n := 2) (i := 9) (by omega) h1
    have hspc1 : 1 ≤ g.sectorsPerCluster := by
      rcases hg.cluster with ⟨e, _, _, h⟩ | ⟨e, _, _, _, h⟩ <;> rw [h] <;>
        exact Nat.one_le_two_pow
    have hcs : b.clusterSize = .ok g.clusterSize := by
      rw [clusterSize_ok_iff]
      refine ⟨_, _, hspc, hss, rfl, ?_, by simpa using hg.clusterSize⟩
      have := Nat.mul_le_mul hspc1 hss512
      simpa [Geometry.clusterSize] using this
    have hfrs : b.fileRecordSize = .ok g.fileRecordSize := by
      rw [fileRecordSize_ok_iff b (field img 64 1) _ h64 (by rw [← hbb]) _ hcs]
      exact hg.record
    have hv : b.validate = .ok () := by
      rw [← hbb]
      simp only [Boot.validate]
      rw [if_pos ((take2_eq img hl).mpr hg.signature)]
    have hlcn : b.mftLcn = .ok g.mftLcn := by
      rw [← hbb]
      simp only [Boot.mftLcn, hg.mft.1]
      rw [if_pos hg.mft.2.1]
    have hts : b.totalSectors = g.totalSectors := by rw [← hbb]; exact hg.totalSectors.1
    have hsn : b.serialNumber = g.serial := by rw [← hbb]; exact hg.serial
    have h1 := hg.totalSectors.2
    have h2 := hg.mft.2.2
    rw [hv, Res.bind_ok, hcs, Res.bind_ok, hss, Res.bind_ok, hts]
    unfold checkedMulU64
    rw [if_pos (by simpa using h1)]
    simp only [Res.ofOption, Res.bind_ok]
    rw [hfrs, Res.bind_ok, hlcn, Res.bind_ok]
    unfold Lcn.position checkedMulU64
    rw [if_pos (by simpa using h2)]
    simp only [Res.bind_ok, Res.pure_eq, Res.ok.injEq, Ntfs.ofGeometry, Pos.new, hsn]
    rw [if_neg]
    have h3 : 0 < g.clusterSize := by
      have := Nat.mul_le_mul hspc1 hss512
      simp only [Geometry.clusterSize]; omega
    have : 0 < g.mftLcn * g.clusterSize := Nat.mul_pos hg.mft.2.1 h3
    omega

/-- C15: on a device whose calls do not fail (any splitting into short reads, any initial
position), `Ntfs::new` succeeds iff the device starts with a supported boot sector, and then the
returned object carries exactly the encoded geometry. -/
theorem C15_accept_iff (d : Dev) (h : d.NoFail) (n : Ntfs) :
    (∃ d', Ntfs.new d = (.ok n, d')) ↔ ∃ g, BootSector d.img g ∧ n = Ntfs.ofGeometry g := by
  unfold Ntfs.new
  obtain ⟨d1, e1, h1, h2, h3⟩ := Dev.seekStart_ok 0 d h
  rw [StM.bind_of_ok e1]
  obtain ⟨d2, e2, h4, h5⟩ := Dev.readExact_noFail 512 d1 h3
  rw [h2, h1] at e2
  by_cases hl : 512 ≤ d.img.length
  · rw [if_pos (by omega)] at e2
    rw [StM.bind_of_ok e2]
    simp only [StM.lift_apply, List.drop_zero]
    rw [← ofBoot_iff d.img hl n]
    constructor
    · rintro ⟨d', h⟩; exact (Prod.mk.inj h).1
    · intro h; exact ⟨d2, by rw [h]⟩
  · rw [if_neg (by omega)] at e2
    rw [StM.bind_of_err e2]
    constructor
    · rintro ⟨d', h⟩; exact absurd (Prod.mk.inj h).1 (by simp)
    · rintro ⟨g, hg, _⟩; exact absurd hg.length hl

theorem boot_safe (b : Boot) : (Ntfs.ofBoot b).Safe := by
  have h1 : b.validate.Safe := by unfold Boot.validate; split <;> trivial
  have h2 : b.sectorSize.Safe := by unfold Boot.sectorSize; split <;> trivial
  have h3 : b.sectorsPerCluster.Safe := by
    unfold Boot.sectorsPerCluster; dsimp only; split <;> split <;> trivial
  have h4 : b.clusterSize.Safe := by
    unfold Boot.clusterSize
    refine Res.safe_bind h3 fun _ _ => Res.safe_bind h2 fun _ _ => ?_
    split <;> trivial
  have h5 : b.fileRecordSize.Safe := by
    unfold Boot.fileRecordSize Boot.recordSize
    refine Res.safe_bind h4 fun _ _ => ?_
    split <;> (try dsimp only) <;> split <;> trivial
  have h6 : b.mftLcn.Safe := by unfold Boot.mftLcn; split <;> trivial
  unfold Ntfs.ofBoot
  refine Res.safe_bind h1 fun _ _ => Res.safe_bind h4 fun _ _ => Res.safe_bind h2 fun _ _ =>
    Res.safe_bind ?_ fun _ _ => Res.safe_bind h5 fun _ _ => Res.safe_bind h6 fun _ _ =>
    Res.safe_bind ?_ fun _ _ => trivial
  · unfold Res.ofOption; split <;> trivial
  · unfold Lcn.position; split <;> trivial

/-- C15: `Ntfs::new` never panics and always returns, for every image and every device behaviour. -/
theorem C15_no_panic (d : Dev) : (Ntfs.new d).1.Safe := by
  unfold Ntfs.new
  rcases Dev.seekStart_cases 0 d with ⟨d1, e1, h1, h2, h3⟩ | ⟨e, d1, e1, h1, h2, h3⟩
  · rw [StM.bind_of_ok e1]
    obtain ⟨d2, _, ⟨e2, _⟩ | ⟨e, e2⟩⟩ := Dev.readExact_any 512 d1
    · rw [StM.bind_of_ok e2]
      exact boot_safe _
    · rw [StM.bind_of_err e2]
      trivial
  · rw [StM.bind_of_err e1]
    trivial

/-- C16: geometry of an accepted volume, for every image and every device behaviour. -/
theorem C16_geometry (d d' : Dev) (n : Ntfs) (h : Ntfs.new d = (.ok n, d')) :
    (∃ e, 9 ≤ e ∧ e ≤ 21 ∧ n.clusterSize = 2 ^ e) ∧
    (∃ e, 9 ≤ e ∧ e ≤ 12 ∧ n.sectorSize = 2 ^ e) ∧
    n.sectorSize ∣ n.clusterSize ∧
    n.size = field d.img 40 8 * n.sectorSize ∧ n.size < 2 ^ 64 ∧
    512 ≤ n.fileRecordSize ∧ n.fileRecordSize ≤ 127 * 2097152 ∧
    n.mftPosition = some (field d.img 48 8 * n.clusterSize) ∧
    0 < field d.img 48 8 * n.clusterSize ∧ field d.img 48 8 * n.clusterSize < 2 ^ 64 ∧
    n.serialNumber = field d.img 72 8 := by
  obtain ⟨g, hg, rfl⟩ : ∃ g, BootSector d.img g ∧ n = Ntfs.ofGeometry g := by
    unfold Ntfs.new at h
    rcases Dev.seekStart_cases 0 d with ⟨d1, e1, h1, h2, h3⟩ | ⟨e, d1, e1, h1, h2, h3⟩
    · rw [StM.bind_of_ok e1] at h
      obtain ⟨d2, _, ⟨e2, hl⟩ | ⟨e, e2⟩⟩ := Dev.readExact_any 512 d1
      · rw [StM.bind_of_ok e2] at h
        simp only [StM.lift_apply, Prod.mk.injEq] at h
        rw [h1, h2] at hl
        rw [h1, h2, List.drop_zero] at h
        exact (ofBoot_iff d.img (by omega) n).mp h.1
      · rw [StM.bind_of_err e2] at h
        simp at h
    · rw [StM.bind_of_err e1] at h
      simp at h
  obtain ⟨es, h1, h2, hs⟩ := hg.sectorSize.2
  obtain ⟨ec, hc⟩ : ∃ ec, g.sectorsPerCluster = 2 ^ ec := by
    rcases hg.cluster with ⟨e, _, _, h⟩ | ⟨e, _, _, _, h⟩ <;> exact ⟨e, h⟩
  have hcs : g.clusterSize = 2 ^ (ec + es) := by
    rw [Geometry.clusterSize, hs, hc, Nat.pow_add]
  have hle : ec + es ≤ 21 := by
    have := hg.clusterSize
    rw [hcs] at this
    exact (Nat.pow_le_pow_iff_right (by omega : 1 < 2)).mp (by simpa using this)
  have hge : 2 ^ 9 ≤ g.clusterSize := by
    rw [hcs]; exact Nat.pow_le_pow_right (by omega) (by omega)
  have hle' := hg.clusterSize
  refine ⟨⟨ec + es, by omega, hle, hcs⟩, ⟨es, h1, h2, hs⟩, ⟨g.sectorsPerCluster, ?_⟩, ?_, ?_, ?_, ?_,
    ?_, ?_, ?_, ?_⟩
  · simp only [Ntfs.ofGeometry, Geometry.clusterSize]; exact Nat.mul_comm _ _
  · simp only [Ntfs.ofGeometry]; rw [hg.totalSectors.1]
  · exact hg.totalSectors.2
  · simp only [Ntfs.ofGeometry]
    rcases hg.record with ⟨a, b, c⟩ | ⟨e, a, b, c, f⟩
    · rw [c]
      have := Nat.mul_le_mul a hge
      omega
    · rw [f]
      exact Nat.pow_le_pow_right (n := 2) (i := 9) (by omega) (by omega)
  · simp only [Ntfs.ofGeometry]
    rcases hg.record with ⟨a, b, c⟩ | ⟨e, a, b, c, f⟩
    · rw [c]; exact Nat.mul_le_mul b hle'
    · rw [f]
      have : 2 ^ e ≤ 2 ^ 12 := Nat.pow_le_pow_right (by omega) b
      omega
  · simp only [Ntfs.ofGeometry]; rw [hg.mft.1]
  · simp only [Ntfs.ofGeometry]; rw [hg.mft.1]; exact Nat.mul_pos hg.mft.2.1 (by omega)
  · simp only [Ntfs.ofGeometry]; rw [hg.mft.1]; exact hg.mft.2.2
  · simp only [Ntfs.ofGeometry]; rw [hg.serial]

/-- A concrete boot sector: 512-byte sectors, 8 sectors per cluster, 4096 sectors, MFT at cluster 4,
1024-byte file records. -/
def exampleBoot : Bytes :=
  List.replicate 11 0 ++ [0x00, 0x02, 8] ++ List.replicate 26 0 ++ [0x00, 0x10, 0, 0, 0, 0, 0, 0] ++
  [4, 0, 0, 0, 0, 0, 0, 0] ++ List.replicate 8 0 ++ [0xF6, 0, 0, 0, 0xF4, 0, 0, 0] ++
  [1, 2, 3, 4, 5, 6, 7, 8] ++ List.replicate 430 0 ++ [0x55, 0xAA]

theorem exampleBoot_ok : BootSector exampleBoot ⟨512, 8, 1024, 4096, 4, 0x0807060504030201⟩ where
  length := by decide +kernel
  signature := by decide +kernel
  sectorSize := ⟨by decide +kernel, 9, by decide, by decide, by decide⟩
  cluster := .inl ⟨3, by decide, by decide +kernel, by decide⟩
  clusterSize := by decide
  record := .inr ⟨10, by decide, by decide, by decide +kernel, by decide⟩
  totalSectors := by decide +kernel
  mft := by decide +kernel
  serial := by decide +kernel

/-- The hypotheses of C15/C16 are met: a device with short reads that holds this boot sector. -/
example : ∃ d', Ntfs.new ⟨exampleBoot, 77, [.chunk 0, .chunk 99]⟩ =
    (.ok (Ntfs.ofGeometry ⟨512, 8, 1024, 4096, 4, 0x0807060504030201⟩), d') :=
  (C15_accept_iff ⟨exampleBoot, 77, [.chunk 0, .chunk 99]⟩ (by intro r hr e; simp at hr; rcases hr with rfl | rfl <;> simp) _).mpr
    ⟨_, exampleBoot_ok, rfl⟩

/-- `C16_geometry` on that device. -/
example : ∃ n d', Ntfs.new ⟨exampleBoot, 77, [.chunk 0, .chunk 99]⟩ = (.ok n, d') ∧ ∃ e, 9 ≤ e ∧ e ≤ 21 ∧ n.clusterSize = 2 ^ e := by
  obtain ⟨d', h⟩ := (C15_accept_iff ⟨exampleBoot, 77, [.chunk 0, .chunk 99]⟩
    (by intro r hr e; simp at hr; rcases hr with rfl | rfl <;> simp) _).mpr ⟨_, exampleBoot_ok, rfl⟩
  exact ⟨_, d', h, (C16_geometry _ d' _ h).1⟩

end NT
