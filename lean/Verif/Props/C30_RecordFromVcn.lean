import Verif.Lemmas.ExDirectory

namespace NT

open Spec

/-- Opening the index allocation and asking for a record: `structured_value::<NtfsIndexAllocation>`,
then `record_from_vcn`. -/
def Attr.recordFromVcn (a : Attr) (size : Nat) (vcn : Int) : StM Dev IndexRecord := do
  let x ← a.indexAllocation
  x.recordFromVcn size vcn

/-- What all theorems about `record_from_vcn` assume: `a` is an index allocation attribute whose value
consists of the bytes `c` and has the nominal length `len`. -/
structure AllocOf (img c : Bytes) (len : Nat) (a : Attr) : Prop where
  ty : a.ty = .ok .indexAllocation
  opens : a.Opens img c len
  nonRes : a.NonResident

theorem AllocOf.run {img c : Bytes} {len : Nat} {a : Attr} (h : AllocOf img c len a) (size : Nat)
    (vcn : Int) (d : Dev) (hd : d.Ok img) :
    ∃ v d1, d1.Ok img ∧ a.recordFromVcn size vcn d =
        (IndexAllocation.mk a.file.ntfs.clusterSize v).recordFromVcn size vcn d1 ∧
      v.Has img c ∧ v.cluster = some a.file.ntfs.clusterSize ∧ v.streamPosition = 0 ∧ v.len = len := by
  obtain ⟨v, d1, hd1, e, h1, h2, h3, h4⟩ := Attr.indexAllocation_opens h.ty h.opens h.nonRes d hd
  refine ⟨v, d1, hd1, ?_, h1, h2, h3, h4⟩
  unfold Attr.recordFromVcn
  rw [StM.bind_of_ok e]

/-- The record with the VCN that was asked for is returned, with its protected sectors restored. -/
theorem C30_returns_record {img c : Bytes} {len : Nat} {a : Attr} (h : AllocOf img c len a)
    (size : Nat) (hsize : size < U32) (vcn : Int) (b : Bytes) (off stop : Nat)
    (hr : RecordAt c a.file.ntfs.clusterSize size vcn b off stop) (d : Dev) (hd : d.Ok img) :
    ∃ r d', a.recordFromVcn size vcn d = (.ok r, d') ∧ d'.Ok img ∧ r.record.data = b ∧
      r.vcn = .ok vcn := by
  obtain ⟨v, d1, hd1, e, h1, h2, h3, h4⟩ := h.run size vcn d hd
  obtain ⟨q, d2, hd2, e2, _⟩ := IndexAllocation.recordFromVcn_stored h1 h2 h3 size hsize vcn b off stop
    hr d1 hd1
  refine ⟨⟨⟨b, q⟩⟩, d2, e.trans e2, hd2, rfl, ?_⟩
  have hbl : b.length = size := by
    obtain ⟨m, o, hres⟩ := hr.restores
    rw [hres.len, part_length hr.inside]
  have := hr.header
  have h24 : 24 ≤ b.length := by omega
  rw [IndexRecord.vcn_eq (r := ⟨⟨b, q⟩⟩) h24]
  exact congrArg Res.ok (toI64_of_intAt hr.vcn (by omega))

/-- A well-formed record at the place of the VCN that says it has another VCN is refused. -/
theorem C30_mismatch {img c : Bytes} {len : Nat} {a : Attr} (h : AllocOf img c len a)
    (size : Nat) (hsize : size < U32) (n : Nat)
    (hsmall : (n : Int) * a.file.ntfs.clusterSize < (I63 : Int)) (b : Bytes) (off stop : Nat)
    (hr : RecordIn c size (n * a.file.ntfs.clusterSize) b off stop) (w : Int) (hw : IntAt b 16 w)
    (hne : w ≠ n) (d : Dev) (hd : d.Ok img) :
    ∃ p d', a.recordFromVcn size n d = (.err (.vcnMismatchInIndexAllocation p n w), d') ∧
      d'.Ok img := by
  obtain ⟨v, d1, hd1, e, h1, h2, h3, h4⟩ := h.run size n d hd
  obtain ⟨q, d2, hd2, e2, _⟩ := IndexAllocation.recordFromVcn_in h1 h2 h3 size hsize n hsmall b off stop
    hr d1 hd1
  have hbl : b.length = size := by
    obtain ⟨m, o, hres⟩ := hr.restores
    rw [hres.len, part_length hr.inside]
  have := hr.header
  rw [toI64_of_intAt hw (by omega), if_pos hne] at e2
  exact ⟨_, d2, e.trans e2, hd2⟩

/-- The offsets that are refused without looking at the record: overflowing ones, negative ones, those
at or after the end of the stream, and those whose record is cut off. -/
theorem C30_bad_offsets {img c : Bytes} {len : Nat} {a : Attr} (h : AllocOf img c len a)
    (size : Nat) (vcn : Int) (d : Dev) (hd : d.Ok img) :
    let off := vcn * (a.file.ntfs.clusterSize : Int)
    ∃ p d', d'.Ok img ∧
      (¬ (-(I63 : Int) ≤ off ∧ off < (I63 : Int)) →
        a.recordFromVcn size vcn d = (.err (.vcnTooBig vcn), d')) ∧
      (-(I63 : Int) ≤ off → off < 0 →
        a.recordFromVcn size vcn d = (.err (.io .invalidInput), d')) ∧
      (off < (I63 : Int) → 0 ≤ off → (len : Int) ≤ off →
        a.recordFromVcn size vcn d = (.err (.vcnOutOfBoundsInIndexAllocation p vcn), d')) ∧
      (off < (I63 : Int) → 0 ≤ off → off < (len : Int) → (c.length : Int) < off + size → 0 < size →
        a.recordFromVcn size vcn d = (.err (.io .unexpectedEof), d')) := by
  obtain ⟨v, d1, hd1, e, h1, h2, h3, h4⟩ := h.run size vcn d hd
  obtain ⟨q, d2, hd2, e2⟩ := IndexAllocation.recordFromVcn_eq h1 h2 h3 size vcn d1 hd1
  rw [← e] at e2
  rw [h4] at e2
  refine ⟨v.dataPosition, d2, hd2, ?_, ?_, ?_, ?_⟩
  · intro g
    rw [e2, if_pos g]
  · intro g1 g2
    rw [e2, if_neg (by simp only [Decidable.not_not]; omega), if_pos g2]
  · intro g1 g2 g3
    rw [e2, if_neg (by simp only [Decidable.not_not]; omega), if_neg (by omega), if_pos (by omega)]
  · intro g1 g2 g3 g4 g5
    rw [e2, if_neg (by simp only [Decidable.not_not]; omega), if_neg (by omega), if_neg (by omega),
      if_pos (by omega)]

/-- Whatever is returned is the record that was asked for: it lies at `vcn * cluster size` in the
stream, carries the signature and the VCN, all protected sectors were intact, and outside of their last
two bytes it is what the stream holds; where the update sequence array lies outside the sector tails,
these two bytes are the saved ones. -/
theorem C30_only_that_record {img c : Bytes} {len : Nat} {a : Attr} (h : AllocOf img c len a)
    (size : Nat) (hsize : 40 ≤ size) (vcn : Int) (d d' : Dev) (hd : d.Ok img) (r : IndexRecord)
    (hr : a.recordFromVcn size vcn d = (.ok r, d')) :
    let pos := vcn.toNat * a.file.ntfs.clusterSize
    let disk := part c pos size
    0 ≤ vcn * a.file.ntfs.clusterSize ∧ vcn * a.file.ntfs.clusterSize < (I63 : Int) ∧
      (vcn * a.file.ntfs.clusterSize).toNat = pos ∧
      pos + size ≤ c.length ∧ part c pos 4 = [0x49, 0x4E, 0x44, 0x58] ∧
      r.vcn = .ok vcn ∧ r.record.data.length = size ∧
      24 + field r.record.data 28 4 ≤ 24 + field r.record.data 32 4 ∧
      24 + field r.record.data 32 4 ≤ size ∧
      ∃ n off, field disk 6 2 = n + 1 ∧ field disk 4 2 = off ∧
        (∀ i < n, (disk.drop (512 * i + 510)).take 2 = (disk.drop off).take 2) ∧
        ((∀ i < n, off + 2 + 2 * n ≤ 512 * i + 510 ∨ 512 * i + 512 ≤ off) →
          Restores disk r.record.data n off) := by
  obtain ⟨v, d1, hd1, e, h1, h2, h3, h4⟩ := h.run size vcn d hd
  obtain ⟨q, d2, hd2, e2⟩ := IndexAllocation.recordFromVcn_eq h1 h2 h3 size vcn d1 hd1
  rw [← e, hr] at e2
  have e3 := congrArg Prod.fst e2
  dsimp only at e3
  have hll := h1.length_le
  by_cases g1 : -(I63 : Int) ≤ vcn * a.file.ntfs.clusterSize ∧ vcn * a.file.ntfs.clusterSize < (I63 : Int)
  case neg => rw [if_pos g1] at e3; cases e3
  rw [if_neg (by simpa using g1)] at e3
  by_cases g2 : vcn * (a.file.ntfs.clusterSize : Int) < 0
  · rw [if_pos g2] at e3; cases e3
  rw [if_neg g2] at e3
  by_cases g3 : v.len ≤ (vcn * (a.file.ntfs.clusterSize : Int)).toNat
  · rw [if_pos g3] at e3; cases e3
  rw [if_neg g3] at e3
  by_cases g4 : size ≤ c.length - (vcn * (a.file.ntfs.clusterSize : Int)).toNat
  case neg => rw [if_pos g4] at e3; cases e3
  rw [if_neg (by simpa using g4)] at e3
  have hpos : (vcn * (a.file.ntfs.clusterSize : Int)).toNat = vcn.toNat * a.file.ntfs.clusterSize := by
    by_cases hv : 0 ≤ vcn
    · obtain ⟨n, rfl⟩ : ∃ n : Nat, vcn = n := ⟨vcn.toNat, by omega⟩
      rw [← Int.natCast_mul, Int.toNat_natCast, Int.toNat_natCast]
    · have hc : (a.file.ntfs.clusterSize : Int) = 0 := by
        by_cases hc : (a.file.ntfs.clusterSize : Int) = 0
        · exact hc
        · exact absurd (Int.mul_neg_of_neg_of_pos (by omega) (by omega)) g2
      have hc' : a.file.ntfs.clusterSize = 0 := by omega
      rw [hc']; simp
  rw [hpos] at e3 g4 g3
  have hin : vcn.toNat * a.file.ntfs.clusterSize + size ≤ c.length := by omega
  refine ⟨by omega, g1.2, hpos, hin, ?_⟩
  have hpl : (part c (vcn.toNat * a.file.ntfs.clusterSize) size).length = size := part_length hin
  obtain ⟨disk, hdisk⟩ : ∃ disk, disk = part c (vcn.toNat * a.file.ntfs.clusterSize) size := ⟨_, rfl⟩
  have hsig : part c (vcn.toNat * a.file.ntfs.clusterSize) 4 = disk.take 4 := by
    rw [hdisk]; unfold part
    rw [List.take_take, Nat.min_eq_left (by omega)]
  rw [hsig]
  rw [← hdisk] at e3 hpl ⊢
  rw [IndexRecord.ofBytes_eq _ _ (by omega)] at e3
  by_cases g5 : disk.take 4 = [0x49, 0x4E, 0x44, 0x58]
  case neg => rw [if_pos g5] at e3; cases e3
  rw [if_neg (by simpa using g5)] at e3
  replace e3 := e3.symm
  rw [Res.bind_eq_ok] at e3
  obtain ⟨r1, e3, e4⟩ := e3
  rw [Res.bind_eq_ok] at e3
  obtain ⟨r2, e3, e5⟩ := e3
  rw [Res.bind_eq_ok] at e5
  obtain ⟨_, e5, e6⟩ := e5
  cases e6
  rw [Res.bind_eq_ok] at e4
  obtain ⟨x, e4, e6⟩ := e4
  split at e6
  · cases e6
  rename_i hx
  cases e6
  have hx' : x = vcn := by simpa using hx
  subst hx'
  have hlen := (Record.fixup_length e3).1
  dsimp only at hlen
  rw [hpl] at hlen
  have hsz := e5
  rw [IndexRecord.validateSizes_eq _ (by show 36 ≤ r2.data.length; omega)] at hsz
  dsimp only at hsz
  split at hsz
  · cases hsz
  split at hsz
  · cases hsz
  split at hsz
  · cases hsz
  split at hsz
  · cases hsz
  refine ⟨g5, e4, hlen, by dsimp only; omega, by dsimp only; omega, ?_⟩
  have hall := C13_ok_means_all_match ⟨disk, q⟩ r2 (by show 8 ≤ disk.length; omega) e3
  dsimp only at hall
  rw [fixup_eq _ (by show 8 ≤ disk.length; omega)] at e3
  dsimp only at e3
  split at e3
  case isFalse => cases e3
  split at e3
  · cases e3
  split at e3
  case isFalse => cases e3
  split at e3
  · cases e3
  rename_i k1 k2 k3 k4
  obtain ⟨n, hn⟩ : ∃ n, field disk 6 2 = n + 1 := ⟨field disk 6 2 - 1, by omega⟩
  refine ⟨n, _, hn, rfl, fun i hi => hall i (by omega), fun hap => ?_⟩
  have en : field disk 6 2 - 1 = n := by omega
  rw [en] at e3
  obtain ⟨d'', e7, hl, hk, hj⟩ := fixupLoop_ok q ((disk.drop (field disk 4 2)).take 2) n disk
    (field disk 4 2 + 2) 510 (by omega) (by omega)
    (by intro k hk; have := hall k (by omega); unfold TailIs at this; rw [← this]; congr 2; omega)
    (by intro k hk; have := hap k hk; omega)
  rw [e7, Res.bind_ok] at e3
  cases e3
  refine ⟨hl, rfl, hn, by omega, by omega, hap, fun i hi => hall i (by omega), ?_, ?_⟩
  · intro i hi
    have := hk i hi
    rw [show 510 + 512 * i = 512 * i + 510 by omega] at this
    exact this
  · intro j hT
    apply hj
    intro k hk hh
    exact hT k hk (by omega)

/-! ### The hypotheses can be met -/

theorem exDir_allocOf : AllocOf exDirImage exDirStream 1024 (exDirAlloc none) where
  ty := (exDir_allocated none).ty
  opens := exDir_opens none
  nonRes := (exDir_allocated none).nonRes

/-- The record with VCN 1 of the example directory; VCN 2 is after the end, VCN -1 is refused. -/
example (d : Dev) (hd : d.Ok exDirImage) :
    (∃ r d', (exDirAlloc none).recordFromVcn 512 1 d = (.ok r, d') ∧
      r.record.data = exDirNode1 ++ [1, 2]) ∧
    (∃ p d', (exDirAlloc none).recordFromVcn 512 2 d =
      (.err (.vcnOutOfBoundsInIndexAllocation p 2), d')) ∧
    (∃ d', (exDirAlloc none).recordFromVcn 512 (-1) d = (.err (.io .invalidInput), d')) := by
  refine ⟨?_, ?_, ?_⟩
  · obtain ⟨r, d', h1, _, h2, _⟩ := C30_returns_record exDir_allocOf 512 (by decide) 1 _ _ _
      exDir_record1 d hd
    exact ⟨r, d', h1, h2⟩
  · obtain ⟨p, d', _, _, _, h, _⟩ := C30_bad_offsets exDir_allocOf 512 2 d hd
    exact ⟨p, d', h (by decide) (by decide) (by decide)⟩
  · obtain ⟨p, d', _, _, h, _⟩ := C30_bad_offsets exDir_allocOf 512 (-1) d hd
    exact ⟨d', h (by decide) (by decide)⟩

/-- The same directory with the two data runs of the index allocation swapped. -/
def exSwapped : Attr :=
  ⟨⟨exDirNtfs none, ⟨exDirRecord.take 312 ++ [0x11, 1, 2, 0x11, 1, 0xFF, 0, 0] ++ exDirRecord.drop 320,
    some 512⟩, 30⟩, 240, none⟩

theorem exSwapped_stored : StoredAs 512 exDirImage [0x11, 1, 2, 0x11, 1, 0xFF, 0, 0]
    [⟨1, some 2⟩, ⟨1, some 1⟩] where
  clusterPos := by decide
  enc := by
    refine .run 0 1 1 _ _ _ ?_ (.run _ 1 1 _ _ _ ?_ (.terminated _ [0]))
    · simp [WidthsOk, FitsSigned]
    · simp [WidthsOk, FitsSigned, Extent.lcnAfter]
  rep := by simp [Representable]
  nonZero := by simp [NonZero, Extent.lcnAfter]
  inImage := by simp [InImage]; decide +kernel
  imgLt := by decide +kernel

/-- Now the record at the place of VCN 0 says that it is the one with VCN 1. -/
theorem exSwapped_facts : AllocOf exDirImage ((exDirNode1 ++ [9, 0]) ++ (exDirNode0 ++ [9, 0])) 1024 exSwapped ∧
    RecordIn ((exDirNode1 ++ [9, 0]) ++ (exDirNode0 ++ [9, 0])) 512
      (0 * exSwapped.file.ntfs.clusterSize) (exDirNode1 ++ [1, 2]) 48 240 ∧
    IntAt (exDirNode1 ++ [1, 2]) 16 1 ∧ (1 : Int) ≠ (0 : Nat) := by
  refine ⟨⟨by decide +kernel, ?_, .inr ⟨by unfold Attr.HeaderIn; decide +kernel, by decide +kernel⟩⟩, ?_,
    exDir_record1.vcn, by decide⟩
  · have e : (content 512 exDirImage [⟨1, some 2⟩, ⟨1, some 1⟩]).take 1024 =
      (exDirNode1 ++ [9, 0]) ++ (exDirNode0 ++ [9, 0]) := by decide +kernel
    rw [← e]
    refine Attr.opens_nonResident exDirImage exSwapped (by unfold Attr.HeaderIn; decide +kernel) rfl
      (by decide +kernel) (by decide +kernel) 72 80 1024 (by decide +kernel) (by decide +kernel)
      (by decide +kernel) (by decide) (by decide +kernel) [⟨1, some 2⟩, ⟨1, some 1⟩] ?_
    have e2 : (exSwapped.recordData.drop (exSwapped.offset + 72)).take (80 - 72) =
      [0x11, 1, 2, 0x11, 1, 0xFF, 0, 0] := by decide +kernel
    rw [e2]
    exact exSwapped_stored
  · refine ⟨by decide +kernel, by decide +kernel, ⟨1, 40, ?_⟩, by decide, by decide +kernel,
      by decide +kernel, by decide +kernel, by decide +kernel⟩
    have e : part ((exDirNode1 ++ [9, 0]) ++ (exDirNode0 ++ [9, 0]))
        (0 * exSwapped.file.ntfs.clusterSize) 512 = exDirNode1 ++ [9, 0] := by decide +kernel
    rw [e]
    exact exDirNode_restores _ (by decide +kernel) (by decide +kernel) (by decide +kernel)
      (by decide +kernel)

/-- The other two theorems on them: the swapped records are told apart, and what is returned for VCN 1 is the record 1. -/
example (d : Dev) (hd : d.Ok exDirImage) := C30_mismatch exSwapped_facts.1 512 (by decide) 0 (by decide) _ _ _ exSwapped_facts.2.1 1
  exSwapped_facts.2.2.1 exSwapped_facts.2.2.2 d hd
example (d : Dev) (hd : d.Ok exDirImage) : ∃ r d', (exDirAlloc none).recordFromVcn 512 1 d = (.ok r, d') ∧ 40 ≤ r.record.data.length := by
  obtain ⟨r, d', h1, _⟩ := C30_returns_record exDir_allocOf 512 (by decide) 1 _ _ _ exDir_record1 d hd
  exact ⟨r, d', h1, by rw [(C30_only_that_record exDir_allocOf 512 (by decide) 1 d d' hd r h1).2.2.2.2.2.2.1]; decide⟩

end NT
