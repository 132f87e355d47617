import Verif.Spec.Bytes

/-! Specification: which boot sectors describe a supported NTFS volume, and its geometry. -/

namespace NT.Spec

/-- The geometry encoded in a boot sector. -/
structure Geometry where
  sectorSize : Nat
  sectorsPerCluster : Nat
  fileRecordSize : Nat
  totalSectors : Nat
  mftLcn : Nat
  serial : Nat

def Geometry.clusterSize (g : Geometry) : Nat := g.sectorsPerCluster * g.sectorSize

/-- `sectors per cluster` field: a power of two up to 128 directly, or minus a binary exponent from
1 to 12 as a two's complement byte. -/
def SectorsPerClusterField (x n : Nat) : Prop :=
  (∃ e ≤ 7, x = 2 ^ e ∧ n = 2 ^ e) ∨ (∃ e, 1 ≤ e ∧ e ≤ 12 ∧ x = 256 - e ∧ n = 2 ^ e)

/-- `file record size` field: a positive cluster count up to 127, or minus a binary exponent from 10
to 12 as a two's complement byte. -/
def RecordSizeField (x clusterSize n : Nat) : Prop :=
  (1 ≤ x ∧ x ≤ 127 ∧ n = x * clusterSize) ∨ (∃ e, 10 ≤ e ∧ e ≤ 12 ∧ x = 256 - e ∧ n = 2 ^ e)

/-- The image starts with a boot sector of a supported volume with geometry `g`. -/
structure BootSector (img : Bytes) (g : Geometry) : Prop where
  length : 512 ≤ img.length
  signature : img[510]? = some 0x55 ∧ img[511]? = some 0xAA
  sectorSize : field img 11 2 = g.sectorSize ∧ ∃ e, 9 ≤ e ∧ e ≤ 12 ∧ g.sectorSize = 2 ^ e
  cluster : SectorsPerClusterField (field img 13 1) g.sectorsPerCluster
  clusterSize : g.clusterSize ≤ 2 * 1024 * 1024
  record : RecordSizeField (field img 64 1) g.clusterSize g.fileRecordSize
  totalSectors : field img 40 8 = g.totalSectors ∧ g.totalSectors * g.sectorSize < 2 ^ 64
  mft : field img 48 8 = g.mftLcn ∧ 0 < g.mftLcn ∧ g.mftLcn * g.clusterSize < 2 ^ 64
  serial : field img 72 8 = g.serial

end NT.Spec
