import Verif.Model.Dev

namespace NT

/-- `src/boot_sector.rs:19-42` and 192-198: the fields of the boot sector that are used. -/
structure Boot where
  sectorSizeRaw : Nat          -- u16
  sectorsPerClusterRaw : Nat   -- u8
  totalSectors : Nat           -- u64
  mftLcnRaw : Nat              -- u64
  fileRecordSizeInfo : Int     -- i8
  serialNumber : Nat           -- u64
  signature : Bytes            -- [u8; 2]
  deriving DecidableEq, Repr

/-- `src/boot_sector.rs:18-42`, 191-198: the `BinRead` layout (little endian, no padding). Field
offsets: bootjmp 0, oem_name 3, sector_size 11, sectors_per_cluster 13, total_sectors 40, mft_lcn 48,
mft_mirror_lcn 56, file_record_size_info 64, index_record_size_info 68, serial_number 72,
checksum 80, boot_code 84, signature 510. -/
def Boot.parse (d : Bytes) : Boot where
  sectorSizeRaw := leNat ((d.drop 11).take 2)
  sectorsPerClusterRaw := leNat ((d.drop 13).take 1)
  totalSectors := leNat ((d.drop 40).take 8)
  mftLcnRaw := leNat ((d.drop 48).take 8)
  fileRecordSizeInfo := toI8 (leNat ((d.drop 64).take 1))
  serialNumber := leNat ((d.drop 72).take 8)
  signature := (d.drop 510).take 2

/-- `u16::is_power_of_two` / `u8::is_power_of_two`. -/
def isPow2 (n : Nat) : Bool := n != 0 && (n &&& (n - 1)) == 0

/-- `src/boot_sector.rs:122-142`, `sector_size`. -/
def Boot.sectorSize (b : Boot) : Res Nat :=
  if ¬ (512 ≤ b.sectorSizeRaw ∧ b.sectorSizeRaw ≤ 4096) ∨ ¬ isPow2 b.sectorSizeRaw then
    .err (.unsupportedSectorSize 512 4096 b.sectorSizeRaw)
  else .ok b.sectorSizeRaw

/-- `src/boot_sector.rs:144-179`, `sectors_per_cluster`. For a raw value above 128 the exponent
`-(x as i8)` is `256 - x`. -/
def Boot.sectorsPerCluster (b : Boot) : Res Nat :=
  if b.sectorsPerClusterRaw > 128 then
    let exponent := 256 - b.sectorsPerClusterRaw
    if exponent > 12 then .err (.invalidSectorsPerCluster b.sectorsPerClusterRaw)
    else .ok (1 <<< exponent)
  else if b.sectorsPerClusterRaw < 1 ∨ ¬ isPow2 b.sectorsPerClusterRaw then
    .err (.invalidSectorsPerCluster b.sectorsPerClusterRaw)
  else .ok b.sectorsPerClusterRaw

/-- `src/boot_sector.rs:46-68`, `cluster_size`. The `u32` product is below 2^24, so it does not
overflow. -/
def Boot.clusterSize (b : Boot) : Res Nat := do
  let spc ← b.sectorsPerCluster
  let ss ← b.sectorSize
  if ¬ (512 ≤ spc * ss ∧ spc * ss ≤ 2097152) then
    .err (.unsupportedClusterSize 512 2097152 (spc * ss))
  else .ok (spc * ss)

/-- `src/boot_sector.rs:84-120`, `record_size`. -/
def Boot.recordSize (b : Boot) (sizeInfo : Int) : Res Nat := do
  let cs ← b.clusterSize
  if sizeInfo > 0 then
    if cs * sizeInfo.toNat < U32 then .ok (cs * sizeInfo.toNat)
    else .err (.invalidRecordSizeInfo sizeInfo cs)
  else
    let exponent := sizeInfo.natAbs
    if ¬ (10 ≤ exponent ∧ exponent ≤ 12) then .err (.invalidRecordSizeInfo sizeInfo cs)
    else .ok (1 <<< exponent)

/-- `src/boot_sector.rs:70-72`, `file_record_size`. -/
def Boot.fileRecordSize (b : Boot) : Res Nat := b.recordSize b.fileRecordSizeInfo

/-- `src/boot_sector.rs:75-81`, `mft_lcn`. -/
def Boot.mftLcn (b : Boot) : Res Nat :=
  if b.mftLcnRaw > 0 then .ok b.mftLcnRaw else .err .invalidMftLcn

/-- `src/boot_sector.rs:205-217`, `validate`. -/
def Boot.validate (b : Boot) : Res Unit :=
  if b.signature = [0x55, 0xAA] then .ok () else .err (.invalidTwoByteSignature b.signature)

/-- `src/ntfs.rs:18-33`, `struct Ntfs`. The upcase table is a list of 65536 `u16` values. -/
structure Ntfs where
  clusterSize : Nat
  sectorSize : Nat
  size : Nat
  mftPosition : Pos
  fileRecordSize : Nat
  serialNumber : Nat
  upcaseTable : Option (List Nat)
  deriving DecidableEq, Repr

/-- `src/ntfs.rs:48-73`: everything `Ntfs::new` does after the boot sector has been read. -/
def Ntfs.ofBoot (b : Boot) : Res Ntfs := do
  b.validate
  let clusterSize ← b.clusterSize
  let sectorSize ← b.sectorSize
  let size ← Res.ofOption (.totalSectorsTooBig b.totalSectors)
    (checkedMulU64 b.totalSectors sectorSize)
  let fileRecordSize ← b.fileRecordSize
  let lcn ← b.mftLcn
  let mftPosition ← Lcn.position lcn clusterSize
  pure { clusterSize, sectorSize, size, mftPosition, fileRecordSize,
         serialNumber := b.serialNumber, upcaseTable := none }

/-- `src/ntfs.rs:41-74`, `Ntfs::new`. Simplification: `read_le` reads the 512 bytes in one
`read_exact` (binrw issues one per field). -/
def Ntfs.new : StM Dev Ntfs := do
  Dev.seekStart 0
  let bytes ← Dev.readExact 512
  StM.lift (Ntfs.ofBoot (Boot.parse bytes))

end NT
