import Verif.Props.C31_UpcaseOrder
import Verif.Model.Shell

/-! A complete small volume for the examples about the shell. The records 1 to 4 and 6 to 9 are holes of
the MFT. -/

namespace NT

open Spec

/-- The boot sector: sectors, clusters and records of 512 bytes, the MFT at cluster 1. -/
def exDiskBoot : Bytes :=
  [235, 82, 144, 78, 84, 70, 83, 32, 32, 32, 32, 0, 2, 1] ++
  List.replicate 26 0 ++
  [8, 1, 0, 0, 0, 0, 0, 0, 1, 0, 0, 0, 0, 0, 0, 0, 1, 0, 0, 0, 0, 0, 0, 0, 1, 0, 0, 0, 1, 0, 0, 0, 136,
   119, 102, 85, 68, 51, 34, 17] ++
  List.replicate 430 0 ++
  [85, 170]

/-- Record 0, the MFT: cluster 1, a hole for the records 1 to 4, cluster 2, a hole for the records 6 to 9,
clusters 3 to 5. -/
def exDiskRec0 : Bytes :=
  [70, 73, 76, 69, 48, 0, 2, 0, 0, 0, 0, 0, 0, 0, 0, 0, 1, 0, 1, 0, 56, 0, 1, 0, 144, 0, 0, 0, 0, 2, 0,
   0, 0, 0, 0, 0, 0, 0, 0, 0, 7, 0, 0, 0, 0, 0, 0, 0, 1, 0, 0, 0, 0, 0, 0, 0, 128, 0, 0, 0, 80, 0, 0,
   0, 1, 0, 64, 0, 0, 0, 1, 0, 0, 0, 0, 0, 0, 0, 0, 0, 12, 0, 0, 0, 0, 0, 0, 0, 64, 0, 0, 0, 0, 0, 0,
   0, 0, 26, 0, 0, 0, 0, 0, 0, 0, 26, 0, 0, 0, 0, 0, 0, 0, 26, 0, 0, 0, 0, 0, 0, 17, 1, 1, 1, 4, 17, 1,
   1, 1, 4, 17, 3, 1, 0, 0, 0, 255, 255, 255, 255] ++
  List.replicate 370 0 ++
  [1, 0]

/-- Record 5, the root directory: "a\b" (record 11, a directory) and "f" (record 12). -/
def exDiskRec5 : Bytes :=
  [70, 73, 76, 69, 48, 0, 2, 0, 0, 0, 0, 0, 0, 0, 0, 0, 5, 0, 1, 0, 56, 0, 3, 0, 64, 1, 0, 0, 0, 2, 0,
   0, 0, 0, 0, 0, 0, 0, 0, 0, 7, 0, 0, 0, 5, 0, 0, 0, 1, 0, 0, 0, 0, 0, 0, 0, 144, 0, 0, 0, 0, 1, 0, 0,
   0, 4, 24, 0, 0, 0, 1, 0, 224, 0, 0, 0, 32, 0, 0, 0, 36, 0, 73, 0, 51, 0, 48, 0, 48, 0, 0, 0, 1, 0,
   0, 0, 0, 2, 0, 0, 1, 0, 0, 0, 16, 0, 0, 0, 208, 0, 0, 0, 208, 0, 0, 0, 0, 0, 0, 0, 11, 0, 0, 0, 0,
   0, 2, 0, 88, 0, 72, 0, 0, 0, 0, 0, 5, 0, 0, 0, 0, 0, 5, 0, 1, 0, 0, 0, 0, 0, 0, 0, 2, 0, 0, 0, 0, 0,
   0, 0, 3, 0, 0, 0, 0, 0, 0, 0, 4] ++
  List.replicate 26 0 ++
  [16, 0, 0, 0, 0, 3, 1, 97, 0, 92, 0, 98, 0, 12, 0, 0, 0, 0, 0, 3, 0, 88, 0, 68, 0, 0, 0, 0, 0, 5, 0,
   0, 0, 0, 0, 5, 0, 1, 0, 0, 0, 0, 0, 0, 0, 2, 0, 0, 0, 0, 0, 0, 0, 3, 0, 0, 0, 0, 0, 0, 0, 4, 0, 0,
   0, 0, 0, 0, 0, 76, 4, 0, 0, 0, 0, 0, 0, 76, 4, 0, 0, 0, 0, 0, 0, 32, 0, 0, 0, 0, 0, 0, 0, 1, 1, 102] ++
  List.replicate 13 0 ++
  [16, 0, 0, 0, 2, 0, 0, 0, 255, 255, 255, 255] ++
  List.replicate 194 0 ++
  [1, 0]

/-- Record 10, the upcase table: 256 clusters at cluster 8. -/
def exDiskRec10 : Bytes :=
  [70, 73, 76, 69, 48, 0, 2, 0, 0, 0, 0, 0, 0, 0, 0, 0, 1, 0, 1, 0, 56, 0, 1, 0, 136, 0, 0, 0, 0, 2, 0,
   0, 0, 0, 0, 0, 0, 0, 0, 0, 7, 0, 0, 0, 10, 0, 0, 0, 1, 0, 0, 0, 0, 0, 0, 0, 128, 0, 0, 0, 72, 0, 0,
   0, 1, 0, 64, 0, 0, 0, 1, 0, 0, 0, 0, 0, 0, 0, 0, 0, 255, 0, 0, 0, 0, 0, 0, 0, 64, 0, 0, 0, 0, 0, 0,
   0, 0, 0, 2, 0, 0, 0, 0, 0, 0, 0, 2, 0, 0, 0, 0, 0, 0, 0, 2, 0, 0, 0, 0, 0, 18, 0, 1, 8, 0, 0, 0, 0,
   255, 255, 255, 255] ++
  List.replicate 378 0 ++
  [1, 0]

/-- Record 11, an empty directory with the name "a\b" in the root directory. -/
def exDiskRec11 : Bytes :=
  [70, 73, 76, 69, 48, 0, 2, 0, 0, 0, 0, 0, 0, 0, 0, 0, 2, 0, 1, 0, 56, 0, 3, 0, 240, 0, 0, 0, 0, 2, 0,
   0, 0, 0, 0, 0, 0, 0, 0, 0, 7, 0, 0, 0, 11, 0, 0, 0, 1, 0, 0, 0, 0, 0, 0, 0, 48, 0, 0, 0, 96, 0, 0,
   0, 0, 0, 24, 0, 0, 0, 1, 0, 72, 0, 0, 0, 24, 0, 0, 0, 5, 0, 0, 0, 0, 0, 5, 0, 1, 0, 0, 0, 0, 0, 0,
   0, 2, 0, 0, 0, 0, 0, 0, 0, 3, 0, 0, 0, 0, 0, 0, 0, 4] ++
  List.replicate 26 0 ++
  [16, 0, 0, 0, 0, 3, 1, 97, 0, 92, 0, 98, 0, 144, 0, 0, 0, 80, 0, 0, 0, 0, 4, 24, 0, 0, 0, 2, 0, 48,
   0, 0, 0, 32, 0, 0, 0, 36, 0, 73, 0, 51, 0, 48, 0, 48, 0, 0, 0, 1, 0, 0, 0, 0, 2, 0, 0, 1, 0, 0, 0,
   16, 0, 0, 0, 32, 0, 0, 0, 32] ++
  List.replicate 15 0 ++
  [16, 0, 0, 0, 2, 0, 0, 0, 255, 255, 255, 255] ++
  List.replicate 274 0 ++
  [1, 0]

/-- Record 12, the file "f" in the root directory: 1100 bytes of data in cluster 7, a hole and cluster 6, and
a stream "s" with the two bytes "hi". -/
def exDiskRec12 : Bytes :=
  [70, 73, 76, 69, 48, 0, 2, 0, 0, 0, 0, 0, 0, 0, 0, 0, 3, 0, 1, 0, 56, 0, 1, 0, 24, 1, 0, 0, 0, 2, 0,
   0, 0, 0, 0, 0, 0, 0, 0, 0, 7, 0, 0, 0, 12, 0, 0, 0, 1, 0, 0, 0, 0, 0, 0, 0, 48, 0, 0, 0, 96, 0, 0,
   0, 0, 0, 24, 0, 0, 0, 1, 0, 68, 0, 0, 0, 24, 0, 0, 0, 5, 0, 0, 0, 0, 0, 5, 0, 1, 0, 0, 0, 0, 0, 0,
   0, 2, 0, 0, 0, 0, 0, 0, 0, 3, 0, 0, 0, 0, 0, 0, 0, 4, 0, 0, 0, 0, 0, 0, 0, 76, 4, 0, 0, 0, 0, 0, 0,
   76, 4, 0, 0, 0, 0, 0, 0, 32, 0, 0, 0, 0, 0, 0, 0, 1, 1, 102, 0, 0, 0, 0, 0, 128, 0, 0, 0, 80, 0, 0,
   0, 1, 0, 64, 0, 0, 0, 2, 0, 0, 0, 0, 0, 0, 0, 0, 0, 2, 0, 0, 0, 0, 0, 0, 0, 64, 0, 0, 0, 0, 0, 0, 0,
   0, 6, 0, 0, 0, 0, 0, 0, 76, 4, 0, 0, 0, 0, 0, 0, 76, 4, 0, 0, 0, 0, 0, 0, 17, 1, 7, 1, 1, 17, 1,
   255, 0, 0, 0, 0, 0, 0, 0, 0, 128, 0, 0, 0, 40, 0, 0, 0, 0, 1, 24, 0, 0, 0, 3, 0, 2, 0, 0, 0, 32, 0,
   0, 0, 115, 0, 0, 0, 0, 0, 0, 0, 104, 105, 0, 0, 0, 0, 0, 0, 255, 255, 255, 255] ++
  List.replicate 234 0 ++
  [1, 0]

/-- Cluster 6. -/
def exDiskData6 : Bytes :=
  [6, 6, 6] ++
  List.replicate 509 0

/-- Cluster 7. -/
def exDiskData7 : Bytes :=
  [102, 105, 114, 115, 116] ++
  List.replicate 507 0


/-- The first 4096 bytes. -/
def exDiskHead : Bytes :=
  exDiskBoot ++ exDiskRec0 ++ exDiskRec5 ++ exDiskRec10 ++ exDiskRec11 ++ exDiskRec12 ++ exDiskData6 ++ exDiskData7

/-- The bytes of the upcase table, which maps the letters a to z to A to Z. -/
def exDiskTable : Bytes := exTable.flatMap (leBytes 2)

/-- The volume. -/
def exDisk : Bytes := exDiskHead ++ exDiskTable

def exDiskNtfs : Ntfs :=
  { clusterSize := 512, sectorSize := 512, size := 135168, mftPosition := some 512,
    fileRecordSize := 512, serialNumber := 0x1122334455667788, upcaseTable := none }

end NT
