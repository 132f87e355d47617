import Verif.Model.Attached
import Verif.Model.AttrList
import Verif.Model.Attribute
import Verif.Model.Basic
import Verif.Model.Bits32
import Verif.Model.Bits32Index
import Verif.Model.Boot
import Verif.Model.DataRuns
import Verif.Model.Dev
import Verif.Model.FileOps
import Verif.Model.Flags
import Verif.Model.Guid
import Verif.Model.Index
import Verif.Model.Message
import Verif.Model.Prog
import Verif.Model.ReadExact
import Verif.Model.Reader
import Verif.Model.Record
import Verif.Model.Release
import Verif.Model.ReleaseIndex
import Verif.Model.ReleaseOps
import Verif.Model.Resident
import Verif.Model.SectorReader
import Verif.Model.Seek
import Verif.Model.Shell
import Verif.Model.ShellAttr
import Verif.Model.ShellInfo
import Verif.Model.ShellMain
import Verif.Model.ShellText
import Verif.Model.Stream
import Verif.Model.Structured
import Verif.Model.Time
import Verif.Model.Types
import Verif.Model.Upcase
import Verif.Spec.AttrList
import Verif.Spec.Attribute
import Verif.Spec.Boot
import Verif.Spec.Bytes
import Verif.Spec.DataRuns
import Verif.Spec.FlatFile
import Verif.Spec.Flatten
import Verif.Spec.Harmless
import Verif.Spec.Index
import Verif.Spec.Local
import Verif.Spec.Lznt1
import Verif.Spec.Record
import Verif.Spec.Seek
import Verif.Lemmas.AttrList
import Verif.Lemmas.Attribute
import Verif.Lemmas.Bytes
import Verif.Lemmas.Cost
import Verif.Lemmas.DataRuns
import Verif.Lemmas.Dev
import Verif.Lemmas.ExDirectory
import Verif.Lemmas.ExDisk
import Verif.Lemmas.Flaky
import Verif.Lemmas.HarmlessCheck
import Verif.Lemmas.IndexAcyclic
import Verif.Lemmas.IndexEntry
import Verif.Lemmas.IndexRecord
import Verif.Lemmas.IndexTree
import Verif.Lemmas.ListStream
import Verif.Lemmas.Local
import Verif.Lemmas.LocalFile
import Verif.Lemmas.LocalIndex
import Verif.Lemmas.LocalMain
import Verif.Lemmas.LocalShell
import Verif.Lemmas.Messages
import Verif.Lemmas.Prog
import Verif.Lemmas.ProgMain
import Verif.Lemmas.ProgShell
import Verif.Lemmas.Quiet
import Verif.Lemmas.ReadExact
import Verif.Lemmas.Reader
import Verif.Lemmas.Retry
import Verif.Lemmas.Returns
import Verif.Lemmas.ReturnsFile
import Verif.Lemmas.ReturnsOps
import Verif.Lemmas.ReturnsShell
import Verif.Lemmas.SafeRead
import Verif.Lemmas.Seek
import Verif.Lemmas.ShellGet
import Verif.Lemmas.Split
import Verif.Lemmas.Stream
import Verif.Lemmas.StreamAny
import Verif.Lemmas.Tame
import Verif.Lemmas.TameFile
import Verif.Lemmas.TameIndex
import Verif.Lemmas.TameOps
import Verif.Lemmas.TameShell
import Verif.Lemmas.TameVal
import Verif.Lemmas.Val
import Verif.Lemmas.Walk
import Verif.Props.C01_NonResident
import Verif.Props.C02_Resident
import Verif.Props.C03_ListValue
import Verif.Props.C04_Seek
import Verif.Props.C05_List
import Verif.Props.C05_ReadContract
import Verif.Props.C06_List
import Verif.Props.C06_ReadExact
import Verif.Props.C07_Interrupted
import Verif.Props.C08_DataRuns
import Verif.Props.C10_Repeats
import Verif.Props.C11_ClusterZero
import Verif.Props.C12_Fixup
import Verif.Props.C15_Boot
import Verif.Props.C15_Errors
import Verif.Props.C17_File
import Verif.Props.C18_Attributes
import Verif.Props.C20_AttributeValues
import Verif.Props.C22_Lookup
import Verif.Props.C23_Flatten
import Verif.Props.C24_ListEntries
import Verif.Props.C25_IndexOrder
import Verif.Props.C26_IndexFind
import Verif.Props.C27_Acyclic
import Verif.Props.C27_IndexTermination
import Verif.Props.C28_NodeEntries
import Verif.Props.C29_IndexPanics
import Verif.Props.C30_RecordFromVcn
import Verif.Props.C31_UpcaseOrder
import Verif.Props.C32_UpcaseTable
import Verif.Props.C33_DirectoryFind
import Verif.Props.C34_Time
import Verif.Props.C36_FileRef
import Verif.Props.C37_Arith
import Verif.Props.C38_IndexRoot
import Verif.Props.C38_StructuredValues
import Verif.Props.C39_DataPosition
import Verif.Props.C39_Split
import Verif.Props.C41_Interleave
import Verif.Props.C42_Failures
import Verif.Props.C43_Exact
import Verif.Props.C43_Truncated
import Verif.Props.C44_SectorReader
import Verif.Props.C45_Guid
import Verif.Props.C46_DataLookup
import Verif.Props.C47_NameLookup
import Verif.Props.C48_DirectoryIndex
import Verif.Props.C49_Safety
import Verif.Props.C50_Apart
import Verif.Props.C51_BaseSplit
import Verif.Props.C52_IndexRecords
import Verif.Props.C53_Copy
import Verif.Props.C54_Flaky
import Verif.Props.C55_Volume
import Verif.Props.C56_BestName
import Verif.Props.C57_Navigate
import Verif.Props.C58_CommandLine
import Verif.Props.C59_EndToEnd
import Verif.Props.C59_Example
import Verif.Props.C60_Readers
import Verif.Props.C60_Session
import Verif.Props.C60_Stack
import Verif.Props.C61_Pieces
import Verif.Props.C62_FileInfo
import Verif.Props.C62_Shown
import Verif.Props.C63_AttrTable
import Verif.Props.C63_Shown
import Verif.Props.C64_Lines
import Verif.Props.C64_Loop
import Verif.Props.C64_Panic
import Verif.Props.C64_Session
import Verif.Props.C64_State
import Verif.Props.C64_Walk
import Verif.Props.C65_Splitting
import Verif.Props.C66_Location
import Verif.Props.C67_Fused
import Verif.Props.C68_Attributes
import Verif.Props.C68_ListValue
import Verif.Props.C68_Retry
import Verif.Props.C69_Attached
import Verif.Props.C69_Interrupted
import Verif.Props.C70_Returns
import Verif.Props.C71_Messages
import Verif.Props.C71_Structured
import Verif.Props.C71_Templates
import Verif.Props.C72_References
import Verif.Props.C73_ListForms
import Verif.Props.C74_Flags
import Verif.Props.C75_Text
import Verif.Props.C76_Retype
import Verif.Props.C77_Examples
import Verif.Props.C77_IndexPositions
import Verif.Props.C77_ListPositions
import Verif.Props.C77_Positions
import Verif.Props.C77_RootPositions
import Verif.Props.C78_Local
import Verif.Props.C78_Main
import Verif.Props.C78_Volume
import Verif.Props.C79_Calls
import Verif.Props.C79_Example
import Verif.Props.C79_Index
import Verif.Props.C80_Panics
import Verif.Props.C81_ShellPanics
import Verif.Props.C82_ShellHangs
import Verif.Props.C83_Initialised
import Verif.Props.C83_Split
import Verif.Props.C84_Compressed
import Verif.Props.C85_Index
import Verif.Props.C85_Ops
import Verif.Props.C85_Release
import Verif.Props.C86_Parts
import Verif.Props.C87_Bits32
import Verif.Props.C87_Split
import Verif.Props.C88_Headers32
import Verif.Props.C89_Buffers
import Verif.Props.C89_Depth
