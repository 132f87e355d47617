import Verif.Model.Shell

/-!
What it means that an operation only depends on some places of the device.

`S : Nat → Prop` is a set of places (byte addresses). Two devices are the same on `S` if they behave alike
(position, failures, short reads) and hold the same bytes at the places of `S`; elsewhere they may differ in any
way, they may even have different sizes.
-/

namespace NT.Spec

open NT

/-- The devices differ at most in the bytes outside `S`. -/
structure SameOn (S : Nat → Prop) (d e : Dev) : Prop where
  pos : d.pos = e.pos
  sched : d.sched = e.sched
  bytes : ∀ a, S a → d.img[a]? = e.img[a]?

/-- All `n` places from `p` on are in `S`. -/
def Span (S : Nat → Prop) (p n : Nat) : Prop := ∀ i < n, S (p + i)

/-- The iterator over data runs hands out `r` sooner or later. -/
inductive HandsOut : DataRuns → DataRun → Prop
  | here {rs rs' : DataRuns} {r : DataRun} : rs.next = (some (.ok r), rs') → HandsOut rs r
  | later {rs : DataRuns} {r : DataRun} : HandsOut rs.next.2 r → HandsOut rs r

/-- All clusters of the run are in `S` (none if the run is sparse). -/
def RunIn (S : Nat → Prop) (r : DataRun) : Prop := ∀ p, r.position = some p → Span S p r.allocatedSize

/-- All clusters of all runs that the iterator hands out are in `S`. -/
def RunsIn (S : Nat → Prop) (rs : DataRuns) : Prop := ∀ r, HandsOut rs r → RunIn S r

/-- All clusters of the value are in `S`: those of the current run, of the following runs, and of the runs from
the beginning. -/
structure ValueIn (S : Nat → Prop) (v : NonRes) : Prop where
  current : ∀ r, v.st.run = some r → RunIn S r
  next : RunsIn S v.runs
  all : RunsIn S v.dataRuns

/-- The iterator over the attributes of a record hands out `a` sooner or later. -/
inductive Shows : AttrsRaw → Attr → Prop
  | here {it it' : AttrsRaw} {a : Attr} : it.next = (some (.ok a), it') → Shows it a
  | later {it : AttrsRaw} {a : Attr} : Shows it.next.2 a → Shows it a

/-- The record of the file has an attribute at `off`. -/
def Own (f : NFile) (off : Nat) : Prop := ∃ it a, f.attributesRaw = .ok it ∧ Shows it a ∧ a.offset = off

/-- All clusters of all attributes in the record of the file are in `S`, and the file is one of the volume `n`. -/
structure FileIn (n : Ntfs) (S : Nat → Prop) (f : NFile) : Prop where
  volume : f.ntfs = n
  attrs : ∀ a : Attr, a.file = f → Own f a.offset → ∀ data p, a.nonResidentValueDataAndPosition = .ok (data, p) →
    RunsIn S (DataRuns.new n.clusterSize data p)

/-- `S` has all places of the volume `n` over the bytes `img` that are in use: the record of the MFT, the
place of every record that the MFT leads to, and the clusters of all attributes of all files. -/
structure Covers (n : Ntfs) (img : Bytes) (S : Nat → Prop) : Prop where
  mft : ∀ p, n.mftPosition = some p → Span S p n.fileRecordSize
  records : ∀ p, n.mftPosition = some p → ∀ d mft d', d.img = img → NFile.new n p 0 d = (.ok mft, d') →
    ∀ a v, mft.findResidentAttribute .data none none = .ok a → a.simpleValue = .ok v →
    ∀ number, number * n.fileRecordSize < U64 → ∀ m v' q, v.seek (.start (number * n.fileRecordSize)) = (.ok m, v') →
    v'.dataPosition = some q → Span S q n.fileRecordSize
  files : ∀ number d f d', d.img = img → n.file number d = (.ok f, d') → FileIn n S f

/-- An attribute list whose clusters, if it has any, are in `S`. -/
def ListIn (S : Nat → Prop) : AttrList → Prop
  | .resident _ _ => True
  | .nonResident v => ValueIn S v

/-- An attribute of a file whose clusters are in `S`. -/
structure AttrIn (n : Ntfs) (S : Nat → Prop) (a : Attr) : Prop where
  file : FileIn n S a.file
  own : Own a.file a.offset
  list : ∀ l, a.list = some l → ListIn S l

/-- An item of the iterator over the attributes of a file whose clusters are in `S`. -/
structure ItemIn (n : Ntfs) (S : Nat → Prop) (i : AttrItem) : Prop where
  file : FileIn n S i.file
  valueFile : ∀ f, i.valueFile = some f → FileIn n S f
  own : i.valueFile = none → Own i.file i.offset
  valueOwn : ∀ f, i.valueFile = some f → Own f i.offset
  list : ∀ l, i.list = some l → ListIn S l

/-- A value of a volume that is covered by `S`, in any state. -/
structure PartsIn (n : Ntfs) (S : Nat → Prop) (v : ALVal) : Prop where
  volume : v.ntfs = n
  initial : ListIn S v.initial
  connected : ∀ l, v.connected = some l → ListIn S l
  current : ∀ r, v.st.run = some r → RunIn S r
  next : ∀ a, v.attrState = some a → ∀ s, a.runs = some s → ∀ at_ : Attr, at_.file = a.file →
    at_.offset = a.offset → ∀ data p, at_.nonResidentValueDataAndPosition = .ok (data, p) →
    RunsIn S (DataRuns.fromState n.clusterSize data p s)

/-- The same for any value. -/
def AnyIn (n : Ntfs) (S : Nat → Prop) : Val → Prop
  | .simple (.res _) => True
  | .simple (.nonRes v) => ValueIn S v
  | .list v => PartsIn n S v

/-- The same for the iterator over the attributes of a file. -/
structure AttrsIn (n : Ntfs) (S : Nat → Prop) (it : Attrs) : Prop where
  file : FileIn n S it.raw.file
  own : ∀ a, Shows it.raw a → Own it.raw.file a.offset
  list : ∀ l, it.list = some l → ListIn S l

/-- The same for an index. -/
def IndexIn (n : Ntfs) (S : Nat → Prop) (ix : Index) : Prop := ∀ i, ix.allocationItem = some i → ItemIn n S i

/-- The same for the state of the shell. -/
structure ShellIn (n : Ntfs) (S : Nat → Prop) (s : Shell) : Prop where
  volume : s.ntfs = n
  stack : ∀ f ∈ s.stack, FileIn n S f

end NT.Spec
