import Verif.Lemmas.TameIndex
import Verif.Lemmas.HarmlessCheck
import Verif.Props.C59_Example

/-! C80: panics come only from the listed malformations. Whatever a program does with a volume, and however the reader
answers, no call panics unless the bytes of the volume hold one of the malformations of `Spec/Harmless.lean` or the
program breaks one of the three rules stated here: the upcase table is read before names are compared, an entry of an
attribute list is looked up in the file it names, and index records are asked for with a sensible size. -/

namespace NT

namespace Use

open Spec

/-- Things that the crate hands out. -/
inductive Handle
  | volume (m : Ntfs)
  | file (f : NFile)
  | rawIter (it : AttrsRaw)
  | iter (it : Attrs)
  | item (i : AttrItem)
  | attr (a : Attr)
  | value (v : Val)
  | runs (r : DataRuns)
  | run (r : DataRun)
  | list (l : AttrList)
  | entry (e : ListEntry)
  | name (f : FileName)
  | root (r : IndexRoot)
  | allocation (x : IndexAllocation)
  | records (it : IndexRecords)
  | record (r : IndexRecord)
  | node (it : NodeEntries)
  | indexEntry (e : IEntry)
  | index (ix : Index)
  | traversal (ix : Index) (it : IndexEntries)
  | both (h h' : Handle)

/-- The outcome of a call without its value. -/
def done {α : Type} (r : Res α) : Res Unit := r >>= fun _ => .ok ()

/-- The handles in the value of a call. -/
def gives {α : Type} (r : Res α) (f : α → List Handle) : List Handle :=
  match r with
  | .ok a => f a
  | _ => []

/-- The decoders of structured values. -/
inductive Decoder : {α : Type} → Structured α → Prop
  | standardInformation : Decoder StdInfo.structured
  | fileName : Decoder FileName.structured
  | volumeInformation : Decoder VolumeInfo.structured
  | volumeName : Decoder VolumeName.structured
  | objectId : Decoder ObjectId.structured

/-- `Call img h r hs`: a call on `h` with a reader over `img`, at any position and with any answers to come, has the
outcome `r` and hands out `hs`, among them the handle itself if the call changes it. The last five are no calls: they
only make parts of a handle available. -/
inductive Call (img : Bytes) : Handle → Res Unit → List Handle → Prop
  -- the volume
  | file {m d} (k : Nat) : d.img = img → Call img (.volume m) (done (m.file k d).1)
      (gives (m.file k d).1 fun f => [.file f])
  | rootDirectory {m d} : d.img = img → Call img (.volume m) (done (m.rootDirectory d).1)
      (gives (m.rootDirectory d).1 fun f => [.file f])
  | refFile {m d} (r : FileRef) : d.img = img → Call img (.volume m) (done (r.toFile m d).1)
      (gives (r.toFile m d).1 fun f => [.file f])
  | volumeInfo {m d} : d.img = img → Call img (.volume m) (done (m.volumeInfo d).1) []
  | volumeName {m d} : d.img = img → Call img (.volume m) (done (m.volumeName d).1) []
  | readUpcaseTable {m d} (fuel : Nat) : d.img = img → Call img (.volume m) (done (m.readUpcaseTable fuel d).1)
      (gives (m.readUpcaseTable fuel d).1 fun m' => [.volume m'])
  -- files
  | fileFlags {f} : Call img (.file f) (done f.flags) []
  | hardLinkCount {f} : Call img (.file f) (done f.hardLinkCount) []
  | sequenceNumber {f} : Call img (.file f) (done f.sequenceNumber) []
  | isDirectory {f} : Call img (.file f) (done f.isDirectory) []
  | fileDataSize {f} : Call img (.file f) (done f.dataSize) []
  | fileAllocatedSize {f} : Call img (.file f) (done f.allocatedSize) []
  | attributesRaw {f} : Call img (.file f) (done f.attributesRaw) (gives f.attributesRaw fun it => [.rawIter it])
  | attributes {f} : Call img (.file f) (done f.attributes) (gives f.attributes fun it => [.iter it])
  | data {f asked d} (fuel : Nat) : MayAsk f.ntfs asked → d.img = img →
      Call img (.file f) (done (f.dataItem asked fuel d).1)
        (gives (f.dataItem asked fuel d).1 fun o => o.toList.map .item)
  | findAttribute {f d} (ty : AttrType) (name : Option (List Nat)) (fuel : Nat) : d.img = img →
      Call img (.file f) (done (f.findAttribute ty name fuel d).1)
        (gives (f.findAttribute ty name fuel d).1 fun i => [.item i])
  | findResident {f} (ty : AttrType) (name : Option (List Nat)) (i : Option Nat) :
      Call img (.file f) (done (f.findResidentAttribute ty name i))
        (gives (f.findResidentAttribute ty name i) fun a => [.attr a])
  | fileName {f d} (ns : Option Namespace) (parent : Option Nat) (fuel : Nat) : d.img = img →
      Call img (.file f) (done (f.fileName ns parent fuel d).1)
        (gives (f.fileName ns parent fuel d).1 fun o => o.toList.map .name)
  | info {f} : Call img (.file f) (done f.info) []
  | directoryIndex {f d} (fuel : Nat) : d.img = img → Call img (.file f) (done (f.directoryIndex fuel d).1)
      (gives (f.directoryIndex fuel d).1 fun ix => [.index ix])
  -- attributes
  | rawNext {it} (r : Res Attr) : it.next.1 = some r →
      Call img (.rawIter it) (done r) (.rawIter it.next.2 :: gives r fun a => [.attr a])
  | next {it d} : d.img = img → Call img (.iter it) (done (Attrs.next (it, d)).1)
      (.iter (Attrs.next (it, d)).2.1 :: gives (Attrs.next (it, d)).1 fun o => o.toList.map .item)
  | toAttribute {i} : Call img (.item i) (done i.toAttribute) (gives i.toAttribute fun a => [.attr a])
  | ty {a} : Call img (.attr a) (done a.ty) []
  | attrName {a} : Call img (.attr a) (done a.name) []
  | inst {a} : Call img (.attr a) (done a.inst) []
  | attrFlags {a} : Call img (.attr a) (done a.flags) []
  | isResident {a} : Call img (.attr a) (done a.isResident) []
  | attributeLength {a} : Call img (.attr a) (done a.attributeLength) []
  | valueLength {a} : Call img (.attr a) (done a.valueLength) []
  | value {a d} : d.img = img → Call img (.attr a) (done (a.value d).1) (gives (a.value d).1 fun v => [.value v])
  | attributeList {a d} : d.img = img → Call img (.attr a) (done (a.attributeList d).1)
      (gives (a.attributeList d).1 fun l => [.list l])
  | structured {a d} {α : Type} {S : Structured α} : Decoder S → d.img = img →
      Call img (.attr a) (done (a.structuredValue S d).1) []
  | structuredName {a d} : d.img = img → Call img (.attr a) (done (a.structuredValue FileName.structured d).1)
      (gives (a.structuredValue FileName.structured d).1 fun f => [.name f])
  | residentStructured {a} {α : Type} {S : Structured α} : Decoder S →
      Call img (.attr a) (done (a.residentStructuredValue S)) []
  | indexRoot {a d} : d.img = img → Call img (.attr a) (done (a.indexRoot d).1)
      (gives (a.indexRoot d).1 fun r => [.root r])
  | residentIndexRoot {a} : Call img (.attr a) (done a.residentIndexRoot)
      (gives a.residentIndexRoot fun r => [.root r])
  | indexAllocation {a d} : d.img = img → Call img (.attr a) (done (a.indexAllocation d).1)
      (gives (a.indexAllocation d).1 fun x => [.allocation x])
  | namespace' {f} : Call img (.name f) (done f.namespace') []
  -- values
  | read {v d} (buf : Bytes) : d.img = img → Call img (.value v) (done (v.read buf d).1) [.value (v.read buf d).2.1]
  | readExact {v d} (buf : Bytes) : d.img = img → Call img (.value v) (done (v.readExact buf d).1)
      [.value (v.readExact buf d).2.1.1]
  | seek {v d} {pos : SeekFrom} : pos.InRange → d.img = img → Call img (.value v) (done (v.seek pos d).1)
      [.value (v.seek pos d).2.1]
  | dataRuns {v : NonRes} : Call img (.value (.simple (.nonRes v))) (.ok ()) [.runs v.dataRuns]
  | runsNext {r} (x : Res DataRun) : r.next.1 = some x →
      Call img (.runs r) (done x) (.runs r.next.2 :: gives x fun y => [.run y])
  | runRead {r d} (buf : Bytes) : d.img = img → Call img (.run r) (done (r.read buf d).1) [.run (r.read buf d).2.1]
  | runSeek {r} {pos : SeekFrom} : pos.InRange → Call img (.run r) (done (r.seek pos).1) [.run (r.seek pos).2]
  -- attribute lists
  | listNext {l d} : d.img = img → Call img (.list l) (done (AttrList.next (l, d)).1)
      (.list (AttrList.next (l, d)).2.1 :: gives (AttrList.next (l, d)).1 fun o => o.toList.map .entry)
  | entryTy {e} : Call img (.entry e) (done e.ty) []
  | entryFile {e m d} : d.img = img → Call img (.both (.entry e) (.volume m)) (done (e.toFile m d).1)
      (gives (e.toFile m d).1 fun f => [.file f])
  | entryAttribute {e f} : f.number = e.ref.fileRecordNumber →
      Call img (.both (.entry e) (.file f)) (done (e.toAttribute f)) (gives (e.toAttribute f) fun a => [.attr a])
  -- indexes
  | rootEntries {r} : Call img (.root r) (done r.entries) (gives r.entries fun it => [.node it])
  | isLarge {r} : Call img (.root r) (done r.isLarge) []
  | recordSize {r} : Call img (.root r) (done r.recordSize) []
  | rootDataSize {r} : Call img (.root r) (done r.dataSize) []
  | rootAllocatedSize {r} : Call img (.root r) (done r.allocatedSize) []
  | recordFromVcn {x d} (size : Nat) (vcn : Int) : 37 ≤ size → size < 65536 → d.img = img →
      Call img (.allocation x) (done (x.recordFromVcn size vcn d).1)
        (gives (x.recordFromVcn size vcn d).1 fun r => [.record r])
  | records {x} (size : Nat) : 37 ≤ size → size < 65536 →
      Call img (.allocation x) (.ok ()) [.records (x.records size)]
  | recordsNext {it d} : d.img = img → Call img (.records it) (done (IndexRecords.next (it, d)).1)
      (.records (IndexRecords.next (it, d)).2.1 ::
        gives (IndexRecords.next (it, d)).1 fun o => o.toList.map .record)
  | recordEntries {r} : Call img (.record r) (done r.entries) (gives r.entries fun it => [.node it])
  | hasSubnodes {r} : Call img (.record r) (done r.hasSubnodes) []
  | recordVcn {r} : Call img (.record r) (done r.vcn) []
  | recordDataSize {r} : Call img (.record r) (done r.dataSize) []
  | recordAllocatedSize {r} : Call img (.record r) (done r.allocatedSize) []
  | nodeNext {it} : Call img (.node it) (done (NodeEntries.next it).1)
      (.node (NodeEntries.next it).2 :: gives (NodeEntries.next it).1 fun o => o.toList.map .indexEntry)
  | entryLength {e} : Call img (.indexEntry e) (done e.length) []
  | keyLength {e} : Call img (.indexEntry e) (done e.keyLength) []
  | entryFlags {e} : Call img (.indexEntry e) (done e.flags) []
  | entryDataOffset {e} : Call img (.indexEntry e) (done e.dataOffset) []
  | entryDataLength {e} : Call img (.indexEntry e) (done e.dataLength) []
  | fileReference {e} : Call img (.indexEntry e) (done e.fileReference) []
  | subnodeVcn {e} : Call img (.indexEntry e) (done e.subnodeVcn) []
  | key {e} : Call img (.indexEntry e) (done (e.key FileName.keyFromSlice))
      (gives (e.key FileName.keyFromSlice) fun o => o.toList.map .name)
  | otherKey {e} {κ : Type} {kf : Bytes → Pos → Res κ} : (∀ b p x, kf b p ≠ .panic x) →
      Call img (.indexEntry e) (done (e.key kf)) []
  | entryData {e} {κ : Type} {kf : Bytes → Pos → Res κ} : (∀ b p x, kf b p ≠ .panic x) →
      Call img (.indexEntry e) (done (e.data kf)) []
  | indexEntryFile {e m d} : d.img = img → Call img (.both (.indexEntry e) (.volume m)) (done (e.toFile m d).1)
      (gives (e.toFile m d).1 fun f => [.file f])
  | indexOfRoot {i} : Call img (.item i) (done (Index.new i none)) (gives (Index.new i none) fun ix => [.index ix])
  | index {i j} : Call img (.both (.item i) (.item j)) (done (Index.new i (some j)))
      (gives (Index.new i (some j)) fun ix => [.index ix])
  | entries {ix} : Call img (.index ix) (.ok ()) [.traversal ix (IndexEntries.new ix)]
  | traversalNext {ix it d} (fuel : Nat) : d.img = img →
      Call img (.traversal ix it) (done (IndexEntries.next ix fuel (it, d)).1)
        (.traversal ix (IndexEntries.next ix fuel (it, d)).2.1 ::
          gives (IndexEntries.next ix fuel (it, d)).1 fun o => o.toList.map .indexEntry)
  | find {ix d} {κ : Type} {kf : Bytes → Pos → Res κ} {cmp : κ → Res Ordering} (fuel : Nat) :
      (∀ b p x, kf b p ≠ .panic x) → (∀ k x, cmp k ≠ .panic x) → d.img = img →
      Call img (.index ix) (done (ix.find kf cmp fuel d).1)
        (gives (ix.find kf cmp fuel d).1 fun o => o.toList.map .indexEntry)
  | findName {ix m d} {name : List Nat} (fuel : Nat) : m.upcaseTable ≠ none → (∀ x ∈ name, x < 65536) → d.img = img →
      Call img (.both (.index ix) (.volume m)) (done (ix.findName m name fuel d).1)
        (gives (ix.findName m name fuel d).1 fun o => o.toList.map .indexEntry)
  -- parts of handles
  | first {h h'} : Call img (.both h h') (.ok ()) [h]
  | itemOfIndex {ix i} : ix.allocationItem = some i → Call img (.index ix) (.ok ()) [.item i]
  | indexOfTraversal {ix it} : Call img (.traversal ix it) (.ok ()) [.index ix]
  | allocationOfRecords {it} : Call img (.records it) (.ok ()) [.allocation it.allocation]
  | moved {x d} {pos : SeekFrom} : pos.InRange → d.img = img →
      Call img (.allocation x) (.ok ()) (gives (IndexAllocation.seekTo x.value pos d).1 fun v => [.allocation { x with value := v }])

/-- What a program can have got hold of, starting from the volume `n`, with readers over `img`. -/
inductive Obtained (n : Ntfs) (img : Bytes) : Handle → Prop
  | volume : Obtained n img (.volume n)
  | both {h h'} : Obtained n img h → Obtained n img h' → Obtained n img (.both h h')
  | call {h r hs h'} : Obtained n img h → Call img h r hs → h' ∈ hs → Obtained n img h'

/-- Every index record that a program can come across is well-formed as far as `NodeOk` says: the bytes that a value of
an index allocation delivers, if they have the signature of an index record and its update sequence is right. -/
def NodesOk (n : Ntfs) (img : Bytes) : Prop :=
  ∀ x size d b d', Obtained n img (.allocation x) → 37 ≤ size → size < 65536 → d.img = img →
    x.value.readInto size d = (.ok b, d') → b.take 4 = [0x49, 0x4E, 0x44, 0x58] →
    ∀ p r, (Record.mk b p).fixup = .ok r → NodeOk r.data

end Use

open Spec

namespace Use

/-- What the proof keeps about a handle. What depends on index records is only known under `B`. -/
def Handle.Tame (B : Prop) (n : Vol) : Handle → Prop
  | .volume m => n.ntfs.Like m
  | .file f => f.Tame n
  | .rawIter it => it.Tame n
  | .iter it => it.Tame n
  | .item i => i.Tame n
  | .attr a => a.Tame n
  | .value v => v.Tame n
  | .runs r => r.Tame
  | .run r => r.Tame
  | .list l => l.Tame
  | .entry _ => True
  | .name f => f.Tame
  | .root r => r.Tame
  | .allocation x => x.Tame n
  | .records it => it.Tame n
  | .record r => B → r.Tame
  | .node it => B → it.Tame
  | .indexEntry e => B → e.Good
  | .index ix => ix.Tame n
  | .traversal ix it => ix.Tame n ∧ (B → StacksGood it.inner it.following)
  | .both h h' => h.Tame B n ∧ h'.Tame B n

/-- A call that goes well. -/
def Fine (B : Prop) (n : Vol) (r : Res Unit) (hs : List Handle) : Prop :=
  (B → r.NoPanic) ∧ ∀ h ∈ hs, h.Tame B n

variable {B : Prop} {n : Vol}

theorem done_noPanic {α : Type} {q : Res α} (h : q.NoPanic) : (done q).NoPanic :=
  h.bind fun _ _ => Res.noPanic_ok _

theorem Fine.none {α : Type} {q : Res α} (h : B → q.NoPanic) : Fine B n (done q) [] :=
  ⟨fun b => done_noPanic (h b), fun _ h => (nomatch h)⟩

theorem Fine.some {α : Type} {q : Res α} {f : α → List Handle} (hp : B → q.NoPanic)
    (hv : ∀ a, q = .ok a → ∀ h ∈ f a, h.Tame B n) : Fine B n (done q) (gives q f) := by
  refine ⟨fun b => done_noPanic (hp b), fun h hh => ?_⟩
  cases q with
  | ok a => exact hv a rfl h hh
  | err e => cases hh
  | panic p => cases hh
  | diverge => cases hh

theorem Fine.one {α : Type} {q : Res α} {f : α → Handle} (hp : B → q.NoPanic)
    (hv : ∀ a, q = .ok a → (f a).Tame B n) : Fine B n (done q) (gives q fun a => [f a]) :=
  .some hp fun a e h hh => by rw [List.mem_singleton] at hh; subst hh; exact hv a e

theorem Fine.opt {α : Type} {q : Res (Option α)} {f : α → Handle} (hp : B → q.NoPanic)
    (hv : ∀ a, q = .ok (Option.some a) → (f a).Tame B n) :
    Fine B n (done q) (gives q fun o => o.toList.map f) :=
  .some hp fun o e h hh => by
    cases o with
    | none => cases hh
    | some a => rw [Option.toList_some, List.map_singleton, List.mem_singleton] at hh; subst hh; exact hv a e

theorem Fine.also {r : Res Unit} {h : Handle} {hs : List Handle} (hh : h.Tame B n) (hf : Fine B n r hs) :
    Fine B n r (h :: hs) :=
  ⟨hf.1, fun x hx => by
    rcases List.mem_cons.1 hx with rfl | hx
    · exact hh
    · exact hf.2 x hx⟩

theorem Fine.self {α : Type} {q : Res α} {h : Handle} (hp : B → q.NoPanic) (hh : h.Tame B n) : Fine B n (done q) [h] :=
  .also hh (.none hp)

theorem Fine.made {h : Handle} (hh : h.Tame B n) : Fine B n (.ok ()) [h] := .self (q := .ok ()) (fun _ => Res.noPanic_ok _) hh

theorem Decoder.tame {α : Type} {S : Structured α} (h : Decoder S) : S.Tame fun _ => True := by
  have key : ∀ {α : Type} {S : Structured α} {Q : α → Prop}, S.Tame Q → S.Tame fun _ => True :=
    fun h σ I re hr p len => (h σ I re hr p len).weaken fun _ _ => trivial
  cases h with
  | standardInformation => exact StdInfo.structured_tame
  | fileName => exact key FileName.structured_tame
  | volumeInformation => exact VolumeInfo.structured_tame
  | volumeName => exact VolumeName.structured_tame
  | objectId => exact ObjectId.structured_tame

/-- The values of the allocations that a program can get hold of. -/
def Reached (n : Vol) (v : Val) : Prop := ∃ x, Obtained n.ntfs n.img (.allocation x) ∧ x.value = v

theorem NodesOk.reached (h : NodesOk n.ntfs n.img) : n.NodesOk (Reached n) := by
  rintro v size d b d' ⟨x, hx, rfl⟩
  exact h x size d b d' hx

theorem Reached.seekKeeps : n.SeekKeeps (Reached n) := by
  rintro v pos d v' d' ⟨x, hx, rfl⟩ hp hd e
  refine ⟨{ x with value := v' }, .call hx (.moved hp hd) ?_, rfl⟩
  rw [e]
  exact List.mem_singleton.2 rfl

theorem Index.Tame.loads {ix : Index} (H : n.Harmless) (hN : NodesOk n.ntfs n.img) (ho : Obtained n.ntfs n.img (.index ix))
    (h : ix.Tame n) : ix.LoadsGood (Dev.Has n.img) := by
  refine Index.loadsGood H hN.reached Reached.seekKeeps h fun i x d d' hi hd e => ⟨x, ?_, rfl⟩
  have h1 : Obtained n.ntfs n.img (.item i) := .call ho (.itemOfIndex hi) (List.mem_singleton.2 rfl)
  have h2 : Obtained n.ntfs n.img (.attr i.theAttr) := by
    refine .call h1 .toAttribute ?_
    rw [(h.item i hi).toAttribute]
    exact List.mem_singleton.2 rfl
  refine .call h2 (.indexAllocation hd) ?_
  rw [e]
  exact List.mem_singleton.2 rfl

theorem noPanic_any {α : Type} {q : Res α} (h : q.NoPanic) : B → q.NoPanic := fun _ => h

/-- One call on a handle of a harmless volume. -/
theorem Call.fine (H : n.Harmless) (hN : B → NodesOk n.ntfs n.img) {h : Handle} (ho : Obtained n.ntfs n.img h)
    (ht : h.Tame B n) {r : Res Unit} {hs : List Handle} (c : Call n.img h r hs) : Fine B n r hs := by
  cases c with
  | file k hd =>
    have := Ntfs.file_tame H ht k _ hd
    exact .one (fun _ => this.noPanic) fun f e => (this.val f e).1
  | rootDirectory hd =>
    have := Ntfs.file_tame H ht 5 _ hd
    exact .one (fun _ => this.noPanic) fun f e => (this.val f e).1
  | refFile r hd =>
    have := Ntfs.file_tame H ht r.fileRecordNumber _ hd
    exact .one (fun _ => this.noPanic) fun f e => (this.val f e).1
  | volumeInfo hd => exact .none fun _ => (Ntfs.volumeInfo_tame H ht _ hd).noPanic
  | volumeName hd => exact .none fun _ => (Ntfs.volumeName_tame H ht _ hd).noPanic
  | readUpcaseTable fuel hd =>
    have := Ntfs.readUpcaseTable_tame H ht fuel _ hd
    exact .one (fun _ => this.noPanic) fun f e => this.val f e
  | fileFlags =>
    have := NFile.Tame.min ht
    exact .none fun _ => .bind (readLE_noPanic (by omega)) fun _ _ => Res.noPanic_ok _
  | hardLinkCount =>
    have := NFile.Tame.min ht
    exact .none fun _ => readLE_noPanic (by omega)
  | sequenceNumber =>
    have := NFile.Tame.min ht
    exact .none fun _ => readLE_noPanic (by omega)
  | isDirectory =>
    have := NFile.Tame.min ht
    exact .none fun _ => .bind (.bind (readLE_noPanic (by omega)) fun _ _ => Res.noPanic_ok _) fun _ _ =>
      Res.noPanic_ok _
  | fileDataSize =>
    have := NFile.Tame.min ht
    exact .none fun _ => readLE_noPanic (by omega)
  | fileAllocatedSize =>
    have := NFile.Tame.min ht
    exact .none fun _ => readLE_noPanic (by omega)
  | attributesRaw =>
    have := NFile.attributesRaw_tame ht
    exact .one (fun _ => this.1) fun it e => (this.2 it e).1
  | attributes =>
    have := NFile.attributes_tame ht
    exact .one (fun _ => this.1) fun it e => this.2 it e
  | data fuel ha hd =>
    have := NFile.dataItem_tame H ht ha fuel _ hd
    exact .opt (fun _ => this.noPanic) fun i e => this.val _ e i rfl
  | findAttribute ty name fuel hd =>
    have := NFile.findAttribute_tame H ht ty name fuel _ hd
    exact .one (fun _ => this.noPanic) fun i e => this.val i e
  | findResident ty name i =>
    have := NFile.findResident_tame ht ty name i
    exact .one (fun _ => this.1) fun a e => (this.2 a e).1
  | fileName ns parent fuel hd =>
    have := NFile.fileName_tame H ht ns parent fuel _ hd
    exact .opt (fun _ => this.noPanic) fun i e => this.val _ e i rfl
  | info => exact .none fun _ => (NFile.findResidentStructured_tame StdInfo.structured_tame ht Option.none).1
  | directoryIndex fuel hd =>
    have := NFile.directoryIndex_tame H ht fuel _ hd
    exact .one (fun _ => this.noPanic) fun i e => this.val i e
  | rawNext r e =>
    obtain ⟨h1, _, h2⟩ := AttrsRaw.next_tame ht
    exact .also h1 (.one (fun _ => (h2 r e).1) fun a ha => ((h2 r e).2 a ha).1)
  | next hd =>
    have := Attrs.next_tame H (_, _) ⟨ht, hd⟩
    exact .also this.keeps.1 (.opt (fun _ => this.noPanic) fun i e => this.val _ e i rfl)
  | toAttribute =>
    rename_i i
    have e : i.toAttribute = .ok i.theAttr := AttrItem.Tame.toAttribute ht
    rw [e]
    exact .one (fun _ => Res.noPanic_ok _) fun a e => by cases e; exact ht
  | ty => exact .none fun _ => Attr.Tame.ty ht
  | attrName => exact .none fun _ => Attr.Tame.name ht
  | inst => exact .none fun _ => Attr.Tame.inst ht
  | attrFlags =>
    have := (Attr.Tame.valid ht).header
    unfold Attr.HeaderIn at this
    exact .none fun _ => .bind (readLE_noPanic (by omega)) fun _ _ => Res.noPanic_ok _
  | isResident => rw [Attr.Tame.isResident ht]; exact .none fun _ => Res.noPanic_ok _
  | attributeLength =>
    have := (Attr.Tame.valid ht).header
    unfold Attr.HeaderIn at this
    exact .none fun _ => readLE_noPanic (by omega)
  | valueLength => exact .none fun _ => (Attr.Tame.simpleValue_noPanic ht).2
  | value hd =>
    have := Attr.value_tame H ht _ hd
    exact .one (fun _ => this.noPanic) fun i e => this.val i e
  | attributeList hd =>
    have := Attr.attributeList_tame H ht _ hd
    exact .one (fun _ => this.noPanic) fun i e => this.val i e
  | structured hS hd => exact .none fun _ => (Attr.structuredValue_tame hS.tame H ht _ hd).noPanic
  | structuredName hd =>
    have := Attr.structuredValue_tame FileName.structured_tame H ht _ hd
    exact .one (fun _ => this.noPanic) fun i e => this.val i e
  | residentStructured hS => exact .none fun _ => (Attr.residentStructuredValue_tame hS.tame ht).1
  | indexRoot hd =>
    have := Attr.indexRoot_tame H ht _ hd
    exact .one (fun _ => this.noPanic) fun i e => this.val i e
  | residentIndexRoot =>
    have := Attr.residentIndexRoot_tame ht
    exact .one (fun _ => this.1) this.2
  | indexAllocation hd =>
    have := Attr.indexAllocation_tame H ht _ hd
    exact .one (fun _ => this.noPanic) fun i e => this.val i e
  | namespace' => exact .none fun _ => FileName.Tame.namespace' ht
  | read buf hd =>
    obtain ⟨h1, h2, _⟩ := Val.read_tame H (_, _) buf ⟨ht, hd⟩
    exact .self (fun _ => h1) h2.1
  | readExact buf hd =>
    obtain ⟨h1, h2, _⟩ := Val.readExact_tame H ht buf hd
    exact .self (fun _ => h1) h2.1
  | seek hp hd =>
    have := Val.seek_tame H ht hp hd
    exact .self (fun _ => this.noPanic) this.keeps.1
  | dataRuns => exact .made ⟨show (0 : Nat) < U64 by decide, NonRes.Bounded.fresh ht⟩
  | runsNext x e =>
    exact .also (DataRuns.Tame.next ht) (.one (fun _ => DataRuns.next_noPanic (DataRuns.Tame.lcn ht) x e)
      fun y hy p hp => DataRuns.Tame.fit ht 0 y p (e.trans (congrArg Option.some hy)) hp)
  | runRead buf hd => exact .self (fun _ => (DataRun.Tame.read ht buf _).1) (DataRun.Tame.read ht buf _).2
  | runSeek hp => exact .self (fun _ => (DataRun.Tame.seek ht _).1) (DataRun.Tame.seek ht _).2
  | listNext hd =>
    have := AttrList.next_tame n.img (_, _) ⟨ht, hd⟩
    exact .also this.keeps.1 (.opt (fun _ => this.noPanic) fun i e => trivial)
  | entryTy => exact .none fun _ => ListEntry.ty_noPanic _
  | entryFile hd =>
    rename_i e m d
    have := Ntfs.file_tame H ht.2 e.ref.fileRecordNumber _ hd
    exact .one (fun _ => this.noPanic) fun f e => (this.val f e).1
  | entryAttribute hn =>
    have := ListEntry.toAttribute_tame ht.2 hn
    exact .one (fun _ => this.1) fun f e => (this.2 f e).1
  | rootEntries =>
    have := IndexRoot.Tame.entries ht
    exact .one (fun _ => this.1) fun it e _ => this.2 it e
  | isLarge => exact .none fun _ => IndexRoot.Tame.isLarge ht
  | recordSize => rw [IndexRoot.Tame.recordSize ht]; exact .none fun _ => Res.noPanic_ok _
  | rootDataSize =>
    have := IndexRoot.Tame.size ht
    exact .none fun _ => readLE_noPanic (by omega)
  | rootAllocatedSize =>
    have := IndexRoot.Tame.size ht
    exact .none fun _ => readLE_noPanic (by omega)
  | recordFromVcn size vcn h1 h2 hd =>
    have := fun b => IndexAllocation.recordFromVcn_tame H (hN b).reached Reached.seekKeeps
      (IndexAllocation.Tame.value ht) ⟨_, ho, rfl⟩ h1 h2 vcn _ hd
    exact .one (fun b => (this b).noPanic) fun i e b => (this b).val i e
  | records size h1 h2 => exact .made ⟨ht, h1, h2⟩
  | recordsNext hd =>
    rename_i it d
    have hr : Reached n it.allocation.value :=
      ⟨it.allocation, .call ho .allocationOfRecords (List.mem_singleton.2 rfl), rfl⟩
    have := fun b => IndexRecords.next_tame H (hN b).reached ht hr hd
    exact .also (IndexRecords.next_keeps H ht hd) (.opt (fun b => (this b).1) fun r e b => (this b).2 _ r e rfl)
  | recordEntries =>
    exact .one (fun b => (IndexRecord.Tame.entries (ht b)).1) fun it e b => (IndexRecord.Tame.entries (ht b)).2 it e
  | hasSubnodes => exact .none fun b => IndexRecord.Tame.hasSubnodes (ht b)
  | recordVcn => exact .none fun b => IndexRecord.Tame.vcn (ht b)
  | recordDataSize => exact .none fun b => readLE_noPanic (by have := IndexRecord.Tame.size (ht b); omega)
  | recordAllocatedSize => exact .none fun b => readLE_noPanic (by have := IndexRecord.Tame.size (ht b); omega)
  | nodeNext =>
    have := fun b => NodeEntries.next_tame _ (ht b)
    exact .also (fun b => (this b).keeps) (.opt (fun b => (this b).noPanic) fun e he b => (this b).val _ he e rfl)
  | entryLength => exact .none fun b => readLE_noPanic (by have := (ht b).1; omega)
  | keyLength => exact .none fun b => readLE_noPanic (by have := (ht b).1; omega)
  | entryFlags =>
    exact .none fun b => .bind (idxByte_noPanic (by have := (ht b).1; omega)) fun _ _ => Res.noPanic_ok _
  | entryDataOffset => exact .none fun b => readLE_noPanic (by have := (ht b).1; omega)
  | entryDataLength => exact .none fun b => readLE_noPanic (by have := (ht b).1; omega)
  | fileReference =>
    exact .none fun b => .bind (idxRange_noPanic (by omega) (by have := (ht b).1; omega)) fun _ _ => Res.noPanic_ok _
  | subnodeVcn =>
    refine .none fun b => ?_
    rw [IEntry.subnodeVcn_eq (ht b).1 (ht b).2]
    exact .ite (fun _ => .ite (fun _ => Res.noPanic_ok _) fun _ => Res.noPanic_err _) fun _ => Res.noPanic_ok _
  | key =>
    refine .opt (fun b => IEntry.Good.key (ht b) fun b p => (FileName.keyFromSlice_tame b p).1) fun f e => ?_
    unfold IEntry.key at e
    obtain ⟨_, _, e⟩ := Res.bind_eq_ok.mp e
    split at e
    · cases e
    obtain ⟨_, _, e⟩ := Res.bind_eq_ok.mp e
    split at e
    · cases e
    obtain ⟨_, _, e⟩ := Res.bind_eq_ok.mp e
    obtain ⟨f', hf, e⟩ := Res.bind_eq_ok.mp e
    cases e
    exact (FileName.keyFromSlice_tame _ _).2 _ hf
  | otherKey hk => exact .none fun b => IEntry.Good.key (ht b) hk
  | entryData hk => exact .none fun b => IEntry.Good.data (ht b) hk
  | indexEntryFile hd =>
    rename_i e m d
    have key : ∀ r : FileRef, StM.Tame (Dev.Has n.img) (r.toFile m) fun f => f.Tame n := fun r =>
      (Ntfs.file_tame H ht.2 r.fileRecordNumber).weaken fun f hf => hf.1
    unfold IEntry.toFile
    rw [StM.bind_apply, StM.lift_apply]
    have hr : B → e.fileReference.NoPanic := fun b =>
      .bind (idxRange_noPanic (by omega) (by have := (ht.1 b).1; omega)) fun _ _ => Res.noPanic_ok _
    cases hf : e.fileReference with
    | ok r => exact .one (fun _ => (key r _ hd).noPanic) fun f e => (key r _ hd).val f e
    | err x => exact .one (fun _ => Res.noPanic_err _) fun f e => (nomatch e)
    | panic p => exact .one (fun b => absurd hf (hr b p)) fun f e => (nomatch e)
    | diverge => exact .one (fun _ => Res.noPanic_diverge) fun f e => (nomatch e)
  | indexOfRoot =>
    have := Index.new_tame (o := Option.none) ht fun x e => (nomatch e)
    exact .one (fun _ => this.1) this.2
  | @index i j =>
    have := Index.new_tame (o := Option.some j) ht.1 fun x e => by cases e; exact ht.2
    exact .one (fun _ => this.1) this.2
  | entries => exact .made ⟨ht, fun _ => .root (Index.Tame.root ht)⟩
  | traversalNext fuel hd =>
    have hi : Obtained n.ntfs n.img (.index _) := .call ho .indexOfTraversal (List.mem_singleton.2 rfl)
    have := fun b => IndexEntries.next_good (Index.Tame.loads H (hN b) hi ht.1) fuel (ht.2 b) hd
    exact .also ⟨ht.1, fun b => (this b).keeps.1⟩ (.opt (fun b => (this b).noPanic) fun e he b => (this b).val _ he e rfl)
  | find fuel hk hc hd =>
    have := fun b => Index.find_good (Index.Tame.loads H (hN b) ho ht) (Index.Tame.root ht) hk hc fuel _ hd
    exact .opt (fun b => (this b).noPanic) fun e he b => (this b).val _ he e rfl
  | @findName ix m d name fuel hl hx hd =>
    have hi : Obtained n.ntfs n.img (.index ix) := .call ho .first (List.mem_singleton.2 rfl)
    have := fun b => Index.find_good (Index.Tame.loads H (hN b) hi ht.1) (Index.Tame.root ht.1)
      (fun b p => (FileName.keyFromSlice_tame b p).1)
      (fun f => upcaseCmp_noPanic ht.2 hl hx (u16s_lt (FileName.name f))) fuel _ hd
    exact .opt (fun b => (this b).noPanic) fun e he b => (this b).val _ he e rfl
  | first => exact .made ht.1
  | itemOfIndex hi => exact .made (Index.Tame.item ht _ hi)
  | indexOfTraversal => exact .made ht.1
  | allocationOfRecords => exact .made (IndexRecords.Tame.allocation ht)
  | @moved x d pos hp hd =>
    have := IndexAllocation.seekTo_tame H (IndexAllocation.Tame.value ht) hp _ hd
    have h2 := Fine.one (B := B) (n := n) (fun _ => this.noPanic) (f := fun v => Handle.allocation { x with value := v })
      fun v e => ⟨this.val v e, IndexAllocation.Tame.src ht⟩
    exact ⟨fun _ => Res.noPanic_ok _, h2.2⟩

theorem Obtained.tame (H : n.Harmless) (hN : B → NodesOk n.ntfs n.img) (ht : n.ntfs.upcaseTable = Option.none) {h : Handle}
    (ho : Obtained n.ntfs n.img h) : h.Tame B n := by
  induction ho with
  | volume => exact .refl fun t e => by rw [ht] at e; cases e
  | both _ _ h1 h2 => exact ⟨h1, h2⟩
  | call ho c hm ih => exact (c.fine H hN ho ih).2 _ hm

end Use

/-- If the records of the files and the index records of a volume have none of the listed malformations, no call on
anything that a program gets hold of panics, whatever the reader does. -/
theorem C80_no_panic {n : Ntfs} {img : Bytes} (ht : n.upcaseTable = none) (H : Harmless n img) (hN : Use.NodesOk n img)
    {h : Use.Handle} (ho : Use.Obtained n img h) {r : Res Unit} {hs : List Use.Handle} (c : Use.Call img h r hs) :
    ∀ x, r ≠ .panic x :=
  (c.fine (n := ⟨n, img⟩) (B := True) H (fun _ => hN) ho (ho.tame (n := ⟨n, img⟩) H (fun _ => hN) ht)).1 trivial

theorem Ntfs.new_upcaseTable {n : Ntfs} {d d' : Dev} (h : Ntfs.new d = (.ok n, d')) : n.upcaseTable = none := by
  unfold Ntfs.new at h
  obtain ⟨_, _, _, h⟩ := StM.bind_ok_iff.mp h
  obtain ⟨b, _, _, h⟩ := StM.bind_ok_iff.mp h
  rw [StM.lift_apply] at h
  injection h with h _
  unfold Ntfs.ofBoot at h
  obtain ⟨_, _, h⟩ := Res.bind_eq_ok.mp h
  obtain ⟨_, _, h⟩ := Res.bind_eq_ok.mp h
  obtain ⟨_, _, h⟩ := Res.bind_eq_ok.mp h
  obtain ⟨_, _, h⟩ := Res.bind_eq_ok.mp h
  obtain ⟨_, _, h⟩ := Res.bind_eq_ok.mp h
  obtain ⟨_, _, h⟩ := Res.bind_eq_ok.mp h
  obtain ⟨_, _, h⟩ := Res.bind_eq_ok.mp h
  cases h
  rfl

/-- The same for a volume that `Ntfs::new` opened. -/
theorem C80_opened {n : Ntfs} {d d' : Dev} (hn : Ntfs.new d = (.ok n, d')) (H : Harmless n d.img)
    (hN : Use.NodesOk n d.img) {h : Use.Handle} (ho : Use.Obtained n d.img h) {r : Res Unit} {hs : List Use.Handle}
    (c : Use.Call d.img h r hs) : ∀ x, r ≠ .panic x :=
  C80_no_panic (Ntfs.new_upcaseTable hn) H hN ho c

/-- On a volume without attributes of the type $INDEX_ALLOCATION there are no index records to be wrong. -/
theorem C80_no_allocation {n : Ntfs} {img : Bytes} (ht : n.upcaseTable = none) (H : Harmless n img)
    (hA : ∀ r, OnDisk n.fileRecordSize img r → ∀ off len, Boundary r.data off → AttrAt r.data off len →
      field r.data off 4 ≠ 0xA0) : Use.NodesOk n img := by
  intro x size d b d' hx
  exfalso
  have h : x.Tame ⟨n, img⟩ := hx.tame (n := ⟨n, img⟩) (B := False) H (fun h => h.elim) ht
  obtain ⟨a, ha, hty⟩ := h.src
  obtain ⟨len, h1⟩ := ha.here
  refine hA _ ha.file.onDisk _ _ ha.bound h1 ?_
  rw [Attr.ty_eq ha.valid.header] at hty
  cases hc : AttrType.ofCode (field a.recordData a.offset 4) with
  | none => rw [hc] at hty; cases hty
  | some t =>
    rw [hc] at hty
    cases hty
    exact AttrType.ofCode_eq_some.1 hc

theorem exDiskTable_unit (k : Nat) (h : k < 65536) :
    field exDiskTable (2 * k) 2 = if 97 ≤ k ∧ k ≤ 122 then k - 32 else k := by
  have h1 := u16s_get exDiskTable k (by rw [exDiskTable_length]; omega)
  rw [u16s_tableOf _ exDiskTable_length, tableOf_exDiskTable, exTable_get k h] at h1
  exact (Option.some.inj h1).symm

/-- The signature of a record does not occur in the upcase table. -/
theorem exDiskTable_noFile (q : Nat) : (exDiskTable.drop q).take 4 ≠ [0x46, 0x49, 0x4C, 0x45] := by
  intro h
  have hl : q + 4 ≤ 131072 := by
    have := congrArg List.length h
    rw [List.length_take, List.length_drop, exDiskTable_length] at this
    simp only [List.length_cons, List.length_nil] at this
    omega
  have hf : ∀ j k, j + k ≤ 4 → field exDiskTable (q + j) k = field [0x46, 0x49, 0x4C, 0x45] j k := fun j k hj => by
    rw [← h, field_take (by omega), field_drop]
  obtain ⟨i, rfl | rfl⟩ : ∃ i, q = 2 * i ∨ q = 2 * i + 1 := ⟨q / 2, by omega⟩
  · have h1 := hf 0 2 (by omega)
    have h2 := hf 2 2 (by omega)
    rw [Nat.add_zero, exDiskTable_unit i (by omega)] at h1
    rw [show 2 * i + 2 = 2 * (i + 1) by omega, exDiskTable_unit (i + 1) (by omega)] at h2
    have e1 : field [0x46, 0x49, 0x4C, 0x45] 0 2 = 0x4946 := by decide
    have e2 : field [0x46, 0x49, 0x4C, 0x45] 2 2 = 0x454C := by decide
    rw [e1] at h1
    rw [e2] at h2
    split at h1 <;> split at h2 <;> omega
  · have h1 := hf 0 1 (by omega)
    have h2 := hf 1 2 (by omega)
    rw [show 2 * i + 1 + 1 = 2 * (i + 1) by omega, exDiskTable_unit (i + 1) (by omega)] at h2
    have e1 : field [0x46, 0x49, 0x4C, 0x45] 0 1 = 0x46 := by decide
    have e2 : field [0x46, 0x49, 0x4C, 0x45] 1 2 = 0x4C49 := by decide
    rw [e1] at h1
    rw [e2] at h2
    have h3 := exDiskTable_unit i (by omega)
    have h4 : field exDiskTable (2 * i) 2 = field exDiskTable (2 * i) 1 + 256 * field exDiskTable (2 * i + 1) 1 := by
      unfold field
      have e : (exDiskTable.drop (2 * i)).take 2 = (exDiskTable.drop (2 * i)).take 1 ++ (exDiskTable.drop (2 * i + 1)).take 1 := by
        rw [show 2 = 1 + 1 from rfl, List.take_add, List.drop_drop]
      rw [e, leNat_append, List.length_take, List.length_drop, exDiskTable_length, Nat.min_eq_left (by omega), Nat.pow_one]
    have h5 : field exDiskTable (2 * i) 1 < 256 := field_lt (by rw [exDiskTable_length]; omega)
    rw [h4, h1] at h3
    split at h2 <;> split at h3 <;> omega

/-- The records of the small volume all lie in front of the table. -/
theorem exDisk_onDisk {r : Record} (h : OnDisk 512 exDisk r) : OnDisk 512 exDiskHead r := by
  obtain ⟨p, h1, h2, h3⟩ := h
  by_cases hp : p + 512 ≤ 4096
  · rw [exDisk_part p 512 hp] at h2 h3
    exact ⟨p, by rw [exDiskHead_length]; exact hp, h2, h3⟩
  rw [List.take_take] at h2
  by_cases hq : p < 4096
  · have : placesOf [0x46] 3585 (exDiskHead.drop 3585) = [] := by decide +kernel
    have hm := mem_placesOf [0x46] (exDiskHead.drop 3585) 3585 (p - 3585)
      (by rw [List.length_drop, exDiskHead_length]; omega) (by
        have h4 := congrArg (List.take 1) h2
        rw [List.take_take, List.drop_drop, show 3585 + (p - 3585) = p by omega] at *
        have h5 := exDisk_part p 1 (by omega)
        simpa [h5] using h4)
    rw [this] at hm
    cases hm
  · have h4 : exDisk.drop p = exDiskTable.drop (p - 4096) := by
      unfold exDisk
      rw [List.drop_append, exDiskHead_length, List.drop_eq_nil_of_le (by rw [exDiskHead_length]; omega), List.nil_append]
    rw [h4] at h2
    exact absurd h2 (exDiskTable_noFile _)

set_option maxRecDepth 20000 in
/-- The small volume is harmless. -/
theorem exDisk_harmless : Harmless exDiskNtfs exDisk ∧ Use.NodesOk exDiskNtfs exDisk := by
  have h : imageOk 512 512 (fun t => t != 0xA0) exDiskHead = true := by decide +kernel
  have hr : ∀ r, OnDisk 512 exDisk r → _ := fun r hr =>
    recordOk_sound (imageOk_sound (by decide) h (exDisk_onDisk hr))
  have H : Harmless exDiskNtfs exDisk := .ofOnDisk (by decide) (by decide) fun r h => (hr r h).1
  exact ⟨H, C80_no_allocation rfl H fun r h off len hb ha => by
    have := (hr r h).2 off len hb ha
    simpa using this⟩

/-- It is opened, and files of it are obtained. -/
example (d : Dev) (hd : d.Ok exDisk) : ∃ d', Ntfs.new d = (.ok exDiskNtfs, d') ∧ d.img = exDisk := by
  obtain ⟨d', h⟩ := (C15_accept_iff d hd.2 exDiskNtfs).2 ⟨exGeometry, by rw [hd.1]; exact exDisk_boot, rfl⟩
  exact ⟨d', h, hd.1⟩

theorem exDisk_obtained : Use.Obtained exDiskNtfs exDisk (.file (exRec exDiskRec5 1024 5 none).base) ∧
    Use.Obtained exDiskNtfs exDisk (.file (exRec exDiskRec12 2560 12 none).base) := by
  have key : ∀ V : View, V.img = exDisk → V.ntfs = exDiskNtfs → ∀ k, RecordOf V k → HasMft V →
      Use.Obtained exDiskNtfs exDisk (.file V.base) := by
    rintro V h1 h2 k h3 h4
    obtain ⟨d', e, _⟩ := h3.load h4 ⟨V.img, 0, []⟩ ⟨rfl, fun _ h => by cases h⟩
    refine .call .volume (.file (d := ⟨V.img, 0, []⟩) k h1) ?_
    rw [← h2, e]
    exact List.mem_singleton.2 rfl
  exact ⟨key _ rfl rfl 5 (exRec_records none).1 (exRec_hasMft _ _ _ _),
    key _ rfl rfl 12 (exRec_records none).2.2.2 (exRec_hasMft _ _ _ _)⟩

/-- So listing the root directory does not panic, at any step and on any device. -/
example {ix : Index} {it : IndexEntries} (h : Use.Obtained exDiskNtfs exDisk (.traversal ix it)) (fuel : Nat) (d : Dev)
    (hd : d.img = exDisk) : ∀ x, (IndexEntries.next ix fuel (it, d)).1 ≠ .panic x := by
  intro x e
  have := C80_no_panic rfl exDisk_harmless.1 exDisk_harmless.2 h (.traversalNext fuel hd) x
  rw [e] at this
  exact this rfl

example {h : Use.Handle} (ho : Use.Obtained exDiskNtfs exDisk h) {r : Res Unit} {hs : List Use.Handle}
    (c : Use.Call exDisk h r hs) : ∀ x, r ≠ .panic x :=
  C80_no_panic rfl exDisk_harmless.1 exDisk_harmless.2 ho c

/-- An index record that satisfies its condition: one entry, and the last one. -/
example : NodeOk ([0x49, 0x4E, 0x44, 0x58, 40, 0, 2, 0] ++ List.replicate 16 0 ++ [40, 0, 0, 0, 72, 0, 0, 0, 232, 1, 0, 0] ++
    List.replicate 28 0 ++ [11, 0, 0, 0, 0, 0, 2, 0, 16, 0, 0, 0, 0, 0, 0, 0] ++
    [0, 0, 0, 0, 0, 0, 0, 0, 16, 0, 0, 0, 2, 0, 0, 0] ++ List.replicate 416 0) :=
  ⟨by decide +kernel, fun _ => by decide +kernel, fun _ _ => by decide +kernel, fun _ _ =>
    lengthsOk_sound (fuel := 10) (by decide +kernel)⟩

end NT
