import Verif.Lemmas.ReturnsOps
import Verif.Props.C59_Example

/-! C70: every call comes back. Whatever is on the image, however the reader splits, interrupts and fails its calls, and
whatever a program did before: opening a volume, reading files, attributes, attribute lists, values and the nodes of an
index takes finitely many steps. Only the two searches through an index can go on forever (C27). -/

namespace NT

namespace Spec

/-- Things that the crate hands out. -/
inductive Handle
  | volume (n : Ntfs)
  | file (f : NFile)
  | attributesRaw (it : AttrsRaw)
  | attributes (it : Attrs)
  | item (i : AttrItem)
  | attr (a : Attr)
  | value (v : Val)
  | list (l : AttrList)
  | entry (e : ListEntry)
  | index (ix : Index)
  | allocation (x : IndexAllocation)
  | records (it : IndexRecords)

/-- What a program can have got hold of. Every call may be made on another device, in any state, and the handle it
leaves behind can be used further, whatever the outcome. -/
inductive Obtained : Handle → Prop
  | volume {d n d'} : Ntfs.new d = (.ok n, d') → Obtained (.volume n)
  | upcase {n fuel d n' d'} : Obtained (.volume n) → n.readUpcaseTable fuel d = (.ok n', d') → Obtained (.volume n')
  | file {n k d f d'} : Obtained (.volume n) → n.file k d = (.ok f, d') → Obtained (.file f)
  | attributesRaw {f it} : Obtained (.file f) → f.attributesRaw = .ok it → Obtained (.attributesRaw it)
  | afterRaw {it} : Obtained (.attributesRaw it) → Obtained (.attributesRaw it.next.2)
  | rawAttr {it a} : Obtained (.attributesRaw it) → it.next.1 = some (.ok a) → Obtained (.attr a)
  | attributes {f it} : Obtained (.file f) → f.attributes = .ok it → Obtained (.attributes it)
  | afterAttribute {it d} : Obtained (.attributes it) → Obtained (.attributes (Attrs.next (it, d)).2.1)
  | item {it d i} : Obtained (.attributes it) → (Attrs.next (it, d)).1 = .ok (some i) → Obtained (.item i)
  | found {f ty name fuel d i d'} : Obtained (.file f) → f.findAttribute ty name fuel d = (.ok i, d') →
      Obtained (.item i)
  | data {f name fuel d i d'} : Obtained (.file f) → f.dataItem name fuel d = (.ok (some i), d') → Obtained (.item i)
  | resident {f ty name i a} : Obtained (.file f) → f.findResidentAttribute ty name i = .ok a → Obtained (.attr a)
  | attr {i a} : Obtained (.item i) → i.toAttribute = .ok a → Obtained (.attr a)
  | value {a d v d'} : Obtained (.attr a) → a.value d = (.ok v, d') → Obtained (.value v)
  | afterRead {v buf d} : Obtained (.value v) → Obtained (.value (v.read buf d).2.1)
  | afterReadExact {v buf d} : Obtained (.value v) → Obtained (.value (v.readExact buf d).2.1.1)
  | afterSeek {v pos d} : Obtained (.value v) → Obtained (.value (v.seek pos d).2.1)
  | list {a d l d'} : Obtained (.attr a) → a.attributeList d = (.ok l, d') → Obtained (.list l)
  | afterEntry {l d} : Obtained (.list l) → Obtained (.list (AttrList.next (l, d)).2.1)
  | entry {l d e} : Obtained (.list l) → (AttrList.next (l, d)).1 = .ok (some e) → Obtained (.entry e)
  | entryFile {e n d f d'} : Obtained (.entry e) → Obtained (.volume n) → e.toFile n d = (.ok f, d') →
      Obtained (.file f)
  | entryAttr {e f a} : Obtained (.entry e) → Obtained (.file f) → e.toAttribute f = .ok a → Obtained (.attr a)
  | directory {f fuel d ix d'} : Obtained (.file f) → f.directoryIndex fuel d = (.ok ix, d') → Obtained (.index ix)
  | index {r o ix} : Obtained (.item r) → (∀ i, o = some i → Obtained (.item i)) → Index.new r o = .ok ix →
      Obtained (.index ix)
  | allocation {a d x d'} : Obtained (.attr a) → a.indexAllocation d = (.ok x, d') → Obtained (.allocation x)
  | records {x n} : Obtained (.allocation x) → Obtained (.records (x.records n))
  | afterRecord {it d} : Obtained (.records it) → Obtained (.records (IndexRecords.next (it, d)).2.1)

/-- The calls that make up a run through the attributes of a file: `given` attributes come back, and calls that fail in
between do not count. Each call may meet another device. -/
inductive Given (it : Attrs) : Nat → Attrs → Prop
  | start : Given it 0 it
  | one {n it1 d i} : Given it n it1 → (Attrs.next (it1, d)).1 = .ok (some i) →
      Given it (n + 1) (Attrs.next (it1, d)).2.1
  | other {n it1} (d : Dev) : Given it n it1 → Given it n (Attrs.next (it1, d)).2.1

end Spec

open Spec

/-- What the proof keeps about a handle. -/
def Spec.Handle.Sane : Handle → Prop
  | .volume n => n.fileRecordSize < U32
  | .file f => f.recordData.length < U32
  | .attributesRaw _ => True
  | .attributes it => it.Sane ∧ it.left < 2 ^ 97
  | .item i => i.Sane
  | .attr a => a.Sane
  | .value v => v.Sane
  | .list l => l.Sane
  | .entry _ => True
  | .index ix => ix.Sane
  | .allocation x => x.value.Sane
  | .records it => it.allocation.value.Sane

theorem AttrsRaw.next_list {it : AttrsRaw} {a : Attr} (h : it.next.1 = some (.ok a)) : a.list = none := by
  rcases it.next_cases with ⟨_, e⟩ | ⟨len, ha, e⟩ | ⟨_, _, e⟩ <;> rw [e] at h <;> cases h
  rfl

theorem Val.read_returns {v : Val} (hv : v.Sane) (buf : Bytes) (d : Dev) :
    (v.read buf d).1.Returns ∧ (v.read buf d).2.1.Sane := by
  have h := Val.readFn_returns v d buf hv
  exact ⟨h.1, h.2.1⟩

theorem NFile.findResidentAttribute_list {f : NFile} {ty : AttrType} {name : Option (List Nat)} {i : Option Nat}
    {a : Attr} (h : f.findResidentAttribute ty name i = .ok a) : a.list = none := by
  have key : ∀ (fuel : Nat) (it : AttrsRaw), AttrsRaw.find ty name i fuel it = .ok a → a.list = none := by
    intro fuel
    induction fuel with
    | zero => intro it h; cases h
    | succ fuel ih =>
      intro it h
      unfold AttrsRaw.find at h
      generalize hn : it.next = q at h
      obtain ⟨r, it'⟩ := q
      cases r with
      | none => cases h
      | some r =>
        obtain ⟨b, hb, h⟩ := Res.bind_eq_ok.1 h
        obtain ⟨t, _, h⟩ := Res.bind_eq_ok.1 h
        split at h
        · exact ih _ h
        · obtain ⟨_, _, h⟩ := Res.bind_eq_ok.1 h
          split at h
          · exact ih _ h
          · obtain ⟨_, _, h⟩ := Res.bind_eq_ok.1 h
            split at h
            · exact ih _ h
            · cases h
              exact AttrsRaw.next_list (it := it) (by rw [hn, hb])
  obtain ⟨it, _, h⟩ := Res.bind_eq_ok.1 h
  exact key _ _ h

/-- Few enough attributes for every record. -/
theorem NFile.attributes_left {f : NFile} {it : Attrs} (h : f.attributes = .ok it) :
    it.left < attrBound f.recordData.length := by
  obtain ⟨_, h2, h3⟩ := NFile.attributes_sane h
  unfold Attrs.left attrBound
  rw [h2, h3]
  have : (f.recordData.length - it.raw.start) * (U64 + f.recordData.length + 1) ≤
      f.recordData.length * (U64 + f.recordData.length + 1) := Nat.mul_le_mul_right _ (Nat.sub_le _ _)
  omega

theorem ListEntry.toAttribute_list {e : ListEntry} {f : NFile} {a : Attr} (h : e.toAttribute f = .ok a) :
    a.list = none := by
  unfold ListEntry.toAttribute at h
  split at h
  · obtain ⟨_, _, h⟩ := Res.bind_eq_ok.1 h
    exact NFile.findResidentAttribute_list h
  · cases h

theorem Spec.Obtained.sane {h : Handle} (ho : Obtained h) : h.Sane := by
  induction ho with
  | volume h => exact Ntfs.new_comes.2 _ _ _ h
  | upcase _ h ih =>
    obtain ⟨t, d1, _, h⟩ := StM.bind_ok h
    cases h
    exact ih
  | file _ h ih =>
    show _ < U32
    rw [Ntfs.file_size h]
    exact ih
  | attributesRaw _ _ _ => trivial
  | afterRaw _ _ => trivial
  | rawAttr _ h _ => intro l hl; rw [AttrsRaw.next_list h] at hl; cases hl
  | attributes _ h ih =>
    obtain ⟨h1, _, _⟩ := NFile.attributes_sane h
    exact ⟨h1, Nat.lt_of_lt_of_le (NFile.attributes_left h) (attrBound_le ih)⟩
  | @afterAttribute it d _ ih =>
    obtain ⟨_, h2, _, h3, _⟩ := Attrs.next_returns ih.1 d
    exact ⟨h2, Nat.lt_of_le_of_lt h3 ih.2⟩
  | @item it d i _ h ih => exact ((Attrs.next_returns ih.1 d).2.2.2.2 i h).1
  | found _ h _ => exact NFile.findAttribute_sane h
  | data _ h _ => exact NFile.dataItem_sane h
  | resident _ h _ => intro l hl; rw [NFile.findResidentAttribute_list h] at hl; cases hl
  | attr _ h ih => exact (AttrItem.toAttribute_returns ih).2 _ h
  | value _ h ih => exact (Attr.value_comes ih).2 _ _ _ h
  | @afterRead v buf d _ ih => exact (Val.read_returns ih buf d).2
  | @afterReadExact v buf d _ ih => exact (Val.readExact_returns ih buf d).2.1
  | @afterSeek v pos d _ ih => exact (Val.seek_returns ih pos d).2
  | list _ h ih => exact (Attr.attributeList_comes ih).2 _ _ _ h
  | @afterEntry l d _ ih => exact (AttrList.next_returns ih d).2.2.1
  | entry _ _ _ => trivial
  | entryFile _ _ h _ ih =>
    show _ < U32
    rw [Ntfs.file_size h]
    exact ih
  | entryAttr _ _ h _ _ => intro l hl; rw [ListEntry.toAttribute_list h] at hl; cases hl
  | directory _ h _ => exact NFile.directoryIndex_sane h
  | index _ _ h ih1 ih2 => exact (Index.new_returns ih1 ih2).2 _ h
  | allocation _ h ih => exact (Attr.indexAllocation_comes ih).2 _ _ _ h
  | records _ ih => exact ih
  | @afterRecord it d _ ih => exact (IndexRecords.next_returns ih d).2

/-- **C70**: opening a volume comes back, and so does everything that is asked of the volume. -/
theorem C70_volume :
    (∀ d, (Ntfs.new d).1 ≠ .diverge) ∧
    ∀ n, Obtained (.volume n) → ∀ d,
      (∀ k, (n.file k d).1 ≠ .diverge) ∧ (n.rootDirectory d).1 ≠ .diverge ∧ (n.volumeInfo d).1 ≠ .diverge ∧
      (n.volumeName d).1 ≠ .diverge ∧ ∀ fuel, 2 ^ 97 ≤ fuel → (n.readUpcaseTable fuel d).1 ≠ .diverge := by
  refine ⟨Ntfs.new_comes.1, fun n hn d => ⟨fun k => (Ntfs.file_fine n k d).1, (Ntfs.file_fine n 5 d).1,
    ?_, n.volumeName_comes d, fun fuel hf => n.readUpcaseTable_comes (Nat.le_trans (attrBound_le hn.sane) hf) d⟩⟩
  exact StM.Comes.bind (Ntfs.file_fine n 3).comes (fun f _ _ _ =>
    .lift (NFile.findResidentStructured_returns VolumeInfo.structured_comes f none)) d

/-- **C70**: every lookup in a file comes back. The loops over the attributes make fewer than 2^97 rounds. -/
theorem C70_file (f : NFile) (hf : Obtained (.file f)) :
    f.attributesRaw ≠ .diverge ∧ f.attributes ≠ .diverge ∧ f.info ≠ .diverge ∧
    (∀ ty name i, f.findResidentAttribute ty name i ≠ .diverge) ∧
    ∀ fuel, 2 ^ 97 ≤ fuel → ∀ d,
      (∀ name, (f.dataItem name fuel d).1 ≠ .diverge) ∧
      (∀ ty name, (f.findAttribute ty name fuel d).1 ≠ .diverge) ∧
      (∀ ns parent, (f.fileName ns parent fuel d).1 ≠ .diverge) ∧ (f.directoryIndex fuel d).1 ≠ .diverge := by
  refine ⟨f.attributesRaw_returns, f.attributes_returns,
    NFile.findResidentStructured_returns StdInfo.structured_comes f none,
    fun _ _ _ => NFile.findResidentAttribute_returns _ _ _ _, fun fuel h d => ?_⟩
  have h' := Nat.le_trans (attrBound_le hf.sane) h
  exact ⟨fun _ => f.dataItem_comes _ h' d, fun _ _ => f.findAttribute_comes _ _ h' d,
    fun _ _ => f.fileName_comes _ _ h' d, f.directoryIndex_comes h' d⟩

/-- **C70**: every step of the iterator over the attributes comes back, and the iteration ends: there are fewer than
2^97 attributes, even if calls fail in between and even if each call meets another device. -/
theorem C70_attributes (it : Attrs) (h : Obtained (.attributes it)) :
    (∀ d, (Attrs.next (it, d)).1 ≠ .diverge) ∧ (∀ n it', Given it n it' → n < 2 ^ 97) := by
  have hs := h.sane
  refine ⟨fun d => (Attrs.next_returns hs.1 d).1, fun n it' hg => ?_⟩
  have key : it'.Sane ∧ n + it'.left ≤ it.left := by
    induction hg with
    | start => exact ⟨hs.1, by omega⟩
    | @one n it1 d i _ hi ih =>
      obtain ⟨_, h2, _, _, h5⟩ := Attrs.next_returns ih.1 d
      exact ⟨h2, by have := (h5 i hi).2; omega⟩
    | @other n it1 d _ ih =>
      obtain ⟨_, h2, _, h4, _⟩ := Attrs.next_returns ih.1 d
      exact ⟨h2, by omega⟩
  have := hs.2
  omega

/-- **C70**: steps of the iterator over the attributes of the record alone, of attribute lists and of index records come
back; so does everything that can be asked of an entry of an attribute list. -/
theorem C70_iterators :
    (∀ it, Obtained (.attributesRaw it) → it.next.1 ≠ some .diverge) ∧
    (∀ l, Obtained (.list l) → ∀ d, (AttrList.next (l, d)).1 ≠ .diverge) ∧
    (∀ e, Obtained (.entry e) → e.ty ≠ .diverge ∧ (∀ n d, (e.toFile n d).1 ≠ .diverge) ∧
      ∀ f, e.toAttribute f ≠ .diverge) ∧
    (∀ it, Obtained (.records it) → ∀ d, (IndexRecords.next (it, d)).1 ≠ .diverge) := by
  refine ⟨fun it _ h => AttrsRaw.next_returns it _ h rfl, fun l h d => (AttrList.next_returns h.sane d).1,
    fun e _ => ⟨e.ty_returns, fun n d => (Ntfs.file_fine n _ d).1, fun f => e.toAttribute_returns f⟩,
    fun it h d => (IndexRecords.next_returns h.sane d).1⟩

/-- **C70**: everything that can be asked of an attribute comes back. -/
theorem C70_attribute :
    (∀ i, Obtained (.item i) → i.toAttribute ≠ .diverge) ∧
    ∀ a, Obtained (.attr a) →
      a.ty ≠ .diverge ∧ a.name ≠ .diverge ∧ a.valueLength ≠ .diverge ∧ a.isResident ≠ .diverge ∧
      a.residentStructuredValue StdInfo.structured ≠ .diverge ∧
      a.residentStructuredValue FileName.structured ≠ .diverge ∧
      a.residentStructuredValue VolumeInfo.structured ≠ .diverge ∧
      a.residentStructuredValue VolumeName.structured ≠ .diverge ∧
      a.residentStructuredValue ObjectId.structured ≠ .diverge ∧ a.residentIndexRoot ≠ .diverge ∧
      ∀ d, (a.value d).1 ≠ .diverge ∧ (a.attributeList d).1 ≠ .diverge ∧ (a.indexRoot d).1 ≠ .diverge ∧
        (a.indexAllocation d).1 ≠ .diverge ∧
        (a.structuredValue StdInfo.structured d).1 ≠ .diverge ∧
        (a.structuredValue FileName.structured d).1 ≠ .diverge ∧
        (a.structuredValue VolumeInfo.structured d).1 ≠ .diverge ∧
        (a.structuredValue VolumeName.structured d).1 ≠ .diverge ∧
        (a.structuredValue ObjectId.structured d).1 ≠ .diverge := by
  refine ⟨fun i h => (AttrItem.toAttribute_returns h.sane).1, fun a ha => ⟨a.ty_returns, a.name_returns,
    a.valueLength_returns, a.isResident_returns, a.residentStructuredValue_returns StdInfo.structured_comes,
    a.residentStructuredValue_returns FileName.structured_comes,
    a.residentStructuredValue_returns VolumeInfo.structured_comes,
    a.residentStructuredValue_returns VolumeName.structured_comes,
    a.residentStructuredValue_returns ObjectId.structured_comes, a.residentIndexRoot_returns, fun d => ?_⟩⟩
  have h := ha.sane
  exact ⟨(Attr.value_comes h).1 d, (Attr.attributeList_comes h).1 d, Attr.indexRoot_comes h d,
    (Attr.indexAllocation_comes h).1 d, a.structuredValue_comes StdInfo.structured_comes h d,
    a.structuredValue_comes FileName.structured_comes h d, a.structuredValue_comes VolumeInfo.structured_comes h d,
    a.structuredValue_comes VolumeName.structured_comes h d, a.structuredValue_comes ObjectId.structured_comes h d⟩

/-- **C70**: `read`, `read_exact` and `seek` on any value come back, in whatever state earlier calls left it. -/
theorem C70_value (v : Val) (h : Obtained (.value v)) (d : Dev) :
    (∀ buf, (v.read buf d).1 ≠ .diverge) ∧ (∀ buf, (v.readExact buf d).1 ≠ .diverge) ∧
      ∀ pos, (v.seek pos d).1 ≠ .diverge :=
  ⟨fun buf => (Val.read_returns h.sane buf d).1, fun buf => (Val.readExact_returns h.sane buf d).1,
    fun pos => (Val.seek_returns h.sane pos d).1⟩

/-- **C70**: reading one node of an index comes back. -/
theorem C70_index :
    (∀ r o, Obtained (.item r) → (∀ i, o = some i → Obtained (.item i)) → Index.new r o ≠ .diverge) ∧
    (∀ ix, Obtained (.index ix) → ∀ vcn d, (ix.subnode vcn d).1 ≠ .diverge) ∧
    (∀ x, Obtained (.allocation x) → ∀ n vcn d, (x.recordFromVcn n vcn d).1 ≠ .diverge) :=
  ⟨fun _ _ hr ho => (Index.new_returns hr.sane fun i hi => (ho i hi).sane).1, fun _ h vcn d => Index.subnode_comes h.sane vcn d,
    fun _ h n vcn d => IndexAllocation.recordFromVcn_comes h.sane n vcn d⟩

/-- The file with the upcase table of the example volume can be got hold of. -/
theorem exUpcase_obtained : Obtained (.file exUpcase.base) := by
  obtain ⟨d1, e1, hd1⟩ := Ntfs.new_ok exDisk_boot ⟨exDisk, 0, []⟩ ⟨rfl, fun _ h => by cases h⟩
  obtain ⟨d2, e2, _⟩ := ((exRec_records none).2.1).load (exRec_hasMft _ _ _ _) d1 hd1
  exact .file (.volume e1) e2

theorem exUpcase_attributes : exUpcase.base.attributes = .ok ⟨⟨exUpcase.base, 56, 136⟩, none, none⟩ := by
  decide +kernel

/-- Its attributes, and the value of the table, with a seek to the middle behind it. -/
example : ∃ it it' i v, Obtained (.attributes it) ∧ Given it 1 it' ∧ Obtained (.item i) ∧ Obtained (.value v) ∧
    v.streamPosition = 70000 ∧ v.len = 131072 := by
  have ha := Obtained.attributes exUpcase_obtained exUpcase_attributes
  have hi : (Attrs.next (⟨⟨exUpcase.base, 56, 136⟩, none, none⟩, ⟨[], 0, []⟩)).1 =
    .ok (some ⟨exUpcase.base, none, 56, none⟩) := by decide +kernel
  have ht : AttrItem.toAttribute ⟨exUpcase.base, none, 56, none⟩ = .ok ⟨exUpcase.base, 56, none⟩ := by decide +kernel
  have hv : (match Attr.simpleValue ⟨exUpcase.base, 56, none⟩ with
      | .ok v => [(Val.seek (.simple v) (.start 70000) ⟨[], 0, []⟩).2.1.streamPosition,
        (Val.seek (.simple v) (.start 70000) ⟨[], 0, []⟩).2.1.len]
      | _ => []) = [70000, 131072] := by decide +kernel
  cases hs : Attr.simpleValue ⟨exUpcase.base, 56, none⟩ with
  | ok v =>
    rw [hs] at hv
    simp only [List.cons.injEq, and_true] at hv
    refine ⟨_, _, _, _, ha, .one .start hi, .item ha hi, .afterSeek (pos := .start 70000) (d := ⟨[], 0, []⟩)
      (.value (d := ⟨[], 0, []⟩) (v := .simple v) (d' := ⟨[], 0, []⟩) (.attr (.item ha hi) ht) ?_), hv.1, hv.2⟩
    show (StM.lift (Attr.simpleValue ⟨exUpcase.base, 56, none⟩) >>= _) _ = _
    rw [hs]
    rfl
  | err e => rw [hs] at hv; cases hv
  | panic e => rw [hs] at hv; cases hv
  | diverge => rw [hs] at hv; cases hv

end NT
