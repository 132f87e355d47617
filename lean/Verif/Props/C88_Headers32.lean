import Verif.Model.Bits32Index
import Verif.Props.C20_AttributeValues
import Verif.Props.C29_IndexPanics

/-! C88: offsets near 4 GiB in the headers of index nodes and attributes, on a 32-bit target. -/

namespace NT

open Spec

theorem add32_ok (release : Bool) {a b : Nat} (h : a + b < U32) : add32 release a b = .ok (a + b) := if_pos h

theorem add32_panic {a b : Nat} (h : U32 ≤ a + b) : add32 false a b = .panic .overflow := by
  unfold add32
  rw [if_neg (by omega), if_neg Bool.false_ne_true]

theorem add32_wrap {a b : Nat} (h : U32 ≤ a + b) (h2 : a + b < 2 * U32) : add32 true a b = .ok (a + b - U32) := by
  unfold add32
  rw [if_neg (by omega), if_pos rfl, show (a + b) % U32 = a + b - U32 by omega]

theorem IndexRoot.entriesRange32_eq (release : Bool) {r : IndexRoot} (h : 32 ≤ r.slice.length) :
    r.entriesRange32 release = (add32 release 16 (field r.slice 16 4) >>= fun a =>
      add32 release 16 (field r.slice 20 4) >>= fun b => .ok (a, b, Pos.add r.position a)) := by
  unfold IndexRoot.entriesRange32 IndexRoot.entriesOffset IndexRoot.dataSize
  rw [readLE_ok (by omega), readLE_ok (by omega)]
  rfl

theorem IndexRoot.entriesRange32_same (release : Bool) {r : IndexRoot} (h : 32 ≤ r.slice.length)
    (ho : 16 + field r.slice 16 4 < U32) (hu : 16 + field r.slice 20 4 < U32) :
    r.entriesRange32 release = r.entriesRange := by
  rw [IndexRoot.entriesRange32_eq release h, IndexRoot.entriesRange_eq (by omega), add32_ok release ho, add32_ok release hu]
  rfl

/-- **C88**, index roots that a 64-bit target accepts: both builds for a 32-bit target accept them and show the same
entries. -/
theorem C88_root_accepted {b : Bytes} {p : Pos} {r : IndexRoot} (hb : b.length < U32) (h : IndexRoot.new b p = .ok r)
    (release : Bool) :
    IndexRoot.new32 release b p = .ok r ∧ r.entries32 release = r.entries ∧ r.entryRanges32 release = r.entryRanges := by
  have h0 := h
  rw [IndexRoot.new_eq] at h
  split at h
  · cases h
  split at h
  · cases h
  split at h
  · cases h
  rename_i h1 h2 h3
  injection h with h
  subst h
  have hs := IndexRoot.entriesRange32_same release (r := ⟨b, p⟩) (by dsimp only; omega) (by dsimp only; omega)
    (by dsimp only; omega)
  refine ⟨?_, ?_, ?_⟩
  · rw [← h0]
    unfold IndexRoot.new32 IndexRoot.new IndexRoot.validateSizes32 IndexRoot.validateSizes
    dsimp only
    rw [hs]
  · unfold IndexRoot.entries32 IndexRoot.entries
    rw [hs]
  · unfold IndexRoot.entryRanges32 IndexRoot.entryRanges
    rw [hs]

/-- **C88**, index roots that a 64-bit target refuses: a debug build for a 32-bit target refuses them with the same error,
or stops, and that exactly if an offset or a size is within 16 bytes of 4 GiB. It accepts none of them. -/
theorem C88_root_refused_partial {b : Bytes} {p : Pos} {x : Err} (h : IndexRoot.new b p = .err x) :
    if 32 ≤ b.length ∧ (U32 ≤ 16 + field b 16 4 ∨ U32 ≤ 16 + field b 20 4) then
      IndexRoot.new32 false b p = .panic .overflow
    else IndexRoot.new32 false b p = .err x := by
  by_cases h1 : b.length < 32
  · rw [if_neg (by omega), ← h]
    unfold IndexRoot.new32 IndexRoot.new
    rw [if_pos h1, if_pos h1]
  have he := IndexRoot.entriesRange32_eq false (r := ⟨b, p⟩) (by dsimp only; omega)
  dsimp only at he
  by_cases ho : U32 ≤ 16 + field b 16 4
  · rw [if_pos ⟨by omega, .inl ho⟩]
    rw [add32_panic ho] at he
    unfold IndexRoot.new32 IndexRoot.validateSizes32
    dsimp only
    rw [if_neg h1, he]
    rfl
  by_cases hu : U32 ≤ 16 + field b 20 4
  · rw [if_pos ⟨by omega, .inr hu⟩]
    rw [add32_ok false (by omega), add32_panic hu] at he
    unfold IndexRoot.new32 IndexRoot.validateSizes32
    dsimp only
    rw [if_neg h1, he]
    rfl
  · rw [if_neg (by omega), ← h]
    unfold IndexRoot.new32 IndexRoot.new IndexRoot.validateSizes32 IndexRoot.validateSizes
    dsimp only
    rw [IndexRoot.entriesRange32_same false (r := ⟨b, p⟩) (by dsimp only; omega) (by dsimp only; omega)
      (by dsimp only; omega)]

/-- **C88**, what a release build does with such an offset: it takes the bytes of the header, from the place the offset
wraps to, for the entries, where a 64-bit target reports the offset. -/
theorem C88_root_wraps {b : Bytes} {p : Pos} (h1 : 32 ≤ b.length) (hb : b.length < U32)
    (ho : U32 ≤ 16 + field b 16 4) (hu : 16 + field b 20 4 ≤ b.length) :
    IndexRoot.new b p = .err (.invalidIndexRootEntriesOffset p (16 + field b 16 4) b.length) ∧
    16 + field b 16 4 - U32 < 16 ∧
    IndexRoot.new32 true b p = .ok ⟨b, p⟩ ∧
    (IndexRoot.mk b p).entries32 true =
      .ok ⟨(b.drop (16 + field b 16 4 - U32)).take (16 + field b 20 4 - (16 + field b 16 4 - U32)),
        Pos.add p (16 + field b 16 4 - U32)⟩ := by
  have hlt : field b 16 4 < U32 := field_lt (by omega)
  have he := IndexRoot.entriesRange32_eq true (r := ⟨b, p⟩) h1
  dsimp only at he
  rw [add32_wrap ho (by omega), add32_ok true (by omega), Res.bind_ok, Res.bind_ok] at he
  refine ⟨?_, by omega, ?_, ?_⟩
  · rw [IndexRoot.new_eq, if_neg (by omega), if_pos (by omega)]
  · unfold IndexRoot.new32 IndexRoot.validateSizes32
    dsimp only
    rw [if_neg (by omega), he]
    dsimp only [Res.bind_ok]
    rw [if_neg (by omega), if_neg (by omega)]
    rfl
  · unfold IndexRoot.entries32
    rw [he, Res.bind_ok]
    dsimp only
    rw [idxRange_ok (by omega) (by omega)]
    rfl

/-- **C88**, what a release build does with such a size: it accepts the index root and panics when the entries are asked
for, where a 64-bit target reports the size. -/
theorem C88_root_used_wraps {b : Bytes} {p : Pos} (h1 : 32 ≤ b.length) (hb : b.length < U32)
    (ho : 16 + field b 16 4 < b.length) (hu : U32 ≤ 16 + field b 20 4) :
    IndexRoot.new b p = .err (.invalidIndexRootUsedSize p (16 + field b 20 4) b.length) ∧
    IndexRoot.new32 true b p = .ok ⟨b, p⟩ ∧
    (IndexRoot.mk b p).entries32 true = .panic .slice ∧ (IndexRoot.mk b p).entryRanges32 true = .panic .slice := by
  have hlt : field b 20 4 < U32 := field_lt (by omega)
  have he := IndexRoot.entriesRange32_eq true (r := ⟨b, p⟩) h1
  dsimp only at he
  rw [add32_wrap hu (by omega), add32_ok true (by omega), Res.bind_ok, Res.bind_ok] at he
  refine ⟨?_, ?_, ?_, ?_⟩
  · rw [IndexRoot.new_eq, if_neg (by omega), if_neg (by omega), if_pos (by omega)]
  · unfold IndexRoot.new32 IndexRoot.validateSizes32
    dsimp only
    rw [if_neg (by omega), he]
    dsimp only [Res.bind_ok]
    rw [if_neg (by omega), if_neg (by omega)]
    rfl
  · unfold IndexRoot.entries32 idxRange getRange
    rw [he, Res.bind_ok]
    dsimp only
    rw [if_neg (by omega)]
    rfl
  · unfold IndexRoot.entryRanges32 idxRange getRange
    rw [he, Res.bind_ok]
    dsimp only
    rw [if_neg (by omega)]
    rfl

/-- An index root of 32 bytes with the offset 2^32 - 16 and the index record size 32. -/
def exRoot32 : Bytes :=
  [0x30, 0, 0, 0, 1, 0, 0, 0, 32, 0, 0, 0, 0, 0, 0, 0, 0xF0, 0xFF, 0xFF, 0xFF, 16, 0, 0, 0, 16, 0, 0, 0, 0, 0, 0, 0]

/-- **C88 is violated** for index roots: a 64-bit target refuses this one, a debug build for a 32-bit target stops, and a
release build shows the header as an entry. -/
theorem C88_root_negation :
    IndexRoot.new exRoot32 none = .err (.invalidIndexRootEntriesOffset none U32 32) ∧
    IndexRoot.new32 false exRoot32 none = .panic .overflow ∧
    ∃ r it it2, IndexRoot.new32 true exRoot32 none = .ok r ∧ r.entries32 true = .ok it ∧
      NodeEntries.next it = (.ok (some ⟨exRoot32, none⟩), it2) :=
  ⟨by decide +kernel, by decide +kernel, ⟨exRoot32, none⟩, ⟨exRoot32, none⟩, ⟨[], none⟩, by decide +kernel, by decide +kernel,
    by decide +kernel⟩

theorem IndexRecord.entriesRange32_eq (release : Bool) {r : IndexRecord} (h : 40 ≤ r.record.data.length) :
    r.entriesRange32 release = (add32 release 24 (field r.record.data 24 4) >>= fun a =>
      add32 release 24 (field r.record.data 28 4) >>= fun b => .ok (a, b, Pos.add r.record.position a)) := by
  unfold IndexRecord.entriesRange32 IndexRecord.entriesOffset IndexRecord.dataSize
  rw [readLE_ok (by omega), readLE_ok (by omega)]
  rfl

theorem IndexRecord.entriesRange_eq64 {r : IndexRecord} (h : 40 ≤ r.record.data.length) :
    r.entriesRange = .ok (24 + field r.record.data 24 4, 24 + field r.record.data 28 4,
      Pos.add r.record.position (24 + field r.record.data 24 4)) := by
  unfold IndexRecord.entriesRange IndexRecord.entriesOffset IndexRecord.dataSize
  rw [readLE_ok (by omega), readLE_ok (by omega)]
  rfl

/-- **C88**, index records whose offset is not within 24 bytes of 4 GiB: the same entries on both targets. (`new` computes
in `u32` on every target and ensures `hu`.) -/
theorem C88_record_partial (release : Bool) {r : IndexRecord} (h : 40 ≤ r.record.data.length)
    (hl : r.record.data.length < U32) (hu : 24 + field r.record.data 28 4 ≤ r.record.data.length)
    (ho : 24 + field r.record.data 24 4 < U32) :
    r.entries32 release = r.entries ∧ r.intoEntryRanges32 release = r.intoEntryRanges := by
  have he : r.entriesRange32 release = r.entriesRange := by
    rw [IndexRecord.entriesRange32_eq release h, IndexRecord.entriesRange_eq64 h, add32_ok release ho,
      add32_ok release (by omega)]
    rfl
  constructor
  · unfold IndexRecord.entries32 IndexRecord.entries
    rw [he]
  · unfold IndexRecord.intoEntryRanges32 IndexRecord.intoEntryRanges NodeRanges.new
    rw [he, IndexRecord.entriesRange_eq64 h, Res.bind_ok]
    dsimp only [Res.bind_ok]
    rw [if_pos hu]
    cases release <;> rfl

/-- **C88**, index records whose offset is: on a 64-bit target `entries` panics and the iterator inside an index is at its
end. A debug build for a 32-bit target stops in both cases. A release build takes the bytes of the header for the
entries. -/
theorem C88_record_wraps {r : IndexRecord} (h : 40 ≤ r.record.data.length) (hl : r.record.data.length < U32)
    (hu : 24 + field r.record.data 28 4 ≤ r.record.data.length) (ho : U32 ≤ 24 + field r.record.data 24 4) :
    r.entries = .panic .slice ∧ (∃ it, r.intoEntryRanges = .ok it ∧ NodeRanges.next it = (.ok none, it)) ∧
    r.entries32 false = .panic .overflow ∧ r.intoEntryRanges32 false = .panic .overflow ∧
    24 + field r.record.data 24 4 - U32 < 24 ∧
    (24 ≤ field r.record.data 28 4 → r.entries32 true = .ok
      ⟨(r.record.data.drop (24 + field r.record.data 24 4 - U32)).take
        (24 + field r.record.data 28 4 - (24 + field r.record.data 24 4 - U32)),
        Pos.add r.record.position (24 + field r.record.data 24 4 - U32)⟩) ∧
    r.intoEntryRanges32 true = .ok ⟨r.record.data, 24 + field r.record.data 24 4 - U32, 24 + field r.record.data 28 4,
      Pos.add r.record.position (24 + field r.record.data 24 4 - U32)⟩ := by
  have hlt : field r.record.data 24 4 < U32 := field_lt (by omega)
  have e1 := IndexRecord.entriesRange_eq64 h
  have e2 := IndexRecord.entriesRange32_eq false h
  have e3 := IndexRecord.entriesRange32_eq true h
  rw [add32_panic ho] at e2
  rw [add32_wrap ho (by omega), add32_ok true (by omega), Res.bind_ok, Res.bind_ok] at e3
  refine ⟨?_, ⟨⟨r.record.data, 24 + field r.record.data 24 4, 24 + field r.record.data 28 4,
    Pos.add r.record.position (24 + field r.record.data 24 4)⟩, ?_, ?_⟩, ?_, ?_, by omega, ?_, ?_⟩
  · unfold IndexRecord.entries idxRange getRange
    rw [e1, Res.bind_ok]
    dsimp only
    rw [if_neg (by omega)]
    rfl
  · unfold IndexRecord.intoEntryRanges NodeRanges.new
    rw [e1, Res.bind_ok]
    dsimp only
    rw [if_pos hu]
  · unfold NodeRanges.next
    dsimp only
    rw [if_pos (by omega)]
  · unfold IndexRecord.entries32
    rw [e2]
    rfl
  · unfold IndexRecord.intoEntryRanges32
    rw [e2]
    rfl
  · intro _
    unfold IndexRecord.entries32
    rw [e3, Res.bind_ok]
    dsimp only
    rw [idxRange_ok (by omega) (by omega)]
    rfl
  · unfold IndexRecord.intoEntryRanges32
    rw [e3]
    rfl

/-- An index record of 64 bytes with the offset 2^32 - 24 and a sequence number that starts with the length of an entry. -/
def exRecord32 : Bytes :=
  [0x49, 0x4E, 0x44, 0x58, 40, 0, 1, 0, 32, 0, 0, 0, 0, 0, 0, 0] ++ List.replicate 8 0 ++ [0xE8, 0xFF, 0xFF, 0xFF] ++
    [40, 0, 0, 0, 40, 0, 0, 0] ++ List.replicate 28 0

/-- **C88 is violated** for index records: a directory node that is empty on a 64-bit target has an entry in a release
build for a 32-bit target, made of its header. -/
theorem C88_record_negation : ∃ r it it32 it', IndexRecord.ofBytes exRecord32 none = .ok r ∧
    r.intoEntryRanges = .ok it ∧ NodeRanges.next it = (.ok none, it) ∧
    r.intoEntryRanges32 true = .ok it32 ∧ NodeRanges.next it32 = (.ok (some ⟨0, 32, none⟩), it') :=
  ⟨⟨⟨exRecord32, none⟩⟩, ⟨exRecord32, U32, 64, none⟩, ⟨exRecord32, 0, 64, none⟩, ⟨exRecord32, 32, 64, none⟩,
    by decide +kernel, by decide +kernel, by decide +kernel, by decide +kernel, by decide +kernel⟩

/-- **C88** for attributes: their length has been compared with what is left of the record, so no sum of offsets and lengths
(`src/attribute.rs:296-297`, 359-360) reaches 4 GiB for records that are smaller by 64 KiB. -/
theorem C88_attribute {f : NFile} {off : Nat} {l : Option AttrList} {a : Attr} (h : Attr.new f off l = .ok a)
    (hl : f.recordData.length + 65536 ≤ U32) :
    (∀ n, a.attributeLength = .ok n → a.offset + n < U32) ∧
    (∀ n, a.nonResidentValueDataRunsOffset = .ok n → a.offset + n < U32) ∧
    (∀ o n, a.validateResidentValueSizes = .ok () → a.residentValueOffset = .ok o → a.residentValueLength = .ok n →
      a.offset + o + n < U32) := by
  obtain ⟨rfl, hv⟩ := Attr.new_ok_iff.mp h
  have hi := hv.inside
  have hm := hv.min
  dsimp only [Attr.recordData] at hi hm
  have hlen : ∀ n, (Attr.mk f off l).attributeLength = .ok n → n = field f.recordData (off + 4) 4 := by
    intro n hn
    unfold Attr.attributeLength at hn
    rw [readLE_ok (by have := hv.header; unfold Attr.HeaderIn at this; dsimp only [Attr.recordData] at this ⊢; omega)] at hn
    injection hn with hn
    exact hn.symm
  refine ⟨?_, ?_, ?_⟩
  · intro n hn
    dsimp only
    rw [hlen n hn]
    omega
  · intro n hn
    dsimp only
    unfold Attr.nonResidentValueDataRunsOffset at hn
    obtain ⟨_, _, hn⟩ := Res.bind_eq_ok.mp hn
    have := readLE_lt hn
    omega
  · intro o n hs ho hn
    dsimp only
    unfold Attr.validateResidentValueSizes at hs
    obtain ⟨_, _, hs⟩ := Res.bind_eq_ok.mp hs
    obtain ⟨len, h1, hs⟩ := Res.bind_eq_ok.mp hs
    rw [ho, Res.bind_ok] at hs
    split at hs
    · cases hs
    rw [hn, Res.bind_ok] at hs
    split at hs
    · split at hs
      · cases hs
      · have := hlen len h1
        omega
    · cases hs

/-! ### Examples -/

/-- An index root of 48 bytes with the last entry only. -/
def exGoodRoot32 : Bytes :=
  [0x30, 0, 0, 0, 1, 0, 0, 0, 0, 16, 0, 0, 1, 0, 0, 0, 16, 0, 0, 0, 32, 0, 0, 0, 32, 0, 0, 0, 0, 0, 0, 0] ++
    [0, 0, 0, 0, 0, 0, 0, 0, 16, 0, 0, 0, 2, 0, 0, 0]

example (release : Bool) : IndexRoot.new32 release exGoodRoot32 (some 7) = .ok ⟨exGoodRoot32, some 7⟩ :=
  (C88_root_accepted (by decide) (by decide +kernel) release).1

example : IndexRoot.new32 false exRoot32 none = .panic .overflow := by
  have h := C88_root_refused_partial (b := exRoot32) (p := none) (x := .invalidIndexRootEntriesOffset none U32 32)
    (by decide +kernel)
  rwa [if_pos (by decide +kernel)] at h

/-- An offset that is out of range and far from 4 GiB: the same error. -/
example : IndexRoot.new32 false (exGoodRoot32.set 17 1) none = .err (.invalidIndexRootEntriesOffset none 288 48) := by
  have h := C88_root_refused_partial (b := exGoodRoot32.set 17 1) (p := none)
    (x := .invalidIndexRootEntriesOffset none 288 48) (by decide +kernel)
  rwa [if_neg (by decide +kernel)] at h

example : (IndexRoot.mk exRoot32 none).entries32 true = .ok ⟨exRoot32, none⟩ :=
  (C88_root_wraps (b := exRoot32) (p := none) (by decide) (by decide) (by decide +kernel) (by decide +kernel)).2.2.2

/-- The root with the size 2^32 - 1. -/
example : (IndexRoot.mk (exGoodRoot32.take 20 ++ [255, 255, 255, 255] ++ exGoodRoot32.drop 24) none).entries32 true =
    .panic .slice :=
  (C88_root_used_wraps (by decide) (by decide) (by decide +kernel) (by decide +kernel)).2.2.1

example (release : Bool) :
    (IndexRecord.mk ⟨exIndexHead [8, 0, 0, 0] [16, 0, 0, 0] [16, 0, 0, 0], some 1⟩).entries32 release =
      (IndexRecord.mk ⟨exIndexHead [8, 0, 0, 0] [16, 0, 0, 0] [16, 0, 0, 0], some 1⟩).entries :=
  (C88_record_partial release (by decide) (by decide) (by decide +kernel) (by decide +kernel)).1

example : (IndexRecord.mk ⟨exRecord32, none⟩).entries = .panic .slice :=
  (C88_record_wraps (by decide) (by decide) (by decide +kernel) (by decide +kernel)).1

example := C88_attribute (f := ⟨exNtfs, ⟨exRecord 112, some 512⟩, 7⟩) (off := 80) (l := none)
  (a := ⟨⟨exNtfs, ⟨exRecord 112, some 512⟩, 7⟩, 80, none⟩) (by decide +kernel) (by decide +kernel)

end NT
