import Verif.Props.C26_IndexFind
import Verif.Spec.Harmless

namespace NT

open Spec

/-- The outcome is not a panic. -/
def Res.NoPanic {α : Type} (r : Res α) : Prop := ∀ p, r ≠ .panic p

theorem Res.Safe.noPanic {α : Type} {r : Res α} (h : r.Safe) : r.NoPanic := by
  intro p hp; rw [hp] at h; exact h

theorem Res.noPanic_ok {α : Type} (a : α) : (Res.ok a).NoPanic := fun _ h => by cases h
theorem Res.noPanic_err {α : Type} (e : Err) : (Res.err e : Res α).NoPanic := fun _ h => by cases h
theorem Res.noPanic_diverge {α : Type} : (Res.diverge : Res α).NoPanic := fun _ h => by cases h

/-! ### Index roots -/

theorem IndexRoot.entriesRange_eq {r : IndexRoot} (h : 24 ≤ r.slice.length) :
    r.entriesRange = .ok (16 + field r.slice 16 4, 16 + field r.slice 20 4,
      Pos.add r.position (16 + field r.slice 16 4)) := by
  unfold IndexRoot.entriesRange IndexRoot.entriesOffset IndexRoot.dataSize
  rw [readLE_ok (n := 4) (a := 16) (by omega), readLE_ok (n := 4) (a := 20) (by omega)]
  rfl

/-- `NtfsIndexRoot::new`, in terms of the bytes. -/
theorem IndexRoot.new_eq (b : Bytes) (p : Pos) :
    IndexRoot.new b p =
      if b.length < 32 then .err (.invalidStructuredValueSize p .indexRoot 16 b.length)
      else if b.length ≤ 16 + field b 16 4 then
        .err (.invalidIndexRootEntriesOffset p (16 + field b 16 4) b.length)
      else if b.length < 16 + field b 20 4 then
        .err (.invalidIndexRootUsedSize p (16 + field b 20 4) b.length)
      else .ok ⟨b, p⟩ := by
  unfold IndexRoot.new
  split
  · rfl
  rename_i h
  unfold IndexRoot.validateSizes
  dsimp only
  rw [IndexRoot.entriesRange_eq (r := ⟨b, p⟩) (by dsimp only; omega), Res.bind_ok]
  dsimp only
  split
  · rfl
  split
  · rfl
  · rfl

/-- **C29**, decoding an index root: no bytes make it panic, and the other accessors of the root
do not panic either. -/
theorem C29_root (b : Bytes) (p : Pos) :
    (IndexRoot.new b p).Safe ∧ ∀ r, IndexRoot.new b p = .ok r →
      r.recordSize.Safe ∧ r.isLarge.Safe ∧ r.entriesOffset.Safe ∧ r.dataSize.Safe ∧
        r.allocatedSize.Safe := by
  constructor
  · rw [IndexRoot.new_eq]
    repeat (first | trivial | split)
  · intro r h
    rw [IndexRoot.new_eq] at h
    split at h
    · cases h
    split at h
    · cases h
    split at h
    · cases h
    cases h
    rename_i h1 h2 h3
    unfold IndexRoot.recordSize IndexRoot.isLarge IndexRoot.entriesOffset IndexRoot.dataSize
      IndexRoot.allocatedSize
    dsimp only
    rw [readLE_ok (n := 4) (a := 8) (by omega), readLE_ok (n := 4) (a := 16) (by omega),
      readLE_ok (n := 4) (a := 20) (by omega), readLE_ok (n := 4) (a := 24) (by omega),
      idxByte_field (by omega)]
    exact ⟨trivial, trivial, trivial, trivial, trivial⟩

/-- **C29**, the entries of an index root: reading them panics exactly when the offset of the entries
is larger than the used size. -/
theorem C29_root_entries_partial {b : Bytes} {p : Pos} {r : IndexRoot} (h : IndexRoot.new b p = .ok r) :
    (¬ r.entries.Safe ↔ field b 20 4 < field b 16 4) ∧
      (¬ r.entryRanges.Safe ↔ field b 20 4 < field b 16 4) := by
  rw [IndexRoot.new_eq] at h
  split at h
  · cases h
  split at h
  · cases h
  split at h
  · cases h
  cases h
  rename_i h1 h2 h3
  unfold IndexRoot.entries IndexRoot.entryRanges
  rw [IndexRoot.entriesRange_eq (r := ⟨b, p⟩) (by dsimp only; omega), Res.bind_ok, Res.bind_ok]
  dsimp only
  by_cases ho : field b 20 4 < field b 16 4
  · have : idxRange b (16 + field b 16 4) (16 + field b 20 4) = .panic .slice := by
      unfold idxRange getRange
      rw [if_neg (by omega)]
    rw [this]
    simp [ho]
  · rw [idxRange_ok (by omega) (by omega)]
    simp only [Res.bind_ok]
    unfold NodeRanges.new
    rw [if_pos (Nat.le_refl _)]
    simp [ho]

/-- **C29, negation** for index roots: 32 bytes that are accepted but whose entries panic. -/
theorem C29_root_negation :
    ∃ b r, IndexRoot.new b (some 1) = .ok r ∧ r.entries = .panic .slice ∧
      r.entryRanges = .panic .slice := by
  refine ⟨List.replicate 16 0 ++ [8, 0, 0, 0, 4, 0, 0, 0] ++ List.replicate 8 0, _, rfl, ?_, ?_⟩ <;>
    decide

/-! ### Index records -/

/-- **C29**, decoding an index record of at least 36 bytes: it panics exactly when the update
sequence panics (C14), or one of the size fields overflows 32 bits. -/
theorem C29_record_partial (b : Bytes) (p : Pos) (h : 36 ≤ b.length) :
    ¬ (IndexRecord.ofBytes b p).Safe ↔
      b.take 4 = [0x49, 0x4E, 0x44, 0x58] ∧
        (¬ (Record.mk b p).fixup.Safe ∨ ∃ d, (Record.mk b p).fixup = .ok ⟨d, p⟩ ∧
          (U32 ≤ 24 + field d 32 4 ∨ 24 + field d 32 4 ≤ b.length ∧ U32 ≤ 24 + field d 28 4)) := by
  rw [IndexRecord.ofBytes_eq b p (by omega)]
  by_cases hs : b.take 4 = [0x49, 0x4E, 0x44, 0x58]
  case neg => rw [if_pos hs]; simp [hs]
  rw [if_neg (by simpa using hs)]
  cases hf : (Record.mk b p).fixup with
  | ok r =>
    obtain ⟨d, q⟩ := r
    have hl := Record.fixup_length hf
    dsimp only at hl
    obtain ⟨hl, rfl⟩ := hl
    rw [Res.bind_ok]
    rw [IndexRecord.validateSizes_eq _ (by dsimp only; omega)]
    dsimp only
    have e1 : ¬ (Res.ok (Record.mk d q)).Safe ↔ False := by simp
    rw [e1]
    constructor
    · intro hn
      refine ⟨hs, .inr ⟨d, rfl, ?_⟩⟩
      by_cases h1 : 24 + field d 32 4 < U32
      case neg => left; omega
      rw [if_neg (by simpa using h1)] at hn
      split at hn
      · exact (hn trivial).elim
      split at hn
      · right; omega
      split at hn
      · exact (hn trivial).elim
      · exact (hn trivial).elim
    · rintro ⟨_, hh | ⟨d', hd', hh⟩⟩
      · exact hh.elim
      cases hd'
      rcases hh with hh | ⟨h1, h2⟩
      · rw [if_pos (by omega)]; exact id
      · by_cases h3 : 24 + field d 32 4 < U32
        · rw [if_neg (by simpa using h3), if_neg (by omega), if_pos (by omega)]; exact id
        · rw [if_pos h3]; exact id
  | err e => simp
  | panic e => simp [hs]
  | diverge => simp [hs]

/-- What a successfully decoded index record guarantees. -/
theorem IndexRecord.ofBytes_ok {b : Bytes} {p : Pos} {r : IndexRecord} (h : 36 ≤ b.length)
    (hr : IndexRecord.ofBytes b p = .ok r) :
    r.record.data.length = b.length ∧ r.record.position = p ∧
      24 + field r.record.data 28 4 ≤ 24 + field r.record.data 32 4 ∧
      24 + field r.record.data 32 4 ≤ b.length := by
  rw [IndexRecord.ofBytes_eq b p (by omega)] at hr
  split at hr
  · cases hr
  rw [Res.bind_eq_ok] at hr
  obtain ⟨x, hf, hr⟩ := hr
  have hl := Record.fixup_length hf
  dsimp only at hl
  rw [Res.bind_eq_ok] at hr
  obtain ⟨u, hv, hr⟩ := hr
  cases hr
  rw [IndexRecord.validateSizes_eq _ (by dsimp only; omega)] at hv
  dsimp only at hv ⊢
  refine ⟨hl.1, hl.2, ?_⟩
  split at hv
  · cases hv
  split at hv
  · cases hv
  split at hv
  · cases hv
  split at hv
  · cases hv
  omega

/-- **C29**, the accessors of an index record of at least 37 bytes: `entries` panics exactly when the
offset of the entries is larger than the used size, the others never do. -/
theorem C29_record_accessors_partial {b : Bytes} {p : Pos} {r : IndexRecord} (h : 37 ≤ b.length)
    (hr : IndexRecord.ofBytes b p = .ok r) :
    (¬ r.entries.Safe ↔ field r.record.data 28 4 < field r.record.data 24 4) ∧
      r.intoEntryRanges.Safe ∧ r.vcn.Safe ∧ r.hasSubnodes.Safe ∧ r.allocatedSize.Safe ∧
      r.dataSize.Safe ∧ r.entriesOffset.Safe := by
  obtain ⟨hl, _, h1, h2⟩ := IndexRecord.ofBytes_ok (by omega) hr
  refine ⟨?_, ?_, ?_, ?_, ?_, ?_, ?_⟩
  · unfold IndexRecord.entries IndexRecord.entriesRange IndexRecord.entriesOffset IndexRecord.dataSize
    rw [readLE_ok (n := 4) (a := 24) (by omega), readLE_ok (n := 4) (a := 28) (by omega)]
    simp only [Res.bind_ok, Res.pure_eq]
    by_cases ho : field r.record.data 28 4 < field r.record.data 24 4
    · have : idxRange r.record.data (24 + field r.record.data 24 4) (24 + field r.record.data 28 4) =
          .panic .slice := by
        unfold idxRange getRange
        rw [if_neg (by omega)]
      rw [this]
      simp [ho]
    · rw [idxRange_ok (by omega) (by omega)]
      simp [ho]
  · rw [IndexRecord.intoEntryRanges_eq (by omega) (by omega)]; trivial
  · rw [IndexRecord.vcn_eq (by omega)]; trivial
  · unfold IndexRecord.hasSubnodes
    rw [idxByte_field (by omega)]; trivial
  · unfold IndexRecord.allocatedSize; rw [readLE_ok (n := 4) (a := 32) (by omega)]; trivial
  · unfold IndexRecord.dataSize; rw [readLE_ok (n := 4) (a := 28) (by omega)]; trivial
  · unfold IndexRecord.entriesOffset; rw [readLE_ok (n := 4) (a := 24) (by omega)]; trivial

/-! ### Nodes -/

/-- **C29**, one step over the entries of a node: it panics exactly when there is room for the header
of an entry whose length is below 13. -/
theorem C29_node_step_partial (it : NodeEntries) :
    ¬ it.next.1.Safe ↔ 16 ≤ it.slice.length ∧ field it.slice 8 2 < 13 := by
  unfold NodeEntries.next
  by_cases he : it.slice.isEmpty
  · rw [if_pos he]
    have : it.slice.length = 0 := by rw [List.isEmpty_iff.1 he]; rfl
    simp; omega
  rw [if_neg he]
  unfold NodeEntries.step
  rw [IEntry.new_eq]
  by_cases h1 : it.slice.length < 16
  · rw [if_pos h1]; simp; omega
  rw [if_neg h1]
  by_cases h2 : field it.slice 8 2 > it.slice.length
  · rw [if_pos h2]; simp; omega
  rw [if_neg h2, Res.bind_ok]
  have hl : (it.slice.take (field it.slice 8 2)).length = field it.slice 8 2 := by
    rw [List.length_take]; omega
  by_cases h3 : field it.slice 8 2 < 13
  · have : IEntry.isLast ⟨it.slice.take (field it.slice 8 2), it.position⟩ = .panic .slice := by
      unfold IEntry.isLast IEntry.flags idxByte
      dsimp only
      rw [List.getElem?_eq_none (by omega)]
      rfl
    rw [this]
    simp; omega
  · rw [IEntry.isLast_eq (by dsimp only; omega), Res.bind_ok]
    cases field (List.take (field it.slice 8 2) it.slice) 12 1 / 2 % 2 == 1 with
    | true => rw [if_pos rfl]; simp; omega
    | false =>
      rw [if_neg (by decide), IEntry.length_eq (by dsimp only; omega), Res.bind_ok]
      dsimp only
      rw [field_take (by omega), idxRange_ok (by omega) (Nat.le_refl _)]
      simp; omega

/-- A node whose entries can be read without a panic. -/
def NodeRanges.Good (it : NodeRanges) : Prop :=
  it.stop ≤ it.data.length ∧ LengthsOk it.data it.stop it.start

/-- The range of an entry inside of a node. -/
def EntryRange.Good (r : EntryRange) (d : Bytes) : Prop :=
  r.start + 13 ≤ r.stop ∧ r.stop ≤ d.length ∧ field d (r.start + 8) 2 = r.stop - r.start

/-- An entry all of whose accessors are safe. -/
def IEntry.Good (e : IEntry) : Prop := 13 ≤ e.slice.length ∧ field e.slice 8 2 = e.slice.length

/-- `next` on a node, in terms of the bytes. -/
theorem NodeRanges.next_eq (it : NodeRanges) (hs : it.stop ≤ it.data.length) :
    it.next =
      if it.stop ≤ it.start then (.ok none, it)
      else if it.data.length < it.start + 16 then
        (.err (.invalidIndexEntrySize it.position 16 ((it.data.length - it.start) % U16)), it)
      else if it.data.length < it.start + field it.data (it.start + 8) 2 then
        (.err (.invalidIndexEntrySize it.position (field it.data (it.start + 8) 2)
          ((it.data.length - it.start) % U16)), it)
      else if field it.data (it.start + 8) 2 < 10 then (.panic .slice, it)
      else if field it.data (it.start + 8) 2 < 13 then (.panic .slice, it)
      else (.ok (some ⟨it.start, it.start + field it.data (it.start + 8) 2, it.position⟩),
        if field it.data (it.start + 12) 1 / 2 % 2 = 1 then { it with start := it.data.length }
        else { it with start := it.start + field it.data (it.start + 8) 2,
                       position := Pos.add it.position (field it.data (it.start + 8) 2) }) := by
  unfold NodeRanges.next
  by_cases h0 : it.stop ≤ it.start
  · rw [if_pos h0, if_pos (by omega)]
  rw [if_neg h0, if_neg (by omega)]
  unfold NodeRanges.step
  rw [idxRange_ok (by omega) (Nat.le_refl _), Res.bind_ok, List.take_of_length_le (by simp), IEntry.new_eq]
  rw [List.length_drop, field_drop]
  by_cases h1 : it.data.length < it.start + 16
  · rw [if_pos (show it.data.length - it.start < 16 by omega), if_pos h1]; rfl
  rw [if_neg (show ¬ it.data.length - it.start < 16 by omega), if_neg h1]
  by_cases h2 : it.data.length < it.start + field it.data (it.start + 8) 2
  · rw [if_pos (show field it.data (it.start + 8) 2 > it.data.length - it.start by omega), if_pos h2]; rfl
  rw [if_neg (show ¬ field it.data (it.start + 8) 2 > it.data.length - it.start by omega), if_neg h2,
    Res.bind_ok]
  have hl : ((it.data.drop it.start).take (field it.data (it.start + 8) 2)).length =
      field it.data (it.start + 8) 2 := by
    rw [List.length_take, List.length_drop]; omega
  by_cases h3 : field it.data (it.start + 8) 2 < 10
  · have : IEntry.length ⟨(it.data.drop it.start).take (field it.data (it.start + 8) 2), it.position⟩ =
        .panic .slice := by
      unfold IEntry.length readLE
      dsimp only
      rw [hl, if_neg (by omega)]
    rw [if_pos h3, this]
    rfl
  rw [if_neg h3, IEntry.length_eq (by dsimp only; omega), Res.bind_ok]
  dsimp only
  by_cases h4 : field it.data (it.start + 8) 2 < 13
  · have : IEntry.isLast ⟨(it.data.drop it.start).take (field it.data (it.start + 8) 2), it.position⟩ =
        .panic .slice := by
      unfold IEntry.isLast IEntry.flags idxByte
      dsimp only
      rw [List.getElem?_eq_none (by omega)]
      rfl
    rw [if_pos h4, this]
    rfl
  rw [if_neg h4, IEntry.isLast_eq (by dsimp only; omega), Res.bind_ok]
  dsimp only
  rw [field_take (by omega), field_take (by omega), field_drop, field_drop]
  by_cases h5 : field it.data (it.start + 12) 1 / 2 % 2 = 1
  · rw [if_pos h5, h5]; rfl
  · rw [if_neg h5]
    have : (field it.data (it.start + 12) 1 / 2 % 2 == 1) = false := by simpa using h5
    rw [this]; rfl

theorem NodeRanges.Good.next {it it' : NodeRanges} {r : Res (Option EntryRange)} (h : it.Good)
    (hn : it.next = (r, it')) :
    r.Safe ∧ it'.Good ∧ it'.data = it.data ∧ ∀ x, r = .ok (some x) → x.Good it.data := by
  obtain ⟨hs, hl⟩ := h
  have hkeep : ∀ x : EntryRange, (Res.ok none : Res (Option EntryRange)) = .ok (some x) → x.Good it.data :=
    fun x hx => by cases hx
  have hkeep2 : ∀ (e : Err) (x : EntryRange),
    (Res.err e : Res (Option EntryRange)) = .ok (some x) → x.Good it.data := fun e x hx => by cases hx
  rw [NodeRanges.next_eq it hs] at hn
  split at hn
  · cases hn; exact ⟨trivial, ⟨hs, hl⟩, rfl, hkeep⟩
  rename_i h0
  split at hn
  · cases hn; exact ⟨trivial, ⟨hs, hl⟩, rfl, hkeep2 _⟩
  rename_i h1
  split at hn
  · cases hn; exact ⟨trivial, ⟨hs, hl⟩, rfl, hkeep2 _⟩
  rename_i h2
  have h13 : 13 ≤ field it.data (it.start + 8) 2 := by
    cases hl with
    | done h => omega
    | cut h => omega
    | last h => exact h
    | more h => exact h
  rw [if_neg (by omega), if_neg (by omega)] at hn
  have hrange : ∀ x : EntryRange, (Res.ok (some (EntryRange.mk it.start
      (it.start + field it.data (it.start + 8) 2) it.position)) : Res (Option EntryRange)) = .ok (some x) →
      x.Good it.data := by
    intro x hx
    cases hx
    refine ⟨?_, ?_, ?_⟩ <;> dsimp only <;> omega
  by_cases h5 : field it.data (it.start + 12) 1 / 2 % 2 = 1
  · rw [if_pos h5] at hn
    cases hn
    exact ⟨trivial, ⟨hs, .done hs⟩, rfl, hrange⟩
  · rw [if_neg h5] at hn
    cases hn
    refine ⟨trivial, ⟨hs, ?_⟩, rfl, hrange⟩
    cases hl with
    | done h => omega
    | cut h => omega
    | last h hl => exact (h5 hl).elim
    | more h hn => exact hn

theorem EntryRange.Good.toEntry {r : EntryRange} {d : Bytes} (h : r.Good d) :
    (r.toEntry d).Safe ∧ ∀ e, r.toEntry d = .ok e → e.Good := by
  obtain ⟨h1, h2, h3⟩ := h
  unfold EntryRange.toEntry
  rw [idxRange_ok (by omega) h2, Res.bind_ok, IEntry.new_eq]
  have hl : ((d.drop r.start).take (r.stop - r.start)).length = r.stop - r.start := by
    rw [List.length_take, List.length_drop]; omega
  have hf : field ((d.drop r.start).take (r.stop - r.start)) 8 2 = r.stop - r.start := by
    rw [field_take (by omega), field_drop, h3]
  rw [hl, hf]
  constructor
  · repeat (first | trivial | split)
  · intro e he
    split at he
    · cases he
    rw [if_neg (by omega)] at he
    cases he
    rw [List.take_take, Nat.min_self]
    unfold IEntry.Good
    dsimp only
    omega

/-- **C29**, the accessors of an entry: for an entry of at least 13 bytes none of them panics unless
the parser of its key or data does. -/
theorem C29_entry_partial {e : IEntry} (h : e.Good) {κ : Type} (kf : Bytes → Pos → Res κ)
    (hk : ∀ b p, (kf b p).Safe) :
    e.length.Safe ∧ e.keyLength.Safe ∧ e.flags.Safe ∧ e.isLast.Safe ∧ e.hasSubnode.Safe ∧
      e.dataOffset.Safe ∧ e.dataLength.Safe ∧ e.fileReference.Safe ∧ e.subnodeVcn.Safe ∧
      (e.key kf).Safe ∧ (e.data kf).Safe := by
  obtain ⟨h1, h2⟩ := h
  have hrange : ∀ a b, a ≤ b → (e.range a b).Safe := by
    intro a b hab
    rw [IEntry.range_eq e hab]
    split <;> trivial
  refine ⟨?_, ?_, ?_, ?_, ?_, ?_, ?_, ?_, ?_, ?_, ?_⟩
  · rw [IEntry.length_eq (by omega)]; trivial
  · unfold IEntry.keyLength; rw [readLE_ok (n := 2) (a := 10) (by omega)]; trivial
  · rw [IEntry.flags_eq (by omega)]; trivial
  · rw [IEntry.isLast_eq (by omega)]; trivial
  · rw [IEntry.hasSubnode_eq (by omega)]; trivial
  · unfold IEntry.dataOffset; rw [readLE_ok (n := 2) (a := 0) (by omega)]; trivial
  · unfold IEntry.dataLength; rw [readLE_ok (n := 2) (a := 2) (by omega)]; trivial
  · unfold IEntry.fileReference; rw [idxRange_ok (by omega) (by omega)]; trivial
  · rw [IEntry.subnodeVcn_eq (by omega) h2]
    repeat (first | trivial | split)
  · unfold IEntry.key IEntry.keyLength
    rw [readLE_ok (n := 2) (a := 10) (by omega), Res.bind_ok]
    split
    · trivial
    rw [IEntry.isLast_eq (by omega), Res.bind_ok]
    split
    · trivial
    exact Res.safe_bind (hrange _ _ (by omega)) fun s _ => Res.safe_bind (hk _ _) fun _ _ => trivial
  · unfold IEntry.data IEntry.dataOffset IEntry.dataLength
    rw [readLE_ok (n := 2) (a := 0) (by omega), Res.bind_ok]
    split
    · trivial
    rw [readLE_ok (n := 2) (a := 2) (by omega), Res.bind_ok]
    split
    · trivial
    exact Res.safe_bind (hrange _ _ (by omega)) fun s _ => Res.safe_bind (hk _ _) fun _ _ => trivial

theorem IndexEntries.inspect_safe {r : EntryRange} {d : Bytes} (h : r.Good d) :
    (IndexEntries.inspect r d).Safe := by
  unfold IndexEntries.inspect
  obtain ⟨h1, h2⟩ := h.toEntry
  refine Res.safe_bind h1 fun e he => ?_
  have hg := h2 e he
  obtain ⟨_, _, _, a4, _, _, _, _, a9, _⟩ := C29_entry_partial hg (fun _ _ => Res.ok ()) fun _ _ => trivial
  exact Res.safe_bind a4 fun _ _ => Res.safe_bind a9 fun _ _ => trivial

/-! ### Traversal and lookup -/

/-- The two stacks of a traversal fit: every entry to be shown later belongs to the node below the one
it was left for. -/
inductive StacksGood : List NodeRanges → List (Option EntryRange) → Prop
  | ended : StacksGood [] []
  | root {n : NodeRanges} (h : n.Good) : StacksGood [n] []
  | push {n m : NodeRanges} {ns : List NodeRanges} {f : Option EntryRange} {fs : List (Option EntryRange)}
      (h : n.Good) (hf : ∀ r, f = some r → r.Good m.data) (hs : StacksGood (m :: ns) fs) :
      StacksGood (n :: m :: ns) (f :: fs)

theorem StacksGood.top {n n' : NodeRanges} {ns : List NodeRanges} {fs : List (Option EntryRange)}
    (h : StacksGood (n :: ns) fs) (hn : n'.Good) : StacksGood (n' :: ns) fs := by
  cases h with
  | root => exact .root hn
  | push _ hf hs => exact .push hn hf hs

/-- Loading a subnode does not panic and gives a node that can be read without a panic. `P` is what is
known about the device. -/
def Index.LoadsGood (ix : Index) (P : Dev → Prop) : Prop :=
  ∀ vcn d, P d → (ix.subnode vcn d).1.NoPanic ∧ P (ix.subnode vcn d).2 ∧
    ∀ n, (ix.subnode vcn d).1 = .ok n → n.Good

theorem IndexEntries.loop_good {ix : Index} {P : Dev → Prop} (hix : ix.LoadsGood P) (fuel : Nat)
    (it : IndexEntries) (d : Dev) (h : StacksGood it.inner it.following) (hd : P d) :
    ∃ r it' d', IndexEntries.loop ix fuel (it, d) = (r, (it', d')) ∧ r.NoPanic ∧ P d' ∧
      StacksGood it'.inner it'.following ∧
      ∀ x, r = .ok (some x) → ∃ top below, it'.inner = top :: below ∧ x.Good top.data := by
  induction fuel generalizing it d with
  | zero => exact ⟨_, _, _, rfl, Res.noPanic_diverge, hd, h, fun x hx => by cases hx⟩
  | succ fuel ih =>
    obtain ⟨inner, following⟩ := it
    dsimp only at h
    unfold IndexEntries.loop
    cases inner with
    | nil => exact ⟨_, _, _, rfl, Res.noPanic_ok _, hd, h, fun x hx => by cases hx⟩
    | cons top below =>
      dsimp only
      have htop : top.Good := by cases h with | root h => exact h | push h => exact h
      generalize hn : top.next = q
      obtain ⟨r, top'⟩ := q
      obtain ⟨hsafe, hgood, hdata, hrange⟩ := htop.next hn
      have h1 : StacksGood (top' :: below) following := h.top hgood
      cases r with
      | panic p => exact hsafe.elim
      | diverge => exact hsafe.elim
      | err e => exact ⟨_, _, _, rfl, Res.noPanic_err _, hd, h1, fun x hx => by cases hx⟩
      | ok o =>
        cases o with
        | none =>
          dsimp only
          cases following with
          | nil =>
            refine ⟨_, _, _, rfl, Res.noPanic_ok _, hd, ?_, fun x hx => by cases hx⟩
            cases h with
            | root h => exact .ended
          | cons f fs =>
            cases h with
            | @push _ m ns _ _ _ hf hs =>
              cases f with
              | none => exact ih ⟨m :: ns, fs⟩ d hs hd
              | some r =>
                refine ⟨_, _, _, rfl, Res.noPanic_ok _, hd, hs, fun x hx => ?_⟩
                cases hx
                exact ⟨m, ns, rfl, hf r rfl⟩
        | some r =>
          have hr := hrange r rfl
          rw [← hdata] at hr
          dsimp only
          have hins := IndexEntries.inspect_safe hr
          generalize IndexEntries.inspect r top'.data = i at hins
          cases i with
          | panic p => exact hins.elim
          | diverge => exact hins.elim
          | err e => exact ⟨_, _, _, rfl, Res.noPanic_err _, hd, h1, fun x hx => by cases hx⟩
          | ok q =>
            obtain ⟨last, vcn⟩ := q
            cases vcn with
            | none =>
              cases last with
              | true => exact ih ⟨top' :: below, following⟩ d h1 hd
              | false =>
                refine ⟨_, _, _, rfl, Res.noPanic_ok _, hd, h1, fun x hx => ?_⟩
                cases hx
                exact ⟨top', below, rfl, hr⟩
            | some v =>
              dsimp only
              obtain ⟨hp, hd', hsub⟩ := hix v d hd
              generalize ix.subnode v d = s at hp hd' hsub
              obtain ⟨rs, d'⟩ := s
              cases rs with
              | panic p => exact (hp p rfl).elim
              | diverge => exact ⟨_, _, _, rfl, Res.noPanic_diverge, hd', h1, fun x hx => by cases hx⟩
              | err e => exact ⟨_, _, _, rfl, Res.noPanic_err _, hd', h1, fun x hx => by cases hx⟩
              | ok sub =>
                refine ih ⟨sub :: top' :: below, (if last then none else some r) :: following⟩ d'
                  (.push (hsub sub rfl) ?_ h1) hd'
                intro x hx
                cases last with
                | true => cases hx
                | false => cases hx; exact hr

/-- **C29**, traversing an index: if no node that can be reached holds an entry with a length below 13,
no call of `next` panics, whatever the nodes hold otherwise: the stacks of the traversal never run
empty too early and an entry that is shown later is always taken from its own node. -/
theorem C29_traversal_partial {ix : Index} {P : Dev → Prop} (hix : ix.LoadsGood P)
    (hroot : ix.rootRanges.Good) (fuel k : Nat) (d : Dev) (hd : P d) :
    ∀ r ∈ IndexEntries.calls ix fuel k (IndexEntries.new ix, d), r.NoPanic := by
  have key : ∀ (k : Nat) (it : IndexEntries) (d : Dev), StacksGood it.inner it.following → P d →
      ∀ r ∈ IndexEntries.calls ix fuel k (it, d), r.NoPanic := by
    intro k
    induction k with
    | zero => intro it d _ _ r hr; simp [IndexEntries.calls] at hr
    | succ k ih =>
      intro it d h hd r hr
      obtain ⟨r0, it', d', e, hp, hd', hs, hx⟩ := IndexEntries.loop_good hix fuel it d h hd
      have hnext : ∃ r1, IndexEntries.next ix fuel (it, d) = (r1, (it', d')) ∧ r1.NoPanic := by
        unfold IndexEntries.next
        rw [e]
        cases r0 with
        | panic p => exact (hp p rfl).elim
        | diverge => exact ⟨_, rfl, Res.noPanic_diverge⟩
        | err x => exact ⟨_, rfl, Res.noPanic_err _⟩
        | ok o =>
          cases o with
          | none => exact ⟨_, rfl, Res.noPanic_ok _⟩
          | some x =>
            obtain ⟨top, below, hin, hg⟩ := hx x rfl
            dsimp only
            unfold IndexEntries.entryOf
            rw [hin]
            dsimp only
            have hsafe := hg.toEntry.1
            generalize x.toEntry top.data = q at hsafe
            cases q with
            | panic p => exact hsafe.elim
            | diverge => exact hsafe.elim
            | err x => exact ⟨_, rfl, Res.noPanic_err _⟩
            | ok o => exact ⟨_, rfl, Res.noPanic_ok _⟩
      obtain ⟨r1, e1, hp1⟩ := hnext
      unfold IndexEntries.calls at hr
      rw [e1] at hr
      rcases List.mem_cons.1 hr with hr | hr
      · rw [hr]; exact hp1
      · exact ih it' d' hs hd' r hr
  exact key k _ d (.root hroot) hd

/-- **C29**, looking up a key: under the same condition, and if the parser of keys and the comparison
do not panic, `find` does not panic. -/
theorem C29_find_partial {ix : Index} {P : Dev → Prop} (hix : ix.LoadsGood P)
    (hroot : ix.rootRanges.Good) {κ : Type} (kf : Bytes → Pos → Res κ) (hk : ∀ b p, (kf b p).Safe)
    (cmp : κ → Res Ordering) (hc : ∀ k, (cmp k).Safe) (fuel : Nat) (d : Dev) (hd : P d) :
    (ix.find kf cmp fuel d).1.NoPanic := by
  have key : ∀ (fuel : Nat) (it : NodeRanges) (d : Dev), it.Good → P d →
      (Index.findLoop kf cmp ix fuel it d).1.NoPanic := by
    intro fuel
    induction fuel with
    | zero => intro it d _ _; exact Res.noPanic_diverge
    | succ fuel ih =>
      intro it d hit hd
      unfold Index.findLoop
      generalize hn : it.next = q
      obtain ⟨r, it'⟩ := q
      obtain ⟨hsafe, hgood, hdata, hrange⟩ := hit.next hn
      cases r with
      | panic p => exact hsafe.elim
      | diverge => exact hsafe.elim
      | err e => exact Res.noPanic_err _
      | ok o =>
        cases o with
        | none => exact Res.noPanic_ok _
        | some r =>
          have hr := hrange r rfl
          rw [← hdata] at hr
          dsimp only
          obtain ⟨t1, t2⟩ := hr.toEntry
          generalize r.toEntry it'.data = e at t1 t2
          cases e with
          | panic p => exact t1.elim
          | diverge => exact t1.elim
          | err e => exact Res.noPanic_err _
          | ok e =>
            have hg := t2 e rfl
            obtain ⟨_, _, _, _, _, _, _, _, a9, a10, _⟩ := C29_entry_partial hg kf hk
            have hj : (Index.judge kf cmp e).Safe := by
              unfold Index.judge
              refine Res.safe_bind a10 fun o _ => ?_
              cases o with
              | none => trivial
              | some k =>
                refine Res.safe_bind (hc k) fun c _ => ?_
                cases c <;> trivial
            dsimp only
            generalize Index.judge kf cmp e = j at hj
            cases j with
            | panic p => exact hj.elim
            | diverge => exact hj.elim
            | err e => exact Res.noPanic_err _
            | ok o =>
              cases o with
              | some b =>
                cases b with
                | true => exact Res.noPanic_ok _
                | false => exact ih it' d hgood hd
              | none =>
                dsimp only
                generalize e.subnodeVcn = v at a9
                cases v with
                | panic p => exact a9.elim
                | diverge => exact a9.elim
                | err e => exact Res.noPanic_err _
                | ok v =>
                  cases v with
                  | none => exact Res.noPanic_ok _
                  | some vcn =>
                    dsimp only
                    obtain ⟨hp, hd', hsub⟩ := hix vcn d hd
                    generalize ix.subnode vcn d = s at hp hd' hsub
                    obtain ⟨rs, d'⟩ := s
                    cases rs with
                    | panic p => exact (hp p rfl).elim
                    | diverge => exact Res.noPanic_diverge
                    | err e => exact Res.noPanic_err _
                    | ok sub => exact ih sub d' (hsub sub rfl) hd'
  exact key fuel _ d hroot hd

/-- Loading subnodes from a stored index allocation with arbitrary contents `c`: if no place in it
holds bytes that make the decoding of a record panic or a record with a too short entry, the
conditions of the theorems above are met. -/
theorem C29_subnodes_partial {ix : Index} {img c : Bytes} {cs len : Nat} {item : AttrItem} {a : Attr}
    (h : ix.Allocated img c cs len item a) (hsize : 37 ≤ ix.recordSize)
    (hok : ∀ (n : Nat) (p : Pos), n * cs + ix.recordSize ≤ c.length →
      (IndexRecord.ofBytes (part c (n * cs) ix.recordSize) p).Safe ∧
        ∀ r, IndexRecord.ofBytes (part c (n * cs) ix.recordSize) p = .ok r →
          LengthsOk r.record.data (24 + field r.record.data 28 4) (24 + field r.record.data 24 4)) :
    ix.LoadsGood (fun d => d.Ok img) := by
  intro vcn d hd
  unfold Index.subnode
  rw [h.alloc]
  have ho : Res.ofOption (.missingIndexAllocation ix.rootPosition) (some item) = .ok item := rfl
  rw [ho, StM.bind_of_ok (StM.lift_apply _ _), h.attr, StM.bind_of_ok (StM.lift_apply _ _)]
  obtain ⟨v, d1, hd1, e1, hv, hcl, hp, hl⟩ := Attr.indexAllocation_opens h.ty h.opens h.nonRes d hd
  rw [StM.bind_of_ok e1]
  rw [h.cs] at hcl ⊢
  obtain ⟨q, d2, hd2, e2⟩ := IndexAllocation.recordFromVcn_eq hv hcl hp ix.recordSize vcn d1 hd1
  rw [StM.bind_apply, e2]
  have hbad : ∀ e : Err,
      ((Res.err e : Res NodeRanges), d2).1.NoPanic ∧ d2.Ok img ∧
        ∀ n, ((Res.err e : Res NodeRanges), d2).1 = .ok n → n.Good :=
    fun e => ⟨Res.noPanic_err e, hd2, fun n hn => by cases hn⟩
  by_cases h1 : ¬ (-(I63 : Int) ≤ vcn * cs ∧ vcn * cs < (I63 : Int))
  · rw [if_pos h1]; exact hbad _
  rw [if_neg h1]
  by_cases h2 : vcn * cs < 0
  · rw [if_pos h2]; exact hbad _
  rw [if_neg h2]
  by_cases h3 : v.len ≤ (vcn * cs).toNat
  · rw [if_pos h3]; exact hbad _
  rw [if_neg h3]
  by_cases h4 : ¬ ix.recordSize ≤ c.length - (vcn * cs).toNat
  · rw [if_pos h4]; exact hbad _
  rw [if_neg h4]
  have h4' : ix.recordSize ≤ c.length - (vcn * cs).toNat := by simpa using h4
  have hn : ∃ n : Nat, (vcn * cs).toNat = n * cs := by
    by_cases hcs : cs = 0
    · exact ⟨0, by simp [hcs]⟩
    · have : 0 ≤ vcn := by
        by_cases hv : 0 ≤ vcn
        · exact hv
        · exact absurd (Int.mul_neg_of_neg_of_pos (by omega : vcn < 0) (by omega : (0 : Int) < cs)) h2
      obtain ⟨n, rfl⟩ := Int.eq_ofNat_of_zero_le this
      exact ⟨n, by rw [← Int.natCast_mul]; exact Int.toNat_natCast _⟩
  obtain ⟨n, hn⟩ := hn
  rw [hn] at h4' ⊢
  obtain ⟨hs, hr⟩ := hok n q (by omega)
  have hpl := part_length (d := c) (off := n * cs) (len := ix.recordSize) (by omega)
  generalize hb : part c (n * cs) ix.recordSize = b at hs hr hpl
  cases he : IndexRecord.ofBytes b q with
  | panic p => rw [he] at hs; exact hs.elim
  | diverge => rw [he] at hs; exact hs.elim
  | err e => exact hbad _
  | ok r =>
    obtain ⟨k1, k2, k3, k4⟩ := IndexRecord.ofBytes_ok (by omega) he
    rw [Res.bind_ok, IndexRecord.vcn_eq (by omega), Res.bind_ok]
    by_cases h5 : toI64 (field r.record.data 16 8) ≠ vcn
    · rw [if_pos h5]; exact hbad _
    rw [if_neg h5]
    dsimp only
    rw [StM.lift_apply, IndexRecord.intoEntryRanges_eq (by omega) (by omega)]
    refine ⟨Res.noPanic_ok _, hd2, fun n hn => ?_⟩
    cases hn
    exact ⟨by dsimp only; omega, hr r he⟩

/-! ### What happens otherwise -/

/-- **C29, negation** for nodes: a node that is filled with zeros panics. -/
theorem C29_node_negation :
    ∃ b : Bytes, (NodeEntries.next ⟨b, some 1⟩).1 = .panic .slice ∧
      (NodeRanges.next ⟨b, 0, b.length, some 1⟩).1 = .panic .slice :=
  ⟨List.replicate 16 0, by decide, by decide⟩

/-- The first 42 bytes of an index record with the given fields. -/
def exIndexHead (off used allocated : Bytes) : Bytes :=
  [0x49, 0x4E, 0x44, 0x58, 40, 0, 1, 0] ++ List.replicate 16 0 ++ off ++ used ++ allocated ++
    List.replicate 6 0

/-- **C29, negation** for index records: an allocated size close to 2^32 overflows the addition; an
offset of the entries beyond the used size is accepted but the entries panic; and a record of less than
36 bytes, which nothing prevents, panics. -/
theorem C29_record_negation :
    IndexRecord.ofBytes (exIndexHead [0, 0, 0, 0] [0, 0, 0, 0] [255, 255, 255, 255]) (some 1) =
        .panic .overflow ∧
      (∃ r, IndexRecord.ofBytes (exIndexHead [9, 0, 0, 0] [8, 0, 0, 0] [16, 0, 0, 0]) (some 1) = .ok r ∧
        r.entries = .panic .slice) ∧
      IndexRecord.ofBytes ([0x49, 0x4E, 0x44, 0x58, 8, 0, 1, 0] ++ List.replicate 27 0) (some 1) =
        .panic .slice := by
  exact ⟨by decide, ⟨_, rfl, by decide⟩, by decide⟩

/-! ### The hypotheses can be met -/

/-- Every well-formed node can be read without a panic. -/
theorem Spec.NodeAt.lengthsOk {R : Int → Bytes → Nat → Nat → Prop} {d : Bytes} {off stop : Nat} {t : Node}
    (h : NodeAt R d off stop t) : LengthsOk d stop off := by
  have key : ∀ {last : Bool} {sub : Option Int} {d : Bytes} {off len : Nat}, off + len ≤ d.length →
      EntryHeader last sub (part d off len) →
      field d (off + 8) 2 = len ∧ 13 ≤ len ∧ (field d (off + 12) 1 / 2 % 2 == 1) = last := by
    intro last sub d off len hin he
    have hl := he.length
    have hr := he.room
    have hb := (EntryHeader.bits he).1
    rw [part_length hin] at hl hr
    rw [field_part (by omega)] at hl
    rw [field_part (by omega)] at hb
    exact ⟨hl, by omega, hb⟩
  induction h with
  | stop h => exact .done h
  | last _ hin he =>
    obtain ⟨h1, h2, h3⟩ := key hin he
    exact .last (by omega) (by simpa using h3)
  | lastSub _ hin he =>
    obtain ⟨h1, h2, h3⟩ := key hin he
    exact .last (by omega) (by simpa using h3)
  | leaf _ hin he _ ih =>
    obtain ⟨h1, h2, h3⟩ := key hin he.toEntryHeader
    exact .more (by omega) (by rw [h1]; exact ih)
  | inner _ hin he _ _ _ _ ih =>
    obtain ⟨h1, h2, h3⟩ := key hin he.toEntryHeader
    exact .more (by omega) (by rw [h1]; exact ih)

/-- The example directory: root, index records and all subnodes. -/
theorem exDir_good (table : Option (List Nat)) :
    (exDirIndex table).LoadsGood (fun d => d.Ok exDirImage) ∧ (exDirIndex table).rootRanges.Good := by
  constructor
  · refine C29_subnodes_partial (exDir_allocated table) (show 37 ≤ 512 by decide) ?_
    intro n p hn
    have h2 : n * 512 + 512 ≤ exDirStream.length := hn
    have h3 : exDirStream.length = 1024 := by decide +kernel
    have hcase : n = 0 ∨ n = 1 := by omega
    have h512 : (exDirIndex table).recordSize = 512 := rfl
    rw [h512]
    rcases hcase with rfl | rfl
    · have e := IndexRecord.ofBytes_in exDir_record0.toRecordIn (by decide) p
      have e' : IndexRecord.ofBytes (part exDirStream (0 * 512) 512) p = _ := e
      rw [e']
      refine ⟨trivial, fun r hr => ?_⟩
      cases hr
      have o1 : 24 + field (exDirNode0 ++ [1, 2]) 24 4 = 48 := by decide +kernel
      have o2 : 24 + field (exDirNode0 ++ [1, 2]) 28 4 = 152 := by decide +kernel
      dsimp only
      rw [o1, o2]
      exact .more (by decide +kernel) (.last (by decide +kernel) (by decide +kernel))
    · have e := IndexRecord.ofBytes_in exDir_record1.toRecordIn (by decide) p
      have e' : IndexRecord.ofBytes (part exDirStream (1 * 512) 512) p = _ := e
      rw [e']
      refine ⟨trivial, fun r hr => ?_⟩
      cases hr
      have o1 : 24 + field (exDirNode1 ++ [1, 2]) 24 4 = 48 := by decide +kernel
      have o2 : 24 + field (exDirNode1 ++ [1, 2]) 28 4 = 240 := by decide +kernel
      dsimp only
      rw [o1, o2]
      exact .more (by decide +kernel) (.more (by decide +kernel) (.last (by decide +kernel) (by decide +kernel)))
  · exact ⟨show 120 ≤ exDirRoot.length by decide +kernel, exDir_tree.lengthsOk⟩

/-- A loop of subnodes is not excluded: the traversal runs forever, but does not panic. Here the node
holds junk with a length that does not fit. -/
example : LengthsOk (List.replicate 8 0 ++ [255, 255] ++ List.replicate 20 7) 30 0 :=
  .cut (by decide)

/-- A root of 40 bytes that is accepted. -/
example : ∃ r, IndexRoot.new (List.replicate 16 0 ++ [16, 0, 0, 0, 24, 0, 0, 0] ++ List.replicate 16 0)
    (some 1) = .ok r := ⟨_, rfl⟩

/-- An index record of 42 bytes that is accepted. -/
example : ∃ r, IndexRecord.ofBytes (exIndexHead [8, 0, 0, 0] [16, 0, 0, 0] [16, 0, 0, 0]) (some 1) = .ok r :=
  ⟨_, rfl⟩

/-- An entry of 16 bytes. -/
example : IEntry.Good ⟨[1, 0, 0, 0, 0, 0, 0, 0, 16, 0, 0, 0, 0, 0, 0, 0], some 100⟩ := by
  constructor <;> decide

/-! ### The theorems of this file on these -/

example := C29_root_entries_partial (b := List.replicate 16 0 ++ [16, 0, 0, 0, 24, 0, 0, 0] ++ List.replicate 16 0) (p := some 1) rfl
example := C29_record_partial (exIndexHead [0, 0, 0, 0] [0, 0, 0, 0] [255, 255, 255, 255]) (some 1) (by decide)
example := C29_record_accessors_partial (b := exIndexHead [8, 0, 0, 0] [16, 0, 0, 0] [16, 0, 0, 0]) (p := some 1) (by decide) rfl
example := C29_entry_partial (e := ⟨[1, 0, 0, 0, 0, 0, 0, 0, 16, 0, 0, 0, 0, 0, 0, 0], some 100⟩) (by constructor <;> decide)
  (fun b _ => .ok b.length) (fun _ _ => trivial)
example := C29_traversal_partial (exDir_good none).1 (exDir_good none).2 9 9 ⟨exDirImage, 0, []⟩ ⟨rfl, fun _ h => by cases h⟩
example := C29_find_partial (exDir_good none).1 (exDir_good none).2 (fun b _ => .ok b.length) (fun _ _ => trivial)
  (fun k => .ok (compare k 3)) (fun _ => trivial) 9 ⟨exDirImage, 0, []⟩ ⟨rfl, fun _ h => by cases h⟩

end NT
