import Verif.Model.Index
import Verif.Spec.Index
import Verif.Lemmas.Bytes
import Verif.Lemmas.AttrList

namespace NT

open Spec

theorem toI64_of_intAt {b : Bytes} {off : Nat} {v : Int} (h : IntAt b off v)
    (hl : off + 8 ≤ b.length) : toI64 (field b off 8) = v := by
  obtain ⟨h1, h2, k, hk⟩ := h
  have hf : field b off 8 < 256 ^ 8 := field_lt (n := 8) hl
  have e : (256 : Nat) ^ 8 = U64 := by decide
  rw [e] at hf
  unfold toI64
  split <;> omega

theorem intAt_toI64 {b : Bytes} {off : Nat} (hl : off + 8 ≤ b.length) :
    IntAt b off (toI64 (field b off 8)) := by
  have hf : field b off 8 < 256 ^ 8 := field_lt (n := 8) hl
  have e : (256 : Nat) ^ 8 = U64 := by decide
  rw [e] at hf
  unfold toI64
  split
  · exact ⟨by omega, by omega, 0, by omega⟩
  · exact ⟨by omega, by omega, -1, by omega⟩

theorem part_length {d : Bytes} {off len : Nat} (h : off + len ≤ d.length) :
    (part d off len).length = len := by
  unfold part; rw [List.length_take, List.length_drop]; omega

theorem field_part {d : Bytes} {off len o k : Nat} (h : o + k ≤ len) :
    field (part d off len) o k = field d (off + o) k := by
  unfold part; rw [field_take h, field_drop]

/-- `NtfsIndexEntry::new`, in terms of the bytes. -/
theorem IEntry.new_eq (s : Bytes) (p : Pos) :
    IEntry.new s p =
      if s.length < 16 then .err (.invalidIndexEntrySize p 16 (s.length % U16))
      else if field s 8 2 > s.length then
        .err (.invalidIndexEntrySize p (field s 8 2) (s.length % U16))
      else .ok { slice := s.take (field s 8 2), position := p } := by
  unfold IEntry.new IEntry.validateSize IEntry.length
  dsimp only
  split
  · rfl
  rename_i h
  rw [readLE_ok (n := 2) (a := 8) (by omega), Res.bind_ok]
  split
  · rfl
  rename_i h2
  rw [Res.bind_ok, Res.bind_ok, idxRange_ok (by omega) (by omega), List.drop_zero]
  rfl

theorem IEntry.length_eq {e : IEntry} (h : 10 ≤ e.slice.length) : e.length = .ok (field e.slice 8 2) :=
  readLE_ok (n := 2) (a := 8) h

theorem IEntry.flags_eq {e : IEntry} (h : 13 ≤ e.slice.length) :
    e.flags = .ok (field e.slice 12 1 % 4) := by
  unfold IEntry.flags
  rw [idxByte_field (by omega)]; rfl

theorem IEntry.isLast_eq {e : IEntry} (h : 13 ≤ e.slice.length) :
    e.isLast = .ok (field e.slice 12 1 / 2 % 2 == 1) := by
  unfold IEntry.isLast
  rw [IEntry.flags_eq h, Res.bind_ok]
  have : field e.slice 12 1 % 4 / 2 % 2 = field e.slice 12 1 / 2 % 2 := by omega
  rw [this]; rfl

theorem IEntry.hasSubnode_eq {e : IEntry} (h : 13 ≤ e.slice.length) :
    e.hasSubnode = .ok (field e.slice 12 1 % 2 == 1) := by
  unfold IEntry.hasSubnode
  rw [IEntry.flags_eq h, Res.bind_ok]
  have : field e.slice 12 1 % 4 % 2 = field e.slice 12 1 % 2 := by omega
  rw [this]; rfl

theorem IEntry.range_eq (e : IEntry) {start stop : Nat} (h : start ≤ stop) :
    e.range start stop = if stop ≤ e.slice.length then .ok (part e.slice start (stop - start))
      else .err (.invalidIndexEntryDataRange e.position start stop (e.slice.length % U16)) := by
  unfold IEntry.range
  split
  · rename_i h2
    rw [getRange_eq_some h h2]; rfl
  · rename_i h2
    have : getRange e.slice start stop = none := by
      unfold getRange; rw [if_neg (by omega)]
    rw [this]; rfl

/-- The subnode VCN of an entry whose length field is right. -/
theorem IEntry.subnodeVcn_eq {e : IEntry} (h : 13 ≤ e.slice.length)
    (hl : field e.slice 8 2 = e.slice.length) :
    e.subnodeVcn =
      if field e.slice 12 1 % 2 = 1 then
        if 24 ≤ e.slice.length then .ok (some (toI64 (field e.slice (e.slice.length - 8) 8)))
        else .err (.invalidIndexEntryDataRange e.position 16 24 (e.slice.length % U16))
      else .ok none := by
  unfold IEntry.subnodeVcn
  rw [IEntry.hasSubnode_eq h, Res.bind_ok]
  by_cases hs : field e.slice 12 1 % 2 = 1
  case neg =>
    rw [if_neg hs]
    have : (field e.slice 12 1 % 2 == 1) = false := by simpa using hs
    rw [this]; rfl
  have : (field e.slice 12 1 % 2 == 1) = true := by simpa using hs
  rw [this, if_pos hs, if_neg (by decide), IEntry.length_eq (by omega), Res.bind_ok, hl,
    if_neg (by omega)]
  dsimp only
  by_cases h24 : 24 ≤ e.slice.length
  · rw [if_pos h24]
    have hm : max (e.slice.length - 8) 16 = e.slice.length - 8 := by omega
    rw [hm, IEntry.range_eq e (by omega), if_pos (by omega), Res.bind_ok]
    have : e.slice.length - 8 + 8 - (e.slice.length - 8) = 8 := by omega
    rw [this, readLE_ok (n := 8) (a := 0) (by rw [part_length (by omega)]; omega), Res.bind_ok,
      field_part (by omega)]
    rfl
  · rw [if_neg h24]
    have hm : max (e.slice.length - 8) 16 = 16 := by omega
    rw [hm, IEntry.range_eq e (by omega), if_neg (by omega)]
    rfl

/-- The bit fields of an entry that has a sound header. -/
theorem EntryHeader.bits {last : Bool} {sub : Option Int} {b : Bytes} (h : EntryHeader last sub b) :
    (field b 12 1 / 2 % 2 == 1) = last ∧ (field b 12 1 % 2 = 1 ↔ sub.isSome) := by
  have := h.flags
  cases last <;> cases hs : sub.isSome <;> rw [hs] at this <;>
    simp only [if_true, if_false, Bool.false_eq_true, beq_iff_eq, beq_eq_false_iff_ne, iff_true,
      iff_false] at * <;> omega

theorem IEntry.isLast_of_header {last : Bool} {sub : Option Int} {e : IEntry}
    (h : EntryHeader last sub e.slice) : e.isLast = .ok last := by
  have := h.room
  rw [IEntry.isLast_eq (by omega), (EntryHeader.bits h).1]

theorem IEntry.subnodeVcn_of_header {last : Bool} {sub : Option Int} {e : IEntry}
    (h : EntryHeader last sub e.slice) : e.subnodeVcn = .ok sub := by
  have hr := h.room
  rw [IEntry.subnodeVcn_eq (by omega) h.length]
  cases sub with
  | none =>
    rw [if_neg (fun hh => by have := (EntryHeader.bits h).2.1 hh; cases this)]
  | some v =>
    have : 16 + 8 ≤ e.slice.length := hr
    rw [if_pos ((EntryHeader.bits h).2.2 rfl), if_pos (by omega),
      toI64_of_intAt (h.vcn v rfl) (by omega)]

/-- A sound entry at offset `start` of a node: `next` shows it and moves behind it, or to the end. -/
theorem NodeRanges.next_header {it : NodeRanges} {len : Nat} {last : Bool} {sub : Option Int}
    (hlt : it.start < it.stop) (hin : it.start + len ≤ it.data.length)
    (h : EntryHeader last sub (part it.data it.start len)) :
    it.next = (.ok (some { start := it.start, stop := it.start + len, position := it.position }),
      if last then { it with start := it.data.length }
      else { it with start := it.start + len, position := Pos.add it.position len }) := by
  have hp := part_length hin
  have hroom := h.room
  rw [hp] at hroom
  have hlen := h.length
  rw [hp, field_part (by omega)] at hlen
  unfold NodeRanges.next
  rw [if_neg (by simpa using hlt)]
  have es : it.step = .ok ({ start := it.start, stop := it.start + len, position := it.position },
      if last then { it with start := it.data.length }
      else { it with start := it.start + len, position := Pos.add it.position len }) := by
    unfold NodeRanges.step
    rw [idxRange_ok (by omega) (by omega), Res.bind_ok]
    have e1 : (it.data.drop it.start).take (it.data.length - it.start) = it.data.drop it.start :=
      List.take_of_length_le (by rw [List.length_drop]; omega)
    have e3 : (it.data.drop it.start).length = it.data.length - it.start := List.length_drop
    rw [e1, IEntry.new_eq, if_neg (by omega), field_drop, hlen, if_neg (by omega), Res.bind_ok]
    have e2 : (it.data.drop it.start).take len = part it.data it.start len := rfl
    rw [e2, IEntry.length_eq (by dsimp only; omega), Res.bind_ok]
    dsimp only
    rw [h.length, hp, IEntry.isLast_of_header (e := ⟨part it.data it.start len, it.position⟩) h,
      Res.bind_ok]
    cases last <;> rfl
  rw [es]

/-- The range of a sound entry gives that entry. -/
theorem EntryRange.toEntry_header {d : Bytes} {off len : Nat} {last : Bool} {sub : Option Int}
    (p : Pos) (hin : off + len ≤ d.length) (h : EntryHeader last sub (part d off len)) :
    EntryRange.toEntry ⟨off, off + len, p⟩ d = .ok ⟨part d off len, p⟩ := by
  have hp := part_length hin
  have hroom := h.room
  unfold EntryRange.toEntry
  dsimp only
  rw [idxRange_ok (by omega) (by omega), Res.bind_ok]
  have : off + len - off = len := by omega
  rw [this]
  show IEntry.new (part d off len) p = _
  rw [IEntry.new_eq, if_neg (by omega), h.length, if_neg (by omega), List.take_length]

theorem IndexEntries.inspect_header {d : Bytes} {off len : Nat} {last : Bool} {sub : Option Int}
    (p : Pos) (hin : off + len ≤ d.length) (h : EntryHeader last sub (part d off len)) :
    IndexEntries.inspect ⟨off, off + len, p⟩ d = .ok (last, sub) := by
  unfold IndexEntries.inspect
  rw [EntryRange.toEntry_header p hin h, Res.bind_ok,
    IEntry.isLast_of_header (e := ⟨part d off len, p⟩) h, Res.bind_ok,
    IEntry.subnodeVcn_of_header (e := ⟨part d off len, p⟩) h, Res.bind_ok]
  rfl

/-- The key of an encoded entry. -/
theorem IEntry.key_encodes {κ : Type} (keyFromSlice : Bytes → Pos → Res κ) {x : IEntry} {e : Ent}
    {sub : Option Int} (h : Encodes1 e sub x.slice) (hk : e.key ≠ []) :
    x.key keyFromSlice = keyFromSlice e.key (Pos.add x.position 16) >>= fun k => .ok (some k) := by
  have hr := h.room
  have hf := h.fits
  have hne : e.key.length ≠ 0 := fun hh => hk (List.eq_nil_of_length_eq_zero hh)
  unfold IEntry.key IEntry.keyLength
  rw [readLE_ok (n := 2) (a := 10) (by omega), Res.bind_ok, h.keyLength, if_neg hne,
    IEntry.isLast_of_header h.toEntryHeader, Res.bind_ok, if_neg (by decide),
    IEntry.range_eq x (by omega), if_pos (by omega), Res.bind_ok]
  have : 16 + e.key.length - 16 = e.key.length := by omega
  rw [this]
  show (keyFromSlice ((x.slice.drop 16).take e.key.length) _ >>= _) = _
  rw [h.key]
  rfl

end NT
