import Verif.Props.C77_ListPositions
import Verif.Props.C38_IndexRoot
import Verif.Props.C12_Fixup

/-! C77 for index roots, resident attribute lists, keys of index entries and the errors of records, with the places where
the positions are not the documented ones. -/

namespace NT

open Spec

/-! ### Resident values -/

theorem Attr.simpleValue_of_resident {a : Attr} {v : ResVal} (h1 : a.isResident = .ok true)
    (h2 : a.residentValue = .ok v) : a.simpleValue = .ok (.res v) := by
  unfold Attr.simpleValue
  rw [h1, Res.bind_ok, if_pos rfl, h2]
  rfl

/-- A resident value is found at the position of its attribute plus the value offset, but it carries the position of
the attribute. -/
theorem ResVal.found {img : Bytes} (himg : img.length < U64) {f : NFile} {p : Nat} (h0 : 0 < p)
    (hp : f.position = some p) (hf : FoundAt img p p f.recordData) {off : Nat} {l : Option AttrList} {a : Attr}
    (h : Attr.new f off l = .ok a) {v : ResVal} (hv : a.simpleValue = .ok (.res v)) {start : Nat}
    (hs : field f.recordData (off + 20) 2 = start) :
    v.dataPosition = some (p + off) ∧ FoundAt img p (p + off + start) v.data := by
  obtain ⟨_, h2, h3, h4, h5, h6, h7⟩ := C20_resident_value f off l a v h hv start _ hs rfl
  have hin := hf.inside
  constructor
  · unfold ResVal.dataPosition
    rw [h6, if_pos (Nat.zero_le _), h7, (C77_attribute img himg f p h0 hp hf off l a h).1]
    exact Pos.add_some (by omega) (by omega)
  · have := hf.sub (off + start) (field f.recordData (off + 16) 4) (by omega)
    unfold part at this
    rw [← h4] at this
    rwa [Nat.add_assoc]

/-! ### Index roots -/

/-- **C77**: the index root of a file is found `start` bytes after its position, where `start` is the offset of the
value in the attribute. What the documentation promises is `start = 0`, which no attribute can have.
The same holds for its entries. -/
theorem C77_index_root_partial (img : Bytes) (himg : img.length < U64) (f : NFile) (p : Nat) (h0 : 0 < p)
    (hp : f.position = some p) (hf : FoundAt img p p f.recordData) (off : Nat) (l : Option AttrList) (a : Attr)
    (h : Attr.new f off l = .ok a) (root : IndexRoot) (hr : a.residentIndexRoot = .ok root) (start o : Nat)
    (hs : field f.recordData (off + 20) 2 = start) (ho : field root.slice 16 4 = o) :
    root.position = some (p + off) ∧ FoundAt img p (p + off + start) root.slice ∧
    (∀ it, root.entries = .ok it → it.position = some (p + off + (16 + o)) ∧
      FoundAt img p (p + off + (16 + o) + start) it.slice) ∧
    ∀ it, root.entryRanges = .ok it → it.position = some (p + off + (16 + o)) ∧ RangesFound img start it := by
  unfold Attr.residentIndexRoot at hr
  rw [Res.bind_eq_ok] at hr
  obtain ⟨_, _, hr⟩ := hr
  rw [Res.bind_eq_ok] at hr
  obtain ⟨res, hres, hr⟩ := hr
  cases res with
  | false => cases hr
  | true =>
  rw [if_pos rfl, Res.bind_eq_ok] at hr
  obtain ⟨v, hv, hr⟩ := hr
  obtain ⟨k1, k2⟩ := ResVal.found himg h0 hp hf h (Attr.simpleValue_of_resident hres hv) hs
  unfold IndexRoot.ofResident IndexRoot.new at hr
  split at hr
  · cases hr
  rename_i hlen
  dsimp only at hr
  rw [Res.bind_eq_ok] at hr
  obtain ⟨_, hval, hr⟩ := hr
  cases hr
  dsimp only at ho ⊢
  have hin := k2.inside
  have hrange : IndexRoot.entriesRange ⟨v.data, v.dataPosition⟩ =
      .ok (16 + o, 16 + field v.data 20 4, Pos.add (some (p + off)) (16 + o)) := by
    unfold IndexRoot.entriesRange IndexRoot.entriesOffset IndexRoot.dataSize
    dsimp only
    rw [readLE_ok (n := 4) (a := 16) (by omega), Res.bind_ok, readLE_ok (n := 4) (a := 20) (by omega), Res.bind_ok, ho,
      k1]
    rfl
  unfold IndexRoot.validateSizes at hval
  rw [hrange, Res.bind_ok] at hval
  dsimp only at hval
  split at hval
  · cases hval
  rename_i hlt
  have hpos : Pos.add (some (p + off)) (16 + o) = some (p + off + (16 + o)) := Pos.add_some (by omega) (by omega)
  have hslice : ∀ b, idxRange v.data (16 + o) (16 + field v.data 20 4) = .ok b →
      FoundAt img p (p + off + (16 + o) + start) b := by
    intro b hb
    unfold idxRange at hb
    cases hg : getRange v.data (16 + o) (16 + field v.data 20 4) with
    | none => rw [hg] at hb; cases hb
    | some x =>
      rw [hg] at hb
      cases hb
      obtain ⟨g1, g2, g3⟩ := getRange_isSome_iff.1 hg
      have := k2.sub (16 + o) (16 + field v.data 20 4 - (16 + o)) (by omega)
      unfold part at this
      rw [← g3] at this
      rwa [show p + off + (16 + o) + start = p + off + start + (16 + o) by omega]
  refine ⟨k1, k2, fun it hit => ?_, fun it hit => ?_⟩
  · unfold IndexRoot.entries at hit
    rw [hrange, Res.bind_ok] at hit
    dsimp only at hit
    rw [Res.bind_eq_ok] at hit
    obtain ⟨b, hb, hit⟩ := hit
    cases hit
    exact ⟨hpos, hslice b hb⟩
  · unfold IndexRoot.entryRanges at hit
    rw [hrange, Res.bind_ok] at hit
    dsimp only at hit
    rw [Res.bind_eq_ok] at hit
    obtain ⟨b, hb, hit⟩ := hit
    unfold NodeRanges.new at hit
    rw [if_pos (Nat.le_refl _)] at hit
    cases hit
    refine ⟨hpos, Nat.le_refl _, fun _ => ⟨p, p + off + (16 + o), start, .inr rfl, by omega, hpos, ?_⟩⟩
    rw [List.drop_zero]
    exact hslice b hb

/-- The same for the index that `NtfsIndex::new` makes of that attribute. -/
theorem C77_index_new_partial (img : Bytes) (himg : img.length < U64) (item : AttrItem) (alloc : Option AttrItem)
    (a : Attr) (ha : item.toAttribute = .ok a) (p : Nat) (h0 : 0 < p)
    (hp : a.file.position = some p) (hf : FoundAt img p p a.file.recordData) (hn : Attr.new a.file a.offset a.list = .ok a)
    (ix : Index) (h : Index.new item alloc = .ok ix) :
    ix.rootPosition = some (p + a.offset) ∧ RangesFound img (field a.file.recordData (a.offset + 20) 2) ix.rootRanges := by
  unfold Index.new at h
  rw [ha, Res.bind_ok, Res.bind_eq_ok] at h
  obtain ⟨_, _, h⟩ := h
  rw [Res.bind_eq_ok] at h
  obtain ⟨root, hr, h⟩ := h
  rw [Res.bind_eq_ok] at h
  obtain ⟨_, _, h⟩ := h
  rw [Res.bind_eq_ok] at h
  obtain ⟨_, _, h⟩ := h
  rw [Res.bind_eq_ok] at h
  obtain ⟨rr, hrr, h⟩ := h
  cases h
  obtain ⟨k1, _, _, k2⟩ := C77_index_root_partial img himg a.file p h0 hp hf a.offset a.list a hn root hr _ _ rfl rfl
  exact ⟨k1, (k2 rr hrr).2⟩

/-! ### Attribute lists -/

/-- **C77**: where the list of a file starts. A resident list is found `start` bytes after its position, the offset of
the value in the attribute; the runs of a non-resident list are where `C77_data_runs_start` says. -/
theorem C77_list_start_partial (img : Bytes) (himg : img.length < U64) (f : NFile) (p : Nat) (h0 : 0 < p)
    (hp : f.position = some p) (hf : FoundAt img p p f.recordData) (off : Nat) (a : Attr)
    (h : Attr.new f off none = .ok a) (d d' : Dev) (al : AttrList) (hal : a.attributeList d = (.ok al, d')) :
    (∃ b, al = .resident b (some (p + off)) ∧ FoundAt img p (p + off + field f.recordData (off + 20) 2) b) ∨
      ∃ b q v, al = .nonResident v ∧ a.nonResidentValueDataAndPosition = .ok (b, q) ∧
        NonRes.new f.ntfs.clusterSize b q (field f.recordData (off + 48) 8) = .ok v ∧
        q = some (p + (off + field f.recordData (off + 32) 2)) ∧
        FoundAt img p (p + (off + field f.recordData (off + 32) 2)) b := by
  have ha := (Attr.new_ok_iff.1 h).1
  unfold Attr.attributeList at hal
  rw [StM.bind_ok_iff] at hal
  obtain ⟨_, d1, _, hal⟩ := hal
  rw [StM.bind_ok_iff] at hal
  obtain ⟨v, d2, hv, hal⟩ := hal
  have hal := congrArg Prod.fst hal
  dsimp only [StM.lift] at hal
  unfold Attr.value at hv
  rw [ha] at hv
  dsimp only at hv
  rw [StM.bind_ok_iff] at hv
  obtain ⟨sv, d3, hsv', hv⟩ := hv
  have hsv := congrArg Prod.fst hsv'
  clear hsv'
  dsimp only [StM.lift] at hsv
  rw [← ha] at hsv
  cases hv
  cases sv with
  | res w =>
    cases hal
    obtain ⟨k1, k2⟩ := ResVal.found himg h0 hp hf h hsv rfl
    exact .inl ⟨w.data, by rw [k1], k2⟩
  | nonRes w =>
    cases hal
    right
    unfold Attr.simpleValue at hsv
    rw [Res.bind_eq_ok] at hsv
    obtain ⟨res, _, hsv⟩ := hsv
    cases res with
    | true =>
      rw [if_pos rfl, Res.bind_eq_ok] at hsv
      obtain ⟨_, _, hsv⟩ := hsv
      cases hsv
    | false =>
      rw [if_neg (by decide), Res.bind_eq_ok] at hsv
      obtain ⟨w', hw, hsv⟩ := hsv
      cases hsv
      unfold Attr.nonResidentValue at hw
      rw [Res.bind_eq_ok] at hw
      obtain ⟨⟨b, q⟩, hb, hw⟩ := hw
      dsimp only at hw
      rw [Res.bind_eq_ok] at hw
      obtain ⟨size, hsize, hw⟩ := hw
      unfold Attr.nonResidentValueDataSize at hsize
      rw [Res.bind_eq_ok] at hsize
      obtain ⟨_, _, hsize⟩ := hsize
      have hsz := readLE_eq_ok hsize
      obtain ⟨g1, g2⟩ := C77_data_runs_start img himg f p h0 hp hf off none a h b q hb
      rw [hsz] at hw
      rw [ha] at hw
      exact ⟨b, q, w, rfl, hb, hw, g1, g2⟩

/-! ### Keys and data of index entries -/

/-- **C77**: the key of an entry is found 16 bytes after the entry, and the position that is handed to the decoder is
16 more than the one of the entry. -/
theorem C77_key (img : Bytes) (himg : img.length < U64) (base q s : Nat) (hq : 0 < q) (e : IEntry)
    (hp : e.position = some q) (hf : FoundAt img base (q + s) e.slice) (b : Bytes) (k : Pos)
    (h : e.key (fun b p => .ok (b, p)) = .ok (some (b, k))) :
    k = some (q + 16) ∧ FoundAt img base (q + 16 + s) b := by
  unfold IEntry.key at h
  rw [Res.bind_eq_ok] at h
  obtain ⟨n, _, h⟩ := h
  split at h
  · cases h
  rw [Res.bind_eq_ok] at h
  obtain ⟨last, _, h⟩ := h
  cases last with
  | true => cases h
  | false =>
    rw [if_neg (by decide), Res.bind_eq_ok] at h
    obtain ⟨x, hx, h⟩ := h
    rw [Res.bind_ok] at h
    cases h
    unfold IEntry.range at hx
    cases hg : getRange e.slice 16 (16 + n) with
    | none => rw [hg] at hx; cases hx
    | some y =>
      rw [hg] at hx
      cases hx
      obtain ⟨g1, g2, g3⟩ := getRange_isSome_iff.1 hg
      have hin := hf.inside
      refine ⟨by rw [hp]; exact Pos.add_some (by omega) (by omega), ?_⟩
      have := hf.sub 16 (16 + n - 16) (by omega)
      unfold part at this
      rw [← g3] at this
      rwa [show q + 16 + s = q + s + 16 by omega]

/-- **C77**: the same for the data of an entry, at the offset that the entry gives. -/
theorem C77_entry_data (img : Bytes) (himg : img.length < U64) (base q s : Nat) (hq : 0 < q) (e : IEntry)
    (hp : e.position = some q) (hf : FoundAt img base (q + s) e.slice) (b : Bytes) (k : Pos)
    (h : e.data (fun b p => .ok (b, p)) = .ok (some (b, k))) :
    k = some (q + field e.slice 0 2) ∧ FoundAt img base (q + field e.slice 0 2 + s) b := by
  unfold IEntry.data at h
  rw [Res.bind_eq_ok] at h
  obtain ⟨o, ho, h⟩ := h
  have ho := readLE_eq_ok ho
  split at h
  · cases h
  rw [Res.bind_eq_ok] at h
  obtain ⟨n, _, h⟩ := h
  split at h
  · cases h
  rw [Res.bind_eq_ok] at h
  obtain ⟨x, hx, h⟩ := h
  rw [Res.bind_ok] at h
  cases h
  unfold IEntry.range at hx
  cases hg : getRange e.slice o (o + n) with
  | none => rw [hg] at hx; cases hx
  | some y =>
    rw [hg] at hx
    cases hx
    obtain ⟨g1, g2, g3⟩ := getRange_isSome_iff.1 hg
    have hin := hf.inside
    rw [← ho]
    refine ⟨by rw [hp]; exact Pos.add_some (by omega) (by omega), ?_⟩
    have := hf.sub o (o + n - o) (by omega)
    unfold part at this
    rw [← g3] at this
    rwa [show q + o + s = q + s + o by omega]

/-- **C77**: the errors of the methods of an index entry report its position. -/
theorem C77_entry_errors (e : IEntry) :
    e.subnodeVcn.Reports (· = e.position) ∧ e.isLast.Reports (· = e.position) ∧
    (e.key (fun b p => .ok (b, p))).Reports (· = e.position) ∧
    (e.data (fun b p => .ok (b, p))).Reports (· = e.position) := by
  refine ⟨?_, ?_, ?_, ?_⟩
  · unfold IEntry.subnodeVcn IEntry.hasSubnode IEntry.flags IEntry.length IEntry.range; reports
  · unfold IEntry.isLast IEntry.flags; reports
  · unfold IEntry.key IEntry.keyLength IEntry.isLast IEntry.flags IEntry.range; reports
  · unfold IEntry.data IEntry.dataOffset IEntry.dataLength IEntry.range; reports

/-! ### The errors of records -/

/-- What the code reports for the sector `k` whose last two bytes are not the update sequence number: the position of
the array element that holds the original bytes, not of these two bytes. -/
def Spec.MismatchAt (d : Bytes) (p : Pos) (k : Nat) (e : Err) : Prop :=
  e = .updateSequenceNumberMismatch (Pos.add p (field d 4 2 + 2 + 2 * k)) (part d (field d 4 2) 2)
    (part d (512 * k + 510) 2)

theorem fixupLoop_err (p : Pos) (usn : Bytes) (n : Nat) (d : Bytes) (ap sp : Nat) (e : Err)
    (h : Record.fixupLoop p usn n d ap sp = .err e) :
    ∃ k < n, e = .updateSequenceNumberMismatch (Pos.add p (ap + 2 * k)) usn (part d (sp + 512 * k) 2) := by
  induction n generalizing d ap sp with
  | zero => cases h
  | succ n ih =>
    unfold Record.fixupLoop at h
    cases h1 : idxRange d ap (ap + 2) with
    | err x => unfold idxRange at h1; split at h1 <;> cases h1
    | panic x => rw [h1] at h; cases h
    | diverge => unfold idxRange at h1; split at h1 <;> cases h1
    | ok nb =>
    rw [h1, Res.bind_ok] at h
    cases h2 : idxRange d sp (sp + 2) with
    | err x => unfold idxRange at h2; split at h2 <;> cases h2
    | panic x => rw [h2] at h; cases h
    | diverge => unfold idxRange at h2; split at h2 <;> cases h2
    | ok cur =>
    rw [h2, Res.bind_ok] at h
    unfold idxRange at h1 h2
    split at h1 <;> cases h1
    split at h2 <;> cases h2
    rename_i hx _ hy
    have hl := getRange_length hx
    obtain ⟨_, g2, g3⟩ := getRange_isSome_iff.1 hy
    by_cases hc : cur = usn
    · rw [if_neg (fun hne => hne hc)] at h
      obtain ⟨k, hk, he⟩ := ih _ _ _ h
      refine ⟨k + 1, by omega, ?_⟩
      rw [he]
      unfold part NTFS_BLOCK_SIZE
      rw [window_overwrite _ _ _ _ (by omega) (by omega) (by right; omega),
        show ap + 2 + 2 * k = ap + 2 * (k + 1) by omega, show sp + 512 + 512 * k = sp + 512 * (k + 1) by omega]
    · rw [if_pos hc] at h
      cases h
      refine ⟨0, by omega, ?_⟩
      rw [g3]
      unfold part
      simp

/-- **C77**: the errors of a record report the position of the record, except for a mismatch of the update sequence
number. That one is meant to report the position of the two bytes at fault (`p + 512 * k + 510`), but reports the one
of the array element. -/
theorem C77_record_errors_partial (d : Bytes) (p : Pos) (h8 : 8 ≤ d.length) (e : Err) (q : Pos)
    (h : (Record.mk d p).fixup = .err e) (hq : reported e = some q) :
    q = p ∨ ∃ k, k + 1 < field d 6 2 ∧ MismatchAt d p k e := by
  rw [fixup_eq _ h8] at h
  simp only at h
  split at h
  case isFalse => cases h; exact .inl (reported_self hq)
  split at h
  · cases h; exact .inl (reported_self hq)
  split at h
  case isFalse => cases h
  split at h
  · cases h; exact .inl (reported_self hq)
  right
  cases hl : Record.fixupLoop p ((d.drop (field d 4 2)).take 2) (field d 6 2 - 1) d (field d 4 2 + 2) 510 with
  | ok x => rw [hl] at h; cases h
  | panic x => rw [hl] at h; cases h
  | diverge => rw [hl] at h; cases h
  | err x =>
    rw [hl] at h
    cases h
    obtain ⟨k, hk, he⟩ := fixupLoop_err _ _ _ _ _ _ _ hl
    refine ⟨k, by omega, ?_⟩
    rw [he, Nat.add_comm 510]
    rfl

/-- **C77**: the errors of opening a file from the bytes of its record. -/
theorem C77_file_errors_partial (ntfs : Ntfs) (d : Bytes) (p number : Nat) (h8 : 8 ≤ d.length) (e : Err) (q : Pos)
    (h : NFile.ofBytes ntfs d p number = .err e) (hq : reported e = some q) :
    q = some p ∨ ∃ k, k + 1 < field d 6 2 ∧ MismatchAt d (some p) k e := by
  unfold NFile.ofBytes at h
  dsimp only at h
  have hs : (NFile.validateSignature ⟨d, some p⟩).Reports (· = some p) := by
    unfold NFile.validateSignature Record.signature; reports
  cases h1 : NFile.validateSignature ⟨d, some p⟩ with
  | err x => rw [h1] at h; cases h; exact .inl (hs _ _ h1 hq)
  | panic x => rw [h1] at h; cases h
  | diverge => rw [h1] at h; cases h
  | ok u =>
  rw [h1, Res.bind_ok] at h
  cases h2 : (Record.mk d (some p)).fixup with
  | err x => rw [h2] at h; cases h; exact C77_record_errors_partial d _ h8 e q h2 hq
  | panic x => rw [h2] at h; cases h
  | diverge => rw [h2] at h; cases h
  | ok r =>
  rw [h2, Res.bind_ok] at h
  have hp : r.position = some p := (Record.fixup_length h2).2
  have hz : (NFile.validateSizes ⟨ntfs, r, number⟩).Reports (· = r.position) := by
    unfold NFile.validateSizes NFile.allocatedSize NFile.dataSize NFile.position; reports
  cases h3 : NFile.validateSizes ⟨ntfs, r, number⟩ with
  | err x => rw [h3] at h; cases h; exact .inl ((hz _ _ h3 hq).trans hp)
  | panic x => rw [h3] at h; cases h
  | diverge => rw [h3] at h; cases h
  | ok u => rw [h3] at h; cases h

/-- **C77**: the errors of opening an index record from its bytes. -/
theorem C77_index_record_errors_partial (d : Bytes) (p : Pos) (h8 : 8 ≤ d.length) (e : Err) (q : Pos)
    (h : IndexRecord.ofBytes d p = .err e) (hq : reported e = some q) :
    q = p ∨ ∃ k, k + 1 < field d 6 2 ∧ MismatchAt d p k e := by
  unfold IndexRecord.ofBytes at h
  dsimp only at h
  have hs : (IndexRecord.validateSignature ⟨d, p⟩).Reports (· = p) := by
    unfold IndexRecord.validateSignature Record.signature; reports
  cases h1 : IndexRecord.validateSignature ⟨d, p⟩ with
  | err x => rw [h1] at h; cases h; exact .inl (hs _ _ h1 hq)
  | panic x => rw [h1] at h; cases h
  | diverge => rw [h1] at h; cases h
  | ok u =>
  rw [h1, Res.bind_ok] at h
  cases h2 : (Record.mk d p).fixup with
  | err x => rw [h2] at h; cases h; exact C77_record_errors_partial d _ h8 e q h2 hq
  | panic x => rw [h2] at h; cases h
  | diverge => rw [h2] at h; cases h
  | ok r =>
  rw [h2, Res.bind_ok] at h
  have hp : r.position = p := (Record.fixup_length h2).2
  have hz : (IndexRecord.validateSizes ⟨r⟩).Reports (· = r.position) := by
    unfold IndexRecord.validateSizes IndexRecord.allocatedSize IndexRecord.dataSize; reports
  cases h3 : IndexRecord.validateSizes ⟨r⟩ with
  | err x => rw [h3] at h; cases h; exact .inl ((hz _ _ h3 hq).trans hp)
  | panic x => rw [h3] at h; cases h
  | diverge => rw [h3] at h; cases h
  | ok u => rw [h3] at h; cases h

end NT
