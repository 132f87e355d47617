import Verif.Props.C25_IndexOrder

namespace NT

open Spec

/-- The results of the first `k` calls of `NtfsIndexNodeEntries::next`. -/
def NodeEntries.calls : Nat → NodeEntries → List (Res (Option IEntry))
  | 0, _ => []
  | k + 1, it =>
    let (r, it') := NodeEntries.next it
    r :: NodeEntries.calls k it'

/-- The entries that are encoded one after the other, with their positions. -/
def Spec.placed : Pos → List Bytes → List IEntry
  | _, [] => []
  | p, c :: cs => ⟨c, p⟩ :: placed (Pos.add p c.length) cs

/-- The bytes after the ordinary entries: nothing, or a last entry and arbitrary bytes. -/
inductive NodeTail : Option Bytes → Bytes → Prop
  | nothing : NodeTail none []
  | last {sub : Option Int} {c : Bytes} (h : EntryHeader true sub c) (junk : Bytes) :
      NodeTail (some c) (c ++ junk)

/-- `next` on a node that starts with an entry. -/
theorem NodeEntries.next_header {last : Bool} {sub : Option Int} {c : Bytes}
    (h : EntryHeader last sub c) (b : Bytes) (p : Pos) :
    NodeEntries.next ⟨c ++ b, p⟩ =
      (.ok (some ⟨c, p⟩), if last then ⟨[], p⟩ else ⟨b, Pos.add p c.length⟩) := by
  have hr := h.room
  have hne : (c ++ b).isEmpty = false := by
    cases c with
    | nil => simp at hr
    | cons => rfl
  have hf : field (c ++ b) 8 2 = c.length := by
    rw [← h.length]
    unfold field
    rw [List.drop_append_of_le_length (by omega), List.take_append_of_le_length (by simp; omega)]
  have en : IEntry.new (c ++ b) p = .ok ⟨c, p⟩ := by
    rw [IEntry.new_eq, if_neg (by simp; omega), hf, if_neg (by simp), List.take_left]
  have es : NodeEntries.step ⟨c ++ b, p⟩ =
      .ok (⟨c, p⟩, if last then ⟨[], p⟩ else ⟨b, Pos.add p c.length⟩) := by
    unfold NodeEntries.step
    dsimp only
    rw [en, Res.bind_ok, IEntry.isLast_of_header (e := ⟨c, p⟩) h, Res.bind_ok]
    cases last with
    | true => rfl
    | false =>
      rw [if_neg (by decide), IEntry.length_eq (e := ⟨c, p⟩) (by dsimp only; omega), Res.bind_ok]
      dsimp only
      rw [h.length, idxRange_ok (by simp) (by omega), Res.bind_ok, if_neg (by decide), List.drop_left,
        List.take_of_length_le (by simp)]
      rfl
  unfold NodeEntries.next
  rw [hne, if_neg (by decide), es]

theorem NodeEntries.calls_nil (k : Nat) (p : Pos) (i : Nat) (hi : i < k) :
    (NodeEntries.calls k ⟨[], p⟩)[i]? = some (.ok none) := by
  induction k generalizing i with
  | zero => omega
  | succ k ih =>
    unfold NodeEntries.calls
    have : NodeEntries.next ⟨[], p⟩ = (.ok none, ⟨[], p⟩) := rfl
    rw [this]
    dsimp only
    cases i with
    | zero => rfl
    | succ i => rw [List.getElem?_cons_succ]; exact ih i (by omega)

/-- **C28.** Iterating over a node that consists of the encoded entries `chunks`, a last entry and
arbitrary bytes (or just ends after the entries) shows exactly these entries one after the other, each
with all of its bytes and its position, the last entry included, and then the end for good. -/
theorem C28_iterate (chunks : List Bytes) (last : Option Bytes) (tail : Bytes)
    (hc : ∀ c ∈ chunks, ∃ sub, EntryHeader false sub c) (ht : NodeTail last tail) (p : Pos) (k i : Nat)
    (hi : i < k) :
    (NodeEntries.calls k ⟨chunks.flatten ++ tail, p⟩)[i]? =
      some (.ok (placed p (chunks ++ last.toList))[i]?) := by
  induction chunks generalizing p k i with
  | nil =>
    cases ht with
    | nothing =>
      rw [List.flatten_nil, List.append_nil, NodeEntries.calls_nil k p i hi]
      rfl
    | @last sub c h junk =>
      obtain ⟨k, rfl⟩ : ∃ k', k = k' + 1 := ⟨k - 1, by omega⟩
      unfold NodeEntries.calls
      rw [List.flatten_nil, List.nil_append, NodeEntries.next_header h junk p]
      dsimp only
      rw [if_pos rfl]
      cases i with
      | zero => rfl
      | succ i => rw [List.getElem?_cons_succ, NodeEntries.calls_nil k p i (by omega)]; rfl
  | cons c cs ih =>
    obtain ⟨k, rfl⟩ : ∃ k', k = k' + 1 := ⟨k - 1, by omega⟩
    obtain ⟨sub, h⟩ := hc c (by simp)
    unfold NodeEntries.calls
    rw [List.flatten_cons, List.append_assoc, NodeEntries.next_header h _ p]
    dsimp only
    rw [if_neg (by decide)]
    cases i with
    | zero => rfl
    | succ i =>
      rw [List.getElem?_cons_succ, ih (fun c hc' => hc c (by simp [hc'])) (Pos.add p c.length) k i
        (by omega)]
      rfl

/-- What the accessors say about an ordinary entry: its file reference, flags, subnode VCN, key and
data are those encoded. -/
theorem C28_entry {e : Ent} {sub : Option Int} {x : IEntry} (h : Encodes1 e sub x.slice) :
    x.length = .ok x.slice.length ∧ x.isLast = .ok false ∧ x.hasSubnode = .ok sub.isSome ∧
      x.subnodeVcn = .ok sub ∧ x.fileReference = .ok ⟨e.head⟩ ∧ x.keyLength = .ok e.key.length ∧
      (∀ (κ : Type) (kf : Bytes → Pos → Res κ), x.key kf =
        if e.key = [] then .ok none
        else kf e.key (Pos.add x.position 16) >>= fun k => .ok (some k)) ∧
      ∀ (δ : Type) (df : Bytes → Pos → Res δ), x.data df =
        if field e.head 0 2 = 0 ∨ field e.head 2 2 = 0 then .ok none
        else if field e.head 0 2 + field e.head 2 2 ≤ x.slice.length then
          df (part x.slice (field e.head 0 2) (field e.head 2 2))
            (Pos.add x.position (field e.head 0 2)) >>= fun k => .ok (some k)
        else .err (.invalidIndexEntryDataRange x.position (field e.head 0 2)
          (field e.head 0 2 + field e.head 2 2) (x.slice.length % U16)) := by
  have hr := h.room
  refine ⟨?_, IEntry.isLast_of_header h.toEntryHeader, ?_, IEntry.subnodeVcn_of_header h.toEntryHeader,
    (C25_contents ⟨sub, h⟩).1, ?_, ?_, ?_⟩
  · rw [IEntry.length_eq (by omega), h.length]
  · rw [IEntry.hasSubnode_eq (by omega)]
    have := (EntryHeader.bits h.toEntryHeader).2
    cases hs : sub.isSome with
    | true => rw [hs] at this; simpa using this
    | false => rw [hs] at this; simpa using this
  · unfold IEntry.keyLength
    rw [readLE_ok (n := 2) (a := 10) (by omega), h.keyLength]
  · intro κ kf
    by_cases hk : e.key = []
    · rw [if_pos hk]
      unfold IEntry.key IEntry.keyLength
      rw [readLE_ok (n := 2) (a := 10) (by omega), Res.bind_ok, h.keyLength, hk]
      rfl
    · rw [if_neg hk, IEntry.key_encodes kf h hk]
  · intro δ df
    have e0 : field e.head 0 2 = field x.slice 0 2 := by
      rw [← h.head, field_take (by omega)]
    have e2 : field e.head 2 2 = field x.slice 2 2 := by
      rw [← h.head, field_take (by omega)]
    rw [e0, e2]
    unfold IEntry.data IEntry.dataOffset IEntry.dataLength
    rw [readLE_ok (n := 2) (a := 0) (by omega), Res.bind_ok]
    by_cases h0 : field x.slice 0 2 = 0
    · rw [if_pos h0, if_pos (.inl h0)]; rfl
    rw [if_neg h0, readLE_ok (n := 2) (a := 2) (by omega), Res.bind_ok]
    by_cases h2 : field x.slice 2 2 = 0
    · rw [if_pos h2, if_pos (.inr h2)]; rfl
    rw [if_neg h2, if_neg (by omega), IEntry.range_eq _ (by omega)]
    split
    · rw [Res.bind_ok, Nat.add_sub_cancel_left]; rfl
    · rfl

/-- What the accessors say about the last entry of a node: no key, whatever its key length says. -/
theorem C28_last_entry {sub : Option Int} {x : IEntry} (h : EntryHeader true sub x.slice) :
    x.isLast = .ok true ∧ x.subnodeVcn = .ok sub ∧
      ∀ (κ : Type) (kf : Bytes → Pos → Res κ), x.key kf = .ok none := by
  have hr := h.room
  refine ⟨IEntry.isLast_of_header h, IEntry.subnodeVcn_of_header h, fun κ kf => ?_⟩
  unfold IEntry.key IEntry.keyLength
  rw [readLE_ok (n := 2) (a := 10) (by omega), Res.bind_ok]
  split
  · rfl
  · rw [IEntry.isLast_of_header h, Res.bind_ok, if_pos rfl]; rfl

/-- One call on arbitrary bytes. -/
theorem NodeEntries.next_inside {it it' : NodeEntries} {r : Res (Option IEntry)}
    (h : it.next = (r, it')) :
    (∃ o, o ≤ it.slice.length ∧ it'.slice = it.slice.drop o) ∧
      ∀ x, r = .ok (some x) → x.slice.length ≤ it.slice.length ∧ x.slice = it.slice.take x.slice.length ∧
        13 ≤ x.slice.length := by
  unfold NodeEntries.next at h
  by_cases he : it.slice.isEmpty
  · rw [if_pos he] at h
    cases h
    exact ⟨⟨0, Nat.zero_le _, rfl⟩, fun x hx => by cases hx⟩
  rw [if_neg he] at h
  cases hs : it.step with
  | ok q =>
    obtain ⟨e, it2⟩ := q
    rw [hs] at h
    cases h
    unfold NodeEntries.step at hs
    rw [Res.bind_eq_ok] at hs
    obtain ⟨e2, h1, h2⟩ := hs
    rw [IEntry.new_eq] at h1
    split at h1
    · cases h1
    split at h1
    · cases h1
    injection h1 with h1
    subst h1
    rw [Res.bind_eq_ok] at h2
    obtain ⟨b, h3, h2⟩ := h2
    have h13 : 13 ≤ (it.slice.take (field it.slice 8 2)).length := by
      by_cases hh : 13 ≤ (it.slice.take (field it.slice 8 2)).length
      · exact hh
      · unfold IEntry.isLast IEntry.flags idxByte at h3
        have : (it.slice.take (field it.slice 8 2))[12]? = none := List.getElem?_eq_none (by omega)
        dsimp only at h3
        rw [this] at h3
        cases h3
    rename_i hlen hfit
    have hl : (it.slice.take (field it.slice 8 2)).length = field it.slice 8 2 := by
      rw [List.length_take]; omega
    cases b with
    | true =>
      rw [if_pos rfl] at h2
      cases h2
      refine ⟨⟨it.slice.length, Nat.le_refl _, by rw [List.drop_length]⟩, fun x hx => ?_⟩
      cases hx
      exact ⟨by dsimp only; omega, by dsimp only; rw [hl], h13⟩
    | false =>
      rw [if_neg (by decide), Res.bind_eq_ok] at h2
      obtain ⟨n, h4, h2⟩ := h2
      rw [Res.bind_eq_ok] at h2
      obtain ⟨s, h5, h2⟩ := h2
      rw [IEntry.length_eq (by dsimp only; omega)] at h4
      dsimp only at h4
      rw [field_take (by omega)] at h4
      cases h4
      rw [idxRange_ok (by omega) (Nat.le_refl _)] at h5
      cases h5
      cases h2
      refine ⟨⟨field it.slice 8 2, by omega, ?_⟩, fun x hx => ?_⟩
      · dsimp only
        rw [List.take_of_length_le (by simp)]
      · cases hx
        exact ⟨by dsimp only; omega, by dsimp only; rw [hl], h13⟩
  | err e => rw [hs] at h; cases h; exact ⟨⟨0, Nat.zero_le _, rfl⟩, fun x hx => by cases hx⟩
  | panic e => rw [hs] at h; cases h; exact ⟨⟨0, Nat.zero_le _, rfl⟩, fun x hx => by cases hx⟩
  | diverge => rw [hs] at h; cases h; exact ⟨⟨0, Nat.zero_le _, rfl⟩, fun x hx => by cases hx⟩

/-- Whatever the bytes of the node are, every entry that is shown lies inside of them. -/
theorem C28_inside (it : NodeEntries) (k i : Nat) (x : IEntry)
    (h : (NodeEntries.calls k it)[i]? = some (.ok (some x))) :
    ∃ o, o + x.slice.length ≤ it.slice.length ∧ x.slice = part it.slice o x.slice.length := by
  induction k generalizing it i with
  | zero => simp [NodeEntries.calls] at h
  | succ k ih =>
    unfold NodeEntries.calls at h
    generalize hq : it.next = q at h
    obtain ⟨r, it'⟩ := q
    dsimp only at h
    obtain ⟨⟨o, ho, hsl⟩, hx⟩ := NodeEntries.next_inside hq
    cases i with
    | zero =>
      rw [List.getElem?_cons_zero] at h
      obtain ⟨h1, h2, _⟩ := hx x (Option.some.inj h)
      exact ⟨0, by omega, by unfold part; rw [List.drop_zero]; exact h2⟩
    | succ i =>
      rw [List.getElem?_cons_succ] at h
      obtain ⟨o2, h1, h2⟩ := ih it' i h
      rw [hsl] at h1 h2
      rw [List.length_drop] at h1
      refine ⟨o + o2, by omega, ?_⟩
      unfold part at h2 ⊢
      rw [List.drop_drop] at h2
      exact h2

/-- **C28**: whether an index record has subnodes is the lowest bit of the byte at 36 (the flags of the node
header at 24), for every record that reaches that far; shorter ones panic. -/
theorem C28_record_has_subnodes (r : IndexRecord) :
    (36 < r.record.data.length → r.hasSubnodes = .ok ((field r.record.data 36 1).testBit 0)) ∧
    (r.record.data.length ≤ 36 → r.hasSubnodes = .panic .slice) := by
  constructor
  · intro h
    unfold IndexRecord.hasSubnodes
    rw [idxByte_ok h, Res.bind_ok, Nat.testBit_zero]
    show Res.ok _ = Res.ok _
    congr 1
  · intro h
    unfold IndexRecord.hasSubnodes idxByte
    rw [List.getElem?_eq_none h]
    rfl

example : (⟨⟨List.replicate 36 0 ++ [3], none⟩⟩ : IndexRecord).hasSubnodes = .ok true ∧
    36 < (List.replicate 36 (0 : UInt8) ++ [3]).length := by decide

/-- The node of an index record: `NtfsIndexRecord::entries` starts at the entries and ends where the
record says. -/
theorem C28_record_entries (d : Bytes) (p : Pos) (h : 40 ≤ d.length)
    (ho : field d 24 4 ≤ field d 28 4) (hs : 24 + field d 28 4 ≤ d.length) :
    (IndexRecord.mk ⟨d, p⟩).entries =
      .ok ⟨part d (24 + field d 24 4) (field d 28 4 - field d 24 4), Pos.add p (24 + field d 24 4)⟩ := by
  unfold IndexRecord.entries IndexRecord.entriesRange IndexRecord.entriesOffset IndexRecord.dataSize
  rw [readLE_ok (n := 4) (a := 24) (by dsimp only; omega),
    readLE_ok (n := 4) (a := 28) (by dsimp only; omega)]
  simp only [Res.bind_ok, Res.pure_eq]
  rw [idxRange_ok (by omega) hs, Res.bind_ok]
  have : 24 + field d 28 4 - (24 + field d 24 4) = field d 28 4 - field d 24 4 := by omega
  rw [this]
  rfl

/-- The node of an index root. -/
theorem C28_root_entries {rv d : Bytes} {size : Nat} {large : Bool} (h : RootAt rv size large d)
    (p : Pos) :
    ∃ r, IndexRoot.new rv p = .ok r ∧ r.entries = .ok ⟨d, Pos.add p (16 + field rv 16 4)⟩ :=
  ⟨_, (IndexRoot.new_rootAt h p).1, (IndexRoot.new_rootAt h p).2.2.2.2⟩

/-! ### The hypotheses can be met -/

/-- The node with VCN 1 of the example directory: "c", "D", a last entry, no bytes after it. -/
example : ∃ c1 c2 c3, part (exDirNode1 ++ [1, 2]) 48 192 = [c1, c2].flatten ++ c3 ∧
    Encodes1 exEntC none c1 ∧ Encodes1 exEntD none c2 ∧ NodeTail (some c3) c3 := by
  refine ⟨part exDirNode1 48 88, part exDirNode1 136 88, part exDirNode1 224 16, by decide +kernel, ?_,
    ?_, ?_⟩
  · exact
      { room := by decide +kernel, length := by decide +kernel, flags := by decide +kernel
        vcn := by intro v hv; cases hv
        head := by decide +kernel, keyLength := by decide +kernel, fits := by decide +kernel
        key := by decide +kernel }
  · exact
      { room := by decide +kernel, length := by decide +kernel, flags := by decide +kernel
        vcn := by intro v hv; cases hv
        head := by decide +kernel, keyLength := by decide +kernel, fits := by decide +kernel
        key := by decide +kernel }
  · have := NodeTail.last (sub := none) (c := part exDirNode1 224 16)
      { room := by decide +kernel, length := by decide +kernel, flags := by decide +kernel
        vcn := by intro v hv; cases hv } []
    rwa [List.append_nil] at this

/-- A last entry with the subnode -1 followed by junk, after an entry of 16 bytes without a key. -/
example : NodeEntries.calls 4 ⟨[[1, 0, 0, 0, 0, 0, 0, 0, 16, 0, 0, 0, 0, 0, 0, 0]].flatten ++
      ([0, 0, 0, 0, 0, 0, 0, 0, 24, 0, 7, 0, 3, 0, 0, 0, 255, 255, 255, 255, 255, 255, 255, 255] ++ [9, 9]),
      some 100⟩ =
    [.ok (some ⟨[1, 0, 0, 0, 0, 0, 0, 0, 16, 0, 0, 0, 0, 0, 0, 0], some 100⟩),
     .ok (some ⟨[0, 0, 0, 0, 0, 0, 0, 0, 24, 0, 7, 0, 3, 0, 0, 0, 255, 255, 255, 255, 255, 255, 255, 255],
       some 116⟩), .ok none, .ok none] := by decide

/-! ### The theorems of this file on that node -/

theorem exEntC_encoded : Encodes1 exEntC none (part exDirNode1 48 88) :=
  { room := by decide +kernel, length := by decide +kernel, flags := by decide +kernel
    vcn := by intro v hv; cases hv
    head := by decide +kernel, keyLength := by decide +kernel, fits := by decide +kernel
    key := by decide +kernel }

theorem exLast_encoded : EntryHeader true none (part exDirNode1 224 16) :=
  { room := by decide +kernel, length := by decide +kernel, flags := by decide +kernel, vcn := by intro v hv; cases hv }

example := C28_iterate [part exDirNode1 48 88] _ _ (by
    intro c hc
    rw [List.mem_singleton] at hc
    subst hc
    exact ⟨_, exEntC_encoded.toEntryHeader⟩) (NodeTail.last (c := part exDirNode1 224 16) (junk := [9, 9]) exLast_encoded) (some 8) 4 2 (by decide)
example := C28_entry (x := ⟨part exDirNode1 48 88, some 7⟩) exEntC_encoded
example := C28_last_entry (x := ⟨part exDirNode1 224 16, some 7⟩) exLast_encoded
example := C28_inside ⟨part exDirNode1 48 192, some 7⟩ 3 1 ⟨part exDirNode1 136 88, some 95⟩ (by decide +kernel)
example := C28_record_entries (exDirNode1 ++ [1, 2]) (some 7) (by decide +kernel) (by decide +kernel) (by decide +kernel)
example := C28_root_entries exDir_rootAt (some 7)

end NT
