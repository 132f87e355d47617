import Verif.Lemmas.ExDirectory

namespace NT

open Spec

/-- What the bytes of an index root say: records of `size` bytes, whether there are subnodes, and
the bytes `d` of the entries. -/
structure Spec.RootAt (rv : Bytes) (size : Nat) (large : Bool) (d : Bytes) : Prop where
  room : 32 ≤ rv.length
  size : field rv 8 4 = size
  large : field rv 28 1 % 2 = if large then 1 else 0
  start : 16 + field rv 16 4 < rv.length
  order : field rv 16 4 ≤ field rv 20 4
  stop : 16 + field rv 20 4 ≤ rv.length
  entries : part rv (16 + field rv 16 4) (field rv 20 4 - field rv 16 4) = d

/-- Decoding an index root. -/
theorem IndexRoot.new_rootAt {rv d : Bytes} {size : Nat} {large : Bool} (h : RootAt rv size large d)
    (p : Pos) :
    IndexRoot.new rv p = .ok ⟨rv, p⟩ ∧ (IndexRoot.mk rv p).recordSize = .ok size ∧
      (IndexRoot.mk rv p).isLarge = .ok large ∧
      (IndexRoot.mk rv p).entryRanges = .ok ⟨d, 0, d.length, Pos.add p (16 + field rv 16 4)⟩ ∧
      (IndexRoot.mk rv p).entries = .ok ⟨d, Pos.add p (16 + field rv 16 4)⟩ := by
  have h1 := h.room
  have h2 := h.start
  have h3 := h.order
  have h4 := h.stop
  have hr : (IndexRoot.mk rv p).entriesRange =
      .ok (16 + field rv 16 4, 16 + field rv 20 4, Pos.add p (16 + field rv 16 4)) := by
    unfold IndexRoot.entriesRange IndexRoot.entriesOffset IndexRoot.dataSize
    rw [readLE_ok (n := 4) (a := 16) (by dsimp only; omega),
      readLE_ok (n := 4) (a := 20) (by dsimp only; omega)]
    rfl
  have hd : idxRange rv (16 + field rv 16 4) (16 + field rv 20 4) = .ok d := by
    rw [idxRange_ok (by omega) (by omega), ← h.entries]
    unfold part
    congr 2
    omega
  refine ⟨?_, ?_, ?_, ?_, ?_⟩
  · unfold IndexRoot.new IndexRoot.validateSizes
    rw [if_neg (by omega)]
    dsimp only
    rw [hr, Res.bind_ok]
    dsimp only
    rw [if_neg (by omega), if_neg (by omega)]
    rfl
  · unfold IndexRoot.recordSize
    rw [readLE_ok (n := 4) (a := 8) (by dsimp only; omega)]
    exact congrArg Res.ok h.size
  · unfold IndexRoot.isLarge
    dsimp only
    rw [idxByte_field (by omega), Res.bind_ok, h.large]
    cases large <;> rfl
  · unfold IndexRoot.entryRanges
    rw [hr, Res.bind_ok]
    dsimp only
    rw [hd, Res.bind_ok]
    unfold NodeRanges.new
    rw [if_pos (Nat.le_refl _)]
  · unfold IndexRoot.entries
    rw [hr, Res.bind_ok]
    dsimp only
    rw [hd, Res.bind_ok]
    rfl

/-- The index root attribute `a` is resident and its value is `rv`. -/
structure Attr.RootValue (a : Attr) (rv : Bytes) : Prop where
  ty : a.ty = .ok .indexRoot
  resident : a.isResident = .ok true
  value : ∃ p, a.residentValue = .ok ⟨rv, p, 0⟩

/-- `NtfsIndex::new` on a stored index root. -/
theorem Index.new_stored_at {rootItem : AttrItem} {ra : Attr} {rv d : Bytes} {size : Nat} {large : Bool}
    (hi : rootItem.toAttribute = .ok ra) (hv : ra.RootValue rv) (hr : RootAt rv size large d)
    (allocItem : Option AttrItem)
    (ha : match allocItem with
      | some item => ∃ a, item.toAttribute = .ok a ∧ a.ty = .ok .indexAllocation
      | none => large = false) {p0 : Pos} (hp : ra.residentValue = .ok ⟨rv, p0, 0⟩) :
    Index.new rootItem allocItem = .ok
      ⟨size, ⟨d, 0, d.length, Pos.add (Pos.add p0 0) (16 + field rv 16 4)⟩, Pos.add p0 0, allocItem⟩ := by
  have hp0 : (ResVal.mk rv p0 0).dataPosition = Pos.add p0 0 := by
    unfold ResVal.dataPosition
    exact if_pos (Nat.zero_le _)
  generalize Pos.add p0 0 = p at hp0 ⊢
  obtain ⟨h1, h2, h3, h4, _⟩ := IndexRoot.new_rootAt hr p
  have hroot : ra.residentIndexRoot = .ok ⟨rv, p⟩ := by
    unfold Attr.residentIndexRoot Attr.ensureTy
    rw [hv.ty, Res.bind_ok, if_neg (by simp), Res.bind_ok, hv.resident, Res.bind_ok, if_pos rfl, hp,
      Res.bind_ok]
    unfold IndexRoot.ofResident
    rw [hp0]
    exact h1
  unfold Index.new
  have hty : ra.ensureTy .indexRoot = .ok () := by
    unfold Attr.ensureTy
    rw [hv.ty, Res.bind_ok, if_neg (by simp)]
  have hc : Index.checkAllocation ⟨rv, p⟩ allocItem = .ok () := by
    unfold Index.checkAllocation
    cases allocItem with
    | some item =>
      obtain ⟨a, ea, ety⟩ := ha
      dsimp only
      unfold Attr.ensureTy
      rw [ea, Res.bind_ok, ety, Res.bind_ok, if_neg (by simp)]
    | none =>
      have hl : large = false := ha
      dsimp only
      rw [h3, Res.bind_ok, hl, if_neg (by decide)]
  rw [hi, Res.bind_ok, hty, Res.bind_ok, hroot, Res.bind_ok, hc, Res.bind_ok, h2, Res.bind_ok, h4,
    Res.bind_ok]
  rfl

theorem Index.new_stored {rootItem : AttrItem} {ra : Attr} {rv d : Bytes} {size : Nat} {large : Bool}
    (hi : rootItem.toAttribute = .ok ra) (hv : ra.RootValue rv) (hr : RootAt rv size large d)
    (allocItem : Option AttrItem)
    (ha : match allocItem with
      | some item => ∃ a, item.toAttribute = .ok a ∧ a.ty = .ok .indexAllocation
      | none => large = false) :
    ∃ p q, Index.new rootItem allocItem = .ok ⟨size, ⟨d, 0, d.length, q⟩, p, allocItem⟩ := by
  obtain ⟨p0, hp⟩ := hv.value
  exact ⟨_, _, Index.new_stored_at hi hv hr allocItem ha hp⟩

/-- The tree `t` is stored in the image as an index: the value of the index root attribute holds the
root node, the other nodes are records of the index allocation, if there is one. -/
inductive StoredIndex (img : Bytes) (rootItem : AttrItem) : Option AttrItem → Node → Prop
  | small {ra : Attr} {rv d : Bytes} {size : Nat} {t : Node} (hi : rootItem.toAttribute = .ok ra)
      (hv : ra.RootValue rv) (hr : RootAt rv size false d)
      (ht : NodeAt (fun _ _ _ _ => False) d 0 d.length t) : StoredIndex img rootItem none t
  | large {ra a : Attr} {rv d c : Bytes} {size len : Nat} {large : Bool} {item : AttrItem} {t : Node}
      (hi : rootItem.toAttribute = .ok ra) (hv : ra.RootValue rv) (hr : RootAt rv size large d)
      (hitem : item.toAttribute = .ok a) (hty : a.ty = .ok .indexAllocation) (ho : a.Opens img c len)
      (hn : a.NonResident)
      (ht : NodeAt (RecordAt c a.file.ntfs.clusterSize size) d 0 d.length t) :
      StoredIndex img rootItem (some item) t

/-- The index `ix` holds the tree `t`. -/
def Index.Holds (ix : Index) (img : Bytes) (t : Node) : Prop :=
  ∃ R, ix.LoadsBy img R ∧ ix.rootRanges.stop ≤ ix.rootRanges.data.length ∧
    NodeAt R ix.rootRanges.data ix.rootRanges.start ix.rootRanges.stop t

/-- Opening a stored index. -/
theorem StoredIndex.new {img : Bytes} {rootItem : AttrItem} {allocItem : Option AttrItem} {t : Node}
    (h : StoredIndex img rootItem allocItem t) :
    ∃ ix, Index.new rootItem allocItem = .ok ix ∧ ix.Holds img t ∧ ix.allocationItem = allocItem := by
  cases h with
  | small hi hv hr ht =>
    obtain ⟨p, q, e⟩ := Index.new_stored hi hv hr none rfl
    exact ⟨_, e, ⟨_, fun _ _ _ _ hf => hf.elim, Nat.le_refl _, ht⟩, rfl⟩
  | @large ra a rv d c size len large item _ hi hv hr hitem hty ho hn ht =>
    obtain ⟨p, q, e⟩ := Index.new_stored hi hv hr (some item) ⟨a, hitem, hty⟩
    refine ⟨_, e, ⟨RecordAt c a.file.ntfs.clusterSize size, ?_, Nat.le_refl _, ht⟩, rfl⟩
    have hs : size < U32 := by
      rw [← hr.size]
      have := hr.room
      exact field_lt (d := rv) (a := 8) (n := 4) (by omega)
    exact Index.Allocated.loadsBy (ix := ⟨size, ⟨d, 0, d.length, q⟩, p, some item⟩) (cs := a.file.ntfs.clusterSize)
      (item := item) (a := a) ⟨rfl, hitem, hty, ho, hn, rfl, hs⟩

theorem Index.stack {ix : Index} {t : Node} {R : Int → Bytes → Nat → Nat → Prop}
    (h2 : ix.rootRanges.stop ≤ ix.rootRanges.data.length)
    (h3 : NodeAt R ix.rootRanges.data ix.rootRanges.start ix.rootRanges.stop t) :
    Stack R (IndexEntries.new ix).inner (IndexEntries.new ix).following t.inorder t.rounds :=
  .root h2 h3

/-- **C25.** On a stored index, repeated calls of `entries().next()` show the entries of the tree in
order, each once, and then the end again and again. `fuel` is any bound on the rounds of the loop that is
larger than the number of entries plus the number of nodes. -/
theorem C25_inorder {img : Bytes} {rootItem : AttrItem} {allocItem : Option AttrItem} {t : Node}
    (h : StoredIndex img rootItem allocItem t) :
    ∃ ix, Index.new rootItem allocItem = .ok ix ∧
      ∀ (fuel k : Nat) (d : Dev), t.entries + t.nodes < fuel → d.Ok img →
        (IndexEntries.calls ix fuel k (IndexEntries.new ix, d)).length = k ∧
        ShowsThenEnds t.inorder (IndexEntries.calls ix fuel k (IndexEntries.new ix, d)) := by
  obtain ⟨ix, e, ⟨R, h1, h2, h3⟩, _⟩ := h.new
  refine ⟨ix, e, fun fuel k d hf hd => ⟨?_, ?_⟩⟩
  · generalize (IndexEntries.new ix, d) = s
    clear hf
    induction k generalizing s with
    | zero => rfl
    | succ k ih => unfold IndexEntries.calls; dsimp only; rw [List.length_cons, ih]
  · exact IndexEntries.calls_stack h1 fuel k _ d _ _ (Index.stack h2 h3) hd hf

/-- What a shown entry has: the reference in its first eight bytes, and the key that is parsed from
its key bytes. -/
theorem C25_contents {x : IEntry} {e : Ent} (h : x.Is e) :
    x.fileReference = .ok ⟨e.head⟩ ∧
      ∀ (κ : Type) (keyFromSlice : Bytes → Pos → Res κ), e.key ≠ [] →
        ∃ p, x.key keyFromSlice = keyFromSlice e.key p >>= fun k => .ok (some k) := by
  obtain ⟨sub, hs⟩ := h
  have hr := hs.room
  refine ⟨?_, fun κ kf hk => ⟨_, IEntry.key_encodes kf hs hk⟩⟩
  unfold IEntry.fileReference
  rw [idxRange_ok (by omega) (by omega), Res.bind_ok, List.drop_zero]
  show Res.ok (FileRef.mk (x.slice.take 8)) = _
  rw [hs.head]

/-! ### The hypotheses can be met -/

theorem exDir_rootAt : RootAt (part exDirRecord 88 152) 512 true exDirRoot where
  room := by decide +kernel
  size := by decide +kernel
  large := by decide +kernel
  start := by decide +kernel
  order := by decide +kernel
  stop := by decide +kernel
  entries := by decide +kernel

set_option maxRecDepth 20000 in
theorem exDir_rootValue (table : Option (List Nat)) :
    (exDirRootItem table).toAttribute = .ok ⟨exDirFile table, 56, none⟩ ∧
      Attr.RootValue ⟨exDirFile table, 56, none⟩ (part exDirRecord 88 152) := by
  have e1 : Attr.ty ⟨exDirFile none, 56, none⟩ = .ok .indexRoot := by decide +kernel
  have e2 : Attr.isResident ⟨exDirFile none, 56, none⟩ = .ok true := by decide +kernel
  have e3 : Attr.residentValue ⟨exDirFile none, 56, none⟩ =
    .ok ⟨part exDirRecord 88 152, Pos.add (some 512) 56, 0⟩ := by decide +kernel
  exact ⟨rfl, e1, e2, _, e3⟩

theorem exDir_storedIndex (table : Option (List Nat)) :
    StoredIndex exDirImage (exDirRootItem table) (some (exDirAllocItem table)) exDirTree := by
  have ht := exDir_tree
  have e : exDirRoot.length = 120 := by decide +kernel
  rw [← e] at ht
  exact .large (exDir_rootValue table).1 (exDir_rootValue table).2 exDir_rootAt
    (exDir_allocated table).attr (exDir_allocated table).ty (exDir_opens table)
    (exDir_allocated table).nonRes ht

/-- The example directory is shown as A, b, c, D. -/
example : exDirTree.inorder = [exEntA, exEntB, exEntC, exEntD] := rfl

/-- `C25_inorder` on the example directory, and `C25_contents` on the first entry of its second record. -/
example := C25_inorder (exDir_storedIndex none)
example := C25_contents (x := ⟨part exDirNode1 48 88, some 7⟩) (e := exEntC) ⟨none,
  { room := by decide +kernel, length := by decide +kernel, flags := by decide +kernel
    vcn := by intro v hv; cases hv
    head := by decide +kernel, keyLength := by decide +kernel, fits := by decide +kernel
    key := by decide +kernel }⟩

end NT
