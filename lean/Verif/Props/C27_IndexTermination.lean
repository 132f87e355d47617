import Verif.Props.C26_IndexFind

namespace NT

open Spec

/-! ### Acyclic indexes -/

/-- **C27, partial.** Where the index is a finite tree, every call of `entries().next()` ends, after at
most as many rounds as there are entries and nodes in the tree.

Full claim: the calls end on every image. It is false, see `C27_negation`. -/
theorem C27_entries_end_partial {img : Bytes} {rootItem : AttrItem} {allocItem : Option AttrItem}
    {t : Node} (h : StoredIndex img rootItem allocItem t) :
    ∃ ix, Index.new rootItem allocItem = .ok ix ∧
      ∀ (k : Nat) (d : Dev), d.Ok img → ∀ r ∈
        IndexEntries.calls ix (t.entries + t.nodes + 1) k (IndexEntries.new ix, d), r ≠ .diverge := by
  obtain ⟨ix, e, h1⟩ := C25_inorder h
  refine ⟨ix, e, fun k d hd r hr => ?_⟩
  obtain ⟨i, hi⟩ := List.mem_iff_getElem?.1 hr
  have := (h1 _ k d (Nat.lt_succ_self _) hd).2 i r hi
  generalize t.inorder[i]? = o at this
  cases o with
  | none => rw [show r = .ok none from this]; exact fun h => by cases h
  | some e =>
    obtain ⟨x, rfl, _⟩ := this
    exact fun h => by cases h

theorem Index.findLoop_ends {κ : Type} {keyFromSlice : Bytes → Pos → Res κ} {cmp : κ → Res Ordering}
    (hkd : ∀ b p, keyFromSlice b p ≠ .diverge) (hcd : ∀ k, cmp k ≠ .diverge)
    {ix : Index} {img : Bytes} {R : Int → Bytes → Nat → Nat → Prop}
    (hix : ix.LoadsBy img R) {d : Bytes} {start stop : Nat} {t : Node} (ht : NodeAt R d start stop t)
    (fuel : Nat) (hf : t.entries + t.nodes ≤ fuel) (p : Pos) (dev : Dev) (hd : dev.Ok img) :
    (Index.findLoop keyFromSlice cmp ix fuel ⟨d, start, stop, p⟩ dev).1 ≠ .diverge := by
  have hj : ∀ (x : IEntry), 16 ≤ x.slice.length → Index.judge keyFromSlice cmp x ≠ .diverge := by
    intro x hx
    unfold Index.judge IEntry.key IEntry.keyLength
    rw [readLE_ok (n := 2) (a := 10) (by omega), Res.bind_ok]
    split
    · exact fun h => by cases h
    · rw [IEntry.isLast_eq (by omega), Res.bind_ok]
      split
      · exact fun h => by cases h
      · rw [IEntry.range_eq _ (by omega)]
        split
        · rw [Res.bind_ok]
          have := hkd (part x.slice 16 (16 + field x.slice 10 2 - 16)) (Pos.add x.position 16)
          generalize keyFromSlice _ _ = q at this
          cases q with
          | ok k =>
            rw [Res.bind_ok, Res.pure_eq, Res.bind_ok]
            dsimp only
            have := hcd k
            generalize cmp k = q2 at this
            cases q2 with
            | ok o => rw [Res.bind_ok]; cases o <;> exact fun h => by cases h
            | err e => exact fun h => by cases h
            | panic e => exact fun h => by cases h
            | diverge => exact absurd rfl this
          | err e => exact fun h => by cases h
          | panic e => exact fun h => by cases h
          | diverge => exact absurd rfl this
        · exact fun h => by cases h
  induction ht generalizing fuel p dev with
  | stop h =>
    obtain ⟨fuel, rfl⟩ : ∃ f, fuel = f + 1 := ⟨fuel - 1, by simp [Node.entries, Node.nodes] at hf; omega⟩
    unfold Index.findLoop NodeRanges.next
    rw [if_pos (by dsimp only; omega)]
    exact fun h => by cases h
  | @last d off stop len h hin he =>
    obtain ⟨fuel, rfl⟩ : ∃ f, fuel = f + 1 := ⟨fuel - 1, by simp [Node.entries, Node.nodes] at hf; omega⟩
    unfold Index.findLoop
    rw [NodeRanges.next_header (it := ⟨d, off, stop, p⟩) h hin he]
    dsimp only
    rw [if_pos rfl]
    dsimp only
    rw [EntryRange.toEntry_header p hin he]
    dsimp only
    rw [Index.judge_last _ _ (x := ⟨part d off len, p⟩) he,
      IEntry.subnodeVcn_of_header (e := ⟨part d off len, p⟩) he]
    exact fun h => by cases h
  | @lastSub d off stop len v d' off' stop' sub h hin he hr hsub ih =>
    obtain ⟨fuel, rfl⟩ : ∃ f, fuel = f + 1 := ⟨fuel - 1, by simp [Node.entries, Node.nodes] at hf; omega⟩
    unfold Index.findLoop
    rw [NodeRanges.next_header (it := ⟨d, off, stop, p⟩) h hin he]
    dsimp only
    rw [if_pos rfl]
    dsimp only
    rw [EntryRange.toEntry_header p hin he]
    dsimp only
    rw [Index.judge_last _ _ (x := ⟨part d off len, p⟩) he,
      IEntry.subnodeVcn_of_header (e := ⟨part d off len, p⟩) he]
    dsimp only
    obtain ⟨q, dev1, e1, hd1⟩ := (hix _ _ _ _ hr).2 dev hd
    rw [e1]
    dsimp only
    exact ih fuel (by simp only [Node.entries, Node.nodes] at hf; omega) q dev1 hd1
  | @leaf d off stop len e rest h hin he hrest ih =>
    obtain ⟨fuel, rfl⟩ : ∃ f, fuel = f + 1 := ⟨fuel - 1, by simp [Node.entries] at hf; omega⟩
    unfold Index.findLoop
    rw [NodeRanges.next_header (it := ⟨d, off, stop, p⟩) h hin he.toEntryHeader]
    dsimp only
    rw [if_neg (by decide)]
    dsimp only
    rw [EntryRange.toEntry_header p hin he.toEntryHeader]
    dsimp only
    rw [IEntry.subnodeVcn_of_header (e := ⟨part d off len, p⟩) he.toEntryHeader]
    have := hj ⟨part d off len, p⟩ (by have := he.room; dsimp only; omega)
    generalize Index.judge keyFromSlice cmp _ = q at this
    cases q with
    | ok o =>
      cases o with
      | none => exact fun h => by cases h
      | some b =>
        cases b with
        | true => exact fun h => by cases h
        | false => exact ih fuel (by simp only [Node.entries, Node.nodes] at hf; omega) _ dev hd
    | err e => exact fun h => by cases h
    | panic e => exact fun h => by cases h
    | diverge => exact absurd rfl this
  | @inner d off stop len v d' off' stop' sub e rest h hin he hr hsub hrest ih1 ih2 =>
    obtain ⟨fuel, rfl⟩ : ∃ f, fuel = f + 1 := ⟨fuel - 1, by simp [Node.entries] at hf; omega⟩
    unfold Index.findLoop
    rw [NodeRanges.next_header (it := ⟨d, off, stop, p⟩) h hin he.toEntryHeader]
    dsimp only
    rw [if_neg (by decide)]
    dsimp only
    rw [EntryRange.toEntry_header p hin he.toEntryHeader]
    dsimp only
    rw [IEntry.subnodeVcn_of_header (e := ⟨part d off len, p⟩) he.toEntryHeader]
    dsimp only
    obtain ⟨q, dev1, e1, hd1⟩ := (hix _ _ _ _ hr).2 dev hd
    rw [e1]
    dsimp only
    have := hj ⟨part d off len, p⟩ (by have := he.room; dsimp only; omega)
    generalize Index.judge keyFromSlice cmp _ = q at this
    cases q with
    | ok o =>
      cases o with
      | none => exact ih1 fuel (by simp only [Node.entries, Node.nodes] at hf; omega) _ dev1 hd1
      | some b =>
        cases b with
        | true => exact fun h => by cases h
        | false => exact ih2 fuel (by simp only [Node.entries, Node.nodes] at hf; omega) _ dev hd
    | err e => exact fun h => by cases h
    | panic e => exact fun h => by cases h
    | diverge => exact absurd rfl this

/-- **C27, partial.** Where the index is a finite tree, `find` ends after at most as many rounds as there
are entries and nodes in the tree, for every way to parse keys and every comparison, sorted or not. -/
theorem C27_find_ends_partial {img : Bytes} {rootItem : AttrItem} {allocItem : Option AttrItem} {t : Node}
    (h : StoredIndex img rootItem allocItem t) :
    ∃ ix, Index.new rootItem allocItem = .ok ix ∧
      ∀ (κ : Type) (keyFromSlice : Bytes → Pos → Res κ) (cmp : κ → Res Ordering) (d : Dev),
        (∀ b p, keyFromSlice b p ≠ .diverge) → (∀ k, cmp k ≠ .diverge) → d.Ok img →
        (ix.find keyFromSlice cmp (t.entries + t.nodes) d).1 ≠ .diverge := by
  obtain ⟨ix, e, ⟨R, h1, h2, h3⟩, _⟩ := h.new
  exact ⟨ix, e, fun κ kf cmp d hk hc hd => Index.findLoop_ends hk hc h1 h3 _ (Nat.le_refl _) _ d hd⟩

/-! ### Cyclic indexes -/

/-- The node in `d` from `off` to `stop` starts with an entry that has a subnode in `V`. -/
def LeadsInto (V : Int → Prop) (last : Bool) (d : Bytes) (off stop : Nat) : Prop :=
  ∃ len v, off < stop ∧ off + len ≤ d.length ∧ EntryHeader last (some v) (part d off len) ∧ V v

/-- The iteration never ends on an index that leads into a set of records each of which leads into the
set again. -/
theorem C27_cyclic_entries {ix : Index} {img : Bytes} {R : Int → Bytes → Nat → Nat → Prop}
    (hix : ix.LoadsBy img R) (V : Int → Prop) (last : Bool)
    (hV : ∀ v, V v → ∃ d off stop, R v d off stop ∧ LeadsInto V last d off stop)
    (hroot : LeadsInto V last ix.rootRanges.data ix.rootRanges.start ix.rootRanges.stop) (fuel : Nat)
    (dev : Dev) (hd : dev.Ok img) :
    (IndexEntries.next ix fuel (IndexEntries.new ix, dev)).1 = .diverge := by
  have key : ∀ (fuel : Nat) (top : NodeRanges) (below : List NodeRanges) (fs : List (Option EntryRange))
      (dev : Dev), dev.Ok img → LeadsInto V last top.data top.start top.stop →
      (IndexEntries.loop ix fuel (⟨top :: below, fs⟩, dev)).1 = .diverge := by
    intro fuel
    induction fuel with
    | zero => intros; rfl
    | succ fuel ih =>
      intro top below fs dev hd ⟨len, v, h1, h2, h3, h4⟩
      unfold IndexEntries.loop
      dsimp only
      rw [NodeRanges.next_header h1 h2 h3]
      obtain ⟨d, off, stop, hR, hL⟩ := hV v h4
      obtain ⟨p, dev1, e1, hd1⟩ := (hix _ _ _ _ hR).2 dev hd
      cases last with
      | true =>
        rw [if_pos rfl]
        dsimp only
        rw [IndexEntries.inspect_header _ h2 h3]
        dsimp only
        rw [e1]
        exact ih _ _ _ dev1 hd1 hL
      | false =>
        rw [if_neg (by decide)]
        dsimp only
        rw [IndexEntries.inspect_header _ h2 h3]
        dsimp only
        rw [e1]
        exact ih _ _ _ dev1 hd1 hL
  have := key fuel ix.rootRanges [] [] dev hd hroot
  unfold IndexEntries.next IndexEntries.new
  generalize IndexEntries.loop ix fuel _ = q at this
  obtain ⟨r, s⟩ := q
  cases r with
  | diverge => rfl
  | ok o => cases this
  | err e => cases this
  | panic e => cases this

/-- Neither does `find`, whatever is searched for, if the entries that lead from record to record are the
last entries of their nodes. -/
theorem C27_cyclic_find {ix : Index} {img : Bytes} {R : Int → Bytes → Nat → Nat → Prop}
    (hix : ix.LoadsBy img R) (V : Int → Prop)
    (hV : ∀ v, V v → ∃ d off stop, R v d off stop ∧ LeadsInto V true d off stop)
    (hroot : LeadsInto V true ix.rootRanges.data ix.rootRanges.start ix.rootRanges.stop) {κ : Type}
    (keyFromSlice : Bytes → Pos → Res κ) (cmp : κ → Res Ordering) (fuel : Nat) (dev : Dev)
    (hd : dev.Ok img) :
    (ix.find keyFromSlice cmp fuel dev).1 = .diverge := by
  have key : ∀ (fuel : Nat) (top : NodeRanges) (dev : Dev), dev.Ok img →
      LeadsInto V true top.data top.start top.stop →
      (Index.findLoop keyFromSlice cmp ix fuel top dev).1 = .diverge := by
    intro fuel
    induction fuel with
    | zero => intros; rfl
    | succ fuel ih =>
      intro top dev hd ⟨len, v, h1, h2, h3, h4⟩
      obtain ⟨d, off, stop, hR, hL⟩ := hV v h4
      obtain ⟨p, dev1, e1, hd1⟩ := (hix _ _ _ _ hR).2 dev hd
      unfold Index.findLoop
      rw [NodeRanges.next_header h1 h2 h3]
      dsimp only
      rw [if_pos rfl]
      dsimp only
      rw [EntryRange.toEntry_header _ h2 h3]
      dsimp only
      rw [Index.judge_last _ _ (x := ⟨part top.data top.start len, top.position⟩) h3,
        IEntry.subnodeVcn_of_header (e := ⟨part top.data top.start len, top.position⟩) h3]
      dsimp only
      rw [e1]
      exact ih _ dev1 hd1 hL
  exact key fuel ix.rootRanges dev hd hroot

/-! ### A concrete cyclic index -/

/-- An index record with VCN 0 whose only entry is a last entry with the subnode 0: itself. -/
def exLoopNode : Bytes :=
  [73, 78, 68, 88, 40, 0, 2, 0, 119] ++ List.replicate 15 0 ++
  [24, 0, 0, 0, 48, 0, 0, 0, 232, 1, 0, 0, 1, 0, 0, 0, 9, 0, 1, 2, 0, 0, 0, 0] ++
  [0, 0, 0, 0, 0, 0, 0, 0, 24, 0, 0, 0, 3, 0, 0, 0, 0, 0, 0, 0, 0, 0, 0, 0] ++ List.replicate 438 0

/-- The directory of the other examples with this record in place of both of its index records. -/
def exLoopImage : Bytes := List.replicate 512 0 ++ (exLoopNode ++ [9, 0]) ++ (exLoopNode ++ [9, 0])

/-- The bytes of the index allocation. -/
def exLoopStream : Bytes := (exLoopNode ++ [9, 0]) ++ (exLoopNode ++ [9, 0])

theorem exLoop_record : RecordAt exLoopStream 512 512 0 (exLoopNode ++ [1, 2]) 48 72 where
  inside := by decide +kernel
  signature := by decide +kernel
  restores := ⟨1, 40, by
    have e : part exLoopStream ((0 : Int).toNat * 512) 512 = exLoopNode ++ [9, 0] := by decide +kernel
    rw [e]
    exact exDirNode_restores _ (by decide +kernel) (by decide +kernel) (by decide +kernel)
      (by decide +kernel)⟩
  header := by decide
  off := by decide +kernel
  stop := by decide +kernel
  used := by decide +kernel
  allocated := by decide +kernel
  nonneg := by decide
  small := by decide
  vcn := ⟨by decide, by decide, 0, by decide +kernel⟩

/-- The root: only a last entry with the subnode 0. -/
def exLoopRoot : Bytes := [0, 0, 0, 0, 0, 0, 0, 0, 24, 0, 0, 0, 3, 0, 0, 0, 0, 0, 0, 0, 0, 0, 0, 0]

def exLoopIndex : Index :=
  ⟨512, ⟨exLoopRoot, 0, 24, Pos.add (some 512) 88⟩, Pos.add (some 512) 56, some (exDirAllocItem none)⟩

theorem exLoop_stored : StoredAs 512 exLoopImage [0x11, 2, 1, 0, 0, 0, 0, 0] [⟨2, some 1⟩] where
  clusterPos := by decide
  enc := by
    refine .run 0 1 1 _ _ _ ?_ (.terminated _ [0, 0, 0, 0])
    simp [WidthsOk, FitsSigned]
  rep := by simp [Representable]
  nonZero := by simp [NonZero]
  inImage := by simp [InImage]; decide +kernel
  imgLt := by decide +kernel

theorem exLoop_opens : (exDirAlloc none).Opens exLoopImage exLoopStream 1024 := by
  have e : (content 512 exLoopImage [⟨2, some 1⟩]).take 1024 = exLoopStream := by decide +kernel
  rw [← e]
  refine Attr.opens_nonResident exLoopImage (exDirAlloc none) (by unfold Attr.HeaderIn; decide +kernel) rfl
    (by decide +kernel) (by decide +kernel) 72 80 1024 (by decide +kernel) (by decide +kernel)
    (by decide +kernel) (by decide) (by decide +kernel) [⟨2, some 1⟩] ?_
  have e2 : (((exDirAlloc none).recordData.drop ((exDirAlloc none).offset + 72)).take (80 - 72)) =
    [0x11, 2, 1, 0, 0, 0, 0, 0] := by decide +kernel
  rw [e2]
  exact exLoop_stored

theorem exLoop_allocated : exLoopIndex.Allocated exLoopImage exLoopStream 512 1024 (exDirAllocItem none)
    (exDirAlloc none) where
  alloc := rfl
  attr := (exDir_allocated none).attr
  ty := (exDir_allocated none).ty
  opens := exLoop_opens
  nonRes := (exDir_allocated none).nonRes
  cs := rfl
  size := by decide

theorem exLoop_leads : LeadsInto (· = 0) true (exLoopNode ++ [1, 2]) 48 72 :=
  ⟨24, 0, by decide, by decide +kernel,
    { room := by decide +kernel, length := by decide +kernel, flags := by decide +kernel
      vcn := by
        intro v hv
        cases hv
        exact ⟨by decide, by decide, 0, by decide +kernel⟩ }, rfl⟩

/-- **C27 is violated.** On a concrete image whose index record 0 is its own subnode, the first call of
`entries().next()` and every `find` never end: no number of rounds suffices. -/
theorem C27_negation (dev : Dev) (hd : dev.Ok exLoopImage) (fuel : Nat) :
    (IndexEntries.next exLoopIndex fuel (IndexEntries.new exLoopIndex, dev)).1 = .diverge ∧
      ∀ (κ : Type) (keyFromSlice : Bytes → Pos → Res κ) (cmp : κ → Res Ordering),
        (exLoopIndex.find keyFromSlice cmp fuel dev).1 = .diverge := by
  have hix := exLoop_allocated.loadsBy
  have hV : ∀ v : Int, v = 0 → ∃ d off stop, RecordAt exLoopStream 512 exLoopIndex.recordSize v d off stop ∧
      LeadsInto (· = 0) true d off stop := by
    intro v hv
    subst hv
    exact ⟨_, _, _, exLoop_record, exLoop_leads⟩
  have hroot : LeadsInto (· = 0) true exLoopIndex.rootRanges.data exLoopIndex.rootRanges.start
      exLoopIndex.rootRanges.stop :=
    ⟨24, 0, by decide, by decide,
      { room := by decide, length := by decide, flags := by decide
        vcn := by
          intro v hv
          cases hv
          exact ⟨by decide, by decide, 0, by decide⟩ }, rfl⟩
  exact ⟨C27_cyclic_entries hix (· = 0) true hV hroot fuel dev hd,
    fun κ kf cmp => C27_cyclic_find hix (· = 0) hV hroot kf cmp fuel dev hd⟩

/-- The example directory meets the hypothesis of the partial theorems. -/
example : ∃ ix, Index.new (exDirRootItem none) (some (exDirAllocItem none)) = .ok ix ∧
    ∀ (k : Nat) (d : Dev), d.Ok exDirImage → ∀ r ∈
      IndexEntries.calls ix 11 k (IndexEntries.new ix, d), r ≠ .diverge :=
  C27_entries_end_partial (exDir_storedIndex none)

/-- `C27_find_ends_partial` on the example directory. -/
example := C27_find_ends_partial (exDir_storedIndex none)

end NT
