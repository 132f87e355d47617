import Verif.Model.ReleaseIndex
import Verif.Props.C85_Ops
import Verif.Props.C33_DirectoryFind

/-! C85 for attributes, directories and lookups. -/

namespace NT

open Spec

/-- Both sides reduce to the same result. -/
local macro "same" : tactic => `(tactic| ((try dsimp only); exact Agree.refl _))

theorem Agree.lift {α σ : Type} {x y : Res α} (h : x = y ∨ ∃ p, y = .panic p) (s : σ) :
    Agree ((StM.lift x : StM σ α) s) ((StM.lift y : StM σ α) s) := by
  rw [StM.lift_apply, StM.lift_apply]
  rcases h with e | ⟨p, e⟩
  · rw [e]; exact .refl _
  · exact .inr ⟨p, e⟩

namespace Attrs

theorem itemOfRel_agree (it : Attrs) (l : AttrList) (e : ListEntry) (t : AttrType) (d : Dev) :
    Agree (it.itemOfRel l e t d) (it.itemOf l e t d) :=
  .bind (C85_file it.raw.file.ntfs e.ref.fileRecordNumber) (fun _ _ => .refl _) d

theorem nextInListRel_agree : ∀ (fuel : Nat) (l : AttrList) (s : Attrs × Dev),
    Agree (nextInListRel fuel l s) (nextInList fuel l s)
  | 0, _, _ => .refl _
  | fuel + 1, l, (it, d) => by
    unfold nextInListRel nextInList
    dsimp only
    have h := C85_list l d
    revert h
    cases hg : AttrList.next (l, d) with
    | mk x y =>
      obtain ⟨l', d'⟩ := y
      intro h
      cases x with
      | panic p => exact .inr ⟨p, rfl⟩
      | err => rcases h with e | ⟨p, e⟩
               · rw [e]; exact .refl _
               · nomatch e
      | diverge => rcases h with e | ⟨p, e⟩
                   · rw [e]; exact .refl _
                   · nomatch e
      | ok o =>
        rcases h with he | ⟨p, he⟩
        case inr => nomatch he
        rw [he]
        cases o with
        | none => exact .refl _
        | some e =>
          dsimp only
          cases e.ty with
          | err => exact .refl _
          | panic => exact .refl _
          | diverge => exact .refl _
          | ok t =>
            dsimp only
            by_cases h1 : e.ref.fileRecordNumber = it.raw.file.number
            · rw [if_pos h1, if_pos h1]; exact nextInListRel_agree fuel _ _
            rw [if_neg h1, if_neg h1]
            by_cases h2 : it.skip = some (e.inst, t)
            · rw [if_pos h2, if_pos h2]; exact nextInListRel_agree fuel _ _
            rw [if_neg h2, if_neg h2]
            rcases itemOfRel_agree it l e t d' with e2 | ⟨p, e2⟩
            · rw [e2]; exact .refl _
            · cases hi : it.itemOf l e t d' with
              | mk x y =>
                rw [hi] at e2
                dsimp only at e2
                subst e2
                exact .inr ⟨p, rfl⟩

theorem nextFromListRel_agree (s : Attrs × Dev) : Agree (nextFromListRel s) (nextFromList s) := by
  obtain ⟨it, d⟩ := s
  unfold nextFromListRel nextFromList
  dsimp only
  cases it.list with
  | none => exact .refl _
  | some l => exact nextInListRel_agree _ _ _

end Attrs

theorem Attr.attributeListRel_agree (a : Attr) (d : Dev) : Agree (a.attributeListRel d) (a.attributeList d) :=
  .bind (fun _ => .refl _) (fun _ => .bind (C85_open a) fun _ _ => .refl _) d

theorem Attr.indexAllocationRel_agree (a : Attr) (d : Dev) : Agree (a.indexAllocationRel d) (a.indexAllocation d) :=
  .bind (fun _ => .refl _) (fun _ => .bind (C85_open a) fun _ _ => .refl _) d

namespace Attrs

theorem nextLoopRel_agree : ∀ (fuel : Nat) (s : Attrs × Dev), Agree (nextLoopRel fuel s) (nextLoop fuel s)
  | 0, _ => .refl _
  | fuel + 1, s => by
    unfold nextLoopRel nextLoop
    refine .bind nextFromListRel_agree (fun o s => ?_) s
    obtain ⟨it, d⟩ := s
    cases o with
    | some item => exact .refl _
    | none =>
      dsimp only
      cases it.raw.next with
      | mk x raw' =>
        cases x with
        | none => exact .refl _
        | some x =>
          cases x with
          | err => exact .refl _
          | panic => exact .refl _
          | diverge => exact .refl _
          | ok a =>
            dsimp only
            cases a.ty with
            | err => exact .refl _
            | panic => exact .refl _
            | diverge => exact .refl _
            | ok t =>
              cases t
              case attributeList =>
                dsimp only
                have h := a.attributeListRel_agree d
                cases hg : a.attributeList d with
                | mk x d' =>
                  rw [hg] at h
                  cases x with
                  | panic p => dsimp only; exact .inr ⟨p, rfl⟩
                  | err => rcases h with e | ⟨p, e⟩
                           · rw [e]; exact .refl _
                           · nomatch e
                  | diverge => rcases h with e | ⟨p, e⟩
                               · rw [e]; exact .refl _
                               · nomatch e
                  | ok l => rcases h with e | ⟨p, e⟩
                            · rw [e]; exact nextLoopRel_agree fuel _
                            · nomatch e
              all_goals exact .refl _

theorem searchRel_agree {α : Type} (pick : AttrItem → Attr → Res (Option α)) : ∀ (fuel : Nat) (s : Attrs × Dev),
    Agree (searchRel pick fuel s) (search (fun i a => StM.lift (pick i a)) fuel s)
  | 0, _ => .refl _
  | fuel + 1, s => by
    unfold searchRel search
    refine .bind (fun s => nextLoopRel_agree _ s) (fun o s => ?_) s
    cases o with
    | none => exact .refl _
    | some item =>
      refine .bind (fun _ => .refl _) (fun a => .bind (fun _ => .refl _) fun o s => ?_) s
      cases o with
      | some x => exact .refl _
      | none => exact searchRel_agree pick fuel s

end Attrs

/-- **C85**: iterating the attributes of a file, with those of other records that an attribute list names, gives the same
in both builds unless the debug build stops. -/
theorem C85_attributes (it : Attrs) (d : Dev) :
    Attrs.nextRel (it, d) = Attrs.next (it, d) ∨ ∃ p, (Attrs.next (it, d)).1 = .panic p :=
  Attrs.nextLoopRel_agree _ _

theorem NFile.searchRel_agree {α : Type} (f : NFile) (pick : AttrItem → Attr → Res (Option α)) (fuel : Nat) (d : Dev) :
    Agree (f.searchRel pick fuel d) (f.search (fun i a => StM.lift (pick i a)) fuel d) := by
  unfold NFile.searchRel NFile.search
  cases f.attributes with
  | err => exact .refl _
  | panic => exact .refl _
  | diverge => exact .refl _
  | ok it =>
    dsimp only
    rcases Attrs.searchRel_agree pick fuel (it, d) with e | ⟨p, e⟩
    · rw [e]; exact .refl _
    · exact .inr ⟨p, e⟩

/-- **C85**: so is looking for a data stream. -/
theorem C85_data (f : NFile) (asked : List Nat) (fuel : Nat) (d : Dev) :
    f.dataItemRel asked fuel d = f.dataItem asked fuel d ∨ ∃ p, (f.dataItem asked fuel d).1 = .panic p :=
  f.searchRel_agree _ fuel d

theorem NFile.findAttributeRel_agree (f : NFile) (ty : AttrType) (name : Option (List Nat)) (fuel : Nat) (d : Dev) :
    Agree (f.findAttributeRel ty name fuel d) (f.findAttribute ty name fuel d) :=
  .bind (f.searchRel_agree _ fuel) (fun o s => by cases o <;> exact .refl _) d

theorem Val.readRel_agree (v : Val) (buf : Bytes) (d : Dev) : Agree (v.readRel buf d) (v.read buf d) := by
  cases v with
  | list v =>
    unfold Val.readRel Val.read ALVal.readRel ALVal.read
    rcases ALVal.readLoopRel_agree _ v buf 0 d with e | ⟨p, e⟩
    · dsimp only; rw [e]; exact .refl _
    · exact .inr ⟨p, e⟩
  | simple v =>
    cases v with
    | res v => exact .refl _
    | nonRes v =>
      rcases C85_read v buf d with e | e
      · refine .inl ?_
        unfold Val.readRel
        dsimp only
        rw [e]
        rfl
      · exact .inr ⟨.overflow, e⟩

theorem Val.readIntoRel_agree (v : Val) (n : Nat) (d : Dev) : Agree (v.readIntoRel n d) (v.readInto n d) := by
  have h := readExactLoop_agree (f := Val.readFnRel) (g := Val.readFn)
    (fun s b => by
      obtain ⟨v, d⟩ := s
      unfold Val.readFnRel Val.readFn
      dsimp only
      rcases v.readRel_agree b d with e | ⟨p, e⟩
      · rw [e]; exact .refl _
      · exact .inr ⟨p, e⟩)
    (n + d.sched.length + 1) (v, d) [] (List.replicate n 0)
  unfold Val.readIntoRel Val.readInto Val.readExact
  rw [List.length_replicate]
  rcases h with e | ⟨p, e⟩
  · rw [e]; exact .refl _
  · cases hg : readExactLoop Val.readFn (n + d.sched.length + 1) (v, d) [] (List.replicate n 0) with
    | mk x y =>
      rw [hg] at e
      dsimp only at e
      subst e
      exact .inr ⟨p, rfl⟩

theorem IndexRecord.validateSizesRel_agree (r : IndexRecord) :
    r.validateSizesRel = r.validateSizes ∨ ∃ p, r.validateSizes = .panic p := by
  unfold IndexRecord.validateSizesRel IndexRecord.validateSizes
  dsimp only
  cases r.allocatedSize with
  | err => exact .inl rfl
  | panic => exact .inl rfl
  | diverge => exact .inl rfl
  | ok a =>
    simp only [Res.bind_ok]
    by_cases ha : 24 + a < U32
    case neg => rw [if_pos ha]; exact .inr ⟨_, rfl⟩
    rw [if_neg (not_not_intro ha), Nat.mod_eq_of_lt ha]
    by_cases h1 : 24 + a > r.record.data.length
    · rw [if_pos h1, if_pos h1]; exact .inl rfl
    rw [if_neg h1, if_neg h1]
    cases r.dataSize with
    | err => exact .inl rfl
    | panic => exact .inl rfl
    | diverge => exact .inl rfl
    | ok u =>
      simp only [Res.bind_ok]
      by_cases hu : 24 + u < U32
      case neg => rw [if_pos hu]; exact .inr ⟨_, rfl⟩
      rw [if_neg (not_not_intro hu), Nat.mod_eq_of_lt hu]
      exact .inl rfl

theorem IndexRecord.ofBytesRel_agree (b : Bytes) (p : Pos) :
    IndexRecord.ofBytesRel b p = IndexRecord.ofBytes b p ∨ ∃ q, IndexRecord.ofBytes b p = .panic q := by
  unfold IndexRecord.ofBytesRel IndexRecord.ofBytes
  dsimp only
  cases IndexRecord.validateSignature { data := b, position := p } with
  | err => exact .inl rfl
  | panic => exact .inl rfl
  | diverge => exact .inl rfl
  | ok u =>
    simp only [Res.bind_ok]
    rcases Record.fixupRel_agree { data := b, position := p } with e | ⟨q, e⟩
    case inr => rw [e]; exact .inr ⟨q, rfl⟩
    rw [e]
    cases Record.fixup { data := b, position := p } with
    | err => exact .inl rfl
    | panic => exact .inl rfl
    | diverge => exact .inl rfl
    | ok r =>
      simp only [Res.bind_ok]
      rcases IndexRecord.validateSizesRel_agree { record := r } with e | ⟨q, e⟩
      · rw [e]; exact .inl rfl
      · rw [e]; exact .inr ⟨q, rfl⟩

theorem IndexRecord.newRel_agree (v : Val) (n : Nat) (d : Dev) : Agree (IndexRecord.newRel v n d) (IndexRecord.new v n d) :=
  .bind (v.readIntoRel_agree n) (fun b s => .lift (IndexRecord.ofBytesRel_agree b _) s) d

theorem IndexRecord.intoEntryRangesRel_agree (r : IndexRecord) :
    r.intoEntryRangesRel = r.intoEntryRanges ∨ ∃ p, r.intoEntryRanges = .panic p := by
  unfold IndexRecord.intoEntryRangesRel IndexRecord.intoEntryRanges
  cases r.entriesRange with
  | err => exact .inl rfl
  | panic => exact .inl rfl
  | diverge => exact .inl rfl
  | ok x =>
    obtain ⟨start, stop, position⟩ := x
    simp only [Res.bind_ok]
    unfold NodeRanges.new
    split
    · exact .inl rfl
    · exact .inr ⟨_, rfl⟩

theorem IndexAllocation.seekToRel_agree (v : Val) (pos : SeekFrom) (d : Dev) :
    Agree (IndexAllocation.seekToRel v pos d) (IndexAllocation.seekTo v pos d) := by
  cases v with
  | simple v => exact .refl _
  | list v =>
    unfold IndexAllocation.seekToRel IndexAllocation.seekTo Val.seekRel Val.seek
    dsimp only
    rcases v.seekRel_agree pos d with e | ⟨p, e⟩
    · rw [e]; exact .refl _
    · cases hg : v.seek pos d with
      | mk x y =>
        rw [hg] at e
        dsimp only at e
        subst e
        exact .inr ⟨p, rfl⟩

theorem IndexAllocation.recordFromVcnRel_agree (a : IndexAllocation) (size : Nat) (vcn : Int) (d : Dev) :
    Agree (a.recordFromVcnRel size vcn d) (a.recordFromVcn size vcn d) :=
  .bind (fun _ => .refl _) (fun offset => .bind (IndexAllocation.seekToRel_agree a.value _) fun v s => by
    by_cases h : v.streamPosition ≥ v.len
    · rw [if_pos h, if_pos h]; exact .refl _
    · rw [if_neg h, if_neg h]
      exact .bind (IndexRecord.newRel_agree v size) (fun _ _ => .refl _) s) d

/-- **C85**: so is loading a node of a B-tree. -/
theorem C85_node (ix : Index) (vcn : Int) (d : Dev) :
    ix.subnodeRel vcn d = ix.subnode vcn d ∨ ∃ p, (ix.subnode vcn d).1 = .panic p :=
  Agree.bind (fun _ => .refl _) (fun _ => .bind (fun _ => .refl _) fun a => .bind a.indexAllocationRel_agree fun al =>
    .bind (al.recordFromVcnRel_agree ix.recordSize vcn) fun r s => .lift r.intoEntryRangesRel_agree s) d

theorem IndexEntries.loopRel_agree (ix : Index) (fuel : Nat) (s : IndexEntries × Dev) :
    Agree (IndexEntries.loopRel ix fuel s) (IndexEntries.loop ix fuel s) := by
  induction fuel generalizing s with
  | zero =>
    unfold IndexEntries.loopRel IndexEntries.loop
    exact .refl _
  | succ fuel ih =>
    obtain ⟨it, d⟩ := s
    unfold IndexEntries.loopRel IndexEntries.loop
    dsimp only
    cases it.inner with
    | nil => same
    | cons top below =>
      dsimp only
      cases top.next with
      | mk x top' =>
        cases x with
        | err => same
        | panic => same
        | diverge => same
        | ok o =>
          cases o with
          | none =>
            dsimp only
            cases it.following with
            | nil => same
            | cons o rest =>
              cases o with
              | some r => same
              | none => (try dsimp only); exact ih _
          | some r =>
            dsimp only
            cases IndexEntries.inspect r top'.data with
            | err => same
            | panic => same
            | diverge => same
            | ok x =>
              obtain ⟨last, vcn⟩ := x
              cases vcn with
              | none =>
                dsimp only
                cases last with
                | true =>
                  rw [if_pos rfl, if_pos rfl]
                  exact ih _
                | false =>
                  rw [if_neg Bool.false_ne_true, if_neg Bool.false_ne_true]
                  exact .refl _
              | some vcn =>
                dsimp only
                have h := C85_node ix vcn d
                cases hg : ix.subnode vcn d with
                | mk x d' =>
                  rw [hg] at h
                  cases x with
                  | panic p => dsimp only; exact .inr ⟨p, rfl⟩
                  | err => rcases h with e | ⟨p, e⟩
                           · rw [e]; same
                           · nomatch e
                  | diverge => rcases h with e | ⟨p, e⟩
                               · rw [e]; same
                               · nomatch e
                  | ok sub => rcases h with e | ⟨p, e⟩
                              · rw [e]; (try dsimp only); exact ih _
                              · nomatch e

/-- **C85**: so is iterating a B-tree. -/
theorem C85_entries (ix : Index) (fuel : Nat) (s : IndexEntries × Dev) :
    IndexEntries.nextRel ix fuel s = IndexEntries.next ix fuel s ∨ ∃ p, (IndexEntries.next ix fuel s).1 = .panic p := by
  change Agree _ _
  unfold IndexEntries.nextRel IndexEntries.next
  rcases IndexEntries.loopRel_agree ix fuel s with e | ⟨p, e⟩
  · rw [e]; exact .refl _
  · cases hg : IndexEntries.loop ix fuel s with
    | mk x y =>
      rw [hg] at e
      dsimp only at e
      subst e
      exact .inr ⟨p, rfl⟩

theorem Index.findLoopRel_agree {κ : Type} (key : Bytes → Pos → Res κ) (cmp : κ → Res Ordering) (ix : Index)
    (fuel : Nat) (it : NodeRanges) (d : Dev) :
    Agree (Index.findLoopRel key cmp ix fuel it d) (Index.findLoop key cmp ix fuel it d) := by
  induction fuel generalizing it d with
  | zero =>
    unfold Index.findLoopRel Index.findLoop
    exact .refl _
  | succ fuel ih =>
    unfold Index.findLoopRel Index.findLoop
    cases it.next with
    | mk x it' =>
      cases x with
      | err => same
      | panic => same
      | diverge => same
      | ok o =>
        cases o with
        | none => same
        | some r =>
          dsimp only
          cases r.toEntry it'.data with
          | err => same
          | panic => same
          | diverge => same
          | ok e =>
            dsimp only
            cases Index.judge key cmp e with
            | err => same
            | panic => same
            | diverge => same
            | ok o =>
              cases o with
              | some b =>
                cases b with
                | true => same
                | false => (try dsimp only); exact ih _ _
              | none =>
                dsimp only
                cases e.subnodeVcn with
                | err => same
                | panic => same
                | diverge => same
                | ok o =>
                  cases o with
                  | none => same
                  | some vcn =>
                    dsimp only
                    have h := C85_node ix vcn d
                    cases hg : ix.subnode vcn d with
                    | mk x d' =>
                      rw [hg] at h
                      cases x with
                      | panic p => dsimp only; exact .inr ⟨p, rfl⟩
                      | err => rcases h with e | ⟨p, e⟩
                               · rw [e]; same
                               · nomatch e
                      | diverge => rcases h with e | ⟨p, e⟩
                                   · rw [e]; same
                                   · nomatch e
                      | ok sub => rcases h with e | ⟨p, e⟩
                                  · rw [e]; (try dsimp only); exact ih _ _
                                  · nomatch e

/-- **C85**: so is looking up a name. -/
theorem C85_find (ix : Index) (ntfs : Ntfs) (name : List Nat) (fuel : Nat) (d : Dev) :
    ix.findNameRel ntfs name fuel d = ix.findName ntfs name fuel d ∨ ∃ p, (ix.findName ntfs name fuel d).1 = .panic p :=
  Index.findLoopRel_agree _ _ ix fuel _ d

/-- **C85**: so is opening a directory. -/
theorem C85_directory (f : NFile) (fuel : Nat) (d : Dev) :
    f.directoryIndexRel fuel d = f.directoryIndex fuel d ∨ ∃ p, (f.directoryIndex fuel d).1 = .panic p := by
  change Agree _ _
  unfold NFile.directoryIndexRel NFile.directoryIndex
  refine .bind (fun _ => .refl _) (fun b s => ?_) d
  cases b with
  | false =>
    rw [if_pos (by decide), if_pos (by decide)]
    exact .refl _
  | true =>
    rw [if_neg (by decide), if_neg (by decide)]
    refine .bind (f.findAttributeRel_agree _ _ fuel) (fun _ => .bind (fun _ => .refl _) fun _ => .bind (fun _ => .refl _)
      fun root => .bind ?_ fun _ _ => .refl _) s
    intro s
    unfold NFile.indexAllocationItemRel NFile.indexAllocationItem
    refine .bind (fun _ => .refl _) (fun b s => ?_) s
    cases b with
    | false =>
      rw [if_neg Bool.false_ne_true, if_neg Bool.false_ne_true]
      exact .refl _
    | true =>
      rw [if_pos rfl, if_pos rfl]
      exact .bind (f.findAttributeRel_agree _ _ fuel) (fun _ _ => .refl _) s

/-- The results of `k` calls of `next` in a release build (`src/index.rs:127-228`). -/
def IndexEntries.callsRel (ix : Index) (fuel : Nat) : Nat → IndexEntries × Dev → List (Res (Option IEntry))
  | 0, _ => []
  | k + 1, s =>
    let (r, s') := IndexEntries.nextRel ix fuel s
    r :: IndexEntries.callsRel ix fuel k s'

theorem IndexEntries.callsRel_eq (ix : Index) (fuel k : Nat) (s : IndexEntries × Dev)
    (h : ∀ r ∈ IndexEntries.calls ix fuel k s, ∀ p, r ≠ .panic p) :
    IndexEntries.callsRel ix fuel k s = IndexEntries.calls ix fuel k s := by
  induction k generalizing s with
  | zero => rfl
  | succ k ih =>
    unfold IndexEntries.calls at h
    unfold IndexEntries.callsRel IndexEntries.calls
    dsimp only at h ⊢
    rcases C85_entries ix fuel s with e | ⟨p, e⟩
    · rw [e, ih _ fun r hr => h r (List.mem_cons_of_mem _ hr)]
    · exact absurd e (h _ List.mem_cons_self p)

/-- **C85** for directories: where the bytes are those of a tree of entries, a release build shows its entries in order,
each once, and then the end, as C25 says of a debug build. -/
theorem C85_inorder {img : Bytes} {rootItem : AttrItem} {allocItem : Option AttrItem} {t : Node}
    (h : StoredIndex img rootItem allocItem t) :
    ∃ ix, Index.new rootItem allocItem = .ok ix ∧
      ∀ (fuel k : Nat) (d : Dev), t.entries + t.nodes < fuel → d.Ok img →
        (IndexEntries.callsRel ix fuel k (IndexEntries.new ix, d)).length = k ∧
        ShowsThenEnds t.inorder (IndexEntries.callsRel ix fuel k (IndexEntries.new ix, d)) := by
  obtain ⟨ix, e, h⟩ := C25_inorder h
  refine ⟨ix, e, fun fuel k d hf hd => ?_⟩
  obtain ⟨h1, h2⟩ := h fuel k d hf hd
  rw [IndexEntries.callsRel_eq]
  · exact ⟨h1, h2⟩
  intro r hr p
  obtain ⟨i, hi⟩ := List.mem_iff_getElem?.mp hr
  have h3 := h2 i r hi
  generalize t.inorder[i]? = o at h3
  cases o with
  | none =>
    rw [show r = .ok none from h3]
    nofun
  | some x =>
    obtain ⟨y, h4, _⟩ := h3
    rw [h4]
    nofun

/-- **C85** for lookups: there a release build finds a name exactly if the directory has it, as C33 says of a debug
build. -/
theorem C85_find_file {img : Bytes} {rootItem : AttrItem} {allocItem : Option AttrItem} {t : Node}
    (h : StoredIndex img rootItem allocItem t) (ntfs : Ntfs) (tab : List Nat)
    (hn : ntfs.upcaseTable = some tab) (ht : TableOk tab) (hs : DirSorted tab t.inorder) :
    ∃ ix, Index.new rootItem allocItem = .ok ix ∧
      ∀ (name : List Nat) (fuel : Nat) (d : Dev), Units name → t.entries + t.nodes ≤ fuel → d.Ok img →
        ((ix.findNameRel ntfs name fuel d).2).Ok img ∧
        ((∃ x e u, (ix.findNameRel ntfs name fuel d).1 = .ok (some x) ∧ x.Is e ∧ e ∈ t.inorder ∧
            Upper tab name u ∧ UpperName tab e u) ∨
          ((ix.findNameRel ntfs name fuel d).1 = .ok none ∧
            ∀ e ∈ t.inorder, ¬ ∃ u, Upper tab name u ∧ UpperName tab e u)) := by
  obtain ⟨ix, e, h⟩ := C33_find h ntfs tab hn ht hs
  refine ⟨ix, e, fun name fuel d hu hf hd => ?_⟩
  have h1 := h name fuel d hu hf hd
  rcases C85_find ix ntfs name fuel d with he | ⟨p, he⟩
  · rw [he]
    exact h1
  · rcases h1.2 with ⟨_, _, _, h2, _⟩ | ⟨h2, _⟩
    · rw [he] at h2
      nomatch h2
    · rw [he] at h2
      nomatch h2

/-! ### The hypotheses can be met -/

example := C85_inorder (exDir_storedIndex (some exTable))
example := C85_find_file (exDir_storedIndex (some exTable)) (exDirNtfs (some exTable)) exTable rfl exTable_ok exDir_sorted

/-- Four calls on the directory of the examples, with four entries in three nodes: a release build shows all of them. -/
example : ∃ ix, Index.new (exDirRootItem (some exTable)) (some (exDirAllocItem (some exTable))) = .ok ix ∧
    ∀ d : Dev, d.Ok exDirImage → ∃ a b c e, IndexEntries.callsRel ix 20 4 (IndexEntries.new ix, d) =
      [.ok (some a), .ok (some b), .ok (some c), .ok (some e)] ∧ a.Is exEntA ∧ b.Is exEntB ∧ c.Is exEntC ∧ e.Is exEntD := by
  obtain ⟨ix, e, h⟩ := C85_inorder (exDir_storedIndex (some exTable))
  refine ⟨ix, e, fun d hd => ?_⟩
  obtain ⟨h1, h2⟩ := h 20 4 d (by decide) hd
  generalize IndexEntries.callsRel ix 20 4 (IndexEntries.new ix, d) = l at h1 h2
  obtain _ | ⟨r0, _ | ⟨r1, _ | ⟨r2, _ | ⟨r3, _ | ⟨r4, l⟩⟩⟩⟩⟩ := l
  case cons.cons.cons.cons.nil =>
    have hin : exDirTree.inorder = [exEntA, exEntB, exEntC, exEntD] := rfl
    rw [hin] at h2
    obtain ⟨a, ha, ha'⟩ := h2 0 r0 rfl
    obtain ⟨b, hb, hb'⟩ := h2 1 r1 rfl
    obtain ⟨c, hc, hc'⟩ := h2 2 r2 rfl
    obtain ⟨x, hx, hx'⟩ := h2 3 r3 rfl
    exact ⟨a, b, c, x, by rw [ha, hb, hc, hx], ha', hb', hc', hx'⟩
  all_goals
    simp only [List.length_cons, List.length_nil] at h1
    omega

end NT
