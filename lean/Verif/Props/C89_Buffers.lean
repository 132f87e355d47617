import Verif.Props.C05_List
import Verif.Props.C15_Boot
import Verif.Props.C17_File
import Verif.Props.C27_IndexTermination
import Verif.Props.C29_IndexPanics
import Verif.Lemmas.Split
import Verif.Lemmas.Tame

/-! C89: the buffers that are allocated for file records, index records and the nodes of an iteration. -/

namespace NT

open Spec

/-! ### Reading keeps the length of the buffer -/

theorem NonRes.read_keeps (v : NonRes) (buf : Bytes) (d : Dev) : (v.read buf d).2.2.1.length = buf.length := by
  obtain ⟨b, h1, h2, _⟩ := readLoop_contract (buf.length + v.data.length + v.runs.data.length + 2) v buf 0 d (by omega)
  unfold NonRes.read
  rw [h2, overwrite_length h1]

theorem ALVal.read_keeps (v : ALVal) (buf : Bytes) (d : Dev) : (v.read buf d).2.2.1.length = buf.length := by
  obtain ⟨b, h1, h2, _⟩ := ALVal.readLoop_contract (buf.length + v.runFuel + v.leftFuel) v buf 0 d (by omega)
  unfold ALVal.read
  rw [h2, overwrite_length h1]

theorem Val.readFn_keeps (s : Val × Dev) (buf : Bytes) : (Val.readFn s buf).2.2.length = buf.length := by
  obtain ⟨v, d⟩ := s
  cases v with
  | simple v =>
    cases v with
    | nonRes v => exact v.read_keeps buf d
    | res v =>
      show (v.read buf).2.2.length = buf.length
      rw [ResVal.read_eq]
      simp only [List.length_append, List.length_drop, List.length_take]
      omega
  | list v => exact v.read_keeps buf d

theorem readExactLoop_keeps {σ : Type} {read : ReadFn σ} (h : ∀ s buf, (read s buf).2.2.length = buf.length)
    (fuel : Nat) (s : σ) (done buf : Bytes) :
    (readExactLoop read fuel s done buf).2.2.length = done.length + buf.length := by
  induction fuel generalizing s done buf with
  | zero => unfold readExactLoop; exact List.length_append
  | succ fuel ih =>
    unfold readExactLoop
    split
    · exact List.length_append
    have hk := h s buf
    generalize read s buf = q at hk
    obtain ⟨r, s', buf'⟩ := q
    dsimp only at hk
    cases r with
    | ok n =>
      dsimp only
      split
      · rw [List.length_append, hk]
      split
      · rw [ih, List.length_append, List.length_take, List.length_drop]
        omega
      · rw [List.length_append, hk]
    | err e =>
      dsimp only
      split
      · rw [ih, hk]
      · rw [List.length_append, hk]
    | panic p => dsimp only; rw [List.length_append, hk]
    | diverge => dsimp only; rw [List.length_append, hk]

theorem Val.readInto_length {v : Val} {n : Nat} {d d' : Dev} {b : Bytes} (h : v.readInto n d = (.ok b, d')) :
    b.length = n := by
  unfold Val.readInto at h
  have hk := readExactLoop_keeps Val.readFn_keeps ((List.replicate n (0 : UInt8)).length + d.sched.length + 1) (v, d) []
    (List.replicate n 0)
  change (v.readExact (List.replicate n 0) d).2.2.length = _ at hk
  generalize v.readExact (List.replicate n 0) d = q at h hk
  obtain ⟨r, ⟨v', d1⟩, buf⟩ := q
  cases r with
  | ok u =>
    cases h
    rw [List.length_replicate] at hk
    simpa using hk
  | err e => cases h
  | panic p => cases h
  | diverge => cases h

/-! ### Records -/

theorem NFile.new_size {n : Ntfs} {p i : Nat} {d d' : Dev} {f : NFile} (h : NFile.new n p i d = (.ok f, d')) :
    f.recordData.length = n.fileRecordSize := by
  unfold NFile.new at h
  obtain ⟨_, d1, _, h⟩ := StM.bind_ok_iff.mp h
  obtain ⟨b, d2, h1, h⟩ := StM.bind_ok_iff.mp h
  have hb := (Dev.readExact_tame d1.img n.fileRecordSize d1 rfl).val b (by rw [h1])
  rw [StM.lift_apply] at h
  injection h with h _
  rw [NFile.ofBytes_length h, hb]

/-- **C89**, file records: over every reader, also one that fails, the buffer of an opened file has exactly the record size
of the volume. -/
theorem C89_file {n : Ntfs} {k : Nat} {d d' : Dev} {f : NFile} (h : n.file k d = (.ok f, d')) :
    f.recordData.length = n.fileRecordSize := by
  unfold Ntfs.file at h
  obtain ⟨_, _, _, h⟩ := StM.bind_ok_iff.mp h
  generalize n.mftPosition = o at h
  cases o with
  | none => cases h
  | some mp =>
  dsimp only at h
  obtain ⟨_, _, _, h⟩ := StM.bind_ok_iff.mp h
  obtain ⟨_, _, _, h⟩ := StM.bind_ok_iff.mp h
  obtain ⟨_, _, _, h⟩ := StM.bind_ok_iff.mp h
  rename_i v _ _
  generalize v.seek _ = q at h
  obtain ⟨r, v'⟩ := q
  cases r with
  | ok _ =>
    dsimp only at h
    generalize v'.dataPosition = o at h
    cases o with
    | none => cases h
    | some position => exact NFile.new_size h
  | err e => cases h
  | panic p => cases h
  | diverge => cases h

theorem IndexRecord.ofBytes_size {b : Bytes} {p : Pos} {r : IndexRecord} (h : IndexRecord.ofBytes b p = .ok r) :
    r.record.data.length = b.length := by
  unfold IndexRecord.ofBytes at h
  simp only [Res.bind_eq_ok] at h
  obtain ⟨_, _, r, hr, _, _, h⟩ := h
  cases h
  exact (Record.fixup_length hr).1

/-- **C89**, index records: the buffer has exactly the size that the caller names. -/
theorem C89_record {v : Val} {size : Nat} {d d' : Dev} {r : IndexRecord} (h : IndexRecord.new v size d = (.ok r, d')) :
    r.record.data.length = size := by
  unfold IndexRecord.new at h
  obtain ⟨b, d1, h1, h⟩ := StM.bind_ok_iff.mp h
  rw [StM.lift_apply] at h
  injection h with h _
  rw [IndexRecord.ofBytes_size h, Val.readInto_length h1]

theorem IndexRecord.intoEntryRanges_data {r : IndexRecord} {it : NodeRanges} (h : r.intoEntryRanges = .ok it) :
    it.data = r.record.data := by
  unfold IndexRecord.intoEntryRanges NodeRanges.new at h
  obtain ⟨⟨a, b, p⟩, _, h⟩ := Res.bind_eq_ok.mp h
  dsimp only at h
  split at h
  · cases h
    rfl
  · cases h

/-- **C89**, the nodes of an index: the buffer has the size that the index root names. -/
theorem C89_node {ix : Index} {vcn : Int} {d d' : Dev} {it : NodeRanges} (h : ix.subnode vcn d = (.ok it, d')) :
    it.data.length = ix.recordSize := by
  unfold Index.subnode at h
  obtain ⟨_, _, _, h⟩ := StM.bind_ok_iff.mp h
  obtain ⟨_, _, _, h⟩ := StM.bind_ok_iff.mp h
  obtain ⟨_, _, _, h⟩ := StM.bind_ok_iff.mp h
  obtain ⟨r, d1, h1, h⟩ := StM.bind_ok_iff.mp h
  rw [StM.lift_apply] at h
  injection h with h _
  rw [IndexRecord.intoEntryRanges_data h]
  unfold IndexAllocation.recordFromVcn at h1
  obtain ⟨_, _, _, h1⟩ := StM.bind_ok_iff.mp h1
  obtain ⟨v, _, _, h1⟩ := StM.bind_ok_iff.mp h1
  split at h1
  · cases h1
  obtain ⟨r2, _, h2, h1⟩ := StM.bind_ok_iff.mp h1
  obtain ⟨_, _, _, h1⟩ := StM.bind_ok_iff.mp h1
  split at h1
  · cases h1
  cases h1
  exact C89_record h2

/-! ### How large these sizes are -/

/-- **C89**, the record size of a volume: from 1 KiB to 4 KiB if the field is an exponent, else any number of clusters up
to 127. -/
theorem C89_volume_partial {d d' : Dev} {n : Ntfs} (hd : d.NoFail) (h : Ntfs.new d = (.ok n, d')) :
    if 128 ≤ field d.img 64 1 then n.fileRecordSize = 1024 ∨ n.fileRecordSize = 2048 ∨ n.fileRecordSize = 4096
    else n.fileRecordSize = field d.img 64 1 * n.clusterSize ∧ n.fileRecordSize ≤ 127 * 2097152 := by
  obtain ⟨g, hg, rfl⟩ := (C15_accept_iff d hd n).mp ⟨d', h⟩
  have hb := (C16_geometry d d' _ h).2.2.2.2.2.2.1
  rcases hg.record with ⟨h1, h2, h3⟩ | ⟨e, h1, h2, h3, h4⟩
  · rw [if_neg (by omega)]
    exact ⟨h3, hb⟩
  · rw [if_pos (by omega)]
    show g.fileRecordSize = _ ∨ g.fileRecordSize = _ ∨ g.fileRecordSize = _
    rw [h4]
    have : e = 10 ∨ e = 11 ∨ e = 12 := by omega
    rcases this with rfl | rfl | rfl
    · exact .inl rfl
    · exact .inr (.inl rfl)
    · exact .inr (.inr rfl)

/-- **C89**, the record size of an index: whether an index root is accepted does not depend on the size it names; every
32-bit number will do. -/
theorem C89_root_any {b : Bytes} {p : Pos} {r : IndexRoot} (h : IndexRoot.new b p = .ok r) (x : Nat) (hx : x < U32) :
    ∃ r', IndexRoot.new (b.take 8 ++ leBytes 4 x ++ b.drop 12) p = .ok r' ∧ r'.recordSize = .ok x := by
  rw [IndexRoot.new_eq] at h
  split at h
  · cases h
  split at h
  · cases h
  split at h
  · cases h
  rename_i h1 h2 h3
  have h8 : (b.take 8).length = 8 := by rw [List.length_take]; omega
  have hlen : (b.take 8 ++ leBytes 4 x ++ b.drop 12).length = b.length := by
    rw [List.length_append, List.length_append, leBytes_length, h8, List.length_drop]
    omega
  have hf : ∀ k, field (b.take 8 ++ leBytes 4 x ++ b.drop 12) (12 + k) 4 = field b (12 + k) 4 := by
    intro k
    unfold field
    rw [← List.drop_drop, List.drop_left' (by rw [List.length_append, h8, leBytes_length]), List.drop_drop]
  have h16 := hf 4
  have h20 := hf 8
  refine ⟨⟨b.take 8 ++ leBytes 4 x ++ b.drop 12, p⟩, ?_, ?_⟩
  · rw [IndexRoot.new_eq, h16, h20, hlen, if_neg h1, if_neg h2, if_neg h3]
  · unfold IndexRoot.recordSize
    rw [readLE_ok (by dsimp only; omega)]
    unfold field
    dsimp only
    rw [List.append_assoc, List.drop_left' h8, List.take_left' (leBytes_length 4 x), leNat_leBytes_of_lt hx]

/-- The boot sector of a volume with clusters of 2 MiB and records of 127 clusters. -/
def exHugeBoot : Bytes :=
  List.replicate 11 0 ++ [0, 2, 0xF4] ++ List.replicate 34 0 ++ [1] ++ List.replicate 15 0 ++ [127] ++
    List.replicate 445 0 ++ [0x55, 0xAA]

/-- **C89 is violated**: 512 bytes are accepted as a volume with file records of 254 MiB, and an index root of 48 bytes is
accepted with index records of one byte less than 4 GiB. -/
theorem C89_negation :
    (∃ n d', Ntfs.new ⟨exHugeBoot, 0, []⟩ = (.ok n, d') ∧ exHugeBoot.length = 512 ∧ n.fileRecordSize = 127 * 2097152) ∧
    ∃ b r, IndexRoot.new b none = .ok r ∧ b.length = 48 ∧ r.recordSize = .ok 4294967295 := by
  constructor
  · have h : (Ntfs.new ⟨exHugeBoot, 0, []⟩).1 = .ok ⟨2097152, 512, 0, some 2097152, 127 * 2097152, 0, none⟩ := by
      decide +kernel
    generalize hq : Ntfs.new ⟨exHugeBoot, 0, []⟩ = q at h
    obtain ⟨r, d'⟩ := q
    cases h
    exact ⟨_, d', rfl, by decide +kernel, rfl⟩
  · exact ⟨[0x30, 0, 0, 0, 1, 0, 0, 0, 255, 255, 255, 255, 1, 0, 0, 0, 16, 0, 0, 0, 32, 0, 0, 0, 32, 0, 0, 0, 0, 0, 0, 0] ++
      [0, 0, 0, 0, 0, 0, 0, 0, 16, 0, 0, 0, 2, 0, 0, 0], _, rfl, rfl, by decide +kernel⟩

/-! ### The nodes that an iteration holds -/

/-- The number of bytes of nodes that an iteration holds. -/
def Spec.heldBytes (it : IndexEntries) : Nat := (it.inner.map fun n => n.data.length).sum

/-- The states of an iteration over an index: any number of calls of `next`, each over any device, and stopped after any
number of rounds. -/
inductive Spec.Iterated (ix : Index) : IndexEntries → Prop
  | start : Iterated ix (IndexEntries.new ix)
  | next {it : IndexEntries} (fuel : Nat) (d : Dev) (h : Iterated ix it) :
    Iterated ix (IndexEntries.next ix fuel (it, d)).2.1

/-- Index records on top of the root, or nothing. -/
def Stacked (ix : Index) (l : List NodeRanges) : Prop :=
  l = [] ∨ ∃ nodes root, l = nodes ++ [root] ∧ root.data = ix.rootRanges.data ∧
    ∀ n ∈ nodes, n.data.length = ix.recordSize

theorem Stacked.push {ix : Index} {top : NodeRanges} {l : List NodeRanges} (h : Stacked ix l) (hl : l ≠ [])
    (ht : top.data.length = ix.recordSize) : Stacked ix (top :: l) := by
  rcases h with h | ⟨nodes, root, rfl, h2, h3⟩
  · exact absurd h hl
  · refine .inr ⟨top :: nodes, root, rfl, h2, ?_⟩
    intro n hn
    rcases List.mem_cons.mp hn with rfl | hn
    · exact ht
    · exact h3 n hn

theorem Stacked.pop {ix : Index} {top : NodeRanges} {l : List NodeRanges} (h : Stacked ix (top :: l)) : Stacked ix l := by
  rcases h with h | ⟨nodes, root, h1, h2, h3⟩
  · cases h
  · cases nodes with
    | nil => cases h1; exact .inl rfl
    | cons a nodes =>
      cases h1
      exact .inr ⟨nodes, root, rfl, h2, fun n hn => h3 n (List.mem_cons_of_mem _ hn)⟩

theorem Stacked.top {ix : Index} {top top' : NodeRanges} {l : List NodeRanges} (h : Stacked ix (top :: l))
    (ht : top'.data = top.data) : Stacked ix (top' :: l) := by
  rcases h with h | ⟨nodes, root, h1, h2, h3⟩
  · cases h
  · cases nodes with
    | nil =>
      cases h1
      exact .inr ⟨[], top', rfl, ht.trans h2, fun n hn => by cases hn⟩
    | cons a nodes =>
      cases h1
      refine .inr ⟨top' :: nodes, root, rfl, h2, ?_⟩
      intro n hn
      rcases List.mem_cons.mp hn with rfl | hn
      · rw [ht]; exact h3 _ List.mem_cons_self
      · exact h3 n (List.mem_cons_of_mem _ hn)

theorem NodeRanges.next_data (it : NodeRanges) : (NodeRanges.next it).2.data = it.data := by
  unfold NodeRanges.next
  split
  · rfl
  cases h : it.step with
  | ok q =>
    obtain ⟨r, it'⟩ := q
    unfold NodeRanges.step at h
    simp only [Res.bind_eq_ok] at h
    obtain ⟨_, _, _, _, _, _, l, _, h⟩ := h
    cases l with
    | true => cases h; rfl
    | false => cases h; rfl
  | err e => rfl
  | panic p => rfl
  | diverge => rfl

theorem IndexEntries.loop_stacked (ix : Index) (fuel : Nat) (it : IndexEntries) (d : Dev) (h : Stacked ix it.inner) :
    Stacked ix (IndexEntries.loop ix fuel (it, d)).2.1.inner := by
  induction fuel generalizing it d with
  | zero => exact h
  | succ fuel ih =>
    unfold IndexEntries.loop
    dsimp only
    obtain ⟨inner, following⟩ := it
    cases inner with
    | nil => exact h
    | cons top below =>
      dsimp only at h ⊢
      have hn := NodeRanges.next_data top
      generalize NodeRanges.next top = q at hn
      obtain ⟨r, top'⟩ := q
      dsimp only at hn
      have h' := h.top hn
      cases r with
      | ok o =>
        cases o with
        | some r =>
          dsimp only
          generalize IndexEntries.inspect r top'.data = w
          cases w with
          | ok w =>
            obtain ⟨last, vcn⟩ := w
            cases vcn with
            | some vcn =>
              dsimp only
              cases hs : ix.subnode vcn d with
              | mk r d' =>
                cases r with
                | ok sub => exact ih _ _ (h'.push (by nofun) (C89_node hs))
                | err e => exact h'
                | panic p => exact h'
                | diverge => exact h'
            | none =>
              dsimp only
              cases last with
              | true => rw [if_pos rfl]; exact ih _ _ h'
              | false => rw [if_neg Bool.false_ne_true]; exact h'
          | err e => exact h'
          | panic p => exact h'
          | diverge => exact h'
        | none =>
          cases following with
          | nil => exact h.pop
          | cons f rest =>
            cases f with
            | some r => exact h.pop
            | none => exact ih _ _ h.pop
      | err e => exact h'
      | panic p => exact h'
      | diverge => exact h'

theorem IndexEntries.next_state (ix : Index) (fuel : Nat) (s : IndexEntries × Dev) :
    (IndexEntries.next ix fuel s).2 = (IndexEntries.loop ix fuel s).2 := by
  unfold IndexEntries.next
  generalize IndexEntries.loop ix fuel s = q
  obtain ⟨r, s'⟩ := q
  cases r with
  | ok o =>
    cases o with
    | none => rfl
    | some r =>
      dsimp only
      generalize IndexEntries.entryOf r s'.1 = w
      cases w <;> rfl
  | err e => rfl
  | panic p => rfl
  | diverge => rfl

/-- **C89**, iterations: over any readers and after any calls, an iteration holds the entries of the root and one index
record for every level below it, each of the size that the root names, or nothing at all. -/
theorem C89_held {ix : Index} {it : IndexEntries} (h : Iterated ix it) :
    it.inner = [] ∨ heldBytes it = ix.rootRanges.data.length + (it.inner.length - 1) * ix.recordSize := by
  have hs : Stacked ix it.inner := by
    induction h with
    | start => exact .inr ⟨[], ix.rootRanges, rfl, rfl, fun n hn => by cases hn⟩
    | next fuel d _ ih =>
      rw [IndexEntries.next_state]
      exact IndexEntries.loop_stacked ix fuel _ d ih
  rcases hs with hs | ⟨nodes, root, h1, h2, h3⟩
  · exact .inl hs
  · refine .inr ?_
    unfold heldBytes
    have hsum : ∀ l : List NodeRanges, (∀ n ∈ l, n.data.length = ix.recordSize) →
        (l.map fun n => n.data.length).sum = l.length * ix.recordSize := by
      intro l hl
      induction l with
      | nil => simp
      | cons a l ih =>
        rw [List.map_cons, List.sum_cons, hl a List.mem_cons_self, ih fun n hn => hl n (List.mem_cons_of_mem _ hn),
          List.length_cons, Nat.succ_mul, Nat.add_comm]
    rw [h1, List.map_append, List.sum_append, hsum nodes h3, List.length_append]
    simp only [List.map_cons, List.map_nil, List.sum_cons, List.sum_nil, List.length_cons, List.length_nil, h2]
    rw [show nodes.length + (0 + 1) - 1 = nodes.length by omega]
    omega

/-- **C89 is violated** by cyclic indexes: the first call of `next` holds one more index record after every round. -/
theorem C89_grows {ix : Index} {img : Bytes} {R : Int → Bytes → Nat → Nat → Prop} (hix : ix.LoadsBy img R)
    (V : Int → Prop) (last : Bool) (hV : ∀ v, V v → ∃ d off stop, R v d off stop ∧ LeadsInto V last d off stop)
    (hroot : LeadsInto V last ix.rootRanges.data ix.rootRanges.start ix.rootRanges.stop) (fuel : Nat) (dev : Dev)
    (hd : dev.Ok img) :
    heldBytes (IndexEntries.next ix fuel (IndexEntries.new ix, dev)).2.1 =
      ix.rootRanges.data.length + fuel * ix.recordSize := by
  have key : ∀ (fuel : Nat) (top : NodeRanges) (below : List NodeRanges) (fs : List (Option EntryRange))
      (dev : Dev), dev.Ok img → LeadsInto V last top.data top.start top.stop →
      (IndexEntries.loop ix fuel (⟨top :: below, fs⟩, dev)).2.1.inner.length = below.length + 1 + fuel := by
    intro fuel
    induction fuel with
    | zero => intros; rfl
    | succ fuel ih =>
      intro top below fs dev hd ⟨len, v, h1, h2, h3, h4⟩
      unfold IndexEntries.loop
      dsimp only
      rw [NodeRanges.next_header h1 h2 h3]
      obtain ⟨d, off, stop, hR, hL⟩ := hV v h4
      obtain ⟨p, dev1, e1, hd1⟩ := (hix _ _ _ _ hR).2 dev hd
      cases last with
      | true =>
        rw [if_pos rfl]
        dsimp only
        rw [IndexEntries.inspect_header _ h2 h3]
        dsimp only
        rw [e1]
        dsimp only
        rw [ih _ _ _ dev1 hd1 hL, List.length_cons]
        omega
      | false =>
        rw [if_neg (by decide)]
        dsimp only
        rw [IndexEntries.inspect_header _ h2 h3]
        dsimp only
        rw [e1]
        dsimp only
        rw [ih _ _ _ dev1 hd1 hL, List.length_cons]
        omega
  have hl := key fuel ix.rootRanges [] [] dev hd hroot
  have hn : (IndexEntries.next ix fuel (IndexEntries.new ix, dev)).2.1.inner.length = 1 + fuel := by
    rw [IndexEntries.next_state]
    exact hl.trans (by simp)
  rcases C89_held (Iterated.next fuel dev (Iterated.start (ix := ix))) with h | h
  · rw [h, List.length_nil] at hn
    omega
  · rw [h, hn, Nat.add_sub_cancel_left]

/-! ### Examples -/

theorem exLoop_leads_again (v : Int) (hv : v = 0) :
    ∃ d off stop, RecordAt exLoopStream 512 exLoopIndex.recordSize v d off stop ∧ LeadsInto (· = 0) true d off stop := by
  subst hv
  exact ⟨_, _, _, exLoop_record, exLoop_leads⟩

theorem exLoop_root : LeadsInto (· = 0) true exLoopIndex.rootRanges.data exLoopIndex.rootRanges.start
    exLoopIndex.rootRanges.stop :=
  ⟨24, 0, by decide, by decide,
    { room := by decide, length := by decide, flags := by decide
      vcn := by
        intro v hv
        cases hv
        exact ⟨by decide, by decide, 0, by decide⟩ }, rfl⟩

/-- The index record that is its own subnode: a million rounds, 512 million bytes. -/
example : heldBytes (IndexEntries.next exLoopIndex 1000000 (IndexEntries.new exLoopIndex, ⟨exLoopImage, 0, []⟩)).2.1 =
    24 + 1000000 * 512 :=
  C89_grows exLoop_allocated.loadsBy (· = 0) true exLoop_leads_again exLoop_root _ _ ⟨rfl, fun _ h => by cases h⟩

/-- `C89_held` over any reader, also one that fails. -/
example (fuel : Nat) (d : Dev) :
    (IndexEntries.next exLoopIndex fuel (IndexEntries.new exLoopIndex, d)).2.1.inner = [] ∨
    heldBytes (IndexEntries.next exLoopIndex fuel (IndexEntries.new exLoopIndex, d)).2.1 =
      24 + ((IndexEntries.next exLoopIndex fuel (IndexEntries.new exLoopIndex, d)).2.1.inner.length - 1) * 512 :=
  C89_held (.next fuel d .start)

/-- The index record 0 of that index is loaded and has 512 bytes. -/
example : ∃ it d', exLoopIndex.subnode 0 ⟨exLoopImage, 0, []⟩ = (.ok it, d') ∧ it.data.length = 512 := by
  obtain ⟨d, off, stop, hR, _⟩ := exLoop_leads_again 0 rfl
  obtain ⟨p, d', e, _⟩ := (exLoop_allocated.loadsBy _ _ _ _ hR).2 ⟨exLoopImage, 0, []⟩ ⟨rfl, fun _ h => by cases h⟩
  exact ⟨_, d', e, C89_node e⟩

set_option maxRecDepth 20000 in
/-- The first record of the example MFT. -/
example : ∃ f d', exMftNtfs.file 0 ⟨exMftImage, 3, []⟩ = (.ok f, d') ∧ f.recordData.length = 128 := by
  have h : (exMftNtfs.file 0 ⟨exMftImage, 3, []⟩).1 = .ok ⟨exMftNtfs, ⟨(exMftImage.drop 64).take 128, some 64⟩, 0⟩ := by
    decide +kernel
  generalize hq : exMftNtfs.file 0 ⟨exMftImage, 3, []⟩ = q at h
  obtain ⟨r, d'⟩ := q
  cases h
  exact ⟨_, d', rfl, C89_file hq⟩

set_option maxRecDepth 20000 in
/-- An index record from a value that lies in a file record. -/
example : ∃ r d', IndexRecord.new (.simple (.res ⟨exLoopNode ++ [9, 0], none, 0⟩)) 512 ⟨[], 0, []⟩ = (.ok r, d') ∧
    r.record.data.length = 512 := by
  have h : (IndexRecord.new (.simple (.res ⟨exLoopNode ++ [9, 0], none, 0⟩)) 512 ⟨[], 0, []⟩).1 =
      .ok ⟨⟨exLoopNode ++ [1, 2], none⟩⟩ := by
    decide +kernel
  generalize hq : IndexRecord.new (.simple (.res ⟨exLoopNode ++ [9, 0], none, 0⟩)) 512 ⟨[], 0, []⟩ = q at h
  obtain ⟨r, d'⟩ := q
  cases h
  exact ⟨_, d', rfl, C89_record hq⟩

/-- The boot sector of `C89_negation`. -/
example : ∃ n d', Ntfs.new ⟨exHugeBoot, 0, []⟩ = (.ok n, d') ∧ n.fileRecordSize = 127 * n.clusterSize := by
  obtain ⟨⟨n, d', h, _, _⟩, _⟩ := C89_negation
  have h2 := C89_volume_partial (by intro x hx; cases hx) h
  rw [if_neg (by decide +kernel)] at h2
  refine ⟨n, d', h, h2.1.trans ?_⟩
  congr 1

example := C89_root_any (b := List.replicate 16 0 ++ [16, 0, 0, 0, 24, 0, 0, 0] ++ List.replicate 16 0) (p := some 1) rfl 4096
  (by decide)

end NT
