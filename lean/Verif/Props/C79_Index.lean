import Verif.Props.C79_Calls

/-! C79 for indexes: searching loads at most one record per level, listing loads every record once. -/

namespace NT

open Spec

/-- Loading a record that `R` describes makes exactly `c` calls. -/
def Index.LoadCalls (ix : Index) (img : Bytes) (R : Int → Bytes → Nat → Nat → Prop) (c : Nat) : Prop :=
  ∀ v b off stop, R v b off stop → ∀ d : Dev, d.Full → d.img = img → Dev.Used c d (ix.subnode v d).2

theorem Dev.Full.ok {d : Dev} {img : Bytes} (h : d.Full) (hi : d.img = img) : d.Ok img :=
  ⟨hi, h.noFail⟩

theorem Spec.Node.nodes_pos (t : Node) : 0 < t.nodes := by
  induction t <;> simp only [Node.nodes] <;> omega

theorem Spec.Node.depth_pos (t : Node) : 0 < t.depth := by
  induction t <;> simp only [Node.depth] <;> omega

/-! ### Searching -/

theorem Index.findLoop_used {κ : Type} (keyFromSlice : Bytes → Pos → Res κ) (cmp : κ → Res Ordering)
    {ix : Index} {img : Bytes} {R : Int → Bytes → Nat → Nat → Prop} (hix : ix.LoadsBy img R) {c : Nat}
    (hc : ix.LoadCalls img R c) {d : Bytes} {start stop : Nat} {t : Node} (ht : NodeAt R d start stop t)
    (fuel : Nat) (p : Pos) (dev : Dev) (hd : dev.Full) (hi : dev.img = img) :
    ∃ k, k + 1 ≤ t.depth ∧
      Dev.Used (k * c) dev (Index.findLoop keyFromSlice cmp ix fuel ⟨d, start, stop, p⟩ dev).2 := by
  have stay : ∀ (t : Node) (dev : Dev), ∃ k, k + 1 ≤ t.depth ∧ Dev.Used (k * c) dev dev := fun t dev =>
    ⟨0, t.depth_pos, by rw [Nat.zero_mul]; exact .refl dev⟩
  induction ht generalizing fuel p dev with
  | stop h =>
    cases fuel with
    | zero => exact stay _ dev
    | succ fuel =>
      unfold Index.findLoop NodeRanges.next
      rw [if_pos (by dsimp only; omega)]
      exact stay _ dev
  | @last d off stop len h hin he =>
    cases fuel with
    | zero => exact stay _ dev
    | succ fuel =>
      unfold Index.findLoop
      rw [NodeRanges.next_header (it := ⟨d, off, stop, p⟩) h hin he]
      dsimp only
      rw [if_pos rfl]
      dsimp only
      rw [EntryRange.toEntry_header p hin he]
      dsimp only
      rw [Index.judge_last _ _ (x := ⟨part d off len, p⟩) he,
        IEntry.subnodeVcn_of_header (e := ⟨part d off len, p⟩) he]
      exact stay _ dev
  | @lastSub d off stop len v d' off' stop' sub h hin he hr hsub ih =>
    cases fuel with
    | zero => exact stay _ dev
    | succ fuel =>
      unfold Index.findLoop
      rw [NodeRanges.next_header (it := ⟨d, off, stop, p⟩) h hin he]
      dsimp only
      rw [if_pos rfl]
      dsimp only
      rw [EntryRange.toEntry_header p hin he]
      dsimp only
      rw [Index.judge_last _ _ (x := ⟨part d off len, p⟩) he,
        IEntry.subnodeVcn_of_header (e := ⟨part d off len, p⟩) he]
      dsimp only
      obtain ⟨q, dev1, e1, hd1⟩ := (hix _ _ _ _ hr).2 dev (hd.ok hi)
      have u := hc _ _ _ _ hr dev hd hi
      rw [e1] at u ⊢
      dsimp only at u ⊢
      obtain ⟨k, hk, uk⟩ := ih fuel q dev1 (u.full hd) (by rw [u.img, hi])
      refine ⟨k + 1, by simp only [Node.depth]; omega, ?_⟩
      rw [Nat.succ_mul, Nat.add_comm]
      exact u.trans uk
  | @leaf d off stop len e rest h hin he hrest ih =>
    cases fuel with
    | zero => exact stay _ dev
    | succ fuel =>
      unfold Index.findLoop
      rw [NodeRanges.next_header (it := ⟨d, off, stop, p⟩) h hin he.toEntryHeader]
      dsimp only
      rw [if_neg (by decide)]
      dsimp only
      rw [EntryRange.toEntry_header p hin he.toEntryHeader]
      dsimp only
      cases Index.judge keyFromSlice cmp ⟨part d off len, p⟩ with
      | ok r =>
        match r with
        | some true => exact stay _ dev
        | some false => exact ih fuel (Pos.add p len) dev hd hi
        | none =>
          dsimp only
          rw [IEntry.subnodeVcn_of_header (e := ⟨part d off len, p⟩) he.toEntryHeader]
          exact stay _ dev
      | err x => exact stay _ dev
      | panic x => exact stay _ dev
      | diverge => exact stay _ dev
  | @inner d off stop len v d' off' stop' sub e rest h hin he hr hsub hrest ih1 ih2 =>
    cases fuel with
    | zero => exact stay _ dev
    | succ fuel =>
      unfold Index.findLoop
      rw [NodeRanges.next_header (it := ⟨d, off, stop, p⟩) h hin he.toEntryHeader]
      dsimp only
      rw [if_neg (by decide)]
      dsimp only
      rw [EntryRange.toEntry_header p hin he.toEntryHeader]
      dsimp only
      cases Index.judge keyFromSlice cmp ⟨part d off len, p⟩ with
      | ok r =>
        match r with
        | some true => exact stay _ dev
        | some false =>
          obtain ⟨k, hk, uk⟩ := ih2 fuel (Pos.add p len) dev hd hi
          exact ⟨k, by simp only [Node.depth]; omega, uk⟩
        | none =>
          dsimp only
          rw [IEntry.subnodeVcn_of_header (e := ⟨part d off len, p⟩) he.toEntryHeader]
          dsimp only
          obtain ⟨q, dev1, e1, hd1⟩ := (hix _ _ _ _ hr).2 dev (hd.ok hi)
          have u := hc _ _ _ _ hr dev hd hi
          rw [e1] at u ⊢
          dsimp only at u ⊢
          obtain ⟨k, hk, uk⟩ := ih1 fuel q dev1 (u.full hd) (by rw [u.img, hi])
          refine ⟨k + 1, by simp only [Node.depth]; omega, ?_⟩
          rw [Nat.succ_mul, Nat.add_comm]
          exact u.trans uk
      | err x => exact stay _ dev
      | panic x => exact stay _ dev
      | diverge => exact stay _ dev

/-! ### Listing -/

/-- The records that the nodes on the stack still have to load. -/
inductive ToLoad (R : Int → Bytes → Nat → Nat → Prop) : List NodeRanges → Nat → Prop
  | nil : ToLoad R [] 0
  | cons {top : NodeRanges} {t : Node} {below : List NodeRanges} {n : Nat}
      (hs : top.stop ≤ top.data.length) (h : NodeAt R top.data top.start top.stop t)
      (hb : ToLoad R below n) : ToLoad R (top :: below) (t.nodes - 1 + n)

theorem IndexEntries.loop_used {ix : Index} {img : Bytes} {R : Int → Bytes → Nat → Nat → Prop}
    (hix : ix.LoadsBy img R) {c : Nat} (hc : ix.LoadCalls img R c) (fuel : Nat) (it : IndexEntries)
    (dev : Dev) (n : Nat) (h : ToLoad R it.inner n) (hd : dev.Full) (hi : dev.img = img) :
    ∃ k n', n = k + n' ∧ ToLoad R (IndexEntries.loop ix fuel (it, dev)).2.1.inner n' ∧
      Dev.Used (k * c) dev (IndexEntries.loop ix fuel (it, dev)).2.2 := by
  have stay : ∀ (inner : List NodeRanges) (dev : Dev) (n : Nat), ToLoad R inner n →
      ∃ k n', n = k + n' ∧ ToLoad R inner n' ∧ Dev.Used (k * c) dev dev := fun _ dev n h =>
    ⟨0, n, by omega, h, by rw [Nat.zero_mul]; exact .refl dev⟩
  induction fuel generalizing it dev n with
  | zero => exact stay _ dev n h
  | succ fuel ih =>
    obtain ⟨inner, following⟩ := it
    dsimp only at h
    unfold IndexEntries.loop
    dsimp only
    cases h with
    | nil => exact stay [] dev 0 .nil
    | @cons top t below m hs ht hb =>
      dsimp only
      cases ht with
      | stop hle =>
        have en : top.next = (.ok none, top) := by
          unfold NodeRanges.next; rw [if_pos (by omega)]
        rw [en]
        dsimp only
        simp only [Node.nodes, Nat.sub_self, Nat.zero_add]
        match following with
        | [] => exact stay below dev m hb
        | some r :: rest => exact stay below dev m hb
        | none :: rest => exact ih ⟨below, rest⟩ dev m hb hd hi
      | last hlt hin hh =>
        rw [NodeRanges.next_header hlt hin hh]
        dsimp only
        rw [if_pos rfl]
        dsimp only
        rw [IndexEntries.inspect_header _ hin hh]
        dsimp only
        rw [if_pos rfl]
        exact ih ⟨{ top with start := top.data.length } :: below, following⟩ dev _
          (.cons (t := .stop) hs (.stop hs) hb) hd hi
      | lastSub hlt hin hh hr hsub =>
        rename_i len v d' off' stop' sub
        rw [NodeRanges.next_header hlt hin hh]
        dsimp only
        rw [if_pos rfl]
        dsimp only
        rw [IndexEntries.inspect_header _ hin hh]
        dsimp only
        obtain ⟨hs', hload⟩ := hix _ _ _ _ hr
        obtain ⟨p, dev1, e1, hd1⟩ := hload dev (hd.ok hi)
        have u := hc _ _ _ _ hr dev hd hi
        rw [e1] at u ⊢
        dsimp only at u ⊢
        rw [if_pos rfl]
        obtain ⟨k, n', h1, h2, h3⟩ := ih ⟨⟨d', off', stop', p⟩ :: { top with start := top.data.length } :: below,
          none :: following⟩ dev1 _ (.cons hs' hsub (.cons (t := .stop) hs (.stop hs) hb)) (u.full hd)
          (by rw [u.img, hi])
        refine ⟨k + 1, n', ?_, h2, ?_⟩
        · have := sub.nodes_pos
          simp only [Node.nodes] at h1 ⊢; omega
        · rw [Nat.succ_mul, Nat.add_comm]
          exact u.trans h3
      | leaf hlt hin hh ht' =>
        rename_i len e rest'
        rw [NodeRanges.next_header hlt hin hh.toEntryHeader]
        dsimp only
        rw [if_neg (by decide)]
        dsimp only
        rw [IndexEntries.inspect_header _ hin hh.toEntryHeader]
        dsimp only
        rw [if_neg (by decide)]
        have := stay _ dev _ (ToLoad.cons (t := rest')
          (top := { top with start := top.start + len, position := Pos.add top.position len }) hs ht' hb)
        exact this
      | inner hlt hin hh hr hsub ht' =>
        rename_i len v d' off' stop' sub e rest'
        rw [NodeRanges.next_header hlt hin hh.toEntryHeader]
        dsimp only
        rw [if_neg (by decide)]
        dsimp only
        rw [IndexEntries.inspect_header _ hin hh.toEntryHeader]
        dsimp only
        obtain ⟨hs', hload⟩ := hix _ _ _ _ hr
        obtain ⟨p, dev1, e1, hd1⟩ := hload dev (hd.ok hi)
        have u := hc _ _ _ _ hr dev hd hi
        rw [e1] at u ⊢
        dsimp only at u ⊢
        rw [if_neg (by decide)]
        obtain ⟨k, n', h1, h2, h3⟩ := ih ⟨⟨d', off', stop', p⟩ ::
            { top with start := top.start + len, position := Pos.add top.position len } :: below,
          some ⟨top.start, top.start + len, top.position⟩ :: following⟩ dev1 _
          (.cons hs' hsub (.cons (t := rest') hs ht' hb)) (u.full hd) (by rw [u.img, hi])
        refine ⟨k + 1, n', ?_, h2, ?_⟩
        · have := sub.nodes_pos
          have := rest'.nodes_pos
          simp only [Node.nodes] at h1 ⊢; omega
        · rw [Nat.succ_mul, Nat.add_comm]
          exact u.trans h3

/-- The state after `k` calls of `next`. -/
def IndexEntries.after (ix : Index) (fuel : Nat) : Nat → IndexEntries × Dev → IndexEntries × Dev
  | 0, s => s
  | k + 1, s => IndexEntries.after ix fuel k (IndexEntries.next ix fuel s).2

theorem IndexEntries.next_state (ix : Index) (fuel : Nat) (s : IndexEntries × Dev) :
    (IndexEntries.next ix fuel s).2 = (IndexEntries.loop ix fuel s).2 := by
  unfold IndexEntries.next
  obtain ⟨r, s', e⟩ : ∃ r s', IndexEntries.loop ix fuel s = (r, s') := ⟨_, _, rfl⟩
  rw [e]
  match r with
  | .ok none => rfl
  | .ok (some r) =>
    dsimp only
    cases IndexEntries.entryOf r s'.1 <;> rfl
  | .err _ => rfl
  | .panic _ => rfl
  | .diverge => rfl

theorem IndexEntries.after_used {ix : Index} {img : Bytes} {R : Int → Bytes → Nat → Nat → Prop}
    (hix : ix.LoadsBy img R) {c : Nat} (hc : ix.LoadCalls img R c) (fuel k : Nat) (it : IndexEntries)
    (dev : Dev) (n : Nat) (h : ToLoad R it.inner n) (hd : dev.Full) (hi : dev.img = img) :
    ∃ m n', n = m + n' ∧ ToLoad R (IndexEntries.after ix fuel k (it, dev)).1.inner n' ∧
      Dev.Used (m * c) dev (IndexEntries.after ix fuel k (it, dev)).2 := by
  induction k generalizing it dev n with
  | zero => exact ⟨0, n, by omega, h, by rw [Nat.zero_mul]; exact .refl dev⟩
  | succ k ih =>
    obtain ⟨m, n', h1, h2, h3⟩ := IndexEntries.loop_used hix hc fuel it dev n h hd hi
    unfold IndexEntries.after
    rw [IndexEntries.next_state]
    obtain ⟨m2, n2, g1, g2, g3⟩ := ih (IndexEntries.loop ix fuel (it, dev)).2.1
      (IndexEntries.loop ix fuel (it, dev)).2.2 n' h2 (h3.full hd) (by rw [h3.img, hi])
    exact ⟨m + m2, n2, by omega, g2, by rw [Nat.add_mul]; exact h3.trans g3⟩

/-- After all entries and the end have been shown, the stack is empty. -/
theorem IndexEntries.after_end {ix : Index} {img : Bytes} {R : Int → Bytes → Nat → Nat → Prop}
    (hix : ix.LoadsBy img R) (fuel k : Nat) (it : IndexEntries) (dev : Dev) (es : List Ent) (n : Nat)
    (h : Stack R it.inner it.following es n) (hd : dev.Ok img) (hn : n < fuel) (hk : es.length < k) :
    (IndexEntries.after ix fuel k (it, dev)).1.inner = [] := by
  induction k generalizing it dev es n with
  | zero => omega
  | succ k ih =>
    obtain ⟨it', dev', n', h1, h2, h3, h4⟩ := IndexEntries.loop_stack hix fuel it dev es n h hd hn
    unfold IndexEntries.after
    rw [IndexEntries.next_state]
    have hs : (IndexEntries.loop ix fuel (it, dev)).2 = (it', dev') := by
      cases es with
      | nil => rw [h4.1]
      | cons e es => obtain ⟨r, x, e1, _⟩ := h4; rw [e1]
    rw [hs]
    by_cases hlast : es.tail.length < k
    · exact ih it' dev' es.tail n' h3 h1 (by omega) hlast
    · have hk0 : k = 0 ∧ es = [] := by
        cases es with
        | nil => simp only [List.tail_nil, List.length_nil] at hlast; exact ⟨by omega, rfl⟩
        | cons e es => simp only [List.tail_cons, List.length_cons] at hlast hk; omega
      obtain ⟨rfl, rfl⟩ := hk0
      exact h4.2

/-! ### Loading a record -/

/-- The attribute describes its non-resident value of `size` bytes itself (not through an attribute
list): the extents are `es`. -/
structure Attr.InRecord (img : Bytes) (a : Attr) (es : List Extent) (size : Nat) : Prop where
  header : a.HeaderIn
  own : a.list = none
  room : a.offset + 56 ≤ a.recordData.length
  nonRes : field a.recordData (a.offset + 8) 1 ≠ 0
  sizeAt : field a.recordData (a.offset + 48) 8 = size
  runs : ∃ start len, field a.recordData (a.offset + 32) 2 = start ∧
    field a.recordData (a.offset + 4) 4 = len ∧ a.offset + len ≤ a.recordData.length ∧ start ≤ len ∧
    StoredAs a.file.ntfs.clusterSize img ((a.recordData.drop (a.offset + start)).take (len - start)) es

/-- Opening such a value makes no call. -/
theorem Attr.InRecord.value {img : Bytes} {a : Attr} {es : List Extent} {size : Nat}
    (h : a.InRecord img es size) (d : Dev) :
    ∃ v, a.value d = (.ok (.simple (.nonRes v)), d) ∧
      v.Good img (es.map (runOf a.file.ntfs.clusterSize)) ∧ v.st.streamPosition = 0 ∧
      v.st.dataSize = size ∧ img.length < U64 := by
  obtain ⟨start, len, hs, hl, hin, hsl, hst⟩ := h.runs
  have hroom := h.room
  have hsize : size < U64 := by
    rw [← h.sizeAt]
    exact field_lt (d := a.recordData) (a := a.offset + 48) (n := 8) (by omega)
  obtain ⟨v, g1, g2, g3, g4, _⟩ := NonRes.new_good hst (Pos.add a.file.position (a.offset + start))
    size hsize
  refine ⟨v, ?_, g2, g4, g3, hst.imgLt⟩
  unfold Attr.value
  rw [h.own]
  dsimp only
  have e : a.simpleValue = .ok (.nonRes v) := by
    unfold Attr.simpleValue
    rw [Attr.isResident_eq h.header, Res.bind_ok]
    have : (field a.recordData (a.offset + 8) 1 == 0) = false := by simpa using h.nonRes
    rw [this, if_neg (by decide), Attr.nonResidentValue_eq h.header h.nonRes h.room start len hs hl hin,
      if_neg (by omega), h.sizeAt, g1]
    rfl
  rw [StM.bind_of_ok (a := _) (s' := d) (by rw [StM.lift_apply, e])]
  rfl

/-- `record_from_vcn` on a fresh value whose record lies inside it. -/
theorem IndexAllocation.recordFromVcn_used {img : Bytes} {all : List DataRun} {w : NonRes}
    (hg : w.Good img all) (himg : img.length < U64) (hp : w.st.streamPosition = 0) (cs size : Nat)
    (vcn : Int) (hrg : -(I63 : Int) ≤ vcn * cs ∧ vcn * cs < (I63 : Int)) (h0 : 0 ≤ vcn * cs)
    (hs : 0 < size)
    (hin : (vcn * cs).toNat + size ≤ ((restBytes img all).take w.st.dataSize).length)
    (d : Dev) (hd : d.Full) (hi : d.img = img) :
    Dev.Used (2 * sharedRuns all (vcn * cs).toNat size) d
      ((IndexAllocation.mk cs (.simple (.nonRes w))).recordFromVcn size vcn d).2 := by
  have hsk := NonRes.seek_good img _ w hg (.current (vcn * cs)) hrg
  have ht : seekTarget w.st.streamPosition w.st.dataSize (.current (vcn * cs)) = vcn * cs := by
    simp [seekTarget, hp]
  rw [ht, if_pos (by simp only [validTarget]; omega)] at hsk
  obtain ⟨w', e1, hg', hd', hl', hp'⟩ := hsk
  have e2 : IndexAllocation.seekTo (.simple (.nonRes w)) (.current (vcn * cs)) d =
      (.ok (.simple (.nonRes w')), d) := by
    unfold IndexAllocation.seekTo Val.seek SVal.seek
    simp only [e1]
  have u := Val.readInto_used img _ w' hg' himg size (by rw [hl', hp']; omega) d hd hi
  rw [hp'] at u
  have hlt : ¬ (Val.simple (.nonRes w')).streamPosition ≥ (Val.simple (.nonRes w')).len := by
    show ¬ w'.st.streamPosition ≥ w'.st.dataSize
    rw [List.length_take] at hin
    rw [hp', hl']
    omega
  unfold IndexAllocation.recordFromVcn
  dsimp only
  unfold Vcn.offset checkedMulI64
  rw [if_pos hrg, StM.bind_of_ok (StM.lift_apply _ _), StM.bind_of_ok e2, if_neg hlt]
  unfold IndexRecord.new
  obtain ⟨rr, d2, e3⟩ : ∃ rr d2, (Val.simple (.nonRes w')).readInto size d = (rr, d2) := ⟨_, _, rfl⟩
  rw [e3] at u
  simp only [StM.bind_apply, e3]
  cases rr with
  | ok b =>
    simp only [StM.lift_apply]
    generalize IndexRecord.ofBytes b (Val.simple (.nonRes w')).dataPosition = y
    cases y with
    | ok r =>
      dsimp only
      cases r.vcn with
      | ok x => dsimp only; split <;> exact u
      | err x => exact u
      | panic x => exact u
      | diverge => exact u
    | err x => exact u
    | panic x => exact u
    | diverge => exact u
  | err x => exact u
  | panic x => exact u
  | diverge => exact u

/-- **C79.** Loading an index record: two calls for each stored extent that holds a part of it. -/
theorem C79_index_record {ix : Index} {img : Bytes} {cs len : Nat} {item : AttrItem} {a : Attr}
    {es : List Extent} (hs : a.InRecord img es len)
    (h : ix.Allocated img ((content cs img es).take len) cs len item a) (vcn : Int) (b : Bytes)
    (off stop : Nat) (hr : RecordAt ((content cs img es).take len) cs ix.recordSize vcn b off stop)
    (d : Dev) (hd : d.Full) (hi : d.img = img) :
    Dev.Used (2 * extentsRead cs 0 es (vcn.toNat * cs) ix.recordSize) d (ix.subnode vcn d).2 := by
  obtain ⟨w, e0, hg, hp, hl, himg⟩ := hs.value d
  rw [h.cs] at hg
  have hcl : (Val.simple (.nonRes w)).cluster = some cs := by
    have := Attr.value_cluster_some h.nonRes e0
    rw [h.cs] at this
    exact this
  have hwc : w.clusterSize = cs := Option.some.inj hcl
  have ealloc : a.indexAllocation d = (.ok ⟨cs, .simple (.nonRes w)⟩, d) := by
    unfold Attr.indexAllocation Attr.ensureTy
    rw [StM.bind_of_ok (a := ()) (s' := d) (by
      rw [StM.lift_apply, h.ty, Res.bind_ok, if_neg (by simp)]), StM.bind_of_ok e0, StM.lift_apply]
    rw [← hwc]; rfl
  have hx : (vcn * (cs : Int)).toNat = vcn.toNat * cs := by
    have h0 := hr.nonneg
    obtain ⟨n, rfl⟩ : ∃ n : Nat, vcn = n := ⟨vcn.toNat, by omega⟩
    rw [← Int.natCast_mul]; exact Int.toNat_natCast _
  have hnn : 0 ≤ vcn * (cs : Int) := Int.mul_nonneg hr.nonneg (Int.natCast_nonneg _)
  have hin := hr.inside
  have h40 := hr.header
  have hc : (restBytes img (es.map (runOf cs))).take w.st.dataSize = (content cs img es).take len := by
    rw [hl, restBytes_runOf]
  have u := IndexAllocation.recordFromVcn_used hg himg hp cs ix.recordSize vcn
    ⟨Int.le_trans (by decide) hnn, hr.small⟩ hnn (by omega) (by rw [hc, hx]; exact hin) d hd hi
  have e := sharedRuns_runOf cs es 0 (vcn.toNat * cs) ix.recordSize
  rw [Nat.sub_zero, Nat.zero_sub, Nat.sub_zero] at e
  rw [hx, e] at u
  unfold Index.subnode
  rw [StM.bind_of_ok (a := item) (s' := d) (by rw [StM.lift_apply, h.alloc]; rfl),
    StM.bind_of_ok (a := a) (s' := d) (by rw [StM.lift_apply, h.attr]), StM.bind_of_ok ealloc,
    StM.bind_apply]
  generalize (IndexAllocation.mk cs (.simple (.nonRes w))).recordFromVcn ix.recordSize vcn d = x at u
  obtain ⟨r4, d4⟩ := x
  cases r4 <;> exact u

theorem C79_loads {ix : Index} {img : Bytes} {cs len : Nat} {item : AttrItem} {a : Attr}
    {es : List Extent} (hs : a.InRecord img es len)
    (h : ix.Allocated img ((content cs img es).take len) cs len item a) {c : Nat}
    (hone : ∀ n : Nat, n * cs + ix.recordSize ≤ len → extentsRead cs 0 es (n * cs) ix.recordSize = c) :
    ix.LoadCalls img (RecordAt ((content cs img es).take len) cs ix.recordSize) (2 * c) := by
  intro v b off stop hr d hd hi
  have := C79_index_record hs h v b off stop hr d hd hi
  have hin := hr.inside
  rw [List.length_take] at hin
  rw [hone v.toNat (by omega)] at this
  exact this

/-! ### Indexes -/

theorem Attr.InRecord.opens {img : Bytes} {a : Attr} {es : List Extent} {size : Nat}
    (h : a.InRecord img es size) : a.Opens img ((content a.file.ntfs.clusterSize img es).take size) size := by
  obtain ⟨start, len, hs, hl, hin, hsl, hst⟩ := h.runs
  exact Attr.opens_nonResident img a h.header h.own h.room h.nonRes start len size hs hl hin hsl h.sizeAt
    es hst

/-- A large index whose allocation attribute describes its value itself: the value of the root attribute
holds the root node of the tree `t`, the other nodes are records of `size` bytes in the value of the
attribute `a`, and each of these records is spread over `c` extents stored on the device. -/
structure LargeIndex (img : Bytes) (rootItem item : AttrItem) (a : Attr) (es : List Extent) (c : Nat)
    (t : Node) : Prop where
  alloc : item.toAttribute = .ok a
  ty : a.ty = .ok .indexAllocation
  tree : ∃ ra rv d size len large, rootItem.toAttribute = .ok ra ∧ ra.RootValue rv ∧
    RootAt rv size large d ∧ a.InRecord img es len ∧
    NodeAt (RecordAt ((content a.file.ntfs.clusterSize img es).take len) a.file.ntfs.clusterSize size)
      d 0 d.length t ∧
    ∀ n : Nat, n * a.file.ntfs.clusterSize + size ≤ len →
      extentsRead a.file.ntfs.clusterSize 0 es (n * a.file.ntfs.clusterSize) size = c

theorem LargeIndex.new {img : Bytes} {rootItem item : AttrItem} {a : Attr} {es : List Extent} {c : Nat}
    {t : Node} (h : LargeIndex img rootItem item a es c t) :
    ∃ ix R, Index.new rootItem (some item) = .ok ix ∧ ix.LoadsBy img R ∧ ix.LoadCalls img R (2 * c) ∧
      ix.rootRanges.stop ≤ ix.rootRanges.data.length ∧
      NodeAt R ix.rootRanges.data ix.rootRanges.start ix.rootRanges.stop t := by
  obtain ⟨ra, rv, d, size, len, large, hi, hv, hr, hs, ht, hone⟩ := h.tree
  obtain ⟨p, q, e⟩ := Index.new_stored hi hv hr (some item) ⟨a, h.alloc, h.ty⟩
  have hsz : size < U32 := by
    rw [← hr.size]
    have := hr.room
    exact field_lt (d := rv) (a := 8) (n := 4) (by omega)
  have ha : (Index.mk size ⟨d, 0, d.length, q⟩ p (some item)).Allocated img
      ((content a.file.ntfs.clusterSize img es).take len) a.file.ntfs.clusterSize len item a :=
    ⟨rfl, h.alloc, h.ty, hs.opens, .inr ⟨hs.header, hs.nonRes⟩, rfl, hsz⟩
  exact ⟨_, _, e, ha.loadsBy, C79_loads hs ha hone, Nat.le_refl _, ht⟩

/-- **C79.** A search in a large index, with any key type and any comparison, loads at most one record for
each level of the tree below the root: `k` records, with two calls for each extent of each of them. -/
theorem C79_find {img : Bytes} {rootItem item : AttrItem} {a : Attr} {es : List Extent} {c : Nat}
    {t : Node} (h : LargeIndex img rootItem item a es c t) {κ : Type}
    (keyFromSlice : Bytes → Pos → Res κ) (cmp : κ → Res Ordering) :
    ∃ ix, Index.new rootItem (some item) = .ok ix ∧
      ∀ (fuel : Nat) (d : Dev), d.Full → d.img = img →
        ∃ k, k + 1 ≤ t.depth ∧ Dev.Used (k * (2 * c)) d (ix.find keyFromSlice cmp fuel d).2 := by
  obtain ⟨ix, R, e, h1, h2, h3, h4⟩ := h.new
  exact ⟨ix, e, fun fuel d hd hi => Index.findLoop_used keyFromSlice cmp h1 h2 h4 fuel
    ix.rootRanges.position d hd hi⟩

/-- **C79.** Listing a large index: at no point has it loaded more records than the tree has below its
root, and when the end has been shown, every record has been loaded exactly once. Further calls of `next`
make no calls of the reader. -/
theorem C79_list {img : Bytes} {rootItem item : AttrItem} {a : Attr} {es : List Extent} {c : Nat}
    {t : Node} (h : LargeIndex img rootItem item a es c t) :
    ∃ ix, Index.new rootItem (some item) = .ok ix ∧
      ∀ (fuel k : Nat) (d : Dev), d.Full → d.img = img →
        (∃ m, m + 1 ≤ t.nodes ∧
          Dev.Used (m * (2 * c)) d (IndexEntries.after ix fuel k (IndexEntries.new ix, d)).2) ∧
        (t.entries + t.nodes < fuel → t.inorder.length < k →
          Dev.Used ((t.nodes - 1) * (2 * c)) d
            (IndexEntries.after ix fuel k (IndexEntries.new ix, d)).2) := by
  obtain ⟨ix, R, e, hl, hc, hroot, ht⟩ := h.new
  refine ⟨ix, e, fun fuel k d hd hi => ?_⟩
  obtain ⟨m, n', h1, h2, h3⟩ := IndexEntries.after_used hl hc fuel k
    (IndexEntries.new ix) d _ (.cons hroot ht .nil) hd hi
  have hpos := t.nodes_pos
  refine ⟨⟨m, by omega, h3⟩, fun hf hk => ?_⟩
  have := IndexEntries.after_end hl fuel k (IndexEntries.new ix) d t.inorder t.rounds
    (Index.stack hroot ht) (hd.ok hi) hf hk
  rw [this] at h2
  cases h2
  rw [show t.nodes - 1 = m by omega]
  exact h3

/-- **C79.** A small index (all entries in the root) is searched and listed without any call. -/
theorem C79_small {img : Bytes} {rootItem : AttrItem} {t : Node} (h : StoredIndex img rootItem none t)
    {κ : Type} (keyFromSlice : Bytes → Pos → Res κ) (cmp : κ → Res Ordering) :
    ∃ ix, Index.new rootItem none = .ok ix ∧ ∀ (fuel k : Nat) (d : Dev), d.Full → d.img = img →
      Dev.Used 0 d (ix.find keyFromSlice cmp fuel d).2 ∧
      Dev.Used 0 d (IndexEntries.after ix fuel k (IndexEntries.new ix, d)).2 := by
  cases h with
  | @small ra rv b size _ hi hv hr ht =>
    obtain ⟨p, q, e⟩ := Index.new_stored hi hv hr none rfl
    refine ⟨_, e, fun fuel k d hd hi => ?_⟩
    have hl : (Index.mk size ⟨b, 0, b.length, q⟩ p none).LoadsBy img (fun _ _ _ _ => False) :=
      fun _ _ _ _ hf => hf.elim
    have hc : (Index.mk size ⟨b, 0, b.length, q⟩ p none).LoadCalls img (fun _ _ _ _ => False) 0 :=
      fun _ _ _ _ hf => hf.elim
    obtain ⟨m, _, h1⟩ := Index.findLoop_used keyFromSlice cmp hl hc ht fuel q d hd hi
    obtain ⟨m2, n', _, _, h2⟩ := IndexEntries.after_used hl hc fuel k
      (IndexEntries.new (Index.mk size ⟨b, 0, b.length, q⟩ p none)) d _ (.cons (Nat.le_refl _) ht .nil) hd hi
    exact ⟨h1, h2⟩

/-! ### The hypotheses can be met -/

set_option maxRecDepth 20000 in
/-- The example directory: two records of 512 bytes in one extent of two clusters. -/
theorem exDir_inRecord : (exDirAlloc none).InRecord exDirImage [⟨2, some 1⟩] 1024 where
  header := by unfold Attr.HeaderIn; show 240 + 16 ≤ exDirRecord.length; decide +kernel
  own := rfl
  room := by show 240 + 56 ≤ exDirRecord.length; decide +kernel
  nonRes := by show field exDirRecord 248 1 ≠ 0; decide +kernel
  sizeAt := by show field exDirRecord 288 8 = _; decide +kernel
  runs := by
    refine ⟨72, 80, ?_, ?_, ?_, by decide, ?_⟩
    · show field exDirRecord 272 2 = _; decide +kernel
    · show field exDirRecord 244 4 = _; decide +kernel
    · show 240 + 80 ≤ exDirRecord.length; decide +kernel
    · have e2 : (((exDirAlloc none).recordData.drop ((exDirAlloc none).offset + 72)).take (80 - 72)) =
        [0x11, 2, 1, 0, 0, 0, 0, 0] := by
          show (exDirRecord.drop 312).take 8 = _; decide +kernel
      rw [e2]
      exact exDir_stored

theorem exDir_large : LargeIndex exDirImage (exDirRootItem none) (exDirAllocItem none) (exDirAlloc none)
    [⟨2, some 1⟩] 1 exDirTree where
  alloc := (exDir_allocated none).attr
  ty := (exDir_allocated none).ty
  tree := by
    have ht := exDir_tree
    have e : exDirRoot.length = 120 := by decide +kernel
    have ec : (content 512 exDirImage [⟨2, some 1⟩]).take 1024 = exDirStream := by decide +kernel
    rw [← e, ← ec] at ht
    refine ⟨_, _, _, _, _, _, (exDir_rootValue none).1, (exDir_rootValue none).2, exDir_rootAt,
      exDir_inRecord, ht, ?_⟩
    intro n hn
    have hn' : n * 512 + 512 ≤ 1024 := hn
    show extentsRead 512 0 [⟨2, some 1⟩] (n * 512) 512 = 1
    simp only [extentsRead, Option.isSome]
    rw [if_pos ⟨trivial, by omega⟩]

/-- Listing it makes four calls. -/
example : exDirTree.nodes = 3 ∧ exDirTree.depth = 2 ∧ exDirTree.inorder.length = 4 := by decide

example := C79_find exDir_large exLetter (fun k => .ok (compare 0x63 k))
example := C79_list exDir_large
example : ∃ ix d', Index.new (exDirRootItem none) (some (exDirAllocItem none)) = .ok ix ∧
    IndexEntries.after ix 16 5 (IndexEntries.new ix, ⟨exDirImage, 0, List.replicate 5 (.chunk 2048)⟩) = d' ∧
    d'.2.sched.length = 1 := by
  obtain ⟨ix, e, h⟩ := C79_list exDir_large
  have hf : Dev.Full ⟨exDirImage, 0, List.replicate 5 (.chunk 2048)⟩ := by
    intro r hr
    exact ⟨2048, List.eq_of_mem_replicate hr, by
      show exDirImage.length ≤ 2049; decide +kernel⟩
  have := ((h 16 5 _ hf rfl).2 (by decide) (by decide)).sched
  refine ⟨ix, _, e, rfl, ?_⟩
  rw [this]
  rfl

end NT
