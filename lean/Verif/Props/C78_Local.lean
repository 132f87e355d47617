import Verif.Lemmas.LocalIndex
import Verif.Props.C77_Examples
import Verif.Props.C17_File
import Verif.Props.C03_ListValue
import Verif.Props.C68_Retry

/-!
C78: an operation depends only on the bytes of the structures it works on. Damage anywhere else on the device
changes nothing, not even the errors, whatever way the device behaves (short reads and failures included).

This file: opening a volume, opening a file, the values of attributes, and indexes.
-/

namespace NT

open Spec

/-- The places of the clusters of some extents. -/
def Spec.ClustersOf (cs : Nat) (es : List Extent) (a : Nat) : Prop :=
  ∃ e ∈ es, ∃ l, e.lcn = some l ∧ l * cs ≤ a ∧ a < l * cs + e.count * cs

/-! ### From the calculus to plain statements -/

theorem OnD.same {α : Type} {img : Bytes} {S : Nat → Prop} {I : α → Prop} {p : StM Dev α} (h : OnD img S I p) {d e : Dev}
    (hd : d.img = img) (hs : SameOn S d e) : (p d).1 = (p e).1 ∧ SameOn S (p d).2 (p e).2 := by
  obtain ⟨b, d', e', g1, g2, _, g4, _⟩ := h d e hd hs
  rw [g1, g2]
  exact ⟨rfl, g4⟩

theorem OnS.same {α σ : Type} {img : Bytes} {S : Nat → Prop} {J : σ → Prop} {I : α → Prop} {p : StM (σ × Dev) α}
    (h : OnS img S J I p) {s : σ} (hj : J s) {d e : Dev} (hd : d.img = img) (hs : SameOn S d e) :
    (p (s, d)).1 = (p (s, e)).1 ∧ (p (s, d)).2.1 = (p (s, e)).2.1 ∧ SameOn S (p (s, d)).2.2 (p (s, e)).2.2 := by
  obtain ⟨b, d', e', g1, g2, _, g4, _⟩ := h s hj d e hd hs
  dsimp only at g1 g2
  rw [g1, g2]
  exact ⟨rfl, rfl, g4⟩

/-- Any number of calls of an iterator. -/
theorem OnS.calls {α σ : Type} {img : Bytes} {S : Nat → Prop} {J : σ → Prop} {I : α → Prop} {next : StM (σ × Dev) α}
    (h : OnS img S J I next) (k : Nat) {s : σ} (hj : J s) {d e : Dev} (hd : d.img = img) (hs : SameOn S d e) :
    callsOf next k (s, d) = callsOf next k (s, e) := by
  induction k generalizing s d e with
  | zero => rfl
  | succ k ih =>
    obtain ⟨b, d', e', g1, g2, g3, g4, g5, _⟩ := h s hj d e hd hs
    dsimp only at g1 g2
    simp only [callsOf]
    rw [g1, g2]
    exact congrArg _ (ih g5 g3 g4)

/-! ### Data runs -/

theorem Yields.handsOut {rs : DataRuns} {r : DataRun} (h : HandsOut rs r) {xs : List DataRun} (hy : NT.Yields rs xs) :
    r ∈ xs := by
  induction h generalizing xs with
  | here e =>
    cases hy with
    | done h => rw [e] at h; cases h
    | step h _ => rw [e] at h; cases h; exact List.mem_cons_self
  | later _ ih =>
    cases hy with
    | done h =>
      rw [h] at ih
      exact absurd (ih (yields_nil_next h)) (List.not_mem_nil)
    | step h hy' =>
      rw [h] at ih
      exact List.mem_cons_of_mem _ (ih hy')

/-- The runs of the extents `es`, however they are encoded. -/
theorem Spec.RunsIn.ofEncoded {S : Nat → Prop} {cs : Nat} {data : Bytes} {p : Pos} {es : List Extent}
    (hcs : 0 < cs) (henc : Encodes 0 es data) (hrep : ∀ e ∈ es, Representable cs e) (hnz : NonZero 0 es)
    (h : ∀ a, ClustersOf cs es a → S a) : RunsIn S (DataRuns.new cs data p) := by
  intro r hr q hq i hi
  have hy := yields_encoded (DataRuns.new cs data p) es henc hcs hrep hnz
  obtain ⟨e, he, rfl⟩ := List.mem_map.1 (Yields.handsOut hr hy)
  refine h _ ⟨e, he, ?_⟩
  rcases e with ⟨c, _ | l⟩
  · cases hq
  · cases hq
    exact ⟨l, rfl, Nat.le_add_right _ _, Nat.add_lt_add_left hi _⟩

/-! ### The volume -/

/-- C78: opening a volume looks only at the boot sector. -/
theorem C78_new (d e : Dev) (hs : SameOn (· < 512) d e) :
    (Ntfs.new d).1 = (Ntfs.new e).1 ∧ SameOn (· < 512) (Ntfs.new d).2 (Ntfs.new e).2 :=
  (Ntfs.new_on (img := d.img) fun i hi => by simpa using hi).same rfl hs

/-- Two images with the same first 512 bytes: one of them is cut off after these. -/
example (rest : Bytes) (boot : Bytes) (hb : boot.length = 512) (sched : List Resp) :
    (Ntfs.new ⟨boot ++ rest, 0, sched⟩).1 = (Ntfs.new ⟨boot, 0, sched⟩).1 :=
  (C78_new ⟨boot ++ rest, 0, sched⟩ ⟨boot, 0, sched⟩ ⟨rfl, rfl, fun a ha =>
    List.getElem?_append_left (by rw [hb]; exact ha)⟩).1

/-! ### Files -/

theorem NFile.new_bytes {n : Ntfs} {p number : Nat} {d d' : Dev} {f : NFile}
    (h : NFile.new n p number d = (.ok f, d')) :
    NFile.ofBytes n ((d.img.drop p).take n.fileRecordSize) p number = .ok f := by
  unfold NFile.new at h
  rw [StM.bind_apply] at h
  rcases Dev.seekStart_cases p d with ⟨d1, e1, hi, hp, _⟩ | ⟨e, d1, e1, _⟩
  case inr => rw [e1] at h; cases congrArg Prod.fst h
  rw [e1] at h
  dsimp only at h
  rw [StM.bind_apply] at h
  obtain ⟨d2, hi2, ⟨e2, hn⟩ | ⟨e, e2⟩⟩ := Dev.readExact_any n.fileRecordSize d1
  case inr => rw [e2] at h; cases congrArg Prod.fst h
  rw [e2] at h
  dsimp only at h
  have h' : NFile.ofBytes n ((d1.img.drop d1.pos).take n.fileRecordSize) p number = .ok f := congrArg Prod.fst h
  rw [hi, hp] at h'
  exact h'

/-- What the MFT leads to, on whatever device: the value of its $DATA attribute, and the addresses of its records. -/
theorem MftStored.opens {n : Ntfs} {img : Bytes} {mft : NFile} {es : List Extent} {pre : List Nat} {off len start : Nat}
    (h : MftStored n img mft es pre off len start) :
    mft.findResidentAttribute .data none none = .ok ⟨mft, off, none⟩ ∧
    ∃ v, (Attr.mk mft off none).simpleValue = .ok (.nonRes v) ∧
      ∀ t, t < U64 → ∃ v', v.seek (.start t) = (.ok t, v') ∧ v'.dataPosition = addressOf n.clusterSize es t := by
  obtain ⟨p, hp, hpin, hmft⟩ := h.mftPos
  obtain ⟨_, r, _, hmr, h32, _⟩ := (NFile.ofBytes_ok_iff _ _ _ _ _).1 hmft
  have hnt : mft.ntfs = n := by rw [hmr]
  have hl32 : 32 ≤ mft.recordData.length := by rw [hmr]; exact h32
  refine ⟨(C22_first_match mft hl32 .data none none _).2 ⟨pre, off, h.chain, ⟨len, h.attr⟩, rfl,
    ⟨h.ty, by simp, by simp⟩, h.first⟩, ?_⟩
  have hal := h.attr.length
  have hah := h.header
  have hai := h.attr.inside
  have hHI : (Attr.mk mft off none).HeaderIn := by
    unfold Attr.HeaderIn; simp only [Attr.recordData]; omega
  have hval : (Attr.mk mft off none).simpleValue = (do
      let v ← NonRes.new n.clusterSize ((mft.recordData.drop (off + start)).take (len - start))
        (Pos.add mft.position (off + start)) (field mft.recordData (off + 48) 8)
      pure (.nonRes v)) := by
    unfold Attr.simpleValue
    rw [Attr.isResident_eq hHI]
    have : (field mft.recordData (off + 8) 1 == 0) = false := by simpa using h.nonRes
    simp only [Attr.recordData, this, Res.bind_ok]
    have hrin := h.runsIn
    rw [if_neg (by simp), Attr.nonResidentValue_eq hHI h.nonRes
      (by simp only [Attr.recordData]; omega) start len h.runsAt hal hai, if_neg (by omega)]
    simp only [hnt]
  have hsz : field mft.recordData (off + 48) 8 < U64 := field_lt (d := mft.recordData) (a := off + 48) (n := 8) (by omega)
  obtain ⟨v, _, hv1, _⟩ := C39_fresh_seek n.clusterSize img _ es
    (Pos.add mft.position (off + start)) _ h.runs hsz (.start 0) (by decide) (by simp [validTarget, seekTarget])
  rw [hv1, Res.bind_ok, Res.pure_eq] at hval
  refine ⟨v, hval, fun t ht => ?_⟩
  obtain ⟨w, v', hw1, _, hw2, hw3⟩ := C39_fresh_seek n.clusterSize img _ es
    (Pos.add mft.position (off + start)) _ h.runs hsz (.start t) (by simp only [SeekFrom.InRange]; omega)
    (by simp only [validTarget, seekTarget]; omega)
  rw [hv1] at hw1
  cases hw1
  have hst : (seekTarget 0 (field mft.recordData (off + 48) 8) (.start t)).toNat = t := Int.toNat_natCast _
  rw [hst] at hw2 hw3
  exact ⟨v', hw2, hw3⟩

/-- The places that `Ntfs::file(number)` depends on: the record of the MFT, and the record itself. -/
def Spec.RecordPlaces (n : Ntfs) (es : List Extent) (number a : Nat) : Prop :=
  (∃ p, n.mftPosition = some p ∧ p ≤ a ∧ a < p + n.fileRecordSize) ∨
  ∃ q, addressOf n.clusterSize es (number * n.fileRecordSize) = some q ∧ q ≤ a ∧ a < q + n.fileRecordSize

/-- C78: opening a file looks only at the record of the MFT and at the record of the file. -/
theorem C78_file (n : Ntfs) (img : Bytes) (mft : NFile) (es : List Extent) (pre : List Nat) (off len start : Nat)
    (h : MftStored n img mft es pre off len start) (number : Nat) (d e : Dev) (hi : d.img = img)
    (hs : SameOn (RecordPlaces n es number) d e) :
    (n.file number d).1 = (n.file number e).1 ∧
      SameOn (RecordPlaces n es number) (n.file number d).2 (n.file number e).2 := by
  refine (Ntfs.file_on' (img := img) (S := RecordPlaces n es number) number ?_ ?_).same hi hs
  · exact fun p hp i hi => .inl ⟨p, hp, Nat.le_add_right _ _, Nat.add_lt_add_left hi _⟩
  · intro p hp d1 f d1' hd1 hf a v ha hv hlt m v' q hq1 hq2
    obtain ⟨p', hp', hpin, hmft⟩ := h.mftPos
    rw [hp] at hp'
    cases hp'
    have hb := NFile.new_bytes hf
    rw [hd1, hmft] at hb
    cases hb
    obtain ⟨h1, w, h2, h3⟩ := h.opens
    rw [h1] at ha
    cases ha
    rw [h2] at hv
    cases hv
    intro i hi
    obtain ⟨v1, h4, h5⟩ := h3 (number * n.fileRecordSize) hlt
    dsimp only [SVal.seek] at hq1
    rw [h4] at hq1
    cases hq1
    exact .inr ⟨q, h5.symm.trans hq2, Nat.le_add_right _ _, Nat.add_lt_add_left hi _⟩

/-- A record of the example volume: everything but the record of the MFT and record 2 may be different. -/
example (e : Dev) (he : e.pos = 0) (hs : e.sched = [.chunk 3, .fail .interrupted])
    (h1 : ∀ a, 64 ≤ a → a < 192 → exPartsImage[a]? = e.img[a]?)
    (h2 : ∀ a, 320 ≤ a → a < 448 → exPartsImage[a]? = e.img[a]?) :
    (exPartsNtfs.file 2 ⟨exPartsImage, 0, [.chunk 3, .fail .interrupted]⟩).1 = (exPartsNtfs.file 2 e).1 := by
  refine (C78_file exPartsNtfs exPartsImage _ _ _ _ _ _ exPartsStored 2 _ e rfl ⟨he.symm, hs.symm, ?_⟩).1
  rintro a (⟨p, hp, g1, g2⟩ | ⟨q, hq, g1, g2⟩)
  · cases hp; exact h1 a g1 g2
  · have : addressOf exPartsNtfs.clusterSize [⟨6, some 1⟩] (2 * exPartsNtfs.fileRecordSize) = some 320 := by decide
    rw [this] at hq
    cases hq
    exact h2 a g1 g2

/-! ### Values -/

theorem NonRes.run_same {S : Nat → Prop} (ops : List Op) {v : NonRes} (hv : ValueIn S v) {d e : Dev} (hs : SameOn S d e) :
    (v.run d ops).1 = (v.run e ops).1 ∧ (v.run d ops).2.1 = (v.run e ops).2.1 ∧
      SameOn S (v.run d ops).2.2 (v.run e ops).2.2 := by
  induction ops generalizing v d e with
  | nil => exact ⟨rfl, rfl, hs⟩
  | cons op ops ih =>
    cases op with
    | read buf =>
      obtain ⟨b, d', e', g1, g2, _, g4, g5⟩ := NonRes.read_on (img := d.img) hv buf d e rfl hs
      dsimp only at g1 g2
      obtain ⟨i1, i2, i3⟩ := ih g5 g4
      simp only [NonRes.run, NonRes.step]
      rw [g1, g2]
      exact ⟨congrArg _ i1, i2, i3⟩
    | seek s =>
      obtain ⟨i1, i2, i3⟩ := ih (Spec.ValueIn.seek hv s) hs
      simp only [NonRes.run, NonRes.step]
      exact ⟨congrArg _ i1, i2, i3⟩

/-- C78: whatever is done with a non-resident value depends only on the clusters of the value. -/
theorem C78_value (cs : Nat) (data : Bytes) (es : List Extent) (p : Pos) (size : Nat) (hcs : 0 < cs)
    (henc : Encodes 0 es data) (hrep : ∀ e ∈ es, Representable cs e) (hnz : NonZero 0 es) (v : NonRes)
    (hv : NonRes.new cs data p size = .ok v) (ops : List Op) (d e : Dev) (hs : SameOn (ClustersOf cs es) d e) :
    (v.run d ops).1 = (v.run e ops).1 ∧ (v.run d ops).2.1 = (v.run e ops).2.1 ∧
      SameOn (ClustersOf cs es) (v.run d ops).2.2 (v.run e ops).2.2 :=
  NonRes.run_same ops (NonRes.new_in (RunsIn.ofEncoded hcs henc hrep hnz fun _ h => h) v hv) hs

/-- A value in the clusters 3 and 1 of four bytes each, with a hole between them. The bytes outside of these
clusters can be anything, and the device may end after cluster 3. -/
example (v : NonRes) (hv : NonRes.new 4 [0x11, 1, 3, 0x01, 1, 0x11, 1, 0xFE] (some 96) 12 = .ok v) (e : Dev)
    (he : e.pos = 0) (hs : e.sched = [.chunk 1])
    (h1 : ∀ a, 4 ≤ a → a < 8 → (List.replicate 20 (7 : UInt8))[a]? = e.img[a]?)
    (h3 : ∀ a, 12 ≤ a → a < 16 → (List.replicate 20 (7 : UInt8))[a]? = e.img[a]?) :
    (v.run ⟨List.replicate 20 7, 0, [.chunk 1]⟩ [.read [0, 0, 0], .seek (.end_ (-2)), .read [0, 0]]).1 =
      (v.run e [.read [0, 0, 0], .seek (.end_ (-2)), .read [0, 0]]).1 := by
  refine (C78_value 4 [0x11, 1, 3, 0x01, 1, 0x11, 1, 0xFE] [⟨1, some 3⟩, ⟨1, none⟩, ⟨1, some 1⟩] (some 96) 12 (by decide)
    ?_ (by simp [Representable]) (by simp [NonZero, Extent.lcnAfter]) v hv _ _ e ⟨he.symm, hs.symm, ?_⟩).1
  · exact .run 0 1 1 _ _ _ (by simp [WidthsOk, FitsSigned]) (.run _ 1 0 _ _ _ (by simp [WidthsOk])
      (.run _ 1 1 _ _ [] (by simp [WidthsOk, FitsSigned, Extent.lcnAfter]) (.atEnd _)))
  · rintro a ⟨x, hx, l, hl, g1, g2⟩
    simp only [List.mem_cons, List.not_mem_nil, or_false] at hx
    rcases hx with rfl | rfl | rfl
    · cases hl; exact h3 a g1 g2
    · cases hl
    · cases hl; exact h1 a g1 g2

/-! ### Indexes -/

/-- The clusters of the index allocation of an index, if it has one. -/
structure Spec.AllocIn (ix : Index) (cs : Nat) (es : List Extent) : Prop where
  clusterPos : 0 < cs
  rep : ∀ e ∈ es, Representable cs e
  nonZero : NonZero 0 es
  alloc : ∀ i a, ix.allocationItem = some i → i.toAttribute = .ok a → a.list = none ∧ a.file.ntfs.clusterSize = cs ∧
    ∀ data p, a.nonResidentValueDataAndPosition = .ok (data, p) → Encodes 0 es data

theorem Spec.AllocIn.subnode {ix : Index} {cs : Nat} {es : List Extent} (h : AllocIn ix cs es) (img : Bytes) (vcn : Int) :
    OnD img (ClustersOf cs es) (fun _ => True) (ix.subnode vcn) := by
  refine Index.subnode_on' (fun i a hi ha => (h.alloc i a hi ha).1) (fun i a v hi ha hv => ?_) vcn
  obtain ⟨_, hc, he⟩ := h.alloc i a hi ha
  unfold Attr.simpleValue at hv
  simp only [Res.bind_eq_ok] at hv
  obtain ⟨b, _, hv⟩ := hv
  cases b with
  | true =>
    rw [if_pos rfl] at hv
    simp only [Res.bind_eq_ok] at hv
    obtain ⟨w, _, hv⟩ := hv
    cases hv
  | false =>
    rw [if_neg (by decide)] at hv
    simp only [Res.bind_eq_ok] at hv
    obtain ⟨w, hw, hv⟩ := hv
    cases hv
    unfold Attr.nonResidentValue at hw
    simp only [Res.bind_eq_ok] at hw
    obtain ⟨⟨data, p⟩, h1, size, _, h2⟩ := hw
    rw [hc] at h2
    exact NonRes.new_in (RunsIn.ofEncoded h.clusterPos (he data p h1) h.rep h.nonZero fun _ h => h) v h2

/-- C78: searching an index, with whatever keys and order, depends only on the clusters of its allocation. -/
theorem C78_find {κ : Type} (key : Bytes → Pos → Res κ) (cmp : κ → Res Ordering) (ix : Index) (cs : Nat)
    (es : List Extent) (h : AllocIn ix cs es) (fuel : Nat) (d e : Dev) (hs : SameOn (ClustersOf cs es) d e) :
    (ix.find key cmp fuel d).1 = (ix.find key cmp fuel e).1 ∧
      SameOn (ClustersOf cs es) (ix.find key cmp fuel d).2 (ix.find key cmp fuel e).2 :=
  (Index.findLoop_on (img := d.img) key cmp (h.subnode _) fuel _).same rfl hs

/-- C78: walking through an index, from whatever state of the iterator. -/
theorem C78_entries (ix : Index) (cs : Nat) (es : List Extent) (h : AllocIn ix cs es) (fuel k : Nat) (it : IndexEntries)
    (d e : Dev) (hs : SameOn (ClustersOf cs es) d e) :
    callsOf (IndexEntries.next ix fuel) k (it, d) = callsOf (IndexEntries.next ix fuel) k (it, e) :=
  (IndexEntries.next_on (img := d.img) (h.subnode _) fuel).calls k trivial rfl hs

theorem exPosIndex_alloc : AllocIn exPosIndex 512 [⟨2, some 1⟩] where
  clusterPos := by decide
  rep := by simp [Representable]
  nonZero := by simp [NonZero]
  alloc := by
    intro i a hi ha
    cases hi
    obtain ⟨rfl, _⟩ := Attr.new_ok_iff.1 ha
    refine ⟨rfl, rfl, fun data p h => ?_⟩
    have := exPosAlloc_runs
    unfold exPosAlloc at this
    rw [this] at h
    cases h
    exact exPos_stored.enc

/-- The index of the example directory: only the places 512 to 1535 matter, not even the record of the directory. -/
example (fuel k : Nat) (e : Dev) (he : e.pos = 0) (hs : e.sched = [])
    (h : ∀ a, 512 ≤ a → a < 1536 → exPosImage[a]? = e.img[a]?) :
    callsOf (IndexEntries.next exPosIndex fuel) k (.new exPosIndex, ⟨exPosImage, 0, []⟩) =
      callsOf (IndexEntries.next exPosIndex fuel) k (.new exPosIndex, e) ∧
    ∀ n name, (exPosIndex.findName n name fuel ⟨exPosImage, 0, []⟩).1 = (exPosIndex.findName n name fuel e).1 := by
  have hs : SameOn (ClustersOf 512 [⟨2, some 1⟩]) ⟨exPosImage, 0, []⟩ e := by
    refine ⟨he.symm, hs.symm, ?_⟩
    rintro a ⟨x, hx, l, hl, g1, g2⟩
    simp only [List.mem_cons, List.not_mem_nil, or_false] at hx
    subst hx
    cases hl
    exact h a g1 g2
  exact ⟨C78_entries _ _ _ exPosIndex_alloc fuel k _ _ _ hs, fun n name =>
    (C78_find _ _ _ _ _ exPosIndex_alloc fuel _ _ hs).1⟩

end NT
