import Verif.Lemmas.Cost
import Verif.Props.C30_RecordFromVcn
import Verif.Props.C26_IndexFind
import Verif.Props.C17_File

/-! C79: how often the operations call the reader, when it answers every call in full. A call is one
`seek` or one `read`; each uses up one entry of the schedule, so `Dev.Used k d d'` counts them. -/

namespace NT

open Spec

/-- The number of extents stored on the device (not sparse) that hold one of the `n` bytes of the stream
from byte `p` on; the extents lie one after the other, the first one at byte `start` of the stream. -/
def Spec.extentsRead (cs : Nat) : Nat → List Extent → Nat → Nat → Nat
  | _, [], _, _ => 0
  | start, e :: es, p, n =>
    (if e.lcn.isSome ∧ max p start < min (p + n) (start + e.count * cs) then 1 else 0) +
      extentsRead cs (start + e.count * cs) es p n

theorem sharedRuns_runOf (cs : Nat) (es : List Extent) (start p n : Nat) :
    sharedRuns (es.map (runOf cs)) (p - start) (n - (start - p)) = extentsRead cs start es p n := by
  induction es generalizing start with
  | nil => rfl
  | cons e es ih =>
    simp only [List.map_cons, sharedRuns, extentsRead, ← ih (start + e.count * cs)]
    have hp : (runOf cs e).position.isSome = e.lcn.isSome := by
      rcases e with ⟨c, _ | l⟩ <;> rfl
    have hs : (runOf cs e).allocatedSize - (runOf cs e).streamPosition = e.count * cs := by
      simp [runOf]
    rw [hp, hs]
    generalize e.count * cs = len
    congr 1
    · have : (p - start < len ∧ 0 < n - (start - p)) ↔ max p start < min (p + n) (start + len) := by
        omega
      simp only [this]
    · congr 1 <;> omega

/-! ### File records -/

/-- Reading a file record that lies inside the image: one seek and one read. -/
theorem C79_record (ntfs : Ntfs) (p number : Nat) (d : Dev) (hd : d.Full)
    (h0 : 0 < ntfs.fileRecordSize) (h : p + ntfs.fileRecordSize ≤ d.img.length) :
    Dev.Used 2 d (NFile.new ntfs p number d).2 := by
  unfold NFile.new
  obtain ⟨d1, e1, p1, u1⟩ := Dev.seekStart_used p d hd
  rw [StM.bind_of_ok e1]
  have u2 := Dev.readExact_used ntfs.fileRecordSize d1 (u1.full hd)
  rw [u1.img, p1, show exactCalls ntfs.fileRecordSize (d.img.length - p) = 1 by
    unfold exactCalls; rw [if_neg (by omega), if_pos (by omega)]] at u2
  obtain ⟨r, d2, e2⟩ : ∃ r d2, Dev.readExact ntfs.fileRecordSize d1 = (r, d2) := ⟨_, _, rfl⟩
  rw [e2] at u2
  rw [StM.bind_apply, e2]
  cases r <;> exact u1.trans u2

/-- The steps of `Ntfs::file` and the device between them. -/
theorem Ntfs.file_steps (ntfs : Ntfs) (img : Bytes) (mft : NFile) (es : List Extent) (pre : List Nat)
    (off len start : Nat) (h : MftStored ntfs img mft es pre off len start) (d : Dev) (hd : d.Full)
    (hi : d.img = img) (number : Nat) (hov : number * ntfs.fileRecordSize < U64) :
    ∃ (p : Nat) (d1 : Dev), NFile.new ntfs p 0 d = (.ok mft, d1) ∧ Dev.Used 2 d d1 ∧
      (ntfs.file number d) = match addressOf ntfs.clusterSize es (number * ntfs.fileRecordSize) with
        | none => (.err (.invalidFileRecordNumber number), d1)
        | some a => NFile.new ntfs a number d1 := by
  unfold Ntfs.file checkedMulU64
  rw [if_pos (by omega)]
  obtain ⟨p, hp, hpin, hmft⟩ := h.mftPos
  obtain ⟨d1, h1, h2, h3⟩ := NFile.new_noFail ntfs p 0 d hd.noFail h.sizePos
  have u1 := C79_record ntfs p 0 d hd h.sizePos (by rw [hi]; exact hpin)
  rw [h1] at u1
  rw [hi, if_pos hpin, hmft] at h1
  have hmft' := hmft
  obtain ⟨_, r, _, hmr, h32, _⟩ := (NFile.ofBytes_ok_iff _ _ _ _ _).1 hmft'
  have hnt : mft.ntfs = ntfs := by rw [hmr]
  have hl32 : 32 ≤ mft.recordData.length := by rw [hmr]; exact h32
  have hfind : mft.findResidentAttribute .data none none = .ok ⟨mft, off, none⟩ :=
    (C22_first_match mft hl32 .data none none _).2 ⟨pre, off, h.chain, ⟨len, h.attr⟩, rfl,
      ⟨h.ty, by simp, by simp⟩, h.first⟩
  have hal := h.attr.length
  have hah := h.header
  have hai := h.attr.inside
  have hHI : (Attr.mk mft off none).HeaderIn := by
    unfold Attr.HeaderIn; simp only [Attr.recordData]; omega
  have hval : (Attr.mk mft off none).simpleValue = (do
      let v ← NonRes.new ntfs.clusterSize ((mft.recordData.drop (off + start)).take (len - start))
        (Pos.add mft.position (off + start)) (field mft.recordData (off + 48) 8)
      pure (.nonRes v)) := by
    unfold Attr.simpleValue
    rw [Attr.isResident_eq hHI]
    have : (field mft.recordData (off + 8) 1 == 0) = false := by simpa using h.nonRes
    simp only [Attr.recordData, this, Res.bind_ok]
    have hrin := h.runsIn
    rw [if_neg (by simp), Attr.nonResidentValue_eq hHI h.nonRes
      (by simp only [Attr.recordData]; omega) start len h.runsAt hal hai, if_neg (by omega)]
    simp only [hnt]
  have hsz : field mft.recordData (off + 48) 8 < U64 := by
    have := field_lt (d := mft.recordData) (a := off + 48) (n := 8) (by omega)
    exact this
  obtain ⟨v, v', hv1, _, hv2, hv3⟩ := C39_fresh_seek ntfs.clusterSize img _ es
    (Pos.add mft.position (off + start)) _ h.runs hsz (.start (number * ntfs.fileRecordSize))
    (by simp only [SeekFrom.InRange]; omega) (by simp only [validTarget, seekTarget]; omega)
  have hst : (seekTarget 0 (field mft.recordData (off + 48) 8)
      (.start (number * ntfs.fileRecordSize))).toNat = number * ntfs.fileRecordSize := by
    exact Int.toNat_natCast _
  rw [hst] at hv2 hv3
  rw [hv1, Res.bind_ok, Res.pure_eq] at hval
  refine ⟨p, d1, h1, u1, ?_⟩
  rw [StM.bind_of_ok (show StM.lift (Res.ofOption (Err.invalidFileRecordNumber number)
    (some (number * ntfs.fileRecordSize))) d = (.ok (number * ntfs.fileRecordSize), d) from rfl)]
  simp only [hp]
  rw [StM.bind_of_ok h1]
  rw [StM.bind_of_ok (show StM.lift (mft.findResidentAttribute .data none none) d1 =
    (.ok ⟨mft, off, none⟩, d1) by rw [StM.lift_apply, hfind])]
  rw [StM.bind_of_ok (show StM.lift (Attr.mk mft off none).simpleValue d1 =
    (.ok (SVal.nonRes v), d1) by rw [StM.lift_apply, hval])]
  simp only [SVal.seek, hv2, SVal.dataPosition, hv3]
  cases haddr : addressOf ntfs.clusterSize es (number * ntfs.fileRecordSize) with
  | none => rfl
  | some a => rfl

/-- `Ntfs::file`: no call if the number is too big, two (the first record of the MFT) if the MFT has no
place for the record, four if it has one: the first record of the MFT is read again each time. -/
theorem C79_file (ntfs : Ntfs) (img : Bytes) (mft : NFile) (es : List Extent) (pre : List Nat)
    (off len start : Nat) (h : MftStored ntfs img mft es pre off len start) (d : Dev) (hd : d.Full)
    (hi : d.img = img) (number : Nat) :
    (U64 ≤ number * ntfs.fileRecordSize → (ntfs.file number d).2 = d) ∧
    (number * ntfs.fileRecordSize < U64 →
      addressOf ntfs.clusterSize es (number * ntfs.fileRecordSize) = none →
      Dev.Used 2 d (ntfs.file number d).2) ∧
    (∀ a, number * ntfs.fileRecordSize < U64 →
      addressOf ntfs.clusterSize es (number * ntfs.fileRecordSize) = some a →
      a + ntfs.fileRecordSize ≤ img.length → Dev.Used 4 d (ntfs.file number d).2) := by
  by_cases hov : U64 ≤ number * ntfs.fileRecordSize
  · refine ⟨fun _ => ?_, fun h => by omega, fun _ h => by omega⟩
    unfold Ntfs.file checkedMulU64
    rw [if_neg (by omega)]
    rfl
  obtain ⟨_, d1, e1, u1, e2⟩ := Ntfs.file_steps ntfs img mft es pre off len start h d hd hi number
    (by omega)
  refine ⟨fun h => absurd h hov, fun _ ha => ?_, fun a _ ha hin => ?_⟩
  · rw [ha] at e2
    rw [e2]
    exact u1
  · rw [ha] at e2
    dsimp only at e2
    rw [e2]
    exact u1.trans (C79_record ntfs a number d1 (u1.full hd) h.sizePos (by rw [u1.img, hi]; exact hin))

/-! ### Values -/

/-- The calls of a history of reads and seeks on a value of `size` bytes stored as the extents `es`: two
for each stored extent that a read takes bytes from, none for a seek. -/
def Spec.callsOfHistory (cs : Nat) (es : List Extent) (size : Nat) : Flat → List Op → Nat
  | _, [] => 0
  | f, .read buf :: ops =>
    2 * extentsRead cs 0 es f.pos (min buf.length (size - f.pos)) +
      callsOfHistory cs es size (f.step (.read buf)).2 ops
  | f, .seek s :: ops => callsOfHistory cs es size (f.step (.seek s)).2 ops

theorem NonRes.read_used (img : Bytes) (all : List DataRun) (v : NonRes) (hg : v.Good img all)
    (himg : img.length < U64) (buf : Bytes) (d : Dev) (hd : d.Full) (hi : d.img = img) :
    Dev.Used (2 * sharedRuns all v.st.streamPosition
      (min buf.length (v.st.dataSize - v.st.streamPosition))) d (v.read buf d).2.2.2 := by
  subst hi
  obtain ⟨post, hy, hsub, hlen, hp⟩ := hg.pend
  have hfew := hg.few
  have := readLoop_used (buf.length + v.data.length + v.runs.data.length + 2) v buf 0 d post hd himg hy
    hg.curOk (fun r hr => (hg.allOk r (hsub r hr)).1) (by omega) (by omega)
  unfold NonRes.read
  rw [Nat.sub_zero] at this
  rcases hp with hp | hp
  · rw [hp.runs, Nat.add_zero] at this
    exact this
  · rw [show min buf.length (v.st.dataSize - v.st.streamPosition) = 0 by omega, sharedRuns_zero] at this ⊢
    exact this

theorem NonRes.run_used (cs : Nat) (img : Bytes) (es : List Extent) (himg : img.length < U64)
    (ops : List Op) (hops : ∀ op ∈ ops, op.InRange) (v : NonRes)
    (hg : v.Good img (es.map (runOf cs))) (d : Dev) (hd : d.Full) (hi : d.img = img) :
    Dev.Used (callsOfHistory cs es v.st.dataSize (v.flat img (es.map (runOf cs))) ops) d
      (v.run d ops).2.2 := by
  induction ops generalizing v d with
  | nil => exact .refl d
  | cons op ops ih =>
    obtain ⟨h1, h2, h3, h4, h5⟩ :=
      NonRes.step_refines img _ v hg himg op (hops op (by simp)) d hd.noFail hi
    have hsz : (v.step d op).2.1.st.dataSize = v.st.dataSize := by
      have := congrArg Flat.len h2
      cases op with
      | read buf => exact this
      | seek s =>
        simp only [Flat.step] at this
        split at this <;> exact this
    have u : Dev.Used (match op with
        | .read buf => 2 * extentsRead cs 0 es v.st.streamPosition
            (min buf.length (v.st.dataSize - v.st.streamPosition))
        | .seek _ => 0) d (v.step d op).2.2 := by
      cases op with
      | read buf =>
        have := NonRes.read_used img _ v hg himg buf d hd hi
        have e := sharedRuns_runOf cs es 0 v.st.streamPosition
          (min buf.length (v.st.dataSize - v.st.streamPosition))
        rw [Nat.sub_zero, Nat.zero_sub, Nat.sub_zero] at e
        rw [e] at this
        exact this
      | seek s => exact .refl d
    have key := ih (fun o ho => hops o (by simp [ho])) (v.step d op).2.1 h3 (v.step d op).2.2
      (u.full hd) h5
    rw [h2, hsz] at key
    have := u.trans key
    simp only [NonRes.run]
    cases op with
    | read buf => exact this
    | seek s =>
      rw [Nat.zero_add] at this
      exact this

/-- **C79.** Any history of reads and seeks on a non-resident value: a read makes two calls for each
stored extent that it takes bytes from, whatever the buffer size and wherever the cursor is; sparse
extents and seeks make none. -/
theorem C79_value (cs : Nat) (img data : Bytes) (es : List Extent) (p : Pos) (size : Nat)
    (h : StoredAs cs img data es) (hsize : size < U64) (d : Dev) (hd : d.Full) (hi : d.img = img)
    (ops : List Op) (hops : ∀ op ∈ ops, op.InRange) :
    ∃ v, NonRes.new cs data p size = .ok v ∧
      Dev.Used (callsOfHistory cs es size ⟨(content cs img es).take size, size, 0⟩ ops) d
        (v.run d ops).2.2 := by
  obtain ⟨v, h1, h2, h3, h4, _⟩ := NonRes.new_good h p size hsize
  have := NonRes.run_used cs img es h.imgLt ops hops v h2 d hd hi
  have hf : v.flat img (es.map (runOf cs)) = ⟨(content cs img es).take size, size, 0⟩ := by
    unfold NonRes.flat
    rw [restBytes_runOf, h3, h4]
  rw [hf, h3] at this
  exact ⟨v, h1, this⟩

/-- Reading `n` bytes that are there with `read_exact`: one call of `read`. -/
theorem Val.readInto_used (img : Bytes) (all : List DataRun) (v : NonRes) (hg : v.Good img all)
    (himg : img.length < U64) (n : Nat)
    (hn : n ≤ ((restBytes img all).take v.st.dataSize).length - v.st.streamPosition)
    (d : Dev) (hd : d.Full) (hi : d.img = img) :
    Dev.Used (2 * sharedRuns all v.st.streamPosition n) d ((Val.simple (.nonRes v)).readInto n d).2 := by
  have hl : n ≤ v.st.dataSize - v.st.streamPosition := by
    rw [List.length_take] at hn; omega
  have u := NonRes.read_used img all v hg himg (List.replicate n 0) d hd hi
  rw [List.length_replicate, Nat.min_eq_left hl] at u
  obtain ⟨got, v', d', h1, h2, _⟩ :=
    NonRes.read_good img all v hg himg (List.replicate n 0) d hd.noFail hi
  have hgl : got.length = n := by
    rw [h1, List.length_take, List.length_drop, List.length_replicate]; omega
  rw [h2] at u
  dsimp only at u
  unfold Val.readInto Val.readExact
  rw [List.length_replicate]
  by_cases h0 : n = 0
  · subst h0
    have hz : readExactLoop Val.readFn (0 + d.sched.length + 1) (Val.simple (.nonRes v), d) []
        (List.replicate 0 0) = (.ok (), (Val.simple (.nonRes v), d), []) := by
      unfold readExactLoop
      rfl
    rw [hz]
    rw [sharedRuns_zero]
    exact .refl d
  rw [show n + d.sched.length + 1 = (n - 1 + d.sched.length + 1) + 1 by omega]
  have hr : Val.readFn (Val.simple (.nonRes v), d) (List.replicate n 0) =
      (.ok n, (Val.simple (.nonRes v'), d'), got) := by
    unfold Val.readFn Val.read SVal.read
    simp only [h2]
    rw [hgl]
    simp
  have hz : readExactLoop Val.readFn ((n - 1 + d.sched.length + 1) + 1) (Val.simple (.nonRes v), d) []
      (List.replicate n 0) = (.ok (), (Val.simple (.nonRes v'), d'), got) := by
    unfold readExactLoop
    rw [List.length_replicate, if_neg h0, hr]
    dsimp only
    rw [if_neg h0, if_pos (by omega)]
    unfold readExactLoop
    rw [if_pos (by rw [List.length_drop]; omega)]
    simp only [List.nil_append, List.take_append_drop]
  rw [hz]
  exact u

/-! ### The hypotheses can be met -/

theorem Dev.full_replicate (img : Bytes) (pos n k : Nat) (h : img.length ≤ k + 1) :
    Dev.Full ⟨img, pos, List.replicate n (.chunk k)⟩ :=
  fun _ hr => ⟨k, List.eq_of_mem_replicate hr, h⟩

/-- Reading ten bytes of the value of `exampleStored` at once takes four calls (its middle extent is
sparse), reading only the sparse bytes none, and reading the first five two. -/
example : callsOfHistory 4 [⟨1, some 2⟩, ⟨1, none⟩, ⟨1, some 1⟩] 10
      ⟨[8, 9, 10, 11, 0, 0, 0, 0, 4, 5], 10, 0⟩ [.read (List.replicate 20 7)] = 4 ∧
    callsOfHistory 4 [⟨1, some 2⟩, ⟨1, none⟩, ⟨1, some 1⟩] 10
      ⟨[8, 9, 10, 11, 0, 0, 0, 0, 4, 5], 10, 0⟩ [.seek (.start 4), .read [7, 7, 7, 7]] = 0 ∧
    callsOfHistory 4 [⟨1, some 2⟩, ⟨1, none⟩, ⟨1, some 1⟩] 10
      ⟨[8, 9, 10, 11, 0, 0, 0, 0, 4, 5], 10, 0⟩ [.read [7, 7, 7, 7, 7]] = 2 := by decide

example := C79_value 4 _ _ _ none 10 exampleStored (by decide)
  ⟨[0, 1, 2, 3, 4, 5, 6, 7, 8, 9, 10, 11], 0, List.replicate 9 (.chunk 11)⟩
  (Dev.full_replicate _ _ _ _ (by decide)) rfl
  [.seek (.start 2), .read [7, 7, 7], .seek (.end_ (-3)), .read [7, 7, 7, 7, 7]] (by decide)

set_option maxRecDepth 20000 in
/-- The records of the example MFT, on a reader that answers in full: four calls for the records 0 and 1,
two for record 2, which the MFT has no place for. -/
example : Dev.Used 4 ⟨exMftImage, 0, List.replicate 9 (.chunk 500)⟩
      (exMftNtfs.file 1 ⟨exMftImage, 0, List.replicate 9 (.chunk 500)⟩).2 ∧
    Dev.Used 2 ⟨exMftImage, 0, List.replicate 9 (.chunk 500)⟩
      (exMftNtfs.file 2 ⟨exMftImage, 0, List.replicate 9 (.chunk 500)⟩).2 := by
  obtain ⟨mft, hm⟩ := exMftStored
  have hf := Dev.full_replicate exMftImage 0 9 500 (by decide)
  exact ⟨(C79_file _ _ mft _ _ _ _ _ hm _ hf rfl 1).2.2 256 (by decide) (by decide) (by decide),
    (C79_file _ _ mft _ _ _ _ _ hm _ hf rfl 2).2.1 (by decide) (by decide)⟩

end NT
