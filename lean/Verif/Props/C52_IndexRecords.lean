import Verif.Props.C30_RecordFromVcn
import Verif.Props.C50_Apart

/-! C52: iteration over all index records of an index allocation. -/

namespace NT

open Spec

/-- The results of `k` calls of `next`. -/
def IndexRecords.calls : Nat → IndexRecords × Dev → List (Res (Option IndexRecord))
  | 0, _ => []
  | k + 1, s => (IndexRecords.next s).1 :: IndexRecords.calls k (IndexRecords.next s).2

/-- Opening the index allocation and iterating over its records. -/
def Attr.indexRecords (a : Attr) (size : Nat) : StM Dev IndexRecords := do
  let x ← a.indexAllocation
  pure (x.records size)

theorem Val.seek_cluster_isSome (v : Val) (cs : Nat) (hc : v.cluster = some cs) (s : SeekFrom)
    (d : Dev) : ∃ cs', (v.seek s d).2.1.cluster = some cs' := by
  match v, hc with
  | .simple (.nonRes v), _ =>
    unfold Val.seek SVal.seek
    dsimp only
    exact ⟨_, rfl⟩
  | .list v, _ =>
    unfold Val.seek
    dsimp only
    exact ⟨_, rfl⟩

/-- One call, in terms of the bytes of the stream. -/
theorem IndexRecords.next_eq {img c : Bytes} {v : Val} {cs cl : Nat} (hv : v.Has img c)
    (hc : v.cluster = some cs) (hlen : v.len < U64) (size : Nat) (hsize : size < U32) (d : Dev)
    (hd : d.Ok img) :
    ∃ (q : Pos) (d' : Dev), d'.Ok img ∧
      if v.len ≤ v.streamPosition then IndexRecords.next (⟨⟨cl, v⟩, size⟩, d) = (.ok none, (⟨⟨cl, v⟩, size⟩, d'))
      else if ¬ size ≤ c.length - v.streamPosition then
        IndexRecords.next (⟨⟨cl, v⟩, size⟩, d) = (.err (.io .unexpectedEof), (⟨⟨cl, v⟩, size⟩, d'))
      else
        (∀ e, IndexRecord.ofBytes (part c v.streamPosition size) q = .err e →
          IndexRecords.next (⟨⟨cl, v⟩, size⟩, d) = (.err e, (⟨⟨cl, v⟩, size⟩, d'))) ∧
        (∀ r, IndexRecord.ofBytes (part c v.streamPosition size) q = .ok r →
          ∃ v' cs' d'', d''.Ok img ∧ v'.Has img c ∧ v'.cluster = some cs' ∧ v'.len = v.len ∧
            v'.streamPosition = v.streamPosition + size ∧
            IndexRecords.next (⟨⟨cl, v⟩, size⟩, d) = (.ok (some r), (⟨⟨cl, v'⟩, size⟩, d''))) := by
  unfold IndexRecords.next
  dsimp only
  by_cases h1 : v.len ≤ v.streamPosition
  · refine ⟨none, d, hd, ?_⟩
    rw [if_pos h1, if_pos h1]
  obtain ⟨d1, e1, hd1⟩ := hv.readIntoAt size d hd
  refine ⟨v.dataPosition, d1, hd1, ?_⟩
  rw [if_neg h1, if_neg (show ¬ v.streamPosition ≥ v.len by omega)]
  by_cases h2 : size ≤ c.length - v.streamPosition
  case neg =>
    rw [if_neg h2] at e1
    rw [if_pos h2]
    have e : IndexRecord.new v size d = (.err (.io .unexpectedEof), d1) := by
      unfold IndexRecord.new
      rw [StM.bind_of_err e1]
    rw [e]
  rw [if_pos h2] at e1
  rw [if_neg (by simpa using h2)]
  have e : IndexRecord.new v size d =
      (IndexRecord.ofBytes (part c v.streamPosition size) v.dataPosition, d1) := by
    unfold IndexRecord.new
    rw [StM.bind_of_ok e1, StM.lift_apply]
    rfl
  rw [e]
  constructor
  · intro x hx
    rw [hx]
  · intro r hr
    rw [hr]
    dsimp only
    have hcl := hv.length_le
    have hin : (SeekFrom.current (size : Int)).InRange := by
      have : (size : Int) < (I63 : Int) := by omega
      exact ⟨by omega, this⟩
    have ht : seekTarget v.streamPosition v.len (.current (size : Int)) =
        ((v.streamPosition + size : Nat) : Int) := by simp [seekTarget]
    obtain ⟨sk, hsk'⟩ : ∃ sk, sk = SeekFrom.current (size : Int) := ⟨_, rfl⟩
    rw [← hsk'] at hin ht ⊢
    have hsk := hv.seek hc sk hin d1 hd1
    rw [ht, if_pos (by simp only [validTarget]; omega), Int.toNat_natCast] at hsk
    obtain ⟨v', d2, q1, q2, q3, q4, q5⟩ := hsk
    obtain ⟨cs', hcs'⟩ := Val.seek_cluster_isSome v cs hc sk d1
    rw [q1] at hcs'
    refine ⟨v', cs', d2, q2, q3, hcs', q4, q5, ?_⟩
    rw [q1]

/-- Calls at the end of the stream. -/
theorem IndexRecords.calls_end {img c : Bytes} {cl : Nat} (size : Nat) (hsize : size < U32) (k : Nat)
    {v : Val} {cs : Nat} (hv : v.Has img c) (hc : v.cluster = some cs) (hlen : v.len < U64) (d : Dev)
    (hd : d.Ok img) (h : v.len ≤ v.streamPosition) :
    IndexRecords.calls k (⟨⟨cl, v⟩, size⟩, d) = List.replicate k (.ok none) := by
  induction k generalizing d with
  | zero => rfl
  | succ k ih =>
    obtain ⟨q, d', hd', e⟩ := IndexRecords.next_eq (cl := cl) hv hc hlen size hsize d hd
    rw [if_pos h] at e
    unfold IndexRecords.calls
    rw [e, ih d' hd']
    rfl

/-- Calls at a record that cannot be decoded. -/
theorem IndexRecords.calls_bad {img c : Bytes} {cl : Nat} (size : Nat) (hsize : size < U32) (k : Nat)
    {v : Val} {cs : Nat} (hv : v.Has img c) (hc : v.cluster = some cs) (hlen : v.len < U64) (d : Dev)
    (hd : d.Ok img) (h : v.streamPosition < v.len) (E : Err → Prop)
    (hbad : if size ≤ c.length - v.streamPosition then
        ∀ q, ∃ e, IndexRecord.ofBytes (part c v.streamPosition size) q = .err e ∧ E e
      else E (.io .unexpectedEof)) :
    ∃ rs, Each (fun (_ : Nat) r => ∃ e, r = .err e ∧ E e) (List.range k) rs ∧
      IndexRecords.calls k (⟨⟨cl, v⟩, size⟩, d) = rs := by
  suffices hs : ∃ rs, (∀ r ∈ rs, ∃ e, r = .err e ∧ E e) ∧ rs.length = k ∧
      IndexRecords.calls k (⟨⟨cl, v⟩, size⟩, d) = rs by
    obtain ⟨rs, h1, h2, h3⟩ := hs
    refine ⟨rs, ?_, h3⟩
    have : (List.range k).length = rs.length := by rw [h2, List.length_range]
    clear h2 h3
    generalize List.range k = xs at this
    induction rs generalizing xs with
    | nil => cases xs with
      | nil => exact .nil
      | cons x xs => simp at this
    | cons r rs ih => cases xs with
      | nil => simp at this
      | cons x xs =>
        exact .cons (h1 r (by simp)) (ih (fun r hr => h1 r (by simp [hr])) xs (by simpa using this))
  induction k generalizing d with
  | zero => exact ⟨[], by simp, rfl, rfl⟩
  | succ k ih =>
    obtain ⟨q, d', hd', e⟩ := IndexRecords.next_eq (cl := cl) hv hc hlen size hsize d hd
    obtain ⟨rs, h1, h2, h3⟩ := ih d' hd'
    rw [if_neg (by omega)] at e
    by_cases h4 : size ≤ c.length - v.streamPosition
    · rw [if_neg (by simpa using h4)] at e
      rw [if_pos h4] at hbad
      obtain ⟨x, hx, hE⟩ := hbad q
      refine ⟨.err x :: rs, ?_, by simp [h2], ?_⟩
      · intro r hr
        rcases List.mem_cons.1 hr with rfl | hr
        · exact ⟨x, rfl, hE⟩
        · exact h1 r hr
      · unfold IndexRecords.calls
        rw [e.1 x hx, h3]
    · rw [if_pos h4] at e
      rw [if_neg h4] at hbad
      refine ⟨.err (.io .unexpectedEof) :: rs, ?_, by simp [h2], ?_⟩
      · intro r hr
        rcases List.mem_cons.1 hr with rfl | hr
        · exact ⟨_, rfl, hbad⟩
        · exact h1 r hr
      · unfold IndexRecords.calls
        rw [e, h3]

/-- Calls over intact records. -/
theorem IndexRecords.calls_good {img c : Bytes} {cl : Nat} (size : Nat) (hsize : size < U32) (k : Nat)
    (bs : List Bytes) {v : Val} {cs : Nat} (hv : v.Has img c) (hc : v.cluster = some cs)
    (hlen : v.len < U64) (d : Dev) (hd : d.Ok img)
    (h : ∀ (i : Nat) (b : Bytes), bs[i]? = some b →
      ∃ off stop, RecordIn c size (v.streamPosition + i * size) b off stop) :
    ∃ rs v' cs' d', Each (fun b r => ∃ q, r = .ok (some ⟨⟨b, q⟩⟩)) bs rs ∧
      v'.Has img c ∧ v'.cluster = some cs' ∧ v'.len = v.len ∧
      v'.streamPosition = v.streamPosition + bs.length * size ∧ d'.Ok img ∧
      IndexRecords.calls (bs.length + k) (⟨⟨cl, v⟩, size⟩, d) =
        rs ++ IndexRecords.calls k (⟨⟨cl, v'⟩, size⟩, d') := by
  induction bs generalizing v cs d with
  | nil => exact ⟨[], v, cs, d, .nil, hv, hc, rfl, by simp, hd, by simp⟩
  | cons b bs ih =>
    obtain ⟨off, stop, hr⟩ := h 0 b rfl
    rw [Nat.zero_mul, Nat.add_zero] at hr
    obtain ⟨q, d', hd', e⟩ := IndexRecords.next_eq (cl := cl) hv hc hlen size hsize d hd
    have h1 := hr.inside
    have h2 := hr.header
    have h3 := hv.length_le
    rw [if_neg (by omega), if_neg (by omega)] at e
    obtain ⟨v', cs', d'', p1, p2, p3, p4, p5, p6⟩ := e.2 _ (IndexRecord.ofBytes_in hr hsize q)
    obtain ⟨rs, w, cs2, d2, s1, s2, s3, s4, s5, s6, s7⟩ := ih p2 p3 (by omega) d'' p1 (by
      intro i b' hb'
      obtain ⟨o, st, g⟩ := h (i + 1) b' (by simpa using hb')
      refine ⟨o, st, ?_⟩
      have : v'.streamPosition + i * size = v.streamPosition + (i + 1) * size := by
        rw [p5, Nat.add_mul]; omega
      rw [this]; exact g)
    refine ⟨.ok (some ⟨⟨b, q⟩⟩) :: rs, w, cs2, d2, .cons ⟨q, rfl⟩ s1, s2, s3, by omega, ?_, s6, ?_⟩
    · rw [s5, p5, List.length_cons, Nat.add_mul]; omega
    · have : (b :: bs).length + k = (bs.length + k) + 1 := by simp; omega
      rw [this]
      show (IndexRecords.next _).1 :: IndexRecords.calls (bs.length + k) (IndexRecords.next _).2 = _
      rw [p6]
      dsimp only
      rw [s7]
      rfl

/-- C52: if the value of an index allocation attribute consists of the index records `bs`, one after
the other, the iteration shows exactly these records, each once and in order, and then ends for
good. -/
theorem C52_all_records {img c : Bytes} {len : Nat} {a : Attr} (h : AllocOf img c len a)
    (hlen : len < U64) (size : Nat) (hsize : size < U32) (bs : List Bytes)
    (hbs : ∀ (i : Nat) (b : Bytes), bs[i]? = some b →
      ∃ off stop, RecordIn c size (i * size) b off stop)
    (hall : bs.length * size = len) (d : Dev) (hd : d.Ok img) (k : Nat) :
    ∃ it d' rs, a.indexRecords size d = (.ok it, d') ∧
      Each (fun b r => ∃ q, r = .ok (some ⟨⟨b, q⟩⟩)) bs rs ∧
      IndexRecords.calls (bs.length + k) (it, d') = rs ++ List.replicate k (.ok none) := by
  obtain ⟨v, d1, hd1, e, h1, h2, h3, h4⟩ := Attr.indexAllocation_opens h.ty h.opens h.nonRes d hd
  obtain ⟨rs, v', cs', d', s1, s2, s3, s4, s5, s6, s7⟩ := IndexRecords.calls_good
    (cl := a.file.ntfs.clusterSize) size hsize k bs h1 h2 (by omega) d1 hd1
    (by intro i b hb; rw [h3, Nat.zero_add]; exact hbs i b hb)
  refine ⟨⟨⟨a.file.ntfs.clusterSize, v⟩, size⟩, d1, rs, ?_, s1, ?_⟩
  · unfold Attr.indexRecords
    rw [StM.bind_of_ok e]
    rfl
  · refine s7.trans ?_
    rw [IndexRecords.calls_end size hsize k s2 s3 (by omega) d' s6 (by omega)]

/-- C52: if the first records `bs` are intact and the next one does not carry the signature `INDX`
(or is cut off by the end of the stored bytes), the intact ones are shown, and all further calls report
this error; later records are never shown. -/
theorem C52_bad_record {img c : Bytes} {len : Nat} {a : Attr} (h : AllocOf img c len a)
    (hlen : len < U64) (size : Nat) (hsize : size < U32) (hmin : 4 ≤ size) (bs : List Bytes)
    (hbs : ∀ (i : Nat) (b : Bytes), bs[i]? = some b →
      ∃ off stop, RecordIn c size (i * size) b off stop)
    (hmore : bs.length * size < len)
    (hbad : bs.length * size + size ≤ c.length →
      part c (bs.length * size) 4 ≠ [0x49, 0x4E, 0x44, 0x58]) (d : Dev) (hd : d.Ok img) (k : Nat) :
    ∃ it d' rs es, a.indexRecords size d = (.ok it, d') ∧
      Each (fun b r => ∃ q, r = .ok (some ⟨⟨b, q⟩⟩)) bs rs ∧
      Each (fun (_ : Nat) r => ∃ e, r = .err e ∧
        if bs.length * size + size ≤ c.length then
          ∃ q, e = .invalidIndexSignature q (part c (bs.length * size) 4)
        else e = .io .unexpectedEof) (List.range k) es ∧
      IndexRecords.calls (bs.length + k) (it, d') = rs ++ es := by
  obtain ⟨v, d1, hd1, e, h1, h2, h3, h4⟩ := Attr.indexAllocation_opens h.ty h.opens h.nonRes d hd
  obtain ⟨rs, v', cs', d', s1, s2, s3, s4, s5, s6, s7⟩ := IndexRecords.calls_good
    (cl := a.file.ntfs.clusterSize) size hsize k bs h1 h2 (by omega) d1 hd1
    (by intro i b hb; rw [h3, Nat.zero_add]; exact hbs i b hb)
  have hp : v'.streamPosition = bs.length * size := by omega
  have hle := s2.length_le
  obtain ⟨es, g1, g2⟩ := IndexRecords.calls_bad (cl := a.file.ntfs.clusterSize) size hsize k s2 s3
    (by omega) d' s6 (by omega)
    (fun e => if bs.length * size + size ≤ c.length then
          ∃ q, e = .invalidIndexSignature q (part c (bs.length * size) 4)
        else e = .io .unexpectedEof) (by
      rw [hp]
      by_cases hin : bs.length * size + size ≤ c.length
      · rw [if_pos (by omega)]
        intro q
        have hpl : (part c (bs.length * size) size).length = size := part_length hin
        have hsig : (part c (bs.length * size) size).take 4 = part c (bs.length * size) 4 := by
          unfold part
          rw [List.take_take, Nat.min_eq_left hmin]
        refine ⟨.invalidIndexSignature q (part c (bs.length * size) 4), ?_, ?_⟩
        · rw [IndexRecord.ofBytes_eq _ _ (by omega), hsig, if_pos (hbad hin)]
        · rw [if_pos hin]; exact ⟨q, rfl⟩
      · rw [if_neg (by omega), if_neg hin])
  refine ⟨⟨⟨a.file.ntfs.clusterSize, v⟩, size⟩, d1, rs, es, ?_, s1, g1, ?_⟩
  · unfold Attr.indexRecords
    rw [StM.bind_of_ok e]
    rfl
  · exact s7.trans (by rw [g2])

/-- The two records of the example directory, in order. -/
example (d : Dev) (hd : d.Ok exDirImage) (k : Nat) :
    ∃ it d' q0 q1, (exDirAlloc none).indexRecords 512 d = (.ok it, d') ∧
      IndexRecords.calls (2 + k) (it, d') =
        .ok (some ⟨⟨exDirNode0 ++ [1, 2], q0⟩⟩) :: .ok (some ⟨⟨exDirNode1 ++ [1, 2], q1⟩⟩) ::
          List.replicate k (.ok none) := by
  obtain ⟨it, d', rs, h1, h2, h3⟩ := C52_all_records exDir_allocOf (by decide) 512 (by decide)
    [exDirNode0 ++ [1, 2], exDirNode1 ++ [1, 2]] (by
      intro i b hb
      match i, hb with
      | 0, hb => cases hb; exact ⟨_, _, exDir_record0.toRecordIn⟩
      | 1, hb => cases hb; exact ⟨_, _, exDir_record1.toRecordIn⟩) (by decide) d hd k
  cases h2 with
  | cons a t =>
    cases t with
    | cons b t =>
      cases t
      obtain ⟨q0, rfl⟩ := a
      obtain ⟨q1, rfl⟩ := b
      exact ⟨it, d', q0, q1, h1, h3⟩

/-- The same directory, but the second record of the index allocation is a sparse cluster. -/
def exSparse : Attr :=
  ⟨⟨exDirNtfs none, ⟨exDirRecord.take 312 ++ [0x11, 1, 1, 0x01, 1, 0, 0, 0] ++ exDirRecord.drop 320,
    some 512⟩, 30⟩, 240, none⟩

theorem exSparse_stored : StoredAs 512 exDirImage [0x11, 1, 1, 0x01, 1, 0, 0, 0]
    [⟨1, some 1⟩, ⟨1, none⟩] where
  clusterPos := by decide
  enc := by
    refine .run 0 1 1 _ _ _ ?_ (.run _ 1 0 _ _ _ ?_ (.terminated _ [0, 0]))
    · simp [WidthsOk, FitsSigned]
    · simp [WidthsOk]
  rep := by simp [Representable]
  nonZero := by simp [NonZero, Extent.lcnAfter]
  inImage := by simp [InImage]; decide +kernel
  imgLt := by decide +kernel

set_option maxRecDepth 20000 in
/-- It has the hypotheses of `C52_bad_record`: after the first record all calls report an invalid
signature. -/
example (d : Dev) (hd : d.Ok exDirImage) (k : Nat) : ∃ it d' q es, exSparse.indexRecords 512 d = (.ok it, d') ∧
    Each (fun (_ : Nat) r => ∃ q, r = .err (.invalidIndexSignature q [0, 0, 0, 0])) (List.range k) es ∧
    IndexRecords.calls (1 + k) (it, d') = .ok (some ⟨⟨exDirNode0 ++ [1, 2], q⟩⟩) :: es := by
  have ha : AllocOf exDirImage ((exDirNode0 ++ [9, 0]) ++ List.replicate 512 0) 1024 exSparse := by
    refine ⟨by decide +kernel, ?_, .inr ⟨by unfold Attr.HeaderIn; decide +kernel, by decide +kernel⟩⟩
    have e : (content 512 exDirImage [⟨1, some 1⟩, ⟨1, none⟩]).take 1024 =
      (exDirNode0 ++ [9, 0]) ++ List.replicate 512 0 := by decide +kernel
    rw [← e]
    refine Attr.opens_nonResident exDirImage exSparse (by unfold Attr.HeaderIn; decide +kernel) rfl
      (by decide +kernel) (by decide +kernel) 72 80 1024 (by decide +kernel) (by decide +kernel)
      (by decide +kernel) (by decide) (by decide +kernel) [⟨1, some 1⟩, ⟨1, none⟩] ?_
    have e2 : (exSparse.recordData.drop (exSparse.offset + 72)).take (80 - 72) =
      [0x11, 1, 1, 0x01, 1, 0, 0, 0] := by decide +kernel
    rw [e2]
    exact exSparse_stored
  have hr : RecordIn ((exDirNode0 ++ [9, 0]) ++ List.replicate 512 0) 512 (0 * 512)
      (exDirNode0 ++ [1, 2]) 48 152 := by
    refine ⟨by decide +kernel, by decide +kernel, ⟨1, 40, ?_⟩, by decide, by decide +kernel,
      by decide +kernel, by decide +kernel, by decide +kernel⟩
    have e : part ((exDirNode0 ++ [9, 0]) ++ List.replicate 512 0) (0 * 512) 512 =
      exDirNode0 ++ [9, 0] := by decide +kernel
    rw [e]
    exact exDirNode_restores _ (by decide +kernel) (by decide +kernel) (by decide +kernel)
      (by decide +kernel)
  have hz : part ((exDirNode0 ++ [9, 0]) ++ List.replicate 512 0) (1 * 512) 4 = [0, 0, 0, 0] := by
    decide +kernel
  have hl : ((exDirNode0 ++ [9, 0]) ++ List.replicate 512 0 : Bytes).length = 1024 := by
    decide +kernel
  obtain ⟨it, d', rs, es, h1, h2, h3, h4⟩ := C52_bad_record ha (by decide) 512 (by decide) (by decide)
    [exDirNode0 ++ [1, 2]] (by
      intro i b hb
      match i, hb with
      | 0, hb => cases hb; exact ⟨_, _, hr⟩) (by decide)
    (by intro _; rw [List.length_singleton, hz]; decide) d hd k
  cases h2 with
  | cons a t =>
    cases t
    obtain ⟨q, rfl⟩ := a
    refine ⟨it, d', q, es, h1, ?_, h4⟩
    clear h4
    generalize List.range k = xs at h3 ⊢
    induction h3 with
    | nil => exact .nil
    | cons h _ ih =>
      refine .cons ?_ ih
      obtain ⟨e, rfl, he⟩ := h
      rw [List.length_singleton, hl, if_pos (by decide), hz] at he
      obtain ⟨q, rfl⟩ := he
      exact ⟨q, rfl⟩

end NT
