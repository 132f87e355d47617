import Verif.Lemmas.IndexTree
import Verif.Props.C12_Fixup
import Verif.Props.C38_StructuredValues

namespace NT

open Spec

/-! ### Values of any kind -/

/-- The cluster size that a non-resident value was made with. -/
def Val.cluster : Val → Option Nat
  | .simple (.res _) => none
  | .simple (.nonRes v) => some v.clusterSize
  | .list v => some v.ntfs.clusterSize

theorem ALVal.nextConnected_ntfs (v : ALVal) (d : Dev) :
    (ALVal.nextConnected (v, d)).2.1.ntfs = v.ntfs := by
  unfold ALVal.nextConnected
  dsimp only
  split
  · rfl
  · split
    · rfl
    · split
      · split
        · split <;> rfl
        all_goals rfl
      · rfl
    all_goals rfl

theorem ALVal.nextAttribute_ntfs (v : ALVal) (d : Dev) :
    (ALVal.nextAttribute (v, d)).2.1.ntfs = v.ntfs := by
  unfold ALVal.nextAttribute
  have h := ALVal.nextConnected_ntfs v d
  rw [StM.bind_apply]
  generalize ALVal.nextConnected (v, d) = q at h ⊢
  obtain ⟨r, v', d'⟩ := q
  dsimp only at h
  cases r with
  | ok o =>
    cases o with
    | none => exact h
    | some e =>
      dsimp only
      split <;> exact h
  | err e => exact h
  | panic p => exact h
  | diverge => exact h

theorem NonRes.nextDataRun_clusterSize (v : NonRes) : v.nextDataRun.2.clusterSize = v.clusterSize := by
  unfold NonRes.nextDataRun
  split <;> rfl

/-- The value of an attribute has the cluster size of the volume, unless it is resident. -/
theorem Attr.value_cluster {a : Attr} {d d' : Dev} {v : Val} (h : a.value d = (.ok v, d')) :
    v.cluster = none ∨ v.cluster = some a.file.ntfs.clusterSize := by
  unfold Attr.value at h
  cases hl : a.list with
  | some l =>
    rw [hl] at h
    dsimp only at h
    rw [StM.bind_apply, StM.lift_apply] at h
    generalize a.nonResidentValueDataSize = q1 at h
    cases q1 <;> try (injection h with h1 _; cases h1)
    dsimp only at h
    rw [StM.bind_apply, StM.lift_apply] at h
    generalize a.inst = q2 at h
    cases q2 <;> try (injection h with h1 _; cases h1)
    dsimp only at h
    rw [StM.bind_apply, StM.lift_apply] at h
    generalize a.ty = q3 at h
    cases q3 <;> try (injection h with h1 _; cases h1)
    dsimp only at h
    rw [StM.bind_apply] at h
    unfold ALVal.new at h
    dsimp only at h
    rename_i size i t
    have hn := ALVal.nextAttribute_ntfs
      ⟨a.file.ntfs, l, some l, i, t, size, none, StreamState.new size⟩ d
    generalize ALVal.nextAttribute _ = q at h hn
    obtain ⟨r, w, d2⟩ := q
    cases r <;> try (injection h with h1 _; cases h1)
    dsimp only at hn
    right
    show some w.ntfs.clusterSize = _
    rw [hn]
  | none =>
    rw [hl] at h
    dsimp only at h
    rw [StM.bind_apply, StM.lift_apply] at h
    unfold Attr.simpleValue at h
    generalize a.isResident = q1 at h
    cases q1 with
    | ok b =>
      rw [Res.bind_ok] at h
      cases b with
      | true =>
        rw [if_pos rfl] at h
        generalize a.residentValue = q2 at h
        cases q2 <;> try (injection h with h1 _; cases h1)
        left; rfl
      | false =>
        rw [if_neg (by decide)] at h
        unfold Attr.nonResidentValue at h
        generalize a.nonResidentValueDataAndPosition = q2 at h
        cases q2 with
        | ok dp =>
          obtain ⟨data, position⟩ := dp
          rw [Res.bind_ok] at h
          dsimp only at h
          generalize a.nonResidentValueDataSize = q3 at h
          cases q3 with
          | ok size =>
            rw [Res.bind_ok] at h
            unfold NonRes.new at h
            dsimp only at h
            have hn := NonRes.nextDataRun_clusterSize
              ⟨a.file.ntfs.clusterSize, data, position,
                DataRuns.new a.file.ntfs.clusterSize data position, StreamState.new size⟩
            generalize NonRes.nextDataRun _ = q at h hn
            obtain ⟨r, w⟩ := q
            cases r <;> try (injection h with h1 _; cases h1)
            dsimp only at hn
            right
            show some w.clusterSize = _
            rw [hn]
          | err e => injection h with h1 _; cases h1
          | panic e => injection h with h1 _; cases h1
          | diverge => injection h with h1 _; cases h1
        | err e => injection h with h1 _; cases h1
        | panic e => injection h with h1 _; cases h1
        | diverge => injection h with h1 _; cases h1
    | err e => injection h with h1 _; cases h1
    | panic e => injection h with h1 _; cases h1
    | diverge => injection h with h1 _; cases h1

/-- The attribute is not resident, or its value is spread over an attribute list. -/
def Attr.NonResident (a : Attr) : Prop :=
  a.list ≠ none ∨ a.HeaderIn ∧ field a.recordData (a.offset + 8) 1 ≠ 0

/-- The value of such an attribute has the cluster size of the volume. -/
theorem Attr.value_cluster_some {a : Attr} (hn : a.NonResident) {d d' : Dev} {v : Val}
    (h : a.value d = (.ok v, d')) : v.cluster = some a.file.ntfs.clusterSize := by
  rcases Attr.value_cluster h with hc | hc
  · exfalso
    have hres : ∃ r, v = .simple (.res r) := by
      cases v with
      | simple s =>
        cases s with
        | res r => exact ⟨r, rfl⟩
        | nonRes w => exact absurd hc (Option.some_ne_none _)
      | list w => exact absurd hc (Option.some_ne_none _)
    obtain ⟨r, rfl⟩ := hres
    unfold Attr.value at h
    cases hl : a.list with
    | some l =>
      rw [hl] at h
      dsimp only at h
      rw [StM.bind_apply, StM.lift_apply] at h
      generalize a.nonResidentValueDataSize = q1 at h
      cases q1 <;> try (injection h with h1 _; cases h1)
      dsimp only at h
      rw [StM.bind_apply, StM.lift_apply] at h
      generalize a.inst = q2 at h
      cases q2 <;> try (injection h with h1 _; cases h1)
      dsimp only at h
      rw [StM.bind_apply, StM.lift_apply] at h
      generalize a.ty = q3 at h
      cases q3 <;> try (injection h with h1 _; cases h1)
      dsimp only at h
      rw [StM.bind_apply] at h
      generalize ALVal.new _ _ _ _ _ d = q at h
      obtain ⟨r, d2⟩ := q
      cases r <;> (injection h with h1 _; cases h1)
    | none =>
      rw [hl] at h
      dsimp only at h
      rcases hn with hn | ⟨hh, hn⟩
      · exact hn hl
      rw [StM.bind_apply, StM.lift_apply] at h
      unfold Attr.simpleValue at h
      have : (field a.recordData (a.offset + 8) 1 == 0) = false := by simpa using hn
      rw [Attr.isResident_eq hh, Res.bind_ok, this, if_neg (by decide)] at h
      generalize a.nonResidentValue = q2 at h
      cases q2 <;> (injection h with h1 _; cases h1)
  · exact hc

/-- The bytes of a value are no more than its nominal length. -/
theorem Val.Has.length_le {img c : Bytes} {v : Val} (h : v.Has img c) : c.length ≤ v.len := by
  match v, h with
  | .simple (.res r), h =>
    have : r.data = c := h
    subst this
    exact Nat.le_refl _
  | .simple (.nonRes v), ⟨_, all, _, hc⟩ =>
    subst hc
    rw [List.length_take]
    exact Nat.min_le_left _ _
  | .list v, ⟨_, gs, _, hc⟩ =>
    subst hc
    rw [List.length_take]
    exact Nat.min_le_left _ _

/-- A seek of a non-resident value of any kind. -/
theorem Val.Has.seek {img c : Bytes} {v : Val} (h : v.Has img c) {cs : Nat} (hc : v.cluster = some cs)
    (s : SeekFrom) (hs : s.InRange) (d : Dev) (hd : d.Ok img) :
    if validTarget (seekTarget v.streamPosition v.len s) then
      ∃ v' d', v.seek s d = (.ok (seekTarget v.streamPosition v.len s).toNat, v', d') ∧
        d'.Ok img ∧ v'.Has img c ∧ v'.len = v.len ∧
        v'.streamPosition = (seekTarget v.streamPosition v.len s).toNat
    else v.seek s d = (.err (.io .invalidInput), v, d) := by
  match v, h, hc with
  | .simple (.nonRes v), ⟨himg, all, hg, hcc⟩, _ =>
    have := NonRes.seek_good img all v hg s hs
    show if validTarget (seekTarget v.st.streamPosition v.st.dataSize s) then _ else _
    obtain ⟨t, ht⟩ : ∃ t, t = seekTarget v.st.streamPosition v.st.dataSize s := ⟨_, rfl⟩
    have ht2 : seekTarget (Val.simple (SVal.nonRes v)).streamPosition (Val.simple (SVal.nonRes v)).len s =
      t := ht.symm
    rw [← ht] at this ⊢
    rw [ht2]
    by_cases hv : validTarget t
    · rw [if_pos hv] at this ⊢
      obtain ⟨v', e, hg', _, hl, hp⟩ := this
      refine ⟨.simple (.nonRes v'), d, ?_, hd, ⟨himg, all, hg', by rw [hl]; exact hcc⟩, hl, hp⟩
      unfold Val.seek SVal.seek
      dsimp only
      rw [e]
    · rw [if_neg hv] at this ⊢
      unfold Val.seek SVal.seek
      dsimp only
      rw [this]
  | .list v, ⟨himg, gs, hg, hcc⟩, _ =>
    have := ALVal.seek_good img gs v hg s hs d hd
    show if validTarget (seekTarget v.st.streamPosition v.dataSize s) then _ else _
    obtain ⟨t, ht⟩ : ∃ t, t = seekTarget v.st.streamPosition v.dataSize s := ⟨_, rfl⟩
    have ht2 : seekTarget (Val.list v).streamPosition (Val.list v).len s = t := ht.symm
    rw [← ht] at this ⊢
    rw [ht2]
    by_cases hv : validTarget t
    · rw [if_pos hv] at this ⊢
      obtain ⟨v', d', e, hd', hg', hl, hp⟩ := this
      refine ⟨.list v', d', ?_, hd', ⟨himg, gs, hg', by rw [hl]; exact hcc⟩, hl, hp⟩
      unfold Val.seek
      dsimp only
      rw [e]
    · rw [if_neg hv] at this ⊢
      unfold Val.seek
      dsimp only
      rw [this]

/-! ### Index records -/

/-- The checks of `NtfsIndexRecord::validate_sizes`, in terms of the bytes. -/
theorem IndexRecord.validateSizes_eq (r : IndexRecord) (h : 36 ≤ r.record.data.length) :
    r.validateSizes =
      if ¬ 24 + field r.record.data 32 4 < U32 then .panic .overflow
      else if 24 + field r.record.data 32 4 > r.record.data.length then
        .err (.invalidIndexAllocatedSize r.record.position r.record.data.length
          (24 + field r.record.data 32 4))
      else if ¬ 24 + field r.record.data 28 4 < U32 then .panic .overflow
      else if 24 + field r.record.data 28 4 > 24 + field r.record.data 32 4 then
        .err (.invalidIndexUsedSize r.record.position (24 + field r.record.data 32 4)
          (24 + field r.record.data 28 4))
      else .ok () := by
  unfold IndexRecord.validateSizes IndexRecord.allocatedSize IndexRecord.dataSize
  rw [readLE_ok (n := 4) (a := 32) (by omega), readLE_ok (n := 4) (a := 28) (by omega)]
  dsimp only
  rw [Res.bind_ok]
  split
  · rfl
  · split
    · rfl
    · rw [Res.bind_ok]

/-- The part of `NtfsIndexRecord::new` after the bytes have been read. -/
theorem IndexRecord.ofBytes_eq (b : Bytes) (p : Pos) (h : 4 ≤ b.length) :
    IndexRecord.ofBytes b p =
      if b.take 4 ≠ [0x49, 0x4E, 0x44, 0x58] then .err (.invalidIndexSignature p (b.take 4))
      else (Record.mk b p).fixup >>= fun r => (IndexRecord.mk r).validateSizes >>= fun _ => .ok ⟨r⟩ := by
  unfold IndexRecord.ofBytes IndexRecord.validateSignature Record.signature
  dsimp only
  rw [idxRange_ok (by omega) (by omega), Res.bind_ok, List.drop_zero]
  by_cases hs : b.take (4 - 0) = [0x49, 0x4E, 0x44, 0x58]
  · rw [if_pos hs, if_neg (by simpa using hs)]; rfl
  · rw [if_neg hs, if_pos (by simpa using hs)]; rfl

/-- Restoring the protected sectors. -/
theorem fixup_of_restores {disk d : Bytes} {n off : Nat} (h : Restores disk d n off) (p : Pos)
    (h8 : 8 ≤ disk.length) : (Record.mk disk p).fixup = .ok ⟨d, p⟩ := by
  have h1 := h.inside
  have h2 := h.short
  rw [fixup_eq _ (by exact h8)]
  dsimp only
  rw [h.offField, h.countField, if_pos (by omega), if_neg (by omega), if_pos (by omega),
    if_neg (by omega)]
  have en : n + 1 - 1 = n := by omega
  rw [en]
  obtain ⟨d', e, hl, hk, hj⟩ := fixupLoop_ok p ((disk.drop off).take 2) n disk (off + 2) 510
    (by omega) (by omega)
    (by intro k hk; rw [← h.tails k hk]; congr 2; omega)
    (by intro k hk; have := h.apart k hk; omega)
  rw [e, Res.bind_ok]
  have : d' = d := by
    apply List.ext_getElem?
    intro j
    by_cases hT : ∃ i < n, 512 * i + 510 ≤ j ∧ j < 512 * i + 512
    · obtain ⟨i, hi, ht⟩ := hT
      have g1 := h.saved i hi
      have g2 := hk i hi
      rw [← g1] at g2
      have := congrArg (fun l => l[j - (512 * i + 510)]?) g2
      simp only [List.getElem?_take, List.getElem?_drop] at this
      rw [if_pos (by omega), if_pos (by omega)] at this
      have e1 : d'[510 + 512 * i + (j - (512 * i + 510))]? = d'[j]? := congrArg (d'[·]?) (by omega)
      have e2 : d[512 * i + 510 + (j - (512 * i + 510))]? = d[j]? := congrArg (d[·]?) (by omega)
      exact e1.symm.trans (this.trans e2)
    · have hT' : ∀ i < n, ¬ (512 * i + 510 ≤ j ∧ j < 512 * i + 512) := fun i hi hh => hT ⟨i, hi, hh⟩
      rw [h.rest j hT']
      apply hj
      intro k hk hh
      exact hT' k hk (by omega)
  rw [this]
  rfl

theorem IndexRecord.vcn_eq {r : IndexRecord} (h : 24 ≤ r.record.data.length) :
    r.vcn = .ok (toI64 (field r.record.data 16 8)) := by
  unfold IndexRecord.vcn
  rw [readLE_ok (n := 8) (a := 16) (by omega)]
  rfl

theorem IndexRecord.intoEntryRanges_eq {r : IndexRecord} (h : 32 ≤ r.record.data.length)
    (hs : 24 + field r.record.data 28 4 ≤ r.record.data.length) :
    r.intoEntryRanges = .ok ⟨r.record.data, 24 + field r.record.data 24 4,
      24 + field r.record.data 28 4, Pos.add r.record.position (24 + field r.record.data 24 4)⟩ := by
  unfold IndexRecord.intoEntryRanges IndexRecord.entriesRange IndexRecord.entriesOffset
    IndexRecord.dataSize
  rw [readLE_ok (n := 4) (a := 24) (by omega), readLE_ok (n := 4) (a := 28) (by omega)]
  simp only [Res.bind_ok, Res.pure_eq]
  unfold NodeRanges.new
  rw [if_pos hs]

/-- `record_from_vcn` on a fresh value of any kind: the exact result. -/
theorem IndexAllocation.recordFromVcn_eq {img c : Bytes} {v : Val} {cs : Nat} (hv : v.Has img c)
    (hc : v.cluster = some cs) (hp : v.streamPosition = 0) (size : Nat) (vcn : Int) (d : Dev)
    (hd : d.Ok img) :
    ∃ (q : Pos) (d' : Dev), d'.Ok img ∧ (IndexAllocation.mk cs v).recordFromVcn size vcn d =
      (if ¬ (-(I63 : Int) ≤ vcn * cs ∧ vcn * cs < (I63 : Int)) then .err (.vcnTooBig vcn)
      else if vcn * cs < 0 then .err (.io .invalidInput)
      else if v.len ≤ (vcn * cs).toNat then
        .err (.vcnOutOfBoundsInIndexAllocation v.dataPosition vcn)
      else if ¬ size ≤ c.length - (vcn * cs).toNat then .err (.io .unexpectedEof)
      else IndexRecord.ofBytes (part c (vcn * cs).toNat size) q >>= fun r => r.vcn >>= fun x =>
        if x ≠ vcn then .err (.vcnMismatchInIndexAllocation v.dataPosition vcn x) else .ok r, d') := by
  unfold IndexAllocation.recordFromVcn
  dsimp only
  unfold Vcn.offset checkedMulI64
  by_cases h1 : -(I63 : Int) ≤ vcn * cs ∧ vcn * cs < (I63 : Int)
  case neg =>
    refine ⟨none, d, hd, ?_⟩
    rw [if_neg h1, if_pos h1]
    rfl
  rw [if_pos h1]
  simp only [if_neg (show ¬ ¬ (-(I63 : Int) ≤ vcn * cs ∧ vcn * cs < (I63 : Int)) by simpa using h1)]
  have hsk := hv.seek hc (.current (vcn * cs)) h1 d hd
  have ht : seekTarget v.streamPosition v.len (.current (vcn * cs)) = vcn * cs := by
    simp [seekTarget, hp]
  rw [ht] at hsk
  by_cases h2 : vcn * cs < 0
  · rw [if_neg (by simp [validTarget]; omega)] at hsk
    refine ⟨none, d, hd, ?_⟩
    rw [if_pos h2]
    rw [StM.bind_of_ok (StM.lift_apply _ _),
      StM.bind_of_err (e := .io .invalidInput) (s' := d)]
    unfold IndexAllocation.seekTo
    rw [hsk]
  rw [if_pos (by simp [validTarget]; omega)] at hsk
  simp only [if_neg h2]
  obtain ⟨v', d1, e1, hd1, hv', hl', hp'⟩ := hsk
  have e2 : IndexAllocation.seekTo v (.current (vcn * cs)) d = (.ok v', d1) := by
    unfold IndexAllocation.seekTo
    rw [e1]
  by_cases h3 : v.len ≤ (vcn * cs).toNat
  · refine ⟨none, d1, hd1, ?_⟩
    rw [if_pos h3]
    rw [StM.bind_of_ok (StM.lift_apply _ _), StM.bind_of_ok e2, if_pos (by omega)]
    rfl
  simp only [if_neg h3]
  obtain ⟨d2, e3, hd2⟩ := hv'.readIntoAt size d1 hd1
  rw [hp'] at e3
  by_cases h4 : size ≤ c.length - (vcn * cs).toNat
  case neg =>
    rw [if_neg h4] at e3
    refine ⟨none, d2, hd2, ?_⟩
    rw [if_pos h4]
    rw [StM.bind_of_ok (StM.lift_apply _ _), StM.bind_of_ok e2, if_neg (by omega),
      StM.bind_of_err (e := .io .unexpectedEof) (s' := d2)]
    unfold IndexRecord.new
    rw [StM.bind_of_err e3]
  rw [if_pos h4] at e3
  refine ⟨v'.dataPosition, d2, hd2, ?_⟩
  rw [if_neg (show ¬ ¬ size ≤ c.length - (vcn * cs).toNat by simpa using h4)]
  rw [StM.bind_of_ok (StM.lift_apply _ _), StM.bind_of_ok e2, if_neg (by omega)]
  have e4 : IndexRecord.new v' size d1 =
      (IndexRecord.ofBytes (part c (vcn * cs).toNat size) v'.dataPosition, d2) := by
    unfold IndexRecord.new
    rw [StM.bind_of_ok e3, StM.lift_apply]
    rfl
  rw [StM.bind_apply, e4]
  cases IndexRecord.ofBytes (part c (vcn * cs).toNat size) v'.dataPosition with
  | ok r =>
    dsimp only
    rw [StM.bind_apply, StM.lift_apply, Res.bind_ok]
    cases r.vcn with
    | ok x =>
      rw [Res.bind_ok]
      dsimp only
      split <;> rfl
    | err e => rfl
    | panic e => rfl
    | diverge => rfl
  | err e => rfl
  | panic e => rfl
  | diverge => rfl

/-- Decoding a stored index record. -/
theorem IndexRecord.ofBytes_in {c b : Bytes} {size pos off stop : Nat}
    (h : RecordIn c size pos b off stop) (hsize : size < U32) (q : Pos) :
    IndexRecord.ofBytes (part c pos size) q = .ok ⟨⟨b, q⟩⟩ := by
  have hin := h.inside
  have hsig := h.signature
  obtain ⟨m, o, hres⟩ := h.restores
  have hh := h.header
  have hpl : (part c pos size).length = size := part_length hin
  have hbl : b.length = size := by rw [hres.len, hpl]
  have hsig' : (part c pos size).take 4 = [0x49, 0x4E, 0x44, 0x58] := by
    rw [← hsig]; unfold part
    rw [List.take_take, Nat.min_eq_left (by omega)]
  rw [IndexRecord.ofBytes_eq _ _ (by omega), if_neg (by simpa using hsig'),
    fixup_of_restores hres _ (by omega), Res.bind_ok,
    IndexRecord.validateSizes_eq _ (by show 36 ≤ b.length; omega)]
  dsimp only
  have ha := h.allocated
  have hu := h.used
  rw [hbl, if_neg (by omega), if_neg (by omega), if_neg (by omega), if_neg (by omega), Res.bind_ok]

/-- The record at the place of a VCN. -/
theorem IndexAllocation.recordFromVcn_in {img c : Bytes} {v : Val} {cs : Nat} (hv : v.Has img c)
    (hc : v.cluster = some cs) (hp : v.streamPosition = 0) (size : Nat) (hsize : size < U32)
    (n : Nat) (hsmall : (n : Int) * cs < (I63 : Int)) (b : Bytes) (off stop : Nat)
    (h : RecordIn c size (n * cs) b off stop) (d : Dev) (hd : d.Ok img) :
    ∃ (q : Pos) (d' : Dev), d'.Ok img ∧
      (IndexAllocation.mk cs v).recordFromVcn size n d =
        (if toI64 (field b 16 8) ≠ n then
          .err (.vcnMismatchInIndexAllocation v.dataPosition n (toI64 (field b 16 8)))
        else .ok ⟨⟨b, q⟩⟩, d') ∧
      (IndexRecord.mk ⟨b, q⟩).intoEntryRanges = .ok ⟨b, off, stop, Pos.add q off⟩ := by
  obtain ⟨q, d', hd', e⟩ := IndexAllocation.recordFromVcn_eq hv hc hp size n d hd
  have hx : ((n : Int) * (cs : Int)).toNat = n * cs := by
    rw [← Int.natCast_mul]; exact Int.toNat_natCast _
  have hin := h.inside
  have hsig := h.signature
  obtain ⟨m, o, hres⟩ := h.restores
  have hnn : 0 ≤ (n : Int) * (cs : Int) := by rw [← Int.natCast_mul]; exact Int.natCast_nonneg _
  have hll := hv.length_le
  have hh := h.header
  rw [if_neg (by simp only [Decidable.not_not]; omega), if_neg (by omega), hx, if_neg (by omega),
    if_neg (by omega)] at e
  have hpl : (part c (n * cs) size).length = size := part_length hin
  have hbl : b.length = size := by rw [hres.len, hpl]
  have hsig' : (part c (n * cs) size).take 4 = [0x49, 0x4E, 0x44, 0x58] := by
    rw [← hsig]; unfold part
    rw [List.take_take, Nat.min_eq_left (by omega)]
  rw [IndexRecord.ofBytes_eq _ _ (by omega), if_neg (by simpa using hsig'),
    fixup_of_restores hres _ (by omega), Res.bind_ok,
    IndexRecord.validateSizes_eq _ (by show 36 ≤ b.length; omega)] at e
  dsimp only at e
  have ha := h.allocated
  have hu := h.used
  rw [hbl, if_neg (by omega), if_neg (by omega), if_neg (by omega), if_neg (by omega), Res.bind_ok,
    Res.bind_ok, IndexRecord.vcn_eq (by show 24 ≤ b.length; omega), Res.bind_ok] at e
  dsimp only at e
  refine ⟨q, d', hd', e, ?_⟩
  have ho := h.off
  have hs := h.stop
  rw [IndexRecord.intoEntryRanges_eq (by show 32 ≤ b.length; omega)
    (by show 24 + field b 28 4 ≤ b.length; omega)]
  dsimp only
  rw [ho, hs]

/-- A stored index record is found. -/
theorem IndexAllocation.recordFromVcn_stored {img c : Bytes} {v : Val} {cs : Nat} (hv : v.Has img c)
    (hc : v.cluster = some cs) (hp : v.streamPosition = 0) (size : Nat) (hsize : size < U32)
    (vcn : Int) (b : Bytes) (off stop : Nat) (h : RecordAt c cs size vcn b off stop) (d : Dev)
    (hd : d.Ok img) :
    ∃ (q : Pos) (d' : Dev), d'.Ok img ∧
      (IndexAllocation.mk cs v).recordFromVcn size vcn d = (.ok ⟨⟨b, q⟩⟩, d') ∧
      (IndexRecord.mk ⟨b, q⟩).intoEntryRanges = .ok ⟨b, off, stop, Pos.add q off⟩ := by
  have h0 := h.nonneg
  obtain ⟨n, rfl⟩ : ∃ n : Nat, vcn = n := ⟨vcn.toNat, by omega⟩
  have hr := h.toRecordIn
  rw [Int.toNat_natCast n] at hr
  obtain ⟨q, d', hd', e, e2⟩ := IndexAllocation.recordFromVcn_in hv hc hp size hsize n h.small b off stop
    hr d hd
  have hbl : b.length = size := by
    obtain ⟨m, o, hres⟩ := hr.restores
    rw [hres.len, part_length hr.inside]
  have hh := hr.header
  rw [toI64_of_intAt h.vcn (by omega), if_neg (by simp)] at e
  exact ⟨q, d', hd', e, e2⟩

/-- Opening an index allocation attribute. -/
theorem Attr.indexAllocation_opens {img c : Bytes} {a : Attr} {len : Nat}
    (hty : a.ty = .ok .indexAllocation) (ho : a.Opens img c len)
    (hn : a.NonResident) (d : Dev) (hd : d.Ok img) :
    ∃ v d', d'.Ok img ∧ a.indexAllocation d = (.ok ⟨a.file.ntfs.clusterSize, v⟩, d') ∧
      v.Has img c ∧ v.cluster = some a.file.ntfs.clusterSize ∧ v.streamPosition = 0 ∧ v.len = len := by
  obtain ⟨w, d1, e1, hd1, hw, hp, hl⟩ := ho d hd
  have hcl := Attr.value_cluster_some hn e1
  refine ⟨w, d1, hd1, ?_, hw, hcl, hp, hl⟩
  unfold Attr.indexAllocation Attr.ensureTy
  rw [StM.bind_of_ok (a := ()) (s' := d) (by
    rw [StM.lift_apply, hty, Res.bind_ok, if_neg (by simp)]), StM.bind_of_ok e1, StM.lift_apply]
  match w, hcl with
  | .simple (.nonRes w), hcl =>
    have : w.clusterSize = a.file.ntfs.clusterSize := Option.some.inj hcl
    rw [← this]; rfl
  | .list w, hcl =>
    have : w.ntfs.clusterSize = a.file.ntfs.clusterSize := Option.some.inj hcl
    rw [← this]; rfl

/-- The index allocation of an index: the attribute `a`, whose value consists of the bytes `c`. -/
structure Index.Allocated (ix : Index) (img c : Bytes) (cs len : Nat) (item : AttrItem) (a : Attr) :
    Prop where
  alloc : ix.allocationItem = some item
  attr : item.toAttribute = .ok a
  ty : a.ty = .ok .indexAllocation
  opens : a.Opens img c len
  nonRes : a.NonResident
  cs : a.file.ntfs.clusterSize = cs
  size : ix.recordSize < U32

theorem Index.Allocated.loadsBy {ix : Index} {img c : Bytes} {cs len : Nat} {item : AttrItem}
    {a : Attr} (h : ix.Allocated img c cs len item a) :
    ix.LoadsBy img (RecordAt c cs ix.recordSize) := by
  intro v b off stop hr
  have hbl : b.length = ix.recordSize := by
    obtain ⟨m, o, hres⟩ := hr.restores
    rw [hres.len, part_length hr.inside]
  refine ⟨?_, ?_⟩
  · have h1 := hr.stop
    have h2 := hr.used
    have h3 := hr.allocated
    omega
  intro dev hd
  obtain ⟨w, d1, hd1, e4, hw, hcl, hp, _⟩ := Attr.indexAllocation_opens h.ty h.opens h.nonRes dev hd
  rw [h.cs] at e4 hcl
  obtain ⟨q, d2, hd2, e2, e3⟩ := IndexAllocation.recordFromVcn_stored hw hcl hp ix.recordSize h.size v b
    off stop hr d1 hd1
  refine ⟨Pos.add q off, d2, ?_, hd2⟩
  unfold Index.subnode
  rw [StM.bind_of_ok (a := item) (s' := dev) (by rw [StM.lift_apply, h.alloc]; rfl),
    StM.bind_of_ok (a := a) (s' := dev) (by rw [StM.lift_apply, h.attr]), StM.bind_of_ok e4,
    StM.bind_of_ok e2, StM.lift_apply, e3]

end NT
