import Verif.Model.Release
import Verif.Props.C49_Safety
import Verif.Props.C12_Fixup
import Verif.Lemmas.IndexRecord

/-! C85: what a release build does where a debug build stops because of an overflow. -/

namespace NT

open Spec

/-! ### Values -/

/-- One operation of a user, in a release build. -/
def NonRes.stepRel (v : NonRes) (d : Dev) : Op → Out × NonRes × Dev
  | .read buf =>
    let (r, v', buf', d') := v.readRel buf d
    ({ result := r, buf := buf' }, v', d')
  | .seek s =>
    let (r, v') := v.seek s
    ({ result := r, buf := [] }, v', d)

/-- A history of operations in a release build. -/
def NonRes.runRel (v : NonRes) (d : Dev) : List Op → List Out × NonRes × Dev
  | [] => ([], v, d)
  | op :: ops =>
    let (o, v', d') := v.stepRel d op
    let (os, v'', d'') := v'.runRel d' ops
    (o :: os, v'', d'')

theorem DataRun.readRel_same (r : DataRun) (buf : Bytes) (d : Dev) :
    r.readRel buf d = r.read buf d ∨ (r.read buf d).1 = .panic .overflow := by
  unfold DataRun.readRel DataRun.read
  split
  · exact .inl rfl
  · dsimp only
    cases r.position with
    | none => exact .inl rfl
    | some p =>
      dsimp only
      by_cases h : p + r.streamPosition < U64
      · rw [if_pos h, Nat.mod_eq_of_lt h]
        exact .inl rfl
      · rw [if_neg h]
        exact .inr rfl

theorem StreamState.readDataRunRel_same (s : StreamState) (buf : Bytes) (br : Nat) (d : Dev) :
    s.readDataRunRel buf br d = s.readDataRun buf br d ∨ (s.readDataRun buf br d).1 = .panic .overflow := by
  unfold StreamState.readDataRunRel StreamState.readDataRun
  cases s.run with
  | none => exact .inl rfl
  | some r =>
    dsimp only
    by_cases h1 : r.streamPosition ≥ r.allocatedSize
    · rw [if_pos h1, if_pos h1]
      exact .inl rfl
    · rw [if_neg h1, if_neg h1]
      by_cases h2 : s.dataSize - s.streamPosition = 0
      · rw [if_pos h2, if_pos h2]
        exact .inl rfl
      · rw [if_neg h2, if_neg h2]
        generalize (buf.drop br).take (br + min (buf.length - br) (s.dataSize - s.streamPosition) - br) = slice
        rcases r.readRel_same slice d with h | h
        · rw [h]
          exact .inl rfl
        · refine .inr ?_
          cases hr : r.read slice d with
          | mk x y =>
            rw [hr] at h
            dsimp only at h
            rw [h]

theorem NonRes.readLoopRel_same (fuel : Nat) : ∀ (v : NonRes) (buf : Bytes) (br : Nat) (d : Dev),
    NonRes.readLoopRel fuel v buf br d = NonRes.readLoop fuel v buf br d ∨
      (NonRes.readLoop fuel v buf br d).1 = .panic .overflow := by
  induction fuel with
  | zero => exact fun _ _ _ _ => .inl rfl
  | succ fuel ih =>
    intro v buf br d
    unfold NonRes.readLoopRel NonRes.readLoop
    split
    · rcases v.st.readDataRunRel_same buf br d with h | h
      · rw [h]
        cases hr : v.st.readDataRun buf br d with
        | mk x y =>
          obtain ⟨st', buf', br', d'⟩ := y
          cases x with
          | ok t =>
            cases t with
            | true => exact ih _ _ _ _
            | false =>
              dsimp only
              cases hn : NonRes.nextDataRun { v with st := st' } with
              | mk x' v' =>
                cases x' with
                | ok t =>
                  cases t with
                  | true => exact ih _ _ _ _
                  | false => exact .inl rfl
                | err => exact .inl rfl
                | panic => exact .inl rfl
                | diverge => exact .inl rfl
          | err => exact .inl rfl
          | panic => exact .inl rfl
          | diverge => exact .inl rfl
      · refine .inr ?_
        cases hr : v.st.readDataRun buf br d with
        | mk x y =>
          obtain ⟨st', buf', br', d'⟩ := y
          rw [hr] at h
          dsimp only at h
          rw [h]
    · exact .inl rfl

/-- **C85**: reading from a value in a release build is reading from it in a debug build, unless the latter stops. -/
theorem C85_read (v : NonRes) (buf : Bytes) (d : Dev) :
    v.readRel buf d = v.read buf d ∨ (v.read buf d).1 = .panic .overflow :=
  NonRes.readLoopRel_same _ _ _ _ _

/-- **C85**: so is every history without panics. -/
theorem C85_history : ∀ (ops : List Op) (v : NonRes) (d : Dev), (∀ o ∈ (v.run d ops).1, o.result.Safe) →
    v.runRel d ops = v.run d ops
  | [], _, _, _ => rfl
  | op :: ops, v, d, h => by
    simp only [NonRes.run] at h
    have h0 : v.stepRel d op = v.step d op := by
      cases op with
      | seek s => rfl
      | read buf =>
        rcases C85_read v buf d with e | e
        · unfold NonRes.stepRel NonRes.step
          dsimp only
          rw [e]
        · have := h _ List.mem_cons_self
          rw [show (v.step d (.read buf)).1.result = (v.read buf d).1 from rfl, e] at this
          exact this.elim
    simp only [NonRes.runRel, NonRes.run, h0]
    rw [C85_history ops _ _ fun o ho => h o (List.mem_cons_of_mem _ ho)]

/-- **C85, partial**: values whose runs end at or below 2^64 behave the same in both builds, over every device.

Full claim: all values, or an error. It is false, see `C85_value_negation`. -/
theorem C85_value_partial (cs : Nat) (data : Bytes) (p : Pos) (size : Nat) (hsize : size < U64)
    (hruns : ∀ n x a, ((DataRuns.new cs data p).after n).next.1 = some (.ok x) →
      x.position = some a → a + x.allocatedSize ≤ U64) {v : NonRes} (hv : NonRes.new cs data p size = .ok v)
    (d : Dev) (ops : List Op) (hops : ∀ op ∈ ops, op.InRange) :
    v.runRel d ops = v.run d ops ∧ ∀ o ∈ (v.runRel d ops).1, o.result.Safe := by
  have h := (C49_no_panic_partial cs data p size hsize hruns).2 v hv d ops hops
  have e := C85_history ops v d h
  exact ⟨e, e ▸ h⟩

/-- **C85**: beyond 2^64 a run continues at the start of the volume. -/
theorem C85_wraps {r : DataRun} {p : Nat} (hp : r.position = some p) (hin : r.streamPosition < r.allocatedSize)
    (hw : U64 ≤ p + r.streamPosition) (hw2 : p + r.streamPosition < 2 * U64) (buf img : Bytes) (pos : Nat) :
    r.read buf ⟨img, pos, []⟩ = (.panic .overflow, r, buf, ⟨img, pos, []⟩) ∧
    r.readRel buf ⟨img, pos, []⟩ =
      (let b := (img.drop (p + r.streamPosition - U64)).take (min buf.length (r.allocatedSize - r.streamPosition))
      (.ok b.length, { r with streamPosition := r.streamPosition + b.length }, overwrite buf 0 b,
        ⟨img, p + r.streamPosition - U64 + b.length, []⟩)) := by
  constructor
  · unfold DataRun.read DataRun.remainingLen
    rw [if_neg (by omega), hp]
    dsimp only
    rw [if_neg (by omega)]
  · unfold DataRun.readRel DataRun.remainingLen
    rw [if_neg (by omega), hp]
    dsimp only
    rw [show (p + r.streamPosition) % U64 = p + r.streamPosition - U64 by omega]
    rfl

/-- **C85 is violated** for values: the value of `C49_negation`, in a release build. Its second cluster reads as the first
bytes of the volume. -/
theorem C85_value_negation : ∃ v, NonRes.new 512 [0x71, 2, 0xFF, 0xFF, 0xFF, 0xFF, 0xFF, 0xFF, 0x7F] none 1024 = .ok v ∧
    (v.run ⟨[0xEB, 0x52, 0x90], 0, []⟩ [.seek (.start 512), .read [0, 0]]).1 =
      [⟨.ok 512, []⟩, ⟨.panic .overflow, [0, 0]⟩] ∧
    (v.runRel ⟨[0xEB, 0x52, 0x90], 0, []⟩ [.seek (.start 512), .read [0, 0]]).1 =
      [⟨.ok 512, []⟩, ⟨.ok 2, [0xEB, 0x52]⟩] :=
  ⟨_, rfl, by decide, by decide⟩

/-! ### Records -/

theorem fixupRel_eq (r : Record) (h8 : 8 ≤ r.data.length) :
    r.fixupRel =
      if field r.data 4 2 + 2 < U16 then r.fixup
      else if field r.data 4 2 + 2 ≤ r.data.length then
        if field r.data 6 2 = 0 then .err (.invalidUpdateSequenceCount r.position 0)
        else if field r.data 4 2 + 2 * field r.data 6 2 > r.data.length ∨
              (field r.data 6 2 - 1) * 512 > r.data.length then
            .err (.updateSequenceArrayExceedsRecordSize r.position (field r.data 6 2 - 1)
              r.data.length)
        else do
            let data ← Record.fixupLoop r.position ((r.data.drop (field r.data 4 2)).take 2)
              (field r.data 6 2 + 32767) r.data (field r.data 4 2 - 65534) 510
            pure { r with data }
      else .err (.invalidUpdateSequenceNumberRange r.position (field r.data 4 2)
        (field r.data 4 2 + 2) r.data.length) := by
  have hlt : field r.data 4 2 < 65536 := by
    have := field_lt (d := r.data) (a := 4) (n := 2)
    omega
  split
  · rename_i h3
    unfold Record.fixupRel Record.fixup Record.usArrayStartRel Record.usArrayStart Record.usOffset
    rw [readLE_ok (n := 2) (a := 4) (by omega)]
    simp only [Res.bind_ok]
    rw [Nat.mod_eq_of_lt h3, if_pos h3]
    rfl
  · rename_i h3
    unfold Record.fixupRel Record.usNumber Record.usArrayCount Record.usArrayStartRel Record.usSize
      Record.usOffset
    rw [readLE_ok (n := 2) (a := 4) (by omega), readLE_ok (n := 2) (a := 6) (by omega)]
    generalize field r.data 4 2 = off at *
    generalize field r.data 6 2 = cnt
    simp only [Res.bind_ok, Res.pure_eq]
    by_cases h1 : off + 2 ≤ r.data.length
    · rw [if_pos h1, getRange_eq_some (by omega) h1]
      simp only [Res.bind_ok]
      by_cases h2 : cnt = 0
      · simp [h2, checkedSub, Res.ofOption]
      · rw [if_neg h2]
        have : checkedSub cnt 1 = some (cnt - 1) := by simp [checkedSub]; omega
        rw [this]
        simp only [Res.ofOption, Res.bind_ok, NTFS_BLOCK_SIZE]
        have e0 : (off + 2) % U16 = off - 65534 := by omega
        have e1 : off + cnt * 2 = off + 2 * cnt := by omega
        have e2 : (off + 2 * cnt - (off - 65534)) / 2 = cnt + 32767 := by omega
        have e3 : off + 2 - off = 2 := by omega
        rw [e0, e1, e2, e3]
    · rw [if_neg h1]
      have : getRange r.data off (off + 2) = none := by
        unfold getRange; rw [if_neg (by omega)]
      rw [this]; rfl

/-- **C85**: the fixup of a record is the same in both builds, unless it stops in a debug build. -/
theorem C85_fixup (r : Record) (h8 : 8 ≤ r.data.length) : r.fixupRel = r.fixup ∨ r.fixup = .panic .overflow := by
  rw [fixupRel_eq r h8, fixup_eq r h8]
  split
  · exact .inl rfl
  · rename_i h
    split
    · split
      · exact .inl rfl
      · exact .inr rfl
    · exact .inl rfl

/-- **C85, partial**: in a release build no record below 16 MiB passes the fixup that stops it in a debug build.

Full claim: no record at all. It is false, see `C85_fixup_negation`. -/
theorem C85_fixup_refused_partial (r : Record) (h8 : 8 ≤ r.data.length) (hs : r.data.length < 2 ^ 24)
    (hd : r.fixup = .panic .overflow) : ∀ r', r.fixupRel ≠ .ok r' := by
  intro r' h
  have hn : ¬ field r.data 4 2 + 2 < U16 ∧ field r.data 4 2 + 2 ≤ r.data.length ∧ field r.data 6 2 ≠ 0 := by
    have := (C14_panic_iff r h8).1 (by rw [hd]; exact id)
    omega
  rw [fixupRel_eq r h8, if_neg hn.1, if_pos hn.2.1, if_neg hn.2.2] at h
  split at h
  · cases h
  · rw [Res.bind_eq_ok] at h
    obtain ⟨d', h, _⟩ := h
    have := fixupLoop_ok_tails _ _ _ _ _ _ _ h (field r.data 6 2 + 32766) (by omega)
    have := congrArg List.length this
    simp only [List.length_take, List.length_drop] at this
    omega

/-- The loop of the fixup when nothing is known about the place of the array. -/
theorem fixupLoop_runs (p : Pos) (usn : Bytes) : ∀ (n : Nat) (d : Bytes) (ap sp : Nat),
    ap + 2 * n ≤ d.length → (n = 0 ∨ sp + 512 * (n - 1) + 2 ≤ d.length) →
    (∀ k < n, (d.drop (sp + 512 * k)).take 2 = usn) →
    ∃ d', Record.fixupLoop p usn n d ap sp = .ok d' ∧ d'.length = d.length ∧ ∀ j < sp, d'[j]? = d[j]?
  | 0, d, _, _, _, _, _ => ⟨d, rfl, rfl, fun _ _ => rfl⟩
  | n + 1, d, ap, sp, h1, h2, hgood => by
    unfold Record.fixupLoop
    rw [tail_eq d ap _ (by omega) rfl, Res.bind_ok, tail_eq d sp _ (by omega) rfl, Res.bind_ok]
    have h0 := hgood 0 (by omega)
    simp only [Nat.mul_zero, Nat.add_zero] at h0
    rw [if_neg (by simpa using h0)]
    have hl : (List.take 2 (List.drop ap d)).length = 2 := by simp; omega
    have hlen : (overwrite d sp (List.take 2 (List.drop ap d))).length = d.length := overwrite_length (by omega)
    obtain ⟨d', e, hd', hk⟩ := fixupLoop_runs p usn n (overwrite d sp (List.take 2 (List.drop ap d))) (ap + 2)
      (sp + NTFS_BLOCK_SIZE) (by omega) (by simp only [NTFS_BLOCK_SIZE]; omega) (by
        intro k hk
        rw [window_overwrite _ _ _ _ hl (by omega) (by right; simp only [NTFS_BLOCK_SIZE]; omega),
          ← hgood (k + 1) (by omega)]
        congr 2
        simp only [NTFS_BLOCK_SIZE]; omega)
    refine ⟨d', e, hd'.trans hlen, fun j hj => ?_⟩
    rw [hk j (by simp only [NTFS_BLOCK_SIZE]; omega), overwrite_getElem? (by omega), if_pos hj]

/-- **C85 is violated** for records: a record of 32 MiB with an update sequence array of one element at byte 65536. The
element holds zeros, and so should the end of the first sector afterwards. A debug build stops. A release build goes on, and
takes what it puts there from the start of the record. -/
theorem C85_fixup_negation : ∃ r : Record, r.data.length = 2 ^ 25 ∧ field r.data 4 2 = 65534 ∧ field r.data 6 2 = 2 ∧
    (r.data.drop 65536).take 2 = [0, 0] ∧ r.fixup = .panic .overflow ∧
    ∃ r', r.fixupRel = .ok r' ∧ r'.data[510]? = some 0x49 ∧ r'.data[511]? = some 0x4E := by
  obtain ⟨z, hz⟩ : ∃ z : Bytes, z = List.replicate (2 ^ 25 - 8) 0 := ⟨_, rfl⟩
  have hzl : z.length = 2 ^ 25 - 8 := by rw [hz]; exact List.length_replicate
  have hl : ([0x49, 0x4E, 0x44, 0x58, 0xFE, 0xFF, 2, 0] ++ z).length = 2 ^ 25 := by
    simp only [List.length_append, hzl, List.length_cons, List.length_nil]
  have hw : ∀ a, 8 ≤ a → a + 2 ≤ 2 ^ 25 →
      (([0x49, 0x4E, 0x44, 0x58, 0xFE, 0xFF, 2, 0] ++ z).drop a).take 2 = [0, 0] := by
    intro a h1 h2
    obtain ⟨b, rfl⟩ : ∃ b, a = 8 + b := ⟨a - 8, by omega⟩
    have hz8 : ([0x49, 0x4E, 0x44, 0x58, 0xFE, 0xFF, 2, 0] ++ z).drop (8 + b) = z.drop b := by
      rw [← List.drop_drop]
      rfl
    rw [hz8]
    rw [hz, List.drop_replicate, List.take_replicate, Nat.min_eq_left (by omega)]
    rfl
  have e4 : field ([0x49, 0x4E, 0x44, 0x58, 0xFE, 0xFF, 2, 0] ++ z) 4 2 = 65534 := by simp [field, leNat]
  have e6 : field ([0x49, 0x4E, 0x44, 0x58, 0xFE, 0xFF, 2, 0] ++ z) 6 2 = 2 := by simp [field, leNat]
  have e0 : (([0x49, 0x4E, 0x44, 0x58, 0xFE, 0xFF, 2, 0] ++ z).drop 0).take 2 = [0x49, 0x4E] := rfl
  generalize [0x49, 0x4E, 0x44, 0x58, 0xFE, 0xFF, 2, 0] ++ z = d at *
  have hu := hw 65534 (by omega) (by omega)
  refine ⟨⟨d, none⟩, hl, e4, e6, hw _ (by omega) (by omega), ?_, ?_⟩
  · rw [fixup_eq _ (by simp only; omega)]
    simp only [e4, e6, hl]
    rw [if_pos (by omega), if_neg (by omega), if_neg (by omega)]
  · rw [fixupRel_eq _ (by simp only; omega)]
    simp only [e4, e6, hl, hu]
    rw [if_neg (by omega), if_pos (by omega), if_neg (by omega), if_neg (by omega)]
    have hl2 : (List.take 2 (List.drop 0 d)).length = 2 := by rw [e0]; rfl
    have hlen : (overwrite d 510 (List.take 2 (List.drop 0 d))).length = 2 ^ 25 := by
      rw [overwrite_length (by omega), hl]
    obtain ⟨d', e, -, hk⟩ := fixupLoop_runs none [0, 0] 32768 (overwrite d 510 (List.take 2 (List.drop 0 d))) 2 1022
      (by omega) (by omega) (by
        intro k hk
        rw [window_overwrite _ _ _ _ hl2 (by omega) (by right; omega)]
        exact hw _ (by omega) (by omega))
    have hloop : Record.fixupLoop none [0, 0] (2 + 32767) d (65534 - 65534) 510 = .ok d' := by
      show Record.fixupLoop none [0, 0] (32768 + 1) d 0 510 = .ok d'
      unfold Record.fixupLoop
      rw [tail_eq d 0 _ (by omega) rfl, Res.bind_ok, tail_eq d 510 _ (by omega) rfl, Res.bind_ok,
        if_neg (by rw [hw 510 (by omega) (by omega)]; exact fun h => h rfl)]
      exact e
    rw [hloop]
    refine ⟨_, rfl, ?_, ?_⟩
    · show d'[510]? = _
      rw [hk 510 (by omega), overwrite_getElem? (by omega), if_neg (by omega), if_pos (by omega), e0]
      rfl
    · show d'[511]? = _
      rw [hk 511 (by omega), overwrite_getElem? (by omega), if_neg (by omega), if_pos (by omega), e0]
      rfl

/-! ### Index records -/

theorem IndexRecord.validateSizesRel_eq (r : IndexRecord) (h : 36 ≤ r.record.data.length) :
    r.validateSizesRel =
      if (24 + field r.record.data 32 4) % U32 > r.record.data.length then
        .err (.invalidIndexAllocatedSize r.record.position r.record.data.length ((24 + field r.record.data 32 4) % U32))
      else if (24 + field r.record.data 28 4) % U32 > (24 + field r.record.data 32 4) % U32 then
        .err (.invalidIndexUsedSize r.record.position ((24 + field r.record.data 32 4) % U32)
          ((24 + field r.record.data 28 4) % U32))
      else .ok () := by
  unfold IndexRecord.validateSizesRel IndexRecord.allocatedSize IndexRecord.dataSize
  rw [readLE_ok (n := 4) (a := 32) (by omega), readLE_ok (n := 4) (a := 28) (by omega)]
  rfl

/-- **C85**: an index record is accepted or refused alike in both builds, unless a debug build stops. -/
theorem C85_sizes (r : IndexRecord) (h : 36 ≤ r.record.data.length) :
    r.validateSizesRel = r.validateSizes ∨ r.validateSizes = .panic .overflow := by
  rw [r.validateSizesRel_eq h, r.validateSizes_eq h]
  by_cases h1 : 24 + field r.record.data 32 4 < U32
  · have n1 : ¬ ¬ 24 + field r.record.data 32 4 < U32 := fun h => h h1
    rw [if_neg n1, Nat.mod_eq_of_lt h1]
    by_cases h2 : 24 + field r.record.data 32 4 > r.record.data.length
    · rw [if_pos h2, if_pos h2]
      exact .inl rfl
    · rw [if_neg h2, if_neg h2]
      by_cases h3 : 24 + field r.record.data 28 4 < U32
      · have n3 : ¬ ¬ 24 + field r.record.data 28 4 < U32 := fun h => h h3
        rw [if_neg n3, Nat.mod_eq_of_lt h3]
        exact .inl rfl
      · rw [if_pos h3]
        exact .inr rfl
  · rw [if_pos h1]
    exact .inr rfl

/-- **C85**: a record that stops a debug build and is accepted by a release build has no entries there: asking for them
panics, and the iterator inside an index goes beyond the end of the record. -/
theorem C85_record {r : IndexRecord} (h : 40 ≤ r.record.data.length) (hl : r.record.data.length < U32)
    (hd : r.validateSizes = .panic .overflow) (hr : r.validateSizesRel = .ok ()) :
    r.entries = .panic .slice ∧
      ∃ it, r.intoEntryRangesRel = .ok it ∧ it.data = r.record.data ∧ it.data.length < it.stop := by
  have hlt : field r.record.data 32 4 < U32 := by
    have := field_lt (d := r.record.data) (a := 32) (n := 4)
    omega
  have hw : U32 ≤ 24 + field r.record.data 28 4 := by
    rw [r.validateSizesRel_eq (by omega)] at hr
    rw [r.validateSizes_eq (by omega)] at hd
    split at hr
    · cases hr
    · split at hr
      · cases hr
      · split at hd
        · omega
        · split at hd
          · cases hd
          · split at hd
            · omega
            · split at hd <;> cases hd
  have e : r.entriesRange = .ok (24 + field r.record.data 24 4, 24 + field r.record.data 28 4,
      Pos.add r.record.position (24 + field r.record.data 24 4)) := by
    unfold IndexRecord.entriesRange IndexRecord.entriesOffset IndexRecord.dataSize
    rw [readLE_ok (n := 4) (a := 24) (by omega), readLE_ok (n := 4) (a := 28) (by omega)]
    rfl
  constructor
  · unfold IndexRecord.entries
    rw [e]
    show (idxRange _ _ _ >>= _) = _
    unfold idxRange getRange
    rw [if_neg (by omega)]
    rfl
  · refine ⟨⟨r.record.data, 24 + field r.record.data 24 4, 24 + field r.record.data 28 4,
      Pos.add r.record.position (24 + field r.record.data 24 4)⟩, ?_, rfl, ?_⟩
    · unfold IndexRecord.intoEntryRangesRel
      rw [e]
      rfl
    · show r.record.data.length < 24 + _
      omega

/-- The iterator after `n` calls, whatever their results. -/
def NodeRanges.later : Nat → NodeRanges → NodeRanges
  | 0, it => it
  | n + 1, it => NodeRanges.later n (NodeRanges.next it).2

/-- **C85**: such an iterator never says that it is at the end: every call yields an entry, an error or a panic. -/
theorem C85_no_end : ∀ (n : Nat) (it : NodeRanges), it.data.length < it.stop → it.start < it.stop →
    (NodeRanges.next (it.later n)).1 ≠ .ok none
  | 0, it, _, hs => by
    show (NodeRanges.next it).1 ≠ _
    unfold NodeRanges.next
    rw [if_neg (by omega)]
    cases it.step with
    | ok x => exact fun h => by cases h
    | err => exact fun h => by cases h
    | panic => exact fun h => by cases h
    | diverge => exact fun h => by cases h
  | n + 1, it, hd, hs => by
    refine C85_no_end n _ ?_ ?_
    all_goals
      unfold NodeRanges.next
      rw [if_neg (by omega)]
      cases hst : it.step with
      | err => assumption
      | panic => assumption
      | diverge => assumption
      | ok x =>
        obtain ⟨x, it'⟩ := x
        unfold NodeRanges.step at hst
        rw [Res.bind_eq_ok] at hst
        obtain ⟨sl, h1, hst⟩ := hst
        rw [Res.bind_eq_ok] at hst
        obtain ⟨e, h2, hst⟩ := hst
        rw [Res.bind_eq_ok] at hst
        obtain ⟨len, h3, hst⟩ := hst
        rw [Res.bind_eq_ok] at hst
        obtain ⟨last, h4, hst⟩ := hst
        cases last with
        | true =>
          cases hst
          assumption
        | false =>
          cases hst
          first
          | assumption
          | skip
            show it.start + len < it.stop
            have hlen : it.start + len ≤ it.data.length := by
              have hsl : sl = it.data.drop it.start ∧ it.start ≤ it.data.length := by
                unfold idxRange getRange at h1
                split at h1
                · rename_i x hx
                  split at hx
                  · cases h1
                    cases hx
                    refine ⟨List.take_of_length_le ?_, by omega⟩
                    simp
                  · cases hx
                · cases h1
              rw [IEntry.new_eq] at h2
              split at h2
              · cases h2
              · split at h2
                · cases h2
                · rename_i hb
                  cases h2
                  unfold IEntry.length readLE at h3
                  split at h3
                  · rename_i hb2
                    cases h3
                    dsimp only at hb2
                    have := List.length_take_le (field sl 8 2) sl
                    have e : leNat (((sl.take (field sl 8 2)).drop 8).take 2) = field sl 8 2 := by
                      refine field_take (b := sl) (o := 8) (k := 2) ?_
                      rw [List.length_take] at hb2
                      omega
                    dsimp only
                    rw [e]
                    have := congrArg List.length hsl.1
                    rw [List.length_drop] at this
                    omega
                  · cases h3
            omega

/-- **C85**: reading an index record is the same in both builds, unless a debug build stops. -/
theorem C85_index_record (b : Bytes) (p : Pos) (h : 36 ≤ b.length) :
    IndexRecord.ofBytesRel b p = IndexRecord.ofBytes b p ∨ IndexRecord.ofBytes b p = .panic .overflow := by
  unfold IndexRecord.ofBytesRel IndexRecord.ofBytes
  dsimp only
  cases IndexRecord.validateSignature ⟨b, p⟩ with
  | err => exact .inl rfl
  | panic => exact .inl rfl
  | diverge => exact .inl rfl
  | ok =>
    simp only [Res.bind_ok]
    rcases C85_fixup ⟨b, p⟩ (by dsimp only; omega) with e | e
    · rw [e]
      cases hf : (Record.mk b p).fixup with
      | err => exact .inl rfl
      | panic => exact .inl rfl
      | diverge => exact .inl rfl
      | ok r =>
        simp only [Res.bind_ok]
        have hl := (Record.fixup_length hf).1
        rcases C85_sizes ⟨r⟩ (by dsimp only at hl ⊢; omega) with e | e
        · rw [e]
          exact .inl rfl
        · rw [e]
          exact .inr rfl
    · rw [e]
      exact .inr rfl

/-- An index record of 64 bytes whose sizes wrap around: 16 bytes less than 2^32, so that the totals come to 8. -/
def exWrapped (offset : Bytes) : Bytes :=
  [0x49, 0x4E, 0x44, 0x58, 40, 0, 1, 0] ++ List.replicate 16 0 ++ offset ++ [0xF0, 0xFF, 0xFF, 0xFF] ++
    [0xF0, 0xFF, 0xFF, 0xFF] ++ List.replicate 12 0 ++ [0, 0, 0, 0, 0, 0, 0, 0, 16, 0, 0, 0, 2, 0, 0, 0]

/-- **C85 is violated** for index records: in a debug build this one stops the program, in a release build it is a node
without entries. -/
theorem C85_record_negation : IndexRecord.ofBytes (exWrapped [0xFF, 0xFF, 0xFF, 0xFF]) none = .panic .overflow ∧
    ∃ r it, IndexRecord.ofBytesRel (exWrapped [0xFF, 0xFF, 0xFF, 0xFF]) none = .ok r ∧
      r.intoEntryRangesRel = .ok it ∧ NodeRanges.next it = (.ok none, it) :=
  ⟨by decide +kernel, ⟨⟨exWrapped [0xFF, 0xFF, 0xFF, 0xFF], none⟩⟩,
    ⟨exWrapped [0xFF, 0xFF, 0xFF, 0xFF], 24 + 0xFFFFFFFF, 24 + 0xFFFFFFF0, none⟩,
    by decide +kernel, by decide +kernel, by decide +kernel⟩

/-! ### Examples -/

/-- With the offset 24 the iterator of a release build finds the last entry of the record, then only errors. -/
example : ∃ r it it2, IndexRecord.ofBytesRel (exWrapped [24, 0, 0, 0]) none = .ok r ∧ r.intoEntryRangesRel = .ok it ∧
    NodeRanges.next it = (.ok (some ⟨48, 64, none⟩), it2) ∧
    NodeRanges.next it2 = (.err (.invalidIndexEntrySize none 16 0), it2) :=
  ⟨⟨⟨exWrapped [24, 0, 0, 0], none⟩⟩, ⟨exWrapped [24, 0, 0, 0], 48, 24 + 0xFFFFFFF0, none⟩,
    ⟨exWrapped [24, 0, 0, 0], 64, 24 + 0xFFFFFFF0, none⟩,
    by decide +kernel, by decide +kernel, by decide +kernel, by decide +kernel⟩

example : (IndexRecord.mk ⟨exWrapped [24, 0, 0, 0], none⟩).entries = .panic .slice :=
  (C85_record (by decide) (by decide) (by decide +kernel) (by decide +kernel)).1

example (n : Nat) :
    (NodeRanges.next (NodeRanges.later n ⟨exWrapped [24, 0, 0, 0], 48, 24 + 0xFFFFFFF0, none⟩)).1 ≠ .ok none :=
  C85_no_end n _ (by decide) (by decide)

/-- The run of `C85_value_negation`. -/
example : (DataRun.mk (some (2 ^ 64 - 512)) 1024 512).readRel [0, 0, 0] ⟨[0xEB, 0x52], 7, []⟩ =
    (.ok 2, ⟨some (2 ^ 64 - 512), 1024, 514⟩, [0xEB, 0x52, 0], ⟨[0xEB, 0x52], 2, []⟩) :=
  (C85_wraps (r := ⟨some (2 ^ 64 - 512), 1024, 512⟩) rfl (by decide) (by decide) (by decide) _ _ _).2

/-- The record of `C14_negation`: a release build refuses it. -/
example : ∃ r : Record, r.fixup = .panic .overflow ∧ ∀ r', r.fixupRel ≠ .ok r' := by
  obtain ⟨r, hl, h⟩ := C14_negation
  exact ⟨r, h, C85_fixup_refused_partial r (by omega) (by omega) h⟩

example (d : Dev) : ∃ v, NonRes.new 512 [0x11, 1, 2, 0x99] none 600 = .ok v ∧
    v.runRel d [.seek (.start 3), .read [0, 0]] = v.run d [.seek (.start 3), .read [0, 0]] :=
  ⟨_, rfl, (C85_value_partial 512 [0x11, 1, 2, 0x99] none 600 (by decide) exGarbage_bounded rfl d _ (by decide)).1⟩

end NT
