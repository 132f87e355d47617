import Verif.Props.C52_IndexRecords
import Verif.Props.C28_NodeEntries
import Verif.Props.C70_Returns

/-! C77: the positions that the crate reports, in its `position` methods and in its errors, are device addresses of the
structure in question. -/

namespace NT

namespace Spec

/-- The bytes `b` belong to a record that starts at the device address `base`, and they are found on the device at the
address `q`; apart from the last two bytes of each sector of the record, which a fixup replaces. -/
structure FoundAt (img : Bytes) (base q : Nat) (b : Bytes) : Prop where
  after : base ≤ q
  inside : q + b.length ≤ img.length
  same : ∀ i < b.length, (q - base + i) % 512 < 510 → b[i]? = img[q + i]?

/-- The record is found at its position. -/
def RecordFound (img : Bytes) (r : Record) (base : Nat) : Prop :=
  r.position = some base ∧ FoundAt img base base r.data

/-- The position that an error reports, if it reports one, in the order of `src/error.rs`. -/
def reported : Err → Option Pos
  | .attributeNotFound p _ => some p
  | .attributeOfDifferentType p _ _ => some p
  | .invalidAttributeLength p _ _ => some p
  | .invalidAttributeNameLength p _ _ => some p
  | .invalidAttributeNameOffset p _ _ => some p
  | .invalidByteCountInDataRunHeader p _ _ => some p
  | .invalidClusterCountInDataRunHeader p _ => some p
  | .invalidFileAllocatedSize p _ _ => some p
  | .invalidFileSignature p _ => some p
  | .invalidFileUsedSize p _ _ => some p
  | .invalidIndexAllocatedSize p _ _ => some p
  | .invalidIndexEntryDataRange p _ _ _ => some p
  | .invalidIndexEntrySize p _ _ => some p
  | .invalidIndexRootEntriesOffset p _ _ => some p
  | .invalidIndexRootUsedSize p _ _ => some p
  | .invalidIndexSignature p _ => some p
  | .invalidIndexUsedSize p _ _ => some p
  | .invalidNonResidentValueDataRange p _ _ _ => some p
  | .invalidResidentAttributeValueLength p _ _ _ => some p
  | .invalidResidentAttributeValueOffset p _ _ => some p
  | .invalidStructuredValueSize p _ _ _ => some p
  | .invalidUpdateSequenceCount p _ => some p
  | .invalidUpdateSequenceNumberRange p _ _ _ => some p
  | .invalidVcnInDataRunHeader p _ _ => some p
  | .missingIndexAllocation p => some p
  | .notADirectory p => some p
  | .unexpectedAttributeListAttribute p => some p
  | .unexpectedNonResidentAttribute p => some p
  | .unexpectedResidentAttribute p => some p
  | .unsupportedAttributeType p _ => some p
  | .unsupportedFileNamespace p _ => some p
  | .updateSequenceArrayExceedsRecordSize p _ _ => some p
  | .updateSequenceNumberMismatch p _ _ => some p
  | .vcnMismatchInIndexAllocation p _ _ => some p
  | .vcnOutOfBoundsInIndexAllocation p _ => some p
  | _ => none

end Spec

open Spec

theorem Spec.FoundAt.sub {img : Bytes} {base q : Nat} {b : Bytes} (h : FoundAt img base q b) (o n : Nat)
    (hin : o + n ≤ b.length) : FoundAt img base (q + o) (part b o n) := by
  have hl : (part b o n).length = n := part_length hin
  have h1 := h.after
  have h2 := h.inside
  refine ⟨by omega, by omega, fun i hi hm => ?_⟩
  rw [hl] at hi
  have : q + o - base + i = q - base + (o + i) := by omega
  rw [this] at hm
  have := h.same (o + i) (by omega) hm
  unfold part
  rw [List.getElem?_take, if_pos hi, List.getElem?_drop, this, Nat.add_assoc]

theorem Pos.add_some {x k : Nat} (h0 : 0 < x + k) (h : x + k < U64) : Pos.add (some x) k = some (x + k) := by
  unfold Pos.add Pos.new
  dsimp only
  rw [Nat.mod_eq_of_lt h, if_neg (by omega)]

theorem Record.fixupLoop_other (p : Pos) (usn : Bytes) (n : Nat) (d : Bytes) (ap sp : Nat) (d' : Bytes)
    (h : Record.fixupLoop p usn n d ap sp = .ok d') (hsp : sp % 512 = 510) (j : Nat) (hj : j % 512 < 510) :
    d'[j]? = d[j]? := by
  induction n generalizing d ap sp with
  | zero => cases h; rfl
  | succ n ih =>
    simp only [Record.fixupLoop] at h
    rw [Res.bind_eq_ok] at h
    obtain ⟨nb, h1, h⟩ := h
    rw [Res.bind_eq_ok] at h
    obtain ⟨cur, h2, h⟩ := h
    split at h
    · cases h
    · have l1 : nb.length = 2 := by
        unfold idxRange at h1
        cases hg : getRange d ap (ap + 2) with
        | none => rw [hg] at h1; cases h1
        | some x =>
          rw [hg] at h1; cases h1
          have := (getRange_length hg); omega
      have l2 : sp + 2 ≤ d.length := by
        unfold idxRange at h2
        cases hg : getRange d sp (sp + 2) with
        | none => rw [hg] at h2; cases h2
        | some x => exact (getRange_isSome_iff.1 hg).2.1
      have := ih _ _ _ h (by unfold NTFS_BLOCK_SIZE; omega)
      rw [this, overwrite_getElem? (by omega)]
      by_cases hlt : j < sp
      · rw [if_pos hlt]
      · rw [if_neg hlt, if_neg (by omega)]

/-- A fixup only touches the ends of the sectors. -/
theorem Record.fixup_other {r r' : Record} (h : r.fixup = .ok r') (j : Nat) (hj : j % 512 < 510) :
    r'.data[j]? = r.data[j]? := by
  unfold Record.fixup at h
  simp only [Res.bind_eq_ok] at h
  obtain ⟨_, _, _, _, _, _, _, _, _, _, h⟩ := h
  split at h
  · cases h
  · rw [Res.bind_eq_ok] at h
    obtain ⟨d, h1, h2⟩ := h
    cases h2
    exact Record.fixupLoop_other _ _ _ _ _ _ _ h1 (by decide) j hj

theorem Record.fixup_found {img : Bytes} {r r' : Record} {p n : Nat} (h : r.fixup = .ok r') (hp : r.position = some p)
    (hd : r.data = part img p n) (hin : p + n ≤ img.length) : RecordFound img r' p := by
  obtain ⟨hl, hpos⟩ := Record.fixup_length h
  have hn : (part img p n).length = n := part_length hin
  rw [hd, hn] at hl
  refine ⟨hpos.trans hp, Nat.le_refl _, by omega, fun i hi hm => ?_⟩
  rw [Record.fixup_other h i (by simpa using hm), hd]
  unfold part
  rw [List.getElem?_take, if_pos (by omega), List.getElem?_drop]

/-! ### Files -/

theorem NFile.new_found {ntfs : Ntfs} {p number : Nat} {d d' : Dev} {f : NFile}
    (h : NFile.new ntfs p number d = (.ok f, d')) : RecordFound d.img f.record p ∧ d'.img = d.img := by
  unfold NFile.new at h
  rw [StM.bind_apply] at h
  rcases Dev.seekStart_cases p d with ⟨d1, e1, hi, hp, _⟩ | ⟨e, d1, e1, _⟩
  case inr => rw [e1] at h; cases congrArg Prod.fst h
  rw [e1] at h
  dsimp only at h
  rw [StM.bind_apply] at h
  obtain ⟨d2, hi2, ⟨e2, hn⟩ | ⟨e, e2⟩⟩ := Dev.readExact_any ntfs.fileRecordSize d1
  case inr => rw [e2] at h; cases congrArg Prod.fst h
  rw [e2] at h
  dsimp only at h
  have h' : NFile.ofBytes ntfs (part d1.img d1.pos ntfs.fileRecordSize) p number = .ok f := congrArg Prod.fst h
  obtain ⟨_, r, h2, rfl, h3, _⟩ := (NFile.ofBytes_ok_iff _ _ _ _ _).1 h'
  have hne : ntfs.fileRecordSize ≠ 0 := by
    intro h0
    have := (Record.fixup_length h2).1
    rw [h0] at this
    simp only [part, List.take_zero, List.length_nil] at this
    omega
  rw [hi, hp] at h2 hn
  refine ⟨Record.fixup_found h2 rfl rfl (by omega), ?_⟩
  have := congrArg Prod.snd h
  dsimp only [StM.lift] at this
  rw [← this, hi2, hi]

theorem Pos.add_pos {p : Pos} {k a : Nat} (h : Pos.add p k = some a) : 0 < a := by
  unfold Pos.add Pos.new at h
  split at h
  · cases h
  · split at h
    · cases h
    · cases h; omega

theorem SVal.dataPosition_pos {v : SVal} {a : Nat} (h : v.dataPosition = some a) : 0 < a := by
  cases v with
  | res v =>
    unfold SVal.dataPosition ResVal.dataPosition at h
    dsimp only at h
    split at h
    · exact Pos.add_pos h
    · cases h
  | nonRes v =>
    unfold SVal.dataPosition NonRes.dataPosition StreamState.dataPosition DataRun.dataPosition at h
    dsimp only at h
    split at h
    · split at h
      · exact Pos.add_pos h
      · cases h
    · cases h

/-- **C77**: a file is found at its position, whatever the device does in between. -/
theorem C77_file (ntfs : Ntfs) (number : Nat) (d d' : Dev) (f : NFile) (h : ntfs.file number d = (.ok f, d')) :
    ∃ p, 0 < p ∧ f.position = some p ∧ FoundAt d.img p p f.recordData := by
  suffices ∃ p d1, 0 < p ∧ NFile.new ntfs p number d1 = (.ok f, d') ∧ d1.img = d.img by
    obtain ⟨p, d1, h0, h1, h2⟩ := this
    rw [← h2]
    exact ⟨p, h0, (NFile.new_found h1).1⟩
  unfold Ntfs.file at h
  rw [StM.bind_apply] at h
  split at h <;> try (cases congrArg Prod.fst h; done)
  rename_i heq
  have hd1 := congrArg Prod.snd heq
  dsimp only [StM.lift] at hd1
  subst hd1
  cases hm : ntfs.mftPosition with
  | none => rw [hm] at h; cases congrArg Prod.fst h
  | some mp =>
    simp only [hm] at h
    rw [StM.bind_apply] at h
    split at h <;> try (cases congrArg Prod.fst h; done)
    rename_i d2 hnew
    rw [StM.bind_apply] at h
    split at h <;> try (cases congrArg Prod.fst h; done)
    rename_i heq
    have hd3 := congrArg Prod.snd heq
    dsimp only [StM.lift] at hd3
    subst hd3
    rw [StM.bind_apply] at h
    split at h <;> try (cases congrArg Prod.fst h; done)
    rename_i heq
    have hd3 := congrArg Prod.snd heq
    dsimp only [StM.lift] at hd3
    subst hd3
    generalize SVal.seek _ _ = q at h
    obtain ⟨r, v'⟩ := q
    cases r with
    | ok _ =>
      simp only at h
      cases hdp : v'.dataPosition with
      | some a =>
        rw [hdp] at h
        refine ⟨a, _, SVal.dataPosition_pos hdp, h, ?_⟩
        exact (NFile.new_found hnew).2
      | none => rw [hdp] at h; cases congrArg Prod.fst h
    | err e => cases congrArg Prod.fst h
    | panic p => cases congrArg Prod.fst h
    | diverge => cases congrArg Prod.fst h

theorem readLE_eq_ok {n : Nat} {d : Bytes} {a x : Nat} (h : readLE n d a = .ok x) : x = field d a n := by
  unfold readLE at h
  split at h
  · cases h; rfl
  · cases h

/-- The positions in the errors of a result. -/
def Res.Reports {α : Type} (P : Pos → Prop) (r : Res α) : Prop := ∀ e q, r = .err e → reported e = some q → P q

theorem Res.Reports.ok {α : Type} {P : Pos → Prop} (a : α) : (Res.ok a).Reports P := fun _ _ h => nomatch h
theorem Res.Reports.panic {α : Type} {P : Pos → Prop} (p : Panic) : (Res.panic p : Res α).Reports P :=
  fun _ _ h => nomatch h

theorem Res.Reports.err {α : Type} {P : Pos → Prop} {e : Err} (h : ∀ q, reported e = some q → P q) :
    (Res.err e : Res α).Reports P := fun _ q k hq => h q (by cases k; exact hq)

theorem Res.Reports.bind {α β : Type} {P : Pos → Prop} {r : Res α} {f : α → Res β} (h : r.Reports P)
    (k : ∀ a, (f a).Reports P) : (r >>= f).Reports P := by
  intro e q he
  cases r with
  | ok a => exact k a e q he
  | err x => cases he; exact h _ _ rfl
  | panic p => cases he
  | diverge => cases he

theorem Res.Reports.ite {α : Type} {P : Pos → Prop} {c : Prop} [Decidable c] {a b : Res α} (ha : a.Reports P)
    (hb : b.Reports P) : (if c then a else b).Reports P := by
  split
  · exact ha
  · exact hb

theorem Res.Reports.readLE {P : Pos → Prop} (n : Nat) (d : Bytes) (a : Nat) : (NT.readLE n d a).Reports P :=
  .ite (.ok _) (.panic _)

theorem Res.Reports.idxRange {P : Pos → Prop} (d : Bytes) (a b : Nat) : (NT.idxRange d a b).Reports P := by
  unfold NT.idxRange
  cases getRange d a b with
  | none => exact .panic _
  | some x => exact .ok _

theorem Res.Reports.idxByte {P : Pos → Prop} (d : Bytes) (a : Nat) : (NT.idxByte d a).Reports P := by
  unfold NT.idxByte
  cases d[a]? with
  | none => exact .panic _
  | some x => exact .ok _

theorem Res.Reports.ofOption {α : Type} {P : Pos → Prop} {e : Err} (h : ∀ q, reported e = some q → P q)
    (o : Option α) : (Res.ofOption e o).Reports P := by
  cases o with
  | none => exact .err h
  | some a => exact .ok a

theorem reported_self {p q : Pos} (h : some p = some q) : q = p := (Option.some.inj h).symm

/-- Goes through a function and shows that its errors carry the expected position, or none. -/
macro "reports" : tactic => `(tactic| repeat' first
  | with_reducible assumption
  | exact Res.Reports.ok _
  | exact Res.Reports.panic _
  | exact Res.Reports.readLE _ _ _
  | exact Res.Reports.idxRange _ _ _
  | exact Res.Reports.idxByte _ _
  | exact Res.Reports.err fun _ h => reported_self h
  | exact Res.Reports.err fun _ h => nomatch h
  | (refine Res.Reports.ofOption ?_ _; exact fun _ h => reported_self h)
  | refine Res.Reports.bind ?_ fun _ => ?_
  | refine Res.Reports.ite ?_ ?_)

/-! ### Attributes and data runs -/

/-- **C77**: an attribute of a file is found at its position. -/
theorem C77_attribute (img : Bytes) (himg : img.length < U64) (f : NFile) (p : Nat) (h0 : 0 < p)
    (hp : f.position = some p) (hf : FoundAt img p p f.recordData) (off : Nat) (l : Option AttrList) (a : Attr)
    (h : Attr.new f off l = .ok a) :
    a.position = some (p + off) ∧ FoundAt img p (p + off) (part f.recordData off (field f.recordData (off + 4) 4)) := by
  obtain ⟨rfl, hv⟩ := Attr.new_ok_iff.1 h
  have h1 := hv.inside
  have h2 := hf.inside
  simp only [Attr.recordData] at h1
  refine ⟨?_, hf.sub off _ h1⟩
  show Pos.add f.position off = _
  rw [hp, Pos.add_some (by omega) (by omega)]

/-- **C77**: the encoded data runs of a non-resident attribute are found at the position that they are given. -/
theorem C77_data_runs_start (img : Bytes) (himg : img.length < U64) (f : NFile) (p : Nat) (h0 : 0 < p)
    (hp : f.position = some p) (hf : FoundAt img p p f.recordData) (off : Nat) (l : Option AttrList) (a : Attr)
    (h : Attr.new f off l = .ok a) (b : Bytes) (q : Pos) (hb : a.nonResidentValueDataAndPosition = .ok (b, q)) :
    q = some (p + (off + field f.recordData (off + 32) 2)) ∧
      FoundAt img p (p + (off + field f.recordData (off + 32) 2)) b := by
  obtain ⟨rfl, hv⟩ := Attr.new_ok_iff.1 h
  have h2 := hf.inside
  unfold Attr.nonResidentValueDataAndPosition at hb
  rw [Res.bind_eq_ok] at hb
  obtain ⟨_, _, hb⟩ := hb
  rw [Res.bind_eq_ok] at hb
  obtain ⟨o, ho, hb⟩ := hb
  rw [Res.bind_eq_ok] at hb
  obtain ⟨n, hn, hb⟩ := hb
  rw [Res.bind_eq_ok] at hb
  obtain ⟨b', hg, hb⟩ := hb
  cases hb
  have ho' : o = field f.recordData (off + 32) 2 := by
    unfold Attr.nonResidentValueDataRunsOffset at ho
    rw [Res.bind_eq_ok] at ho
    obtain ⟨_, _, ho⟩ := ho
    exact readLE_eq_ok ho
  subst ho'
  cases hr : getRange f.recordData (off + field f.recordData (off + 32) 2) (off + n) with
  | none => simp only [Attr.recordData, hr] at hg; cases hg
  | some x =>
    simp only [Attr.recordData, hr] at hg
    cases hg
    obtain ⟨g1, g2, g3⟩ := getRange_isSome_iff.1 hr
    have hs := hf.sub (off + field f.recordData (off + 32) 2) (off + n - (off + field f.recordData (off + 32) 2)) (by omega)
    refine ⟨?_, ?_⟩
    · dsimp only
      rw [hp, Pos.add_some (by omega) (by omega)]
    · rw [show b = part f.recordData (off + field f.recordData (off + 32) 2)
        (off + n - (off + field f.recordData (off + 32) 2)) from g3]
      exact hs

/-- **C77**: the errors of an attribute report the position of the attribute. -/
theorem C77_attribute_errors (a : Attr) (l : Option AttrList) :
    (Attr.new a.file a.offset l).Reports (· = a.position) ∧ a.name.Reports (· = a.position) ∧
      a.ty.Reports (· = a.position) ∧ (∀ t, (a.ensureTy t).Reports (· = a.position)) ∧
      a.residentValue.Reports (· = a.position) ∧
      ((a.isResident = .ok false → a.residentIndexRoot.Reports (· = a.position))) := by
  have hty : a.ty.Reports (· = a.position) := by unfold Attr.ty; reports
  have hens (t) : (a.ensureTy t).Reports (· = a.position) := by unfold Attr.ensureTy; reports
  have hres : a.assertResident.Reports (· = a.position) := by unfold Attr.assertResident Attr.isResident; reports
  refine ⟨?_, ?_, hty, hens, ?_, fun hr => ?_⟩
  · unfold Attr.new Attr.validateAttributeLength Attr.attributeLength; reports
  · unfold Attr.name Attr.validateNameSizes Attr.nameOffset Attr.nameLength Attr.attributeLength; reports
  · unfold Attr.residentValue Attr.validateResidentValueSizes Attr.residentValueOffset Attr.residentValueLength
      Attr.attributeLength
    reports
  · unfold Attr.residentIndexRoot
    rw [hr]
    refine .bind (hens _) fun _ => ?_
    exact .err fun _ h => reported_self h

/-- The iterator over data runs reads the bytes that are found at its position. -/
structure Spec.RunsFound (img : Bytes) (base q : Nat) (r : DataRuns) : Prop where
  position : r.position = some q
  found : FoundAt img base q r.data
  pos : 0 < q
  inside : r.state.offset ≤ r.data.length
  lcn : r.state.previousLcn < U64

theorem DataRuns.next_position (r : DataRuns) (hp : r.state.previousLcn < U64) : r.next.2.position = r.position := by
  rcases r.next_cases hp with ⟨r', h, _, h2, h3⟩ | ⟨_, h⟩ | ⟨_, h, h2, _⟩ | ⟨_, _, _, h, _, _, h3, _⟩ <;>
    rw [h] <;> dsimp only
  rw [h2]

theorem Spec.RunsFound.next {img : Bytes} {base q : Nat} {r : DataRuns} (h : RunsFound img base q r) :
    RunsFound img base q r.next.2 := by
  have h1 := r.next_data h.lcn
  have h2 := DataRuns.next_position r h.lcn
  refine ⟨h2.trans h.position, h1.1.symm ▸ h.found, h.pos, ?_, h1.2.2⟩
  rw [h1.1]
  have hin := h.inside
  cases hd : r.data.drop r.state.offset with
  | nil => unfold DataRuns.next; rw [hd]; exact hin
  | cons b c =>
    by_cases hb : b = 0
    · unfold DataRuns.next; rw [hd]; dsimp only; rw [if_pos hb]; exact Nat.le_refl _
    · rcases r.next_cases h.lcn with ⟨r', h, k1, k2, _⟩ | ⟨_, h⟩ | ⟨_, h, _, _⟩ | ⟨_, _, _, h, _, k, _⟩
      · rw [h]
        exfalso
        unfold DataRuns.next at h
        rw [hd] at h
        dsimp only at h
        rw [if_neg hb] at h
        repeat' (split at h)
        all_goals cases congrArg Prod.fst h
      · rw [h]; exact hin
      · rw [h]; exact hin
      · rw [h]; exact k

/-- **C77**: after any number of calls, the position of the iterator over the data runs is the address of the header
byte of the run that it decodes next, and that is the position in its errors. -/
theorem C77_data_runs (img : Bytes) (himg : img.length < U64) (cs : Nat) (b : Bytes) (base q : Nat) (hq : 0 < q)
    (hb : FoundAt img base q b) (n : Nat) :
    ∃ o, o ≤ b.length ∧ (DataRuns.after n (DataRuns.new cs b (some q))).pos = some (q + o) ∧
      FoundAt img base (q + o) (b.drop o) ∧
      (DataRuns.after n (DataRuns.new cs b (some q))).data.drop
        (DataRuns.after n (DataRuns.new cs b (some q))).state.offset = b.drop o ∧
      ∀ e, (DataRuns.after n (DataRuns.new cs b (some q))).next.1 = some (.err e) →
        reported e = none ∨ reported e = some (some (q + o)) := by
  have key : ∀ n r, RunsFound img base q r → r.data = b →
      RunsFound img base q (DataRuns.after n r) ∧ (DataRuns.after n r).data = b := by
    intro n
    induction n with
    | zero => exact fun r h hd => ⟨h, hd⟩
    | succ n ih => exact fun r h hd => ih _ h.next ((r.next_data h.lcn).1.trans hd)
  obtain ⟨h, hd⟩ := key n (DataRuns.new cs b (some q)) ⟨rfl, hb, hq, Nat.zero_le _, Nat.zero_lt_succ _⟩ rfl
  revert h hd
  generalize DataRuns.after n (DataRuns.new cs b (some q)) = r
  intro h hd
  have hin := h.inside
  have hl := hb.inside
  rw [hd] at hin
  have hpos : r.pos = some (q + r.state.offset) := by
    unfold DataRuns.pos
    rw [h.position, Pos.add_some (by omega) (by omega)]
  refine ⟨r.state.offset, hin, hpos, ?_, by rw [hd], fun e he => ?_⟩
  · have := hb.sub r.state.offset (b.length - r.state.offset) (by omega)
    unfold part at this
    rwa [List.take_of_length_le (by simp)] at this
  · have hu (c : Bytes) (k : Nat) : (r.readVarUnsigned c k).Reports (· = r.pos) :=
      by unfold DataRuns.readVarUnsigned DataRuns.readVarBytes; reports
    have hs (c : Bytes) (k : Nat) : (r.readVarSigned c k).Reports (· = r.pos) :=
      by unfold DataRuns.readVarSigned DataRuns.readVarBytes; reports
    suffices ∀ p, reported e = some p → p = r.pos by
      cases hre : reported e with
      | none => exact .inl rfl
      | some p => rw [this p hre, hpos]; exact .inr rfl
    intro p hrep
    unfold DataRuns.next at he
    repeat' split at he
    all_goals dsimp only at he
    all_goals first
      | (cases he; done)
      | (cases he; exact reported_self hrep)
      | (rename_i heq; cases he; exact hu _ _ _ _ heq hrep)
      | (rename_i heq; cases he; exact hs _ _ _ _ heq hrep)
      | (rename_i heq; cases he; unfold Lcn.position at heq; split at heq
         · cases heq
         · cases heq; cases hrep)

/-! ### Entries of index nodes -/

theorem IEntry.new_reports (b : Bytes) (p : Pos) : (IEntry.new b p).Reports (· = p) := by
  rw [IEntry.new_eq]; reports

/-- One call of the iterator over a node. -/
theorem NodeEntries.next_at {it it' : NodeEntries} {r : Res (Option IEntry)} (h : it.next = (r, it')) :
    r.Reports (· = it.position) ∧ (∀ x, r = .ok (some x) → x.position = it.position ∧
      x.slice.length ≤ it.slice.length ∧ x.slice = it.slice.take x.slice.length ∧
      (it'.slice = [] ∨ it' = ⟨it.slice.drop x.slice.length, Pos.add it.position x.slice.length⟩)) ∧
      ((∀ x, r ≠ .ok (some x)) → it' = it) := by
  unfold NodeEntries.next at h
  split at h
  · cases h
    exact ⟨.ok _, fun _ h => (nomatch h), fun _ => rfl⟩
  have hr : it.step.Reports (· = it.position) := by
    have := IEntry.new_reports it.slice it.position
    unfold NodeEntries.step IEntry.isLast IEntry.flags IEntry.length
    reports
  cases hs : it.step with
  | err x => rw [hs] at h hr; cases h; exact ⟨fun e q he => hr e q (by cases he; rfl), fun _ h => (nomatch h), fun _ => rfl⟩
  | panic x => rw [hs] at h; cases h; exact ⟨.panic _, fun _ h => (nomatch h), fun _ => rfl⟩
  | diverge => rw [hs] at h; cases h; exact ⟨fun _ _ h => (nomatch h), fun _ h => (nomatch h), fun _ => rfl⟩
  | ok q =>
    obtain ⟨e, it2⟩ := q
    rw [hs] at h
    cases h
    refine ⟨.ok _, fun x hx => ?_, fun hx => absurd rfl (hx e)⟩
    cases hx
    unfold NodeEntries.step at hs
    rw [Res.bind_eq_ok] at hs
    obtain ⟨e2, h1, h2⟩ := hs
    rw [IEntry.new_eq] at h1
    split at h1
    · cases h1
    split at h1
    · cases h1
    rename_i hlen hfit
    cases h1
    have hl : (it.slice.take (field it.slice 8 2)).length = field it.slice 8 2 := by
      rw [List.length_take]; omega
    rw [Res.bind_eq_ok] at h2
    obtain ⟨b, h3, h2⟩ := h2
    cases b with
    | true =>
      cases h2
      exact ⟨rfl, by dsimp only; omega, by dsimp only; rw [hl], .inl rfl⟩
    | false =>
      rw [if_neg (by decide), Res.bind_eq_ok] at h2
      obtain ⟨n, h4, h2⟩ := h2
      rw [Res.bind_eq_ok] at h2
      obtain ⟨s, h5, h2⟩ := h2
      cases h2
      have h10 : 10 ≤ (it.slice.take (field it.slice 8 2)).length := by
        unfold IEntry.length readLE at h4
        dsimp only at h4
        split at h4
        · assumption
        · cases h4
      rw [IEntry.length_eq (by exact h10)] at h4
      dsimp only at h4
      rw [field_take (by omega)] at h4
      cases h4
      rw [idxRange_ok (by omega) (Nat.le_refl _)] at h5
      cases h5
      refine ⟨rfl, by dsimp only; omega, by dsimp only; rw [hl], .inr ?_⟩
      dsimp only
      rw [hl, List.take_of_length_le (by simp)]

/-- The number of bytes of the entries that were shown. -/
def Spec.shown : List (Res (Option IEntry)) → Nat
  | [] => 0
  | .ok (some e) :: rest => e.slice.length + shown rest
  | _ :: rest => shown rest

/-- **C77**: a node whose bytes are found at the address `q + s` while its iterator is at the position `q`: the position
of each entry is `q` plus the lengths of the entries before it, the entry is found `s` bytes after its position, and
the position in an error is the one of the entry that is at fault. For `s = 0` the positions are the addresses. -/
theorem C77_node_entries (img : Bytes) (himg : img.length < U64) (base q s : Nat) (hq : 0 < q) (it : NodeEntries)
    (hp : it.position = some q) (hf : FoundAt img base (q + s) it.slice) (n i : Nat) (r : Res (Option IEntry))
    (h : (NodeEntries.calls n it)[i]? = some r) :
    (∀ e, r = .ok (some e) → e.position = some (q + shown (NodeEntries.calls i it)) ∧
      FoundAt img base (q + shown (NodeEntries.calls i it) + s) e.slice) ∧
    r.Reports (· = some (q + shown (NodeEntries.calls i it))) := by
  induction n generalizing it i q with
  | zero => simp [NodeEntries.calls] at h
  | succ n ih =>
    unfold NodeEntries.calls at h
    generalize hn : it.next = x at h
    obtain ⟨r1, it'⟩ := x
    obtain ⟨h1, h2, h3⟩ := NodeEntries.next_at hn
    dsimp only at h
    cases i with
    | zero =>
      cases h
      rw [hp] at h1 h2
      simp only [NodeEntries.calls, shown, Nat.add_zero]
      refine ⟨fun e he => ?_, h1⟩
      obtain ⟨k1, k2, k3, _⟩ := h2 e he
      refine ⟨k1, ?_⟩
      have := hf.sub 0 e.slice.length (by omega)
      unfold part at this
      rw [List.drop_zero, ← k3] at this
      exact this
    | succ i =>
      rw [List.getElem?_cons_succ] at h
      have hc : NodeEntries.calls (i + 1) it = r1 :: NodeEntries.calls i it' := by
        rw [NodeEntries.calls, hn]
      rw [hc]
      by_cases hx : ∃ x, r1 = .ok (some x)
      · obtain ⟨x, rfl⟩ := hx
        obtain ⟨k1, k2, k3, k4⟩ := h2 x rfl
        have hin := hf.inside
        rcases k4 with k4 | k4
        · have : it' = ⟨[], it'.position⟩ := by rw [← k4]
          rw [this] at h
          have hi : i < n := by
            by_cases hlt : i < n
            · exact hlt
            · have : ∀ k it, (NodeEntries.calls k it).length = k := by
                intro k
                induction k with
                | zero => exact fun _ => rfl
                | succ k ih => exact fun it => by rw [NodeEntries.calls]; exact congrArg _ (ih _)
              rw [List.getElem?_eq_none (by rw [this]; omega)] at h
              cases h
          rw [NodeEntries.calls_nil n _ i hi] at h
          cases h
          exact ⟨fun _ h => (nomatch h), .ok _⟩
        · subst k4
          have hadd : Pos.add it.position x.slice.length = some (q + x.slice.length) := by
            rw [hp, Pos.add_some (by omega) (by omega)]
          have hf' : FoundAt img base (q + x.slice.length + s) (it.slice.drop x.slice.length) := by
            have := hf.sub x.slice.length (it.slice.length - x.slice.length) (by omega)
            unfold part at this
            rw [List.take_of_length_le (by simp)] at this
            rwa [show q + x.slice.length + s = q + s + x.slice.length by omega]
          have := ih (q + x.slice.length) (by omega) ⟨it.slice.drop x.slice.length, Pos.add it.position x.slice.length⟩ hadd hf' i h
          simpa only [shown, Nat.add_assoc] using this
      · have : it' = it := h3 fun x hx' => hx ⟨x, hx'⟩
        subst this
        have hs : shown (r1 :: NodeEntries.calls i it') = shown (NodeEntries.calls i it') := by
          cases r1 with
          | ok o =>
            cases o with
            | none => rfl
            | some x => exact absurd ⟨x, rfl⟩ hx
          | err _ => rfl
          | panic _ => rfl
          | diverge => rfl
        rw [hs]
        exact ih q hq it' hp hf i h

end NT
