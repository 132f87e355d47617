import Verif.Props.C70_Returns
import Verif.Model.ShellMain
import Verif.Props.C05_List
import Verif.Props.C05_ReadContract

/-! Continuation of `Verif/Lemmas/ReturnsOps.lean`: the commands of the shell come back, up to the search by name and
the listing of an index. -/

namespace NT

open Spec

/-! ### Copying a value -/

/-- The bytes of a value that are still to be read. -/
def Val.rest : Val → Nat
  | .simple (.res v) => v.data.length - v.streamPosition
  | .simple (.nonRes v) => v.st.dataSize - v.st.streamPosition
  | .list v => v.st.dataSize - v.st.streamPosition

theorem Val.readFn_rest (v : Val) (d : Dev) (buf : Bytes) {n : Nat} (h : (Val.readFn (v, d) buf).1 = .ok n)
    (hn : n ≠ 0) : (Val.readFn (v, d) buf).2.1.1.rest < v.rest := by
  match v with
  | .simple (.res v) =>
    have h' : v.read buf = (.ok n, (v.read buf).2.1, (v.read buf).2.2) := Prod.ext h rfl
    obtain ⟨_, _, _, h1, h2, h3⟩ := C05_resident v _ buf _ n h'
    show (v.read buf).2.1.data.length - (v.read buf).2.1.streamPosition < v.data.length - v.streamPosition
    rcases h3 with h3 | h3
    · exact absurd h3 hn
    · unfold ResVal.len at h2 h3
      omega
  | .simple (.nonRes v) =>
    have h' : v.read buf d = (.ok n, (v.read buf d).2.1, (v.read buf d).2.2.1, (v.read buf d).2.2.2) := Prod.ext h rfl
    obtain ⟨_, _, _, h1, h2, h3⟩ := C05_non_resident v _ buf _ d _ n h'
    show (v.read buf d).2.1.st.dataSize - (v.read buf d).2.1.st.streamPosition < v.st.dataSize - v.st.streamPosition
    rcases h3 with h3 | h3
    · exact absurd h3 hn
    · unfold NonRes.len NonRes.streamPosition at *
      omega
  | .list v =>
    obtain ⟨b, _, _, h3, h4, _, h6, h7⟩ :=
      ALVal.readLoop_contract (buf.length + v.runFuel + v.leftFuel) v buf 0 d (Nat.zero_le _)
    have h8 := h7 n h
    show (v.read buf d).2.1.st.dataSize - (v.read buf d).2.1.st.streamPosition < v.st.dataSize - v.st.streamPosition
    unfold ALVal.read
    omega

theorem copyLoop_returns (fuel : Nat) (v : Val) (d : Dev) (buf out : Bytes) (hv : v.Sane) (hf : v.rest < fuel) :
    (copyLoop Val.readFn fuel (v, d) buf out).1.Returns := by
  induction fuel generalizing v d buf out with
  | zero => omega
  | succ fuel ih =>
    obtain ⟨h1, h2, _⟩ := Val.readFn_returns v d buf hv
    have h3 := fun n => Val.readFn_rest v d buf (n := n)
    unfold copyLoop
    generalize Val.readFn (v, d) buf = q at h1 h2 h3
    obtain ⟨r, ⟨v', d'⟩, buf'⟩ := q
    cases r with
    | ok n =>
      dsimp only at h2 h3 ⊢
      by_cases hn : n = 0
      · rw [if_pos hn]; exact .ok _
      rw [if_neg hn]
      have := h3 n rfl hn
      split
      · exact ih v' d' _ _ h2 (by omega)
      · exact .panic _
    | err e => exact .err _
    | panic p => exact .panic _
    | diverge => exact absurd rfl h1

theorem Attr.residentValue_small {a : Attr} {v : ResVal} (h : a.residentValue = .ok v) : v.data.length < U32 := by
  unfold Attr.residentValue at h
  simp only [Res.bind_eq_ok] at h
  obtain ⟨_, _, _, _, s, _, n, hn, b, hb, h⟩ := h
  cases h
  unfold Attr.residentValueLength at hn
  rw [Res.bind_eq_ok] at hn
  obtain ⟨_, _, hn⟩ := hn
  have : n < U32 := readLE_lt hn
  unfold idxRange at hb
  cases hg : getRange a.recordData (a.offset + s) (a.offset + s + n) with
  | none => rw [hg] at hb; cases hb
  | some y =>
    rw [hg] at hb
    cases hb
    obtain ⟨_, _, rfl⟩ := getRange_isSome_iff.1 hg
    show (List.take _ _).length < _
    rw [List.length_take]
    omega

theorem NonRes.new_data {cs : Nat} {data : Bytes} {p : Pos} {size : Nat} {v : NonRes}
    (h : NonRes.new cs data p size = .ok v) : v.data = data := by
  unfold NonRes.new at h
  dsimp only at h
  have hs := nextDataRun_st ⟨cs, data, p, DataRuns.new cs data p, StreamState.new size⟩
  generalize NonRes.nextDataRun _ = q at h hs
  obtain ⟨x, v'⟩ := q
  cases x with
  | ok b => cases h; exact congrArg NonRes.data hs
  | err e => cases h
  | panic e => cases h
  | diverge => cases h

theorem Attr.nonResidentValue_small {a : Attr} {v : NonRes} (h : a.nonResidentValue = .ok v) :
    v.data.length < U32 ∧ v.st.dataSize < U64 := by
  unfold Attr.nonResidentValue at h
  simp only [Res.bind_eq_ok] at h
  obtain ⟨⟨data, p⟩, hd, size, hsize, hx⟩ := h
  have h1 := NonRes.new_dataSize hx
  have h2 := NonRes.new_data hx
  unfold Attr.nonResidentValueDataSize at hsize
  rw [Res.bind_eq_ok] at hsize
  obtain ⟨_, _, hsize⟩ := hsize
  have h3 : size < U64 := readLE_lt hsize
  refine ⟨?_, by omega⟩
  unfold Attr.nonResidentValueDataAndPosition at hd
  simp only [Res.bind_eq_ok] at hd
  obtain ⟨_, _, off, _, len, hlen, b, hb, hd⟩ := hd
  have h4 : len < U32 := readLE_lt hlen
  cases hd
  rw [h2]
  cases hg : getRange a.recordData (a.offset + off) (a.offset + len) with
  | none => rw [hg] at hb; cases hb
  | some y =>
    rw [hg] at hb
    cases hb
    obtain ⟨_, _, rfl⟩ := getRange_isSome_iff.1 hg
    rw [List.length_take]
    omega

/-- No value is longer than 64 bits can say, and the data runs of one attribute take fewer than 2^32 bytes. -/
theorem Attr.value_small {a : Attr} {d d' : Dev} {v : Val} (h : a.value d = (.ok v, d')) :
    v.rest < U64 ∧ ∀ w, v = .simple (.nonRes w) → w.data.length < U32 := by
  unfold Attr.value at h
  cases hl : a.list with
  | none =>
    rw [hl] at h
    dsimp only at h
    obtain ⟨w, d1, hw, h⟩ := StM.bind_ok_iff.1 h
    cases h
    have hw : a.simpleValue = .ok w := congrArg Prod.fst hw
    unfold Attr.simpleValue at hw
    obtain ⟨b, _, hw⟩ := Res.bind_eq_ok.1 hw
    split at hw
    · obtain ⟨x, hx, hw⟩ := Res.bind_eq_ok.1 hw
      cases hw
      have := Attr.residentValue_small hx
      refine ⟨?_, fun w e => by cases e⟩
      show x.data.length - x.streamPosition < _
      have : U32 ≤ U64 := by decide
      omega
    · obtain ⟨x, hx, hw⟩ := Res.bind_eq_ok.1 hw
      cases hw
      obtain ⟨h1, h2⟩ := Attr.nonResidentValue_small hx
      refine ⟨?_, fun w e => by cases e; exact h1⟩
      show x.st.dataSize - x.st.streamPosition < _
      omega
  | some l =>
    rw [hl] at h
    dsimp only at h
    obtain ⟨size, d1, hs, h⟩ := StM.bind_ok_iff.1 h
    obtain ⟨i, d2, _, h⟩ := StM.bind_ok_iff.1 h
    obtain ⟨t, d3, _, h⟩ := StM.bind_ok_iff.1 h
    obtain ⟨w, d4, hw, h⟩ := StM.bind_ok_iff.1 h
    cases h
    have hs : a.nonResidentValueDataSize = .ok size := congrArg Prod.fst hs
    unfold Attr.nonResidentValueDataSize at hs
    obtain ⟨_, _, hs⟩ := Res.bind_eq_ok.1 hs
    have h3 : size < U64 := readLE_lt hs
    refine ⟨?_, fun w e => by cases e⟩
    show w.st.dataSize - w.st.streamPosition < _
    unfold ALVal.new at hw
    dsimp only at hw
    have hk := ALVal.nextAttribute_kept ⟨a.file.ntfs, l, some l, i, t, size, none, StreamState.new size⟩ d3
    generalize ALVal.nextAttribute _ = q at hk hw
    obtain ⟨x, v', d'⟩ := q
    cases x with
    | ok b =>
      cases hw
      have := hk.size
      dsimp only [StreamState.new] at this
      omega
    | err e => cases hw
    | panic e => cases hw
    | diverge => cases hw

/-! ### `fileinfo` -/

theorem toOffsetDateTime_returns (t : Nat) : (Time.toOffsetDateTime t).Returns := .ite (.ok _) (.panic _)

theorem fileinfoStd_returns (a : Attr) : (fileinfoStd a).1.Returns := by
  have h : (do
      let i ← a.residentStructuredValue StdInfo.structured
      let atime ← Time.toOffsetDateTime i.accessTime
      let ctime ← Time.toOffsetDateTime i.creationTime
      let mtime ← Time.toOffsetDateTime i.modificationTime
      let mmtime ← Time.toOffsetDateTime i.mftRecordModificationTime
      pure (InfoLine.std i [atime, ctime, mtime, mmtime]) : Res InfoLine).Returns :=
    .bind (a.residentStructuredValue_returns StdInfo.structured_comes) fun i _ =>
      .bind (toOffsetDateTime_returns _) fun _ _ => .bind (toOffsetDateTime_returns _) fun _ _ =>
      .bind (toOffsetDateTime_returns _) fun _ _ => .bind (toOffsetDateTime_returns _) fun _ _ => .ok _
  unfold fileinfoStd
  split
  · exact .ok _
  · exact .err _
  · exact .panic _
  · rename_i e; exact absurd e h

theorem FileName.namespace_returns (x : FileName) : x.namespace'.Returns := by
  unfold FileName.namespace'
  repeat' split
  all_goals first | exact .ok _ | exact .panic _ | exact .err _

theorem fileinfoFilename_returns {a : Attr} (ha : a.Sane) (d : Dev) : (fileinfoFilename a d).1.Returns := by
  have h : StM.Comes (do
      let x ← a.structuredValue FileName.structured
      let ns ← StM.lift x.namespace'
      pure (InfoLine.fileName (lossy (u16s x.name)) ns x.parent.fileRecordNumber) : StM Dev InfoLine) :=
    .bind (a.structuredValue_comes FileName.structured_comes ha) fun x _ _ _ =>
      .bind (.lift x.namespace_returns) fun _ _ _ _ => .pure _
  have h := h d
  unfold fileinfoFilename
  generalize (do
      let x ← a.structuredValue FileName.structured
      let ns ← StM.lift x.namespace'
      pure (InfoLine.fileName (lossy (u16s x.name)) ns x.parent.fileRecordNumber) : StM Dev InfoLine) d = q at h
  obtain ⟨r, d'⟩ := q
  cases r with
  | ok l => exact .ok _
  | err e => exact .err _
  | panic p => exact .panic _
  | diverge => exact absurd rfl h

theorem fileinfoData_returns (a : Attr) : (fileinfoData a).1.Returns := by
  have h1 := a.name_returns
  have h2 := a.valueLength_returns
  unfold fileinfoData
  split
  · split
    · exact .ok _
    · exact .err _
    · exact .panic _
    · rename_i e; exact absurd e h2
  · exact .err _
  · exact .panic _
  · rename_i e; exact absurd e h1

theorem fileinfoAttr_returns {a : Attr} (ha : a.Sane) (d : Dev) : (fileinfoAttr a d).1.Returns := by
  have h := a.ty_returns
  unfold fileinfoAttr
  split
  · exact fileinfoStd_returns a
  · exact fileinfoFilename_returns ha d
  · exact fileinfoData_returns a
  · exact .ok _
  · exact .ok _
  · exact .panic _
  · rename_i e; exact absurd e h

theorem fileinfoLoop_returns (fuel : Nat) (out : List InfoLine) (it : Attrs) (d : Dev) (hs : it.Sane)
    (hf : it.left < fuel) : (fileinfoLoop fuel out (it, d)).1.Returns := by
  induction fuel generalizing out it d with
  | zero => omega
  | succ fuel ih =>
    obtain ⟨h1, h2, _, _, h5⟩ := Attrs.next_returns hs d
    unfold fileinfoLoop
    generalize Attrs.next (it, d) = q at h1 h2 h5
    obtain ⟨r, it', d'⟩ := q
    cases r with
    | ok o =>
      cases o with
      | none => exact .ok _
      | some i =>
        obtain ⟨g1, g2⟩ := h5 i rfl
        obtain ⟨t1, t2⟩ := AttrItem.toAttribute_returns g1
        dsimp only at g2 h2 ⊢
        cases ht : i.toAttribute with
        | ok a =>
          dsimp only
          have ha := fileinfoAttr_returns (t2 a ht) d'
          generalize fileinfoAttr a d' = q at ha
          obtain ⟨r, l, d2⟩ := q
          cases r with
          | ok u => exact ih _ it' d2 h2 (by omega)
          | err e => exact .err _
          | panic p => exact .panic _
          | diverge => exact absurd rfl ha
        | err e => exact .err _
        | panic p => exact .panic _
        | diverge => exact absurd ht t1
    | err e => exact .err _
    | panic p => exact .panic _
    | diverge => exact absurd rfl h1

theorem NFile.infoLine_returns (f : NFile) : f.infoLine.Returns :=
  .bind (readLE_returns _ _ _) fun _ _ => .bind (readLE_returns _ _ _) fun _ _ => .bind (readLE_returns _ _ _) fun _ _ =>
    .bind (.bind (.bind (readLE_returns _ _ _) fun _ _ => .ok _) fun _ _ => .ok _) fun _ _ =>
    .bind (readLE_returns _ _ _) fun _ _ => .ok _

theorem NFile.fileinfo_returns (f : NFile) {fuel : Nat} (hf : attrBound f.recordData.length ≤ fuel) (d : Dev) :
    (f.fileinfo fuel d).1.Returns := by
  have h : (do
      let l ← f.infoLine
      let it ← f.attributes
      pure (l, it) : Res (InfoLine × Attrs)).Returns :=
    .bind f.infoLine_returns fun _ _ => .bind f.attributes_returns fun _ _ => .ok _
  unfold NFile.fileinfo
  split
  · rename_i l it e
    obtain ⟨_, _, e⟩ := Res.bind_eq_ok.mp e
    obtain ⟨it', hit, e⟩ := Res.bind_eq_ok.mp e
    cases e
    obtain ⟨h1, h2, h3⟩ := NFile.attributes_sane hit
    refine fileinfoLoop_returns fuel _ it d h1 (Nat.lt_of_lt_of_le ?_ hf)
    unfold Attrs.left attrBound
    rw [h2, h3]
    have : (f.recordData.length - it.raw.start) * (U64 + f.recordData.length + 1) ≤
        f.recordData.length * (U64 + f.recordData.length + 1) := Nat.mul_le_mul_right _ (Nat.sub_le _ _)
    omega
  · exact .err _
  · exact .panic _
  · rename_i e; exact absurd e h

/-! ### `attr` and `attr_runs` -/

theorem attrRuns_returns (nested : Bool) (fuel i : Nat) (r : DataRuns) (h : r.state.previousLcn < U64)
    (hf : r.data.length - r.state.offset < fuel) : (attrRuns nested fuel i r).1.Returns := by
  induction fuel generalizing i r with
  | zero => omega
  | succ fuel ih =>
    unfold attrRuns
    rcases r.next_cases h with ⟨r', e, _⟩ | ⟨x, e⟩ | ⟨l, e, _⟩ | ⟨x, off, l, e, h1, h2, h3, _⟩ <;> rw [e]
    · exact .ok _
    · exact .err _
    · exact .err _
    · exact ih (i + 1) _ h3 (by dsimp only; omega)

theorem Attr.line_returns (a : Attr) (record : Nat) (nested : Bool) : (a.line record nested).Returns :=
  .bind a.inst_returns fun _ _ => .bind a.ty_returns fun _ _ => .bind a.isResident_returns fun _ _ =>
    .bind a.valueLength_returns fun _ _ => .bind a.name_returns fun _ _ => .ok _

theorem attrPrint_returns (withRuns : Bool) {a : Attr} (ha : a.Sane) (record : Nat) (nested : Bool) {fuel : Nat}
    (hf : U32 ≤ fuel) (d : Dev) : (attrPrint withRuns a record nested fuel d).1.Returns := by
  have h1 := a.line_returns record nested
  have h2 := (Attr.value_comes ha).1 d
  have h3 := fun v d' => Attr.value_small (a := a) (d := d) (d' := d') (v := v)
  unfold attrPrint
  split
  · by_cases h : withRuns = true
    · rw [if_pos h]
      generalize a.value d = q at h2 h3
      obtain ⟨r, d'⟩ := q
      split
      · rename_i v' d'' e
        cases e
        have := (h3 _ _ rfl).2 _ rfl
        exact attrRuns_returns nested fuel 0 _ (show (0 : Nat) < U64 by decide)
          (show v'.data.length - 0 < fuel by omega)
      · exact .ok _
      · exact .err _
      · exact .panic _
      · rename_i e; cases e; exact absurd rfl h2
    · rw [if_neg h]; exact .ok _
  · exact .err _
  · exact .panic _
  · rename_i e; exact absurd e h1

theorem attrEntries_returns (withRuns : Bool) (m : Ntfs) (file : NFile) {fuel : Nat} (hf : U32 ≤ fuel) (k : Nat)
    (out : List AttrLine) (l : AttrList) (d : Dev) (hl : l.Sane) (hk : l.remaining < k) :
    (attrEntries withRuns m file fuel k out (l, d)).1.Returns := by
  induction k generalizing out l d with
  | zero => omega
  | succ k ih =>
    obtain ⟨h1, _, h3, _⟩ := AttrList.next_returns hl d
    have h4 := fun l' d' e => C24_progress l l' d d' e
    unfold attrEntries
    generalize AttrList.next (l, d) = q at h1 h3 h4
    obtain ⟨r, l', d'⟩ := q
    cases r with
    | ok o =>
      cases o with
      | none => exact .ok _
      | some e =>
        have h5 := h4 _ _ _ rfl
        dsimp only at h3 ⊢
        split
        · exact ih _ _ _ h3 (by omega)
        · have g1 : StM.Comes (do
              let f ← e.toFile m
              StM.lift (e.toAttribute f) : StM Dev Attr) :=
            .bind (Ntfs.file_fine m _).comes fun f _ _ _ => .lift (e.toAttribute_returns f)
          have g1 := g1 d'
          have g2 : ∀ a d2, (do
              let f ← e.toFile m
              StM.lift (e.toAttribute f) : StM Dev Attr) d' = (.ok a, d2) → a.Sane := by
            intro a d2 h
            obtain ⟨f, d1, _, h⟩ := StM.bind_ok_iff.1 h
            have h : e.toAttribute f = .ok a := congrArg Prod.fst h
            intro l hl
            rw [ListEntry.toAttribute_list h] at hl
            cases hl
          generalize (do
              let f ← e.toFile m
              StM.lift (e.toAttribute f) : StM Dev Attr) d' = q at g1 g2
          obtain ⟨r, d1⟩ := q
          cases r with
          | ok a =>
            dsimp only
            have g3 := attrPrint_returns withRuns (g2 a d1 rfl) e.ref.fileRecordNumber true hf d1
            generalize attrPrint withRuns a e.ref.fileRecordNumber true fuel d1 = q at g3
            obtain ⟨r, o, d2⟩ := q
            cases r with
            | ok u => exact ih _ l' d2 h3 (by omega)
            | err e => exact .err _
            | panic p => exact .panic _
            | diverge => exact absurd rfl g3
          | err e => exact .err _
          | panic p => exact .panic _
          | diverge => exact absurd rfl g1
    | err e => exact .err _
    | panic p => exact .panic _
    | diverge => exact absurd rfl h1

theorem attrOwn_returns (withRuns : Bool) (m : Ntfs) (file : NFile) {a : Attr} (ha : a.list = none) {fuel : Nat}
    (hf : U64 + a.recordData.length < fuel) (out : List AttrLine) (d : Dev) :
    (attrOwn withRuns m file fuel a out d).1.Returns := by
  have hs : a.Sane := fun l hl => by rw [ha] at hl; cases hl
  have hf2 : U32 ≤ fuel := by
    have : U32 ≤ U64 := by decide
    omega
  have h1 := a.ty_returns
  have h2 := attrPrint_returns withRuns hs file.fileRecordNumber false hf2 d
  unfold attrOwn
  split
  · generalize attrPrint withRuns a file.fileRecordNumber false fuel d = q at h2
    obtain ⟨r, o, d1⟩ := q
    cases r with
    | ok u =>
      dsimp only
      split
      · obtain ⟨g1, g2⟩ := Attr.attributeList_comes hs
        have g1 := g1 d1
        have g2 := g2 d1
        have g3 := fun l d2 => Attr.attributeList_size ha (d := d1) (d' := d2) (l := l)
        generalize a.attributeList d1 = q at g1 g2 g3
        obtain ⟨r, d2⟩ := q
        cases r with
        | ok l =>
          have := g3 l d2 rfl
          exact attrEntries_returns withRuns m file hf2 fuel _ l d2 (g2 l d2 rfl) (by omega)
        | err e => exact .err _
        | panic p => exact .panic _
        | diverge => exact absurd rfl g1
      · exact .ok _
    | err e => exact .err _
    | panic p => exact .panic _
    | diverge => exact absurd rfl h2
  · exact .err _
  · exact .panic _
  · rename_i e; exact absurd e h1

theorem attrLoop_returns (withRuns : Bool) (m : Ntfs) (file : NFile) {fuel : Nat} (k : Nat) (out : List AttrLine)
    (it : AttrsRaw) (d : Dev) (hf : U64 + it.file.recordData.length < fuel)
    (hk : it.file.recordData.length - it.start < k) : (attrLoop withRuns m file fuel k out it d).1.Returns := by
  induction k generalizing out it d with
  | zero => omega
  | succ k ih =>
    unfold attrLoop
    rcases it.next_cases with ⟨_, e⟩ | ⟨len, ha, e⟩ | ⟨_, _, e⟩ <;> rw [e]
    · exact .ok _
    · dsimp only
      have h1 := attrOwn_returns withRuns m file (a := ⟨it.file, it.start, none⟩) rfl hf out d
      generalize attrOwn withRuns m file fuel ⟨it.file, it.start, none⟩ out d = q at h1
      obtain ⟨r, o, d'⟩ := q
      cases r with
      | ok u =>
        have h3 := ha.header
        have h4 := ha.inside
        exact ih _ { it with start := it.start + len } d' hf (by dsimp only; omega)
      | err e => exact .err _
      | panic p => exact .panic _
      | diverge => exact absurd rfl h1
    · exact .err _

theorem NFile.attr_returns (f : NFile) (withRuns : Bool) (m : Ntfs) {fuel : Nat}
    (hf : U64 + f.recordData.length < fuel) (d : Dev) : (f.attr withRuns m fuel d).1.Returns := by
  have h := f.attributesRaw_returns
  unfold NFile.attr
  split
  · rename_i it e
    have h1 : it.file = f := by
      unfold NFile.attributesRaw at e
      obtain ⟨_, _, e⟩ := Res.bind_eq_ok.mp e
      obtain ⟨_, _, e⟩ := Res.bind_eq_ok.mp e
      cases e
      rfl
    exact attrLoop_returns withRuns m f fuel [] it d (by rw [h1]; exact hf) (by rw [h1]; omega)
  · exact .err _
  · exact .panic _
  · rename_i e; exact absurd e h

/-! ### The other commands -/

theorem Ntfs.fsinfo_returns (n : Ntfs) (d : Dev) : (n.fsinfo d).1.Returns := by
  have h1 : n.volumeInfo.Comes := StM.Comes.bind (Ntfs.file_fine n 3).comes fun f _ _ _ =>
    .lift (NFile.findResidentStructured_returns VolumeInfo.structured_comes f none)
  have h1 := h1 d
  unfold Ntfs.fsinfo
  dsimp only
  generalize n.volumeInfo d = q at h1
  obtain ⟨r, d1⟩ := q
  cases r with
  | ok v =>
    dsimp only
    have h2 := n.volumeName_comes d1
    generalize n.volumeName d1 = q at h2
    obtain ⟨r, d2⟩ := q
    cases r with
    | ok o => cases o <;> exact .ok _
    | err e => exact .ok _
    | panic p => exact .panic _
    | diverge => exact absurd rfl h2
  | err e => exact .err _
  | panic p => exact .panic _
  | diverge => exact absurd rfl h1

theorem bestLoop_comes (f : NFile) (parent : Nat) {fuel : Nat} (hf : attrBound f.recordData.length ≤ fuel)
    (l : List (Option Namespace)) : (bestLoop f parent fuel l).Comes := by
  induction l with
  | nil => exact .pure _
  | cons ns l ih =>
    refine .bind (f.fileName_comes ns (some parent) hf) fun o _ _ _ => ?_
    cases o with
    | none => exact ih
    | some x => exact .pure _

theorem bestFileName_comes (f : NFile) (parent : Nat) {fuel : Nat} (hf : attrBound f.recordData.length ≤ fuel) :
    (bestFileName f parent fuel).Comes := by
  refine .bind (bestLoop_comes f parent hf _) fun o _ _ _ => ?_
  cases o <;> exact .pure _

theorem IEntry.fileNameKey_returns (e : IEntry) : e.fileNameKey.Returns := by
  refine .bind (IEntry.key_returns FileName.keyFromSlice_returns e) fun o _ => ?_
  cases o
  · exact .panic _
  · exact .ok _

theorem Shell.last_returns (s : Shell) : s.last.Returns := by
  unfold Shell.last
  split
  · exact .ok _
  · exact .panic _

theorem Shell.last_head {s : Shell} {f : NFile} (h : s.last = .ok f) : s.stack.head? = some f ∧ f ∈ s.stack := by
  unfold Shell.last at h
  split at h
  · rename_i e; cases h; rw [e]; exact ⟨rfl, List.mem_cons_self⟩
  · cases h

/-- The search by name in the current directory comes back. -/
def Shell.Searches (s : Shell) (fuel : Nat) (d : Dev) : Prop :=
  ∀ f, s.stack.head? = some f → ∀ ix d', f.directoryIndex fuel d = (.ok ix, d') →
    ∀ name, (ix.findName s.ntfs name fuel d').1.Returns

/-- The sizes of the records of a shell. -/
structure Shell.Sized (s : Shell) : Prop where
  record : s.ntfs.fileRecordSize < U32
  stack : ∀ f ∈ s.stack, f.recordData.length < U32

theorem StM.returns_bind {α β : Type} {p : StM Dev α} {k : α → StM Dev β} {d : Dev} (hp : (p d).1.Returns)
    (hk : ∀ a d', p d = (.ok a, d') → (k a d').1.Returns) : ((p >>= k) d).1.Returns := by
  rw [StM.bind_apply]
  generalize p d = q at hp hk
  obtain ⟨r, d'⟩ := q
  cases r with
  | ok a => exact hk a d' rfl
  | err e => exact .err _
  | panic e => exact .panic _
  | diverge => exact absurd rfl hp

variable {s : Shell} {fuel : Nat}

theorem Shell.Sized.openIndex (hs : s.Sized) (hf : 2 ^ 97 ≤ fuel) :
    ∀ f, s.last = .ok f → (f.directoryIndex fuel).Comes := fun f h =>
  f.directoryIndex_comes (Nat.le_trans (attrBound_le (hs.stack f (Shell.last_head h).2)) hf)

theorem Shell.Sized.parseFileArg (hs : s.Sized) (hf : 2 ^ 97 ≤ fuel) (arg : List Char) (d : Dev)
    (h : arg = [] ∨ arg.head? = some '/' ∨ s.Searches fuel d) : (s.parseFileArg arg fuel d).1.Returns := by
  unfold Shell.parseFileArg
  split
  · exact .ok _
  · rename_i ha
    cases hp : stripPrefix ['/'] arg with
    | some number =>
      dsimp only
      cases parseRecordNumber number with
      | some n => exact StM.Comes.bind (Ntfs.file_fine _ _).comes (fun _ _ _ _ => .pure _) d
      | none => exact .ok _
    | none =>
      dsimp only
      refine StM.returns_bind s.last_returns fun f d1 e1 => ?_
      obtain ⟨e0, rfl⟩ : s.last = .ok f ∧ d = d1 := Prod.mk.inj e1
      refine StM.returns_bind (hs.openIndex hf f e0 d) fun ix d2 e2 => ?_
      refine StM.returns_bind ?_ fun o d3 e3 => ?_
      · rcases h with h | h | h
        · exact absurd h ha
        · exfalso
          cases arg with
          | nil => cases h
          | cons c t =>
            cases h
            unfold stripPrefix at hp
            simp at hp
        · exact h f (Shell.last_head e0).1 ix d2 e2 _
      · cases o with
        | none => exact .ok _
        | some e => exact StM.Comes.bind (IEntry.toFile_comes _ _) (fun _ _ _ _ => .pure _) d3

/-- What `parse_file_arg` finds is a record of the volume. -/
theorem Shell.parseFileArg_file {arg : List Char} {d d' : Dev} {f : NFile}
    (h : s.parseFileArg arg fuel d = (.ok (.ok f), d')) : ∃ k d1 d2, s.ntfs.file k d1 = (.ok f, d2) := by
  unfold Shell.parseFileArg at h
  split at h
  · cases h
  · cases hp : stripPrefix ['/'] arg with
    | some number =>
      rw [hp] at h
      dsimp only at h
      cases hr : parseRecordNumber number with
      | some n =>
        rw [hr] at h
        obtain ⟨g, d1, hg, h⟩ := StM.bind_ok_iff.1 h
        cases h
        exact ⟨_, _, _, hg⟩
      | none => rw [hr] at h; cases h
    | none =>
      rw [hp] at h
      obtain ⟨dir, d1, _, h⟩ := StM.bind_ok_iff.1 h
      obtain ⟨ix, d2, _, h⟩ := StM.bind_ok_iff.1 h
      obtain ⟨o, d3, _, h⟩ := StM.bind_ok_iff.1 h
      cases o with
      | none => cases h
      | some e =>
        obtain ⟨g, d4, hg, h⟩ := StM.bind_ok_iff.1 h
        cases h
        obtain ⟨r, d5, _, hg⟩ := StM.bind_ok_iff.1 hg
        exact ⟨_, _, _, hg⟩

theorem Shell.Sized.found (hs : s.Sized) {arg : List Char} {d d' : Dev} {f : NFile}
    (h : s.parseFileArg arg fuel d = (.ok (.ok f), d')) : f.recordData.length < U32 := by
  obtain ⟨k, d1, d2, h⟩ := Shell.parseFileArg_file h
  rw [Ntfs.file_size h]
  exact hs.record

theorem Shell.Sized.attr (hs : s.Sized) (hf : 2 ^ 97 ≤ fuel) (withRuns : Bool) (arg : List Char) (d : Dev)
    (h : arg = [] ∨ arg.head? = some '/' ∨ s.Searches fuel d) : (s.attr withRuns arg fuel d).1.Returns := by
  have h1 := hs.parseFileArg hf arg d h
  have h2 := fun f d' => hs.found (fuel := fuel) (arg := arg) (d := d) (f := f) (d' := d')
  unfold Shell.attr
  generalize s.parseFileArg arg fuel d = q at h1 h2
  obtain ⟨r, d'⟩ := q
  cases r with
  | ok o =>
    cases o with
    | error m => exact .ok _
    | ok f =>
      dsimp only
      have h3 := f.attr_returns withRuns s.ntfs (fuel := fuel) (by
        have := h2 f d' rfl
        have : U64 + U32 ≤ 2 ^ 97 := by decide
        omega) d'
      generalize f.attr withRuns s.ntfs fuel d' = q at h3
      obtain ⟨r, l, d2⟩ := q
      cases r with
      | ok u => exact .ok _
      | err e => exact .err _
      | panic e => exact .panic _
      | diverge => exact absurd rfl h3
  | err e => exact .err _
  | panic e => exact .panic _
  | diverge => exact absurd rfl h1

theorem Shell.Sized.fileinfo (hs : s.Sized) (hf : 2 ^ 97 ≤ fuel) (arg : List Char) (d : Dev)
    (h : arg = [] ∨ arg.head? = some '/' ∨ s.Searches fuel d) : (s.fileinfo arg fuel d).1.Returns := by
  have h1 := hs.parseFileArg hf arg d h
  have h2 := fun f d' => hs.found (fuel := fuel) (arg := arg) (d := d) (f := f) (d' := d')
  unfold Shell.fileinfo
  generalize s.parseFileArg arg fuel d = q at h1 h2
  obtain ⟨r, d'⟩ := q
  cases r with
  | ok o =>
    cases o with
    | error m => exact .ok _
    | ok f =>
      dsimp only
      have h3 := f.fileinfo_returns (Nat.le_trans (attrBound_le (h2 f d' rfl)) hf) d'
      generalize f.fileinfo fuel d' = q at h3
      obtain ⟨r, l, d2⟩ := q
      cases r with
      | ok u => exact .ok _
      | err e => exact .err _
      | panic e => exact .panic _
      | diverge => exact absurd rfl h3
  | err e => exact .err _
  | panic e => exact .panic _
  | diverge => exact absurd rfl h1

theorem Shell.Sized.openData (hs : s.Sized) (hf : 2 ^ 97 ≤ fuel) (file stream : List Char) (d : Dev)
    (h : file = [] ∨ file.head? = some '/' ∨ s.Searches fuel d) :
    (s.openData file stream fuel d).1.Returns ∧
      ∀ v d', s.openData file stream fuel d = (.ok (.ok v), d') → v.Sane ∧ v.rest < U64 := by
  constructor
  · refine StM.returns_bind (hs.parseFileArg hf file d h) fun o d1 e1 => ?_
    cases o with
    | error m => exact .ok _
    | ok f =>
      refine StM.Comes.bind (f.dataItem_comes _ (Nat.le_trans (attrBound_le (hs.found e1)) hf)) (fun o d2 d3 e2 => ?_) d1
      cases o with
      | none => exact .pure _
      | some i =>
        obtain ⟨t1, t2⟩ := AttrItem.toAttribute_returns (NFile.dataItem_sane e2)
        refine .bind (.lift t1) fun a _ _ e3 => .bind (Attr.value_comes (t2 a (congrArg Prod.fst e3))).1 fun _ _ _ _ =>
          .pure _
  · intro v d' e
    obtain ⟨o, d1, e1, e⟩ := StM.bind_ok_iff.1 e
    cases o with
    | error m => cases e
    | ok f =>
      obtain ⟨o, d2, e2, e⟩ := StM.bind_ok_iff.1 e
      cases o with
      | none => cases e
      | some i =>
        obtain ⟨t1, t2⟩ := AttrItem.toAttribute_returns (NFile.dataItem_sane e2)
        obtain ⟨a, d3, e3, e⟩ := StM.bind_ok_iff.1 e
        obtain ⟨w, d4, e4, e⟩ := StM.bind_ok_iff.1 e
        cases e
        exact ⟨(Attr.value_comes (t2 a (congrArg Prod.fst e3))).2 _ _ _ e4, (Attr.value_small e4).1⟩

theorem Shell.Sized.getShown (hs : s.Sized) (hf : 2 ^ 97 ≤ fuel) (arg : List Char) (ex : List Char → Bool) (d : Dev)
    (h : (splitStream arg).1 = [] ∨ (splitStream arg).1.head? = some '/' ∨ s.Searches fuel d) :
    (s.getShown arg ex fuel d).1.Returns := by
  have h1 := hs.openData hf (splitStream arg).1 (splitStream arg).2 d h
  unfold Shell.getShown
  generalize splitStream arg = p at h1
  obtain ⟨file, stream⟩ := p
  dsimp only at h1 ⊢
  split
  · exact .ok _
  generalize s.openData file stream fuel d = q at h1
  obtain ⟨h1, h2⟩ := h1
  obtain ⟨r, d'⟩ := q
  cases r with
  | ok o =>
    cases o with
    | error m => exact .ok _
    | ok v =>
      obtain ⟨g1, g2⟩ := h2 v d' rfl
      have h3 := copyLoop_returns fuel v d' (List.replicate 4096 0) [] g1 (by
        have : U64 ≤ 2 ^ 97 := by decide
        omega)
      dsimp only
      generalize copyLoop Val.readFn fuel (v, d') (List.replicate 4096 0) [] = q at h3
      obtain ⟨r, ⟨v', d2⟩, b⟩ := q
      cases r with
      | ok u => exact .ok _
      | err e => exact .err _
      | panic e => exact .panic _
      | diverge => exact absurd rfl h3
  | err e => exact .err _
  | panic e => exact .panic _
  | diverge => exact absurd rfl h1

theorem Shell.Sized.cd (hs : s.Sized) (hf : 2 ^ 97 ≤ fuel) (arg : List Char) (d : Dev)
    (h : arg = [] ∨ arg = ['.', '.'] ∨ s.Searches fuel d) : (s.cd arg fuel d).1.Returns := by
  unfold Shell.cd
  split
  · exact .ok _
  split
  · split <;> exact .ok _
  rename_i h1 h2
  have h : s.Searches fuel d := by
    rcases h with h | h | h
    · exact absurd h h1
    · exact absurd h h2
    · exact h
  unfold Shell.cdInto
  refine StM.returns_bind s.last_returns fun f d1 e1 => ?_
  obtain ⟨e0, rfl⟩ : s.last = .ok f ∧ d = d1 := Prod.mk.inj e1
  refine StM.returns_bind (hs.openIndex hf f e0 d) fun ix d2 e2 => ?_
  refine StM.returns_bind (h f (Shell.last_head e0).1 ix d2 e2 _) fun o d3 e3 => ?_
  cases o with
  | none => exact .ok _
  | some e =>
    refine StM.Comes.bind (.lift e.fileNameKey_returns) (fun k _ _ _ => .ite (.pure _)
      (.bind (IEntry.toFile_comes _ _) fun g _ _ hg => ?_)) d3
    obtain ⟨r, d5, _, hg⟩ := StM.bind_ok_iff.1 hg
    refine .bind (bestFileName_comes g _ (Nat.le_trans (attrBound_le ?_) hf)) fun o _ _ _ => ?_
    · rw [Ntfs.file_size hg]; exact hs.record
    · cases o <;> exact .pure _

/-- A command is over if what it does is over. -/
theorem shownResult_returns {α : Type} {r : Res (Except ShellMsg α)} (h : r.Returns) (out : List TermLine) :
    (shownResult r out).1.Returns := by
  unfold shownResult
  split
  · exact .ok _
  · exact .ok _
  · exact .ok _
  · exact .panic _
  · exact absurd rfl h

end NT
