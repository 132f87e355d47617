import Verif.Lemmas.TameIndex
import Verif.Model.ShellMain
import Verif.Props.C62_FileInfo

/-! No panic on harmless volumes: what the commands of the shell do with a file. -/

namespace NT

open Spec

/-- The outcome of a command that prints. -/
def Prints {α β : Type} (img : Bytes) (x : Res α × β × Dev) : Prop := x.1.NoPanic ∧ x.2.2.Has img

variable {n : Vol}

/-! ### `get` -/

theorem copyLoop_tame {σ : Type} {I : σ → Prop} {read : ReadFn σ} (h : read.Tame I) (fuel : Nat) (s : σ)
    (buf out : Bytes) (hs : I s) : (copyLoop read fuel s buf out).1.NoPanic ∧ I (copyLoop read fuel s buf out).2.1 := by
  induction fuel generalizing s buf out with
  | zero => exact ⟨Res.noPanic_diverge, hs⟩
  | succ fuel ih =>
    unfold copyLoop
    obtain ⟨h1, h2, h3, h4⟩ := h s buf hs
    generalize read s buf = q at h1 h2 h3 h4
    obtain ⟨r, s', buf'⟩ := q
    cases r with
    | ok k =>
      dsimp only at *
      split
      · exact ⟨Res.noPanic_ok _, h2⟩
      · rw [if_pos (by rw [h3]; exact h4 k rfl)]
        exact ih s' _ _ h2
    | err e => exact ⟨Res.noPanic_err _, h2⟩
    | panic p => exact absurd rfl (h1 p)
    | diverge => exact ⟨Res.noPanic_diverge, h2⟩

/-! ### `fileinfo` -/

theorem StdInfo.structured_times : StdInfo.structured.Tame fun i =>
    i.accessTime < U64 ∧ i.creationTime < U64 ∧ i.modificationTime < U64 ∧ i.mftRecordModificationTime < U64 := by
  intro σ I re h p len
  have key : ∀ {b : Bytes} {i : StdInfo}, StdInfo.ofBytes1 b = .ok i →
      i.accessTime < U64 ∧ i.creationTime < U64 ∧ i.modificationTime < U64 ∧ i.mftRecordModificationTime < U64 := by
    intro b i e
    unfold StdInfo.ofBytes1 at e
    obtain ⟨_, h1, e⟩ := Res.bind_eq_ok.mp e
    obtain ⟨_, h2, e⟩ := Res.bind_eq_ok.mp e
    obtain ⟨_, h3, e⟩ := Res.bind_eq_ok.mp e
    obtain ⟨_, h4, e⟩ := Res.bind_eq_ok.mp e
    obtain ⟨_, _, e⟩ := Res.bind_eq_ok.mp e
    cases e
    have h1 := readLE_lt h1
    have h2 := readLE_lt h2
    have h3 := readLE_lt h3
    have h4 := readLE_lt h4
    exact ⟨by simpa using h4, by simpa using h1, by simpa using h2, by simpa using h3⟩
  refine .ite (fun _ => .fail _) fun _ => .bind (h 36) fun b hb => .bind (Q := fun i => i.accessTime < U64 ∧
    i.creationTime < U64 ∧ i.modificationTime < U64 ∧ i.mftRecordModificationTime < U64)
    (.lift ?_ fun i e => key e) fun _ hi => .ite (fun _ => .bind (h 36) fun b hb => .bind (Q := fun _ => True)
    (.lift ?_ fun _ _ => trivial) fun _ _ => .pure hi) fun _ => .pure hi
  · exact .bind (readLE_noPanic (by omega)) fun _ _ => .bind (readLE_noPanic (by omega)) fun _ _ =>
      .bind (readLE_noPanic (by omega)) fun _ _ => .bind (readLE_noPanic (by omega)) fun _ _ =>
      .bind (readLE_noPanic (by omega)) fun _ _ => Res.noPanic_ok _
  · exact .bind (readLE_noPanic (by omega)) fun _ _ => .bind (readLE_noPanic (by omega)) fun _ _ =>
      .bind (readLE_noPanic (by omega)) fun _ _ => .bind (readLE_noPanic (by omega)) fun _ _ =>
      .bind (readLE_noPanic (by omega)) fun _ _ => .bind (readLE_noPanic (by omega)) fun _ _ =>
      .bind (readLE_noPanic (by omega)) fun _ _ => Res.noPanic_ok _

theorem toOffsetDateTime_noPanic {t : Nat} (h : t < U64) : (Time.toOffsetDateTime t).NoPanic := by
  rw [Time.toOffsetDateTime_eq h]
  exact Res.noPanic_ok _

theorem fileinfoStd_tame {a : Attr} (ha : a.Tame n) : (fileinfoStd a).1.NoPanic := by
  have hs := Attr.residentStructuredValue_tame StdInfo.structured_times ha
  have h : (do
      let i ← a.residentStructuredValue StdInfo.structured
      let atime ← Time.toOffsetDateTime i.accessTime
      let ctime ← Time.toOffsetDateTime i.creationTime
      let mtime ← Time.toOffsetDateTime i.modificationTime
      let mmtime ← Time.toOffsetDateTime i.mftRecordModificationTime
      pure (InfoLine.std i [atime, ctime, mtime, mmtime]) : Res InfoLine).NoPanic :=
    .bind hs.1 fun i e => .bind (toOffsetDateTime_noPanic (hs.2 i e).1) fun _ _ =>
      .bind (toOffsetDateTime_noPanic (hs.2 i e).2.1) fun _ _ =>
      .bind (toOffsetDateTime_noPanic (hs.2 i e).2.2.1) fun _ _ =>
      .bind (toOffsetDateTime_noPanic (hs.2 i e).2.2.2) fun _ _ => Res.noPanic_ok _
  unfold fileinfoStd
  split
  · exact Res.noPanic_ok _
  · exact Res.noPanic_err _
  · rename_i p e; exact absurd e (h p)
  · exact Res.noPanic_diverge

theorem fileinfoFilename_tame (H : n.Harmless) {a : Attr} (ha : a.Tame n) {d : Dev} (hd : d.Has n.img) :
    Prints n.img (fileinfoFilename a d) := by
  have h : StM.Tame (Dev.Has n.img) (do
      let x ← a.structuredValue FileName.structured
      let ns ← StM.lift x.namespace'
      pure (InfoLine.fileName (lossy (u16s x.name)) ns x.parent.fileRecordNumber) : StM Dev InfoLine) fun _ => True :=
    .bind (Attr.structuredValue_tame FileName.structured_tame H ha) fun x hx =>
      .bind (Q := fun _ => True) (.lift hx.namespace' fun _ _ => trivial) fun _ _ => .pure trivial
  have h := h d hd
  unfold fileinfoFilename
  generalize (do
      let x ← a.structuredValue FileName.structured
      let ns ← StM.lift x.namespace'
      pure (InfoLine.fileName (lossy (u16s x.name)) ns x.parent.fileRecordNumber) : StM Dev InfoLine) d = q at h
  obtain ⟨r, d'⟩ := q
  cases r with
  | ok l => exact ⟨Res.noPanic_ok _, h.keeps⟩
  | err e => exact ⟨Res.noPanic_err _, h.keeps⟩
  | panic p => exact h.not_panic
  | diverge => exact ⟨Res.noPanic_diverge, h.keeps⟩

theorem fileinfoData_tame {a : Attr} (ha : a.Tame n) : (fileinfoData a).1.NoPanic := by
  have h1 := ha.name
  have h2 := ha.simpleValue_noPanic.2
  unfold fileinfoData
  split
  · split
    · exact Res.noPanic_ok _
    · exact Res.noPanic_err _
    · rename_i p e; exact absurd e (h2 p)
    · exact Res.noPanic_diverge
  · exact Res.noPanic_err _
  · rename_i p e; exact absurd e (h1 p)
  · exact Res.noPanic_diverge

theorem fileinfoAttr_tame (H : n.Harmless) {a : Attr} (ha : a.Tame n) {d : Dev} (hd : d.Has n.img) :
    Prints n.img (fileinfoAttr a d) := by
  have h := ha.ty
  unfold fileinfoAttr
  split
  · exact ⟨fileinfoStd_tame ha, hd⟩
  · exact fileinfoFilename_tame H ha hd
  · exact ⟨fileinfoData_tame ha, hd⟩
  · exact ⟨Res.noPanic_ok _, hd⟩
  · exact ⟨Res.noPanic_ok _, hd⟩
  · rename_i p e; exact absurd e (h p)
  · exact ⟨Res.noPanic_diverge, hd⟩

theorem fileinfoLoop_tame (H : n.Harmless) (fuel : Nat) (out : List InfoLine) (s : Attrs × Dev)
    (hs : With (Attrs.Tame n) n.img s) : Prints n.img (fileinfoLoop fuel out s) := by
  induction fuel generalizing out s with
  | zero => exact ⟨Res.noPanic_diverge, hs.2⟩
  | succ fuel ih =>
    have h := Attrs.next_tame H s hs
    unfold fileinfoLoop
    generalize Attrs.next s = q at h
    obtain ⟨r, it, d⟩ := q
    cases r with
    | ok o =>
      cases o with
      | none => exact ⟨Res.noPanic_ok _, h.keeps.2⟩
      | some i =>
        have hi := h.val _ rfl i rfl
        dsimp only
        rw [hi.toAttribute]
        dsimp only
        have ha := fileinfoAttr_tame H hi h.keeps.2
        dsimp only at ha
        generalize fileinfoAttr i.theAttr d = q at ha
        obtain ⟨r, l, d'⟩ := q
        cases r with
        | ok u => exact ih _ (it, d') ⟨h.keeps.1, ha.2⟩
        | err e => exact ⟨Res.noPanic_err _, ha.2⟩
        | panic p => exact absurd rfl (ha.1 p)
        | diverge => exact ⟨Res.noPanic_diverge, ha.2⟩
    | err e => exact ⟨Res.noPanic_err _, h.keeps.2⟩
    | panic p => exact h.not_panic
    | diverge => exact ⟨Res.noPanic_diverge, h.keeps.2⟩

theorem NFile.fileinfo_tame (H : n.Harmless) {f : NFile} (hf : f.Tame n) (fuel : Nat) {d : Dev} (hd : d.Has n.img) :
    Prints n.img (f.fileinfo fuel d) := by
  have hm := hf.min
  have ha := NFile.attributes_tame hf
  have h1 : f.infoLine.NoPanic :=
    .bind (readLE_noPanic (by omega)) fun _ _ => .bind (readLE_noPanic (by omega)) fun _ _ =>
      .bind (readLE_noPanic (by omega)) fun _ _ => .bind (.bind (.bind (readLE_noPanic (by omega)) fun _ _ =>
        Res.noPanic_ok _) fun _ _ => Res.noPanic_ok _) fun _ _ => .bind (readLE_noPanic (by omega)) fun _ _ =>
      Res.noPanic_ok _
  have h2 : (do
      let l ← f.infoLine
      let it ← f.attributes
      pure (l, it) : Res (InfoLine × Attrs)).NoPanic := .bind h1 fun _ _ => .bind ha.1 fun _ _ => Res.noPanic_ok _
  unfold NFile.fileinfo
  split
  · rename_i l it e
    obtain ⟨_, _, e⟩ := Res.bind_eq_ok.mp e
    obtain ⟨it', hit, e⟩ := Res.bind_eq_ok.mp e
    cases e
    exact fileinfoLoop_tame H fuel _ (it, d) ⟨ha.2 it hit, hd⟩
  · exact ⟨Res.noPanic_err _, hd⟩
  · rename_i p e; exact absurd e (h2 p)
  · exact ⟨Res.noPanic_diverge, hd⟩

/-! ### `attr` and `attr_runs` -/

theorem attrRuns_tame (nested : Bool) (fuel i : Nat) {r : DataRuns} (h : r.Tame) :
    (attrRuns nested fuel i r).1.NoPanic := by
  induction fuel generalizing i r with
  | zero => exact Res.noPanic_diverge
  | succ fuel ih =>
    have h1 := DataRuns.next_noPanic h.lcn
    have h2 := h.next
    unfold attrRuns
    generalize r.next = q at h1 h2
    obtain ⟨o, r'⟩ := q
    cases o with
    | none => exact Res.noPanic_ok _
    | some x =>
      cases x with
      | ok x => exact ih (i + 1) h2
      | err e => exact Res.noPanic_err _
      | panic p => exact absurd rfl (h1 _ rfl p)
      | diverge => exact Res.noPanic_diverge

theorem Attr.line_tame {a : Attr} (ha : a.Tame n) (record : Nat) (nested : Bool) : (a.line record nested).NoPanic :=
  .bind ha.inst fun _ _ => .bind ha.ty fun _ _ => .bind (by rw [ha.isResident]; exact Res.noPanic_ok _) fun _ _ =>
    .bind ha.simpleValue_noPanic.2 fun _ _ => .bind ha.name fun _ _ => Res.noPanic_ok _

theorem attrPrint_tame (H : n.Harmless) (withRuns : Bool) {a : Attr} (ha : a.Tame n) (record : Nat) (nested : Bool)
    (fuel : Nat) {d : Dev} (hd : d.Has n.img) : Prints n.img (attrPrint withRuns a record nested fuel d) := by
  have h1 := Attr.line_tame ha record nested
  have h2 := Attr.value_tame H ha d hd
  unfold attrPrint
  split
  · refine (if h : withRuns = true then ?_ else ?_)
    · rw [if_pos h]
      generalize a.value d = q at h2
      obtain ⟨r, d'⟩ := q
      cases r with
      | ok v =>
        have hv := h2.val v rfl
        split
        · rename_i v' d'' e
          cases e
          exact ⟨attrRuns_tame nested fuel 0 ⟨show (0 : Nat) < U64 by decide, NonRes.Bounded.fresh hv⟩, h2.keeps⟩
        · rename_i e; cases e; exact ⟨Res.noPanic_ok _, h2.keeps⟩
        · rename_i e; cases e
        · rename_i e; cases e
        · rename_i e; cases e
      | err e => exact ⟨Res.noPanic_err _, h2.keeps⟩
      | panic p => exact h2.not_panic
      | diverge => exact ⟨Res.noPanic_diverge, h2.keeps⟩
    · rw [if_neg h]
      exact ⟨Res.noPanic_ok _, hd⟩
  · exact ⟨Res.noPanic_err _, hd⟩
  · rename_i p e; exact absurd e (h1 p)
  · exact ⟨Res.noPanic_diverge, hd⟩

theorem attrEntries_tame (H : n.Harmless) (withRuns : Bool) {m : Ntfs} (hm : n.ntfs.Like m) (file : NFile)
    (fuel k : Nat) (out : List AttrLine) (s : AttrList × Dev) (hs : With AttrList.Tame n.img s) :
    Prints n.img (attrEntries withRuns m file fuel k out s) := by
  induction k generalizing out s with
  | zero => exact ⟨Res.noPanic_diverge, hs.2⟩
  | succ k ih =>
    have h := AttrList.next_tame n.img s hs
    unfold attrEntries
    generalize AttrList.next s = q at h
    obtain ⟨r, l, d⟩ := q
    cases r with
    | ok o =>
      cases o with
      | none => exact ⟨Res.noPanic_ok _, h.keeps.2⟩
      | some e =>
        dsimp only
        split
        · exact ih _ _ h.keeps
        · have h2 : StM.Tame (Dev.Has n.img) (do
              let f ← e.toFile m
              StM.lift (e.toAttribute f) : StM Dev Attr) fun a => a.Tame n :=
            .bind (Ntfs.file_tame H hm e.ref.fileRecordNumber) fun f hf =>
              .lift (ListEntry.toAttribute_tame hf.1 hf.2.1).1 fun a e => ((ListEntry.toAttribute_tame hf.1 hf.2.1).2 a e).1
          have h2 := h2 d h.keeps.2
          generalize (do
              let f ← e.toFile m
              StM.lift (e.toAttribute f) : StM Dev Attr) d = q at h2
          obtain ⟨r, d1⟩ := q
          cases r with
          | ok a =>
            dsimp only
            have h3 := attrPrint_tame H withRuns (h2.val a rfl) e.ref.fileRecordNumber true fuel h2.keeps
            dsimp only at h3
            generalize attrPrint withRuns a e.ref.fileRecordNumber true fuel d1 = q at h3
            obtain ⟨r, o, d2⟩ := q
            cases r with
            | ok u => exact ih _ (l, d2) ⟨h.keeps.1, h3.2⟩
            | err e => exact ⟨Res.noPanic_err _, h3.2⟩
            | panic p => exact absurd rfl (h3.1 p)
            | diverge => exact ⟨Res.noPanic_diverge, h3.2⟩
          | err e => exact ⟨Res.noPanic_err _, h2.keeps⟩
          | panic p => exact h2.not_panic
          | diverge => exact ⟨Res.noPanic_diverge, h2.keeps⟩
    | err e => exact ⟨Res.noPanic_err _, h.keeps.2⟩
    | panic p => exact h.not_panic
    | diverge => exact ⟨Res.noPanic_diverge, h.keeps.2⟩

theorem attrOwn_tame (H : n.Harmless) (withRuns : Bool) {m : Ntfs} (hm : n.ntfs.Like m) (file : NFile)
    (fuel : Nat) {a : Attr} (ha : a.Tame n) (out : List AttrLine) {d : Dev} (hd : d.Has n.img) :
    Prints n.img (attrOwn withRuns m file fuel a out d) := by
  have h1 := ha.ty
  have h2 := attrPrint_tame H withRuns ha file.fileRecordNumber false fuel hd
  unfold attrOwn
  split
  · rename_i t _
    generalize attrPrint withRuns a file.fileRecordNumber false fuel d = q at h2
    obtain ⟨r, o, d1⟩ := q
    cases r with
    | ok u =>
      dsimp only
      split
      · have h3 := Attr.attributeList_tame H ha d1 h2.2
        generalize a.attributeList d1 = q at h3
        obtain ⟨r, d2⟩ := q
        cases r with
        | ok l => exact attrEntries_tame H withRuns hm file fuel fuel _ (l, d2) ⟨h3.val l rfl, h3.keeps⟩
        | err e => exact ⟨Res.noPanic_err _, h3.keeps⟩
        | panic p => exact h3.not_panic
        | diverge => exact ⟨Res.noPanic_diverge, h3.keeps⟩
      · exact ⟨Res.noPanic_ok _, h2.2⟩
    | err e => exact ⟨Res.noPanic_err _, h2.2⟩
    | panic p => exact absurd rfl (h2.1 p)
    | diverge => exact ⟨Res.noPanic_diverge, h2.2⟩
  · exact ⟨Res.noPanic_err _, hd⟩
  · rename_i p e; exact absurd e (h1 p)
  · exact ⟨Res.noPanic_diverge, hd⟩

theorem attrLoop_tame (H : n.Harmless) (withRuns : Bool) {m : Ntfs} (hm : n.ntfs.Like m) (file : NFile)
    (fuel k : Nat) (out : List AttrLine) {it : AttrsRaw} (hit : it.Tame n) {d : Dev} (hd : d.Has n.img) :
    Prints n.img (attrLoop withRuns m file fuel k out it d) := by
  induction k generalizing out it d with
  | zero => exact ⟨Res.noPanic_diverge, hd⟩
  | succ k ih =>
    obtain ⟨h1, _, h2⟩ := AttrsRaw.next_tame hit
    unfold attrLoop
    generalize it.next = q at h1 h2
    obtain ⟨o, it'⟩ := q
    cases o with
    | none => exact ⟨Res.noPanic_ok _, hd⟩
    | some r =>
      have h2 := h2 r rfl
      cases r with
      | ok a =>
        have h3 := attrOwn_tame H withRuns hm file fuel (h2.2 a rfl).1 out hd
        dsimp only
        generalize attrOwn withRuns m file fuel a out d = q at h3
        obtain ⟨r, o, d'⟩ := q
        cases r with
        | ok u => exact ih _ h1 h3.2
        | err e => exact h3
        | panic p => exact h3
        | diverge => exact h3
      | err e => exact ⟨Res.noPanic_err _, hd⟩
      | panic p => exact absurd rfl (h2.1 p)
      | diverge => exact ⟨Res.noPanic_diverge, hd⟩

theorem NFile.attr_tame (H : n.Harmless) (withRuns : Bool) {m : Ntfs} (hm : n.ntfs.Like m) {f : NFile} (hf : f.Tame n)
    (fuel : Nat) {d : Dev} (hd : d.Has n.img) : Prints n.img (f.attr withRuns m fuel d) := by
  have h := NFile.attributesRaw_tame hf
  unfold NFile.attr
  split
  · rename_i it e
    exact attrLoop_tame H withRuns hm f fuel fuel [] (h.2 it e).1 hd
  · exact ⟨Res.noPanic_err _, hd⟩
  · rename_i p e; exact absurd e (h.1 p)
  · exact ⟨Res.noPanic_diverge, hd⟩

/-! ### `fsinfo` -/

theorem Ntfs.fsinfo_tame (H : n.Harmless) {m : Ntfs} (hm : n.ntfs.Like m) {d : Dev} (hd : d.Has n.img) :
    Prints n.img (m.fsinfo d) := by
  have h := Ntfs.volumeInfo_tame H hm d hd
  unfold Ntfs.fsinfo
  generalize m.volumeInfo d = q at h
  obtain ⟨r, d1⟩ := q
  cases r with
  | ok v =>
    dsimp only
    have h2 := Ntfs.volumeName_tame H hm d1 h.keeps
    generalize m.volumeName d1 = q at h2
    obtain ⟨r, d2⟩ := q
    cases r with
    | ok o => cases o <;> exact ⟨Res.noPanic_ok _, h2.keeps⟩
    | err e => exact ⟨Res.noPanic_ok _, h2.keeps⟩
    | panic p => exact h2.not_panic
    | diverge => exact ⟨Res.noPanic_diverge, h2.keeps⟩
  | err e => exact ⟨Res.noPanic_err _, h.keeps⟩
  | panic p => exact h.not_panic
  | diverge => exact ⟨Res.noPanic_diverge, h.keeps⟩

end NT
