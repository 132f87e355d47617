import Verif.Lemmas.TameVal
import Verif.Model.FileOps

/-! No panic on harmless volumes: structured values, and the lookups over the attributes of a file. -/

namespace NT

open Spec

/-! ### Structured values -/

/-- Decoding does not panic, whatever the reader delivers, and the result has `Q`. -/
def Structured.Tame {α : Type} (S : Structured α) (Q : α → Prop) : Prop :=
  ∀ (σ : Type) (I : σ → Prop) (re : Nat → StM σ Bytes), (∀ n, StM.Tame I (re n) fun b => b.length = n) →
    ∀ p len, StM.Tame I (S.new re p len) Q

theorem StdInfo.structured_tame : StdInfo.structured.Tame fun _ => True := by
  intro σ I re h p len
  refine .ite (fun _ => .fail _) fun _ => .bind (h 36) fun b hb => .bind (Q := fun _ => True)
    (.lift ?_ fun _ _ => trivial) fun _ _ => .ite (fun _ => .bind (h 36) fun b hb => .bind (Q := fun _ => True)
    (.lift ?_ fun _ _ => trivial) fun _ _ => .pure trivial) fun _ => .pure trivial
  · exact .bind (readLE_noPanic (by omega)) fun _ _ => .bind (readLE_noPanic (by omega)) fun _ _ =>
      .bind (readLE_noPanic (by omega)) fun _ _ => .bind (readLE_noPanic (by omega)) fun _ _ =>
      .bind (readLE_noPanic (by omega)) fun _ _ => Res.noPanic_ok _
  · exact .bind (readLE_noPanic (by omega)) fun _ _ => .bind (readLE_noPanic (by omega)) fun _ _ =>
      .bind (readLE_noPanic (by omega)) fun _ _ => .bind (readLE_noPanic (by omega)) fun _ _ =>
      .bind (readLE_noPanic (by omega)) fun _ _ => .bind (readLE_noPanic (by omega)) fun _ _ =>
      .bind (readLE_noPanic (by omega)) fun _ _ => Res.noPanic_ok _

/-- A file name with one of the four namespaces. -/
def FileName.Tame (f : FileName) : Prop := Namespace.ofCode f.namespaceCode ≠ none

theorem FileName.Tame.namespace' {f : FileName} (h : f.Tame) : f.namespace'.NoPanic := by
  unfold FileName.namespace'
  unfold FileName.Tame at h
  cases hc : Namespace.ofCode f.namespaceCode with
  | none => exact absurd hc h
  | some n => exact Res.noPanic_ok _

theorem FileName.structured_tame : FileName.structured.Tame FileName.Tame := by
  intro σ I re h p len
  refine .ite (fun _ => .fail _) fun _ => .bind (h 66) fun b hb => .bind (Q := fun _ => True)
    (.lift ?_ fun _ _ => trivial) fun f _ => .bind (Q := fun _ => True) (.lift ?_ fun _ _ => trivial) fun _ _ =>
    .bind (Q := fun _ => f.Tame) (.lift ?_ ?_) fun _ hf => .bind (h _) fun _ _ => .pure hf
  · exact .bind (idxRange_noPanic (by omega) (by omega)) fun _ _ => .bind (readLE_noPanic (by omega)) fun _ _ =>
      .bind (readLE_noPanic (by omega)) fun _ _ => .bind (readLE_noPanic (by omega)) fun _ _ =>
      .bind (readLE_noPanic (by omega)) fun _ _ => .bind (readLE_noPanic (by omega)) fun _ _ =>
      .bind (readLE_noPanic (by omega)) fun _ _ => .bind (readLE_noPanic (by omega)) fun _ _ =>
      .bind (readLE_noPanic (by omega)) fun _ _ => .bind (idxByte_noPanic (by omega)) fun _ _ =>
      .bind (idxByte_noPanic (by omega)) fun _ _ => Res.noPanic_ok _
  · exact .ite (fun _ => Res.noPanic_err _) fun _ => Res.noPanic_ok _
  · unfold FileName.validateNamespace
    cases Namespace.ofCode f.namespaceCode with
    | none => exact Res.noPanic_err _
    | some n => exact Res.noPanic_ok _
  · intro u hu
    unfold FileName.validateNamespace at hu
    unfold FileName.Tame
    cases hc : Namespace.ofCode f.namespaceCode with
    | none => rw [hc] at hu; cases hu
    | some n => exact fun h => by cases h

theorem VolumeInfo.structured_tame : VolumeInfo.structured.Tame fun _ => True := by
  intro σ I re h p len
  refine .ite (fun _ => .fail _) fun _ => .bind (h 12) fun b hb => .lift ?_ fun _ _ => trivial
  exact .bind (idxByte_noPanic (by omega)) fun _ _ => .bind (idxByte_noPanic (by omega)) fun _ _ =>
    .bind (readLE_noPanic (by omega)) fun _ _ => Res.noPanic_ok _

theorem VolumeName.structured_tame : VolumeName.structured.Tame fun _ => True := by
  intro σ I re h p len
  exact .ite (fun _ => .fail _) fun _ => .bind (h _) fun b hb => .pure trivial

theorem ObjectId.structured_tame : ObjectId.structured.Tame fun _ => True := by
  intro σ I re h p len
  have hg : StM.Tame I (ObjectId.readGuid re) fun _ => True := by
    refine .bind (h 16) fun b hb => .lift ?_ fun _ _ => trivial
    exact .bind (readLE_noPanic (by omega)) fun _ _ => .bind (readLE_noPanic (by omega)) fun _ _ =>
      .bind (readLE_noPanic (by omega)) fun _ _ => .bind (idxRange_noPanic (by omega) (by omega)) fun _ _ =>
      Res.noPanic_ok _
  have hi : ∀ c, StM.Tame I (ObjectId.readGuidIf re c) fun _ => True := fun c =>
    .ite (fun _ => .bind hg fun _ _ => .pure trivial) fun _ => .pure trivial
  exact .ite (fun _ => .fail _) fun _ => .bind hg fun _ _ => .bind (hi _) fun _ _ => .bind (hi _) fun _ _ =>
    .bind (hi _) fun _ _ => .pure trivial

theorem Structured.ofValue_tame {α : Type} {S : Structured α} {Q : α → Prop} (hS : S.Tame Q) {n : Vol}
    (H : n.Harmless) {v : Val} (hv : v.Tame n) : StM.Tame (Dev.Has n.img) (S.ofValue v) Q := by
  intro d hd
  have h := hS _ _ _ (Val.readExactAttached_tame H) v.dataPosition v.len (v, d) ⟨hv, hd⟩
  exact ⟨h.noPanic, h.keeps.2, h.val⟩

theorem Structured.ofResident_tame {α : Type} {S : Structured α} {Q : α → Prop} (hS : S.Tame Q) (v : ResVal) :
    (S.ofResident v).NoPanic ∧ ∀ x, S.ofResident v = .ok x → Q x := by
  have h := hS _ _ _ cursorReadExact_tame v.dataPosition v.len v.data trivial
  exact ⟨h.noPanic, h.val⟩

theorem Attr.structuredValue_tame {α : Type} {S : Structured α} {Q : α → Prop} (hS : S.Tame Q) {n : Vol}
    (H : n.Harmless) {a : Attr} (ha : a.Tame n) : StM.Tame (Dev.Has n.img) (a.structuredValue S) Q :=
  .bind (Q := fun _ => True) (.lift (ha.ensureTy _) fun _ _ => trivial) fun _ _ =>
    .bind (Attr.value_tame H ha) fun _ hv => Structured.ofValue_tame hS H hv

/-- The resident value of an attribute of a harmless volume. -/
theorem Attr.Tame.residentValue {n : Vol} {a : Attr} (h : a.Tame n) (hr : a.isResident = .ok true) :
    a.residentValue.NoPanic ∧ field a.recordData (a.offset + 8) 1 = 0 ∧
      ∀ v, a.residentValue = .ok v → v.data = residentBytes a.recordData a.offset := by
  rw [h.isResident] at hr
  have h0 : field a.recordData (a.offset + 8) 1 = 0 := by simpa using hr
  have e := Attr.residentValue_eq h.valid.header h0 (h.attrOk.resident h0) _ _ _ rfl rfl rfl h.valid.inside
  rw [e]
  refine ⟨.ite (fun _ => Res.noPanic_err _) fun _ => .ite (fun _ => Res.noPanic_err _) fun _ => Res.noPanic_ok _,
    h0, fun v hv => ?_⟩
  split at hv
  · cases hv
  split at hv
  · cases hv
  cases hv
  rfl

theorem Attr.residentStructuredValue_tame {α : Type} {S : Structured α} {Q : α → Prop} (hS : S.Tame Q) {n : Vol}
    {a : Attr} (ha : a.Tame n) :
    (a.residentStructuredValue S).NoPanic ∧ ∀ x, a.residentStructuredValue S = .ok x → Q x := by
  unfold Attr.residentStructuredValue
  rw [show a.isResident = _ from ha.isResident]
  cases hb : field a.recordData (a.offset + 8) 1 == 0 with
  | true =>
    have hr := ha.residentValue (by rw [ha.isResident, hb])
    refine ⟨.bind (ha.ensureTy _) fun _ _ => .bind (Res.noPanic_ok _) fun b hb => .ite (fun _ => .bind hr.1
      fun v _ => (Structured.ofResident_tame hS v).1) fun _ => Res.noPanic_err _, fun x hx => ?_⟩
    obtain ⟨_, _, hx⟩ := Res.bind_eq_ok.mp hx
    obtain ⟨b, hb, hx⟩ := Res.bind_eq_ok.mp hx
    cases hb
    obtain ⟨v, _, hx⟩ := Res.bind_eq_ok.mp hx
    exact (Structured.ofResident_tame hS v).2 x hx
  | false =>
    refine ⟨.bind (ha.ensureTy _) fun _ _ => Res.noPanic_err _, fun x hx => ?_⟩
    obtain ⟨_, _, hx⟩ := Res.bind_eq_ok.mp hx
    cases hx

/-! ### Lookups -/

theorem Attrs.search_tame {α : Type} {n : Vol} (H : n.Harmless) {pick : AttrItem → Attr → StM Dev (Option α)}
    {Q : α → Prop} (hp : ∀ i, i.Tame n → StM.Tame (Dev.Has n.img) (pick i i.theAttr) fun o => ∀ x, o = some x → Q x)
    (fuel : Nat) :
    StM.Tame (With (Attrs.Tame n) n.img) (Attrs.search pick fuel) fun o => ∀ x, o = some x → Q x := by
  induction fuel with
  | zero => exact fun s hs => .diverge hs
  | succ fuel ih =>
    unfold Attrs.search
    refine .bind (Attrs.next_tame H) fun o ho => ?_
    cases o with
    | none => exact .pure fun x e => (nomatch e)
    | some i =>
      have hi := ho i rfl
      refine .bind (Q := fun a => a = i.theAttr) (.lift ?_ ?_) fun a ha => ?_
      · rw [hi.toAttribute]; exact Res.noPanic_ok _
      · intro a ha
        rw [hi.toAttribute] at ha
        cases ha
        rfl
      subst ha
      refine .bind (Q := fun o => ∀ x, o = some x → Q x) ?_ fun o ho => ?_
      · rintro ⟨it, d⟩ ⟨hit, hd⟩
        have h := hp i hi d hd
        exact ⟨h.noPanic, ⟨hit, h.keeps⟩, h.val⟩
      · cases o with
        | none => exact ih
        | some x => exact .pure ho

theorem NFile.search_tame {α : Type} {n : Vol} (H : n.Harmless) {f : NFile} (hf : f.Tame n)
    {pick : AttrItem → Attr → StM Dev (Option α)} {Q : α → Prop}
    (hp : ∀ i, i.Tame n → StM.Tame (Dev.Has n.img) (pick i i.theAttr) fun o => ∀ x, o = some x → Q x) (fuel : Nat) :
    StM.Tame (Dev.Has n.img) (f.search pick fuel) fun o => ∀ x, o = some x → Q x := by
  intro d hd
  unfold NFile.search
  have h := NFile.attributes_tame hf
  generalize f.attributes = r at h
  cases r with
  | ok it =>
    have h := Attrs.search_tame H hp fuel (it, d) ⟨h.2 it rfl, hd⟩
    exact ⟨h.noPanic, h.keeps.2, h.val⟩
  | err e => exact .err hd
  | panic p => exact absurd rfl (h.1 p)
  | diverge => exact .diverge hd

theorem upcaseCmpLoop_noPanic {t : List Nat} (ht : t.length = 65536) (a b : List Nat) (ha : ∀ x ∈ a, x < U16)
    (hb : ∀ x ∈ b, x < U16) : (upcaseCmpLoop t a b).NoPanic := by
  induction a generalizing b with
  | nil => cases b <;> exact Res.noPanic_ok _
  | cons x a ih =>
    cases b with
    | nil => exact Res.noPanic_ok _
    | cons y b =>
      have hu : ∀ x, x < U16 → (u16ToUppercase t x).NoPanic := by
        intro x hx
        unfold u16ToUppercase
        rw [List.getElem?_eq_getElem (by omega)]
        exact Res.noPanic_ok _
      exact .bind (hu x (ha x List.mem_cons_self)) fun _ _ => .bind (hu y (hb y List.mem_cons_self)) fun _ _ =>
        .ite (fun _ => Res.noPanic_ok _) fun _ =>
        ih b (fun x hx => ha x (List.mem_cons_of_mem _ hx)) fun x hx => hb x (List.mem_cons_of_mem _ hx)

theorem upcaseCmp_noPanic {n m : Ntfs} (hm : n.Like m) (hl : m.upcaseTable ≠ none) {a b : List Nat}
    (ha : ∀ x ∈ a, x < U16) (hb : ∀ x ∈ b, x < U16) : (upcaseCmp m a b).NoPanic := by
  unfold upcaseCmp Ntfs.upcase
  cases ht : m.upcaseTable with
  | none => exact absurd ht hl
  | some t => exact upcaseCmpLoop_noPanic (hm.table t ht) a b ha hb

/-- What `NtfsFile::data` asks of its caller: for a name that is not empty, the upcase table has been read. The
code units of a name are 16-bit numbers. -/
def Spec.MayAsk (m : Ntfs) (asked : List Nat) : Prop :=
  (asked ≠ [] → m.upcaseTable ≠ none) ∧ ∀ x ∈ asked, x < 65536

theorem NFile.dataItem_tame {n : Vol} (H : n.Harmless) {f : NFile} (hf : f.Tame n) {asked : List Nat}
    (ha : MayAsk f.ntfs asked) (fuel : Nat) :
    StM.Tame (Dev.Has n.img) (f.dataItem asked fuel) fun o => ∀ i, o = some i → i.Tame n := by
  refine NFile.search_tame H hf (fun i hi => .lift ?_ ?_) fuel
  · refine .bind hi.ty fun _ _ => .ite (fun _ => Res.noPanic_ok _) fun _ => .bind hi.name fun nm _ => .bind ?_ fun _ _ =>
      .ite (fun _ => Res.noPanic_ok _) fun _ => Res.noPanic_ok _
    unfold streamNameEqual
    refine .ite (fun _ => Res.noPanic_ok _) fun h => .bind ?_ fun _ _ => Res.noPanic_ok _
    exact upcaseCmp_noPanic hf.ntfs (ha.1 h) (u16s_lt nm) ha.2
  · intro o ho x hx
    subst hx
    obtain ⟨t, _, ho⟩ := Res.bind_eq_ok.mp ho
    split at ho
    · cases ho
    obtain ⟨nm, _, ho⟩ := Res.bind_eq_ok.mp ho
    obtain ⟨b, _, ho⟩ := Res.bind_eq_ok.mp ho
    split at ho
    · cases ho; exact hi
    · cases ho

theorem NFile.findAttribute_tame {n : Vol} (H : n.Harmless) {f : NFile} (hf : f.Tame n) (ty : AttrType)
    (name : Option (List Nat)) (fuel : Nat) :
    StM.Tame (Dev.Has n.img) (f.findAttribute ty name fuel) fun i => i.Tame n := by
  unfold NFile.findAttribute
  refine .bind (NFile.search_tame (Q := fun i => i.Tame n) H hf (fun i hi => .lift ?_ ?_) fuel) fun o ho => ?_
  · refine .bind hi.ty fun _ _ => .ite (fun _ => Res.noPanic_ok _) fun _ => .bind ?_ fun _ _ =>
      .ite (fun _ => Res.noPanic_ok _) fun _ => Res.noPanic_ok _
    cases name with
    | none => exact Res.noPanic_ok _
    | some s => exact .bind hi.name fun _ _ => Res.noPanic_ok _
  · intro o ho x hx
    subst hx
    obtain ⟨t, _, ho⟩ := Res.bind_eq_ok.mp ho
    split at ho
    · cases ho
    obtain ⟨b, _, ho⟩ := Res.bind_eq_ok.mp ho
    split at ho
    · cases ho; exact hi
    · cases ho
  · cases o with
    | none => exact .fail _
    | some i => exact .pure (ho i rfl)

theorem FileName.matches_noPanic {f : FileName} (h : f.Tame) (ns : Option Namespace) (parent : Option Nat) :
    (f.matches ns parent).NoPanic := by
  unfold FileName.matches
  refine .bind ?_ fun _ _ => .ite (fun _ => Res.noPanic_ok _) fun _ => ?_
  · cases ns with
    | none => exact Res.noPanic_ok _
    | some x => exact .bind h.namespace' fun _ _ => Res.noPanic_ok _
  · cases parent <;> exact Res.noPanic_ok _

theorem NFile.fileName_tame {n : Vol} (H : n.Harmless) {f : NFile} (hf : f.Tame n) (ns : Option Namespace)
    (parent : Option Nat) (fuel : Nat) :
    StM.Tame (Dev.Has n.img) (f.fileName ns parent fuel) fun o => ∀ x, o = some x → x.Tame := by
  refine NFile.search_tame H hf (fun i hi => ?_) fuel
  unfold pickName
  refine .bind (Q := fun _ => True) (.lift hi.ty fun _ _ => trivial) fun t _ => .ite
    (fun _ => .pure fun x e => (nomatch e)) fun _ => .bind (Attr.structuredValue_tame FileName.structured_tame H hi)
    fun x hx => .bind (Q := fun _ => True) (.lift (FileName.matches_noPanic hx ns parent) fun _ _ => trivial)
    fun b _ => .ite (fun _ => .pure fun y e => by cases e; exact hx) fun _ => .pure fun x e => (nomatch e)

theorem NFile.findResidentStructured_tame {α : Type} {S : Structured α} {Q : α → Prop} (hS : S.Tame Q) {n : Vol}
    {f : NFile} (hf : f.Tame n) (name : Option (List Nat)) :
    (f.findResidentStructured S name).NoPanic ∧ ∀ x, f.findResidentStructured S name = .ok x → Q x := by
  have h := NFile.findResident_tame hf S.ty name none
  refine ⟨h.1.bind fun a ha => (Attr.residentStructuredValue_tame hS (h.2 a ha).1).1, fun x hx => ?_⟩
  obtain ⟨a, ha, hx⟩ := Res.bind_eq_ok.mp hx
  exact (Attr.residentStructuredValue_tame hS (h.2 a ha).1).2 x hx

theorem Ntfs.volumeInfo_tame {n : Vol} {m : Ntfs} (H : n.Harmless) (hm : n.ntfs.Like m) :
    StM.Tame (Dev.Has n.img) m.volumeInfo fun _ => True :=
  .bind (Ntfs.file_tame H hm 3) fun _ hf =>
    .lift (NFile.findResidentStructured_tame VolumeInfo.structured_tame hf.1 none).1 fun _ _ => trivial

theorem Ntfs.volumeName_tame {n : Vol} {m : Ntfs} (H : n.Harmless) (hm : n.ntfs.Like m) :
    StM.Tame (Dev.Has n.img) m.volumeName fun _ => True := by
  unfold Ntfs.volumeName
  refine .bind (Ntfs.file_tame H hm 3) fun f hf => ?_
  have h := (NFile.findResidentStructured_tame VolumeName.structured_tame hf.1 none).1
  generalize f.findResidentStructured VolumeName.structured none = r at h
  split
  · exact .pure trivial
  · exact .pure trivial
  · exact .fail _
  · exact absurd rfl (h _)
  · exact fun s hs => .diverge hs

theorem Val.readInto_tame {n : Vol} (H : n.Harmless) {v : Val} (hv : v.Tame n) (k : Nat) :
    StM.Tame (Dev.Has n.img) (v.readInto k) fun b => b.length = k := by
  intro d hd
  unfold Val.readInto
  obtain ⟨h1, h2, h3⟩ := Val.readExact_tame H hv (List.replicate k 0) hd
  generalize v.readExact (List.replicate k 0) d = q at h1 h2 h3
  obtain ⟨x, s, b⟩ := q
  cases x with
  | ok u => exact .ok h2.2 (by rw [← List.length_replicate (n := k) (a := (0 : UInt8))]; exact h3)
  | err e => exact .err h2.2
  | panic p => exact absurd rfl (h1 p)
  | diverge => exact .diverge h2.2

theorem u16s_length (b : Bytes) : (u16s b).length = b.length / 2 := by
  fun_induction u16s b with
  | case1 a b rest ih => rw [List.length_cons, ih, List.length_cons, List.length_cons]; omega
  | case2 l h =>
    match l, h with
    | [], _ => rfl
    | [x], _ => simp
    | x :: y :: l, h => exact absurd rfl (h x y l)

theorem Ntfs.readUpcaseTable_tame {n : Vol} {m : Ntfs} (H : n.Harmless) (hm : n.ntfs.Like m) (fuel : Nat) :
    StM.Tame (Dev.Has n.img) (m.readUpcaseTable fuel) fun m' => n.ntfs.Like m' := by
  have ht : StM.Tame (Dev.Has n.img) (m.readTable fuel) fun t => t.length = 65536 := by
    unfold Ntfs.readTable
    refine .bind (Ntfs.file_tame H hm 10) fun f hf => .bind (NFile.dataItem_tame H hf.1
      ⟨fun h => absurd rfl h, fun x hx => (nomatch hx)⟩ fuel) fun o ho => ?_
    cases o with
    | none => exact .fail _
    | some i =>
      have hi := ho i rfl
      refine .bind (Q := fun a => a.Tame n) (.lift ?_ ?_) fun a ha => .bind (Q := fun _ => True)
        (.lift ha.simpleValue_noPanic.2 fun _ _ => trivial) fun _ _ => .ite (fun _ => .fail _) fun _ =>
        .bind (Attr.value_tame H ha) fun v hv => .bind (Val.readInto_tame H hv _) fun b hb => .pure ?_
      · rw [hi.toAttribute]; exact Res.noPanic_ok _
      · intro a ha
        rw [hi.toAttribute] at ha
        cases ha
        exact hi
      · rw [u16s_length, hb]
  refine .bind ht fun t ht => .pure ⟨?_, fun t' e => by cases e; exact ht⟩
  rw [hm.same]

end NT
