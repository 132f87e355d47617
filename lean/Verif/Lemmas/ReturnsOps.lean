import Verif.Lemmas.ReturnsFile

/-! Continuation of `Verif/Lemmas/ReturnsFile.lean`: structured values, lookups and the nodes of an index. -/

namespace NT

open Spec

/-! ### Structured values -/

/-- Reading the structured value comes back, whatever the reader. -/
def Structured.Comes {α : Type} (S : Structured α) : Prop :=
  ∀ {σ : Type} (P : σ → Prop) (re : Nat → StM σ Bytes), (∀ n, (re n).Keeps P) → ∀ p l, (S.new re p l).Keeps P

theorem StM.Keeps.fail {σ α : Type} {P : σ → Prop} {e : Err} (h : e ≠ .io .interrupted) :
    StM.Keeps P (StM.fail e : StM σ α) := .lift (.err _) (.err h)

theorem StM.Keeps.ite {σ α : Type} {P : σ → Prop} {c : Prop} [Decidable c] {p q : StM σ α} (hp : p.Keeps P)
    (hq : q.Keeps P) : StM.Keeps P (if c then p else q) := by
  split
  · exact hp
  · exact hq

/-- A pure part of a decoder: it comes back and is no `Interrupted`. -/
def Res.Fine {α : Type} (x : Res α) : Prop := x.Returns ∧ x.Quiet

namespace Res.Fine

theorem ok {α : Type} (a : α) : Res.Fine (.ok a) := ⟨.ok _, .ok _⟩

theorem err {α : Type} {e : Err} (h : e ≠ .io .interrupted) : Res.Fine (.err e : Res α) := ⟨.err _, .err h⟩

theorem bind {α β : Type} {x : Res α} {f : α → Res β} (hx : x.Fine) (hf : ∀ a, (f a).Fine) : (x >>= f).Fine :=
  ⟨.bind hx.1 fun a _ => (hf a).1, .bind hx.2 fun a => (hf a).2⟩

theorem ite {α : Type} {c : Prop} [Decidable c] {x y : Res α} (hx : x.Fine) (hy : y.Fine) :
    (if c then x else y).Fine := by
  split
  · exact hx
  · exact hy

end Res.Fine

theorem StM.Keeps.fine {σ α : Type} {P : σ → Prop} {x : Res α} (h : x.Fine) :
    StM.Keeps P (StM.lift x : StM σ α) := .lift h.1 h.2

theorem readLE_fine (n : Nat) (d : Bytes) (a : Nat) : (readLE n d a).Fine := ⟨readLE_returns _ _ _, readLE_quiet _ _ _⟩
theorem idxByte_fine (d : Bytes) (a : Nat) : (idxByte d a).Fine := ⟨idxByte_returns _ _, idxByte_quiet _ _⟩
theorem idxRange_fine (d : Bytes) (a b : Nat) : (idxRange d a b).Fine := ⟨idxRange_returns _ _ _, idxRange_quiet _ _ _⟩

theorem StdInfo.structured_comes : StdInfo.structured.Comes := by
  intro σ P re h p l
  refine .ite (.fail (fun h => by cases h)) (.bind (h _) fun b => .bind (.fine ?_) fun i => .ite (.bind (h _) fun c =>
    .bind (.fine ?_) fun x => .pure _) (.pure _))
  · exact .bind (readLE_fine _ _ _) fun _ => .bind (readLE_fine _ _ _) fun _ => .bind (readLE_fine _ _ _) fun _ =>
      .bind (readLE_fine _ _ _) fun _ => .bind (readLE_fine _ _ _) fun _ => .ok _
  · exact .bind (readLE_fine _ _ _) fun _ => .bind (readLE_fine _ _ _) fun _ => .bind (readLE_fine _ _ _) fun _ =>
      .bind (readLE_fine _ _ _) fun _ => .bind (readLE_fine _ _ _) fun _ => .bind (readLE_fine _ _ _) fun _ =>
      .bind (readLE_fine _ _ _) fun _ => .ok _

theorem FileName.new_keeps {σ : Type} {P : σ → Prop} {re : Nat → StM σ Bytes} (h : ∀ n, (re n).Keeps P) (p : Pos)
    (l : Nat) : (FileName.new re p l).Keeps P := by
  refine .ite (.fail (fun h => by cases h)) (.bind (h _) fun b => .bind (.fine ?_) fun f => .bind (.fine ?_) fun _ =>
    .bind (.fine ?_) fun _ => .bind (h _) fun _ => .pure _)
  · exact .bind (idxRange_fine _ _ _) fun _ => .bind (readLE_fine _ _ _) fun _ => .bind (readLE_fine _ _ _) fun _ =>
      .bind (readLE_fine _ _ _) fun _ => .bind (readLE_fine _ _ _) fun _ => .bind (readLE_fine _ _ _) fun _ =>
      .bind (readLE_fine _ _ _) fun _ => .bind (readLE_fine _ _ _) fun _ => .bind (readLE_fine _ _ _) fun _ =>
      .bind (idxByte_fine _ _) fun _ => .bind (idxByte_fine _ _) fun _ => .ok _
  · exact .ite (.err (fun h => by cases h)) (.ok _)
  · unfold FileName.validateNamespace
    cases Namespace.ofCode f.namespaceCode with
    | none => exact .err (fun h => by cases h)
    | some x => exact .ok _

theorem FileName.structured_comes : FileName.structured.Comes := fun _ _ h p l => FileName.new_keeps h p l

theorem VolumeInfo.structured_comes : VolumeInfo.structured.Comes := by
  intro σ P re h p l
  exact .ite (.fail (fun h => by cases h)) (.bind (h _) fun b => .fine
    (.bind (idxByte_fine _ _) fun _ => .bind (idxByte_fine _ _) fun _ => .bind (readLE_fine _ _ _) fun _ => .ok _))

theorem VolumeName.structured_comes : VolumeName.structured.Comes := by
  intro σ P re h p l
  exact .ite (.fail (fun h => by cases h)) (.bind (h _) fun b => .pure _)

theorem ObjectId.structured_comes : ObjectId.structured.Comes := by
  intro σ P re h p l
  have hg : (ObjectId.readGuid re).Keeps P := .bind (h _) fun b => .fine
    (.bind (readLE_fine _ _ _) fun _ => .bind (readLE_fine _ _ _) fun _ => .bind (readLE_fine _ _ _) fun _ =>
      .bind (idxRange_fine _ _ _) fun _ => .ok _)
  have hi : ∀ c, (ObjectId.readGuidIf re c).Keeps P := fun c => .ite (.bind hg fun _ => .pure _) (.pure _)
  exact .ite (.fail (fun h => by cases h)) (.bind hg fun _ => .bind (hi _) fun _ => .bind (hi _) fun _ =>
    .bind (hi _) fun _ => .pure _)

theorem cursor_keeps (n : Nat) : (cursorReadExact n).Keeps (fun _ => True) := by
  intro c _
  unfold cursorReadExact
  split
  · exact ⟨.ok _, .ok _, trivial⟩
  · exact ⟨.err _, .err (fun h => by cases h), trivial⟩

theorem FileName.keyFromSlice_returns (b : Bytes) (p : Pos) : (FileName.keyFromSlice b p).Returns :=
  (FileName.new_keeps cursor_keeps p b.length b trivial).1

theorem Attr.structuredValue_comes {α : Type} {S : Structured α} (hS : S.Comes) {a : Attr} (ha : a.Sane) :
    (a.structuredValue S).Comes := by
  refine .bind (.lift (a.ensureTy_returns _)) fun _ _ _ _ => .bind (a.value_comes ha).1 fun v d d' h => fun d => ?_
  exact (hS _ _ Val.readExactAttached_keeps v.dataPosition v.len (v, d) ((a.value_comes ha).2 _ v _ h)).1

theorem Attr.residentStructuredValue_returns {α : Type} {S : Structured α} (hS : S.Comes) (a : Attr) :
    (a.residentStructuredValue S).Returns :=
  .bind (a.ensureTy_returns _) fun _ _ => .bind a.isResident_returns fun _ _ =>
    .ite (.bind a.residentValue_returns fun v _ => (hS _ _ cursor_keeps v.dataPosition v.len v.data trivial).1) (.err _)

/-! ### Lookups -/

theorem Attrs.search_returns {α : Type} {pick : AttrItem → Attr → StM Dev (Option α)}
    (hp : ∀ i a, a.Sane → (pick i a).Comes) (fuel : Nat) (it : Attrs) (d : Dev) (hs : it.Sane) (hf : it.left < fuel) :
    (Attrs.search pick fuel (it, d)).1.Returns := by
  induction fuel generalizing it d with
  | zero => omega
  | succ fuel ih =>
    unfold Attrs.search
    rw [StM.bind_apply]
    have h := Attrs.next_returns hs d
    generalize Attrs.next (it, d) = q at h
    obtain ⟨x, it1, d1⟩ := q
    obtain ⟨h1, h2, h3, _, h4⟩ := h
    cases x with
    | ok o =>
      cases o with
      | none => exact .ok _
      | some item =>
        obtain ⟨g1, g2⟩ := h4 item rfl
        dsimp only at g2 ⊢
        rw [StM.bind_apply, StM.lift_apply]
        have g := AttrItem.toAttribute_returns g1
        cases ht : item.toAttribute with
        | ok a =>
          dsimp only
          have k := hp item a (g.2 a ht) d1
          rw [StM.bind_apply]
          unfold StM.onDev
          dsimp only
          generalize pick item a d1 = q at k
          obtain ⟨x, d2⟩ := q
          cases x with
          | ok o =>
            cases o with
            | none => exact ih it1 d2 h2 (by omega)
            | some x => exact .ok _
          | err x => exact .err _
          | panic x => exact .panic _
          | diverge => exact absurd rfl k
        | err x => exact .err _
        | panic x => exact .panic _
        | diverge => exact absurd ht g.1
    | err x => exact .err _
    | panic x => exact .panic _
    | diverge => exact absurd rfl h1

/-- How many attributes a file can have at most, given the size of its record. -/
def attrBound (recordSize : Nat) : Nat := recordSize * (U64 + recordSize + 1) + 1

theorem NFile.attributes_returns (f : NFile) : f.attributes.Returns :=
  .bind f.attributesRaw_returns fun _ _ => .ok _

theorem NFile.search_comes {α : Type} (f : NFile) {pick : AttrItem → Attr → StM Dev (Option α)}
    (hp : ∀ i a, a.Sane → (pick i a).Comes) {fuel : Nat} (hf : attrBound f.recordData.length ≤ fuel) :
    (f.search pick fuel).Comes := by
  intro d
  unfold NFile.search
  have ha := f.attributes_returns
  cases h : f.attributes with
  | ok it =>
    obtain ⟨h1, h2, h3⟩ := NFile.attributes_sane h
    refine Attrs.search_returns hp fuel it d h1 (Nat.lt_of_lt_of_le ?_ hf)
    unfold Attrs.left attrBound
    rw [h2, h3]
    have : (f.recordData.length - it.raw.start) * (U64 + f.recordData.length + 1) ≤
        f.recordData.length * (U64 + f.recordData.length + 1) := Nat.mul_le_mul_right _ (Nat.sub_le _ _)
    omega
  | err x => exact .err _
  | panic x => exact .panic _
  | diverge => exact absurd h ha

theorem Attr.nameMatches_returns (a : Attr) (name : Option (List Nat)) : (a.nameMatches name).Returns := by
  unfold Attr.nameMatches
  cases name with
  | none => exact .ok _
  | some i => exact .bind a.name_returns fun _ _ => .ok _

theorem upcaseCmp_returns (n : Ntfs) (a b : List Nat) : (upcaseCmp n a b).Returns := by
  have hu : ∀ t c, (u16ToUppercase t c).Returns := by
    intro t c
    unfold u16ToUppercase
    cases t[c]? with
    | none => exact .panic _
    | some x => exact .ok _
  have hl : ∀ t a b, (upcaseCmpLoop t a b).Returns := by
    intro t a
    induction a with
    | nil => intro b; cases b <;> exact .ok _
    | cons x a ih =>
      intro b
      cases b with
      | nil => exact .ok _
      | cons y b => exact .bind (hu _ _) fun _ _ => .bind (hu _ _) fun _ _ => .ite (.ok _) (ih b)
  refine .bind ?_ fun t _ => hl t a b
  unfold Ntfs.upcase
  cases n.upcaseTable with
  | none => exact .panic _
  | some t => exact .ok _

theorem NFile.dataItem_comes (f : NFile) (asked : List Nat) {fuel : Nat} (hf : attrBound f.recordData.length ≤ fuel) :
    (f.dataItem asked fuel).Comes :=
  f.search_comes (fun _ a _ => .lift (.bind a.ty_returns fun _ _ => .ite (.ok _) (.bind a.name_returns fun _ _ =>
    .bind (.ite (.ok _) (.bind (upcaseCmp_returns _ _ _) fun _ _ => .ok _)) fun _ _ => .ite (.ok _) (.ok _)))) hf

theorem NFile.findAttribute_comes (f : NFile) (ty : AttrType) (name : Option (List Nat)) {fuel : Nat}
    (hf : attrBound f.recordData.length ≤ fuel) : (f.findAttribute ty name fuel).Comes := by
  refine .bind (f.search_comes (fun _ a _ => .lift (.bind a.ty_returns fun _ _ => .ite (.ok _)
    (.bind (a.nameMatches_returns _) fun _ _ => .ite (.ok _) (.ok _)))) hf) fun o _ _ _ => ?_
  cases o with
  | none => exact .fail _
  | some i => exact .pure _

theorem FileName.matches_returns (n : FileName) (ns : Option Namespace) (parent : Option Nat) :
    (n.matches ns parent).Returns := by
  unfold FileName.matches
  refine .bind ?_ fun _ _ => .ite (.ok _) ?_
  · cases ns with
    | none => exact .ok _
    | some x =>
      refine .bind ?_ fun _ _ => .ok _
      unfold FileName.namespace'
      cases Namespace.ofCode n.namespaceCode with
      | none => exact .panic _
      | some x => exact .ok _
  · cases parent with
    | none => exact .ok _
    | some p => exact .ok _

theorem NFile.fileName_comes (f : NFile) (ns : Option Namespace) (parent : Option Nat) {fuel : Nat}
    (hf : attrBound f.recordData.length ≤ fuel) : (f.fileName ns parent fuel).Comes :=
  f.search_comes (fun _ a ha => .bind (.lift a.ty_returns) fun _ _ _ _ => .ite (.pure _)
    (.bind (a.structuredValue_comes FileName.structured_comes ha) fun n _ _ _ =>
      .bind (.lift (n.matches_returns ns parent)) fun _ _ _ _ => .ite (.pure _) (.pure _))) hf

theorem NFile.findResidentStructured_returns {α : Type} {S : Structured α} (hS : S.Comes) (f : NFile)
    (name : Option (List Nat)) : (NFile.findResidentStructured S f name).Returns :=
  .bind (NFile.findResidentAttribute_returns _ _ _ _) fun a _ => a.residentStructuredValue_returns hS

theorem Ntfs.volumeName_comes (n : Ntfs) : n.volumeName.Comes := by
  refine .bind (Ntfs.file_fine _ _).comes fun f _ _ _ => ?_
  have h := NFile.findResidentStructured_returns VolumeName.structured_comes f none
  cases hs : NFile.findResidentStructured VolumeName.structured f none with
  | ok v => exact .pure _
  | err e => cases e <;> first | exact .pure _ | exact .fail _
  | panic p => exact .die _
  | diverge => exact absurd hs h

theorem Attr.valueLength_returns (a : Attr) : a.valueLength.Returns :=
  .bind a.isResident_returns fun _ _ => .ite (.bind a.assertResident_returns fun _ _ => readLE_returns _ _ _)
    a.nonResidentValueDataSize_returns

/-! ### What lookups find -/

theorem StM.bind_ok {σ α β : Type} {p : StM σ α} {f : α → StM σ β} {s s' : σ} {b : β}
    (h : (p >>= f) s = (.ok b, s')) : ∃ a s1, p s = (.ok a, s1) ∧ f a s1 = (.ok b, s') := by
  rw [StM.bind_apply] at h
  generalize p s = q at h
  obtain ⟨x, s1⟩ := q
  cases x with
  | ok a => exact ⟨a, s1, rfl, h⟩
  | err e => cases congrArg Prod.fst h
  | panic e => cases congrArg Prod.fst h
  | diverge => cases congrArg Prod.fst h

theorem Attrs.search_post {α : Type} {pick : AttrItem → Attr → StM Dev (Option α)} {Q : α → Prop}
    (hp : ∀ i a d x d', i.Sane → pick i a d = (.ok (some x), d') → Q x) (fuel : Nat) (it : Attrs) (d : Dev)
    (hs : it.Sane) {x : α} {s : Attrs × Dev} (h : Attrs.search pick fuel (it, d) = (.ok (some x), s)) : Q x := by
  induction fuel generalizing it d with
  | zero => cases congrArg Prod.fst h
  | succ fuel ih =>
    unfold Attrs.search at h
    obtain ⟨o, ⟨it1, d1⟩, h1, h⟩ := StM.bind_ok h
    have hn := Attrs.next_returns hs d
    rw [h1] at hn
    cases o with
    | none => cases congrArg Prod.fst h
    | some item =>
      obtain ⟨a, ⟨it2, d2⟩, h2, h⟩ := StM.bind_ok h
      obtain ⟨o, ⟨it3, d3⟩, h3, h⟩ := StM.bind_ok h
      have e2 : it2 = it1 := by
        rw [StM.lift_apply] at h2
        exact ((Prod.mk.inj (Prod.mk.inj h2).2).1).symm
      subst e2
      have e3 : it3 = it2 ∧ pick item a d2 = (.ok o, d3) := by
        unfold StM.onDev at h3
        dsimp only at h3
        generalize pick item a d2 = q at h3 ⊢
        obtain ⟨x, y⟩ := q
        cases h3
        exact ⟨rfl, rfl⟩
      obtain ⟨e3, e4⟩ := e3
      subst e3
      cases o with
      | none => exact ih it3 d3 hn.2.1 h
      | some y =>
        cases h
        exact hp _ _ _ _ _ (hn.2.2.2.2 item rfl).1 e4

theorem NFile.search_post {α : Type} (f : NFile) {pick : AttrItem → Attr → StM Dev (Option α)} {Q : α → Prop}
    (hp : ∀ i a d x d', i.Sane → pick i a d = (.ok (some x), d') → Q x) {fuel : Nat} {d d' : Dev} {x : α}
    (h : f.search pick fuel d = (.ok (some x), d')) : Q x := by
  unfold NFile.search at h
  cases ha : f.attributes with
  | ok it =>
    rw [ha] at h
    dsimp only at h
    generalize hq : Attrs.search pick fuel (it, d) = q at h
    obtain ⟨r, s⟩ := q
    cases h
    exact Attrs.search_post hp fuel it d (NFile.attributes_sane ha).1 hq
  | err e => rw [ha] at h; cases congrArg Prod.fst h
  | panic e => rw [ha] at h; cases congrArg Prod.fst h
  | diverge => rw [ha] at h; cases congrArg Prod.fst h

theorem pickData_item {n : Ntfs} {asked : List Nat} {i j : AttrItem} {a : Attr}
    (h : pickData n asked i a = .ok (some j)) : j = i := by
  unfold pickData at h
  obtain ⟨t, _, h⟩ := Res.bind_eq_ok.1 h
  split at h
  · cases h
  · obtain ⟨x, _, h⟩ := Res.bind_eq_ok.1 h
    obtain ⟨y, _, h⟩ := Res.bind_eq_ok.1 h
    split at h
    · cases h
      rfl
    · cases h

theorem pickAttribute_item {ty : AttrType} {name : Option (List Nat)} {i j : AttrItem} {a : Attr}
    (h : pickAttribute ty name i a = .ok (some j)) : j = i := by
  unfold pickAttribute at h
  obtain ⟨t, _, h⟩ := Res.bind_eq_ok.1 h
  split at h
  · cases h
  · obtain ⟨x, _, h⟩ := Res.bind_eq_ok.1 h
    split at h
    · cases h
      rfl
    · cases h

theorem NFile.dataItem_sane {f : NFile} {asked : List Nat} {fuel : Nat} {d d' : Dev} {i : AttrItem}
    (h : f.dataItem asked fuel d = (.ok (some i), d')) : i.Sane := by
  refine f.search_post (Q := AttrItem.Sane) ?_ h
  intro i a d x d' hi h
  rw [pickData_item (congrArg Prod.fst h)]
  exact hi

theorem NFile.findAttribute_sane {f : NFile} {ty : AttrType} {name : Option (List Nat)} {fuel : Nat} {d d' : Dev}
    {i : AttrItem} (h : f.findAttribute ty name fuel d = (.ok i, d')) : i.Sane := by
  obtain ⟨o, d1, h1, h⟩ := StM.bind_ok h
  cases o with
  | none => cases congrArg Prod.fst h
  | some j =>
    cases h
    refine f.search_post (Q := AttrItem.Sane) ?_ h1
    intro i a d x d' hi h
    rw [pickAttribute_item (congrArg Prod.fst h)]
    exact hi

theorem Ntfs.readTable_comes (n : Ntfs) {fuel : Nat} (hf : attrBound n.fileRecordSize ≤ fuel) :
    (n.readTable fuel).Comes := by
  refine .bind (Ntfs.file_fine _ _).comes fun f d d' h => ?_
  refine .bind (f.dataItem_comes [] ?_) fun o d d' h => ?_
  · rw [Ntfs.file_size h]
    exact hf
  · cases o with
    | none => exact .fail _
    | some i =>
      have hi := AttrItem.toAttribute_returns (NFile.dataItem_sane h)
      refine .bind (.lift hi.1) fun a d d' ha => .bind (.lift a.valueLength_returns) fun _ _ _ _ => .ite (.fail _)
        (.bind (a.value_comes (hi.2 a (congrArg Prod.fst ha))).1 fun v d d' hv =>
          .bind (Val.readInto_comes ((a.value_comes (hi.2 a (congrArg Prod.fst ha))).2 _ _ _ hv) _) fun _ _ _ _ => .pure _)

theorem Ntfs.readUpcaseTable_comes (n : Ntfs) {fuel : Nat} (hf : attrBound n.fileRecordSize ≤ fuel) :
    (n.readUpcaseTable fuel).Comes := .bind (n.readTable_comes hf) fun _ _ _ _ => .pure _

/-! ### Indexes -/

theorem IEntry.length_returns (e : IEntry) : e.length.Returns := readLE_returns _ _ _

theorem IEntry.isLast_returns (e : IEntry) : e.isLast.Returns :=
  .bind (.bind (idxByte_returns _ _) fun _ _ => .ok _) fun _ _ => .ok _

theorem IEntry.new_returns (b : Bytes) (p : Pos) : (IEntry.new b p).Returns :=
  .bind (.ite (.err _) (.bind (readLE_returns _ _ _) fun _ _ => .ite (.err _) (.ok _))) fun _ _ =>
    .bind (readLE_returns _ _ _) fun _ _ => .bind (idxRange_returns _ _ _) fun _ _ => .ok _

theorem IEntry.subnodeVcn_returns (e : IEntry) : e.subnodeVcn.Returns :=
  .bind (.bind (.bind (idxByte_returns _ _) fun _ _ => .ok _) fun _ _ => .ok _) fun _ _ => .ite (.ok _)
    (.bind e.length_returns fun _ _ => .ite (.panic _) (.bind (.ofOption _ _) fun _ _ =>
      .bind (readLE_returns _ _ _) fun _ _ => .ok _))

theorem IEntry.key_returns {κ : Type} {k : Bytes → Pos → Res κ} (hk : ∀ b p, (k b p).Returns) (e : IEntry) :
    (e.key k).Returns :=
  .bind (readLE_returns _ _ _) fun _ _ => .ite (.ok _) (.bind e.isLast_returns fun _ _ => .ite (.ok _)
    (.bind (.ofOption _ _) fun _ _ => .bind (hk _ _) fun _ _ => .ok _))

theorem IEntry.data_returns {δ : Type} {k : Bytes → Pos → Res δ} (hk : ∀ b p, (k b p).Returns) (e : IEntry) :
    (e.data k).Returns :=
  .bind (readLE_returns _ _ _) fun _ _ => .ite (.ok _) (.bind (readLE_returns _ _ _) fun _ _ => .ite (.ok _)
    (.bind (.ofOption _ _) fun _ _ => .bind (hk _ _) fun _ _ => .ok _))

theorem IEntry.toFile_comes (e : IEntry) (n : Ntfs) : (e.toFile n).Comes :=
  .bind (.lift (.bind (idxRange_returns _ _ _) fun _ _ => .ok _)) fun _ _ _ _ => (Ntfs.file_fine _ _).comes

theorem EntryRange.toEntry_returns (r : EntryRange) (b : Bytes) : (r.toEntry b).Returns :=
  .bind (idxRange_returns _ _ _) fun _ _ => IEntry.new_returns _ _

theorem NodeRanges.next_returns (it : NodeRanges) : it.next.1.Returns := by
  have h : it.step.Returns := .bind (idxRange_returns _ _ _) fun _ _ => .bind (IEntry.new_returns _ _) fun e _ =>
    .bind e.length_returns fun _ _ => .bind e.isLast_returns fun _ _ => .ite (.ok _) (.ok _)
  unfold NodeRanges.next
  split
  · exact .ok _
  · cases hs : it.step with
    | ok q => exact .ok _
    | err x => exact .err _
    | panic p => exact .panic _
    | diverge => exact absurd hs h

theorem NodeEntries.next_returns (it : NodeEntries) : it.next.1.Returns := by
  have h : it.step.Returns := .bind (IEntry.new_returns _ _) fun e _ => .bind e.isLast_returns fun _ _ =>
    .ite (.ok _) (.bind e.length_returns fun _ _ => .bind (idxRange_returns _ _ _) fun _ _ => .ok _)
  unfold NodeEntries.next
  split
  · exact .ok _
  · cases hs : it.step with
    | ok q => exact .ok _
    | err x => exact .err _
    | panic p => exact .panic _
    | diverge => exact absurd hs h

theorem IndexEntries.inspect_returns (r : EntryRange) (b : Bytes) : (IndexEntries.inspect r b).Returns :=
  .bind (r.toEntry_returns _) fun e _ => .bind e.isLast_returns fun _ _ => .bind e.subnodeVcn_returns fun _ _ => .ok _

theorem Index.judge_returns {κ : Type} {k : Bytes → Pos → Res κ} (hk : ∀ b p, (k b p).Returns)
    {cmp : κ → Res Ordering} (hc : ∀ x, (cmp x).Returns) (e : IEntry) : (Index.judge k cmp e).Returns := by
  refine .bind (e.key_returns hk) fun o _ => ?_
  cases o with
  | none => exact .ok _
  | some x =>
    refine .bind (hc x) fun o _ => ?_
    cases o <;> exact .ok _

theorem IndexRecord.ofBytes_returns (b : Bytes) (p : Pos) : (IndexRecord.ofBytes b p).Returns :=
  .bind (.bind (idxRange_returns _ _ _) fun _ _ => .ite (.ok _) (.err _)) fun _ _ =>
    .bind (Record.fixup_returns _) fun _ _ => .bind (.bind (readLE_returns _ _ _) fun _ _ => .ite (.panic _)
      (.ite (.err _) (.bind (readLE_returns _ _ _) fun _ _ => .ite (.panic _) (.ite (.err _) (.ok _))))) fun _ _ => .ok _

theorem IndexRecord.new_comes {v : Val} (hv : v.Sane) (n : Nat) : (IndexRecord.new v n).Comes :=
  .bind (Val.readInto_comes hv n) fun _ _ _ _ => .lift (IndexRecord.ofBytes_returns _ _)

theorem NodeRanges.new_returns (b : Bytes) (x y : Nat) (p : Pos) : (NodeRanges.new b x y p).Returns :=
  .ite (.ok _) (.panic _)

theorem IndexRecord.entriesRange_returns (r : IndexRecord) : r.entriesRange.Returns :=
  .bind (readLE_returns _ _ _) fun _ _ => .bind (readLE_returns _ _ _) fun _ _ => .ok _

theorem IndexRecord.intoEntryRanges_returns (r : IndexRecord) : r.intoEntryRanges.Returns :=
  .bind r.entriesRange_returns fun _ _ => NodeRanges.new_returns _ _ _ _

theorem IndexRecord.entries_returns (r : IndexRecord) : r.entries.Returns :=
  .bind r.entriesRange_returns fun _ _ => .bind (idxRange_returns _ _ _) fun _ _ => .ok _

theorem IndexRecord.vcn_returns (r : IndexRecord) : r.vcn.Returns := .bind (readLE_returns _ _ _) fun _ _ => .ok _

theorem IndexRoot.entriesRange_returns (r : IndexRoot) : r.entriesRange.Returns :=
  .bind (readLE_returns _ _ _) fun _ _ => .bind (readLE_returns _ _ _) fun _ _ => .ok _

theorem IndexRoot.new_returns (b : Bytes) (p : Pos) : (IndexRoot.new b p).Returns :=
  .ite (.err _) (.bind (.bind (IndexRoot.entriesRange_returns _) fun _ _ => .ite (.err _) (.ite (.err _) (.ok _)))
    fun _ _ => .ok _)

theorem IndexRoot.entryRanges_returns (r : IndexRoot) : r.entryRanges.Returns :=
  .bind r.entriesRange_returns fun _ _ => .bind (idxRange_returns _ _ _) fun _ _ => NodeRanges.new_returns _ _ _ _

theorem IndexRoot.entries_returns (r : IndexRoot) : r.entries.Returns :=
  .bind r.entriesRange_returns fun _ _ => .bind (idxRange_returns _ _ _) fun _ _ => .ok _

theorem IndexRoot.isLarge_returns (r : IndexRoot) : r.isLarge.Returns := .bind (idxByte_returns _ _) fun _ _ => .ok _

theorem Attr.residentIndexRoot_returns (a : Attr) : a.residentIndexRoot.Returns :=
  .bind (a.ensureTy_returns _) fun _ _ => .bind a.isResident_returns fun _ _ =>
    .ite (.bind a.residentValue_returns fun _ _ => IndexRoot.new_returns _ _) (.err _)

theorem IndexRoot.ofValue_returns (v : Val) : (IndexRoot.ofValue v).Returns := by
  match v with
  | .simple (.res v) => exact IndexRoot.new_returns _ _
  | .simple (.nonRes v) => exact .err _
  | .list v => exact .err _

theorem Attr.indexRoot_comes {a : Attr} (ha : a.Sane) : a.indexRoot.Comes :=
  .bind (.lift (a.ensureTy_returns _)) fun _ _ _ _ => .bind (a.value_comes ha).1 fun v _ _ _ =>
    .lift (IndexRoot.ofValue_returns v)

theorem IndexAllocation.ofValue_returns (v : Val) : (IndexAllocation.ofValue v).Returns ∧
    ∀ x, IndexAllocation.ofValue v = .ok x → x.value = v := by
  match v with
  | .simple (.res v) => exact ⟨.err _, fun x h => by cases h⟩
  | .simple (.nonRes v) => exact ⟨.ok _, fun x h => by cases h; rfl⟩
  | .list v => exact ⟨.ok _, fun x h => by cases h; rfl⟩

theorem Attr.indexAllocation_comes {a : Attr} (ha : a.Sane) : a.indexAllocation.Comes ∧
    ∀ d x d', a.indexAllocation d = (.ok x, d') → x.value.Sane := by
  refine ⟨.bind (.lift (a.ensureTy_returns _)) fun _ _ _ _ => .bind (a.value_comes ha).1 fun _ _ _ _ =>
    .lift (IndexAllocation.ofValue_returns _).1, fun d x d' h => ?_⟩
  obtain ⟨_, d1, _, h⟩ := StM.bind_ok h
  obtain ⟨v, d2, hv, h⟩ := StM.bind_ok h
  rw [(IndexAllocation.ofValue_returns v).2 x (congrArg Prod.fst h)]
  exact (a.value_comes ha).2 _ _ _ hv

theorem IndexAllocation.seekTo_comes {v : Val} (hv : v.Sane) (pos : SeekFrom) :
    (IndexAllocation.seekTo v pos).Comes ∧
      ∀ d v' d', IndexAllocation.seekTo v pos d = (.ok v', d') → v'.Sane := by
  refine ⟨fun d => ?_, fun d v' d' h => ?_⟩
  all_goals
    have k := Val.seek_returns hv pos d
    unfold IndexAllocation.seekTo at *
    generalize v.seek pos d = q at *
    obtain ⟨x, v1, d1⟩ := q
    cases x
  · exact .ok _
  · exact .err _
  · exact .panic _
  · exact absurd rfl k.1
  · cases h
    exact k.2
  all_goals cases congrArg Prod.fst h

theorem Vcn.offset_returns (v : Int) (n : Nat) : (Vcn.offset v n).Returns := by
  unfold Vcn.offset
  split
  · exact .ok _
  · exact .err _

theorem IndexAllocation.recordFromVcn_comes {x : IndexAllocation} (hx : x.value.Sane) (n : Nat) (vcn : Int) :
    (x.recordFromVcn n vcn).Comes :=
  .bind (.lift (Vcn.offset_returns _ _)) fun _ _ _ _ => .bind (IndexAllocation.seekTo_comes hx _).1 fun _ _ _ h =>
    .ite (.fail _) (.bind (IndexRecord.new_comes ((IndexAllocation.seekTo_comes hx _).2 _ _ _ h) n) fun r _ _ _ =>
      .bind (.lift r.vcn_returns) fun _ _ _ _ => .ite (.fail _) (.pure _))

theorem IndexRecords.next_returns {it : IndexRecords} (h : it.allocation.value.Sane) (d : Dev) :
    (IndexRecords.next (it, d)).1.Returns ∧ (IndexRecords.next (it, d)).2.1.allocation.value.Sane := by
  unfold IndexRecords.next
  dsimp only
  split
  · exact ⟨.ok _, h⟩
  · have k := IndexRecord.new_comes h it.size d
    generalize IndexRecord.new it.allocation.value it.size d = q at k
    obtain ⟨x, d1⟩ := q
    cases x with
    | ok r =>
      dsimp only
      have k := Val.seek_returns h (.current it.size) d1
      generalize it.allocation.value.seek (.current it.size) d1 = q at k
      obtain ⟨x, v', d2⟩ := q
      cases x with
      | ok r => exact ⟨.ok _, k.2⟩
      | err e => exact ⟨.err _, k.2⟩
      | panic p => exact ⟨.panic _, k.2⟩
      | diverge => exact absurd rfl k.1
    | err e => exact ⟨.err _, h⟩
    | panic p => exact ⟨.panic _, h⟩
    | diverge => exact absurd rfl k

/-- What every index has. -/
def Index.Sane (ix : Index) : Prop :=
  (∀ i, ix.allocationItem = some i → i.Sane) ∧ ix.rootRanges.stop ≤ ix.rootRanges.data.length

theorem NodeRanges.new_stop {b : Bytes} {x y : Nat} {p : Pos} {r : NodeRanges} (h : NodeRanges.new b x y p = .ok r) :
    r.stop ≤ r.data.length := by
  unfold NodeRanges.new at h
  split at h
  · cases h
    assumption
  · cases h

theorem IndexRoot.entryRanges_stop {r : IndexRoot} {n : NodeRanges} (h : r.entryRanges = .ok n) :
    n.stop ≤ n.data.length := by
  obtain ⟨_, _, h⟩ := Res.bind_eq_ok.1 h
  obtain ⟨_, _, h⟩ := Res.bind_eq_ok.1 h
  exact NodeRanges.new_stop h

theorem Index.new_returns {r : AttrItem} {o : Option AttrItem} (hr : r.Sane) (ho : ∀ i, o = some i → i.Sane) :
    (Index.new r o).Returns ∧ ∀ ix, Index.new r o = .ok ix → ix.Sane := by
  constructor
  · refine .bind (AttrItem.toAttribute_returns hr).1 fun a _ => .bind (a.ensureTy_returns _) fun _ _ =>
      .bind a.residentIndexRoot_returns fun root _ => .bind ?_ fun _ _ => .bind (readLE_returns _ _ _) fun _ _ =>
      .bind root.entryRanges_returns fun _ _ => .ok _
    cases o with
    | none => exact .bind root.isLarge_returns fun _ _ => .ite (.err _) (.ok _)
    | some i => exact .bind (AttrItem.toAttribute_returns (ho i rfl)).1 fun a _ => a.ensureTy_returns _
  · intro ix h
    unfold Index.new at h
    simp only [Res.bind_eq_ok] at h
    obtain ⟨_, _, _, _, _, _, _, _, _, _, _, hr, h⟩ := h
    cases h
    exact ⟨ho, IndexRoot.entryRanges_stop hr⟩

theorem Index.subnode_comes {ix : Index} (h : ix.Sane) (vcn : Int) : (ix.subnode vcn).Comes := by
  unfold Index.subnode
  cases ho : ix.allocationItem with
  | none => exact fun d => .err _
  | some i =>
    have hi := AttrItem.toAttribute_returns (h.1 i ho)
    refine .bind (.lift (.ok _)) fun j _ _ hj => ?_
    cases hj
    exact .bind (.lift hi.1) fun a _ _ ha => .bind (Attr.indexAllocation_comes (hi.2 a (congrArg Prod.fst ha))).1
      fun x _ _ hx => .bind (IndexAllocation.recordFromVcn_comes
        ((Attr.indexAllocation_comes (hi.2 a (congrArg Prod.fst ha))).2 _ _ _ hx) _ _) fun r _ _ _ =>
        .lift r.intoEntryRanges_returns

theorem NFile.indexAllocationItem_sane {f : NFile} {root : IndexRoot} {fuel : Nat} {d d' : Dev} {o : Option AttrItem}
    (h : f.indexAllocationItem root fuel d = (.ok o, d')) : ∀ i, o = some i → i.Sane := by
  intro i hoi
  subst hoi
  obtain ⟨b, d1, _, h⟩ := StM.bind_ok h
  split at h
  · obtain ⟨j, d2, hj, h⟩ := StM.bind_ok h
    cases h
    exact NFile.findAttribute_sane hj
  · cases congrArg Prod.fst h

theorem NFile.directoryIndex_comes (f : NFile) {fuel : Nat} (hf : attrBound f.recordData.length ≤ fuel) :
    (f.directoryIndex fuel).Comes := by
  have hd : f.isDirectory.Returns := .bind (.bind (readLE_returns _ _ _) fun _ _ => .ok _) fun _ _ => .ok _
  have hi : ∀ root, (f.indexAllocationItem root fuel).Comes := fun root =>
    .bind (.lift root.isLarge_returns) fun _ _ _ _ => .ite (.bind (f.findAttribute_comes _ _ hf) fun _ _ _ _ => .pure _)
      (.pure _)
  exact .bind (.lift hd) fun _ _ _ _ => .ite (.fail _) (.bind (f.findAttribute_comes _ _ hf) fun r _ _ hr =>
    .bind (.lift (AttrItem.toAttribute_returns (NFile.findAttribute_sane hr)).1) fun a _ _ _ =>
    .bind (.lift a.residentIndexRoot_returns) fun root _ _ _ => .bind (hi root) fun o _ _ ho =>
    .lift (Index.new_returns (NFile.findAttribute_sane hr) (NFile.indexAllocationItem_sane ho)).1)

theorem NFile.directoryIndex_sane {f : NFile} {fuel : Nat} {d d' : Dev} {ix : Index}
    (h : f.directoryIndex fuel d = (.ok ix, d')) : ix.Sane := by
  obtain ⟨b, d1, _, h⟩ := StM.bind_ok h
  split at h
  · cases congrArg Prod.fst h
  · obtain ⟨r, d2, hr, h⟩ := StM.bind_ok h
    obtain ⟨a, d3, _, h⟩ := StM.bind_ok h
    obtain ⟨root, d4, _, h⟩ := StM.bind_ok h
    obtain ⟨o, d5, ho, h⟩ := StM.bind_ok h
    exact (Index.new_returns (NFile.findAttribute_sane hr) (NFile.indexAllocationItem_sane ho)).2 ix (congrArg Prod.fst h)

/-! ### Opening a volume -/

theorem Boot.recordSize_returns (b : Boot) (i : Int) : (b.recordSize i).Returns ∧
    ∀ n, b.recordSize i = .ok n → n < U32 := by
  have hs : b.sectorSize.Returns := .ite (.err _) (.ok _)
  have hp : b.sectorsPerCluster.Returns := .ite (.ite (.err _) (.ok _)) (.ite (.err _) (.ok _))
  have hc : b.clusterSize.Returns := .bind hp fun _ _ => .bind hs fun _ _ => .ite (.err _) (.ok _)
  refine ⟨.bind hc fun _ _ => .ite (.ite (.ok _) (.err _)) (.ite (.err _) (.ok _)), fun n h => ?_⟩
  obtain ⟨cs, _, h⟩ := Res.bind_eq_ok.1 h
  split at h
  · split at h
    · cases h
      assumption
    · cases h
  · dsimp only at h
    split at h
    · cases h
    · rename_i he
      simp only [Decidable.not_not] at he
      cases h
      have : i.natAbs = 10 ∨ i.natAbs = 11 ∨ i.natAbs = 12 := by omega
      rcases this with h | h | h <;> rw [h] <;> decide

theorem Ntfs.ofBoot_returns (b : Boot) : (Ntfs.ofBoot b).Returns ∧
    ∀ n, Ntfs.ofBoot b = .ok n → n.fileRecordSize < U32 := by
  have hs : b.sectorSize.Returns := .ite (.err _) (.ok _)
  have hp : b.sectorsPerCluster.Returns := .ite (.ite (.err _) (.ok _)) (.ite (.err _) (.ok _))
  have hc : b.clusterSize.Returns := .bind hp fun _ _ => .bind hs fun _ _ => .ite (.err _) (.ok _)
  refine ⟨.bind (.ite (.ok _) (.err _)) fun _ _ => .bind hc fun _ _ => .bind hs fun _ _ => .bind (.ofOption _ _)
    fun _ _ => .bind (b.recordSize_returns _).1 fun _ _ => .bind (.ite (.ok _) (.err _)) fun l _ => .bind ?_
    fun _ _ => .ok _, fun n h => ?_⟩
  · unfold Lcn.position
    split
    · exact .ok _
    · exact .err _
  · unfold Ntfs.ofBoot at h
    simp only [Res.bind_eq_ok] at h
    obtain ⟨_, _, _, _, _, _, _, _, x, hx, _, _, _, _, h⟩ := h
    cases h
    exact (b.recordSize_returns _).2 x hx

theorem Ntfs.new_comes : Ntfs.new.Comes ∧ ∀ d n d', Ntfs.new d = (.ok n, d') → n.fileRecordSize < U32 := by
  refine ⟨.bind (Dev.seekStart_fine _).comes fun _ _ _ _ => .bind (Dev.readExact_fine _).comes fun _ _ _ _ =>
    .lift (Ntfs.ofBoot_returns _).1, fun d n d' h => ?_⟩
  obtain ⟨_, d1, _, h⟩ := StM.bind_ok h
  obtain ⟨b, d2, _, h⟩ := StM.bind_ok h
  exact (Ntfs.ofBoot_returns _).2 n (congrArg Prod.fst h)

/-- More than any file has attributes. -/
theorem attrBound_le {n : Nat} (h : n < U32) : attrBound n ≤ 2 ^ 97 := by
  unfold attrBound
  have : n * (U64 + n + 1) ≤ U32 * (U64 + U32 + 1) := Nat.mul_le_mul (by omega) (by omega)
  have : U32 * (U64 + U32 + 1) + 1 ≤ 2 ^ 97 := by decide
  omega

end NT
